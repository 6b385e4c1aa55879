import Verif.Model.Package
/-!
# The generator of request ids as an object (anthunder/helpers/request_id.py:28)

In `Model/Package.lean` the n-th id is an element of a list. Here are the iterators behind `RequestId`: two ranges, `chain`,
and `cycle` as itertools implements it: elements that come from the iterator are appended to a list, and when the iterator
is exhausted, the list is gone through again and again.
-/
namespace Bolt

/-- a `range` iterator: the next element and the end (anthunder/helpers/request_id.py:28) -/
structure RangeIt where
  next : Nat
  stop : Nat
  deriving DecidableEq, Repr

/-- `next(range_iterator)` (anthunder/helpers/request_id.py:28); `none` is StopIteration -/
def RangeIt.draw (r : RangeIt) : Option (Nat × RangeIt) :=
  if r.next < r.stop then some (r.next, { r with next := r.next + 1 }) else none

/-- `next(chain(a, b))` (anthunder/helpers/request_id.py:28): from the second when the first is exhausted -/
def chainDraw (a b : RangeIt) : Option (Nat × RangeIt × RangeIt) :=
  match a.draw with
  | some (x, a) => some (x, a, b)
  | none => match b.draw with
    | some (x, b) => some (x, a, b)
    | none => none

/-- `RequestId` (anthunder/helpers/request_id.py:28): the chained ranges until they are exhausted (`live`), the list that
`cycle` keeps, and the position in it. -/
structure IdGen where
  a : RangeIt
  b : RangeIt
  live : Bool := true
  saved : List Nat := []
  index : Nat := 0
  deriving DecidableEq, Repr

/-- `cycle(chain(range(_start, _max + 1), range(0, _start)))` (anthunder/helpers/request_id.py:26-28) -/
def IdGen.init (start : Nat) : IdGen := { a := ⟨start, maxRequestId + 1⟩, b := ⟨0, start⟩ }

/-- the part of `next(cycle)` that goes through the list (anthunder/helpers/request_id.py:28) -/
def IdGen.again (g : IdGen) : Option Nat × IdGen :=
  match g.saved[g.index]? with
  | none => (none, g)
  | some x => (some x, { g with index := if g.index + 1 < g.saved.length then g.index + 1 else 0 })

/-- `next(RequestId)` (anthunder/helpers/request_id.py:28); `none` is StopIteration -/
def IdGen.draw (g : IdGen) : Option Nat × IdGen :=
  if g.live then
    match chainDraw g.a g.b with
    | some (x, a, b) => (some x, { g with a := a, b := b, saved := g.saved ++ [x] })
    | none => IdGen.again { g with live := false }
  else g.again

/-- the generator after `n` draws (anthunder/helpers/request_id.py:28) -/
def IdGen.after (start : Nat) : Nat → IdGen
  | 0 => IdGen.init start
  | n + 1 => (IdGen.after start n).draw.2

end Bolt
