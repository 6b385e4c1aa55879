import Verif.Model.Container
/-! Specifications for the recently-used container and the pool manager (C29-C34). They look only at
the history of operations, never at the container's code. -/
namespace Bolt.Spec
variable {K V : Type} [DecidableEq K]

/-- What an unbounded map does to key `k` in one operation, `m` being the old value of `k`. -/
def mapEffect (op : RuOp K V) (k : K) (m : Option V) : Option V :=
  match op with
  | .setitem k' v => if k' = k then some v else m
  | .delitem k' => if k' = k then none else m
  | .clear => none
  | _ => m

/-- The value most recently set for `k` in the history and not deleted or cleared since. -/
def lastSet (ops : List (RuOp K V)) (k : K) : Option V :=
  ops.foldl (fun m op => mapEffect op k m) none

/-- Does the operation use key `k` (get or set; `in` is a get)? -/
def uses (k : K) : RuOp K V → Bool
  | .getitem k' | .get k' | .contains k' | .setitem k' _ => k' == k
  | _ => false

/-- How many operations ago `k` was last used (`some 0`: by the very last operation). -/
def age (ops : List (RuOp K V)) (k : K) : Option Nat := ops.reverse.findIdx? (uses k)

/-- `a`'s last use is before `b`'s. -/
def Older (ops : List (RuOp K V)) (a b : K) : Prop :=
  ∃ i j, age ops a = some i ∧ age ops b = some j ∧ j < i

/-- The values set in a history, in order. -/
def valuesSet (ops : List (RuOp K V)) : List V :=
  ops.filterMap fun | .setitem _ v => some v | _ => none

end Bolt.Spec
