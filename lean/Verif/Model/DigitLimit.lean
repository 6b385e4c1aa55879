import Verif.Model.Tracer
/-!
# Rpc ids and the interpreter's limit for decimal digits

`int(s)` and `str(i)` raise ValueError for numbers of more than 4300 digits (CPython 3.7.14, 3.8.14, 3.9.14, 3.10.7, 3.11 and
later; the limit can be set to any number from 640 on). The model Tracer has no such limit. Here the functions of
mytracer/_rpc_id.py that convert numbers are given with the limit as a parameter.

Simplification: the numbers of children are inputs (in _rpc_id.py:63-64 they come from a counter of the parent).
-/
namespace Bolt

/-- `int(s)` (_rpc_id.py:39) with at most `lim` digits; underscores, signs and blanks do not count. -/
def pyIntL (lim : Nat) (s : PyStr) : Option Int :=
  if lim < s.countP (fun c => (digitVal c).isSome) then none else pyInt s

/-- `str(i)` (_rpc_id.py:51) with at most `lim` digits, else ValueError; the sign does not count. -/
def intStrL (lim : Nat) (i : Int) : Except PyExc PyStr :=
  if lim < (natStr i.natAbs).length then .error .valueError else .ok (intStr i)

/-- `_innertrans` (_rpc_id.py:37-41): `int()` of an int is the int, whatever its size. -/
def Seg.transL (lim : Nat) : Seg → Seg
  | .int i => .int i
  | .str s => match pyIntL lim s with
    | some i => .int i
    | none => .str s

/-- `RpcId.__init__` (_rpc_id.py:27-45) -/
def rpcInitL (lim : Nat) (args : List Seg) : Except PyExc (List Seg) :=
  match args with
  | [] => .ok [.int 1]
  | _ =>
    let segs := args.map (Seg.transL lim)
    match segs.getLast? with
    | some (.int _) => .ok segs
    | _ => .error .typeError

/-- `str(seg)` (_rpc_id.py:51) -/
def Seg.toStrL (lim : Nat) : Seg → Except PyExc PyStr
  | .int i => intStrL lim i
  | .str s => .ok s

/-- `RpcId.__str__` (_rpc_id.py:50-51) -/
def rpcStrL (lim : Nat) (segs : List Seg) : Except PyExc PyStr := do
  let ws ← segs.mapM (Seg.toStrL lim)
  pure (pyJoin 46 ws)

/-- The rpc id of a context made from the text `s` (span_context.py:55-56). -/
def receivedL (lim : Nat) (s : PyStr) : Except PyExc (List Seg) := rpcInitL lim ((pySplit 46 s).map Seg.str)

/-- Ids derived one from the other: the child with number `k` (`some k`, _rpc_id.py:62-66) or the follow-up (`none`,
_rpc_id.py:68-74). -/
def deriveL (lim : Nat) : List Seg → List (Option Nat) → Except PyExc (List Seg)
  | segs, [] => .ok segs
  | segs, some k :: more => do
    let s ← rpcInitL lim (segs ++ [.int k])
    deriveL lim s more
  | segs, none :: more => do
    let l ← lastPlusOne segs
    let s ← rpcInitL lim (segs.dropLast ++ [l])
    deriveL lim s more

end Bolt
