import Verif.Model.Struct
import Verif.Model.Tracer
/-!
# anthunder/protocol/_sofa_header.py and _rpc_trace_context.py
-/
namespace Bolt

/-- `_int2bytes_be` (anthunder/protocol/_sofa_header.py:31-32) -/
def int2bytesBe (i : Int) : Except PyExc Bytes :=
  match structPack [.i] [.int i] with
  | some b => .ok b
  | none => .error .structError

/-- `_bytes2int_be` (anthunder/protocol/_sofa_header.py:35-37) -/
def bytes2intBe (bs : Bytes) : Except PyExc Int :=
  match structUnpack [.i] bs with
  | some [.int i] => .ok i
  | _ => .error .structError

/-- `_str_to_bytes_with_len` (anthunder/protocol/_sofa_header.py:40-52) -/
def strToBytesWithLen (v : PyObj) : Except PyExc Bytes :=
  match v with
  | .str s =>
    match utf8Encode s with
    | none => .error .unicodeEncodeError
    | some b => do
      let l ← int2bytesBe b.length
      pure (l ++ b)
  | _ => .error .assertionError

/-- the loop of `_bytes_to_str` (anthunder/protocol/_sofa_header.py:66-86); the list is built front to back.
The body is guarded exactly as in the code: `len(b) < 4`, the `-1` null marker, other negative lengths,
`n > len(b)`, then UTF-8 decoding of `b[4:n]`. The first argument bounds the number of rounds (each round removes at
least four bytes, so `len(b)` rounds are always enough: `bytesToStr_eq`). -/
def bytesToStrF : Nat → Bytes → Except PyExc (List PyStr)
  | 0, _ => .ok []
  | fuel + 1, b =>
    if b.isEmpty then .ok []
    else if 4 > b.length then .error .decodeError
    else do
      let l0 ← bytes2intBe (b.take 4)
      let l := if l0 = -1 then 0 else l0
      if l < 0 then .error .decodeError
      else
        let n := 4 + l.toNat
        if n > b.length then .error .decodeError
        else match utf8Decode ((b.take n).drop 4) with
          | none => .error .unicodeDecodeError
          | some s => do
            let rest ← bytesToStrF fuel (b.drop n)
            pure (s :: rest)

/-- `_bytes_to_str` (anthunder/protocol/_sofa_header.py:55-86) -/
def bytesToStr (b : Bytes) : Except PyExc (List PyStr) := bytesToStrF b.length b

/-- A SofaHeader object: a dict whose values are (normally) strings.
Simplification: keys are strings (keyword arguments and decoded keys always are) (_sofa_header.py:89-95). -/
abbrev SofaHeader := PyDict PyStr PyObj

/-- `ss[::2]`, `ss[1::2]` (_sofa_header.py:100-101) -/
def evens {α : Type} : List α → List α
  | [] => []
  | [a] => [a]
  | a :: _ :: r => a :: evens r
/-- `ss[1::2]` (_sofa_header.py:101) -/
def odds {α : Type} : List α → List α
  | [] => []
  | [_] => []
  | _ :: b :: r => b :: odds r

/-- `SofaHeader.from_bytes` (anthunder/protocol/_sofa_header.py:97-104) -/
def headerFromBytes (b : Bytes) : Except PyExc (PyDict PyStr PyStr) := do
  let ss ← bytesToStr b
  let keys := evens ss
  let vals := odds ss
  if keys.length != vals.length then .error .decodeError
  else pure (PyDict.ofPairs (keys.zip vals))

/-- `SofaHeader.to_bytes` (anthunder/protocol/_sofa_header.py:106-110): items in order, key then value. The
`except AttributeError` never fires (non-strings fail the assert first). -/
def headerToBytes : SofaHeader → Except PyExc Bytes
  | [] => .ok []
  | (k, v) :: rest => do
    let a ← strToBytesWithLen (.str k)
    let b ← strToBytesWithLen v
    let c ← headerToBytes rest
    pure (a ++ b ++ c)

/-- `SofaHeader.__len__` (anthunder/protocol/_sofa_header.py:112-113) -/
def headerLen (h : SofaHeader) : Except PyExc Nat := do
  let b ← headerToBytes h
  pure b.length

/-- a decoded header (strings) as a header object (_sofa_header.py:104) -/
def strHeader (d : PyDict PyStr PyStr) : SofaHeader := d.map (fun kv => (kv.1, PyObj.str kv.2))

/-- Operations users can apply to a SofaHeader object. `setitem` is overridden to do nothing
(anthunder/protocol/_sofa_header.py:94-95); the other mutators are inherited from `dict` unchanged. -/
inductive HeaderMut where
  | setitem (k : PyStr) (v : PyObj)
  | update (kvs : List (PyStr × PyObj))
  | pop (k : PyStr)
  | clear
  deriving DecidableEq, Repr

/-- the header object after a call: `__setitem__` does nothing (_sofa_header.py:94-95), the other methods are those of
`dict`, which do not go through it -/
def HeaderMut.apply (h : SofaHeader) : HeaderMut → SofaHeader
  | .setitem _ _ => h
  | .update kvs => PyDict.update h kvs
  | .pop k => PyDict.erase h k
  | .clear => []

/-! ## RpcTraceContext (anthunder/protocol/_rpc_trace_context.py) -/

/-- `RpcTraceContext(**kwargs).expand()` (anthunder/protocol/_rpc_trace_context.py:32-37), with the attribute
semantics of Python: a key named `self` clashes with the constructor (TypeError), `__class__`/`__dict__` cannot be
set to such a value (TypeError), `__weakref__` is read-only (AttributeError; the first such key in dictionary order
raises); a key named `expand` hides the
method (TypeError on the call: a str, TraceId or RpcId is not callable); a key named `prefix` hides the class
attribute `prefix` (line 30), so that its value is used as the prefix (TypeError if not a str). -/
def rpcTraceExpand (h : Heap) (b : Baggage) : Except PyExc (PyDict PyStr PyStr) :=
  if PyDict.contains b (py "self") then .error .typeError
  else if let some kv := b.find? (fun kv => kv.1 ∈ [py "__class__", py "__dict__", py "__weakref__"]) then
    .error (if kv.1 = py "__weakref__" then .attributeError else .typeError)
  else if PyDict.contains b (py "expand") then .error .typeError
  else match PyDict.get? b (py "prefix") with
    | none => .ok (PyDict.ofPairs (b.map (fun kv => (py "rpc_trace_context." ++ kv.1, kv.2.toStr h))))
    | some (.str p) => .ok (PyDict.ofPairs (b.map (fun kv => (p ++ kv.1, kv.2.toStr h))))
    | some _ => .error .typeError

/-- The five keyword arguments `build_header` passes by name (anthunder/protocol/_sofa_header.py:134-138). -/
def namedHeader (interface method targetApp uid : PyObj) : SofaHeader :=
  [(py "sofa_head_target_service", interface), (py "sofa_head_method_name", method),
   (py "sofa_head_target_app", targetApp), (py "service", interface), (py "uid", uid)]

/-- `SofaHeader.build_header` (anthunder/protocol/_sofa_header.py:115-139). `extra` is `**sofa_headers_extra`
(keyword arguments, so unique string keys). A key of kwargs that is also passed by name is a TypeError. -/
def buildHeader (h : Heap) (b : Baggage) (interface method targetApp uid : PyObj)
    (extra : PyDict PyStr PyObj) : Except PyExc SofaHeader := do
  let expanded ← rpcTraceExpand h b
  let kwargs := PyDict.update (PyDict.update ([] : SofaHeader) extra) (strHeader expanded)
  let named := namedHeader interface method targetApp uid
  if kwargs.any (fun kv => PyDict.contains named kv.1) then .error .typeError
  else pure (named ++ kwargs)

end Bolt
