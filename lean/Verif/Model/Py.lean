/-!
# The fragment of Python's data model that the code of /repo uses

These definitions model the interpreter / standard library, not a file of /repo; each one names the
construct it stands for and where /repo relies on it.
-/
namespace Bolt

deriving instance DecidableEq for Except

/-- Python `bytes` (as in _sofa_header.py:66, _package_base.py:104-106). -/
abbrev Bytes := List UInt8

/-- Python `str`: a list of code points.  Python strings may hold lone surrogates (0xD800-0xDFFF), and so
may these; numbers `≥ 0x110000` are not code points, and are rejected by `utf8Encode` below, so quantifying
over all `PyStr` quantifies over (more than) all Python strings (as in _sofa_header.py:50). -/
abbrev PyStr := List Nat

/-- A Python string literal (as in _sofa_header.py:134-138). -/
def py (s : String) : PyStr := s.toList.map Char.toNat

/-- A Python bytes literal made of ASCII characters (`b"..."`)
(as in _request_pkg.py:33, _response_pkg.py:34, heartbeat.py:31, 39). -/
def pyb (s : String) : Bytes := s.toList.map (fun c => UInt8.ofNat c.toNat)

/-- The exception classes that the modelled code raises or lets through
(raised in _sofa_header.py:50-110, _package_base.py:62-128, connection_pool.py:83, 114, 118, client.py:111-140 and so on; those of the standard library keep their names). -/
inductive PyExc where
  | decodeError          -- anthunder/protocol/exceptions.py:35
  | encodeError          -- anthunder/protocol/exceptions.py:31
  | paramTypeError       -- anthunder/protocol/exceptions.py:39
  | clientError          -- anthunder/exceptions.py:39
  | noProcessor          -- anthunder/listener/base_listener.py:116 (a ServerError)
  | serverError          -- anthunder/exceptions.py:30
  | pyboltError          -- anthunder/exceptions.py:26, raised directly
  | structError          -- struct.error
  | unicodeDecodeError   -- bytes.decode
  | unicodeEncodeError   -- str.encode
  | assertionError
  | attributeError
  | typeError
  | valueError
  | keyError
  | nameError            -- includes UnboundLocalError
  | timeoutError         -- `asyncio.TimeoutError` in the listeners and the asyncio client, the built-in one in client.py:127
                         -- (one class from Python 3.11 on; before, a built-in one raised by a method is `other`)
  | cancelledError       -- asyncio/concurrent.futures CancelledError
  | connectionError      -- requests.ConnectionError / ConnectionResetError
  | stopIteration        -- `StopIteration` itself, which `asyncio.Future.set_exception` refuses (before Python 3.12; from then on it
                         -- is turned into a RuntimeError, which is `other`)
  | notImplemented
  | invalidCarrier       -- opentracing.InvalidCarrierException
  | emptyPool            -- mysockpool/exceptions.py:37
  | closedPool           -- mysockpool/exceptions.py:42
  | socketValueError     -- mysockpool/exceptions.py:52
  | other                -- any other `Exception`
  deriving DecidableEq, Repr

/-- Subclasses of `ProtocolError` (anthunder/protocol/exceptions.py:27-40). -/
def PyExc.isProtocolError : PyExc → Bool
  | .decodeError | .encodeError | .paramTypeError => true
  | _ => false

/-- Dynamically typed values passed by users where the code makes type decisions.
`int` covers `bool` and `IntEnum` members (they are `int` instances); `obj t` is any other object
(floats, lists, ...) of truth value `t`
(such as `content`, `request_id`, `timeout` of _package_base.py:36-38, or the values of _sofa_header.py:134-138). -/
inductive PyObj where
  | none
  | int (i : Int)
  | bytes (b : Bytes)
  | str (s : PyStr)
  | obj (truthy : Bool)
  deriving DecidableEq, Repr

/-- Python truth value testing (`if x`, `x or y`)
(_request_pkg.py:51, client.py:71, aio_listener.py:126, 132, tracer.py:88, 98, 101). -/
def PyObj.truthy : PyObj → Bool
  | .none => false
  | .int i => i != 0
  | .bytes b => !b.isEmpty
  | .str s => !s.isEmpty
  | .obj t => t

/-- Python `x or y` (_request_pkg.py:51, _package_base.py:68, client.py:71, aio_listener.py:125, sock_listener.py:116). -/
def PyObj.or (x y : PyObj) : PyObj := if x.truthy then x else y

/-! ### dict: insertion ordered association list -/

/-- Python `dict` (insertion ordered, keys unique: every dict below is built from `[]` with `set`/`erase`)
(_sofa_header.py:89, _package_base.py:125, base_listener.py:45, aio_client.py:54-57). -/
abbrev PyDict (K V : Type) := List (K × V)

namespace PyDict
variable {K V : Type} [DecidableEq K]

/-- `d.get(k)` (_sofa_header.py:89, sock_listener.py:116, 122, client/base.py:50) -/
def get? : PyDict K V → K → Option V
  | [], _ => none
  | (k', v) :: d, k => if k' = k then some v else get? d k

/-- `k in d` (immutable_dict.py:27) -/
def contains (d : PyDict K V) (k : K) : Bool := (get? d k).isSome

/-- `d[k] = v` of a plain `dict`: an existing key keeps its position, a new one is appended
(base_listener.py:45 with aio_listener.py:94, span.py:55). -/
def set : PyDict K V → K → V → PyDict K V
  | [], k, v => [(k, v)]
  | (k', v') :: d, k, v => if k' = k then (k', v) :: d else (k', v') :: set d k v

/-- `del d[k]` / `d.pop(k, None)` (client/base.py:85, aio_client.py:175, 197-198, 207-215, 259) -/
def erase : PyDict K V → K → PyDict K V
  | [], _ => []
  | (k', v') :: d, k => if k' = k then d else (k', v') :: erase d k

/-- `d.keys()` (recently_used_container.py:99, base_listener.py:88) -/
def keys (d : PyDict K V) : List K := d.map Prod.fst

/-- `d.update(other)` where `other` yields `kvs` (_sofa_header.py:131-132, span_context.py:52). -/
def update (d : PyDict K V) (kvs : List (K × V)) : PyDict K V :=
  kvs.foldl (fun d kv => set d kv.1 kv.2) d

/-- `dict(kvs)` (_sofa_header.py:104, _package_base.py:125) -/
def ofPairs (kvs : List (K × V)) : PyDict K V := update [] kvs

end PyDict

/-! ### UTF-8 (`str.encode('utf-8')`, `bytes.decode('utf-8')`, strict error handling) -/

/-- UTF-8 bytes of one code point; `none` where Python raises UnicodeEncodeError (surrogates) and for
numbers that are not code points (for _sofa_header.py:51). -/
def utf8EncodeCp (n : Nat) : Option Bytes :=
  if n < 0x80 then some [UInt8.ofNat n]
  else if n < 0x800 then some [UInt8.ofNat (0xC0 + n / 64), UInt8.ofNat (0x80 + n % 64)]
  else if n < 0x10000 then
    if 0xD800 ≤ n ∧ n < 0xE000 then none
    else some [UInt8.ofNat (0xE0 + n / 4096), UInt8.ofNat (0x80 + n / 64 % 64), UInt8.ofNat (0x80 + n % 64)]
  else if n < 0x110000 then
    some [UInt8.ofNat (0xF0 + n / 262144), UInt8.ofNat (0x80 + n / 4096 % 64),
          UInt8.ofNat (0x80 + n / 64 % 64), UInt8.ofNat (0x80 + n % 64)]
  else none

/-- `s.encode('utf-8')` (_sofa_header.py:51) -/
def utf8Encode : PyStr → Option Bytes
  | [] => some []
  | c :: s => do
    let b ← utf8EncodeCp c
    let bs ← utf8Encode s
    pure (b ++ bs)

/-- continuation byte `10xxxxxx` (for _sofa_header.py:83) -/
def isCont (b : UInt8) : Bool := 0x80 ≤ b.toNat && b.toNat < 0xC0

/-- `bs.decode('utf-8')` (strict): rejects stray continuation bytes, overlong forms, surrogates, numbers
above 0x10FFFF and truncated sequences (_sofa_header.py:83). -/
def utf8Decode : Bytes → Option PyStr
  | [] => some []
  | b0 :: r0 =>
    if b0.toNat < 0x80 then (utf8Decode r0).map (b0.toNat :: ·)
    else match r0 with
    | [] => none
    | b1 :: r1 =>
      if 0xC2 ≤ b0.toNat ∧ b0.toNat < 0xE0 then
        if isCont b1 then
          (utf8Decode r1).map (((b0.toNat - 0xC0) * 64 + (b1.toNat - 0x80)) :: ·)
        else none
      else match r1 with
      | [] => none
      | b2 :: r2 =>
        if 0xE0 ≤ b0.toNat ∧ b0.toNat < 0xF0 then
          let n := (b0.toNat - 0xE0) * 4096 + (b1.toNat - 0x80) * 64 + (b2.toNat - 0x80)
          if isCont b1 && isCont b2 && decide (0x800 ≤ n ∧ ¬ (0xD800 ≤ n ∧ n < 0xE000)) then
            (utf8Decode r2).map (n :: ·)
          else none
        else match r2 with
        | [] => none
        | b3 :: r3 =>
          if 0xF0 ≤ b0.toNat ∧ b0.toNat < 0xF5 then
            let n := (b0.toNat - 0xF0) * 262144 + (b1.toNat - 0x80) * 4096 + (b2.toNat - 0x80) * 64
              + (b3.toNat - 0x80)
            if isCont b1 && isCont b2 && isCont b3 && decide (0x10000 ≤ n ∧ n < 0x110000) then
              (utf8Decode r3).map (n :: ·)
            else none
          else none

/-! ### `str(int)` and `int(str)` -/

/-- decimal digits of a natural number, most significant first; `fuel > n` is enough
(for _rpc_id.py:51, _trace_id.py:42) -/
def natStrAux : Nat → Nat → PyStr
  | 0, n => [48 + n % 10]            -- unreachable from `natStr`
  | fuel + 1, n => if n < 10 then [48 + n] else natStrAux fuel (n / 10) ++ [48 + n % 10]

/-- `str(n)` for a non-negative `int` (_rpc_id.py:51, _trace_id.py:42) -/
def natStr (n : Nat) : PyStr := natStrAux (n + 1) n

/-- `str(i)` for an `int` (_rpc_id.py:51, _rpc_trace_context.py:37) -/
def intStr (i : Int) : PyStr :=
  if i < 0 then 45 :: natStr i.natAbs else natStr i.natAbs

/-- Characters that `int()` strips: those with the Unicode property White_Space (CPython turns them into a blank first,
except that U+001C to U+001F, which `str.strip` would remove, are not accepted) (for _rpc_id.py:39). -/
def isPySpace (c : Nat) : Bool :=
  (9 ≤ c && c ≤ 13) || c == 32 || c == 0x85 || c == 0xA0 || c == 0x1680 || (0x2000 ≤ c && c ≤ 0x200A) ||
    c == 0x2028 || c == 0x2029 || c == 0x202F || c == 0x205F || c == 0x3000

/-- The zeros of the decimal digits of Unicode 14 (Python 3.11); each is followed by the digits 1 to 9
(for _rpc_id.py:39). -/
def decimalZeros : List Nat :=
  [0x30, 0x660, 0x6F0, 0x7C0, 0x966, 0x9E6, 0xA66, 0xAE6, 0xB66, 0xBE6, 0xC66, 0xCE6, 0xD66, 0xDE6, 0xE50,
   0xED0, 0xF20, 0x1040, 0x1090, 0x17E0, 0x1810, 0x1946, 0x19D0, 0x1A80, 0x1A90, 0x1B50, 0x1BB0, 0x1C40, 0x1C50,
   0xA620, 0xA8D0, 0xA900, 0xA9D0, 0xA9F0, 0xAA50, 0xABF0, 0xFF10, 0x104A0, 0x10D30, 0x11066, 0x110F0, 0x11136,
   0x111D0, 0x112F0, 0x11450, 0x114D0, 0x11650, 0x116C0, 0x11730, 0x118E0, 0x11950, 0x11C50, 0x11D50, 0x11DA0,
   0x16A60, 0x16AC0, 0x16B50, 0x1D7CE, 0x1D7D8, 0x1D7E2, 0x1D7EC, 0x1D7F6, 0x1E140, 0x1E2F0, 0x1E950, 0x1FBF0]

/-- the value of a decimal digit (category Nd) (for _rpc_id.py:39) -/
def digitVal (c : Nat) : Option Nat := (decimalZeros.find? fun z => z ≤ c && c < z + 10).map fun z => c - z

/-- digits with single underscores between digits; `acc` is the value so far, `prev` says whether the previous
character was a digit (for _rpc_id.py:39). -/
def parseDigits : PyStr → Nat → Bool → Option Nat
  | [], acc, prev => if prev then some acc else none
  | c :: s, acc, prev =>
    match digitVal c with
    | some d => parseDigits s (acc * 10 + d) true
    | none =>
      if c = 95 ∧ prev then
        match s with
        | [] => none
        | d :: _ => if (digitVal d).isSome then parseDigits s acc false else none
      else none

/-- `s.strip()` as done by `int()` (_rpc_id.py:39) -/
def pyStrip (s : PyStr) : PyStr :=
  ((s.dropWhile isPySpace).reverse.dropWhile isPySpace).reverse

/-- `int(s)` for a string `s`, base 10; `none` is ValueError. Simplification: the interpreter's limit of 4300 digits is
not modelled (_rpc_id.py:39). -/
def pyInt (s : PyStr) : Option Int :=
  match pyStrip s with
  | [] => none
  | c :: r =>
    if c = 45 then (parseDigits r 0 false).map (fun n => - (n : Int))
    else if c = 43 then (parseDigits r 0 false).map (fun n => (n : Int))
    else (parseDigits (c :: r) 0 false).map (fun n => (n : Int))

/-! ### `str.split('.')` and `'.'.join` -/

/-- `s.split(sep)` for a one-character separator (span_context.py:55) -/
def pySplit (sep : Nat) : PyStr → List PyStr
  | [] => [[]]
  | c :: s =>
    if c = sep then [] :: pySplit sep s
    else match pySplit sep s with
      | [] => [[c]]          -- unreachable: pySplit never returns []
      | w :: ws => (c :: w) :: ws

/-- `sep.join(ws)` for a one-character separator (_rpc_id.py:51) -/
def pyJoin (sep : Nat) : List PyStr → PyStr
  | [] => []
  | [w] => w
  | w :: ws => w ++ sep :: pyJoin sep ws

/-- `s.startswith(p)` (tracer.py:117) -/
def pyStartsWith (s p : PyStr) : Bool := s.take p.length == p

end Bolt
