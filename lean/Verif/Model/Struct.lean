import Verif.Model.Py
/-!
# The `struct` module, as used by anthunder/protocol

Formats used in /repo: `"!bbhblblHHL"` (_request_pkg.py:32), `"!bbhblbhHHL"` (_response_pkg.py:33),
`"%ds%ds%ds"` (_package_base.py:114, _request_pkg.py:40, _response_pkg.py:41) and `'>i'`
(_sofa_header.py:32,36).  `!`/`>` mean big-endian, standard sizes, no padding.
-/
namespace Bolt

/-- One format character (with its repeat count for `s`). `i` is standard size 4 signed, like `l`
(_request_pkg.py:32, 40; _response_pkg.py:33, 41; _sofa_header.py:32, 36). -/
inductive Fmt where
  | b | h | i | l | H | L
  | s (n : Nat)
  deriving DecidableEq, Repr

/-- standard size in bytes (`struct.calcsize` of one item) (_package_base.py:137) -/
def Fmt.size : Fmt → Nat
  | .b => 1
  | .h => 2
  | .i => 4
  | .l => 4
  | .H => 2
  | .L => 4
  | .s n => n

/-- `struct.calcsize` (_package_base.py:137) -/
def calcsize (fs : List Fmt) : Nat := (fs.map Fmt.size).sum

/-- big-endian digits: `n` as `size` bytes (higher part dropped)
(for _sofa_header.py:32, _request_pkg.py:41, _response_pkg.py:42) -/
def beBytes : Nat → Nat → Bytes
  | 0, _ => []
  | k + 1, n => beBytes k (n / 256) ++ [UInt8.ofNat (n % 256)]

/-- big-endian value of bytes (for _sofa_header.py:36, _package_base.py:124) -/
def beNat (bs : Bytes) : Nat := bs.foldl (fun acc b => acc * 256 + b.toNat) 0

/-- pack a signed integer into `k` bytes; `none` is struct.error (out of range)
(for _sofa_header.py:32, _request_pkg.py:41, _response_pkg.py:42) -/
def packSigned (k : Nat) (v : Int) : Option Bytes :=
  if -((256 ^ k / 2 : Nat) : Int) ≤ v ∧ v < ((256 ^ k / 2 : Nat) : Int) then
    some (beBytes k (v % ((256 ^ k : Nat) : Int)).toNat)
  else none

/-- pack an unsigned integer into `k` bytes; `none` is struct.error (out of range)
(for _request_pkg.py:41, _response_pkg.py:42) -/
def packUnsigned (k : Nat) (v : Int) : Option Bytes :=
  if 0 ≤ v ∧ v < ((256 ^ k : Nat) : Int) then some (beBytes k v.toNat) else none

/-- two's complement, big endian (`b`, `h`, `i`, `l` in _sofa_header.py:36, _package_base.py:124) -/
def unpackSigned (bs : Bytes) : Int :=
  let n := beNat bs
  if n < 256 ^ bs.length / 2 then (n : Int) else (n : Int) - ((256 ^ bs.length : Nat) : Int)

/-- big endian (`H`, `L` in _package_base.py:124) -/
def unpackUnsigned (bs : Bytes) : Int := (beNat bs : Int)

/-- `Ns`: truncated or padded with zero bytes to exactly `n` bytes (_request_pkg.py:40, _response_pkg.py:41) -/
def packS (n : Nat) (b : Bytes) : Bytes := b.take n ++ List.replicate (n - b.length) 0

/-- pack one argument; `none` is struct.error (wrong type or out of range) (_request_pkg.py:41, _response_pkg.py:42) -/
def Fmt.pack : Fmt → PyObj → Option Bytes
  | .b, .int v => packSigned 1 v
  | .h, .int v => packSigned 2 v
  | .i, .int v => packSigned 4 v
  | .l, .int v => packSigned 4 v
  | .H, .int v => packUnsigned 2 v
  | .L, .int v => packUnsigned 4 v
  | .s n, .bytes bs => some (packS n bs)
  | _, _ => none

/-- unpack one item from exactly its bytes (_package_base.py:115, 124) -/
def Fmt.unpack : Fmt → Bytes → PyObj
  | .b, bs => .int (unpackSigned bs)
  | .h, bs => .int (unpackSigned bs)
  | .i, bs => .int (unpackSigned bs)
  | .l, bs => .int (unpackSigned bs)
  | .H, bs => .int (unpackUnsigned bs)
  | .L, bs => .int (unpackUnsigned bs)
  | .s _, bs => .bytes bs

/-- `struct.pack(fmt, *args)` (_sofa_header.py:32, _request_pkg.py:41, _response_pkg.py:42) -/
def structPack : List Fmt → List PyObj → Option Bytes
  | [], [] => some []
  | f :: fs, v :: vs => do
    let b ← f.pack v
    let bs ← structPack fs vs
    pure (b ++ bs)
  | _, _ => none

/-- the items of `struct.unpack` once the length has been checked (_package_base.py:115, 124) -/
def structItems : List Fmt → Bytes → List PyObj
  | [], _ => []
  | f :: fs, bs => f.unpack (bs.take f.size) :: structItems fs (bs.drop f.size)

/-- `struct.unpack(fmt, buffer)`: the buffer must have exactly the size of the format, else struct.error
(_sofa_header.py:36, _package_base.py:115, 124). -/
def structUnpack (fs : List Fmt) (bs : Bytes) : Option (List PyObj) :=
  if bs.length = calcsize fs then some (structItems fs bs) else none

end Bolt
