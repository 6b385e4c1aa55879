import Verif.Model.Py
/-!
# Specification of the header byte format (independent of the parser)

A header is a sequence of items; an item is a 4-byte big-endian length `n < 2^31` followed by the `n` bytes of a
UTF-8 string, or the four bytes `FF FF FF FF` (a Java null), read as the empty string. Keys and values alternate.
-/
namespace Bolt.Spec

/-- four big-endian bytes of `n`, written out -/
def be4 (n : Nat) : Bytes :=
  [UInt8.ofNat (n / 16777216 % 256), UInt8.ofNat (n / 65536 % 256), UInt8.ofNat (n / 256 % 256),
   UInt8.ofNat (n % 256)]

/-- one item and the string it stands for -/
inductive HItem : Bytes → PyStr → Prop
  | str (body : Bytes) (s : PyStr) (hlen : body.length < 2 ^ 31) (hutf : utf8Encode s = some body) :
      HItem (be4 body.length ++ body) s
  | null : HItem [0xff, 0xff, 0xff, 0xff] []

/-- a sequence of items -/
inductive HItems : Bytes → List PyStr → Prop
  | nil : HItems [] []
  | cons {a r : Bytes} {s : PyStr} {ss : List PyStr} : HItem a s → HItems r ss → HItems (a ++ r) (s :: ss)

/-- alternating keys and values -/
def flatten : List (PyStr × PyStr) → List PyStr
  | [] => []
  | (k, v) :: r => k :: v :: flatten r

/-- the value of the last pair with key `k` -/
def lastValue (kvs : List (PyStr × PyStr)) (k : PyStr) : Option PyStr :=
  ((kvs.filter (fun kv => kv.1 == k)).getLast?).map Prod.snd

end Bolt.Spec
