import Verif.Spec.Header
/-!
# The bolt v1 frame layout, written out by hand (anthunder/protocol/__init__.py documentation)

Request : proto(1) type(1) cmdcode(2) ver2(1) requestId(4) codec(1) timeout(4)    classLen(2) headerLen(2) contentLen(4) class header content
Response: proto(1) type(1) cmdcode(2) ver2(1) requestId(4) codec(1) respstatus(2) classLen(2) headerLen(2) contentLen(4) class header content
All big-endian; signed fields in two's complement.
-/
namespace Bolt.Spec

def be2 (n : Nat) : Bytes := [UInt8.ofNat (n / 256 % 256), UInt8.ofNat (n % 256)]

/-- two's complement fields of 1, 2 and 4 bytes -/
def s1 (v : Int) : Bytes := [UInt8.ofNat (v % 256).toNat]
def s2 (v : Int) : Bytes := be2 (v % 65536).toNat
def s4 (v : Int) : Bytes := be4 (v % 4294967296).toNat

/-- the numeric fields of a frame -/
structure Fields where
  proto : Int
  ptype : Int
  cmdcode : Int
  ver2 : Int
  requestId : Int
  codec : Int
  /-- timeout of a request, status of a response -/
  seventh : Int
  deriving DecidableEq, Repr

/-- the values that fit the layout -/
structure Fields.Fit (isRequest : Bool) (f : Fields) : Prop where
  proto : -128 ≤ f.proto ∧ f.proto < 128
  ptype : -128 ≤ f.ptype ∧ f.ptype < 128
  cmdcode : -32768 ≤ f.cmdcode ∧ f.cmdcode < 32768
  ver2 : -128 ≤ f.ver2 ∧ f.ver2 < 128
  requestId : -2147483648 ≤ f.requestId ∧ f.requestId < 2147483648
  codec : -128 ≤ f.codec ∧ f.codec < 128
  seventh : if isRequest then -2147483648 ≤ f.seventh ∧ f.seventh < 2147483648
            else -32768 ≤ f.seventh ∧ f.seventh < 32768

/-- the fixed-size part -/
def fixedPart (isRequest : Bool) (f : Fields) (classLen headerLen contentLen : Nat) : Bytes :=
  s1 f.proto ++ s1 f.ptype ++ s2 f.cmdcode ++ s1 f.ver2 ++ s4 f.requestId ++ s1 f.codec
    ++ (if isRequest then s4 f.seventh else s2 f.seventh)
    ++ be2 classLen ++ be2 headerLen ++ be4 contentLen

/-- a whole frame -/
def frame (isRequest : Bool) (f : Fields) (cls hdr content : Bytes) : Bytes :=
  fixedPart isRequest f cls.length hdr.length content.length ++ cls ++ hdr ++ content

/-- the three variable parts fit their length fields -/
def BodyFit (cls hdr content : Bytes) : Prop :=
  cls.length < 65536 ∧ hdr.length < 65536 ∧ content.length < 4294967296

instance (a b c : Bytes) : Decidable (BodyFit a b c) := by unfold BodyFit; infer_instance

end Bolt.Spec
