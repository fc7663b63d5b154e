import Mathlib.Algebra.Polynomial.Div
import Mathlib.Algebra.Field.ZMod
/-
CRC by polynomial division over GF(2) (Ross Williams, "A painless guide to CRC error detection
algorithms", parameter model): the message bits, followed by `N` zeros and with the initial value added
to the leading `N` bits, are divided by the generator.
-/
open Polynomial

namespace Verif.Spec.Crc

/-- Coefficients in GF(2). -/
def coefficient (b : Bool) : ZMod 2 := if b then 1 else 0

/-- The polynomial of a bit string, highest power first. -/
noncomputable def ofBits : List Bool → (ZMod 2)[X]
  | [] => 0
  | b :: bs => C (coefficient b) * X ^ bs.length + ofBits bs

/-- The polynomial of a word of `N` bits, most significant bit is the highest power. -/
noncomputable def ofWord {N : Nat} (v : BitVec N) : (ZMod 2)[X] :=
  ofBits ((List.range N).map v.getMsbD)

/-- The generator `x^N + poly`. -/
noncomputable def generator {N : Nat} (poly : BitVec N) : (ZMod 2)[X] := X ^ N + ofWord poly

/-- The bits of the bytes in the order in which they are transmitted. -/
def messageBits (reflectIn : Bool) (bytes : List Nat) : List Bool :=
  bytes.flatMap fun x => (List.range 8).map fun i => x.testBit (if reflectIn then i else 7 - i)

/-- The remainder. -/
noncomputable def remainder {N : Nat} (poly init : BitVec N) (reflectIn : Bool) (bytes : List Nat) :
    (ZMod 2)[X] :=
  (ofBits (messageBits reflectIn bytes) * X ^ N +
    ofWord init * X ^ (messageBits reflectIn bytes).length) %ₘ generator poly

/-- `sum` is the checksum of `bytes`: it is the (possibly reflected) remainder, plus the final value. -/
def IsChecksum {N : Nat} (poly init finalXor : BitVec N) (reflectIn reflectRem : Bool)
    (bytes : List Nat) (sum : BitVec N) : Prop :=
  ∃ r : BitVec N, ofWord r = remainder poly init reflectIn bytes ∧
    sum = (if reflectRem then BitVec.reverse r else r) ^^^ finalXor

/-- The digest octets, most significant first. -/
def octets {N : Nat} (sum : BitVec N) : List Nat :=
  (List.range (N / 8)).map fun k => sum.toNat / 256 ^ (N / 8 - 1 - k) % 256

end Verif.Spec.Crc
