import Verif.Spec.MerkleDamgard
import Verif.Model.Policies
/-
The published parameters of the Merkle–Damgård hashes: FIPS 180-4 (block 512/1024, length field
64/128 bits big-endian), RFC 1320/1321 and RIPEMD (64-bit little-endian length), Tiger (marker octet
0x01).
-/
namespace Verif.Spec

structure Standard where
  block : Nat
  length : Nat
  digest : Nat
  marker : List Bool
  bigEndianLength : Bool
  deriving DecidableEq

def standard : MDHash → Standard
  | .sha0 => ⟨512, 64, 160, [true], true⟩
  | .sha1 => ⟨512, 64, 160, [true], true⟩
  | .sha224 => ⟨512, 64, 224, [true], true⟩
  | .sha256 => ⟨512, 64, 256, [true], true⟩
  | .sha384 => ⟨1024, 128, 384, [true], true⟩
  | .sha512 => ⟨1024, 128, 512, [true], true⟩
  | .md4 => ⟨512, 64, 128, [true], false⟩
  | .md5 => ⟨512, 64, 128, [true], false⟩
  | .ripemd128 => ⟨512, 64, 128, [true], false⟩
  | .ripemd160 => ⟨512, 64, 160, [true], false⟩
  | .ripemd256 => ⟨512, 64, 256, [true], false⟩
  | .ripemd320 => ⟨512, 64, 320, [true], false⟩
  | .tiger192 => ⟨512, 64, 192, [false, false, false, false, false, false, false, true], false⟩

/-- The length field. -/
def Standard.encode (S : Standard) (n : Nat) : List Bool :=
  if S.bigEndianLength then bigEndian S.length n else littleEndianOctets S.length n

/-- The padded message of hash `h`. -/
def paddedMessage (h : MDHash) (m : List Bool) : List Bool :=
  mdPad (standard h).block (standard h).length (standard h).marker (standard h).encode m

/-- The digest of hash `h` with initial value `iv` and compression function `compress`; `view` shows a
chaining value as a bit string. -/
def mdDigest {σ : Type} (h : MDHash) (iv : σ) (compress : σ → List Bool → σ)
    (view : σ → List Bool) (m : List Bool) : List Bool :=
  (view ((blocks (standard h).block (paddedMessage h m)).foldl compress iv)).take (standard h).digest

/-- Messages on which the code follows the standard: byte-aligned for Tiger; not of a length that
wraps the 64-bit counter to zero; below `2^64` bits where the standard's length field is wider. -/
def GoodMsg (h : MDHash) (m : List Bool) : Prop :=
  (standard h).marker.length ∣ m.length ∧ (m.length = 0 ∨ m.length % 2 ^ 64 ≠ 0) ∧
    ((standard h).length ≤ 64 ∨ m.length < 2 ^ 64)

/-- A byte string as a bit string, most significant bit of each byte first. -/
def octetBits (bytes : List Nat) : List Bool := bytes.flatMap (bigEndian 8)

end Verif.Spec
