import Verif.Spec.MerkleDamgard
/-
The Merkle–Damgård hash over any compression function: pad with a one bit, zeros and the length, iterate, truncate
(Menezes, van Oorschot, Vanstone, Handbook of Applied Cryptography, algorithms 9.25 and 9.29).
-/
namespace Verif.Spec

/-- The length as a field of `L` bits in octets, most or least significant octet first. -/
def lengthField (littleOctets : Bool) (L n : Nat) : List Bool := if littleOctets then littleEndianOctets L n else bigEndian L n

/-- The padded message. -/
def oneZeroPad (B L : Nat) (littleOctets : Bool) (m : List Bool) : List Bool := mdPad B L [true] (lengthField littleOctets L) m

/-- The hash. -/
def iteratedHash {σ : Type} (B L d : Nat) (littleOctets : Bool) (iv : σ) (f : σ → List Bool → σ) (out : σ → List Bool)
    (m : List Bool) : List Bool :=
  (out ((blocks B (oneZeroPad B L littleOctets m)).foldl f iv)).take d

end Verif.Spec
