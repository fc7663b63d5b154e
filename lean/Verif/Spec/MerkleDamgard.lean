import Verif.Spec.Blocks
/-
Specification of a Merkle–Damgård hash, from FIPS 180-4 section 5 / RFC 1321 section 3:
pad with a marker, zeros, and the message length; iterate the compression function; truncate.
-/
namespace Verif.Spec

/-- `n` as `L` bits, most significant bit first (FIPS 180-4). -/
def bigEndian (L n : Nat) : List Bool := (List.range L).map fun i => n.testBit (L - 1 - i)

/-- `n` as `L / 8` octets, least significant octet first, each octet most significant bit first
(RFC 1321 section 3.2). -/
def littleEndianOctets (L n : Nat) : List Bool :=
  (List.range L).map fun i => n.testBit (8 * (i / 8) + (7 - i % 8))

/-- The padded message: message, marker, as few zeros as possible, length field. -/
def mdPad (B L : Nat) (mark : List Bool) (enc : Nat → List Bool) (m : List Bool) : List Bool :=
  m ++ mark ++ List.replicate (fillTo B (m.length + mark.length + L)) false ++ enc m.length

/-- The hash before the output transformation. -/
def mdState {σ : Type} (B L : Nat) (mark : List Bool) (enc : Nat → List Bool) (iv : σ)
    (compress : σ → List Bool → σ) (m : List Bool) : σ :=
  (blocks B (mdPad B L mark enc m)).foldl compress iv

end Verif.Spec
