import Batteries.Data.Nat.Basic
import Verif.Model.Core
/-
Words, their stream views, and the documented `pack` algorithms (docs/pack.md:217-369).
Words are natural numbers (`< 2^w`); the C++ unit is the octet.
-/
namespace Verif

/-- A stream endianness: octet order and bit order (docs/pack.md:23-39). -/
structure Endian where
  littleOctet : Bool
  littleBit : Bool
  deriving DecidableEq, Repr

/-- `stream_endian::big_octet_big_bit` etc. -/
def bigOctetBigBit : Endian := ⟨false, false⟩
def littleOctetBigBit : Endian := ⟨true, false⟩
def bigOctetLittleBit : Endian := ⟨false, true⟩
def littleOctetLittleBit : Endian := ⟨true, true⟩

/-- Significance (bit number) of stream bit `i` of a `w`-bit unit, docs/pack.md:26-39. -/
def Endian.pos (e : Endian) (w i : Nat) : Nat :=
  8 * (if e.littleOctet then i / 8 else w / 8 - 1 - i / 8) +
    (if e.littleBit then i % 8 else 7 - i % 8)

/-- Stream view of a `w`-bit word. -/
def Endian.view (e : Endian) (w x : Nat) : Bits :=
  (List.range w).map fun i => x.testBit (e.pos w i)

/-- Stream view of an array of words. -/
def Endian.views (e : Endian) (w : Nat) (xs : List Nat) : Bits := xs.flatMap (e.view w)

/-- Reverse the octets of a `w`-bit word ("unit order reversal", docs/pack.md:236-242). -/
def revOctets (w x : Nat) : Nat :=
  Nat.ofBits (fun i : Fin w => x.testBit (8 * (w / 8 - 1 - i.1 / 8) + i.1 % 8))

/-- Reverse the bits inside each octet ("bit order reversal", docs/pack.md:248-254). -/
def revBits (w x : Nat) : Nat :=
  Nat.ofBits (fun i : Fin w => x.testBit (8 * (i.1 / 8) + (7 - i.1 % 8)))

/-- Steps 2 and 3 of the algorithms, docs/pack.md:283-290. -/
def convertUnit (i o : Endian) (w x : Nat) : Nat :=
  let t := if i.littleOctet ≠ o.littleOctet then revOctets w x else x
  if i.littleBit ≠ o.littleBit then revBits w t else t

/-- Imploder, docs/pack.md:273-301: one output chunk of `ob` bits from `ob / ib` input chunks. -/
def implodeOne (i o : Endian) (ib ob : Nat) (xs : List Nat) : Nat :=
  (List.range (ob / ib)).foldl (fun acc k =>
    let done := k * ib
    let shift := if o.littleOctet then done else ob - (ib + done)
    acc ||| (convertUnit i o ib (xs.getD k 0) <<< shift)) 0

/-- Exploder, docs/pack.md:317-346: `ib / ob` output chunks of `ob` bits from one input chunk.
Assigning `input_chunk >> shift` to an `ob`-bit chunk keeps the low `ob` bits. -/
def explodeOne (i o : Endian) (ib ob : Nat) (x : Nat) : List Nat :=
  (List.range (ib / ob)).map fun k =>
    let done := k * ob
    let shift := if i.littleOctet then done else ib - (ob + done)
    convertUnit i o ob ((x >>> shift) % 2 ^ ob)

/-- `pack`: imploder, exploder or equal-size algorithm over a whole sequence of chunks, docs/pack.md:
273-301, 317-346, 348-369.  The imploder makes one output chunk from every `ob / ib` input chunks. -/
def packAll (i o : Endian) (ib ob : Nat) (xs : List Nat) : List Nat :=
  if ib < ob then
    (List.range (xs.length / (ob / ib))).map fun c =>
      implodeOne i o ib ob ((xs.drop (c * (ob / ib))).take (ob / ib))
  else if ob < ib then xs.flatMap (explodeOne i o ib ob)
  else xs.map (convertUnit i o ib)

end Verif
