import Verif.Model.Pack
/-
The documented `pack` algorithms (docs/pack.md) for units of any number of octets.  The library uses octets as units
(`Verif.Model.Pack`); the document describes the general case.  In an `Endian` the field `littleOctet` is here the order of
the units and `littleBit` the order of the bits inside a unit (docs/pack.md:23-35).
-/
namespace Verif

/-- Significance of stream bit `i` of a chunk of `w` bits in units of `u` bits, docs/pack.md:23-35. -/
def Endian.posIn (e : Endian) (u w i : Nat) : Nat :=
  u * (if e.littleOctet then i / u else w / u - 1 - i / u) + (if e.littleBit then i % u else u - 1 - i % u)

/-- Reverse the octets in each unit of a chunk, docs/pack.md:240, 250. -/
def revOctetsInUnits (u w x : Nat) : Nat :=
  Nat.ofBits (fun i : Fin w => x.testBit (u * (i.1 / u) + (8 * (u / 8 - 1 - i.1 % u / 8) + i.1 % 8)))

/-- "Unit order reversal", docs/pack.md:236-242: reverse the octets of the chunk, then those of each unit. -/
def reverseUnitOrder (u w x : Nat) : Nat := revOctetsInUnits u w (revOctets w x)

/-- "Bit order reversal", docs/pack.md:248-254: reverse the octets of each unit, then the bits of each octet. -/
def reverseBitOrder (u w x : Nat) : Nat := revBits w (revOctetsInUnits u w x)

/-- Steps 2 and 3 of the algorithms, docs/pack.md:287-294. -/
def convertUnits (u : Nat) (i o : Endian) (w x : Nat) : Nat :=
  let t := if i.littleOctet ≠ o.littleOctet then reverseUnitOrder u w x else x
  if i.littleBit ≠ o.littleBit then reverseBitOrder u w t else t

/-- Imploder, docs/pack.md:273-301. -/
def implodeUnits (u : Nat) (i o : Endian) (ib ob : Nat) (xs : List Nat) : Nat :=
  (List.range (ob / ib)).foldl (fun acc k =>
    let done := k * ib
    let shift := if o.littleOctet then done else ob - (ib + done)
    acc ||| (convertUnits u i o ib (xs.getD k 0) <<< shift)) 0

/-- Exploder, docs/pack.md:317-346. -/
def explodeUnits (u : Nat) (i o : Endian) (ib ob : Nat) (x : Nat) : List Nat :=
  (List.range (ib / ob)).map fun k =>
    let done := k * ob
    let shift := if i.littleOctet then done else ib - (ob + done)
    convertUnits u i o ob ((x >>> shift) % 2 ^ ob)

/-- `pack` over a sequence of chunks, docs/pack.md:273-301, 317-346, 354-369. -/
def packUnits (u : Nat) (i o : Endian) (ib ob : Nat) (xs : List Nat) : List Nat :=
  if ib < ob then
    (List.range (xs.length / (ob / ib))).map fun c =>
      implodeUnits u i o ib ob ((xs.drop (c * (ob / ib))).take (ob / ib))
  else if ob < ib then xs.flatMap (explodeUnits u i o ib ob)
  else xs.map (convertUnits u i o ib)

/-- The imploder with the shift that the section "Data chunk order reversal" (docs/pack.md:217-230) describes in words: the
other way round than the pseudocode, and chosen by the bit order. -/
def implodeProse (u : Nat) (i o : Endian) (ib ob : Nat) (xs : List Nat) : Nat :=
  (List.range (ob / ib)).foldl (fun acc k =>
    let done := k * ib
    let shift := if o.littleBit then ob - (ib + done) else done
    acc ||| (convertUnits u i o ib (xs.getD k 0) <<< shift)) 0

end Verif
