/-
The bit stream of a sequence of chunks, by repeated division: the octets of a chunk in little or big
order, the bits of each octet in little or big order.
-/
namespace Verif.Spec

/-- The `n` least significant base-`b` digits, least significant first. -/
def digitsLE (b : Nat) : Nat → Nat → List Nat
  | 0, _ => []
  | n + 1, x => x % b :: digitsLE b n (x / b)

/-- Put a little-endian list in the wanted order. -/
def ordered {α : Type} (little : Bool) (l : List α) : List α := if little then l else l.reverse

/-- The bits of an octet. -/
def octetStream (littleBit : Bool) (x : Nat) : List Bool :=
  ordered littleBit ((digitsLE 2 8 x).map (· == 1))

/-- The bits of a chunk of `w` bits, `w` a multiple of 8. -/
def chunkStream (littleOctet littleBit : Bool) (w x : Nat) : List Bool :=
  (ordered littleOctet (digitsLE 256 (w / 8) x)).flatMap (octetStream littleBit)

/-- The bits of a sequence of chunks. -/
def stream (littleOctet littleBit : Bool) (w : Nat) (xs : List Nat) : List Bool :=
  xs.flatMap (chunkStream littleOctet littleBit w)

end Verif.Spec
