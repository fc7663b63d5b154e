import Verif.Spec.Stream
/-
The bit stream of a sequence of chunks that consist of units of `u` bits, by repeated division: the units of a chunk in little
or big order, the bits of each unit in little or big order.
-/
namespace Verif.Spec

/-- The bits of a unit. -/
def unitStream (littleBit : Bool) (u x : Nat) : List Bool :=
  ordered littleBit ((digitsLE 2 u x).map (· == 1))

/-- The bits of a chunk of `w` bits, `w` a multiple of `u`. -/
def chunkStreamIn (littleUnit littleBit : Bool) (u w x : Nat) : List Bool :=
  (ordered littleUnit (digitsLE (2 ^ u) (w / u) x)).flatMap (unitStream littleBit u)

/-- The bits of a sequence of chunks. -/
def streamIn (littleUnit littleBit : Bool) (u w : Nat) (xs : List Nat) : List Bool :=
  xs.flatMap (chunkStreamIn littleUnit littleBit u w)

end Verif.Spec
