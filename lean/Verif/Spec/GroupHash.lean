import Mathlib.Algebra.Group.Defs
import Verif.Spec.MDStandards
/-
FindGroupHash of the Zcash protocol specification, section 5.4.9.5.
-/
namespace Verif.Spec

variable {δ G : Type} [AddCommGroup G] [DecidableEq G]

/-- `GroupHash(D, M)`: decode the hash, multiply by the cofactor, refuse the zero point. -/
def groupHash (H : List Bool → δ) (decode : δ → Option G) (cofactor : Nat) (m : List Bool) : Option G :=
  (decode (H m)).bind fun p => if cofactor • p = 0 then none else some (cofactor • p)

/-- `first` over the octets 0..255. -/
def findGroupHash (H : List Bool → δ) (decode : δ → Option G) (cofactor : Nat) (m : List Bool) : Option G :=
  (List.range 256).findSome? fun i => groupHash H decode cofactor (m ++ octetBits [i])

end Verif.Spec
