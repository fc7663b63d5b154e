import Mathlib.Data.Matrix.Mul
/-
What it means for the matrix of the linear layer to be maximum distance separable.
-/
namespace Verif.Spec.Mds

/-- The number of words that are not zero. -/
def weight {F : Type} [Zero F] [DecidableEq F] {t : Nat} (v : Fin t → F) : Nat :=
  (Finset.univ.filter fun i => v i ≠ 0).card

/-- Branch number `t + 1`: an input and its image together have at least `t + 1` words that are not zero, unless both
are zero. -/
def IsMDS {F : Type} [CommRing F] [DecidableEq F] {t : Nat} (M : Matrix (Fin t) (Fin t) F) : Prop :=
  ∀ v, v ≠ 0 → t + 1 ≤ weight v + weight (M.mulVec v)

end Verif.Spec.Mds
