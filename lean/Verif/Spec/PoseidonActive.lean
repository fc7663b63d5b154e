import Mathlib.Data.Fintype.Card
/-
Active S-boxes: the S-boxes of a round of Poseidon that get different inputs in two computations.
-/
namespace Verif.Spec.Poseidon

/-- The number of active S-boxes when the words before the S-box layer are `x` and `y`: all words count in a full round, word 0
in a partial one. -/
def active {F : Type} [DecidableEq F] {t : Nat} (full : Bool) (x y : Fin t → F) : Nat :=
  (Finset.univ.filter fun i : Fin t => (full = true ∨ i.val = 0) ∧ x i ≠ y i).card

end Verif.Spec.Poseidon
