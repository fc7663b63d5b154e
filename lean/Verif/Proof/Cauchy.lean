import Mathlib.Algebra.Polynomial.Roots
import Mathlib.LinearAlgebra.Matrix.ToLinearEquiv
import Mathlib.Algebra.Polynomial.BigOperators
import Mathlib.Tactic.FieldSimp
import Mathlib.Tactic.LinearCombination
import Verif.Spec.Mds
/-
Cauchy matrices are maximum distance separable.
-/
namespace Verif
open Polynomial Spec.Mds

section
variable {F : Type} [Field F] [DecidableEq F] {t : Nat}

/-- `∑_{j ∈ S} v_j ∏_{l ∈ S, l ≠ j} (X + y_l)`. -/
noncomputable def cauchyPoly (S : Finset (Fin t)) (v y : Fin t → F) : F[X] :=
  ∑ j ∈ S, C (v j) * ∏ l ∈ S.erase j, (X + C (y l))

theorem cauchyPoly_natDegree (S : Finset (Fin t)) (hS : S.Nonempty) (v y : Fin t → F) :
    (cauchyPoly S v y).natDegree < S.card := by
  have hpos := Finset.card_pos.2 hS
  refine lt_of_le_of_lt (natDegree_sum_le_of_forall_le (n := S.card - 1) S _ fun j hj => ?_) (by omega)
  refine le_trans (natDegree_C_mul_le _ _) (le_trans (natDegree_prod_le _ _) ?_)
  refine le_trans (Finset.sum_le_card_nsmul _ _ 1 fun l _ => ?_) ?_
  · exact le_of_eq (natDegree_X_add_C _)
  · rw [Finset.card_erase_of_mem hj]; simp

theorem cauchyPoly_eval (S : Finset (Fin t)) (v y : Fin t → F) (a : F) (ha : ∀ j, a + y j ≠ 0) :
    (cauchyPoly S v y).eval a = (∏ l ∈ S, (a + y l)) * ∑ j ∈ S, (a + y j)⁻¹ * v j := by
  rw [cauchyPoly, eval_finsetSum, Finset.mul_sum]
  refine Finset.sum_congr rfl fun j hj => ?_
  rw [eval_mul, eval_C, eval_prod, ← Finset.mul_prod_erase S _ hj]
  simp only [eval_add, eval_X, eval_C]
  have := ha j
  field_simp

theorem cauchyPoly_ne_zero (S : Finset (Fin t)) (v y : Fin t → F) (hy : Function.Injective y) (j : Fin t) (hj : j ∈ S)
    (hv : v j ≠ 0) : cauchyPoly S v y ≠ 0 := by
  intro h
  have e : (cauchyPoly S v y).eval (- y j) = v j * ∏ l ∈ S.erase j, (- y j + y l) := by
    rw [cauchyPoly, eval_finsetSum, Finset.sum_eq_single_of_mem j hj]
    · simp [eval_prod]
    · intro k _ hk
      rw [eval_mul, eval_prod, Finset.prod_eq_zero (i := j), mul_zero]
      · exact Finset.mem_erase.2 ⟨hk.symm, hj⟩
      · simp
  rw [h, eval_zero] at e
  have : v j * ∏ l ∈ S.erase j, (- y j + y l) ≠ 0 := by
    refine mul_ne_zero hv (Finset.prod_ne_zero_iff.2 fun l hl h => ?_)
    have : y l = y j := by linear_combination h
    exact (Finset.ne_of_mem_erase hl) (hy this)
  exact this e.symm

/-- A matrix whose entries are the inverses of `x_i + y_j` is maximum distance separable. -/
theorem cauchy_mds (M : Matrix (Fin t) (Fin t) F) (x y : Fin t → F) (hx : Function.Injective x)
    (hy : Function.Injective y) (hM : ∀ i j, (x i + y j) * M i j = 1) : IsMDS M := by
  intro v hv
  have hne : ∀ i j, x i + y j ≠ 0 := by
    intro i j h
    have := hM i j
    rw [h, zero_mul] at this
    exact zero_ne_one this
  have hinv : ∀ i j, M i j = (x i + y j)⁻¹ := fun i j => eq_inv_of_mul_eq_one_right (hM i j)
  let S := Finset.univ.filter fun i => v i ≠ 0
  have hS : S.Nonempty := by
    obtain ⟨i, hi⟩ := Function.ne_iff.1 hv
    exact ⟨i, by simpa [S] using hi⟩
  obtain ⟨j, hj⟩ := hS
  have hvj : v j ≠ 0 := by simpa [S] using hj
  let Z := Finset.univ.filter fun i => M.mulVec v i = 0
  have hsum : ∀ i, M.mulVec v i = ∑ j ∈ S, (x i + y j)⁻¹ * v j := by
    intro i
    rw [Matrix.mulVec, dotProduct, Finset.sum_filter_of_ne]
    · exact Finset.sum_congr rfl fun j _ => by rw [hinv]
    · intro j _ h hz; rw [hz, mul_zero] at h; exact h rfl
  have hZ : Z.card < S.card := by
    by_contra hge
    refine cauchyPoly_ne_zero S v y hy j hj hvj ?_
    refine eq_zero_of_natDegree_lt_card_of_eval_eq_zero' _ (Z.image x) ?_ ?_
    · intro a ha
      obtain ⟨i, hi, rfl⟩ := Finset.mem_image.1 ha
      rw [cauchyPoly_eval _ _ _ _ (hne i), ← hsum, (Finset.mem_filter.1 hi).2, mul_zero]
    · rw [Finset.card_image_of_injective _ hx]
      exact lt_of_lt_of_le (cauchyPoly_natDegree S ⟨j, hj⟩ v y) (by omega)
  have hsplit := Finset.card_filter_add_card_filter_not (s := Finset.univ) (p := fun i => M.mulVec v i = 0)
  rw [Finset.card_univ, Fintype.card_fin] at hsplit
  have e1 : weight v = S.card := rfl
  have e2 : weight (M.mulVec v) = (Finset.univ.filter fun i => ¬ M.mulVec v i = 0).card := rfl
  have e3 : Z.card = (Finset.univ.filter fun i => M.mulVec v i = 0).card := rfl
  omega

/-- A maximum distance separable matrix is invertible. -/
theorem mds_det (M : Matrix (Fin t) (Fin t) F) (h : IsMDS M) : M.det ≠ 0 := by
  intro hd
  obtain ⟨v, hv, e⟩ := Matrix.exists_mulVec_eq_zero_iff.2 hd
  have := h v hv
  have h1 : weight v ≤ t := by
    refine le_trans (Finset.card_filter_le _ _) ?_
    simp
  have h2 : weight (M.mulVec v) = 0 := by rw [e]; simp [weight]
  omega

end
end Verif
