import Mathlib.Data.ZMod.Basic
import Mathlib.Algebra.Field.ZMod
import Mathlib.LinearAlgebra.Matrix.ToLinearEquiv
import Mathlib.Algebra.Polynomial.Roots
import Mathlib.Algebra.Polynomial.BigOperators
import Verif.Model.PoseidonGen
import Verif.Props.Poseidon
/-
C47 (generation of the MDS matrix).
-/
namespace Verif.Props

section
variable {F : Type} [Field F] [DecidableEq F] {t : Nat}

theorem mdsRow_true (x y : Fin t → F) (i : Fin t) (l : List (Fin t)) (hl : l.Nodup) (M M' : Fin t → Fin t → F)
    (h : mdsRow x y i l M = (true, M')) :
    (∀ k, k ≠ i → M' k = M k) ∧ ∀ j, M' i j = if j ∈ l then (x i - y i)⁻¹ else M i j := by
  induction l generalizing M with
  | nil =>
    rw [mdsRow] at h
    have : M = M' := (Prod.mk.inj h).2
    subst this; simp
  | cons a l ih =>
    rw [List.nodup_cons] at hl
    rw [mdsRow] at h
    split at h
    · exact absurd (Prod.mk.inj h).1 (by simp)
    · obtain ⟨h1, h2⟩ := ih hl.2 _ h
      constructor
      · intro k hk; rw [h1 k hk, Function.update_of_ne hk]
      · intro j
        rw [h2 j]
        by_cases hj : j ∈ l
        · simp [hj]
        · by_cases hja : j = a
          · subst hja; simp [hl.1]
          · simp [hj, hja]

theorem mdsRows_true (x y : Fin t → F) (l : List (Fin t)) (hl : l.Nodup) (M M' : Fin t → Fin t → F)
    (h : mdsRows x y l M = (true, M')) :
    (∀ i, i ∉ l → M' i = M i) ∧ ∀ i ∈ l, ∀ j, M' i j = (x i - y i)⁻¹ := by
  induction l generalizing M with
  | nil =>
    rw [mdsRows] at h
    have : M = M' := (Prod.mk.inj h).2
    subst this; simp
  | cons a l ih =>
    rw [List.nodup_cons] at hl
    rw [mdsRows] at h
    split at h
    · rename_i hr
      obtain ⟨h1, h2⟩ := ih hl.2 _ h
      obtain ⟨r1, r2⟩ := mdsRow_true x y a _ (List.nodup_finRange t) M (mdsRow x y a (List.finRange t) M).2
        (Prod.ext hr rfl)
      constructor
      · intro i hi
        rw [List.mem_cons, not_or] at hi
        rw [h1 i hi.2, r1 i hi.1]
      · intro i hi j
        rcases List.mem_cons.1 hi with rfl | hi
        · rw [h1 i hl.1, r2 j, if_pos (List.mem_finRange j)]
        · exact h2 i hi j
    · exact absurd (Prod.mk.inj h).1 (by simp)

/-- A matrix each of whose rows is constant is singular, from width two on. -/
theorem det_constant_rows (ht : 2 ≤ t) (c : Fin t → F) : (Matrix.of fun i (_ : Fin t) => c i).det = 0 :=
  Matrix.det_zero_of_column_eq (i := ⟨0, by omega⟩) (j := ⟨1, by omega⟩) (by simp [Fin.ext_iff]) (by intro k; rfl)

/-- **C47 is false.** From width two on the generator does not return, whatever the random elements and whatever the
matrix contained before: each candidate has constant rows (`x[i] - y[i]` instead of `x[i] - y[j]`), its determinant is
zero and it is rejected. -/
theorem C47_false (ht : 2 ≤ t) (random : Nat → F) (fuel k : Nat) (M : Fin t → Fin t → F) :
    generateMds random fuel k M = none := by
  induction fuel generalizing k M with
  | zero => rfl
  | succ fuel ih =>
    rw [generateMds]
    split
    · exact ih _ _
    · rename_i hdet
      split
      · rename_i h
        exfalso
        apply hdet
        have := (mdsRows_true _ _ _ (List.nodup_finRange t) M _ (Prod.ext h rfl)).2
        rw [← det_constant_rows ht (fun i => (random (2 * t * k + 2 * i.val) - random (2 * t * k + 2 * i.val + 1))⁻¹)]
        congr 1
        funext i j
        exact this i (List.mem_finRange i) j
      · exact ih _ _

/-- **C47, what holds.** At width one the generator returns as soon as two consecutive random elements differ, and the
matrix is then `1 / (x_0 - y_0)`, invertible. -/
theorem C47_partial (random : Nat → F) (k : Nat) (M : Fin 1 → Fin 1 → F) (h : random (2 * k) ≠ random (2 * k + 1)) :
    generateMds (t := 1) random 1 k M = some (fun _ _ => (random (2 * k) - random (2 * k + 1))⁻¹) ∧
    (Matrix.of fun (_ _ : Fin 1) => (random (2 * k) - random (2 * k + 1))⁻¹).det ≠ 0 := by
  have hd : (Matrix.of fun (_ _ : Fin 1) => (random (2 * k) - random (2 * k + 1))⁻¹).det ≠ 0 := by
    rw [Matrix.det_unique]
    exact inv_ne_zero (sub_ne_zero.2 h)
  refine ⟨?_, hd⟩
  have hM : Function.update M 0 (Function.update (M 0) 0 (random (2 * k) - random (2 * k + 1))⁻¹)
      = fun _ _ => (random (2 * k) - random (2 * k + 1))⁻¹ := by
    funext i j
    rw [Subsingleton.elim i 0, Subsingleton.elim j 0]; simp
  have hl : List.finRange 1 = [0] := rfl
  have hr : mdsRows (t := 1) (fun i => random (2 * 1 * k + 2 * i.val)) (fun i => random (2 * 1 * k + 2 * i.val + 1))
      (List.finRange 1) M = (true, fun _ _ => (random (2 * k) - random (2 * k + 1))⁻¹) := by
    simp [hl, mdsRows, mdsRow, h, hM]
  rw [generateMds]
  simp only [hr, if_neg hd, if_true]

theorem mdsRow_accepts (x y : Fin t → F) (i : Fin t) (l : List (Fin t)) (M : Fin t → Fin t → F) :
    (mdsRow x y i l M).1 = true ↔ ∀ j ∈ l, (i ≠ j → x i ≠ x j) ∧ (i ≠ j → y i ≠ y j) ∧ x i ≠ y j := by
  induction l generalizing M with
  | nil => simp [mdsRow]
  | cons j l ih =>
    rw [mdsRow, List.forall_mem_cons]
    split
    · rename_i h
      refine ⟨fun h' => absurd h' (by simp), fun h' => ?_⟩
      rcases h with ⟨h1, h2⟩ | ⟨h1, h2⟩ | h1
      exacts [absurd h2 (h'.1.1 h1), absurd h2 (h'.1.2.1 h1), absurd h1 h'.1.2.2]
    · rename_i h
      rw [ih]
      refine ⟨fun h' => ⟨⟨fun h1 h2 => h (.inl ⟨h1, h2⟩), fun h1 h2 => h (.inr (.inl ⟨h1, h2⟩)), fun h1 => h (.inr (.inr h1))⟩, h'⟩,
        fun h' => h'.2⟩

/-- **C47, the checks.** The loops run to their end for exactly the elements from which a Cauchy matrix can be built: the `x[i]`
are pairwise different, the `y[i]` are, and no `x[i]` is a `y[j]`. -/
theorem C47_checks (x y : Fin t → F) (M : Fin t → Fin t → F) : (mdsRows x y (List.finRange t) M).1 = true ↔
    Function.Injective x ∧ Function.Injective y ∧ ∀ i j, x i ≠ y j := by
  have key : ∀ (l : List (Fin t)) (M : Fin t → Fin t → F), (mdsRows x y l M).1 = true ↔
      ∀ i ∈ l, ∀ j, (i ≠ j → x i ≠ x j) ∧ (i ≠ j → y i ≠ y j) ∧ x i ≠ y j := by
    intro l
    induction l with
    | nil => intro M; simp [mdsRows]
    | cons i l ih =>
      intro M
      have h := mdsRow_accepts x y i (List.finRange t) M
      simp only [List.mem_finRange, forall_true_left] at h
      rw [mdsRows, List.forall_mem_cons, ← h]
      by_cases hr : (mdsRow x y i (List.finRange t) M).1 = true
      · rw [if_pos hr, ih]; exact ⟨fun h' => ⟨hr, h'⟩, fun h' => h'.2⟩
      · rw [if_neg hr]; exact ⟨fun h' => absurd h' (by simp), fun h' => absurd h'.1 hr⟩
  rw [key]
  constructor
  · intro h
    refine ⟨fun i j e => ?_, fun i j e => ?_, fun i j => (h i (List.mem_finRange i) j).2.2⟩
    · by_contra hne; exact (h i (List.mem_finRange i) j).1 hne e
    · by_contra hne; exact (h i (List.mem_finRange i) j).2.1 hne e
  · rintro ⟨h1, h2, h3⟩ i _ j
    exact ⟨fun hne e => hne (h1 e), fun hne e => hne (h2 e), h3 i j⟩

open Polynomial in
/-- A Cauchy matrix is invertible. -/
theorem det_cauchy {n : Nat} (x y : Fin n → F) (hx : Function.Injective x) (hy : Function.Injective y) (hxy : ∀ i j, x i ≠ y j) :
    (Matrix.of fun i j => (x i - y j)⁻¹).det ≠ 0 := by
  intro hdet
  obtain ⟨v, hv, h0⟩ := Matrix.exists_mulVec_eq_zero_iff.2 hdet
  let p : F[X] := ∑ j, C (v j) * ∏ k ∈ Finset.univ.erase j, (X - C (y k))
  have hroot : ∀ i, p.eval (x i) = 0 := by
    intro i
    have hi : ∑ j, (x i - y j)⁻¹ * v j = 0 := congrFun h0 i
    have he : p.eval (x i) = (∏ k, (x i - y k)) * ∑ j, (x i - y j)⁻¹ * v j := by
      rw [Finset.mul_sum, eval_finset_sum]
      refine Finset.sum_congr rfl fun j _ => ?_
      rw [eval_mul, eval_C, eval_prod, ← Finset.mul_prod_erase _ _ (Finset.mem_univ j)]
      simp only [eval_sub, eval_X, eval_C]
      have hne := sub_ne_zero.2 (hxy i j)
      field_simp
    rw [he, hi, mul_zero]
  have hp : p = 0 := by
    refine Polynomial.eq_zero_of_natDegree_lt_card_of_eval_eq_zero p hx hroot ?_
    rw [Fintype.card_fin]
    have hn : 0 < n := by
      rcases Nat.eq_zero_or_pos n with rfl | h
      · exact absurd (Subsingleton.elim v 0) hv
      · exact h
    have : p.natDegree ≤ n - 1 := by
      refine natDegree_sum_le_of_forall_le _ _ fun j _ => ?_
      refine le_trans (natDegree_C_mul_le _ _) ?_
      rw [natDegree_prod_of_monic _ _ fun k _ => monic_X_sub_C _]
      simp
    omega
  apply hv
  funext j
  have he : p.eval (y j) = v j * ∏ k ∈ Finset.univ.erase j, (y j - y k) := by
    rw [eval_finset_sum, Finset.sum_eq_single j]
    · rw [eval_mul, eval_C, eval_prod]; simp
    · intro b _ hb
      rw [eval_mul, eval_prod, Finset.prod_eq_zero (i := j) (Finset.mem_erase.2 ⟨hb.symm, Finset.mem_univ _⟩) (by simp), mul_zero]
    · intro h; exact absurd (Finset.mem_univ j) h
  rw [hp, eval_zero] at he
  refine (mul_eq_zero.1 he.symm).resolve_right (Finset.prod_ne_zero_iff.2 fun k hk => sub_ne_zero.2 fun e => ?_)
  exact (Finset.mem_erase.1 hk).1 (hy e).symm

/-- **C47, the intended matrix.** If the checks pass, the matrix `1 / (x_i - y_j)` has only invertible square submatrices:
with the index `j` in the place of the second `i` of the assignment the generator would return an MDS matrix. -/
theorem C47_intended (x y : Fin t → F) (M : Fin t → Fin t → F) (h : (mdsRows x y (List.finRange t) M).1 = true) {n : Nat}
    (rows cols : Fin n → Fin t) (hr : Function.Injective rows) (hc : Function.Injective cols) :
    ((Matrix.of fun i j => (x i - y j)⁻¹).submatrix rows cols).det ≠ 0 := by
  obtain ⟨h1, h2, h3⟩ := (C47_checks x y M).1 h
  exact det_cauchy (fun i => x (rows i)) (fun j => y (cols j)) (h1.comp hr) (h2.comp hc) fun i j => h3 _ _

end

/-- The checks pass for 1, 2, 3 and 4, 5, 6 modulo 13. -/
example : (mdsRows (F := ZMod 13) (t := 3) (fun i => i.val + 1) (fun i => i.val + 4) (List.finRange 3) (fun _ _ => 0)).1 = true := by
  decide +kernel

example : ((Matrix.of fun i j : Fin 3 => (((i.val : ZMod 13) + 1) - (j.val + 4))⁻¹).submatrix id id).det ≠ 0 :=
  C47_intended (F := ZMod 13) (t := 3) (fun i => i.val + 1) (fun i => i.val + 4) (fun _ _ => 0)
    ((C47_checks _ _ _).2 (by decide +kernel)) id id Function.injective_id Function.injective_id

/-- With random elements 0, 1, 2, … of the field with 13 elements and width two. -/
example (fuel : Nat) : generateMds (F := ZMod 13) (t := 2) (fun n => (n : ZMod 13)) fuel 0 (fun _ _ => 0) = none :=
  C47_false (by decide) _ fuel 0 _

example : generateMds (F := ZMod 13) (t := 1) (fun n => (n : ZMod 13)) 1 0 (fun _ _ => 0) ≠ none := by
  rw [(C47_partial _ 0 _ (by decide)).1]; simp

end Verif.Props
