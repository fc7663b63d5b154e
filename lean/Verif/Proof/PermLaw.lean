import Verif.Proof.CipherLaw
import Mathlib.Data.Nat.Factorial.Basic
import Mathlib.GroupTheory.Perm.Basic
import Mathlib.Logic.Equiv.Fintype
/-
A random permutation at different points: the values are a uniform family of different values.
-/
namespace Verif.Ideal

open Spec.Ideal

variable {X D R : Type} [Fintype X] [DecidableEq X] [Fintype D] [DecidableEq D] [Fintype R] [DecidableEq R] {q : Nat}

/-- A permutation that leads from one family of different points to another. -/
theorem exists_perm (y y' : Fin q ↪ X) : ∃ τ : Equiv.Perm X, ∀ i, τ (y i) = y' i := by
  classical
  let e : {x // x ∈ Set.range y} ≃ {x // x ∈ Set.range y'} := (Equiv.ofInjective y y.injective).symm.trans (Equiv.ofInjective y' y'.injective)
  refine ⟨e.extendSubtype, fun i => ?_⟩
  rw [Equiv.extendSubtype_apply_of_mem e (y i) ⟨i, rfl⟩]
  show ((Equiv.ofInjective y' y'.injective) ((Equiv.ofInjective y y.injective).symm ⟨y i, i, rfl⟩)).1 = y' i
  have : (Equiv.ofInjective y y.injective).symm ⟨y i, i, rfl⟩ = i := by
    rw [Equiv.symm_apply_eq]
    rfl
  rw [this]
  rfl

theorem card_perm_family (x y y' : Fin q ↪ X) :
    (Finset.univ.filter fun σ : Equiv.Perm X => ∀ i, σ (x i) = y i).card =
      (Finset.univ.filter fun σ : Equiv.Perm X => ∀ i, σ (x i) = y' i).card := by
  obtain ⟨τ, hτ⟩ := exists_perm y y'
  refine Finset.card_bij' (fun σ _ => σ.trans τ) (fun σ _ => σ.trans τ.symm) ?_ ?_ ?_ ?_
  · intro σ h
    simp only [Finset.mem_filter, Finset.mem_univ, true_and, Equiv.trans_apply] at h ⊢
    exact fun i => by rw [h i, hτ i]
  · intro σ h
    simp only [Finset.mem_filter, Finset.mem_univ, true_and, Equiv.trans_apply] at h ⊢
    exact fun i => by rw [h i, ← hτ i, Equiv.symm_apply_apply]
  · intro σ _
    ext z
    simp
  · intro σ _
    ext z
    simp

/-- The values of a random permutation at different points. -/
theorem prob_family (x : Fin q ↪ X) (P : (Fin q → X) → Prop) [DecidablePred P] :
    prob (fun E : Cipher Unit X => P fun i => E () (x i)) =
      (Finset.univ.filter fun y : Fin q ↪ X => P y).card / ((Fintype.card X).descFactorial q : ℚ) := by
  classical
  let c := (Finset.univ.filter fun σ : Equiv.Perm X => ∀ i, σ (x i) = x i).card
  have key : ∀ Q : (Fin q → X) → Prop, ∀ _ : DecidablePred Q,
      (Finset.univ.filter fun σ : Equiv.Perm X => Q fun i => σ (x i)).card =
        (Finset.univ.filter fun y : Fin q ↪ X => Q y).card * c := by
    intro Q _
    rw [Finset.card_eq_sum_card_fiberwise (f := fun σ : Equiv.Perm X => x.trans σ.toEmbedding)
      (t := Finset.univ.filter fun y : Fin q ↪ X => Q y) (fun σ h => by
        simp only [Finset.coe_filter, Finset.mem_univ, true_and, Set.mem_setOf_eq] at h ⊢
        exact h), Finset.sum_const_nat (m := c)]
    intro y hy
    rw [Finset.filter_filter]
    refine Eq.trans ?_ (card_perm_family x y x)
    congr 1
    ext σ
    simp only [Finset.mem_filter, Finset.mem_univ, true_and] at hy ⊢
    constructor
    · rintro ⟨_, e⟩ i
      exact congrArg (fun f : Fin q ↪ X => f i) e
    · intro h
      have e : x.trans σ.toEmbedding = y := Function.Embedding.ext h
      refine ⟨?_, e⟩
      have e2 : (fun i => σ (x i)) = (y : Fin q → X) := funext h
      rw [e2]
      exact hy
  have hall := key (fun _ => True) inferInstance
  simp only [Finset.filter_true, Finset.card_univ, Fintype.card_embedding_eq, Fintype.card_fin] at hall
  have hc : (c : ℚ) ≠ 0 := Nat.cast_ne_zero.2 (Finset.card_ne_zero.2 ⟨1, by simp⟩)
  have hcard : Fintype.card (Cipher Unit X) = Fintype.card (Equiv.Perm X) := Fintype.card_congr (Equiv.funUnique Unit _)
  have hnum : (Finset.univ.filter fun E : Cipher Unit X => P fun i => E () (x i)).card =
      (Finset.univ.filter fun σ : Equiv.Perm X => P fun i => σ (x i)).card :=
    Finset.card_bij' (fun E _ => E ()) (fun σ _ => fun _ => σ) (by intro E h; simpa using h) (by intro σ h; simpa using h)
      (fun _ _ => rfl) (fun _ _ => rfl)
  rw [prob_eq, hnum, hcard, key P inferInstance, hall, Nat.cast_mul, Nat.cast_mul, mul_div_mul_right _ _ hc]

/-- Families whose first parts are different. -/
theorem card_family_injective (s : X ≃ D × R) :
    (Finset.univ.filter fun y : Fin q ↪ X => Function.Injective fun i => (s (y i)).1).card =
      (Fintype.card D).descFactorial q * Fintype.card R ^ q := by
  rw [← Fintype.card_subtype]
  have : {y : Fin q ↪ X // Function.Injective fun i => (s (y i)).1} ≃ (Fin q ↪ D) × (Fin q → R) :=
    { toFun := fun y => (⟨fun i => (s (y.1 i)).1, y.2⟩, fun i => (s (y.1 i)).2)
      invFun := fun p => ⟨⟨fun i => s.symm (p.1 i, p.2 i), fun i j e => p.1.injective (Prod.mk.inj (s.symm.injective e)).1⟩,
        fun i j e => by
          have e : (s (s.symm (p.1 i, p.2 i))).1 = (s (s.symm (p.1 j, p.2 j))).1 := e
          rw [s.apply_symm_apply, s.apply_symm_apply] at e
          exact p.1.injective e⟩
      left_inv := fun y => by
        apply Subtype.ext
        apply Function.Embedding.ext
        intro i
        exact s.symm_apply_apply (y.1 i)
      right_inv := fun p => by
        refine Prod.ext (Function.Embedding.ext fun i => ?_) (funext fun i => ?_)
        · exact congrArg Prod.fst (s.apply_symm_apply _)
        · exact congrArg Prod.snd (s.apply_symm_apply _) }
  rw [Fintype.card_congr this, Fintype.card_prod, Fintype.card_embedding_eq, Fintype.card_fun, Fintype.card_fin]

/-- Families whose first parts avoid a value. -/
theorem card_family_avoid (s : X ≃ D × R) (u : D) :
    (Finset.univ.filter fun y : Fin q ↪ X => ∀ i, (s (y i)).1 ≠ u).card =
      (Fintype.card X - Fintype.card R).descFactorial q := by
  rw [← Fintype.card_subtype]
  have : {y : Fin q ↪ X // ∀ i, (s (y i)).1 ≠ u} ≃ (Fin q ↪ {x : X // (s x).1 ≠ u}) :=
    { toFun := fun y => ⟨fun i => ⟨y.1 i, y.2 i⟩, fun i j e => y.1.injective (congrArg Subtype.val e)⟩
      invFun := fun p => ⟨p.trans (Function.Embedding.subtype _), fun i => (p i).2⟩
      left_inv := fun y => rfl
      right_inv := fun p => rfl }
  have hR : Fintype.card {x : X // (s x).1 = u} = Fintype.card R :=
    Fintype.card_congr
      { toFun := fun x => (s x.1).2
        invFun := fun r => ⟨s.symm (u, r), by rw [s.apply_symm_apply]⟩
        left_inv := fun x => by
          apply Subtype.ext
          show s.symm (u, (s x.1).2) = x.1
          rw [Equiv.symm_apply_eq]
          exact Prod.ext x.2.symm rfl
        right_inv := fun r => by
          show (s (s.symm (u, r))).2 = r
          rw [s.apply_symm_apply] }
  rw [Fintype.card_congr this, Fintype.card_embedding_eq, Fintype.card_fin, Fintype.card_subtype_compl, hR]

/-- A random permutation cut to `N` values is at most so much better than a random function. -/
theorem cut_birthday_le {N M : Nat} (hN : 0 < N) (hM : 0 < M) (q : Nat) :
    ((N.descFactorial q * M ^ q : Nat) : ℚ) / ((N * M).descFactorial q : Nat) * (q * (q - 1) * (M - 1) + 2 * (N * M)) ≤ 2 * (N * M) := by
  have hN' : (1 : ℚ) ≤ N := by exact_mod_cast hN
  have hM' : (1 : ℚ) ≤ M := by exact_mod_cast hM
  have hNM : (1 : ℚ) ≤ N * M := by nlinarith
  induction q with
  | zero => simp
  | succ q ih =>
    rcases Nat.lt_or_ge N (q + 1) with hq | hq
    · rw [Nat.descFactorial_eq_zero_iff_lt.2 hq, Nat.zero_mul, Nat.cast_zero, zero_div, zero_mul]
      positivity
    · have hqNM : q < N * M := lt_of_lt_of_le (by omega) (Nat.le_mul_of_pos_right N hM)
      have hpos : (0 : ℚ) < ((N * M).descFactorial q : Nat) := by
        exact_mod_cast Nat.pos_of_ne_zero fun h => by
          rw [Nat.descFactorial_eq_zero_iff_lt] at h
          omega
      have hq0 : (0 : ℚ) ≤ q := Nat.cast_nonneg _
      have hqN : (q : ℚ) + 1 ≤ N := by exact_mod_cast hq
      have hqNM' : (0 : ℚ) < N * M - q := by
        have : (q : ℚ) < N * M := by exact_mod_cast hqNM
        linarith
      have e : ((N.descFactorial (q + 1) * M ^ (q + 1) : Nat) : ℚ) / ((N * M).descFactorial (q + 1) : Nat) *
          (((q + 1 : Nat) : ℚ) * (((q + 1 : Nat) : ℚ) - 1) * (M - 1) + 2 * (N * M)) =
          ((N.descFactorial q * M ^ q : Nat) : ℚ) / ((N * M).descFactorial q : Nat) *
            (((N : ℚ) - q) * M * ((q + 1) * q * (M - 1) + 2 * (N * M)) / (N * M - q)) := by
        rw [Nat.descFactorial_succ, Nat.descFactorial_succ, pow_succ]
        push_cast [Nat.cast_sub (show q ≤ N by omega), Nat.cast_sub (le_of_lt hqNM)]
        field_simp
        ring
      rw [e]
      refine le_trans (mul_le_mul_of_nonneg_left ?_ (by positivity)) ih
      rw [div_le_iff₀ hqNM']
      have hA : (0 : ℚ) ≤ q * (M - 1) := mul_nonneg hq0 (by linarith)
      -- with `x = q (M - 1)`: `(N M - q - x) (A + 2 x) ≤ A (N M - q)`, where `A = q (q - 1) (M - 1) + 2 N M`
      have hqq : (0 : ℚ) ≤ (q : ℚ) * (q - 1) := by
        rcases Nat.eq_zero_or_pos q with rfl | h0
        · simp
        · have h1 : (1 : ℚ) ≤ q := by exact_mod_cast h0
          exact mul_nonneg hq0 (by linarith)
      have hS : (0 : ℚ) ≤ (q : ℚ) * (q - 1) * (M - 1) := mul_nonneg hqq (by linarith)
      nlinarith [mul_nonneg hA hS, mul_nonneg hA hA, mul_nonneg hA hq0]

theorem cut_search_le {N M : Nat} (hN : 0 < N) (hM : 0 < M) (q : Nat) :
    ((N * M - M).descFactorial q : ℚ) / ((N * M).descFactorial q : Nat) * (q + N) ≤ N := by
  have hN' : (1 : ℚ) ≤ N := by exact_mod_cast hN
  have hM' : (1 : ℚ) ≤ M := by exact_mod_cast hM
  induction q with
  | zero => simp
  | succ q ih =>
    rcases Nat.lt_or_ge (N * M - M) (q + 1) with hq | hq
    · rw [Nat.descFactorial_eq_zero_iff_lt.2 hq, Nat.cast_zero, zero_div, zero_mul]
      positivity
    · have hle : M ≤ N * M := Nat.le_mul_of_pos_left M hN
      have hq0 : (0 : ℚ) ≤ q := Nat.cast_nonneg _
      have hpos : (0 : ℚ) < ((N * M).descFactorial q : Nat) := by
        exact_mod_cast Nat.pos_of_ne_zero fun h => by
          rw [Nat.descFactorial_eq_zero_iff_lt] at h
          omega
      have hq1 : (0 : ℚ) < N * M - q := by
        have : (q : ℚ) < ((N * M : Nat) : ℚ) := Nat.cast_lt.2 (by omega)
        push_cast at this
        linarith
      have e : ((N * M - M).descFactorial (q + 1) : ℚ) / ((N * M).descFactorial (q + 1) : Nat) * (((q + 1 : Nat) : ℚ) + N) =
          ((N * M - M).descFactorial q : ℚ) / ((N * M).descFactorial q : Nat) * (((N : ℚ) * M - M - q) * (q + 1 + N) / (N * M - q)) := by
        rw [Nat.descFactorial_succ, Nat.descFactorial_succ]
        push_cast [Nat.cast_sub (show q ≤ N * M - M by omega), Nat.cast_sub (show q ≤ N * M by omega), Nat.cast_sub hle]
        field_simp
      rw [e]
      refine le_trans (mul_le_mul_of_nonneg_left ?_ (by positivity)) ih
      rw [div_le_iff₀ hq1]
      nlinarith [mul_nonneg hq0 (by linarith : (0 : ℚ) ≤ M - 1)]

end Verif.Ideal
