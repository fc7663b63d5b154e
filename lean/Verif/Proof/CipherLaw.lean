import Mathlib.Algebra.BigOperators.Field
import Mathlib.Data.Fintype.BigOperators
import Mathlib.Data.Fintype.CardEmbedding
import Mathlib.Algebra.Order.BigOperators.Ring.Finset
import Mathlib.Algebra.Order.Field.Basic
import Mathlib.Tactic.Linarith
import Mathlib.Tactic.FieldSimp
import Mathlib.Tactic.Positivity
import Verif.Spec.IdealCipher
/-
A random cipher under different keys: the values are independent and uniform.
-/
namespace Verif.Ideal

open Spec.Ideal

variable {K X D : Type} [Fintype K] [DecidableEq K] [Fintype X] [DecidableEq X]

theorem card_perm_value (x y y' : X) :
    (Finset.univ.filter fun σ : Equiv.Perm X => σ x = y).card = (Finset.univ.filter fun σ : Equiv.Perm X => σ x = y').card := by
  refine Finset.card_bij' (fun σ _ => σ.trans (Equiv.swap y y')) (fun σ _ => σ.trans (Equiv.swap y y')) ?_ ?_ ?_ ?_
  · intro σ h
    simp only [Finset.mem_filter, Finset.mem_univ, true_and, Equiv.trans_apply] at h ⊢
    rw [h, Equiv.swap_apply_left]
  · intro σ h
    simp only [Finset.mem_filter, Finset.mem_univ, true_and, Equiv.trans_apply] at h ⊢
    rw [h, Equiv.swap_apply_right]
  · intro σ _
    ext z
    simp
  · intro σ _
    ext z
    simp

theorem card_perm_mem (x : X) (S : Finset X) :
    (Finset.univ.filter fun σ : Equiv.Perm X => σ x ∈ S).card * Fintype.card X = S.card * Fintype.card (Equiv.Perm X) := by
  have h1 : ∀ T : Finset X, (Finset.univ.filter fun σ : Equiv.Perm X => σ x ∈ T).card =
      T.card * (Finset.univ.filter fun σ : Equiv.Perm X => σ x = x).card := fun T => by
    rw [Finset.card_eq_sum_card_fiberwise (f := fun σ : Equiv.Perm X => σ x) (t := T)
      (fun σ h => by simpa using h), Finset.sum_const_nat (m := (Finset.univ.filter fun σ : Equiv.Perm X => σ x = x).card)]
    intro y hy
    rw [← card_perm_value x y x, Finset.filter_filter]
    congr 1
    ext σ
    simp only [Finset.mem_filter, Finset.mem_univ, true_and]
    exact ⟨fun h => h.2, fun h => ⟨h ▸ hy, h⟩⟩
  have h2 := h1 Finset.univ
  simp only [Finset.mem_univ, Finset.filter_true, Finset.card_univ] at h2
  rw [h1 S, h2]
  ring

theorem prob_eq (p : Cipher K X → Prop) [DecidablePred p] :
    prob p = (Finset.univ.filter p).card / (Fintype.card (Cipher K X) : ℚ) := by
  unfold prob
  congr!

variable {q : Nat}

/-- Under different keys the values are independent. -/
theorem prob_keys [Nonempty X] (k : Fin q → K) (hk : Function.Injective k) (x : Fin q → X) (S : Fin q → Finset X) :
    prob (fun E : Cipher K X => ∀ i, E (k i) (x i) ∈ S i) = ∏ i, ((S i).card : ℚ) / Fintype.card X := by
  classical
  have hN : (Fintype.card X : ℚ) ≠ 0 := Nat.cast_ne_zero.2 Fintype.card_ne_zero
  have hP : (Fintype.card (Equiv.Perm X) : ℚ) ≠ 0 := Nat.cast_ne_zero.2 Fintype.card_ne_zero
  rw [prob_eq]
  have e : (Finset.univ.filter fun E : Cipher K X => ∀ i, E (k i) (x i) ∈ S i) =
      Fintype.piFinset fun κ => Finset.univ.filter fun σ : Equiv.Perm X => ∀ i, k i = κ → σ (x i) ∈ S i := by
    ext E
    simp only [Finset.mem_filter, Finset.mem_univ, true_and, Fintype.mem_piFinset]
    exact ⟨fun h κ i hi => hi ▸ h i, fun h i => h _ i rfl⟩
  rw [e, Fintype.card_piFinset, Fintype.card_pi, Nat.cast_prod, Nat.cast_prod, ← Finset.prod_div_distrib]
  rw [← Finset.prod_subset (Finset.subset_univ (Finset.univ.image k))]
  · rw [Finset.prod_image fun i _ j _ h => hk h]
    apply Finset.prod_congr rfl
    intro i _
    have e1 : (Finset.univ.filter fun σ : Equiv.Perm X => ∀ j, k j = k i → σ (x j) ∈ S j) =
        Finset.univ.filter fun σ : Equiv.Perm X => σ (x i) ∈ S i := by
      ext σ
      simp only [Finset.mem_filter, Finset.mem_univ, true_and]
      exact ⟨fun h => h i rfl, fun h j hj => hk hj ▸ h⟩
    rw [e1, div_eq_div_iff hP hN]
    exact_mod_cast card_perm_mem (x i) (S i)
  · intro κ _ hκ
    have e1 : (Finset.univ.filter fun σ : Equiv.Perm X => ∀ j, k j = κ → σ (x j) ∈ S j) = Finset.univ :=
      Finset.filter_true_of_mem fun σ _ j hj => absurd (Finset.mem_image.2 ⟨j, Finset.mem_univ _, hj⟩) hκ
    rw [e1, Finset.card_univ, div_self hP]

variable [Fintype D] [DecidableEq D]

/-- Functions of the values whose fibres have one size give independent, uniform results. -/
theorem prob_values [Nonempty X] (k : Fin q → K) (hk : Function.Injective k) (x : Fin q → X) (f : Fin q → X → D) (M : Nat)
    (hf : ∀ i d, (Finset.univ.filter fun y => f i y = d).card = M) (P : (Fin q → D) → Prop) [DecidablePred P] :
    prob (fun E : Cipher K X => P fun i => f i (E (k i) (x i))) =
      (Finset.univ.filter P).card / (Fintype.card D : ℚ) ^ q := by
  classical
  have hX : Fin q → (M : ℚ) / Fintype.card X = 1 / Fintype.card D := fun i => by
    have h1 : Fintype.card X = Fintype.card D * M := by
      rw [← Finset.card_univ, Finset.card_eq_sum_card_fiberwise (f := f i) (t := Finset.univ) (fun _ _ => by simp),
        Finset.sum_const_nat (m := M) (fun d _ => hf i d), Finset.card_univ]
    have hN : Fintype.card X ≠ 0 := Fintype.card_ne_zero
    have hM : (M : ℚ) ≠ 0 := Nat.cast_ne_zero.2 fun h => hN (by rw [h1, h, Nat.mul_zero])
    rw [h1]
    push_cast
    rw [mul_comm, ← div_div, div_self hM]
  have hone : ∀ t : Fin q → D, prob (fun E : Cipher K X => ∀ i, f i (E (k i) (x i)) = t i) = 1 / (Fintype.card D : ℚ) ^ q := fun t => by
    have := prob_keys k hk x fun i => Finset.univ.filter fun y => f i y = t i
    simp only [Finset.mem_filter, Finset.mem_univ, true_and] at this
    rw [this, Finset.prod_congr rfl fun i _ => by rw [hf i (t i), hX i], Finset.prod_const, Finset.card_univ, Fintype.card_fin,
      div_pow, one_pow]
  rw [prob_eq, Finset.card_eq_sum_card_fiberwise (f := fun E : Cipher K X => fun i => f i (E (k i) (x i)))
    (t := Finset.univ.filter P) (fun E h => by simpa using h), Nat.cast_sum, Finset.sum_div]
  have hsum : ∀ t ∈ Finset.univ.filter P, ((Finset.univ.filter fun E : Cipher K X => P fun i => f i (E (k i) (x i))).filter
      fun E => (fun i => f i (E (k i) (x i))) = t).card / (Fintype.card (Cipher K X) : ℚ) = 1 / (Fintype.card D : ℚ) ^ q := by
    intro t ht
    rw [← hone t, prob_eq, Finset.filter_filter]
    congr 3
    ext E
    simp only [Finset.mem_filter, Finset.mem_univ, true_and] at ht ⊢
    exact ⟨fun h i => congrFun h.2 i, fun h => ⟨(funext h : (fun i => f i (E (k i) (x i))) = t) ▸ ht, funext h⟩⟩
  rw [Finset.sum_congr rfl hsum, Finset.sum_const, nsmul_eq_mul, mul_one_div]

end Verif.Ideal
