import Verif.Proof.CipherLaw
import Verif.Proof.Prf
import Mathlib.Data.Nat.Factorial.Basic
/-
A random cipher under different keys at points that depend on the other values: the values are independent and uniform.  Two
uniform families meet.
-/
namespace Verif.Ideal

open Spec.Ideal

variable {K X ι : Type} [Fintype K] [DecidableEq K] [Fintype X] [DecidableEq X] [Fintype ι] [DecidableEq ι]

/-- As many ciphers for all prescribed values under different keys. -/
theorem card_prescribed (k : ι → K) (hk : Function.Injective k) (p u p' u' : ι → X) :
    (Finset.univ.filter fun E : Cipher K X => ∀ i, E (k i) (p i) = u i).card =
      (Finset.univ.filter fun E : Cipher K X => ∀ i, E (k i) (p' i) = u' i).card := by
  let s : K → Equiv.Perm X := Function.extend k (fun i => Equiv.swap (p i) (p' i)) fun _ => 1
  let t : K → Equiv.Perm X := Function.extend k (fun i => Equiv.swap (u i) (u' i)) fun _ => 1
  have hs : ∀ i, s (k i) = Equiv.swap (p i) (p' i) := fun i => hk.extend_apply _ _ _
  have ht : ∀ i, t (k i) = Equiv.swap (u i) (u' i) := fun i => hk.extend_apply _ _ _
  refine Finset.card_bij' (fun E _ => fun κ => ((s κ).symm.trans (E κ)).trans (t κ)) (fun E _ => fun κ => ((s κ).trans (E κ)).trans (t κ).symm)
    ?_ ?_ ?_ ?_
  · intro E h
    simp only [Finset.mem_filter, Finset.mem_univ, true_and, Equiv.trans_apply] at h ⊢
    intro i
    rw [hs, ht, Equiv.symm_swap, Equiv.swap_apply_right, h i, Equiv.swap_apply_left]
  · intro E h
    simp only [Finset.mem_filter, Finset.mem_univ, true_and, Equiv.trans_apply] at h ⊢
    intro i
    rw [hs, ht, Equiv.symm_swap, Equiv.swap_apply_left, h i, Equiv.swap_apply_right]
  · intro E _
    funext κ
    ext z
    simp
  · intro E _
    funext κ
    ext z
    simp

/-- Values under different keys, each at a point and up to a translation that may depend on the others. -/
theorem prob_fresh [Nonempty X] (k : ι → K) (hk : Function.Injective k) (p u : (ι → X) → ι → X) (V : Cipher K X → ι → X)
    (hV : ∀ E v, (∀ i, E (k i) (p v i) = u v i) ↔ v = V E) (P : (ι → X) → Prop) :
    prob (fun E : Cipher K X => P (V E)) = chance P := by
  classical
  obtain ⟨z⟩ := ‹Nonempty X›
  let c := (Finset.univ.filter fun E : Cipher K X => ∀ i, E (k i) z = z).card
  have key : ∀ Q : (ι → X) → Prop, (Finset.univ.filter fun E : Cipher K X => Q (V E)).card = (Finset.univ.filter Q).card * c := by
    intro Q
    rw [Finset.card_eq_sum_card_fiberwise (f := V) (t := Finset.univ.filter Q) (fun E h => by simpa using h),
      Finset.sum_const_nat (m := c)]
    intro v hv
    refine Eq.trans ?_ (card_prescribed k hk (p v) (u v) (fun _ => z) fun _ => z)
    rw [Finset.filter_filter]
    congr 1
    ext E
    simp only [Finset.mem_filter, Finset.mem_univ, true_and] at hv ⊢
    rw [hV]
    exact ⟨fun h => h.2.symm, fun h => ⟨h ▸ hv, h.symm⟩⟩
  have hall := key fun _ => True
  simp only [Finset.filter_true, Finset.card_univ] at hall
  have hc : (c : ℚ) ≠ 0 := by
    intro h
    have h0 : c = 0 := by exact_mod_cast h
    rw [h0, Nat.mul_zero] at hall
    exact Fintype.card_ne_zero hall
  unfold chance
  rw [prob_eq, key P, hall, Nat.cast_mul, Nat.cast_mul, mul_div_mul_right _ _ hc]

omit [DecidableEq X] in
theorem chance_and {Ω Ω' : Type} [Fintype Ω] [Fintype Ω'] [Nonempty Ω] (p : Ω → Prop) (q : Ω' → Prop) :
    (chance fun w : Ω × Ω' => p w.1 ∧ q w.2) = chance p * chance q := by
  classical
  rw [chance_prod]
  have : ∀ a : Ω, (chance fun b => p a ∧ q b) = if p a then chance q else 0 := by
    intro a
    split
    · rename_i h
      simp only [h, true_and]
    · rename_i h
      unfold chance
      simp [h]
  simp only [this]
  rw [← Finset.sum_filter, Finset.sum_const, nsmul_eq_mul]
  unfold chance
  ring_nf

/-! ### Two families -/

variable {a b : Nat}

theorem injective_ge {N : Nat} (hN : 0 < N) (b : Nat) : 1 - (b * (b - 1) : ℚ) / (2 * N) ≤ (N.descFactorial b : ℚ) / N ^ b ∧
    (N.descFactorial b : ℚ) / N ^ b ≤ 1 := by
  have hN' : (1 : ℚ) ≤ N := by exact_mod_cast hN
  induction b with
  | zero => simp
  | succ b ih =>
    have hb0 : (0 : ℚ) ≤ b := Nat.cast_nonneg _
    rcases Nat.lt_or_ge N (b + 1) with hq | hq
    · rw [Nat.descFactorial_eq_zero_iff_lt.2 hq, Nat.cast_zero, zero_div]
      refine ⟨?_, by norm_num⟩
      have h1 : (N : ℚ) ≤ b := by exact_mod_cast (show N ≤ b by omega)
      rw [sub_nonpos, one_le_div (by linarith)]
      push_cast
      nlinarith
    · have e : ((N.descFactorial (b + 1) : Nat) : ℚ) / N ^ (b + 1) = (N.descFactorial b : ℚ) / N ^ b * (1 - b / N) := by
        rw [Nat.descFactorial_succ, Nat.cast_mul, Nat.cast_sub (by omega), pow_succ]
        field_simp
      rw [e]
      obtain ⟨h1, h2⟩ := ih
      set P : ℚ := (N.descFactorial b : ℚ) / N ^ b with hP
      have hP0 : 0 ≤ P := by positivity
      have hδ : 0 ≤ (b : ℚ) / N := by positivity
      refine ⟨?_, by nlinarith⟩
      have e2 : (((b + 1 : Nat) : ℚ) * (((b + 1 : Nat) : ℚ) - 1)) / (2 * N) = (b * (b - 1) : ℚ) / (2 * N) + (b : ℚ) / N := by
        push_cast
        field_simp
        ring
      rw [e2]
      nlinarith

theorem miss_le {N : Nat} (hN : 0 < N) {b : Nat} (hb : b ≤ N) (a : Nat) : (((N : ℚ) - b) / N) ^ a * (a * b + N) ≤ N := by
  have hN' : (1 : ℚ) ≤ N := by exact_mod_cast hN
  have hb' : (b : ℚ) ≤ N := by exact_mod_cast hb
  have hb0 : (0 : ℚ) ≤ b := Nat.cast_nonneg _
  have h0 : (0 : ℚ) ≤ ((N : ℚ) - b) / N := div_nonneg (by linarith) (by linarith)
  induction a with
  | zero => simp
  | succ a ih =>
    refine le_trans ?_ ih
    rw [pow_succ, mul_assoc]
    refine mul_le_mul_of_nonneg_left ?_ (pow_nonneg h0 _)
    rw [div_mul_eq_mul_div, div_le_iff₀ (by linarith)]
    push_cast
    have ha0 : (0 : ℚ) ≤ a := Nat.cast_nonneg _
    nlinarith [mul_nonneg ha0 (mul_nonneg hb0 hb0), mul_nonneg hb0 hb0]

/-- A uniform family hits one of different values. -/
theorem chance_hit (y : Fin b → X) (hy : Function.Injective y) :
    (a * b / (a * b + Fintype.card X) : ℚ) ≤ chance fun x : Fin a → X => ∃ i j, x i = y j := by
  classical
  rcases Nat.eq_zero_or_pos b with rfl | hbpos
  · simp only [Nat.cast_zero, mul_zero, zero_div]
    unfold chance
    positivity
  have hN : 0 < Fintype.card X := Fintype.card_pos_iff.2 ⟨y ⟨0, hbpos⟩⟩
  have hbN : b ≤ Fintype.card X := by
    have := Fintype.card_le_of_injective y hy
    rwa [Fintype.card_fin] at this
  have hN' : (0 : ℚ) < Fintype.card X := by exact_mod_cast hN
  have hC : (Finset.univ.image y).card = b := by rw [Finset.card_image_of_injective _ hy, Finset.card_univ, Fintype.card_fin]
  have hmiss : (Finset.univ.filter fun x : Fin a → X => ¬ ∃ i j, x i = y j).card = (Fintype.card X - b) ^ a := by
    have : (Finset.univ.filter fun x : Fin a → X => ¬ ∃ i j, x i = y j) = Fintype.piFinset fun _ : Fin a => (Finset.univ.image y)ᶜ := by
      ext x
      simp only [Finset.mem_filter, Finset.mem_univ, true_and, Fintype.mem_piFinset, Finset.mem_compl, Finset.mem_image]
      push Not
      exact ⟨fun h i j e => h i j e.symm, fun h i j e => h i j e.symm⟩
    rw [this, Fintype.card_piFinset, Finset.prod_const, Finset.card_compl, hC, Finset.card_univ, Fintype.card_fin]
  have e3 := Finset.card_filter_add_card_filter_not (s := Finset.univ) (fun x : Fin a → X => ∃ i j, x i = y j)
  rw [hmiss, Finset.card_univ, Fintype.card_fun, Fintype.card_fin] at e3
  have e4 : (chance fun x : Fin a → X => ∃ i j, x i = y j) = 1 - (((Fintype.card X : ℚ) - b) / Fintype.card X) ^ a := by
    unfold chance
    rw [Fintype.card_fun, Fintype.card_fin, div_pow, eq_sub_iff_add_eq, Nat.cast_pow, ← add_div, div_eq_one_iff_eq (by positivity),
      ← Nat.cast_sub hbN]
    have e5 : ((Finset.univ.filter fun x : Fin a → X => ∃ i j, x i = y j).card : ℚ) + ((Fintype.card X - b : Nat) : ℚ) ^ a =
        (Fintype.card X : ℚ) ^ a := by
      exact_mod_cast e3
    refine Eq.trans ?_ e5
    congr!
  rw [e4, le_sub_comm]
  have := miss_le hN hbN a
  rw [← le_div_iff₀ (by positivity)] at this
  refine le_trans this (le_of_eq ?_)
  rw [eq_sub_iff_add_eq, ← add_div, add_comm, div_self (by positivity)]

/-- Two uniform families meet. -/
theorem chance_meet [Nonempty X] (a b : Nat) :
    (1 - (b * (b - 1) : ℚ) / (2 * Fintype.card X)) * (a * b / (a * b + Fintype.card X)) ≤
      chance fun w : (Fin b → X) × (Fin a → X) => ∃ i j, w.2 i = w.1 j := by
  classical
  have hN : 0 < Fintype.card X := Fintype.card_pos
  rw [chance_prod]
  set r : ℚ := a * b / (a * b + Fintype.card X) with hr
  have hr0 : 0 ≤ r := by positivity
  have hcard : (Finset.univ.filter fun y : Fin b → X => Function.Injective y).card = (Fintype.card X).descFactorial b := by
    rw [← Fintype.card_subtype, Fintype.card_congr (Equiv.subtypeInjectiveEquivEmbedding _ _), Fintype.card_embedding_eq, Fintype.card_fin]
  have hsum : (Fintype.card X).descFactorial b * r ≤ ∑ y : Fin b → X, chance fun x : Fin a → X => ∃ i j, x i = y j := by
    rw [← hcard, ← nsmul_eq_mul, ← Finset.sum_const]
    refine le_trans (Finset.sum_le_sum fun y hy => chance_hit y (Finset.mem_filter.1 hy).2) ?_
    refine Finset.sum_le_sum_of_subset_of_nonneg (Finset.filter_subset _ _) fun y _ _ => ?_
    unfold chance
    positivity
  have hX : (0 : ℚ) < (Fintype.card (Fin b → X) : Nat) := by exact_mod_cast Fintype.card_pos
  rw [le_div_iff₀ hX]
  refine le_trans ?_ hsum
  have h1 := (injective_ge hN b).1
  rw [le_div_iff₀ (by positivity)] at h1
  rw [Fintype.card_fun, Fintype.card_fin]
  push_cast
  nlinarith [mul_le_mul_of_nonneg_right h1 hr0]

end Verif.Ideal
