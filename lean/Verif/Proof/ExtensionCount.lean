import Verif.Spec.Indifferentiable
import Mathlib.Data.Fintype.BigOperators
import Mathlib.Algebra.Order.BigOperators.Group.Finset
import Mathlib.Algebra.Order.Field.Basic
import Mathlib.Tactic.Linarith
import Mathlib.Tactic.FieldSimp
import Mathlib.Algebra.BigOperators.Ring.Finset
/- Counting random functions: the value at a point that a bounded number of questions does not reveal. -/
namespace Verif.Ideal

variable {M D I C : Type} [Fintype M] [Fintype D] [Fintype I] [Fintype C]

section
open Classical

/-- The value at one point. -/
theorem card_value (b : M) (p : D → Prop) : (Finset.univ.filter fun F : M → D => p (F b)).card * Fintype.card D ≤
    (Finset.univ.filter p).card * Fintype.card (M → D) := by
  rw [← Finset.card_univ (α := D), ← Finset.card_univ (α := M → D), ← Finset.card_product, ← Finset.card_product]
  refine Finset.card_le_card_of_injOn (fun x => (x.1 b, Function.update x.1 b x.2)) ?_ ?_
  · intro x hx
    have h := (Finset.mem_filter.1 (Finset.mem_product.1 (Finset.mem_coe.1 hx)).1).2
    exact Finset.mem_coe.2 (Finset.mem_product.2 ⟨Finset.mem_filter.2 ⟨Finset.mem_univ _, h⟩, Finset.mem_univ _⟩)
  · rintro ⟨F, v⟩ _ ⟨F', v'⟩ _ h
    obtain ⟨h1, h2⟩ := Prod.mk.inj h
    have hv : v = v' := by
      have := congrFun h2 b
      simpa using this
    refine Prod.ext (funext fun m => ?_) hv
    by_cases hm : m = b
    · rw [hm]; exact h1
    · have := congrFun h2 m
      simpa [Function.update_of_ne hm] using this

/-- A value determined by the others. -/
theorem card_determined (e : M) (q : (M → D) → Prop) (val : (M → D) → D)
    (hval : ∀ F F', (∀ m, m ≠ e → F m = F' m) → q F → q F' → val F = val F') :
    (Finset.univ.filter fun F : M → D => q F ∧ F e = val F).card * Fintype.card D ≤ Fintype.card (M → D) := by
  rw [← Finset.card_univ (α := D), ← Finset.card_univ (α := M → D), ← Finset.card_product]
  refine Finset.card_le_card_of_injOn (fun x => Function.update x.1 e x.2) (fun _ _ => Finset.mem_coe.2 (Finset.mem_univ _)) ?_
  rintro ⟨F, v⟩ hF ⟨F', v'⟩ hF' h
  have h1 := (Finset.mem_filter.1 (Finset.mem_product.1 (Finset.mem_coe.1 hF)).1).2
  have h1' := (Finset.mem_filter.1 (Finset.mem_product.1 (Finset.mem_coe.1 hF')).1).2
  have hoff : ∀ m, m ≠ e → F m = F' m := fun m hm => by
    have := congrFun h m
    simpa [Function.update_of_ne hm] using this
  refine Prod.ext (funext fun m => ?_) (by have := congrFun h e; simpa using this)
  by_cases hm : m = e
  · rw [hm]
    exact h1.2.trans ((hval F F' hoff h1.1 h1'.1).trans h1'.2.symm)
  · exact hoff m hm

/-- Someone who learns `F (base i)` and asks for one more value cannot tell `F (ext i)`, on average over `i`. -/
theorem card_guess (base ext : I → M) (hext : Function.Injective ext) (hne : ∀ i j, base i ≠ ext j)
    (W : D → Option M) (g : D → Option D → D) :
    (∑ i, (Finset.univ.filter fun F : M → D => F (ext i) = g (F (base i)) ((W (F (base i))).map F)).card) * Fintype.card D ≤
      Fintype.card (M → D) * (Fintype.card D + Fintype.card I) := by
  have hsplit : ∀ i, (Finset.univ.filter fun F : M → D => F (ext i) = g (F (base i)) ((W (F (base i))).map F)).card ≤
      (Finset.univ.filter fun F : M → D => W (F (base i)) = some (ext i)).card +
        (Finset.univ.filter fun F : M → D => W (F (base i)) ≠ some (ext i) ∧
          F (ext i) = g (F (base i)) ((W (F (base i))).map F)).card := by
    intro i
    refine le_trans (Finset.card_le_card fun F hF => ?_) (Finset.card_union_le _ _)
    simp only [Finset.mem_union, Finset.mem_filter, Finset.mem_univ, true_and] at hF ⊢
    by_cases h : W (F (base i)) = some (ext i)
    · exact Or.inl h
    · exact Or.inr ⟨h, hF⟩
  have hhit : (∑ i, (Finset.univ.filter fun F : M → D => W (F (base i)) = some (ext i)).card) * Fintype.card D ≤
      Fintype.card D * Fintype.card (M → D) := by
    rw [Finset.sum_mul]
    have hv : ∀ i ∈ (Finset.univ : Finset I), (Finset.univ.filter fun F : M → D => W (F (base i)) = some (ext i)).card * Fintype.card D ≤
        (Finset.univ.filter fun v => W v = some (ext i)).card * Fintype.card (M → D) := fun i _ => by
      convert card_value (base i) fun v => W v = some (ext i)
    refine le_trans (Finset.sum_le_sum hv) ?_
    rw [← Finset.sum_mul]
    refine Nat.mul_le_mul_right _ ?_
    rw [← Finset.card_biUnion, ← Finset.card_univ]
    · exact Finset.card_le_card (Finset.subset_univ _)
    · intro i _ j _ hij
      refine Finset.disjoint_filter.2 fun v _ h h' => hij (hext (Option.some.inj (h.symm.trans h')))
  have hmiss : ∀ i, (Finset.univ.filter fun F : M → D => W (F (base i)) ≠ some (ext i) ∧
      F (ext i) = g (F (base i)) ((W (F (base i))).map F)).card * Fintype.card D ≤ Fintype.card (M → D) := by
    intro i
    have key := card_determined (ext i) (fun F => W (F (base i)) ≠ some (ext i)) (fun F => g (F (base i)) ((W (F (base i))).map F)) ?_
    · convert key
    intro F F' h hF _
    have hb := h _ (hne i i)
    simp only [← hb]
    refine congrArg _ ?_
    cases hW : W (F (base i)) with
    | none => rfl
    | some m =>
      have hm : m ≠ ext i := fun e => hF (by rw [hW, e])
      simp only [Option.map_some]
      rw [h m hm]
  refine le_trans (Nat.mul_le_mul_right _ (Finset.sum_le_sum fun i _ => hsplit i)) ?_
  rw [Finset.sum_add_distrib, Nat.add_mul, Nat.mul_add]
  refine Nat.add_le_add (by rw [Nat.mul_comm (Fintype.card (M → D))]; exact hhit) ?_
  rw [Finset.sum_mul]
  refine le_trans (Finset.sum_le_sum fun i _ => hmiss i) ?_
  rw [Finset.sum_const, Finset.card_univ, nsmul_eq_mul, Nat.cast_id, Nat.mul_comm]

/-- The same with random coins: for some `i` the chance is at most `1 / |I| + 1 / |D|`. -/
theorem exists_guess [Nonempty I] [Nonempty D] [Nonempty C] (base ext : I → M) (hext : Function.Injective ext) (hne : ∀ i j, base i ≠ ext j)
    (W : C → D → Option M) (g : C → D → Option D → D) :
    ∃ i, ((Finset.univ.filter fun w : (M → D) × C =>
        w.1 (ext i) = g w.2 (w.1 (base i)) ((W w.2 (w.1 (base i))).map w.1)).card : ℚ) / Fintype.card ((M → D) × C) ≤
      1 / Fintype.card I + 1 / Fintype.card D := by
  let n : I → Nat := fun i => (Finset.univ.filter fun w : (M → D) × C =>
    w.1 (ext i) = g w.2 (w.1 (base i)) ((W w.2 (w.1 (base i))).map w.1)).card
  have hn : ∀ i, n i = ∑ c : C, (Finset.univ.filter fun F : M → D =>
      F (ext i) = g c (F (base i)) ((W c (F (base i))).map F)).card := by
    intro i
    have h := Finset.card_eq_sum_card_fiberwise (s := Finset.univ.filter fun w : (M → D) × C =>
      w.1 (ext i) = g w.2 (w.1 (base i)) ((W w.2 (w.1 (base i))).map w.1)) (t := Finset.univ)
      (f := fun w : (M → D) × C => w.2) (fun _ _ => Finset.mem_coe.2 (Finset.mem_univ _))
    refine h.trans (Finset.sum_congr rfl fun c _ => ?_)
    refine Finset.card_bij (fun w _ => w.1) ?_ ?_ ?_
    · intro w hw
      simp only [Finset.mem_filter, Finset.mem_univ, true_and] at hw ⊢
      obtain ⟨h1, rfl⟩ := hw
      exact h1
    · intro w hw w' hw' e
      simp only [Finset.mem_filter, Finset.mem_univ, true_and] at hw hw'
      exact Prod.ext e (hw.2.trans hw'.2.symm)
    · intro F hF
      simp only [Finset.mem_filter, Finset.mem_univ, true_and] at hF
      exact ⟨(F, c), by simp only [Finset.mem_filter, Finset.mem_univ, true_and]; exact ⟨hF, trivial⟩, rfl⟩
  have hsum : (∑ i, n i) * Fintype.card D ≤ Fintype.card ((M → D) × C) * (Fintype.card D + Fintype.card I) := by
    simp only [hn]
    rw [Finset.sum_comm, Finset.sum_mul]
    refine le_trans (Finset.sum_le_sum fun c _ => card_guess base ext hext hne (W c) (g c)) ?_
    rw [Finset.sum_const, Finset.card_univ, nsmul_eq_mul, Nat.cast_id, Fintype.card_prod]
    rw [← Nat.mul_assoc, Nat.mul_comm (Fintype.card C)]
  have hI : (0 : ℚ) < Fintype.card I := Nat.cast_pos.2 Fintype.card_pos
  have hD : (0 : ℚ) < Fintype.card D := Nat.cast_pos.2 Fintype.card_pos
  have hO : (0 : ℚ) < Fintype.card ((M → D) × C) := Nat.cast_pos.2 Fintype.card_pos
  by_contra hcon
  simp only [not_exists, not_le] at hcon
  have hlt : ∀ i, (Fintype.card ((M → D) × C) : ℚ) * (1 / Fintype.card I + 1 / Fintype.card D) < n i := by
    intro i
    have := hcon i
    rw [lt_div_iff₀ hO, mul_comm] at this
    exact this
  have h1 : (∑ _i : I, (Fintype.card ((M → D) × C) : ℚ) * (1 / Fintype.card I + 1 / Fintype.card D)) < ∑ i, (n i : ℚ) :=
    Finset.sum_lt_sum_of_nonempty Finset.univ_nonempty fun i _ => hlt i
  rw [Finset.sum_const, Finset.card_univ, nsmul_eq_mul] at h1
  have h2 : (∑ i, (n i : ℚ)) * Fintype.card D ≤ Fintype.card ((M → D) × C) * (Fintype.card D + Fintype.card I) := by
    have := Nat.cast_le (α := ℚ).2 hsum
    push_cast at this ⊢
    exact this
  have h3 := mul_lt_mul_of_pos_right h1 hD
  have h4 : (Fintype.card I : ℚ) * ((Fintype.card ((M → D) × C) : ℚ) * (1 / Fintype.card I + 1 / Fintype.card D)) * Fintype.card D =
      Fintype.card ((M → D) × C) * (Fintype.card D + Fintype.card I) := by
    field_simp
  rw [h4] at h3
  exact absurd h2 (not_le.2 h3)

end

end Verif.Ideal
