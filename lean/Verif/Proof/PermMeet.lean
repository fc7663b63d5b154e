import Verif.Proof.PermLaw
/-
A random permutation at some points, its inverse at others: how often a value of the one family meets a value of the other.
-/
namespace Verif.Ideal

open Spec.Ideal

variable {X D : Type} [Fintype X] [DecidableEq X] [DecidableEq D] {a b : Nat}

/-- A permutation that leads from one family of different points to another, for any index set. -/
theorem exists_perm' {ι : Type} (y y' : ι ↪ X) : ∃ τ : Equiv.Perm X, ∀ i, τ (y i) = y' i := by
  classical
  let e : {x // x ∈ Set.range y} ≃ {x // x ∈ Set.range y'} := (Equiv.ofInjective y y.injective).symm.trans (Equiv.ofInjective y' y'.injective)
  refine ⟨e.extendSubtype, fun i => ?_⟩
  rw [Equiv.extendSubtype_apply_of_mem e (y i) ⟨i, rfl⟩]
  show ((Equiv.ofInjective y' y'.injective) ((Equiv.ofInjective y y.injective).symm ⟨y i, i, rfl⟩)).1 = y' i
  have : (Equiv.ofInjective y y.injective).symm ⟨y i, i, rfl⟩ = i := by
    rw [Equiv.symm_apply_eq]
    rfl
  rw [this]
  rfl

/-- The points outside the family. -/
abbrev Outside (x : Fin a ↪ X) := {z : X // z ∉ Set.range x}

theorem card_outside (x : Fin a ↪ X) [Fintype (Outside x)] : Fintype.card (Outside x) = Fintype.card X - a := by
  classical
  have h : Fintype.card {z : X // z ∈ Set.range x} = a := by
    rw [Fintype.card_congr (Equiv.ofInjective x x.injective).symm, Fintype.card_fin]
  have := Fintype.card_subtype_compl (fun z => z ∈ Set.range x)
  rw [h] at this
  rw [← this]

open Classical in
/-- The inverse at `y`, for the permutations with given values at `x`: all families of different points outside `x`, equally often. -/
theorem card_back (x u : Fin a ↪ X) (y : Fin b ↪ X) (P : (Fin b → X) → Prop) (hd : ∀ i j, u i ≠ y j) :
    (Finset.univ.filter fun σ : Equiv.Perm X => (∀ i, σ (x i) = u i) ∧ P fun j => σ.symm (y j)).card *
        (Fintype.card X - a).descFactorial b =
      (Finset.univ.filter fun σ : Equiv.Perm X => ∀ i, σ (x i) = u i).card *
        (Finset.univ.filter fun v : Fin b ↪ Outside x => P fun j => (v j).1).card := by
  -- the values of the inverse
  have hout : ∀ σ : Equiv.Perm X, (∀ i, σ (x i) = u i) → ∀ j, σ.symm (y j) ∉ Set.range x := by
    rintro σ h j ⟨i, hi⟩
    refine hd i j ?_
    rw [← h i, hi, Equiv.apply_symm_apply]
  let fib : (Fin b ↪ Outside x) → Nat := fun v =>
    (Finset.univ.filter fun σ : Equiv.Perm X => (∀ i, σ (x i) = u i) ∧ ∀ j, σ.symm (y j) = (v j).1).card
  have hfib : ∀ v v', fib v = fib v' := by
    intro v v'
    have emb : ∀ w : Fin b ↪ Outside x, Function.Injective (Sum.elim x fun j => (w j).1) := fun w =>
      Function.Injective.sumElim x.injective (fun i j e => w.injective (Subtype.ext e)) fun i j e => (w j).2 ⟨i, e⟩
    obtain ⟨τ, hτ⟩ := exists_perm' (⟨_, emb v⟩ : Fin a ⊕ Fin b ↪ X) ⟨_, emb v'⟩
    have h1 : ∀ i, τ (x i) = x i := fun i => hτ (.inl i)
    have h2 : ∀ j, τ (v j).1 = (v' j).1 := fun j => hτ (.inr j)
    refine Finset.card_bij' (fun σ _ => τ.symm.trans σ) (fun σ _ => τ.trans σ) ?_ ?_ ?_ ?_
    · intro σ h
      simp only [Finset.mem_filter, Finset.mem_univ, true_and, Equiv.trans_apply, Equiv.symm_trans_apply, Equiv.symm_symm] at h ⊢
      refine ⟨fun i => ?_, fun j => ?_⟩
      · rw [show τ.symm (x i) = x i by rw [Equiv.symm_apply_eq, h1]]
        exact h.1 i
      · rw [h.2 j, h2 j]
    · intro σ h
      simp only [Finset.mem_filter, Finset.mem_univ, true_and, Equiv.trans_apply, Equiv.symm_trans_apply] at h ⊢
      refine ⟨fun i => by rw [h1 i]; exact h.1 i, fun j => ?_⟩
      rw [h.2 j, Equiv.symm_apply_eq, h2 j]
    · intro σ _
      ext z
      simp
    · intro σ _
      ext z
      simp
  have key : ∀ Q : (Fin b → X) → Prop, ∀ c : Nat, (∀ v, fib v = c) →
      (Finset.univ.filter fun σ : Equiv.Perm X => (∀ i, σ (x i) = u i) ∧ Q fun j => σ.symm (y j)).card =
        (Finset.univ.filter fun v : Fin b ↪ Outside x => Q fun j => (v j).1).card * c := by
    intro Q c hc
    let val : Equiv.Perm X → Option (Fin b ↪ Outside x) := fun σ =>
      if h : ∀ i, σ (x i) = u i then some ⟨fun j => ⟨σ.symm (y j), hout σ h j⟩, fun i j e => by
        have := congrArg Subtype.val e
        exact y.injective (σ.symm.injective this)⟩ else none
    have hval : ∀ σ v, val σ = some v ↔ (∀ i, σ (x i) = u i) ∧ ∀ j, σ.symm (y j) = (v j).1 := by
      intro σ v
      dsimp only [val]
      split
      · rename_i h
        rw [Option.some.injEq]
        constructor
        · rintro rfl
          exact ⟨h, fun j => rfl⟩
        · rintro ⟨_, e⟩
          apply Function.Embedding.ext
          intro j
          exact Subtype.ext (e j)
      · rename_i h
        constructor
        · intro e
          cases e
        · rintro ⟨h', _⟩
          exact absurd h' h
    rw [Finset.card_eq_sum_card_fiberwise (f := val)
      (t := (Finset.univ.filter fun v : Fin b ↪ Outside x => Q fun j => (v j).1).map Function.Embedding.some) ?_, Finset.sum_map,
      Finset.sum_const_nat (m := c)]
    · intro v hv
      rw [← hc v, Finset.filter_filter]
      congr 1
      ext σ
      simp only [Finset.mem_filter, Finset.mem_univ, true_and, Function.Embedding.some_apply] at hv ⊢
      rw [hval]
      constructor
      · exact fun h => h.2
      · intro h
        refine ⟨⟨h.1, ?_⟩, h⟩
        rw [show (fun j => σ.symm (y j)) = fun j => (v j).1 from funext h.2]
        exact hv
    · intro σ h
      simp only [Finset.coe_filter, Finset.mem_univ, true_and, Set.mem_setOf_eq, Finset.coe_map] at h ⊢
      refine ⟨⟨fun j => ⟨σ.symm (y j), hout σ h.1 j⟩, fun i j e => y.injective (σ.symm.injective (congrArg Subtype.val e))⟩, ?_, ?_⟩
      · exact h.2
      · exact ((hval _ _).2 ⟨h.1, fun j => rfl⟩).symm
  have hcard : (Finset.univ.filter fun _ : Fin b ↪ Outside x => True).card = (Fintype.card X - a).descFactorial b := by
    rw [Finset.filter_true, Finset.card_univ, Fintype.card_embedding_eq, Fintype.card_fin, card_outside]
  by_cases hne : Nonempty (Fin b ↪ Outside x)
  · obtain ⟨v0⟩ := hne
    have hP := key P (fib v0) fun v => hfib v v0
    have hT := key (fun _ => True) (fib v0) fun v => hfib v v0
    have hT' : _ = (Fintype.card X - a).descFactorial b * fib v0 := Eq.trans hT (congrArg (· * fib v0) (Eq.trans (by congr!) hcard))
    simp only [and_true] at hT'
    rw [hP, hT']
    ring
  · have h0 : (Fintype.card X - a).descFactorial b = 0 := by
      rw [← hcard, Finset.card_eq_zero, Finset.filter_eq_empty_iff]
      intro v _
      exact absurd ⟨v⟩ hne
    have h1 : (Finset.univ.filter fun v : Fin b ↪ Outside x => P fun j => (v j).1).card = 0 := by
      rw [Finset.card_eq_zero, Finset.filter_eq_empty_iff]
      intro v _
      exact absurd ⟨v⟩ hne
    rw [h0, h1, Nat.mul_zero, Nat.mul_zero]

open Classical in
theorem card_back_le {R : Type} [Fintype D] [Fintype R] (x u : Fin a ↪ X) (y : Fin b ↪ X) (s : X ≃ D × R) (C : Finset D) (hd : ∀ i j, u i ≠ y j) :
    (Finset.univ.filter fun σ : Equiv.Perm X => (∀ i, σ (x i) = u i) ∧ ∀ j, (s (σ.symm (y j))).1 ∉ C).card *
        (Fintype.card X - a).descFactorial b ≤
      (Finset.univ.filter fun σ : Equiv.Perm X => ∀ i, σ (x i) = u i).card *
        (Fintype.card X - C.card * Fintype.card R).descFactorial b := by
  have hback := card_back x u y (fun v => ∀ j, (s (v j)).1 ∉ C) hd
  beta_reduce at hback
  refine le_trans (le_of_eq (Eq.trans (by congr!) hback)) (Nat.mul_le_mul_left _ ?_)
  have hC : Fintype.card {z : X // (s z).1 ∈ C} = C.card * Fintype.card R := by
    rw [← Fintype.card_coe C, ← Fintype.card_prod]
    exact Fintype.card_congr
      { toFun := fun z => (⟨(s z.1).1, z.2⟩, (s z.1).2)
        invFun := fun r => ⟨s.symm (r.1.1, r.2), by rw [s.apply_symm_apply]; exact r.1.2⟩
        left_inv := fun z => Subtype.ext (s.symm_apply_apply z.1)
        right_inv := fun r => by
          refine Prod.ext (Subtype.ext ?_) ?_
          · exact congrArg Prod.fst (s.apply_symm_apply (r.1.1, r.2))
          · show (s (s.symm (r.1.1, r.2))).2 = r.2
            rw [s.apply_symm_apply] }
  rw [← hC, ← Fintype.card_subtype_compl, ← Fintype.card_fin b]
  rw [show (Fintype.card (Fin b)) = b from Fintype.card_fin b]
  have hT : Fintype.card (Fin b ↪ {z : X // ¬(s z).1 ∈ C}) = (Fintype.card {z : X // ¬(s z).1 ∈ C}).descFactorial b := by
    rw [Fintype.card_embedding_eq, Fintype.card_fin]
  rw [← hT, ← Fintype.card_subtype]
  refine Fintype.card_le_of_injective (fun v => ⟨fun j => ⟨(v.1 j).1, v.2 j⟩, fun i j e => v.1.injective (Subtype.ext (Subtype.mk.inj e))⟩) ?_
  intro v w e
  apply Subtype.ext
  apply Function.Embedding.ext
  intro j
  have e : ((⟨(v.1 j).1, v.2 j⟩ : {z : X // ¬(s z).1 ∈ C})) = ⟨(w.1 j).1, w.2 j⟩ := congrArg (fun f : Fin b ↪ {z : X // ¬(s z).1 ∈ C} => f j) e
  exact Subtype.ext (Subtype.mk.inj e)

/-- Families whose first parts are different and avoid a value. -/
theorem card_family_fresh {R : Type} [Fintype D] [Fintype R] (s : X ≃ D × R) (t : D) [DecidablePred fun y : Fin a ↪ X => (Function.Injective fun i => (s (y i)).1) ∧ ∀ i, (s (y i)).1 ≠ t] :
    (Finset.univ.filter fun y : Fin a ↪ X => (Function.Injective fun i => (s (y i)).1) ∧ ∀ i, (s (y i)).1 ≠ t).card =
      (Fintype.card D - 1).descFactorial a * Fintype.card R ^ a := by
  classical
  rw [← Fintype.card_subtype]
  have : {y : Fin a ↪ X // (Function.Injective fun i => (s (y i)).1) ∧ ∀ i, (s (y i)).1 ≠ t} ≃ (Fin a ↪ {d : D // d ≠ t}) × (Fin a → R) :=
    { toFun := fun y => (⟨fun i => ⟨(s (y.1 i)).1, y.2.2 i⟩, fun i j e => y.2.1 (congrArg Subtype.val e)⟩, fun i => (s (y.1 i)).2)
      invFun := fun p => ⟨⟨fun i => s.symm ((p.1 i).1, p.2 i), fun i j e => p.1.injective (Subtype.ext (Prod.mk.inj (s.symm.injective e)).1)⟩,
        fun i j e => by
          have e : (s (s.symm ((p.1 i).1, p.2 i))).1 = (s (s.symm ((p.1 j).1, p.2 j))).1 := e
          rw [s.apply_symm_apply, s.apply_symm_apply] at e
          exact p.1.injective (Subtype.ext e),
        fun i => by
          show (s (s.symm ((p.1 i).1, p.2 i))).1 ≠ t
          rw [s.apply_symm_apply]
          exact (p.1 i).2⟩
      left_inv := fun y => by
        apply Subtype.ext
        apply Function.Embedding.ext
        intro i
        exact s.symm_apply_apply (y.1 i)
      right_inv := fun p => by
        refine Prod.ext (Function.Embedding.ext fun i => ?_) (funext fun i => ?_)
        · exact Subtype.ext (congrArg Prod.fst (s.apply_symm_apply _))
        · exact congrArg Prod.snd (s.apply_symm_apply _) }
  rw [Fintype.card_congr this, Fintype.card_prod, Fintype.card_embedding_eq, Fintype.card_fun, Fintype.card_fin, Fintype.card_subtype_compl,
    Fintype.card_subtype_eq]

/-- Most families are fresh. -/
theorem fresh_ge {N M : Nat} (hN : 0 < N) (hM : 0 < M) (a : Nat) :
    1 - (a * (a + 1) : ℚ) / (2 * N) ≤ (((N - 1).descFactorial a * M ^ a : Nat) : ℚ) / ((N * M).descFactorial a : Nat) ∧
      (((N - 1).descFactorial a * M ^ a : Nat) : ℚ) / ((N * M).descFactorial a : Nat) ≤ 1 := by
  have hN' : (1 : ℚ) ≤ N := by exact_mod_cast hN
  have hM' : (1 : ℚ) ≤ M := by exact_mod_cast hM
  induction a with
  | zero => simp
  | succ a ih =>
    have ha0 : (0 : ℚ) ≤ a := Nat.cast_nonneg _
    rcases Nat.lt_or_ge (N - 1) (a + 1) with hq | hq
    · rw [Nat.descFactorial_eq_zero_iff_lt.2 hq, Nat.zero_mul, Nat.cast_zero, zero_div]
      refine ⟨?_, by norm_num⟩
      have : (N : ℚ) ≤ a + 1 := by exact_mod_cast (show N ≤ a + 1 by omega)
      rw [sub_nonpos, one_le_div (by linarith)]
      push_cast
      nlinarith
    · have hlt : a < N * M := lt_of_lt_of_le (by omega) (Nat.le_mul_of_pos_right N hM)
      have hpos : (0 : ℚ) < ((N * M).descFactorial a : Nat) := by
        exact_mod_cast Nat.pos_of_ne_zero fun h => by
          rw [Nat.descFactorial_eq_zero_iff_lt] at h
          omega
      have haN : (a : ℚ) + 2 ≤ N := by exact_mod_cast (show a + 2 ≤ N by omega)
      have hd : (0 : ℚ) < N * M - a := by
        have : (a : ℚ) < N * M := by exact_mod_cast hlt
        linarith
      have e : (((N - 1).descFactorial (a + 1) * M ^ (a + 1) : Nat) : ℚ) / ((N * M).descFactorial (a + 1) : Nat) =
          (((N - 1).descFactorial a * M ^ a : Nat) : ℚ) / ((N * M).descFactorial a : Nat) * (((N : ℚ) - 1 - a) * M / (N * M - a)) := by
        rw [Nat.descFactorial_succ, Nat.descFactorial_succ, pow_succ]
        push_cast [Nat.cast_sub (show a ≤ N - 1 by omega), Nat.cast_sub (show 1 ≤ N by omega), Nat.cast_sub (le_of_lt hlt)]
        field_simp
      rw [e]
      obtain ⟨h1, h2⟩ := ih
      set P := (((N - 1).descFactorial a * M ^ a : Nat) : ℚ) / ((N * M).descFactorial a : Nat) with hP
      have hP0 : 0 ≤ P := by positivity
      have f1 : ((N : ℚ) - 1 - a) * M / (N * M - a) ≤ 1 := by
        rw [div_le_one hd]
        nlinarith
      have f0 : 1 - ((a : ℚ) + 1) / N ≤ ((N : ℚ) - 1 - a) * M / (N * M - a) := by
        rw [le_div_iff₀ hd]
        have : 1 - ((a : ℚ) + 1) / N = (N - 1 - a) / N := by
          field_simp
          ring
        rw [this, div_mul_eq_mul_div, div_le_iff₀ (by linarith)]
        nlinarith [mul_nonneg (show (0 : ℚ) ≤ N - 1 - a by linarith) ha0]
      have hδ : 0 ≤ ((a : ℚ) + 1) / N := by positivity
      refine ⟨?_, ?_⟩
      · have e2 : (((a + 1 : Nat) : ℚ) * (((a + 1 : Nat) : ℚ) + 1)) / (2 * N) = (a * (a + 1) : ℚ) / (2 * N) + ((a : ℚ) + 1) / N := by
          push_cast
          field_simp
          ring
        rw [e2]
        nlinarith [mul_le_mul_of_nonneg_left f0 hP0, mul_nonneg hδ (sub_nonneg.2 h2)]
      · have := mul_le_mul_of_nonneg_left f1 hP0
        linarith

/-- Few families of the inverse avoid `a` first parts. -/
theorem avoid_le {N M : Nat} (hN : 0 < N) (hM : 0 < M) (ha : a * M ≤ N * M) (b : Nat) (hb : a + b ≤ N * M) :
    ((N * M - a * M).descFactorial b : ℚ) / ((N * M - a).descFactorial b : Nat) * (a * b * (M - 1) + N * M) ≤ N * M := by
  have hN' : (1 : ℚ) ≤ N := by exact_mod_cast hN
  have hM' : (1 : ℚ) ≤ M := by exact_mod_cast hM
  have ha' : a ≤ N * M := le_trans (Nat.le_mul_of_pos_right a hM) ha
  have ha0 : (0 : ℚ) ≤ a := Nat.cast_nonneg _
  induction b with
  | zero => simp
  | succ b ih =>
    have hb0 : (0 : ℚ) ≤ b := Nat.cast_nonneg _
    rcases Nat.lt_or_ge (N * M - a * M) (b + 1) with hq | hq
    · rw [Nat.descFactorial_eq_zero_iff_lt.2 hq, Nat.cast_zero, zero_div, zero_mul]
      positivity
    · have hpos : (0 : ℚ) < ((N * M - a).descFactorial b : Nat) := by
        exact_mod_cast Nat.pos_of_ne_zero fun h => by
          rw [Nat.descFactorial_eq_zero_iff_lt] at h
          omega
      have hd : (0 : ℚ) < N * M - a - b := by
        have : ((a + b + 1 : Nat) : ℚ) ≤ ((N * M : Nat) : ℚ) := Nat.cast_le.2 (by omega)
        push_cast at this
        linarith
      have e : ((N * M - a * M).descFactorial (b + 1) : ℚ) / ((N * M - a).descFactorial (b + 1) : Nat) * (a * ((b + 1 : Nat) : ℚ) * (M - 1) + N * M) =
          ((N * M - a * M).descFactorial b : ℚ) / ((N * M - a).descFactorial b : Nat) *
            (((N : ℚ) * M - a * M - b) * (a * (b + 1) * (M - 1) + N * M) / (N * M - a - b)) := by
        rw [Nat.descFactorial_succ, Nat.descFactorial_succ]
        push_cast [Nat.cast_sub (show b ≤ N * M - a * M by omega), Nat.cast_sub (show b ≤ N * M - a by omega), Nat.cast_sub ha, Nat.cast_sub ha']
        field_simp
      rw [e]
      refine le_trans (mul_le_mul_of_nonneg_left ?_ (by positivity)) (ih (by omega))
      rw [div_le_iff₀ hd]
      have hA : (0 : ℚ) ≤ a * (M - 1) := mul_nonneg ha0 (by linarith)
      nlinarith [mul_nonneg hA hb0, mul_nonneg hA hA, mul_nonneg hA ha0, mul_nonneg (mul_nonneg hA hA) hb0]

/-- **Meeting in the middle.** The permutation at `a` points, the inverse at `b` points whose first part is `t`. -/
theorem meet_lower {R R' : Type} [Fintype D] [Fintype R] [Fintype R'] (x : Fin a ↪ X) (y : Fin b ↪ X) (f : X ≃ D × R) (g : X ≃ D × R')
    (hR : Fintype.card R' = Fintype.card R) (t : D) (hy : ∀ j, (f (y j)).1 = t) (hr : 0 < Fintype.card R)
    (hab : a + b ≤ Fintype.card X) :
    (1 - (a * (a + 1) : ℚ) / (2 * Fintype.card D)) *
        (a * b * (Fintype.card R - 1) / (a * b * (Fintype.card R - 1) + Fintype.card D * Fintype.card R)) ≤
      prob (fun E : Cipher Unit X => ∃ i j, (f (E () (x i))).1 = (g ((E ()).symm (y j))).1) := by
  classical
  have hDpos : 0 < Fintype.card D := Fintype.card_pos_iff.2 ⟨t⟩
  have hX : Fintype.card X = Fintype.card D * Fintype.card R := by rw [Fintype.card_congr f, Fintype.card_prod]
  set N := Fintype.card D with hN
  set M := Fintype.card R with hM
  let Fresh : (Fin a → X) → Prop := fun u => (Function.Injective fun i => (f (u i)).1) ∧ ∀ i, (f (u i)).1 ≠ t
  let Hit : Equiv.Perm X → Prop := fun σ => ∃ i j, (f (σ (x i))).1 = (g (σ.symm (y j))).1
  -- the probability of a fresh family
  have hD : prob (fun E : Cipher Unit X => Fresh fun i => E () (x i)) = (((N - 1).descFactorial a * M ^ a : Nat) : ℚ) / ((N * M).descFactorial a : Nat) := by
    have h1 := prob_family x Fresh
    have h2 := card_family_fresh (a := a) f t
    refine Eq.trans (Eq.trans (by congr!) h1) ?_
    rw [← hX, ← h2]
  -- fresh and no hit
  have hnum : ∀ (Q : Equiv.Perm X → Prop) [DecidablePred Q], (Finset.univ.filter fun E : Cipher Unit X => Q (E ())).card = (Finset.univ.filter fun σ : Equiv.Perm X => Q σ).card :=
    fun Q _ => Finset.card_bij' (fun E _ => E ()) (fun σ _ => fun _ => σ) (by intro E h; simpa using h) (by intro σ h; simpa using h)
      (fun _ _ => rfl) (fun _ _ => rfl)
  have hmiss : (Finset.univ.filter fun σ : Equiv.Perm X => (Fresh fun i => σ (x i)) ∧ ¬ Hit σ).card * (N * M - a).descFactorial b ≤
      (Finset.univ.filter fun σ : Equiv.Perm X => Fresh fun i => σ (x i)).card * (N * M - a * M).descFactorial b := by
    have hmaps : ∀ (Q : Equiv.Perm X → Prop) [DecidablePred Q], (∀ σ, Q σ → Fresh fun i => σ (x i)) →
        (Finset.univ.filter Q).card = ∑ u ∈ Finset.univ.filter (fun u : Fin a ↪ X => Fresh u),
          (Finset.univ.filter fun σ : Equiv.Perm X => (∀ i, σ (x i) = u i) ∧ Q σ).card := by
      intro Q _ hQ
      rw [Finset.card_eq_sum_card_fiberwise (f := fun σ : Equiv.Perm X => x.trans σ.toEmbedding)
        (t := Finset.univ.filter fun u : Fin a ↪ X => Fresh u) (fun σ h => by
          simp only [Finset.coe_filter, Finset.mem_univ, true_and, Set.mem_setOf_eq] at h ⊢
          exact hQ σ h)]
      refine Finset.sum_congr rfl fun u _ => ?_
      rw [Finset.filter_filter]
      congr 1
      ext σ
      simp only [Finset.mem_filter, Finset.mem_univ, true_and]
      constructor
      · rintro ⟨h, e⟩
        exact ⟨fun i => congrArg (fun f : Fin a ↪ X => f i) e, h⟩
      · rintro ⟨e, h⟩
        exact ⟨h, Function.Embedding.ext e⟩
    rw [hmaps (fun σ => (Fresh fun i => σ (x i)) ∧ ¬ Hit σ) fun σ h => h.1, hmaps (fun σ => Fresh fun i => σ (x i)) fun σ h => h, Finset.sum_mul, Finset.sum_mul]
    refine Finset.sum_le_sum fun u hu => ?_
    have hu : Fresh u := (Finset.mem_filter.1 hu).2
    have hcard : (Finset.univ.image fun i => (f (u i)).1).card = a := by
      rw [Finset.card_image_of_injective _ hu.1, Finset.card_univ, Fintype.card_fin]
    have hb := card_back_le x u y g (Finset.univ.image fun i => (f (u i)).1) (fun i j e => hu.2 i (by rw [e]; exact hy j))
    rw [hcard, hR, hX] at hb
    refine le_trans (Nat.mul_le_mul_right _ (Finset.card_le_card ?_)) (le_trans hb (Nat.mul_le_mul_right _ (Finset.card_le_card ?_)))
    · intro σ
      simp only [Finset.mem_filter, Finset.mem_univ, true_and]
      rintro ⟨e, _, h⟩
      refine ⟨e, fun j hj => h ?_⟩
      obtain ⟨i, _, hi⟩ := Finset.mem_image.1 hj
      exact ⟨i, j, by rw [e i]; exact hi⟩
    · intro σ
      simp only [Finset.mem_filter, Finset.mem_univ, true_and]
      intro e
      refine ⟨e, ?_⟩
      rw [show (fun i => σ (x i)) = (u : Fin a → X) from funext e]
      exact hu
  -- the probabilities
  have hcX : (0 : ℚ) < Fintype.card (Cipher Unit X) := Nat.cast_pos.2 Fintype.card_pos
  have hsplit : prob (fun E : Cipher Unit X => Fresh fun i => E () (x i)) ≤
      prob (fun E : Cipher Unit X => Hit (E ())) + prob (fun E : Cipher Unit X => (Fresh fun i => E () (x i)) ∧ ¬ Hit (E ())) := by
    rw [prob_eq, prob_eq, prob_eq, ← add_div]
    refine div_le_div_of_nonneg_right ?_ hcX.le
    rw [← Nat.cast_add]
    refine Nat.cast_le.2 (le_trans (Finset.card_le_card ?_) (Finset.card_union_le _ _))
    intro E
    simp only [Finset.mem_filter, Finset.mem_univ, true_and, Finset.mem_union]
    intro h
    by_cases h' : Hit (E ())
    · exact .inl h'
    · exact .inr ⟨h, h'⟩
  have hdpos : (0 : ℚ) < ((N * M - a).descFactorial b : Nat) := by
    exact_mod_cast Nat.pos_of_ne_zero fun h => by
      rw [Nat.descFactorial_eq_zero_iff_lt] at h
      omega
  have hmiss' : prob (fun E : Cipher Unit X => (Fresh fun i => E () (x i)) ∧ ¬ Hit (E ())) ≤
      prob (fun E : Cipher Unit X => Fresh fun i => E () (x i)) * (((N * M - a * M).descFactorial b : ℚ) / ((N * M - a).descFactorial b : Nat)) := by
    rw [prob_eq, prob_eq, hnum (fun σ => (Fresh fun i => σ (x i)) ∧ ¬ Hit σ), hnum (fun σ => Fresh fun i => σ (x i)),
      div_mul_div_comm, div_le_div_iff₀ hcX (mul_pos hcX hdpos)]
    have h : (((Finset.univ.filter fun σ : Equiv.Perm X => (Fresh fun i => σ (x i)) ∧ ¬ Hit σ).card : ℚ) * ((N * M - a).descFactorial b : Nat)) ≤
        ((Finset.univ.filter fun σ : Equiv.Perm X => Fresh fun i => σ (x i)).card : ℚ) * ((N * M - a * M).descFactorial b : Nat) := by
      exact_mod_cast hmiss
    nlinarith [mul_le_mul_of_nonneg_right h hcX.le]
  obtain ⟨hf1, hf2⟩ := fresh_ge hDpos hr a
  rw [← hD] at hf1 hf2
  set PD := prob (fun E : Cipher Unit X => Fresh fun i => E () (x i)) with hPD
  have hPD0 : 0 ≤ PD := by
    rw [hPD, prob_eq]
    positivity
  have hN1 : (1 : ℚ) ≤ N := by exact_mod_cast hDpos
  have hM1 : (1 : ℚ) ≤ M := by exact_mod_cast hr
  have hw0 : (0 : ℚ) ≤ a * b * (M - 1) := mul_nonneg (by positivity) (by linarith)
  have hden : (0 : ℚ) < a * b * (M - 1) + N * M := by nlinarith
  set w : ℚ := a * b * (M - 1) / (a * b * (M - 1) + N * M) with hw
  have hwn : 0 ≤ w := div_nonneg hw0 hden.le
  have hw1 : w ≤ 1 := by
    rw [hw, div_le_one hden]
    nlinarith
  by_cases haN : a ≤ N
  · have havoid := avoid_le (a := a) hDpos hr (Nat.mul_le_mul_right M haN) b (by rw [← hX]; exact hab)
    have hr1 : ((N * M - a * M).descFactorial b : ℚ) / ((N * M - a).descFactorial b : Nat) ≤ 1 - w := by
      have e : 1 - w = N * M / (a * b * (M - 1) + N * M) := by
        rw [hw]
        field_simp
        ring
      rw [e, le_div_iff₀ hden]
      exact havoid
    have h3 := mul_le_mul_of_nonneg_left hr1 hPD0
    have h4 := mul_le_mul_of_nonneg_right hf1 hwn
    have h5 : (1 - (a * (a + 1) : ℚ) / (2 * N)) * w ≤ prob (fun E : Cipher Unit X => Hit (E ())) := by linarith
    exact le_trans h5 (le_of_eq (by congr!))
  · -- no bound
    have ha : (N : ℚ) + 1 ≤ a := by exact_mod_cast Nat.lt_of_not_le haN
    have hneg : 1 - (a * (a + 1) : ℚ) / (2 * N) ≤ 0 := by
      rw [sub_nonpos, one_le_div (by linarith)]
      nlinarith
    refine le_trans (mul_nonpos_of_nonpos_of_nonneg hneg hwn) ?_
    rw [prob_eq]
    positivity

end Verif.Ideal
