import Verif.Proof.ChainIndiffMain
/-
How likely it is that something meets in a run of `ChainIndiff`.
-/
namespace Verif.Oracle
open Spec.Oracle Spec.Ideal Verif.Ideal

/-! ### Chances -/

section
open Classical
variable {Ω : Type} [Fintype Ω]

theorem chance_subsingleton {p : Ω → Prop} (h : ∀ a b, p a → p b → a = b) : chance p ≤ 1 / Fintype.card Ω := by
  refine div_le_div_of_nonneg_right ?_ (Nat.cast_nonneg _)
  rw [← Nat.cast_one, Nat.cast_le, Finset.card_le_one]
  intro a ha b hb
  rw [Finset.mem_filter] at ha hb
  exact h a b ha.2 hb.2

theorem chance_nonneg (p : Ω → Prop) : 0 ≤ chance p := div_nonneg (Nat.cast_nonneg _) (Nat.cast_nonneg _)

theorem chance_exists {α : Type} (l : List α) (p : α → Ω → Prop) {ε : ℚ} (h : ∀ a ∈ l, chance (p a) ≤ ε) :
    (chance fun w => ∃ a ∈ l, p a w) ≤ l.length * ε := by
  induction l with
  | nil =>
    refine le_trans (chance_mono (q := fun _ => False) ?_) ?_
    · rintro w ⟨a, ha, -⟩
      exact absurd ha List.not_mem_nil
    · rw [List.length_nil, Nat.cast_zero, zero_mul]
      unfold chance
      simp
  | cons a l ih =>
    refine le_trans (chance_le_add (q := p a) (r := fun w => ∃ a ∈ l, p a w) ?_) ?_
    · rintro w ⟨b, hb, hw⟩
      rcases List.mem_cons.1 hb with rfl | hb
      · exact Or.inl hw
      · exact Or.inr ⟨b, hb, hw⟩
    · have h1 := h a List.mem_cons_self
      have h2 := ih fun b hb => h b (List.mem_cons_of_mem _ hb)
      rw [List.length_cons]
      push_cast
      linarith

theorem chance_pairs {α : Type} (l : List α) (p : α → α → Ω → Prop) (hp : ∀ a b w, p a b w → p b a w) {ε : ℚ} (hε : 0 ≤ ε)
    (h : ∀ a b, b ≠ a → chance (p a b) ≤ ε) :
    (chance fun w => ∃ a ∈ l, ∃ b ∈ l, b ≠ a ∧ p a b w) ≤ (∑ i ∈ Finset.range l.length, i : Nat) * ε := by
  induction l with
  | nil =>
    refine le_trans (chance_mono (q := fun _ => False) ?_) ?_
    · rintro w ⟨a, ha, -⟩
      exact absurd ha List.not_mem_nil
    · unfold chance
      simp
  | cons a l ih =>
    refine le_trans (chance_le_add (q := fun w => ∃ b ∈ l.filter (· ≠ a), p a b w)
      (r := fun w => ∃ a ∈ l, ∃ b ∈ l, b ≠ a ∧ p a b w) ?_) ?_
    · rintro w ⟨c, hc, b, hb, hne, hw⟩
      rcases List.mem_cons.1 hc with hca | hc2
      · subst hca
        rcases List.mem_cons.1 hb with hba | hb
        · exact absurd hba hne
        · exact Or.inl ⟨b, List.mem_filter.2 ⟨hb, decide_eq_true hne⟩, hw⟩
      · rcases List.mem_cons.1 hb with hba | hb
        · subst hba
          exact Or.inl ⟨c, List.mem_filter.2 ⟨hc2, decide_eq_true (Ne.symm hne)⟩, hp _ _ _ hw⟩
        · exact Or.inr ⟨c, hc2, b, hb, hne, hw⟩
    · have h1 := chance_exists (l.filter (· ≠ a)) (p a) fun b hb => h a b (of_decide_eq_true (List.mem_filter.1 hb).2)
      have h3 : ((l.filter (· ≠ a)).length : ℚ) * ε ≤ l.length * ε :=
        mul_le_mul_of_nonneg_right (Nat.cast_le.2 (List.length_filter_le _ _)) hε
      rw [List.length_cons, Finset.sum_range_succ, Nat.cast_add, add_mul]
      linarith

variable {I D : Type} [Fintype I] [Fintype D]

/-- One value of a random function, first the others. -/
theorem chance_value (x : I) (p : D → (I → D) → Prop) (hp : ∀ d H H', (∀ y, y ≠ x → H y = H' y) → p d H → p d H') (d0 : D) {ε : ℚ}
    (h : ∀ H, (chance fun d => p d H) ≤ ε) : (chance fun H : I → D => p (H x) H) ≤ ε := by
  haveI : Nonempty D := ⟨d0⟩
  rw [← chance_equiv (Equiv.funSplitAt x D).symm]
  have hx : ∀ w, (Equiv.funSplitAt x D).symm w x = w.1 := fun w => by simp [Equiv.funSplitAt, Equiv.piSplitAt]
  have hy : ∀ w y, (hy : y ≠ x) → (Equiv.funSplitAt x D).symm w y = w.2 ⟨y, hy⟩ := fun w y hy => by
    simp [Equiv.funSplitAt, Equiv.piSplitAt, hy]
  refine chance_le_of_snd fun g => le_trans (chance_mono fun d hd => ?_) (h ((Equiv.funSplitAt x D).symm (d0, g)))
  rw [hx] at hd
  exact hp _ _ _ (fun y hne => by rw [hy _ _ hne, hy _ _ hne]) hd

/-- One value of a random function, first this one. -/
theorem chance_rest (x : I) (p : D → (I → D) → Prop) (hp : ∀ d H H', (∀ y, y ≠ x → H y = H' y) → p d H → p d H') (d0 : D) {ε : ℚ}
    (h : ∀ d, chance (p d) ≤ ε) : (chance fun H : I → D => p (H x) H) ≤ ε := by
  haveI : Nonempty D := ⟨d0⟩
  have hx : ∀ w, (Equiv.funSplitAt x D).symm w x = w.1 := fun w => by simp [Equiv.funSplitAt, Equiv.piSplitAt]
  have hy : ∀ w y, (hy : y ≠ x) → (Equiv.funSplitAt x D).symm w y = w.2 ⟨y, hy⟩ := fun w y hy => by
    simp [Equiv.funSplitAt, Equiv.piSplitAt, hy]
  rw [← chance_equiv (Equiv.funSplitAt x D).symm, chance_prod, div_le_iff₀ (Nat.cast_pos.2 Fintype.card_pos)]
  refine le_trans (Finset.sum_le_sum (g := fun _ => ε) fun d _ => ?_) ?_
  · refine le_trans ?_ (h d)
    rw [← chance_equiv (Equiv.funSplitAt x D).symm (p d)]
    rw [← chance_dummy (Ω := D)]
    refine chance_mono fun w hw => ?_
    rw [hx] at hw
    exact hp _ _ _ (fun y hne => by rw [hy _ _ hne, hy _ _ hne]) hw
  · rw [Finset.sum_const, Finset.card_univ, nsmul_eq_mul, mul_comm]

end

namespace Chain
variable {I D M : Type} {C : Chain I D M} [Inhabited D] {Q : Type*} {A : Type} (msg : Q → M) (wrap : (q : Q) → (Fin (C.ell (msg q)) → D) → A)
variable (F : (m : M) → Fin (C.ell m) → D)

/-! ### What a run depends on -/

/-- Messages called for but not known are not known. -/
def Disj (st : C.St) : Prop := ∀ m ∈ st.E, ∀ e ∈ st.K, e.m ≠ m

variable {F}

omit [Inhabited D] in
theorem disj_stepCall {st : C.St} (h : Disj st) (m : M) : Disj (stepCall st m) := by
  unfold stepCall
  split
  · exact h
  · rename_i hm
    intro m' hm' e he hem
    rcases List.mem_cons.1 hm' with rfl | hm'
    · exact hm (Or.inr ⟨e, he, hem⟩)
    · exact h m' hm' e he hem

open Classical in
theorem disj_stepHash {H : I → D} {st : C.St} (h : Disj st) (x : I) : Disj (stepHash F H st x).1 := by
  unfold stepHash
  split
  · split
    · exact h
    · intro m' hm' e he hem
      obtain ⟨h1, h2⟩ := List.mem_filter.1 hm'
      rcases List.mem_cons.1 he with rfl | he
      · exact of_decide_eq_true h2 hem.symm
      · exact h m' h1 e he hem
  · split <;> exact h

theorem mem_stepHash {H : I → D} {st : C.St} {x : I} {e : C.Entry} (h : e ∈ st.K) : e ∈ (stepHash F H st x).1.K := by
  unfold stepHash
  split
  · split
    · exact h
    · exact List.mem_cons_of_mem _ h
  · split <;> exact h

theorem badEnd_congr {H H' : I → D} {st : C.St} (h : ∀ m ∈ st.E, H (C.first m) = H' (C.first m)) (hb : BadEnd F H st) :
    BadEnd F H' st := by
  obtain ⟨m, hm, hb⟩ := hb
  refine ⟨m, hm, ?_⟩
  rw [h m hm] at hb
  rcases hb with hb | ⟨m', hm', hne, hb⟩
  · exact Or.inl hb
  · unfold Meet at hb
    rw [h m hm, h m' hm'] at hb
    exact Or.inr ⟨m', hm', hne, hb⟩

theorem bad_congr {H H' : I → D} {m0 : M} (hH : ∀ y, y ≠ C.first m0 → H y = H' y) (P : Caller Q A I D) : ∀ st : C.St, Disj st →
    (∃ e ∈ st.K, e.m = m0) → Bad F H msg wrap P st → Bad F H' msg wrap P st := by
  induction P with
  | done b =>
    rintro st hd ⟨e, he, hem⟩ hb
    refine badEnd_congr (fun m hm => hH _ fun h => ?_) hb
    exact hd m hm e he (hem.trans (C.first_injective h).symm)
  | call q next ih =>
    rintro st hd he hb
    refine ih _ _ (disj_stepCall hd _) ?_ hb
    have : (stepCall st (msg q)).K = st.K := by unfold stepCall; split <;> rfl
    rw [this]
    exact he
  | hash x next ih =>
    rintro st hd ⟨e, he, hem⟩ hb
    have hl : C.look st.K m0 ≠ none := fun h => C.look_none.1 h e he hem
    have key : x = C.first m0 ∨ H x = H' x := by
      by_cases h : x = C.first m0
      · exact Or.inl h
      · exact Or.inr (hH x h)
    have hs : stepHash F H st x = stepHash F H' st x := by
      rcases key with rfl | h
      · unfold stepHash
        rw [C.msgOf_some.2 rfl]
        simp only
        cases hk : C.look st.K m0 with
        | some β => rfl
        | none => exact absurd hk hl
      · unfold stepHash
        rw [h]
    rcases hb with ⟨m, h1, h2, h3⟩ | hb
    · rcases key with rfl | h
      · rw [C.msgOf_some.2 rfl] at h1
        rw [← Option.some.inj h1] at h2
        exact absurd h2 hl
      · rw [h] at h3
        exact Or.inl ⟨m, h1, h2, h3⟩
    · refine Or.inr ?_
      rw [← hs]
      refine ih _ _ (disj_stepHash hd x) ?_ hb
      exact ⟨e, mem_stepHash he, hem⟩

/-! ### Counting -/

variable [Fintype I] [Fintype D]

theorem chance_point {m : M} (v : Fin (C.ell m) → D) (x : I) : (chance fun β => ∃ i < C.ell m, C.point m v β i = x) ≤ 1 / Fintype.card D := by
  refine chance_subsingleton ?_
  rintro β β' ⟨i, hi, h⟩ ⟨i', hi', h'⟩
  obtain rfl := C.point_index hi hi' (h.trans h'.symm)
  exact C.point_beta hi (h.trans h'.symm)

theorem chance_meet {m m' : M} (v : Fin (C.ell m) → D) (v' : Fin (C.ell m') → D) (β' : D) {ℓ : Nat} (hL : C.ell m ≤ ℓ) :
    (chance fun β => ∃ i < C.ell m, ∃ i' < C.ell m', C.point m v β i = C.point m' v' β' i') ≤ ℓ * (1 / Fintype.card D) := by
  refine le_trans (chance_mono (q := fun β => ∃ i ∈ List.range (C.ell m), i < C.ell m ∧ C.point m v β i = C.point m' v' β' i) ?_)
    (le_trans (chance_exists _ _ fun i _ => chance_subsingleton (p := fun β => i < C.ell m ∧ C.point m v β i = C.point m' v' β' i) ?_) ?_)
  · rintro β ⟨i, hi, i', hi', h⟩
    obtain rfl := C.point_index hi hi' h
    exact ⟨i, List.mem_range.2 hi, hi, h⟩
  · rintro β γ ⟨hi, h⟩ ⟨-, h'⟩
    exact C.point_beta hi (h.trans h'.symm)
  · rw [List.length_range]
    exact mul_le_mul_of_nonneg_right (Nat.cast_le.2 hL) (by positivity)

theorem chance_collide {m : M} (v : Fin (C.ell m) → D) (st : C.St) {ℓ : Nat} (hL : C.ell m ≤ ℓ) (h0 : 0 < ℓ) :
    (chance fun β => Collide m v β st) ≤ ((st.K.length + st.X.length : Nat) : ℚ) * (ℓ * (1 / Fintype.card D)) := by
  have hc : (0 : ℚ) ≤ 1 / Fintype.card D := by positivity
  have h1 := chance_exists st.X (fun x β => ∃ i < C.ell m, C.point m v β i = x) fun x _ => chance_point v x
  have h2 := chance_exists st.K (fun e β => ∃ i < C.ell m, ∃ i' < C.ell e.m, C.point m v β i = e.point i') fun e _ =>
    chance_meet v e.v e.β hL
  refine le_trans (chance_le_add (q := fun β => ∃ x ∈ st.X, ∃ i < C.ell m, C.point m v β i = x)
    (r := fun β => ∃ e ∈ st.K, ∃ i < C.ell m, ∃ i' < C.ell e.m, C.point m v β i = e.point i') ?_) ?_
  · rintro β ⟨i, hi, h | ⟨e, he, i', hi', h⟩⟩
    · exact Or.inl ⟨_, h, i, hi, rfl⟩
    · exact Or.inr ⟨e, he, i, hi, i', hi', h⟩
  · have h3 : (st.X.length : ℚ) * (1 / Fintype.card D) ≤ st.X.length * (ℓ * (1 / Fintype.card D)) := by
      refine mul_le_mul_of_nonneg_left ?_ (Nat.cast_nonneg _)
      have : (1 : ℚ) ≤ ℓ := by exact_mod_cast h0
      nlinarith
    refine le_trans (add_le_add h1 (le_trans h2 le_rfl)) ?_
    rw [Nat.cast_add]
    linarith

open Classical in
/-- The hash function with the values of another at the queries that are not the first of a message. -/
noncomputable def mask (g H : I → D) (x : I) : D := if C.msgOf x = none then g x else H x

/-- Numbers of pairs. -/
def pairs (s k : Nat) : Nat := ∑ i ∈ Finset.range s, (k + i)

theorem pairs_succ (s k : Nat) : pairs (s + 1) k = k + pairs s (k + 1) := by
  unfold pairs
  rw [Finset.sum_range_succ', Nat.add_comm]
  congr 1
  exact Finset.sum_congr rfl fun i _ => by omega

theorem pairs_mono {s s' k : Nat} (h : s ≤ s') : pairs s k ≤ pairs s' k :=
  Finset.sum_le_sum_of_subset (Finset.range_mono h)

theorem pairs_le (s k : Nat) : pairs s (k + 1) ≤ pairs (s + 1) k := by
  rw [pairs_succ]
  omega

theorem pairs_eq (s k : Nat) : pairs s k = s * k + ∑ i ∈ Finset.range s, i := by
  unfold pairs
  rw [Finset.sum_add_distrib, Finset.sum_const, Finset.card_range, nsmul_eq_mul, Nat.cast_id]

theorem pairs_cast (s k : Nat) (c : ℚ) : s * ((k : Nat) * c) + ((∑ i ∈ Finset.range s, i : Nat) : ℚ) * c = (pairs s k : Nat) * c := by
  rw [pairs_eq]
  generalize (∑ i ∈ Finset.range s, i) = u
  rw [Nat.cast_add, Nat.cast_mul, add_mul, mul_assoc]

open Classical in
theorem chance_badEnd (g : I → D) {ℓ : Nat} (hL : ∀ m, C.ell m ≤ ℓ) (h0 : 0 < ℓ) (st : C.St) :
    (chance fun H : I → D => BadEnd F (mask (C := C) g H) st) ≤
      ((pairs st.E.length (st.K.length + st.X.length) : Nat) : ℚ) * (ℓ * (1 / Fintype.card D)) := by
  have hc : (0 : ℚ) ≤ ℓ * (1 / Fintype.card D) := by positivity
  have hm : ∀ (H : I → D) (m : M), mask (C := C) g H (C.first m) = H (C.first m) := by
    intro H m
    unfold mask
    rw [C.msgOf_some.2 rfl, if_neg (by simp)]
  have h4 : ∀ m, (chance fun H : I → D => Collide m (F m) (H (C.first m)) st) ≤
      ((st.K.length + st.X.length : Nat) : ℚ) * (ℓ * (1 / Fintype.card D)) := by
    intro m
    exact chance_value (C.first m) (fun β _ => Collide m (F m) β st) (fun _ _ _ _ h => h) default fun _ => chance_collide (F m) st (hL m) h0
  have h1 := chance_exists st.E (fun m (H : I → D) => Collide m (F m) (H (C.first m)) st) fun m _ => h4 m
  have h3 : ∀ m m', m' ≠ m → (chance fun H : I → D => Meet F H m m') ≤ ℓ * (1 / Fintype.card D) := by
    intro m m' hne
    refine chance_value (C.first m) (fun β H => ∃ i < C.ell m, ∃ i' < C.ell m', C.point m (F m) β i = C.point m' (F m') (H (C.first m')) i')
        ?_ default fun H => chance_meet (F m) (F m') _ (hL m)
    intro β H H' hH h
    rw [hH _ fun h => hne (C.first_injective h)] at h
    exact h
  have h2 := chance_pairs st.E (fun m m' (H : I → D) => Meet F H m m') (fun m m' H ⟨i, hi, i', hi', h⟩ => ⟨i', hi', i, hi, h.symm⟩) hc h3
  refine le_trans (chance_le_add (q := fun H : I → D => ∃ m ∈ st.E, Collide m (F m) (H (C.first m)) st)
    (r := fun H : I → D => ∃ m ∈ st.E, ∃ m' ∈ st.E, m' ≠ m ∧ Meet F H m m') ?_) ?_
  · rintro H ⟨m, hm1, hb⟩
    rw [hm] at hb
    rcases hb with hb | ⟨m', hm', hne, hb⟩
    · exact Or.inl ⟨m, hm1, hb⟩
    · unfold Meet at hb
      rw [hm, hm] at hb
      exact Or.inr ⟨m, hm1, m', hm', hne, hb⟩
  · refine le_trans (add_le_add h1 h2) ?_
    exact le_of_eq (pairs_cast _ _ _)

open Classical in
theorem chance_bad (g : I → D) {ℓ : Nat} (hL : ∀ m, C.ell m ≤ ℓ) (h0 : 0 < ℓ) (P : Caller Q A I D) : ∀ (n : Nat) (st : C.St),
    P.AtMost n → Disj st → (chance fun H : I → D => Bad F (mask (C := C) g H) msg wrap P st) ≤
      ((pairs (st.E.length + n) (st.K.length + st.X.length) : Nat) : ℚ) * (ℓ * (1 / Fintype.card D)) := by
  have hc : (0 : ℚ) ≤ ℓ * (1 / Fintype.card D) := by positivity
  have mono : ∀ {a b : Nat}, a ≤ b → (a : ℚ) * (ℓ * (1 / Fintype.card D)) ≤ (b : ℚ) * (ℓ * (1 / Fintype.card D)) :=
    fun h => mul_le_mul_of_nonneg_right (Nat.cast_le.2 h) hc
  induction P with
  | done b =>
    intro n st _ _
    exact le_trans (chance_badEnd g hL h0 st) (mono (pairs_mono (by omega)))
  | call q next ih =>
    intro n st hP hd
    cases n with
    | zero => exact absurd hP id
    | succ n =>
      refine le_trans (ih _ n _ (hP _) (disj_stepCall hd _)) (mono ?_)
      unfold stepCall
      split
      · exact pairs_mono (by omega)
      · exact pairs_mono (by show (_ :: _).length + _ ≤ _; rw [List.length_cons]; omega)
  | hash x next ih =>
    intro n st hP hd
    cases n with
    | zero => exact absurd hP id
    | succ n =>
      cases hm : C.msgOf x with
      | some m =>
        cases hl : C.look st.K m with
        | some β =>
          refine le_trans (chance_mono (q := fun H => Bad F (mask (C := C) g H) msg wrap (next β) st) fun H hb => ?_)
            (le_trans (ih _ n st (hP β) hd) (mono (pairs_mono (by omega))))
          have hs : stepHash F (mask (C := C) g H) st x = (st, β) := by unfold stepHash; simp only [hm, hl]
          rcases hb with ⟨m', h1, h2, -⟩ | hb
          · rw [hm] at h1
            rw [← Option.some.inj h1, hl] at h2
            cases h2
          · rw [hs] at hb
            exact hb
        | none =>
          have hx := C.msgOf_some.1 hm
          have hmask : ∀ H : I → D, mask (C := C) g H x = H x := by
            intro H
            unfold mask
            rw [hm, if_neg (by simp)]
          have hs : ∀ H : I → D, stepHash F (mask (C := C) g H) st x =
              (⟨⟨m, H x, F m⟩ :: st.K, st.E.filter fun m' => decide (m' ≠ m), st.X⟩, H x) := by
            intro H
            unfold stepHash
            simp only [hm, hl, hmask]
          have h1 : (chance fun H : I → D => Collide m (F m) (H x) st) ≤
              ((st.K.length + st.X.length : Nat) : ℚ) * (ℓ * (1 / Fintype.card D)) :=
            chance_value x (fun β _ => Collide m (F m) β st) (fun _ _ _ _ h => h) default fun _ => chance_collide (F m) st (hL m) h0
          have hd' : ∀ β, Disj (⟨⟨m, β, F m⟩ :: st.K, st.E.filter fun m' => decide (m' ≠ m), st.X⟩ : C.St) := by
            intro β m' hm' e he hem
            obtain ⟨h1, h2⟩ := List.mem_filter.1 hm'
            rcases List.mem_cons.1 he with rfl | he
            · exact of_decide_eq_true h2 hem.symm
            · exact hd m' h1 e he hem
          have h2 : (chance fun H : I → D => Bad F (mask (C := C) g H) msg wrap (next (H x))
              ⟨⟨m, H x, F m⟩ :: st.K, st.E.filter fun m' => decide (m' ≠ m), st.X⟩) ≤
              ((pairs (st.E.length + n) (st.K.length + st.X.length + 1) : Nat) : ℚ) * (ℓ * (1 / Fintype.card D)) := by
            refine chance_rest x (fun β H => Bad F (mask (C := C) g H) msg wrap (next β)
              ⟨⟨m, β, F m⟩ :: st.K, st.E.filter fun m' => decide (m' ≠ m), st.X⟩) ?_ default ?_
            · intro β H H' hH hb
              refine bad_congr msg wrap (m0 := m) (fun y hy => ?_) (next β) _ (hd' β) ⟨_, List.mem_cons_self, rfl⟩ hb
              unfold mask
              rw [hH y fun h => hy (h.trans hx.symm)]
            · intro β
              refine le_trans (ih β n _ (hP β) (hd' β)) (mono ?_)
              have e1 : (⟨⟨m, β, F m⟩ :: st.K, st.E.filter fun m' => decide (m' ≠ m), st.X⟩ : C.St).K.length +
                  (⟨⟨m, β, F m⟩ :: st.K, st.E.filter fun m' => decide (m' ≠ m), st.X⟩ : C.St).X.length =
                  st.K.length + st.X.length + 1 := by
                show (_ :: _).length + _ = _
                rw [List.length_cons]
                exact Nat.add_right_comm _ _ _
              rw [e1]
              exact pairs_mono (Nat.add_le_add_right (List.length_filter_le _ _) n)
          refine le_trans (chance_le_add (q := fun H : I → D => Collide m (F m) (H x) st)
            (r := fun H : I → D => Bad F (mask (C := C) g H) msg wrap (next (H x))
              ⟨⟨m, H x, F m⟩ :: st.K, st.E.filter fun m' => decide (m' ≠ m), st.X⟩) ?_) (le_trans (add_le_add h1 h2) ?_)
          · rintro H (⟨m', h1, -, h3⟩ | hb)
            · rw [hm] at h1
              obtain rfl := Option.some.inj h1
              rw [hmask] at h3
              exact Or.inl h3
            · rw [hs] at hb
              exact Or.inr hb
          · rw [show st.E.length + (n + 1) = st.E.length + n + 1 from rfl, pairs_succ, ← add_mul, ← Nat.cast_add]
      | none =>
        cases hh : C.hit st.K x with
        | some d =>
          refine le_trans (chance_mono (q := fun H => Bad F (mask (C := C) g H) msg wrap (next d) st) fun H hb => ?_)
            (le_trans (ih _ n st (hP d) hd) (mono (pairs_mono (by omega))))
          have hs : stepHash F (mask (C := C) g H) st x = (st, d) := by unfold stepHash; simp only [hm, hh]
          rcases hb with ⟨m', h1, h2, -⟩ | hb
          · rw [hm] at h1
            cases h1
          · rw [hs] at hb
            exact hb
        | none =>
          refine le_trans (chance_mono (q := fun H => Bad F (mask (C := C) g H) msg wrap (next (g x)) ⟨st.K, st.E, x :: st.X⟩) fun H hb => ?_)
            (le_trans (ih _ n ⟨st.K, st.E, x :: st.X⟩ (hP (g x)) hd) (mono ?_))
          · have hs : stepHash F (mask (C := C) g H) st x = (⟨st.K, st.E, x :: st.X⟩, g x) := by
              unfold stepHash
              simp only [hm, hh]
              unfold mask
              rw [if_pos hm]
            rcases hb with ⟨m', h1, h2, -⟩ | hb
            · rw [hm] at h1
              cases h1
            · rw [hs] at hb
              exact hb
          · show pairs (st.E.length + n) (st.K.length + (x :: st.X).length) ≤ _
            rw [List.length_cons, ← Nat.add_assoc]
            exact pairs_le _ _

variable [Fintype M]

open Classical in
/-- The construction is indifferentiable from a random function. -/
theorem indifferentiable {ℓ : Nat} (hL : ∀ m, C.ell m ≤ ℓ) (h0 : 0 < ℓ) (P : Caller Q A I D) (N : Nat) (hP : P.AtMost N) :
    |(chance fun G : I → D => P.real (fun q => wrap q (C.realOut G (msg q))) G = true) - P.idealChance msg wrap C.simulator| ≤
      (N * (N - 1) / 2 : ℚ) * ℓ / Fintype.card D := by
  refine le_trans (close_of_bad msg wrap P) ?_
  have h1 : ∀ F : (m : M) → Fin (C.ell m) → D, (chance fun H : I → D => Bad F H msg wrap P ⟨[], [], []⟩) ≤
      (N * (N - 1) / 2 : ℚ) * ℓ / Fintype.card D := by
    intro F
    let e : (I → D) × (I → D) ≃ (I → D) × (I → D) :=
      { toFun := fun w => (mask (C := C) w.1 w.2, mask (C := C) w.2 w.1)
        invFun := fun w => (mask (C := C) w.1 w.2, mask (C := C) w.2 w.1)
        left_inv := fun w => by
          refine Prod.ext ?_ ?_ <;> funext x <;> by_cases h : C.msgOf x = none <;> simp [mask, h]
        right_inv := fun w => by
          refine Prod.ext ?_ ?_ <;> funext x <;> by_cases h : C.msgOf x = none <;> simp [mask, h] }
    have h2 := chance_equiv e fun w => Bad F w.1 msg wrap P ⟨[], [], []⟩
    have h3 : (chance fun w : (I → D) × (I → D) => Bad F w.1 msg wrap P ⟨[], [], []⟩) =
        chance fun H : I → D => Bad F H msg wrap P ⟨[], [], []⟩ := by
      have h4 := chance_equiv (Equiv.prodComm (I → D) (I → D)) fun w => Bad F w.1 msg wrap P ⟨[], [], []⟩
      exact h4.symm.trans (chance_dummy (Ω := I → D) (Ω' := I → D) fun H => Bad F H msg wrap P ⟨[], [], []⟩)
    rw [← h3, ← h2]
    refine le_trans (le_of_eq (chance_equiv (Equiv.prodComm (I → D) (I → D)) fun a => Bad F (e a).1 msg wrap P ⟨[], [], []⟩).symm) ?_
    refine chance_le_of_snd fun g => le_trans (chance_bad msg wrap g hL h0 P N ⟨[], [], []⟩ hP fun m hm => absurd hm List.not_mem_nil) ?_
    show ((pairs (0 + N) (0 + 0) : Nat) : ℚ) * _ ≤ _
    rw [pairs_eq, Nat.zero_add, Nat.mul_zero, Nat.zero_add]
    have hg : ((∑ i ∈ Finset.range N, i : Nat) : ℚ) = N * (N - 1) / 2 := by
      clear hP
      induction N with
      | zero => simp
      | succ q ih => rw [Finset.sum_range_succ, Nat.cast_add, ih]; push_cast; ring
    rw [hg]
    exact le_of_eq (by ring)
  rw [← chance_equiv (Equiv.prodComm (I → D) ((m : M) → Fin (C.ell m) → D))]
  exact chance_le_of_snd h1

end Chain

end Verif.Oracle
