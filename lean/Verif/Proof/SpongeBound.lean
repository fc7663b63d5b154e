import Verif.Proof.BirthdayBound
/-
A sponge with a random permutation: the states that a message reaches have different inner parts, unless one of the answers had
an inner part that occurred before.
-/
namespace Verif.Ideal
open Spec.Ideal

universe u
variable {K X C D : Type} {R : Type u}

section table
variable (cin cout : X → C) (out : X → D) (c0 : C) (F : List (Entry K X) → List D)

/-- The inner parts that occurred. -/
def caps (T : List (Entry K X)) : List C := c0 :: T.flatMap fun e => [cin e.x, cout e.y]

/-- The answer to a query has an inner part that occurred before, or a forbidden output. -/
def SpongeBad (e : Entry K X) (T : List (Entry K X)) : Prop :=
  match e.dir with
  | .enc => cout e.y ∈ caps cin cout c0 T ∨ out e.y ∈ F T
  | .dec => cin e.x ∈ caps cin cout c0 T

/-- The entries on the way of a message. -/
inductive Reach (T : List (Entry K X)) : Entry K X → Prop
  | first {e : Entry K X} : e ∈ T → cin e.x = c0 → Reach T e
  | next {e e' : Entry K X} : Reach T e → e' ∈ T → cin e'.x = cout e.y → Reach T e'

theorem mem_caps_x {T : List (Entry K X)} {e : Entry K X} (h : e ∈ T) : cin e.x ∈ caps cin cout c0 T :=
  List.mem_cons_of_mem _ (List.mem_flatMap.2 ⟨e, h, List.mem_cons_self⟩)

theorem mem_caps_y {T : List (Entry K X)} {e : Entry K X} (h : e ∈ T) : cout e.y ∈ caps cin cout c0 T :=
  List.mem_cons_of_mem _ (List.mem_flatMap.2 ⟨e, h, List.mem_cons_of_mem _ List.mem_cons_self⟩)

theorem Reach.mem {T : List (Entry K X)} {e : Entry K X} (h : Reach cin cout c0 T e) : e ∈ T := by
  cases h <;> assumption

variable {cin cout out c0 F}

/-- No inner part of a forward answer is the initial one, nor is that of a backward answer. -/
theorem clean_zero {T : List (Entry K X)} (h : Clean (SpongeBad cin cout out c0 F) T) {e : Entry K X} (he : e ∈ T) :
    (e.dir = .enc → cout e.y ≠ c0) ∧ (e.dir = .dec → cin e.x ≠ c0) := by
  induction T with
  | nil => cases he
  | cons f T ih =>
    rcases List.mem_cons.1 he with rfl | he
    · have hb := h.2.1
      unfold SpongeBad at hb
      constructor <;> intro hd h0 <;> rw [hd] at hb
      · exact hb (Or.inl (h0 ▸ List.mem_cons_self))
      · exact hb (h0 ▸ List.mem_cons_self)
    · exact ih h.1 he

/-- Forward answers have different inner parts. -/
theorem clean_enc {T : List (Entry K X)} (h : Clean (SpongeBad cin cout out c0 F) T) {e e' : Entry K X} (he : e ∈ T) (he' : e' ∈ T)
    (hd : e.dir = .enc) (hd' : e'.dir = .enc) (hc : cout e.y = cout e'.y) : e = e' := by
  induction T with
  | nil => cases he
  | cons f T ih =>
    have hb := h.2.1
    unfold SpongeBad at hb
    rcases List.mem_cons.1 he with h1 | h1 <;> rcases List.mem_cons.1 he' with h2 | h2
    · rw [h1, h2]
    · rw [← h1, hd] at hb
      exact absurd (Or.inl (hc ▸ mem_caps_y cin cout c0 h2)) hb
    · rw [← h2, hd'] at hb
      exact absurd (Or.inl (hc ▸ mem_caps_y cin cout c0 h1)) hb
    · exact ih h.1 h1 h2

/-- A forward answer does not lead to the answer of a backward query. -/
theorem clean_dec {T : List (Entry K X)} (h : Clean (SpongeBad cin cout out c0 F) T) {e e' : Entry K X} (he : e ∈ T) (he' : e' ∈ T)
    (hd : e.dir = .enc) (hd' : e'.dir = .dec) : cin e'.x ≠ cout e.y := by
  induction T with
  | nil => cases he
  | cons f T ih =>
    intro hc
    have hb := h.2.1
    unfold SpongeBad at hb
    rcases List.mem_cons.1 he with h1 | h1 <;> rcases List.mem_cons.1 he' with h2 | h2
    · rw [h1.trans h2.symm, hd'] at hd
      cases hd
    · rw [← h1, hd] at hb
      exact hb (Or.inl (hc ▸ mem_caps_x cin cout c0 h2))
    · rw [← h2, hd'] at hb
      exact hb (hc ▸ mem_caps_y cin cout c0 h1)
    · exact ih h.1 h1 h2 hc

/-- A message is evaluated by forward queries only. -/
theorem reach_enc {T : List (Entry K X)} (h : Clean (SpongeBad cin cout out c0 F) T) {e : Entry K X} (he : Reach cin cout c0 T e) :
    e.dir = .enc := by
  induction he with
  | @first e hm hx =>
    cases hd : e.dir with
    | enc => rfl
    | dec => exact absurd hx ((clean_zero h hm).2 hd)
  | @next e e' hr hm hx ih =>
    cases hd : e'.dir with
    | enc => rfl
    | dec => exact absurd hx (clean_dec h hr.mem hm ih hd)

theorem reach_zero {T : List (Entry K X)} (h : Clean (SpongeBad cin cout out c0 F) T) {e : Entry K X} (he : Reach cin cout c0 T e) :
    cout e.y ≠ c0 := (clean_zero h he.mem).1 (reach_enc h he)

theorem reach_inner {T : List (Entry K X)} (h : Clean (SpongeBad cin cout out c0 F) T) {e e' : Entry K X} (he : Reach cin cout c0 T e)
    (he' : Reach cin cout c0 T e') (hc : cout e.y = cout e'.y) : e = e' :=
  clean_enc h he.mem he'.mem (reach_enc h he) (reach_enc h he') hc

end table

/-- No forward answer has a forbidden output. -/
theorem clean_target {cin cout : X → C} {out : X → D} {c0 : C} {t : D} {T : List (Entry K X)}
    (h : Clean (SpongeBad cin cout out c0 fun _ => [t]) T) {e : Entry K X} (he : Reach cin cout c0 T e) : out e.y ≠ t := by
  have key : ∀ T : List (Entry K X), Clean (SpongeBad cin cout out c0 fun _ => [t]) T → ∀ e ∈ T, e.dir = .enc → out e.y ≠ t := by
    intro T
    induction T with
    | nil => intro _ e he; cases he
    | cons f T ih =>
      intro h e he hd ho
      rcases List.mem_cons.1 he with rfl | he
      · have hb := h.2.1
        unfold SpongeBad at hb
        rw [hd] at hb
        exact hb (Or.inr (ho ▸ List.mem_singleton_self _))
      · exact ih h.1 e he hd ho
  exact key T h e he.mem (reach_enc h he)

/-- Forward answers have different outputs. -/
theorem clean_output {cin cout : X → C} {out : X → D} {c0 : C} {T : List (Entry K X)}
    (h : Clean (SpongeBad cin cout out c0 fun T => T.map fun e => out e.y) T) {e e' : Entry K X} (he : Reach cin cout c0 T e)
    (he' : Reach cin cout c0 T e') (ho : out e.y = out e'.y) : e = e' := by
  have key : ∀ T : List (Entry K X), Clean (SpongeBad cin cout out c0 fun T => T.map fun e => out e.y) T → ∀ e ∈ T, ∀ e' ∈ T,
      e.dir = .enc → e'.dir = .enc → out e.y = out e'.y → e = e' := by
    intro T
    induction T with
    | nil => intro _ e he; cases he
    | cons f T ih =>
      intro h e he e' he' hd hd' hc
      have hb := h.2.1
      unfold SpongeBad at hb
      rcases List.mem_cons.1 he with h1 | h1 <;> rcases List.mem_cons.1 he' with h2 | h2
      · rw [h1, h2]
      · rw [← h1, hd] at hb
        exact absurd (Or.inr (List.mem_map.2 ⟨e', h2, hc.symm⟩)) hb
      · rw [← h2, hd'] at hb
        exact absurd (Or.inr (List.mem_map.2 ⟨e, h1, hc⟩)) hb
      · exact ih h.1 e h1 e' h2 hd hd' hc
  exact key T h e he.mem e' he'.mem (reach_enc h he) (reach_enc h he') ho

/-! ### Counting -/

theorem card_mem_le {D : Type} [Fintype X] [DecidableEq D] (g : X → D) {m : Nat}
    (hg : ∀ t, (Finset.univ.filter fun x => g x = t).card ≤ m) (L : List D) :
    (Finset.univ.filter fun x => g x ∈ L).card ≤ L.length * m := by
  classical
  induction L with
  | nil => simp
  | cons t L ih =>
    have : (Finset.univ.filter fun x => g x ∈ t :: L) ⊆
        (Finset.univ.filter fun x => g x = t) ∪ (Finset.univ.filter fun x => g x ∈ L) := by
      intro a ha
      simp only [Finset.mem_union, Finset.mem_filter, Finset.mem_univ, true_and, List.mem_cons] at ha ⊢
      exact ha
    refine le_trans (Finset.card_le_card this) (le_trans (Finset.card_union_le _ _) ?_)
    rw [List.length_cons, Nat.succ_mul, Nat.add_comm]
    exact Nat.add_le_add ih (hg t)

theorem length_caps (cin cout : X → C) (c0 : C) (T : List (Entry K X)) : (caps cin cout c0 T).length = 2 * T.length + 1 := by
  unfold caps
  rw [List.length_cons]
  congr 1
  induction T with
  | nil => rfl
  | cons e T ih => rw [List.flatMap_cons, List.length_append, ih, List.length_cons]; simp only [List.length_cons, List.length_nil]; omega

variable [Fintype K] [DecidableEq K] [Fintype X] [DecidableEq X] [DecidableEq C] [DecidableEq D]

instance (cin cout : X → C) (out : X → D) (c0 : C) (F : List (Entry K X) → List D) (T : List (Entry K X)) (e : Entry K X) :
    Decidable (SpongeBad cin cout out c0 F e T) := by
  unfold SpongeBad
  cases e.dir <;> infer_instance

omit [Fintype K] [DecidableEq K] [DecidableEq X] in
theorem card_spongeBad {cin cout : X → C} {out : X → D} (c0 : C) (F : List (Entry K X) → List D) {mc mo : Nat}
    (hi : ∀ t, (Finset.univ.filter fun x => cin x = t).card ≤ mc)
    (hc : ∀ t, (Finset.univ.filter fun x => cout x = t).card ≤ mc) (ho : ∀ t, (Finset.univ.filter fun x => out x = t).card ≤ mo)
    {g : Nat → Nat} (hF : ∀ T, (F T).length ≤ g T.length) (T : List (Entry K X)) (d : Dir) (k : K) (v : X) :
    (Finset.univ.filter fun a => SpongeBad cin cout out c0 F (entry d k v a) T).card ≤ (2 * T.length + 1) * mc + g T.length * mo := by
  classical
  have h1 := card_mem_le cout hc (caps cin cout c0 T)
  have h2 := card_mem_le cin hi (caps cin cout c0 T)
  rw [length_caps] at h1 h2
  cases d with
  | enc =>
    have : (Finset.univ.filter fun a => SpongeBad cin cout out c0 F (entry .enc k v a) T) ⊆
        (Finset.univ.filter fun x => cout x ∈ caps cin cout c0 T) ∪ (Finset.univ.filter fun x => out x ∈ F T) := by
      intro a ha
      simp only [Finset.mem_union, Finset.mem_filter, Finset.mem_univ, true_and] at ha ⊢
      exact ha
    refine le_trans (Finset.card_le_card this) (le_trans (Finset.card_union_le _ _) (Nat.add_le_add h1 ?_))
    exact le_trans (card_mem_le out ho (F T)) (Nat.mul_le_mul_right _ (hF T))
  | dec =>
    refine le_trans (Finset.card_le_card ?_) (le_trans h2 (Nat.le_add_right _ _))
    intro a ha
    simp only [Finset.mem_filter, Finset.mem_univ, true_and] at ha ⊢
    exact ha

theorem bound_le_sum {N q : Nat} (w : Nat → Nat) (h : q < N) :
    bound N w 0 q ≤ ((∑ i ∈ Finset.range q, w i : Nat) : ℚ) / ((N : ℚ) - q) := by
  have hN : (0 : ℚ) < (N : ℚ) - q := sub_pos.2 (Nat.cast_lt.2 h)
  rw [Nat.cast_sum, Finset.sum_div]
  unfold bound
  refine Finset.sum_le_sum fun i hi => ?_
  rw [Nat.zero_add]
  refine div_le_div_of_nonneg_left (Nat.cast_nonneg _) hN ?_
  have : (i : ℚ) ≤ q := Nat.cast_le.2 (Finset.mem_range.1 hi).le
  linarith

theorem sum_collision (q mc mo : Nat) : ((∑ i ∈ Finset.range q, ((2 * i + 1) * mc + i * mo) : Nat) : ℚ) =
    (q : ℚ) ^ 2 * mc + q * (q - 1) / 2 * mo := by
  induction q with
  | zero => simp
  | succ q ih =>
    rw [Finset.sum_range_succ, Nat.cast_add, ih]
    push_cast
    ring

theorem sum_preimage (q mc mo : Nat) : ((∑ i ∈ Finset.range q, ((2 * i + 1) * mc + 1 * mo) : Nat) : ℚ) =
    (q : ℚ) ^ 2 * mc + q * mo := by
  induction q with
  | zero => simp
  | succ q ih =>
    rw [Finset.sum_range_succ, Nat.cast_add, ih]
    push_cast
    ring

/-- An event that needs two equal inner parts or two equal outputs. -/
theorem sponge_collision_bound {cin cout : X → C} {out : X → D} (c0 : C) {mc mo : Nat}
    (hi : ∀ t, (Finset.univ.filter fun x => cin x = t).card ≤ mc)
    (hc : ∀ t, (Finset.univ.filter fun x => cout x = t).card ≤ mc) (ho : ∀ t, (Finset.univ.filter fun x => out x = t).card ≤ mo)
    (A : Attacker K X R) (q : Nat) (hA : A.AtMost q) (hq : q < Fintype.card X) (p : Cipher K X → Prop)
    (hp : ∀ E, Clean (SpongeBad cin cout out c0 fun T => T.map fun e => out e.y) (table E A []) → ¬ p E) :
    prob p ≤ ((q : ℚ) ^ 2 * mc + q * (q - 1) / 2 * mo) / ((Fintype.card X : ℚ) - q) := by
  rw [← sum_collision]
  refine le_trans (prob_le _ (fun i => (2 * i + 1) * mc + i * mo) ?_ A q hA hq.le p hp) (bound_le_sum _ hq)
  exact fun T d k v _ => card_spongeBad c0 (fun T => T.map fun e => out e.y) hi hc ho (g := id)
    (fun T => le_of_eq (List.length_map ..)) T d k v

/-- An event that needs two equal inner parts or a given output. -/
theorem sponge_preimage_bound {cin cout : X → C} {out : X → D} (c0 : C) {mc mo : Nat}
    (hi : ∀ t, (Finset.univ.filter fun x => cin x = t).card ≤ mc)
    (hc : ∀ t, (Finset.univ.filter fun x => cout x = t).card ≤ mc) (ho : ∀ t, (Finset.univ.filter fun x => out x = t).card ≤ mo)
    (A : Attacker K X R) (q : Nat) (hA : A.AtMost q) (hq : q < Fintype.card X) (t : D) (p : Cipher K X → Prop)
    (hp : ∀ E, Clean (SpongeBad cin cout out c0 fun _ => [t]) (table E A []) → ¬ p E) :
    prob p ≤ ((q : ℚ) ^ 2 * mc + q * mo) / ((Fintype.card X : ℚ) - q) := by
  rw [← sum_preimage]
  refine le_trans (prob_le _ (fun i => (2 * i + 1) * mc + 1 * mo) ?_ A q hA hq.le p hp) (bound_le_sum _ hq)
  exact fun T d k v _ => card_spongeBad c0 (fun _ => [t]) hi hc ho (g := fun _ => 1) (fun T => le_refl 1) T d k v

/-- An event that needs two equal inner parts. -/
theorem sponge_inner_bound {cin cout : X → C} (c0 : C) {mc : Nat}
    (hi : ∀ t, (Finset.univ.filter fun x => cin x = t).card ≤ mc)
    (hc : ∀ t, (Finset.univ.filter fun x => cout x = t).card ≤ mc)
    (A : Attacker K X R) (q : Nat) (hA : A.AtMost q) (hq : q < Fintype.card X) (p : Cipher K X → Prop)
    (hp : ∀ E, Clean (SpongeBad cin cout cout c0 fun _ => []) (table E A []) → ¬ p E) :
    prob p ≤ (q : ℚ) ^ 2 * mc / ((Fintype.card X : ℚ) - q) := by
  have h := sum_collision q mc 0
  rw [Nat.cast_zero, mul_zero, add_zero] at h
  rw [← h]
  refine le_trans (prob_le _ (fun i => (2 * i + 1) * mc + i * 0) ?_ A q hA hq.le p hp) (bound_le_sum _ hq)
  intro T d k v _
  have := card_spongeBad (K := K) c0 (fun _ => []) hi hc hc (g := fun _ => 0) (fun T => le_refl 0) T d k v
  rwa [Nat.zero_mul] at this

end Verif.Ideal
