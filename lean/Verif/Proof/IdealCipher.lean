import Verif.Spec.IdealCipher
import Mathlib.Algebra.BigOperators.Intervals
import Mathlib.Algebra.BigOperators.Field
import Mathlib.Algebra.Order.BigOperators.Ring.Finset
import Mathlib.Algebra.Order.Field.Basic
import Mathlib.Algebra.Order.Ring.Rat
import Mathlib.Data.Fintype.BigOperators
import Mathlib.Tactic.FieldSimp
import Mathlib.Tactic.Positivity
import Mathlib.Tactic.Linarith
/-
The counting argument behind every bound in the ideal cipher model: an answer that is not yet determined takes every value with
probability at most `1 / (N - number of known answers)`.
-/
namespace Verif.Ideal
open Spec.Ideal

universe u
variable {K X : Type} {R : Type u}

/-- A determined answer: direction of the query, key, plaintext, ciphertext. -/
structure Entry (K X : Type) where
  dir : Dir
  key : K
  x : X
  y : X

/-- The entry of a query and its answer. -/
def entry (d : Dir) (k : K) (v a : X) : Entry K X :=
  match d with
  | .enc => ⟨d, k, v, a⟩
  | .dec => ⟨d, k, a, v⟩

/-- The side of an entry that a query in direction `d` gives. -/
def Entry.side (d : Dir) (e : Entry K X) : X :=
  match d with
  | .enc => e.x
  | .dec => e.y

/-- The answer to the query is in the table. -/
def Known (T : List (Entry K X)) (d : Dir) (k : K) (v : X) : Prop := ∃ e ∈ T, e.key = k ∧ e.side d = v

/-- The entries agree with the cipher. -/
def Agrees (E : Cipher K X) (T : List (Entry K X)) : Prop := ∀ e ∈ T, E e.key e.x = e.y

open Classical in
/-- The table of determined answers, last first. -/
noncomputable def table (E : Cipher K X) : Attacker K X R → List (Entry K X) → List (Entry K X)
  | .done _, T => T
  | .ask d k v next, T =>
    table E (next (answer E d k v)) (if Known T d k v then T else entry d k v (answer E d k v) :: T)

/-- No entry was bad when it was added, and every entry was new. -/
def Clean (Bad : Entry K X → List (Entry K X) → Prop) : List (Entry K X) → Prop
  | [] => True
  | e :: T => Clean Bad T ∧ ¬ Bad e T ∧ ¬ Known T e.dir e.key (e.side e.dir)

theorem answer_entry (E : Cipher K X) (d : Dir) (k : K) (v a : X) :
    answer E d k v = a ↔ E (entry d k v a).key (entry d k v a).x = (entry d k v a).y := by
  cases d
  · exact Iff.rfl
  · show (E k).symm v = a ↔ E k a = v
    rw [Equiv.symm_apply_eq, eq_comm]

theorem answer_known {E : Cipher K X} {T : List (Entry K X)} (h : Agrees E T) {e : Entry K X} (he : e ∈ T) (d : Dir) :
    answer E d e.key (e.side d) = match d with | .enc => e.y | .dec => e.x := by
  have := h e he
  cases d
  · exact this
  · show (E e.key).symm e.y = e.x
    rw [Equiv.symm_apply_eq, this]

theorem agrees_cons {E : Cipher K X} {T : List (Entry K X)} (d : Dir) (k : K) (v a : X) :
    Agrees E (entry d k v a :: T) ↔ Agrees E T ∧ answer E d k v = a := by
  unfold Agrees
  rw [List.forall_mem_cons, answer_entry, and_comm]

theorem table_agrees (E : Cipher K X) (A : Attacker K X R) : ∀ T, Agrees E T → Agrees E (table E A T) := by
  induction A with
  | done _ => intro T h; exact h
  | ask d k v next ih =>
    intro T h
    rw [table]
    refine ih _ _ ?_
    split
    · exact h
    · exact (agrees_cons d k v _).2 ⟨h, rfl⟩

theorem table_suffix (E : Cipher K X) (A : Attacker K X R) : ∀ T, ∀ e ∈ T, e ∈ table E A T := by
  induction A with
  | done _ => intro T e h; exact h
  | ask d k v next ih =>
    intro T e h
    rw [table]
    refine ih _ _ _ ?_
    split
    · exact h
    · exact List.mem_cons_of_mem _ h

/-- All that the attacker learns is in the table. -/
theorem learns_table (E : Cipher K X) (A : Attacker K X R) : ∀ T, Agrees E T → ∀ t ∈ A.learns E,
    ∃ e ∈ table E A T, (e.key, e.x, e.y) = t := by
  induction A with
  | done _ => intro T _ t ht; cases ht
  | ask d k v next ih =>
    intro T hT t ht
    rw [Attacker.learns] at ht
    rw [table]
    rcases List.mem_cons.1 ht with rfl | ht
    · by_cases hk : Known T d k v
      · rw [if_pos hk]
        obtain ⟨e, he, rfl, rfl⟩ := hk
        refine ⟨e, table_suffix _ _ _ _ he, ?_⟩
        rw [answer_known hT he d]
        cases d <;> rfl
      · rw [if_neg hk]
        refine ⟨_, table_suffix _ _ _ _ List.mem_cons_self, ?_⟩
        cases d <;> rfl
    · refine ih _ _ ?_ _ ht
      split
      · exact hT
      · exact (agrees_cons d k v _).2 ⟨hT, rfl⟩

theorem table_length (E : Cipher K X) (A : Attacker K X R) : ∀ T q, A.AtMost q → (table E A T).length ≤ T.length + q := by
  induction A with
  | done _ => intro T q _; exact Nat.le_add_right _ _
  | ask d k v next ih =>
    intro T q h
    cases q with
    | zero => exact h.elim
    | succ q =>
      rw [table]
      refine le_trans (ih _ _ q (h _)) ?_
      split
      · omega
      · rw [List.length_cons]; omega

variable [Fintype K] [DecidableEq K] [Fintype X] [DecidableEq X]

open Classical in
/-- The ciphers that agree with the table. -/
noncomputable def agreeing (T : List (Entry K X)) : Finset (Cipher K X) := Finset.univ.filter fun E => Agrees E T

omit [Fintype K] [Fintype X] in
theorem agrees_swap {T : List (Entry K X)} {k : K} {x y y' : X} (hy : ∀ e ∈ T, e.key = k → e.y ≠ y)
    (hy' : ∀ e ∈ T, e.key = k → e.y ≠ y') {E : Cipher K X} (h : Agrees E T) (hx : E k x = y) :
    Agrees (Function.update E k ((E k).trans (Equiv.swap y y'))) T ∧
      (Function.update E k ((E k).trans (Equiv.swap y y'))) k x = y' := by
  refine ⟨fun e he => ?_, ?_⟩
  · by_cases hk : e.key = k
    · rw [hk, Function.update_self, Equiv.trans_apply]
      have := h e he
      rw [hk] at this
      rw [this, Equiv.swap_apply_of_ne_of_ne (hy e he hk) (hy' e he hk)]
    · rw [Function.update_of_ne hk]
      exact h e he
  · rw [Function.update_self, Equiv.trans_apply, hx, Equiv.swap_apply_left]

omit [Fintype K] [Fintype X] in
theorem update_swap_injective (k : K) (y y' : X) :
    Function.Injective fun E : Cipher K X => (Function.update E k ((E k).trans (Equiv.swap y y')) : Cipher K X) := by
  intro E E' h
  funext k'
  by_cases hk : k' = k
  · subst hk
    have := congrFun h k'
    simp only [Function.update_self] at this
    refine Equiv.ext fun x => ?_
    have h1 := congrArg (fun p : Equiv.Perm X => p x) this
    simp only [Equiv.trans_apply] at h1
    exact (Equiv.swap y y').injective h1
  · have := congrFun h k'
    simpa only [Function.update_of_ne hk] using this

open Classical in
theorem card_answer_enc (T : List (Entry K X)) (k : K) (x y : X) (hx : ¬ Known T .enc k x) :
    ((agreeing T).filter fun E => E k x = y).card * (Fintype.card X - T.length) ≤ (agreeing T).card := by
  by_cases hu : ∃ e ∈ T, e.key = k ∧ e.y = y
  · obtain ⟨e, he, hk, hy⟩ := hu
    have : ((agreeing T).filter fun E => E k x = y) = ∅ := by
      rw [Finset.filter_eq_empty_iff]
      intro E hE h
      have hA : Agrees E T := (Finset.mem_filter.1 hE).2
      have h1 := hA e he
      rw [hk, hy, ← h] at h1
      exact hx ⟨e, he, hk, (E k).injective h1⟩
    rw [this]; simp
  · have hy : ∀ e ∈ T, e.key = k → e.y ≠ y := fun e he hk h => hu ⟨e, he, hk, h⟩
    let U : Finset X := Finset.univ \ (T.map Entry.y).toFinset
    have hU : Fintype.card X - T.length ≤ U.card := by
      rw [Finset.card_sdiff, Finset.card_univ]
      have h1 : ((T.map Entry.y).toFinset ∩ Finset.univ).card ≤ T.length := by
        refine le_trans (Finset.card_le_card Finset.inter_subset_left) (le_trans (List.toFinset_card_le _) ?_)
        rw [List.length_map]
      omega
    have hle : ∀ y' ∈ U, ((agreeing T).filter fun E => E k x = y).card ≤ ((agreeing T).filter fun E => E k x = y').card := by
      intro y' hy'
      have hy'' : ∀ e ∈ T, e.key = k → e.y ≠ y' := by
        intro e he _ h
        have := (Finset.mem_sdiff.1 hy').2
        exact this (List.mem_toFinset.2 (List.mem_map.2 ⟨e, he, h⟩))
      refine Finset.card_le_card_of_injOn _ ?_ ((update_swap_injective k y y').injOn)
      intro E hE
      rw [Finset.mem_coe, Finset.mem_filter] at hE
      have hA : Agrees E T := (Finset.mem_filter.1 hE.1).2
      have := agrees_swap hy hy'' hA hE.2
      rw [Finset.mem_coe, Finset.mem_filter]
      exact ⟨Finset.mem_filter.2 ⟨Finset.mem_univ _, this.1⟩, this.2⟩
    have hsum := Finset.card_eq_sum_card_fiberwise (s := agreeing T) (t := Finset.univ) (f := fun E : Cipher K X => E k x)
      (fun _ _ => Finset.mem_coe.2 (Finset.mem_univ _))
    calc _ ≤ ((agreeing T).filter fun E => E k x = y).card * U.card := Nat.mul_le_mul_left _ hU
      _ = ∑ _ ∈ U, ((agreeing T).filter fun E => E k x = y).card := by rw [Finset.sum_const, nsmul_eq_mul, Nat.mul_comm]; rfl
      _ ≤ ∑ y' ∈ U, ((agreeing T).filter fun E => E k x = y').card := Finset.sum_le_sum hle
      _ ≤ ∑ y', ((agreeing T).filter fun E => E k x = y').card :=
        Finset.sum_le_sum_of_subset (Finset.subset_univ _)
      _ = (agreeing T).card := hsum.symm

open Classical in
/-- An answer that is not in the table is evenly distributed over the values that remain. -/
theorem card_answer (T : List (Entry K X)) (d : Dir) (k : K) (v a : X) (h : ¬ Known T d k v) :
    ((agreeing T).filter fun E => answer E d k v = a).card * (Fintype.card X - T.length) ≤ (agreeing T).card := by
  cases d with
  | enc => exact card_answer_enc T k v a h
  | dec =>
    have e : ((agreeing T).filter fun E => answer E .dec k v = a) = (agreeing T).filter fun E => E k a = v := by
      refine Finset.filter_congr fun E _ => ?_
      show (E k).symm v = a ↔ E k a = v
      rw [Equiv.symm_apply_eq, eq_comm]
    rw [e]
    by_cases hx : Known T .enc k a
    · have : ((agreeing T).filter fun E => E k a = v) = ∅ := by
        rw [Finset.filter_eq_empty_iff]
        intro E hE h1
        have hA : Agrees E T := (Finset.mem_filter.1 hE).2
        obtain ⟨e, he, hk, hs⟩ := hx
        have h2 := hA e he
        rw [hk, show e.x = a from hs, h1] at h2
        exact h ⟨e, he, hk, h2.symm⟩
      rw [this]; simp
    · exact card_answer_enc T k a v hx

/-- The bound for `q` queries after `s` known answers. -/
def bound (N : Nat) (w : Nat → Nat) (s q : Nat) : ℚ := ∑ i ∈ Finset.range q, (w (s + i) : ℚ) / ((N : ℚ) - (s + i : Nat))

theorem bound_succ (N : Nat) (w : Nat → Nat) (s q : Nat) :
    bound N w s (q + 1) = (w s : ℚ) / ((N : ℚ) - (s : Nat)) + bound N w (s + 1) q := by
  unfold bound
  rw [Finset.sum_range_succ']
  rw [add_comm]
  congr 1
  refine Finset.sum_congr rfl fun i _ => ?_
  rw [show s + (i + 1) = s + 1 + i by omega]

theorem bound_nonneg {N : Nat} (w : Nat → Nat) {s q : Nat} (h : s + q ≤ N) : 0 ≤ bound N w s q := by
  refine Finset.sum_nonneg fun i hi => div_nonneg (Nat.cast_nonneg _) (sub_nonneg.2 (Nat.cast_le.2 ?_))
  have := Finset.mem_range.1 hi
  omega

theorem bound_mono {N : Nat} (w : Nat → Nat) {s q : Nat} (h : s + (q + 1) ≤ N) : bound N w s q ≤ bound N w s (q + 1) := by
  unfold bound
  rw [Finset.sum_range_succ]
  refine le_add_of_nonneg_right (div_nonneg (Nat.cast_nonneg _) (sub_nonneg.2 (Nat.cast_le.2 ?_)))
  omega

open Classical in
/-- If at most `w s` answers to a query are bad when `s` answers are known, the table of an attacker with `q` queries is clean
but for a fraction `bound` of the ciphers. -/
theorem card_unclean (Bad : Entry K X → List (Entry K X) → Prop) (w : Nat → Nat)
    (hw : ∀ (T : List (Entry K X)) d k v, Clean Bad T → (Finset.univ.filter fun a => Bad (entry d k v a) T).card ≤ w T.length)
    (A : Attacker K X R) : ∀ (T : List (Entry K X)) (q : Nat), A.AtMost q → T.length + q ≤ Fintype.card X → Clean Bad T →
      (((agreeing T).filter fun E => ¬ Clean Bad (table E A T)).card : ℚ) ≤
        (agreeing T).card * bound (Fintype.card X) w T.length q := by
  induction A with
  | done r =>
    intro T q _ hq hT
    have : ((agreeing T).filter fun E => ¬ Clean Bad (table E (Attacker.done r : Attacker K X R) T)) = ∅ := by
      rw [Finset.filter_eq_empty_iff]
      intro E _ h
      exact h hT
    rw [this, Finset.card_empty, Nat.cast_zero]
    exact mul_nonneg (Nat.cast_nonneg _) (bound_nonneg _ hq)
  | ask d k v next ih =>
    intro T q h hq hT
    cases q with
    | zero => exact h.elim
    | succ q =>
      by_cases hk : Known T d k v
      · -- the answer is determined
        have key : ∃ a, ∀ E ∈ agreeing T, answer E d k v = a := by
          obtain ⟨e, he, rfl, rfl⟩ := hk
          exact ⟨_, fun E hE => answer_known (Finset.mem_filter.1 hE).2 he d⟩
        obtain ⟨a, ha⟩ := key
        have : ((agreeing T).filter fun E => ¬ Clean Bad (table E (Attacker.ask d k v next) T)) =
            (agreeing T).filter fun E => ¬ Clean Bad (table E (next a) T) := by
          refine Finset.filter_congr fun E hE => ?_
          rw [table, if_pos hk, ha E hE]
        rw [this]
        refine le_trans (ih a T q (h a) (by omega) hT) ?_
        exact mul_le_mul_of_nonneg_left (bound_mono w hq) (Nat.cast_nonneg _)
      · have hN : (0 : ℚ) < (Fintype.card X : ℚ) - (T.length : Nat) := sub_pos.2 (Nat.cast_lt.2 (by omega))
        have hfib : ((agreeing T).filter fun E => ¬ Clean Bad (table E (Attacker.ask d k v next) T)).card =
            ∑ a, (((agreeing T).filter fun E => ¬ Clean Bad (table E (Attacker.ask d k v next) T)).filter
              fun E => answer E d k v = a).card :=
          Finset.card_eq_sum_card_fiberwise (fun _ _ => Finset.mem_coe.2 (Finset.mem_univ _))
        have hagree : ∀ a, ((agreeing T).filter fun E => answer E d k v = a) = agreeing (entry d k v a :: T) := by
          intro a
          unfold agreeing
          rw [Finset.filter_filter]
          refine Finset.filter_congr fun E _ => ?_
          rw [agrees_cons]
        have hlt : ∀ a, ((agreeing (entry d k v a :: T)).card : ℚ) ≤
            (agreeing T).card / ((Fintype.card X : ℚ) - (T.length : Nat)) := by
          intro a
          rw [le_div_iff₀ hN, ← hagree a, ← Nat.cast_sub (by omega : T.length ≤ Fintype.card X), ← Nat.cast_mul]
          exact Nat.cast_le.2 (card_answer T d k v a hk)
        have hstep : ∀ a, ((((agreeing T).filter fun E => ¬ Clean Bad (table E (Attacker.ask d k v next) T)).filter
              fun E => answer E d k v = a).card : ℚ) ≤
            (if Bad (entry d k v a) T then (agreeing T).card / ((Fintype.card X : ℚ) - (T.length : Nat)) else 0) +
              (agreeing (entry d k v a :: T)).card * bound (Fintype.card X) w (T.length + 1) q := by
          intro a
          have hsub : (((agreeing T).filter fun E => ¬ Clean Bad (table E (Attacker.ask d k v next) T)).filter
              fun E => answer E d k v = a) =
              (agreeing (entry d k v a :: T)).filter fun E => ¬ Clean Bad (table E (next a) (entry d k v a :: T)) := by
            rw [← hagree a, Finset.filter_filter, Finset.filter_filter]
            refine Finset.filter_congr fun E _ => ?_
            constructor
            · rintro ⟨h1, rfl⟩
              rw [table, if_neg hk] at h1
              exact ⟨rfl, h1⟩
            · rintro ⟨rfl, h1⟩
              rw [table, if_neg hk]
              exact ⟨h1, rfl⟩
          rw [hsub]
          by_cases hb : Bad (entry d k v a) T
          · rw [if_pos hb]
            refine le_trans (Nat.cast_le.2 (Finset.card_filter_le _ _)) (le_trans (hlt a) ?_)
            exact le_add_of_nonneg_right (mul_nonneg (Nat.cast_nonneg _) (bound_nonneg _ (by omega)))
          · rw [if_neg hb, zero_add]
            refine ih a _ q (h a) ?_ ⟨hT, hb, ?_⟩
            · rw [List.length_cons]; omega
            · cases d <;> exact hk
        have htot : ((agreeing T).card : ℚ) = ∑ a, ((agreeing (entry d k v a :: T)).card : ℚ) := by
          rw [← Nat.cast_sum]
          congr 1
          have := Finset.card_eq_sum_card_fiberwise (s := agreeing T) (t := Finset.univ)
            (f := fun E : Cipher K X => answer E d k v) (fun _ _ => Finset.mem_coe.2 (Finset.mem_univ _))
          rw [this]
          exact Finset.sum_congr rfl fun a _ => by rw [hagree a]
        rw [hfib, Nat.cast_sum]
        refine le_trans (Finset.sum_le_sum fun a _ => hstep a) ?_
        rw [Finset.sum_add_distrib, ← Finset.sum_mul, ← htot, bound_succ, mul_add]
        refine add_le_add ?_ (le_refl _)
        rw [← Finset.sum_filter, Finset.sum_const, nsmul_eq_mul]
        rw [mul_div_assoc', mul_div_assoc', mul_comm]
        refine div_le_div_of_nonneg_right ?_ hN.le
        exact mul_le_mul_of_nonneg_left (Nat.cast_le.2 (hw T d k v hT)) (Nat.cast_nonneg _)

/-- An event that does not occur when the table is clean has at most the probability `bound`. -/
theorem prob_le (Bad : Entry K X → List (Entry K X) → Prop) (w : Nat → Nat) [∀ T (e : Entry K X), Decidable (Bad e T)]
    (hw : ∀ (T : List (Entry K X)) d k v, Clean Bad T → (Finset.univ.filter fun a => Bad (entry d k v a) T).card ≤ w T.length)
    (A : Attacker K X R) (q : Nat) (hA : A.AtMost q) (hq : q ≤ Fintype.card X) (p : Cipher K X → Prop)
    (hp : ∀ E, Clean Bad (table E A []) → ¬ p E) : prob p ≤ bound (Fintype.card X) w 0 q := by
  classical
  have h := card_unclean Bad w (fun T d k v hT => by convert hw T d k v hT) A [] q hA (by simpa using hq) trivial
  have hu : agreeing ([] : List (Entry K X)) = Finset.univ := by
    unfold agreeing
    rw [Finset.filter_true_of_mem]
    intro E _ e he
    cases he
  rw [hu, Finset.card_univ] at h
  have hpos : (0 : ℚ) < Fintype.card (Cipher K X) := Nat.cast_pos.2 Fintype.card_pos
  unfold prob
  rw [div_le_iff₀ hpos, mul_comm]
  refine le_trans (Nat.cast_le.2 (Finset.card_le_card ?_)) h
  intro E hE
  rw [Finset.mem_filter] at hE ⊢
  exact ⟨hE.1, fun hc => hp E hc (by convert hE.2)⟩

theorem prob_mono {p p' : Cipher K X → Prop} (h : ∀ E, p E → p' E) : prob p ≤ prob p' := by
  classical
  unfold prob
  refine div_le_div_of_nonneg_right (Nat.cast_le.2 (Finset.card_le_card fun E hE => ?_)) (Nat.cast_nonneg _)
  simp only [Finset.mem_filter, Finset.mem_univ, true_and] at hE ⊢
  exact h E hE

end Verif.Ideal
