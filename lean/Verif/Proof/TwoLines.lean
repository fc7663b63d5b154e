import Verif.Proof.BirthdayBound
/-
Two random ciphers side by side on the same input, as in the two lines of RIPEMD-128 and RIPEMD-160: bounds for collisions and
preimages of a value that depends on both outputs.  The two lines are one cipher whose key also names the line.
-/
namespace Verif.Ideal
open Spec.Ideal

universe u
variable {K X D : Type} {R : Type u}

/-- The same key in the other line. -/
def otherLine (k : K × Bool) : K × Bool := (k.1, !k.2)

theorem otherLine_otherLine (k : K × Bool) : otherLine (otherLine k) = k := by
  simp [otherLine]

theorem otherLine_ne (k : K × Bool) : otherLine k ≠ k := by
  intro h
  have := congrArg Prod.snd h
  simp [otherLine] at this

/-- The value for input `x`, output `y` in line `k.2` and output `z` in the other line. -/
def lineValue (val : X → X → X → D) (k : K × Bool) (x y z : X) : D := if k.2 then val x z y else val x y z

/-- The value of key `k` and input `x` under the cipher `E`. -/
def pairValue (val : X → X → X → D) (E : Cipher (K × Bool) X) (k : K) (x : X) : D := val x (E (k, false) x) (E (k, true) x)

theorem lineValue_eq (val : X → X → X → D) (E : Cipher (K × Bool) X) (k : K × Bool) (x : X) :
    lineValue val k x (E k x) (E (otherLine k) x) = pairValue val E k.1 x := by
  obtain ⟨k, b⟩ := k
  cases b <;> rfl

/-- Either output determines the other from the value. -/
structure LineInjective (val : X → X → X → D) : Prop where
  left : ∀ x z, Function.Injective fun y => val x y z
  right : ∀ x y, Function.Injective fun z => val x y z

theorem lineValue_injective {val : X → X → X → D} (H : LineInjective val) (k : K × Bool) (x z : X) :
    Function.Injective fun y => lineValue val k x y z := by
  obtain ⟨k, b⟩ := k
  cases b
  · exact H.left x z
  · exact H.right x z

/-- Both lines are known on `(k, x)`. -/
def Complete (T : List (Entry (K × Bool) X)) (k : K) (x : X) : Prop :=
  ∃ e ∈ T, ∃ f ∈ T, f.key = otherLine e.key ∧ e.key.1 = k ∧ e.x = x ∧ f.x = x

theorem complete_of_learns (E : Cipher (K × Bool) X) (A : Attacker (K × Bool) X R) {k : K} {x : X}
    (h1 : ((k, false), x, E (k, false) x) ∈ A.learns E) (h2 : ((k, true), x, E (k, true) x) ∈ A.learns E) :
    Complete (table E A []) k x := by
  have hAg : Agrees E ([] : List (Entry (K × Bool) X)) := by intro e he; cases he
  obtain ⟨e, he, he'⟩ := learns_table E A [] hAg _ h1
  obtain ⟨f, hf, hf'⟩ := learns_table E A [] hAg _ h2
  simp only [Prod.mk.injEq] at he' hf'
  exact ⟨e, he, f, hf, by rw [he'.1, hf'.1]; rfl, by rw [he'.1], he'.2.1, hf'.2.1⟩

theorem complete_cons {e : Entry (K × Bool) X} {T : List (Entry (K × Bool) X)} {k : K} {x : X} (h : Complete (e :: T) k x) :
    Complete T k x ∨ (e.key.1 = k ∧ e.x = x ∧ ∃ f ∈ T, f.key = otherLine e.key ∧ f.x = e.x) := by
  obtain ⟨a, ha, b, hb, hk, hk1, hx, hx'⟩ := h
  rcases List.mem_cons.1 ha with rfl | ha2 <;> rcases List.mem_cons.1 hb with h | hb2
  · rw [h] at hk
    exact absurd hk.symm (otherLine_ne _)
  · exact Or.inr ⟨hk1, hx, b, hb2, hk, hx'.trans hx.symm⟩
  · subst h
    refine Or.inr ⟨by rw [hk]; exact hk1, hx', a, ha2, ?_, hx.trans hx'.symm⟩
    rw [hk, otherLine_otherLine]
  · exact Or.inl ⟨a, ha2, b, hb2, hk, hk1, hx, hx'⟩

theorem agrees_tail {K : Type} {E : Cipher K X} {e : Entry K X} {T : List (Entry K X)} (h : Agrees E (e :: T)) : Agrees E T :=
  fun f hf => h f (List.mem_cons_of_mem _ hf)

theorem card_le_list {α β : Type} [Fintype α] [DecidableEq α] (L : List β) (P : α → Prop) {_ : DecidablePred P} (Q : β → α → Prop)
    (hP : ∀ a, P a → ∃ b ∈ L, Q b a) (hQ : ∀ b a a', Q b a → Q b a' → a = a') : (Finset.univ.filter P).card ≤ L.length := by
  classical
  have hsub : Finset.univ.filter P ⊆ (L.flatMap fun b => if h : ∃ a, Q b a then [Classical.choose h] else []).toFinset := by
    intro a ha
    obtain ⟨b, hb, hq⟩ := hP a (Finset.mem_filter.1 ha).2
    rw [List.mem_toFinset, List.mem_flatMap]
    refine ⟨b, hb, ?_⟩
    have he : ∃ a, Q b a := ⟨a, hq⟩
    rw [dif_pos he, List.mem_singleton]
    exact hQ b _ _ hq (Classical.choose_spec he)
  refine le_trans (Finset.card_le_card hsub) (le_trans (List.toFinset_card_le _) ?_)
  clear hsub hP
  induction L with
  | nil => simp
  | cons b L ih =>
    rw [List.flatMap_cons, List.length_append, List.length_cons]
    have : (if h : ∃ a, Q b a then [Classical.choose h] else []).length ≤ 1 := by split <;> simp
    omega

variable [Fintype K] [DecidableEq K] [Fintype X] [DecidableEq X] [DecidableEq D]

/-- Two different inputs whose lines are both known to the attacker have the same value with probability at most
`q (q - 1) / 2 / (N - q)`. -/
theorem pair_collision_bound {val : X → X → X → D} (H : LineInjective val) (A : Attacker (K × Bool) X R) (q : Nat)
    (hA : A.AtMost q) (hq : q < Fintype.card X) (p : Cipher (K × Bool) X → Prop)
    (hp : ∀ E, p E → ∃ k x k' x', (k, x) ≠ (k', x') ∧ pairValue val E k x = pairValue val E k' x' ∧
      (∀ b, ((k, b), x, E (k, b) x) ∈ A.learns E) ∧ ∀ b, ((k', b), x', E (k', b) x') ∈ A.learns E) :
    prob p ≤ (q * (q - 1) / 2 : ℚ) / ((Fintype.card X : ℚ) - q) := by
  classical
  let Bad : Entry (K × Bool) X → List (Entry (K × Bool) X) → Prop := fun e T => ∃ E, Agrees E T ∧
    ∃ f ∈ T, f.key = otherLine e.key ∧ f.x = e.x ∧ ∃ k x, (k, x) ≠ (e.key.1, e.x) ∧ Complete T k x ∧
      lineValue val e.key e.x e.y (E (otherLine e.key) e.x) = pairValue val E k x
  have hb : bound (Fintype.card X) (fun i => i * 1) 0 q ≤ _ := bound_linear hq
  rw [Nat.cast_one, mul_one] at hb
  refine le_trans (prob_le Bad (fun i => i * 1) ?_ A q hA hq.le p ?_) hb
  · intro T d k v _
    rw [mul_one]
    by_cases hE : ∃ E, Agrees E T
    · obtain ⟨E, hE⟩ := hE
      -- everything in the table is determined by `E`
      have hdet : ∀ E', Agrees E' T → ∀ f ∈ T, E' f.key f.x = E f.key f.x := fun E' h' f hf => (h' f hf).trans (hE f hf).symm
      cases d with
      | enc =>
        refine card_le_list T _ (fun g y => lineValue val k v y (E (otherLine k) v) = pairValue val E g.key.1 g.x) ?_
          fun g y y' h h' => lineValue_injective H k v _ (h.trans h'.symm)
        rintro y ⟨E', hE', f, hf, hfk, hfx, k', x', _, ⟨g, hg, g', hg', hkk, hk1, hx, hx'⟩, hv⟩
        have e1 : E' (otherLine k) v = E (otherLine k) v := by
          have := hdet E' hE' f hf
          rwa [hfk, hfx] at this
        have e2 : pairValue val E' k' x' = pairValue val E g.key.1 g.x := by
          rw [← hk1, ← hx, ← lineValue_eq val E' g.key, ← lineValue_eq val E g.key, hdet E' hE' g hg, ← hkk]
          rw [show g.x = g'.x from hx.trans hx'.symm, hdet E' hE' g' hg']
        refine ⟨g, hg, ?_⟩
        rw [← e2, ← hv, ← e1]
        rfl
      | dec =>
        refine card_le_list T _ (fun g x => g.x = x) ?_ fun g y y' h h' => h.symm.trans h'
        rintro x ⟨E', _, f, hf, _, hfx, _⟩
        exact ⟨f, hf, hfx⟩
    · have : (Finset.univ.filter fun a => Bad (entry d k v a) T) = ∅ := by
        rw [Finset.filter_eq_empty_iff]
        rintro a _ ⟨E, h, _⟩
        exact hE ⟨E, h⟩
      rw [this]
      exact Nat.zero_le _
  · intro E hc hpE
    obtain ⟨k, x, k', x', hne, hv, hl, hl'⟩ := hp E hpE
    have hAg : Agrees E (table E A []) := table_agrees E A [] (by intro e he; cases he)
    have key : ∀ T : List (Entry (K × Bool) X), Clean Bad T → Agrees E T → ∀ k x k' x', (k, x) ≠ (k', x') →
        Complete T k x → Complete T k' x' → pairValue val E k x ≠ pairValue val E k' x' := by
      intro T
      induction T with
      | nil => rintro _ _ k x k' x' _ ⟨e, he, _⟩; cases he
      | cons e T ih =>
        rintro ⟨h1, h2, _⟩ hA k x k' x' hne hc hc' hv
        have hT := agrees_tail hA
        have he := hA e List.mem_cons_self
        -- a new complete point next to an old one
        have new : ∀ k x k' x', (k, x) ≠ (k', x') → (e.key.1 = k ∧ e.x = x ∧ ∃ f ∈ T, f.key = otherLine e.key ∧ f.x = e.x) →
            Complete T k' x' → pairValue val E k x = pairValue val E k' x' → False := by
          rintro k x k' x' hne ⟨hk, hx, f, hf, hfk, hfx⟩ hc' hv
          refine h2 ⟨E, hT, f, hf, hfk, hfx, k', x', ?_, hc', ?_⟩
          · rw [hk, hx]; exact hne.symm
          · rw [← he, lineValue_eq, hk, hx, hv]
        rcases complete_cons hc with hc | hn <;> rcases complete_cons hc' with hc' | hn'
        · exact ih h1 hT k x k' x' hne hc hc' hv
        · exact new k' x' k x hne.symm hn' hc hv.symm
        · exact new k x k' x' hne hn hc' hv
        · exact hne (by rw [← hn.1, ← hn.2.1, ← hn'.1, ← hn'.2.1])
    exact key _ hc hAg k x k' x' hne (complete_of_learns E A (hl false) (hl true))
      (complete_of_learns E A (hl' false) (hl' true)) hv

/-! ### Amortised bound -/

omit [DecidableEq D] in
open Classical in
/-- If the number of bad answers is paid by a potential that grows by at most one per query, the table of an attacker with `q`
queries is clean but for a fraction `(pot + q) / (N - L)` of the ciphers. -/
theorem card_unclean_pot (Bad : Entry K X → List (Entry K X) → Prop) (pot : List (Entry K X) → Nat)
    (hw : ∀ (T : List (Entry K X)) d k v, ∃ B, (Finset.univ.filter fun a => Bad (entry d k v a) T).card ≤ B ∧
      ∀ a, pot (entry d k v a :: T) + B ≤ pot T + 1) {L : Nat} (hL : L < Fintype.card X)
    (A : Attacker K X R) : ∀ (T : List (Entry K X)) (q : Nat), A.AtMost q → T.length + q ≤ L → Clean Bad T →
      (((agreeing T).filter fun E => ¬ Clean Bad (table E A T)).card : ℚ) ≤
        (agreeing T).card * ((pot T + q : Nat) / ((Fintype.card X : ℚ) - L)) := by
  have hN : (0 : ℚ) < (Fintype.card X : ℚ) - L := sub_pos.2 (Nat.cast_lt.2 hL)
  induction A with
  | done r =>
    intro T q _ hq hT
    have : ((agreeing T).filter fun E => ¬ Clean Bad (table E (Attacker.done r : Attacker K X R) T)) = ∅ := by
      rw [Finset.filter_eq_empty_iff]
      intro E _ h
      exact h hT
    rw [this, Finset.card_empty, Nat.cast_zero]
    positivity
  | ask d k v next ih =>
    intro T q h hq hT
    cases q with
    | zero => exact h.elim
    | succ q =>
      by_cases hk : Known T d k v
      · have key : ∃ a, ∀ E ∈ agreeing T, answer E d k v = a := by
          obtain ⟨e, he, rfl, rfl⟩ := hk
          exact ⟨_, fun E hE => answer_known (Finset.mem_filter.1 hE).2 he d⟩
        obtain ⟨a, ha⟩ := key
        have : ((agreeing T).filter fun E => ¬ Clean Bad (table E (Attacker.ask d k v next) T)) =
            (agreeing T).filter fun E => ¬ Clean Bad (table E (next a) T) := by
          refine Finset.filter_congr fun E hE => ?_
          rw [table, if_pos hk, ha E hE]
        rw [this]
        refine le_trans (ih a T q (h a) (by omega) hT) ?_
        refine mul_le_mul_of_nonneg_left ?_ (Nat.cast_nonneg _)
        exact div_le_div_of_nonneg_right (Nat.cast_le.2 (by omega)) hN.le
      · obtain ⟨B, hB, hpot⟩ := hw T d k v
        have hN' : (0 : ℚ) < (Fintype.card X : ℚ) - (T.length : Nat) := sub_pos.2 (Nat.cast_lt.2 (by omega))
        have hfib : ((agreeing T).filter fun E => ¬ Clean Bad (table E (Attacker.ask d k v next) T)).card =
            ∑ a, (((agreeing T).filter fun E => ¬ Clean Bad (table E (Attacker.ask d k v next) T)).filter
              fun E => answer E d k v = a).card :=
          Finset.card_eq_sum_card_fiberwise (fun _ _ => Finset.mem_coe.2 (Finset.mem_univ _))
        have hagree : ∀ a, ((agreeing T).filter fun E => answer E d k v = a) = agreeing (entry d k v a :: T) := by
          intro a
          unfold agreeing
          rw [Finset.filter_filter]
          refine Finset.filter_congr fun E _ => ?_
          rw [agrees_cons]
        have hlt : ∀ a, ((agreeing (entry d k v a :: T)).card : ℚ) ≤
            (agreeing T).card / ((Fintype.card X : ℚ) - L) := by
          intro a
          have h1 : ((agreeing (entry d k v a :: T)).card : ℚ) ≤
              (agreeing T).card / ((Fintype.card X : ℚ) - (T.length : Nat)) := by
            rw [le_div_iff₀ hN', ← hagree a, ← Nat.cast_sub (by omega : T.length ≤ Fintype.card X), ← Nat.cast_mul]
            exact Nat.cast_le.2 (card_answer T d k v a hk)
          refine le_trans h1 (div_le_div_of_nonneg_left (Nat.cast_nonneg _) hN ?_)
          exact sub_le_sub_left (Nat.cast_le.2 (by omega)) _
        have hB1 : B ≤ pot T + 1 := by
          rcases isEmpty_or_nonempty X with hX | ⟨⟨a⟩⟩
          · exact absurd hL (by rw [Fintype.card_eq_zero]; omega)
          · have := hpot a; omega
        have hstep : ∀ a, ((((agreeing T).filter fun E => ¬ Clean Bad (table E (Attacker.ask d k v next) T)).filter
              fun E => answer E d k v = a).card : ℚ) ≤
            (if Bad (entry d k v a) T then (agreeing T).card / ((Fintype.card X : ℚ) - L) else 0) +
              (agreeing (entry d k v a :: T)).card * ((pot T + 1 - B + q : Nat) / ((Fintype.card X : ℚ) - L)) := by
          intro a
          have hsub : (((agreeing T).filter fun E => ¬ Clean Bad (table E (Attacker.ask d k v next) T)).filter
              fun E => answer E d k v = a) =
              (agreeing (entry d k v a :: T)).filter fun E => ¬ Clean Bad (table E (next a) (entry d k v a :: T)) := by
            rw [← hagree a, Finset.filter_filter, Finset.filter_filter]
            refine Finset.filter_congr fun E _ => ?_
            constructor
            · rintro ⟨h1, rfl⟩
              rw [table, if_neg hk] at h1
              exact ⟨rfl, h1⟩
            · rintro ⟨rfl, h1⟩
              rw [table, if_neg hk]
              exact ⟨h1, rfl⟩
          rw [hsub]
          by_cases hb : Bad (entry d k v a) T
          · rw [if_pos hb]
            refine le_trans (Nat.cast_le.2 (Finset.card_filter_le _ _)) (le_trans (hlt a) ?_)
            exact le_add_of_nonneg_right (by positivity)
          · rw [if_neg hb, zero_add]
            refine le_trans (ih a (entry d k v a :: T) q (h a) (by rw [List.length_cons]; omega) ⟨hT, hb, by cases d <;> exact hk⟩) ?_
            refine mul_le_mul_of_nonneg_left (div_le_div_of_nonneg_right (Nat.cast_le.2 ?_) hN.le) (Nat.cast_nonneg _)
            have := hpot a
            omega
        have htot : ((agreeing T).card : ℚ) = ∑ a, ((agreeing (entry d k v a :: T)).card : ℚ) := by
          rw [← Nat.cast_sum]
          congr 1
          have := Finset.card_eq_sum_card_fiberwise (s := agreeing T) (t := Finset.univ)
            (f := fun E : Cipher K X => answer E d k v) (fun _ _ => Finset.mem_coe.2 (Finset.mem_univ _))
          rw [this]
          exact Finset.sum_congr rfl fun a _ => by rw [hagree a]
        rw [hfib, Nat.cast_sum]
        refine le_trans (Finset.sum_le_sum fun a _ => hstep a) ?_
        rw [Finset.sum_add_distrib, ← Finset.sum_mul, ← htot, ← Finset.sum_filter, Finset.sum_const, nsmul_eq_mul]
        have e : (((pot T + (q + 1) : Nat) : ℚ)) = B + ((pot T + 1 - B + q : Nat) : ℚ) := by
          rw [← Nat.cast_add]
          congr 1
          omega
        rw [e, add_div, mul_add]
        refine add_le_add ?_ (le_refl _)
        rw [mul_div_assoc', mul_div_assoc', mul_comm]
        refine div_le_div_of_nonneg_right ?_ hN.le
        exact mul_le_mul_of_nonneg_left (Nat.cast_le.2 hB) (Nat.cast_nonneg _)

omit [DecidableEq D] in
open Classical in
/-- An event that does not occur when the table is clean. -/
theorem prob_le_pot (Bad : Entry K X → List (Entry K X) → Prop) (pot : List (Entry K X) → Nat) (h0 : pot [] = 0)
    (hw : ∀ (T : List (Entry K X)) d k v, ∃ B, (Finset.univ.filter fun a => Bad (entry d k v a) T).card ≤ B ∧
      ∀ a, pot (entry d k v a :: T) + B ≤ pot T + 1)
    (A : Attacker K X R) (q : Nat) (hA : A.AtMost q) (hq : q < Fintype.card X) (p : Cipher K X → Prop)
    (hp : ∀ E, Clean Bad (table E A []) → ¬ p E) : prob p ≤ (q : ℚ) / ((Fintype.card X : ℚ) - q) := by
  have h := card_unclean_pot Bad pot hw hq A [] q hA (by simp) trivial
  have hu : agreeing ([] : List (Entry K X)) = Finset.univ := by
    unfold agreeing
    rw [Finset.filter_true_of_mem]
    intro E _ e he
    cases he
  rw [hu, Finset.card_univ, h0, Nat.zero_add] at h
  have hpos : (0 : ℚ) < Fintype.card (Cipher K X) := Nat.cast_pos.2 Fintype.card_pos
  unfold prob
  rw [div_le_iff₀ hpos, mul_comm]
  refine le_trans (Nat.cast_le.2 (Finset.card_le_card ?_)) h
  intro E hE
  rw [Finset.mem_filter] at hE ⊢
  exact ⟨hE.1, fun hc => hp E hc (by convert hE.2)⟩

/-- The other line of `f` may still give the target. -/
def Waiting (val : X → X → X → D) (target : D) (T : List (Entry (K × Bool) X)) (f : Entry (K × Bool) X) : Prop :=
  ¬ Known T .enc (otherLine f.key) f.x ∧ ∀ g ∈ T, g.key = otherLine f.key → lineValue val g.key f.x g.y f.y ≠ target

/-- An input with a given value, both lines known to the attacker, is found with probability at most `q / (N - q)`. -/
theorem pair_preimage_bound {val : X → X → X → D} (H : LineInjective val) (A : Attacker (K × Bool) X R) (q : Nat)
    (hA : A.AtMost q) (hq : q < Fintype.card X) (target : D) (p : Cipher (K × Bool) X → Prop)
    (hp : ∀ E, p E → ∃ k x, pairValue val E k x = target ∧ ∀ b, ((k, b), x, E (k, b) x) ∈ A.learns E) :
    prob p ≤ (q : ℚ) / ((Fintype.card X : ℚ) - q) := by
  classical
  let Bad : Entry (K × Bool) X → List (Entry (K × Bool) X) → Prop := fun e T => ∃ f ∈ T, Waiting val target T f ∧
    f.key = otherLine e.key ∧ f.x = e.x ∧ lineValue val e.key e.x e.y f.y = target
  refine prob_le_pot Bad (fun T => T.countP fun f => Waiting val target T f) rfl ?_ A q hA hq p ?_
  · intro T d k v
    -- the entries whose chance the query uses up
    obtain ⟨Q, hQ⟩ : ∃ Q : Entry (K × Bool) X → Prop, ∀ f, Q f ↔ f.key = otherLine k ∧
      match d with
      | .enc => f.x = v
      | .dec => lineValue val k f.x v f.y = target := ⟨_, fun _ => Iff.rfl⟩
    refine ⟨T.countP fun f => Waiting val target T f ∧ Q f, ?_, ?_⟩
    · rw [List.countP_eq_length_filter]
      cases d with
      | enc =>
        refine card_le_list _ _ (fun f y => lineValue val k v y f.y = target) ?_
          fun f y y' h h' => lineValue_injective H k v _ (h.trans h'.symm)
        rintro y ⟨f, hf, hwt, hfk, hfx, hv⟩
        exact ⟨f, List.mem_filter.2 ⟨hf, by rw [decide_eq_true_iff]; exact ⟨hwt, (hQ f).2 ⟨hfk, hfx⟩⟩⟩, hv⟩
      | dec =>
        refine card_le_list _ _ (fun f x => f.x = x) ?_ fun f y y' h h' => h.symm.trans h'
        rintro x ⟨f, hf, hwt, hfk, hfx, hv⟩
        refine ⟨f, List.mem_filter.2 ⟨hf, ?_⟩, hfx⟩
        rw [decide_eq_true_iff]
        refine ⟨hwt, (hQ f).2 ⟨hfk, ?_⟩⟩
        show lineValue val k f.x v f.y = target
        rw [hfx]
        exact hv
    · intro a
      have hmono : ∀ f, Waiting val target (entry d k v a :: T) f → Waiting val target T f ∧ ¬ Q f := by
        rintro f ⟨h1, h2⟩
        refine ⟨⟨fun ⟨g, hg, h⟩ => h1 ⟨g, List.mem_cons_of_mem _ hg, h⟩, fun g hg => h2 g (List.mem_cons_of_mem _ hg)⟩, ?_⟩
        intro hQf
        obtain ⟨hk, hq⟩ := (hQ f).1 hQf
        have hk' : k = otherLine f.key := by rw [hk, otherLine_otherLine]
        cases d with
        | enc => exact h1 ⟨_, List.mem_cons_self, hk', hq.symm⟩
        | dec => exact h2 _ List.mem_cons_self hk' hq
      have hle : (T.countP fun f => Waiting val target (entry d k v a :: T) f) ≤
          T.countP fun f => Waiting val target T f ∧ ¬ Q f :=
        List.countP_mono_left fun f _ hf => decide_eq_true (hmono f (of_decide_eq_true hf))
      have hsplit : ∀ l : List (Entry (K × Bool) X), (l.countP fun f => Waiting val target T f ∧ ¬ Q f) +
          (l.countP fun f => Waiting val target T f ∧ Q f) = l.countP fun f => Waiting val target T f := by
        intro l
        induction l with
        | nil => rfl
        | cons f l ih =>
          rw [List.countP_cons, List.countP_cons, List.countP_cons, ← ih]
          by_cases h1 : Waiting val target T f <;> by_cases h2 : Q f <;> simp [h1, h2] <;> omega
      have := hsplit T
      rw [List.countP_cons]
      have h1 : (if (decide (Waiting val target (entry d k v a :: T) (entry d k v a))) = true then 1 else 0) ≤ 1 := by
        split <;> omega
      omega
  · intro E hc hpE
    obtain ⟨k, x, hv, hl⟩ := hp E hpE
    have hAg : Agrees E (table E A []) := table_agrees E A [] (by intro e he; cases he)
    have key : ∀ T : List (Entry (K × Bool) X), Clean Bad T → Agrees E T → ∀ k x, Complete T k x →
        pairValue val E k x ≠ target := by
      intro T
      induction T with
      | nil => rintro _ _ k x ⟨e, he, _⟩; cases he
      | cons e T ih =>
        rintro ⟨h1, h2, h3⟩ hA k x hc hv
        have hT := agrees_tail hA
        have he := hA e List.mem_cons_self
        rcases complete_cons hc with hc | ⟨hk, hx, f, hf, hfk, hfx⟩
        · exact ih h1 hT k x hc hv
        have hfe := hT f hf
        have hval : lineValue val e.key e.x e.y f.y = target := by
          rw [← he, ← hfe, hfk, hfx, lineValue_eq, hk, hx, hv]
        have hsame : ∀ g ∈ T, g.key = e.key → g.x = e.x → False := by
          intro g hg hgk hgx
          have hgy : g.y = e.y := by rw [← hT g hg, ← he, hgk, hgx]
          refine h3 ⟨g, hg, hgk, ?_⟩
          cases e.dir
          · exact hgx
          · exact hgy
        have hek : otherLine f.key = e.key := by rw [hfk, otherLine_otherLine]
        refine h2 ⟨f, hf, ⟨?_, ?_⟩, hfk, hfx, hval⟩
        · rintro ⟨g, hg, hgk, hgx⟩
          exact hsame g hg (hgk.trans hek) ((show g.x = f.x from hgx).trans hfx)
        · intro g hg hgk hgv
          rw [hgk.trans hek, hfx] at hgv
          have hgy : g.y = e.y := lineValue_injective H e.key e.x f.y (hgv.trans hval.symm)
          refine hsame g hg (hgk.trans hek) ?_
          have h4 := hT g hg
          rw [hgk.trans hek, hgy, ← he] at h4
          exact (E e.key).injective h4
    exact key _ hc hAg k x (complete_of_learns E A (hl false) (hl true)) hv

end Verif.Ideal
