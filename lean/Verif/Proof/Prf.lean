import Verif.Spec.Mac
import Mathlib.Data.Fintype.BigOperators
import Mathlib.Algebra.Order.BigOperators.Group.Finset
import Mathlib.Algebra.Order.Field.Basic
import Mathlib.Algebra.BigOperators.Ring.Finset
import Mathlib.Algebra.BigOperators.Field
import Mathlib.Algebra.Order.BigOperators.Ring.Finset
import Mathlib.Algebra.Order.Group.Abs
import Mathlib.Tactic.Linarith
import Mathlib.Tactic.FieldSimp
/- A hash function that is indifferentiable from a random oracle is a random function of the message when a secret key is put
in front of it. -/
namespace Verif.Ideal
open Spec.Ideal

/-! ### Chances -/

section
open Classical
variable {Ω Ω' : Type} [Fintype Ω] [Fintype Ω']

theorem chance_inst (i i' : Fintype Ω) (p : Ω → Prop) : @chance Ω i p = @chance Ω i' p := by congr!

theorem chance_prod [Nonempty Ω] (p : Ω × Ω' → Prop) : chance p = (∑ a, chance fun b => p (a, b)) / Fintype.card Ω := by
  unfold chance
  rw [← Finset.sum_div, div_div, Fintype.card_prod]
  push_cast
  rw [mul_comm (Fintype.card Ω' : ℚ)]
  congr 1
  rw [← Nat.cast_sum, Nat.cast_inj]
  have := Finset.card_eq_sum_card_fiberwise (s := Finset.univ.filter p) (t := (Finset.univ : Finset Ω)) (f := fun w : Ω × Ω' => w.1)
    (fun _ _ => Finset.mem_coe.2 (Finset.mem_univ _))
  rw [this]
  refine Finset.sum_congr rfl fun a _ => ?_
  refine Finset.card_bij' (fun w _ => w.2) (fun b _ => (a, b)) ?_ ?_ ?_ ?_
  · rintro ⟨x, y⟩ hx
    simp only [Finset.mem_filter, Finset.mem_univ, true_and] at hx ⊢
    obtain ⟨h, rfl⟩ := hx
    exact h
  · intro b hb
    simp only [Finset.mem_filter, Finset.mem_univ, true_and] at hb ⊢
    exact ⟨hb, trivial⟩
  · rintro ⟨x, y⟩ hx
    simp only [Finset.mem_filter, Finset.mem_univ, true_and] at hx ⊢
    rw [hx.2]
  · intro b _
    rfl

theorem chance_equiv (e : Ω ≃ Ω') (p : Ω' → Prop) : (chance fun a => p (e a)) = chance p := by
  unfold chance
  rw [Fintype.card_congr e]
  congr 2
  refine Finset.card_bij' (fun a _ => e a) (fun b _ => e.symm b) ?_ ?_ ?_ ?_
  · intro a ha; simpa using ha
  · intro b hb; simpa using hb
  · intro a _; simp
  · intro b _; simp

theorem chance_mono {p q : Ω → Prop} (h : ∀ a, p a → q a) : chance p ≤ chance q := by
  unfold chance
  refine div_le_div_of_nonneg_right (Nat.cast_le.2 (Finset.card_le_card fun a ha => ?_)) (Nat.cast_nonneg _)
  simp only [Finset.mem_filter, Finset.mem_univ, true_and] at ha ⊢
  exact h a ha

theorem chance_le_add {p q r : Ω → Prop} (h : ∀ a, p a → q a ∨ r a) : chance p ≤ chance q + chance r := by
  unfold chance
  rw [← add_div, ← Nat.cast_add]
  refine div_le_div_of_nonneg_right (Nat.cast_le.2 ?_) (Nat.cast_nonneg _)
  refine le_trans (Finset.card_le_card fun a ha => ?_) (Finset.card_union_le _ _)
  simp only [Finset.mem_filter, Finset.mem_univ, true_and, Finset.mem_union] at ha ⊢
  exact h a ha

/-- Events that agree outside a third. -/
theorem chance_close {p q r : Ω → Prop} (h : ∀ a, ¬ r a → (p a ↔ q a)) : |chance p - chance q| ≤ chance r := by
  have h1 : chance p ≤ chance q + chance r := chance_le_add fun a ha => by
    by_cases hr : r a
    · exact Or.inr hr
    · exact Or.inl ((h a hr).1 ha)
  have h2 : chance q ≤ chance p + chance r := chance_le_add fun a ha => by
    by_cases hr : r a
    · exact Or.inr hr
    · exact Or.inl ((h a hr).2 ha)
  rw [abs_le]
  constructor <;> linarith

theorem chance_dummy [Nonempty Ω] (p : Ω' → Prop) : (chance fun w : Ω × Ω' => p w.2) = chance p := by
  rw [chance_prod]
  show (∑ _a : Ω, chance p) / _ = _
  rw [Finset.sum_const, Finset.card_univ, nsmul_eq_mul, mul_div_cancel_left₀]
  exact Nat.cast_ne_zero.2 Fintype.card_ne_zero

/-- Averages of close chances. -/
theorem average_close [Nonempty Ω] {f g : Ω → ℚ} {ε : ℚ} (h : ∀ a, |f a - g a| ≤ ε) :
    |(∑ a, f a) / Fintype.card Ω - (∑ a, g a) / Fintype.card Ω| ≤ ε := by
  have hpos : (0 : ℚ) < Fintype.card Ω := Nat.cast_pos.2 Fintype.card_pos
  rw [← sub_div, ← Finset.sum_sub_distrib, abs_div, abs_of_pos hpos, div_le_iff₀ hpos]
  refine le_trans (Finset.abs_sum_le_sum_abs _ _) ?_
  refine le_trans (Finset.sum_le_sum fun a _ => h a) ?_
  rw [Finset.sum_const, Finset.card_univ, nsmul_eq_mul, mul_comm]

/-- A chance that is small for every value of the other half. -/
theorem chance_le_of_snd [Nonempty Ω'] {p : Ω × Ω' → Prop} {ε : ℚ} (h : ∀ b, (chance fun a => p (a, b)) ≤ ε) : chance p ≤ ε := by
  rw [← chance_equiv (Equiv.prodComm Ω' Ω) p, chance_prod]
  have hpos : (0 : ℚ) < Fintype.card Ω' := Nat.cast_pos.2 Fintype.card_pos
  rw [div_le_iff₀ hpos]
  refine le_trans (Finset.sum_le_sum fun a _ => h a) ?_
  rw [Finset.sum_const, Finset.card_univ, nsmul_eq_mul, mul_comm]

theorem chance_le_list {p : Ω → Prop} (l : List Ω) (h : ∀ a, p a → a ∈ l) : chance p ≤ l.length / Fintype.card Ω := by
  unfold chance
  refine div_le_div_of_nonneg_right (Nat.cast_le.2 (le_trans (Finset.card_le_card fun a ha => ?_) (List.toFinset_card_le l))) (Nat.cast_nonneg _)
  rw [Finset.mem_filter] at ha
  exact List.mem_toFinset.2 (h a ha.2)

theorem prob_eq_chance {K X : Type} [Fintype K] [DecidableEq K] [Fintype X] [DecidableEq X] (p : Cipher K X → Prop) :
    prob p = chance p := by
  unfold prob chance
  congr!

end

/-! ### Changing the inputs, fixing the digests -/

section
variable {Q Q' : Type*} {A K X M D : Type}

/-- Asks for the digest of `f q` in place of `q`. -/
def onInput (f : Q → Q') : Distinguisher Q A K X → Distinguisher Q' A K X
  | .done b => .done b
  | .hash q next => .hash (f q) fun a => onInput f (next a)
  | .ask d k v next => .ask d k v fun a => onInput f (next a)

theorem real_onInput (f : Q → Q') (h : Q' → A) (E : Cipher K X) (P : Distinguisher Q A K X) :
    (onInput f P).real h E = P.real (fun q => h (f q)) E := by
  induction P with
  | done b => rfl
  | hash q next ih => exact ih _
  | ask d k v next ih => exact ih _

theorem ideal_onInput (f : Q → Q') (h : Q' → A) (S : Simulator M D K X) (F : M → D) (c : S.Coins) (P : Distinguisher Q A K X) :
    ∀ s, (onInput f P).ideal h S F c s = P.ideal (fun q => h (f q)) S F c s := by
  induction P with
  | done b => intro s; rfl
  | hash q next ih => intro s; exact ih _ s
  | ask d k v next ih => intro s; exact ih _ _

theorem atMost_onInput (f : Q → Q') {cost : Q → Nat} {cost' : Q' → Nat} (hc : ∀ q, cost' (f q) = cost q) (P : Distinguisher Q A K X) :
    ∀ n, P.AtMost cost n → (onInput f P).AtMost cost' n := by
  induction P with
  | done b => intro n _; trivial
  | hash q next ih =>
    intro n h
    refine ⟨(hc q).le.trans h.1, fun a => ?_⟩
    rw [hc q]
    exact ih a _ (h.2 a)
  | ask d k v next ih =>
    intro n h
    cases n with
    | zero => exact h.elim
    | succ n => exact fun a => ih a n (h a)

/-- Answers the digests by `g` itself. -/
def fixed (Q' : Type*) (g : Q → A) : Distinguisher Q A K X → Distinguisher Q' A K X
  | .done b => .done b
  | .hash q next => fixed Q' g (next (g q))
  | .ask d k v next => .ask d k v fun a => fixed Q' g (next a)

theorem real_fixed (g : Q → A) (h : Q' → A) (E : Cipher K X) (P : Distinguisher Q A K X) :
    (fixed Q' g P).real h E = P.real g E := by
  induction P with
  | done b => rfl
  | hash q next ih => exact ih _
  | ask d k v next ih => exact ih _

theorem ideal_fixed (g : Q → A) (h : Q' → A) (S : Simulator M D K X) (F : M → D) (c : S.Coins) (P : Distinguisher Q A K X) :
    ∀ s, (fixed Q' g P).ideal h S F c s = P.ideal g S F c s := by
  induction P with
  | done b => intro s; rfl
  | hash q next ih => intro s; exact ih _ s
  | ask d k v next ih => intro s; exact ih _ _

theorem atMost_distinguisher_mono {cost : Q → Nat} (P : Distinguisher Q A K X) : ∀ n n', n ≤ n' → P.AtMost cost n → P.AtMost cost n' := by
  induction P with
  | done b => intro n n' _ _; trivial
  | hash q next ih => intro n n' h hp; exact ⟨hp.1.trans h, fun a => ih a _ _ (Nat.sub_le_sub_right h _) (hp.2 a)⟩
  | ask d k v next ih =>
    intro n n' h hp
    cases n with
    | zero => exact hp.elim
    | succ n =>
      cases n' with
      | zero => omega
      | succ n' => exact fun a => ih a n n' (by omega) (hp a)

theorem atMost_fixed (g : Q → A) {cost : Q → Nat} {cost' : Q' → Nat} (P : Distinguisher Q A K X) :
    ∀ n, P.AtMost cost n → (fixed Q' g P).AtMost cost' n := by
  induction P with
  | done b => intro n _; trivial
  | hash q next ih => intro n h; exact atMost_distinguisher_mono _ _ _ (Nat.sub_le _ _) (ih _ _ (h.2 _))
  | ask d k v next ih =>
    intro n h
    cases n with
    | zero => exact h.elim
    | succ n => exact fun a => ih a n (h a)

/-! ### What the simulator asks -/

/-- The messages whose digests the simulator asks for. -/
def wanted (h : Q → A) (S : Simulator M D K X) (F : M → D) (c : S.Coins) : Distinguisher Q A K X → S.State → List M
  | .done _, _ => []
  | .hash q next, s => wanted h S F c (next (h q)) s
  | .ask d k v next, s =>
    (S.wants c s d k v).toList ++
      wanted h S F c (next (S.reply c s d k v ((S.wants c s d k v).map F)).2) (S.reply c s d k v ((S.wants c s d k v).map F)).1

theorem length_wanted (h : Q → A) (S : Simulator M D K X) (F : M → D) (c : S.Coins) {cost : Q → Nat} (P : Distinguisher Q A K X) :
    ∀ s n, P.AtMost cost n → (wanted h S F c P s).length ≤ n := by
  induction P with
  | done b => intro s n _; exact Nat.zero_le _
  | hash q next ih => intro s n hn; exact (ih _ s _ (hn.2 _)).trans (Nat.sub_le _ _)
  | ask d k v next ih =>
    intro s n hn
    cases n with
    | zero => exact hn.elim
    | succ n =>
      rw [wanted, List.length_append]
      have h1 := ih _ (S.reply c s d k v ((S.wants c s d k v).map F)).1 n (hn (S.reply c s d k v ((S.wants c s d k v).map F)).2)
      have h2 : (S.wants c s d k v).toList.length ≤ 1 := by cases S.wants c s d k v <;> simp
      omega

/-- Another oracle with the same answers. -/
theorem ideal_congr (h : Q → A) (S : Simulator M D K X) (F F' : M → D) (c : S.Coins) (P : Distinguisher Q A K X) :
    ∀ s, (∀ m ∈ wanted h S F c P s, F m = F' m) → P.ideal h S F c s = P.ideal h S F' c s := by
  induction P with
  | done b => intro s _; rfl
  | hash q next ih => intro s hs; exact ih _ s hs
  | ask d k v next ih =>
    intro s hs
    rw [wanted] at hs
    have h1 : (S.wants c s d k v).map F = (S.wants c s d k v).map F' := by
      cases hw : S.wants c s d k v with
      | none => rfl
      | some m => exact congrArg some (hs m (by rw [hw]; simp))
    rw [Distinguisher.ideal, Distinguisher.ideal, ← h1]
    exact ih _ _ fun m hm => hs m (List.mem_append_right _ hm)

end

/-! ### The keyed function -/

section
open Classical
variable {Q : Type*} {A K X M D Key Msg : Type}

/-- The random oracle with the values of the keyed messages replaced. -/
noncomputable def override (join : Key → Msg → M) (k : Key) (F : M → D) (G : Msg → D) : M → D := fun x =>
  if h : ∃ m, join k m = x then G h.choose else F x

theorem override_join {join : Key → Msg → M} (hj : ∀ k, Function.Injective (join k)) (k : Key) (F : M → D) (G : Msg → D) (m : Msg) :
    override join k F G (join k m) = G m := by
  unfold override
  have h : ∃ m', join k m' = join k m := ⟨m, rfl⟩
  rw [dif_pos h]
  exact congrArg G (hj k h.choose_spec)

theorem override_off {join : Key → Msg → M} (k : Key) (F : M → D) (G : Msg → D) {x : M} (h : ∀ m, join k m ≠ x) :
    override join k F G x = F x := dif_neg fun ⟨m, hm⟩ => h m hm

/-- Exchanging the two functions. -/
noncomputable def exchange (join : Key → Msg → M) (hj : ∀ k, Function.Injective (join k)) (k : Key) :
    (Msg → D) × (M → D) ≃ (Msg → D) × (M → D) :=
  have hinv : Function.Involutive fun w : (Msg → D) × (M → D) => ((fun m => w.2 (join k m), override join k w.2 w.1) : (Msg → D) × (M → D)) := by
    rintro ⟨G, F⟩
    refine Prod.ext (funext fun m => override_join hj k F G m) (funext fun x => ?_)
    show override join k (override join k F G) (fun m => F (join k m)) x = F x
    by_cases h : ∃ m, join k m = x
    · obtain ⟨m, rfl⟩ := h
      exact override_join hj k _ _ m
    · have h' : ∀ m, join k m ≠ x := fun m hm => h ⟨m, hm⟩
      rw [override_off _ _ _ h', override_off _ _ _ h']
  hinv.toPerm

variable [Fintype M] [Fintype D] [Nonempty D] [Fintype Key] [Nonempty Key] [Fintype Msg]

/-- The random oracle on keyed messages against an independent random function: they differ only when the simulator asks for a
message with the key. -/
theorem keyed_close (S : Simulator M D K X) [Fintype S.Coins] (join : Key → Msg → M) (hj : ∀ k k' m m', join k m = join k' m' → k = k' ∧ m = m')
    (kmsg : Q → Msg) (wrap : D → A) {cost : Q → Nat} (P : Distinguisher Q A K X) (N : Nat) (hP : P.AtMost cost N) :
    |(chance fun w : Key × (M → D) × S.Coins => P.ideal (fun q => wrap (w.2.1 (join w.1 (kmsg q)))) S w.2.1 w.2.2 S.start = true) -
      (chance fun w : (Msg → D) × (M → D) × S.Coins => P.ideal (fun q => wrap (w.1 (kmsg q))) S w.2.1 w.2.2 S.start = true)| ≤
    N / Fintype.card Key := by
  by_cases hC : Nonempty S.Coins
  swap
  · have h0 : ∀ (Ω : Type) (i : Fintype Ω) (p : Ω × (M → D) × S.Coins → Prop), chance p = 0 := by
      intro Ω i p
      have : IsEmpty (Ω × (M → D) × S.Coins) := ⟨fun w => hC ⟨w.2.2⟩⟩
      unfold chance
      rw [Finset.univ_eq_empty, Finset.filter_empty, Finset.card_empty, Nat.cast_zero, zero_div]
    rw [h0, h0, sub_zero, abs_zero]
    positivity
  have hinj : ∀ k, Function.Injective (join k) := fun k m m' h => (hj k k m m' h).2
  -- both events on keys, random functions, oracles and coins
  have h1 : (chance fun w : Key × (M → D) × S.Coins => P.ideal (fun q => wrap (w.2.1 (join w.1 (kmsg q)))) S w.2.1 w.2.2 S.start = true) =
      chance fun w : Key × ((Msg → D) × (M → D)) × S.Coins =>
        P.ideal (fun q => wrap (w.2.1.1 (kmsg q))) S (override join w.1 w.2.1.2 w.2.1.1) w.2.2 S.start = true := by
    rw [chance_prod, chance_prod]
    congr 1
    refine Finset.sum_congr rfl fun k _ => ?_
    have e1 : (chance fun b : (M → D) × S.Coins => P.ideal (fun q => wrap (b.1 (join k (kmsg q)))) S b.1 b.2 S.start = true) =
        chance fun b : (Msg → D) × (M → D) × S.Coins => P.ideal (fun q => wrap (b.2.1 (join k (kmsg q)))) S b.2.1 b.2.2 S.start = true :=
      (chance_dummy (Ω := Msg → D) fun b : (M → D) × S.Coins => P.ideal (fun q => wrap (b.1 (join k (kmsg q)))) S b.1 b.2 S.start = true).symm
    refine e1.trans ?_
    rw [← chance_equiv (((exchange join hinj k).prodCongr (Equiv.refl S.Coins)).trans (Equiv.prodAssoc (Msg → D) (M → D) S.Coins))
      fun b : (Msg → D) × (M → D) × S.Coins => P.ideal (fun q => wrap (b.2.1 (join k (kmsg q)))) S b.2.1 b.2.2 S.start = true]
    refine congrArg chance (funext fun b => ?_)
    show (P.ideal (fun q => wrap (override join k b.1.2 b.1.1 (join k (kmsg q)))) S (override join k b.1.2 b.1.1) b.2 S.start = true) = _
    simp only [override_join hinj]
  have h2 : (chance fun w : (Msg → D) × (M → D) × S.Coins => P.ideal (fun q => wrap (w.1 (kmsg q))) S w.2.1 w.2.2 S.start = true) =
      chance fun w : Key × ((Msg → D) × (M → D)) × S.Coins =>
        P.ideal (fun q => wrap (w.2.1.1 (kmsg q))) S w.2.1.2 w.2.2 S.start = true := by
    rw [← chance_equiv (Equiv.prodAssoc (Msg → D) (M → D) S.Coins)]
    exact (chance_dummy (Ω := Key) fun b : ((Msg → D) × (M → D)) × S.Coins =>
      P.ideal (fun q => wrap (b.1.1 (kmsg q))) S b.1.2 b.2 S.start = true).symm
  rw [h1, h2]
  refine le_trans (chance_close (r := fun w : Key × ((Msg → D) × (M → D)) × S.Coins =>
    ∃ m, join w.1 m ∈ wanted (fun q => wrap (w.2.1.1 (kmsg q))) S w.2.1.2 w.2.2 P S.start) ?_) ?_
  · intro w hw
    rw [ideal_congr _ S w.2.1.2 (override join w.1 w.2.1.2 w.2.1.1) w.2.2 P S.start]
    intro m hm
    exact (override_off _ _ _ fun m' hm' => hw ⟨m', by rw [hm']; exact hm⟩).symm
  · refine chance_le_of_snd fun b => ?_
    refine le_trans (chance_le_list ((wanted (fun q => wrap (b.1.1 (kmsg q))) S b.1.2 b.2 P S.start).map fun x =>
      if h : ∃ (k : Key) (m : Msg), join k m = x then h.choose else Classical.arbitrary Key) ?_) ?_
    swap
    · rw [List.length_map]
      exact div_le_div_of_nonneg_right (Nat.cast_le.2 (length_wanted _ S b.1.2 b.2 P S.start N hP)) (Nat.cast_nonneg _)
    rintro k ⟨m, hm⟩
    refine List.mem_map.2 ⟨_, hm, ?_⟩
    have h : ∃ (k' : Key) (m' : Msg), join k' m' = join k m := ⟨k, m, rfl⟩
    rw [dif_pos h]
    obtain ⟨m', hm'⟩ := h.choose_spec
    exact (hj _ _ _ _ hm').1

/-- With a random secret key in front of the message, the hash function and its cipher look like a random function and an
independent cipher. -/
theorem prf_close [Fintype K] [DecidableEq K] [Fintype X] [DecidableEq X] (S : Simulator M D K X) [Fintype S.Coins] (join : Key → Msg → M)
    (hj : ∀ k k' m m', join k m = join k' m' → k = k' ∧ m = m') (kmsg : Q → Msg) (wrap : D → A) {cost : Q → Nat}
    (P : Distinguisher Q A K X) (N : Nat) (hP : P.AtMost cost N) (mac : Key → Cipher K X → Q → A) {ε : ℚ}
    (h1 : ∀ k, |(prob fun E => P.real (mac k E) E = true) -
      (chance fun w : (M → D) × S.Coins => P.ideal (fun q => wrap (w.1 (join k (kmsg q)))) S w.1 w.2 S.start = true)| ≤ ε)
    (h2 : ∀ G : Msg → D, |(prob fun E => P.real (fun q => wrap (G (kmsg q))) E = true) -
      (chance fun w : (M → D) × S.Coins => P.ideal (fun q => wrap (G (kmsg q))) S w.1 w.2 S.start = true)| ≤ ε) :
    |(chance fun w : Key × Cipher K X => P.real (mac w.1 w.2) w.2 = true) -
      (chance fun w : (Msg → D) × Cipher K X => P.real (fun q => wrap (w.1 (kmsg q))) w.2 = true)| ≤ 2 * ε + N / Fintype.card Key := by
  have hk := keyed_close S join hj kmsg wrap P N hP
  have a1 := average_close h1
  have a2 := average_close h2
  rw [chance_prod, chance_prod] at hk ⊢
  simp only [prob_eq_chance] at a1 a2
  simp only [abs_le] at hk a1 a2 ⊢
  constructor <;> linarith [hk.1, hk.2, a1.1, a1.2, a2.1, a2.2]

end

/-! ### Forgers -/

section
open Classical
variable {Q : Type*} {A K X D Msg : Type}

/-- The forger, and a check of its tag, as distinguisher. -/
noncomputable def game (kmsg : Q → Msg) : Forger Q A K X → List Msg → Distinguisher Q A K X
  | .forge q t, asked => .hash q fun a => .done (decide (kmsg q ∉ asked ∧ a = t))
  | .tag q next, asked => .hash q fun a => game kmsg (next a) (kmsg q :: asked)
  | .ask d k v next, asked => .ask d k v fun a => game kmsg (next a) asked

theorem game_real (kmsg : Q → Msg) (mac : Q → A) (E : Cipher K X) (F : Forger Q A K X) : ∀ asked, (game kmsg F asked).real mac E = true ↔
    kmsg (F.outcome kmsg mac E asked).2.1 ∉ (F.outcome kmsg mac E asked).1 ∧ mac (F.outcome kmsg mac E asked).2.1 = (F.outcome kmsg mac E asked).2.2 := by
  induction F with
  | forge q t => intro asked; exact decide_eq_true_iff
  | tag q next ih => intro asked; exact ih _ _
  | ask d k v next ih => intro asked; exact ih _ _

theorem game_wins (kmsg : Q → Msg) (mac : Q → A) (E : Cipher K X) (F : Forger Q A K X) :
    (game kmsg F []).real mac E = true ↔ F.Wins kmsg mac E := game_real kmsg mac E F []

theorem game_atMost (kmsg : Q → Msg) {cost : Q → Nat} (F : Forger Q A K X) : ∀ asked n, F.AtMost cost n → (game kmsg F asked).AtMost cost n := by
  induction F with
  | forge q t => intro asked n h; exact ⟨h, fun _ => trivial⟩
  | tag q next ih => intro asked n h; exact ⟨h.1, fun a => ih a _ _ (h.2 a)⟩
  | ask d k v next ih =>
    intro asked n h
    cases n with
    | zero => exact h.elim
    | succ n => exact fun a => ih a _ n (h a)

/-- The asked messages only grow. -/
theorem outcome_asked (kmsg : Q → Msg) (mac : Q → A) (E : Cipher K X) (F : Forger Q A K X) :
    ∀ asked, ∀ m ∈ asked, m ∈ (F.outcome kmsg mac E asked).1 := by
  induction F with
  | forge q t => intro asked m hm; exact hm
  | tag q next ih => intro asked m hm; exact ih _ _ m (List.mem_cons_of_mem _ hm)
  | ask d k v next ih => intro asked m hm; exact ih _ _ m hm

/-- The run only depends on the tags that are asked for. -/
theorem outcome_congr (kmsg : Q → Msg) (mac mac' : Q → A) (E : Cipher K X) (F : Forger Q A K X) : ∀ asked,
    (∀ q, kmsg q ∈ (F.outcome kmsg mac E asked).1 → mac q = mac' q) → F.outcome kmsg mac E asked = F.outcome kmsg mac' E asked := by
  induction F with
  | forge q t => intro asked _; rfl
  | tag q next ih =>
    intro asked h
    have h1 : mac q = mac' q := h q (outcome_asked kmsg mac E (next (mac q)) _ _ List.mem_cons_self)
    rw [Forger.outcome, Forger.outcome, ← h1]
    exact ih _ _ h
  | ask d k v next ih => intro asked h; exact ih _ _ h

variable [Fintype Msg] [Fintype D] [Nonempty D]

/-- A random function is not forged. -/
theorem random_unforgeable (kmsg : Q → Msg) (wrap : D → A) (hw : Function.Injective wrap) (E : Cipher K X) (F : Forger Q A K X) :
    (chance fun G : Msg → D => F.Wins kmsg (fun q => wrap (G (kmsg q))) E) ≤ 1 / Fintype.card D := by
  have hD : (0 : ℚ) < Fintype.card D := Nat.cast_pos.2 Fintype.card_pos
  have hG : (0 : ℚ) < Fintype.card (Msg → D) := Nat.cast_pos.2 Fintype.card_pos
  unfold chance
  rw [div_le_div_iff₀ hG hD, one_mul, ← Nat.cast_mul, Nat.cast_le]
  let fin : (Msg → D) → List Msg × Q × A := fun G => F.outcome kmsg (fun q => wrap (G (kmsg q))) E []
  have hfin : ∀ (G : Msg → D) (x : D), kmsg (fin G).2.1 ∉ (fin G).1 → fin (Function.update G (kmsg (fin G).2.1) x) = fin G := by
    intro G x h
    refine (outcome_congr kmsg _ _ E F [] fun q hq => ?_).symm
    rw [Function.update_of_ne]
    rintro e
    exact h (e ▸ hq)
  rw [← Finset.card_univ (α := D), ← Finset.card_univ (α := Msg → D), ← Finset.card_product]
  refine Finset.card_le_card_of_injOn (fun y => Function.update y.1 (kmsg (fin y.1).2.1) y.2) (fun _ _ => Finset.mem_coe.2 (Finset.mem_univ _)) ?_
  rintro ⟨G, x⟩ hy ⟨G', x'⟩ hy' h
  have hw1 : F.Wins kmsg (fun q => wrap (G (kmsg q))) E := (Finset.mem_filter.1 (Finset.mem_product.1 (Finset.mem_coe.1 hy)).1).2
  have hw2 : F.Wins kmsg (fun q => wrap (G' (kmsg q))) E := (Finset.mem_filter.1 (Finset.mem_product.1 (Finset.mem_coe.1 hy')).1).2
  have hu : Function.update G (kmsg (fin G).2.1) x = Function.update G' (kmsg (fin G').2.1) x' := h
  have hf : fin G = fin G' := by rw [← hfin G x hw1.1, ← hfin G' x' hw2.1, hu]
  rw [hf] at hu
  have hx : x = x' := by simpa using congrFun hu (kmsg (fin G').2.1)
  refine Prod.ext (funext fun m => ?_) hx
  by_cases hm : m = kmsg (fin G').2.1
  · rw [hm]
    have e1 : wrap (G (kmsg (fin G).2.1)) = (fin G).2.2 := hw1.2
    have e2 : wrap (G' (kmsg (fin G').2.1)) = (fin G').2.2 := hw2.2
    rw [hf] at e1
    exact hw (e1.trans e2.symm)
  · have := congrFun hu m
    rwa [Function.update_of_ne hm, Function.update_of_ne hm] at this

/-- Forging against a function that is close to a random one. -/
theorem unforgeable {Key : Type} [Fintype Key] [Fintype K] [DecidableEq K] [Fintype X] [DecidableEq X] (kmsg : Q → Msg) (wrap : D → A)
    (hw : Function.Injective wrap) (F : Forger Q A K X) (mac : Key → Cipher K X → Q → A) {δ : ℚ}
    (h : |(chance fun w : Key × Cipher K X => (game kmsg F []).real (mac w.1 w.2) w.2 = true) -
      (chance fun w : (Msg → D) × Cipher K X => (game kmsg F []).real (fun q => wrap (w.1 (kmsg q))) w.2 = true)| ≤ δ) :
    (chance fun w : Key × Cipher K X => F.Wins kmsg (mac w.1 w.2) w.2) ≤ δ + 1 / Fintype.card D := by
  simp only [game_wins] at h
  have h2 : (chance fun w : (Msg → D) × Cipher K X => F.Wins kmsg (fun q => wrap (w.1 (kmsg q))) w.2) ≤ 1 / Fintype.card D :=
    chance_le_of_snd fun E => random_unforgeable kmsg wrap hw E F
  rw [abs_le] at h
  linarith [h.2]

end

end Verif.Ideal
