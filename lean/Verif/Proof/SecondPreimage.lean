import Verif.Proof.SpongeBound
import Verif.Proof.Walk
/-
Second preimages in the ideal cipher model: the attacker first computes the hash of the given message, and every later query has
only the values of that computation to meet.
-/
namespace Verif.Ideal
open Spec.Ideal

universe u v
variable {K X D : Type} {R : Type u} {S : Type v}

/-! ### Tables of attackers that go on -/

theorem table_andThen (E : Cipher K X) (A : Attacker K X R) (f : R → Attacker K X S) :
    ∀ T, table E (andThen A f) T = table E (f (A.result E)) (table E A T) := by
  induction A with
  | done r => intro T; rfl
  | ask d k x next ih =>
    intro T
    rw [andThen, table, table, ih]
    rfl

open Classical in
theorem table_append (E : Cipher K X) (A : Attacker K X R) : ∀ T, ∃ T', table E A T = T' ++ T := by
  induction A with
  | done r => intro T; exact ⟨[], rfl⟩
  | ask d k x next ih =>
    intro T
    rw [table]
    obtain ⟨T', h⟩ := ih (answer E d k x) (if Known T d k x then T else entry d k x (answer E d k x) :: T)
    rw [h]
    split
    · exact ⟨T', rfl⟩
    · exact ⟨T' ++ [_], by rw [List.append_assoc]; rfl⟩

theorem clean_suffix {Bad : Entry K X → List (Entry K X) → Prop} : ∀ {T' T : List (Entry K X)}, Clean Bad (T' ++ T) → Clean Bad T
  | [], _, h => h
  | _ :: _, _, h => clean_suffix h.1

/-- The `L` entries that were added first. -/
def oldest (L : Nat) (T : List (Entry K X)) : List (Entry K X) := T.drop (T.length - L)

theorem oldest_append (T' T : List (Entry K X)) : oldest T.length (T' ++ T) = T := by
  unfold oldest
  rw [List.length_append, Nat.add_sub_cancel, List.drop_left]

theorem length_oldest (L : Nat) (T : List (Entry K X)) : (oldest L T).length ≤ L := by
  unfold oldest
  rw [List.length_drop]
  omega

/-- An entry added after `T`. -/
theorem clean_later {Bad : Entry K X → List (Entry K X) → Prop} {T : List (Entry K X)} : ∀ {T' : List (Entry K X)},
    Clean Bad (T' ++ T) → ∀ e ∈ T', ∃ T'', ¬ Bad e (T'' ++ T)
  | [], _, _, he => by cases he
  | f :: T', h, e, he => by
    rcases List.mem_cons.1 he with rfl | he
    · exact ⟨T', h.2.1⟩
    · exact clean_later h.1 e he

/-! ### Chaining values that are the inputs of the cipher -/

section chaining
variable (step : X → X → X) (val : K → X → X → D) (iv : X) (L : Nat)

/-- The new chaining value of an entry. -/
def chained (e : Entry K X) : X := step e.x e.y

/-- While the message is hashed, a chaining value occurs again or the digest has occurred; afterwards, one of the `L` chaining
values or the digest is met. -/
def SecondBad (e : Entry K X) (T : List (Entry K X)) : Prop :=
  if T.length < L then chained step e ∈ iv :: T.map (chained step) ∨ (T.length + 1 = L ∧ value val e ∈ T.map (value val))
  else chained step e ∈ (oldest L T).map (chained step) ∨ value val e ∈ ((oldest L T).take 1).map (value val)

variable {step val iv L}

/-- What is known of the table while the message is hashed: the state is the last chaining value, and the inputs are chaining
values before. -/
def Walked (step : X → X → X) (iv : X) (T : List (Entry K X)) (v : X) : Prop :=
  match T with
  | [] => v = iv
  | f :: T' => chained step f = v ∧ ∀ e ∈ f :: T', e.x = iv ∨ ∃ g ∈ T', chained step g = e.x

theorem walked_table {B : Type} (E : Cipher K X) (key : B → K) (r : R) : ∀ (bs : List B) (v : X) (T : List (Entry K X)),
    Walked step iv T v → T.length + bs.length ≤ L →
    Clean (SecondBad step val iv L) (table E (walk key (fun v _ => v) step r bs v) T) →
    (table E (walk key (fun v _ => v) step r bs v) T).length = T.length + bs.length ∧
      Walked step iv (table E (walk key (fun v _ => v) step r bs v) T) (chain E key (fun v _ => v) step bs v) := by
  intro bs
  induction bs with
  | nil => intro v T h _ _; exact ⟨rfl, h⟩
  | cons b bs ih =>
    intro v T h hl hc
    rw [List.length_cons] at hl
    have hT : Clean (SecondBad step val iv L) T := by
      obtain ⟨T', e⟩ := table_append E (walk key (fun v _ => v) step r (b :: bs) v) T
      rw [e] at hc
      exact clean_suffix hc
    have hk : ¬ Known T .enc (key b) v := by
      rintro ⟨e, he, -, hx⟩
      change e.x = v at hx
      cases T with
      | nil => cases he
      | cons f T' =>
        obtain ⟨h1, h2⟩ := h
        have hb := hT.2.1
        rw [List.length_cons] at hl
        rw [SecondBad, if_pos (by omega)] at hb
        apply hb
        left
        rw [h1, ← hx]
        rcases h2 e he with h3 | ⟨g, hg, h3⟩
        · rw [h3]; exact List.mem_cons_self
        · exact List.mem_cons_of_mem _ (List.mem_map.2 ⟨g, hg, h3⟩)
    have hw : Walked step iv (entry .enc (key b) v (answer E .enc (key b) v) :: T) (step v (answer E .enc (key b) v)) := by
      refine ⟨rfl, ?_⟩
      intro e he
      rcases List.mem_cons.1 he with rfl | he
      · cases T with
        | nil => exact Or.inl h
        | cons f T' => exact Or.inr ⟨f, List.mem_cons_self, h.1⟩
      · cases T with
        | nil => cases he
        | cons f T' =>
          rcases h.2 e he with h3 | ⟨g, hg, h3⟩
          · exact Or.inl h3
          · exact Or.inr ⟨g, List.mem_cons_of_mem _ hg, h3⟩
    rw [walk, table, if_neg hk] at hc ⊢
    have := ih _ _ hw (by rw [List.length_cons]; omega) hc
    rw [List.length_cons] at this
    refine ⟨by rw [this.1, List.length_cons]; omega, this.2⟩

/-- The chaining values in the table of the message are different. -/
theorem clean_chained {T : List (Entry K X)} (hl : T.length ≤ L) (h : Clean (SecondBad step val iv L) T) {e e' : Entry K X}
    (he : e ∈ T) (he' : e' ∈ T) (hc : chained step e = chained step e') : e = e' := by
  induction T with
  | nil => cases he
  | cons f T ih =>
    rw [List.length_cons] at hl
    have hb := h.2.1
    rw [SecondBad, if_pos (by omega)] at hb
    rcases List.mem_cons.1 he with h1 | h1 <;> rcases List.mem_cons.1 he' with h2 | h2
    · rw [h1, h2]
    · exact absurd (Or.inl (List.mem_cons_of_mem _ (List.mem_map.2 ⟨e', h2, by rw [← h1]; exact hc.symm⟩))) hb
    · exact absurd (Or.inl (List.mem_cons_of_mem _ (List.mem_map.2 ⟨e, h1, by rw [← h2]; exact hc⟩))) hb
    · exact ih (by omega) h.1 h1 h2

variable [Fintype K] [DecidableEq K] [Fintype X] [DecidableEq X] [DecidableEq D]

instance (T : List (Entry K X)) (e : Entry K X) : Decidable (SecondBad step val iv L e T) := by
  unfold SecondBad
  infer_instance

/-- The number of bad answers. -/
def secondWeight (L m i : Nat) : Nat := if i < L then i + 1 + (if i + 1 = L then i * m else 0) else L + m

omit [Fintype K] [DecidableEq K] in
theorem card_secondBad {m : Nat} (hs : ∀ x, Function.Injective (step x)) (hs' : ∀ y, Function.Injective fun x => step x y)
    (H : Fibers val m) (T : List (Entry K X)) (d : Dir) (k : K) (v : X) :
    (Finset.univ.filter fun a => SecondBad step val iv L (entry d k v a) T).card ≤ secondWeight L m T.length := by
  have hfull : Fibers (fun (_ : K) x y => step x y) 1 := by
    constructor
    · intro _ x t
      refine Finset.card_le_one.2 fun a ha b hb => ?_
      rw [Finset.mem_filter] at ha hb
      exact hs x (ha.2.trans hb.2.symm)
    · intro _ y t
      refine Finset.card_le_one.2 fun a ha b hb => ?_
      rw [Finset.mem_filter] at ha hb
      exact hs' y (ha.2.trans hb.2.symm)
  have h1 : ∀ l : List X, (Finset.univ.filter fun a => chained step (entry d k v a) ∈ l).card ≤ l.length := by
    intro l
    have := fibers_list hfull d k v l
    rwa [Nat.mul_one] at this
  have h2 := fun l => fibers_list H d k v l
  unfold secondWeight SecondBad
  by_cases hl : T.length < L
  · simp only [if_pos hl]
    have : (Finset.univ.filter fun a => chained step (entry d k v a) ∈ iv :: T.map (chained step) ∨
        (T.length + 1 = L ∧ value val (entry d k v a) ∈ T.map (value val))) ⊆
        (Finset.univ.filter fun a => chained step (entry d k v a) ∈ iv :: T.map (chained step)) ∪
        (if T.length + 1 = L then Finset.univ.filter fun a => value val (entry d k v a) ∈ T.map (value val) else ∅) := by
      intro a ha
      rw [Finset.mem_filter] at ha
      rw [Finset.mem_union]
      rcases ha.2 with ha | ha
      · exact Or.inl (Finset.mem_filter.2 ⟨Finset.mem_univ _, ha⟩)
      · right
        rw [if_pos ha.1]
        exact Finset.mem_filter.2 ⟨Finset.mem_univ _, ha.2⟩
    refine le_trans (Finset.card_le_card this) (le_trans (Finset.card_union_le _ _) (Nat.add_le_add ?_ ?_))
    · refine le_trans (h1 _) (le_of_eq ?_)
      rw [List.length_cons, List.length_map]
    · split
      · have := h2 (T.map (value val))
        rwa [List.length_map] at this
      · exact le_of_eq Finset.card_empty
  · simp only [if_neg hl]
    have : (Finset.univ.filter fun a => chained step (entry d k v a) ∈ (oldest L T).map (chained step) ∨
        value val (entry d k v a) ∈ ((oldest L T).take 1).map (value val)) ⊆
        (Finset.univ.filter fun a => chained step (entry d k v a) ∈ (oldest L T).map (chained step)) ∪
        (Finset.univ.filter fun a => value val (entry d k v a) ∈ ((oldest L T).take 1).map (value val)) := by
      intro a ha
      rw [Finset.mem_filter] at ha
      rw [Finset.mem_union]
      rcases ha.2 with ha | ha
      · exact Or.inl (Finset.mem_filter.2 ⟨Finset.mem_univ _, ha⟩)
      · exact Or.inr (Finset.mem_filter.2 ⟨Finset.mem_univ _, ha⟩)
    refine le_trans (Finset.card_le_card this) (le_trans (Finset.card_union_le _ _) (Nat.add_le_add ?_ ?_))
    · refine le_trans (h1 _) ?_
      rw [List.length_map]
      exact length_oldest _ _
    · refine le_trans (h2 _) ?_
      rw [List.length_map, List.length_take]
      exact le_trans (Nat.mul_le_mul_right _ (Nat.min_le_left _ _)) (le_of_eq (Nat.one_mul _))

theorem sum_secondWeight (L m Q : Nat) : ∑ i ∈ Finset.range (L + Q), secondWeight L m i ≤ (L + Q) * (L + m) := by
  have h1 : ∀ j, j < L → ∑ i ∈ Finset.range j, secondWeight L m i ≤ j * L := by
    intro j
    induction j with
    | zero => intro _; simp
    | succ j ih =>
      intro hj
      rw [Finset.sum_range_succ, Nat.succ_mul]
      refine Nat.add_le_add (ih (by omega)) ?_
      unfold secondWeight
      rw [if_pos (by omega), if_neg (by omega)]
      omega
  have h2 : ∑ i ∈ Finset.range L, secondWeight L m i ≤ L * (L + m) := by
    rcases L with _ | L
    · simp
    · rw [Finset.sum_range_succ]
      have := h1 L (Nat.lt_succ_self L)
      have h3 : secondWeight (L + 1) m L = L + 1 + L * m := by
        unfold secondWeight
        rw [if_pos (Nat.lt_succ_self L), if_pos rfl]
      rw [h3]
      nlinarith
  induction Q with
  | zero => exact h2
  | succ Q ih =>
    rw [← Nat.add_assoc, Finset.sum_range_succ]
    have : secondWeight L m (L + Q) = L + m := by
      unfold secondWeight
      rw [if_neg (by omega)]
    rw [this, Nat.succ_mul]
    exact Nat.add_le_add_right ih _

/-- An attacker that first hashes the message `bs`, `n` queries in all, meets one of the chaining values or the digest of the
message with probability at most `n` times `L + m` out of `N - n`. -/
theorem second_bound {B : Type} {m : Nat} (hs : ∀ x, Function.Injective (step x)) (hs' : ∀ y, Function.Injective fun x => step x y)
    (H : Fibers val m) (key : B → K) (bs : List B) (r : R) (f : R → Attacker K X S) (Q : Nat) (hf : ∀ r, (f r).AtMost Q)
    (hq : bs.length + Q < Fintype.card X) (p : Cipher K X → Prop)
    (hp : ∀ E, p E → ∃ s ∈ (walk key (fun v _ => v) step r bs iv).learns E,
      ∃ t ∈ (andThen (walk key (fun v _ => v) step r bs iv) f).learns E, (s.1, s.2.1) ≠ (t.1, t.2.1) ∧
        (step s.2.1 s.2.2 = step t.2.1 t.2.2 ∨
          (step s.2.1 s.2.2 = chain E key (fun v _ => v) step bs iv ∧ val s.1 s.2.1 s.2.2 = val t.1 t.2.1 t.2.2))) :
    prob p ≤ ((bs.length + Q) * (bs.length + m) : ℚ) / ((Fintype.card X : ℚ) - (bs.length + Q)) := by
  have hA : (andThen (walk key (fun v _ => v) step r bs iv) f).AtMost (bs.length + Q) :=
    atMost_andThen (atMost_walk _ _ _ _ _ _) hf
  refine le_trans (prob_le (SecondBad step val iv bs.length) (secondWeight bs.length m)
    (fun T d k v _ => card_secondBad hs hs' H T d k v) _ _ hA hq.le p ?_) (le_trans (bound_le_sum _ hq) ?_)
  · intro E hc hpE
    obtain ⟨s, hs1, t, ht, hne, hor⟩ := hp E hpE
    have hAg : Agrees E ([] : List (Entry K X)) := by intro e he; cases he
    obtain ⟨e, he, rfl⟩ := learns_table E _ [] hAg s hs1
    obtain ⟨e', he', rfl⟩ := learns_table E _ [] hAg t ht
    have hne' : e ≠ e' := by rintro rfl; exact hne rfl
    rw [table_andThen] at hc he'
    generalize hT0 : table E (walk key (fun v _ => v) step r bs iv) [] = T0 at hc he he'
    obtain ⟨T1, hT1⟩ := table_append E (f ((walk key (fun v _ => v) step r bs iv).result E)) T0
    rw [hT1] at hc he'
    have hc0 := clean_suffix hc
    have hw := walked_table (val := val) (L := bs.length) E key r bs iv [] rfl (le_of_eq (Nat.zero_add _)) (by rw [hT0]; exact hc0)
    rw [hT0, List.length_nil, Nat.zero_add] at hw
    have hlen := hw.1
    have later : ∀ {g}, g ∈ T1 → chained step g ∉ T0.map (chained step) ∧ value val g ∉ (T0.take 1).map (value val) := by
      intro g hg
      obtain ⟨T'', hb⟩ := clean_later hc g hg
      have ho : oldest bs.length (T'' ++ T0) = T0 := by rw [← hlen]; exact oldest_append _ _
      rw [SecondBad, if_neg (by rw [List.length_append]; omega), ho] at hb
      exact not_or.1 hb
    rcases hor with hor | ⟨hfin, hor⟩
    · rcases List.mem_append.1 he' with h1 | h1
      · exact (later h1).1 (List.mem_map.2 ⟨e, he, hor⟩)
      · exact hne' (clean_chained (le_of_eq hlen) hc0 he h1 hor)
    · cases T0 with
      | nil => cases he
      | cons g T0 =>
        have heg : e = g := clean_chained (le_of_eq hlen) hc0 he List.mem_cons_self (hfin.trans hw.2.1.symm)
        rcases List.mem_append.1 he' with h1 | h1
        · exact (later h1).2 (List.mem_map.2 ⟨e, by rw [heg]; exact List.mem_cons_self, hor⟩)
        · rcases List.mem_cons.1 h1 with h1 | h1
          · exact hne' (heg.trans h1.symm)
          · have hb := hc0.2.1
            rw [List.length_cons] at hlen
            rw [SecondBad, if_pos (by omega)] at hb
            exact hb (Or.inr ⟨hlen, List.mem_map.2 ⟨e', h1, by rw [← heg]; exact hor.symm⟩⟩)
  · rw [Nat.cast_add]
    refine div_le_div_of_nonneg_right ?_ (sub_nonneg.2 ?_)
    · have := sum_secondWeight bs.length m Q
      calc ((∑ i ∈ Finset.range (bs.length + Q), secondWeight bs.length m i : Nat) : ℚ)
          ≤ (((bs.length + Q) * (bs.length + m) : Nat) : ℚ) := Nat.cast_le.2 this
        _ = _ := by push_cast; rfl
    · have := (Nat.cast_lt (α := ℚ)).2 hq
      rw [Nat.cast_add] at this
      exact this.le

end chaining

/-! ### Cipher inputs that carry a counter -/

section counter
variable {G : Type} [DecidableEq G] (tag : X → G) (val : K → X → X → D) (L : Nat)

/-- The value that a query with the tag `g` has to meet. -/
def goal (T : List (Entry K X)) (g : G) : Option D :=
  ((oldest L T).find? fun f => decide (tag f.x = g)).map (value val)

/-- After the message is hashed, the value of the call with the same tag is met. -/
def CounterBad (e : Entry K X) (T : List (Entry K X)) : Prop := L ≤ T.length ∧ goal tag val L T (tag e.x) = some (value val e)

variable {tag val L}

theorem tags_table {B V : Type} (E : Cipher K X) (key : B → K) (input : V → B → X) (next : V → X → V) (r : R) (tagOf : B → G)
    (ht : ∀ v b, tag (input v b) = tagOf b) : ∀ (bs : List B) (v : V) (T : List (Entry K X)),
    ((bs.map tagOf).reverse ++ T.map fun e => tag e.x).Nodup →
    (table E (walk key input next r bs v) T).map (fun e => tag e.x) = (bs.map tagOf).reverse ++ T.map fun e => tag e.x := by
  intro bs
  induction bs with
  | nil => intro v T _; rfl
  | cons b bs ih =>
    intro v T hn
    rw [List.map_cons, List.reverse_cons, List.append_assoc] at hn ⊢
    have hk : ¬ Known T .enc (key b) (input v b) := by
      rintro ⟨e, he, -, hx⟩
      change e.x = input v b at hx
      have h1 := (List.nodup_append.1 hn).2.1
      rw [List.singleton_append, List.nodup_cons] at h1
      exact h1.1 (List.mem_map.2 ⟨e, he, by rw [hx, ht]⟩)
    have he : tag (entry .enc (key b) (input v b) (answer E .enc (key b) (input v b))).x = tagOf b := ht v b
    rw [walk, table, if_neg hk, ih, List.map_cons, he]
    · rfl
    · rw [List.map_cons, he]
      exact hn

theorem eq_of_tag {T : List (Entry K X)} (h : (T.map fun e => tag e.x).Nodup) {e e' : Entry K X} (he : e ∈ T) (he' : e' ∈ T)
    (ht : tag e.x = tag e'.x) : e = e' := List.inj_on_of_nodup_map h he he' ht

variable [Fintype K] [DecidableEq K] [Fintype X] [DecidableEq X] [DecidableEq D]

instance (T : List (Entry K X)) (e : Entry K X) : Decidable (CounterBad tag val L e T) := by
  unfold CounterBad
  infer_instance

omit [Fintype K] [DecidableEq K] [DecidableEq X] in
theorem card_counterBad {m : Nat} (He : ∀ k x t, (Finset.univ.filter fun y => val k x y = t).card ≤ m)
    (Hd : ∀ k y (t : G → Option D), (Finset.univ.filter fun x => t (tag x) = some (val k x y)).card ≤ m)
    (T : List (Entry K X)) (d : Dir) (k : K) (v : X) :
    (Finset.univ.filter fun a => CounterBad tag val L (entry d k v a) T).card ≤ if T.length < L then 0 else m := by
  split
  · rename_i hl
    refine le_of_eq (Finset.card_eq_zero.2 (Finset.filter_eq_empty_iff.2 fun a _ h => ?_))
    exact absurd h.1 (by omega)
  · cases d with
    | enc =>
      cases hg : goal tag val L T (tag v) with
      | none =>
        refine le_trans (le_of_eq (Finset.card_eq_zero.2 (Finset.filter_eq_empty_iff.2 fun a _ h => ?_))) (Nat.zero_le _)
        have h2 : goal tag val L T (tag v) = some (val k v a) := h.2
        rw [hg] at h2
        cases h2
      | some t =>
        refine le_trans (Finset.card_le_card fun a ha => ?_) (He k v t)
        rw [Finset.mem_filter] at ha ⊢
        have h2 : goal tag val L T (tag v) = some (val k v a) := ha.2.2
        rw [hg] at h2
        exact ⟨ha.1, (Option.some.inj h2).symm⟩
    | dec =>
      refine le_trans (Finset.card_le_card fun a ha => ?_) (Hd k v (goal tag val L T))
      rw [Finset.mem_filter] at ha ⊢
      exact ⟨ha.1, ha.2.2⟩

theorem sum_counter (L m Q : Nat) : ∑ i ∈ Finset.range (L + Q), (if i < L then 0 else m) = Q * m := by
  induction Q with
  | zero =>
    rw [Nat.zero_mul]
    exact Finset.sum_eq_zero fun i hi => if_pos (Finset.mem_range.1 hi)
  | succ Q ih =>
    rw [← Nat.add_assoc, Finset.sum_range_succ, ih, if_neg (by omega), Nat.succ_mul]

/-- If every call for a message carries a tag of its own, an attacker that first hashes the message and then asks `Q` queries
finds another input with the tag and the value of one of the calls with probability at most `Q m / (N - n)`. -/
theorem counter_bound {B V : Type} {m : Nat} (He : ∀ k x t, (Finset.univ.filter fun y => val k x y = t).card ≤ m)
    (Hd : ∀ k y (t : G → Option D), (Finset.univ.filter fun x => t (tag x) = some (val k x y)).card ≤ m)
    (key : B → K) (input : V → B → X) (next : V → X → V) (tagOf : B → G) (ht : ∀ v b, tag (input v b) = tagOf b)
    (bs : List B) (hn : (bs.map tagOf).Nodup) (iv : V) (r : R) (f : R → Attacker K X S) (Q : Nat) (hf : ∀ r, (f r).AtMost Q)
    (hq : bs.length + Q < Fintype.card X) (p : Cipher K X → Prop)
    (hp : ∀ E, p E → ∃ s ∈ (walk key input next r bs iv).learns E,
      ∃ t ∈ (andThen (walk key input next r bs iv) f).learns E, (s.1, s.2.1) ≠ (t.1, t.2.1) ∧ tag s.2.1 = tag t.2.1 ∧
        val s.1 s.2.1 s.2.2 = val t.1 t.2.1 t.2.2) :
    prob p ≤ (Q * m : ℚ) / ((Fintype.card X : ℚ) - (bs.length + Q)) := by
  have hA : (andThen (walk key input next r bs iv) f).AtMost (bs.length + Q) := atMost_andThen (atMost_walk _ _ _ _ _ _) hf
  refine le_trans (prob_le (CounterBad tag val bs.length) (fun i => if i < bs.length then 0 else m)
    (fun T d k v _ => card_counterBad He Hd T d k v) _ _ hA hq.le p ?_) (le_trans (bound_le_sum _ hq) ?_)
  · intro E hc hpE
    obtain ⟨s, hs1, t, ht1, hne, htag, hv⟩ := hp E hpE
    have hAg : Agrees E ([] : List (Entry K X)) := by intro e he; cases he
    obtain ⟨e, he, rfl⟩ := learns_table E _ [] hAg s hs1
    obtain ⟨e', he', rfl⟩ := learns_table E _ [] hAg t ht1
    have hne' : e ≠ e' := by rintro rfl; exact hne rfl
    rw [table_andThen] at hc he'
    have hn' : ((bs.map tagOf).reverse ++ ([] : List (Entry K X)).map fun e => tag e.x).Nodup := by
      rw [List.map_nil, List.append_nil, List.nodup_reverse]
      exact hn
    have htab := tags_table E key input next r tagOf ht bs iv [] hn'
    generalize hT0 : table E (walk key input next r bs iv) [] = T0 at hc he he' htab
    rw [← htab] at hn'
    have hlen : T0.length = bs.length := by
      have := congrArg List.length htab
      rwa [List.length_map, List.map_nil, List.append_nil, List.length_reverse, List.length_map] at this
    obtain ⟨T1, hT1⟩ := table_append E (f ((walk key input next r bs iv).result E)) T0
    rw [hT1] at hc he'
    rcases List.mem_append.1 he' with h1 | h1
    · obtain ⟨T'', hb⟩ := clean_later hc e' h1
      have ho : oldest bs.length (T'' ++ T0) = T0 := by rw [← hlen]; exact oldest_append _ _
      apply hb
      refine ⟨by rw [List.length_append]; omega, ?_⟩
      unfold goal
      rw [ho]
      cases hfi : T0.find? fun f => decide (tag f.x = tag e'.x) with
      | none =>
        have := List.find?_eq_none.1 hfi e he
        exact absurd htag (by simpa using this)
      | some g =>
        have h2 : tag g.x = tag e'.x := by simpa using List.find?_some hfi
        have h3 : g = e := eq_of_tag hn' (List.mem_of_find?_eq_some hfi) he (h2.trans htag.symm)
        rw [h3]
        exact congrArg some hv
    · exact hne' (eq_of_tag hn' he h1 htag)
  · rw [sum_counter, Nat.cast_add]
    exact le_of_eq (by push_cast; rfl)

end counter

/-! ### Sponges -/

section sponge
variable {C : Type} {cin cout : X → C} {out : X → D} {c0 : C} {L : Nat}

/-- The outputs that the last call for the message, and the calls afterwards, may not have. -/
def unwanted (out : X → D) (L : Nat) (T : List (Entry K X)) : List D :=
  if T.length + 1 = L then T.map fun e => out e.y else if T.length < L then [] else ((oldest L T).take 1).map fun e => out e.y

/-- What is known of the table while the message is absorbed. -/
def Absorbed (cin cout : X → C) (c0 : C) (T : List (Entry K X)) (v : X) : Prop :=
  match T with
  | [] => cout v = c0
  | f :: T' => f.y = v ∧ ∀ e ∈ f :: T', cin e.x = c0 ∨ ∃ g ∈ T', cout g.y = cin e.x

theorem absorbed_table {B : Type} {F : List (Entry K X) → List D} (E : Cipher K X) (key : B → K) (input : X → B → X) (r : R) :
    ∀ (bs : List B), (∀ v, ∀ b ∈ bs, cin (input v b) = cout v) → ∀ (v : X) (T : List (Entry K X)), Absorbed cin cout c0 T v →
    (∀ e ∈ T, e.dir = .enc) →
    Clean (SpongeBad cin cout out c0 F) (table E (walk key input (fun _ y => y) r bs v) T) →
    (table E (walk key input (fun _ y => y) r bs v) T).length = T.length + bs.length ∧
      Absorbed cin cout c0 (table E (walk key input (fun _ y => y) r bs v) T) (chain E key input (fun _ y => y) bs v) ∧
      ∀ e ∈ table E (walk key input (fun _ y => y) r bs v) T, e.dir = .enc := by
  intro bs
  induction bs with
  | nil => intro _ v T h hd _; exact ⟨rfl, h, hd⟩
  | cons b bs ih =>
    intro hin v T h hd hc
    have hT : Clean (SpongeBad cin cout out c0 F) T := by
      obtain ⟨T', e⟩ := table_append E (walk key input (fun _ y => y) r (b :: bs) v) T
      rw [e] at hc
      exact clean_suffix hc
    have hk : ¬ Known T .enc (key b) (input v b) := by
      rintro ⟨e, he, -, hx⟩
      change e.x = input v b at hx
      have hcin : cin e.x = cout v := by rw [hx]; exact hin v b List.mem_cons_self
      cases T with
      | nil => cases he
      | cons f T' =>
        obtain ⟨h1, h2⟩ := h
        have hb := hT.2.1
        unfold SpongeBad at hb
        rw [hd f List.mem_cons_self] at hb
        apply hb
        left
        rw [h1, ← hcin]
        rcases h2 e he with h3 | ⟨g, hg, h3⟩
        · rw [h3]; exact List.mem_cons_self
        · rw [← h3]; exact mem_caps_y cin cout c0 hg
    have hw : Absorbed cin cout c0 (entry .enc (key b) (input v b) (answer E .enc (key b) (input v b)) :: T)
        (answer E .enc (key b) (input v b)) := by
      refine ⟨rfl, ?_⟩
      intro e he
      rcases List.mem_cons.1 he with rfl | he
      · have h0 : cin (entry .enc (key b) (input v b) (answer E .enc (key b) (input v b))).x = cout v := hin v b List.mem_cons_self
        rw [h0]
        cases T with
        | nil => exact Or.inl h
        | cons f T' => exact Or.inr ⟨f, List.mem_cons_self, by rw [h.1]⟩
      · cases T with
        | nil => cases he
        | cons f T' =>
          rcases h.2 e he with h3 | ⟨g, hg, h3⟩
          · exact Or.inl h3
          · exact Or.inr ⟨g, List.mem_cons_of_mem _ hg, h3⟩
    rw [walk, table, if_neg hk] at hc ⊢
    have := ih (fun v b hb => hin v b (List.mem_cons_of_mem _ hb)) _ _ hw (by
      intro e he
      rcases List.mem_cons.1 he with rfl | he
      · rfl
      · exact hd e he) hc
    refine ⟨by rw [this.1, List.length_cons, List.length_cons]; omega, this.2⟩

theorem sum_sponge_second (L Q mc mo : Nat) :
    ((∑ i ∈ Finset.range (L + Q), ((2 * i + 1) * mc + (if i + 1 = L then i else if i < L then 0 else 1) * mo) : Nat) : ℚ) ≤
      ((L + Q : Nat) : ℚ) ^ 2 * mc + (L + Q : Nat) * mo := by
  have h0 : ∀ j, ∑ i ∈ Finset.range j, ((2 * i + 1) * mc) = j ^ 2 * mc := by
    intro j
    induction j with
    | zero => simp
    | succ j ih => rw [Finset.sum_range_succ, ih]; ring
  have h1 : ∀ j, j < L → ∑ i ∈ Finset.range j, (if i + 1 = L then i else if i < L then 0 else 1) = 0 := by
    intro j hj
    refine Finset.sum_eq_zero fun i hi => ?_
    have := Finset.mem_range.1 hi
    rw [if_neg (by omega), if_pos (by omega)]
  have h2 : ∑ i ∈ Finset.range L, (if i + 1 = L then i else if i < L then 0 else 1) ≤ L := by
    rcases L with _ | L
    · simp
    · rw [Finset.sum_range_succ, h1 L (Nat.lt_succ_self _), if_pos rfl]
      omega
  have h3 : ∑ i ∈ Finset.range (L + Q), (if i + 1 = L then i else if i < L then 0 else 1) ≤ L + Q := by
    induction Q with
    | zero => exact h2
    | succ Q ih =>
      rw [← Nat.add_assoc, Finset.sum_range_succ, if_neg (by omega), if_neg (by omega)]
      omega
  rw [Finset.sum_add_distrib, h0, ← Finset.sum_mul]
  have h4 : (L + Q) ^ 2 * mc + (∑ i ∈ Finset.range (L + Q), (if i + 1 = L then i else if i < L then 0 else 1)) * mo ≤
      (L + Q) ^ 2 * mc + (L + Q) * mo := Nat.add_le_add_left (Nat.mul_le_mul_right _ h3) _
  refine le_trans (Nat.cast_le.2 h4) (le_of_eq (by push_cast; rfl))

variable [Fintype K] [DecidableEq K] [Fintype X] [DecidableEq X] [DecidableEq C] [DecidableEq D]

omit [Fintype K] [DecidableEq K] [Fintype X] [DecidableEq X] [DecidableEq C] [DecidableEq D] in
theorem length_unwanted (T : List (Entry K X)) :
    (unwanted out L T).length ≤ if T.length + 1 = L then T.length else if T.length < L then 0 else 1 := by
  unfold unwanted
  split
  · rw [List.length_map]
  · split
    · exact le_refl 0
    · rw [List.length_map, List.length_take]
      exact Nat.min_le_left _ _

/-- An attacker first absorbs the message `bs`.  Unless an inner part occurs twice, other entries on the way of a message have
another output than the last entry of `bs`. -/
theorem sponge_second_bound {B : Type} (c0 : C) {mc mo : Nat}
    (hi : ∀ t, (Finset.univ.filter fun x => cin x = t).card ≤ mc)
    (hc : ∀ t, (Finset.univ.filter fun x => cout x = t).card ≤ mc) (ho : ∀ t, (Finset.univ.filter fun x => out x = t).card ≤ mo)
    (key : B → K) (input : X → B → X) (bs : List B) (hin : ∀ v, ∀ b ∈ bs, cin (input v b) = cout v) (x0 : X) (hx0 : cout x0 = c0)
    (r : R) (f : R → Attacker K X S) (Q : Nat) (hf : ∀ r, (f r).AtMost Q) (hq : bs.length + Q < Fintype.card X)
    (p : Cipher K X → Prop)
    (hp : ∀ E, p E → ∀ F : List (Entry K X) → List D,
      let T := table E (andThen (walk key input (fun _ y => y) r bs x0) f) []
      Clean (SpongeBad cin cout out c0 F) T → ∃ e e', Reach cin cout c0 T e ∧ Reach cin cout c0 T e' ∧
        e.y = chain E key input (fun _ y => y) bs x0 ∧ e ≠ e' ∧ out e.y = out e'.y) (hbs : bs ≠ []) :
    prob p ≤ (((bs.length + Q : Nat) : ℚ) ^ 2 * mc + (bs.length + Q : Nat) * mo) / ((Fintype.card X : ℚ) - (bs.length + Q : Nat)) := by
  have hA : (andThen (walk key input (fun _ y => y) r bs x0) f).AtMost (bs.length + Q) :=
    atMost_andThen (atMost_walk _ _ _ _ _ _) hf
  refine le_trans (prob_le (SpongeBad cin cout out c0 (unwanted out bs.length))
    (fun i => (2 * i + 1) * mc + (if i + 1 = bs.length then i else if i < bs.length then 0 else 1) * mo)
    (fun T d k v _ => card_spongeBad c0 (unwanted out bs.length) hi hc ho
      (g := fun i => if i + 1 = bs.length then i else if i < bs.length then 0 else 1) length_unwanted T d k v) _ _ hA hq.le p ?_)
    (le_trans (bound_le_sum _ hq) (div_le_div_of_nonneg_right (sum_sponge_second _ _ _ _) (sub_nonneg.2 (Nat.cast_le.2 hq.le))))
  intro E hcl hpE
  obtain ⟨e, e', hr, hr', hy, hne, hout⟩ := hp E hpE _ hcl
  have hd' := reach_enc hcl hr'
  have hm' := hr'.mem
  have hall : ∀ g ∈ table E (andThen (walk key input (fun _ y => y) r bs x0) f) [], g.dir = .enc → cout e.y = cout g.y → e = g :=
    fun g hg hgd h => clean_enc hcl hr.mem hg (reach_enc hcl hr) hgd h
  rw [table_andThen] at hcl hm' hall
  generalize hT0 : table E (walk key input (fun _ y => y) r bs x0) [] = T0 at hcl hm' hall
  obtain ⟨T1, hT1⟩ := table_append E (f ((walk key input (fun _ y => y) r bs x0).result E)) T0
  rw [hT1] at hcl hm' hall
  have hc0 := clean_suffix hcl
  have hw := absorbed_table (out := out) E key input r bs hin x0 [] hx0 (by intro e he; cases he) (by rw [hT0]; exact hc0)
  rw [hT0, List.length_nil, Nat.zero_add] at hw
  have hlen := hw.1
  cases T0 with
  | nil => exact hbs (List.length_eq_zero_iff.1 hlen.symm)
  | cons g T0 =>
    have hgd : g.dir = .enc := hw.2.2 g List.mem_cons_self
    have heg : e = g := hall g (List.mem_append_right _ List.mem_cons_self) hgd (by rw [hy, ← hw.2.1.1])
    rcases List.mem_append.1 hm' with h1 | h1
    · obtain ⟨T'', hb⟩ := clean_later hcl e' h1
      have hold : oldest bs.length (T'' ++ g :: T0) = g :: T0 := by rw [← hlen]; exact oldest_append _ _
      unfold SpongeBad at hb
      rw [hd'] at hb
      apply hb
      right
      rw [List.length_cons] at hlen
      rw [unwanted, if_neg (by rw [List.length_append, List.length_cons]; omega),
        if_neg (by rw [List.length_append, List.length_cons]; omega), hold]
      exact List.mem_map.2 ⟨g, List.mem_cons_self, by rw [← heg]; exact hout⟩
    · rcases List.mem_cons.1 h1 with h1 | h1
      · exact hne (heg.trans h1.symm)
      · have hb := hc0.2.1
        unfold SpongeBad at hb
        rw [hgd] at hb
        apply hb
        right
        rw [List.length_cons] at hlen
        rw [unwanted, if_pos hlen]
        exact List.mem_map.2 ⟨e', h1, by rw [← heg]; exact hout.symm⟩

end sponge

end Verif.Ideal
