import Verif.Proof.Indifferentiable
import Mathlib.Algebra.Order.BigOperators.Group.Finset
import Mathlib.Tactic.Ring
/- Indifferentiability: the counting. -/
namespace Verif.Ideal
open Spec.Ideal

universe u
variable {K X V B C D W M Z : Type} {Q : Type*} {R : Type u}

instance : Fintype Dir := ⟨{.enc, .dec}, by rintro (_ | _) <;> simp⟩

namespace Shape

/-- The simulator: it keeps the table of its answers. -/
noncomputable def simulator [Fintype K] [Fintype X] (S : Shape K X V B C D W M) : Simulator M D K X where
  State := Tab K X
  start := []
  Coins := Dir × K × X → X
  fintype := by classical exact inferInstance
  wants := fun _ T d k v =>
    match look T d k v with
    | some _ => none
    | none => S.wants T d k v
  reply := fun c T d k v o =>
    match look T d k v with
    | some a => (T, a)
    | none => (entry d k v (S.patch k v o (c (d, k, v))) :: T, S.patch k v o (c (d, k, v)))

variable {S : Shape K X V B C D W M}

/-- The ideal world. -/
theorem ideal_full [Fintype K] [Fintype X] (h : Q → Z) (F : M → D) (c : Dir × K × X → X) (pth : Q → List B) (P : Distinguisher Q Z K X) : ∀ (qs : List Q) (T : Tab K X),
    P.ideal h S.simulator F c T = (simRun (S.ans F c) (full S.key S.add S.out S.s0 pth h P qs) T).1.1 := by
  induction P with
  | done b =>
    intro qs T
    rw [full, (simRun_completing (S.ans F c) qs (b, qs) T).1]
    rfl
  | hash q next ih => intro qs T; rw [full]; exact ih _ _ _
  | ask d k v next ih =>
    intro qs T
    rw [full]
    cases hl : look T d k v with
    | some a =>
      have hr : ∀ o, S.simulator.reply c T d k v o = ((T : Tab K X), a) := fun o => by simp only [simulator, hl]
      rw [simRun_known hl, ← ih a qs T]
      show (next (S.simulator.reply c T d k v _).2).ideal h S.simulator F c (S.simulator.reply c T d k v _).1 = _
      rw [hr]
    | none =>
      have hw : S.simulator.wants c T d k v = S.wants T d k v := by simp only [simulator, hl]
      have hr : ∀ o, S.simulator.reply c T d k v o = ((entry d k v (S.patch k v o (c (d, k, v))) :: T : Tab K X), S.patch k v o (c (d, k, v))) :=
        fun o => by simp only [simulator, hl]
      rw [simRun_fresh hl, ← ih _ qs _]
      show (next (S.simulator.reply c T d k v ((S.simulator.wants c T d k v).map F)).2).ideal h S.simulator F c
        (S.simulator.reply c T d k v ((S.simulator.wants c T d k v).map F)).1 = _
      rw [hr, hw]
      rfl

/-! ### Oracles and coins that agree with a table -/

theorem agr_congr {F F' : M → D} {c c' : Dir × K × X → X} {T : Tab K X}
    (hc : ∀ e ∈ T, c (e.dir, e.key, e.side e.dir) = c' (e.dir, e.key, e.side e.dir))
    (hF : ∀ e T', (e :: T') <:+ T → ∀ m, S.wants T' e.dir e.key (e.side e.dir) = some m → F m = F' m) (h : Agr S F c T) :
    Agr S F' c' T := by
  induction T with
  | nil => trivial
  | cons e T ih =>
    refine ⟨ih (fun f hf => hc f (List.mem_cons_of_mem _ hf)) (fun f T' hT => hF f T' (hT.trans (List.suffix_cons _ _))) h.1, ?_⟩
    rw [← h.2]
    unfold ans
    rw [← hc e List.mem_cons_self]
    congr 1
    cases hw : S.wants T e.dir e.key (e.side e.dir) with
    | none => rfl
    | some m => rw [Option.map_some, Option.map_some, hF e T (List.suffix_refl _) m hw]

theorem nodes_suffix {T T' : Tab K X} (h : T <:+ T') {n : List B × V} (hn : n ∈ S.nodes T) : n ∈ S.nodes T' := by
  obtain ⟨U, rfl⟩ := h
  induction U with
  | nil => exact hn
  | cons e U ih => exact (S.mem_nodes_cons).2 (Or.inr ih)

theorem wants_path {T : Tab K X} {d : Dir} {k : K} {v : X} {m : M} (h : S.wants T d k v = some m) :
    d = .enc ∧ S.path (S.nodes T) k v = some (S.pad m) := by
  cases d with
  | dec => cases h
  | enc =>
    obtain ⟨P, h1, h2⟩ := Option.bind_eq_some_iff.1 h
    rw [S.decode_some h2]
    exact ⟨rfl, h1⟩

/-- The digest that a new query wants has not been used. -/
theorem wants_fresh {T : Tab K X} (hg : S.Good T) {d : Dir} {k : K} {v : X} {m : M} (h : S.wants T d k v = some m) (hk : ¬ Known T d k v)
    {e : Entry K X} {T' : Tab K X} (hT : (e :: T') <:+ T) {m' : M} (h' : S.wants T' e.dir e.key (e.side e.dir) = some m') : m' ≠ m := by
  rintro rfl
  obtain ⟨rfl, hp⟩ := wants_path h
  obtain ⟨he, hp'⟩ := wants_path h'
  rw [he] at hp'
  have hn : (S.pad m', S.out e.key e.x e.y) ∈ S.nodes T := nodes_suffix hT ((S.mem_nodes_cons).2 (Or.inl ⟨he, hp', rfl⟩))
  obtain ⟨f, hf, P, s, b, h1, h2, h3, h4⟩ := node_query hn (S.pad_ne_nil m')
  obtain ⟨n, k1, k2, k3⟩ := S.path_some hp
  rw [k3] at h1
  obtain ⟨d1, d2⟩ := List.append_inj' h1 rfl
  have : n.2 = s := nodes_path hg (P := n.1) k1 (by rw [d1]; exact h2)
  apply hk
  refine ⟨f, hf, ?_, ?_⟩
  · rw [h3, ← List.singleton_inj.1 d2, S.key_diff]
  · show f.x = v
    rw [h4, ← this, ← List.singleton_inj.1 d2, S.add_diff _ _ _ k2.symm]

theorem not_known {T : Tab K X} {d : Dir} {k : K} {v : X} (hk : ¬ Known T d k v) {e : Entry K X} (he : e ∈ T) :
    (e.dir, e.key, e.side e.dir) ≠ (d, k, v) := by
  intro h
  obtain ⟨h1, h2⟩ := Prod.mk.inj h
  obtain ⟨h2, h3⟩ := Prod.mk.inj h2
  rw [h1] at h3
  exact hk ⟨e, he, h2, h3⟩

section counting
variable [Fintype K] [DecidableEq K] [Fintype X] [DecidableEq X] [Fintype M] [Fintype D]

open Classical in
/-- The pairs of an oracle and coins that agree with the table. -/
noncomputable def agreeSet (S : Shape K X V B C D W M) (T : Tab K X) : Finset ((M → D) × (Dir × K × X → X)) :=
  Finset.univ.filter fun w => Agr S w.1 w.2 T

open Classical in
theorem card_ans_le {T : Tab K X} (hg : S.Good T) {d : Dir} {k : K} {v : X} (hk : ¬ Known T d k v) (a z : X) :
    ((S.agreeSet T).filter fun w => S.ans w.1 w.2 T d k v = a).card ≤ ((S.agreeSet T).filter fun w => S.ans w.1 w.2 T d k v = z).card := by
  cases hw : S.wants T d k v with
  | none =>
    have hans : ∀ w : (M → D) × (Dir × K × X → X), S.ans w.1 w.2 T d k v = w.2 (d, k, v) := by
      intro w; unfold ans; rw [hw]; rfl
    refine Finset.card_le_card_of_injOn (fun w => (w.1, Function.update w.2 (d, k, v) z)) ?_ ?_
    · intro w h
      simp only [Finset.coe_filter, Set.mem_setOf_eq, agreeSet, Finset.mem_filter, Finset.mem_univ, true_and] at h ⊢
      refine ⟨agr_congr (fun e he => ?_) (fun _ _ _ _ _ => rfl) h.1, ?_⟩
      · rw [Function.update_of_ne (not_known hk he)]
      · exact (hans (w.1, Function.update w.2 (d, k, v) z)).trans (Function.update_self ..)
    · intro w h w' h' he
      simp only [Finset.coe_filter, Set.mem_setOf_eq, hans] at h h'
      obtain ⟨h1, h2⟩ := Prod.mk.inj he
      refine Prod.ext h1 (funext fun p => ?_)
      by_cases hp : p = (d, k, v)
      · rw [hp, h.2, h'.2]
      · have := congrFun h2 p
        rwa [Function.update_of_ne hp, Function.update_of_ne hp] at this
  | some m =>
    have hans : ∀ w : (M → D) × (Dir × K × X → X), S.ans w.1 w.2 T d k v = (S.split k v).symm (w.1 m, (S.split k v (w.2 (d, k, v))).2) := by
      intro w; unfold ans; rw [hw]; rfl
    have hsplit : ∀ (w : (M → D) × (Dir × K × X → X)) (t : X), S.ans w.1 w.2 T d k v = t →
        w.1 m = (S.split k v t).1 ∧ (S.split k v (w.2 (d, k, v))).2 = (S.split k v t).2 := by
      intro w t h
      rw [hans] at h
      rw [← h, Equiv.apply_symm_apply]
      exact ⟨rfl, rfl⟩
    refine Finset.card_le_card_of_injOn (fun w => (Function.update w.1 m (S.split k v z).1,
      Function.update w.2 (d, k, v) ((S.split k v).symm ((S.split k v (w.2 (d, k, v))).1, (S.split k v z).2)))) ?_ ?_
    · intro w h
      simp only [Finset.coe_filter, Set.mem_setOf_eq, agreeSet, Finset.mem_filter, Finset.mem_univ, true_and] at h ⊢
      refine ⟨agr_congr (fun e he => ?_) (fun e T' hT m' hm' => ?_) h.1, ?_⟩
      · rw [Function.update_of_ne (not_known hk he)]
      · rw [Function.update_of_ne (wants_fresh hg hw hk hT hm')]
      · refine (hans (Function.update w.1 m (S.split k v z).1, Function.update w.2 (d, k, v)
          ((S.split k v).symm ((S.split k v (w.2 (d, k, v))).1, (S.split k v z).2)))).trans ?_
        simp only [Function.update_self, Equiv.apply_symm_apply]
        exact (S.split k v).symm_apply_apply z
    · intro w h w' h' he
      simp only [Finset.coe_filter, Set.mem_setOf_eq] at h h'
      obtain ⟨a1, a2⟩ := hsplit w a h.2
      obtain ⟨b1, b2⟩ := hsplit w' a h'.2
      obtain ⟨h1, h2⟩ := Prod.mk.inj he
      refine Prod.ext (funext fun x => ?_) (funext fun p => ?_)
      · by_cases hx : x = m
        · rw [hx, a1, b1]
        · have := congrFun h1 x
          rwa [Function.update_of_ne hx, Function.update_of_ne hx] at this
      · by_cases hp : p = (d, k, v)
        · have := congrFun h2 (d, k, v)
          rw [Function.update_self, Function.update_self] at this
          have h3 := (Prod.mk.inj ((S.split k v).symm.injective this)).1
          rw [hp]
          exact (S.split k v).injective (Prod.ext h3 (a2.trans b2.symm))
        · have := congrFun h2 p
          rwa [Function.update_of_ne hp, Function.update_of_ne hp] at this

theorem agreeSet_cons (e : Entry K X) (T : Tab K X) [DecidablePred fun w : (M → D) × (Dir × K × X → X) => S.ans w.1 w.2 T e.dir e.key (e.side e.dir) = e.other e.dir] :
    S.agreeSet (e :: T) = (S.agreeSet T).filter fun w => S.ans w.1 w.2 T e.dir e.key (e.side e.dir) = e.other e.dir := by
  classical
  unfold agreeSet
  rw [Finset.filter_filter]
  refine Finset.filter_congr fun w _ => ?_
  rfl

open Classical in
/-- A good table has at most the probability `|X|^-n` in the ideal world. -/
theorem card_agreeSet {T : Tab K X} (hg : S.Good T) :
    (S.agreeSet T).card * Fintype.card X ^ T.length ≤ Fintype.card ((M → D) × (Dir × K × X → X)) := by
  induction T with
  | nil => rw [List.length_nil, pow_zero, mul_one]; exact Finset.card_le_univ _
  | cons e T ih =>
    obtain ⟨g1, _, g3⟩ := good_cons.1 hg
    refine le_trans ?_ (ih g1)
    rw [List.length_cons, pow_succ, mul_comm (_ ^ _), ← mul_assoc]
    refine Nat.mul_le_mul_right _ ?_
    rw [agreeSet_cons]
    have hsum := Finset.card_eq_sum_card_fiberwise (s := S.agreeSet T) (t := Finset.univ)
      (f := fun w => S.ans w.1 w.2 T e.dir e.key (e.side e.dir)) (fun _ _ => Finset.mem_coe.2 (Finset.mem_univ _))
    rw [hsum]
    calc _ = ∑ _z : X, ((S.agreeSet T).filter fun w => S.ans w.1 w.2 T e.dir e.key (e.side e.dir) = e.other e.dir).card := by
            rw [Finset.sum_const, Finset.card_univ, nsmul_eq_mul, mul_comm]; rfl
      _ ≤ _ := Finset.sum_le_sum fun z _ => by
          have := card_ans_le g1 g3 (e.other e.dir) z
          convert this

end counting

section perms
variable [Fintype K] [DecidableEq K] [Fintype X] [DecidableEq X]

open Classical in
theorem card_perm_ge (T : Tab K X) (k : K) (x y : X) (hx : ¬ Known T .enc k x) (hy : ¬ Known T .dec k y) :
    (agreeing T).card ≤ ((agreeing T).filter fun E => E k x = y).card * Fintype.card X := by
  have hsum := Finset.card_eq_sum_card_fiberwise (s := agreeing T) (t := Finset.univ) (f := fun E : Cipher K X => E k x)
    (fun _ _ => Finset.mem_coe.2 (Finset.mem_univ _))
  rw [hsum]
  calc _ ≤ ∑ _y' : X, ((agreeing T).filter fun E => E k x = y).card := Finset.sum_le_sum fun y' _ => ?_
    _ = _ := by rw [Finset.sum_const, Finset.card_univ, nsmul_eq_mul, mul_comm]; rfl
  by_cases hu : Known T .dec k y'
  · obtain ⟨e, he, hk, hy'⟩ := hu
    have : ((agreeing T).filter fun E => E k x = y') = ∅ := by
      rw [Finset.filter_eq_empty_iff]
      intro E hE h
      have hA : Agrees E T := (Finset.mem_filter.1 hE).2
      have h1 := hA e he
      rw [show e.y = y' from hy', ← h, hk] at h1
      exact hx ⟨e, he, hk, (E k).injective h1⟩
    rw [this]
    exact Nat.zero_le _
  · refine Finset.card_le_card_of_injOn _ ?_ ((update_swap_injective k y' y).injOn)
    intro E hE
    rw [Finset.mem_coe, Finset.mem_filter] at hE
    have hA : Agrees E T := (Finset.mem_filter.1 hE.1).2
    have := agrees_swap (fun e he hk h => hu ⟨e, he, hk, h⟩) (fun e he hk h => hy ⟨e, he, hk, h⟩) hA hE.2
    rw [Finset.mem_coe, Finset.mem_filter]
    exact ⟨Finset.mem_filter.2 ⟨Finset.mem_univ _, this.1⟩, this.2⟩

/-- A good table has at least the probability `|X|^-n` in the real world. -/
theorem card_agreeing {T : Tab K X} (hg : S.Good T) : Fintype.card (Cipher K X) ≤ (agreeing T).card * Fintype.card X ^ T.length := by
  classical
  induction T with
  | nil =>
    rw [List.length_nil, pow_zero, mul_one]
    have : agreeing ([] : Tab K X) = Finset.univ := by
      unfold agreeing
      rw [Finset.filter_true_of_mem]
      intro E _ e he
      cases he
    rw [this]; exact le_of_eq Finset.card_univ.symm
  | cons e T ih =>
    obtain ⟨g1, g2, g3⟩ := good_cons.1 hg
    refine le_trans (ih g1) ?_
    rw [List.length_cons, pow_succ, mul_comm (_ ^ _), ← mul_assoc]
    refine Nat.mul_le_mul_right _ ?_
    have hc : agreeing (e :: T) = (agreeing T).filter fun E => E e.key e.x = e.y := by
      unfold agreeing
      rw [Finset.filter_filter]
      refine Finset.filter_congr fun E _ => ?_
      unfold Agrees
      rw [List.forall_mem_cons, and_comm]
    rw [hc]
    have key : ¬ Known T .enc e.key e.x ∧ ¬ Known T .dec e.key e.y := by
      cases hd : e.dir with
      | enc =>
        rw [hd] at g2 g3
        exact ⟨g3, g2.2⟩
      | dec =>
        rw [hd] at g2 g3
        exact ⟨g2.2, g3⟩
    have := card_perm_ge T e.key e.x e.y key.1 key.2
    convert this

end perms

/-! ### The probability of a bad table in the ideal world -/

section bad
variable [Fintype K] [DecidableEq K] [Fintype X] [DecidableEq X]

open Classical in
/-- The coins with given values. -/
noncomputable def coinSet (V : List ((Dir × K × X) × X)) : Finset (Dir × K × X → X) := Finset.univ.filter fun c => ∀ t ∈ V, c t.1 = t.2

open Classical in
theorem coin_fibers (V : List ((Dir × K × X) × X)) (p : Dir × K × X) (hp : ∀ t ∈ V, t.1 ≠ p) (a z : X) :
    ((coinSet V).filter fun c => c p = a).card ≤ ((coinSet V).filter fun c => c p = z).card := by
  refine Finset.card_le_card_of_injOn (fun c => Function.update c p z) ?_ ?_
  · intro c h
    simp only [Finset.coe_filter, Set.mem_setOf_eq, coinSet, Finset.mem_filter, Finset.mem_univ, true_and] at h ⊢
    exact ⟨fun t ht => by rw [Function.update_of_ne (hp t ht)]; exact h.1 t ht, Function.update_self ..⟩
  · intro c h c' h' he
    simp only [Finset.coe_filter, Set.mem_setOf_eq] at h h'
    funext q
    by_cases hq : q = p
    · rw [hq, h.2, h'.2]
    · have := congrFun he q
      simpa only [Function.update_of_ne hq] using this

theorem coinSet_cons (V : List ((Dir × K × X) × X)) (p : Dir × K × X) (a : X) :
    coinSet ((p, a) :: V) = (coinSet V).filter fun c => c p = a := by
  classical
  unfold coinSet
  rw [Finset.filter_filter]
  refine Finset.filter_congr fun c _ => ?_
  rw [List.forall_mem_cons, and_comm]

theorem card_coinSet_cons (V : List ((Dir × K × X) × X)) (p : Dir × K × X) (hp : ∀ t ∈ V, t.1 ≠ p) (a : X) :
    (coinSet ((p, a) :: V)).card * Fintype.card X = (coinSet V).card := by
  classical
  have hsum := Finset.card_eq_sum_card_fiberwise (s := coinSet V) (t := Finset.univ) (f := fun c : Dir × K × X → X => c p)
    (fun _ _ => Finset.mem_coe.2 (Finset.mem_univ _))
  rw [hsum, coinSet_cons]
  have : ∀ z ∈ (Finset.univ : Finset X), ((coinSet V).filter fun c => c p = z).card = ((coinSet V).filter fun c => c p = a).card :=
    fun z _ => le_antisymm (by convert coin_fibers V p hp z a) (by convert coin_fibers V p hp a z)
  rw [Finset.sum_congr rfl this, Finset.sum_const, Finset.card_univ, nsmul_eq_mul, mul_comm]; rfl

/-- The sum of the numbers of bad values. -/
def weight (w : Nat → Nat) (s q : Nat) : Nat := ∑ i ∈ Finset.range q, w (s + i)

theorem weight_succ (w : Nat → Nat) (s q : Nat) : weight w s (q + 1) = w s + weight w (s + 1) q := by
  unfold weight
  rw [Finset.sum_range_succ', add_comm]
  congr 1
  refine Finset.sum_congr rfl fun i _ => ?_
  rw [show s + (i + 1) = s + 1 + i by omega]

theorem weight_le (w : Nat → Nat) (s q : Nat) : weight w s q ≤ weight w s (q + 1) := by
  unfold weight
  rw [Finset.sum_range_succ]
  exact Nat.le_add_right _ _

/-- The query belongs to the last block of a message. -/
def Ends (S : Shape K X V B C D W M) (k : K) (x : X) : Prop := ∃ s m b, (S.pad m).getLast? = some b ∧ S.key b = k ∧ S.add s b = x

theorem wants_ends {T : Tab K X} {d : Dir} {k : K} {v : X} {m : M} (h : S.wants T d k v = some m) : d = .enc ∧ S.Ends k v := by
  obtain ⟨h1, h2⟩ := wants_path h
  obtain ⟨n, _, h3, h4⟩ := S.path_some h2
  exact ⟨h1, n.2, m, S.diff n.2 k v, by rw [h4, List.getLast?_concat], S.key_diff _ _ _, S.add_diff _ _ _ h3.symm⟩

/-- The answer `z` to a new query is bad. -/
def BadAns (S : Shape K X V B C D W M) (T : Tab K X) (d : Dir) (k : K) (v z : X) : Prop :=
  S.fresh (entry d k v z) ∈ S.seen T ∨ Known T (flip d) k z

open Classical in
/-- For every oracle: the coins that lead to a bad table. -/
theorem card_bad {w : Nat → Nat} (hw : ∀ (T : Tab K X) (d : Dir) (k : K) (v : X) (o : Option D), (o ≠ none → d = .enc ∧ S.Ends k v) → ¬ Known T d k v →
      (Finset.univ.filter fun a => S.BadAns T d k v (S.patch k v o a)).card ≤ w T.length)
    (F : M → D) (A : Attacker K X R) : ∀ (T : Tab K X) (V : List ((Dir × K × X) × X)) (q : Nat), A.AtMost q → S.Good T →
      (∀ t ∈ V, Known T t.1.1 t.1.2.1 t.1.2.2) →
      ((coinSet V).filter fun c => ¬ S.Good (simRun (S.ans F c) A T).2).card * Fintype.card X ≤ (coinSet V).card * weight w T.length q := by
  induction A with
  | done r =>
    intro T V q _ hg _
    have : ((coinSet V).filter fun c => ¬ S.Good (simRun (S.ans F c) (Attacker.done r : Attacker K X R) T).2) = ∅ := by
      rw [Finset.filter_eq_empty_iff]
      intro c _ h
      exact h hg
    rw [this, Finset.card_empty, Nat.zero_mul]
    exact Nat.zero_le _
  | ask d k v next ih =>
    intro T V q hq hg hV
    cases q with
    | zero => exact hq.elim
    | succ q =>
      cases hl : look T d k v with
      | some a =>
        simp only [simRun_known hl]
        exact le_trans (ih a T V q (hq a) hg hV) (Nat.mul_le_mul_left _ (weight_le _ _ _))
      | none =>
        simp only [simRun_fresh hl]
        have hk := look_none.1 hl
        have hp : ∀ t ∈ V, t.1 ≠ (d, k, v) := by
          rintro t ht h
          have := hV t ht
          rw [h] at this
          exact hk this
        let y : X → X := fun a => S.patch k v ((S.wants T d k v).map F) a
        have hy : ∀ c : Dir × K × X → X, S.ans F c T d k v = y (c (d, k, v)) := fun c => rfl
        simp only [hy]
        have hfib : ((coinSet V).filter fun c =>
              ¬ S.Good (simRun (S.ans F c) (next (y (c (d, k, v)))) (entry d k v (y (c (d, k, v))) :: T)).2).card =
            ∑ a, (((coinSet V).filter fun c =>
              ¬ S.Good (simRun (S.ans F c) (next (y (c (d, k, v)))) (entry d k v (y (c (d, k, v))) :: T)).2).filter
                fun c => c (d, k, v) = a).card :=
          Finset.card_eq_sum_card_fiberwise (fun _ _ => Finset.mem_coe.2 (Finset.mem_univ _))
        have hstep : ∀ a, (((coinSet V).filter fun c =>
              ¬ S.Good (simRun (S.ans F c) (next (y (c (d, k, v)))) (entry d k v (y (c (d, k, v))) :: T)).2).filter
                fun c => c (d, k, v) = a).card * Fintype.card X ≤
            (if S.BadAns T d k v (y a) then (coinSet V).card else 0) +
              (coinSet (((d, k, v), a) :: V)).card * weight w (T.length + 1) q := by
          intro a
          have hsub : (((coinSet V).filter fun c =>
              ¬ S.Good (simRun (S.ans F c) (next (y (c (d, k, v)))) (entry d k v (y (c (d, k, v))) :: T)).2).filter
                fun c => c (d, k, v) = a) =
              (coinSet (((d, k, v), a) :: V)).filter fun c =>
                ¬ S.Good (simRun (S.ans F c) (next (y a)) (entry d k v (y a) :: T)).2 := by
            rw [coinSet_cons, Finset.filter_filter, Finset.filter_filter]
            refine Finset.filter_congr fun c _ => ?_
            constructor
            · rintro ⟨h1, rfl⟩; exact ⟨rfl, h1⟩
            · rintro ⟨rfl, h1⟩; exact ⟨h1, rfl⟩
          rw [hsub]
          by_cases hb : S.BadAns T d k v (y a)
          · rw [if_pos hb]
            refine le_trans (Nat.mul_le_mul_right _ (Finset.card_filter_le _ _)) ?_
            rw [card_coinSet_cons V (d, k, v) hp a]
            exact Nat.le_add_right _ _
          · rw [if_neg hb, Nat.zero_add]
            refine ih (y a) _ _ q (hq _) (good_cons.2 ⟨hg, ?_, ?_⟩) ?_
            · cases d <;> exact not_or.1 hb
            · cases d <;> exact hk
            · intro t ht
              rcases List.mem_cons.1 ht with rfl | ht
              · exact ⟨_, List.mem_cons_self, by cases d <;> rfl, by cases d <;> rfl⟩
              · obtain ⟨e, he, h1⟩ := hV t ht
                exact ⟨e, List.mem_cons_of_mem _ he, h1⟩
        rw [hfib, Finset.sum_mul]
        refine le_trans (Finset.sum_le_sum fun a _ => hstep a) ?_
        rw [Finset.sum_add_distrib, ← Finset.sum_mul, weight_succ, Nat.mul_add]
        have htot : ∑ a, (coinSet (((d, k, v), a) :: V)).card = (coinSet V).card := by
          have := Finset.card_eq_sum_card_fiberwise (s := coinSet V) (t := Finset.univ) (f := fun c : Dir × K × X → X => c (d, k, v))
            (fun _ _ => Finset.mem_coe.2 (Finset.mem_univ _))
          rw [this]
          exact Finset.sum_congr rfl fun a _ => by rw [coinSet_cons]
        rw [htot]
        refine Nat.add_le_add_right ?_ _
        rw [← Finset.sum_filter, Finset.sum_const, nsmul_eq_mul, mul_comm, Nat.cast_id]
        refine Nat.mul_le_mul_left _ ?_
        refine hw T d k v ((S.wants T d k v).map F) ?_ hk
        intro ho
        cases hm : S.wants T d k v with
        | none => rw [hm] at ho; exact absurd rfl ho
        | some m => exact wants_ends hm

end bad

end Shape

end Verif.Ideal
