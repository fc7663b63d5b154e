import Verif.Proof.PermMeet
import Verif.Props.Birthday
import Verif.Props.PoseidonBlock
import Verif.Model.PoseidonInst
/-
C120: the bounds of C96 are attained: the birthday attack on Poseidon over a random permutation, and the attack that meets in the
middle, which finds preimages with about the square root of the number of field elements.
-/
namespace Verif.Props

open Spec.Poseidon Spec.Ideal Verif.Ideal

variable {F : Type} [CommRing F] [Fintype F] [DecidableEq F] {n q a b : Nat}

/-! ### Lists of one block -/

/-- The state before the only call of the permutation. -/
def blockState (c : BlockCall F n) : Fin (n + 1) → F := Fin.cons 0 c.message

omit [Fintype F] [DecidableEq F] in
theorem blockState_injective (c : Fin q → BlockCall F n) (hne : Function.Injective fun i => (c i).message) :
    Function.Injective fun i => blockState (c i) := fun _ _ e => hne (Fin.cons_injective2 e).2

theorem block_family_pos (c : Fin q → BlockCall F n) (hne : Function.Injective fun i => (c i).message) :
    ((Fintype.card (Fin (n + 1) → F)).descFactorial q : ℚ) ≠ 0 := by
  have hq := Fintype.card_le_of_injective _ (blockState_injective c hne)
  rw [Fintype.card_fin] at hq
  exact Nat.cast_ne_zero.2 fun h => by
    rw [Nat.descFactorial_eq_zero_iff_lt] at h
    exact absurd hq (not_le.2 h)

open Classical in
/-- **C120, birthday attack.** The probability that two of `q` different blocks have the same digest. -/
theorem C120_birthday (hn : 0 < n) (c : Fin q → BlockCall F n) (hne : Function.Injective fun i => (c i).message) :
    prob (fun E => ∃ i j, i ≠ j ∧ (c i).digest (E ()) = (c j).digest (E ())) =
      1 - ((Fintype.card F).descFactorial q * (Fintype.card F ^ n) ^ q : ℚ) / (Fintype.card F ^ (n + 1)).descFactorial q := by
  have key := prob_family ⟨fun i => blockState (c i), blockState_injective c hne⟩
    fun y : Fin q → Fin (n + 1) → F => ¬ Function.Injective fun i => (lastSplit F n (y i)).1
  have e1 : (fun E : Cipher Unit (Fin (n + 1) → F) => ∃ i j, i ≠ j ∧ (c i).digest (E ()) = (c j).digest (E ())) =
      fun E => ¬ Function.Injective fun i => (lastSplit F n (E () (blockState (c i)))).1 := by
    funext E
    apply propext
    simp only [BlockCall.digest_eq hn]
    constructor
    · rintro ⟨i, j, hij, e⟩ hi
      exact hij (hi (Except.ok.inj e))
    · intro hi
      rw [Function.Injective] at hi
      push Not at hi
      obtain ⟨i, j, e, hij⟩ := hi
      exact ⟨i, j, hij, congrArg Except.ok e⟩
  rw [e1]
  refine key.trans ?_
  have e2 := card_family_injective (q := q) (lastSplit F n)
  rw [Fintype.card_fun, Fintype.card_fin] at e2
  have e3 := Finset.card_filter_add_card_filter_not (s := Finset.univ)
    (fun y : Fin q ↪ (Fin (n + 1) → F) => Function.Injective fun i => (lastSplit F n (y i)).1)
  rw [Finset.card_univ, Fintype.card_embedding_eq, Fintype.card_fin] at e3
  have e4 : (Finset.univ.filter fun y : Fin q ↪ (Fin (n + 1) → F) => Function.Injective fun i => (lastSplit F n (y i)).1).card =
      (Fintype.card F).descFactorial q * (Fintype.card F ^ n) ^ q := by
    rw [← e2]
  have hpos := block_family_pos c hne
  rw [e4] at e3
  rw [← card_poseidonState, eq_sub_iff_add_eq, ← add_div, div_eq_one_iff_eq hpos, add_comm]
  exact_mod_cast e3

open Classical in
/-- **C120, exhaustive search.** The probability that one of `q` different blocks has a given digest. -/
theorem C120_search (hn : 0 < n) (c : Fin q → BlockCall F n) (hne : Function.Injective fun i => (c i).message) (target : F) :
    prob (fun E => ∃ i, (c i).digest (E ()) = .ok target) =
      1 - ((Fintype.card F ^ (n + 1) - Fintype.card F ^ n).descFactorial q : ℚ) / (Fintype.card F ^ (n + 1)).descFactorial q := by
  have key := prob_family ⟨fun i => blockState (c i), blockState_injective c hne⟩
    fun y : Fin q → Fin (n + 1) → F => ¬ ∀ i, (lastSplit F n (y i)).1 ≠ target
  have e1 : (fun E : Cipher Unit (Fin (n + 1) → F) => ∃ i, (c i).digest (E ()) = .ok target) =
      fun E => ¬ ∀ i, (lastSplit F n (E () (blockState (c i)))).1 ≠ target := by
    funext E
    apply propext
    simp only [BlockCall.digest_eq hn]
    push Not
    exact ⟨fun ⟨i, e⟩ => ⟨i, Except.ok.inj e⟩, fun ⟨i, e⟩ => ⟨i, congrArg Except.ok e⟩⟩
  rw [e1]
  refine key.trans ?_
  have e2 := card_family_avoid (q := q) (lastSplit F n) target
  rw [card_poseidonState, Fintype.card_fun, Fintype.card_fin] at e2
  have e3 := Finset.card_filter_add_card_filter_not (s := Finset.univ)
    (fun y : Fin q ↪ (Fin (n + 1) → F) => ∀ i, (lastSplit F n (y i)).1 ≠ target)
  rw [Finset.card_univ, Fintype.card_embedding_eq, Fintype.card_fin] at e3
  have e4 : (Finset.univ.filter fun y : Fin q ↪ (Fin (n + 1) → F) => ∀ i, (lastSplit F n (y i)).1 ≠ target).card =
      (Fintype.card F ^ (n + 1) - Fintype.card F ^ n).descFactorial q := by
    rw [← e2]
  have hpos := block_family_pos c hne
  rw [e4] at e3
  rw [← card_poseidonState, eq_sub_iff_add_eq, ← add_div, div_eq_one_iff_eq hpos, add_comm, card_poseidonState]
  rw [card_poseidonState] at e3
  exact_mod_cast e3

/-! ### Collisions -/

/-- Hash all the blocks and look for two equal digests. -/
def poseidonBirthday (c : Fin q → BlockCall F n) : Attacker Unit (Fin (n + 1) → F) (List F × List F) :=
  askFamily (fun _ => ()) (fun i => blockState (c i)) (fun _ y => y (Fin.last n)) (pickPair (fun i => (c i).1) ([], []))

omit [Fintype F] [DecidableEq F] in
/-- The block is what the list is filled up to. -/
theorem zeroPad_block (hn : 0 < n) (c : BlockCall F n) : zeroPad n c.1 = List.ofFn c.message := by
  obtain ⟨l, hl⟩ := c
  unfold zeroPad BlockCall.message
  dsimp only
  have h1 : (if l = [] then 1 else (l.length + n - 1) / n) = 1 := by
    split
    · rfl
    · rename_i h
      have := List.length_pos_iff.2 h
      rw [Nat.div_eq_iff hn]
      omega
  rw [h1, Nat.one_mul]
  apply List.ext_getElem
  · rw [List.length_append, List.length_replicate, List.length_ofFn]
    show l.length + (n - l.length) = n
    omega
  · intro i h2 h3
    rw [List.getElem_ofFn]
    by_cases hi : i < l.length
    · rw [List.getElem_append_left hi]
      show _ = (l[i]?).getD 0
      rw [List.getElem?_eq_getElem hi]
      rfl
    · rw [List.getElem_append_right (by omega), List.getElem_replicate]
      show _ = (l[i]?).getD 0
      rw [List.getElem?_eq_none (by omega)]
      rfl

/-- **C120, collisions.** The attacker that hashes `q` different blocks asks `q` queries and wins the game of `C96_collision_any`
with at least this probability. -/
theorem C120_collision (hn : 0 < n) (c : Fin q → BlockCall F n) (hne : Function.Injective fun i => (c i).message) :
    (poseidonBirthday c).AtMost q ∧
    (q * (q - 1) * (Fintype.card F ^ n - 1) / (q * (q - 1) * (Fintype.card F ^ n - 1) + 2 * Fintype.card F ^ (n + 1)) : ℚ) ≤
      prob (fun E =>
        zeroPad n ((poseidonBirthday c).result E).1 ≠ zeroPad n ((poseidonBirthday c).result E).2 ∧
        poseidonHash (fun S => .ok (E () S)) ((poseidonBirthday c).result E).1 =
          poseidonHash (fun S => .ok (E () S)) ((poseidonBirthday c).result E).2 ∧
        (blocks n ((poseidonBirthday c).result E).1).length + (blocks n ((poseidonBirthday c).result E).2).length ≤ 2) := by
  have hF : 0 < Fintype.card F := Fintype.card_pos_iff.2 ⟨0⟩
  refine ⟨atMost_askFamily _ _ _ _, ?_⟩
  refine le_trans ?_ (le_trans (le_of_eq (C120_birthday hn c hne).symm) (prob_mono fun E hE => ?_))
  · have hM : (1 : ℚ) ≤ Fintype.card F ^ n := one_le_pow₀ (by exact_mod_cast hF)
    have hqq : (0 : ℚ) ≤ q * (q - 1) := by
      rcases Nat.eq_zero_or_pos q with rfl | hq
      · simp
      · have : (1 : ℚ) ≤ q := by exact_mod_cast hq
        exact mul_nonneg (by linarith) (by linarith)
    have hqm : (0 : ℚ) ≤ q * (q - 1) * (Fintype.card F ^ n - 1) := mul_nonneg hqq (by linarith)
    have hX : (0 : ℚ) < Fintype.card F ^ (n + 1) := by positivity
    have := cut_birthday_le (N := Fintype.card F) (M := Fintype.card F ^ n) hF (Nat.pow_pos hF) q
    rw [show Fintype.card F * Fintype.card F ^ n = Fintype.card F ^ (n + 1) by rw [pow_succ']] at this
    rw [show (Fintype.card F : ℚ) * ((Fintype.card F ^ n : Nat) : ℚ) = Fintype.card F ^ (n + 1) by push_cast; rw [pow_succ']] at this
    push_cast at this
    rw [← le_div_iff₀ (by linarith)] at this
    rw [le_sub_comm]
    refine le_trans this (le_of_eq ?_)
    rw [eq_sub_iff_add_eq, ← add_div, add_comm, div_self (by linarith)]
  · have hr := result_askFamily E (fun _ : Fin q => ()) (fun i => blockState (c i)) (fun _ y => y (Fin.last n))
      (pickPair (fun i => (c i).1) ([], []))
    change (poseidonBirthday c).result E = _ at hr
    obtain ⟨i, j, hij, he⟩ := hE
    rw [BlockCall.digest_eq hn, BlockCall.digest_eq hn] at he
    obtain ⟨i, j, hij, e, hp⟩ := pickPair_spec (fun i => (c i).1) ([], [])
      (fun i => E () (blockState (c i)) (Fin.last n)) ⟨i, j, hij, Except.ok.inj he⟩
    rw [hr, hp]
    refine ⟨?_, ?_, ?_⟩
    · show zeroPad n (c i).1 ≠ zeroPad n (c j).1
      rw [zeroPad_block hn, zeroPad_block hn]
      exact fun e => hij (hne (List.ofFn_injective e))
    · show (c i).digest (E ()) = (c j).digest (E ())
      rw [BlockCall.digest_eq hn, BlockCall.digest_eq hn]
      exact congrArg Except.ok e
    · show (blocks n (c i).1).length + (blocks n (c j).1).length ≤ 2
      rw [blocks_short _ (c i).2, blocks_short _ (c j).2]
      rfl

/-! ### Preimages: meeting in the middle -/

/-- Decrypt every point of the list under its key, then decide. -/
def askBack {K X : Type} {R : Type _} : List (K × X) → (List X → R) → Attacker K X R
  | [], r => .done (r [])
  | p :: ps, r => .ask .dec p.1 p.2 fun a => askBack ps fun l => r (a :: l)

theorem atMost_askBack {K X : Type} {R : Type _} (ps : List (K × X)) (r : List X → R) : (askBack ps r).AtMost ps.length := by
  induction ps generalizing r with
  | nil => trivial
  | cons k ks ih => exact fun a => ih _

theorem result_askBack {K X : Type} {R : Type _} (E : Cipher K X) (ps : List (K × X)) (r : List X → R) :
    (askBack ps r).result E = r (ps.map fun p => (E p.1).symm p.2) := by
  induction ps generalizing r with
  | nil => rfl
  | cons k ks ih => exact ih _

/-- Two members of two families with the same value, if there are such. -/
def pickMeet {D : Type} [DecidableEq D] {R : Type _} (c : Fin a → Fin b → R) (none : R) (s : Fin a → D) (t : Fin b → D) : R :=
  match (List.finRange a ×ˢ List.finRange b).find? fun p => decide (s p.1 = t p.2) with
  | some p => c p.1 p.2
  | .none => none

theorem pickMeet_spec {D : Type} [DecidableEq D] {R : Type _} (c : Fin a → Fin b → R) (none : R) (s : Fin a → D) (t : Fin b → D)
    (he : ∃ i j, s i = t j) : ∃ i j, s i = t j ∧ pickMeet c none s t = c i j := by
  unfold pickMeet
  cases hf : (List.finRange a ×ˢ List.finRange b).find? fun p => decide (s p.1 = t p.2) with
  | some p =>
    have := List.find?_some hf
    exact ⟨p.1, p.2, of_decide_eq_true this, rfl⟩
  | none =>
    obtain ⟨i, j, e⟩ := he
    have := List.find?_eq_none.1 hf (i, j) (by
      rw [List.mem_product]
      exact ⟨List.mem_finRange i, List.mem_finRange j⟩)
    exact absurd (decide_eq_true e) this

/-- The state with the last word `t`. -/
def endState (t : F) (m : Fin n → F) : Fin (n + 1) → F := (lastSplit F n).symm (t, m)

/-- Hash the blocks `x i`; go back from the states with last word `t` and the other words `y j`; where a digest is the first word of
a state, the block and the other words of the state together are the result. -/
def poseidonMeet (x : Fin a → Fin n → F) (y : Fin b → Fin n → F) (t : F) : Attacker Unit (Fin (n + 1) → F) (List F) :=
  andThen (askFamily (fun _ => ()) (fun i => (Fin.cons 0 (x i) : Fin (n + 1) → F)) (fun _ z => z (Fin.last n)) id) fun s =>
    askBack (List.ofFn fun j => ((), endState t (y j))) fun l =>
      let z : Fin b → Fin (n + 1) → F := fun j => l.getD j (endState t (y j))
      pickMeet (fun i j => List.ofFn (x i) ++ List.ofFn fun k : Fin n => z j k.succ) [] s fun j => z j 0

omit [Fintype F] in
theorem result_poseidonMeet (E : Cipher Unit (Fin (n + 1) → F)) (x : Fin a → Fin n → F) (y : Fin b → Fin n → F) (t : F) :
    (poseidonMeet x y t).result E =
      pickMeet (fun i j => List.ofFn (x i) ++ List.ofFn fun k : Fin n => (E ()).symm (endState t (y j)) k.succ) []
        (fun i => E () (Fin.cons 0 (x i)) (Fin.last n)) fun j => (E ()).symm (endState t (y j)) 0 := by
  unfold poseidonMeet
  rw [result_andThen, result_askFamily, result_askBack]
  have : ∀ j : Fin b, ((List.ofFn fun j => ((), endState t (y j))).map fun p => (E p.1).symm p.2).getD j (endState t (y j)) =
      (E ()).symm (endState t (y j)) := by
    intro j
    rw [List.getD_eq_getElem?_getD, List.getElem?_map, List.getElem?_ofFn]
    simp
  simp only [this, id]

/-- **C120, preimages.** The attacker that hashes `a` different blocks and goes back from `b` different states with the wanted last
word asks `a + b` queries and wins the game of `C96_preimage_any` with at least this probability. -/
theorem C120_preimage (hn : 0 < n) (x : Fin a ↪ (Fin n → F)) (y : Fin b ↪ (Fin n → F)) (target : F) :
    (poseidonMeet x y target).AtMost (a + b) ∧
    (1 - (a * (a + 1) : ℚ) / (2 * Fintype.card F)) *
        (a * b * (Fintype.card F ^ n - 1) / (a * b * (Fintype.card F ^ n - 1) + Fintype.card F ^ (n + 1))) ≤
      prob (fun E =>
        poseidonHash (fun S => .ok (E () S)) ((poseidonMeet x y target).result E) = .ok target ∧
        (blocks n ((poseidonMeet x y target).result E)).length ≤ 2) := by
  refine ⟨?_, ?_⟩
  · refine atMost_andThen (atMost_askFamily _ _ _ _) fun s => ?_
    have := atMost_askBack (List.ofFn fun j => ((), endState target (y j))) fun l =>
      pickMeet (fun i j => List.ofFn (x i) ++ List.ofFn fun k : Fin n => (l.getD j (endState target (y j))) k.succ) [] s fun j =>
        (l.getD j (endState target (y j))) 0
    rwa [List.length_ofFn] at this
  · have hcard : ∀ {m : Nat} (z : Fin m ↪ (Fin n → F)), m ≤ Fintype.card F ^ n := fun z => by
      have := Fintype.card_le_of_embedding z
      rwa [Fintype.card_fin, Fintype.card_fun, Fintype.card_fin] at this
    by_cases htriv : Fintype.card F = 1
    · -- a single element
      rw [htriv]
      norm_num
      rw [prob_eq]
      positivity
    have hF : 2 ≤ Fintype.card F := by
      have : 0 < Fintype.card F := Fintype.card_pos_iff.2 ⟨0⟩
      omega
    have key := meet_lower (X := Fin (n + 1) → F)
      ⟨fun i => Fin.cons 0 (x i), fun i j e => x.injective (Fin.cons_injective2 e).2⟩
      ⟨fun j => endState target (y j), fun i j e => y.injective (Prod.mk.inj ((lastSplit F n).symm.injective e)).2⟩
      (lastSplit F n) (Fin.consEquiv fun _ => F).symm rfl target
      (fun j => congrArg Prod.fst ((lastSplit F n).apply_symm_apply (target, y j)))
      (by rw [Fintype.card_fun]; positivity)
      (by
        have h1 := hcard x
        have h2 := hcard y
        rw [card_poseidonState, pow_succ]
        nlinarith [Nat.zero_le (Fintype.card F ^ n)])
    rw [Fintype.card_fun, Fintype.card_fin] at key
    push_cast at key
    rw [← pow_succ'] at key
    refine le_trans key (prob_mono fun E hE => ?_)
    obtain ⟨i, j, e⟩ := hE
    obtain ⟨i, j, e, hp⟩ := pickMeet_spec
      (fun i j => List.ofFn (x i) ++ List.ofFn fun k : Fin n => (E ()).symm (endState target (y j)) k.succ) []
      (fun i => E () (Fin.cons 0 (x i)) (Fin.last n)) (fun j => (E ()).symm (endState target (y j)) 0) ⟨i, j, e⟩
    rw [result_poseidonMeet, hp]
    refine ⟨?_, ?_⟩
    · have hm := C96_meet hn (E ()) [List.ofFn (x i)] (by simp) (endState target (y j)) (by
        rw [← e]
        show _ = E () (input 0 (List.ofFn (x i))) (Fin.last n)
        unfold input
        have hl : (fun k : Fin n => ((List.ofFn (x i))[k.val]?).getD 0) = x i := by
          funext k
          simp
        rw [hl])
      rw [List.flatten_cons, List.flatten_nil, List.append_nil] at hm
      refine hm.trans (congrArg Except.ok ?_)
      exact congrArg Prod.fst ((lastSplit F n).apply_symm_apply (target, y j))
    · have hd : (List.ofFn (x i) ++ List.ofFn fun k : Fin n => (E ()).symm (endState target (y j)) k.succ).drop n =
          List.ofFn fun k : Fin n => (E ()).symm (endState target (y j)) k.succ := List.drop_left' List.length_ofFn
      rw [blocks, dif_neg (by rw [List.length_append, List.length_ofFn, List.length_ofFn]; omega), hd,
        blocks_short _ (le_of_eq List.length_ofFn)]
      rfl

/-- **C120, every number of queries.** For `q`, `a`, `b` up to `p^n` there are attackers with `q` and with `a + b` queries that find
collisions and preimages with at least these probabilities. -/
theorem C120_exists (hn : 0 < n) (q a b : Nat) (hq : q ≤ Fintype.card F ^ n) (ha : a ≤ Fintype.card F ^ n) (hb : b ≤ Fintype.card F ^ n)
    (target : F) :
    (∃ A : Attacker Unit (Fin (n + 1) → F) (List F × List F), A.AtMost q ∧
      (q * (q - 1) * (Fintype.card F ^ n - 1) / (q * (q - 1) * (Fintype.card F ^ n - 1) + 2 * Fintype.card F ^ (n + 1)) : ℚ) ≤
        prob (fun E =>
          zeroPad n (A.result E).1 ≠ zeroPad n (A.result E).2 ∧
          poseidonHash (fun S => .ok (E () S)) (A.result E).1 = poseidonHash (fun S => .ok (E () S)) (A.result E).2 ∧
          (blocks n (A.result E).1).length + (blocks n (A.result E).2).length ≤ 2)) ∧
    ∃ A : Attacker Unit (Fin (n + 1) → F) (List F), A.AtMost (a + b) ∧
      (1 - (a * (a + 1) : ℚ) / (2 * Fintype.card F)) *
          (a * b * (Fintype.card F ^ n - 1) / (a * b * (Fintype.card F ^ n - 1) + Fintype.card F ^ (n + 1))) ≤
        prob (fun E =>
          poseidonHash (fun S => .ok (E () S)) (A.result E) = .ok target ∧ (blocks n (A.result E)).length ≤ 2) := by
  have hfam : ∀ m : Nat, m ≤ Fintype.card F ^ n → Nonempty (Fin m ↪ (Fin n → F)) := fun m hm =>
    Function.Embedding.nonempty_of_card_le (by
      rw [Fintype.card_fin, Fintype.card_fun, Fintype.card_fin]
      exact hm)
  refine ⟨?_, ?_⟩
  · obtain ⟨x⟩ := hfam q hq
    exact ⟨_, C120_collision hn (fun i => (⟨List.ofFn (x i), le_of_eq List.length_ofFn⟩ : BlockCall F n)) (by
      intro i j e
      refine x.injective (funext fun k => ?_)
      have := congrFun e k
      simpa [BlockCall.message] using this)⟩
  · obtain ⟨x⟩ := hfam a ha
    obtain ⟨y⟩ := hfam b hb
    exact ⟨_, C120_preimage hn x y target⟩

/-! ### The numbers of the library -/

theorem birthday_num {k M X : ℚ} (hk : 4 ≤ k) (hM : 4 ≤ M) (hX0 : 0 < X) (hX : X ≤ 2 * k ^ 2 * M) :
    1 / 10 < k * (k - 1) * (M - 1) / (k * (k - 1) * (M - 1) + 2 * X) := by
  have h1 : 3 / 4 * k ≤ k - 1 := by linarith
  have h2 : 3 / 4 * M ≤ M - 1 := by linarith
  have h3 : k * (3 / 4 * k) * (3 / 4 * M) ≤ k * (k - 1) * (M - 1) := by
    apply mul_le_mul _ h2 (by linarith)
    · exact mul_nonneg (by linarith) (by linarith)
    · exact mul_le_mul_of_nonneg_left h1 (by linarith)
  have h4 : 0 < k ^ 2 * M := by positivity
  rw [lt_div_iff₀ (by nlinarith)]
  nlinarith

theorem meet_num {k N M X : ℚ} (hk : 32 ≤ k) (hM : 32 ≤ M) (hN : 2 * k ^ 2 ≤ N) (hX0 : 0 < X) (hX : X ≤ 8 * k ^ 2 * M) :
    1 / 20 < (1 - k * (k + 1) / (2 * N)) * (k * k * (M - 1) / (k * k * (M - 1) + X)) := by
  have h0 : 0 < k ^ 2 := by positivity
  have hNpos : 0 < N := by linarith
  have h1 : 7 / 10 ≤ 1 - k * (k + 1) / (2 * N) := by
    have : k * (k + 1) / (2 * N) ≤ 3 / 10 := by
      rw [div_le_iff₀ (by linarith)]
      nlinarith
    linarith
  have h3 : 0 < k ^ 2 * M := by positivity
  have hT : 31 / 32 * (k ^ 2 * M) ≤ k * k * (M - 1) := by nlinarith
  have h2 : 1 / 10 ≤ k * k * (M - 1) / (k * k * (M - 1) + X) := by
    rw [le_div_iff₀ (by linarith)]
    nlinarith
  have := mul_le_mul h1 h2 (by norm_num) (by linarith)
  linarith

/-- **C120, tightness.** For a field of `2^253` to `2^255` elements, as in all the instances of the library, `2^127` queries find a
collision with probability more than `1/10`, and `2^127` queries find a preimage of any digest with probability more than `1/20`. -/
theorem C120_tight (hn : 0 < n) (h1 : 2 ^ 253 ≤ Fintype.card F) (h2 : Fintype.card F ≤ 2 ^ 255) (target : F) :
    (∃ A : Attacker Unit (Fin (n + 1) → F) (List F × List F), A.AtMost (2 ^ 127) ∧
      1 / 10 < prob (fun E =>
        zeroPad n (A.result E).1 ≠ zeroPad n (A.result E).2 ∧
        poseidonHash (fun S => .ok (E () S)) (A.result E).1 = poseidonHash (fun S => .ok (E () S)) (A.result E).2 ∧
        (blocks n (A.result E).1).length + (blocks n (A.result E).2).length ≤ 2)) ∧
    ∃ A : Attacker Unit (Fin (n + 1) → F) (List F), A.AtMost (2 ^ 127) ∧
      1 / 20 < prob (fun E =>
        poseidonHash (fun S => .ok (E () S)) (A.result E) = .ok target ∧ (blocks n (A.result E)).length ≤ 2) := by
  have hM : 2 ^ 253 ≤ Fintype.card F ^ n := le_trans h1 (Nat.le_self_pow (by omega) _)
  have hp1 : (2 : ℚ) ^ 253 ≤ Fintype.card F := by exact_mod_cast h1
  have hp2 : (Fintype.card F : ℚ) ≤ 2 ^ 255 := by exact_mod_cast h2
  have hM' : (2 : ℚ) ^ 253 ≤ (Fintype.card F : ℚ) ^ n := by exact_mod_cast hM
  have hX : (Fintype.card F : ℚ) ^ (n + 1) ≤ 2 ^ 255 * (Fintype.card F : ℚ) ^ n := by
    rw [pow_succ']
    exact mul_le_mul_of_nonneg_right hp2 (by positivity)
  have hX0 : 0 < (Fintype.card F : ℚ) ^ (n + 1) := by
    have : (0 : ℚ) < Fintype.card F := lt_of_lt_of_le (by positivity) hp1
    positivity
  obtain ⟨⟨A, hA, h3⟩, B, hB, h4⟩ := C120_exists hn (2 ^ 127) (2 ^ 126) (2 ^ 126) (le_trans (by norm_num) hM)
    (le_trans (by norm_num) hM) (le_trans (by norm_num) hM) target
  refine ⟨⟨A, hA, lt_of_lt_of_le ?_ h3⟩, B, atMost_mono hB (by norm_num), lt_of_lt_of_le ?_ h4⟩
  · have hk : ((2 ^ 127 : Nat) : ℚ) = 2 ^ 127 := by norm_num
    rw [hk]
    exact birthday_num (by norm_num) (le_trans (by norm_num) hM') hX0 (le_trans hX (le_of_eq (by norm_num)))
  · have hk : ((2 ^ 126 : Nat) : ℚ) = 2 ^ 126 := by norm_num
    rw [hk]
    exact meet_num (by norm_num) (le_trans (by norm_num) hM') (le_trans (by norm_num) hp1) hX0 (le_trans hX (le_of_eq (by norm_num)))

/-! ### Examples -/

instance neZero_pallas : NeZero instPallas.modulus := ⟨by decide +kernel⟩

/-- The field of the library for Pallas, two elements in a block. -/
example (target : ZMod instPallas.modulus) :
    ∃ A : Attacker Unit (Fin (2 + 1) → ZMod instPallas.modulus) (List (ZMod instPallas.modulus)), A.AtMost (2 ^ 127) ∧
      1 / 20 < prob (fun E =>
        poseidonHash (fun S => .ok (E () S)) (A.result E) = .ok target ∧ (blocks 2 (A.result E)).length ≤ 2) :=
  (C120_tight (n := 2) (by decide) (by rw [ZMod.card]; decide +kernel) (by rw [ZMod.card]; decide +kernel) target).2

/-- All the fields of the library are of this size. -/
example : ∀ I ∈ [instBn2, instBn4, instBls2, instBls4, instPallas, instVesta], 2 ^ 253 ≤ I.modulus ∧ I.modulus ≤ 2 ^ 255 := by
  decide +kernel

/-- The lists `[0]`, `[1]`, `[2]`, `[3]` over thirteen elements. -/
def fourLists (i : Fin 4) : BlockCall (ZMod 13) 1 := ⟨[(i.val : ZMod 13)], le_refl _⟩

theorem fourLists_injective : Function.Injective fun i => (fourLists i).message := by decide

example : prob (fun E => ∃ i j, i ≠ j ∧ (fourLists i).digest (E ()) = (fourLists j).digest (E ())) =
    1 - (13 * 12 * 11 * 10 * 13 ^ 4) / (169 * 168 * 167 * 166) := by
  refine (C120_birthday (by decide) fourLists fourLists_injective).trans ?_
  rw [ZMod.card]
  norm_num [Nat.descFactorial]

example : prob (fun E => ∃ i, (fourLists i).digest (E ()) = .ok 5) = 1 - (156 * 155 * 154 * 153) / (169 * 168 * 167 * 166) := by
  refine (C120_search (by decide) fourLists fourLists_injective 5).trans ?_
  rw [ZMod.card]
  norm_num [Nat.descFactorial]

example : (poseidonBirthday fourLists).AtMost 4 ∧
    29 / 100 ≤ prob (fun E =>
        zeroPad 1 ((poseidonBirthday fourLists).result E).1 ≠ zeroPad 1 ((poseidonBirthday fourLists).result E).2 ∧
        poseidonHash (fun S => .ok (E () S)) ((poseidonBirthday fourLists).result E).1 =
          poseidonHash (fun S => .ok (E () S)) ((poseidonBirthday fourLists).result E).2 ∧
        (blocks 1 ((poseidonBirthday fourLists).result E).1).length + (blocks 1 ((poseidonBirthday fourLists).result E).2).length ≤ 2) := by
  have := C120_collision (by decide) fourLists fourLists_injective
  refine ⟨this.1, le_trans ?_ this.2⟩
  rw [ZMod.card]
  norm_num

/-- Two blocks forwards, six states backwards. -/
example (x : Fin 2 ↪ (Fin 1 → ZMod 13)) (y : Fin 6 ↪ (Fin 1 → ZMod 13)) : (poseidonMeet x y 5).AtMost 8 ∧
    7 / 20 ≤ prob (fun E =>
        poseidonHash (fun S => .ok (E () S)) ((poseidonMeet x y 5).result E) = .ok 5 ∧
        (blocks 1 ((poseidonMeet x y 5).result E)).length ≤ 2) := by
  have := C120_preimage (by decide) x y 5
  refine ⟨this.1, le_trans ?_ this.2⟩
  rw [ZMod.card]
  norm_num

/-- Such blocks exist. -/
example : Nonempty (Fin 2 ↪ (Fin 1 → ZMod 13)) ∧ Nonempty (Fin 6 ↪ (Fin 1 → ZMod 13)) := by
  refine ⟨Function.Embedding.nonempty_of_card_le ?_, Function.Embedding.nonempty_of_card_le ?_⟩ <;>
  · rw [Fintype.card_fin, Fintype.card_fun, Fintype.card_fin, ZMod.card]
    norm_num

/-- All the blocks of one element. -/
example : ∃ A : Attacker Unit (Fin (1 + 1) → ZMod 13) (List (ZMod 13) × List (ZMod 13)), A.AtMost 13 ∧
    4 / 5 ≤ prob (fun E =>
        zeroPad 1 (A.result E).1 ≠ zeroPad 1 (A.result E).2 ∧
        poseidonHash (fun S => .ok (E () S)) (A.result E).1 = poseidonHash (fun S => .ok (E () S)) (A.result E).2 ∧
        (blocks 1 (A.result E).1).length + (blocks 1 (A.result E).2).length ≤ 2) := by
  obtain ⟨A, hA, h⟩ := (C120_exists (F := ZMod 13) (n := 1) (by decide) 13 1 1 (by rw [ZMod.card]; decide) (by rw [ZMod.card]; decide)
    (by rw [ZMod.card]; decide) 0).1
  refine ⟨A, hA, le_trans ?_ h⟩
  rw [ZMod.card]
  norm_num

end Verif.Props
