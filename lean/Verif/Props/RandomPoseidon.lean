import Verif.Proof.SpongeBound
import Verif.Proof.Walk
import Verif.Props.PoseidonSponge
/-
C96: collisions and preimages of the Poseidon hashes of the library when the permutation is random.
-/
namespace Verif.Props

open Spec.Poseidon Spec.Ideal Verif.Ideal

section
variable {F : Type} [CommRing F] [Fintype F] [DecidableEq F] {n : Nat}

/-! ### Counting -/

omit [CommRing F] in
/-- The states with a given word. -/
theorem card_word_le (i : Fin (n + 1)) (t : F) :
    (Finset.univ.filter fun x : Fin (n + 1) → F => x i = t).card ≤ Fintype.card F ^ n := by
  have hc : (Finset.univ : Finset (Fin n → F)).card = Fintype.card F ^ n := by
    rw [Finset.card_univ, Fintype.card_fun, Fintype.card_fin]
  rw [← hc]
  refine Finset.card_le_card_of_injOn (fun x j => x (i.succAbove j)) (fun x _ => Finset.mem_coe.2 (Finset.mem_univ _)) ?_
  intro x hx y hy h
  have hx := (Finset.mem_filter.1 (Finset.mem_coe.1 hx)).2
  have hy := (Finset.mem_filter.1 (Finset.mem_coe.1 hy)).2
  funext j
  rcases Fin.eq_self_or_eq_succAbove i j with rfl | ⟨k, rfl⟩
  · rw [hx, hy]
  · exact congrFun h k

omit [CommRing F] in
theorem card_state : Fintype.card (Fin (n + 1) → F) = Fintype.card F ^ (n + 1) := by
  rw [Fintype.card_fun, Fintype.card_fin]

/-! ### The states of a list -/

/-- All calls of the permutation for hashing the list are among the triples `L`. -/
def PoseidonEvaluated (E : Cipher Unit (Fin (n + 1) → F)) (L : List (Unit × (Fin (n + 1) → F) × (Fin (n + 1) → F))) (l : List F) :
    Prop := ∀ x ∈ inputs (E ()) l, ((), x, E () x) ∈ L

omit [Fintype F] [DecidableEq F] in
theorem reach_inputsFrom (E : Cipher Unit (Fin (n + 1) → F)) {T : List (Entry Unit (Fin (n + 1) → F))} (bs : List (List F)) (h : F)
    (hh : h = 0 ∨ ∃ e, Reach (fun x => x 0) (fun y => y (Fin.last n)) 0 T e ∧ h = e.y (Fin.last n))
    (hT : ∀ x ∈ inputsFrom (E ()) h bs, ∃ e ∈ T, e.x = x ∧ e.y = E () x) :
    ∀ x ∈ inputsFrom (E ()) h bs, ∃ e, Reach (fun x => x 0) (fun y => y (Fin.last n)) 0 T e ∧ e.x = x ∧ e.y = E () x := by
  induction bs generalizing h with
  | nil => intro x hx; cases hx
  | cons b bs ih =>
    have h1 : ∃ e, Reach (fun x => x 0) (fun y => y (Fin.last n)) 0 T e ∧ e.x = input h b ∧ e.y = E () (input h b) := by
      obtain ⟨e, he, hx, hy⟩ := hT _ List.mem_cons_self
      have h0 : e.x 0 = h := by rw [hx]; rfl
      rcases hh with rfl | ⟨e', hr, rfl⟩
      · exact ⟨e, .first he h0, hx, hy⟩
      · exact ⟨e, .next hr he h0, hx, hy⟩
    intro x hx
    rcases List.mem_cons.1 hx with rfl | hx
    · exact h1
    · refine ih _ (Or.inr ?_) (fun x hx => hT x (List.mem_cons_of_mem _ hx)) x hx
      obtain ⟨e, hr, hx, hy⟩ := h1
      exact ⟨e, hr, by rw [hy]; rfl⟩

omit [Fintype F] [DecidableEq F] in
theorem inputsFrom_last (P : (Fin (n + 1) → F) → Fin (n + 1) → F) (bs : List (List F)) (hb : bs ≠ []) (h : F) :
    ∃ x ∈ inputsFrom P h bs, bs.foldl (compress P) h = P x (Fin.last n) := by
  induction bs generalizing h with
  | nil => exact absurd rfl hb
  | cons b bs ih =>
    by_cases h0 : bs = []
    · subst h0
      exact ⟨_, List.mem_cons_self, rfl⟩
    · obtain ⟨x, hx, e⟩ := ih h0 (compress P h b)
      exact ⟨x, List.mem_cons_of_mem _ hx, e⟩

omit [CommRing F] [Fintype F] [DecidableEq F] in
theorem poseidon_blocks_ne_nil (l : List F) : blocks n l ≠ [] := by
  unfold blocks
  split <;> simp

/-! ### C96 -/

/-- **C96.** An attacker that asks at most `q` queries to a random permutation of the states and its inverse, those for its own two
lists included, makes the library return the same digest for two lists that differ after filling up with zeros with probability at
most `q^2 / p`, up to the factor `p^(n+1) / (p^(n+1) - q)`, where `p` is the number of field elements and `n` the rate. -/
theorem C96_collision (hn : 0 < n) (A : Attacker Unit (Fin (n + 1) → F) (List F × List F)) (q : Nat) (hA : A.AtMost q)
    (hq : q < Fintype.card F ^ (n + 1)) :
    prob (fun E =>
      zeroPad n (A.result E).1 ≠ zeroPad n (A.result E).2 ∧
      poseidonHash (fun S => .ok (E () S)) (A.result E).1 = poseidonHash (fun S => .ok (E () S)) (A.result E).2 ∧
      PoseidonEvaluated E (A.learns E) (A.result E).1 ∧ PoseidonEvaluated E (A.learns E) (A.result E).2) ≤
      (q : ℚ) ^ 2 * Fintype.card F ^ n / (Fintype.card F ^ (n + 1) - q) := by
  refine le_trans (sponge_inner_bound (cin := fun x : Fin (n + 1) → F => x 0) (cout := fun y => y (Fin.last n)) 0
    (card_word_le 0) (card_word_le (Fin.last n)) A q hA (by rw [card_state]; exact hq) _ ?_)
    (le_of_eq (by rw [card_state]; push_cast; rfl))
  rintro E hc ⟨hz, hd, h1, h2⟩
  have hAg : Agrees E ([] : List (Entry Unit (Fin (n + 1) → F))) := by intro e he; cases he
  have hT := learns_table E A [] hAg
  have R : ∀ l, PoseidonEvaluated E (A.learns E) l → ∀ x ∈ inputs (E ()) l,
      ∃ e, Reach (fun x => x 0) (fun y => y (Fin.last n)) 0 (table E A []) e ∧ e.x = x ∧ e.y = E () x := by
    intro l hl
    refine reach_inputsFrom E _ 0 (Or.inl rfl) fun x hx => ?_
    obtain ⟨e, he, het⟩ := hT _ (hl x hx)
    exact ⟨e, he, (Prod.mk.inj (Prod.mk.inj het).2).1, (Prod.mk.inj (Prod.mk.inj het).2).2⟩
  rcases C45_collision hn (E ()) _ _ hz hd with ⟨x, hx, y, hy, hne, hxy⟩ | ⟨_, ⟨x, hx, h0⟩ | ⟨x, hx, h0⟩⟩
  · obtain ⟨e, r, ex, ey⟩ := R _ h1 x hx
    obtain ⟨e', r', ex', ey'⟩ := R _ h2 y hy
    have := reach_inner hc r r' (by show e.y _ = e'.y _; rw [ey, ey']; exact hxy)
    exact hne (by rw [← ex, ← ex', this])
  · obtain ⟨e, r, ex, ey⟩ := R _ h1 x hx
    exact reach_zero hc r (by show e.y _ = _; rw [ey]; exact h0)
  · obtain ⟨e, r, ex, ey⟩ := R _ h2 x hx
    exact reach_zero hc r (by show e.y _ = _; rw [ey]; exact h0)

/-- **C96, preimages.** The probability that the library returns a given digest for the list of the attacker. -/
theorem C96_preimage (hn : 0 < n) (A : Attacker Unit (Fin (n + 1) → F) (List F)) (q : Nat) (hA : A.AtMost q)
    (hq : q < Fintype.card F ^ (n + 1)) (target : F) :
    prob (fun E =>
      poseidonHash (fun S => .ok (E () S)) (A.result E) = .ok target ∧ PoseidonEvaluated E (A.learns E) (A.result E)) ≤
      ((q : ℚ) ^ 2 * Fintype.card F ^ n + q * Fintype.card F ^ n) / (Fintype.card F ^ (n + 1) - q) := by
  refine le_trans (sponge_preimage_bound (cin := fun x : Fin (n + 1) → F => x 0) (cout := fun y => y (Fin.last n))
    (out := fun y => y (Fin.last n)) 0 (card_word_le 0) (card_word_le (Fin.last n)) (card_word_le (Fin.last n)) A q hA
    (by rw [card_state]; exact hq) target _ ?_)
    (le_of_eq (by rw [card_state]; push_cast; rfl))
  rintro E hc ⟨hd, h1⟩
  have hAg : Agrees E ([] : List (Entry Unit (Fin (n + 1) → F))) := by intro e he; cases he
  have hT := learns_table E A [] hAg
  rw [C44_digest hn] at hd
  obtain ⟨x, hx, hl⟩ := inputsFrom_last (E ()) _ (poseidon_blocks_ne_nil (n := n) (A.result E)) 0
  obtain ⟨e, r, ex, ey⟩ := reach_inputsFrom E _ 0 (Or.inl rfl) (fun x hx => by
    obtain ⟨e, he, het⟩ := hT _ (h1 x hx)
    exact ⟨e, he, (Prod.mk.inj (Prod.mk.inj het).2).1, (Prod.mk.inj (Prod.mk.inj het).2).2⟩) x hx
  refine clean_target hc r ?_
  show e.y _ = _
  rw [ey, ← hl]
  exact Except.ok.inj hd

/-! ### Attackers that do not hash their own lists -/

/-- The attacker that hashes the blocks and returns `x`. -/
def poseidonChaining {R : Type _} (bs : List (List F)) (x : R) : Attacker Unit (Fin (n + 1) → F) R :=
  walk (fun _ => ()) (fun v b => input v b) (fun _ y => y (Fin.last n)) x bs 0

omit [Fintype F] [DecidableEq F] in
theorem evaluated_poseidonChaining {R : Type _} (l : List F) (x : R) (E : Cipher Unit (Fin (n + 1) → F)) :
    PoseidonEvaluated E ((poseidonChaining (n := n) (blocks n l) x).learns E) l := by
  have key : ∀ (bs : List (List F)) (h : F), ∀ y ∈ inputsFrom (E ()) h bs,
      ((), y, E () y) ∈ (walk (fun _ => ()) (fun v b => input v b) (fun _ y => y (Fin.last n)) x bs h).learns E := by
    intro bs
    induction bs with
    | nil => intro h y hy; cases hy
    | cons b bs ih =>
      intro h y hy
      rcases List.mem_cons.1 hy with rfl | hy
      · exact List.mem_cons_self
      · exact List.mem_cons_of_mem _ (ih _ y hy)
  exact key _ 0

/-- **C96, any attacker.** The blocks of the two lists, at most `b`, are counted as queries. -/
theorem C96_collision_any (hn : 0 < n) (A : Attacker Unit (Fin (n + 1) → F) (List F × List F)) (q b : Nat) (hA : A.AtMost q)
    (hq : q + b < Fintype.card F ^ (n + 1)) :
    prob (fun E =>
      zeroPad n (A.result E).1 ≠ zeroPad n (A.result E).2 ∧
      poseidonHash (fun S => .ok (E () S)) (A.result E).1 = poseidonHash (fun S => .ok (E () S)) (A.result E).2 ∧
      (blocks n (A.result E).1).length + (blocks n (A.result E).2).length ≤ b) ≤
      (q + b : ℚ) ^ 2 * Fintype.card F ^ n / (Fintype.card F ^ (n + 1) - (q + b)) := by
  let f : List F × List F → Attacker Unit (Fin (n + 1) → F) (List F × List F) :=
    fun r => if (blocks n r.1).length + (blocks n r.2).length ≤ b then
      andThen (poseidonChaining (blocks n r.1) r) fun _ => poseidonChaining (blocks n r.2) r
    else .done r
  have hf : ∀ r, (f r).AtMost b := by
    intro r
    show (ite _ _ _ : Attacker _ _ _).AtMost b
    split
    · rename_i hl
      refine atMost_mono (q := (blocks n r.1).length + (blocks n r.2).length) ?_ hl
      exact atMost_andThen (atMost_walk _ _ _ _ _ _) fun _ => atMost_walk _ _ _ _ _ _
    · trivial
  have hr : ∀ E r, (f r).result E = r := by
    intro E r
    show (ite _ _ _ : Attacker _ _ _).result E = r
    split
    · rw [result_andThen, poseidonChaining, result_walk]
    · rfl
  have hres : ∀ E, (andThen A f).result E = A.result E := fun E => by rw [result_andThen, hr]
  have key := C96_collision hn (andThen A f) (q + b) (atMost_andThen hA hf) hq
  simp only [hres] at key
  refine le_trans (prob_mono fun E hE => ⟨hE.1, hE.2.1, ?_, ?_⟩) (le_trans key (le_of_eq (by push_cast; rfl)))
  · intro x hx
    rw [learns_andThen]
    refine List.mem_append_right _ ?_
    show _ ∈ (ite _ _ _ : Attacker _ _ _).learns E
    rw [if_pos hE.2.2, learns_andThen]
    exact List.mem_append_left _ (evaluated_poseidonChaining _ _ E x hx)
  · intro x hx
    rw [learns_andThen]
    refine List.mem_append_right _ ?_
    show _ ∈ (ite _ _ _ : Attacker _ _ _).learns E
    rw [if_pos hE.2.2, learns_andThen]
    exact List.mem_append_right _ (evaluated_poseidonChaining _ _ E x hx)

/-- **C96, preimages, any attacker.** -/
theorem C96_preimage_any (hn : 0 < n) (A : Attacker Unit (Fin (n + 1) → F) (List F)) (q b : Nat) (hA : A.AtMost q)
    (hq : q + b < Fintype.card F ^ (n + 1)) (target : F) :
    prob (fun E =>
      poseidonHash (fun S => .ok (E () S)) (A.result E) = .ok target ∧ (blocks n (A.result E)).length ≤ b) ≤
      ((q + b : ℚ) ^ 2 * Fintype.card F ^ n + (q + b) * Fintype.card F ^ n) / (Fintype.card F ^ (n + 1) - (q + b)) := by
  let f : List F → Attacker Unit (Fin (n + 1) → F) (List F) :=
    fun r => if (blocks n r).length ≤ b then poseidonChaining (blocks n r) r else .done r
  have hf : ∀ r, (f r).AtMost b := by
    intro r
    show (ite _ _ _ : Attacker _ _ _).AtMost b
    split
    · rename_i hl
      exact atMost_mono (atMost_walk _ _ _ _ _ _) hl
    · trivial
  have hr : ∀ E r, (f r).result E = r := by
    intro E r
    show (ite _ _ _ : Attacker _ _ _).result E = r
    split
    · rw [poseidonChaining, result_walk]
    · rfl
  have hres : ∀ E, (andThen A f).result E = A.result E := fun E => by rw [result_andThen, hr]
  have key := C96_preimage hn (andThen A f) (q + b) (atMost_andThen hA hf) hq target
  simp only [hres] at key
  refine le_trans (prob_mono fun E hE => ⟨hE.1, ?_⟩) (le_trans key (le_of_eq (by push_cast; rfl)))
  intro x hx
  rw [learns_andThen]
  refine List.mem_append_right _ ?_
  show _ ∈ (ite _ _ _ : Attacker _ _ _).learns E
  rw [if_pos hE.2]
  exact evaluated_poseidonChaining _ _ E x hx

/-! ### The bound for preimages cannot be linear -/

omit [Fintype F] [DecidableEq F] in
theorem blocks_of_full (hn : 0 < n) (L : List (List F)) (hL : ∀ b ∈ L, b.length = n) (w : List F) (hw : w ≠ []) (hw' : w.length ≤ n) :
    blocks n (L.flatten ++ w) = L ++ [w] := by
  induction L with
  | nil => exact blocks_short w hw'
  | cons b L ih =>
    rw [List.flatten_cons, List.append_assoc, blocks_long hn b _ (hL b List.mem_cons_self) (by simp [hw]),
      ih fun b hb => hL b (List.mem_cons_of_mem _ hb)]
    rfl

omit [Fintype F] [DecidableEq F] in
/-- **C96, meeting in the middle.** If the inverse of the permutation takes some state `y` to one whose first word is the value that
the blocks `L` are chained to, then appending its other words to these blocks gives a list whose digest is the last word of `y`. So
whoever computes about the square root of `p` values forwards, and as many backwards from states with the wanted last word, has a
preimage as soon as two of them are equal: the square in `C96_preimage` is not an artefact. -/
theorem C96_meet (hn : 0 < n) (P : Equiv.Perm (Fin (n + 1) → F)) (L : List (List F)) (hL : ∀ b ∈ L, b.length = n)
    (y : Fin (n + 1) → F) (hm : P.symm y 0 = L.foldl (compress P) 0) :
    poseidonHash (fun S => .ok (P S)) (L.flatten ++ List.ofFn fun i : Fin n => P.symm y i.succ) = .ok (y (Fin.last n)) := by
  have hi : input (n := n) (P.symm y 0) (List.ofFn fun i : Fin n => P.symm y i.succ) = P.symm y := by
    funext i
    refine Fin.cases rfl (fun i => ?_) i
    show (((List.ofFn fun i : Fin n => P.symm y i.succ))[i.val]?).getD 0 = _
    rw [List.getElem?_ofFn, dif_pos i.isLt]
    rfl
  rw [C44_digest hn, digest, blocks_of_full hn L hL _ (by simp [hn.ne']) (by simp), List.foldl_append, ← hm]
  show Except.ok (P (input _ _) _) = _
  rw [hi, Equiv.apply_symm_apply]

end

/-! ### Examples -/

/-- A permutation of the states of three words: the last word moves to the front. -/
def rotate3 : Equiv.Perm (Fin 3 → ZMod 13) where
  toFun x := ![x 1 + 1, x 2, x 0]
  invFun y := ![y 2, y 0 - 1, y 1]
  left_inv x := by funext i; fin_cases i <;> simp
  right_inv y := by funext i; fin_cases i <;> simp

/-- With it, the lists `[1, 2]` and `[3, 4]` collide; so do other lists with other permutations, but not too many. -/
example : zeroPad 2 [(1 : ZMod 13), 2] ≠ zeroPad 2 [3, 4] ∧
    poseidonHash (fun S => .ok (rotate3 S)) [1, 2] = poseidonHash (fun S => .ok (rotate3 S)) [3, 4] := by
  refine ⟨by decide, ?_⟩
  rw [C44_digest (n := 2) (by decide), C44_digest (n := 2) (by decide)]
  decide +kernel

theorem one_block (a b : ZMod 13) : (blocks 2 [a, b]).length = 1 := by rw [blocks_short _ (by simp)]; rfl

theorem atMost_poseidonChaining {R : Type _} (a b : ZMod 13) (r : R) : (poseidonChaining (n := 2) (blocks 2 [a, b]) r).AtMost 1 := by
  rw [blocks_short _ (by simp)]
  exact atMost_walk _ _ _ _ _ _

example : prob (fun E : Cipher Unit (Fin 3 → ZMod 13) =>
      poseidonHash (fun S => .ok (E () S)) [1, 2] = poseidonHash (fun S => .ok (E () S)) [3, 4]) ≤ 676 / 2195 := by
  have := C96_collision_any (n := 2) (F := ZMod 13) (by decide) (.done ([1, 2], [3, 4])) 0 2 trivial (by rw [ZMod.card]; decide)
  refine le_trans (prob_mono fun E hE => ⟨show zeroPad 2 [(1 : ZMod 13), 2] ≠ zeroPad 2 [3, 4] by decide, hE,
    show (blocks 2 [(1 : ZMod 13), 2]).length + (blocks 2 [(3 : ZMod 13), 4]).length ≤ 2 by
      rw [one_block, one_block]⟩) (le_trans this (le_of_eq ?_))
  rw [ZMod.card]
  norm_num

/-- The attacker that hashes `[1, 2]` and `[3, 4]`. -/
def twoLists : Attacker Unit (Fin 3 → ZMod 13) (List (ZMod 13) × List (ZMod 13)) :=
  andThen (poseidonChaining (blocks 2 [1, 2]) ([1, 2], [3, 4])) fun r => poseidonChaining (blocks 2 [3, 4]) r

example : prob (fun E : Cipher Unit (Fin 3 → ZMod 13) =>
      poseidonHash (fun S => .ok (E () S)) [1, 2] = poseidonHash (fun S => .ok (E () S)) [3, 4]) ≤ 676 / 2195 := by
  have hA : twoLists.AtMost (1 + 1) := atMost_andThen (atMost_poseidonChaining 1 2 _) fun r => atMost_poseidonChaining 3 4 r
  have := C96_collision (n := 2) (F := ZMod 13) (by decide) twoLists 2 hA (by rw [ZMod.card]; decide)
  have hr : ∀ E, twoLists.result E = ([1, 2], [3, 4]) := fun E => by
    rw [twoLists, result_andThen, poseidonChaining, result_walk, poseidonChaining, result_walk]
  refine le_trans (prob_mono fun E hE => ?_) (le_trans this (le_of_eq ?_))
  · rw [hr]
    refine ⟨by decide, hE, fun x hx => ?_, fun x hx => ?_⟩ <;> rw [twoLists, learns_andThen]
    · exact List.mem_append_left _ (evaluated_poseidonChaining _ _ E x hx)
    · refine List.mem_append_right _ ?_
      exact evaluated_poseidonChaining _ _ E x hx
  · rw [ZMod.card]
    norm_num

/-- The digest of `[1, 2]` is 5 for a fraction of at most `338 / 2196` of all permutations. -/
example : prob (fun E : Cipher Unit (Fin 3 → ZMod 13) => poseidonHash (fun S => .ok (E () S)) [1, 2] = .ok 5) ≤ 338 / 2196 := by
  have := C96_preimage_any (n := 2) (F := ZMod 13) (by decide) (.done [1, 2]) 0 1 trivial (by rw [ZMod.card]; decide) 5
  refine le_trans (prob_mono fun E hE => ⟨hE,
    show (blocks 2 [(1 : ZMod 13), 2]).length ≤ 1 by rw [one_block]⟩) (le_trans this (le_of_eq ?_))
  rw [ZMod.card]
  norm_num

example : prob (fun E : Cipher Unit (Fin 3 → ZMod 13) => poseidonHash (fun S => .ok (E () S)) [1, 2] = .ok 5) ≤ 338 / 2196 := by
  have := C96_preimage (n := 2) (F := ZMod 13) (by decide) (poseidonChaining (blocks 2 [1, 2]) [1, 2]) 1
    (atMost_poseidonChaining 1 2 _) (by rw [ZMod.card]; decide) 5
  refine le_trans (prob_mono fun E hE => ?_) (le_trans this (le_of_eq ?_))
  · rw [show (poseidonChaining (blocks 2 [(1 : ZMod 13), 2]) [(1 : ZMod 13), 2]).result E = [1, 2] from result_walk _ _ _ E _ _ _]
    exact ⟨hE, evaluated_poseidonChaining _ _ E⟩
  · rw [ZMod.card]
    norm_num

/-- A preimage of 0 with the toy permutation, found by going back from the state `(7, 8, 0)`. -/
example : poseidonHash (fun S => .ok (rotate3 S)) [(6 : ZMod 13), 8] = .ok 0 :=
  C96_meet (n := 2) (by decide) rotate3 [] (by simp) ![7, 8, 0] rfl

end Verif.Props
