import Verif.Props.BlakeIndifferentiable
import Verif.Props.PoseidonMac
/-
C111: Poseidon on at most one block of elements, over a random permutation, is indifferentiable from a random oracle; with a secret
key in the block it is an authentication code.
-/
namespace Verif.Props

open Spec.Poseidon Spec.Ideal Verif.Ideal

section
variable {F : Type} [CommRing F] [Fintype F] [DecidableEq F] {n : Nat}

/-- The lists of at most one block. -/
abbrev BlockCall (F : Type) (n : Nat) := { l : List F // l.length ≤ n }

/-- The block, with zeros at the end. -/
def BlockCall.message (q : BlockCall F n) : Fin n → F := fun i => (q.1[i.val]?).getD 0

/-- One call of the permutation. -/
def BlockCall.cost (_ : BlockCall F n) : Nat := 1

/-- What the library returns. -/
def BlockCall.digest (P : (Fin (n + 1) → F) → Fin (n + 1) → F) (q : BlockCall F n) : Except Fault F :=
  poseidonHash (fun S => .ok (P S)) q.1

omit [Fintype F] [DecidableEq F] in
theorem BlockCall.digest_eq (hn : 0 < n) (P : (Fin (n + 1) → F) → Fin (n + 1) → F) (q : BlockCall F n) :
    q.digest P = .ok (P (Fin.cons 0 q.message) (Fin.last n)) := by
  unfold BlockCall.digest
  rw [C44_digest hn, Spec.Poseidon.digest, blocks_short _ q.2]
  rfl

/-! ### One block as a `Shape` -/

/-- The last word and the others. -/
def lastSplit (F : Type) (n : Nat) : (Fin (n + 1) → F) ≃ F × (Fin n → F) where
  toFun y := (y (Fin.last n), fun i => y i.castSucc)
  invFun t := Fin.snoc (α := fun _ => F) t.2 t.1
  left_inv y := by
    funext i
    refine Fin.lastCases ?_ (fun i => ?_) i
    · show Fin.snoc (α := fun _ => F) (fun i => y i.castSucc) (y (Fin.last n)) (Fin.last n) = _
      rw [Fin.snoc_last]
    · show Fin.snoc (α := fun _ => F) (fun i => y i.castSucc) (y (Fin.last n)) i.castSucc = _
      rw [Fin.snoc_castSucc]
  right_inv t := by
    refine Prod.ext ?_ ?_
    · show Fin.snoc (α := fun _ => F) t.2 t.1 (Fin.last n) = t.1
      rw [Fin.snoc_last]
    · funext i
      show Fin.snoc (α := fun _ => F) t.2 t.1 i.castSucc = t.2 i
      rw [Fin.snoc_castSucc]

/-- Where a query belongs: `none` for a first word of zero, which a hash has; the query itself otherwise. -/
def blockIn (x : Fin (n + 1) → F) : Option ((Fin (n + 1) → F) ⊕ (Fin (n + 1) → F)) := if x 0 = 0 then none else some (.inl x)

omit [Fintype F] in
theorem blockIn_none {x : Fin (n + 1) → F} (h : blockIn x = none) : x 0 = 0 := by
  unfold blockIn at h
  split at h
  · assumption
  · cases h

omit [Fintype F] in
theorem blockIn_some {x : Fin (n + 1) → F} {u : (Fin (n + 1) → F) ⊕ (Fin (n + 1) → F)} (h : blockIn x = some u) : u = .inl x := by
  unfold blockIn at h
  split at h
  · cases h
  · exact (Option.some.inj h).symm

/-- Poseidon on one block. -/
def libraryBlock (F : Type) [CommRing F] [DecidableEq F] (n : Nat) :
    Shape Unit (Fin (n + 1) → F) (F × Option (Fin (n + 1) → F)) (Fin n → F)
      (Option ((Fin (n + 1) → F) ⊕ (Fin (n + 1) → F))) F (Fin n → F) (Fin n → F) where
  inner s := s.2.map .inr
  cin := blockIn
  key _ := ()
  add s b := Fin.cons (if s.2 = none then 0 else s.1) b
  out _ x y := (y (Fin.last n), some x)
  diff _ _ x := fun i => x i.succ
  isOpen s := s.2 = none
  s0 := (0, none)
  digest s := s.1
  split _ _ := lastSplit F n
  pad m := [m]
  add_diff s _ x h := by
    cases hs : s.2 with
    | none =>
      rw [hs] at h
      rw [if_pos rfl, ← blockIn_none h]
      funext i
      refine Fin.cases rfl (fun i => rfl) i
    | some z =>
      rw [hs] at h
      cases blockIn_some h
  key_diff _ _ _ := rfl
  diff_add _ _ _ _ := rfl
  cin_add s m b _ h := by
    have h : s.2 = none := h
    rw [h, if_pos rfl]
    show blockIn (Fin.cons 0 b) = none
    unfold blockIn
    rw [if_pos (Fin.cons_zero _ _)]
  open_s0 := rfl
  open_out _ _ _ _ h := absurd h List.not_mem_nil
  digest_out _ _ _ := rfl
  pad_injective _ _ h := List.head_eq_of_cons_eq h
  pad_ne_nil _ := List.cons_ne_nil _ _

theorem card_poseidonState : Fintype.card (Fin (n + 1) → F) = Fintype.card F ^ (n + 1) := by
  rw [Fintype.card_fun, Fintype.card_fin]

open Classical in
theorem card_badBlock (hn : 0 < n) (T : Tab Unit (Fin (n + 1) → F)) (d : Dir) (k : Unit) (v : Fin (n + 1) → F)
    (o : Option F) (ho : o ≠ none → d = .enc ∧ (libraryBlock F n).Ends k v) (hk : ¬ Known T d k v) :
    (Finset.univ.filter fun a => (libraryBlock F n).BadAns T d k v ((libraryBlock F n).patch k v o a)).card ≤
      Fintype.card F ^ n + T.length * Fintype.card F := by
  have hF : 0 < Fintype.card F := Fintype.card_pos_iff.2 ⟨0⟩
  cases d with
  | dec =>
    have h0 : o = none := by
      by_contra h
      cases (ho h).1
    subst h0
    refine le_trans (card_filter_mono (q := fun a => a 0 = 0 ∨ a ∈ T.map fun e => e.x) fun a ha => ?_)
      (le_trans card_filter_or_le (Nat.add_le_add ?_ ?_))
    · rcases ha with ha | ⟨e, he, _, ha⟩
      · have ha : blockIn a ∈ (libraryBlock F n).seen T := ha
        rcases Shape.mem_seen ha with h | ⟨e, he, h | h⟩
        · exact Or.inl (blockIn_none h)
        · have h : blockIn a = blockIn e.x := h
          cases hb : blockIn e.x with
          | none => rw [hb] at h; exact Or.inl (blockIn_none h)
          | some u =>
            rw [hb] at h
            have h1 := blockIn_some hb
            have h2 := blockIn_some h
            rw [h1] at h2
            exact Or.inr (List.mem_map.2 ⟨e, he, Sum.inl.inj h2⟩)
        · cases blockIn_some (show blockIn a = some (.inr e.x) from h)
      · exact Or.inr (List.mem_map.2 ⟨e, he, ha⟩)
    · have hc : Fintype.card (Fin n → F) = Fintype.card F ^ n := by rw [Fintype.card_fun, Fintype.card_fin]
      rw [← hc]
      refine card_filter_le_of_inj (fun a i => a i.succ) fun a b ha hb hab => ?_
      funext i
      refine Fin.cases (ha.trans hb.symm) (fun i => congrFun hab i) i
    · refine le_trans (b := (T.map fun e => e.x).length * 1) (card_mem_le' (fun a => a) _ (fun t _ => ?_) _) ?_
      · exact card_filter_le_of_inj (Y := Unit) (fun _ => ()) fun a b ha hb _ => ha.trans hb.symm
      · rw [List.length_map]
        exact Nat.mul_le_mul (le_refl _) hF
  | enc =>
    refine le_trans (card_filter_mono (q := fun a => (libraryBlock F n).patch k v o a ∈ T.map fun e => e.y) fun a ha => ?_)
      (le_trans (b := (T.map fun e => e.y).length * Fintype.card F) (card_mem_le' _ _ (fun t _ => ?_) _) ?_)
    · rcases ha with ha | ⟨e, he, _, h⟩
      · exfalso
        have ha : some (Sum.inr v) ∈ (libraryBlock F n).seen T := ha
        rcases Shape.mem_seen ha with h | ⟨e, he, h | h⟩
        · cases h
        · cases blockIn_some (show blockIn e.x = some (.inr v) from h.symm)
        · have h : some (Sum.inr v) = some (Sum.inr e.x) := h
          exact hk ⟨e, he, rfl, (Sum.inr.inj (Option.some.inj h)).symm⟩
      · exact List.mem_map.2 ⟨e, he, h⟩
    · cases o with
      | none =>
        refine le_trans (card_filter_le_of_inj (Y := Unit) (fun _ => ()) fun a b ha hb _ => ?_) hF
        exact ha.trans hb.symm
      | some u =>
        refine card_filter_le_of_inj (fun a => (lastSplit F n a).1) fun a b ha hb hab => ?_
        have ha : (lastSplit F n).symm (u, (lastSplit F n a).2) = t := ha
        have hb : (lastSplit F n).symm (u, (lastSplit F n b).2) = t := hb
        have := (Prod.mk.inj ((lastSplit F n).symm.injective (ha.trans hb.symm))).2
        exact (lastSplit F n).injective (Prod.ext hab this)
    · rw [List.length_map]
      exact Nat.le_add_left _ _

theorem sum_block (c p q : Nat) : ((Shape.weight (fun i => c + i * p) 0 q : Nat) : ℚ) = (q : ℚ) * c + q * (q - 1) / 2 * p := by
  unfold Shape.weight
  induction q with
  | zero => simp
  | succ q ih =>
    rw [Finset.sum_range_succ, Nat.cast_add, ih, Nat.zero_add]
    push_cast
    ring

/-! ### C111 -/

/-- **C111.** For the Poseidon hash of the library on lists of at most one block (`rate` elements), over a random permutation of the
states: there is a simulator, asking the random oracle at most one digest for every query, such that a distinguisher of cost `N` tells
the library with the permutation from the random oracle (on blocks, filled up with zeros) with the simulator with an advantage of at
most `N / p + N (N - 1) / 2 / p^rate`. -/
theorem C111_indifferentiable (hn : 0 < n) :
    ∃ sim : Simulator (Fin n → F) F Unit (Fin (n + 1) → F),
      ∀ (P : Distinguisher (BlockCall F n) (Except Fault F) Unit (Fin (n + 1) → F)) (N : Nat), P.AtMost BlockCall.cost N →
        |prob (fun E => P.real (fun q => q.digest fun S => E () S) E = true) - P.idealChance BlockCall.message .ok sim| ≤
          (N : ℚ) / Fintype.card F + N * (N - 1) / 2 / Fintype.card F ^ n := by
  classical
  haveI : Nonempty F := ⟨0⟩
  refine ⟨(libraryBlock F n).simulator, fun P N hP => ?_⟩
  have hP' : P.AtMost (fun q => ((libraryBlock F n).pad q.message).length) N := hP
  have key := Shape.indifferentiable (S := libraryBlock F n) (msg := BlockCall.message) (wrap := Except.ok)
    (P := P) (w := fun i => Fintype.card F ^ n + i * Fintype.card F) (card_badBlock hn) (N := N) hP'
  have he : ∀ E : Cipher Unit (Fin (n + 1) → F), (fun q : BlockCall F n => q.digest fun S => E () S) =
      (libraryBlock F n).realDigest BlockCall.message Except.ok E := by
    intro E
    funext q
    exact q.digest_eq hn _
  simp only [he]
  refine le_trans key (le_of_eq ?_)
  have hF : (Fintype.card F : ℚ) ≠ 0 := Nat.cast_ne_zero.2 Fintype.card_ne_zero
  rw [card_poseidonState, sum_block, add_div]
  push_cast
  congr 1
  · rw [pow_succ, mul_comm, mul_div_mul_left _ _ (pow_ne_zero _ hF)]
  · rw [pow_succ, mul_div_mul_right _ _ hF]

/-! ### With a key in the block -/

variable {κ r : Nat}

/-- The lists that fit into a block behind a key of `κ` elements. -/
def BlockCall.withKey (k : Fin κ → F) (q : BlockCall F r) : BlockCall F (κ + r) :=
  ⟨List.ofFn k ++ q.1, by rw [List.length_append, List.length_ofFn]; have := q.2; omega⟩

omit [Fintype F] [DecidableEq F] in
theorem BlockCall.message_withKey (k : Fin κ → F) (q : BlockCall F r) : (q.withKey k).message = Fin.append k q.message := by
  funext i
  unfold BlockCall.message BlockCall.withKey
  refine Fin.addCases (fun i => ?_) (fun i => ?_) i
  · rw [Fin.append_left]
    show ((List.ofFn k ++ q.1)[i.val]?).getD 0 = _
    rw [List.getElem?_append_left (by rw [List.length_ofFn]; exact i.2), List.getElem?_ofFn, dif_pos i.2]
    rfl
  · rw [Fin.append_right]
    show ((List.ofFn k ++ q.1)[κ + i.val]?).getD 0 = _
    rw [List.getElem?_append_right (by rw [List.length_ofFn]; omega), List.length_ofFn, Nat.add_sub_cancel_left]

omit [CommRing F] [Fintype F] [DecidableEq F] in
theorem append_pair_injective (k k' : Fin κ → F) (m m' : Fin r → F) (h : Fin.append k m = Fin.append k' m') : k = k' ∧ m = m' := by
  constructor
  · funext i
    have := congrFun h (Fin.castAdd r i)
    rwa [Fin.append_left, Fin.append_left] at this
  · funext i
    have := congrFun h (Fin.natAdd κ i)
    rwa [Fin.append_right, Fin.append_right] at this

/-- **C111, codes.** With a secret key of `κ` elements in front, the digests of lists that fit into the block are told from a random
function with an advantage of at most `2 N / p + N (N - 1) / p^rate + N / p^κ`. -/
theorem C111_random (hr : 0 < κ + r) (P : Distinguisher (BlockCall F r) (Except Fault F) Unit (Fin (κ + r + 1) → F)) (N : Nat)
    (hP : P.AtMost BlockCall.cost N) :
    |(chance fun v : (Fin κ → F) × Cipher Unit (Fin (κ + r + 1) → F) =>
        P.real (fun q => (q.withKey v.1).digest fun S => v.2 () S) v.2 = true) -
      (chance fun v : ((Fin r → F) → F) × Cipher Unit (Fin (κ + r + 1) → F) => P.real (fun q => .ok (v.1 q.message)) v.2 = true)| ≤
      2 * ((N : ℚ) / Fintype.card F + N * (N - 1) / 2 / Fintype.card F ^ (κ + r)) + N / (Fintype.card F : ℚ) ^ κ := by
  haveI : Nonempty F := ⟨0⟩
  obtain ⟨sim, hs⟩ := C111_indifferentiable (F := F) hr
  letI := sim.fintype
  have := prf_close sim (Fin.append (α := F) (m := κ) (n := r)) append_pair_injective BlockCall.message Except.ok P N hP
    (fun k E q => (q.withKey k).digest fun S => E () S) (ε := (N : ℚ) / Fintype.card F + N * (N - 1) / 2 / Fintype.card F ^ (κ + r))
    (fun k => ?_) (fun G => ?_)
  · rw [Fintype.card_fun, Fintype.card_fin] at this
    push_cast at this
    convert this
  · have h1 := hs (onInput (BlockCall.withKey k) P) N (atMost_onInput _ (fun _ => rfl) P N hP)
    unfold Distinguisher.idealChance at h1
    simp only [real_onInput, ideal_onInput, BlockCall.message_withKey] at h1
    convert h1
  · have h2 := hs (fixed (BlockCall F (κ + r)) (fun q => Except.ok (G q.message)) P) N (atMost_fixed _ P N hP)
    unfold Distinguisher.idealChance at h2
    simp only [real_fixed, ideal_fixed] at h2
    convert h2

/-- **C111, codes.** So forging such a code succeeds with probability at most that and `1 / p`. -/
theorem C111_unforgeable (hr : 0 < κ + r) (A : Forger (BlockCall F r) (Except Fault F) Unit (Fin (κ + r + 1) → F)) (N : Nat)
    (hA : A.AtMost BlockCall.cost N) :
    (chance fun v : (Fin κ → F) × Cipher Unit (Fin (κ + r + 1) → F) =>
        A.Wins BlockCall.message (fun q => (q.withKey v.1).digest fun S => v.2 () S) v.2) ≤
      2 * ((N : ℚ) / Fintype.card F + N * (N - 1) / 2 / Fintype.card F ^ (κ + r)) + N / (Fintype.card F : ℚ) ^ κ +
        1 / Fintype.card F := by
  haveI : Nonempty F := ⟨0⟩
  refine unforgeable BlockCall.message (Except.ok : F → Except Fault F) (fun _ _ h => Except.ok.inj h) A
    (fun k (E : Cipher Unit (Fin (κ + r + 1) → F)) q => (q.withKey k).digest fun S => E () S) ?_
  convert C111_random hr (game BlockCall.message A []) N (game_atMost _ A _ N hA)

end

/-! ### Examples -/

/-- `[1, 2]` for the permutation `mix3` of three elements. -/
example : BlockCall.digest mix3 (⟨[1, 2], by decide⟩ : BlockCall (ZMod 13) 2) = .ok (mix3 (Fin.cons 0 fun i => [1, 2][i]) 2) := by
  rw [BlockCall.digest_eq (by decide)]
  decide +kernel

/-- Ask the hash of a block, recompute it with the permutation, and compare. -/
def recomputeBlock (b : BlockCall (ZMod 13) 2) : Distinguisher (BlockCall (ZMod 13) 2) (Except Fault (ZMod 13)) Unit (Fin 3 → ZMod 13) :=
  .hash b fun a => .ask .enc () (Fin.cons 0 b.message) fun y =>
    .done (match a with | .ok d => decide (d = y 2) | .error _ => false)

/-- It always says yes in the real world, so it says yes with probability at least `1 - 2/13 - 1/169` in front of the simulator. -/
example (b : BlockCall (ZMod 13) 2) : ∃ sim : Simulator (Fin 2 → ZMod 13) (ZMod 13) Unit (Fin 3 → ZMod 13),
    1 - 27 / 169 ≤ (recomputeBlock b).idealChance BlockCall.message .ok sim := by
  obtain ⟨sim, h⟩ := C111_indifferentiable (F := ZMod 13) (n := 2) (by decide)
  have := h (recomputeBlock b) 2 ⟨show 1 ≤ 2 by omega, fun a y => trivial⟩
  rw [prob_always, abs_le] at this
  · refine ⟨sim, ?_⟩
    have e : ((2 : Nat) : ℚ) / Fintype.card (ZMod 13) + (2 : Nat) * ((2 : Nat) - 1) / 2 / Fintype.card (ZMod 13) ^ 2 ≤ 27 / 169 := by
      rw [ZMod.card]
      norm_num
    exact sub_le_comm.1 (le_trans this.2 e)
  · intro E
    unfold recomputeBlock
    simp only [Distinguisher.real, BlockCall.digest_eq (show 0 < 2 by decide)]
    exact decide_eq_true rfl

/-- A field of at least `2^254` elements, a block of two, a key of one element, `2^80` queries. -/
example {F : Type} [CommRing F] [Fintype F] [DecidableEq F] (hF : 2 ^ 254 ≤ Fintype.card F)
    (A : Forger (BlockCall F 1) (Except Fault F) Unit (Fin (1 + 1 + 1) → F)) (hA : A.AtMost BlockCall.cost (2 ^ 80)) :
    (chance fun v : (Fin 1 → F) × Cipher Unit (Fin (1 + 1 + 1) → F) =>
      A.Wins BlockCall.message (fun q => (q.withKey v.1).digest fun S => v.2 () S) v.2) ≤ 1 / 2 ^ 172 := by
  have h := C111_unforgeable (κ := 1) (r := 1) (by decide) A _ hA
  have hq : (2 : ℚ) ^ 254 ≤ Fintype.card F := by exact_mod_cast hF
  have h2 : (2 : ℚ) ^ 254 * 2 ^ 254 ≤ (Fintype.card F : ℚ) ^ 2 := by
    rw [pow_two]
    exact mul_le_mul hq hq (by positivity) (by positivity)
  have e1 : (((2 ^ 80 : Nat)) : ℚ) / Fintype.card F ≤ 1 / 2 ^ 174 :=
    le_trans (div_le_div_of_nonneg_left (by positivity) (by positivity) hq) (by norm_num)
  have e2 : (((2 ^ 80 : Nat)) : ℚ) * (((2 ^ 80 : Nat)) - 1) / 2 / (Fintype.card F : ℚ) ^ 2 ≤ 1 / 2 ^ 254 :=
    le_trans (div_le_div_of_nonneg_left (by norm_num) (by positivity) h2) (by norm_num)
  have e3 : (1 : ℚ) / Fintype.card F ≤ 1 / 2 ^ 254 := div_le_div_of_nonneg_left (by positivity) (by positivity) hq
  refine le_trans h ?_
  rw [pow_one]
  have : (2 : ℚ) * (1 / 2 ^ 174 + 1 / 2 ^ 254) + 1 / 2 ^ 174 + 1 / 2 ^ 254 ≤ 1 / 2 ^ 172 := by norm_num
  linarith

end Verif.Props
