import Verif.Props.Poseidon
/-
C44 (digest of a list of elements, overloads), C45 (trailing zeros), and the reduction of collisions.
-/
namespace Verif.Props
open Spec.Poseidon

section
variable {F : Type} [CommRing F] {n : Nat}

/-- The sponge holds the chaining value `h` and the elements absorbed since the last permutation. -/
structure SpongeRep (h : F) (buf : List F) (s : Sponge F (n + 1)) : Prop where
  count : s.count = buf.length + 1
  fits : buf.length ≤ n
  state : s.state = input h buf

theorem ok_bind {α β : Type} (a : α) (f : α → Except Fault β) : (Except.ok a >>= f) = f a := rfl

theorem absorbAll_nil {t : Nat} [NeZero t] (perm : (Fin t → F) → Except Fault (Fin t → F)) (s : Sponge F t) :
    s.absorbAll perm [] = pure s := rfl

theorem absorbAll_cons {t : Nat} [NeZero t] (perm : (Fin t → F) → Except Fault (Fin t → F)) (s : Sponge F t) (x : F)
    (l : List F) : s.absorbAll perm (x :: l) = (s.absorb perm x >>= fun s => s.absorbAll perm l) :=
  List.foldlM_cons ..

theorem rep_init : SpongeRep (n := n) (0 : F) [] (Sponge.init F (n + 1)) := by
  refine ⟨rfl, by simp, ?_⟩
  funext i
  refine Fin.cases ?_ (fun i => ?_) i <;> simp [Sponge.init, input]

theorem rep_permute (P : (Fin (n + 1) → F) → Fin (n + 1) → F) {h : F} {buf : List F} {s : Sponge F (n + 1)}
    (hs : SpongeRep h buf s) :
    ∃ s', s.permute (fun A => .ok (P A)) = .ok s' ∧ SpongeRep (compress P h buf) [] s' := by
  refine ⟨_, rfl, rfl, by simp, ?_⟩
  funext i
  have hlast : (Fin.ofNat (n + 1) (n + 1 - 1)) = Fin.last n := by
    apply Fin.ext; simp [Fin.ofNat]
  refine Fin.cases ?_ (fun i => ?_) i
  · simp [input, compress, hs.state]
  · simp [input]

theorem update_input (h : F) (buf : List F) (x : F) (hb : buf.length + 1 < n + 1) :
    Function.update (input (n := n) h buf) ⟨buf.length + 1, hb⟩ x = input h (buf ++ [x]) := by
  funext i
  refine Fin.cases ?_ (fun i => ?_) i
  · rw [Function.update_of_ne (by intro h; have := congrArg Fin.val h; simp at this)]
    simp [input]
  · by_cases hi : i.val = buf.length
    · have : i.succ = ⟨buf.length + 1, hb⟩ := by apply Fin.ext; simp [hi]
      rw [this, Function.update_self]
      show x = Fin.cons (α := fun _ => F) h _ ⟨buf.length + 1, hb⟩
      rw [← this]
      simp [hi]
    · rw [Function.update_of_ne (by intro h; apply hi; simpa using congrArg Fin.val h)]
      simp only [input, Fin.cons_succ]
      by_cases hlt : i.val < buf.length
      · rw [List.getElem?_append_left hlt]
      · rw [List.getElem?_append_right (by omega), List.getElem?_eq_none (by omega : buf.length ≤ i.val),
          List.getElem?_eq_none (by simp; omega)]

theorem rep_absorb (hn : 0 < n) (P : (Fin (n + 1) → F) → Fin (n + 1) → F) {h : F} {buf : List F}
    {s : Sponge F (n + 1)} (hs : SpongeRep h buf s) (x : F) :
    ∃ s', s.absorb (fun A => .ok (P A)) x = .ok s' ∧
      SpongeRep (if buf.length = n then compress P h buf else h) (if buf.length = n then [x] else buf ++ [x]) s' := by
  unfold Sponge.absorb
  by_cases hb : buf.length = n
  · obtain ⟨s1, e1, r1⟩ := rep_permute P hs
    have hc : s.count = n + 1 := by rw [hs.count, hb]
    rw [if_pos hc, e1]
    have hlt : s1.count < n + 1 := by rw [r1.count]; simpa using hn
    refine ⟨⟨Function.update s1.state ⟨s1.count, hlt⟩ x, s1.count + 1⟩, ?_, ?_⟩
    · show (do let A ← setWord s1.state s1.count x; pure (Sponge.mk A (s1.count + 1))) = _
      rw [setWord, dif_pos hlt]; rfl
    · rw [if_pos hb, if_pos hb]
      refine ⟨by simp [r1.count], by simp; omega, ?_⟩
      have := update_input (n := n) (compress P h buf) [] x (by simpa using hn)
      simp only [List.nil_append] at this
      rw [← this]
      show Function.update s1.state _ x = _
      rw [r1.state]
      congr 1
      apply Fin.ext; simp [r1.count]
  · have hlt : s.count < n + 1 := by rw [hs.count]; have := hs.fits; omega
    rw [if_neg (by omega)]
    refine ⟨⟨Function.update s.state ⟨s.count, hlt⟩ x, s.count + 1⟩, ?_, ?_⟩
    · show (do let A ← setWord s.state s.count x; pure (Sponge.mk A (s.count + 1))) = _
      rw [setWord, dif_pos hlt]; rfl
    · rw [if_neg hb, if_neg hb]
      refine ⟨by simp [hs.count], by simp; have := hs.fits; omega, ?_⟩
      rw [← update_input h buf x (by have := hs.count; omega)]
      show Function.update s.state _ x = _
      rw [hs.state]
      congr 1
      apply Fin.ext; simp [hs.count]

theorem blocks_short (l : List F) (h : l.length ≤ n) : blocks n l = [l] := by
  rw [blocks, dif_pos (Or.inl h)]

theorem blocks_long (hn : 0 < n) (l l' : List F) (h : l.length = n) (h' : l' ≠ []) :
    blocks n (l ++ l') = l :: blocks n l' := by
  have : 0 < l'.length := List.length_pos_iff.2 h'
  rw [blocks, dif_neg (by simp only [List.length_append]; omega), List.take_left' h, List.drop_left' h]

theorem rep_absorbAll (hn : 0 < n) (P : (Fin (n + 1) → F) → Fin (n + 1) → F) (l : List F) {h : F} {buf : List F}
    {s : Sponge F (n + 1)} (hs : SpongeRep h buf s) :
    ∃ s' h' buf', s.absorbAll (fun A => .ok (P A)) l = .ok s' ∧ SpongeRep h' buf' s' ∧
      compress P h' buf' = (blocks n (buf ++ l)).foldl (compress P) h := by
  induction l generalizing h buf s with
  | nil =>
    refine ⟨s, h, buf, rfl, hs, ?_⟩
    rw [List.append_nil, blocks_short _ hs.fits]; rfl
  | cons x l ih =>
    obtain ⟨s1, e1, r1⟩ := rep_absorb hn P hs x
    obtain ⟨s', h', buf', e2, r2, c2⟩ := ih r1
    refine ⟨s', h', buf', ?_, r2, ?_⟩
    · rw [absorbAll_cons, e1]; exact e2
    · rw [c2]
      by_cases hb : buf.length = n
      · rw [if_pos hb, if_pos hb, blocks_long hn buf (x :: l) hb (by simp)]
        rfl
      · rw [if_neg hb, if_neg hb, List.append_assoc]; rfl

theorem rep_squeeze (P : (Fin (n + 1) → F) → Fin (n + 1) → F) {h : F} {buf : List F}
    {s : Sponge F (n + 1)} (hs : SpongeRep h buf s) :
    ∃ s', s.squeeze (fun A => .ok (P A)) = .ok (s', compress P h buf) ∧ SpongeRep (compress P h buf) [] s' := by
  obtain ⟨s1, e1, r1⟩ := rep_permute P hs
  refine ⟨s1, ?_, r1⟩
  unfold Sponge.squeeze
  rw [e1]
  show Except.ok (s1, s1.state 0) = _
  rw [r1.state]; rfl

/-- **C44.** For every list of elements and every rate, hashing does not fail and gives the digest of the
specification: blocks of `rate` elements, the permutation after each, the last word carried over, zeros elsewhere. -/
theorem C44_digest (hn : 0 < n) (P : (Fin (n + 1) → F) → Fin (n + 1) → F) (l : List F) :
    poseidonHash (fun A => .ok (P A)) l = .ok (digest P l) := by
  obtain ⟨s, h, buf, e, r, c⟩ := rep_absorbAll hn P l rep_init
  obtain ⟨s', e', _⟩ := rep_squeeze P r
  unfold poseidonHash
  rw [e, ok_bind, e', ok_bind, c]
  rfl

/-- **C44, overloads.** The output iterator receives that digest; an initial element is hashed as the first element of
the list; a single element, and an element with an initial element, are lists of one and two. -/
theorem C44_overloads (hn : 0 < n) (P : (Fin (n + 1) → F) → Fin (n + 1) → F) :
    (∀ l w, poseidonHashOut (fun A => .ok (P A)) l w = .ok (w ++ [digest P l])) ∧
    (∀ l x, poseidonHashInitial (fun A => .ok (P A)) l x = .ok (digest P (x :: l))) ∧
    (∀ x y, poseidonHashPair (fun A => .ok (P A)) y x = .ok (digest P [x, y])) ∧
    (∀ x, poseidonHashSingle (fun A => .ok (P A)) x = .ok (digest P [x])) := by
  have key : ∀ l, ∃ s s', (Sponge.init F (n + 1)).absorbAll (fun A => .ok (P A)) l = .ok s ∧
      s.squeeze (fun A => .ok (P A)) = .ok (s', digest P l) := by
    intro l
    obtain ⟨s, h, buf, e, r, c⟩ := rep_absorbAll hn P l rep_init
    obtain ⟨s', e', _⟩ := rep_squeeze P r
    refine ⟨s, s', e, ?_⟩
    rw [e', c]; rfl
  refine ⟨fun l w => ?_, fun l x => ?_, fun x y => ?_, fun x => ?_⟩
  · obtain ⟨s, s', e, e'⟩ := key l
    unfold poseidonHashOut
    rw [e, ok_bind, e']; rfl
  · rw [← C44_digest hn P (x :: l)]
    unfold poseidonHashInitial poseidonHash
    rw [absorbAll_cons, bind_assoc]
  · rw [← C44_digest hn P [x, y]]
    unfold poseidonHashPair poseidonHash
    simp only [absorbAll_cons, absorbAll_nil, bind_assoc, pure_bind]
  · rw [← C44_digest hn P [x]]
    unfold poseidonHashSingle poseidonHash
    simp only [absorbAll_cons, absorbAll_nil, bind_assoc, pure_bind]

/-- One use of the sponge after another: absorb a list, squeeze, absorb the next, … -/
def runSegments {t : Nat} [NeZero t] (perm : (Fin t → F) → Except Fault (Fin t → F)) :
    Sponge F t → List (List F) → Except Fault (List F)
  | _, [] => .ok []
  | s, l :: ls => do
    let s ← s.absorbAll perm l
    let r ← s.squeeze perm
    let ys ← runSegments perm r.1 ls
    pure (r.2 :: ys)

/-- The outputs that are specified for that: each digest starts from the one before. -/
def segmentDigests (P : (Fin (n + 1) → F) → Fin (n + 1) → F) : F → List (List F) → List F
  | _, [] => []
  | h, l :: ls =>
    let y := (blocks n l).foldl (compress P) h
    y :: segmentDigests P y ls

/-- **C44, any use.** For every interleaving of `absorb` and `squeeze` the outputs are those of the chain in which each
squeeze closes a (possibly incomplete or empty) block and its output starts the next one. -/
theorem C44_interleaved (hn : 0 < n) (P : (Fin (n + 1) → F) → Fin (n + 1) → F) (ls : List (List F)) :
    runSegments (fun A => .ok (P A)) (Sponge.init F (n + 1)) ls = .ok (segmentDigests P 0 ls) := by
  have key : ∀ (ls : List (List F)) (h : F) (s : Sponge F (n + 1)), SpongeRep h [] s →
      runSegments (fun A => .ok (P A)) s ls = .ok (segmentDigests P h ls) := by
    intro ls
    induction ls with
    | nil => intro h s _; rfl
    | cons l ls ih =>
      intro h s hs
      obtain ⟨s1, h1, buf1, e1, r1, c1⟩ := rep_absorbAll hn P l hs
      obtain ⟨s2, e2, r2⟩ := rep_squeeze P r1
      rw [runSegments, e1, ok_bind, e2, ok_bind]
      simp only
      rw [ih _ _ r2, c1]
      rfl
  exact key ls 0 _ rep_init

/-- **C44, the library.** With the permutation of the library, for any policy whose capacity is one and whose rate is
not zero. -/
theorem C44_library (P : PoseidonPolicy) (hcap : P.capacity = 1) (hr : 0 < P.rate)
    (D : PoseidonData F (P.rate + 1)) (hD : P.fullRounds + P.partRounds ≤ D.rounds) (l : List F) :
    P.stateWords = P.rate + 1 ∧
    poseidonHash (poseidonPermute P D) l = .ok (digest (n := P.rate) (perm
      ((if P.mina then roundMina else roundOrig) P.sboxPower (Matrix.of D.mds) D.rc) P.fullRounds P.partRounds) l) := by
  refine ⟨by rw [PoseidonPolicy.stateWords, hcap], ?_⟩
  rw [← C44_digest hr]
  congr 1
  funext A
  exact C43_permutation P D hD A

/-- With a rate of zero (`poseidon_policy<F, 256, 0>` exists) absorbing writes past the end of the state. -/
theorem C44_rate_zero (P : (Fin 1 → F) → Fin 1 → F) (x : F) (l : List F) :
    poseidonHash (t := 1) (fun A => .ok (P A)) (x :: l) = .error .outOfRange := rfl

end

/-- The digest of `[3, 5, 7]` at rate two over the field with 13 elements, with a toy permutation. -/
example : poseidonHash (t := 3) (fun A => .ok (fun i : Fin 3 => (A 0 + 2 * A 1 + 3 * A 2 + (i.val : ZMod 13))))
    [3, 5, (7 : ZMod 13)] = .ok ((2 * 3 + 3 * 5 + 2) + 2 * 7 + 2) := by
  rw [C44_digest (by decide)]
  congr 1
  rw [digest, show [3, 5, (7 : ZMod 13)] = [3, 5] ++ [7] from rfl, blocks_long (n := 2) (by decide) _ _ rfl (by simp),
    blocks_short _ (by decide)]
  decide +kernel

section
variable {F : Type} [CommRing F] {n : Nat}

/-- A block with its zeros. -/
def padBlock (n : Nat) (b : List F) : List F := b ++ List.replicate (n - b.length) 0

theorem blocks_fit (hn : 0 < n) (l : List F) : ∀ b ∈ blocks n l, b.length ≤ n := by
  induction l using blocks.induct (n := n) with
  | case1 l h =>
    intro b hb
    rw [blocks, dif_pos h] at hb
    rw [List.mem_singleton.1 hb]; omega
  | case2 l h ih =>
    intro b hb
    rw [blocks, dif_neg h] at hb
    rcases List.mem_cons.1 hb with rfl | hb
    · simp
    · exact ih b hb

theorem blocks_pad (hn : 0 < n) (l : List F) : ((blocks n l).map (padBlock n)).flatten = zeroPad n l := by
  induction l using blocks.induct (n := n) with
  | case1 l h =>
    rw [blocks, dif_pos h]
    have hl : l.length ≤ n := by omega
    simp only [List.map_cons, List.map_nil, List.flatten_cons, List.flatten_nil, List.append_nil, padBlock, zeroPad]
    congr 2
    by_cases he : l = []
    · simp [he]
    · have : 0 < l.length := List.length_pos_iff.2 he
      rw [if_neg he, show l.length + n - 1 = (l.length - 1) + n by omega, Nat.add_div_right _ hn,
        Nat.div_eq_of_lt (show l.length - 1 < n by omega)]
      simp
  | case2 l h ih =>
    rw [blocks, dif_neg h]
    have hl : n < l.length := by omega
    simp only [List.map_cons, List.flatten_cons, ih]
    have hne : l.drop n ≠ [] := by
      intro h0; have := congrArg List.length h0; simp at this; omega
    have hne' : l ≠ [] := by intro h0; simp [h0] at hl
    rw [padBlock, List.length_take, Nat.min_eq_left hl.le, Nat.sub_self, List.replicate_zero, List.append_nil,
      zeroPad, zeroPad, if_neg hne, if_neg hne', List.length_drop, ← List.append_assoc, List.take_append_drop]
    congr 2
    rw [show l.length + n - 1 = (l.length - n + n - 1) + n by omega, Nat.add_div_right _ hn, Nat.succ_mul]
    omega

theorem flatten_inj (n : Nat) (hn : 0 < n) (L L' : List (List F)) (h : ∀ b ∈ L, b.length = n)
    (h' : ∀ b ∈ L', b.length = n) (e : L.flatten = L'.flatten) : L = L' := by
  induction L generalizing L' with
  | nil =>
    cases L' with
    | nil => rfl
    | cons b L' =>
      have := h' b (by simp)
      have e := congrArg List.length e
      simp at e; omega
  | cons a L ih =>
    cases L' with
    | nil =>
      have ha := h a (by simp)
      have e := congrArg List.length e
      simp only [List.flatten_cons, List.length_append, List.flatten_nil, List.length_nil] at e
      omega
    | cons b L' =>
      have ha := h a (by simp)
      have hb := h' b (by simp)
      rw [List.flatten_cons, List.flatten_cons] at e
      obtain ⟨e1, e2⟩ := List.append_inj e (by omega)
      rw [e1, ih L' (fun b hb => h b (by simp [hb])) (fun b hb => h' b (by simp [hb])) e2]

theorem padBlock_length (b : List F) (h : b.length ≤ n) : (padBlock n b).length = n := by
  simp [padBlock]; omega

theorem input_inj (h h' : F) (b b' : List F) (hb : b.length ≤ n) (hb' : b'.length ≤ n) :
    input (n := n) h b = input h' b' ↔ h = h' ∧ padBlock n b = padBlock n b' := by
  have get : ∀ (b : List F) (i : Nat), i < n → (padBlock n b)[i]? = some ((b[i]?).getD 0) := by
    intro b i hi
    unfold padBlock
    by_cases hlt : i < b.length
    · rw [List.getElem?_append_left hlt, List.getElem?_eq_getElem hlt]; rfl
    · rw [List.getElem?_append_right (by omega), List.getElem?_eq_none (by omega : b.length ≤ i),
        List.getElem?_replicate, if_pos (by omega)]; rfl
  constructor
  · intro e
    have e0 := congrFun e 0
    refine ⟨by simpa [input] using e0, ?_⟩
    apply List.ext_getElem?
    intro i
    by_cases hi : i < n
    · have e1 := congrFun e (Fin.succ ⟨i, hi⟩)
      simp only [input, Fin.cons_succ] at e1
      rw [get _ _ hi, get _ _ hi, e1]
    · rw [List.getElem?_eq_none (by rw [padBlock_length _ hb]; omega),
        List.getElem?_eq_none (by rw [padBlock_length _ hb']; omega)]
  · rintro ⟨rfl, e⟩
    funext i
    refine Fin.cases rfl (fun i => ?_) i
    simp only [input, Fin.cons_succ]
    have := congrArg (fun l => l[i.val]?) e
    simp only [get _ _ i.isLt] at this
    exact Option.some.inj this

theorem inputsFrom_congr (P : (Fin (n + 1) → F) → Fin (n + 1) → F) (h : F) (L L' : List (List F))
    (hL : ∀ b ∈ L, b.length ≤ n) (hL' : ∀ b ∈ L', b.length ≤ n) :
    inputsFrom P h L = inputsFrom P h L' ↔ L.map (padBlock n) = L'.map (padBlock n) := by
  induction L generalizing h L' with
  | nil => cases L' <;> simp [inputsFrom]
  | cons a L ih =>
    cases L' with
    | nil => simp [inputsFrom]
    | cons b L' =>
      have key : input (n := n) h a = input h b ↔ padBlock n a = padBlock n b := by
        rw [input_inj h h a b (hL a (by simp)) (hL' b (by simp))]; simp
      simp only [inputsFrom, List.map_cons, List.cons.injEq, key]
      constructor
      · rintro ⟨e1, e2⟩
        refine ⟨e1, ?_⟩
        rw [show compress P h a = compress P h b by rw [compress, compress, key.2 e1]] at e2
        exact (ih _ L' (fun b hb => hL b (by simp [hb])) (fun b hb => hL' b (by simp [hb]))).1 e2
      · rintro ⟨e1, e2⟩
        refine ⟨e1, ?_⟩
        rw [show compress P h a = compress P h b by rw [compress, compress, key.2 e1]]
        exact (ih _ L' (fun b hb => hL b (by simp [hb])) (fun b hb => hL' b (by simp [hb]))).2 e2

theorem map_pad_iff (hn : 0 < n) (l l' : List F) :
    (blocks n l).map (padBlock n) = (blocks n l').map (padBlock n) ↔ zeroPad n l = zeroPad n l' := by
  rw [← blocks_pad hn, ← blocks_pad hn]
  refine ⟨fun e => by rw [e], flatten_inj n hn _ _ ?_ ?_⟩
  · intro b hb
    obtain ⟨c, hc, rfl⟩ := List.mem_map.1 hb
    exact padBlock_length _ (blocks_fit hn l c hc)
  · intro b hb
    obtain ⟨c, hc, rfl⟩ := List.mem_map.1 hb
    exact padBlock_length _ (blocks_fit hn l' c hc)

/-- The digest is the last word of the permutation of the last input. -/
theorem digest_inputs (P : (Fin (n + 1) → F) → Fin (n + 1) → F) (h : F) (L : List (List F)) (hL : L ≠ []) :
    some (L.foldl (compress P) h) = (inputsFrom P h L).getLast?.map (fun x => P x (Fin.last n)) := by
  induction L generalizing h with
  | nil => exact absurd rfl hL
  | cons a L ih =>
    cases L with
    | nil => rfl
    | cons b L =>
      rw [List.foldl_cons, ih _ (by simp)]
      simp only [inputsFrom, List.getLast?_cons_cons]

theorem blocks_ne_nil (l : List F) : blocks n l ≠ [] := by
  rw [blocks]; split <;> simp

/-- **C45, exactly which lists are identified.** Two lists hand the same states to the permutation exactly when they
agree after filling up with zeros to a whole number of blocks; then their digests agree whatever the permutation is. -/
theorem C45_exact (hn : 0 < n) (P : (Fin (n + 1) → F) → Fin (n + 1) → F) (l l' : List F) :
    inputs P l = inputs P l' ↔ zeroPad n l = zeroPad n l' := by
  rw [inputs, inputs, inputsFrom_congr P 0 _ _ (blocks_fit hn l) (blocks_fit hn l'), map_pad_iff hn]

theorem C45_same_digest (P : (Fin (n + 1) → F) → Fin (n + 1) → F) (l l' : List F)
    (h : inputs P l = inputs P l') : digest P l = digest P l' := by
  have h1 := digest_inputs P 0 _ (blocks_ne_nil (n := n) l)
  have h2 := digest_inputs P 0 _ (blocks_ne_nil (n := n) l')
  rw [show inputsFrom P 0 (blocks n l) = inputsFrom P 0 (blocks n l') from h, ← h2] at h1
  exact Option.some.inj h1

/-- **C45 is false.** For every permutation and every rate the empty list and `[0]` have the same digest, and so do
`l` and `l ++ [0]` whenever the last block of `l` is not full. -/
theorem C45_false (hn : 0 < n) (P : (Fin (n + 1) → F) → Fin (n + 1) → F) :
    (inputs P [] = inputs P [(0 : F)] ∧
      poseidonHash (fun A => .ok (P A)) [] = poseidonHash (fun A => .ok (P A)) [(0 : F)]) ∧
    ∀ l : List F, l.length % n ≠ 0 → inputs P l = inputs P (l ++ [0]) ∧
      poseidonHash (fun A => .ok (P A)) l = poseidonHash (fun A => .ok (P A)) (l ++ [0]) := by
  have key : ∀ l l' : List F, zeroPad n l = zeroPad n l' → inputs P l = inputs P l' ∧
      poseidonHash (fun A => .ok (P A)) l = poseidonHash (fun A => .ok (P A)) l' := by
    intro l l' h
    have hi := (C45_exact hn P l l').2 h
    exact ⟨hi, by rw [C44_digest hn, C44_digest hn, C45_same_digest P l l' hi]⟩
  constructor
  · apply key
    simp only [zeroPad, List.length_nil, List.length_singleton, List.nil_append, if_true]
    rw [if_neg (by simp), Nat.add_sub_cancel_left, Nat.div_self hn, one_mul, Nat.sub_zero,
      ← List.replicate_one (a := (0 : F)), ← List.replicate_add]
    congr 1; omega
  · intro l hl
    apply key
    have hne : l ≠ [] := by intro h; simp [h] at hl
    rw [zeroPad, zeroPad, if_neg hne, if_neg (by simp), List.append_assoc]
    congr 1
    rw [← List.replicate_one (a := (0 : F)), ← List.replicate_add, List.length_append, List.length_replicate]
    congr 1
    have hpos : 0 < l.length % n := Nat.pos_of_ne_zero hl
    have hlt : l.length % n < n := Nat.mod_lt _ hn
    have hd := Nat.div_add_mod l.length n
    have c1 : (l.length + n - 1) / n = l.length / n + 1 := by
      rw [show l.length + n - 1 = (l.length % n - 1) + n * (l.length / n + 1) by rw [Nat.mul_add]; omega,
        Nat.add_mul_div_left _ _ hn, Nat.div_eq_of_lt (show l.length % n - 1 < n by omega), Nat.zero_add]
    have c2 : (l.length + 1 + n - 1) / n = l.length / n + 1 := by
      rw [show l.length + 1 + n - 1 = l.length % n + n * (l.length / n + 1) by rw [Nat.mul_add]; omega,
        Nat.add_mul_div_left _ _ hn, Nat.div_eq_of_lt hlt, Nat.zero_add]
    rw [c1, c2, Nat.succ_mul, Nat.mul_comm (l.length / n) n]
    omega

/-- **C45, what holds.** Lists of the same length, and lists that fill their blocks, are never identified. -/
theorem C45_partial (hn : 0 < n) (P : (Fin (n + 1) → F) → Fin (n + 1) → F) (l l' : List F)
    (hl : l.length = l'.length ∨ (l ≠ [] ∧ l' ≠ [] ∧ l.length % n = 0 ∧ l'.length % n = 0))
    (h : inputs P l = inputs P l') : l = l' := by
  have hz := (C45_exact hn P l l').1 h
  have full : ∀ l : List F, l ≠ [] → l.length % n = 0 → zeroPad n l = l := by
    intro l hne hm
    rw [zeroPad, if_neg hne]
    have hd := Nat.div_add_mod l.length n
    have : (l.length + n - 1) / n = l.length / n := by
      rw [show l.length + n - 1 = (n - 1) + n * (l.length / n) by omega, Nat.add_mul_div_left _ _ hn,
        Nat.div_eq_of_lt (show n - 1 < n by omega), Nat.zero_add]
    rw [this, Nat.mul_comm, show n * (l.length / n) - l.length = 0 by omega]
    simp
  rcases hl with hl | ⟨h1, h2, h3, h4⟩
  · rw [zeroPad, zeroPad] at hz
    exact List.append_inj_left hz hl
  · rwa [full l h1 h3, full l' h2 h4] at hz

theorem chain_collision (P : (Fin (n + 1) → F) → Fin (n + 1) → F) (L L' : List (List F))
    (hL : ∀ b ∈ L, b.length ≤ n) (hL' : ∀ b ∈ L', b.length ≤ n)
    (hne : L.map (padBlock n) ≠ L'.map (padBlock n))
    (e : L.foldl (compress P) 0 = L'.foldl (compress P) 0) :
    (∃ x ∈ inputsFrom P 0 L, ∃ y ∈ inputsFrom P 0 L', x ≠ y ∧ P x (Fin.last n) = P y (Fin.last n)) ∨
    (L.length ≠ L'.length ∧
      ((∃ x ∈ inputsFrom P 0 L, P x (Fin.last n) = 0) ∨ ∃ x ∈ inputsFrom P 0 L', P x (Fin.last n) = 0)) := by
  have snoc : ∀ (M : List (List F)) (b : List F) (h : F), inputsFrom P h (M ++ [b])
      = inputsFrom P h M ++ [input (M.foldl (compress P) h) b] := by
    intro M
    induction M with
    | nil => intro b h; rfl
    | cons a M ih => intro b h; simp only [List.cons_append, inputsFrom, List.foldl_cons, ih]
  induction L using List.reverseRecOn generalizing L' with
  | nil =>
    rcases List.eq_nil_or_concat L' with rfl | ⟨M, b, rfl⟩
    · exact absurd rfl hne
    · refine Or.inr ⟨by simp, Or.inr ⟨input (M.foldl (compress P) 0) b, ?_, ?_⟩⟩
      · rw [List.concat_eq_append, snoc]; simp
      · rw [List.concat_eq_append, List.foldl_append] at e; exact e.symm
  | append_singleton L a ih =>
    rcases List.eq_nil_or_concat L' with rfl | ⟨M, b, rfl⟩
    · refine Or.inr ⟨by simp, Or.inl ⟨input (L.foldl (compress P) 0) a, ?_, ?_⟩⟩
      · rw [snoc]; simp
      · rw [List.foldl_append] at e; exact e
    · rw [List.concat_eq_append] at *
      rw [List.foldl_append, List.foldl_append] at e
      change P (input (L.foldl (compress P) 0) a) _ = P (input (M.foldl (compress P) 0) b) _ at e
      rw [snoc, snoc]
      by_cases hin : input (n := n) (L.foldl (compress P) 0) a = input (M.foldl (compress P) 0) b
      · obtain ⟨e1, e2⟩ := (input_inj _ _ a b (hL a (by simp)) (hL' b (by simp))).1 hin
        have hne' : L.map (padBlock n) ≠ M.map (padBlock n) := by
          intro h; apply hne; simp [h, e2]
        rcases ih M (fun b hb => hL b (by simp [hb])) (fun b hb => hL' b (by simp [hb])) hne' e1 with
          ⟨x, hx, y, hy, h⟩ | ⟨hlen, h⟩
        · exact Or.inl ⟨x, by simp [hx], y, by simp [hy], h⟩
        · refine Or.inr ⟨by simpa using hlen, ?_⟩
          rcases h with ⟨x, hx, h⟩ | ⟨x, hx, h⟩
          · exact Or.inl ⟨x, by simp [hx], h⟩
          · exact Or.inr ⟨x, by simp [hx], h⟩
      · exact Or.inl ⟨_, by simp, _, by simp, hin, e⟩

/-- **C45, all other collisions.** If two lists that differ after filling up with zeros have the same digest, then two
different states among those that were permuted have the same last word after the permutation; or the numbers of blocks
differ and a permuted state has last word zero, the starting value. -/
theorem C45_collision (hn : 0 < n) (P : (Fin (n + 1) → F) → Fin (n + 1) → F) (l l' : List F)
    (hz : zeroPad n l ≠ zeroPad n l')
    (h : poseidonHash (fun A => .ok (P A)) l = poseidonHash (fun A => .ok (P A)) l') :
    (∃ x ∈ inputs P l, ∃ y ∈ inputs P l', x ≠ y ∧ P x (Fin.last n) = P y (Fin.last n)) ∨
    ((blocks n l).length ≠ (blocks n l').length ∧
      ((∃ x ∈ inputs P l, P x (Fin.last n) = 0) ∨ ∃ x ∈ inputs P l', P x (Fin.last n) = 0)) := by
  rw [C44_digest hn, C44_digest hn] at h
  exact chain_collision P _ _ (blocks_fit hn l) (blocks_fit hn l') (fun e => hz ((map_pad_iff hn l l').1 e))
    (Except.ok.inj h)

end

/-- `[1]` and `[1, 0]` collide at rate two, whatever the permutation. -/
example (P : (Fin 3 → ZMod 13) → Fin 3 → ZMod 13) :
    poseidonHash (t := 3) (fun A => .ok (P A)) [(1 : ZMod 13)]
      = poseidonHash (t := 3) (fun A => .ok (P A)) [(1 : ZMod 13), 0] :=
  ((C45_false (by decide) P).2 [1] (by decide)).2

/-- Lists of the same length to which `C45_partial` applies. -/
example : ([1, 2, 3] : List (ZMod 13)).length = ([1, 2, 4] : List (ZMod 13)).length := rfl

/-- A toy permutation of three elements. -/
def spin (A : Fin 3 → ZMod 7) : Fin 3 → ZMod 7 := ![A 1 + 1, A 2 + 3 * A 0, A 0 * A 0]

example := C44_overloads (n := 2) (by decide) spin

example : runSegments (fun A => .ok (spin A)) (Sponge.init (ZMod 7) 3) [[1, 2, 3], [4], []] =
    .ok (segmentDigests spin 0 [[1, 2, 3], [4], []]) := C44_interleaved (n := 2) (by decide) spin _

/-- A trailing zero changes nothing. -/
example : digest spin [1, 2, 3] = digest spin [1, 2, 3, 0] :=
  C45_same_digest (n := 2) spin _ _ ((C45_exact (by decide) spin _ _).2 (by decide))

/-- A toy policy: rate two, exponent 5, four full rounds and three partial ones. -/
example (D : PoseidonData (ZMod 7) 3) (hD : D = ⟨fun i j => (i.val + 2 * j.val : Nat), 7, fun r _ => r⟩) (l : List (ZMod 7)) :
    poseidonHash (poseidonPermute ⟨2, 1, 5, 4, 3, false⟩ D) l =
      .ok (digest (n := 2) (perm (roundOrig 5 (Matrix.of D.mds) D.rc) 4 3) l) :=
  (C44_library ⟨2, 1, 5, 4, 3, false⟩ rfl (by decide) D (by rw [hD]; decide) l).2

end Verif.Props
