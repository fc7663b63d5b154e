import Mathlib.Data.ZMod.Basic
import Mathlib.Tactic.Ring
import Mathlib.Tactic.Linarith
import Verif.Props.PoseidonSponge
/-
C46 (containers of machine words).
-/
namespace Verif.Props
open Spec.Poseidon

section
variable {F : Type} [CommRing F] {t : Nat} [NeZero t] (perm : (Fin t → F) → Except Fault (Fin t → F))

theorem fromDigits_snoc (w : Nat) (ds : List Int) (d : Int) :
    fromDigits w (ds ++ [d]) = fromDigits w ds * 2 ^ w + d := by
  simp [fromDigits]

/-- What `absorb` does after its loop. -/
def finishWords (wordBits : Nat) (st : Sponge F t × F × Nat) : Except Fault F := do
  let s ← if st.2.2 ≠ wordBits then st.1.absorb perm st.2.1 else pure st.1
  let r ← s.squeeze perm
  pure r.2

/-- Absorb a list of elements and squeeze. -/
def absorbSqueeze (s : Sponge F t) (l : List F) : Except Fault F := do
  let s ← s.absorbAll perm l
  let r ← s.squeeze perm
  pure r.2

theorem pack_short (k w : Nat) (ds : List Int) (h : ds.length ≤ k) (hne : ds ≠ []) :
    pack k w ds = [fromDigits w ds] := by
  rw [pack, if_neg hne, blocks_short _ h]; rfl

theorem pack_long (k w : Nat) (hk : 0 < k) (ds es : List Int) (h : ds.length = k) (hne : es ≠ []) :
    pack k w (ds ++ es) = fromDigits w ds :: pack k w es := by
  rw [pack, if_neg (by simp [hne]), blocks_long hk ds es h hne, pack, if_neg hne]; rfl

theorem wordsLoop (wordBits w : Nat) (hw : 0 < w) (hw32 : w < 32) (hle : w ≤ wordBits) (words : List Int)
    (s : Sponge F t) (cur : List Int) (hcur : cur.length ≤ wordBits / w) :
    (words.foldlM (absorbWordStep perm wordBits w) (s, ((fromDigits w cur : Int) : F), wordBits - w * cur.length)
      >>= finishWords perm wordBits)
    = absorbSqueeze perm s ((pack (wordBits / w) w (cur ++ words)).map fun z => ((z : Int) : F)) := by
  have hk : 0 < wordBits / w := Nat.div_pos hle hw
  have hmul : w * (wordBits / w) ≤ wordBits := Nat.mul_div_le wordBits w
  have hlt : wordBits < w * (wordBits / w) + w := by
    have := Nat.lt_mul_div_succ wordBits hw; rwa [Nat.mul_add, Nat.mul_one] at this
  induction words generalizing s cur with
  | nil =>
    show finishWords perm wordBits _ = _
    rw [List.append_nil]
    have hc : w * cur.length ≤ w * (wordBits / w) := Nat.mul_le_mul_left _ hcur
    by_cases hne : cur = []
    · subst hne
      simp [finishWords, absorbSqueeze, pack, absorbAll_nil]
    · have hpos : 0 < w * cur.length := Nat.mul_pos hw (List.length_pos_iff.2 hne)
      rw [pack_short _ _ _ hcur hne]
      simp only [finishWords, absorbSqueeze, List.map_cons, List.map_nil, absorbAll_cons, absorbAll_nil, bind_assoc,
        pure_bind]
      rw [if_pos (by omega)]
  | cons d words ih =>
    have hc : w * cur.length ≤ w * (wordBits / w) := Nat.mul_le_mul_left _ hcur
    rw [List.foldlM_cons, bind_assoc]
    by_cases hfull : cur.length = wordBits / w
    · have hlow : wordBits - w * cur.length < w := by rw [hfull]; omega
      rw [pack_long _ _ hk cur (d :: words) hfull (by simp)]
      simp only [absorbWordStep, hlow, if_true, bind_assoc, pure_bind, intShl1, hw32, ok_bind, absorbSqueeze,
        List.map_cons, absorbAll_cons]
      apply bind_congr
      intro s1
      have := ih s1 [d] hk
      simp only [absorbSqueeze, List.singleton_append] at this
      rw [← this]
      simp [fromDigits]
    · have hlt' : cur.length + 1 ≤ wordBits / w := by omega
      have hc' : w * (cur.length + 1) ≤ w * (wordBits / w) := Nat.mul_le_mul_left _ hlt'
      rw [Nat.mul_add, Nat.mul_one] at hc'
      have hlow : ¬ wordBits - w * cur.length < w := by omega
      have := ih s (cur ++ [d]) (by simpa using hlt')
      rw [List.append_assoc, List.singleton_append] at this
      rw [← this]
      simp only [absorbWordStep, hlow, if_false, bind_assoc, pure_bind, intShl1, hw32, if_true, ok_bind]
      rw [fromDigits_snoc, List.length_append, List.length_singleton, Nat.mul_add, Nat.mul_one, Nat.sub_sub]
      push_cast
      rfl

theorem absorbWords_eq (wordBits w : Nat) (hw : 0 < w) (hw32 : w < 32) (hle : w ≤ wordBits) (s : Sponge F t)
    (words : List Int) :
    absorbWords perm wordBits w s words
      = absorbSqueeze perm s ((pack (wordBits / w) w words).map fun z => ((z : Int) : F)) := by
  have := wordsLoop perm wordBits w hw hw32 hle words s [] (by simp)
  rw [List.nil_append] at this
  rw [← this]
  have h0 : ((fromDigits w [] : Int) : F) = 0 := by simp [fromDigits]
  rw [h0, List.length_nil, Nat.mul_zero, Nat.sub_zero]
  simp only [absorbWords, hle]
  rfl

/-- **C46, words below 32 bits.** The container is hashed as the list of elements whose base-`2^w` digits are
consecutive groups of `⌊word_bits / w⌋` words; with an initial element in front if there is one. -/
theorem C46_words (wordBits w : Nat) (hw : 0 < w) (hw32 : w < 32) (hle : w ≤ wordBits) (words : List Int) :
    poseidonHashWords perm wordBits w words
      = poseidonHash perm ((pack (wordBits / w) w words).map fun z => ((z : Int) : F)) ∧
    ∀ x, poseidonHashWordsInitial perm wordBits w words x
      = poseidonHashInitial perm ((pack (wordBits / w) w words).map fun z => ((z : Int) : F)) x := by
  refine ⟨absorbWords_eq perm wordBits w hw hw32 hle _ words, fun x => ?_⟩
  unfold poseidonHashWordsInitial poseidonHashInitial
  apply bind_congr
  intro s
  exact absorbWords_eq perm wordBits w hw hw32 hle _ words

/-- **C46 is false for words of 32 and 64 bits.** Any container that is not empty makes the code shift the `int` 1 by
its full width or more. -/
theorem C46_wide_false (wordBits w : Nat) (hw32 : 32 ≤ w) (hle : w ≤ wordBits) (d : Int) (words : List Int) :
    poseidonHashWords perm wordBits w (d :: words) = .error .shift := by
  have h1 : ¬ wordBits < w := by omega
  have h2 : ¬ w < 32 := by omega
  simp only [poseidonHashWords, absorbWords, hle, List.foldlM_cons, absorbWordStep, h1, intShl1, h2, if_false]
  rfl

/-- **C46 is false for the packing.** A zero word in front does not change the elements, so containers of different
lengths collide: for every word size of which two fit, and every permutation. -/
theorem C46_leading_zero_false (wordBits w : Nat) (hw : 0 < w) (hw32 : w < 32) (words : List Int) (hne : words ≠ [])
    (hlen : words.length < wordBits / w) :
    poseidonHashWords perm wordBits w (0 :: words) = poseidonHashWords perm wordBits w words := by
  have hle : w ≤ wordBits := by
    by_contra h
    rw [Nat.div_eq_of_lt (by omega)] at hlen
    omega
  rw [(C46_words perm wordBits w hw hw32 hle _).1, (C46_words perm wordBits w hw hw32 hle _).1,
    pack_short _ _ _ (by simp; omega) (by simp), pack_short _ _ _ (by omega) hne]
  simp [fromDigits]

end

/-- The words are in a range of `2 ^ w` consecutive integers: those of an unsigned or of a signed type. -/
def InRange (w : Nat) (lo : Int) (ds : List Int) : Prop := ∀ d ∈ ds, lo ≤ d ∧ d < lo + 2 ^ w

theorem digits_close (w : Nat) (lo : Int) (a b : List Int) (h : a.length = b.length) (ha : InRange w lo a)
    (hb : InRange w lo b) : |fromDigits w a - fromDigits w b| < 2 ^ (w * a.length) := by
  induction a using List.reverseRecOn generalizing b with
  | nil =>
    have : b = [] := List.length_eq_zero_iff.1 h.symm
    subst this; simp [fromDigits]
  | append_singleton a d ih =>
    rcases List.eq_nil_or_concat b with rfl | ⟨b, e, rfl⟩
    · simp at h
    rw [List.concat_eq_append] at *
    have h' : a.length = b.length := by simpa using h
    have hi := ih b h' (fun x hx => ha x (by simp [hx])) (fun x hx => hb x (by simp [hx]))
    have hd := ha d (by simp)
    have he := hb e (by simp)
    rw [fromDigits_snoc, fromDigits_snoc, List.length_append, List.length_singleton, Nat.mul_add, Nat.mul_one, pow_add]
    have hB : (0 : Int) < 2 ^ w := by positivity
    generalize (2 : Int) ^ (w * a.length) = T at hi ⊢
    generalize fromDigits w a = A at hi ⊢
    generalize fromDigits w b = C at hi ⊢
    generalize (2 : Int) ^ w = B at hd he hB ⊢
    rw [abs_lt] at hi ⊢
    constructor <;> nlinarith

theorem digits_inj (w : Nat) (lo : Int) (a b : List Int) (h : a.length = b.length) (ha : InRange w lo a)
    (hb : InRange w lo b) (e : fromDigits w a = fromDigits w b) : a = b := by
  induction a using List.reverseRecOn generalizing b with
  | nil => exact (List.length_eq_zero_iff.1 h.symm).symm
  | append_singleton a d ih =>
    rcases List.eq_nil_or_concat b with rfl | ⟨b, c, rfl⟩
    · simp at h
    rw [List.concat_eq_append] at *
    have h' : a.length = b.length := by simpa using h
    have hd := ha d (by simp)
    have hc := hb c (by simp)
    rw [fromDigits_snoc, fromDigits_snoc] at e
    have hB : (0 : Int) < 2 ^ w := by positivity
    have hAB : fromDigits w a = fromDigits w b := by
      generalize fromDigits w a = A at e ⊢
      generalize fromDigits w b = C at e ⊢
      generalize (2 : Int) ^ w = B at hd hc hB e
      rcases lt_trichotomy A C with hlt | heq | hgt
      · nlinarith
      · exact heq
      · nlinarith
    rw [ih b h' (fun x hx => ha x (by simp [hx])) (fun x hx => hb x (by simp [hx])) hAB]
    rw [hAB] at e
    simpa using e

theorem digits_field_inj (p w k : Nat) (hp : 2 ^ (w * k) ≤ p) (lo : Int) (a b : List Int) (h : a.length = b.length)
    (hk : a.length ≤ k) (ha : InRange w lo a) (hb : InRange w lo b)
    (e : ((fromDigits w a : Int) : ZMod p) = (fromDigits w b : Int)) : a = b := by
  apply digits_inj w lo a b h ha hb
  have hd := digits_close w lo a b h ha hb
  have hdvd : (p : Int) ∣ fromDigits w a - fromDigits w b := by
    rw [← ZMod.intCast_zmod_eq_zero_iff_dvd _ p]; push_cast; rw [e, sub_self] 
  have hlt : |fromDigits w a - fromDigits w b| < (p : Int) := by
    refine lt_of_lt_of_le hd ?_
    have h1 : 2 ^ (w * a.length) ≤ 2 ^ (w * k) := Nat.pow_le_pow_right (by decide) (Nat.mul_le_mul_left _ hk)
    exact_mod_cast h1.trans hp
  have := Int.eq_zero_of_abs_lt_dvd hdvd hlt
  omega

theorem blocks_map_inj (p w k : Nat) (hk : 0 < k) (hp : 2 ^ (w * k) ≤ p) (lo : Int) (a b : List Int)
    (h : a.length = b.length) (ha : InRange w lo a) (hb : InRange w lo b)
    (e : (blocks k a).map (fun x => ((fromDigits w x : Int) : ZMod p))
      = (blocks k b).map (fun x => ((fromDigits w x : Int) : ZMod p))) : a = b := by
  induction a using blocks.induct (n := k) generalizing b with
  | case1 a hl =>
    rw [blocks_short _ (by omega), blocks_short _ (by omega)] at e
    simp only [List.map_cons, List.map_nil, List.cons.injEq, and_true] at e
    exact digits_field_inj p w k hp lo a b h (by omega) ha hb e
  | case2 a hl ih =>
    rw [blocks, dif_neg hl, show blocks k b = b.take k :: blocks k (b.drop k) by
      rw [blocks, dif_neg (by omega)]] at e
    simp only [List.map_cons, List.cons.injEq] at e
    have h1 := digits_field_inj p w k hp lo (a.take k) (b.take k) (by simp [h]) (by simp)
      (fun x hx => ha x (List.mem_of_mem_take hx)) (fun x hx => hb x (List.mem_of_mem_take hx)) e.1
    have h2 := ih (b.drop k) (by simp [h]) (fun x hx => ha x (List.mem_of_mem_drop hx))
      (fun x hx => hb x (List.mem_of_mem_drop hx)) e.2
    rw [← List.take_append_drop k a, h1, h2, List.take_append_drop]

/-- **C46, what holds.** For words of fewer than 32 bits, signed or not, whose size does not divide the bit length of
the modulus, two containers of the same length that are packed into the same field elements are equal. -/
theorem C46_partial (p wordBits w : Nat) (hw : 0 < w) (hle : w ≤ wordBits) (hp : 2 ^ (wordBits - 1) ≤ p)
    (hdiv : wordBits % w ≠ 0) (lo : Int) (a b : List Int) (h : a.length = b.length) (ha : InRange w lo a)
    (hb : InRange w lo b)
    (e : (pack (wordBits / w) w a).map (fun z => ((z : Int) : ZMod p))
      = (pack (wordBits / w) w b).map (fun z => ((z : Int) : ZMod p))) : a = b := by
  have hk : 0 < wordBits / w := Nat.div_pos hle hw
  have hbound : 2 ^ (w * (wordBits / w)) ≤ p := by
    refine le_trans (Nat.pow_le_pow_right (by decide) ?_) hp
    have := Nat.div_add_mod wordBits w
    omega
  by_cases hn : a = []
  · subst hn; exact (List.length_eq_zero_iff.1 h.symm).symm
  have hn' : b ≠ [] := by
    intro hb0; apply hn; apply List.length_eq_zero_iff.1; rw [h, hb0]; rfl
  rw [pack, if_neg hn, pack, if_neg hn', List.map_map, List.map_map] at e
  exact blocks_map_inj p w _ hk hbound lo a b h ha hb e

theorem fromDigits_zeros (w n : Nat) (ds : List Int) : fromDigits w (List.replicate n 0 ++ ds) = fromDigits w ds := by
  induction n with
  | zero => rfl
  | succ n ih => rw [List.replicate_succ, List.cons_append, ← ih]; simp [fromDigits]

/-- The same words once zeros are put in front to make `k` words. -/
def SameUpToZeros (k : Nat) (x y : List Int) : Prop :=
  List.replicate (k - x.length) 0 ++ x = List.replicate (k - y.length) 0 ++ y

theorem inRange_zeros {w : Nat} {lo : Int} (hlo : lo ≤ 0) (h0 : 0 < lo + 2 ^ w) {n : Nat} {x : List Int}
    (hx : InRange w lo x) : InRange w lo (List.replicate n 0 ++ x) := by
  intro d hd
  rcases List.mem_append.1 hd with hd | hd
  · rw [List.eq_of_mem_replicate hd]; exact ⟨hlo, h0⟩
  · exact hx d hd

theorem blocks_map_same (p w k : Nat) (hk : 0 < k) (hp : 2 ^ (w * k) ≤ p) (lo : Int) (hlo : lo ≤ 0)
    (h0 : 0 < lo + 2 ^ w) (a b : List Int) (hna : a ≠ []) (hnb : b ≠ []) (ha : InRange w lo a) (hb : InRange w lo b)
    (e : (blocks k a).map (fun x => ((fromDigits w x : Int) : ZMod p))
      = (blocks k b).map (fun x => ((fromDigits w x : Int) : ZMod p))) :
    ∃ c x y, a = c ++ x ∧ b = c ++ y ∧ k ∣ c.length ∧ x.length ≤ k ∧ y.length ≤ k ∧ x ≠ [] ∧ y ≠ [] ∧
      SameUpToZeros k x y := by
  induction a using blocks.induct (n := k) generalizing b with
  | case1 a hl =>
    have hbl : b.length ≤ k := by
      by_contra hgt
      rw [blocks_short _ (by omega), show blocks k b = b.take k :: blocks k (b.drop k) by
        rw [blocks, dif_neg (by omega)]] at e
      have hlen := congrArg List.length e
      have hpos : (blocks k (b.drop k)).length ≠ 0 := by
        rw [blocks]; split <;> simp
      simp at hlen
      exact hpos (by simp [← hlen])
    rw [blocks_short _ (by omega), blocks_short _ hbl] at e
    simp only [List.map_cons, List.map_nil, List.cons.injEq, and_true] at e
    refine ⟨[], a, b, rfl, rfl, Nat.dvd_zero _, by omega, hbl, hna, hnb, ?_⟩
    refine digits_field_inj p w k hp lo _ _ (by simp; omega) (by simp; omega) (inRange_zeros hlo h0 ha)
      (inRange_zeros hlo h0 hb) ?_
    rw [fromDigits_zeros, fromDigits_zeros]
    exact e
  | case2 a hl ih =>
    have hbl : k < b.length := by
      by_contra hle
      rw [blocks_short b (by omega), show blocks k a = a.take k :: blocks k (a.drop k) by
        rw [blocks, dif_neg (by omega)]] at e
      have hlen := congrArg List.length e
      have hpos : (blocks k (a.drop k)).length ≠ 0 := by
        rw [blocks]; split <;> simp
      simp at hlen
      exact hpos (by simp [hlen])
    rw [blocks, dif_neg hl, show blocks k b = b.take k :: blocks k (b.drop k) by
      rw [blocks, dif_neg (by omega)]] at e
    simp only [List.map_cons, List.cons.injEq] at e
    have h1 := digits_field_inj p w k hp lo (a.take k) (b.take k) (by simp; omega) (by simp)
      (fun x hx => ha x (List.mem_of_mem_take hx)) (fun x hx => hb x (List.mem_of_mem_take hx)) e.1
    obtain ⟨c, x, y, e1, e2, h3, hr⟩ := ih (b.drop k) (by simp; omega) (by simp; omega)
      (fun x hx => ha x (List.mem_of_mem_drop hx)) (fun x hx => hb x (List.mem_of_mem_drop hx)) e.2
    refine ⟨a.take k ++ c, x, y, ?_, ?_, ?_, hr⟩
    · rw [List.append_assoc, ← e1, List.take_append_drop]
    · rw [h1, List.append_assoc, ← e2, List.take_append_drop]
    · rw [List.length_append, List.length_take, Nat.min_eq_left (by omega)]
      exact Nat.dvd_add (Nat.dvd_refl _) h3

theorem pack_prefix (k w : Nat) (hk : 0 < k) (c x y : List Int) (hc : k ∣ c.length) (hx : x ≠ []) (hy : y ≠ [])
    (e : pack k w x = pack k w y) : pack k w (c ++ x) = pack k w (c ++ y) := by
  obtain ⟨q, hq⟩ := hc
  induction q generalizing c with
  | zero => rw [List.length_eq_zero_iff.1 (by omega : c.length = 0)]; exact e
  | succ q ih =>
    rw [Nat.mul_add, Nat.mul_one] at hq
    rw [← List.take_append_drop k c, List.append_assoc, List.append_assoc,
      pack_long k w hk (c.take k) (c.drop k ++ x) (by rw [List.length_take]; omega) (by simp [hx]),
      pack_long k w hk (c.take k) (c.drop k ++ y) (by rw [List.length_take]; omega) (by simp [hy]),
      ih (c.drop k) (by rw [List.length_drop]; omega)]

/-- **C46, exactly which containers collide.** Under the same conditions two containers, of any lengths, are packed
into the same field elements if and only if they agree up to zeros in front of their last group of words. -/
theorem C46_exact (p wordBits w : Nat) (hw : 0 < w) (hle : w ≤ wordBits) (hp : 2 ^ (wordBits - 1) ≤ p)
    (hdiv : wordBits % w ≠ 0) (lo : Int) (hlo : lo ≤ 0) (h0 : 0 < lo + 2 ^ w) (a b : List Int)
    (ha : InRange w lo a) (hb : InRange w lo b) :
    (pack (wordBits / w) w a).map (fun z => ((z : Int) : ZMod p))
        = (pack (wordBits / w) w b).map (fun z => ((z : Int) : ZMod p)) ↔
      a = b ∨ ∃ c x y, a = c ++ x ∧ b = c ++ y ∧ wordBits / w ∣ c.length ∧ x.length ≤ wordBits / w ∧
        y.length ≤ wordBits / w ∧ x ≠ [] ∧ y ≠ [] ∧ SameUpToZeros (wordBits / w) x y := by
  have hk : 0 < wordBits / w := Nat.div_pos hle hw
  have hbound : 2 ^ (w * (wordBits / w)) ≤ p := by
    refine le_trans (Nat.pow_le_pow_right (by decide) ?_) hp
    have := Nat.div_add_mod wordBits w
    omega
  generalize wordBits / w = k at *
  have hpos : ∀ l : List Int, (blocks k l).length ≠ 0 := by
    intro l; rw [blocks]; split <;> simp
  constructor
  · intro e
    by_cases hn : a = []
    · left
      by_contra hne
      rw [pack, if_pos hn, pack, if_neg (by intro h; exact hne (by rw [hn, h]))] at e
      have hlen := congrArg List.length e
      simp at hlen
      exact hpos b (by simp [← hlen])
    by_cases hn' : b = []
    · rw [pack, if_neg hn, pack, if_pos hn'] at e
      have hlen := congrArg List.length e
      simp at hlen
      exact absurd (by simp [hlen]) (hpos a)
    right
    rw [pack, if_neg hn, pack, if_neg hn', List.map_map, List.map_map] at e
    exact blocks_map_same p w k hk hbound lo hlo h0 a b hn hn' ha hb e
  · rintro (rfl | ⟨c, x, y, rfl, rfl, hc, hx, hy, hxn, hyn, hs⟩)
    · rfl
    · refine congrArg (List.map _) (pack_prefix k w hk c x y hc hxn hyn ?_)
      rw [pack_short k w x hx hxn, pack_short k w y hy hyn, ← fromDigits_zeros w (k - x.length) x, hs,
        fromDigits_zeros]

/-- Sixty-bit words are packed four to an element of 255 bits: `[0, 5]` and `[5]` give the same element. -/
example (p : Nat) (hp : 2 ^ 254 ≤ p) :
    (pack 4 60 [0, 5]).map (fun z : Int => ((z : Int) : ZMod p)) =
      (pack 4 60 [5]).map (fun z : Int => ((z : Int) : ZMod p)) :=
  (C46_exact p 255 60 (by decide) (by decide) hp (by decide) 0 (le_refl 0) (by decide) [0, 5] [5]
    (by unfold InRange; decide) (by unfold InRange; decide)).2
    (Or.inr ⟨[], [0, 5], [5], rfl, rfl, ⟨0, rfl⟩, by decide, by decide, by simp, by simp, rfl⟩)

/-- Hence such containers have the same digest, for every permutation. -/
theorem C46_collide {F : Type} [CommRing F] {t : Nat} [NeZero t] (perm : (Fin t → F) → Except Fault (Fin t → F))
    (wordBits w : Nat) (hw : 0 < w) (hw32 : w < 32) (hle : w ≤ wordBits) (c x y : List Int)
    (hc : wordBits / w ∣ c.length) (hx : x.length ≤ wordBits / w) (hy : y.length ≤ wordBits / w) (hxn : x ≠ [])
    (hyn : y ≠ []) (hs : SameUpToZeros (wordBits / w) x y) :
    poseidonHashWords perm wordBits w (c ++ x) = poseidonHashWords perm wordBits w (c ++ y) := by
  have hk : 0 < wordBits / w := Nat.div_pos hle hw
  rw [(C46_words perm wordBits w hw hw32 hle _).1, (C46_words perm wordBits w hw hw32 hle _).1,
    pack_prefix _ w hk c x y hc hxn hyn]
  rw [pack_short _ w x hx hxn, pack_short _ w y hy hyn, ← fromDigits_zeros w (wordBits / w - x.length) x, hs,
    fromDigits_zeros]

/-- 31 bytes, then 5 or 0, 0, 5. -/
example (perm : (Fin 3 → ZMod 13) → Except Fault (Fin 3 → ZMod 13)) (c : List Int) (hc : c.length = 31) :
    poseidonHashWords perm 255 8 (c ++ [5]) = poseidonHashWords perm 255 8 (c ++ [0, 0, 5]) :=
  C46_collide perm 255 8 (by decide) (by decide) (by decide) c _ _ (by rw [hc]) (by decide) (by decide)
    (by decide) (by decide) (by unfold SameUpToZeros; decide)

theorem exists_digits (w k n : Nat) (hn : n < 2 ^ (w * k)) :
    ∃ ds : List Int, ds.length = k ∧ InRange w 0 ds ∧ fromDigits w ds = n := by
  induction k generalizing n with
  | zero =>
    refine ⟨[], rfl, by simp [InRange], ?_⟩
    have : n = 0 := by simpa using hn
    simp [this, fromDigits]
  | succ k ih =>
    rw [Nat.mul_add, Nat.mul_one, pow_add] at hn
    obtain ⟨ds, hl, hr, hv⟩ := ih (n / 2 ^ w) (Nat.div_lt_of_lt_mul (by rwa [mul_comm] at hn))
    refine ⟨ds ++ [((n % 2 ^ w : Nat) : Int)], by simp [hl], ?_, ?_⟩
    · intro d hd
      rcases List.mem_append.1 hd with hd | hd
      · exact hr d hd
      · rw [List.mem_singleton.1 hd]
        have := Nat.mod_lt n (Nat.two_pow_pos w)
        exact ⟨by positivity, by rw [zero_add]; exact_mod_cast this⟩
    · rw [fromDigits_snoc, hv]
      have := Nat.div_add_mod' n (2 ^ w)
      exact_mod_cast this

/-- **C46, the condition on the sizes is needed.** If the word size divides the bit length of the modulus, a group of words has
as many bits as the modulus: the words of the modulus itself and zero words are two containers of the same length that are packed
into the same field element, so they have the same digest for every permutation. -/
theorem C46_divides_false (p wordBits w : Nat) (hw : 0 < w) (hw32 : w < 32) (hp0 : 0 < p) (hp : p < 2 ^ wordBits)
    (hdiv : wordBits % w = 0) (h0 : 0 < wordBits) :
    ∃ a b : List Int, a ≠ b ∧ a.length = b.length ∧ InRange w 0 a ∧ InRange w 0 b ∧
      ∀ {t : Nat} [NeZero t] (perm : (Fin t → ZMod p) → Except Fault (Fin t → ZMod p)),
        poseidonHashWords perm wordBits w a = poseidonHashWords perm wordBits w b := by
  obtain ⟨k, rfl⟩ := Nat.dvd_of_mod_eq_zero hdiv
  have hk : 0 < k := by by_contra h; simp [show k = 0 by omega] at h0
  have hkd : w * k / w = k := by rw [mul_comm, Nat.mul_div_cancel _ hw]
  obtain ⟨a, hal, har, hav⟩ := exists_digits w k p hp
  refine ⟨a, List.replicate k 0, ?_, by simp [hal], har, ?_, ?_⟩
  · rintro rfl
    have := fromDigits_zeros w k []
    rw [List.append_nil, hav] at this
    simp [fromDigits] at this
    omega
  · intro d hd
    rw [List.eq_of_mem_replicate hd]
    exact ⟨le_refl 0, by rw [zero_add]; positivity⟩
  · intro t _ perm
    have hle : w ≤ w * k := Nat.le_mul_of_pos_right w hk
    have hz : (List.replicate k (0 : Int)) ≠ [] := by
      intro h; have := congrArg List.length h; simp at this; omega
    have ha : a ≠ [] := by
      intro h; rw [h] at hal; simp at hal; omega
    rw [(C46_words perm (w * k) w hw hw32 hle _).1, (C46_words perm (w * k) w hw hw32 hle _).1, hkd,
      pack_short _ _ _ (by omega) ha, pack_short _ _ _ (by simp) hz, hav]
    have := fromDigits_zeros w k []
    rw [List.append_nil] at this
    rw [this]
    simp [fromDigits]

/-- Bytes with a modulus of sixteen bits: the two bytes of the modulus collide with two zero bytes. -/
example : ∃ a b : List Int, a ≠ b ∧ a.length = b.length ∧ InRange 8 0 a ∧ InRange 8 0 b ∧
    ∀ {t : Nat} [NeZero t] (perm : (Fin t → ZMod 65521) → Except Fault (Fin t → ZMod 65521)),
      poseidonHashWords perm 16 8 a = poseidonHashWords perm 16 8 b :=
  C46_divides_false 65521 16 8 (by decide) (by decide) (by decide) (by decide) (by decide) (by decide)

/-- 8-bit and 16-bit words with moduli of 254 and 255 bits meet the condition on the sizes. -/
example : 254 % 8 ≠ 0 ∧ 255 % 8 ≠ 0 ∧ 254 % 16 ≠ 0 ∧ 255 % 16 ≠ 0 ∧ 255 / 8 = 31 := by decide

/-- The bytes 5 and 0, 5 have the same digest, for every permutation. -/
example (P : (Fin 3 → ZMod 13) → Fin 3 → ZMod 13) :
    poseidonHashWords (fun A => .ok (P A)) 255 8 [0, 5] = poseidonHashWords (fun A => .ok (P A)) 255 8 [5] :=
  C46_leading_zero_false _ 255 8 (by decide) (by decide) [5] (by decide) (by decide)

/-- Containers to which `C46_partial` applies. -/
example : InRange 8 0 [255, 0, 7] ∧ InRange 8 (-128) [-128, 127] := by
  constructor <;> intro d hd <;> simp at hd <;> omega

example (perm : (Fin 3 → ZMod 13) → Except Fault (Fin 3 → ZMod 13)) :=
  C46_words perm 254 8 (by decide) (by decide) (by decide) [1, 2, 3]

example (perm : (Fin 3 → ZMod 13) → Except Fault (Fin 3 → ZMod 13)) :
    poseidonHashWords perm 254 64 [1, 2] = .error .shift := C46_wide_false perm 254 64 (by decide) (by decide) 1 [2]

end Verif.Props
