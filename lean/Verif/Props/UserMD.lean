import Verif.Model.UserMD
import Verif.Spec.UserMD
import Verif.Proof.Collision
import Verif.Proof.Generic
import Verif.Proof.MerkleDamgard
import Verif.Proof.LengthField
import Verif.Proof.PackStream
import Verif.Props.Modes
/-
C125: `merkle_damgard_construction` is the Merkle–Damgård hash for all template arguments, up to the range of `length_type`.
-/
namespace Verif.Props
open Spec

variable {σ : Type}

/-- Template arguments of `merkle_damgard_construction` with `merkle_damgard_padding`: sizes are multiples of the word, words
are whole octets and fit a machine word, the length field fits the block, the digest fits the state; the length field has any
size, zero included (merkle_damgard_construction.hpp:62-88). -/
structure UserArgs (M : MD σ) : Prop where
  word8 : 8 ∣ M.wordBits
  word : 0 < M.wordBits
  word64 : M.wordBits ≤ 64
  wordBlock : M.wordBits ∣ M.blockBits
  block : 0 < M.blockBits
  wordLength : M.wordBits ∣ M.lengthBits
  lengthFits : M.lengthBits ≤ M.blockBits
  wordDigest : M.wordBits ∣ M.digestBits
  digestFits : ∀ s, M.digestBits ≤ (M.stateView s).length
  digest0 : M.digest0.length = M.digestBits
  endian : M.endian = bigOctetBigBit ∨ M.endian = littleOctetBigBit
  marker : M.markOctet = 0x80 ∧ M.markBits = 1

/-- Number of bits of the longest supported message length: the length field, at most 64; one word without a length field. -/
def lengthLimit (M : MD σ) : Nat := if M.lengthBits = 0 then M.wordBits else min M.lengthBits 64

/-- The textbook hash with the arguments of `M`. -/
def userHash (M : MD σ) (m : Bits) : Bits :=
  iteratedHash M.blockBits M.lengthBits M.digestBits M.endian.littleOctet M.iv M.compress (fun s => M.stateView (M.finalize s)) m

theorem le_leastWidth {x : Nat} (h : x ≤ 64) : x ≤ leastWidth x ∧ leastWidth x ≤ 64 := by
  unfold leastWidth
  split
  · omega
  split
  · omega
  split <;> omega

/-- **C125, `length_type`.** It is the smallest of the unsigned types with 8, 16, 32 and 64 bits that holds a word and the length
field, of which at most 64 bits are used. -/
theorem C125_length_type {M : MD σ} (U : UserArgs M) :
    M.lengthTypeBits ∈ [8, 16, 32, 64] ∧ max M.wordBits (min M.lengthBits 64) ≤ M.lengthTypeBits ∧
      ∀ v ∈ [8, 16, 32, 64], max M.wordBits (min M.lengthBits 64) ≤ v → M.lengthTypeBits ≤ v := by
  have hw64 := U.word64
  have key : ∀ x, x ≤ 64 → leastWidth x ∈ [8, 16, 32, 64] ∧ x ≤ leastWidth x ∧ ∀ v ∈ [8, 16, 32, 64], x ≤ v → leastWidth x ≤ v := by
    decide
  have hx : (if M.lengthBits < M.wordBits then M.wordBits else if M.lengthBits > 64 then 64 else M.lengthBits) =
      max M.wordBits (min M.lengthBits 64) := by
    split
    · omega
    split <;> omega
  unfold MD.lengthTypeBits
  rw [hx]
  exact key _ (by omega)

theorem lengthLimit_le {M : MD σ} (U : UserArgs M) : lengthLimit M ≤ M.lengthTypeBits ∧ M.lengthTypeBits ≤ 64 := by
  have hw := U.word
  have hw64 := U.word64
  unfold lengthLimit MD.lengthTypeBits
  by_cases h0 : M.lengthBits = 0
  · rw [if_pos h0, if_pos (by omega)]
    exact le_leastWidth hw64
  · have hle : M.wordBits ≤ M.lengthBits := Nat.le_of_dvd (by omega) U.wordLength
    rw [if_neg h0, if_neg (by omega)]
    by_cases h64 : M.lengthBits > 64
    · rw [if_pos h64, Nat.min_eq_right (by omega)]
      exact le_leastWidth (Nat.le_refl _)
    · rw [if_neg h64, Nat.min_eq_left (by omega)]
      exact le_leastWidth (by omega)

theorem UserArgs.valid {M : MD σ} (U : UserArgs M) : M.Valid where
  word := U.word
  wordBlock := U.wordBlock
  block := U.block
  lengthFits := U.lengthFits
  markWord := by rw [U.marker.2]; exact U.word
  markPos := by rw [U.marker.2]; decide
  markBlock := by rw [U.marker.2]; exact Nat.one_dvd _

theorem UserArgs.mark {M : MD σ} (U : UserArgs M) : M.mark = [true] := by
  obtain ⟨v, hv⟩ := U.word8
  have hw := U.word
  unfold MD.mark MD.markWord
  rw [U.marker.1, U.marker.2]
  rw [implode_stream bigOctetBigBit M.endian (by decide) (by decide) U.word8]
  · rfl
  · simp; omega
  · intro x hx
    rcases List.mem_cons.1 hx with h | h
    · subst h; decide
    · rw [(List.mem_replicate.1 h).2]; decide

theorem UserArgs.enc {M : MD σ} (U : UserArgs M) (n : Nat) : M.enc n = lengthField M.endian.littleOctet M.lengthBits n := by
  unfold MD.enc MD.lengthWords lengthField
  rcases U.endian with h | h <;> rw [h]
  · exact views_explode_big U.word8 U.wordLength n
  · exact views_explode_little U.word8 U.wordLength n

theorem absorbedU (M : MD σ) (J : Injector) (m : Bits) (q : Nat) : absorbed (M.constructionU J) m q = absorbed (M.construction J) m q := by
  induction q with
  | zero => rfl
  | succ q ih => simp only [absorbed, ih]; rfl

theorem repU {M : MD σ} {J : Injector} {a : Acc σ} {m : Bits} (h : Rep (M.constructionU J) a m) : Rep (M.construction J) a m := by
  obtain ⟨q, h1, h2, h3, h4, h5, h6⟩ := h.core
  exact ⟨h.cache_len, h.total, h.small, q, h1, h2, h3, h4, by rw [h5, absorbedU], h6⟩

/-- With a block array of the declared size the general `digest` is the one of Model/MerkleDamgard.lean on the truncated counter. -/
theorem digestU_eq {M : MD σ} (U : UserArgs M) (J : Injector) (st : σ) {b : Bits} (hb : b.length = M.blockBits) (total : Nat) :
    M.digestU J st b total = M.digest J st b (total % 2 ^ M.lengthTypeBits) := by
  generalize ht : total % 2 ^ M.lengthTypeBits = t
  have hB := U.block
  have hr := Nat.mod_lt t hB
  have hpad := M.pad_eq U.valid J (r := t % M.blockBits) hb rfl (by simp; omega) (by rw [U.marker.2]; omega)
  have hpadU : M.padU J b (t % M.blockBits) = M.pad J b (t % M.blockBits) := by
    unfold MD.padU MD.pad
    rw [hb]
  have hal : ∀ c : Bits, c.length = M.blockBits → M.appendLengthU c t = M.appendLength c t := by
    intro c hc
    have hel : (M.endian.views M.wordBits (M.lengthWords t)).length = M.lengthBits := M.length_enc t U.wordLength
    unfold MD.appendLengthU MD.appendLength
    simp only
    rw [hel, Nat.div_mul_cancel U.wordBlock, hc, if_pos U.lengthFits]
    by_cases h0 : M.lengthBits = 0
    · have hn : M.endian.views M.wordBits (M.lengthWords t) = [] := List.eq_nil_of_length_eq_zero (by rw [hel, h0])
      rw [if_pos h0, hn, h0, List.append_nil, List.take_of_length_le (by omega)]
    · rw [if_neg h0, if_pos ⟨U.lengthFits, Nat.le_refl _⟩, List.drop_of_length_le (by omega), List.append_nil]
  unfold MD.digestU MD.digest
  simp only [ht]
  rw [hpadU, hpad]
  simp only [bind, Except.bind, U.marker.2]
  have hlen : (b.take (t % M.blockBits) ++ M.mark ++ List.replicate (M.blockBits - t % M.blockBits - 1) false).length = M.blockBits := by
    rw [U.mark]
    simp
    omega
  by_cases hbig : t % M.blockBits + 1 + M.lengthBits > M.blockBits
  · simp only [if_pos hbig]
    rw [hal _ (by rw [List.length_replicate, hlen]), hlen]
  · simp only [if_neg hbig]
    rw [hal _ hlen]

theorem userMD_computes {M : MD σ} (U : UserArgs M) (J : Injector) :
    Computes (M.constructionU J) (fun m => m.length < 2 ^ lengthLimit M) (userHash M) := by
  intro a m hrep hm
  obtain ⟨hl1, hl2⟩ := lengthLimit_le U
  have hT : m.length < 2 ^ M.lengthTypeBits := Nat.lt_of_lt_of_le hm (Nat.pow_le_pow_right (by decide) hl1)
  have h64 : m.length < 2 ^ 64 := Nat.lt_of_lt_of_le hT (Nat.pow_le_pow_right (by decide) hl2)
  have hrep' := repU hrep
  have htot : a.total = m.length := by rw [hrep.total, wrap64, Nat.mod_eq_of_lt h64]
  have key := MD.result_spec M U.valid U.wordLength J (by rw [Nat.div_mul_cancel U.wordDigest]; exact U.digestFits)
    (by rw [Nat.div_mul_cancel U.wordDigest, U.digest0]) hrep' (by rw [U.marker.2]; exact Nat.one_dvd _)
    (by rw [Nat.mod_eq_of_lt h64]; omega)
  have e : a.result (M.constructionU J) = a.result (M.construction J) := by
    show M.digestU J a.st a.cache a.total = M.digest J a.st a.cache a.total
    rw [digestU_eq U J _ hrep.cache_len, htot, Nat.mod_eq_of_lt hT]
  rw [e, key]
  unfold MD.output userHash iteratedHash oneZeroPad mdState mdPad
  simp only
  rw [Nat.div_mul_cancel U.wordDigest, List.drop_of_length_le (by rw [U.digest0]), List.append_nil, U.mark,
    U.enc, Nat.mod_eq_of_lt h64]

theorem userMD_verified {M : MD σ} (U : UserArgs M) (J : Injector) :
    Verified (M.constructionU J) (fun m => m.length < 2 ^ lengthLimit M) (userHash M) :=
  ⟨U.block, U.word, U.wordBlock, userMD_computes U J⟩

/-- **C125.** For every compression function, IV and finalizer, every word, block, length field and digest size that
`merkle_damgard_construction` allows, and both octet orders: in every program of calls, every extraction of a message whose
length is within the range of `length_type` gives the textbook Merkle–Damgård hash of everything fed before, and so does an
extraction at the end. -/
theorem C125_hash {M : MD σ} (U : UserArgs M) (J : Injector) (garbage : Bits) (hgb : garbage.length = M.blockBits) (ops : List Op)
    (hwt : ∀ op ∈ ops, op.WellTyped M.blockBits) (hgood : GoodExtracts M.blockBits (fun m => m.length < 2 ^ lengthLimit M) [] ops)
    (hlen : (streamOf M.blockBits ops).length < 2 ^ lengthLimit M) :
    ∃ a, runOps (M.constructionU J) J (Acc.init (M.constructionU J) garbage) [] ops =
        .ok (a, expected M.blockBits (userHash M) [] ops) ∧
      a.result (M.constructionU J) = .ok (userHash M (streamOf M.blockBits ops)) := by
  have hfit : Fits (M.constructionU J) (streamOf M.blockBits ops).length :=
    Or.inl (Nat.lt_of_lt_of_le hlen (Nat.pow_le_pow_right (by decide) (Nat.le_trans (lengthLimit_le U).1 (lengthLimit_le U).2)))
  exact (userMD_verified U J).extraction J garbage hgb ops hwt hfit hgood hlen

/-- A toy hash with octets as words, blocks of 16 bits, a length field of 8 bits and the state as digest. -/
def toyMD (e : Endian) (L : Nat) : MD (Vector (BitVec 8) 1) where
  blockBits := 16
  wordBits := 8
  lengthBits := L
  digestBits := 8
  endian := e
  markOctet := 0x80
  markBits := 1
  iv := #v[0x5A]
  compress s b := #v[3 * s[0] + 5 * e.word 8 b 0 + e.word 8 b 1 * e.word 8 b 1]
  finalize s := #v[s[0] + 1]
  stateView := e.arrayView
  digest0 := List.replicate 8 false

theorem toyMD_args (e : Endian) (he : e = bigOctetBigBit ∨ e = littleOctetBigBit) (L : Nat) (hL : L = 0 ∨ L = 8 ∨ L = 16) :
    UserArgs (toyMD e L) where
  word8 := (by decide : 8 ∣ 8)
  word := (by decide : 0 < 8)
  word64 := (by decide : 8 ≤ 64)
  wordBlock := (by decide : 8 ∣ 16)
  block := (by decide : 0 < 16)
  wordLength := by show 8 ∣ L; omega
  lengthFits := by show L ≤ 16; omega
  wordDigest := (by decide : 8 ∣ 8)
  digestFits s := by
    show 8 ≤ (e.arrayView s).length
    rw [length_arrayView']
  digest0 := rfl
  endian := he
  marker := ⟨rfl, rfl⟩

/-- Octets fed to it. -/
def feedOctets (e : Endian) (bs : List Nat) : Op := .feed (wordElem e 8) .randomAccess [0, 0] bs

theorem feedOctets_wellTyped (e : Endian) (bs : List Nat) : (feedOctets e bs).WellTyped 16 :=
  ⟨by simp [wordElem], by simp [wordElem], by simp [wordElem]⟩

/-- Three octets with an extraction after the first one, in all cases of the octet order and the length field. -/
example (e : Endian) (he : e = bigOctetBigBit ∨ e = littleOctetBigBit) (L : Nat) (hL : L = 0 ∨ L = 8 ∨ L = 16) (J : Injector) :
    ∃ a, runOps ((toyMD e L).constructionU J) J (Acc.init ((toyMD e L).constructionU J) (List.replicate 16 true)) []
        [feedOctets e [1], .extract, feedOctets e [2, 3]] =
        .ok (a, [userHash (toyMD e L) (e.view 8 1)]) ∧
      a.result ((toyMD e L).constructionU J) = .ok (userHash (toyMD e L) (e.view 8 1 ++ (e.view 8 2 ++ e.view 8 3))) := by
  have hlim : 8 ≤ lengthLimit (toyMD e L) := by
    show 8 ≤ if L = 0 then 8 else min L 64
    split <;> omega
  have h256 : 2 ^ 8 ≤ 2 ^ lengthLimit (toyMD e L) := Nat.pow_le_pow_right (by decide) hlim
  obtain ⟨a, h1, h2⟩ := C125_hash (toyMD_args e he L hL) J (List.replicate 16 true) rfl [feedOctets e [1], .extract, feedOctets e [2, 3]]
    (by
      intro op ho
      simp only [List.mem_cons, List.not_mem_nil, or_false] at ho
      rcases ho with h | h | h <;> subst h
      · exact feedOctets_wellTyped e _
      · trivial
      · exact feedOctets_wellTyped e _)
    ⟨Nat.lt_of_lt_of_le (by simp [Op.stream, feedOctets, wordElem, length_view]) h256, trivial⟩
    (Nat.lt_of_lt_of_le (by simp [streamOf, Op.stream, feedOctets, wordElem, length_view]) h256)
  refine ⟨a, ?_, ?_⟩
  · rw [h1]; rfl
  · rw [h2]; rfl

/-- The digest with a counter of zero does not depend on the block. -/
theorem digest_zero {M : MD σ} (U : UserArgs M) (J : Injector) (st : σ) {b b' : Bits} (hb : b.length = M.blockBits)
    (hb' : b'.length = M.blockBits) : ∃ d, M.digest J st b 0 = .ok d ∧ M.digest J st b' 0 = .ok d := by
  have hB := U.block
  have h0 : 0 % M.blockBits = 0 := Nat.zero_mod _
  have key : ∀ c : Bits, c.length = M.blockBits → M.digest J st c 0 = _ := fun c hc =>
    MD.digest_tail M U.valid U.wordLength J (by rw [Nat.div_mul_cancel U.wordDigest]; exact U.digestFits)
      (by rw [Nat.div_mul_cancel U.wordDigest, U.digest0]) (rest := []) (st := st) (st' := st) (total := 0) hc
      (by rw [h0]; rfl) (by rw [h0]; rfl) (by simp) (by rw [h0, U.marker.2]; omega)
  exact ⟨_, key b hb, key b' hb'⟩

/-- The state of an accumulator that holds a full last block. -/
theorem full_state {M : MD σ} (U : UserArgs M) (J : Injector) {a : Acc σ} {m : Bits} (hrep : Rep (M.constructionU J) a m)
    (hd : M.blockBits ∣ m.length) (hpos : 0 < m.length) :
    a.st = (blocks M.blockBits (m.take (m.length - M.blockBits))).foldl M.compress M.iv := by
  obtain ⟨q, h1, h2, h3, _, h5, _⟩ := (repU hrep).core
  have hC : (M.construction J).blockBits = M.blockBits := rfl
  rw [hC] at h1 h2 h3
  have hB := U.block
  have hq : m.length = q * M.blockBits + M.blockBits := by
    obtain ⟨k, hk⟩ := hd
    rw [Nat.mul_comm] at hk
    have hlt : q < k := by
      rcases h3 with h3 | h3
      · subst h3
        exact Nat.pos_of_ne_zero fun h => by subst h; omega
      · rw [hk] at h3
        exact Nat.lt_of_mul_lt_mul_right h3
    have hle : k ≤ q + 1 := by
      rw [hk, ← Nat.succ_mul] at h2
      exact Nat.le_of_mul_le_mul_right h2 hB
    have : k = q + 1 := by omega
    rw [hk, this, Nat.add_mul, Nat.one_mul]
  rw [h5, MD.absorbed_eq M J hB m q h1, hq, Nat.add_sub_cancel]

/-- An octet counts the bits of messages with a length field of one octet, and with none. -/
example : (toyMD bigOctetBigBit 8).lengthTypeBits = 8 ∧ (toyMD bigOctetBigBit 0).lengthTypeBits = 8 := by
  have h := fun L hL => (C125_length_type (toyMD_args bigOctetBigBit (Or.inl rfl) L hL)).2
  exact ⟨Nat.le_antisymm ((h 8 (by decide)).2 8 (by decide) (by decide)) (h 8 (by decide)).1,
    Nat.le_antisymm ((h 0 (by decide)).2 8 (by decide) (by decide)) (h 0 (by decide)).1⟩

/-- **C125, the range is exact.** For a length field of less than 64 bits: two messages of a positive multiple of
`2^length_type_bits` bits that agree except in the last block get the same digest, whatever the compression function: the
truncated counter is zero, and `digest` drops the last block. -/
theorem C125_wrap {M : MD σ} (U : UserArgs M) (J : Injector) (hB : M.blockBits ∣ 2 ^ M.lengthTypeBits) (garbage garbage' : Bits)
    (hgb : garbage.length = M.blockBits) (hgb' : garbage'.length = M.blockBits) (ops ops' : List Op)
    (hwt : ∀ op ∈ ops, op.WellTyped M.blockBits) (hwt' : ∀ op ∈ ops', op.WellTyped M.blockBits)
    (hne : Op.extract ∉ ops) (hne' : Op.extract ∉ ops') {k : Nat} (hk : 0 < k)
    (hlen : (streamOf M.blockBits ops).length = k * 2 ^ M.lengthTypeBits) (h64 : k * 2 ^ M.lengthTypeBits < 2 ^ 64)
    (hlen' : (streamOf M.blockBits ops').length = k * 2 ^ M.lengthTypeBits)
    (hagree : (streamOf M.blockBits ops).take (k * 2 ^ M.lengthTypeBits - M.blockBits) =
      (streamOf M.blockBits ops').take (k * 2 ^ M.lengthTypeBits - M.blockBits)) :
    ∃ d, (do let (a, _) ← runOps (M.constructionU J) J (Acc.init (M.constructionU J) garbage) [] ops
             a.result (M.constructionU J)) = .ok d ∧
      (do let (a, _) ← runOps (M.constructionU J) J (Acc.init (M.constructionU J) garbage') [] ops'
          a.result (M.constructionU J)) = .ok d := by
  have V := userMD_verified U J
  obtain ⟨a, e, r⟩ := V.run J ops hwt (V.init garbage hgb) (Or.inl (by rw [List.nil_append]; exact hlen ▸ h64))
    (goodExtracts_of_no_extract _ _ ops hne _) []
  obtain ⟨a', e', r'⟩ := V.run J ops' hwt' (V.init garbage' hgb') (Or.inl (by rw [List.nil_append]; exact hlen' ▸ h64))
    (goodExtracts_of_no_extract _ _ ops' hne' _) []
  rw [e, e']
  rw [List.nil_append] at r r'
  have hbC : (M.constructionU J).blockBits = M.blockBits := rfl
  rw [hbC] at r r'
  have hpos : 0 < k * 2 ^ M.lengthTypeBits := Nat.mul_pos hk (Nat.two_pow_pos _)
  have hd : M.blockBits ∣ k * 2 ^ M.lengthTypeBits := Nat.dvd_trans hB (Nat.dvd_mul_left _ _)
  have hs := full_state U J r (hlen ▸ hd) (hlen ▸ hpos)
  have hs' := full_state U J r' (hlen' ▸ hd) (hlen' ▸ hpos)
  rw [hlen] at hs
  rw [hlen', ← hagree] at hs'
  have ht : ∀ {a : Acc σ} {m : Bits}, Rep (M.constructionU J) a m → m.length = k * 2 ^ M.lengthTypeBits →
      a.result (M.constructionU J) = M.digest J a.st a.cache 0 := by
    intro a m hr hm
    show M.digestU J a.st a.cache a.total = _
    rw [digestU_eq U J _ hr.cache_len, hr.total, wrap64, hm, Nat.mod_eq_of_lt h64, Nat.mul_mod_left]
  show ∃ d, a.result (M.constructionU J) = .ok d ∧ a'.result (M.constructionU J) = .ok d
  rw [ht r hlen, ht r' hlen', hs, hs']
  exact digest_zero U J _ r.cache_len r'.cache_len

/-- 32 octets, a length field of 8 bits: the last two octets do not matter. -/
example (J : Injector) : let C := (toyMD bigOctetBigBit 8).constructionU J
    let a0 := Acc.init C (List.replicate 16 true)
    ∃ d, (do let (a, _) ← runOps C J a0 [] [feedOctets bigOctetBigBit (List.replicate 32 7)]
             a.result C) = .ok d ∧
      (do let (a, _) ← runOps C J a0 [] [feedOctets bigOctetBigBit (List.replicate 30 7 ++ [1, 2])]
          a.result C) = .ok d :=
  C125_wrap (k := 1) (toyMD_args bigOctetBigBit (Or.inl rfl) 8 (by decide)) J (by decide) _ _ rfl rfl _ _
    (by
      intro op ho
      rw [List.mem_singleton.1 ho]
      exact feedOctets_wellTyped _ _)
    (by
      intro op ho
      rw [List.mem_singleton.1 ho]
      exact feedOctets_wellTyped _ _)
    (by simp [feedOctets]) (by simp [feedOctets]) (by decide) (by decide +kernel) (by decide) (by decide +kernel)
    (by decide +kernel)

/-! ### Collisions -/

theorem length_lengthField (little : Bool) (L n : Nat) : (lengthField little L n).length = L := by
  unfold lengthField; split <;> simp [bigEndian, littleEndianOctets]

theorem lengthField_injective {little : Bool} {L n n' : Nat} (h8 : 8 ∣ L) (hn : n < 2 ^ L) (hn' : n' < 2 ^ L)
    (e : lengthField little L n = lengthField little L n') : n = n' := by
  unfold lengthField at e
  split at e
  · exact littleEndianOctets_injective h8 hn hn' e
  · exact bigEndian_injective hn hn' e

theorem length_oneZeroPad (B L : Nat) (little : Bool) (m : Bits) :
    (oneZeroPad B L little m).length = (m.length + 1 + L) + fillTo B (m.length + 1 + L) := by
  unfold oneZeroPad mdPad
  simp only [List.length_append, List.length_replicate, length_lengthField, List.length_cons, List.length_nil, Nat.zero_add]
  omega

theorem oneZeroPad_drop (B L : Nat) (little : Bool) (m : Bits) :
    (oneZeroPad B L little m).drop ((oneZeroPad B L little m).length - L) = lengthField little L m.length := by
  unfold oneZeroPad mdPad
  rw [List.length_append, length_lengthField, Nat.add_sub_cancel, List.drop_left]

theorem iterated_collision {B L : Nat} {little : Bool} (hB : 0 < B) (hL : 8 ∣ L) (hLB : L ≤ B) (f : σ → Bits → σ) (iv : σ) {m m' : Bits}
    (hne : m ≠ m') (hl : m.length < 2 ^ L) (hl' : m'.length < 2 ^ L)
    (e : (blocks B (oneZeroPad B L little m)).foldl f iv = (blocks B (oneZeroPad B L little m')).foldl f iv) :
    CollisionInRuns f iv (blocks B (oneZeroPad B L little m)) (blocks B (oneZeroPad B L little m')) := by
  have hd : ∀ x, B ∣ (oneZeroPad B L little x).length := fun x => by rw [length_oneZeroPad]; exact fillTo_spec hB _
  have hp : ∀ x, 0 < (oneZeroPad B L little x).length := fun x => by rw [length_oneZeroPad]; omega
  by_cases hlen : m.length = m'.length
  · obtain ⟨n, hn⟩ := hd m
    have hn' : (oneZeroPad B L little m').length = B * n := by
      rw [← hn, length_oneZeroPad, length_oneZeroPad, hlen]
    refine collision_same_length f iv n _ _ ?_ ?_ ?_ e
    · rw [length_blocks, hn, Nat.mul_div_cancel_left _ hB]
    · rw [length_blocks, hn', Nat.mul_div_cancel_left _ hB]
    · intro heq
      apply hne
      have := blocks_injective hB n _ _ (by rw [hn, Nat.mul_comm]) (by rw [hn', Nat.mul_comm]) heq
      unfold oneZeroPad mdPad at this
      simp only [List.append_assoc] at this
      exact (List.append_inj this hlen).1
  · rw [blocks_eq_snoc hB (hd m) (hp m), blocks_eq_snoc hB (hd m') (hp m')] at e ⊢
    refine collision_last f iv _ _ _ _ ?_ e
    intro heq
    apply hlen
    have hb := (Prod.mk.inj heq).2
    have hle : ∀ x, B ≤ (oneZeroPad B L little x).length := fun x => Nat.le_of_dvd (hp x) (hd x)
    have := congrArg (List.drop (B - L)) hb
    rw [List.drop_drop, List.drop_drop] at this
    have h1 := hle m
    have h2 := hle m'
    rw [show (oneZeroPad B L little m).length - B + (B - L) = (oneZeroPad B L little m).length - L by omega,
      show (oneZeroPad B L little m').length - B + (B - L) = (oneZeroPad B L little m').length - L by omega,
      oneZeroPad_drop, oneZeroPad_drop] at this
    exact lengthField_injective hL hl hl' this

/-- Two programs of calls that feed different messages, of lengths that the hash supports, and obtain the same digest. -/
structure UserColliding (M : MD σ) (J : Injector) (ops ops' : List Op) : Prop where
  wellTyped : ∀ op ∈ ops ++ ops', op.WellTyped M.blockBits
  extracts : GoodExtracts M.blockBits (fun m => m.length < 2 ^ lengthLimit M) [] ops ∧
    GoodExtracts M.blockBits (fun m => m.length < 2 ^ lengthLimit M) [] ops'
  short : (streamOf M.blockBits ops).length < 2 ^ lengthLimit M ∧ (streamOf M.blockBits ops').length < 2 ^ lengthLimit M
  different : streamOf M.blockBits ops ≠ streamOf M.blockBits ops'
  digest : ∃ garbage garbage' : Bits, garbage.length = M.blockBits ∧ garbage'.length = M.blockBits ∧
    (do let (a, _) ← runOps (M.constructionU J) J (Acc.init (M.constructionU J) garbage) [] ops
        a.result (M.constructionU J)) =
    (do let (a, _) ← runOps (M.constructionU J) J (Acc.init (M.constructionU J) garbage') [] ops'
        a.result (M.constructionU J))

/-- The blocks that are compressed for a message. -/
def userBlocks (M : MD σ) (m : Bits) : List Bits := blocks M.blockBits (oneZeroPad M.blockBits M.lengthBits M.endian.littleOctet m)

/-- **C125, collisions.** With a length field: two programs of calls with different messages and the same digest contain a
collision of the compression function, or end in different states with the same output. -/
theorem C125_collision {M : MD σ} (U : UserArgs M) (hL : 0 < M.lengthBits) (J : Injector) {ops ops' : List Op}
    (hC : UserColliding M J ops ops') :
    let A := userBlocks M (streamOf M.blockBits ops)
    let B := userBlocks M (streamOf M.blockBits ops')
    CollisionInRuns M.compress M.iv A B ∨
      (A.foldl M.compress M.iv ≠ B.foldl M.compress M.iv ∧
        (M.stateView (M.finalize (A.foldl M.compress M.iv))).take M.digestBits =
          (M.stateView (M.finalize (B.foldl M.compress M.iv))).take M.digestBits) := by
  obtain ⟨g, g', hg, hg', hdig⟩ := hC.digest
  obtain ⟨a, e, r⟩ := C125_hash U J g hg ops (fun op ho => hC.wellTyped op (List.mem_append_left _ ho)) hC.extracts.1 hC.short.1
  obtain ⟨a', e', r'⟩ := C125_hash U J g' hg' ops' (fun op ho => hC.wellTyped op (List.mem_append_right _ ho)) hC.extracts.2 hC.short.2
  rw [e, e'] at hdig
  change a.result (M.constructionU J) = a'.result (M.constructionU J) at hdig
  rw [r, r'] at hdig
  injection hdig with hdig
  have hlim : 2 ^ lengthLimit M ≤ 2 ^ M.lengthBits := by
    refine Nat.pow_le_pow_right (by decide) ?_
    unfold lengthLimit
    rw [if_neg (by omega)]
    exact Nat.min_le_left _ _
  by_cases hs : (userBlocks M (streamOf M.blockBits ops)).foldl M.compress M.iv =
      (userBlocks M (streamOf M.blockBits ops')).foldl M.compress M.iv
  · exact Or.inl (iterated_collision U.block (Nat.dvd_trans U.word8 U.wordLength) U.lengthFits M.compress M.iv hC.different
      (Nat.lt_of_lt_of_le hC.short.1 hlim) (Nat.lt_of_lt_of_le hC.short.2 hlim) hs)
  · exact Or.inr ⟨hs, hdig⟩

/-- The toy hash squares the second octet of a block: the messages 7, 1 and 7, 255 collide. -/
theorem toy_colliding (J : Injector) : UserColliding (toyMD bigOctetBigBit 8) J [feedOctets bigOctetBigBit [7, 1]]
    [feedOctets bigOctetBigBit [7, 255]] where
  wellTyped op ho := by
    simp only [List.cons_append, List.nil_append, List.mem_cons, List.not_mem_nil, or_false] at ho
    rcases ho with h | h <;> subst h <;> exact feedOctets_wellTyped _ _
  extracts := ⟨trivial, trivial⟩
  short := by decide +kernel
  different := by decide +kernel
  digest := by
    have hU := toyMD_args bigOctetBigBit (Or.inl rfl) 8 (by decide)
    obtain ⟨a, e, r⟩ := C125_hash hU J (List.replicate 16 true) rfl [feedOctets bigOctetBigBit [7, 1]]
      (fun op ho => by rw [List.mem_singleton.1 ho]; exact feedOctets_wellTyped _ _) trivial (by decide +kernel)
    obtain ⟨a', e', r'⟩ := C125_hash hU J (List.replicate 16 true) rfl [feedOctets bigOctetBigBit [7, 255]]
      (fun op ho => by rw [List.mem_singleton.1 ho]; exact feedOctets_wellTyped _ _) trivial (by decide +kernel)
    refine ⟨List.replicate 16 true, List.replicate 16 true, rfl, rfl, ?_⟩
    rw [e, e']
    change a.result ((toyMD bigOctetBigBit 8).constructionU J) = a'.result ((toyMD bigOctetBigBit 8).constructionU J)
    rw [r, r']
    exact congrArg Except.ok (by decide +kernel)

example (J : Injector) := C125_collision (toyMD_args bigOctetBigBit (Or.inl rfl) 8 (by decide)) (by decide) J (toy_colliding J)

end Verif.Props
