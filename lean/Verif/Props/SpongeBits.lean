import Verif.Proof.SpongeBits
import Verif.Props.Sponge2
import Verif.Props.Reductions
/-
C83: messages that do not end on an octet boundary, in the bit order of FIPS 202 section B.1 (the first
bit of the message is the least significant bit of the first octet), which is also the order of the test
suite (test/sha3.cpp:342-368, 422-433).
-/
namespace Verif.Props

open Spec

/-- The digest of FIPS 202 (as a stream of octets) for a message of any number of bits, with any
permutation of strings. -/
def fipsDigest (k : SpongeKind) (f : Bits → Bits) (d : Nat) (N : Bits) : Bits :=
  octetBits (fipsBytes (sponge 1600 (1600 - 2 * d) f (N ++ k.suffix) d))

/-- The digest of an accumulator that holds octets and then bits. -/
theorem bits_digest (k : SpongeKind) (permute : Lanes → Lanes) {d : Nat} (S : SpongeSize d)
    (JP : Injector) (a : Acc Lanes) (m t : Bits)
    (h : BitRep (spongeConstruction k permute d JP) a m t) (ht : 0 < t.length)
    (hfit : m.length % spongeBlockBits d + t.length + k.suffix.length + 2 ≤ spongeBlockBits d) :
    a.result (spongeConstruction k permute d JP) =
      .ok (fipsDigest k (onStrings permute) d (flipOctets m ++ t)) := by
  show a.result (spongeConstructionOf k _ _ _ _ JP) = _
  rw [sponge_bits_result k _ S.facts.1 S.facts.2.1 _ _ _ JP a m t h ht hfit, output_of_blocks _ _ S]
  unfold fipsDigest
  rw [octetBits_fipsBytes]
  · rfl
  · rw [show 1600 - 2 * d = spongeBlockBits d from rfl, length_sponge _ S]; exact S.facts.2.2.2.1

/-- C07, exactly, for every accumulator that holds a message `m` that does not end on an octet boundary:
with room for the padding the digest is that of FIPS 202 for the whole octets of `m` followed by
`tailSeen`; without room the extraction writes outside the block. -/
theorem C07_exact (k : SpongeKind) (permute : Lanes → Lanes) {d : Nat} (S : SpongeSize d)
    (JP J : Injector) (garbage : Bits) (hgb : garbage.length = spongeBlockBits d) (ops : List Op)
    (hwt : ∀ op ∈ ops, op.WellTyped (spongeBlockBits d)) (hne : Op.extract ∉ ops) (m : Bits)
    (hm : streamOf (spongeBlockBits d) ops = m) (hlt : m.length < 2 ^ 64) (hr : m.length % 8 ≠ 0) :
    ∃ a, runOps (spongeConstruction k permute d JP) J
        (Acc.init (spongeConstruction k permute d JP) garbage) [] ops = .ok (a, []) ∧
      a.cache.length = spongeBlockBits d ∧
      a.result (spongeConstruction k permute d JP) =
        if m.length % spongeBlockBits d + k.suffix.length + 2 ≤ spongeBlockBits d then
          .ok (fipsDigest k (onStrings permute) d (flipOctets (m.take (m.length - m.length % 8)) ++
            tailSeen (spongeBlockBits d) a.cache m))
        else .error .outOfRange := by
  obtain ⟨hB, h64, h16, h8, hB64⟩ := S.facts
  have V := sponge_verified k permute JP S
  have hC : (spongeConstruction k permute d JP).blockBits = spongeBlockBits d := rfl
  obtain ⟨a, e, r⟩ := V.run J ops hwt (V.init garbage hgb)
    (Or.inl (by rw [List.nil_append]; show (streamOf (spongeBlockBits d) ops).length < _; rw [hm]; exact hlt))
    (goodExtracts_of_no_extract _ _ ops hne _) []
  rw [List.nil_append, hC, hm] at r
  rw [expected_of_no_extract _ _ ops hne, List.nil_append] at e
  refine ⟨a, e, r.cache_len, ?_⟩
  have b := r.toBitRep (by rw [hC]; omega) hB hlt hr
  rw [hC] at b
  have hl0 : (m.take (m.length - m.length % 8)).length = m.length - m.length % 8 := by
    rw [List.length_take]; omega
  have htl : (tailSeen (spongeBlockBits d) a.cache m).length = m.length % 8 := by
    have h1 := b.total
    rw [r.total, wrap64_of_lt hlt, hl0] at h1
    omega
  have hmod : (m.length - m.length % 8) % spongeBlockBits d + m.length % 8 =
      m.length % spongeBlockBits d := by
    obtain ⟨q, hq1, hq2, -⟩ := b.core
    rw [hC, hl0] at hq1 hq2
    rw [mod_of_between hq1 hq2]
    have h8q : 8 ∣ q * spongeBlockBits d := Nat.dvd_trans (by omega) (Nat.dvd_mul_left _ _)
    have hq2' : m.length < q * spongeBlockBits d + spongeBlockBits d := by omega
    rw [mod_of_between (q := q) (by omega) hq2']
    omega
  have hml := Nat.mod_lt m.length hB
  split
  · exact bits_digest k permute S JP a _ _ b (by omega) (by rw [hl0, htl]; omega)
  · refine C07_short_tail_faults k (by omega) _ _ _ JP a m r hlt ?_
    have : k.suffix.length = match k with | .keccak => 0 | .sha3 => 2 := by cases k <;> rfl
    cases k <;> simp only at this ⊢ <;> omega

/-- C07: what the bits at the end are.  The first `8 - r` are bits of the cache behind the message, the
others are the first bits of the incomplete octet in reverse; of `r ≤ 4` bits none is seen. -/
theorem C07_tail_bits (B : Nat) (cache m : Bits) (hB : 0 < B) (h8 : 8 ∣ B) (hc : cache.length = B) (i : Nat)
    (hi : i < m.length % 8) :
    (tailSeen B cache m)[i]? = if i < 8 - m.length % 8
      then cache[m.length % B + (7 - m.length % 8 - i)]?
      else m[m.length - m.length % 8 + (7 - i)]? := by
  have hml := Nat.mod_lt m.length hB
  have h8m : m.length % B % 8 = m.length % 8 := Nat.mod_mod_of_dvd _ h8
  unfold tailSeen
  generalize m.length % 8 = r at *
  have hcd : ((cache.drop (m.length % B)).take (8 - r)).length = 8 - r := by
    rw [List.length_take, List.length_drop]; omega
  have hd : (m.drop (m.length - r)).length = r := by
    rw [List.length_drop]; have := Nat.mod_le m.length B; omega
  rw [List.getElem?_take_of_lt hi, List.getElem?_reverse (by rw [List.length_append]; omega),
    List.length_append, hcd, hd]
  split
  · rw [List.getElem?_append_right (by omega), List.getElem?_take_of_lt (by omega), List.getElem?_drop]
    congr 1
    omega
  · rw [List.getElem?_append_left (by omega), List.getElem?_drop]
    congr 1
    omega

/-- Five bits `b0 … b4` at the start of a fresh accumulator: the padding sees three foreign bits, then
`b4, b3`. -/
example (b0 b1 b2 b3 b4 g0 g1 g2 : Bool) (rest : Bits) :
    tailSeen 1088 (b0 :: b1 :: b2 :: b3 :: b4 :: g0 :: g1 :: g2 :: rest) [b0, b1, b2, b3, b4] =
      [g2, g1, g0, b4, b3] := rfl

/-- One block of 1088 bits and then a push of five bits, SHA3-256. -/
example (JP J : Injector) (v w : Bits) (hv : v.length = 1088) (hw : w.length = 1088) :
    ∃ a, runOps (spongeConstruction .sha3 keccakPermute 256 JP) J
        (Acc.init (spongeConstruction .sha3 keccakPermute 256 JP) (List.replicate 1088 true)) []
        [.block v 0, .block w 5] = .ok (a, []) ∧
      a.result (spongeConstruction .sha3 keccakPermute 256 JP) =
        .ok (fipsDigest .sha3 (onStrings keccakPermute) 256
          (flipOctets v ++ tailSeen 1088 a.cache (v ++ w.take 5))) := by
  have hm : streamOf (spongeBlockBits 256) [.block v 0, .block w 5] = v ++ w.take 5 := by
    show v.take 1088 ++ (w.take 5 ++ []) = _
    rw [List.append_nil, List.take_of_length_le (by omega)]
  have hl : (v ++ w.take 5).length = 1093 := by rw [List.length_append, List.length_take]; omega
  obtain ⟨a, e, -, r⟩ := C07_exact .sha3 keccakPermute sizes.2.1 JP J (List.replicate 1088 true)
    List.length_replicate [.block v 0, .block w 5]
    (by
      intro op hop
      simp only [List.mem_cons, List.not_mem_nil, or_false] at hop
      rcases hop with rfl | rfl
      · exact ⟨hv, by decide⟩
      · exact ⟨hw, by decide⟩) (by simp) _ hm (by rw [hl]; decide) (by rw [hl]; decide)
  refine ⟨a, e, ?_⟩
  rw [hl, if_pos (by decide)] at r
  rw [r, show (v ++ w.take 5).take (1093 - 1093 % 8) = v from List.take_left' hv]
  rfl

section
variable (k : SpongeKind) (permute : Lanes → Lanes) {d : Nat} (S : SpongeSize d) (JP J : Injector)
  (garbage : Bits) (hgb : garbage.length = spongeBlockBits d)
  (ops : List Op) (hwt : ∀ op ∈ ops, op.WellTyped (spongeBlockBits d)) (hne : Op.extract ∉ ops)
  (pre bytes : List Nat) (hpre : streamOf (spongeBlockBits d) ops = octetBits pre)
  (n : Nat) (h0 : 0 < n) (hlen : 8 * pre.length + n < 2 ^ 64)
include S hgb hwt hne hpre h0 hlen

/-- C83: any program that feeds whole blocks (the octets `pre`), then `acc(block, bits = n)` with any
bit count `n` that leaves room for the suffix and the padding: the digest is that of FIPS 202 for the bits
of `pre` followed by the first `n` bits of the block.  Missing: counts that leave less room
(`C83_short_tail_false`) and bits after an incomplete block (`C83_after_incomplete_block_false`). -/
theorem C83_block_partial (hblk : spongeBlockBits d ∣ 8 * pre.length)
    (hb : bytes.length = spongeBlockBits d / 8)
    (hfit : n + k.suffix.length + 2 ≤ spongeBlockBits d) :
    (do let (a, _) ← runOps (spongeConstruction k permute d JP) J
          (Acc.init (spongeConstruction k permute d JP) garbage) [] ops
        let a ← a.pushBlock (spongeConstruction k permute d JP) J (octetBits bytes) n
        a.result (spongeConstruction k permute d JP)) =
      .ok (fipsDigest k (onStrings permute) d (fipsBits pre ++ (fipsBits bytes).take n)) := by
  obtain ⟨hB, h64, h16, h8, hB64⟩ := S.facts
  have V := sponge_verified k permute JP S
  have hl : (octetBits pre).length = 8 * pre.length := by
    rw [length_octetBits, Nat.mul_comm]
  have hlb : (octetBits bytes).length = spongeBlockBits d := by rw [length_octetBits, hb]; omega
  obtain ⟨a, e, r⟩ := V.run J ops hwt (V.init garbage hgb)
    (Or.inl (by rw [List.nil_append]; show (streamOf (spongeBlockBits d) ops).length < _; rw [hpre]; omega))
    (goodExtracts_of_no_extract _ _ ops hne _) []
  rw [List.nil_append, show (spongeConstruction k permute d JP).blockBits = spongeBlockBits d from rfl,
    hpre] at r
  obtain ⟨a', e', r'⟩ := r.bitBlock (J := J) (value := octetBits bytes) (n := n) rfl h64
    (by rw [hl]; exact hblk) h0 (by show n < spongeBlockBits d; omega) hlb (by rw [hl]; exact hlen)
  rw [e]
  show (a.pushBlock (spongeConstruction k permute d JP) J (octetBits bytes) n >>= fun a => a.result _) = _
  rw [e']
  have ht : ((flipOctets (octetBits bytes)).take n).length = n := by
    rw [List.length_take, length_flipOctets]; omega
  have := bits_digest k permute S JP a' _ _ r' (by omega)
    (by rw [ht, hl, Nat.mod_eq_zero_of_dvd hblk]; omega)
  rw [flipOctets_octetBits, flipOctets_octetBits] at this
  exact this

/-- C83 for words: any program that feeds whole words, then `acc(word, bits = n)`. -/
theorem C83_word_partial (hword : 8 ∣ pre.length) (hb : bytes.length = 8) (hn : n ≤ 64)
    (hfit : 8 * pre.length % spongeBlockBits d + n + k.suffix.length + 2 ≤ spongeBlockBits d) :
    (do let (a, _) ← runOps (spongeConstruction k permute d JP) J
          (Acc.init (spongeConstruction k permute d JP) garbage) [] ops
        let a ← a.pushWord (spongeConstruction k permute d JP) J (octetBits bytes) n
        a.result (spongeConstruction k permute d JP)) =
      .ok (fipsDigest k (onStrings permute) d (fipsBits pre ++ (fipsBits bytes).take n)) := by
  obtain ⟨hB, h64, h16, h8, hB64⟩ := S.facts
  have V := sponge_verified k permute JP S
  have hl : (octetBits pre).length = 8 * pre.length := by
    rw [length_octetBits, Nat.mul_comm]
  have hlb : (octetBits bytes).length = 64 := by rw [length_octetBits, hb]
  obtain ⟨a, e, r⟩ := V.run J ops hwt (V.init garbage hgb)
    (Or.inl (by rw [List.nil_append]; show (streamOf (spongeBlockBits d) ops).length < _; rw [hpre]; omega))
    (goodExtracts_of_no_extract _ _ ops hne _) []
  rw [List.nil_append, show (spongeConstruction k permute d JP).blockBits = spongeBlockBits d from rfl,
    hpre] at r
  obtain ⟨a', e', r'⟩ := r.bitWord (J := J) (value := octetBits bytes) (n := n) rfl hB h64
    (by rw [hl]; omega) h0 hn hlb (by rw [hl]; exact hlen)
  rw [e]
  show (a.pushWord (spongeConstruction k permute d JP) J (octetBits bytes) n >>= fun a => a.result _) = _
  rw [e']
  have ht : ((flipOctets (octetBits bytes)).take n).length = n := by
    rw [List.length_take, length_flipOctets]; omega
  have := bits_digest k permute S JP a' _ _ r' (by omega) (by rw [ht, hl]; exact hfit)
  rw [flipOctets_octetBits, flipOctets_octetBits] at this
  exact this

/-- C83, with the permutation of the code and that of FIPS 202. -/
theorem C83_block_full_partial (hblk : spongeBlockBits d ∣ 8 * pre.length)
    (hb : bytes.length = spongeBlockBits d / 8)
    (hfit : n + k.suffix.length + 2 ≤ spongeBlockBits d) :
    (do let (a, _) ← runOps (spongeConstruction k keccakPermute d JP) J
          (Acc.init (spongeConstruction k keccakPermute d JP) garbage) [] ops
        let a ← a.pushBlock (spongeConstruction k keccakPermute d JP) J (octetBits bytes) n
        a.result (spongeConstruction k keccakPermute d JP)) =
      .ok (octetBits (keccakFips d (fipsBits pre ++ (fipsBits bytes).take n ++ k.suffix))) := by
  rw [C83_block_partial k keccakPermute S JP J garbage hgb ops hwt hne pre bytes hpre n h0 hlen hblk hb
    hfit, onStrings_keccakPermute]
  rfl

/-- C83, the counts that leave no room: every extraction writes outside the block. -/
theorem C83_short_tail_false (hblk : spongeBlockBits d ∣ 8 * pre.length)
    (hb : bytes.length = spongeBlockBits d / 8) (hn : n < spongeBlockBits d)
    (hfit : ¬ n + k.suffix.length + 2 ≤ spongeBlockBits d) :
    (do let (a, _) ← runOps (spongeConstruction k permute d JP) J
          (Acc.init (spongeConstruction k permute d JP) garbage) [] ops
        let a ← a.pushBlock (spongeConstruction k permute d JP) J (octetBits bytes) n
        a.result (spongeConstruction k permute d JP)) = .error .outOfRange := by
  obtain ⟨hB, h64, h16, h8, hB64⟩ := S.facts
  have V := sponge_verified k permute JP S
  have hl : (octetBits pre).length = 8 * pre.length := by
    rw [length_octetBits, Nat.mul_comm]
  have hlb : (octetBits bytes).length = spongeBlockBits d := by rw [length_octetBits, hb]; omega
  obtain ⟨a, e, r⟩ := V.run J ops hwt (V.init garbage hgb)
    (Or.inl (by rw [List.nil_append]; show (streamOf (spongeBlockBits d) ops).length < _; rw [hpre]; omega))
    (goodExtracts_of_no_extract _ _ ops hne _) []
  rw [List.nil_append, show (spongeConstruction k permute d JP).blockBits = spongeBlockBits d from rfl,
    hpre] at r
  obtain ⟨a', e', r'⟩ := r.pushBlock (J := J) (value := octetBits bytes) (bits := n)
    (by show 0 < 64; omega) h64 h0 (Nat.le_of_lt hn) hlb (Or.inl (by rw [hl]; exact hlen))
  rw [e]
  show (a.pushBlock (spongeConstruction k permute d JP) J (octetBits bytes) n >>= fun a => a.result _) = _
  rw [e']
  have hl' : (octetBits pre ++ (octetBits bytes).take n).length = 8 * pre.length + n := by
    rw [List.length_append, List.length_take, hl]; omega
  refine C07_short_tail_faults k (by omega) _ _ _ JP a' _ r' (by omega) ?_
  rw [hl']
  obtain ⟨c, hc⟩ := hblk
  rw [hc, Nat.mul_add_mod, Nat.mod_eq_of_lt hn]
  have : k.suffix.length = match k with | .keccak => 0 | .sha3 => 2 := by cases k <;> rfl
  cases k <;> simp only at this ⊢ <;> omega

/-- C83, bits after an incomplete block, in general: of `n` bits pushed behind octets that do not fill a block, with
`r = n % 8` bits in the last octet, the first ones of that octet (`r` of them, but at most `8 - r`) do not influence
the digest, in whatever order one reads them: the accumulator copies the first bits of the octet, the padding keeps the
last ones.  The injector must not let the source decide about the bits behind the written ones; both reference
injectors qualify. -/
theorem C83_lost_bits (hblk : ¬ spongeBlockBits d ∣ 8 * pre.length)
    (hfit : 8 * pre.length % spongeBlockBits d + n + k.suffix.length + 2 ≤ spongeBlockBits d)
    (hJ : ∀ src src' dst c o, c + n ≤ dst.length → o + n ≤ src.length → o + n ≤ src'.length →
      (J.inject src n dst c o).drop (c + n) = (J.inject src' n dst c o).drop (c + n))
    (value value' : Bits) (hv : value.length = spongeBlockBits d) (hv' : value'.length = spongeBlockBits d)
    (hag : ∀ i < n, i < n - n % 8 ∨ n - n % 8 + (8 - n % 8) ≤ i → value[i]? = value'[i]?) :
    (do let (a, _) ← runOps (spongeConstruction k permute d JP) J
          (Acc.init (spongeConstruction k permute d JP) garbage) [] ops
        let a ← a.pushBlock (spongeConstruction k permute d JP) J value n
        a.result (spongeConstruction k permute d JP)) =
    (do let (a, _) ← runOps (spongeConstruction k permute d JP) J
          (Acc.init (spongeConstruction k permute d JP) garbage) [] ops
        let a ← a.pushBlock (spongeConstruction k permute d JP) J value' n
        a.result (spongeConstruction k permute d JP)) := by
  obtain ⟨hB, h64, h16, h8, hB64⟩ := S.facts
  have V := sponge_verified k permute JP S
  have hl : (octetBits pre).length = 8 * pre.length := by
    rw [length_octetBits, Nat.mul_comm]
  have hC : (spongeConstruction k permute d JP).blockBits = spongeBlockBits d := rfl
  obtain ⟨a, e, r⟩ := V.run J ops hwt (V.init garbage hgb)
    (Or.inl (by rw [List.nil_append]; show (streamOf (spongeBlockBits d) ops).length < _; rw [hpre]; omega))
    (goodExtracts_of_no_extract _ _ ops hne _) []
  rw [List.nil_append, hC, hpre] at r
  rw [e]
  show (a.pushBlock _ J value n >>= fun a => a.result _) = (a.pushBlock _ J value' n >>= fun a => a.result _)
  have hf := r.flush hB
  have hn0 : ¬ n = 0 := by omega
  unfold Acc.pushBlock Acc.processBlockValue
  simp only [if_neg hn0]
  generalize a.flush (spongeConstruction k permute d JP) = b at *
  have hcl := hf.cache_len
  rw [hC] at hcl
  have hbt : b.total = 8 * pre.length := by rw [hf.total, hl, wrap64_of_lt (by omega)]
  have hmod : b.total % spongeBlockBits d ≠ 0 := by
    rw [hbt]; exact fun h => hblk (Nat.dvd_of_mod_eq_zero h)
  have hlt := Nat.mod_lt b.total hB
  have h8s : 8 ∣ b.total % spongeBlockBits d := by
    rw [Nat.dvd_mod_iff (by omega), hbt]; omega
  rw [hC, if_pos hmod, if_pos hmod]
  unfold Acc.append
  rw [hC]
  rw [← hbt] at hfit
  generalize hs : b.total % spongeBlockBits d = s at *
  simp only
  rw [if_pos (by omega), J.run_ok (by omega) (by omega), J.run_ok (by omega) (by omega)]
  simp only [bind, Except.bind]
  rw [if_neg (by omega), if_neg (by omega)]
  simp only [pure, Except.pure]
  have t1 := J.take_inject value n b.cache s 0 (by omega) (by omega)
  have t2 := J.take_inject value' n b.cache s 0 (by omega) (by omega)
  have l1 := J.length_inject value n b.cache s 0 (by omega) (by omega)
  have l2 := J.length_inject value' n b.cache s 0 (by omega) (by omega)
  have hd := hJ value value' b.cache s 0 (by omega) (by omega) (by omega)
  generalize J.inject value n b.cache s 0 = c1 at *
  generalize J.inject value' n b.cache s 0 = c2 at *
  unfold Acc.result
  show spongeDigest k (spongeBlockBits d) _ _ JP b.st c1 (wrap64 (b.total + n)) =
    spongeDigest k (spongeBlockBits d) _ _ JP b.st c2 (wrap64 (b.total + n))
  rw [wrap64_of_lt (by omega)]
  have hseen : (b.total + n) % spongeBlockBits d = s + n := by
    have h1 := Nat.div_add_mod b.total (spongeBlockBits d)
    rw [hs] at h1
    rw [← h1, Nat.add_assoc, Nat.mul_add_mod, Nat.mod_eq_of_lt (by omega)]
  have hsl := k.suffix_le
  unfold spongeDigest
  simp only
  rw [hseen, if_neg (by omega), if_neg (by omega), k.pad_eq' JP c1 _ (by omega) (by omega),
    k.pad_eq' JP c2 _ (by omega) (by omega)]
  have key : (flipOctets c1).take (s + n) = (flipOctets c2).take (s + n) := by
    have g : ∀ i, (i < s ∨ s + n ≤ i ∨ s ≤ i ∧ i < s + n ∧
        (i - s < n - n % 8 ∨ n - n % 8 + (8 - n % 8) ≤ i - s)) → c1[i]? = c2[i]? := by
      intro i hi
      rcases hi with hi | hi | ⟨hi, hi', ha⟩
      · have u1 := congrArg (fun l => l[i]?) t1
        have u2 := congrArg (fun l => l[i]?) t2
        rw [List.getElem?_take_of_lt (by omega), List.getElem?_append_left (by simp; omega)] at u1 u2
        rw [u1, u2]
      · have u := congrArg (fun l => l[i - (s + n)]?) hd
        rw [List.getElem?_drop, List.getElem?_drop, show s + n + (i - (s + n)) = i by omega] at u
        exact u
      · have hts : (b.cache.take s).length = s := by rw [List.length_take]; omega
        have u1 := congrArg (fun l => l[i]?) t1
        have u2 := congrArg (fun l => l[i]?) t2
        rw [List.getElem?_take_of_lt (by omega), List.getElem?_append_right (by omega), hts,
          List.drop_zero, List.getElem?_take_of_lt (by omega)] at u1 u2
        rw [u1, u2]
        exact hag _ (by omega) ha
    apply List.ext_getElem?
    intro i
    by_cases hi : i < s + n
    · rw [List.getElem?_take_of_lt hi, List.getElem?_take_of_lt hi,
        getElem?_flipOctets _ (by omega), getElem?_flipOctets _ (by omega)]
      exact g _ (by omega)
    · rw [List.getElem?_eq_none (by rw [List.length_take]; omega),
        List.getElem?_eq_none (by rw [List.length_take]; omega)]
  rw [key]

/-- C83, bits after an incomplete block: up to four bits pushed behind octets that do not fill a block
do not influence the digest at all, in whatever order one reads them (the accumulator copies the first
bits of the octet, the padding keeps the last ones).  The injector must not let the source decide about
the bits behind the written ones; both reference injectors qualify. -/
theorem C83_after_incomplete_block_false (hblk : ¬ spongeBlockBits d ∣ 8 * pre.length) (hn : n ≤ 4)
    (hJ : ∀ src src' dst c o, c + n ≤ dst.length → o + n ≤ src.length → o + n ≤ src'.length →
      (J.inject src n dst c o).drop (c + n) = (J.inject src' n dst c o).drop (c + n))
    (value value' : Bits) (hv : value.length = spongeBlockBits d) (hv' : value'.length = spongeBlockBits d) :
    (do let (a, _) ← runOps (spongeConstruction k permute d JP) J
          (Acc.init (spongeConstruction k permute d JP) garbage) [] ops
        let a ← a.pushBlock (spongeConstruction k permute d JP) J value n
        a.result (spongeConstruction k permute d JP)) =
    (do let (a, _) ← runOps (spongeConstruction k permute d JP) J
          (Acc.init (spongeConstruction k permute d JP) garbage) [] ops
        let a ← a.pushBlock (spongeConstruction k permute d JP) J value' n
        a.result (spongeConstruction k permute d JP)) := by
  obtain ⟨hB, h64, h16, h8, hB64⟩ := S.facts
  have hlt := Nat.mod_lt (8 * pre.length) hB
  have h8s : 8 ∣ 8 * pre.length % spongeBlockBits d := by
    rw [Nat.dvd_mod_iff (by omega)]; omega
  have hsl := k.suffix_le
  exact C83_lost_bits k permute S JP J garbage hgb ops hwt hne pre hpre n h0 hlen hblk (by omega) hJ value value' hv hv'
    (by intro i hi ha; omega)

end

/-- The NIST example of five bits `11001` (test/sha3.cpp:342-355): first octet 0x13, the rest of the
block arbitrary. -/
example (JP J : Injector) (rest : List Nat) (hr : rest.length = 143) :
    (do let (a, _) ← runOps (spongeConstruction .sha3 keccakPermute 224 JP) J
          (Acc.init (spongeConstruction .sha3 keccakPermute 224 JP) (List.replicate 1152 true)) [] []
        let a ← a.pushBlock (spongeConstruction .sha3 keccakPermute 224 JP) J (octetBits (0x13 :: rest)) 5
        a.result (spongeConstruction .sha3 keccakPermute 224 JP)) =
      .ok (octetBits (keccakFips 224 [true, true, false, false, true, false, true])) := by
  rw [C83_block_full_partial .sha3 sizes.1 JP J (List.replicate 1152 true) List.length_replicate [] (by simp) (by simp) []
    (0x13 :: rest) rfl 5 (by omega) (by decide) ⟨0, rfl⟩ (by rw [List.length_cons, hr]; rfl) (by decide)]
  have e : (fipsBits (0x13 :: rest)).take 5 = [true, true, false, false, true] := by
    unfold fipsBits
    rw [List.flatMap_cons, List.take_append_of_le_length (by simp)]
    decide
  rw [e]
  rfl

/-- Eight octets and then three bits of a word. -/
example (permute : Lanes → Lanes) (JP J : Injector) :
    (do let (a, _) ← runOps (spongeConstruction .keccak permute 256 JP) J
          (Acc.init (spongeConstruction .keccak permute 256 JP) (List.replicate 1088 true)) []
          [spongeBytes 256 [1, 2, 3, 4, 5, 6, 7, 8]]
        let a ← a.pushWord (spongeConstruction .keccak permute 256 JP) J
          (octetBits [5, 0, 0, 0, 0, 0, 0, 0]) 3
        a.result (spongeConstruction .keccak permute 256 JP)) =
      .ok (fipsDigest .keccak (onStrings permute) 256
        (fipsBits [1, 2, 3, 4, 5, 6, 7, 8] ++ [true, false, true])) :=
  C83_word_partial .keccak permute sizes.2.1 JP J _ List.length_replicate
    [spongeBytes 256 [1, 2, 3, 4, 5, 6, 7, 8]]
    (by
      intro op hop
      rw [List.mem_singleton] at hop
      exact hop ▸ spongeBytes_wellTyped sizes.2.1 _)
    (by simp [spongeBytes]) [1, 2, 3, 4, 5, 6, 7, 8] [5, 0, 0, 0, 0, 0, 0, 0] (by decide +kernel) 3
    (by omega) (by decide) ⟨1, rfl⟩ rfl (by omega) (by decide)

/-- SHA3-256 with three free bits. -/
example (permute : Lanes → Lanes) (JP J : Injector) :
    (do let (a, _) ← runOps (spongeConstruction .sha3 permute 256 JP) J
          (Acc.init (spongeConstruction .sha3 permute 256 JP) (List.replicate 1088 true)) [] []
        let a ← a.pushBlock (spongeConstruction .sha3 permute 256 JP) J (octetBits (List.replicate 136 7)) 1085
        a.result (spongeConstruction .sha3 permute 256 JP)) = .error .outOfRange :=
  C83_short_tail_false .sha3 permute sizes.2.1 JP J _ List.length_replicate [] (by simp) (by simp) []
    (List.replicate 136 7) rfl 1085 (by omega) (by decide) ⟨0, rfl⟩ List.length_replicate (by decide)
    (by decide)

/-- The reference injectors meet the condition of `C83_after_incomplete_block_false`. -/
theorem splice_rest {n : Nat} (src src' dst : Bits) (c o : Nat) (h1 : c + n ≤ dst.length)
    (h2 : o + n ≤ src.length) (h3 : o + n ≤ src'.length) :
    (spliceInjector.inject src n dst c o).drop (c + n) =
      (spliceInjector.inject src' n dst c o).drop (c + n) := by
  have e : ∀ s : Bits, o + n ≤ s.length → (dst.take c ++ (s.drop o).take n).length = c + n := by
    intro s hs
    rw [List.length_append, List.length_take, List.length_take, List.length_drop]; omega
  show (dst.take c ++ (src.drop o).take n ++ dst.drop (c + n)).drop (c + n) =
    (dst.take c ++ (src'.drop o).take n ++ dst.drop (c + n)).drop (c + n)
  rw [List.drop_left' (e src h2), List.drop_left' (e src' h3)]

/-- The same five bits for an arbitrary permutation. -/
example (permute : Lanes → Lanes) (JP J : Injector) (rest : List Nat) (hr : rest.length = 143) :
    (do let (a, _) ← runOps (spongeConstruction .sha3 permute 224 JP) J
          (Acc.init (spongeConstruction .sha3 permute 224 JP) (List.replicate 1152 true)) [] []
        let a ← a.pushBlock (spongeConstruction .sha3 permute 224 JP) J (octetBits (0x13 :: rest)) 5
        a.result (spongeConstruction .sha3 permute 224 JP)) =
      .ok (fipsDigest .sha3 (onStrings permute) 224 ((fipsBits (0x13 :: rest)).take 5)) :=
  C83_block_partial .sha3 permute sizes.1 JP J (List.replicate 1152 true) List.length_replicate [] (by simp) (by simp) []
    (0x13 :: rest) rfl 5 (by omega) (by decide) ⟨0, rfl⟩ (by rw [List.length_cons, hr]; rfl) (by decide)

theorem clearing_rest {n : Nat} (src src' dst : Bits) (c o : Nat) (h1 : c + n ≤ dst.length)
    (h2 : o + n ≤ src.length) (h3 : o + n ≤ src'.length) :
    (clearingInjector.inject src n dst c o).drop (c + n) =
      (clearingInjector.inject src' n dst c o).drop (c + n) := by
  have e : ∀ s : Bits, o + n ≤ s.length → (dst.take c ++ (s.drop o).take n).length = c + n := by
    intro s hs
    rw [List.length_append, List.length_take, List.length_take, List.length_drop]; omega
  show (dst.take c ++ (src.drop o).take n ++ List.replicate (dst.length - (c + n)) false).drop (c + n) =
    (dst.take c ++ (src'.drop o).take n ++ List.replicate (dst.length - (c + n)) false).drop (c + n)
  rw [List.drop_left' (e src h2), List.drop_left' (e src' h3)]

/-- The octet 0x61 and then one bit. -/
example (JP : Injector) (value value' : Bits) (hv : value.length = 1088) (hv' : value'.length = 1088) :
    (do let (a, _) ← runOps (spongeConstruction .sha3 keccakPermute 256 JP) spliceInjector
          (Acc.init (spongeConstruction .sha3 keccakPermute 256 JP) (List.replicate 1088 true)) []
          [spongeBytes 256 [0x61]]
        let a ← a.pushBlock (spongeConstruction .sha3 keccakPermute 256 JP) spliceInjector value 1
        a.result (spongeConstruction .sha3 keccakPermute 256 JP)) =
    (do let (a, _) ← runOps (spongeConstruction .sha3 keccakPermute 256 JP) spliceInjector
          (Acc.init (spongeConstruction .sha3 keccakPermute 256 JP) (List.replicate 1088 true)) []
          [spongeBytes 256 [0x61]]
        let a ← a.pushBlock (spongeConstruction .sha3 keccakPermute 256 JP) spliceInjector value' 1
        a.result (spongeConstruction .sha3 keccakPermute 256 JP)) :=
  C83_after_incomplete_block_false .sha3 keccakPermute sizes.2.1 JP spliceInjector _ List.length_replicate
    [spongeBytes 256 [0x61]]
    (by
      intro op hop
      rw [List.mem_singleton] at hop
      exact hop ▸ spongeBytes_wellTyped sizes.2.1 _)
    (by simp [spongeBytes]) [0x61] (by decide +kernel) 1 (by omega) (by decide) (by decide) (by omega)
    splice_rest value value' hv hv'

/-- The octet 0x61 and then 13 bits: the first three of the last five are lost. -/
example (JP : Injector) (common low value value' rest rest' : Bits) (hc : common.length = 8) (hl : low.length = 2)
    (hv : value.length = 3) (hv' : value'.length = 3) (hr : rest.length = 1075) (hr' : rest'.length = 1075) :
    (do let (a, _) ← runOps (spongeConstruction .sha3 keccakPermute 256 JP) spliceInjector
          (Acc.init (spongeConstruction .sha3 keccakPermute 256 JP) (List.replicate 1088 true)) []
          [spongeBytes 256 [0x61]]
        let a ← a.pushBlock (spongeConstruction .sha3 keccakPermute 256 JP) spliceInjector
          (common ++ (value ++ (low ++ rest))) 13
        a.result (spongeConstruction .sha3 keccakPermute 256 JP)) =
    (do let (a, _) ← runOps (spongeConstruction .sha3 keccakPermute 256 JP) spliceInjector
          (Acc.init (spongeConstruction .sha3 keccakPermute 256 JP) (List.replicate 1088 true)) []
          [spongeBytes 256 [0x61]]
        let a ← a.pushBlock (spongeConstruction .sha3 keccakPermute 256 JP) spliceInjector
          (common ++ (value' ++ (low ++ rest'))) 13
        a.result (spongeConstruction .sha3 keccakPermute 256 JP)) :=
  C83_lost_bits .sha3 keccakPermute sizes.2.1 JP spliceInjector _ List.length_replicate
    [spongeBytes 256 [0x61]]
    (by
      intro op hop
      rw [List.mem_singleton] at hop
      exact hop ▸ spongeBytes_wellTyped sizes.2.1 _)
    (by simp [spongeBytes]) [0x61] (by decide +kernel) 13 (by omega) (by decide) (by decide) (by decide)
    splice_rest _ _ (by simp only [List.length_append, hc, hl, hv, hr]; decide)
    (by simp only [List.length_append, hc, hl, hv', hr']; decide) (by
      intro i hi h
      rcases Nat.lt_or_ge i 8 with h8 | h8
      · rw [List.getElem?_append_left (by omega), List.getElem?_append_left (by omega)]
      · have e : ∀ v r : Bits, v.length = 3 → (common ++ (v ++ (low ++ r)))[i]? = low[i - 8 - 3]? := by
          intro v r h3
          rw [List.getElem?_append_right (by omega), List.getElem?_append_right (by omega),
            List.getElem?_append_left (by omega), hc, h3]
        rw [e _ _ hv, e _ _ hv'])

end Verif.Props
