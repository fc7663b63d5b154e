import Verif.Proof.Blake2bBytes
import Verif.Props.MerkleDamgard2
/-
C08, C09, C23, C24 and the HAIFA part of C10, C12, C13, C15, C16, C19.

`nn` is the digest length in bytes, `JP` the injector of the padding, `J` that of the accumulator.
-/
namespace Verif.Props

open Spec

/-- The digest as a function of the fed bits. -/
def blakeOf (nn : Nat) (m : Bits) : Bits :=
  haifaDigestOf 1024 (blakeInit (8 * nn)) blakeCompress
    (fun st => octetBits (readout nn st.toList)) m

theorem blake_verified (nn : Nat) (hnn : nn ≤ 64) (JP : Injector) :
    Verified (blake2bConstruction (8 * nn) JP) HaifaGood (blakeOf nn) :=
  haifa_verified 1024 64 (by omega) (by omega) (by omega) _ _ _ _ (blakeOutput_eq nn hnn) JP

theorem view_octet_little (bytes : List Nat) :
    bytes.flatMap (wordElem littleOctetBigBit 8).view = octetBits bytes := view_octet .md5 bytes

theorem blakeOf_bytes (nn : Nat) (bytes : List Nat) (hb : ∀ b ∈ bytes, b < 256)
    (hlen : bytes.length < 2 ^ 61) :
    blakeOf nn (octetBits bytes) = octetBits (readout nn (codeState nn bytes)) := by
  rw [← haifa_bytes nn bytes hb hlen]; rfl

/-! ### C23, C24 -/

/-- C23: `process_block` is RFC 7693's `F` for every chaining value, every sixteen message words, every
64-bit number of bits seen (the byte counter is its eighth, rounded up) and both flags. -/
theorem C23_compress_is_F (st : BlakeState) (M : Nat → BitVec 64) (seen : Nat) (hs : seen < 2 ^ 64)
    (f : Bool) :
    (blakeCompressWords st M (BitVec.ofNat 64 seen) (if f then 0xFFFFFFFFFFFFFFFF else 0)).toList =
      Blake2b.F st.toList ((List.range 16).map M) ((seen + 7) / 8) f := by
  rw [← blakeCompressWords_spec _ _ _ hs]
  unfold blakeCompressWords
  rw [blakeRounds_congr fun i hi => (get_map_range _ 16 i hi).symm]

/-- The final block of a 129-octet message: counter 129. -/
example (st : BlakeState) (M : Nat → BitVec 64) :
    (blakeCompressWords st M 1032 0xFFFFFFFFFFFFFFFF).toList =
      Blake2b.F st.toList ((List.range 16).map M) 129 true :=
  C23_compress_is_F st M 1032 (by decide) true

/-- C23 on a block of bytes: the message words are the little-endian words of the block. -/
theorem C23_compress_bytes (st : BlakeState) (bytes : List Nat) (hb : ∀ b ∈ bytes, b < 256)
    (count : Nat) (hs : count < 2 ^ 61) (f : Bool) :
    (blakeCompress st (octetBits bytes) (8 * count) f).toList =
      Blake2b.F st.toList ((List.range 16).map (Blake2b.leWord bytes)) count f := by
  rw [blakeCompress_bytes st bytes hb _ (by omega), show (8 * count + 7) / 8 = count by omega]

example : (blakeCompress (blakeInit 512) (octetBits (List.range 128)) (8 * 128) false).toList =
    Blake2b.F (blakeInit 512).toList ((List.range 16).map (Blake2b.leWord (List.range 128))) 128 false :=
  C23_compress_bytes _ _ (by simp; omega) _ (by omega) _

/-- C24: `g` on four different places of the working state is a permutation of the state. -/
theorem C24_g_bijective (a b c d : Fin 16) (h : [a, b, c, d].Nodup) (m0 m1 : BitVec 64) :
    Function.Bijective fun v => blakeG v a b c d m0 m1 := by
  simp only [List.nodup_cons, List.mem_cons, List.not_mem_nil, or_false, not_or,
    not_false_eq_true, List.nodup_nil, and_true] at h
  exact blakeG_bijective ⟨h.1.1, h.1.2.1, h.1.2.2, h.2.1.1, h.2.1.2, h.2.2⟩ m0 m1

example : Function.Bijective fun v => blakeG v 3 4 9 14 7 8 := C24_g_bijective 3 4 9 14 (by decide) 7 8

/-- C24: every round is a permutation of the state, whatever the message indices. -/
theorem C24_round_bijective (M : Nat → BitVec 64)
    (i0 i1 i2 i3 i4 i5 i6 i7 i8 i9 iA iB iC iD iE iF : Nat) : Function.Bijective fun v =>
      blakeRound M v i0 i1 i2 i3 i4 i5 i6 i7 i8 i9 iA iB iC iD iE iF :=
  blakeRound_bijective M i0 i1 i2 i3 i4 i5 i6 i7 i8 i9 iA iB iC iD iE iF

/-- C24: the twelve rounds are a permutation of the state. -/
theorem C24_rounds_bijective (M : Nat → BitVec 64) : Function.Bijective (blakeRounds M) :=
  blakeRounds_bijective M

/-! ### C08 -/

/-- `hash<blake2b<8 nn>>(bytes)` for every byte string: RFC 7693, except that a last full block is compressed
a second time, with the final flag only then. -/
theorem C08_exact (nn : Nat) (hnn : nn ≤ 64) (JP J : Injector) (garbage : Bits)
    (hgb : garbage.length = 1024) (kind : RangeKind) (cache0 bytes : List Nat)
    (hc : cache0.length = 128) (hb : ∀ b ∈ bytes, b < 256) (hlen : bytes.length < 2 ^ 61) :
    hashOnce (blake2bConstruction (8 * nn) JP) J (wordElem littleOctetBigBit 8) kind garbage cache0 bytes =
      .ok (octetBits (readout nn (codeState nn bytes))) := by
  have hl : (bytes.flatMap (wordElem littleOctetBigBit 8).view).length < 2 ^ 64 := by
    rw [view_octet_little, length_octetBits]; omega
  rw [(blake_verified nn hnn JP).hashOnce J (wordElem littleOctetBigBit 8) kind garbage hgb cache0 bytes
    ⟨by simp [wordElem], by show 8 ∣ 1024; omega, by rw [hc]; show 128 = 1024 / 8; omega⟩ (Or.inl hl) hl, view_octet_little,
    blakeOf_bytes nn bytes hb hlen]

/-- A full block: the case in which the code and RFC 7693 differ. -/
example : hashOnce (blake2bConstruction 256 spliceInjector) clearingInjector (wordElem littleOctetBigBit 8)
      .container (List.replicate 1024 true) (List.replicate 128 7) (List.range 128) =
    .ok (octetBits (readout 32 (codeState 32 (List.range 128)))) :=
  C08_exact 32 (by omega) _ _ _ List.length_replicate _ _ _ List.length_replicate (by simp; omega) (by simp)

/-- C08, partial: the digest is RFC 7693's for every byte string that is empty or not a whole number of
blocks.  Missing: non-empty multiples of 128 bytes, where the property is false (`C08_false`). -/
theorem C08_rfc7693_partial (nn : Nat) (hnn : nn ≤ 64) (JP J : Injector) (garbage : Bits)
    (hgb : garbage.length = 1024) (kind : RangeKind) (cache0 bytes : List Nat)
    (hc : cache0.length = 128) (hb : ∀ b ∈ bytes, b < 256) (hlen : bytes.length < 2 ^ 61)
    (hrest : bytes.length = 0 ∨ bytes.length % 128 ≠ 0) :
    hashOnce (blake2bConstruction (8 * nn) JP) J (wordElem littleOctetBigBit 8) kind garbage cache0 bytes =
      .ok (octetBits (Blake2b.blake2b nn bytes)) := by
  rw [C08_exact nn hnn JP J garbage hgb kind cache0 bytes hc hb hlen]
  unfold codeState
  rw [if_neg (by omega)]
  rfl

example : hashOnce (blake2bConstruction 512 spliceInjector) clearingInjector
      (wordElem littleOctetBigBit 8) .container (List.replicate 1024 true) (List.replicate 128 7)
      (List.range 200) = .ok (octetBits (Blake2b.blake2b 64 (List.range 200))) :=
  C08_rfc7693_partial 64 (by omega) _ _ _ List.length_replicate _ _ _ List.length_replicate
    (by simp; omega) (by simp) (by simp)

/-- C08 is false: on 128 zero bytes the BLAKE2b-512 digest is not RFC 7693's. -/
theorem C08_false (JP J : Injector) (garbage : Bits) (hgb : garbage.length = 1024) (kind : RangeKind) :
    hashOnce (blake2bConstruction 512 JP) J (wordElem littleOctetBigBit 8) kind garbage
      (List.replicate 128 0) (List.replicate 128 0) ≠
      .ok (octetBits (Blake2b.blake2b 64 (List.replicate 128 0))) := by
  have h := C08_exact 64 (by omega) JP J garbage hgb kind (List.replicate 128 0) (List.replicate 128 0)
    List.length_replicate (fun b hm => by rw [List.eq_of_mem_replicate hm]; omega)
    (by rw [List.length_replicate]; omega)
  intro e
  have h2 := Except.ok.inj (h.symm.trans e)
  have h3 := congrArg (List.take 8) h2
  rw [show 8 = 8 * 1 by rfl, octetBits_take, octetBits_take] at h3
  revert h3
  have e1 : (readout 64 (codeState 64 (List.replicate 128 0))).take 1 = [88] := by decide +kernel
  have e2 : (Blake2b.blake2b 64 (List.replicate 128 0)).take 1 = [134] := by decide +kernel
  rw [e1, e2]
  decide

/-! ### C09, C19 -/

/-- HAIFA with a compressor that records its calls: the block, the byte counter that `process_block`
computes from its `seen` argument, and whether the finalizator is set. -/
abbrev haifaTracing (JP : Injector) : Construction (List (Bits × BitVec 64 × Bool))
    (List (Bits × BitVec 64 × Bool)) :=
  haifaConstruction 1024 64 [] (fun t b n f => t ++ [(b, blakeBytes (BitVec.ofNat 64 n), f)]) Except.ok JP

/-- The calls for `m`, from the message alone: every full block with the number of bytes up to its end, then
the last call. -/
def haifaCalls (m : Bits) : List (Bits × BitVec 64 × Bool) :=
  (List.range (m.length / 1024)).map (fun i =>
    ((m.drop (1024 * i)).take 1024, BitVec.ofNat 64 (128 * (i + 1)), false)) ++
  [(if m.length ≠ 0 ∧ m.length % 1024 = 0 then m.drop (m.length - 1024)
    else m.drop (1024 * (m.length / 1024)) ++ List.replicate (1024 - m.length % 1024) false,
    BitVec.ofNat 64 ((m.length + 7) / 8), true)]

theorem haifaTracing_verified (JP : Injector) :
    Verified (haifaTracing JP) HaifaGood haifaCalls where
  block := by show 0 < 1024; omega
  word := by show 0 < 64; omega
  wordBlock := by show 64 ∣ 1024; omega
  computes := by
    intro a m h hm
    rw [haifa_result 1024 64 (by omega) (by omega) (by omega) _ _ _ JP a m h hm]
    have hab : ∀ q, q * 1024 ≤ m.length → haifaAbsorbed 1024 []
        (fun t b n f => t ++ [(b, blakeBytes (BitVec.ofNat 64 n), f)]) m q =
          (List.range q).map (fun i =>
            ((m.drop (1024 * i)).take 1024, BitVec.ofNat 64 (128 * (i + 1)), false)) := by
      intro q
      induction q with
      | zero => intro _; rfl
      | succ q ih =>
        intro hq
        have hq' : q * 1024 ≤ m.length := Nat.le_trans (Nat.mul_le_mul_right 1024 (Nat.le_succ q)) hq
        have ih' := ih hq'
        rw [List.range_succ, List.map_append, ← ih']
        simp only [haifaAbsorbed, List.map_cons, List.map_nil]
        unfold HaifaGood at hm
        rw [byteCount _ (by omega), show ((q + 1) * 1024 + 7) / 8 = 128 * (q + 1) by omega]
        unfold block
        rw [Nat.mul_comm q 1024]
    rw [hab _ (by omega), byteCount _ hm]
    unfold haifaCalls haifaLast
    rw [Nat.mul_comm _ 1024]

/-- C09: the digest after any sequence of updates is that of one call with the concatenation; both
succeed. -/
theorem C09_incremental_eq_oneshot (nn : Nat) (hnn : nn ≤ 64) (JP J : Injector)
    (garbage garbage' : Bits) (hgb : garbage.length = 1024) (hgb' : garbage'.length = 1024)
    (pieces : List Op) (hwt : ∀ op ∈ pieces, op.WellTyped 1024) (hne : Op.extract ∉ pieces)
    {α : Type} (E : Elem α) (kind : RangeKind) (cache0 whole : List α)
    (hE : (Op.feed E kind cache0 whole).WellTyped 1024)
    (hsame : whole.flatMap E.view = streamOf 1024 pieces)
    (hlt : (whole.flatMap E.view).length < 2 ^ 64) :
    ∃ dig, (do let (a, _) ← runOps (blake2bConstruction (8 * nn) JP) J
                 (Acc.init (blake2bConstruction (8 * nn) JP) garbage) [] pieces
               a.result (blake2bConstruction (8 * nn) JP)) = .ok dig ∧
      hashOnce (blake2bConstruction (8 * nn) JP) J E kind garbage' cache0 whole = .ok dig :=
  (blake_verified nn hnn JP).incremental J garbage garbage' hgb hgb' pieces hwt hne E kind cache0
    whole hE hsame (Or.inl hlt) hlt

/-- Bytes fed to BLAKE2b. -/
def blakeBytesOp (bs : List Nat) : Op :=
  .feed (wordElem littleOctetBigBit 8) .randomAccess (List.replicate 128 0) bs

theorem blakeBytesOp_wellTyped (bs : List Nat) : (blakeBytesOp bs).WellTyped 1024 :=
  ⟨by simp [wordElem], by simp [wordElem], by simp [wordElem]⟩

/-- 200 bytes in three pieces. -/
example : ∃ dig, (do
      let (a, _) ← runOps (blake2bConstruction 256 spliceInjector) clearingInjector
        (Acc.init (blake2bConstruction 256 spliceInjector) (List.replicate 1024 true)) []
        [blakeBytesOp (List.range 127), blakeBytesOp [127], blakeBytesOp ((List.range 200).drop 128)]
      a.result (blake2bConstruction 256 spliceInjector)) = .ok dig ∧
    hashOnce (blake2bConstruction 256 spliceInjector) clearingInjector (wordElem littleOctetBigBit 8)
      .singlePass (List.replicate 1024 false) (List.replicate 128 0) (List.range 200) = .ok dig :=
  C09_incremental_eq_oneshot 32 (by omega) _ _ _ _ List.length_replicate List.length_replicate _
    (by
      intro op hop
      simp only [List.mem_cons, List.not_mem_nil, or_false] at hop
      rcases hop with rfl | rfl | rfl <;> exact blakeBytesOp_wellTyped _)
    (by simp [blakeBytesOp]) _ _ _ _
    ⟨by simp [wordElem], by simp [wordElem], List.length_replicate⟩
    (by decide +kernel) (by rw [length_flatMap_view]; simp [wordElem])

/-- C09: however the message is fed, with extractions in between, the compression calls behind every
digest are those of `haifaCalls` for the bits fed before it: the byte counter is the number of bytes up to
the end of the block. -/
theorem C09_calls (JP J : Injector) (garbage : Bits) (hgb : garbage.length = 1024) (ops : List Op)
    (hwt : ∀ op ∈ ops, op.WellTyped 1024) (hlt : (streamOf 1024 ops).length < 2 ^ 64)
    (hg : GoodExtracts 1024 HaifaGood [] ops) :
    ∃ a, runOps (haifaTracing JP) J (Acc.init (haifaTracing JP) garbage) [] ops =
        .ok (a, expected 1024 haifaCalls [] ops) ∧
      a.result (haifaTracing JP) = .ok (haifaCalls (streamOf 1024 ops)) :=
  (haifaTracing_verified JP).extraction J garbage hgb ops hwt (Or.inl hlt) hg hlt

/-- The counters of 300 bytes: 128, 256, 300. -/
example : (haifaCalls (octetBits (List.replicate 300 5))).map (fun c => (c.2.1.toNat, c.2.2)) =
    [(128, false), (256, false), (300, true)] := by decide +kernel

/-- C09, on whole octets: every call but the last gets a full block and the bytes up to its end; the last
gets the number of bytes of the message. -/
theorem C09_counters (bytes : List Nat) :
    (haifaCalls (octetBits bytes)).map (fun c => (c.2.1, c.2.2)) =
      (List.range (bytes.length / 128)).map (fun i => (BitVec.ofNat 64 (128 * (i + 1)), false)) ++
        [(BitVec.ofNat 64 bytes.length, true)] := by
  unfold haifaCalls
  rw [length_octetBits, show bytes.length * 8 / 1024 = bytes.length / 128 by omega,
    show (bytes.length * 8 + 7) / 8 = bytes.length by omega]
  simp only [List.map_append, List.map_map, List.map_cons, List.map_nil]
  rfl

/-- 300 octets: two full blocks and the final one. -/
example : (haifaCalls (octetBits (List.replicate 300 7))).map (fun c => (c.2.1, c.2.2)) =
    [(128, false), (256, false), (300, true)] := by
  rw [C09_counters, List.length_replicate]
  rfl

/-- C19 (HAIFA): a digest costs one compression per full block and one more; so non-empty whole numbers of
blocks cost one call more than RFC 7693 asks for. -/
theorem C19_haifa_calls (m : Bits) : (haifaCalls m).length = m.length / 1024 + 1 ∧
    ((haifaCalls m).filter fun c => c.2.2).length = 1 := by
  unfold haifaCalls
  refine ⟨by simp, ?_⟩
  rw [List.filter_append, List.length_append]
  simp [List.filter_map, Function.comp_def]

example : (haifaCalls (octetBits (List.replicate 300 7))).length = 3 := by
  rw [(C19_haifa_calls _).1, length_octetBits, List.length_replicate]

/-! ### C10, C12, C13, C15, C16 -/

section
variable {nn : Nat} (hnn : nn ≤ 64) (JP J : Injector) (garbage : Bits) (hgb : garbage.length = 1024)
include hnn hgb

/-- C10 (HAIFA). -/
theorem C10_haifa (ops : List Op) (hwt : ∀ op ∈ ops, op.WellTyped 1024)
    (hg : GoodExtracts 1024 HaifaGood [] ops) (hlt : (streamOf 1024 ops).length < 2 ^ 64) :
    ∃ a, runOps (blake2bConstruction (8 * nn) JP) J (Acc.init (blake2bConstruction (8 * nn) JP) garbage) []
        ops = .ok (a, expected 1024 (blakeOf nn) [] ops) ∧
      a.result (blake2bConstruction (8 * nn) JP) = .ok (blakeOf nn (streamOf 1024 ops)) :=
  (blake_verified nn hnn JP).extraction J garbage hgb ops hwt (Or.inl hlt) hg hlt

/-- C12 (HAIFA). -/
theorem C12_haifa (garbage' : Bits) (hgb' : garbage'.length = 1024) (ops ops' : List Op)
    (hwt : ∀ op ∈ ops, op.WellTyped 1024) (hwt' : ∀ op ∈ ops', op.WellTyped 1024)
    (hsame : List.Forall₂ SameData ops ops') (hlt : (streamOf 1024 ops).length < 2 ^ 64)
    (hg : GoodExtracts 1024 HaifaGood [] ops) :
    ∃ a a' out, runOps (blake2bConstruction (8 * nn) JP) J
        (Acc.init (blake2bConstruction (8 * nn) JP) garbage) [] ops = .ok (a, out) ∧
      runOps (blake2bConstruction (8 * nn) JP) J
        (Acc.init (blake2bConstruction (8 * nn) JP) garbage') [] ops' = .ok (a', out) :=
  (blake_verified nn hnn JP).garbage J garbage garbage' hgb hgb' ops ops' hwt hwt' hsame (Or.inl hlt) hg

/-- C13 (HAIFA): no fault, for any bit length. -/
theorem C13_haifa (ops : List Op) (hwt : ∀ op ∈ ops, op.WellTyped 1024)
    (hlt : (streamOf 1024 ops).length < 2 ^ 64) (hg : GoodExtracts 1024 HaifaGood [] ops) :
    ∃ r, runOps (blake2bConstruction (8 * nn) JP) J
      (Acc.init (blake2bConstruction (8 * nn) JP) garbage) [] ops = .ok r := by
  obtain ⟨a, e, _⟩ := C10_haifa hnn JP J garbage hgb ops hwt hg hlt
  exact ⟨_, e⟩

/-- C15 (HAIFA). -/
theorem C15_haifa_bits_argument (ops : List Op) (hwt : ∀ op ∈ ops, op.WellTyped 1024)
    (hgx : GoodExtracts 1024 HaifaGood [] ops) (value : Bits) (hval : value.length = 1024) (bits : Nat)
    (hbits : bits ≤ 1024)
    (hg : (streamOf 1024 ops ++ (if bits = 0 then value else value.take bits)).length < 2 ^ 64) :
    (do let (a, _) ← runOps (blake2bConstruction (8 * nn) JP) J
          (Acc.init (blake2bConstruction (8 * nn) JP) garbage) [] ops
        let a ← a.pushBlock (blake2bConstruction (8 * nn) JP) J value bits
        a.result (blake2bConstruction (8 * nn) JP)) =
      .ok (blakeOf nn (streamOf 1024 ops ++ (if bits = 0 then value else value.take bits))) :=
  (blake_verified nn hnn JP).bits J garbage hgb ops hwt hgx value hval bits hbits (Or.inl hg) hg

/-- C16 (HAIFA). -/
theorem C16_haifa_fork (pre left right : List Op) (hp : ∀ op ∈ pre, op.WellTyped 1024)
    (hl : ∀ op ∈ left, op.WellTyped 1024) (hr : ∀ op ∈ right, op.WellTyped 1024)
    (hgp : GoodExtracts 1024 HaifaGood [] pre) (hfl : (streamOf 1024 pre ++ streamOf 1024 left).length < 2 ^ 64)
    (hfr : (streamOf 1024 pre ++ streamOf 1024 right).length < 2 ^ 64)
    (hgl : GoodExtracts 1024 HaifaGood (streamOf 1024 pre) left)
    (hgr : GoodExtracts 1024 HaifaGood (streamOf 1024 pre) right) :
    ∃ a al ar, runOps (blake2bConstruction (8 * nn) JP) J
        (Acc.init (blake2bConstruction (8 * nn) JP) garbage) [] pre = .ok (a,
        expected 1024 (blakeOf nn) [] pre) ∧
      runOps (blake2bConstruction (8 * nn) JP) J a [] left = .ok (al,
        expected 1024 (blakeOf nn) (streamOf 1024 pre) left) ∧
      runOps (blake2bConstruction (8 * nn) JP) J a [] right = .ok (ar,
        expected 1024 (blakeOf nn) (streamOf 1024 pre) right) :=
  (blake_verified nn hnn JP).fork J garbage hgb pre left right hp hl hr hgp (Or.inl hfl) (Or.inl hfr)
    hgl hgr

end

/-- A history meeting the hypotheses of C10, C12 and C13: two extractions, RFC 7693 digests. -/
example : ∃ a, runOps (blake2bConstruction 512 spliceInjector) spliceInjector
      (Acc.init (blake2bConstruction 512 spliceInjector) (List.replicate 1024 true)) []
      [blakeBytesOp [97], .extract, blakeBytesOp [98, 99], .extract] =
    .ok (a, [octetBits (Blake2b.blake2b 64 [97]), octetBits (Blake2b.blake2b 64 [97, 98, 99])]) := by
  obtain ⟨a, e, _⟩ := C10_haifa (nn := 64) (by omega) spliceInjector spliceInjector
    (List.replicate 1024 true) List.length_replicate
    [blakeBytesOp [97], .extract, blakeBytesOp [98, 99], .extract]
    (by
      intro op hop
      simp only [List.mem_cons, List.not_mem_nil, or_false] at hop
      rcases hop with rfl | rfl | rfl | rfl <;>
        first | exact blakeBytesOp_wellTyped _ | exact True.intro)
    ⟨by show _ < _; decide, by show _ < _; decide, trivial⟩ (by decide)
  refine ⟨a, e.trans ?_⟩
  have h1 : blakeOf 64 (octetBits [97]) = octetBits (Blake2b.blake2b 64 [97]) :=
    blakeOf_bytes 64 _ (by simp) (by simp)
  have h2 : blakeOf 64 (octetBits [97, 98, 99]) = octetBits (Blake2b.blake2b 64 [97, 98, 99]) :=
    blakeOf_bytes 64 _ (by simp) (by simp)
  rw [← h1, ← h2]
  rfl

/-- C12: the same bytes with other storage behind them and other stale cache contents. -/
example : ∃ a a' out, runOps (blake2bConstruction 512 spliceInjector) spliceInjector
      (Acc.init (blake2bConstruction 512 spliceInjector) (List.replicate 1024 true)) []
      [blakeBytesOp [97], .extract] = .ok (a, out) ∧
    runOps (blake2bConstruction 512 spliceInjector) spliceInjector
      (Acc.init (blake2bConstruction 512 spliceInjector) (List.replicate 1024 false)) []
      [.feed (wordElem littleOctetBigBit 8) .randomAccess (List.replicate 128 9) [97], .extract] = .ok (a', out) :=
  C12_haifa (nn := 64) (by omega) _ _ _ List.length_replicate _ List.length_replicate _ _
    (by
      intro op hop
      simp only [List.mem_cons, List.not_mem_nil, or_false] at hop
      rcases hop with rfl | rfl <;> first | exact blakeBytesOp_wellTyped _ | exact True.intro)
    (by
      intro op hop
      simp only [List.mem_cons, List.not_mem_nil, or_false] at hop
      rcases hop with rfl | rfl
      · exact ⟨by simp [wordElem], by simp [wordElem], by simp [wordElem]⟩
      · exact True.intro)
    (.cons (.feed _ _ _ _ _) (.cons (.same _) .nil)) (by decide) ⟨by show _ < _; decide, trivial⟩

/-- C15: eight bits, an extraction, and then the first twelve bits of a block value. -/
example : (do
      let (a, _) ← runOps (blake2bConstruction 512 spliceInjector) spliceInjector
        (Acc.init (blake2bConstruction 512 spliceInjector) (List.replicate 1024 true)) []
        [blakeBytesOp [97], .extract]
      let a ← a.pushBlock (blake2bConstruction 512 spliceInjector) spliceInjector (List.replicate 1024 true) 12
      a.result (blake2bConstruction 512 spliceInjector)) =
    .ok (blakeOf 64 (octetBits [97] ++ List.replicate 12 true)) :=
  C15_haifa_bits_argument (nn := 64) (by omega) _ _ _ List.length_replicate [blakeBytesOp [97], .extract]
    (by
      intro op hop
      simp only [List.mem_cons, List.not_mem_nil, or_false] at hop
      rcases hop with rfl | rfl <;> first | exact blakeBytesOp_wellTyped _ | exact True.intro)
    ⟨by show _ < _; decide, trivial⟩ _ List.length_replicate 12 (by omega) (by decide)

/-- C16: a copy made after one byte and an extraction; one copy goes on, the other is extracted at once. -/
example : ∃ a al ar, runOps (blake2bConstruction 512 spliceInjector) spliceInjector
      (Acc.init (blake2bConstruction 512 spliceInjector) (List.replicate 1024 true)) []
        [blakeBytesOp [97], .extract] = .ok (a, [blakeOf 64 (octetBits [97])]) ∧
    runOps (blake2bConstruction 512 spliceInjector) spliceInjector a [] [blakeBytesOp [98], .extract] =
      .ok (al, [blakeOf 64 (octetBits [97, 98])]) ∧
    runOps (blake2bConstruction 512 spliceInjector) spliceInjector a [] [.extract] =
      .ok (ar, [blakeOf 64 (octetBits [97])]) :=
  C16_haifa_fork (nn := 64) (by omega) _ _ _ List.length_replicate
    [blakeBytesOp [97], .extract] [blakeBytesOp [98], .extract] [.extract]
    (by
      intro op hop
      simp only [List.mem_cons, List.not_mem_nil, or_false] at hop
      rcases hop with rfl | rfl <;> first | exact blakeBytesOp_wellTyped _ | exact True.intro)
    (by
      intro op hop
      simp only [List.mem_cons, List.not_mem_nil, or_false] at hop
      rcases hop with rfl | rfl <;> first | exact blakeBytesOp_wellTyped _ | exact True.intro)
    (by
      intro op hop
      simp only [List.mem_cons, List.not_mem_nil, or_false] at hop
      rcases hop with rfl
      exact True.intro)
    ⟨by show _ < _; decide, trivial⟩ (by decide) (by decide) ⟨by show _ < _; decide, trivial⟩
    ⟨by show _ < _; decide, trivial⟩

example : ∃ r, runOps (blake2bConstruction (8 * 64) spliceInjector) clearingInjector
      (Acc.init (blake2bConstruction (8 * 64) spliceInjector) (List.replicate 1024 true)) []
      [blakeBytesOp (List.range 200), .extract, blakeBytesOp [1, 2, 3], .extract] = .ok r :=
  C13_haifa (by decide) spliceInjector clearingInjector _ List.length_replicate _
    (by
      intro op hop
      simp only [List.mem_cons, List.not_mem_nil, or_false] at hop
      rcases hop with rfl | rfl | rfl | rfl <;> first | exact blakeBytesOp_wellTyped _ | trivial)
    (by decide +kernel) ⟨by unfold HaifaGood; decide +kernel, by unfold HaifaGood; decide +kernel, trivial⟩

end Verif.Props
