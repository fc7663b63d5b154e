import Verif.Proof.Generic
import Verif.Proof.SpongeBytes
import Verif.Props.MerkleDamgard
/-
C04, C05, C06, C07, C18 and the sponge part of C10, C12, C13, C15, C16, C19.

Throughout: `k` is Keccak or SHA-3, `permute` any function on 25 lanes, `d` any digest size for which
the block is a positive number of 64-bit words, `JP` the injector of the padding, `J` that of the
accumulator.
-/
namespace Verif.Props

open Spec

variable (k : SpongeKind) (permute : Lanes → Lanes) {d : Nat} (S : SpongeSize d) (JP J : Injector)

theorem sponge_verified (S : SpongeSize d) :
    Verified (spongeConstruction k permute d JP) SpongeGood (spongeSpec k permute d) where
  block := S.facts.1
  word := by show 0 < 64; omega
  wordBlock := S.facts.2.1
  computes := sponge_computes k permute d S JP

/-- The digest sizes used in the library. -/
theorem sizes : SpongeSize 224 ∧ SpongeSize 256 ∧ SpongeSize 384 ∧ SpongeSize 512 :=
  ⟨⟨by omega, by omega, by omega⟩, ⟨by omega, by omega, by omega⟩, ⟨by omega, by omega, by omega⟩,
    ⟨by omega, by omega, by omega⟩⟩

/-! ### C04 -/

/-- C04: any sequence of updates gives the one-shot digest; both succeed. -/
theorem C04_incremental_eq_oneshot (S : SpongeSize d)
    (garbage garbage' : Bits) (hgb : garbage.length = spongeBlockBits d)
    (hgb' : garbage'.length = spongeBlockBits d)
    (pieces : List Op) (hwt : ∀ op ∈ pieces, op.WellTyped (spongeBlockBits d))
    (hne : Op.extract ∉ pieces)
    {α : Type} (E : Elem α) (kind : RangeKind) (cache0 whole : List α)
    (hE : (Op.feed E kind cache0 whole).WellTyped (spongeBlockBits d))
    (hsame : whole.flatMap E.view = streamOf (spongeBlockBits d) pieces)
    (h8 : 8 ∣ (whole.flatMap E.view).length) (hlt : (whole.flatMap E.view).length < 2 ^ 64) :
    ∃ dig, (do let (a, _) ← runOps (spongeConstruction k permute d JP) J
                 (Acc.init (spongeConstruction k permute d JP) garbage) [] pieces
               a.result (spongeConstruction k permute d JP)) = .ok dig ∧
      hashOnce (spongeConstruction k permute d JP) J E kind garbage' cache0 whole = .ok dig :=
  (sponge_verified k permute JP S).incremental J garbage garbage' hgb hgb' pieces hwt hne E kind cache0
    whole hE hsame (Or.inl hlt) ⟨h8, hlt⟩

/-- Bytes fed to a sponge. -/
def spongeBytes (d : Nat) (bs : List Nat) : Op :=
  .feed (wordElem bigOctetBigBit 8) .randomAccess (List.replicate (spongeBlockBits d / 8) 0) bs

theorem spongeBytes_wellTyped (S : SpongeSize d) (bs : List Nat) :
    (spongeBytes d bs).WellTyped (spongeBlockBits d) := by
  have := S.facts
  exact ⟨by simp [wordElem], by show 8 ∣ _; omega, by simp [wordElem]⟩

/-- 200 bytes (more than a block) cut in three, with an empty piece. -/
example : ∃ dig, (do
      let (a, _) ← runOps (spongeConstruction .sha3 keccakPermute 256 clearingInjector) spliceInjector
        (Acc.init (spongeConstruction .sha3 keccakPermute 256 clearingInjector)
          (List.replicate 1088 true)) []
        [spongeBytes 256 (List.range 135), spongeBytes 256 [], spongeBytes 256 [135],
          spongeBytes 256 ((List.range 200).drop 136)]
      a.result (spongeConstruction .sha3 keccakPermute 256 clearingInjector)) = .ok dig ∧
    hashOnce (spongeConstruction .sha3 keccakPermute 256 clearingInjector) spliceInjector
      (wordElem bigOctetBigBit 8) .singlePass (List.replicate 1088 false)
      (List.replicate 136 0) (List.range 200) = .ok dig :=
  C04_incremental_eq_oneshot .sha3 _ _ _ sizes.2.1 _ _ List.length_replicate List.length_replicate _
    (by
      intro op hop
      simp only [List.mem_cons, List.not_mem_nil, or_false] at hop
      rcases hop with rfl | rfl | rfl | rfl <;> exact spongeBytes_wellTyped sizes.2.1 _)
    (by simp [spongeBytes]) _ _ _ _
    ⟨by simp [wordElem], by show 8 ∣ 1088; omega, List.length_replicate⟩
    (by decide +kernel) (by rw [length_flatMap_view]; exact ⟨200, by simp [wordElem]⟩)
    (by rw [length_flatMap_view]; simp [wordElem])

/-! ### C05, C06 -/

theorem view_octet_big (bytes : List Nat) :
    bytes.flatMap (wordElem bigOctetBigBit 8).view = octetBits bytes := view_octet .sha256 bytes

theorem spongeSpec_bytes (S : SpongeSize d) (bytes : List Nat) :
    spongeSpec k permute d (octetBits bytes) = octetBits (fipsBytes
      (sponge 1600 (1600 - 2 * d) (onStrings permute) (fipsBits bytes ++ k.suffix) d)) := by
  unfold spongeSpec
  rw [flipOctets_octetBits, octetBits_fipsBytes]
  · rfl
  · have h := S.facts
    unfold sponge squeeze
    rw [List.length_take, length_flatMap_const _ (1600 - 2 * d)]
    · simp only [List.length_range]
      have : d ≤ (d / (1600 - 2 * d) + 1) * (1600 - 2 * d) := by
        have h1 := Nat.div_add_mod d (1600 - 2 * d)
        have h2 := Nat.mod_lt d (show 0 < 1600 - 2 * d from h.1)
        rw [Nat.mul_comm] at h1
        rw [Nat.add_mul]; omega
      rw [Nat.min_eq_left this]
      exact h.2.2.2.1
    · intro i _
      have hl : (Nat.repeat (onStrings permute) i (absorb 1600 (1600 - 2 * d) (onStrings permute)
          (fipsBits bytes ++ k.suffix ++ pad101 (1600 - 2 * d)
            (fipsBits bytes ++ k.suffix).length))).length = 1600 := by
        cases i with
        | succ i => exact length_onStrings _ _
        | zero =>
          simp only [Nat.repeat]
          unfold absorb
          generalize blocks (1600 - 2 * d) _ = bs
          rcases List.eq_nil_or_concat bs with rfl | ⟨bs, b, rfl⟩
          · exact List.length_replicate
          · rw [List.concat_eq_append, List.foldl_append]; exact length_onStrings _ _
      rw [List.length_take, hl]; omega

/-- One-shot hashing of a byte string is the FIPS 202 sponge, for every permutation. -/
theorem sponge_byte_strings (S : SpongeSize d) (garbage : Bits) (hgb : garbage.length = spongeBlockBits d)
    (kind : RangeKind) (cache0 bytes : List Nat) (hc : cache0.length = spongeBlockBits d / 8)
    (hlen : bytes.length < 2 ^ 61) :
    hashOnce (spongeConstruction k permute d JP) J (wordElem bigOctetBigBit 8) kind garbage cache0 bytes =
      .ok (octetBits (fipsBytes (sponge 1600 (1600 - 2 * d) (onStrings permute)
        (fipsBits bytes ++ k.suffix) d))) := by
  have h := S.facts
  have hl : (bytes.flatMap (wordElem bigOctetBigBit 8).view).length < 2 ^ 64 := by
    rw [view_octet_big, length_octetBits]; omega
  rw [(sponge_verified k permute JP S).hashOnce J (wordElem bigOctetBigBit 8) kind garbage hgb cache0 bytes
    ⟨by simp [wordElem], by show 8 ∣ spongeBlockBits d; omega, hc⟩ (Or.inl hl) ⟨by
      rw [view_octet_big, length_octetBits]; exact ⟨bytes.length, by omega⟩, hl⟩, view_octet_big,
    spongeSpec_bytes k permute S]

/-- C05: `hash<keccak_1600<d>>(bytes)` is `SPONGE[f, pad10*1, 1600 - 2d](M, d)` for every byte string
(shorter than 2^61 bytes) and every permutation `f`. -/
theorem C05_keccak_is_sponge (S : SpongeSize d) (garbage : Bits)
    (hgb : garbage.length = spongeBlockBits d) (kind : RangeKind) (cache0 bytes : List Nat)
    (hc : cache0.length = spongeBlockBits d / 8) (hlen : bytes.length < 2 ^ 61) :
    hashOnce (spongeConstruction .keccak permute d JP) J (wordElem bigOctetBigBit 8) kind garbage cache0
      bytes = .ok (octetBits (fipsBytes (sponge 1600 (1600 - 2 * d) (onStrings permute)
        (fipsBits bytes) d))) := by
  rw [sponge_byte_strings .keccak permute JP J S garbage hgb kind cache0 bytes hc hlen]
  simp [SpongeKind.suffix]

/-- C06: `hash<sha3<d>>(bytes)` is `SPONGE[f, pad10*1, 1600 - 2d](M || 01, d)`. -/
theorem C06_sha3_is_sponge (S : SpongeSize d) (garbage : Bits)
    (hgb : garbage.length = spongeBlockBits d) (kind : RangeKind) (cache0 bytes : List Nat)
    (hc : cache0.length = spongeBlockBits d / 8) (hlen : bytes.length < 2 ^ 61) :
    hashOnce (spongeConstruction .sha3 permute d JP) J (wordElem bigOctetBigBit 8) kind garbage cache0
      bytes = .ok (octetBits (fipsBytes (sponge 1600 (1600 - 2 * d) (onStrings permute)
        (fipsBits bytes ++ [false, true]) d))) :=
  sponge_byte_strings .sha3 permute JP J S garbage hgb kind cache0 bytes hc hlen

/-- KECCAK[c](M, d) of FIPS 202 section 5.2 on byte strings, from the specification of the
permutation. -/
def keccakFips (d : Nat) (N : Bits) : List Nat :=
  fipsBytes (sponge 1600 (1600 - 2 * d)
    (fun S => Keccak.toBits (Keccak.permutation (Keccak.ofBits S))) N d)

/-- C05, with the permutation of the code: end to end. -/
theorem C05_keccak_full (S : SpongeSize d) (garbage : Bits)
    (hgb : garbage.length = spongeBlockBits d) (kind : RangeKind) (cache0 bytes : List Nat)
    (hc : cache0.length = spongeBlockBits d / 8) (hlen : bytes.length < 2 ^ 61) :
    hashOnce (spongeConstruction .keccak keccakPermute d JP) J (wordElem bigOctetBigBit 8) kind garbage
      cache0 bytes = .ok (octetBits (keccakFips d (fipsBits bytes))) := by
  rw [C05_keccak_is_sponge keccakPermute JP J S garbage hgb kind cache0 bytes hc hlen,
    onStrings_keccakPermute]
  rfl

/-- C06, with the permutation of the code: `SHA3-d(M) = KECCAK[2d](M || 01, d)`, FIPS 202 section 6.1. -/
theorem C06_sha3_full (S : SpongeSize d) (garbage : Bits)
    (hgb : garbage.length = spongeBlockBits d) (kind : RangeKind) (cache0 bytes : List Nat)
    (hc : cache0.length = spongeBlockBits d / 8) (hlen : bytes.length < 2 ^ 61) :
    hashOnce (spongeConstruction .sha3 keccakPermute d JP) J (wordElem bigOctetBigBit 8) kind garbage
      cache0 bytes = .ok (octetBits (keccakFips d (fipsBits bytes ++ [false, true]))) := by
  rw [C06_sha3_is_sponge keccakPermute JP J S garbage hgb kind cache0 bytes hc hlen,
    onStrings_keccakPermute]
  rfl

/-- A message of exactly one block (SHA3-256), and one byte less than a block (Keccak-512). -/
example : hashOnce (spongeConstruction .sha3 keccakPermute 256 spliceInjector) clearingInjector
      (wordElem bigOctetBigBit 8) .container (List.replicate 1088 true) (List.replicate 136 7)
      (List.range 136) = .ok (octetBits (keccakFips 256 (fipsBits (List.range 136) ++ [false, true]))) :=
  C06_sha3_full _ _ sizes.2.1 _ List.length_replicate _ _ _ List.length_replicate (by simp)

example : hashOnce (spongeConstruction .keccak keccakPermute 512 spliceInjector) clearingInjector
      (wordElem bigOctetBigBit 8) .container (List.replicate 576 true) (List.replicate 72 7)
      (List.range 71) = .ok (octetBits (keccakFips 512 (fipsBits (List.range 71)))) :=
  C05_keccak_full _ _ sizes.2.2.2 _ List.length_replicate _ _ _ List.length_replicate (by simp)

/-! ### C10, C12, C13, C15, C16 -/

/-- C10 (sponge). -/
theorem C10_sponge (S : SpongeSize d) (garbage : Bits) (hgb : garbage.length = spongeBlockBits d)
    (ops : List Op) (hwt : ∀ op ∈ ops, op.WellTyped (spongeBlockBits d))
    (hg : GoodExtracts (spongeBlockBits d) SpongeGood [] ops)
    (hgf : SpongeGood (streamOf (spongeBlockBits d) ops)) :
    ∃ a, runOps (spongeConstruction k permute d JP) J
        (Acc.init (spongeConstruction k permute d JP) garbage) [] ops =
        .ok (a, expected (spongeBlockBits d) (spongeSpec k permute d) [] ops) ∧
      a.result (spongeConstruction k permute d JP) =
        .ok (spongeSpec k permute d (streamOf (spongeBlockBits d) ops)) :=
  (sponge_verified k permute JP S).extraction J garbage hgb ops hwt (Or.inl hgf.2) hg hgf

/-- Two extractions, one in the middle of the message. -/
example : ∃ a, runOps (spongeConstruction .keccak keccakPermute 256 spliceInjector) spliceInjector
      (Acc.init (spongeConstruction .keccak keccakPermute 256 spliceInjector)
        (List.replicate 1088 true)) []
      [spongeBytes 256 [1, 2], .extract, spongeBytes 256 [3], .extract] =
    .ok (a, [spongeSpec .keccak keccakPermute 256 (octetBits [1, 2]),
      spongeSpec .keccak keccakPermute 256 (octetBits [1, 2, 3])]) := by
  obtain ⟨a, e, _⟩ := C10_sponge .keccak keccakPermute spliceInjector spliceInjector sizes.2.1
    (List.replicate 1088 true) List.length_replicate
    [spongeBytes 256 [1, 2], .extract, spongeBytes 256 [3], .extract]
    (by
      intro op hop
      simp only [List.mem_cons, List.not_mem_nil, or_false] at hop
      rcases hop with rfl | rfl | rfl | rfl <;>
        first | exact spongeBytes_wellTyped sizes.2.1 _ | exact True.intro)
    ⟨⟨by decide, by decide⟩, ⟨by decide, by decide⟩, trivial⟩ ⟨by decide, by decide⟩
  exact ⟨a, e⟩

/-- C12 (sponge): uninitialised memory does not reach a digest. -/
theorem C12_sponge (S : SpongeSize d) (garbage garbage' : Bits)
    (hgb : garbage.length = spongeBlockBits d) (hgb' : garbage'.length = spongeBlockBits d)
    (ops ops' : List Op) (hwt : ∀ op ∈ ops, op.WellTyped (spongeBlockBits d))
    (hwt' : ∀ op ∈ ops', op.WellTyped (spongeBlockBits d)) (hsame : List.Forall₂ SameData ops ops')
    (hlt : (streamOf (spongeBlockBits d) ops).length < 2 ^ 64)
    (hg : GoodExtracts (spongeBlockBits d) SpongeGood [] ops) :
    ∃ a a' out, runOps (spongeConstruction k permute d JP) J
        (Acc.init (spongeConstruction k permute d JP) garbage) [] ops = .ok (a, out) ∧
      runOps (spongeConstruction k permute d JP) J
        (Acc.init (spongeConstruction k permute d JP) garbage') [] ops' = .ok (a', out) :=
  (sponge_verified k permute JP S).garbage J garbage garbage' hgb hgb' ops ops' hwt hwt' hsame
    (Or.inl hlt) hg

/-- A history for C12 and C13: other contents of the block buffer and of the stale cache. -/
example : ∃ a a' out, runOps (spongeConstruction .keccak keccakPermute 256 spliceInjector) spliceInjector
      (Acc.init (spongeConstruction .keccak keccakPermute 256 spliceInjector) (List.replicate 1088 true)) []
      [spongeBytes 256 [1, 2], .extract] = .ok (a, out) ∧
    runOps (spongeConstruction .keccak keccakPermute 256 spliceInjector) spliceInjector
      (Acc.init (spongeConstruction .keccak keccakPermute 256 spliceInjector) (List.replicate 1088 false)) []
      [.feed (wordElem bigOctetBigBit 8) .randomAccess (List.replicate 136 9) [1, 2], .extract] = .ok (a', out) :=
  C12_sponge .keccak keccakPermute spliceInjector spliceInjector sizes.2.1 _ _ List.length_replicate
    List.length_replicate _ _
    (by
      intro op hop
      simp only [List.mem_cons, List.not_mem_nil, or_false] at hop
      rcases hop with rfl | rfl <;> first | exact spongeBytes_wellTyped sizes.2.1 _ | exact True.intro)
    (by
      intro op hop
      simp only [List.mem_cons, List.not_mem_nil, or_false] at hop
      rcases hop with rfl | rfl
      · exact ⟨by simp [wordElem], by decide, List.length_replicate⟩
      · exact True.intro)
    (.cons (.feed _ _ _ _ _) (.cons (.same _) .nil)) (by decide) ⟨⟨by decide, by decide⟩, trivial⟩

/-- C13 (sponge): programs that feed whole octets never leave the block buffer (nor the state in the
finalizer). -/
theorem C13_sponge_byte_data (S : SpongeSize d) (garbage : Bits)
    (hgb : garbage.length = spongeBlockBits d) (ops : List Op)
    (hwt : ∀ op ∈ ops, op.WellTyped (spongeBlockBits d))
    (hlt : (streamOf (spongeBlockBits d) ops).length < 2 ^ 64)
    (hg : GoodExtracts (spongeBlockBits d) SpongeGood [] ops) :
    ∃ r, runOps (spongeConstruction k permute d JP) J
        (Acc.init (spongeConstruction k permute d JP) garbage) [] ops = .ok r := by
  obtain ⟨a, e, _⟩ := (sponge_verified k permute JP S).run J ops hwt
    ((sponge_verified k permute JP S).init garbage hgb) (Or.inl (by rw [List.nil_append]; exact hlt)) hg []
  exact ⟨_, e⟩

/-- C15 (sponge). -/
theorem C15_sponge_bits_argument (S : SpongeSize d) (garbage : Bits)
    (hgb : garbage.length = spongeBlockBits d) (ops : List Op)
    (hwt : ∀ op ∈ ops, op.WellTyped (spongeBlockBits d))
    (hgx : GoodExtracts (spongeBlockBits d) SpongeGood [] ops)
    (value : Bits) (hval : value.length = spongeBlockBits d) (bits : Nat)
    (hbits : bits ≤ spongeBlockBits d)
    (hg : SpongeGood (streamOf (spongeBlockBits d) ops ++
      (if bits = 0 then value else value.take bits))) :
    (do let (a, _) ← runOps (spongeConstruction k permute d JP) J
          (Acc.init (spongeConstruction k permute d JP) garbage) [] ops
        let a ← a.pushBlock (spongeConstruction k permute d JP) J value bits
        a.result (spongeConstruction k permute d JP)) =
      .ok (spongeSpec k permute d (streamOf (spongeBlockBits d) ops ++
        (if bits = 0 then value else value.take bits))) :=
  (sponge_verified k permute JP S).bits J garbage hgb ops hwt hgx value hval bits hbits (Or.inl hg.2) hg

/-- Two octets, an extraction, and then the first sixteen bits of a block value. -/
example : (do
      let (a, _) ← runOps (spongeConstruction .sha3 keccakPermute 256 spliceInjector) spliceInjector
        (Acc.init (spongeConstruction .sha3 keccakPermute 256 spliceInjector) (List.replicate 1088 true)) []
        [spongeBytes 256 [1, 2], .extract]
      let a ← a.pushBlock (spongeConstruction .sha3 keccakPermute 256 spliceInjector) spliceInjector
        (List.replicate 1088 true) 16
      a.result (spongeConstruction .sha3 keccakPermute 256 spliceInjector)) =
    .ok (spongeSpec .sha3 keccakPermute 256 (octetBits [1, 2] ++ List.replicate 16 true)) :=
  C15_sponge_bits_argument .sha3 keccakPermute spliceInjector spliceInjector sizes.2.1 _
    List.length_replicate [spongeBytes 256 [1, 2], .extract]
    (by
      intro op hop
      simp only [List.mem_cons, List.not_mem_nil, or_false] at hop
      rcases hop with rfl | rfl <;> first | exact spongeBytes_wellTyped sizes.2.1 _ | exact True.intro)
    ⟨⟨by decide, by decide⟩, trivial⟩ _ List.length_replicate 16 (by decide) ⟨by decide, by decide⟩

/-- C16 (sponge). -/
theorem C16_sponge_fork (S : SpongeSize d) (garbage : Bits) (hgb : garbage.length = spongeBlockBits d)
    (pre left right : List Op) (hp : ∀ op ∈ pre, op.WellTyped (spongeBlockBits d))
    (hl : ∀ op ∈ left, op.WellTyped (spongeBlockBits d))
    (hr : ∀ op ∈ right, op.WellTyped (spongeBlockBits d))
    (hgp : GoodExtracts (spongeBlockBits d) SpongeGood [] pre)
    (hfl : (streamOf (spongeBlockBits d) pre ++ streamOf (spongeBlockBits d) left).length < 2 ^ 64)
    (hfr : (streamOf (spongeBlockBits d) pre ++ streamOf (spongeBlockBits d) right).length < 2 ^ 64)
    (hgl : GoodExtracts (spongeBlockBits d) SpongeGood (streamOf (spongeBlockBits d) pre) left)
    (hgr : GoodExtracts (spongeBlockBits d) SpongeGood (streamOf (spongeBlockBits d) pre) right) :
    ∃ a al ar, runOps (spongeConstruction k permute d JP) J
        (Acc.init (spongeConstruction k permute d JP) garbage) [] pre = .ok (a,
        expected (spongeBlockBits d) (spongeSpec k permute d) [] pre) ∧
      runOps (spongeConstruction k permute d JP) J a [] left = .ok (al,
        expected (spongeBlockBits d) (spongeSpec k permute d) (streamOf (spongeBlockBits d) pre) left) ∧
      runOps (spongeConstruction k permute d JP) J a [] right = .ok (ar,
        expected (spongeBlockBits d) (spongeSpec k permute d) (streamOf (spongeBlockBits d) pre) right) :=
  (sponge_verified k permute JP S).fork J garbage hgb pre left right hp hl hr hgp (Or.inl hfl)
    (Or.inl hfr) hgl hgr

/-- Two continuations of `[1, 2]` after an extraction. -/
example : ∃ a al ar, runOps (spongeConstruction .sha3 keccakPermute 512 spliceInjector) spliceInjector
      (Acc.init (spongeConstruction .sha3 keccakPermute 512 spliceInjector) (List.replicate 576 true)) []
      [spongeBytes 512 [1, 2], .extract] = .ok (a,
        [spongeSpec .sha3 keccakPermute 512 (octetBits [1, 2])]) ∧
    runOps (spongeConstruction .sha3 keccakPermute 512 spliceInjector) spliceInjector a []
      [spongeBytes 512 [3], .extract] = .ok (al,
        [spongeSpec .sha3 keccakPermute 512 (octetBits [1, 2, 3])]) ∧
    runOps (spongeConstruction .sha3 keccakPermute 512 spliceInjector) spliceInjector a []
      [spongeBytes 512 [4], .extract] = .ok (ar,
        [spongeSpec .sha3 keccakPermute 512 (octetBits [1, 2, 4])]) := by
  have hw : ∀ (bs : List Nat), ∀ op ∈ [spongeBytes 512 bs, Op.extract], op.WellTyped 576 := by
    intro bs op hop
    simp only [List.mem_cons, List.not_mem_nil, or_false] at hop
    rcases hop with rfl | rfl <;> first | exact spongeBytes_wellTyped sizes.2.2.2 _ | exact True.intro
  exact C16_sponge_fork .sha3 keccakPermute spliceInjector spliceInjector sizes.2.2.2
    (List.replicate 576 true) List.length_replicate [spongeBytes 512 [1, 2], .extract]
    [spongeBytes 512 [3], .extract] [spongeBytes 512 [4], .extract]
    (hw _) (hw _) (hw _)
    ⟨⟨by decide, by decide⟩, trivial⟩ (by decide) (by decide)
    ⟨⟨by decide, by decide⟩, trivial⟩ ⟨⟨by decide, by decide⟩, trivial⟩

example := C05_keccak_is_sponge keccakPermute spliceInjector clearingInjector sizes.2.1 (List.replicate 1088 true)
  List.length_replicate .singlePass (List.replicate 136 7) [97, 98, 99] List.length_replicate (by decide)

example := C06_sha3_is_sponge keccakPermute spliceInjector clearingInjector sizes.1 (List.replicate 1152 true)
  List.length_replicate .container (List.replicate 144 7) [97, 98, 99] List.length_replicate (by decide)

example := C13_sponge_byte_data .sha3 keccakPermute spliceInjector clearingInjector sizes.2.1
  (List.replicate 1088 true) List.length_replicate [spongeBytes 256 (List.range 140), .extract]
  (by
    intro op hop
    simp only [List.mem_cons, List.not_mem_nil, or_false] at hop
    rcases hop with rfl | rfl
    · exact spongeBytes_wellTyped sizes.2.1 _
    · trivial)
  (by decide +kernel) ⟨by unfold SpongeGood; decide +kernel, trivial⟩

end Verif.Props
