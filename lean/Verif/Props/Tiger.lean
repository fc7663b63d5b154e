import Verif.Proof.Tiger
import Verif.Proof.ByteMD
import Verif.Props.MerkleDamgard
/-
C26: Tiger.  `abs3`, `vars3`, `nums` show words, states and blocks as the numbers of the specification.
-/
namespace Verif.Props

open Spec Verif.Tiger

/-- C26: for every number of passes from three, every state and every block, `process_block` is the
published compression function, with the S-boxes that the published generator produces. -/
theorem C26_compress (P : Nat) (hP : 3 ≤ P) (st : Vector W 3) (block : Vector W 8) :
    abs3 (vars3 (compress P st block)) =
      Spec.Tiger.compress Spec.Tiger.sboxes P (nums block) (abs3 (vars3 st)) :=
  compress_eq P hP st block

example : abs3 (vars3 (compress 4 iv #v[1, 2, 3, 4, 5, 6, 7, 8])) =
    Spec.Tiger.compress Spec.Tiger.sboxes 4 (nums #v[1, 2, 3, 4, 5, 6, 7, 8]) (abs3 (vars3 iv)) :=
  C26_compress 4 (by omega) _ _

/-- C26: the key schedule is a permutation of the block. -/
theorem C26_mix_bijective : Function.Bijective mix := mix_bijective

/-- C26: a pass with any of the multipliers is a permutation of the three variables. -/
theorem C26_pass_bijective (X : Vector W 8) (m : W) (hm : m = 5 ∨ m = 7 ∨ m = 9) :
    Function.Bijective (pass X m) := by
  rcases hm with rfl | rfl | rfl
  · exact pass_bijective X 5 0xCCCCCCCCCCCCCCCD (by decide)
  · exact pass_bijective X 7 0x6DB6DB6DB6DB6DB7 (by decide)
  · exact pass_bijective X 9 0x8E38E38E38E38E39 (by decide)

/-- C26: for every block and every number of passes, what is combined with the old state in the
feed-forward is a permutation of it. -/
theorem C26_passes_bijective (P : Nat) (block : Vector W 8) :
    (∀ st, compress P st block = feedForward st ((List.range (P - 3)).foldl (fun s _ => extraPass s)
      (passes3 block (st[0], st[1], st[2]))).2) ∧
    Function.Bijective fun v => ((List.range (P - 3)).foldl (fun s _ => extraPass s)
      (passes3 block v)).2 := by
  refine ⟨fun _ => rfl, ?_⟩
  have b : ∀ X m, m = 5 ∨ m = 7 ∨ m = 9 → Function.Bijective fun v => rot (rot (pass X m v)) :=
    fun X m hm => rot_bijective.comp (rot_bijective.comp (C26_pass_bijective X m hm))
  have key : ∀ n X, Function.Bijective fun v => (extraPass^[n] (X, v)).2 := by
    intro n
    induction n with
    | zero => intro X; exact Function.bijective_id
    | succ n ih =>
      intro X
      have e : (fun v => (extraPass^[n + 1] (X, v)).2) =
          (fun v => (extraPass^[n] (mix X, v)).2) ∘ fun v => rot (rot (pass (mix X) 9 v)) := by
        funext v
        rw [Function.iterate_succ_apply, extraPass_eq]
        rfl
      rw [e]
      exact (ih (mix X)).comp (b _ _ (by simp))
  have e : (fun v => ((List.range (P - 3)).foldl (fun s _ => extraPass s) (passes3 block v)).2) =
      (fun v => (extraPass^[P - 3] (mix (mix block), v)).2) ∘ (fun v => rot (rot (pass (mix (mix block)) 9 v))) ∘
      (fun v => rot (rot (pass (mix block) 7 v))) ∘ fun v => rot (rot (pass block 5 v)) := by
    funext v
    rw [foldl_const, passes3_eq]
    rfl
  rw [e]
  exact (key _ _).comp ((b _ _ (by simp)).comp ((b _ _ (by simp)).comp (b _ _ (by simp))))

/-- The block array behind a stream. -/
def blockOf (X : Nat → W) : Vector W 8 := Vector.ofFn fun i => X i

theorem nums_blockOf (X : Nat → W) : nums (blockOf X) = (List.range 8).map fun i => (X i).toNat := by
  unfold nums blockOf
  rw [Vector.toList_ofFn]
  rfl

theorem length_arrayView64 {n : Nat} (s : Vector W n) :
    (littleOctetBigBit.arrayView s).length = n * 64 := by
  unfold Endian.arrayView
  rw [length_flatMap_const (n := 64) (h := by intro x _; simp [Endian.view]), Vector.length_toList]

/-- `tiger<192, P>` (tiger.hpp:87-135). -/
def tiger192 (P : Nat) (d0 : Bits) (hd : d0.length = 192) : MDInst .tiger192 (Vector W 3) where
  iv := iv
  compress s b := compress P s (blockOf (littleOctetBigBit.word 64 b))
  view := littleOctetBigBit.arrayView
  length_view := length_arrayView64
  digest0 := d0
  length_digest0 := hd

section
attribute [local irreducible] compress

/-- C26 end to end: hashing any byte string with `tiger<192, P>` gives the published digest (marker
octet 0x01). -/
theorem C26_digest (P : Nat) (hP : 3 ≤ P) (J : Injector) (garbage : Bits)
    (hg : garbage.length = 512) (k : RangeKind) (cache0 bytes : List Nat) (hc : cache0.length = 64)
    (hlen : bytes.length < 2 ^ 61) (hb : ∀ b ∈ bytes, b < 256) (d0 : Bits) (hd : d0.length = 192) :
    hashOnce ((tiger192 P d0 hd).C J) J (wordElem littleOctetBigBit 8) k garbage cache0 bytes =
      .ok (octetBits (Spec.Tiger.tiger P bytes)) := by
  rw [show wordElem littleOctetBigBit 8 = wordElem (MDHash.tiger192).policy.endian 8 from rfl,
    C02_byte_strings (tiger192 P d0 hd) J garbage hg k cache0 bytes hc hlen]
  have key := le_digest_bytes .tiger192 8 3 ⟨rfl, rfl, rfl, rfl⟩ iv
    (fun s X => compress P s (blockOf X)) (fun v => abs3 (vars3 v)) (Spec.Tiger.compressWords P)
    Spec.Tiger.toWords
    (fun v => by
      rcases v with ⟨⟨l⟩, hl⟩
      match l, hl with
      | [a, b, c], _ => simp [Spec.Tiger.toWords, abs3, vars3])
    (fun v X => by
      show abs3 (vars3 (compress P v (blockOf X))) = _
      rw [compress_eq P hP, nums_blockOf]
      rfl) bytes hb
  exact congrArg _ key

end

/-- The published test vector for `"abc"` (also in test/tiger.cpp:112-115). -/
example : Spec.Tiger.tiger 3 [0x61, 0x62, 0x63] = [0x2a, 0xab, 0x14, 0x84, 0xe8, 0xc1, 0x58, 0xf2, 0xbf,
    0xb8, 0xc5, 0xff, 0x41, 0xb5, 0x7a, 0x52, 0x51, 0x29, 0x13, 0x1c, 0x95, 0x7b, 0x5f, 0x93] := by
  unfold Spec.Tiger.tiger Spec.Tiger.compressWords
  rw [sboxes_eq]
  decide +kernel

/-- The hypotheses hold for these 200 bytes. -/
example : hashOnce ((tiger192 5 (List.replicate 192 true) List.length_replicate).C spliceInjector)
      spliceInjector (wordElem littleOctetBigBit 8) .singlePass (List.replicate 512 true)
      (List.replicate 64 7) (List.range 200) = .ok (octetBits (Spec.Tiger.tiger 5 (List.range 200))) :=
  C26_digest 5 (by omega) _ _ List.length_replicate _ _ _ List.length_replicate (by simp)
    (by simp; omega) _ _

/-! Truncation.  `tiger<128>` and `tiger<160>` cannot be instantiated (their state has two words); the
following is about the construction with a three-word state and another digest size. -/

/-- Tiger's construction with digest size `d`. -/
def tigerOf (P d : Nat) (d0 : Bits) : MD (Vector W 3) :=
  { (MDHash.tiger192).policy with digestBits := d }.md iv
    (fun s b => compress P s (blockOf (littleOctetBigBit.word 64 b))) littleOctetBigBit.arrayView d0

/-- The digest: as many whole words as fit, then what was in the digest before. -/
def tigerCut (P d : Nat) (d0 m : Bits) : Bits :=
  (mdDigest .tiger192 iv (fun s b => compress P s (blockOf (littleOctetBigBit.word 64 b)))
    littleOctetBigBit.arrayView m).take (d / 64 * 64) ++ d0.drop (d / 64 * 64)

theorem tigerOf_verified (P d : Nat) (hd : d ≤ 192) (d0 : Bits) (hd0 : d0.length = d) (J : Injector) :
    Verified ((tigerOf P d d0).construction J) (GoodMsg .tiger192) (tigerCut P d d0) where
  block := show 0 < 512 by decide
  word := show 0 < 64 by decide
  wordBlock := show 64 ∣ 512 by decide
  computes := by
    intro a m hrep ⟨hg1, hg2, hg3⟩
    have V : (tigerOf P d d0).Valid := by
      constructor <;> simp only [tigerOf, Policy.md, MDHash.policy] <;> decide
    rw [MD.result_spec (tigerOf P d d0) V (show 64 ∣ 64 by decide) J
      (by intro s; show d / 64 * 64 ≤ (littleOctetBigBit.arrayView s).length
          rw [length_arrayView64]; omega)
      (by show d / 64 * 64 ≤ d0.length; omega) hrep hg1 hg2]
    congr 1
    unfold MD.output tigerCut mdDigest paddedMessage mdState mdPad
    rw [List.take_take, Nat.min_eq_left (show d / 64 * 64 ≤ (standard .tiger192).digest by
      show _ ≤ 192; omega)]
    have hmark := policy_mark .tiger192 iv
      (fun s b => compress P s (blockOf (littleOctetBigBit.word 64 b))) littleOctetBigBit.arrayView d0
    have henc := policy_enc .tiger192 iv
      (fun s b => compress P s (blockOf (littleOctetBigBit.word 64 b))) littleOctetBigBit.arrayView d0
      m.length hg3
    rw [← hmark, ← henc]
    rfl

/-- C26, truncation, for digest sizes that are a whole number of words: the digest is the first `d` bits
of the Tiger/192 digest.  Missing: 160 bits, see `C26_truncation_false`. -/
theorem C26_truncation_partial (P d : Nat) (hd : d ≤ 192) (h64 : 64 ∣ d) (J : Injector) (garbage : Bits)
    (hg : garbage.length = 512) (k : RangeKind) (cache0 bytes : List Nat) (hc : cache0.length = 64)
    (hlen : bytes.length < 2 ^ 61) (d0 d0' : Bits) (hd0 : d0.length = d) (hd0' : d0'.length = 192) :
    hashOnce ((tigerOf P d d0).construction J) J (wordElem littleOctetBigBit 8) k garbage cache0 bytes =
      (hashOnce ((tiger192 P d0' hd0').C J) J (wordElem littleOctetBigBit 8) k garbage cache0 bytes).map
        (List.take d) := by
  have hgood : GoodMsg .tiger192 (octetBits bytes) :=
    goodMsg_of_bytes .tiger192 (by rw [length_octetBits]; exact ⟨bytes.length, by omega⟩)
      (by rw [length_octetBits]; omega)
  have hview := view_octet .tiger192 bytes
  replace hview : bytes.flatMap (wordElem littleOctetBigBit 8).view = octetBits bytes := hview
  rw [(tigerOf_verified P d hd d0 hd0 J).hashOnce J (wordElem littleOctetBigBit 8) k garbage hg cache0
    bytes ⟨show 0 < 8 by decide, show 8 ∣ 512 by decide, hc.trans (show 64 = 512 / 8 by decide)⟩ (Or.inr (show 512 ∣ 2 ^ 64 by decide)) (by rw [hview]; exact hgood),
    show wordElem littleOctetBigBit 8 = wordElem (MDHash.tiger192).policy.endian 8 from rfl,
    C02_byte_strings (tiger192 P d0' hd0') J garbage hg k cache0 bytes hc hlen]
  have e : d / 64 * 64 = d := Nat.div_mul_cancel h64
  unfold tigerCut
  rw [e, List.drop_of_length_le (by omega), List.append_nil]
  exact congrArg (fun x => Except.ok (List.take d x)) (congrArg _ hview)

example : hashOnce ((tigerOf 3 128 (List.replicate 128 true)).construction spliceInjector) spliceInjector
      (wordElem littleOctetBigBit 8) .container (List.replicate 512 true) (List.replicate 64 0)
      (List.range 100) =
    (hashOnce ((tiger192 3 (List.replicate 192 true) List.length_replicate).C spliceInjector)
      spliceInjector (wordElem littleOctetBigBit 8) .container (List.replicate 512 true)
      (List.replicate 64 0) (List.range 100)).map (List.take 128) :=
  C26_truncation_partial 3 128 (by omega) (by decide) _ _ List.length_replicate _ _ _
    List.length_replicate (by simp) _ _ List.length_replicate _

/-- C26, exactly, for every digest size up to 192 bits: the whole words of the Tiger/192 digest that fit into `d` bits, then what
the digest object held before (merkle_damgard_construction.hpp:124-130). -/
theorem C26_exact (P d : Nat) (hd : d ≤ 192) (J : Injector) (garbage : Bits)
    (hg : garbage.length = 512) (k : RangeKind) (cache0 bytes : List Nat) (hc : cache0.length = 64)
    (hlen : bytes.length < 2 ^ 61) (d0 d0' : Bits) (hd0 : d0.length = d) (hd0' : d0'.length = 192) :
    hashOnce ((tigerOf P d d0).construction J) J (wordElem littleOctetBigBit 8) k garbage cache0 bytes =
      (hashOnce ((tiger192 P d0' hd0').C J) J (wordElem littleOctetBigBit 8) k garbage cache0 bytes).map
        fun t => t.take (d / 64 * 64) ++ d0.drop (d / 64 * 64) := by
  have hgood : GoodMsg .tiger192 (octetBits bytes) :=
    goodMsg_of_bytes .tiger192 (by rw [length_octetBits]; exact ⟨bytes.length, by omega⟩)
      (by rw [length_octetBits]; omega)
  have hview := view_octet .tiger192 bytes
  replace hview : bytes.flatMap (wordElem littleOctetBigBit 8).view = octetBits bytes := hview
  rw [(tigerOf_verified P d hd d0 hd0 J).hashOnce J (wordElem littleOctetBigBit 8) k garbage hg cache0
    bytes ⟨show 0 < 8 by decide, show 8 ∣ 512 by decide, hc.trans (show 64 = 512 / 8 by decide)⟩ (Or.inr (show 512 ∣ 2 ^ 64 by decide)) (by rw [hview]; exact hgood),
    show wordElem littleOctetBigBit 8 = wordElem (MDHash.tiger192).policy.endian 8 from rfl,
    C02_byte_strings (tiger192 P d0' hd0') J garbage hg k cache0 bytes hc hlen]
  unfold tigerCut
  exact congrArg (fun x => Except.ok (List.take (d / 64 * 64) x ++ d0.drop (d / 64 * 64))) (congrArg _ hview)

/-- For 160 bits two words of the digest and 32 old bits. -/
example := C26_exact 3 160 (by omega) spliceInjector (List.replicate 512 true) List.length_replicate .container
  (List.replicate 64 9) [97, 98, 99] List.length_replicate (by decide) (List.replicate 160 true) (List.replicate 192 false)
  List.length_replicate List.length_replicate

/-- For 160 bits, even with a state of three words: only two whole words are copied
(merkle_damgard_construction.hpp:124-130), so the last 32 bits are whatever the digest object held. -/
theorem C26_tail160 (P : Nat) (J : Injector) (garbage : Bits)
    (hg : garbage.length = 512) (k : RangeKind) (cache0 bytes : List Nat) (hc : cache0.length = 64)
    (hlen : bytes.length < 2 ^ 61) (d0 : Bits) (hd0 : d0.length = 160) :
    ∃ out, hashOnce ((tigerOf P 160 d0).construction J) J (wordElem littleOctetBigBit 8) k garbage cache0
      bytes = .ok out ∧ out.drop 128 = d0.drop 128 := by
  have hgood : GoodMsg .tiger192 (octetBits bytes) :=
    goodMsg_of_bytes .tiger192 (by rw [length_octetBits]; exact ⟨bytes.length, by omega⟩)
      (by rw [length_octetBits]; omega)
  have hview := view_octet .tiger192 bytes
  replace hview : bytes.flatMap (wordElem littleOctetBigBit 8).view = octetBits bytes := hview
  refine ⟨_, (tigerOf_verified P 160 (by omega) d0 hd0 J).hashOnce J (wordElem littleOctetBigBit 8) k
    garbage hg cache0 bytes ⟨show 0 < 8 by decide, show 8 ∣ 512 by decide, hc.trans (show 64 = 512 / 8 by decide)⟩ (Or.inr (show 512 ∣ 2 ^ 64 by decide))
    (by rw [hview]; exact hgood), ?_⟩
  unfold tigerCut mdDigest
  have hl : ∀ s : Vector W 3, (((littleOctetBigBit.arrayView s).take (standard .tiger192).digest).take
      (160 / 64 * 64)).length = 128 := by
    intro s
    rw [List.length_take, List.length_take, length_arrayView64]
    decide
  rw [List.drop_append_of_le_length (by rw [hl]), List.drop_of_length_le (by rw [hl]),
    List.nil_append]

/-- C26 is false for 160 bits: the digest of every message depends on indeterminate memory, so it is not
the first 160 bits of the state. -/
theorem C26_truncation_false (P : Nat) (J : Injector) (garbage : Bits)
    (hg : garbage.length = 512) (k : RangeKind) (cache0 bytes : List Nat) (hc : cache0.length = 64)
    (hlen : bytes.length < 2 ^ 61) :
    ¬ ∃ out : Bits, ∀ d0 : Bits, d0.length = 160 →
      hashOnce ((tigerOf P 160 d0).construction J) J (wordElem littleOctetBigBit 8) k garbage cache0
        bytes = .ok out := by
  rintro ⟨out, h⟩
  obtain ⟨o1, e1, t1⟩ := C26_tail160 P J garbage hg k cache0 bytes hc hlen (List.replicate 160 true)
    List.length_replicate
  obtain ⟨o2, e2, t2⟩ := C26_tail160 P J garbage hg k cache0 bytes hc hlen (List.replicate 160 false)
    List.length_replicate
  rw [h _ List.length_replicate] at e1 e2
  injection e1 with e1
  injection e2 with e2
  rw [← e1] at t1
  rw [← e2, t1] at t2
  exact absurd t2 (by decide)

/-- C53 for Tiger: every entry of the four S-boxes is the one the published generator produces. -/
theorem C53_tiger_sboxes : ∀ i, i < 256 →
    sbox1.getD i 0 = Spec.Tiger.entry Spec.Tiger.sboxes 0 i ∧
    sbox2.getD i 0 = Spec.Tiger.entry Spec.Tiger.sboxes 1 i ∧
    sbox3.getD i 0 = Spec.Tiger.entry Spec.Tiger.sboxes 2 i ∧
    sbox4.getD i 0 = Spec.Tiger.entry Spec.Tiger.sboxes 3 i := tables_eq

example (X : Vector W 8) : Function.Bijective (pass X 7) := C26_pass_bijective X 7 (Or.inr (Or.inl rfl))

example := C26_tail160 0 spliceInjector (List.replicate 512 true) List.length_replicate .container
  (List.replicate 64 9) [97, 98, 99] List.length_replicate (by decide) (List.replicate 160 true) List.length_replicate

example := C26_truncation_false 0 spliceInjector (List.replicate 512 true) List.length_replicate .container
  (List.replicate 64 9) [97, 98, 99] List.length_replicate (by decide)

end Verif.Props
