import Verif.Proof.Ripemd
import Verif.Proof.ByteMD
import Verif.Props.MerkleDamgard
/-
C25: RIPEMD-128/160/256/320.  `vars4 … vars10` name the words of a state array as chaining variables.
-/
namespace Verif.Props

open Spec Verif.Ripemd

/-- C25: `ripemd_compressor<128>::process_block` is the published compression function. -/
theorem C25_compress128 (st : Vector W 4) (X : Nat → W) :
    vars4 (compress128 st X) = Spec.Ripemd.compress128 X (vars4 st) := compress128_eq X st

/-- C25: `ripemd_compressor<160>::process_block` is the published compression function. -/
theorem C25_compress160 (st : Vector W 5) (X : Nat → W) :
    vars5 (compress160 st X) = Spec.Ripemd.compress160 X (vars5 st) := compress160_eq X st

/-- C25: `ripemd_compressor<256>::process_block` is the published compression function. -/
theorem C25_compress256 (st : Vector W 8) (X : Nat → W) :
    vars8 (compress256 st X) = Spec.Ripemd.compress256 X (vars8 st) := compress256_eq X st

/-- C25: `ripemd_compressor<320>::process_block` is the published compression function. -/
theorem C25_compress320 (st : Vector W 10) (X : Nat → W) :
    vars10 (compress320 st X) = Spec.Ripemd.compress320 X (vars10 st) := compress320_eq X st

/-- The loops of `ripemd_compressor<128>` with arbitrary start values in both lines. -/
def lines128 (X : Nat → W) (p : (W × W × W × W) × (W × W × W × W)) :=
  round4 X 48 f4 0x8f1bbcdc f1 0x00000000 (round4 X 32 f3 0x6ed9eba1 f2 0x6d703ef3
    (round4 X 16 f2 0x5a827999 f3 0x5c4dd124 (round4 X 0 f1 0x00000000 f4 0x50a28be6 p)))

/-- The loops of `ripemd_compressor<160>` with arbitrary start values in both lines. -/
def lines160 (X : Nat → W) (p : (W × W × W × W × W) × (W × W × W × W × W)) :=
  round5 X 64 f5 0xa953fd4e f1 0x00000000 (round5 X 48 f4 0x8f1bbcdc f2 0x7a6d76e9
    (round5 X 32 f3 0x6ed9eba1 f3 0x6d703ef3 (round5 X 16 f2 0x5a827999 f4 0x5c4dd124
      (round5 X 0 f1 0x00000000 f5 0x50a28be6 p))))

/-- C25: for every block, the steps of each line of RIPEMD-128 (and of RIPEMD-256, round by round)
permute the chaining variables. -/
theorem C25_lines128_bijective (X : Nat → W) :
    (∀ st, compress128 st X = feed128 st (lines128 X (vars4 st, vars4 st))) ∧
    Function.Bijective (lines128 X) ∧
    ∃ left right, Function.Bijective left ∧ Function.Bijective right ∧
      ∀ p, lines128 X p = (left p.1, right p.2) := by
  have e : ∀ p, lines128 X p = (Spec.Ripemd.left4 X 0 64 p.1, Spec.Ripemd.right4 X 0 64 p.2) := by
    intro p
    unfold lines128
    simp only [round4_0, round4_1, round4_2, round4_3]
    rw [left4_split, right4_split]
  refine ⟨fun st => rfl, ?_, _, _, left4_bijective X 0 64 (by omega), right4_bijective X 0 64 (by omega), e⟩
  rw [show lines128 X = Prod.map (Spec.Ripemd.left4 X 0 64) (Spec.Ripemd.right4 X 0 64) from funext e]
  exact (left4_bijective X 0 64 (by omega)).prodMap (right4_bijective X 0 64 (by omega))

/-- C25: the same for RIPEMD-160. -/
theorem C25_lines160_bijective (X : Nat → W) :
    (∀ st, compress160 st X = feed160 st (lines160 X (vars5 st, vars5 st))) ∧
    Function.Bijective (lines160 X) ∧
    ∃ left right, Function.Bijective left ∧ Function.Bijective right ∧
      ∀ p, lines160 X p = (left p.1, right p.2) := by
  have e : ∀ p, lines160 X p = (Spec.Ripemd.left5 X 0 80 p.1, Spec.Ripemd.right5 X 0 80 p.2) := by
    intro p
    unfold lines160
    simp only [round5_0, round5_1, round5_2, round5_3, round5_4]
    rw [left5_split, right5_split]
  refine ⟨fun st => rfl, ?_, _, _, left5_bijective X 0 80 (by omega), right5_bijective X 0 80 (by omega), e⟩
  rw [show lines160 X = Prod.map (Spec.Ripemd.left5 X 0 80) (Spec.Ripemd.right5 X 0 80) from funext e]
  exact (left5_bijective X 0 80 (by omega)).prodMap (right5_bijective X 0 80 (by omega))

/-- The rounds and exchanges of `ripemd_compressor<256>` on `Y`. -/
def lines256 (X : Nat → W) (Y : Vector W 8) : Vector W 8 :=
  swap (round256 X 48 f4 0x8f1bbcdc f1 0x00000000 (swap (round256 X 32 f3 0x6ed9eba1 f2 0x6d703ef3
    (swap (round256 X 16 f2 0x5a827999 f3 0x5c4dd124 (swap (round256 X 0 f1 0x00000000 f4 0x50a28be6 Y)
      0 4)) 1 5)) 2 6)) 3 7

/-- The rounds and exchanges of `ripemd_compressor<320>` on `Y`. -/
def lines320 (X : Nat → W) (Y : Vector W 10) : Vector W 10 :=
  swap (round320 X 64 f5 0xa953fd4e f1 0x00000000 (swap (round320 X 48 f4 0x8f1bbcdc f2 0x7a6d76e9
    (swap (round320 X 32 f3 0x6ed9eba1 f3 0x6d703ef3 (swap (round320 X 16 f2 0x5a827999 f4 0x5c4dd124
      (swap (round320 X 0 f1 0x00000000 f5 0x50a28be6 Y) 1 6)) 3 8)) 0 5)) 2 7)) 4 9

theorem vars8_bijective : Function.Bijective vars8 := by
  constructor
  · intro v v' heq
    rcases v with ⟨⟨l⟩, hl⟩
    rcases v' with ⟨⟨l'⟩, hl'⟩
    match l, hl, l', hl' with
    | [a, b, c, d, e, f, g, h], _, [a', b', c', d', e', f', g', h'], _ =>
      have e2 : ((a, b, c, d), (e, f, g, h)) = ((a', b', c', d'), (e', f', g', h')) := heq
      simp only [Prod.mk.injEq] at e2
      simp [e2]
  · rintro ⟨⟨a, b, c, d⟩, ⟨a', b', c', d'⟩⟩
    exact ⟨#v[a, b, c, d, a', b', c', d'], rfl⟩

theorem vars10_bijective : Function.Bijective vars10 := by
  constructor
  · intro v v' heq
    rcases v with ⟨⟨l⟩, hl⟩
    rcases v' with ⟨⟨l'⟩, hl'⟩
    match l, hl, l', hl' with
    | [a, b, c, d, e, f, g, h, i, j], _, [a', b', c', d', e', f', g', h', i', j'], _ =>
      have e2 : ((a, b, c, d, e), (f, g, h, i, j)) = ((a', b', c', d', e'), (f', g', h', i', j')) := heq
      simp only [Prod.mk.injEq] at e2
      simp [e2]
  · rintro ⟨⟨a, b, c, d, e⟩, ⟨a', b', c', d', e'⟩⟩
    exact ⟨#v[a, b, c, d, e, a', b', c', d', e'], rfl⟩

theorem bijective_of_hom {α β : Type} {g : α → β} {f : α → α} {f' : β → β} (hg : Function.Bijective g)
    (h : ∀ x, g (f x) = f' (g x)) (hf : Function.Bijective f') : Function.Bijective f := by
  have : g ∘ f = f' ∘ g := funext h
  have hb : Function.Bijective (g ∘ f) := this ▸ hf.comp hg
  exact (Function.Bijective.of_comp_iff' hg f).1 hb

theorem bijective_of_involutive' {α : Type} {f : α → α} (h : ∀ x, f (f x) = x) : Function.Bijective f :=
  Function.Involutive.bijective h

/-- C25: for every block, what RIPEMD-256 adds to the chaining value is a permutation of it. -/
theorem C25_lines256_bijective (X : Nat → W) :
    (∀ st, compress256 st X = st.zipWith (· + ·) (lines256 X st)) ∧
    Function.Bijective (lines256 X) := by
  refine ⟨fun st => rfl, bijective_of_hom (f' := fun p =>
    Spec.Ripemd.exchD (Prod.map (Spec.Ripemd.left4 X 48 16) (Spec.Ripemd.right4 X 48 16)
    (Spec.Ripemd.exchC (Prod.map (Spec.Ripemd.left4 X 32 16) (Spec.Ripemd.right4 X 32 16)
    (Spec.Ripemd.exchB (Prod.map (Spec.Ripemd.left4 X 16 16) (Spec.Ripemd.right4 X 16 16)
    (Spec.Ripemd.exchA (Prod.map (Spec.Ripemd.left4 X 0 16) (Spec.Ripemd.right4 X 0 16) p))))))))
    vars8_bijective ?_ ?_⟩
  · intro Y
    unfold lines256
    simp only [vars8_swapD, vars8_swapC, vars8_swapB, vars8_swapA, vars8_round,
      round4_0, round4_1, round4_2, round4_3, Prod.map]
  · have b : ∀ s, s + 16 ≤ 80 → Function.Bijective (Prod.map (Spec.Ripemd.left4 X s 16)
        (Spec.Ripemd.right4 X s 16)) :=
      fun s hs => (left4_bijective X s 16 hs).prodMap (right4_bijective X s 16 hs)
    have hA : Function.Bijective Spec.Ripemd.exchA := bijective_of_involutive' fun _ => rfl
    have hB : Function.Bijective Spec.Ripemd.exchB := bijective_of_involutive' fun _ => rfl
    have hC : Function.Bijective Spec.Ripemd.exchC := bijective_of_involutive' fun _ => rfl
    have hD : Function.Bijective Spec.Ripemd.exchD := bijective_of_involutive' fun _ => rfl
    exact hD.comp ((b 48 (by omega)).comp (hC.comp ((b 32 (by omega)).comp (hB.comp
      ((b 16 (by omega)).comp (hA.comp (b 0 (by omega))))))))

/-- C25: for every block, what RIPEMD-320 adds to the chaining value is a permutation of it. -/
theorem C25_lines320_bijective (X : Nat → W) :
    (∀ st, compress320 st X = st.zipWith (· + ·) (lines320 X st)) ∧
    Function.Bijective (lines320 X) := by
  refine ⟨fun st => rfl, bijective_of_hom (f' := fun p =>
    Spec.Ripemd.swapE (Prod.map (Spec.Ripemd.left5 X 64 16) (Spec.Ripemd.right5 X 64 16)
    (Spec.Ripemd.swapC (Prod.map (Spec.Ripemd.left5 X 48 16) (Spec.Ripemd.right5 X 48 16)
    (Spec.Ripemd.swapA (Prod.map (Spec.Ripemd.left5 X 32 16) (Spec.Ripemd.right5 X 32 16)
    (Spec.Ripemd.swapD (Prod.map (Spec.Ripemd.left5 X 16 16) (Spec.Ripemd.right5 X 16 16)
    (Spec.Ripemd.swapB (Prod.map (Spec.Ripemd.left5 X 0 16) (Spec.Ripemd.right5 X 0 16) p))))))))))
    vars10_bijective ?_ ?_⟩
  · intro Y
    unfold lines320
    simp only [vars10_swapE, vars10_swapD, vars10_swapC, vars10_swapB, vars10_swapA, vars10_round,
      round5_0, round5_1, round5_2, round5_3, round5_4, Prod.map]
  · have b : ∀ s, s + 16 ≤ 80 → Function.Bijective (Prod.map (Spec.Ripemd.left5 X s 16)
        (Spec.Ripemd.right5 X s 16)) :=
      fun s hs => (left5_bijective X s 16 hs).prodMap (right5_bijective X s 16 hs)
    have hA : Function.Bijective Spec.Ripemd.swapA := bijective_of_involutive' fun _ => rfl
    have hB : Function.Bijective Spec.Ripemd.swapB := bijective_of_involutive' fun _ => rfl
    have hC : Function.Bijective Spec.Ripemd.swapC := bijective_of_involutive' fun _ => rfl
    have hD : Function.Bijective Spec.Ripemd.swapD := bijective_of_involutive' fun _ => rfl
    have hE : Function.Bijective Spec.Ripemd.swapE := bijective_of_involutive' fun _ => rfl
    exact hE.comp ((b 64 (by omega)).comp (hC.comp ((b 48 (by omega)).comp (hA.comp
      ((b 32 (by omega)).comp (hD.comp ((b 16 (by omega)).comp (hB.comp (b 0 (by omega))))))))))

/-! The hash functions.  `d0` is the indeterminate content of the digest before `pack_to`. -/

theorem length_arrayView32 {n : Nat} (s : Vector W n) :
    (littleOctetBigBit.arrayView s).length = n * 32 := by
  unfold Endian.arrayView
  rw [length_flatMap_const (n := 32) (h := by intro x _; simp [Endian.view]), Vector.length_toList]

/-- `ripemd<128>` (ripemd.hpp:282-307). -/
def ripemd128 (d0 : Bits) (hd : d0.length = 128) : MDInst .ripemd128 (Vector W 4) where
  iv := iv128
  compress s b := compress128 s (littleOctetBigBit.word 32 b)
  view := littleOctetBigBit.arrayView
  length_view := length_arrayView32
  digest0 := d0
  length_digest0 := hd

/-- `ripemd<160>`. -/
def ripemd160 (d0 : Bits) (hd : d0.length = 160) : MDInst .ripemd160 (Vector W 5) where
  iv := iv160
  compress s b := compress160 s (littleOctetBigBit.word 32 b)
  view := littleOctetBigBit.arrayView
  length_view := length_arrayView32
  digest0 := d0
  length_digest0 := hd

/-- `ripemd<256>`. -/
def ripemd256 (d0 : Bits) (hd : d0.length = 256) : MDInst .ripemd256 (Vector W 8) where
  iv := iv256
  compress s b := compress256 s (littleOctetBigBit.word 32 b)
  view := littleOctetBigBit.arrayView
  length_view := length_arrayView32
  digest0 := d0
  length_digest0 := hd

/-- `ripemd<320>`. -/
def ripemd320 (d0 : Bits) (hd : d0.length = 320) : MDInst .ripemd320 (Vector W 10) where
  iv := iv320
  compress s b := compress320 s (littleOctetBigBit.word 32 b)
  view := littleOctetBigBit.arrayView
  length_view := length_arrayView32
  digest0 := d0
  length_digest0 := hd

section
attribute [local irreducible] compress128 compress160

variable (J : Injector) (garbage : Bits) (hg : garbage.length = 512) (k : RangeKind)
  (cache0 bytes : List Nat) (hc : cache0.length = 64) (hlen : bytes.length < 2 ^ 61)
  (hb : ∀ b ∈ bytes, b < 256)
include hg hc hlen hb

/-- C25 end to end: hashing any byte string with `ripemd<128>` gives the published digest. -/
theorem C25_digest128 (d0 : Bits) (hd : d0.length = 128) :
    hashOnce ((ripemd128 d0 hd).C J) J (wordElem littleOctetBigBit 8) k garbage cache0 bytes =
      .ok (octetBits (Spec.Ripemd.ripemd128 bytes)) := by
  rw [show wordElem littleOctetBigBit 8 = wordElem (MDHash.ripemd128).policy.endian 8 from rfl,
    C02_byte_strings (ripemd128 d0 hd) J garbage hg k cache0 bytes hc hlen]
  unfold Spec.Ripemd.ripemd128
  rw [show Spec.Ripemd.iv4 = vars4 iv128 from rfl, show 0x80 = markOctetOf .ripemd128 from rfl]
  have key := (le_digest_bytes .ripemd128 4 4 ⟨rfl, rfl, rfl, rfl⟩ iv128 compress128 vars4
    Spec.Ripemd.compress128 Spec.Ripemd.list4
    (fun v => by rcases v with ⟨⟨l⟩, hl⟩; match l, hl with | [a, b, c, d], _ => rfl)
    (fun v X => compress128_eq X v) bytes hb)
  rw [← key]
  rfl

/-- C25 end to end for `ripemd<160>`. -/
theorem C25_digest160 (d0 : Bits) (hd : d0.length = 160) :
    hashOnce ((ripemd160 d0 hd).C J) J (wordElem littleOctetBigBit 8) k garbage cache0 bytes =
      .ok (octetBits (Spec.Ripemd.ripemd160 bytes)) := by
  rw [show wordElem littleOctetBigBit 8 = wordElem (MDHash.ripemd160).policy.endian 8 from rfl,
    C02_byte_strings (ripemd160 d0 hd) J garbage hg k cache0 bytes hc hlen]
  unfold Spec.Ripemd.ripemd160
  rw [show Spec.Ripemd.iv5 = vars5 iv160 from rfl, show 0x80 = markOctetOf .ripemd160 from rfl]
  have key := (le_digest_bytes .ripemd160 4 5 ⟨rfl, rfl, rfl, rfl⟩ iv160 compress160 vars5
    Spec.Ripemd.compress160 Spec.Ripemd.list5
    (fun v => by rcases v with ⟨⟨l⟩, hl⟩; match l, hl with | [a, b, c, d, e], _ => rfl)
    (fun v X => compress160_eq X v) bytes hb)
  rw [← key]
  rfl

/-- C25 end to end for `ripemd<256>`. -/
theorem C25_digest256 (d0 : Bits) (hd : d0.length = 256) :
    hashOnce ((ripemd256 d0 hd).C J) J (wordElem littleOctetBigBit 8) k garbage cache0 bytes =
      .ok (octetBits (Spec.Ripemd.ripemd256 bytes)) := by
  rw [show wordElem littleOctetBigBit 8 = wordElem (MDHash.ripemd256).policy.endian 8 from rfl,
    C02_byte_strings (ripemd256 d0 hd) J garbage hg k cache0 bytes hc hlen]
  exact congrArg _ (le_digest_bytes .ripemd256 4 8 ⟨rfl, rfl, rfl, rfl⟩ iv256 compress256 vars8
    Spec.Ripemd.compress256 (fun p => Spec.Ripemd.list4 p.1 ++ Spec.Ripemd.list4 p.2)
    (fun v => by rcases v with ⟨⟨l⟩, hl⟩; match l, hl with | [a, b, c, d, e, f, g, h], _ => rfl)
    (fun v X => compress256_eq X v) bytes hb)

/-- C25 end to end for `ripemd<320>`. -/
theorem C25_digest320 (d0 : Bits) (hd : d0.length = 320) :
    hashOnce ((ripemd320 d0 hd).C J) J (wordElem littleOctetBigBit 8) k garbage cache0 bytes =
      .ok (octetBits (Spec.Ripemd.ripemd320 bytes)) := by
  rw [show wordElem littleOctetBigBit 8 = wordElem (MDHash.ripemd320).policy.endian 8 from rfl,
    C02_byte_strings (ripemd320 d0 hd) J garbage hg k cache0 bytes hc hlen]
  exact congrArg _ (le_digest_bytes .ripemd320 4 10 ⟨rfl, rfl, rfl, rfl⟩ iv320 compress320 vars10
    Spec.Ripemd.compress320 (fun p => Spec.Ripemd.list5 p.1 ++ Spec.Ripemd.list5 p.2)
    (fun v => by rcases v with ⟨⟨l⟩, hl⟩; match l, hl with | [a, b, c, d, e, f, g, h, i, j], _ => rfl)
    (fun v X => compress320_eq X v) bytes hb)

end

/-! The published test vectors for `"abc"` (also in test/ripemd.cpp). -/

example : Spec.Ripemd.ripemd128 [0x61, 0x62, 0x63] =
    [0xc1, 0x4a, 0x12, 0x19, 0x9c, 0x66, 0xe4, 0xba, 0x84, 0x63, 0x6b, 0x0f, 0x69, 0x14, 0x4c, 0x77] := by
  decide +kernel
example : Spec.Ripemd.ripemd160 [0x61, 0x62, 0x63] =
    [0x8e, 0xb2, 0x08, 0xf7, 0xe0, 0x5d, 0x98, 0x7a, 0x9b, 0x04, 0x4a, 0x8e, 0x98, 0xc6, 0xb0, 0x87, 0xf1, 0x5a, 0x0b, 0xfc] := by
  decide +kernel
example : Spec.Ripemd.ripemd256 [0x61, 0x62, 0x63] =
    [0xaf, 0xbd, 0x6e, 0x22, 0x8b, 0x9d, 0x8c, 0xbb, 0xce, 0xf5, 0xca, 0x2d, 0x03, 0xe6, 0xdb, 0xa1, 0x0a, 0xc0, 0xbc, 0x7d, 0xcb, 0xe4, 0x68, 0x0e, 0x1e, 0x42, 0xd2, 0xe9, 0x75, 0x45, 0x9b, 0x65] := by
  decide +kernel
example : Spec.Ripemd.ripemd320 [0x61, 0x62, 0x63] =
    [0xde, 0x4c, 0x01, 0xb3, 0x05, 0x4f, 0x89, 0x30, 0xa7, 0x9d, 0x09, 0xae, 0x73, 0x8e, 0x92, 0x30, 0x1e, 0x5a, 0x17, 0x08, 0x5b, 0xef, 0xfd, 0xc1, 0xb8, 0xd1, 0x16, 0x71, 0x3e, 0x74, 0xf8, 0x2f, 0xa9, 0x42, 0xd6, 0x4c, 0xdb, 0xc4, 0x68, 0x2d] := by
  decide +kernel

/-- The hypotheses hold for these 200 bytes (four blocks after padding). -/
example : hashOnce ((ripemd160 (List.replicate 160 true) List.length_replicate).C spliceInjector)
      spliceInjector (wordElem littleOctetBigBit 8) .singlePass (List.replicate 512 true)
      (List.replicate 64 7) (List.range 200) =
    .ok (octetBits (Spec.Ripemd.ripemd160 (List.range 200))) :=
  C25_digest160 _ _ List.length_replicate _ _ _ List.length_replicate (by simp) (by simp; omega) _ _

example (k : RangeKind) := C25_digest128 spliceInjector (List.replicate 512 true) List.length_replicate k
  (List.replicate 64 9) [97, 98, 99] List.length_replicate (by decide) (by decide) (List.replicate 128 true)
  List.length_replicate

example (k : RangeKind) := C25_digest256 spliceInjector (List.replicate 512 true) List.length_replicate k
  (List.replicate 64 9) [97, 98, 99] List.length_replicate (by decide) (by decide) (List.replicate 256 true)
  List.length_replicate

end Verif.Props
