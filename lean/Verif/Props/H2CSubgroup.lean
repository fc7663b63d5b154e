import Verif.Proof.CurveOrder
/-
C89: the points that `hash_to_curve` returns are in the subgroups of prime order `r`.  C60 for G1, exactly.
-/
namespace Verif.Props
open Verif Verif.Spec Verif.Spec.H2C Verif.Curve WeierstrassCurve

/-- C89: the groups of the two curves have order `h r` with `r` prime, and in each the points killed by `r` are a subgroup of
exactly `r` elements. -/
theorem C89_group_orders :
    blsR.Prime ∧
    Nat.card (shortCurve (4 : Fp)).Point = blsH1 * blsR ∧ Nat.card {P : (shortCurve (4 : Fp)).Point // blsR • P = 0} = blsR ∧
    Nat.card (shortCurve (4 * (1 + im2))).Point = blsH2 * blsR ∧
    Nat.card {P : (shortCurve (4 * (1 + im2))).Point // blsR • P = 0} = blsR :=
  ⟨prime_blsR, card_g1, card_torsion prime_blsR (by decide) card_g1 (by decide +kernel),
    card_g2, card_torsion prime_blsR (by decide) card_g2 (by decide +kernel)⟩

/-- The order and the cofactors are those of the BLS12 family with parameter `z = -0xd201000000010000`. -/
theorem C89_parameters : let z : Int := -0xd201000000010000
    (blsR : Int) = z ^ 4 - z ^ 2 + 1 ∧ 3 * (blsH1 : Int) = (z - 1) ^ 2 ∧
    9 * (blsH2 : Int) = z ^ 8 - 4 * z ^ 7 + 5 * z ^ 6 - 4 * z ^ 4 + 6 * z ^ 3 - 4 * z ^ 2 - 4 * z + 13 := by
  refine ⟨?_, ?_, ?_⟩ <;> simp only [blsR, blsH1, blsH2] <;> norm_num

/-- `clear_cofactor` (h2c_functions.hpp:338-341) sends every point of the curve into the subgroup, for both groups. -/
theorem C89_clear_cofactor :
    (∀ P : (shortCurve (4 : Fp)).Point, blsR • ((g1Suite Fp).hEff • P) = 0) ∧
    ∀ P : (shortCurve (4 * (1 + im2))).Point, blsR • ((g2Suite im2).hEff • P) = 0 :=
  ⟨fun P => by rw [← mul_nsmul']; exact exponent_g1 P, fun P => by rw [← mul_nsmul']; exact exponent_g2 P⟩

/-- The generator of G1. -/
def g1GenCode : Nat × Nat :=
  (0x17F1D3A73197D7942695638C4FA9AC0FC3688C4F9774B905A14E3A3F171BAC586C55E83FF97A1AEFFB3AF00ADB22C6BB,
   0x08B3F481E3AAA0F1A09E30ED741D8AE4FCF5E095D5D00AF600DB18CB2C04B3EDD03CC744A2888AE40CAA232946C5E7E1)

def g1Gen : Fp × Fp := ((g1GenCode.1 : Fp), (g1GenCode.2 : Fp))

section
variable (J : Injector) {E : Vector (BitVec 32) 16 → Vector (BitVec 32) 8 → Vector (BitVec 32) 8} (d0 : Bits)
  (hd : d0.length = 256) (cache0 : List Nat) (hc : cache0.length = 64)

include hc in
/-- C89 for G2: for every message and tag the extracted point is in the subgroup of order `r`. -/
theorem C89_g2 (O : FieldOps Fp2) (hO : FieldOps.Correct O)
    (hs : O.sgn0 = fun y => sgn0Fp2 y) (one : Fp2 × Fp2) (hE : Computes16 E Sha.sha256fns.run) (garbage : Nat → Bits)
    (hg : ∀ i, (garbage i).length = 512) (out0 : List Nat) (hout : out0.length = 256) (dst : List Nat)
    (hdl : 16 ≤ dst.length ∧ dst.length ≤ 255) (hdb : ∀ x ∈ dst, x < 256) (ops : List GroupHashOp)
    (pieces : List (List Nat)) (hm : List.Forall₂ (XmdMatches 512) ops (pieces.map some))
    (hb : ∀ bs ∈ pieces, ∀ x ∈ bs, x < 256) (hl : pieces.flatten.length < 2 ^ 58) :
    ∃ (a a' : Acc (Vector (BitVec 32) 8)) (R : (shortCurve (4 * (1 + im2))).Point),
      (sha256Xmd J E d0 hd cache0 256).init (garbage 0) = .ok a ∧
      (sha256Xmd J E d0 hd cache0 256).run garbage out0 dst
        (h2cProcess 2 64 bls12381P toFp2 O (g2Suite im2) one (curvePoint (4 * (1 + im2)))) a [] (ops ++ [.extract]) =
          .ok (a', [R]) ∧
      blsR • R = 0 := by
  obtain ⟨a, a', R, c0, c1, x0, y0, x1, y1, n0, n1, e, e', _, _, _, hR⟩ := C60_g2_points J d0 hd cache0 hc O hO hs one hE garbage
    hg out0 hout dst hdl hdb ops pieces hm hb hl
  exact ⟨a, a', R, e, e', by rw [hR]; exact C89_clear_cofactor.2 _⟩

include hc in
/-- What `hash_to_curve` computes for G1 on every message: `h_eff` times the sum of two points of the curve, each the one of
RFC 9380 for its field element, or `one` where RFC 9380 prescribes the identity. -/
theorem C60_g1_exact {G : Type} [AddCommGroup G] (point : Fp × Fp → G) (O : FieldOps Fp) (hO : FieldOps.Correct O)
    (hs : O.sgn0 = sgn0Fp) (one : Fp × Fp) (h1 : OnCurve 0 4 one) (hE : Computes16 E Sha.sha256fns.run)
    (garbage : Nat → Bits)
    (hg : ∀ i, (garbage i).length = 512) (out0 : List Nat) (hout : out0.length = 128) (dst : List Nat)
    (hdl : 16 ≤ dst.length ∧ dst.length ≤ 255) (hdb : ∀ x ∈ dst, x < 256) (ops : List GroupHashOp)
    (pieces : List (List Nat)) (hm : List.Forall₂ (XmdMatches 512) ops (pieces.map some))
    (hb : ∀ bs ∈ pieces, ∀ x ∈ bs, x < 256) (hl : pieces.flatten.length < 2 ^ 58) :
    ∃ (a a' : Acc (Vector (BitVec 32) 8)) (R : G) (c0 c1 : List Nat) (Q0 Q1 : Fp × Fp) (S0 S1 : Option (Fp × Fp)),
      (sha256Xmd J E d0 hd cache0 128).init (garbage 0) = .ok a ∧
      (sha256Xmd J E d0 hd cache0 128).run garbage out0 dst
        (h2cProcess 1 64 bls12381P toFp O (g1Suite Fp) one point) a [] (ops ++ [.extract]) = .ok (a', [R]) ∧
      hashToField 2 1 64 bls12381P (expandMessageXmd Sha.sha256 32 64 pieces.flatten dst 128) = [c0, c1] ∧
      MapToCurve (fun x : Fp => Spec.H2C.sgn0 [x.val]) (g1Suite Fp).A (g1Suite Fp).B (g1Suite Fp).Z
        (g1Suite Fp).xNum (g1Suite Fp).xDen (g1Suite Fp).yNum (g1Suite Fp).yDen (toFp c0) S0 ∧
      MapToCurve (fun x : Fp => Spec.H2C.sgn0 [x.val]) (g1Suite Fp).A (g1Suite Fp).B (g1Suite Fp).Z
        (g1Suite Fp).xNum (g1Suite Fp).xDen (g1Suite Fp).yNum (g1Suite Fp).yDen (toFp c1) S1 ∧
      OnCurve 0 4 Q0 ∧ OnCurve 0 4 Q1 ∧ (S0 = some Q0 ∨ S0 = none ∧ Q0 = one) ∧ (S1 = some Q1 ∨ S1 = none ∧ Q1 = one) ∧
      R = (g1Suite Fp).hEff • (point Q0 + point Q1) := by
  have hpost : ∀ bytes : List Nat, bytes.length = 128 → ∃ R,
      h2cProcess 1 64 bls12381P toFp O (g1Suite Fp) one point bytes = .ok R ∧
      ∃ (c0 c1 : List Nat) (Q0 Q1 : Fp × Fp) (S0 S1 : Option (Fp × Fp)), hashToField 2 1 64 bls12381P bytes = [c0, c1] ∧
        MapToCurve (fun x : Fp => Spec.H2C.sgn0 [x.val]) (g1Suite Fp).A (g1Suite Fp).B (g1Suite Fp).Z
          (g1Suite Fp).xNum (g1Suite Fp).xDen (g1Suite Fp).yNum (g1Suite Fp).yDen (toFp c0) S0 ∧
        MapToCurve (fun x : Fp => Spec.H2C.sgn0 [x.val]) (g1Suite Fp).A (g1Suite Fp).B (g1Suite Fp).Z
          (g1Suite Fp).xNum (g1Suite Fp).xDen (g1Suite Fp).yNum (g1Suite Fp).yDen (toFp c1) S1 ∧
        OnCurve 0 4 Q0 ∧ OnCurve 0 4 Q1 ∧ (S0 = some Q0 ∨ S0 = none ∧ Q0 = one) ∧ (S1 = some Q1 ∨ S1 = none ∧ Q1 = one) ∧
        R = (g1Suite Fp).hEff • (point Q0 + point Q1) := by
    intro bytes hbytes
    obtain ⟨c0, c1, hc⟩ := hashToField_two 1 64 bls12381P bytes
    obtain ⟨Q0, S0, h0, o0, m0, e0⟩ := C59_g1_partial O hO hs one h1 (toFp c0)
    obtain ⟨Q1, S1, h1, o1, m1, e1⟩ := C59_g1_partial O hO hs one h1 (toFp c1)
    refine ⟨_, ?_, c0, c1, Q0, Q1, S0, S1, hc, m0, m1, o0, o1, e0, e1, rfl⟩
    unfold h2cProcess
    rw [C40_hash_to_field 2 1 64 bls12381P bytes hbytes, hc]
    simp only [bind, Except.bind, List.map_cons, List.map_nil, epMap, h0, h1]
    rfl
  classical
  obtain ⟨a, a', e, e'⟩ := extract_once J d0 hd cache0 hc 128 hE garbage hg out0 hout (by omega) (by omega) (by omega) dst
    hdl hdb (h2cProcess 1 64 bls12381P toFp O (g1Suite Fp) one point)
    (fun bytes => if h : bytes.length = 128 then (hpost bytes h).choose else 0)
    (by intro bytes h; simp only [dif_pos h]; exact (hpost bytes h).choose_spec.1) ops pieces hm hb hl
  have hlen : (expandMessageXmd Sha.sha256 32 64 pieces.flatten dst 128).length = 128 := length_expand _ _ _
  obtain ⟨c0, c1, Q0, Q1, S0, S1, h⟩ := (hpost _ hlen).choose_spec.2
  refine ⟨a, a', _, c0, c1, Q0, Q1, S0, S1, e, e', h.1, h.2.1, h.2.2.1, h.2.2.2.1, h.2.2.2.2.1, h.2.2.2.2.2.1, h.2.2.2.2.2.2.1, ?_⟩
  simp only [dif_pos hlen]
  exact h.2.2.2.2.2.2.2

include hc in
/-- C89 for G1: for every message and tag, exceptional inputs of the isogeny included, the extracted point is in the subgroup
of order `r`. -/
theorem C89_g1 (O : FieldOps Fp) (hO : FieldOps.Correct O)
    (hs : O.sgn0 = sgn0Fp) (one : Fp × Fp) (h1 : OnCurve 0 4 one) (hE : Computes16 E Sha.sha256fns.run)
    (garbage : Nat → Bits)
    (hg : ∀ i, (garbage i).length = 512) (out0 : List Nat) (hout : out0.length = 128) (dst : List Nat)
    (hdl : 16 ≤ dst.length ∧ dst.length ≤ 255) (hdb : ∀ x ∈ dst, x < 256) (ops : List GroupHashOp)
    (pieces : List (List Nat)) (hm : List.Forall₂ (XmdMatches 512) ops (pieces.map some))
    (hb : ∀ bs ∈ pieces, ∀ x ∈ bs, x < 256) (hl : pieces.flatten.length < 2 ^ 58) :
    ∃ (a a' : Acc (Vector (BitVec 32) 8)) (R : (shortCurve (4 : Fp)).Point),
      (sha256Xmd J E d0 hd cache0 128).init (garbage 0) = .ok a ∧
      (sha256Xmd J E d0 hd cache0 128).run garbage out0 dst
        (h2cProcess 1 64 bls12381P toFp O (g1Suite Fp) one (curvePoint 4)) a [] (ops ++ [.extract]) = .ok (a', [R]) ∧
      blsR • R = 0 := by
  obtain ⟨a, a', R, c0, c1, Q0, Q1, S0, S1, e, e', _, _, _, _, _, _, _, hR⟩ := C60_g1_exact J d0 hd cache0 hc (curvePoint (4 : Fp))
    O hO hs one h1 hE garbage hg out0 hout dst hdl hdb ops pieces hm hb hl
  exact ⟨a, a', R, e, e', by rw [hR]; exact C89_clear_cofactor.1 _⟩

/-- The two multiples of the generator that matter are not the identity. -/
theorem g1Gen_multiples : (g1Suite Fp).hEff • curvePoint (4 : Fp) g1Gen ≠ 0 ∧
    (g1Suite Fp).hEff • (curvePoint (4 : Fp) g1Gen + curvePoint 4 g1Gen) ≠ 0 := by
  have n := shortCurve_nonsingular fp_two fp_three fp_four g1Gen g1_one_on_curve
  have hX : HasCoords comp1 (curvePoint (4 : Fp) g1Gen) g1GenCode := ⟨n, curvePoint_eq n⟩
  have key : ∀ k : Nat, (mulPt (natOps bls12381P) (bls12381P - 1) inv1 g1GenCode 70 k).isSome = true →
      k • curvePoint (4 : Fp) g1Gen ≠ 0 := by
    intro k hk
    obtain ⟨d, hd⟩ := Option.isSome_iff_exists.1 hk
    exact hasCoords_ne_zero comp1 (mulPt_sound comp1 comp1_neg hX _ _ _ hd)
  refine ⟨key _ ?_, ?_⟩
  · change (mulPt (natOps bls12381P) (bls12381P - 1) inv1 g1GenCode 70 0xd201000000010001).isSome = true
    decide +kernel
  · rw [← two_nsmul, ← mul_nsmul']
    refine key _ ?_
    change (mulPt (natOps bls12381P) (bls12381P - 1) inv1 g1GenCode 70 (0xd201000000010001 * 2)).isSome = true
    decide +kernel

include hc in
/-- C60 for G1 with the generator as `one`: the extracted point is hash_to_curve of RFC 9380 exactly when neither field
element of the message is one of the sixteen exceptional ones. -/
theorem C60_g1_iff (O : FieldOps Fp) (hO : FieldOps.Correct O)
    (hs : O.sgn0 = sgn0Fp) (hE : Computes16 E Sha.sha256fns.run)
    (garbage : Nat → Bits)
    (hg : ∀ i, (garbage i).length = 512) (out0 : List Nat) (hout : out0.length = 128) (dst : List Nat)
    (hdl : 16 ≤ dst.length ∧ dst.length ≤ 255) (hdb : ∀ x ∈ dst, x < 256) (ops : List GroupHashOp)
    (pieces : List (List Nat)) (hm : List.Forall₂ (XmdMatches 512) ops (pieces.map some))
    (hb : ∀ bs ∈ pieces, ∀ x ∈ bs, x < 256) (hl : pieces.flatten.length < 2 ^ 58) :
    ∃ (a a' : Acc (Vector (BitVec 32) 8)) (R : (shortCurve (4 : Fp)).Point),
      (sha256Xmd J E d0 hd cache0 128).init (garbage 0) = .ok a ∧
      (sha256Xmd J E d0 hd cache0 128).run garbage out0 dst
        (h2cProcess 1 64 bls12381P toFp O (g1Suite Fp) g1Gen (curvePoint 4)) a [] (ops ++ [.extract]) = .ok (a', [R]) ∧
      (HashToCurve 1 bls12381P toFp (curvePoint (4 : Fp)) (fun x : Fp => Spec.H2C.sgn0 [x.val]) (g1Suite Fp) pieces.flatten dst R ↔
        ∀ c ∈ hashToField 2 1 64 bls12381P (expandMessageXmd Sha.sha256 32 64 pieces.flatten dst 128),
          ∀ n ∈ g1Exceptional, c ≠ [n]) := by
  obtain ⟨a, a', R, c0, c1, Q0, Q1, S0, S1, e, e', hf, m0, m1, o0, o1, e0, e1, hR⟩ := C60_g1_exact J d0 hd cache0 hc
    (curvePoint (4 : Fp)) O hO hs g1Gen g1_one_on_curve hE garbage hg out0 hout dst hdl hdb ops pieces hm hb hl
  refine ⟨a, a', R, e, e', ?_⟩
  have hcm : ∀ c ∈ [c0, c1], c ∈ hashToField 2 1 64 bls12381P (expandMessageXmd Sha.sha256 32 64 pieces.flatten dst 128) := by
    rw [hf]; exact fun c h => h
  -- an element is exceptional exactly when RFC 9380 maps it to the identity
  have hexc : ∀ c ∈ [c0, c1], ∀ S, MapToCurve (fun x : Fp => Spec.H2C.sgn0 [x.val]) (g1Suite Fp).A (g1Suite Fp).B
      (g1Suite Fp).Z (g1Suite Fp).xNum (g1Suite Fp).xDen (g1Suite Fp).yNum (g1Suite Fp).yDen (toFp c) S →
      (S = none ↔ ∃ n ∈ g1Exceptional, c = [n]) := by
    intro c hc S hS
    constructor
    · rintro rfl
      obtain ⟨n, hn, hu⟩ := (C59_g1_exceptional (toFp c)).1 hS
      exact ⟨n, hn, toFp_eq_cast (hcm c hc) (g1Exceptional_nodup.2.2 n hn) hu⟩
    · rintro ⟨n, hn, rfl⟩
      exact mapToCurve_unique sgn_flip_fp hS ((C59_g1_exceptional (toFp [n])).2 ⟨n, hn, rfl⟩)
  have h0 := hexc c0 (by simp) S0 m0
  have h1 := hexc c1 (by simp) S1 m1
  have hrhs : (∀ c ∈ hashToField 2 1 64 bls12381P (expandMessageXmd Sha.sha256 32 64 pieces.flatten dst 128),
      ∀ n ∈ g1Exceptional, c ≠ [n]) ↔ S0 ≠ none ∧ S1 ≠ none := by
    rw [hf, Ne, Ne, h0, h1]
    constructor
    · intro h
      exact ⟨fun ⟨n, hn, hx⟩ => h c0 (by simp) n hn hx, fun ⟨n, hn, hx⟩ => h c1 (by simp) n hn hx⟩
    · rintro ⟨k0, k1⟩ c hc n hn hx
      rcases List.mem_pair.1 hc with rfl | rfl
      · exact k0 ⟨n, hn, hx⟩
      · exact k1 ⟨n, hn, hx⟩
  rw [hrhs]
  have hl : HashToCurve 1 bls12381P toFp (curvePoint (4 : Fp)) (fun x : Fp => Spec.H2C.sgn0 [x.val]) (g1Suite Fp)
      pieces.flatten dst R ↔ R = (g1Suite Fp).hEff • (toGroup (curvePoint (4 : Fp)) S0 + toGroup (curvePoint 4) S1) := by
    constructor
    · rintro ⟨d0, d1, T0, T1, hf', k0, k1, hR'⟩
      have : [d0, d1] = [c0, c1] := hf'.symm.trans hf
      simp only [List.cons.injEq, and_true] at this
      rw [this.1] at k0
      rw [this.2] at k1
      rw [hR', mapToCurve_unique sgn_flip_fp m0 k0, mapToCurve_unique sgn_flip_fp m1 k1]
    · intro h
      exact ⟨c0, c1, S0, S1, hf, m0, m1, h⟩
  rw [hl, hR]
  have hg := g1Gen_multiples
  rcases e0 with rfl | ⟨rfl, rfl⟩ <;> rcases e1 with rfl | ⟨rfl, rfl⟩
  · simp [toGroup]
  · simp only [toGroup, add_zero, ne_eq, reduceCtorEq, not_false_eq_true, not_true_eq_false, and_false, iff_false]
    rw [nsmul_add]
    intro h
    exact hg.1 (add_eq_left.1 h)
  · simp only [toGroup, zero_add, ne_eq, reduceCtorEq, not_false_eq_true, not_true_eq_false, false_and, iff_false]
    rw [nsmul_add]
    intro h
    exact hg.1 (add_eq_right.1 h)
  · simp only [toGroup, add_zero, nsmul_zero, ne_eq, not_true_eq_false, false_and, iff_false]
    exact hg.2

end

/-- A message of three octets in two pieces, for G1 and for G2. -/
example := C60_g1_iff spliceInjector (List.replicate 256 true) List.length_replicate (List.replicate 64 9)
    List.length_replicate (classicalOps (fun y : Fp => sgn0Fp y)) (classicalOps_correct _) rfl
    (computes16_cipherOf Sha.sha256fns.run) (fun _ => List.replicate 512 true) (fun _ => List.length_replicate)
    (List.replicate 128 7) List.length_replicate (List.replicate 16 0x41) (by decide) (by decide)
    [.update (wordElem bigOctetBigBit 8) .container (List.replicate 64 9) [0x61],
      .update (wordElem bigOctetBigBit 16) .singlePass (List.replicate 32 9) [0x6263]]
    [[0x61], [0x62, 0x63]]
    (.cons ⟨⟨by decide, by decide, by decide⟩, by decide⟩
      (.cons ⟨⟨by decide, by decide, by decide⟩, by decide⟩ .nil)) (by decide) (by decide)

example := C89_g1 spliceInjector (List.replicate 256 true) List.length_replicate (List.replicate 64 9)
    List.length_replicate (classicalOps (fun y : Fp => sgn0Fp y)) (classicalOps_correct _) rfl g1Gen g1_one_on_curve
    (computes16_cipherOf Sha.sha256fns.run) (fun _ => List.replicate 512 true) (fun _ => List.length_replicate)
    (List.replicate 128 7) List.length_replicate (List.replicate 16 0x41) (by decide) (by decide)
    [.update (wordElem bigOctetBigBit 8) .container (List.replicate 64 9) [0x61],
      .update (wordElem bigOctetBigBit 16) .singlePass (List.replicate 32 9) [0x6263]]
    [[0x61], [0x62, 0x63]]
    (.cons ⟨⟨by decide, by decide, by decide⟩, by decide⟩
      (.cons ⟨⟨by decide, by decide, by decide⟩, by decide⟩ .nil)) (by decide) (by decide)

example := C60_g1_exact spliceInjector (List.replicate 256 true) List.length_replicate (List.replicate 64 9)
    List.length_replicate (curvePoint (4 : Fp)) (classicalOps (fun y : Fp => sgn0Fp y)) (classicalOps_correct _) rfl g1Gen
    g1_one_on_curve
    (computes16_cipherOf Sha.sha256fns.run) (fun _ => List.replicate 512 true) (fun _ => List.length_replicate)
    (List.replicate 128 7) List.length_replicate (List.replicate 16 0x41) (by decide) (by decide)
    [.update (wordElem bigOctetBigBit 8) .container (List.replicate 64 9) [0x61],
      .update (wordElem bigOctetBigBit 16) .singlePass (List.replicate 32 9) [0x6263]]
    [[0x61], [0x62, 0x63]]
    (.cons ⟨⟨by decide, by decide, by decide⟩, by decide⟩
      (.cons ⟨⟨by decide, by decide, by decide⟩, by decide⟩ .nil)) (by decide) (by decide)

example := C89_g2 spliceInjector (List.replicate 256 true) List.length_replicate (List.replicate 64 9)
    List.length_replicate (classicalOps (fun y : Fp2 => sgn0Fp2 y)) (classicalOps_correct _) rfl (0, 0)
    (computes16_cipherOf Sha.sha256fns.run) (fun _ => List.replicate 512 true) (fun _ => List.length_replicate)
    (List.replicate 256 7) List.length_replicate (List.replicate 16 0x41) (by decide) (by decide)
    [.update (wordElem bigOctetBigBit 8) .container (List.replicate 64 9) [0x61],
      .update (wordElem bigOctetBigBit 16) .singlePass (List.replicate 32 9) [0x6263]]
    [[0x61], [0x62, 0x63]]
    (.cons ⟨⟨by decide, by decide, by decide⟩, by decide⟩
      (.cons ⟨⟨by decide, by decide, by decide⟩, by decide⟩ .nil)) (by decide) (by decide)

/-- A point of order 11 on the curve: not in the subgroup before the cofactor is cleared, the identity after. -/
example : ∃ P : (shortCurve (4 : Fp)).Point, blsR • P ≠ 0 ∧ blsR • ((g1Suite Fp).hEff • P) = 0 := by
  obtain ⟨P, hP, h11⟩ := exists_q11
  refine ⟨P, ?_, C89_clear_cofactor.1 P⟩
  intro h
  have hd := Nat.dvd_gcd (addOrderOf_dvd_iff_nsmul_eq_zero.2 h11) (addOrderOf_dvd_iff_nsmul_eq_zero.2 h)
  rw [show Nat.gcd 11 blsR = 1 by decide +kernel, Nat.dvd_one] at hd
  exact hasCoords_ne_zero comp1 hP (AddMonoid.addOrderOf_eq_one_iff.1 hd)

end Verif.Props
