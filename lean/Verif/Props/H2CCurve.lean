import Mathlib.AlgebraicGeometry.EllipticCurve.Affine.Point
import Verif.Props.H2fSuites
/-
C60 in the group of the elliptic curve itself (Mathlib's group law on the points of `y² = x³ + b`).
-/
namespace Verif.Props
open Verif Verif.Spec Verif.Spec.H2C WeierstrassCurve

section
variable {F : Type} [Field F] [DecidableEq F]

/-- The curve `y² = x³ + b`. -/
def shortCurve (b : F) : Affine F := ⟨0, 0, 0, 0, b⟩

theorem shortCurve_nonsingular {b : F} (h2 : (2 : F) ≠ 0) (h3 : (3 : F) ≠ 0) (hb : b ≠ 0) (P : F × F) (h : OnCurve 0 b P) :
    (shortCurve b).Nonsingular P.1 P.2 := by
  rw [Affine.nonsingular_iff']
  unfold OnCurve at h
  refine ⟨?_, ?_⟩
  · rw [Affine.equation_iff]
    simp only [shortCurve]
    linear_combination h
  · simp only [shortCurve, zero_mul, mul_zero, add_zero, zero_sub, neg_ne_zero]
    by_contra hc
    rw [not_or, not_not, not_not] at hc
    have hx : P.1 = 0 := by
      have := (mul_eq_zero.1 hc.1).resolve_left h3
      exact pow_eq_zero_iff (n := 2) (by omega) |>.1 this
    have hy : P.2 = 0 := (mul_eq_zero.1 hc.2).resolve_left h2
    rw [hx, hy] at h
    exact hb (by linear_combination -h)

open Classical in
/-- The affine point with given coordinates. -/
noncomputable def curvePoint (b : F) (P : F × F) : (shortCurve b).Point :=
  if h : (shortCurve b).Nonsingular P.1 P.2 then .some P.1 P.2 h else 0

theorem curvePoint_eq {b : F} {P : F × F} (h : (shortCurve b).Nonsingular P.1 P.2) :
    curvePoint b P = .some P.1 P.2 h := dif_pos h

theorem mapToCurve_unique {sgn : F → Nat} (hflip : ∀ y : F, y ≠ 0 → sgn (-y) ≠ sgn y) {A B Z u : F}
    {xNum xDen yNum yDen : List F} {Q Q' : Option (F × F)} (h : MapToCurve sgn A B Z xNum xDen yNum yDen u Q)
    (h' : MapToCurve sgn A B Z xNum xDen yNum yDen u Q') : Q = Q' := by
  obtain ⟨P, hP, rfl⟩ := h
  obtain ⟨P', hP', rfl⟩ := h'
  rw [C41_rfc_unique hflip hP hP']

end

theorem sgn_flip_fp : ∀ y : Fp, y ≠ 0 → Spec.H2C.sgn0 [(-y).val] ≠ Spec.H2C.sgn0 [y.val] := by
  intro y hy h
  rw [← C41_sgn0_fp, ← C41_sgn0_fp] at h
  have := sgn0Fp_flips (p := bls12381P) (by decide) y hy
  rw [this] at h
  cases hc : sgn0Fp y <;> rw [hc] at h <;> exact absurd h (by decide)

theorem sgn_flip_fp2 : ∀ y : Fp2, y ≠ 0 → Spec.H2C.sgn0 [(-y).re.val, (-y).im.val] ≠ Spec.H2C.sgn0 [y.re.val, y.im.val] := by
  intro y hy h
  rw [← C41_sgn0_fp2, ← C41_sgn0_fp2] at h
  have := sgn0Fp2_flips (p := bls12381P) (by decide) (-1) 0 y hy
  replace this : sgn0Fp2 (-y) = !sgn0Fp2 y := this
  rw [this] at h
  cases hc : sgn0Fp2 y <;> rw [hc] at h <;> exact absurd h (by decide)

theorem fp_two : (2 : Fp) ≠ 0 := by decide +kernel
theorem fp_three : (3 : Fp) ≠ 0 := by decide +kernel
theorem fp_four : (4 : Fp) ≠ 0 := by decide +kernel

theorem fp2_two : (2 : Fp2) ≠ 0 := fun h => fp_two (congrArg QuadraticAlgebra.re h)
theorem fp2_three : (3 : Fp2) ≠ 0 := fun h => fp_three (congrArg QuadraticAlgebra.re h)
theorem fp2_four : (4 : Fp2) ≠ 0 := fun h => fp_four (congrArg QuadraticAlgebra.re h)
theorem fp2_b : 4 * (1 + im2) ≠ (0 : Fp2) := by
  intro h
  rcases mul_eq_zero.1 h with h | h
  · exact fp2_four h
  · have h1 : (0 : Fp) + 1 = 0 := congrArg QuadraticAlgebra.im h
    rw [zero_add] at h1
    exact one_ne_zero h1

section
variable (J : Injector) {E : Vector (BitVec 32) 16 → Vector (BitVec 32) 8 → Vector (BitVec 32) 8} (d0 : Bits)
  (hd : d0.length = 256) (cache0 : List Nat) (hc : cache0.length = 64)

include hc in
/-- C60 for G2 in the group of the curve `y² = x³ + 4(1 + i)`: the extracted point is `h_eff` times the sum of the two affine
points that RFC 9380 prescribes for the two field elements of the message. -/
theorem C60_g2_points (O : FieldOps Fp2) (hO : FieldOps.Correct O)
    (hs : O.sgn0 = fun y => sgn0Fp2 y) (one : Fp2 × Fp2) (hE : Computes16 E Sha.sha256fns.run) (garbage : Nat → Bits)
    (hg : ∀ i, (garbage i).length = 512) (out0 : List Nat) (hout : out0.length = 256) (dst : List Nat)
    (hdl : 16 ≤ dst.length ∧ dst.length ≤ 255) (hdb : ∀ x ∈ dst, x < 256) (ops : List GroupHashOp)
    (pieces : List (List Nat)) (hm : List.Forall₂ (XmdMatches 512) ops (pieces.map some))
    (hb : ∀ bs ∈ pieces, ∀ x ∈ bs, x < 256) (hl : pieces.flatten.length < 2 ^ 58) :
    ∃ (a a' : Acc (Vector (BitVec 32) 8)) (R : (shortCurve (4 * (1 + im2))).Point) (c0 c1 : List Nat) (x0 y0 x1 y1 : Fp2)
      (n0 : (shortCurve (4 * (1 + im2))).Nonsingular x0 y0) (n1 : (shortCurve (4 * (1 + im2))).Nonsingular x1 y1),
      (sha256Xmd J E d0 hd cache0 256).init (garbage 0) = .ok a ∧
      (sha256Xmd J E d0 hd cache0 256).run garbage out0 dst
        (h2cProcess 2 64 bls12381P toFp2 O (g2Suite im2) one (curvePoint (4 * (1 + im2)))) a [] (ops ++ [.extract]) =
          .ok (a', [R]) ∧
      hashToField 2 2 64 bls12381P (expandMessageXmd Sha.sha256 32 64 pieces.flatten dst 256) = [c0, c1] ∧
      MapToCurve (fun x : Fp2 => Spec.H2C.sgn0 [x.re.val, x.im.val]) (g2Suite im2).A (g2Suite im2).B (g2Suite im2).Z
        (g2Suite im2).xNum (g2Suite im2).xDen (g2Suite im2).yNum (g2Suite im2).yDen (toFp2 c0) (some (x0, y0)) ∧
      MapToCurve (fun x : Fp2 => Spec.H2C.sgn0 [x.re.val, x.im.val]) (g2Suite im2).A (g2Suite im2).B (g2Suite im2).Z
        (g2Suite im2).xNum (g2Suite im2).xDen (g2Suite im2).yNum (g2Suite im2).yDen (toFp2 c1) (some (x1, y1)) ∧
      R = (g2Suite im2).hEff • (.some x0 y0 n0 + .some x1 y1 n1) := by
  obtain ⟨a, a', R, e, e', c0, c1, Q0, Q1, hf, m0, m1, hR⟩ := C60_g2 J d0 hd cache0 hc (curvePoint (4 * (1 + im2))) O hO hs one
    hE garbage hg out0 hout dst hdl hdb ops pieces hm hb hl
  obtain ⟨P0, _, o0, k0⟩ := C59_g2 O hO hs one (toFp2 c0)
  obtain ⟨P1, _, o1, k1⟩ := C59_g2 O hO hs one (toFp2 c1)
  rw [mapToCurve_unique sgn_flip_fp2 m0 k0, mapToCurve_unique sgn_flip_fp2 m1 k1] at hR
  have n0 := shortCurve_nonsingular fp2_two fp2_three fp2_b P0 o0
  have n1 := shortCurve_nonsingular fp2_two fp2_three fp2_b P1 o1
  refine ⟨a, a', R, c0, c1, P0.1, P0.2, P1.1, P1.2, n0, n1, e, e', hf, k0, k1, ?_⟩
  rw [hR, ← curvePoint_eq n0, ← curvePoint_eq n1]
  rfl

include hc in
/-- C60 for G1 in the group of the curve `y² = x³ + 4`, for messages whose field elements are not exceptional inputs. -/
theorem C60_g1_points_partial (O : FieldOps Fp) (hO : FieldOps.Correct O)
    (hs : O.sgn0 = sgn0Fp) (one : Fp × Fp) (h1 : OnCurve 0 4 one) (hE : Computes16 E Sha.sha256fns.run)
    (garbage : Nat → Bits)
    (hg : ∀ i, (garbage i).length = 512) (out0 : List Nat) (hout : out0.length = 128) (dst : List Nat)
    (hdl : 16 ≤ dst.length ∧ dst.length ≤ 255) (hdb : ∀ x ∈ dst, x < 256) (ops : List GroupHashOp)
    (pieces : List (List Nat)) (hm : List.Forall₂ (XmdMatches 512) ops (pieces.map some))
    (hb : ∀ bs ∈ pieces, ∀ x ∈ bs, x < 256) (hl : pieces.flatten.length < 2 ^ 58)
    (hne : ∀ c ∈ hashToField 2 1 64 bls12381P (expandMessageXmd Sha.sha256 32 64 pieces.flatten dst 128),
      ¬ MapToCurve (fun x : Fp => Spec.H2C.sgn0 [x.val]) (g1Suite Fp).A (g1Suite Fp).B (g1Suite Fp).Z
        (g1Suite Fp).xNum (g1Suite Fp).xDen (g1Suite Fp).yNum (g1Suite Fp).yDen (toFp c) none) :
    ∃ (a a' : Acc (Vector (BitVec 32) 8)) (R : (shortCurve (4 : Fp)).Point) (c0 c1 : List Nat) (x0 y0 x1 y1 : Fp)
      (n0 : (shortCurve (4 : Fp)).Nonsingular x0 y0) (n1 : (shortCurve (4 : Fp)).Nonsingular x1 y1),
      (sha256Xmd J E d0 hd cache0 128).init (garbage 0) = .ok a ∧
      (sha256Xmd J E d0 hd cache0 128).run garbage out0 dst
        (h2cProcess 1 64 bls12381P toFp O (g1Suite Fp) one (curvePoint 4)) a [] (ops ++ [.extract]) = .ok (a', [R]) ∧
      hashToField 2 1 64 bls12381P (expandMessageXmd Sha.sha256 32 64 pieces.flatten dst 128) = [c0, c1] ∧
      MapToCurve (fun x : Fp => Spec.H2C.sgn0 [x.val]) (g1Suite Fp).A (g1Suite Fp).B (g1Suite Fp).Z
        (g1Suite Fp).xNum (g1Suite Fp).xDen (g1Suite Fp).yNum (g1Suite Fp).yDen (toFp c0) (some (x0, y0)) ∧
      MapToCurve (fun x : Fp => Spec.H2C.sgn0 [x.val]) (g1Suite Fp).A (g1Suite Fp).B (g1Suite Fp).Z
        (g1Suite Fp).xNum (g1Suite Fp).xDen (g1Suite Fp).yNum (g1Suite Fp).yDen (toFp c1) (some (x1, y1)) ∧
      R = (g1Suite Fp).hEff • (.some x0 y0 n0 + .some x1 y1 n1) := by
  obtain ⟨a, a', R, e, e', h⟩ := C60_g1_partial J d0 hd cache0 hc (curvePoint (4 : Fp)) O hO hs one h1
    hE garbage hg out0 hout dst hdl hdb ops pieces hm hb hl
  obtain ⟨c0, c1, Q0, Q1, hf, m0, m1, hR⟩ := h hne
  have hf' : hashToField 2 1 64 bls12381P (expandMessageXmd Sha.sha256 32 64 pieces.flatten dst 128) = [c0, c1] := hf
  have key : ∀ c ∈ [c0, c1], ∀ Q, MapToCurve (fun x : Fp => Spec.H2C.sgn0 [x.val]) (g1Suite Fp).A (g1Suite Fp).B
      (g1Suite Fp).Z (g1Suite Fp).xNum (g1Suite Fp).xDen (g1Suite Fp).yNum (g1Suite Fp).yDen (toFp c) Q →
      ∃ P, Q = some P ∧ OnCurve 0 4 P := by
    intro c hcm Q hQ
    obtain ⟨P, S, _, o, k, hS⟩ := C59_g1_partial O hO hs one h1 (toFp c)
    rcases hS with hS | ⟨hS, _⟩
    · exact ⟨P, (mapToCurve_unique sgn_flip_fp hQ k).trans hS, o⟩
    · rw [hS] at k
      exact absurd k (hne c (by rw [hf']; exact hcm))
  obtain ⟨P0, rfl, o0⟩ := key c0 (by simp) Q0 m0
  obtain ⟨P1, rfl, o1⟩ := key c1 (by simp) Q1 m1
  have n0 := shortCurve_nonsingular fp_two fp_three fp_four P0 o0
  have n1 := shortCurve_nonsingular fp_two fp_three fp_four P1 o1
  refine ⟨a, a', R, c0, c1, P0.1, P0.2, P1.1, P1.2, n0, n1, e, e', hf', m0, m1, ?_⟩
  rw [hR, ← curvePoint_eq n0, ← curvePoint_eq n1]
  rfl

end

/-- A message of three octets in two pieces, for G2. -/
example := C60_g2_points spliceInjector (List.replicate 256 true) List.length_replicate (List.replicate 64 9)
    List.length_replicate (classicalOps (fun y : Fp2 => sgn0Fp2 y)) (classicalOps_correct _) rfl (0, 0)
    (computes16_cipherOf Sha.sha256fns.run) (fun _ => List.replicate 512 true) (fun _ => List.length_replicate)
    (List.replicate 256 7) List.length_replicate (List.replicate 16 0x41) (by decide) (by decide)
    [.update (wordElem bigOctetBigBit 8) .container (List.replicate 64 9) [0x61],
      .update (wordElem bigOctetBigBit 16) .singlePass (List.replicate 32 9) [0x6263]]
    [[0x61], [0x62, 0x63]]
    (.cons ⟨⟨by decide, by decide, by decide⟩, by decide⟩
      (.cons ⟨⟨by decide, by decide, by decide⟩, by decide⟩ .nil)) (by decide) (by decide)

end Verif.Props
