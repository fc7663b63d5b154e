import Verif.Props.H2CBls
import Mathlib.FieldTheory.Finite.Basic
/-
C41, C42, C59, C60 for BLS12-381 G2, and hash_to_curve from the message to the point for both suites.
-/
namespace Verif.Props
open Verif Verif.Spec Verif.Spec.H2C

theorem fp_neg_one_nonsquare : ¬ IsSquare ((bls12381P - 1 : Nat) : Fp) := fp_nonsquare _ (by decide +kernel)

theorem fp_neg_one : ((bls12381P - 1 : Nat) : Fp) = -1 := by
  rw [Nat.cast_sub (by decide), fp_char]; simp

instance factFp2 : Fact (∀ r : Fp, r ^ 2 ≠ -1 + 0 * r) := ⟨fun r h => fp_neg_one_nonsquare
  ⟨r, by rw [fp_neg_one]; linear_combination -h⟩⟩

/-- The quadratic extension `Fp(i)`, `i² = -1`. -/
abbrev Fp2 := QuadraticAlgebra Fp (-1) 0

instance : Fintype Fp2 := Fintype.ofEquiv _ (QuadraticAlgebra.equivProd (-1 : Fp) 0).symm

theorem card_fp2 : Fintype.card Fp2 = bls12381P ^ 2 := by
  rw [Fintype.card_congr (QuadraticAlgebra.equivProd (-1 : Fp) 0), Fintype.card_prod, ZMod.card, sq]

/-- The imaginary unit. -/
def im2 : Fp2 := ⟨0, 1⟩

theorem im2_sq : im2 * im2 = -1 := by
  ext <;> simp [im2, QuadraticAlgebra.re_one, QuadraticAlgebra.im_one]

theorem fp2_char : ((bls12381P : Nat) : Fp2) = 0 := by
  have h := congrArg (algebraMap Fp Fp2) fp_char
  rwa [map_natCast, map_zero] at h

/-- `fp2 im2 (a, b)` is the element with coordinates `a` and `b`. -/
theorem fp2_eq (c : Nat × Nat) : fp2 im2 c = (⟨(c.1 : Fp), (c.2 : Fp)⟩ : Fp2) := by
  unfold fp2 im2
  ext <;> simp

theorem fp2_norm (c : Nat × Nat) : QuadraticAlgebra.norm (fp2 im2 c) = ((c.1 * c.1 + c.2 * c.2 : Nat) : Fp) := by
  rw [fp2_eq, QuadraticAlgebra.norm_def]
  push_cast; ring

/-- An element whose norm is not a square is not a square. -/
theorem fp2_nonsquare (c : Nat × Nat)
    (h : powMod bls12381P 400 (c.1 * c.1 + c.2 * c.2) (bls12381P / 2) = bls12381P - 1) : ¬ IsSquare (fp2 im2 c) := by
  rintro ⟨r, hr⟩
  refine fp_nonsquare _ h ⟨QuadraticAlgebra.norm r, ?_⟩
  rw [← fp2_norm, hr, map_mul]

/-- Codes for `Fp2`. -/
def comp2 : CompRing (Nat × Nat) Fp2 := pairComp bls12381P fp2_char (by decide) im2 im2_sq

theorem comp2_cast (c : Nat × Nat) : comp2.cast c = fp2 im2 c := rfl

theorem g2_identity : isoIdentity (pairOps bls12381P) g2XNum g2XDen g2YNum g2YDen (0, 240) (1012, 1012) (4, 4) := by
  decide +kernel

/-- C42 for G2: the 3-isogeny sends points of `E'` with non-vanishing denominators to `y² = x³ + 4(1 + i)`, over every
field of characteristic `p` with `i² = -1`, and the code returns that point. -/
theorem C42_g2 {F : Type} [Field F] [DecidableEq F] (hp : ((bls12381P : Nat) : F) = 0) (i : F) (hi : i * i = -1)
    (one P : F × F) (hP : OnCurve (g2Suite i).A (g2Suite i).B P) :
    ∃ Q, Verif.isoMap one (g2Suite i).powers (g2Suite i).xNum (g2Suite i).xDen (g2Suite i).yNum (g2Suite i).yDen P =
        Except.ok Q ∧
      (Spec.H2C.isoMap (g2Suite i).xNum (g2Suite i).xDen (g2Suite i).yNum (g2Suite i).yDen P = some Q ∧
        OnCurve 0 (4 * (1 + i)) Q ∨
       Spec.H2C.isoMap (g2Suite i).xNum (g2Suite i).xDen (g2Suite i).yNum (g2Suite i).yDen P = none ∧ Q = one) := by
  refine ⟨_, C42_evaluation one 3 _ _ _ _ (by simp [g2Suite, g2XNum]) (by simp [g2Suite, g2XDen])
    (by simp [g2Suite, g2YNum]) (by simp [g2Suite, g2YDen]) P, ?_⟩
  rcases h : Spec.H2C.isoMap (g2Suite i).xNum (g2Suite i).xDen (g2Suite i).yNum (g2Suite i).yDen P with _ | Q
  · exact Or.inr ⟨rfl, rfl⟩
  · left
    refine ⟨rfl, ?_⟩
    have := iso_of_identity (pairComp bls12381P hp (by decide) i hi) g2XNum g2XDen g2YNum g2YDen (0, 240) (1012, 1012)
      (4, 4) g2_identity P Q hP h
    have e : (pairComp (R := F) bls12381P hp (by decide) i hi).cast (4, 4) = 4 * (1 + i) := by
      simp only [pairComp]; push_cast; ring
    rw [e] at this
    exact this

def g2RootInv : (Nat × Nat) × (Nat × Nat) × (Nat × Nat) :=
  ((0x5c759507e8e3340620545362904660ce10d0f220d7ec3cc9af0744a723f4584c573c055db22aab44b251c71c717ee1c,
    0x5c759507e8e3340620545362904660ce10d0f220d7ec3cc9af0744a723f4584c573c055db22aab44b251c71c717ee1c),
   (0x0,
    0x1439b899baf1b35b8fc02d1bfb73bf5231b21e4af64b0e94de7b4e7d31a614c6c285c71b6d7a38e357c655555555130d),
   (0x9077b8dc5be3012061110fff35bed1a25791cf8eeeadd822a7700d19c6b9071ff832a1c427d4e38d2ffae38e38e17b6,
    0x10f9965c73c1b688450a96b64fefbfbd3efe2e8c049a353d3cb9d1cf5a4565b21f28d5e26ed6b1c6e6ff51c71c7192f5))

theorem g2_root_check : (pairOps bls12381P).rootCheck (bls12381P - 1012, bls12381P - 1012) (0, bls12381P - 240)
    (bls12381P - 1, 0) (bls12381P ^ 2) 800 g2RootInv := by decide +kernel

theorem fp2_neg (n : Nat) (h : n ≤ bls12381P) : ((bls12381P - n : Nat) : Fp2) = -(n : Fp2) := by
  rw [Nat.cast_sub h, fp2_char]; simp

/-- `E'` of G2 has no point of order two. -/
theorem g2_no_root (x : Fp2) : x ^ 3 + (g2Suite im2).A * x + (g2Suite im2).B ≠ 0 := by
  have h := no_root comp2 (bls12381P - 1012, bls12381P - 1012) (0, bls12381P - 240)
    (bls12381P - 1, 0) (bls12381P ^ 2) 800 g2RootInv (by decide +kernel) (by
      show ((bls12381P - 1 : Nat) : Fp2) + ((0 : Nat) : Fp2) * im2 = -1
      rw [fp2_neg 1 (by decide)]; simp) g2_root_check x (by rw [← card_fp2]; exact FiniteField.pow_card x)
  intro h0
  apply h
  show x ^ 3 = (((bls12381P - 1012 : Nat) : Fp2) + ((bls12381P - 1012 : Nat) : Fp2) * im2) +
    (((0 : Nat) : Fp2) + ((bls12381P - 240 : Nat) : Fp2) * im2) * x
  rw [fp2_neg 1012 (by decide), fp2_neg 240 (by decide)]
  have e : x ^ 3 + (((0 : Nat) : Fp2) + ((240 : Nat) : Fp2) * im2) * x +
    (((1012 : Nat) : Fp2) + ((1012 : Nat) : Fp2) * im2) = 0 := h0
  linear_combination e

theorem fp2_ne_zero (c : Nat × Nat) (h : c.1 % bls12381P ≠ 0 ∨ c.2 % bls12381P ≠ 0) : fp2 im2 c ≠ 0 := by
  rw [fp2_eq]
  intro h0
  rcases h with h | h
  · exact fp_ne_zero _ h (congrArg QuadraticAlgebra.re h0)
  · exact fp_ne_zero _ h (congrArg QuadraticAlgebra.im h0)

/-- Equalities between codes that agree modulo `p`. -/
theorem fp2_congr (c d : Nat × Nat) (h1 : c.1 % bls12381P = d.1 % bls12381P) (h2 : c.2 % bls12381P = d.2 % bls12381P) :
    fp2 im2 c = fp2 im2 d := by
  unfold fp2
  rw [cast_eq_of_mod fp2_char h1, cast_eq_of_mod fp2_char h2]

def g2Z : Nat × Nat := (bls12381P - 2, bls12381P - 1)

theorem g2Z_eq : (g2Suite im2).Z = fp2 im2 g2Z := by
  show -(((2 : Nat) : Fp2) + ((1 : Nat) : Fp2) * im2) = _
  unfold fp2 g2Z
  rw [fp2_neg 2 (by decide), fp2_neg 1 (by decide)]
  ring

def g2D : Nat × Nat :=
  (0x1ab297833e723eac0fabc0aa0e7a110618a36faaa1445aed7798865356042fe7a49c1b4d2a1c369cbb8aeb851eb7fa5,
   0x35652f067ce47d581f5781541cf4220c3146df554288b5daef310ca6ac085fcf4938369a54386d397715d70a3d6ff4a)
def g2W : Nat × Nat :=
  (0x1776b5d3dd70bb2ac6e46be0849209c9c47853350da878bdc14a5042102f1f01cbc75043b8d13d709dd5ca27f92cb390,
   0x2c094c100c4f8a157767045bc04279dd04f207fbddc4de6675911b512cddacc0061215698453b5b11125516029e4d21)

theorem mul2 (a b : Nat × Nat) : fp2 im2 a * fp2 im2 b = fp2 im2 ((pairOps bls12381P).mul a b) :=
  (comp2.cast_mul a b).symm

theorem add2 (a b : Nat × Nat) : fp2 im2 a + fp2 im2 b = fp2 im2 ((pairOps bls12381P).add a b) :=
  (comp2.cast_add a b).symm

theorem g2_admissible : SwuAdmissible (g2Suite im2).A (g2Suite im2).B (g2Suite im2).Z := by
  have hA : fp2 im2 (0, 240) ≠ 0 := fp2_ne_zero _ (Or.inr (by decide))
  have hZ : fp2 im2 g2Z ≠ 0 := fp2_ne_zero _ (Or.inr (by decide))
  rw [g2Z_eq]
  refine ⟨hA, fp2_ne_zero (1012, 1012) (Or.inr (by decide)), fp2_nonsquare _ (by decide +kernel), ?_⟩
  show IsSquare ((fp2 im2 (1012, 1012) / (fp2 im2 g2Z * fp2 im2 (0, 240))) ^ 3 +
    fp2 im2 (0, 240) * (fp2 im2 (1012, 1012) / (fp2 im2 g2Z * fp2 im2 (0, 240))) + fp2 im2 (1012, 1012))
  have hd : fp2 im2 (1012, 1012) / (fp2 im2 g2Z * fp2 im2 (0, 240)) =
      fp2 im2 ((pairOps bls12381P).mul (1012, 1012) g2D) := by
    rw [div_eq_iff (mul_ne_zero hZ hA), mul2, mul2]
    exact congrArg (fp2 im2) (by decide +kernel)
  rw [hd]
  refine ⟨fp2 im2 g2W, ?_⟩
  rw [pow_succ, pow_two, mul2, mul2, mul2, add2, add2, mul2]
  exact congrArg (fp2 im2) (by decide +kernel)

/-- C41 for G2. -/
theorem C41_g2 (O : FieldOps Fp2) (hO : FieldOps.Correct O) (hs : O.sgn0 = fun y => sgn0Fp2 y) (u : Fp2) :
    SimpleSwu (fun x : Fp2 => Spec.H2C.sgn0 [x.re.val, x.im.val]) (g2Suite im2).A (g2Suite im2).B (g2Suite im2).Z u
      (sswu O (g2Suite im2).A (g2Suite im2).B (g2Suite im2).Z u) := by
  have h := C41_rfc O hO (by rw [hs]; exact sgn0Fp2_flips (by decide) _ _) g2_admissible g2_no_root u
  rw [hs] at h
  simpa only [C41_sgn0_fp2] using h

/-- Where a denominator of the 3-isogeny vanishes there is no point of `E'` over `Fp2`. -/
theorem g2_no_exceptional (P : Fp2 × Fp2) (hP : OnCurve (g2Suite im2).A (g2Suite im2).B P) :
    Spec.H2C.isoMap (g2Suite im2).xNum (g2Suite im2).xDen (g2Suite im2).yNum (g2Suite im2).yDen P ≠ none := by
  have c1 : (pairOps bls12381P).polyMul [(6, bls12381P - 6), (1, 0)] [(6, bls12381P - 6), (1, 0)] =
      g2XDen ++ [(1, 0)] := by decide +kernel
  have c2 : (pairOps bls12381P).polyMul [(6, bls12381P - 6), (1, 0)] (g2XDen ++ [(1, 0)]) =
      g2YDen ++ [(1, 0)] := by decide +kernel
  have e1 : polyEval comp2 (g2XDen ++ [(1, 0)]) P.1 = polyEval comp2 [(6, bls12381P - 6), (1, 0)] P.1 ^ 2 := by
    rw [← c1, sq]; exact eval_polyMul comp2 _ _ _
  have e2 : polyEval comp2 (g2YDen ++ [(1, 0)]) P.1 = polyEval comp2 [(6, bls12381P - 6), (1, 0)] P.1 ^ 3 := by
    rw [← c2, pow_succ', ← e1]; exact eval_polyMul comp2 _ _ _
  have hx : ∀ x : Fp2, polyEval comp2 [(6, bls12381P - 6), (1, 0)] x = fp2 im2 (6, bls12381P - 6) + x := by
    intro x
    simp only [polyEval, List.foldr_cons, List.foldr_nil, comp2_cast]
    have : fp2 im2 (1, 0) = 1 := by unfold fp2; simp
    rw [this]; ring
  have hne : polyEval comp2 [(6, bls12381P - 6), (1, 0)] P.1 ≠ 0 := by
    rw [hx]
    intro h0
    have hP1 : P.1 = fp2 im2 (bls12381P - 6, 6) := by
      have : fp2 im2 (6, bls12381P - 6) + fp2 im2 (bls12381P - 6, 6) = 0 := by
        rw [add2]
        exact (congrArg (fp2 im2) (show _ = (0, 0) by decide +kernel)).trans (by unfold fp2; simp)
      linear_combination h0 - this
    have hg : P.1 ^ 3 + (g2Suite im2).A * P.1 + (g2Suite im2).B = fp2 im2 (4, 4) := by
      rw [hP1]
      show fp2 im2 (bls12381P - 6, 6) ^ 3 + fp2 im2 (0, 240) * fp2 im2 (bls12381P - 6, 6) + fp2 im2 (1012, 1012) = _
      rw [pow_succ, pow_two, mul2, mul2, mul2, add2, add2]
      exact congrArg (fp2 im2) (by decide +kernel)
    unfold OnCurve at hP
    rw [hg] at hP
    exact fp2_nonsquare (4, 4) (by decide +kernel) ⟨P.2, by rw [← hP, sq]⟩
  unfold Spec.H2C.isoMap
  have l1 : (g2Suite im2).xDen.length = g2XDen.length := by simp [g2Suite]
  have l2 : (g2Suite im2).yDen.length = g2YDen.length := by simp [g2Suite]
  have m1 : poly (g2Suite im2).xDen P.1 + P.1 ^ g2XDen.length = polyEval comp2 (g2XDen ++ [(1, 0)]) P.1 :=
    poly_monic comp2 g2XDen P.1
  have m2 : poly (g2Suite im2).yDen P.1 + P.1 ^ g2YDen.length = polyEval comp2 (g2YDen ++ [(1, 0)]) P.1 :=
    poly_monic comp2 g2YDen P.1
  simp only [l1, l2, m1, m2, e1, e2]
  rw [if_neg (by
    intro h
    rcases h with h | h
    · exact pow_ne_zero _ hne h
    · exact pow_ne_zero _ hne h)]
  simp

/-- C59 for G2: for every `u`, `map_to_curve` returns the point that the specification prescribes, on the
target curve. -/
theorem C59_g2 (O : FieldOps Fp2) (hO : FieldOps.Correct O) (hs : O.sgn0 = fun y => sgn0Fp2 y) (one : Fp2 × Fp2)
    (u : Fp2) :
    ∃ Q, mapToCurve O (g2Suite im2) one u = Except.ok Q ∧ OnCurve 0 (4 * (1 + im2)) Q ∧
      MapToCurve (fun x : Fp2 => Spec.H2C.sgn0 [x.re.val, x.im.val]) (g2Suite im2).A (g2Suite im2).B (g2Suite im2).Z
        (g2Suite im2).xNum (g2Suite im2).xDen (g2Suite im2).yNum (g2Suite im2).yDen u (some Q) := by
  have hc := C41_on_curve O hO g2_admissible u
  obtain ⟨Q, hQ, h⟩ := C42_g2 fp2_char im2 im2_sq one _ hc
  rcases h with ⟨h, hc⟩ | ⟨h, he⟩
  · exact ⟨Q, hQ, hc, _, C41_g2 O hO hs u, h.symm⟩
  · exact absurd h (g2_no_exceptional _ hc)

/-! ### From the message to the point -/

/-- Operations that meet the contract exist for every field. -/
noncomputable def classicalOps {F : Type} [Field F] (sgn : F → Bool) : FieldOps F where
  isSquare a := by classical exact decide (IsSquare a)
  sqrt a := by classical exact if h : IsSquare a then h.choose else 0
  sgn0 := sgn

theorem classicalOps_correct {F : Type} [Field F] [DecidableEq F] (sgn : F → Bool) :
    FieldOps.Correct (classicalOps sgn) := by
  constructor
  · intro a; simp [classicalOps]
  · intro a h
    simp only [classicalOps, dif_pos h]
    exact h.choose_spec.symm

example : FieldOps.Correct (classicalOps (fun y : Fp2 => sgn0Fp2 y)) ∧
    (classicalOps (fun y : Fp2 => sgn0Fp2 y)).sgn0 = fun y => sgn0Fp2 y := ⟨classicalOps_correct _, rfl⟩

/-- The element with the given coordinates. -/
def toFp (c : List Nat) : Fp := ((c.getD 0 0 : Nat) : Fp)
def toFp2 (c : List Nat) : Fp2 := ⟨((c.getD 0 0 : Nat) : Fp), ((c.getD 1 0 : Nat) : Fp)⟩

theorem hashToField_two (m L p : Nat) (bytes : List Nat) : ∃ c0 c1, hashToField 2 m L p bytes = [c0, c1] :=
  ⟨_, _, rfl⟩

section
variable (J : Injector) {E : Vector (BitVec 32) 16 → Vector (BitVec 32) 8 → Vector (BitVec 32) 8} (d0 : Bits)
  (hd : d0.length = 256) (cache0 : List Nat) (hc : cache0.length = 64)

include hc in
/-- One extraction of an accumulator that was fed a message in pieces, for any function of the expanded octets that
does not fault. -/
theorem extract_once {ρ : Type} (len : Nat) (hE : Computes16 E Sha.sha256fns.run) (garbage : Nat → Bits)
    (hg : ∀ i, (garbage i).length = 512) (out0 : List Nat) (hout : out0.length = len) (hlen : len < 65536)
    (hpos : 0 < len) (hdvd : 32 ∣ len) (dst : List Nat) (hdl : 16 ≤ dst.length ∧ dst.length ≤ 255)
    (hdb : ∀ x ∈ dst, x < 256) (post : List Nat → Except Fault ρ) (F : List Nat → ρ)
    (hpost : ∀ bytes : List Nat, bytes.length = len → post bytes = .ok (F bytes)) (ops : List GroupHashOp)
    (pieces : List (List Nat)) (hm : List.Forall₂ (XmdMatches 512) ops (pieces.map some))
    (hb : ∀ bs ∈ pieces, ∀ x ∈ bs, x < 256) (hl : pieces.flatten.length < 2 ^ 58) :
    ∃ a a', (sha256Xmd J E d0 hd cache0 len).init (garbage 0) = .ok a ∧
      (sha256Xmd J E d0 hd cache0 len).run garbage out0 dst post a [] (ops ++ [.extract]) =
        .ok (a', [F (expandMessageXmd Sha.sha256 32 64 pieces.flatten dst len)]) := by
  have hcost : ((pieces.map some).map (xmdCost (i2osp len 2 ++ [0] ++ dstPrime dst))).sum = pieces.flatten.length := by
    rw [List.map_map, List.length_flatten]; rfl
  obtain ⟨a, a', e, e'⟩ := C38_sha256_history_partial J d0 hd cache0 hc len hE garbage hg out0 hout hlen hpos hdvd dst hdl hdb
    post F hpost (ops ++ [.extract]) (pieces.map some ++ [none])
    (List.rel_append hm (.cons (show XmdMatches 512 .extract none from trivial) .nil)) (by
      intro bs hbs
      have : bs ∈ pieces := by simpa using hbs
      exact hb bs this) (by
      rw [List.map_append, List.sum_append, hcost]
      simp only [List.map_cons, List.map_nil, List.sum_cons, List.sum_nil, xmdCost]
      have : (i2osp len 2 ++ [0] ++ dstPrime dst).length = dst.length + 4 := by simp [dstPrime, i2osp]
      omega)
  refine ⟨a, a', e, ?_⟩
  rw [e', xmdOutputs_feed]
  rfl

theorem length_expand (msg dst : List Nat) (len : Nat) :
    (expandMessageXmd Sha.sha256 32 64 msg dst len).length = len := by
  have hb : ∀ (b0 : List Nat) (i : Nat), (xmdBlock Sha.sha256 dst b0 (i + 1)).length = 32 := by
    intro b0 i
    cases i with
    | zero => exact (length_sha256 _).1
    | succ i => exact (length_sha256 _).1
  unfold expandMessageXmd
  simp only
  rw [List.length_take, List.length_flatten, List.map_map]
  have : ((List.range ((len + 32 - 1) / 32)).map (List.length ∘ fun i =>
      xmdBlock Sha.sha256 dst (Sha.sha256 (msgPrime 64 msg dst len)) (i + 1))).sum = 32 * ((len + 32 - 1) / 32) := by
    have e : (List.length ∘ fun i => xmdBlock Sha.sha256 dst (Sha.sha256 (msgPrime 64 msg dst len)) (i + 1)) =
        fun _ => 32 := by
      funext i; exact hb _ i
    rw [e, List.map_const', List.sum_replicate, List.length_range, smul_eq_mul, Nat.mul_comm]
  rw [this]
  omega

/-- hash_to_curve of RFC 9380 section 3, in a group `G`: two field elements, `map_to_curve`, sum, `h_eff`. -/
def HashToCurve {F G : Type} [Field F] [DecidableEq F] [AddCommGroup G] (m p : Nat) (toField : List Nat → F)
    (point : F × F → G) (sgn : F → Nat) (S : H2cSuite F) (msg dst : List Nat) (R : G) : Prop :=
  ∃ c0 c1 Q0 Q1,
    hashToField 2 m 64 p (expandMessageXmd Sha.sha256 32 64 msg dst (2 * m * 64)) = [c0, c1] ∧
    MapToCurve sgn S.A S.B S.Z S.xNum S.xDen S.yNum S.yDen (toField c0) Q0 ∧
    MapToCurve sgn S.A S.B S.Z S.xNum S.xDen S.yNum S.yDen (toField c1) Q1 ∧
    R = S.hEff • (toGroup point Q0 + toGroup point Q1)

include hc in
/-- C60 for G2: a message fed in any pieces and extracted once gives hash_to_curve of RFC 9380 with SHA-256. -/
theorem C60_g2 {G : Type} [AddCommGroup G] (point : Fp2 × Fp2 → G) (O : FieldOps Fp2) (hO : FieldOps.Correct O)
    (hs : O.sgn0 = fun y => sgn0Fp2 y) (one : Fp2 × Fp2) (hE : Computes16 E Sha.sha256fns.run) (garbage : Nat → Bits)
    (hg : ∀ i, (garbage i).length = 512) (out0 : List Nat) (hout : out0.length = 256) (dst : List Nat)
    (hdl : 16 ≤ dst.length ∧ dst.length ≤ 255) (hdb : ∀ x ∈ dst, x < 256) (ops : List GroupHashOp)
    (pieces : List (List Nat)) (hm : List.Forall₂ (XmdMatches 512) ops (pieces.map some))
    (hb : ∀ bs ∈ pieces, ∀ x ∈ bs, x < 256) (hl : pieces.flatten.length < 2 ^ 58) :
    ∃ a a' R, (sha256Xmd J E d0 hd cache0 256).init (garbage 0) = .ok a ∧
      (sha256Xmd J E d0 hd cache0 256).run garbage out0 dst
        (h2cProcess 2 64 bls12381P toFp2 O (g2Suite im2) one point) a [] (ops ++ [.extract]) = .ok (a', [R]) ∧
      HashToCurve 2 bls12381P toFp2 point (fun x : Fp2 => Spec.H2C.sgn0 [x.re.val, x.im.val]) (g2Suite im2)
        pieces.flatten dst R := by
  have hpost : ∀ bytes : List Nat, bytes.length = 256 → ∃ R,
      h2cProcess 2 64 bls12381P toFp2 O (g2Suite im2) one point bytes = .ok R ∧
      ∃ c0 c1 Q0 Q1, hashToField 2 2 64 bls12381P bytes = [c0, c1] ∧
        MapToCurve (fun x : Fp2 => Spec.H2C.sgn0 [x.re.val, x.im.val]) (g2Suite im2).A (g2Suite im2).B (g2Suite im2).Z
          (g2Suite im2).xNum (g2Suite im2).xDen (g2Suite im2).yNum (g2Suite im2).yDen (toFp2 c0) Q0 ∧
        MapToCurve (fun x : Fp2 => Spec.H2C.sgn0 [x.re.val, x.im.val]) (g2Suite im2).A (g2Suite im2).B (g2Suite im2).Z
          (g2Suite im2).xNum (g2Suite im2).xDen (g2Suite im2).yNum (g2Suite im2).yDen (toFp2 c1) Q1 ∧
        R = (g2Suite im2).hEff • (toGroup point Q0 + toGroup point Q1) := by
    intro bytes hbytes
    obtain ⟨c0, c1, hc⟩ := hashToField_two 2 64 bls12381P bytes
    obtain ⟨Q0, h0, _, m0⟩ := C59_g2 O hO hs one (toFp2 c0)
    obtain ⟨Q1, h1, _, m1⟩ := C59_g2 O hO hs one (toFp2 c1)
    refine ⟨_, ?_, c0, c1, some Q0, some Q1, hc, m0, m1, rfl⟩
    unfold h2cProcess
    rw [C40_hash_to_field 2 2 64 bls12381P bytes hbytes, hc]
    simp only [bind, Except.bind, List.map_cons, List.map_nil, epMap, h0, h1]
    rfl
  classical
  obtain ⟨a, a', e, e'⟩ := extract_once J d0 hd cache0 hc 256 hE garbage hg out0 hout (by omega) (by omega) (by omega) dst
    hdl hdb (h2cProcess 2 64 bls12381P toFp2 O (g2Suite im2) one point)
    (fun bytes => if h : bytes.length = 256 then (hpost bytes h).choose else 0)
    (by intro bytes h; simp only [dif_pos h]; exact (hpost bytes h).choose_spec.1) ops pieces hm hb hl
  refine ⟨a, a', _, e, e', ?_⟩
  have hlen : (expandMessageXmd Sha.sha256 32 64 pieces.flatten dst 256).length = 256 := length_expand _ _ _
  simp only [dif_pos hlen]
  exact (hpost _ hlen).choose_spec.2

include hc in
/-- C60 for G1, except on messages for which a field element is an exceptional input of the isogeny. -/
theorem C60_g1_partial {G : Type} [AddCommGroup G] (point : Fp × Fp → G) (O : FieldOps Fp) (hO : FieldOps.Correct O)
    (hs : O.sgn0 = sgn0Fp) (one : Fp × Fp) (h1 : OnCurve 0 4 one) (hE : Computes16 E Sha.sha256fns.run)
    (garbage : Nat → Bits)
    (hg : ∀ i, (garbage i).length = 512) (out0 : List Nat) (hout : out0.length = 128) (dst : List Nat)
    (hdl : 16 ≤ dst.length ∧ dst.length ≤ 255) (hdb : ∀ x ∈ dst, x < 256) (ops : List GroupHashOp)
    (pieces : List (List Nat)) (hm : List.Forall₂ (XmdMatches 512) ops (pieces.map some))
    (hb : ∀ bs ∈ pieces, ∀ x ∈ bs, x < 256) (hl : pieces.flatten.length < 2 ^ 58) :
    ∃ a a' R, (sha256Xmd J E d0 hd cache0 128).init (garbage 0) = .ok a ∧
      (sha256Xmd J E d0 hd cache0 128).run garbage out0 dst
        (h2cProcess 1 64 bls12381P toFp O (g1Suite Fp) one point) a [] (ops ++ [.extract]) = .ok (a', [R]) ∧
      ((∀ c ∈ hashToField 2 1 64 bls12381P (expandMessageXmd Sha.sha256 32 64 pieces.flatten dst 128),
          ¬ MapToCurve (fun x : Fp => Spec.H2C.sgn0 [x.val]) (g1Suite Fp).A (g1Suite Fp).B (g1Suite Fp).Z
            (g1Suite Fp).xNum (g1Suite Fp).xDen (g1Suite Fp).yNum (g1Suite Fp).yDen (toFp c) none) →
        HashToCurve 1 bls12381P toFp point (fun x : Fp => Spec.H2C.sgn0 [x.val]) (g1Suite Fp) pieces.flatten dst R) := by
  have hpost : ∀ bytes : List Nat, bytes.length = 128 → ∃ R,
      h2cProcess 1 64 bls12381P toFp O (g1Suite Fp) one point bytes = .ok R ∧
      ((∀ c ∈ hashToField 2 1 64 bls12381P bytes,
          ¬ MapToCurve (fun x : Fp => Spec.H2C.sgn0 [x.val]) (g1Suite Fp).A (g1Suite Fp).B (g1Suite Fp).Z
            (g1Suite Fp).xNum (g1Suite Fp).xDen (g1Suite Fp).yNum (g1Suite Fp).yDen (toFp c) none) →
      ∃ c0 c1 Q0 Q1, hashToField 2 1 64 bls12381P bytes = [c0, c1] ∧
        MapToCurve (fun x : Fp => Spec.H2C.sgn0 [x.val]) (g1Suite Fp).A (g1Suite Fp).B (g1Suite Fp).Z
          (g1Suite Fp).xNum (g1Suite Fp).xDen (g1Suite Fp).yNum (g1Suite Fp).yDen (toFp c0) Q0 ∧
        MapToCurve (fun x : Fp => Spec.H2C.sgn0 [x.val]) (g1Suite Fp).A (g1Suite Fp).B (g1Suite Fp).Z
          (g1Suite Fp).xNum (g1Suite Fp).xDen (g1Suite Fp).yNum (g1Suite Fp).yDen (toFp c1) Q1 ∧
        R = (g1Suite Fp).hEff • (toGroup point Q0 + toGroup point Q1)) := by
    intro bytes hbytes
    obtain ⟨c0, c1, hc⟩ := hashToField_two 1 64 bls12381P bytes
    obtain ⟨Q0, R0, h0, _, m0, e0⟩ := C59_g1_partial O hO hs one h1 (toFp c0)
    obtain ⟨Q1, R1, h1, _, m1, e1⟩ := C59_g1_partial O hO hs one h1 (toFp c1)
    refine ⟨(g1Suite Fp).hEff • (point Q0 + point Q1), ?_, fun hne => ⟨c0, c1, R0, R1, hc, m0, m1, ?_⟩⟩
    · unfold h2cProcess
      rw [C40_hash_to_field 2 1 64 bls12381P bytes hbytes, hc]
      simp only [bind, Except.bind, List.map_cons, List.map_nil, epMap, h0, h1]
      rfl
    · have n0 := hne c0 (by rw [hc]; simp)
      have n1 := hne c1 (by rw [hc]; simp)
      rcases e0 with rfl | ⟨rfl, _⟩
      · rcases e1 with rfl | ⟨rfl, _⟩
        · rfl
        · exact absurd m1 n1
      · exact absurd m0 n0
  classical
  obtain ⟨a, a', e, e'⟩ := extract_once J d0 hd cache0 hc 128 hE garbage hg out0 hout (by omega) (by omega) (by omega) dst
    hdl hdb (h2cProcess 1 64 bls12381P toFp O (g1Suite Fp) one point)
    (fun bytes => if h : bytes.length = 128 then (hpost bytes h).choose else 0)
    (by intro bytes h; simp only [dif_pos h]; exact (hpost bytes h).choose_spec.1) ops pieces hm hb hl
  refine ⟨a, a', _, e, e', ?_⟩
  have hlen : (expandMessageXmd Sha.sha256 32 64 pieces.flatten dst 128).length = 128 := length_expand _ _ _
  simp only [dif_pos hlen]
  exact (hpost _ hlen).choose_spec.2
end

/-- The factors that clear the cofactor are those of the BLS12-381 family with parameter `z = -0xd201000000010000`:
`1 - z` for G1; `3 (z² - 1)` times the order of the cofactor group for G2. -/
theorem C60_effective_cofactors : let z : Int := -0xd201000000010000
    ((g1Suite Fp).hEff : Int) = 1 - z ∧
    9 * ((g2Suite im2).hEff : Int) =
      (z ^ 8 - 4 * z ^ 7 + 5 * z ^ 6 - 4 * z ^ 4 + 6 * z ^ 3 - 4 * z ^ 2 - 4 * z + 13) * (3 * (z ^ 2 - 1)) ∧
    3 * (bls12381P : Int) = (z - 1) ^ 2 * (z ^ 4 - z ^ 2 + 1) + 3 * z := by
  refine ⟨?_, ?_, ?_⟩ <;> simp only [g1Suite, g2Suite, bls12381P] <;> norm_num

/-- The generator of G1 is on the curve. -/
theorem g1_one_on_curve : OnCurve (0 : Fp) 4
    (((0x17F1D3A73197D7942695638C4FA9AC0FC3688C4F9774B905A14E3A3F171BAC586C55E83FF97A1AEFFB3AF00ADB22C6BB : Nat) : Fp),
     ((0x08B3F481E3AAA0F1A09E30ED741D8AE4FCF5E095D5D00AF600DB18CB2C04B3EDD03CC744A2888AE40CAA232946C5E7E1 : Nat) : Fp)) := by
  unfold OnCurve
  have : (4 : Fp) = ((4 : Nat) : Fp) := by norm_num
  simp only [zero_mul, add_zero]
  rw [this, ← Nat.cast_pow, ← Nat.cast_pow, ← Nat.cast_add]
  exact cast_eq_of_mod fp_char (by decide +kernel)

example (u : Fp2) := C41_g2 (classicalOps (fun y : Fp2 => sgn0Fp2 y)) (classicalOps_correct _) rfl u

example (one u : Fp2 × Fp2) := C59_g2 (classicalOps (fun y : Fp2 => sgn0Fp2 y)) (classicalOps_correct _) rfl one u.1

/-- The point that `map_to_curve_simple_swu` returns for `u` meets the hypothesis of the isogeny map. -/
example (one : Fp2 × Fp2) (u : Fp2) := C42_g2 fp2_char im2 im2_sq one
  (sswu (classicalOps (fun y : Fp2 => sgn0Fp2 y)) (g2Suite im2).A (g2Suite im2).B (g2Suite im2).Z u)
  (C41_on_curve _ (classicalOps_correct _) g2_admissible u)

example {G : Type} [AddCommGroup G] (point : Fp2 × Fp2 → G) :=
  C60_g2 spliceInjector (List.replicate 256 true) List.length_replicate (List.replicate 64 9)
    List.length_replicate point (classicalOps (fun y : Fp2 => sgn0Fp2 y)) (classicalOps_correct _) rfl (0, 0)
    (computes16_cipherOf Sha.sha256fns.run) (fun _ => List.replicate 512 true) (fun _ => List.length_replicate)
    (List.replicate 256 7) List.length_replicate quuxDst (by decide) (by decide)
    [.update (wordElem bigOctetBigBit 8) .container (List.replicate 64 9) [0x61],
      .update (wordElem bigOctetBigBit 16) .singlePass (List.replicate 32 9) [0x6263]]
    [[0x61], [0x62, 0x63]]
    (.cons ⟨⟨by decide, by decide, by decide⟩, by decide⟩
      (.cons ⟨⟨by decide, by decide, by decide⟩, by decide⟩ .nil)) (by decide) (by decide)

example {G : Type} [AddCommGroup G] (point : Fp × Fp → G) :=
  C60_g1_partial spliceInjector (List.replicate 256 true) List.length_replicate (List.replicate 64 9)
    List.length_replicate point (classicalOps sgn0Fp) (classicalOps_correct _) rfl _ g1_one_on_curve
    (computes16_cipherOf Sha.sha256fns.run) (fun _ => List.replicate 512 true) (fun _ => List.length_replicate)
    (List.replicate 128 7) List.length_replicate quuxDst (by decide) (by decide)
    [.update (wordElem bigOctetBigBit 8) .container (List.replicate 64 9) [0x61],
      .update (wordElem bigOctetBigBit 16) .singlePass (List.replicate 32 9) [0x6263]]
    [[0x61], [0x62, 0x63]]
    (.cons ⟨⟨by decide, by decide, by decide⟩, by decide⟩
      (.cons ⟨⟨by decide, by decide, by decide⟩, by decide⟩ .nil)) (by decide) (by decide)

end Verif.Props
