import Verif.Model.H2C
import Verif.Spec.H2C
import Mathlib.NumberTheory.LegendreSymbol.QuadraticChar.Basic
import Mathlib.Tactic.LinearCombination
import Mathlib.Tactic.FieldSimp
/-
C41, C42 over an arbitrary field: the simplified SWU map and the evaluation of isogeny maps.
-/
namespace Verif.Props
open Verif Verif.Spec.H2C

section
variable {F : Type} [Field F] [DecidableEq F]

/-- Contract of `is_square` and `sqrt` of the algebra library. -/
structure FieldOps.Correct (O : FieldOps F) : Prop where
  isSquare_iff : ∀ a, O.isSquare a = true ↔ IsSquare a
  sqrt_sq : ∀ a, IsSquare a → O.sqrt a * O.sqrt a = a

/-- What is used of the sign: negation flips it on non-zero elements. -/
def SignFlips (sgn : F → Bool) : Prop := ∀ y, y ≠ 0 → sgn (-y) = !sgn y

/-- Conditions of RFC 9380 section 6.6.2 on the constants that the argument needs. -/
structure SwuAdmissible (A B Z : F) : Prop where
  hA : A ≠ 0
  hB : B ≠ 0
  hZ : ¬ IsSquare Z
  hg : IsSquare ((B / (Z * A)) ^ 3 + A * (B / (Z * A)) + B)

theorem SwuAdmissible.hZ0 {A B Z : F} (h : SwuAdmissible A B Z) : Z ≠ 0 := by
  rintro rfl; exact h.hZ ⟨0, by simp⟩

theorem nonsquare_mul [Fintype F] {a b : F} (ha : ¬ IsSquare a) (hb : ¬ IsSquare b) : IsSquare (a * b) := by
  have ha0 : a ≠ 0 := by rintro rfl; exact ha ⟨0, by simp⟩
  have hb0 : b ≠ 0 := by rintro rfl; exact hb ⟨0, by simp⟩
  have h2 : ringChar F ≠ 2 := by
    intro h
    exact ha (FiniteField.isSquare_of_char_two h a)
  have h := map_mul (quadraticChar F) a b
  rw [quadraticChar_neg_one_iff_not_isSquare.mpr ha, quadraticChar_neg_one_iff_not_isSquare.mpr hb] at h
  exact (quadraticChar_one_iff_isSquare (mul_ne_zero ha0 hb0)).mp (by rw [h]; norm_num)

/-- The identity behind the map: `g(x2) = (Z u²)³ g(x1)`. -/
theorem sswu_identity {A B Z u : F} (hA : A ≠ 0) (ht : Z ^ 2 * u ^ 4 + Z * u ^ 2 ≠ 0) :
    let x1 := (-B / A) * (1 + (Z ^ 2 * u ^ 4 + Z * u ^ 2)⁻¹)
    let x2 := Z * u ^ 2 * x1
    x2 ^ 3 + A * x2 + B = (Z * u ^ 2) ^ 3 * (x1 ^ 3 + A * x1 + B) := by
  intro x1 x2
  have e : x1 * A * (Z ^ 2 * u ^ 4 + Z * u ^ 2) = -B * (Z ^ 2 * u ^ 4 + Z * u ^ 2 + 1) := by
    simp only [x1]
    have hi := mul_inv_cancel₀ ht
    have ha := div_mul_cancel₀ (-B) hA
    linear_combination (1 + (Z ^ 2 * u ^ 4 + Z * u ^ 2)⁻¹) * (Z ^ 2 * u ^ 4 + Z * u ^ 2) * ha - B * hi
  have h2 : x2 = Z * u ^ 2 * x1 := rfl
  clear_value x1
  rw [h2]
  linear_combination (1 - Z * u ^ 2) * e

theorem sswu_square (O : FieldOps F) (A B Z u : F) (h : O.isSquare (sswuG A B (sswuX1 A B Z u)) = true) :
    sswu O A B Z u = (sswuX1 A B Z u,
      if O.sgn0 u != O.sgn0 (O.sqrt (sswuG A B (sswuX1 A B Z u))) then -O.sqrt (sswuG A B (sswuX1 A B Z u))
      else O.sqrt (sswuG A B (sswuX1 A B Z u))) := by
  simp only [sswu, h, if_true]

theorem sswu_nonsquare (O : FieldOps F) (A B Z u : F) (h : ¬ O.isSquare (sswuG A B (sswuX1 A B Z u)) = true) :
    sswu O A B Z u = (Z * u ^ 2 * sswuX1 A B Z u,
      if O.sgn0 u != O.sgn0 (O.sqrt (sswuG A B (Z * u ^ 2 * sswuX1 A B Z u))) then
        -O.sqrt (sswuG A B (Z * u ^ 2 * sswuX1 A B Z u))
      else O.sqrt (sswuG A B (Z * u ^ 2 * sswuX1 A B Z u))) := by
  simp only [sswu, if_neg h]

/-- C41, curve equation: the simplified SWU map lands on the curve for every `u`. -/
theorem C41_on_curve [Fintype F] (O : FieldOps F) (hO : FieldOps.Correct O) {A B Z : F} (h : SwuAdmissible A B Z)
    (u : F) : OnCurve A B (sswu O A B Z u) := by
  have key : ∀ x y : F, y ^ 2 = x ^ 3 + A * x + B →
      OnCurve A B (x, if O.sgn0 u != O.sgn0 y then -y else y) := by
    intro x y e
    unfold OnCurve
    simp only
    split
    · rw [neg_sq]; exact e
    · exact e
  by_cases hsq : O.isSquare (sswuG A B (sswuX1 A B Z u)) = true
  · rw [sswu_square O A B Z u hsq]
    apply key
    rw [sq]; exact hO.sqrt_sq _ ((hO.isSquare_iff _).mp hsq)
  · rw [sswu_nonsquare O A B Z u hsq]
    apply key
    rw [sq]; apply hO.sqrt_sq
    have hns : ¬ IsSquare (sswuG A B (sswuX1 A B Z u)) := fun hh => hsq ((hO.isSquare_iff _).mpr hh)
    by_cases ht : Z ^ 2 * u ^ 4 + Z * u ^ 2 = 0
    · exfalso
      apply hns
      unfold sswuG sswuX1
      simp only [ht, inv_zero, if_true]
      exact h.hg
    · have hx : sswuX1 A B Z u = (-B / A) * (1 + (Z ^ 2 * u ^ 4 + Z * u ^ 2)⁻¹) := by
        unfold sswuX1
        simp only
        rw [if_neg (inv_ne_zero ht)]
      have hid := sswu_identity (B := B) h.hA ht
      simp only at hid
      rw [← hx] at hid
      unfold sswuG at hns ⊢
      rw [hid]
      have hu : u ≠ 0 := by rintro rfl; apply ht; ring
      have hz3 : ¬ IsSquare ((Z * u ^ 2) ^ 3) := by
        rintro ⟨r, hr⟩
        apply h.hZ
        refine ⟨r / (Z * u ^ 3), ?_⟩
        have := h.hZ0
        field_simp
        linear_combination hr
      exact nonsquare_mul hz3 hns

/-- C41, sign: unless `y = 0`, the sign of `y` is the sign of `u`. -/
theorem C41_sign (O : FieldOps F) (hs : SignFlips O.sgn0) (A B Z u : F) (hy : (sswu O A B Z u).2 ≠ 0) :
    O.sgn0 (sswu O A B Z u).2 = O.sgn0 u := by
  have key : ∀ y : F, (if O.sgn0 u != O.sgn0 y then -y else y) ≠ 0 →
      O.sgn0 (if O.sgn0 u != O.sgn0 y then -y else y) = O.sgn0 u := by
    intro y
    by_cases h : O.sgn0 u = O.sgn0 y
    · simp [h]
    · have h' : (O.sgn0 u != O.sgn0 y) = true := by simpa using h
      rw [if_pos h']
      intro hne
      rw [hs y (by intro h0; apply hne; rw [h0, neg_zero])]
      cases hu : O.sgn0 u <;> cases hv : O.sgn0 y <;> simp_all
  exact key _ hy

/-- C41, the steps of RFC 9380 section 6.6.2: when the curve has no point with `y = 0`, the output is the one
the specification describes. -/
theorem C41_rfc [Fintype F] (O : FieldOps F) (hO : FieldOps.Correct O) (hs : SignFlips O.sgn0) {A B Z : F}
    (h : SwuAdmissible A B Z) (hroot : ∀ x : F, x ^ 3 + A * x + B ≠ 0) (u : F) :
    SimpleSwu (fun x => (O.sgn0 x).toNat) A B Z u (sswu O A B Z u) := by
  have hc := C41_on_curve O hO h u
  have hy : (sswu O A B Z u).2 ≠ 0 := by
    intro h0
    unfold OnCurve at hc
    rw [h0] at hc
    exact hroot _ (by rw [← hc]; ring)
  refine ⟨⟨sswuX1 A B Z u, ?_, ?_, ?_, ?_, hc⟩, ?_⟩
  · intro ht
    unfold sswuX1
    simp only
    rw [if_neg (inv_ne_zero ht), one_div]
  · intro ht
    unfold sswuX1
    simp only [ht, inv_zero, if_true]
  · intro hsq
    rw [sswu_square O A B Z u ((hO.isSquare_iff _).mpr hsq)]
  · intro hsq
    rw [sswu_nonsquare O A B Z u (fun hh => hsq ((hO.isSquare_iff _).mp hh))]
  · simp only [C41_sign O hs A B Z u hy]

/-- The specification determines the point: two outputs for the same input agree. -/
theorem C41_rfc_unique {sgn : F → Nat} (hflip : ∀ y : F, y ≠ 0 → sgn (-y) ≠ sgn y) {A B Z u : F} {P Q : F × F}
    (hP : SimpleSwu sgn A B Z u P) (hQ : SimpleSwu sgn A B Z u Q) : P = Q := by
  obtain ⟨⟨x, p1, p2, p3, p4, p5⟩, ps⟩ := hP
  obtain ⟨⟨x', q1, q2, q3, q4, q5⟩, qs⟩ := hQ
  have hx : x = x' := by
    by_cases ht : Z ^ 2 * u ^ 4 + Z * u ^ 2 = 0
    · rw [p2 ht, q2 ht]
    · rw [p1 ht, q1 ht]
  subst hx
  have h1 : P.1 = Q.1 := by
    by_cases hsq : IsSquare (x ^ 3 + A * x + B)
    · rw [p3 hsq, q3 hsq]
    · rw [p4 hsq, q4 hsq]
  have h2 : P.2 = Q.2 := by
    have : P.2 ^ 2 = Q.2 ^ 2 := by rw [p5, q5, h1]
    rcases sq_eq_sq_iff_eq_or_eq_neg.mp this with h | h
    · exact h
    · by_cases h0 : Q.2 = 0
      · rw [h, h0, neg_zero]
      · exact absurd (by rw [← h, ps, qs]) (hflip Q.2 h0)
  exact Prod.ext h1 h2

/-! ### Evaluation of the isogeny maps -/

theorem getLastD_concat {α : Type} (l : List α) (a d : α) : (l ++ [a]).getLastD d = a := by
  simp [List.getLastD_eq_getLast?]

theorem xiPowers_eq (x : F) : ∀ n, xiPowers x n = (List.range (n + 1)).map (fun i => x ^ i)
  | 0 => by simp [xiPowers]
  | n + 1 => by
    rw [xiPowers, xiPowers_eq x n, List.range_succ (n := n + 1), List.map_append]
    congr 1
    rw [List.range_succ, List.map_append, List.map_singleton, getLastD_concat, List.map_singleton, pow_succ]

theorem xiPowers_get (x : F) (n i : Nat) (h : i ≤ n) : (xiPowers x n)[i]? = some (x ^ i) := by
  rw [xiPowers_eq, List.getElem?_map, List.getElem?_range (by omega)]
  rfl

theorem polyLoop_eq (x : F) (n : Nat) : ∀ (cs : List F) (i : Nat) (acc : F), i + cs.length ≤ n + 1 →
    polyLoop (xiPowers x n) cs i acc = .ok (acc + (cs.mapIdx fun j c => c * x ^ (j + i)).sum) := by
  intro cs
  induction cs with
  | nil => intro i acc _; simp [polyLoop]
  | cons c cs ih =>
    intro i acc h
    simp only [List.length_cons] at h
    rw [polyLoop, xiPowers_get x n i (by omega)]
    simp only
    rw [ih (i + 1) _ (by omega)]
    congr 1
    rw [List.mapIdx_cons, List.sum_cons, zero_add, ← add_assoc]
    simp only [Nat.add_comm, Nat.add_left_comm, Nat.add_assoc]

theorem polyLoop_poly (x : F) (n : Nat) (cs : List F) (h : cs.length ≤ n + 1) :
    polyLoop (xiPowers x n) cs 0 0 = .ok (poly cs x) := by
  rw [polyLoop_eq x n cs 0 0 (by omega)]
  simp [poly]

theorem monicLoop_poly (x : F) (n : Nat) (cs : List F) (h : cs.length ≤ n) :
    monicLoop (xiPowers x n) cs = .ok (poly cs x + x ^ cs.length) := by
  unfold monicLoop
  rw [polyLoop_poly x n cs (by omega)]
  simp only [bind, Except.bind]
  rw [xiPowers_get x n _ h]
  rfl

/-- The map reads only inside its table of powers and computes the rational map of the specification, except that
where a denominator vanishes it returns the fixed point `one`. -/
theorem C42_evaluation (one : F × F) (n : Nat) (xNum xDen yNum yDen : List F)
    (h1 : xNum.length ≤ n + 1) (h2 : xDen.length ≤ n) (h3 : yNum.length ≤ n + 1) (h4 : yDen.length ≤ n) (P : F × F) :
    Verif.isoMap one n xNum xDen yNum yDen P =
      .ok ((Spec.H2C.isoMap xNum xDen yNum yDen P).getD one) := by
  unfold Verif.isoMap Spec.H2C.isoMap
  simp only [monicLoop_poly _ n _ h2, monicLoop_poly _ n _ h4, polyLoop_poly _ n _ h1, polyLoop_poly _ n _ h3, bind,
    Except.bind, pure, Except.pure]
  split <;> rfl

end

/-! ### Examples -/

instance fact13 : Fact (Nat.Prime 13) := ⟨by decide⟩

/-- A computable instance over `ZMod 13`. -/
def ops13 : FieldOps (ZMod 13) where
  isSquare a := decide (∃ r : ZMod 13, a = r * r)
  sqrt a := ((List.range 13).map fun (n : Nat) => (n : ZMod 13)).find? (fun r => decide (r * r = a)) |>.getD 0
  sgn0 := sgn0Fp

theorem ops13_correct : FieldOps.Correct ops13 := by
  constructor
  · intro a; simp [ops13, IsSquare]
  · intro a h
    obtain ⟨r, rfl⟩ := h
    revert r; decide +kernel

theorem ops13_flips : SignFlips ops13.sgn0 := by
  unfold SignFlips; decide +kernel

theorem swuAdmissible13 : SwuAdmissible (1 : ZMod 13) 6 2 := by
  refine ⟨by decide, by decide, ?_, ?_⟩
  · rintro ⟨r, hr⟩; revert r; decide
  · exact ⟨((List.range 13).map fun (n : Nat) => (n : ZMod 13)).find?
      (fun r => decide (r * r = (6 / (2 * 1)) ^ 3 + 1 * (6 / (2 * 1)) + 6)) |>.getD 0, by decide +kernel⟩

example : ∀ x : ZMod 13, x ^ 3 + 1 * x + 6 ≠ 0 := by decide

/-- Ordinary inputs, one for each branch, and the exceptional input `0`. -/
example : sswu ops13 1 6 2 3 = (12, 11) ∧ sswu ops13 1 6 2 4 = (4, 10) ∧ sswu ops13 1 6 2 0 = (3, 6) := by
  decide +kernel

example : ops13.sgn0 (sswu ops13 1 6 2 4).2 = ops13.sgn0 4 :=
  C41_sign ops13 ops13_flips 1 6 2 4 (by decide +kernel)

/-- The result for `u = 3` in the terms of RFC 9380; no other point meets them. -/
example (P : ZMod 13 × ZMod 13) (h : SimpleSwu (fun x => (ops13.sgn0 x).toNat) 1 6 2 3 P) : P = (12, 11) :=
  C41_rfc_unique (sgn := fun x : ZMod 13 => (ops13.sgn0 x).toNat) (by decide +kernel) h (by
    have := C41_rfc ops13 ops13_correct ops13_flips swuAdmissible13 (by decide) 3
    rwa [show sswu ops13 1 6 2 3 = (12, 11) by decide +kernel] at this)

/-- A map with the denominators `x - 3` and `x + 1`: the degrees fit the buffers of the code. -/
example (P : ℚ × ℚ) : Verif.isoMap (0, 1) 2 [0, 0, 1] [-3] [1, 1] [1] P =
    .ok ((Spec.H2C.isoMap [0, 0, 1] [-3] [1, 1] [1] P).getD (0, 1)) :=
  C42_evaluation _ _ _ _ _ _ (by decide) (by decide) (by decide) (by decide) P

end Verif.Props
