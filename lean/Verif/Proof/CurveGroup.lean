import Verif.Proof.Eisenstein
import Verif.Props.H2CCurve
/-
The group of `y² = x³ + b`: number of points, computation with coordinates.
-/
namespace Verif.Curve
open Verif Verif.Props Verif.Spec.H2C WeierstrassCurve

section
variable {F : Type} [Field F] [Fintype F] [DecidableEq F]

/-- The points are the solutions of the equation and the point at infinity. -/
theorem card_point {b : F} (h2 : (2 : F) ≠ 0) (h3 : (3 : F) ≠ 0) (hb : b ≠ 0) :
    Nat.card (shortCurve b).Point = (affinePoints b).card + 1 := by
  have hns : ∀ x y : F, (shortCurve b).Nonsingular x y ↔ (x, y) ∈ affinePoints b := by
    intro x y
    simp only [affinePoints, Finset.mem_filter, Finset.mem_univ, true_and]
    constructor
    · intro h
      have := (Affine.equation_iff ..).1 h.1
      simp only [shortCurve] at this
      linear_combination this
    · intro h
      refine shortCurve_nonsingular h2 h3 hb (x, y) ?_
      unfold OnCurve
      simp only
      linear_combination h
  let e : (shortCurve b).Point ≃ Option (affinePoints b) :=
    { toFun := fun P => match P with
        | .zero => none
        | .some x y h => some ⟨(x, y), (hns x y).1 h⟩
      invFun := fun o => match o with
        | none => .zero
        | some P => .some P.1.1 P.1.2 ((hns _ _).2 P.2)
      left_inv := by rintro (_ | _) <;> rfl
      right_inv := by rintro (_ | _) <;> rfl }
  rw [Nat.card_congr e, Nat.card_eq_fintype_card, Fintype.card_option, Fintype.card_coe]

/-- The order of the group. -/
theorem card_point_trace {b : F} (h2 : (2 : F) ≠ 0) (h3 : (3 : F) ≠ 0) (hb : b ≠ 0) (hc : 3 ∣ Fintype.card F - 1) :
    ∃ t v : ℤ, t ^ 2 + 3 * v ^ 2 = 4 * Fintype.card F ∧
      (Nat.card (shortCurve b).Point : ℤ) = Fintype.card F + 1 - t := by
  have hr : ringChar F ≠ 2 := by
    intro h
    apply h2
    have := ringChar.Nat.cast_ringChar (R := F)
    rw [h] at this
    exact_mod_cast this
  obtain ⟨t, v, h, hc⟩ := card_affine hr hc hb
  refine ⟨t, v, h, ?_⟩
  rw [card_point h2 h3 hb]
  push_cast
  linear_combination hc
end

/-! ### Computing with coordinates -/

section
variable {K : Type} [DecidableEq K]

/-- Third point of a line of slope `l`, reflected; `m` stands for `-1`. -/
def third (C : CompOps K) (m : K) (l : K) (P Q : K × K) : K × K :=
  let x := C.add (C.mul l l) (C.mul m (C.add P.1 Q.1))
  (x, C.add (C.mul l (C.add P.1 (C.mul m x))) (C.mul m P.2))

def dblPt (C : CompOps K) (m : K) (inv : K → K) (P : K × K) : Option (K × K) :=
  let d := C.add P.2 P.2
  let i := inv d
  if C.mul i d = C.one then
    let xx := C.mul P.1 P.1
    some (third C m (C.mul (C.add xx (C.add xx xx)) i) P P)
  else none

def addPt (C : CompOps K) (m : K) (inv : K → K) (P Q : K × K) : Option (K × K) :=
  let d := C.add P.1 (C.mul m Q.1)
  let i := inv d
  if C.mul i d = C.one then some (third C m (C.mul (C.add P.2 (C.mul m Q.2)) i) P Q) else none

/-- Multiple by double and add. -/
def mulPt (C : CompOps K) (m : K) (inv : K → K) (P : K × K) : Nat → Nat → Option (K × K)
  | 0, _ => none
  | fuel + 1, k =>
    if k = 1 then some P
    else
      match mulPt C m inv P fuel (k / 2) with
      | none => none
      | some Q =>
        match dblPt C m inv Q with
        | none => none
        | some R => if k % 2 = 1 then addPt C m inv R P else some R

variable {F : Type} [Field F] [DecidableEq F] (C : CompRing K F) {b : F}

/-- The point has these coordinates. -/
def HasCoords (X : (shortCurve b).Point) (c : K × K) : Prop :=
  ∃ h : (shortCurve b).Nonsingular (C.cast c.1) (C.cast c.2), X = .some _ _ h

theorem hasCoords_ne_zero {X : (shortCurve b).Point} {c : K × K} (h : HasCoords C X c) : X ≠ 0 := by
  obtain ⟨h, rfl⟩ := h
  exact Affine.Point.some_ne_zero h

theorem dblPt_sound {m : K} (hm : C.cast m = -1) {inv : K → K} {X : (shortCurve b).Point} {c d : K × K}
    (hX : HasCoords C X c) (h : dblPt C.toCompOps m inv c = some d) : HasCoords C (X + X) d := by
  obtain ⟨hn, rfl⟩ := hX
  unfold dblPt at h
  simp only at h
  split at h
  · rename_i hi
    have hi' := congrArg C.cast hi
    rw [C.cast_mul, C.cast_add, C.cast_one] at hi'
    have h2y : C.cast c.2 + C.cast c.2 ≠ 0 := right_ne_zero_of_mul_eq_one hi'
    have hinv : C.cast (inv (C.add c.2 c.2)) = (C.cast c.2 + C.cast c.2)⁻¹ := eq_inv_of_mul_eq_one_left hi'
    have hy : C.cast c.2 ≠ (shortCurve b).negY (C.cast c.1) (C.cast c.2) := by
      intro e
      apply h2y
      simp only [Affine.negY, shortCurve] at e
      linear_combination e
    simp only [Option.some.injEq] at h
    rw [Affine.Point.add_self_of_Y_ne hy]
    have hsl : (shortCurve b).slope (C.cast c.1) (C.cast c.1) (C.cast c.2) (C.cast c.2) =
        C.cast (C.mul (C.add (C.mul c.1 c.1) (C.add (C.mul c.1 c.1) (C.mul c.1 c.1))) (inv (C.add c.2 c.2))) := by
      rw [Affine.slope_of_Y_ne rfl hy, C.cast_mul, hinv, C.cast_add, C.cast_add, C.cast_mul]
      simp only [shortCurve, Affine.negY]
      rw [div_eq_mul_inv]
      ring_nf
    have hx3 : C.cast d.1 = (shortCurve b).addX (C.cast c.1) (C.cast c.1)
        ((shortCurve b).slope (C.cast c.1) (C.cast c.1) (C.cast c.2) (C.cast c.2)) := by
      rw [hsl, ← h]
      simp only [third, Affine.addX, shortCurve, C.cast_add, C.cast_mul, hm]
      ring
    have hy3 : C.cast d.2 = (shortCurve b).addY (C.cast c.1) (C.cast c.1) (C.cast c.2)
        ((shortCurve b).slope (C.cast c.1) (C.cast c.1) (C.cast c.2) (C.cast c.2)) := by
      rw [hsl, ← h]
      simp only [third, Affine.addY, Affine.negAddY, Affine.negY, Affine.addX, shortCurve, C.cast_add, C.cast_mul, hm]
      ring
    refine ⟨?_, ?_⟩
    · rw [hx3, hy3]; exact Affine.nonsingular_add hn hn (fun e => hy e.2)
    · congr 1 <;> simp only [hx3, hy3]
  · simp at h

theorem addPt_sound {m : K} (hm : C.cast m = -1) {inv : K → K} {X Y : (shortCurve b).Point} {c e d : K × K}
    (hX : HasCoords C X c) (hY : HasCoords C Y e) (h : addPt C.toCompOps m inv c e = some d) :
    HasCoords C (X + Y) d := by
  obtain ⟨hn, rfl⟩ := hX
  obtain ⟨hn', rfl⟩ := hY
  unfold addPt at h
  simp only at h
  split at h
  · rename_i hi
    have hi' := congrArg C.cast hi
    rw [C.cast_mul, C.cast_add, C.cast_mul, C.cast_one, hm] at hi'
    have hdx := right_ne_zero_of_mul_eq_one hi'
    have hinv : C.cast (inv (C.add c.1 (C.mul m e.1))) = (C.cast c.1 + -1 * C.cast e.1)⁻¹ :=
      eq_inv_of_mul_eq_one_left hi'
    have hx : C.cast c.1 ≠ C.cast e.1 := by
      intro h
      apply hdx
      rw [h]; ring
    simp only [Option.some.injEq] at h
    rw [Affine.Point.add_of_X_ne hx]
    have hsl : (shortCurve b).slope (C.cast c.1) (C.cast e.1) (C.cast c.2) (C.cast e.2) =
        C.cast (C.mul (C.add c.2 (C.mul m e.2)) (inv (C.add c.1 (C.mul m e.1)))) := by
      rw [Affine.slope_of_X_ne hx, C.cast_mul, hinv, C.cast_add, C.cast_mul, hm, div_eq_mul_inv]
      ring_nf
    have hx3 : C.cast d.1 = (shortCurve b).addX (C.cast c.1) (C.cast e.1)
        ((shortCurve b).slope (C.cast c.1) (C.cast e.1) (C.cast c.2) (C.cast e.2)) := by
      rw [hsl, ← h]
      simp only [third, Affine.addX, shortCurve, C.cast_add, C.cast_mul, hm]
      ring
    have hy3 : C.cast d.2 = (shortCurve b).addY (C.cast c.1) (C.cast e.1) (C.cast c.2)
        ((shortCurve b).slope (C.cast c.1) (C.cast e.1) (C.cast c.2) (C.cast e.2)) := by
      rw [hsl, ← h]
      simp only [third, Affine.addY, Affine.negAddY, Affine.negY, Affine.addX, shortCurve, C.cast_add, C.cast_mul, hm]
      ring
    refine ⟨?_, ?_⟩
    · rw [hx3, hy3]; exact Affine.nonsingular_add hn hn' (fun e => hx e.1)
    · congr 1 <;> simp only [hx3, hy3]
  · simp at h

theorem mulPt_sound {m : K} (hm : C.cast m = -1) {inv : K → K} {X : (shortCurve b).Point} {c : K × K}
    (hX : HasCoords C X c) : ∀ (fuel k : Nat) (d : K × K), mulPt C.toCompOps m inv c fuel k = some d →
    HasCoords C (k • X) d := by
  intro fuel
  induction fuel with
  | zero => intro k d h; simp [mulPt] at h
  | succ fuel ih =>
    intro k d h
    simp only [mulPt] at h
    split at h
    · rename_i h1
      simp only [Option.some.injEq] at h
      rw [h1, one_nsmul, ← h]
      exact hX
    · split at h
      · simp at h
      · rename_i Q hQ
        have hk := ih _ _ hQ
        split at h
        · simp at h
        · rename_i R hR
          have hd := dblPt_sound C hm hk hR
          rw [← add_nsmul] at hd
          split at h
          · have ha := addPt_sound C hm hd hX h
            rw [← succ_nsmul] at ha
            rwa [show k / 2 + k / 2 + 1 = k by omega] at ha
          · simp only [Option.some.injEq] at h
            rw [← h]
            rwa [show k / 2 + k / 2 = k by omega] at hd

/-- A multiple that is the reflected point: the next one is zero. -/
theorem nsmul_eq_zero {m : K} (hm : C.cast m = -1) {inv : K → K} {X : (shortCurve b).Point} {c : K × K}
    (hX : HasCoords C X c) {fuel k : Nat} (h : mulPt C.toCompOps m inv c fuel k = some (c.1, C.mul m c.2)) :
    (k + 1) • X = 0 := by
  obtain ⟨hn', e⟩ := mulPt_sound C hm hX _ _ _ h
  rw [succ_nsmul, e]
  obtain ⟨hn, rfl⟩ := hX
  refine Affine.Point.add_of_Y_eq rfl ?_
  simp only [C.cast_mul, hm, Affine.negY, shortCurve]
  ring

end
end Verif.Curve
