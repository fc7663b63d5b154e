import Verif.Proof.CurveGroup
import Mathlib.GroupTheory.OrderOfElement
import Mathlib.GroupTheory.QuotientGroup.Basic
import Mathlib.GroupTheory.Coset.Card
/-
The exponent of a finite abelian group whose order is divisible by the square of a prime; the automorphism
`(x, y) ↦ (βx, y)` of `y² = x³ + b`.
-/
namespace Verif.Curve
open Verif Verif.Props WeierstrassCurve

section
variable {A : Type} [AddCommGroup A]

/-- If `R` generates a subgroup of order `n` and `n` is coprime to the index, every element killed by `n` is in it. -/
theorem mem_zmultiples_of_nsmul {n m : ℕ} {R x : A} (hcard : Nat.card A = n * m) (hm : 0 < n * m) (hR : addOrderOf R = n)
    (hco : Nat.Coprime n m) (hx : n • x = 0) : x ∈ AddSubgroup.zmultiples R := by
  rw [← QuotientAddGroup.eq_zero_iff]
  have hq : Nat.card (A ⧸ AddSubgroup.zmultiples R) = m := by
    have := AddSubgroup.card_eq_card_quotient_mul_card_addSubgroup (AddSubgroup.zmultiples R)
    rw [hcard, Nat.card_zmultiples, hR, Nat.mul_comm n m] at this
    exact (Nat.eq_of_mul_eq_mul_right (Nat.pos_of_mul_pos_right hm) this).symm
  have h1 : n • (x : A ⧸ AddSubgroup.zmultiples R) = 0 := by
    rw [← QuotientAddGroup.mk_nsmul, hx]; rfl
  have h2 : m • (x : A ⧸ AddSubgroup.zmultiples R) = 0 := by
    rw [← hq]; exact card_nsmul_eq_zero'
  have hd := Nat.dvd_gcd (addOrderOf_dvd_iff_nsmul_eq_zero.2 h1) (addOrderOf_dvd_iff_nsmul_eq_zero.2 h2)
  rw [hco.gcd_eq_one, Nat.dvd_one] at hd
  exact AddMonoid.addOrderOf_eq_one_iff.1 hd

/-- Two independent elements of order `l` in a group of order `l² m`: it has no element of order `l²`. -/
theorem nsmul_eq_zero_of_independent {l m : ℕ} (hl : l.Prime) (hcard : Nat.card A = l ^ 2 * m) (hm : 0 < m) (hlm : ¬ l ∣ m)
    {Q Q' : A} (hQ : l • Q = 0) (hQ0 : Q ≠ 0) (hQ' : l • Q' = 0) (hind : ∀ k : ℕ, Q' ≠ k • Q) (P : A) :
    (l * m) • P = 0 := by
  by_contra hne
  have hR : addOrderOf (m • P) = l ^ 2 := by
    have : Fact l.Prime := ⟨hl⟩
    refine addOrderOf_eq_prime_pow (n := 1) ?_ ?_
    · rw [pow_one, ← mul_nsmul']; exact hne
    · rw [← mul_nsmul', ← hcard]; exact card_nsmul_eq_zero'
  have hco : Nat.Coprime (l ^ 2) m := Nat.Coprime.pow_left _ ((Nat.Prime.coprime_iff_not_dvd hl).2 hlm)
  have hpos : 0 < l ^ 2 * m := Nat.mul_pos (Nat.pow_pos hl.pos) hm
  generalize m • P = R at hR
  have hlR : l • (l • R) = 0 := by rw [← mul_nsmul', ← pow_two, ← hR, addOrderOf_nsmul_eq_zero]
  have key : ∀ X : A, l • X = 0 → ∃ c : ℤ, X = c • (l • R) := by
    intro X hX
    have h2 : l ^ 2 • X = 0 := by rw [pow_two, mul_nsmul', hX, nsmul_zero]
    obtain ⟨a, ha⟩ := AddSubgroup.mem_zmultiples_iff.1 (mem_zmultiples_of_nsmul hcard hpos hR hco h2)
    have hd : ((l ^ 2 : ℕ) : ℤ) ∣ l * a := by
      rw [← hR, addOrderOf_dvd_iff_zsmul_eq_zero, mul_comm, mul_zsmul, zsmul_comm, ha, natCast_zsmul]; exact hX
    rw [Nat.cast_pow, pow_two] at hd
    obtain ⟨c, hc⟩ := Int.dvd_of_mul_dvd_mul_left (by exact_mod_cast hl.ne_zero) hd
    refine ⟨c, ?_⟩
    rw [← ha, hc, ← natCast_zsmul R l, ← mul_zsmul, mul_comm]
  obtain ⟨c, hc⟩ := key Q hQ
  obtain ⟨c', hc'⟩ := key Q' hQ'
  have hlc : ¬ (l : ℤ) ∣ c := by
    rintro ⟨e, rfl⟩
    apply hQ0
    rw [hc, mul_comm, mul_zsmul, natCast_zsmul, hlR, zsmul_zero]
  have hcop : IsCoprime (l : ℤ) c := (Prime.coprime_iff_not_dvd (Nat.prime_iff_prime_int.1 hl)).2 hlc
  obtain ⟨u, v, huv⟩ := hcop
  -- `v c ≡ 1`, so `(c' v) Q = Q'`
  have hz : Q' = (c' * v) • Q := by
    rw [hc, ← mul_zsmul, hc', show c' * v * c = c' - c' * u * l by linear_combination c' * huv, sub_zsmul, mul_zsmul _ _ (l : ℤ),
      natCast_zsmul, hlR, zsmul_zero, neg_zero, add_zero]
  have hl0 : (l : ℤ) ≠ 0 := by exact_mod_cast hl.ne_zero
  have hmod : Q' = ((c' * v % l).toNat) • Q := by
    rw [← natCast_zsmul, Int.toNat_of_nonneg (Int.emod_nonneg _ hl0), hz]
    conv_lhs => rw [← Int.emod_add_mul_ediv (c' * v) l]
    rw [add_zsmul, mul_comm (l : ℤ), mul_zsmul, natCast_zsmul, hQ, zsmul_zero, add_zero]
  exact hind _ hmod
end

/-! ### The automorphism of order three -/

section
variable {F : Type} [Field F] [DecidableEq F] {b β : F}

theorem phi_nonsingular (h2 : (2 : F) ≠ 0) (h3 : (3 : F) ≠ 0) (hb : b ≠ 0) (hβ : β ^ 3 = 1) {x y : F}
    (h : (shortCurve b).Nonsingular x y) : (shortCurve b).Nonsingular (β * x) y := by
  refine shortCurve_nonsingular h2 h3 hb (β * x, y) ?_
  have := (Affine.equation_iff ..).1 h.1
  simp only [shortCurve] at this
  unfold Verif.Spec.H2C.OnCurve
  simp only
  linear_combination this - x ^ 3 * hβ

/-- `(x, y) ↦ (βx, y)`. -/
def phi (h2 : (2 : F) ≠ 0) (h3 : (3 : F) ≠ 0) (hb : b ≠ 0) (hβ : β ^ 3 = 1) : (shortCurve b).Point → (shortCurve b).Point
  | .zero => .zero
  | .some _ _ h => .some _ _ (phi_nonsingular h2 h3 hb hβ h)

theorem phi_add (h2 : (2 : F) ≠ 0) (h3 : (3 : F) ≠ 0) (hb : b ≠ 0) (hβ : β ^ 3 = 1) (P Q : (shortCurve b).Point) :
    phi h2 h3 hb hβ (P + Q) = phi h2 h3 hb hβ P + phi h2 h3 hb hβ Q := by
  have hβ0 : β ≠ 0 := by rintro rfl; simp at hβ
  rcases P with _ | ⟨x₁, y₁, h₁⟩
  · exact (congrArg _ (zero_add Q)).trans (zero_add _).symm
  rcases Q with _ | ⟨x₂, y₂, h₂⟩
  · exact (congrArg _ (add_zero _)).trans (add_zero _).symm
  have hneg : ∀ x y : F, (shortCurve b).negY x y = -y := by intro x y; simp [Affine.negY, shortCurve]
  have hax : ∀ x y l : F, (shortCurve b).addX x y l = l ^ 2 - x - y := by intro x y l; simp [Affine.addX, shortCurve]
  by_cases hxy : x₁ = x₂ ∧ y₁ = (shortCurve b).negY x₂ y₂
  · rw [Affine.Point.add_of_Y_eq hxy.1 hxy.2]
    simp only [phi]
    rw [Affine.Point.add_of_Y_eq (by rw [hxy.1]) (by rw [hneg]; rw [hneg] at hxy; exact hxy.2)]
    rfl
  · have hxy' : ¬ (β * x₁ = β * x₂ ∧ y₁ = (shortCurve b).negY (β * x₂) y₂) := by
      rintro ⟨e, f⟩
      exact hxy ⟨mul_left_cancel₀ hβ0 e, by rw [hneg] at f ⊢; exact f⟩
    rw [Affine.Point.add_some hxy]
    simp only [phi]
    rw [Affine.Point.add_some hxy']
    have hsl : (shortCurve b).slope (β * x₁) (β * x₂) y₁ y₂ = β ^ 2 * (shortCurve b).slope x₁ x₂ y₁ y₂ := by
      by_cases hx : x₁ = x₂
      · have hy : y₁ ≠ (shortCurve b).negY x₂ y₂ := fun e => hxy ⟨hx, e⟩
        have hy' : y₁ ≠ (shortCurve b).negY (β * x₂) y₂ := by rw [hneg] at hy ⊢; exact hy
        rw [Affine.slope_of_Y_ne hx hy, Affine.slope_of_Y_ne (by rw [hx]) hy', hneg, hneg]
        simp only [shortCurve]
        rw [mul_div_assoc']
        congr 1
        ring
      · have hx' : β * x₁ ≠ β * x₂ := fun e => hx (mul_left_cancel₀ hβ0 e)
        rw [Affine.slope_of_X_ne hx, Affine.slope_of_X_ne hx', ← mul_sub, mul_div_assoc']
        have : x₁ - x₂ ≠ 0 := sub_ne_zero.2 hx
        rw [div_eq_div_iff (mul_ne_zero hβ0 this) this]
        linear_combination -(y₁ - y₂) * (x₁ - x₂) * hβ
    have hX : β * (shortCurve b).addX x₁ x₂ ((shortCurve b).slope x₁ x₂ y₁ y₂) =
        (shortCurve b).addX (β * x₁) (β * x₂) ((shortCurve b).slope (β * x₁) (β * x₂) y₁ y₂) := by
      rw [hsl]
      rw [hax, hax]
      linear_combination -(shortCurve b).slope x₁ x₂ y₁ y₂ ^ 2 * β * hβ
    have hY : (shortCurve b).addY x₁ x₂ y₁ ((shortCurve b).slope x₁ x₂ y₁ y₂) =
        (shortCurve b).addY (β * x₁) (β * x₂) y₁ ((shortCurve b).slope (β * x₁) (β * x₂) y₁ y₂) := by
      simp only [Affine.addY, Affine.negAddY]
      rw [hneg, hneg, ← hX, hsl]
      linear_combination (shortCurve b).slope x₁ x₂ y₁ y₂ *
        ((shortCurve b).addX x₁ x₂ ((shortCurve b).slope x₁ x₂ y₁ y₂) - x₁) * hβ
    congr 1

/-- The automorphism as a homomorphism. -/
def phiHom (h2 : (2 : F) ≠ 0) (h3 : (3 : F) ≠ 0) (hb : b ≠ 0) (hβ : β ^ 3 = 1) : (shortCurve b).Point →+ (shortCurve b).Point where
  toFun := phi h2 h3 hb hβ
  map_zero' := rfl
  map_add' := phi_add h2 h3 hb hβ

/-- `P + φ P + φ² P = 0`. -/
theorem phi_sum (h2 : (2 : F) ≠ 0) (h3 : (3 : F) ≠ 0) (hb : b ≠ 0) (hβ : β ^ 2 + β + 1 = 0) (hβ3 : β ^ 3 = 1) {x y : F} (hx : x ≠ 0)
    (h : (shortCurve b).Nonsingular x y) :
    Affine.Point.some x y h + phiHom h2 h3 hb hβ3 (.some x y h) + phiHom h2 h3 hb hβ3 (phiHom h2 h3 hb hβ3 (.some x y h)) = 0 := by
  have hβ1 : β ≠ 1 := by
    rintro rfl
    apply h3
    linear_combination hβ
  have hxx : x ≠ β * x := by
    intro e
    have : (1 - β) * x = 0 := by linear_combination e
    rcases mul_eq_zero.1 this with h | h
    · exact hβ1 (by linear_combination -h)
    · exact hx h
  have hneg : ∀ x y : F, (shortCurve b).negY x y = -y := by intro x y; simp [Affine.negY, shortCurve]
  have hax : ∀ x y l : F, (shortCurve b).addX x y l = l ^ 2 - x - y := by intro x y l; simp [Affine.addX, shortCurve]
  have hsl : (shortCurve b).slope x (β * x) y y = 0 := by
    rw [Affine.slope_of_X_ne hxx, sub_self, zero_div]
  change Affine.Point.some x y h + .some (β * x) y _ + .some (β * (β * x)) y _ = 0
  rw [Affine.Point.add_of_X_ne hxx]
  refine Affine.Point.add_of_Y_eq ?_ ?_
  · rw [hax, hsl]
    linear_combination -x * hβ
  · simp only [Affine.addY, Affine.negAddY, hneg, hsl]
    ring

end

end Verif.Curve
