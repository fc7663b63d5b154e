import Mathlib.NumberTheory.JacobiSum.Basic
import Mathlib.NumberTheory.LegendreSymbol.QuadraticChar.Basic
import Mathlib.Algebra.QuadraticAlgebra.Basic
import Mathlib.Tactic.LinearCombination
import Mathlib.Tactic.Ring
/-
The number of solutions of `y² = x³ + b` in a finite field with `q ≡ 1 (mod 6)` elements, by Jacobi sums:
`q - t` with `t² + 3 v² = 4 q`.
-/
namespace Verif.Curve

open scoped QuadraticAlgebra

/-- The integers `a + b ω` with `ω² = -1 - ω`. -/
abbrev Eis := QuadraticAlgebra ℤ (-1) (-1)
/-- Their field of fractions. -/
abbrev EisQ := QuadraticAlgebra ℚ (-1) (-1)

instance : Fact (∀ r : ℚ, r ^ 2 ≠ -1 + -1 * r) := ⟨by
  intro r h
  nlinarith [sq_nonneg (2 * r + 1)]⟩

/-- The inclusion. -/
def toQ : Eis →+* EisQ where
  toFun z := ⟨z.re, z.im⟩
  map_one' := by ext <;> simp
  map_zero' := by ext <;> simp
  map_mul' x y := by ext <;> simp
  map_add' x y := by ext <;> simp

theorem toQ_injective : Function.Injective toQ := by
  intro x y h
  have h1 := congrArg QuadraticAlgebra.re h
  have h2 := congrArg QuadraticAlgebra.im h
  simp only [toQ, RingHom.coe_mk, MonoidHom.coe_mk, OneHom.coe_mk] at h1 h2
  ext
  · exact_mod_cast h1
  · exact_mod_cast h2

instance : IsDomain Eis := toQ_injective.isDomain toQ

/-- The primitive cube root of unity. -/
def eisOmega : Eis := ⟨0, 1⟩

theorem eisOmega_primitive : IsPrimitiveRoot eisOmega 3 := by
  refine IsPrimitiveRoot.mk_of_lt _ (by omega) ?_ ?_
  · rfl
  · intro l h0 h3 h
    have : l = 1 ∨ l = 2 := by omega
    rcases this with rfl | rfl
    · exact absurd (congrArg QuadraticAlgebra.im h) (by decide)
    · exact absurd (congrArg QuadraticAlgebra.im h) (by decide)

section
variable {F : Type} [Field F] [Fintype F] [DecidableEq F]

/-- A cubic character sees the cubes. -/
theorem cube_of_char_one {χ : MulChar F Eis} (hχ : orderOf χ = 3) {a : F} (ha : a ≠ 0) (h : χ a = 1) :
    ∃ c : F, c ^ 3 = a := by
  obtain ⟨g, hg⟩ := IsCyclic.exists_generator (α := Fˣ)
  obtain ⟨k, hk⟩ := Subgroup.mem_zpowers_iff.1 (hg (Units.mk0 a ha))
  have hχ1 : χ ≠ 1 := by
    rintro rfl
    rw [orderOf_one] at hχ
    omega
  have hg1 : χ (g : F) ≠ 1 := by
    intro h1
    apply hχ1
    rw [MulChar.eq_iff (fun x => hg x)]
    rw [h1, MulChar.one_apply_coe]
  have hg3 : χ (g : F) ^ 3 = 1 := by
    rw [← MulChar.pow_apply_coe, ← hχ, pow_orderOf_eq_one, MulChar.one_apply_coe]
  have hk3 : (3 : ℤ) ∣ k := by
    have ho : orderOf (χ.toUnitHom g) = 3 := by
      refine orderOf_eq_prime (p := 3) ?_ ?_
      · exact Units.ext (by simpa using hg3)
      · intro e; apply hg1; simpa using congrArg Units.val e
    have : ((orderOf (χ.toUnitHom g) : ℕ) : ℤ) ∣ k := by
      refine orderOf_dvd_iff_zpow_eq_one.2 ?_
      rw [← map_zpow, hk]
      exact Units.ext (by simpa using h)
    rwa [ho] at this
  obtain ⟨m, rfl⟩ := hk3
  refine ⟨((g ^ m : Fˣ) : F), ?_⟩
  rw [← Units.val_pow_eq_pow_val, ← zpow_natCast, ← zpow_mul, mul_comm]
  have := congrArg Units.val hk
  simpa using this

/-- A root of `z² + z + 1`. -/
theorem exists_cube_root (h3 : 3 ∣ Fintype.card F - 1) : ∃ z : F, z ^ 2 + z + 1 = 0 ∧ z ≠ 1 := by
  have : Fact (Nat.Prime 3) := ⟨Nat.prime_three⟩
  obtain ⟨u, hu⟩ := exists_prime_orderOf_dvd_card (G := Fˣ) 3 (by rwa [Fintype.card_units])
  have hu3 : ((u : Fˣ) : F) ^ 3 = 1 := by
    rw [← Units.val_pow_eq_pow_val, ← hu, pow_orderOf_eq_one, Units.val_one]
  have hu1 : ((u : Fˣ) : F) ≠ 1 := by
    intro h
    have : u = 1 := Units.ext h
    rw [this, orderOf_one] at hu
    omega
  refine ⟨u, ?_, hu1⟩
  have : ((u : F) - 1) * ((u : F) ^ 2 + u + 1) = 0 := by linear_combination hu3
  exact (mul_eq_zero.1 this).resolve_left (sub_ne_zero.2 hu1)

theorem char_inv_eq_sq {χ : MulChar F Eis} (hχ : orderOf χ = 3) (a : F) : χ⁻¹ a = χ a ^ 2 := by
  have : χ⁻¹ = χ ^ 2 := by
    rw [inv_eq_iff_mul_eq_one, ← pow_succ']
    have := pow_orderOf_eq_one χ
    rw [hχ] at this
    exact this
  rw [this, MulChar.pow_apply' _ (by omega)]

/-- The number of cube roots. -/
theorem card_cube_roots (h3 : 3 ∣ Fintype.card F - 1) {χ : MulChar F Eis} (hχ : orderOf χ = 3) (a : F) :
    ((Finset.univ.filter fun x : F => x ^ 3 = a).card : Eis) = 1 + χ a + χ⁻¹ a := by
  rw [char_inv_eq_sq hχ]
  by_cases ha : a = 0
  · subst ha
    have : (Finset.univ.filter fun x : F => x ^ 3 = 0) = {0} := by
      ext x; simp
    rw [this, MulChar.map_zero]; simp
  · have hχa3 : χ a ^ 3 = 1 := by
      have : (χ ^ 3) a = 1 := by
        rw [← hχ, pow_orderOf_eq_one, MulChar.one_apply (IsUnit.mk0 a ha)]
      rwa [MulChar.pow_apply' _ (by omega)] at this
    by_cases hc : ∃ c : F, c ^ 3 = a
    · obtain ⟨c, rfl⟩ := hc
      have hc0 : c ≠ 0 := by rintro rfl; simp at ha
      obtain ⟨z, hz, hz1⟩ := exists_cube_root h3
      have hset : (Finset.univ.filter fun x : F => x ^ 3 = c ^ 3) = {c, c * z, c * z ^ 2} := by
        ext x
        simp only [Finset.mem_filter, Finset.mem_univ, true_and, Finset.mem_insert, Finset.mem_singleton]
        have hf : x ^ 3 - c ^ 3 = (x - c) * ((x - c * z) * (x - c * z ^ 2)) := by
          linear_combination (c * x ^ 2 - c ^ 2 * x * z + c ^ 3 * (z - 1)) * hz
        constructor
        · intro h
          rw [← sub_eq_zero, hf, mul_eq_zero, mul_eq_zero] at h
          simpa [sub_eq_zero] using h
        · intro h
          rw [← sub_eq_zero, hf, mul_eq_zero, mul_eq_zero]
          simpa [sub_eq_zero] using h
      have hχc : χ (c ^ 3) = 1 := by
        rw [map_pow, ← MulChar.pow_apply' _ (by omega), ← hχ, pow_orderOf_eq_one,
          MulChar.one_apply (IsUnit.mk0 c hc0)]
      have h12 : z ^ 2 ≠ z := by
        intro h
        have : z * (z - 1) = 0 := by linear_combination h
        rcases mul_eq_zero.1 this with h0 | h0
        · rw [h0] at hz; simp at hz
        · exact hz1 (sub_eq_zero.1 h0)
      have h02 : z ^ 2 ≠ 1 := by
        intro h
        have h1 : z = -2 := by linear_combination hz - h
        have h2 : (3 : F) = 0 := by rw [h1] at h; linear_combination h
        exact hz1 (by linear_combination h1 - h2)
      rw [hset, Finset.card_insert_of_notMem, Finset.card_insert_of_notMem, Finset.card_singleton, hχc]
      · norm_num
      · rw [Finset.mem_singleton]
        intro h
        exact h12 (mul_left_cancel₀ hc0 h).symm
      · simp only [Finset.mem_insert, Finset.mem_singleton, not_or]
        refine ⟨fun h => ?_, fun h => ?_⟩
        · exact hz1 (mul_left_cancel₀ hc0 ((mul_one c).trans h)).symm
        · exact h02 (mul_left_cancel₀ hc0 ((mul_one c).trans h)).symm
    · have hne : χ a ≠ 1 := fun h => hc (cube_of_char_one hχ ha h)
      have hempty : (Finset.univ.filter fun x : F => x ^ 3 = a) = ∅ := by
        ext x
        simp only [Finset.mem_filter, Finset.mem_univ, true_and, Finset.notMem_empty, iff_false]
        exact fun h => hc ⟨x, h⟩
      rw [hempty, Finset.card_empty]
      have : (χ a - 1) * (1 + χ a + χ a ^ 2) = 0 := by linear_combination hχa3
      rw [(mul_eq_zero.1 this).resolve_left (sub_ne_zero.2 hne)]
      norm_num

/-- The quadratic character with values in `ℤ[ω]`. -/
noncomputable def quad (F : Type) [Field F] [Fintype F] [DecidableEq F] : MulChar F Eis :=
  (quadraticChar F).ringHomComp (Int.castRingHom Eis)

theorem card_square_roots (h2 : ringChar F ≠ 2) (a : F) :
    ((Finset.univ.filter fun y : F => y ^ 2 = a).card : Eis) = 1 + quad F a := by
  have := quadraticChar_card_sqrts h2 a
  have e : {x : F | x ^ 2 = a}.toFinset = Finset.univ.filter fun y : F => y ^ 2 = a := by
    ext x; simp
  rw [e] at this
  have h := congrArg (Int.cast (R := Eis)) this
  rw [Int.cast_natCast] at h
  rw [h, Int.cast_add, Int.cast_one, add_comm]
  rfl

/-- The affine points of `y² = x³ + b`. -/
def affinePoints (b : F) : Finset (F × F) := Finset.univ.filter fun P => P.2 ^ 2 = P.1 ^ 3 + b

theorem card_affine_sum (b : F) : (affinePoints b).card =
    ∑ u : F, (Finset.univ.filter fun y : F => y ^ 2 = u).card * (Finset.univ.filter fun x : F => x ^ 3 = u - b).card := by
  rw [Finset.card_eq_sum_card_fiberwise (f := fun P : F × F => P.2 ^ 2) (t := Finset.univ) (fun _ _ => Finset.mem_univ _)]
  refine Finset.sum_congr rfl fun u _ => ?_
  rw [mul_comm, ← Finset.card_product]
  congr 1
  ext ⟨x, y⟩
  simp only [affinePoints, Finset.mem_filter, Finset.mem_univ, true_and, Finset.mem_product]
  constructor
  · rintro ⟨h1, h2⟩
    exact ⟨by rw [← h2, h1]; ring, h2⟩
  · rintro ⟨h1, h2⟩
    exact ⟨by rw [h1, h2]; ring, h2⟩

/-- The count by Jacobi sums. -/
theorem card_affine_jacobi (h2 : ringChar F ≠ 2) (h3 : 3 ∣ Fintype.card F - 1) {χ : MulChar F Eis} (hχ : orderOf χ = 3)
    {b : F} (hb : b ≠ 0) :
    ((affinePoints b).card : Eis) = Fintype.card F + quad F b * χ (-b) * jacobiSum (quad F) χ +
      quad F b * χ⁻¹ (-b) * jacobiSum (quad F) χ⁻¹ := by
  have hρ1 : quad F ≠ 1 := by
    unfold quad
    refine (MulChar.ringHomComp_ne_one_iff (f := Int.castRingHom Eis) ?_).2 (quadraticChar_ne_one h2)
    exact Int.cast_injective
  have hχ1 : χ ≠ 1 := by
    rintro rfl
    rw [orderOf_one] at hχ
    omega
  have hχi : χ⁻¹ ≠ 1 := by rwa [ne_eq, inv_eq_one]
  have hsub : ∀ ψ : MulChar F Eis, ψ ≠ 1 → ∑ u : F, ψ (u - b) = 0 := by
    intro ψ hψ
    rw [← MulChar.sum_eq_zero_of_ne_one hψ]
    exact (Equiv.subRight b).sum_comp (fun u => ψ u)
  have hcross : ∀ ψ : MulChar F Eis, ∑ u : F, quad F u * ψ (u - b) = quad F b * ψ (-b) * jacobiSum (quad F) ψ := by
    intro ψ
    rw [jacobiSum, Finset.mul_sum, ← Equiv.sum_comp (Equiv.mulLeft₀ b hb)]
    refine Finset.sum_congr rfl fun t _ => ?_
    simp only [Equiv.mulLeft₀_apply]
    have : b * t - b = (-b) * (1 - t) := by ring
    rw [this, map_mul, map_mul]
    ring
  rw [card_affine_sum, Nat.cast_sum]
  have : ∀ u : F, (((Finset.univ.filter fun y : F => y ^ 2 = u).card *
      (Finset.univ.filter fun x : F => x ^ 3 = u - b).card : ℕ) : Eis) =
      1 + quad F u + χ (u - b) + χ⁻¹ (u - b) + quad F u * χ (u - b) + quad F u * χ⁻¹ (u - b) := by
    intro u
    rw [Nat.cast_mul, card_square_roots h2, card_cube_roots h3 hχ]
    ring
  rw [Finset.sum_congr rfl fun u _ => this u]
  simp only [Finset.sum_add_distrib]
  rw [MulChar.sum_eq_zero_of_ne_one hρ1, hsub χ hχ1, hsub χ⁻¹ hχi, hcross, hcross]
  simp


/-- Conjugation. -/
def conj : Eis →+* Eis := starRingEnd Eis

theorem conj_eisOmega_root {x : Eis} (h : x ^ 3 = 1) : conj x = x ^ 2 := by
  have hd : (x - 1) * ((x - eisOmega) * (x - eisOmega ^ 2)) = 0 := by
    have : (x - 1) * ((x - eisOmega) * (x - eisOmega ^ 2)) = x ^ 3 - 1 := by
      have ho : eisOmega ^ 2 = -1 - eisOmega := rfl
      rw [ho]
      linear_combination (x - 1) * (- ho)
    rw [this, h, sub_self]
  rcases mul_eq_zero.1 hd with h1 | h1
  · rw [sub_eq_zero.1 h1]; rfl
  · rcases mul_eq_zero.1 h1 with h1 | h1
    · rw [sub_eq_zero.1 h1]; rfl
    · rw [sub_eq_zero.1 h1]; rfl

theorem conj_char {χ : MulChar F Eis} (hχ : orderOf χ = 3) : χ.ringHomComp conj = χ⁻¹ := by
  refine MulChar.ext fun a => ?_
  rw [MulChar.ringHomComp_apply, char_inv_eq_sq hχ]
  apply conj_eisOmega_root
  rw [← MulChar.pow_apply_coe, ← hχ, pow_orderOf_eq_one, MulChar.one_apply_coe]

theorem conj_quad : (quad F).ringHomComp conj = quad F := by
  refine MulChar.ext fun a => ?_
  rw [MulChar.ringHomComp_apply, quad, MulChar.ringHomComp_apply, eq_intCast, map_intCast]

theorem quad_inv : (quad F)⁻¹ = quad F := by
  rw [quad, MulChar.ringHomComp_inv, (quadraticChar_isQuadratic F).inv]

theorem quad_ne_one (h2 : ringChar F ≠ 2) : quad F ≠ 1 := by
  unfold quad
  exact (MulChar.ringHomComp_ne_one_iff (f := Int.castRingHom Eis) Int.cast_injective).2 (quadraticChar_ne_one h2)

theorem jacobi_norm (h2 : ringChar F ≠ 2) {χ : MulChar F Eis} (hχ : orderOf χ = 3) :
    jacobiSum (quad F) χ * jacobiSum (quad F) χ⁻¹ = (Fintype.card F : Eis) := by
  apply toQ_injective
  have hq2 : quad F ^ 2 = 1 := by
    rw [pow_two]
    nth_rewrite 1 [← quad_inv]
    exact inv_mul_cancel _
  have hχ1 : χ ≠ 1 := by
    rintro rfl
    rw [orderOf_one] at hχ
    omega
  have hprod : quad F * χ ≠ 1 := by
    intro h
    have e : χ = quad F := by
      rw [← quad_inv]; exact eq_inv_of_mul_eq_one_right h
    rw [← e] at hq2
    have := orderOf_dvd_of_pow_eq_one hq2
    rw [hχ] at this
    omega
  have hinj := toQ_injective
  rw [map_mul, ← jacobiSum_ringHomComp, ← jacobiSum_ringHomComp, map_natCast]
  have := jacobiSum_mul_jacobiSum_inv (F := F) (F' := EisQ) (χ := (quad F).ringHomComp toQ) (φ := χ.ringHomComp toQ)
    (by
      rw [ringChar.eq_zero]
      exact (CharP.char_ne_zero_of_finite F (ringChar F)).symm)
    ((MulChar.ringHomComp_ne_one_iff hinj).2 (quad_ne_one h2))
    ((MulChar.ringHomComp_ne_one_iff hinj).2 hχ1)
    (by rw [← MulChar.ringHomComp_mul]; exact (MulChar.ringHomComp_ne_one_iff hinj).2 hprod)
  rw [MulChar.ringHomComp_inv, MulChar.ringHomComp_inv, quad_inv] at this
  exact this

/-- The number of affine points: `q - t` with `t² + 3 v² = 4 q`. -/
theorem card_affine (h2 : ringChar F ≠ 2) (h3 : 3 ∣ Fintype.card F - 1) {b : F} (hb : b ≠ 0) :
    ∃ t v : ℤ, t ^ 2 + 3 * v ^ 2 = 4 * Fintype.card F ∧ ((affinePoints b).card : ℤ) = Fintype.card F - t := by
  obtain ⟨χ, hχ⟩ := MulChar.exists_mulChar_orderOf F h3 eisOmega_primitive
  have hcount := card_affine_jacobi h2 h3 hχ hb
  have hq2 : quad F b * quad F b = 1 := by
    have : (quad F)⁻¹ b * quad F b = 1 := by
      rw [← MulChar.mul_apply, MulChar.inv_mul, MulChar.one_apply (IsUnit.mk0 b hb)]
    rwa [quad_inv] at this
  have hχ2 : χ (-b) * χ⁻¹ (-b) = 1 := by
    rw [← MulChar.mul_apply, mul_inv_cancel, MulChar.one_apply (IsUnit.mk0 _ (neg_ne_zero.2 hb))]
  set α := quad F b * χ (-b) * jacobiSum (quad F) χ with hα
  have hconj : conj α = quad F b * χ⁻¹ (-b) * jacobiSum (quad F) χ⁻¹ := by
    rw [hα, map_mul, map_mul, ← jacobiSum_ringHomComp, conj_quad, conj_char hχ, ← MulChar.ringHomComp_apply (quad F),
      ← MulChar.ringHomComp_apply χ, conj_quad, conj_char hχ]
  rw [← hconj] at hcount
  have hnorm : α * conj α = (Fintype.card F : Eis) := by
    rw [hconj, hα, ← jacobi_norm h2 hχ]
    linear_combination (jacobiSum (quad F) χ * jacobiSum (quad F) χ⁻¹) * (χ (-b) * χ⁻¹ (-b)) * hq2 +
      (jacobiSum (quad F) χ * jacobiSum (quad F) χ⁻¹) * hχ2
  have hn := congrArg QuadraticAlgebra.re hnorm
  have ht := congrArg QuadraticAlgebra.re hcount
  have hstar : conj α = star α := rfl
  rw [hstar] at hn ht
  simp at hn ht
  refine ⟨-(2 * α.re - α.im), α.im, ?_, ?_⟩
  · linear_combination 4 * hn
  · linear_combination ht

end
end Verif.Curve
