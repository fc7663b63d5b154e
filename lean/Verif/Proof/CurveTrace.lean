import Mathlib.Data.Nat.Prime.Basic
import Mathlib.Data.Int.Basic
import Mathlib.RingTheory.Int.Basic
import Mathlib.Tactic.LinearCombination
import Mathlib.Tactic.IntervalCases
/-
The solutions of `t² + 3 v² = 4 n` for `n = p` and `n = p²`, `p` prime.
-/
namespace Verif.Curve

/-- Two solutions of which one quotient is integral. -/
theorem trace_of_dvd {n t0 v0 t v s : ℤ} (hn : 0 < n) (h0 : t0 ^ 2 + 3 * v0 ^ 2 = 4 * n) (h : t ^ 2 + 3 * v ^ 2 = 4 * n)
    (hs : s ^ 2 = 1) (hd : n ∣ t * v0 - s * t0 * v) :
    t = t0 ∨ t = -t0 ∨ 2 * t = t0 + 3 * v0 ∨ 2 * t = t0 - 3 * v0 ∨ 2 * t = -t0 + 3 * v0 ∨ 2 * t = -t0 - 3 * v0 := by
  obtain ⟨k, hk⟩ := hd
  have hsq : (t * t0 + 3 * s * v * v0) ^ 2 = n ^ 2 * (16 - 3 * k ^ 2) := by
    have : (t * t0 + 3 * s * v * v0) ^ 2 + 3 * (t * v0 - s * t0 * v) ^ 2 = 16 * n ^ 2 := by
      linear_combination (t ^ 2 + 3 * v ^ 2) * h0 + 4 * n * h + 
        (9 * v ^ 2 * v0 ^ 2 + 3 * t0 ^ 2 * v ^ 2) * hs
    rw [hk] at this
    linear_combination this
  have hdm : n ∣ t * t0 + 3 * s * v * v0 := by
    rw [← Int.pow_dvd_pow_iff (n := 2) (by omega), hsq]
    exact Dvd.intro _ rfl
  obtain ⟨m, hm⟩ := hdm
  have hmk : m ^ 2 + 3 * k ^ 2 = 16 := by
    rw [hm] at hsq
    have : n ^ 2 * (m ^ 2 + 3 * k ^ 2) = n ^ 2 * 16 := by linear_combination hsq
    exact mul_left_cancel₀ (pow_ne_zero 2 hn.ne') this
  have h4 : 4 * t = m * t0 + 3 * k * v0 := by
    have : n * (4 * t) = n * (m * t0 + 3 * k * v0) := by
      linear_combination -t * h0 + t0 * hm + 3 * v0 * hk
    exact mul_left_cancel₀ hn.ne' this
  have hk1 : k ≤ 2 := by nlinarith
  have hk2 : -2 ≤ k := by nlinarith
  have hm1 : m ≤ 4 := by nlinarith
  have hm2 : -4 ≤ m := by nlinarith
  interval_cases k <;> interval_cases m <;> first | omega | (exfalso; omega)

/-- The solutions for a prime. -/
theorem trace_prime {p : ℕ} (hp : p.Prime) {t0 v0 t v : ℤ} (h0 : t0 ^ 2 + 3 * v0 ^ 2 = 4 * p)
    (h : t ^ 2 + 3 * v ^ 2 = 4 * p) :
    t = t0 ∨ t = -t0 ∨ 2 * t = t0 + 3 * v0 ∨ 2 * t = t0 - 3 * v0 ∨ 2 * t = -t0 + 3 * v0 ∨ 2 * t = -t0 - 3 * v0 := by
  have hp' : Prime (p : ℤ) := Nat.prime_iff_prime_int.1 hp
  have hpos : (0 : ℤ) < p := by exact_mod_cast hp.pos
  have hprod : (p : ℤ) ∣ (t * v0 - 1 * t0 * v) * (t * v0 - (-1) * t0 * v) :=
    ⟨4 * (v0 ^ 2 - v ^ 2), by linear_combination v0 ^ 2 * h - v ^ 2 * h0⟩
  rcases hp'.dvd_or_dvd hprod with hd | hd
  · exact trace_of_dvd hpos h0 h (by norm_num) hd
  · exact trace_of_dvd hpos h0 h (by norm_num) hd

/-- The solutions for the square of a prime. -/
theorem trace_prime_sq {p : ℕ} (hp : p.Prime) (hp2 : p ≠ 2) {t0 v0 t v : ℤ} (h0 : t0 ^ 2 + 3 * v0 ^ 2 = 4 * (p : ℤ) ^ 2)
    (ht0 : ¬ (p : ℤ) ∣ t0) (hv0 : ¬ (p : ℤ) ∣ v0)
    (h : t ^ 2 + 3 * v ^ 2 = 4 * (p : ℤ) ^ 2) :
    (t = t0 ∨ t = -t0 ∨ 2 * t = t0 + 3 * v0 ∨ 2 * t = t0 - 3 * v0 ∨ 2 * t = -t0 + 3 * v0 ∨ 2 * t = -t0 - 3 * v0) ∨
      t = 2 * p ∨ t = -2 * p ∨ t = p ∨ t = -p := by
  have hp' : Prime (p : ℤ) := Nat.prime_iff_prime_int.1 hp
  have hpos : (0 : ℤ) < p := by exact_mod_cast hp.pos
  have hpos2 : (0 : ℤ) < (p : ℤ) ^ 2 := by positivity
  have hprod : (p : ℤ) ^ 2 ∣ (t * v0 - 1 * t0 * v) * (t * v0 - (-1) * t0 * v) :=
    ⟨4 * (v0 ^ 2 - v ^ 2), by linear_combination v0 ^ 2 * h - v ^ 2 * h0⟩
  by_cases hA : (p : ℤ) ∣ t * v0 - 1 * t0 * v
  · by_cases hB : (p : ℤ) ∣ t * v0 - (-1) * t0 * v
    · right
      have h2 : ¬ (p : ℤ) ∣ 2 := by
        intro hd
        have : p ∣ 2 := by exact_mod_cast hd
        exact hp2 ((Nat.prime_dvd_prime_iff_eq hp Nat.prime_two).1 this)
      have hst : (p : ℤ) ∣ 2 * (t * v0) := by
        have := dvd_add hA hB
        rwa [show t * v0 - 1 * t0 * v + (t * v0 - -1 * t0 * v) = 2 * (t * v0) by ring] at this
      have hdt : (p : ℤ) ∣ t :=
        ((hp'.dvd_or_dvd ((hp'.dvd_or_dvd hst).resolve_left h2))).resolve_right hv0
      have hsv : (p : ℤ) ∣ 2 * (t0 * v) := by
        have := dvd_sub hB hA
        rwa [show t * v0 - -1 * t0 * v - (t * v0 - 1 * t0 * v) = 2 * (t0 * v) by ring] at this
      have hdv : (p : ℤ) ∣ v :=
        ((hp'.dvd_or_dvd ((hp'.dvd_or_dvd hsv).resolve_left h2))).resolve_left ht0
      obtain ⟨t', rfl⟩ := hdt
      obtain ⟨v', rfl⟩ := hdv
      have h' : t' ^ 2 + 3 * v' ^ 2 = 4 := by
        have : (p : ℤ) ^ 2 * (t' ^ 2 + 3 * v' ^ 2) = (p : ℤ) ^ 2 * 4 := by linear_combination h
        exact mul_left_cancel₀ hpos2.ne' this
      have ht1 : t' ≤ 2 := by nlinarith
      have ht2 : -2 ≤ t' := by nlinarith
      have hv1 : v' ≤ 1 := by nlinarith
      have hv2 : -1 ≤ v' := by nlinarith
      interval_cases t' <;> interval_cases v' <;> omega
    · left
      refine trace_of_dvd hpos2 h0 h (s := 1) (by norm_num) ?_
      have hco : IsCoprime ((p : ℤ) ^ 2) (t * v0 - (-1) * t0 * v) :=
        IsCoprime.pow_left ((Prime.coprime_iff_not_dvd hp').2 hB)
      exact hco.dvd_of_dvd_mul_right hprod
  · left
    refine trace_of_dvd hpos2 h0 h (s := -1) (by norm_num) ?_
    have hco : IsCoprime ((p : ℤ) ^ 2) (t * v0 - 1 * t0 * v) :=
      IsCoprime.pow_left ((Prime.coprime_iff_not_dvd hp').2 hA)
    exact hco.dvd_of_dvd_mul_left hprod

end Verif.Curve
