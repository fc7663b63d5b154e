import Mathlib.Algebra.QuadraticAlgebra.Basic
import Mathlib.Algebra.CharP.Lemmas
import Mathlib.Algebra.CharP.Algebra
import Mathlib.FieldTheory.Finite.Basic
import Mathlib.NumberTheory.LegendreSymbol.Basic
import Mathlib.Tactic.NormNum.Prime
import Mathlib.Tactic.LinearCombination
/-
Primality certificates checked by the kernel: Pocklington's theorem (factors of N - 1) and its analogue for
factors of N + 1 in a quadratic ring.  Used for the base field of BLS12-381 and other large primes.
-/
namespace Verif

/-- Left-to-right is not needed: square-and-multiply on the binary digits of the exponent, with fuel. -/
def powMod (N : Nat) : Nat → Nat → Nat → Nat
  | 0, _, _ => 1
  | fuel + 1, a, e =>
    let r := powMod N fuel (a * a % N) (e / 2)
    if e % 2 = 1 then a * r % N else r

theorem powMod_cast {R : Type} [CommRing R] (N : Nat) (hN : (N : R) = 0) :
    ∀ (fuel a e : Nat), e < 2 ^ fuel → (powMod N fuel a e : R) = (a : R) ^ e := by
  have hmod : ∀ x : Nat, ((x % N : Nat) : R) = x := by
    intro x
    have := congrArg (Nat.cast (R := R)) (Nat.div_add_mod x N)
    push_cast at this
    rw [hN, zero_mul, zero_add] at this
    exact this
  intro fuel
  induction fuel with
  | zero => intro a e he; have : e = 0 := by omega
            subst this; simp [powMod]
  | succ fuel ih =>
    intro a e he
    have he2 : e / 2 < 2 ^ fuel := by rw [Nat.pow_succ] at he; omega
    have hstep := ih (a * a % N) (e / 2) he2
    rw [hmod] at hstep
    push_cast at hstep
    have hsplit := Nat.div_add_mod e 2
    unfold powMod
    simp only
    split
    · rename_i h1
      rw [hmod, Nat.cast_mul, hstep]
      conv_rhs => rw [← hsplit, h1, pow_succ, pow_mul]
      ring
    · rename_i h1
      have h0 : e % 2 = 0 := by omega
      rw [hstep]
      conv_rhs => rw [← hsplit, h0, add_zero, pow_mul]
      ring

/-- If `o ∣ n` but `o ∤ n / q` for each prime `q ∣ F`, where `F ∣ n`, then `F ∣ o`. -/
theorem dvd_order {n o F : Nat} (hn : 0 < n) (ho : o ∣ n) (hF : F ∣ n)
    (h : ∀ q, q.Prime → q ∣ F → ¬ o ∣ n / q) : F ∣ o := by
  obtain ⟨m, rfl⟩ := ho
  have hcop : Nat.Coprime F m := by
    by_contra hc
    obtain ⟨q, hq, hqF, hqm⟩ := Nat.Prime.not_coprime_iff_dvd.1 hc
    obtain ⟨k, rfl⟩ := hqm
    refine h q hq hqF ?_
    rw [show o * (q * k) = q * (o * k) by ring, Nat.mul_div_cancel_left _ hq.pos]
    exact Nat.dvd_mul_right _ _
  exact hcop.dvd_of_dvd_mul_right hF

theorem prime_mem_of_dvd_prod {l : List Nat} (hl : ∀ x ∈ l, x.Prime) {q : Nat} (hq : q.Prime)
    (h : q ∣ l.prod) : q ∈ l := by
  obtain ⟨x, hx, hd⟩ := (Nat.Prime.prime hq).dvd_prod_iff.1 h
  rwa [(Nat.prime_dvd_prime_iff_eq hq (hl x hx)).1 hd]

/-- A number whose prime factors are all larger than its square root is prime. -/
theorem prime_of_factors {N : Nat} (hN : 1 < N) (h : ∀ l, l.Prime → l ∣ N → N < l * l) : N.Prime := by
  rw [Nat.prime_def_le_sqrt]
  refine ⟨hN, fun m hm hle hd => ?_⟩
  obtain ⟨l, hl, hlm⟩ := Nat.exists_prime_and_dvd (show m ≠ 1 by omega)
  have h1 := h l hl (hlm.trans hd)
  have h2 : l ≤ m := Nat.le_of_dvd (by omega) hlm
  have h3 := Nat.le_sqrt.1 hle
  have h4 : l * l ≤ m * m := Nat.mul_le_mul h2 h2
  omega

/-- Data checked for Pocklington's theorem. -/
def pocklingtonCheck (N a : Nat) (fs : List Nat) : Bool :=
  1 < N && (N - 1) % fs.prod == 0 && N < (fs.prod - 1) * (fs.prod - 1) &&
  N < 2 ^ 1024 && powMod N 1024 a (N - 1) % N == 1 &&
  fs.all fun q => (powMod N 1024 a ((N - 1) / q) + (N - 1)).gcd N == 1

theorem pocklington {N : Nat} (a : Nat) (fs : List Nat) (hfs : ∀ x ∈ fs, x.Prime)
    (h : pocklingtonCheck N a fs = true) : N.Prime := by
  unfold pocklingtonCheck at h
  simp only [Bool.and_eq_true, decide_eq_true_eq, beq_iff_eq, List.all_eq_true] at h
  obtain ⟨⟨⟨⟨⟨h1, h2⟩, h3⟩, h4⟩, h5⟩, h6⟩ := h
  refine prime_of_factors h1 fun l hl hlN => ?_
  haveI := Fact.mk hl
  have hN0 : (N : ZMod l) = 0 := (ZMod.natCast_eq_zero_iff N l).2 hlN
  have e1 : (a : ZMod l) ^ (N - 1) = 1 := by
    rw [← powMod_cast N hN0 1024 a (N - 1) (by omega)]
    have := congrArg (Nat.cast (R := ZMod l)) (Nat.div_add_mod (powMod N 1024 a (N - 1)) N)
    push_cast at this
    rw [hN0, zero_mul, zero_add, h5] at this
    rw [← this]; simp
  have hne : ∀ q ∈ fs, (a : ZMod l) ^ ((N - 1) / q) ≠ 1 := by
    intro q hq e
    have hlt : (N - 1) / q < 2 ^ 1024 := lt_of_le_of_lt (Nat.div_le_self _ _) (by omega)
    rw [← powMod_cast N hN0 1024 a _ hlt] at e
    have hz : ((powMod N 1024 a ((N - 1) / q) + (N - 1) : Nat) : ZMod l) = 0 := by
      rw [Nat.cast_add, e, Nat.cast_sub h1.le, hN0]; simp
    have hd := Nat.dvd_gcd ((ZMod.natCast_eq_zero_iff _ l).1 hz) hlN
    rw [h6 q hq] at hd
    exact hl.one_lt.ne' (Nat.dvd_one.1 hd)
  have hdvd : fs.prod ∣ orderOf (a : ZMod l) := by
    refine dvd_order (n := N - 1) (by omega) (orderOf_dvd_of_pow_eq_one e1) (Nat.dvd_of_mod_eq_zero h2) ?_
    intro q hq hqF hd
    exact hne q (prime_mem_of_dvd_prod hfs hq hqF) (orderOf_dvd_iff_pow_eq_one.1 hd)
  have ha0 : (a : ZMod l) ≠ 0 := by
    intro h0
    rw [h0, zero_pow (by omega)] at e1
    exact zero_ne_one e1
  have h7 : fs.prod ∣ l - 1 := hdvd.trans (orderOf_dvd_of_pow_eq_one (ZMod.pow_card_sub_one_eq_one ha0))
  have h8 := Nat.le_of_dvd (by have := hl.two_le; omega) h7
  calc N < (fs.prod - 1) * (fs.prod - 1) := h3
    _ ≤ l * l := Nat.mul_le_mul (by omega) (by omega)

/-! ### Factors of N + 1 -/

/-- Multiplication of `a + b√D` modulo `N`. -/
def quadMul (N D : Nat) (x y : Nat × Nat) : Nat × Nat :=
  ((x.1 * y.1 + D * (x.2 * y.2)) % N, (x.1 * y.2 + x.2 * y.1) % N)

def quadPow (N D : Nat) : Nat → Nat × Nat → Nat → Nat × Nat
  | 0, _, _ => (1, 0)
  | fuel + 1, a, e =>
    let r := quadPow N D fuel (quadMul N D a a) (e / 2)
    if e % 2 = 1 then quadMul N D a r else r

/-- Interpretation in the quadratic ring. -/
def quadCast (R : Type) [CommRing R] (D : Nat) (x : Nat × Nat) : QuadraticAlgebra R (D : R) 0 :=
  ⟨(x.1 : R), (x.2 : R)⟩

theorem quadMul_cast {R : Type} [CommRing R] (N D : Nat) (hN : (N : R) = 0) (x y : Nat × Nat) :
    quadCast R D (quadMul N D x y) = quadCast R D x * quadCast R D y := by
  have hmod : ∀ x : Nat, ((x % N : Nat) : R) = x := by
    intro x
    have := congrArg (Nat.cast (R := R)) (Nat.div_add_mod x N)
    push_cast at this
    rw [hN, zero_mul, zero_add] at this
    exact this
  ext
  · simp only [quadCast, quadMul, hmod, QuadraticAlgebra.re_mul]
    push_cast; ring
  · simp only [quadCast, quadMul, hmod, QuadraticAlgebra.im_mul]
    push_cast; ring

theorem quadPow_cast {R : Type} [CommRing R] (N D : Nat) (hN : (N : R) = 0) :
    ∀ (fuel : Nat) (a : Nat × Nat) (e : Nat), e < 2 ^ fuel →
      quadCast R D (quadPow N D fuel a e) = quadCast R D a ^ e := by
  intro fuel
  induction fuel with
  | zero =>
    intro a e he
    have : e = 0 := by omega
    subst this
    rw [pow_zero]
    ext <;> simp [quadPow, quadCast, QuadraticAlgebra.re_one, QuadraticAlgebra.im_one]
  | succ fuel ih =>
    intro a e he
    have he2 : e / 2 < 2 ^ fuel := by rw [Nat.pow_succ] at he; omega
    have hstep := ih (quadMul N D a a) (e / 2) he2
    rw [quadMul_cast N D hN] at hstep
    have hsplit := Nat.div_add_mod e 2
    unfold quadPow
    simp only
    split
    · rename_i h1
      rw [quadMul_cast N D hN, hstep]
      conv_rhs => rw [← hsplit, h1, pow_succ, pow_mul]
      ring
    · rename_i h1
      have h0 : e % 2 = 0 := by omega
      rw [hstep]
      conv_rhs => rw [← hsplit, h0, add_zero, pow_mul]
      ring

/-- An element of norm one in a quadratic ring over a prime field has order dividing `l - 1` or `l + 1`. -/
theorem quad_order {l : Nat} (hl : l.Prime) (hodd : l ≠ 2) (D : ZMod l) (hD : D ≠ 0)
    (x : QuadraticAlgebra (ZMod l) D 0) (hx : x.norm = 1) : x ^ (l - 1) = 1 ∨ x ^ (l + 1) = 1 := by
  haveI := Fact.mk hl
  haveI : CharP (QuadraticAlgebra (ZMod l) D 0) l :=
    charP_of_injective_algebraMap (R := ZMod l) QuadraticAlgebra.algebraMap_injective l
  have hstar : x * star x = 1 := by
    rw [← QuadraticAlgebra.algebraMap_norm_eq_mul_star, hx, map_one]
  have hl2 : l / 2 * 2 + 1 = l := by
    have := hl.eq_two_or_odd
    omega
  have hω : (QuadraticAlgebra.omega : QuadraticAlgebra (ZMod l) D 0) ^ l =
      algebraMap _ _ (D ^ (l / 2)) * QuadraticAlgebra.omega := by
    have key : ∀ (ω : QuadraticAlgebra (ZMod l) D 0) (n : Nat), n / 2 * 2 + 1 = n → ω ^ n = (ω ^ 2) ^ (n / 2) * ω := by
      intro ω n hn
      conv_lhs => rw [← hn, pow_succ, mul_comm (n / 2) 2, pow_mul]
    rw [key _ l hl2, map_pow]
    congr 2
    rw [sq, QuadraticAlgebra.omega_mul_omega_eq_mk]
    rfl
  have hxe : x = algebraMap _ _ x.re + algebraMap _ _ x.im * QuadraticAlgebra.omega := by
    ext <;> simp [QuadraticAlgebra.algebraMap_eq]
  have hpow : x ^ l = algebraMap _ _ x.re + algebraMap _ _ x.im * (algebraMap _ _ (D ^ (l / 2)) *
      QuadraticAlgebra.omega) := by
    conv_lhs => rw [hxe]
    rw [add_pow_char, mul_pow, ← map_pow, ← map_pow, ZMod.pow_card, ZMod.pow_card, hω]
  rcases ZMod.pow_div_two_eq_neg_one_or_one l hD with h | h
  · left
    rw [h, map_one, one_mul, ← hxe] at hpow
    calc x ^ (l - 1) = x ^ (l - 1) * (x * star x) := by rw [hstar, mul_one]
      _ = x ^ l * star x := by
        rw [← mul_assoc, ← pow_succ, Nat.sub_add_cancel hl.one_lt.le]
      _ = 1 := by rw [hpow, hstar]
  · right
    have hs : x ^ l = star x := by
      rw [hpow, h]
      ext <;> simp [QuadraticAlgebra.algebraMap_eq]
    rw [pow_succ, hs, mul_comm, hstar]

/-- Data checked for the N + 1 test. -/
def quadCheck (N D : Nat) (x : Nat × Nat) (fs : List Nat) : Bool :=
  1 < N && N % 2 == 1 && (N + 1) % fs.prod == 0 && N < (fs.prod - 1) * (fs.prod - 1) &&
  N < 2 ^ 1023 && D.gcd N == 1 && x.1 * x.1 % N == (1 + D * (x.2 * x.2)) % N &&
  quadPow N D 1024 x (N + 1) == (1, 0) &&
  fs.all fun q => (quadPow N D 1024 x ((N + 1) / q)).2.gcd N == 1

theorem quad_certificate {N : Nat} (D : Nat) (x : Nat × Nat) (fs : List Nat) (hfs : ∀ x ∈ fs, x.Prime)
    (h : quadCheck N D x fs = true) : N.Prime := by
  unfold quadCheck at h
  simp only [Bool.and_eq_true, decide_eq_true_eq, beq_iff_eq, List.all_eq_true] at h
  obtain ⟨⟨⟨⟨⟨⟨⟨⟨h1, h2⟩, h3⟩, h4⟩, h5⟩, h6⟩, h7⟩, h8⟩, h9⟩ := h
  refine prime_of_factors h1 fun l hl hlN => ?_
  haveI := Fact.mk hl
  have hN0 : (N : ZMod l) = 0 := (ZMod.natCast_eq_zero_iff N l).2 hlN
  have hl2 : l ≠ 2 := by rintro rfl; omega
  have hD : (D : ZMod l) ≠ 0 := by
    intro h0
    have hd := Nat.dvd_gcd ((ZMod.natCast_eq_zero_iff _ l).1 h0) hlN
    rw [h6] at hd
    exact hl.one_lt.ne' (Nat.dvd_one.1 hd)
  have hnorm : (quadCast (ZMod l) D x).norm = 1 := by
    have hmod : ((x.1 * x.1 : Nat) : ZMod l) = ((1 + D * (x.2 * x.2) : Nat) : ZMod l) := by
      have := (ZMod.natCast_eq_natCast_iff' _ _ N).2 h7
      have h' := congrArg (ZMod.castHom hlN (ZMod l)) this
      rwa [map_natCast, map_natCast] at h'
    push_cast at hmod
    rw [QuadraticAlgebra.norm_def]
    simp only [quadCast]
    linear_combination hmod
  have e1 : quadCast (ZMod l) D x ^ (N + 1) = 1 := by
    rw [← quadPow_cast N D hN0 1024 x (N + 1) (by omega), h8]
    ext <;> simp [quadCast, QuadraticAlgebra.re_one, QuadraticAlgebra.im_one]
  have hne : ∀ q ∈ fs, quadCast (ZMod l) D x ^ ((N + 1) / q) ≠ 1 := by
    intro q hq e
    have hlt : (N + 1) / q < 2 ^ 1024 := lt_of_le_of_lt (Nat.div_le_self _ _) (by omega)
    rw [← quadPow_cast N D hN0 1024 x _ hlt] at e
    have hz := congrArg QuadraticAlgebra.im e
    have hz : ((quadPow N D 1024 x ((N + 1) / q)).2 : ZMod l) = 0 := by
      simpa [quadCast, QuadraticAlgebra.im_one] using hz
    have hd := Nat.dvd_gcd ((ZMod.natCast_eq_zero_iff _ l).1 hz) hlN
    rw [h9 q hq] at hd
    exact hl.one_lt.ne' (Nat.dvd_one.1 hd)
  have hdvd : fs.prod ∣ orderOf (quadCast (ZMod l) D x) := by
    refine dvd_order (n := N + 1) (by omega) (orderOf_dvd_of_pow_eq_one e1) (Nat.dvd_of_mod_eq_zero h3) ?_
    intro q hq hqF hd
    exact hne q (prime_mem_of_dvd_prod hfs hq hqF) (orderOf_dvd_iff_pow_eq_one.1 hd)
  have hle : fs.prod ≤ l + 1 := by
    have h2l := hl.two_le
    rcases quad_order hl hl2 (D : ZMod l) hD (quadCast (ZMod l) D x) hnorm with h | h
    · have := Nat.le_of_dvd (by omega) (hdvd.trans (orderOf_dvd_of_pow_eq_one h))
      omega
    · exact Nat.le_of_dvd (by omega) (hdvd.trans (orderOf_dvd_of_pow_eq_one h))
  calc N < (fs.prod - 1) * (fs.prod - 1) := h4
    _ ≤ l * l := Nat.mul_le_mul (by omega) (by omega)

end Verif
