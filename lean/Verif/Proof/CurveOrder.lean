import Verif.Proof.CurveStructure
import Verif.Proof.CurveTrace
import Verif.Proof.Primes
import Verif.Props.H2CExc
import Verif.Spec.BlsGroup
/-
The orders of the groups of BLS12-381 and the exponent of the first.
-/
namespace Verif.Curve
open Verif Verif.Props Verif.Spec WeierstrassCurve
open scoped QuadraticAlgebra

theorem prime_blsR : blsR.Prime := prime_bls12381_r

/-! ### Coordinates over `Fp` -/

def inv1 (a : Nat) : Nat := powMod bls12381P 381 a (bls12381P - 2)

def comp1 : CompRing Nat Fp := natComp bls12381P fp_char

theorem comp1_neg : comp1.cast (bls12381P - 1) = -1 := by
  change ((bls12381P - 1 : Nat) : Fp) = -1
  rw [Nat.cast_sub (by decide), fp_char]; simp

theorem hasCoords1 (c : Nat × Nat) (h : c.2 ^ 2 % bls12381P = (c.1 ^ 3 + 4) % bls12381P) :
    ∃ Q : (shortCurve (4 : Fp)).Point, HasCoords comp1 Q c := by
  have n := shortCurve_nonsingular fp_two fp_three fp_four ((c.1 : Fp), (c.2 : Fp)) (by
    unfold H2C.OnCurve
    have : (4 : Fp) = ((4 : Nat) : Fp) := by norm_num
    simp only [zero_mul, add_zero]
    rw [this, ← Nat.cast_pow, ← Nat.cast_pow, ← Nat.cast_add]
    exact cast_eq_of_mod fp_char h)
  exact ⟨.some _ _ n, n, rfl⟩

theorem cast_ne_of_mod {a b : Nat} (h : a % bls12381P ≠ b % bls12381P) : (a : Fp) ≠ (b : Fp) :=
  fun e => h ((ZMod.natCast_eq_natCast_iff' a b bls12381P).1 e)

theorem hasCoords1_ne {X Y : (shortCurve (4 : Fp)).Point} {c d : Nat × Nat} (hX : HasCoords comp1 X c) (hY : HasCoords comp1 Y d)
    (h : c.1 % bls12381P ≠ d.1 % bls12381P) : X ≠ Y := by
  obtain ⟨_, rfl⟩ := hX
  obtain ⟨_, rfl⟩ := hY
  intro e
  exact cast_ne_of_mod h (Affine.Point.some.inj e).1

/-! ### A group with an element of prime order -/

theorem dvd_card_of_nsmul {A : Type} [AddCommGroup A] {l : ℕ} (hl : l.Prime) {Q : A} (hQ : l • Q = 0) (h0 : Q ≠ 0) :
    l ∣ Nat.card A := by
  have : Fact l.Prime := ⟨hl⟩
  rw [← addOrderOf_eq_prime_iff.2 ⟨hQ, h0⟩]
  exact addOrderOf_dvd_natCard Q

def q11 : Nat × Nat := (0xdb54222439e49d420c7f918fe70359700f1eda09ad31d134cfc03f05eb4c132ba50531a876798cff56218e6443661c2,
  0x181ba72023d0aeb34ea28d703c7700ecb75d9ff01da3380088e2a24da43d2b0a79bd62f1a4558154f265fd378a1ef8a4)

theorem exists_q11 : ∃ Q : (shortCurve (4 : Fp)).Point, HasCoords comp1 Q q11 ∧ 11 • Q = 0 := by
  obtain ⟨Q, hQ⟩ := hasCoords1 q11 (by decide +kernel)
  have h : mulPt comp1.toCompOps (bls12381P - 1) inv1 q11 5 10 = some (q11.1, comp1.mul (bls12381P - 1) q11.2) := by
    change mulPt (natOps bls12381P) (bls12381P - 1) inv1 q11 5 10 = some (q11.1, (natOps bls12381P).mul (bls12381P - 1) q11.2)
    decide +kernel
  exact ⟨Q, hQ, nsmul_eq_zero comp1 comp1_neg hQ h⟩

theorem prime_11 : Nat.Prime 11 := by norm_num

/-- The order of `E(F_p)`. -/
theorem card_g1 : Nat.card (shortCurve (4 : Fp)).Point = blsH1 * blsR := by
  obtain ⟨Q, hQ, h11⟩ := exists_q11
  have hd := dvd_card_of_nsmul prime_11 h11 (hasCoords_ne_zero comp1 hQ)
  have hcard : Fintype.card Fp = bls12381P := ZMod.card _
  obtain ⟨t, v, h, hc⟩ := card_point_trace (b := (4 : Fp)) fp_two fp_three fp_four (by rw [hcard]; decide)
  rw [hcard] at h hc
  have hp : ((bls12381P : ℕ) : ℤ) = 4002409555221667393417789825735904156556882819939007885332058136124031650490837864442687629129015664037894272559787 := by norm_num [bls12381P]
  have hc0 := trace_prime prime_bls12381P (t0 := -15132376222941642751) (v0 := 2310096550715768212670172227226928237551693238409523516757) (by rw [hp]; norm_num) h
  have hr : ((blsH1 * blsR : ℕ) : ℤ) = 4002409555221667393417789825735904156556882819939007885332058136124031650490837864442687629129030796414117214202539 := by norm_num [blsH1, blsR]
  obtain ⟨k, hk⟩ := hd
  have hk' : (Nat.card (shortCurve (4 : Fp)).Point : ℤ) = 11 * k := by rw [hk]; push_cast; ring
  rw [hp] at hc
  refine Int.natCast_inj.1 ?_
  rw [hr]
  rcases hc0 with h | h | h | h | h | h <;> omega

/-! ### Coordinates over `Fp2` -/

def inv2 (a : Nat × Nat) : Nat × Nat :=
  let n := inv1 ((a.1 * a.1 + a.2 * a.2) % bls12381P)
  (a.1 * n % bls12381P, (bls12381P - a.2 % bls12381P) * n % bls12381P)

theorem comp2_neg : comp2.cast (bls12381P - 1, 0) = -1 := by
  rw [comp2_cast, fp2_eq, Nat.cast_sub (by decide), fp_char]
  ext <;> simp

def q2713 : (Nat × Nat) × Nat × Nat :=
  ((0x79e8c052fd9106b1845b00a1fc61213beb6fd42a7ce6004fd1d864f3cd4156a0b28c720af0fc01c040dd57b18e6820e,
    0x99da3286c4b1a22871bf67a5101ae7cbd1bf2f598f4381ea4f83fe45414fe441cd1dbaa5b74636b12a103a3f9a6e9db),
   (0xad430f8505c11358593effccc4b3475ad37d85df4b2413716b446644819808847fc60d5f42bda21cfdfe15b52bb2e3d,
    0xa8ac8445cc20ce5a0f61db4df8a24cd818fb4d81db12b1cafb19f56d971dae24d353a7e178294c54a83ddfeab76019b))

theorem hasCoords2 (c : (Nat × Nat) × Nat × Nat)
    (h : comp2.mul c.2 c.2 = comp2.add (comp2.mul c.1 (comp2.mul c.1 c.1)) (4, 4)) :
    ∃ Q : (shortCurve (4 * (1 + im2))).Point, HasCoords comp2 Q c := by
  have n := shortCurve_nonsingular fp2_two fp2_three fp2_b (comp2.cast c.1, comp2.cast c.2) (by
    unfold H2C.OnCurve
    have h' := congrArg comp2.cast h
    rw [comp2.cast_mul, comp2.cast_add, comp2.cast_mul, comp2.cast_mul] at h'
    have h4 : comp2.cast (4, 4) = 4 * (1 + im2) := by
      rw [comp2_cast, fp2]
      push_cast
      ring
    rw [h4] at h'
    simp only [zero_mul, add_zero]
    linear_combination h')
  exact ⟨.some _ _ n, n, rfl⟩

theorem exists_q2713 : ∃ Q : (shortCurve (4 * (1 + im2))).Point, HasCoords comp2 Q q2713 ∧ 2713 • Q = 0 := by
  obtain ⟨Q, hQ⟩ := hasCoords2 q2713 (by
    change (pairOps bls12381P).mul q2713.2 q2713.2 =
      (pairOps bls12381P).add ((pairOps bls12381P).mul q2713.1 ((pairOps bls12381P).mul q2713.1 q2713.1)) (4, 4)
    decide +kernel)
  have h : mulPt comp2.toCompOps (bls12381P - 1, 0) inv2 q2713 13 2712 = some (q2713.1, comp2.mul (bls12381P - 1, 0) q2713.2) := by
    change mulPt (pairOps bls12381P) (bls12381P - 1, 0) inv2 q2713 13 2712 =
      some (q2713.1, (pairOps bls12381P).mul (bls12381P - 1, 0) q2713.2)
    decide +kernel
  exact ⟨Q, hQ, nsmul_eq_zero comp2 comp2_neg hQ h⟩

theorem prime_2713 : Nat.Prime 2713 := by norm_num

/-- The order of `E'(F_{p²})`. -/
theorem card_g2 : Nat.card (shortCurve (4 * (1 + im2))).Point = blsH2 * blsR := by
  obtain ⟨Q, hQ, h0⟩ := exists_q2713
  have hd := dvd_card_of_nsmul prime_2713 h0 (hasCoords_ne_zero comp2 hQ)
  obtain ⟨t, v, h, hc⟩ := card_point_trace (b := 4 * (1 + im2)) fp2_two fp2_three fp2_b (by rw [card_fp2]; decide +kernel)
  rw [card_fp2] at h hc
  push_cast at h hc
  have hp : ((bls12381P : ℕ) : ℤ) = 4002409555221667393417789825735904156556882819939007885332058136124031650490837864442687629129015664037894272559787 := by norm_num [bls12381P]
  have hc0 := trace_prime_sq prime_bls12381P (by decide) (t0 := -8004819110443334786835579651471808313113765639878015770664116272248063300981446740075222608679996739251274034271573) (v0 := -34957250116750793652965160338790643891717372063634208689047487940972256078507) (by rw [hp]; norm_num)
    (by rw [hp]; decide +kernel) (by rw [hp]; decide +kernel) h
  have hr : ((blsH2 * blsR : ℕ) : ℤ) = 16019282247729705411943748644318972617695120099330552659862384536985976748491357143400656079302193429974954385540174732940659106207100323726025938325193045129788127168347624263893040187112659960846674086295148469572963088890738917 := by norm_num [blsH2, blsR]
  obtain ⟨k, hk⟩ := hd
  have hk' : (Nat.card (shortCurve (4 * (1 + im2))).Point : ℤ) = 2713 * k := by rw [hk]; push_cast; ring
  rw [hp] at hc hc0
  norm_num at hc hc0
  refine Int.natCast_inj.1 ?_
  rw [hr]
  rcases hc0 with (h | h | h | h | h | h) | h | h | h | h <;> omega


/-! ### The exponent of `E(F_p)` -/

def beta : Nat := 0x5f19672fdf76ce51ba69c6076a0f77eaddb3a93be6f89688de17d813620a00022e01fffffffefffe

theorem beta_sq : ((beta : Nat) : Fp) ^ 2 + (beta : Fp) + 1 = 0 := by
  have : ((beta ^ 2 + beta + 1 : Nat) : Fp) = ((0 : Nat) : Fp) := cast_eq_of_mod fp_char (by decide +kernel)
  push_cast at this
  exact this

theorem beta_cube : ((beta : Nat) : Fp) ^ 3 = 1 := by linear_combination ((beta : Fp) - 1) * beta_sq

/-- The automorphism. -/
def phi1 : (shortCurve (4 : Fp)).Point →+ (shortCurve (4 : Fp)).Point := phiHom fp_two fp_three fp_four beta_cube

theorem phi1_coords {Q : (shortCurve (4 : Fp)).Point} {c : Nat × Nat} (h : HasCoords comp1 Q c) :
    HasCoords comp1 (phi1 Q) (beta * c.1, c.2) := by
  obtain ⟨n, rfl⟩ := h
  have e : comp1.cast (beta * c.1) = (beta : Fp) * comp1.cast c.1 := Nat.cast_mul _ _
  refine ⟨by rw [e]; exact phi_nonsingular fp_two fp_three fp_four beta_cube n, ?_⟩
  simp only [e]
  rfl

theorem phi1_eigen {Q : (shortCurve (4 : Fp)).Point} {c : Nat × Nat} (hQ : HasCoords comp1 Q c)
    (hc : c.1 % bls12381P ≠ 0) {k : Nat} (hk : phi1 Q = k • Q) : (k ^ 2 + k + 1) • Q = 0 := by
  have hs : Q + phi1 Q + phi1 (phi1 Q) = 0 := by
    obtain ⟨n, rfl⟩ := hQ
    exact phi_sum fp_two fp_three fp_four beta_sq beta_cube (fp_ne_zero _ hc) n
  rw [hk, map_nsmul, hk] at hs
  rw [pow_two, add_nsmul, add_nsmul, mul_nsmul', one_nsmul]
  rw [← hs]; abel

/-- No square root of -3: the two elements are independent. -/
theorem independent_two {Q : (shortCurve (4 : Fp)).Point} {c : Nat × Nat} {l : Nat} (hl : l.Prime) (hl3 : l % 3 = 2)
    (hQ : HasCoords comp1 Q c) (hc : c.1 % bls12381P ≠ 0) (h0 : l • Q = 0) (k : Nat) : phi1 Q ≠ k • Q := by
  intro hk
  have hd : l ∣ k ^ 2 + k + 1 := by
    have : Fact l.Prime := ⟨hl⟩
    rw [← addOrderOf_eq_prime_iff.2 ⟨h0, hasCoords_ne_zero comp1 hQ⟩, addOrderOf_dvd_iff_nsmul_eq_zero]
    exact phi1_eigen hQ hc hk
  have : Fact l.Prime := ⟨hl⟩
  have hz : ((k : ZMod l)) ^ 2 + k + 1 = 0 := by
    have := (ZMod.natCast_eq_zero_iff (k ^ 2 + k + 1) l).2 hd
    push_cast at this
    exact this
  have h3 : (k : ZMod l) ^ 3 = 1 := by linear_combination ((k : ZMod l) - 1) * hz
  have hne : (k : ZMod l) ≠ 0 := by intro e; rw [e] at h3; simp at h3
  have hf := ZMod.pow_card_sub_one_eq_one hne
  have h1 := Nat.dvd_gcd (orderOf_dvd_of_pow_eq_one h3) (orderOf_dvd_of_pow_eq_one hf)
  have hg : Nat.gcd 3 (l - 1) = 1 := by
    rw [Nat.gcd_rec, show (l - 1) % 3 = 1 by omega]; decide
  rw [hg, Nat.dvd_one, orderOf_eq_one_iff] at h1
  rw [h1] at hz
  have : ((3 : Nat) : ZMod l) = 0 := by push_cast; linear_combination hz
  have hd3 := (ZMod.natCast_eq_zero_iff 3 l).1 this
  have := (Nat.prime_dvd_prime_iff_eq hl Nat.prime_three).1 hd3
  omega

/-- Two candidate eigenvalues, both excluded. -/
theorem independent_one {Q : (shortCurve (4 : Fp)).Point} {c : Nat × Nat} {l : Nat} (hl : l.Prime) {a b : Nat}
    (hab : (a + b + 1) % l = 0) (hab' : a * b % l = 1)
    (hQ : HasCoords comp1 Q c) (hc : c.1 % bls12381P ≠ 0) (h0 : l • Q = 0) (ha : phi1 Q ≠ a • Q) (hb : phi1 Q ≠ b • Q)
    (k : Nat) : phi1 Q ≠ k • Q := by
  intro hk
  have hfact : Fact l.Prime := ⟨hl⟩
  have ho : addOrderOf Q = l := addOrderOf_eq_prime_iff.2 ⟨h0, hasCoords_ne_zero comp1 hQ⟩
  have hd : l ∣ k ^ 2 + k + 1 := by
    have := addOrderOf_dvd_iff_nsmul_eq_zero.2 (phi1_eigen hQ hc hk)
    rwa [ho] at this
  have hz : ((k : ZMod l)) ^ 2 + k + 1 = 0 := by
    have := (ZMod.natCast_eq_zero_iff (k ^ 2 + k + 1) l).2 hd
    push_cast at this
    exact this
  have e1 : (a : ZMod l) + b + 1 = 0 := by
    have := (ZMod.natCast_eq_zero_iff (a + b + 1) l).2 (Nat.dvd_of_mod_eq_zero hab)
    push_cast at this
    exact this
  have e2 : (a : ZMod l) * b = 1 := by
    have : ((a * b : Nat) : ZMod l) = ((1 : Nat) : ZMod l) :=
      (ZMod.natCast_eq_natCast_iff' _ _ _).2 (by rw [hab', Nat.mod_eq_of_lt hl.one_lt])
    push_cast at this
    exact this
  have hprod : ((k : ZMod l) - a) * (k - b) = 0 := by linear_combination hz - k * e1 + e2
  have key : ∀ x : Nat, (k : ZMod l) - x = 0 → k • Q = x • Q := by
    intro x hx
    have := (ZMod.natCast_eq_natCast_iff k x l).1 (sub_eq_zero.1 hx)
    rw [← ho] at this
    exact nsmul_eq_nsmul_iff_modEq.2 this
  rcases mul_eq_zero.1 hprod with h | h
  · exact ha (hk.trans (key a h))
  · exact hb (hk.trans (key b h))

theorem h1R_pos : 0 < blsH1 * blsR := by decide

/-- The part of the exponent at one prime. -/
theorem exponent_part {l : Nat} (hl : l.Prime) (h2 : blsH1 * blsR = l ^ 2 * (blsH1 * blsR / l ^ 2))
    (hlm : ¬ l ∣ blsH1 * blsR / l ^ 2) {Q : (shortCurve (4 : Fp)).Point} (hQ0 : Q ≠ 0) (h0 : l • Q = 0)
    (hind : ∀ k : Nat, phi1 Q ≠ k • Q) (P : (shortCurve (4 : Fp)).Point) :
    addOrderOf P ∣ l * (blsH1 * blsR / l ^ 2) := by
  rw [addOrderOf_dvd_iff_nsmul_eq_zero]
  refine nsmul_eq_zero_of_independent hl (card_g1.trans h2) ?_ hlm h0 hQ0 (Q' := phi1 Q) ?_ hind P
  · have := h1R_pos
    rw [h2] at this
    exact Nat.pos_of_mul_pos_left this
  · rw [← map_nsmul, h0, map_zero]

theorem exponent_11 (P : (shortCurve (4 : Fp)).Point) : addOrderOf P ∣ 11 * (blsH1 * blsR / 11 ^ 2) := by
  obtain ⟨Q, hQ, h0⟩ := exists_q11
  exact exponent_part prime_11 (by decide +kernel) (by decide +kernel) (hasCoords_ne_zero comp1 hQ) h0
    (independent_two prime_11 (by decide) hQ (by decide +kernel) h0) P


def q10177 : Nat × Nat := (0x18f99f78e190a51e45d2dc033acaaa75c5d04d55d2d3f254b081177b1e1ce93e5e74f367cee0cdd9b0db25f1c42669f0,
  0x1044466df2a6bff61eff5935f43ba850a68e77f53fb7b4df0ff8f78e4edc1d86644d6fa945410acd3a9db11cc2d94cae)

theorem prime_10177 : Nat.Prime 10177 := by norm_num

theorem exponent_10177 (P : (shortCurve (4 : Fp)).Point) : addOrderOf P ∣ 10177 * (blsH1 * blsR / 10177 ^ 2) := by
  obtain ⟨Q, hQ⟩ := hasCoords1 q10177 (by decide +kernel)
  have h : mulPt comp1.toCompOps (bls12381P - 1) inv1 q10177 15 10176 =
      some (q10177.1, comp1.mul (bls12381P - 1) q10177.2) := by
    change mulPt (natOps bls12381P) (bls12381P - 1) inv1 q10177 15 10176 =
      some (q10177.1, (natOps bls12381P).mul (bls12381P - 1) q10177.2)
    decide +kernel
  have h0 : 10177 • Q = 0 := nsmul_eq_zero comp1 comp1_neg hQ h
  have ha : phi1 Q ≠ 4773 • Q := by
    have hm : ((mulPt comp1.toCompOps (bls12381P - 1) inv1 q10177 15 4773).map Prod.fst).elim false
        (fun x => beta * q10177.1 % bls12381P != x % bls12381P) = true := by
      change ((mulPt (natOps bls12381P) (bls12381P - 1) inv1 q10177 15 4773).map Prod.fst).elim false
        (fun x => beta * q10177.1 % bls12381P != x % bls12381P) = true
      decide +kernel
    cases hr : mulPt comp1.toCompOps (bls12381P - 1) inv1 q10177 15 4773 with
    | none => rw [hr] at hm; simp at hm
    | some d =>
      rw [hr] at hm
      exact hasCoords1_ne (phi1_coords hQ) (mulPt_sound comp1 comp1_neg hQ _ _ _ hr) (by simpa using hm)
  have hb : phi1 Q ≠ 5403 • Q := by
    have hm : ((mulPt comp1.toCompOps (bls12381P - 1) inv1 q10177 15 5403).map Prod.fst).elim false
        (fun x => beta * q10177.1 % bls12381P != x % bls12381P) = true := by
      change ((mulPt (natOps bls12381P) (bls12381P - 1) inv1 q10177 15 5403).map Prod.fst).elim false
        (fun x => beta * q10177.1 % bls12381P != x % bls12381P) = true
      decide +kernel
    cases hr : mulPt comp1.toCompOps (bls12381P - 1) inv1 q10177 15 5403 with
    | none => rw [hr] at hm; simp at hm
    | some d =>
      rw [hr] at hm
      exact hasCoords1_ne (phi1_coords hQ) (mulPt_sound comp1 comp1_neg hQ _ _ _ hr) (by simpa using hm)
  exact exponent_part prime_10177 (by decide +kernel) (by decide +kernel) (hasCoords_ne_zero comp1 hQ) h0
    (independent_one prime_10177 (by decide) (by decide) hQ (by decide +kernel) h0 ha hb) P


def q859267 : Nat × Nat := (0x360365ef8bbbcd2ec4da7f0609a2d2892a89b3bc0d9f23b6ebb093ce114157f4df021a7416c0a11868231f6426023bf,
  0x6ca82ab477fefddfb2c623a1b081eca6dde061016bced954578568ea40a4449d1767fc2650757a5bfa87aeec009abbd)

theorem prime_859267 : Nat.Prime 859267 := by norm_num

theorem exponent_859267 (P : (shortCurve (4 : Fp)).Point) : addOrderOf P ∣ 859267 * (blsH1 * blsR / 859267 ^ 2) := by
  obtain ⟨Q, hQ⟩ := hasCoords1 q859267 (by decide +kernel)
  have h : mulPt comp1.toCompOps (bls12381P - 1) inv1 q859267 21 859266 =
      some (q859267.1, comp1.mul (bls12381P - 1) q859267.2) := by
    change mulPt (natOps bls12381P) (bls12381P - 1) inv1 q859267 21 859266 =
      some (q859267.1, (natOps bls12381P).mul (bls12381P - 1) q859267.2)
    decide +kernel
  have h0 : 859267 • Q = 0 := nsmul_eq_zero comp1 comp1_neg hQ h
  have ha : phi1 Q ≠ 119571 • Q := by
    have hm : ((mulPt comp1.toCompOps (bls12381P - 1) inv1 q859267 21 119571).map Prod.fst).elim false
        (fun x => beta * q859267.1 % bls12381P != x % bls12381P) = true := by
      change ((mulPt (natOps bls12381P) (bls12381P - 1) inv1 q859267 21 119571).map Prod.fst).elim false
        (fun x => beta * q859267.1 % bls12381P != x % bls12381P) = true
      decide +kernel
    cases hr : mulPt comp1.toCompOps (bls12381P - 1) inv1 q859267 21 119571 with
    | none => rw [hr] at hm; simp at hm
    | some d =>
      rw [hr] at hm
      exact hasCoords1_ne (phi1_coords hQ) (mulPt_sound comp1 comp1_neg hQ _ _ _ hr) (by simpa using hm)
  have hb : phi1 Q ≠ 739695 • Q := by
    have hm : ((mulPt comp1.toCompOps (bls12381P - 1) inv1 q859267 21 739695).map Prod.fst).elim false
        (fun x => beta * q859267.1 % bls12381P != x % bls12381P) = true := by
      change ((mulPt (natOps bls12381P) (bls12381P - 1) inv1 q859267 21 739695).map Prod.fst).elim false
        (fun x => beta * q859267.1 % bls12381P != x % bls12381P) = true
      decide +kernel
    cases hr : mulPt comp1.toCompOps (bls12381P - 1) inv1 q859267 21 739695 with
    | none => rw [hr] at hm; simp at hm
    | some d =>
      rw [hr] at hm
      exact hasCoords1_ne (phi1_coords hQ) (mulPt_sound comp1 comp1_neg hQ _ _ _ hr) (by simpa using hm)
  exact exponent_part prime_859267 (by decide +kernel) (by decide +kernel) (hasCoords_ne_zero comp1 hQ) h0
    (independent_one prime_859267 (by decide) (by decide) hQ (by decide +kernel) h0 ha hb) P


def q52437899 : Nat × Nat := (0xa7802f55fac3d27cd8eb1fd6a1cb1f8bc27bb657dc54ef1cdb3b04c5baa2b47447e1f5f394e490c416ee22ec1470d15,
  0x125a09c340bdeb7a431b46edfdd5135267157d3e731405088f5b7a48abc50ab0508d06cbbb4afea36ca381176b63d78b)

theorem prime_52437899 : Nat.Prime 52437899 := by norm_num

theorem exponent_52437899 (P : (shortCurve (4 : Fp)).Point) : addOrderOf P ∣ 52437899 * (blsH1 * blsR / 52437899 ^ 2) := by
  obtain ⟨Q, hQ⟩ := hasCoords1 q52437899 (by decide +kernel)
  have h : mulPt comp1.toCompOps (bls12381P - 1) inv1 q52437899 27 52437898 =
      some (q52437899.1, comp1.mul (bls12381P - 1) q52437899.2) := by
    change mulPt (natOps bls12381P) (bls12381P - 1) inv1 q52437899 27 52437898 =
      some (q52437899.1, (natOps bls12381P).mul (bls12381P - 1) q52437899.2)
    decide +kernel
  have h0 : 52437899 • Q = 0 := nsmul_eq_zero comp1 comp1_neg hQ h
  exact exponent_part prime_52437899 (by decide +kernel) (by decide +kernel) (hasCoords_ne_zero comp1 hQ) h0
    (independent_two prime_52437899 (by decide) hQ (by decide +kernel) h0) P


/-- `h_eff = 1 - z` clears the cofactor although it is smaller than it. -/
theorem exponent_g1 (P : (shortCurve (4 : Fp)).Point) : (blsR * (g1Suite Fp).hEff) • P = 0 := by
  rw [← addOrderOf_dvd_iff_nsmul_eq_zero]
  have h := Nat.dvd_gcd (Nat.dvd_gcd (exponent_11 P) (exponent_10177 P)) (Nat.dvd_gcd (exponent_859267 P) (exponent_52437899 P))
  refine h.trans ?_
  change _ ∣ blsR * 0xd201000000010001
  decide +kernel

theorem exponent_g2 (P : (shortCurve (4 * (1 + im2))).Point) : (blsR * (g2Suite im2).hEff) • P = 0 := by
  rw [← addOrderOf_dvd_iff_nsmul_eq_zero]
  have h := addOrderOf_dvd_natCard P
  rw [card_g2] at h
  refine h.trans ?_
  simp only [g2Suite]
  decide +kernel

/-! ### The subgroups of order `r` -/

/-- In a group of order `h r` with `r` prime not dividing `h`, the elements killed by `r` form a group of order `r`. -/
theorem card_torsion {A : Type} [AddCommGroup A] {r h : ℕ} (hr : r.Prime) (hh : 0 < h) (hcard : Nat.card A = h * r) (hrh : ¬ r ∣ h) :
    Nat.card {P : A // r • P = 0} = r := by
  have hfin : Finite A := Nat.finite_of_card_ne_zero (by rw [hcard]; exact Nat.mul_ne_zero (by omega) hr.ne_zero)
  have : Fact r.Prime := ⟨hr⟩
  obtain ⟨G, hG⟩ := exists_prime_addOrderOf_dvd_card' (G := A) r (by rw [hcard]; exact dvd_mul_left _ _)
  rw [← hG, ← Nat.card_zmultiples]
  refine Nat.card_congr (Equiv.subtypeEquivRight ?_)
  intro x
  rw [Nat.card_zmultiples, hG]
  constructor
  · intro hx
    exact mem_zmultiples_of_nsmul (by rw [hcard, Nat.mul_comm]) (Nat.mul_pos hr.pos hh) hG
      ((Nat.Prime.coprime_iff_not_dvd hr).2 hrh) hx
  · rintro ⟨k, rfl⟩
    simp only
    rw [← natCast_zsmul, ← mul_zsmul, mul_comm, mul_zsmul, natCast_zsmul, ← hG, addOrderOf_nsmul_eq_zero, zsmul_zero]

end Verif.Curve
