import Verif.Props.H2C
import Verif.Props.H2F2
import Verif.Proof.CompRing
import Verif.Proof.Primes
import Mathlib.NumberTheory.LegendreSymbol.Basic
/-
C41, C42 for the two suites of the library, BLS12-381 G1 and G2.
-/
namespace Verif.Props
open Verif Verif.Spec.H2C

theorem prime_bls12381P : Nat.Prime bls12381P := prime_bls12381_p

instance factBlsP : Fact (Nat.Prime bls12381P) := ⟨prime_bls12381P⟩

/-- The base field. -/
abbrev Fp := ZMod bls12381P

theorem fp_char : ((bls12381P : Nat) : Fp) = 0 := ZMod.natCast_self _

/-! ### Signs -/

theorem val_neg_parity {p : Nat} [Fact p.Prime] (hp : p % 2 = 1) (y : ZMod p) (hy : y ≠ 0) :
    (-y).val % 2 = 1 - y.val % 2 := by
  rw [ZMod.neg_val, if_neg hy]
  have := ZMod.val_lt y
  omega

/-- The sign of a prime field of odd characteristic flips on negation. -/
theorem sgn0Fp_flips {p : Nat} [Fact p.Prime] (hp : p % 2 = 1) : SignFlips (sgn0Fp (p := p)) := by
  intro y hy
  unfold sgn0Fp
  rw [val_neg_parity hp y hy]
  rcases Nat.mod_two_eq_zero_or_one y.val with h | h <;> simp [h]

/-- `sgn0` of the code is the one of RFC 9380 section 4.1. -/
theorem C41_sgn0_fp {p : Nat} (y : ZMod p) : (sgn0Fp y).toNat = Spec.H2C.sgn0 [y.val] := by
  unfold sgn0Fp Spec.H2C.sgn0
  simp only [List.foldl_cons, List.foldl_nil]
  rcases Nat.mod_two_eq_zero_or_one y.val with h | h <;> simp [h]

theorem C41_sgn0_fp2 {p : Nat} {a b : ZMod p} (y : QuadraticAlgebra (ZMod p) a b) :
    (sgn0Fp2 y).toNat = Spec.H2C.sgn0 [y.re.val, y.im.val] := by
  unfold sgn0Fp2 Spec.H2C.sgn0
  simp only [List.foldl_cons, List.foldl_nil]
  rcases Nat.mod_two_eq_zero_or_one y.re.val with h | h <;>
    rcases Nat.mod_two_eq_zero_or_one y.im.val with h' | h' <;>
    by_cases h0 : y.re.val = 0 <;> simp [h, h', h0]

theorem sgn0Fp2_flips {p : Nat} [Fact p.Prime] (hp : p % 2 = 1) (a b : ZMod p)
    [Fact (∀ r : ZMod p, r ^ 2 ≠ a + b * r)] :
    SignFlips (F := QuadraticAlgebra (ZMod p) a b) (fun y => sgn0Fp2 y) := by
  intro y hy
  simp only [sgn0Fp2, QuadraticAlgebra.re_neg, QuadraticAlgebra.im_neg]
  by_cases h0 : y.re = 0
  · have h1 : y.im ≠ 0 := by
      intro h; apply hy; ext
      · exact h0
      · exact h
    rw [val_neg_parity hp y.im h1]
    rcases Nat.mod_two_eq_zero_or_one y.im.val with h | h <;> simp [h, h0]
  · have h2 : (-y.re).val ≠ 0 := by
      rw [Ne, ZMod.val_eq_zero]; simpa using h0
    have h3 : y.re.val ≠ 0 := by rw [Ne, ZMod.val_eq_zero]; exact h0
    rw [val_neg_parity hp y.re h0]
    rcases Nat.mod_two_eq_zero_or_one y.re.val with h | h <;> simp [h, h2, h3]

/-! ### Squares -/

theorem cast_eq_of_mod {R : Type} [CommRing R] {p a b : Nat} (hp : (p : R) = 0) (h : a % p = b % p) : (a : R) = b := by
  rw [← natCast_mod p hp a, ← natCast_mod p hp b, h]

theorem fp_pow (n e r : Nat) (h : powMod bls12381P 400 n e = r) (he : e < 2 ^ 400) : (n : Fp) ^ e = r := by
  have := powMod_cast (R := Fp) bls12381P fp_char 400 n e he
  rw [← this, h]

theorem fp_nonsquare (n : Nat) (h : powMod bls12381P 400 n (bls12381P / 2) = bls12381P - 1) : ¬ IsSquare (n : Fp) := by
  have hpow := fp_pow n _ _ h (by decide)
  have hm : ((bls12381P - 1 : Nat) : Fp) = -1 := by
    rw [Nat.cast_sub (by decide), fp_char]; simp
  rw [hm] at hpow
  have h2 : (1 : Fp) ≠ -1 := by
    intro h
    have h3 : ((2 : Nat) : Fp) = 0 := by push_cast; linear_combination h
    rw [ZMod.natCast_eq_zero_iff] at h3
    exact absurd (Nat.le_of_dvd (by norm_num) h3) (by decide)
  intro hsq
  have hn : (n : Fp) ≠ 0 := by
    intro h0
    rw [h0, zero_pow (by decide)] at hpow
    exact one_ne_zero (α := Fp) (by linear_combination hpow)
  rw [ZMod.euler_criterion bls12381P hn, hpow] at hsq
  exact h2 hsq.symm

/-! ### Evaluation of polynomials through codes -/

theorem poly_cons {F : Type} [Field F] (c : F) (cs : List F) (x : F) : poly (c :: cs) x = c + x * poly cs x := by
  have h : ∀ (cs : List F) (k : Nat), (cs.mapIdx fun i c => c * x ^ (i + k)).sum =
      x ^ k * (cs.mapIdx fun i c => c * x ^ i).sum := by
    intro cs
    induction cs with
    | nil => intro k; simp
    | cons c cs ih =>
      intro k
      rw [List.mapIdx_cons, List.mapIdx_cons, List.sum_cons, List.sum_cons]
      have e1 := ih (k + 1)
      have e2 := ih 1
      have e3 : ∀ i, i + 1 + k = i + (k + 1) := by intro i; omega
      simp only [e3, e1, e2, zero_add]
      ring
  unfold poly
  rw [List.mapIdx_cons, List.sum_cons, h cs 1]
  simp

theorem poly_cast {F K : Type} [Field F] (C : CompRing K F) (cs : List K) (x : F) :
    poly (cs.map C.cast) x = polyEval C cs x := by
  induction cs with
  | nil => simp [poly, polyEval]
  | cons c cs ih => rw [List.map_cons, poly_cons, ih]; rfl

theorem poly_monic {F K : Type} [Field F] (C : CompRing K F) (cs : List K) (x : F) :
    poly (cs.map C.cast) x + x ^ cs.length = polyEval C (cs ++ [C.one]) x := by
  induction cs with
  | nil => simp [poly, polyEval, C.cast_one]
  | cons c cs ih =>
    rw [List.map_cons, poly_cons, List.length_cons, pow_succ]
    have : polyEval C (c :: cs ++ [C.one]) x = C.cast c + x * polyEval C (cs ++ [C.one]) x := rfl
    rw [this, ← ih]; ring

/-- The polynomial identity that makes a rational map send `y² = x³ + A x + B` to `y² = x³ + D`. -/
def isoIdentity {K : Type} (C : CompOps K) (xNum xDen yNum yDen : List K) (A B D : K) : Prop :=
  let xd := xDen ++ [C.one]
  let yd := yDen ++ [C.one]
  let xd3 := C.polyMul xd (C.polyMul xd xd)
  C.polyMul (C.polyMul (C.polyMul yNum yNum) [B, A, C.zero, C.one]) xd3 =
    C.polyMul (C.polyAdd (C.polyMul xNum (C.polyMul xNum xNum)) (C.polyScale D xd3)) (C.polyMul yd yd)

instance {K : Type} [DecidableEq K] (C : CompOps K) (xNum xDen yNum yDen : List K) (A B D : K) :
    Decidable (isoIdentity C xNum xDen yNum yDen A B D) := by unfold isoIdentity; infer_instance

/-- C42 from the identity: points of the auxiliary curve where the denominators do not vanish go to points of the
target curve. -/
theorem iso_of_identity {F K : Type} [Field F] [DecidableEq F] (C : CompRing K F) (xNum xDen yNum yDen : List K)
    (A B D : K) (h : isoIdentity C.toCompOps xNum xDen yNum yDen A B D) (P Q : F × F)
    (hP : OnCurve (C.cast A) (C.cast B) P)
    (hQ : Spec.H2C.isoMap (xNum.map C.cast) (xDen.map C.cast) (yNum.map C.cast) (yDen.map C.cast) P = some Q) :
    OnCurve 0 (C.cast D) Q := by
  unfold isoIdentity at h
  simp only at h
  have he := congrArg (fun l => polyEval C l P.1) h
  simp only [eval_polyMul, eval_polyAdd, eval_polyScale] at he
  have hg : polyEval C [B, A, C.zero, C.one] P.1 = P.1 ^ 3 + C.cast A * P.1 + C.cast B := by
    simp only [polyEval, List.foldr_cons, List.foldr_nil, C.cast_zero, C.cast_one]; ring
  rw [hg] at he
  unfold Spec.H2C.isoMap at hQ
  simp only [List.length_map, poly_monic] at hQ
  simp only [poly_cast] at hQ
  unfold OnCurve at hP ⊢
  rw [← hP] at he
  split at hQ
  · cases hQ
  · rename_i hne
    have hx : polyEval C (xDen ++ [C.one]) P.1 ≠ 0 := fun h => hne (Or.inl h)
    have hy : polyEval C (yDen ++ [C.one]) P.1 ≠ 0 := fun h => hne (Or.inr h)
    injection hQ with hQ
    rw [← hQ]
    simp only [zero_mul, add_zero]
    generalize polyEval C (xDen ++ [C.one]) P.1 = xd at *
    generalize polyEval C (yDen ++ [C.one]) P.1 = yd at *
    generalize polyEval C xNum P.1 = xn at *
    generalize polyEval C yNum P.1 = yn at *
    have key : (P.2 * yn) ^ 2 * xd ^ 3 = (xn ^ 3 + C.cast D * xd ^ 3) * yd ^ 2 := by linear_combination he
    rw [div_pow, div_pow, div_add' _ _ _ (pow_ne_zero 3 hx), div_eq_div_iff (pow_ne_zero 2 hy) (pow_ne_zero 3 hx)]
    exact key

/-! ### G1 -/

def g1A : Nat := 0x144698a3b8e9433d693a02c96d4982b0ea985383ee66a8d8e8981aefd881ac98936f8da0e0f97f5cf428082d584c1d
def g1B : Nat := 0x12e2908d11688030018b12e8753eee3b2016c1f0f24f4070a0b9c14fcef35ef55a23215a316ceaa5d1cc48e98e172be0

theorem g1_identity : isoIdentity (natOps bls12381P) g1XNum g1XDen g1YNum g1YDen g1A g1B 4 := by decide +kernel

/-- C42 for G1: the 11-isogeny sends points of `E'` with non-vanishing denominators to `y² = x³ + 4`, over every
field of characteristic `p`, and the code returns that point. -/
theorem C42_g1 {F : Type} [Field F] [DecidableEq F] (hp : ((bls12381P : Nat) : F) = 0) (one P : F × F)
    (hP : OnCurve (g1Suite F).A (g1Suite F).B P) :
    ∃ Q, Verif.isoMap one (g1Suite F).powers (g1Suite F).xNum (g1Suite F).xDen (g1Suite F).yNum (g1Suite F).yDen P =
        Except.ok Q ∧
      (Spec.H2C.isoMap (g1Suite F).xNum (g1Suite F).xDen (g1Suite F).yNum (g1Suite F).yDen P = some Q ∧ OnCurve 0 4 Q ∨
       Spec.H2C.isoMap (g1Suite F).xNum (g1Suite F).xDen (g1Suite F).yNum (g1Suite F).yDen P = none ∧ Q = one) := by
  refine ⟨_, C42_evaluation one 15 _ _ _ _ (by simp [g1Suite, g1XNum]) (by simp [g1Suite, g1XDen])
    (by simp [g1Suite, g1YNum]) (by simp [g1Suite, g1YDen]) P, ?_⟩
  rcases h : Spec.H2C.isoMap (g1Suite F).xNum (g1Suite F).xDen (g1Suite F).yNum (g1Suite F).yDen P with _ | Q
  · exact Or.inr ⟨rfl, rfl⟩
  · left
    refine ⟨rfl, ?_⟩
    have := iso_of_identity (natComp bls12381P hp) g1XNum g1XDen g1YNum g1YDen g1A g1B 4 g1_identity P Q hP h
    have e : (natComp (R := F) bls12381P hp).cast 4 = 4 := by simp [natComp]
    rw [e] at this
    exact this

def g1RootInv : Nat × Nat × Nat :=
  (0x17448748eeb644c01bd8057d96d58bf3f56dedb39ad2b8245ba9a28c10776e080b744052c94b6390529b9660a03a1986,
   0x18187c126f186c0a9f6f0d1f8272d486eb52eafc397301284c33978f6725beed58618a096f407589d87a79f85692431c,
   0x2025e63d1547326558ac99b4d2bc7467f029caf4cfdf46c95bd68e5dd6cce7df8b66358a41bc8255fb51cd887a4d803)

theorem g1_root_check : (natOps bls12381P).rootCheck (bls12381P - g1B) (bls12381P - g1A) (bls12381P - 1) bls12381P 400
    g1RootInv := by decide +kernel

/-- `E'` of G1 has no point of order two. -/
theorem g1_no_root (x : Fp) : x ^ 3 + (g1Suite Fp).A * x + (g1Suite Fp).B ≠ 0 := by
  have h := no_root (natComp (R := Fp) bls12381P fp_char) (bls12381P - g1B) (bls12381P - g1A) (bls12381P - 1)
    bls12381P 400 g1RootInv (by decide) (by
      show ((bls12381P - 1 : Nat) : Fp) = -1
      rw [Nat.cast_sub (by decide), fp_char]; simp) g1_root_check x (ZMod.pow_card x)
  intro h0
  apply h
  show x ^ 3 = ((bls12381P - g1B : Nat) : Fp) + ((bls12381P - g1A : Nat) : Fp) * x
  rw [Nat.cast_sub (by decide), Nat.cast_sub (by decide), fp_char]
  have e : x ^ 3 + (g1A : Fp) * x + (g1B : Fp) = 0 := h0
  linear_combination e

theorem fp_ne_zero (n : Nat) (h : n % bls12381P ≠ 0) : (n : Fp) ≠ 0 := by
  rw [Ne, ZMod.natCast_eq_zero_iff]
  intro hd
  exact h (Nat.mod_eq_zero_of_dvd hd)

theorem g1_admissible : SwuAdmissible (g1Suite Fp).A (g1Suite Fp).B (g1Suite Fp).Z := by
  have hA : (g1A : Fp) ≠ 0 := fp_ne_zero _ (by decide)
  have hZ : ((11 : Nat) : Fp) ≠ 0 := fp_ne_zero _ (by decide)
  refine ⟨hA, fp_ne_zero g1B (by decide), fp_nonsquare 11 (by decide +kernel), ?_⟩
  show IsSquare (((g1B : Fp) / (((11 : Nat) : Fp) * (g1A : Fp))) ^ 3 +
    (g1A : Fp) * ((g1B : Fp) / (((11 : Nat) : Fp) * (g1A : Fp))) + (g1B : Fp))
  have hd : (g1B : Fp) / (((11 : Nat) : Fp) * (g1A : Fp)) = ((g1B *
      0xaea52ae7093dc2a9262c5ed6dcecc1cc11251b33feedaefc2a209abe35260c66f61ccdb880ab37ecd9f6d4350077488 : Nat) : Fp) := by
    rw [div_eq_iff (mul_ne_zero hZ hA), ← Nat.cast_mul, ← Nat.cast_mul]
    exact cast_eq_of_mod fp_char (by decide +kernel)
  rw [hd]
  refine ⟨((0x5be3446f07e910e291153e84f1dabd3dfe5c2b1080d8b6a640425c3826f2a429373f9bab7e8308f6dd10ffa11124dbc : Nat) :
    Fp), ?_⟩
  rw [← Nat.cast_pow, ← Nat.cast_mul, ← Nat.cast_mul, ← Nat.cast_add, ← Nat.cast_add]
  exact cast_eq_of_mod fp_char (by decide +kernel)

/-- C41 for G1: for every `u`, the map returns the point that RFC 9380 section 6.6.2 prescribes, with the sign of
section 4.1; the point is on `E'`. -/
theorem C41_g1 (O : FieldOps Fp) (hO : FieldOps.Correct O) (hs : O.sgn0 = sgn0Fp) (u : Fp) :
    SimpleSwu (fun x : Fp => Spec.H2C.sgn0 [x.val]) (g1Suite Fp).A (g1Suite Fp).B (g1Suite Fp).Z u
      (sswu O (g1Suite Fp).A (g1Suite Fp).B (g1Suite Fp).Z u) := by
  have h := C41_rfc O hO (by rw [hs]; exact sgn0Fp_flips (by decide)) g1_admissible g1_no_root u
  rw [hs] at h
  simpa only [C41_sgn0_fp] using h

/-- A computable instance of the algebra library's contract: `p ≡ 3 mod 4`. -/
def opsFp : FieldOps Fp where
  isSquare a := decide (a = 0 ∨ a ^ (bls12381P / 2) = 1)
  sqrt a := a ^ ((bls12381P + 1) / 4)
  sgn0 := sgn0Fp

theorem opsFp_correct : FieldOps.Correct opsFp := by
  have hsq : ∀ a : Fp, IsSquare a ↔ a = 0 ∨ a ^ (bls12381P / 2) = 1 := by
    intro a
    by_cases h : a = 0
    · subst h; simp
    · rw [ZMod.euler_criterion bls12381P h]; simp [h]
  constructor
  · intro a; simp only [opsFp, decide_eq_true_eq, hsq]
  · intro a h
    simp only [opsFp]
    rw [← pow_add]
    rcases (hsq a).mp h with h | h
    · subst h; exact zero_pow (by decide)
    · rw [show (bls12381P + 1) / 4 + (bls12381P + 1) / 4 = bls12381P / 2 + 1 by decide, pow_succ, h, one_mul]

/-- `C41_g1` and `C42_g1` with these operations: the hypotheses hold at `u = 5`, and the point mapped by the isogeny is one of
`E'`. -/
example : SimpleSwu (fun x : Fp => Spec.H2C.sgn0 [x.val]) (g1Suite Fp).A (g1Suite Fp).B (g1Suite Fp).Z 5
    (sswu opsFp (g1Suite Fp).A (g1Suite Fp).B (g1Suite Fp).Z 5) := C41_g1 opsFp opsFp_correct rfl 5

example : ∃ Q, Verif.isoMap (0, 2) (g1Suite Fp).powers (g1Suite Fp).xNum (g1Suite Fp).xDen (g1Suite Fp).yNum
    (g1Suite Fp).yDen (sswu opsFp (g1Suite Fp).A (g1Suite Fp).B (g1Suite Fp).Z 5) = Except.ok Q := by
  obtain ⟨Q, h, _⟩ := C42_g1 fp_char (0, 2) _ (C41_on_curve opsFp opsFp_correct g1_admissible 5)
  exact ⟨Q, h⟩

/-! ### G1: the exceptional points -/

/-- An input that the simplified SWU map sends to a point of the kernel of the isogeny. -/
def g1Bad : Nat := 0x1377c0192d99508a317127abf17c64205c7aad448380027efb47ae73ea231dbd6ecd3f2841b63d309c35bb8fd13e48f0
def g1BadX : Nat := 0x10ef325dd1e98bdf0d97a4c6b7f968ed7f31f2fbff088acb39d5319cfc261ea18773405f325612742f0c5d90634bcf4
def g1BadTv : Nat := 0xea4c66f4190e5dc47a1baeba193d2638d076926a96a21d6efbe5f6ddb68743c84d46e137110ae7db45832488c9188ad
def g1BadAi : Nat := 0x100d45d5f05adb6b1dcfe25aaab411deb9ec549ff12f1d4fc0331fdee9c64ff64e83cd741325b673edddb1e47053572c
def g1BadY : Nat := 0xeb3efc0a8592166adb221f4b9158d9ff0d160ce6a2cc1a280b3ec28c01870fa13ca7cddd7ba78f6cd54fe36375cd5fd

theorem g1Bad_x1 : sswuX1 (g1Suite Fp).A (g1Suite Fp).B (g1Suite Fp).Z (g1Bad : Fp) = (g1BadX : Fp) := by
  show sswuX1 (g1A : Fp) (g1B : Fp) ((11 : Nat) : Fp) (g1Bad : Fp) = (g1BadX : Fp)
  have ht : (((11 : Nat) : Fp) ^ 2 * (g1Bad : Fp) ^ 4 + ((11 : Nat) : Fp) * (g1Bad : Fp) ^ 2) * (g1BadTv : Fp) = 1 := by
    rw [← Nat.cast_pow, ← Nat.cast_pow, ← Nat.cast_pow, ← Nat.cast_mul, ← Nat.cast_mul, ← Nat.cast_add, ← Nat.cast_mul]
    exact (cast_eq_of_mod fp_char (b := 1) (by decide +kernel)).trans Nat.cast_one
  have hi := inv_eq_of_mul_eq_one_right ht
  have ha : (g1A : Fp) * (g1BadAi : Fp) = 1 := by
    rw [← Nat.cast_mul]
    exact (cast_eq_of_mod fp_char (b := 1) (by decide +kernel)).trans Nat.cast_one
  have hai := inv_eq_of_mul_eq_one_right ha
  unfold sswuX1
  simp only [hi]
  rw [if_neg (fp_ne_zero _ (by decide)), div_eq_mul_inv, hai]
  have e : ((g1B * g1BadAi * (1 + g1BadTv) + g1BadX : Nat) : Fp) = ((0 : Nat) : Fp) :=
    cast_eq_of_mod fp_char (by decide +kernel)
  push_cast at e
  linear_combination -e

theorem g1Bad_square : IsSquare (sswuG (g1Suite Fp).A (g1Suite Fp).B (g1BadX : Fp)) := by
  refine ⟨(g1BadY : Fp), ?_⟩
  show (g1BadX : Fp) ^ 3 + (g1A : Fp) * (g1BadX : Fp) + (g1B : Fp) = _
  rw [← Nat.cast_pow, ← Nat.cast_mul, ← Nat.cast_mul, ← Nat.cast_add, ← Nat.cast_add]
  exact cast_eq_of_mod fp_char (by decide +kernel)

theorem g1Bad_den : poly (g1Suite Fp).xDen (g1BadX : Fp) + (g1BadX : Fp) ^ (g1Suite Fp).xDen.length = 0 := by
  have h := poly_monic (natComp (R := Fp) bls12381P fp_char) g1XDen (g1BadX : Fp)
  have hl : (g1Suite Fp).xDen.length = g1XDen.length := by simp [g1Suite]
  rw [hl]
  refine h.trans ?_
  have hev : ∀ cs : List Nat, polyEval (natComp (R := Fp) bls12381P fp_char) cs (g1BadX : Fp) =
      ((cs.foldr (fun c acc => (c + g1BadX * acc) % bls12381P) 0 : Nat) : Fp) := by
    intro cs
    induction cs with
    | nil => simp [polyEval]
    | cons c cs ih =>
      rw [List.foldr_cons, natCast_mod _ fp_char, Nat.cast_add, Nat.cast_mul, ← ih]
      rfl
  rw [hev, show (g1XDen ++ [(natComp (R := Fp) bls12381P fp_char).one]).foldr
    (fun c acc => (c + g1BadX * acc) % bls12381P) 0 = 0 from
    show (g1XDen ++ [1]).foldr (fun c acc => (c + g1BadX * acc) % bls12381P) 0 = 0 by decide +kernel]
  exact Nat.cast_zero

/-- C59 is false for G1: on `u = g1Bad` the specification returns the identity, but `map_to_curve` returns the
generator `one`, whatever `is_square` and `sqrt` the algebra library provides. -/
theorem C59_g1_false (O : FieldOps Fp) (hO : FieldOps.Correct O) (hs : O.sgn0 = sgn0Fp) (one : Fp × Fp) :
    mapToCurve O (g1Suite Fp) one (g1Bad : Fp) = Except.ok one ∧
    MapToCurve (fun x : Fp => Spec.H2C.sgn0 [x.val]) (g1Suite Fp).A (g1Suite Fp).B (g1Suite Fp).Z (g1Suite Fp).xNum
      (g1Suite Fp).xDen (g1Suite Fp).yNum (g1Suite Fp).yDen (g1Bad : Fp) none := by
  have hx : (sswu O (g1Suite Fp).A (g1Suite Fp).B (g1Suite Fp).Z (g1Bad : Fp)).1 = (g1BadX : Fp) := by
    rw [sswu_square O _ _ _ _ (by rw [g1Bad_x1]; exact (hO.isSquare_iff _).mpr g1Bad_square)]
    exact g1Bad_x1
  have hn : Spec.H2C.isoMap (g1Suite Fp).xNum (g1Suite Fp).xDen (g1Suite Fp).yNum (g1Suite Fp).yDen
      (sswu O (g1Suite Fp).A (g1Suite Fp).B (g1Suite Fp).Z (g1Bad : Fp)) = none := by
    unfold Spec.H2C.isoMap
    simp only
    rw [hx, if_pos (Or.inl g1Bad_den)]
  refine ⟨?_, _, C41_g1 O hO hs _, hn.symm⟩
  obtain ⟨Q, hQ, h⟩ := C42_g1 fp_char one _ (C41_on_curve O hO g1_admissible (g1Bad : Fp))
  refine hQ.trans ?_
  rcases h with ⟨h, _⟩ | ⟨_, h⟩
  · rw [hn] at h; cases h
  · rw [h]

/-- C59 for G1 apart from that: `map_to_curve` never faults, its result is on the curve when `one` is, and it is
the point that the specification prescribes unless the specification prescribes the identity. -/
theorem C59_g1_partial (O : FieldOps Fp) (hO : FieldOps.Correct O) (hs : O.sgn0 = sgn0Fp) (one : Fp × Fp)
    (h1 : OnCurve 0 4 one) (u : Fp) :
    ∃ Q R, mapToCurve O (g1Suite Fp) one u = Except.ok Q ∧ OnCurve 0 4 Q ∧
      MapToCurve (fun x : Fp => Spec.H2C.sgn0 [x.val]) (g1Suite Fp).A (g1Suite Fp).B (g1Suite Fp).Z (g1Suite Fp).xNum
        (g1Suite Fp).xDen (g1Suite Fp).yNum (g1Suite Fp).yDen u R ∧ (R = some Q ∨ R = none ∧ Q = one) := by
  obtain ⟨Q, hQ, h⟩ := C42_g1 fp_char one _ (C41_on_curve O hO g1_admissible u)
  rcases h with ⟨h, hc⟩ | ⟨h, he⟩
  · exact ⟨Q, some Q, hQ, hc, ⟨_, C41_g1 O hO hs u, h.symm⟩, Or.inl rfl⟩
  · exact ⟨Q, none, hQ, he ▸ h1, ⟨_, C41_g1 O hO hs u, h.symm⟩, Or.inr ⟨rfl, he⟩⟩

/-- `C59_g1_false` and `C59_g1_partial` with these operations; `(0, 2)` is on the curve. -/
example : mapToCurve opsFp (g1Suite Fp) (0, 2) (g1Bad : Fp) = Except.ok (0, 2) :=
  (C59_g1_false opsFp opsFp_correct rfl (0, 2)).1

example : ∃ Q, mapToCurve opsFp (g1Suite Fp) (0, 2) 5 = Except.ok Q ∧ OnCurve 0 4 Q := by
  obtain ⟨Q, _, h, hc, _⟩ := C59_g1_partial opsFp opsFp_correct rfl (0, 2) (by unfold OnCurve; norm_num) 5
  exact ⟨Q, h, hc⟩

end Verif.Props
