import Verif.Props.H2CCurve
/-
C59 for G1: the exceptional inputs, exactly.
-/
namespace Verif.Props
open Verif Verif.Spec Verif.Spec.H2C

section
variable {F : Type} [Field F] [DecidableEq F]

/-- What the first coordinate `r` of the simplified SWU map of `u` says about `u²`. -/
theorem swu_cases {sgn : F → Nat} {A B Z u : F} {P : F × F} (ha : SwuAdmissible A B Z) (h : SimpleSwu sgn A B Z u P) :
    P.1 * (Z * A) = B ∨
    (P.1 * A + B) * Z ^ 2 * (u ^ 2) ^ 2 + (P.1 * A + B) * Z * u ^ 2 + B = 0 ∨
    B * Z ^ 2 * (u ^ 2) ^ 2 + (P.1 * A + B) * Z * u ^ 2 + (P.1 * A + B) = 0 := by
  obtain ⟨x1, h1, h2, h3, h4, _⟩ := h.steps
  by_cases hT : Z ^ 2 * u ^ 4 + Z * u ^ 2 = 0
  · left
    have e := h2 hT
    rw [h3 (by rw [e]; exact ha.hg), e]
    exact div_mul_cancel₀ B (mul_ne_zero ha.hZ0 ha.hA)
  · right
    have e : x1 * A * (Z ^ 2 * u ^ 4 + Z * u ^ 2) = -B * (Z ^ 2 * u ^ 4 + Z * u ^ 2 + 1) := by
      rw [h1 hT]
      have hi := div_mul_cancel₀ (1 : F) hT
      have hq := div_mul_cancel₀ (-B) ha.hA
      linear_combination (1 + 1 / (Z ^ 2 * u ^ 4 + Z * u ^ 2)) * (Z ^ 2 * u ^ 4 + Z * u ^ 2) * hq - B * hi
    by_cases hs : IsSquare (x1 ^ 3 + A * x1 + B)
    · left
      rw [h3 hs]
      linear_combination e
    · right
      rw [h4 hs]
      linear_combination e

/-- `u` with `x1 = r`, a point of the curve: the map returns `r`. -/
theorem swu_first {sgn : F → Nat} {A B Z u r : F} {P : F × F} (ha : SwuAdmissible A B Z) (h : SimpleSwu sgn A B Z u P)
    (hr : IsSquare (r ^ 3 + A * r + B))
    (hq : (r * A + B) * Z ^ 2 * (u ^ 2) ^ 2 + (r * A + B) * Z * u ^ 2 + B = 0) : P.1 = r := by
  obtain ⟨x1, h1, h2, h3, h4, _⟩ := h.steps
  have hT : Z ^ 2 * u ^ 4 + Z * u ^ 2 ≠ 0 := by
    intro h0
    exact ha.hB (by linear_combination hq - (r * A + B) * h0)
  have e : x1 = r := by
    rw [h1 hT]
    have hi := div_mul_cancel₀ (1 : F) hT
    have hq' := div_mul_cancel₀ (-B) ha.hA
    refine mul_right_cancel₀ (mul_ne_zero ha.hA hT) ?_
    linear_combination (1 + 1 / (Z ^ 2 * u ^ 4 + Z * u ^ 2)) * (Z ^ 2 * u ^ 4 + Z * u ^ 2) * hq' - B * hi - hq
  rw [h3 (by rw [e]; exact hr), e]

/-- `u` with `x2 = r`, a point of the curve: the map returns `r`. -/
theorem swu_second {sgn : F → Nat} {A B Z u r : F} {P : F × F} (ha : SwuAdmissible A B Z)
    (hroot : ∀ x : F, x ^ 3 + A * x + B ≠ 0) (h : SimpleSwu sgn A B Z u P)
    (hr : IsSquare (r ^ 3 + A * r + B)) (hrB : r * A + B ≠ 0)
    (hq : B * Z ^ 2 * (u ^ 2) ^ 2 + (r * A + B) * Z * u ^ 2 + (r * A + B) = 0) : P.1 = r := by
  obtain ⟨x1, h1, h2, h3, h4, _⟩ := h.steps
  have hv : Z * u ^ 2 ≠ 0 := by
    intro h0
    exact hrB (by linear_combination hq - (B * Z * u ^ 2 + (r * A + B)) * h0)
  have hv1 : Z * u ^ 2 + 1 ≠ 0 := by
    intro h0
    exact ha.hB (by linear_combination hq - (B * Z * u ^ 2 - B + (r * A + B)) * h0)
  have hT : Z ^ 2 * u ^ 4 + Z * u ^ 2 ≠ 0 := by
    intro h0
    exact mul_ne_zero hv hv1 (by linear_combination h0)
  have e : Z * u ^ 2 * x1 = r := by
    rw [h1 hT]
    have hi := div_mul_cancel₀ (1 : F) hT
    have hq' := div_mul_cancel₀ (-B) ha.hA
    refine mul_right_cancel₀ (mul_ne_zero ha.hA hv1) ?_
    linear_combination (1 + 1 / (Z ^ 2 * u ^ 4 + Z * u ^ 2)) * (Z ^ 2 * u ^ 4 + Z * u ^ 2) * hq' - B * hi - hq
  rw [h4 ?_, e]
  rintro hs
  have key : r ^ 3 + A * r + B = (Z * u ^ 2) ^ 3 * (x1 ^ 3 + A * x1 + B) := by
    have := sswu_identity (B := B) (u := u) ha.hA hT
    simp only at this
    rw [← e, h1 hT, one_div]
    exact this
  have hu : u ≠ 0 := by rintro rfl; exact hv (by ring)
  rw [key] at hr
  obtain ⟨s, hs⟩ := hs
  obtain ⟨t, ht⟩ := hr
  have hs0 : s ≠ 0 := by
    rintro rfl
    exact hroot x1 (by rw [hs]; ring)
  refine ha.hZ ⟨t / (Z * u ^ 3 * s), ?_⟩
  have hz := ha.hZ0
  rw [div_mul_div_comm, ← ht, hs, eq_div_iff (by
    exact mul_ne_zero (mul_ne_zero (mul_ne_zero hz (pow_ne_zero 3 hu)) hs0) (mul_ne_zero (mul_ne_zero hz (pow_ne_zero 3 hu)) hs0))]
  ring

end

/-! ### The kernel of the isogeny -/

/-- First coordinates of the points of `E'` where the denominators of the 11-isogeny vanish. -/
def g1Kernel : List Nat :=
  [0x10ef325dd1e98bdf0d97a4c6b7f968ed7f31f2fbff088acb39d5319cfc261ea18773405f325612742f0c5d90634bcf4,
   0xd7f2d0d03ae035321eed4c1479d13251abf0e9a96479623eb5380b575e319851fb5e5a8b43b9c1a46880f54bf2b2f7c,
   0x105249b4cac630ce5aa18e6c1189a18c82019b4e12e491fbac012c259ca3a67f638560b8bb416af02a4724385ed0fc8e,
   0x140d41735b10ce710727cd9356905701a2b866b803baa468948b7f423ddcc560c9a8f1cd5f8ed4297c37464fb8bfe4a7,
   0x1665a9c648e78314490a94f654d9b1039ab85847223bfaed9aa54f0f07736d122d1ceca1ac0e9123e753fde16e97c3d7]

theorem eval_linear (r : Nat) (hr : r ≤ bls12381P) (x : Fp) :
    polyEval (natComp (R := Fp) bls12381P fp_char) [bls12381P - r, 1] x = x - r := by
  simp only [polyEval, natComp, List.foldr_cons, List.foldr_nil]
  rw [Nat.cast_sub hr, fp_char]
  push_cast
  ring

def linProd (rs : List Nat) : List Nat := rs.foldr (fun r acc => (natOps bls12381P).polyMul [bls12381P - r, 1] acc) [1]

theorem eval_linProd (rs : List Nat) (hr : ∀ r ∈ rs, r ≤ bls12381P) (x : Fp) :
    polyEval (natComp (R := Fp) bls12381P fp_char) (linProd rs) x = 0 ↔ ∃ r ∈ rs, x = (r : Fp) := by
  induction rs with
  | nil => simp [linProd, polyEval, natComp]
  | cons r rs ih =>
    have e : polyEval (natComp (R := Fp) bls12381P fp_char) (linProd (r :: rs)) x =
        polyEval (natComp (R := Fp) bls12381P fp_char) [bls12381P - r, 1] x *
          polyEval (natComp (R := Fp) bls12381P fp_char) (linProd rs) x :=
      eval_polyMul (natComp (R := Fp) bls12381P fp_char) _ _ _
    rw [e, eval_linear r (hr r (by simp)), mul_eq_zero, sub_eq_zero, ih (fun s hs => hr s (by simp [hs]))]
    simp

theorem g1_kernel_square : (natOps bls12381P).polyMul (linProd g1Kernel) (linProd g1Kernel) = g1XDen ++ [1] := by
  decide +kernel

theorem g1_kernel_cube : (natOps bls12381P).polyMul (linProd g1Kernel) (g1XDen ++ [1]) = g1YDen ++ [1] := by
  decide +kernel

/-- The denominators vanish exactly on the five points. -/
theorem g1_isoMap_none (P : Fp × Fp) :
    Spec.H2C.isoMap (g1Suite Fp).xNum (g1Suite Fp).xDen (g1Suite Fp).yNum (g1Suite Fp).yDen P = none ↔
      ∃ r ∈ g1Kernel, P.1 = (r : Fp) := by
  rw [← eval_linProd g1Kernel (by decide) P.1]
  have e1 : polyEval (natComp (R := Fp) bls12381P fp_char) (g1XDen ++ [1]) P.1 =
      polyEval (natComp (R := Fp) bls12381P fp_char) (linProd g1Kernel) P.1 ^ 2 := by
    rw [← g1_kernel_square, sq]; exact eval_polyMul (natComp (R := Fp) bls12381P fp_char) _ _ _
  have e2 : polyEval (natComp (R := Fp) bls12381P fp_char) (g1YDen ++ [1]) P.1 =
      polyEval (natComp (R := Fp) bls12381P fp_char) (linProd g1Kernel) P.1 ^ 3 := by
    rw [← g1_kernel_cube, pow_succ', ← e1]; exact eval_polyMul (natComp (R := Fp) bls12381P fp_char) _ _ _
  have l1 : (g1Suite Fp).xDen.length = g1XDen.length := by simp [g1Suite]
  have l2 : (g1Suite Fp).yDen.length = g1YDen.length := by simp [g1Suite]
  have m1 : poly (g1Suite Fp).xDen P.1 + P.1 ^ g1XDen.length =
      polyEval (natComp (R := Fp) bls12381P fp_char) (g1XDen ++ [1]) P.1 :=
    poly_monic (natComp (R := Fp) bls12381P fp_char) g1XDen P.1
  have m2 : poly (g1Suite Fp).yDen P.1 + P.1 ^ g1YDen.length =
      polyEval (natComp (R := Fp) bls12381P fp_char) (g1YDen ++ [1]) P.1 :=
    poly_monic (natComp (R := Fp) bls12381P fp_char) g1YDen P.1
  unfold Spec.H2C.isoMap
  simp only [l1, l2, m1, m2, e1, e2]
  generalize polyEval (natComp (R := Fp) bls12381P fp_char) (linProd g1Kernel) P.1 = k
  constructor
  · intro h
    by_contra hk
    rw [if_neg (by rintro (h | h) <;> exact pow_ne_zero _ hk h)] at h
    cases h
  · rintro rfl
    simp

/-! ### Quadratic equations -/

/-- A quadratic with non-square discriminant has no root. -/
theorem quad_none (a b c : Nat)
    (h : powMod bls12381P 400 (b * b + (bls12381P - 1) * (4 * a * c)) (bls12381P / 2) = bls12381P - 1) (w : Fp) :
    (a : Fp) * w ^ 2 + b * w + c ≠ 0 := by
  intro h0
  refine fp_nonsquare _ h ⟨2 * a * w + b, ?_⟩
  push_cast
  rw [Nat.cast_sub (by decide), fp_char]
  push_cast
  linear_combination -4 * (a : Fp) * h0

/-- A quadratic with two given roots has no others. -/
theorem quad_two (a b c w1 w2 : Nat) (ha : a % bls12381P ≠ 0) (hb : (b + a * (w1 + w2)) % bls12381P = 0)
    (hc : a * (w1 * w2) % bls12381P = c % bls12381P) (w : Fp) :
    (a : Fp) * w ^ 2 + b * w + c = 0 ↔ w = w1 ∨ w = w2 := by
  have ha' := fp_ne_zero a ha
  have hb' : ((b + a * (w1 + w2) : Nat) : Fp) = ((0 : Nat) : Fp) := cast_eq_of_mod fp_char (by rw [hb]; rfl)
  have hc' : ((a * (w1 * w2) : Nat) : Fp) = (c : Fp) := cast_eq_of_mod fp_char hc
  push_cast at hb' hc'
  have e : (a : Fp) * w ^ 2 + b * w + c = a * ((w - w1) * (w - w2)) := by linear_combination w * hb' - hc'
  rw [e, mul_eq_zero, mul_eq_zero, sub_eq_zero, sub_eq_zero]
  simp [ha']

/-- The inputs that the simplified SWU map sends to the kernel: for each of two points of the kernel the solutions of
`x1 = r` and of `x2 = r`, up to sign. -/
def g1Roots : List (Nat × (Nat × Nat) × (Nat × Nat)) :=
  [(0x10ef325dd1e98bdf0d97a4c6b7f968ed7f31f2fbff088acb39d5319cfc261ea18773405f325612742f0c5d90634bcf4,
    (0x1377c0192d99508a317127abf17c64205c7aad448380027efb47ae73ea231dbd6ecd3f2841b63d309c35bb8fd13e48f0,
     0xa2605e5991fcf3e63728a7a1468d79bacaa5f23f3816aadcd38efdd330c6d4f5bbf450f92156e0e23e16e3252bcd042),
    (0x854a3cb180882d5b1efc1c3cc5b3fb33b27cb739f1389986ca46e1c5cb5010d8a06fd781c63074868f316d95b8f8405,
     0xa3bf00221e169b850c5268c3d1edd576732060760bc0c00ed0311dee8588b18130822d3027f8d142802d784ea194fca)),
   (0xd7f2d0d03ae035321eed4c1479d13251abf0e9a96479623eb5380b575e319851fb5e5a8b43b9c1a46880f54bf2b2f7c,
    (0x146850b3bdc2495ed73bb803dfaa951a88abff0acb5c7aeac52b48f3c808e87ce3885b98ce916e17caef21a6cbc6b598,
     0xec1d2551f80abe70136a7f42e52133ebddf9b619a88147ae422a98e57581f2b0961dc019c74599f12a1b5513649a2e8),
    (0xa92437e90bc473049ab549b4c4a145feb4fb5cd39f7ee85c11fa62a8f5317220b398be420ca5d8364d460f6ee1efd29,
     0x10683009c00edc5676a3d43b8b5ae8a68e75a32954f6a502e6acc1c11ed49bcaa7c843871e887ce9839920c2ff0f732f))]

/-- Points of the kernel for which `x1 = r` and `x2 = r` are equations in `u²` without solution. -/
def g1NoSquare : List Nat :=
  [0x140d41735b10ce710727cd9356905701a2b866b803baa468948b7f423ddcc560c9a8f1cd5f8ed4297c37464fb8bfe4a7,
   0x1665a9c648e78314490a94f654d9b1039ab85847223bfaed9aa54f0f07736d122d1ceca1ac0e9123e753fde16e97c3d7]

/-- A point of the kernel for which the solutions for `u²` are not squares. -/
def g1NoRoot : List (Nat × (Nat × Nat) × (Nat × Nat)) :=
  [(0x105249b4cac630ce5aa18e6c1189a18c82019b4e12e491fbac012c259ca3a67f638560b8bb416af02a4724385ed0fc8e,
    (0x777826882c2ce8d877d862ca524b7a2928d891ef17de8c4661fa605f6c1ec9b4fa19c4e1b2785773493f06ec4a7dadb,
     0x14e6bfae479a2d0384a0a525d2d0bf19db0be0895dfbfd23ad5b6e4c8ab94e74d1d43524d4d7062b67c80f913b57c80e),
    (0xa9e20c1353605eefade1ab5c9a51d50d83e661ba31cd8420f8fca15de930c6292724ccc073066aa64cedd9a32befcac,
     0x5e931af717ffc649ac604951c6c6c293f7be1f7fea5f8648c07282f56f9494b131db4048d049a1b1342eeeebaea06eb))]

/-- The sixteen exceptional inputs. -/
def g1Exceptional : List Nat := g1Roots.flatMap fun r =>
  [r.2.1.1, r.2.1.2, r.2.2.1, r.2.2.2, bls12381P - r.2.1.1, bls12381P - r.2.1.2, bls12381P - r.2.2.1, bls12381P - r.2.2.2]

/-- Coefficients of the two equations for `u²`. -/
def g1Eq1 (r : Nat) : Nat × Nat × Nat := ((r * g1A + g1B) * 11 ^ 2, (r * g1A + g1B) * 11, g1B)
def g1Eq2 (r : Nat) : Nat × Nat × Nat := (g1B * 11 ^ 2, (r * g1A + g1B) * 11, r * g1A + g1B)

/-- Check that `w1`, `w2` are the roots of a quadratic. -/
def rootsCheck (e : Nat × Nat × Nat) (w1 w2 : Nat) : Bool :=
  e.1 % bls12381P != 0 && (e.2.1 + e.1 * (w1 + w2)) % bls12381P == 0 && e.1 * (w1 * w2) % bls12381P == e.2.2 % bls12381P

theorem rootsCheck_iff {e : Nat × Nat × Nat} {w1 w2 : Nat} (h : rootsCheck e w1 w2 = true) (w : Fp) :
    (e.1 : Fp) * w ^ 2 + e.2.1 * w + e.2.2 = 0 ↔ w = w1 ∨ w = w2 := by
  unfold rootsCheck at h
  simp only [Bool.and_eq_true, bne_iff_ne, beq_iff_eq] at h
  exact quad_two _ _ _ _ _ h.1.1 h.1.2 h.2 w

theorem g1_roots_check : ∀ r ∈ g1Roots, rootsCheck (g1Eq1 r.1) (r.2.1.1 ^ 2) (r.2.1.2 ^ 2) = true ∧
    rootsCheck (g1Eq2 r.1) (r.2.2.1 ^ 2) (r.2.2.2 ^ 2) = true := by decide +kernel

theorem g1_noroot_check : ∀ r ∈ g1NoRoot, rootsCheck (g1Eq1 r.1) r.2.1.1 r.2.1.2 = true ∧
    rootsCheck (g1Eq2 r.1) r.2.2.1 r.2.2.2 = true ∧
    ∀ w ∈ [r.2.1.1, r.2.1.2, r.2.2.1, r.2.2.2], powMod bls12381P 400 w (bls12381P / 2) = bls12381P - 1 := by
  decide +kernel

theorem g1_nosquare_check : ∀ r ∈ g1NoSquare, ∀ e ∈ [g1Eq1 r, g1Eq2 r],
    powMod bls12381P 400 (e.2.1 * e.2.1 + (bls12381P - 1) * (4 * e.1 * e.2.2)) (bls12381P / 2) = bls12381P - 1 := by
  decide +kernel

/-- `x1 = r` and `x2 = r` as equations for `u²`. -/
theorem g1Eq1_iff (r : Nat) (w : Fp) : ((g1Eq1 r).1 : Fp) * w ^ 2 + (g1Eq1 r).2.1 * w + (g1Eq1 r).2.2 = 0 ↔
    ((r : Fp) * (g1Suite Fp).A + (g1Suite Fp).B) * (g1Suite Fp).Z ^ 2 * w ^ 2 +
      ((r : Fp) * (g1Suite Fp).A + (g1Suite Fp).B) * (g1Suite Fp).Z * w + (g1Suite Fp).B = 0 := by
  show _ ↔ ((r : Fp) * (g1A : Fp) + (g1B : Fp)) * ((11 : Nat) : Fp) ^ 2 * w ^ 2 +
      ((r : Fp) * (g1A : Fp) + (g1B : Fp)) * ((11 : Nat) : Fp) * w + (g1B : Fp) = 0
  simp only [g1Eq1, Nat.cast_mul, Nat.cast_add, Nat.cast_pow]

theorem g1Eq2_iff (r : Nat) (w : Fp) : ((g1Eq2 r).1 : Fp) * w ^ 2 + (g1Eq2 r).2.1 * w + (g1Eq2 r).2.2 = 0 ↔
    (g1Suite Fp).B * (g1Suite Fp).Z ^ 2 * w ^ 2 +
      ((r : Fp) * (g1Suite Fp).A + (g1Suite Fp).B) * (g1Suite Fp).Z * w +
      ((r : Fp) * (g1Suite Fp).A + (g1Suite Fp).B) = 0 := by
  show _ ↔ (g1B : Fp) * ((11 : Nat) : Fp) ^ 2 * w ^ 2 +
      ((r : Fp) * (g1A : Fp) + (g1B : Fp)) * ((11 : Nat) : Fp) * w + ((r : Fp) * (g1A : Fp) + (g1B : Fp)) = 0
  simp only [g1Eq2, Nat.cast_mul, Nat.cast_add, Nat.cast_pow]

theorem sq_eq_cast_sq {u : Fp} {n : Nat} (hn : n ≤ bls12381P) :
    u ^ 2 = ((n ^ 2 : Nat) : Fp) ↔ u = (n : Fp) ∨ u = ((bls12381P - n : Nat) : Fp) := by
  rw [Nat.cast_pow, Nat.cast_sub hn, fp_char, zero_sub]
  exact sq_eq_sq_iff_eq_or_eq_neg

theorem g1_roots_le : ∀ r ∈ g1Roots, r.2.1.1 ≤ bls12381P ∧ r.2.1.2 ≤ bls12381P ∧ r.2.2.1 ≤ bls12381P ∧
    r.2.2.2 ≤ bls12381P := by decide

theorem mem_g1Kernel {r : Nat} (h : r ∈ g1Kernel) :
    r ∈ g1NoSquare ∨ r ∈ g1NoRoot.map Prod.fst ∨ r ∈ g1Roots.map Prod.fst := by
  revert r; decide

theorem g1_roots_kernel : ∀ r ∈ g1Roots, r.1 ∈ g1Kernel := by decide

/-- Second coordinates of the two points of the kernel that are reached. -/
def g1KernelY : List Nat :=
  [0xeb3efc0a8592166adb221f4b9158d9ff0d160ce6a2cc1a280b3ec28c01870fa13ca7cddd7ba78f6cd54fe36375cd5fd,
   0x59e4a8d101f0c51d351b3877c5197f07d08511978f9492dacd907f783f756008f967f1556f49e19032b4ecc3f415b40]

theorem g1_kernel_on_curve : ∀ r ∈ g1Roots, IsSquare ((r.1 : Fp) ^ 3 + (g1Suite Fp).A * (r.1 : Fp) + (g1Suite Fp).B) := by
  have h : ∀ r ∈ g1Roots, ∃ y ∈ g1KernelY,
      (r.1 ^ 3 + g1A * r.1 + g1B) % bls12381P = y * y % bls12381P := by decide +kernel
  intro r hr
  obtain ⟨y, _, e⟩ := h r hr
  refine ⟨(y : Fp), ?_⟩
  show (r.1 : Fp) ^ 3 + (g1A : Fp) * (r.1 : Fp) + (g1B : Fp) = _
  rw [← Nat.cast_pow, ← Nat.cast_mul, ← Nat.cast_mul, ← Nat.cast_add, ← Nat.cast_add]
  exact cast_eq_of_mod fp_char e

/-- C59 for G1, the exceptional inputs: the specification maps exactly these sixteen field elements to the identity. -/
theorem C59_g1_exceptional (u : Fp) :
    MapToCurve (fun x : Fp => Spec.H2C.sgn0 [x.val]) (g1Suite Fp).A (g1Suite Fp).B (g1Suite Fp).Z (g1Suite Fp).xNum
      (g1Suite Fp).xDen (g1Suite Fp).yNum (g1Suite Fp).yDen u none ↔ ∃ n ∈ g1Exceptional, u = (n : Fp) := by
  constructor
  · rintro ⟨P, hP, hn⟩
    obtain ⟨r, hr, hPr⟩ := (g1_isoMap_none P).1 hn.symm
    have hc := swu_cases g1_admissible hP
    rw [hPr] at hc
    rcases hc with h | h | h
    · exfalso
      have h' : ((r * (11 * g1A) : Nat) : Fp) = (g1B : Fp) := by
        simp only [Nat.cast_mul]; exact h
      have hk : ∀ r ∈ g1Kernel, (r * (11 * g1A) + (bls12381P - g1B)) % bls12381P ≠ 0 := by decide +kernel
      refine fp_ne_zero _ (hk r hr) ?_
      rw [Nat.cast_add, h', Nat.cast_sub (by decide), fp_char]
      ring
    · rw [← g1Eq1_iff] at h
      rcases mem_g1Kernel hr with hm | hm | hm
      · exact absurd h (quad_none _ _ _ (g1_nosquare_check r hm _ (by simp)) _)
      · obtain ⟨t, ht, rfl⟩ := List.mem_map.1 hm
        obtain ⟨h1, _, h3⟩ := g1_noroot_check t ht
        rcases (rootsCheck_iff h1 _).1 h with e | e
        · exact absurd ⟨u, e.symm.trans (sq u)⟩ (fp_nonsquare _ (h3 _ (by simp)))
        · exact absurd ⟨u, e.symm.trans (sq u)⟩ (fp_nonsquare _ (h3 _ (by simp)))
      · obtain ⟨t, ht, rfl⟩ := List.mem_map.1 hm
        obtain ⟨l1, l2, _, _⟩ := g1_roots_le t ht
        rcases (rootsCheck_iff (g1_roots_check t ht).1 _).1 h with e | e
        · rcases (sq_eq_cast_sq l1).1 e with e | e
          · exact ⟨_, List.mem_flatMap.2 ⟨t, ht, by simp⟩, e⟩
          · exact ⟨_, List.mem_flatMap.2 ⟨t, ht, by simp⟩, e⟩
        · rcases (sq_eq_cast_sq l2).1 e with e | e
          · exact ⟨_, List.mem_flatMap.2 ⟨t, ht, by simp⟩, e⟩
          · exact ⟨_, List.mem_flatMap.2 ⟨t, ht, by simp⟩, e⟩
    · rw [← g1Eq2_iff] at h
      rcases mem_g1Kernel hr with hm | hm | hm
      · exact absurd h (quad_none _ _ _ (g1_nosquare_check r hm _ (by simp)) _)
      · obtain ⟨t, ht, rfl⟩ := List.mem_map.1 hm
        obtain ⟨_, h1, h3⟩ := g1_noroot_check t ht
        rcases (rootsCheck_iff h1 _).1 h with e | e
        · exact absurd ⟨u, e.symm.trans (sq u)⟩ (fp_nonsquare _ (h3 _ (by simp)))
        · exact absurd ⟨u, e.symm.trans (sq u)⟩ (fp_nonsquare _ (h3 _ (by simp)))
      · obtain ⟨t, ht, rfl⟩ := List.mem_map.1 hm
        obtain ⟨_, _, l1, l2⟩ := g1_roots_le t ht
        rcases (rootsCheck_iff (g1_roots_check t ht).2 _).1 h with e | e
        · rcases (sq_eq_cast_sq l1).1 e with e | e
          · exact ⟨_, List.mem_flatMap.2 ⟨t, ht, by simp⟩, e⟩
          · exact ⟨_, List.mem_flatMap.2 ⟨t, ht, by simp⟩, e⟩
        · rcases (sq_eq_cast_sq l2).1 e with e | e
          · exact ⟨_, List.mem_flatMap.2 ⟨t, ht, by simp⟩, e⟩
          · exact ⟨_, List.mem_flatMap.2 ⟨t, ht, by simp⟩, e⟩
  · rintro ⟨n, hn, rfl⟩
    obtain ⟨t, ht, hn⟩ := List.mem_flatMap.1 hn
    have hP := C41_g1 (classicalOps (fun y : Fp => sgn0Fp y)) (classicalOps_correct _) rfl (n : Fp)
    refine ⟨_, hP, ((g1_isoMap_none _).2 ⟨t.1, g1_roots_kernel t ht, ?_⟩).symm⟩
    obtain ⟨l1, l2, l3, l4⟩ := g1_roots_le t ht
    have hrB : (t.1 : Fp) * (g1Suite Fp).A + (g1Suite Fp).B ≠ 0 := by
      have hk : ∀ r ∈ g1Roots, (r.1 * g1A + g1B) % bls12381P ≠ 0 := by decide +kernel
      have := fp_ne_zero _ (hk t ht)
      rw [Nat.cast_add, Nat.cast_mul] at this
      exact this
    have c1 : ∀ m : Nat, (m = t.2.1.1 ∨ m = t.2.1.2) → ∀ v : Fp, v ^ 2 = ((m ^ 2 : Nat) : Fp) → v = (n : Fp) → 
        (sswu (classicalOps (fun y : Fp => sgn0Fp y)) (g1Suite Fp).A (g1Suite Fp).B (g1Suite Fp).Z (n : Fp)).1 = (t.1 : Fp) := by
      intro m hm v hv hvn
      refine swu_first g1_admissible hP (g1_kernel_on_curve t ht) ((g1Eq1_iff _ _).1 ?_)
      rw [← hvn, hv]
      refine (rootsCheck_iff (g1_roots_check t ht).1 _).2 ?_
      rcases hm with rfl | rfl
      · exact Or.inl rfl
      · exact Or.inr rfl
    have c2 : ∀ m : Nat, (m = t.2.2.1 ∨ m = t.2.2.2) → ∀ v : Fp, v ^ 2 = ((m ^ 2 : Nat) : Fp) → v = (n : Fp) → 
        (sswu (classicalOps (fun y : Fp => sgn0Fp y)) (g1Suite Fp).A (g1Suite Fp).B (g1Suite Fp).Z (n : Fp)).1 = (t.1 : Fp) := by
      intro m hm v hv hvn
      refine swu_second g1_admissible g1_no_root hP (g1_kernel_on_curve t ht) hrB ((g1Eq2_iff _ _).1 ?_)
      rw [← hvn, hv]
      refine (rootsCheck_iff (g1_roots_check t ht).2 _).2 ?_
      rcases hm with rfl | rfl
      · exact Or.inl rfl
      · exact Or.inr rfl
    simp only [List.mem_cons, List.not_mem_nil, or_false] at hn
    rcases hn with h | h | h | h | h | h | h | h
    · exact c1 _ (Or.inl rfl) _ ((sq_eq_cast_sq l1).2 (Or.inl rfl)) (by rw [h])
    · exact c1 _ (Or.inr rfl) _ ((sq_eq_cast_sq l2).2 (Or.inl rfl)) (by rw [h])
    · exact c2 _ (Or.inl rfl) _ ((sq_eq_cast_sq l3).2 (Or.inl rfl)) (by rw [h])
    · exact c2 _ (Or.inr rfl) _ ((sq_eq_cast_sq l4).2 (Or.inl rfl)) (by rw [h])
    · exact c1 _ (Or.inl rfl) _ ((sq_eq_cast_sq l1).2 (Or.inr rfl)) (by rw [h])
    · exact c1 _ (Or.inr rfl) _ ((sq_eq_cast_sq l2).2 (Or.inr rfl)) (by rw [h])
    · exact c2 _ (Or.inl rfl) _ ((sq_eq_cast_sq l3).2 (Or.inr rfl)) (by rw [h])
    · exact c2 _ (Or.inr rfl) _ ((sq_eq_cast_sq l4).2 (Or.inr rfl)) (by rw [h])

/-- The sixteen are different and reduced. -/
theorem g1Exceptional_nodup : g1Exceptional.Nodup ∧ g1Exceptional.length = 16 ∧ ∀ n ∈ g1Exceptional, n < bls12381P := by
  decide +kernel

/-- C59 for G1: `map_to_curve` returns the point that the specification prescribes exactly for the other field elements. -/
theorem C59_g1_iff (O : FieldOps Fp) (hO : FieldOps.Correct O) (hs : O.sgn0 = sgn0Fp) (one : Fp × Fp)
    (h1 : OnCurve 0 4 one) (u : Fp) :
    ∃ Q, mapToCurve O (g1Suite Fp) one u = Except.ok Q ∧ OnCurve 0 4 Q ∧
      (MapToCurve (fun x : Fp => Spec.H2C.sgn0 [x.val]) (g1Suite Fp).A (g1Suite Fp).B (g1Suite Fp).Z (g1Suite Fp).xNum
        (g1Suite Fp).xDen (g1Suite Fp).yNum (g1Suite Fp).yDen u (some Q) ↔ ∀ n ∈ g1Exceptional, u ≠ (n : Fp)) := by
  obtain ⟨Q, R, h, hc, hm, hR⟩ := C59_g1_partial O hO hs one h1 u
  have key := C59_g1_exceptional u
  refine ⟨Q, h, hc, ⟨?_, ?_⟩⟩
  · intro hQ n hn hu
    have := key.2 ⟨n, hn, hu⟩
    exact absurd (mapToCurve_unique sgn_flip_fp hQ this) (by simp)
  · intro hu
    rcases hR with rfl | ⟨rfl, _⟩
    · exact hm
    · obtain ⟨n, hn, e⟩ := key.1 hm
      exact absurd e (hu n hn)

/-- `C59_g1_iff` on both sides: the field element 5 is not exceptional. -/
example : ∃ Q, mapToCurve opsFp (g1Suite Fp) (0, 2) 5 = Except.ok Q ∧
    MapToCurve (fun x : Fp => Spec.H2C.sgn0 [x.val]) (g1Suite Fp).A (g1Suite Fp).B (g1Suite Fp).Z (g1Suite Fp).xNum
      (g1Suite Fp).xDen (g1Suite Fp).yNum (g1Suite Fp).yDen 5 (some Q) := by
  obtain ⟨Q, h, _, hm⟩ := C59_g1_iff opsFp opsFp_correct rfl (0, 2) (by unfold OnCurve; norm_num) 5
  refine ⟨Q, h, hm.2 ?_⟩
  have hk : ∀ n ∈ g1Exceptional, (n + (bls12381P - 5)) % bls12381P ≠ 0 := by decide +kernel
  intro n hn e
  refine fp_ne_zero _ (hk n hn) ?_
  rw [Nat.cast_add, Nat.cast_sub (by decide), fp_char, ← e]
  norm_num

example : g1Bad ∈ g1Exceptional := by decide +kernel

theorem toFp_eq_cast {c : List Nat} {n : Nat} {bytes : List Nat} (hc : c ∈ hashToField 2 1 64 bls12381P bytes)
    (hn : n < bls12381P) (h : toFp c = (n : Fp)) : c = [n] := by
  unfold hashToField at hc
  obtain ⟨i, _, rfl⟩ := List.mem_map.1 hc
  simp only [List.range_one, List.map_cons, List.map_nil, toFp, List.getD_cons_zero] at h ⊢
  rw [ZMod.natCast_eq_natCast_iff', Nat.mod_mod, Nat.mod_eq_of_lt hn] at h
  rw [h]

section
variable (J : Injector) {E : Vector (BitVec 32) 16 → Vector (BitVec 32) 8 → Vector (BitVec 32) 8} (d0 : Bits)
  (hd : d0.length = 256) (cache0 : List Nat) (hc : cache0.length = 64)

include hc in
/-- C60 for G1 in the group of the curve `y² = x³ + 4`, for messages whose two field elements are not among the sixteen
exceptional ones. -/
theorem C60_g1_messages_partial (O : FieldOps Fp) (hO : FieldOps.Correct O)
    (hs : O.sgn0 = sgn0Fp) (one : Fp × Fp) (h1 : OnCurve 0 4 one) (hE : Computes16 E Sha.sha256fns.run)
    (garbage : Nat → Bits)
    (hg : ∀ i, (garbage i).length = 512) (out0 : List Nat) (hout : out0.length = 128) (dst : List Nat)
    (hdl : 16 ≤ dst.length ∧ dst.length ≤ 255) (hdb : ∀ x ∈ dst, x < 256) (ops : List GroupHashOp)
    (pieces : List (List Nat)) (hm : List.Forall₂ (XmdMatches 512) ops (pieces.map some))
    (hb : ∀ bs ∈ pieces, ∀ x ∈ bs, x < 256) (hl : pieces.flatten.length < 2 ^ 58)
    (hne : ∀ c ∈ hashToField 2 1 64 bls12381P (expandMessageXmd Sha.sha256 32 64 pieces.flatten dst 128),
      ∀ n ∈ g1Exceptional, c ≠ [n]) :
    ∃ (a a' : Acc (Vector (BitVec 32) 8)) (R : (shortCurve (4 : Fp)).Point) (c0 c1 : List Nat) (x0 y0 x1 y1 : Fp)
      (n0 : (shortCurve (4 : Fp)).Nonsingular x0 y0) (n1 : (shortCurve (4 : Fp)).Nonsingular x1 y1),
      (sha256Xmd J E d0 hd cache0 128).init (garbage 0) = .ok a ∧
      (sha256Xmd J E d0 hd cache0 128).run garbage out0 dst
        (h2cProcess 1 64 bls12381P toFp O (g1Suite Fp) one (curvePoint 4)) a [] (ops ++ [.extract]) = .ok (a', [R]) ∧
      hashToField 2 1 64 bls12381P (expandMessageXmd Sha.sha256 32 64 pieces.flatten dst 128) = [c0, c1] ∧
      MapToCurve (fun x : Fp => Spec.H2C.sgn0 [x.val]) (g1Suite Fp).A (g1Suite Fp).B (g1Suite Fp).Z
        (g1Suite Fp).xNum (g1Suite Fp).xDen (g1Suite Fp).yNum (g1Suite Fp).yDen (toFp c0) (some (x0, y0)) ∧
      MapToCurve (fun x : Fp => Spec.H2C.sgn0 [x.val]) (g1Suite Fp).A (g1Suite Fp).B (g1Suite Fp).Z
        (g1Suite Fp).xNum (g1Suite Fp).xDen (g1Suite Fp).yNum (g1Suite Fp).yDen (toFp c1) (some (x1, y1)) ∧
      R = (g1Suite Fp).hEff • (.some x0 y0 n0 + .some x1 y1 n1)  := by
  refine C60_g1_points_partial J d0 hd cache0 hc O hO hs one h1 hE garbage hg out0 hout dst hdl hdb ops pieces hm hb hl ?_
  intro c hcm h
  obtain ⟨n, hn, e⟩ := (C59_g1_exceptional (toFp c)).1 h
  exact hne c hcm n hn (toFp_eq_cast hcm (g1Exceptional_nodup.2.2 n hn) e)

end

/-- A message of three octets in two pieces, for G1. -/
example := C60_g1_messages_partial spliceInjector (List.replicate 256 true) List.length_replicate (List.replicate 64 9)
    List.length_replicate (classicalOps (fun y : Fp => sgn0Fp y)) (classicalOps_correct _) rfl (0, 2)
    (by unfold OnCurve; norm_num)
    (computes16_cipherOf Sha.sha256fns.run) (fun _ => List.replicate 512 true) (fun _ => List.length_replicate)
    (List.replicate 128 7) List.length_replicate (List.replicate 16 0x41) (by decide) (by decide)
    [.update (wordElem bigOctetBigBit 8) .container (List.replicate 64 9) [0x61],
      .update (wordElem bigOctetBigBit 16) .singlePass (List.replicate 32 9) [0x6263]]
    [[0x61], [0x62, 0x63]]
    (.cons ⟨⟨by decide, by decide, by decide⟩, by decide⟩
      (.cons ⟨⟨by decide, by decide, by decide⟩, by decide⟩ .nil)) (by decide) (by decide) (by decide +kernel)

end Verif.Props
