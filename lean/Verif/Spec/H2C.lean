import Mathlib.Algebra.Field.Defs
import Mathlib.Algebra.BigOperators.Group.List.Basic
import Mathlib.Algebra.Group.Even
import Mathlib.Algebra.Group.Defs
/-
Specification of the maps to curves, RFC 9380.
-/
namespace Verif.Spec.H2C

section
variable {F : Type} [Field F]

/-- The short Weierstrass equation `y² = x³ + A x + B`. -/
def OnCurve (A B : F) (P : F × F) : Prop := P.2 ^ 2 = P.1 ^ 3 + A * P.1 + B

/-- `sgn0(x)`, RFC 9380 section 4.1, on the coordinates `x_1, …, x_m` of `x` as integers. -/
def sgn0 (coords : List Nat) : Nat :=
  (coords.foldl (fun (st : Nat × Nat) xi =>
    let sign_i := xi % 2
    let zero_i := if xi = 0 then 1 else 0
    (st.1 ||| (st.2 &&& sign_i), st.2 &&& zero_i)) (0, 1)).1

/-- `map_to_curve_simple_swu(u)`, RFC 9380 section 6.6.2: the relation between the input and the output.  `R` says
that the coordinates satisfy steps 1 to 9. -/
structure SimpleSwu (sgn : F → Nat) (A B Z u : F) (P : F × F) : Prop where
  /-- step 1 to 3, `tv1 = inv0(Z^2 u^4 + Z u^2)`, `x1 = (-B / A) * (1 + tv1)`, and `x1 = B / (Z A)` if `tv1 = 0` -/
  steps : ∃ x1 : F,
    (Z ^ 2 * u ^ 4 + Z * u ^ 2 ≠ 0 → x1 = (-B / A) * (1 + 1 / (Z ^ 2 * u ^ 4 + Z * u ^ 2))) ∧
    (Z ^ 2 * u ^ 4 + Z * u ^ 2 = 0 → x1 = B / (Z * A)) ∧
    -- steps 4 to 8: `x1` if `g(x1)` is square, `x2 = Z u^2 x1` otherwise, and `y` a square root of `g(x)`
    (IsSquare (x1 ^ 3 + A * x1 + B) → P.1 = x1) ∧
    (¬ IsSquare (x1 ^ 3 + A * x1 + B) → P.1 = Z * u ^ 2 * x1) ∧
    P.2 ^ 2 = P.1 ^ 3 + A * P.1 + B
  /-- step 9: `sgn0(u) = sgn0(y)` -/
  sign : sgn P.2 = sgn u

/-- A polynomial with coefficients `k_0, k_1, …`. -/
def poly (cs : List F) (x : F) : F := (cs.mapIdx fun i c => c * x ^ i).sum

/-- The isogeny maps of RFC 9380 appendix E: the denominators are monic with leading term one degree above the
listed coefficients; where a denominator vanishes the result is the identity, `none`. -/
def isoMap [DecidableEq F] (xNum xDen yNum yDen : List F) (P : F × F) : Option (F × F) :=
  let xd := poly xDen P.1 + P.1 ^ xDen.length
  let yd := poly yDen P.1 + P.1 ^ yDen.length
  if xd = 0 ∨ yd = 0 then none
  else some (poly xNum P.1 / xd, P.2 * poly yNum P.1 / yd)

/-- `map_to_curve(u)` for a curve with an isogenous auxiliary curve, RFC 9380 section 6.6.3: the simplified SWU map
followed by the isogeny; `none` is the identity. -/
def MapToCurve [DecidableEq F] (sgn : F → Nat) (A B Z : F) (xNum xDen yNum yDen : List F) (u : F)
    (Q : Option (F × F)) : Prop :=
  ∃ P, SimpleSwu sgn A B Z u P ∧ Q = isoMap xNum xDen yNum yDen P

/-- Group element of a point; the identity for `none`. -/
def toGroup {G : Type} [AddCommGroup G] (point : F × F → G) : Option (F × F) → G
  | none => 0
  | some P => point P
end
end Verif.Spec.H2C
