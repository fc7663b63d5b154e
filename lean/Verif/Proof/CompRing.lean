import Mathlib.Algebra.QuadraticAlgebra.Basic
import Mathlib.Tactic.Ring
import Mathlib.Tactic.LinearCombination
/-
Computation in finite rings for kernel evaluation: codes `K` with addition and multiplication that represent
elements of a ring `R`; polynomials over them, and powers modulo a cubic.
-/
namespace Verif

/-- Operations on codes. -/
structure CompOps (K : Type) where
  zero : K
  one : K
  add : K → K → K
  mul : K → K → K

/-- Codes for ring elements. -/
structure CompRing (K R : Type) [CommRing R] extends CompOps K where
  cast : K → R
  cast_zero : cast zero = 0
  cast_one : cast one = 1
  cast_add : ∀ a b, cast (add a b) = cast a + cast b
  cast_mul : ∀ a b, cast (mul a b) = cast a * cast b

section
variable {K : Type} (C : CompOps K)

def CompOps.polyAdd : List K → List K → List K
  | [], bs => bs
  | as, [] => as
  | a :: as, b :: bs => C.add a b :: polyAdd as bs

def CompOps.polyScale (c : K) (as : List K) : List K := as.map (C.mul c)

def CompOps.polyMul : List K → List K → List K
  | [], _ => []
  | a :: as, bs => C.polyAdd (C.polyScale a bs) (C.zero :: polyMul as bs)

/-- Product modulo `X³ = u + v X`. -/
def CompOps.cubicMul (u v : K) (a b : K × K × K) : K × K × K :=
  let c0 := C.mul a.1 b.1
  let c1 := C.add (C.mul a.1 b.2.1) (C.mul a.2.1 b.1)
  let c2 := C.add (C.add (C.mul a.1 b.2.2) (C.mul a.2.1 b.2.1)) (C.mul a.2.2 b.1)
  let c3 := C.add (C.mul a.2.1 b.2.2) (C.mul a.2.2 b.2.1)
  let c4 := C.mul a.2.2 b.2.2
  (C.add c0 (C.mul u c3), C.add c1 (C.add (C.mul v c3) (C.mul u c4)), C.add c2 (C.mul v c4))

def CompOps.cubicPow (u v : K) : Nat → K × K × K → Nat → K × K × K
  | 0, _, _ => (C.one, C.zero, C.zero)
  | fuel + 1, a, e =>
    let r := cubicPow u v fuel (C.cubicMul u v a a) (e / 2)
    if e % 2 = 1 then C.cubicMul u v a r else r

end

section
variable {R : Type} [CommRing R]

theorem natCast_mod (N : Nat) (hN : (N : R) = 0) (x : Nat) : ((x % N : Nat) : R) = x := by
  have := congrArg (Nat.cast (R := R)) (Nat.div_add_mod x N)
  push_cast at this
  rw [hN, zero_mul, zero_add] at this
  exact this

/-- Numbers modulo `p`. -/
def natOps (p : Nat) : CompOps Nat where
  zero := 0
  one := 1
  add a b := (a + b) % p
  mul a b := a * b % p

def natComp (p : Nat) (hp : (p : R) = 0) : CompRing Nat R where
  toCompOps := natOps p
  cast a := a
  cast_zero := by simp [natOps]
  cast_one := by simp [natOps]
  cast_add a b := by simp only [natOps]; rw [natCast_mod p hp]; push_cast; rfl
  cast_mul a b := by simp only [natOps]; rw [natCast_mod p hp]; push_cast; rfl

/-- Pairs `a + b·i` modulo `p` with `i² = -1`. -/
def pairOps (p : Nat) : CompOps (Nat × Nat) where
  zero := (0, 0)
  one := (1, 0)
  add a b := ((a.1 + b.1) % p, (a.2 + b.2) % p)
  mul a b := ((a.1 * b.1 + (p - 1) * (a.2 * b.2)) % p, (a.1 * b.2 + a.2 * b.1) % p)

def pairComp (p : Nat) (hp : (p : R) = 0) (hp0 : 0 < p) (i : R) (hi : i * i = -1) : CompRing (Nat × Nat) R where
  toCompOps := pairOps p
  cast a := a.1 + a.2 * i
  cast_zero := by simp [pairOps]
  cast_one := by simp [pairOps]
  cast_add a b := by
    simp only [pairOps, natCast_mod p hp]; push_cast; ring
  cast_mul a b := by
    simp only [pairOps, natCast_mod p hp]; push_cast
    rw [Nat.cast_sub hp0, hp]
    push_cast
    linear_combination ((a.2 : R) * b.2) * (-hi)


variable {K : Type} (C : CompRing K R)

/-- Value of a polynomial given by its coefficients, lowest first. -/
def polyEval (cs : List K) (x : R) : R := cs.foldr (fun c acc => C.cast c + x * acc) 0

theorem eval_polyAdd : ∀ (as bs : List K) (x : R),
    polyEval C (C.polyAdd as bs) x = polyEval C as x + polyEval C bs x
  | [], bs, x => by simp [CompOps.polyAdd, polyEval]
  | a :: as, [], x => by simp [CompOps.polyAdd, polyEval]
  | a :: as, b :: bs, x => by
    have := eval_polyAdd as bs x
    simp only [polyEval, CompOps.polyAdd, List.foldr_cons, C.cast_add] at this ⊢
    rw [this]; ring

theorem eval_polyScale (c : K) (as : List K) (x : R) :
    polyEval C (C.polyScale c as) x = C.cast c * polyEval C as x := by
  induction as with
  | nil => simp [CompOps.polyScale, polyEval]
  | cons a as ih =>
    simp only [polyEval, CompOps.polyScale, List.map_cons, List.foldr_cons, C.cast_mul] at ih ⊢
    rw [ih]; ring

theorem eval_polyMul : ∀ (as bs : List K) (x : R),
    polyEval C (C.polyMul as bs) x = polyEval C as x * polyEval C bs x
  | [], bs, x => by simp [CompOps.polyMul, polyEval]
  | a :: as, bs, x => by
    have := eval_polyMul as bs x
    rw [CompOps.polyMul, eval_polyAdd, eval_polyScale]
    simp only [polyEval, List.foldr_cons, C.cast_zero] at this ⊢
    rw [this]; ring

/-! ### Powers modulo a cubic -/

/-- `a0 + a1 r + a2 r²`. -/
def cubicEval (r : R) (a : K × K × K) : R := C.cast a.1 + C.cast a.2.1 * r + C.cast a.2.2 * r ^ 2

theorem eval_cubicMul (u v : K) (r : R) (hr : r ^ 3 = C.cast u + C.cast v * r) (a b : K × K × K) :
    cubicEval C r (C.cubicMul u v a b) = cubicEval C r a * cubicEval C r b := by
  simp only [cubicEval, CompOps.cubicMul, C.cast_add, C.cast_mul]
  linear_combination -(C.cast a.2.1 * C.cast b.2.2 + C.cast a.2.2 * C.cast b.2.1 +
    C.cast a.2.2 * C.cast b.2.2 * r) * hr

theorem eval_cubicPow (u v : K) (r : R) (hr : r ^ 3 = C.cast u + C.cast v * r) :
    ∀ (fuel : Nat) (a : K × K × K) (e : Nat), e < 2 ^ fuel →
      cubicEval C r (C.cubicPow u v fuel a e) = cubicEval C r a ^ e := by
  intro fuel
  induction fuel with
  | zero =>
    intro a e he
    have : e = 0 := by omega
    subst this
    simp [CompOps.cubicPow, cubicEval, C.cast_zero, C.cast_one]
  | succ fuel ih =>
    intro a e he
    have he2 : e / 2 < 2 ^ fuel := by rw [Nat.pow_succ] at he; omega
    have hstep := ih (C.cubicMul u v a a) (e / 2) he2
    rw [eval_cubicMul C u v r hr] at hstep
    have hsplit := Nat.div_add_mod e 2
    unfold CompOps.cubicPow
    simp only
    split
    · rename_i h1
      rw [eval_cubicMul C u v r hr, hstep]
      conv_rhs => rw [← hsplit, h1, pow_succ, pow_mul]
      ring
    · rename_i h1
      have h0 : e % 2 = 0 := by omega
      rw [hstep]
      conv_rhs => rw [← hsplit, h0, add_zero, pow_mul]
      ring

/-- `X^q - X` times `inv` is one modulo `X³ = u + v X`. -/
def CompOps.rootCheck {K : Type} (C : CompOps K) (u v neg1 : K) (q fuel : Nat) (inv : K × K × K) : Prop :=
  let f := C.cubicPow u v fuel (C.zero, C.one, C.zero) q
  C.cubicMul u v (f.1, C.add f.2.1 neg1, f.2.2) inv = (C.one, C.zero, C.zero)

instance {K : Type} [DecidableEq K] (C : CompOps K) (u v neg1 : K) (q fuel : Nat) (inv : K × K × K) :
    Decidable (C.rootCheck u v neg1 q fuel inv) := by unfold CompOps.rootCheck; infer_instance

/-- If `X^q - X` is invertible modulo `X³ - v X - u`, the cubic has no root that `q`-th powers fix. -/
theorem no_root [Nontrivial R] (u v neg1 : K) (q fuel : Nat) (inv : K × K × K) (hq : q < 2 ^ fuel) (hn : C.cast neg1 = -1)
    (hinv : C.rootCheck u v neg1 q fuel inv)
    (r : R) (hfix : r ^ q = r) : r ^ 3 ≠ C.cast u + C.cast v * r := by
  intro hr
  simp only [CompOps.rootCheck] at hinv
  have h1 := eval_cubicPow C u v r hr fuel (C.zero, C.one, C.zero) q hq
  have h2 : cubicEval C r (C.zero, C.one, C.zero) = r := by simp [cubicEval, C.cast_zero, C.cast_one]
  rw [h2, hfix] at h1
  have h3 := congrArg (cubicEval C r) hinv
  rw [eval_cubicMul C u v r hr] at h3
  have h4 : cubicEval C r ((C.cubicPow u v fuel (C.zero, C.one, C.zero) q).1,
      C.add (C.cubicPow u v fuel (C.zero, C.one, C.zero) q).2.1 neg1,
      (C.cubicPow u v fuel (C.zero, C.one, C.zero) q).2.2) = 0 := by
    simp only [cubicEval, C.cast_add, hn] at h1 ⊢
    linear_combination h1
  rw [h4, zero_mul] at h3
  simp [cubicEval, C.cast_zero, C.cast_one] at h3

end
end Verif
