/-
KECCAK-p[1600, 24] written from FIPS 202 section 3, on the three-dimensional state array of bits.
-/
namespace Verif.Spec.Keccak

/-- State array `A[x, y, z]`, FIPS 202 section 3.1. Arithmetic on the coordinates is modulo 5 and 64. -/
abbrev State := Fin 5 → Fin 5 → Fin 64 → Bool

/-- FIPS 202, 3.1.2: `A[x, y, z] = S[64 (5 y + x) + z]`. -/
def ofBits (S : List Bool) : State := fun x y z => S.getD (64 * (5 * y.1 + x.1) + z.1) false

/-- FIPS 202, 3.1.3: the string of a state array. -/
def toBits (A : State) : List Bool :=
  (List.finRange 5).flatMap fun y => (List.finRange 5).flatMap fun x =>
    (List.finRange 64).map fun z => A x y z

/-- Parity of a column. -/
def column (A : State) (x : Fin 5) (z : Fin 64) : Bool :=
  A x 0 z ^^ A x 1 z ^^ A x 2 z ^^ A x 3 z ^^ A x 4 z

/-- Algorithm 1. -/
def theta (A : State) : State := fun x y z =>
  A x y z ^^ (column A (x - 1) z ^^ column A (x + 1) (z - 1))

/-- Algorithm 2, step 3: the walk `(x, y) ↦ (y, 2x + 3y)` starting at `(1, 0)`. -/
def rhoWalk : Nat → Fin 5 × Fin 5
  | 0 => (1, 0)
  | t + 1 => ((rhoWalk t).2, 2 * (rhoWalk t).1 + 3 * (rhoWalk t).2)

/-- The offset of lane `(x, y)`: `(t + 1)(t + 2) / 2` at the step `t` of the walk that visits it, 0 for
lane `(0, 0)`, which is not visited. -/
def rhoOffset (x y : Fin 5) : Nat :=
  match (List.range 24).find? (fun t => rhoWalk t == (x, y)) with
  | some t => (t + 1) * (t + 2) / 2
  | none => 0

/-- Algorithm 2. -/
def rho (A : State) : State := fun x y z => A x y (z - Fin.ofNat 64 (rhoOffset x y))

/-- Algorithm 3. -/
def pi (A : State) : State := fun x y z => A (x + 3 * y) x z

/-- Algorithm 4. -/
def chi (A : State) : State := fun x y z =>
  A x y z ^^ ((A (x + 1) y z ^^ true) && A (x + 2) y z)

/-- One step of the register of algorithm 5 (steps 3a-3f). -/
def rcStep (R : List Bool) : List Bool :=
  match false :: R with
  | [r0, r1, r2, r3, r4, r5, r6, r7, r8] => [r0 ^^ r8, r1, r2, r3, r4 ^^ r8, r5 ^^ r8, r6 ^^ r8, r7]
  | R => R

/-- Algorithm 5: `rc(t)`. -/
def rc (t : Nat) : Bool :=
  (Nat.rec (motive := fun _ => List Bool)
    [true, false, false, false, false, false, false, false] (fun _ R => rcStep R) (t % 255)).getD 0 false

/-- Algorithm 6, steps 2-3: bit `z` of the round constant of round `ir`: `RC[2^j - 1] = rc(j + 7 ir)`
for `j = 0..6`. -/
def roundConstant (ir : Nat) (z : Fin 64) : Bool :=
  (List.range 7).any fun j => z.1 == 2 ^ j - 1 && rc (j + 7 * ir)

/-- Algorithm 6. -/
def iota (ir : Nat) (A : State) : State := fun x y z =>
  if x = 0 ∧ y = 0 then A x y z ^^ roundConstant ir z else A x y z

/-- Section 3.3: one round. -/
def round (A : State) (ir : Nat) : State := iota ir (chi (pi (rho (theta A))))

/-- Algorithm 7 with `b = 1600`, `n_r = 24` (so `12 + 2l - n_r = 0`). -/
def permutation (A : State) : State := (List.range 24).foldl round A

end Verif.Spec.Keccak
