import Batteries.Data.BitVec.Lemmas
import Verif.Spec.Blocks
/-
The sponge construction and pad10*1, written from FIPS 202 sections 4, 5.1, 6.1 and B.1.
-/
namespace Verif.Spec

/-- Bitwise exclusive or of strings. -/
def xorBits (a b : List Bool) : List Bool := List.zipWith (· ^^ ·) a b

/-- Algorithm 9: `pad10*1(x, m)`: `1 || 0^j || 1` with `j = (-m - 2) mod x`. -/
def pad101 (x m : Nat) : List Bool := true :: (List.replicate (fillTo x (m + 2)) false ++ [true])

/-- Algorithm 8, steps 1-6: absorb the padded string, width `b`, rate `r`. -/
def absorb (b r : Nat) (f : List Bool → List Bool) (P : List Bool) : List Bool :=
  (blocks r P).foldl (fun S Pi => f (xorBits S (Pi ++ List.replicate (b - r) false)))
    (List.replicate b false)

/-- Algorithm 8, steps 7-10: the first `d` bits of `Trunc_r(S) || Trunc_r(f(S)) || …`; `d / r + 1`
pieces are enough. -/
def squeeze (r : Nat) (f : List Bool → List Bool) (S : List Bool) (d : Nat) : List Bool :=
  ((List.range (d / r + 1)).flatMap fun i => (Nat.repeat f i S).take r).take d

/-- Algorithm 8: `SPONGE[f, pad10*1, r](N, d)`. -/
def sponge (b r : Nat) (f : List Bool → List Bool) (N : List Bool) (d : Nat) : List Bool :=
  squeeze r f (absorb b r f (N ++ pad101 r N.length)) d

/-- Section B.1: bytes as bits, least significant bit first. -/
def fipsBits (bytes : List Nat) : List Bool :=
  bytes.flatMap fun x => (List.range 8).map x.testBit

/-- Section B.1: bits as bytes. -/
def fipsBytes (S : List Bool) : List Nat :=
  (List.range (S.length / 8)).map fun i =>
    (List.range 8).foldl (fun n j => n + (S.getD (8 * i + j) false).toNat * 2 ^ j) 0

/-- Section 3.1.4: the string of 25 lanes; bit `z` of a lane has weight `2^z`. -/
def laneString (A : Vector (BitVec 64) 25) : List Bool :=
  A.toList.flatMap fun w => (List.range 64).map w.getLsbD

/-- The lanes of a string of 1600 bits. -/
def stringLanes (S : List Bool) : Vector (BitVec 64) 25 :=
  Vector.ofFn fun i => BitVec.ofFnLE fun z : Fin 64 => S.getD (64 * i.1 + z.1) false

/-- A function on lanes as a function on strings. -/
def onStrings (f : Vector (BitVec 64) 25 → Vector (BitVec 64) 25) (S : List Bool) : List Bool :=
  laneString (f (stringLanes S))

end Verif.Spec
