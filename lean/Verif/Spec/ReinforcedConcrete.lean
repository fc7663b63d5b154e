import Mathlib.LinearAlgebra.Matrix.Notation
import Mathlib.Data.ZMod.Basic
/-
Specification of the layers of Reinforced Concrete (Grassi, Khovratovich, Lüftenegger, Rechberger, Schofnegger, Walch,
"Reinforced Concrete", section 4).
-/
namespace Verif.Spec.ReinforcedConcrete

/-- The digits of a number in the mixed radix system, least significant first. -/
def digits : List Nat → Nat → List Nat
  | [], _ => []
  | s :: ss, n => n % s :: digits ss (n / s)

/-- The number with these digits, least significant first. -/
def value : List Nat → List Nat → Nat
  | s :: ss, d :: ds => d + s * value ss ds
  | _, _ => 0

/-- The S-box on digits: inversion modulo `p'` below `p'`, the identity above. -/
def sbox (p' x : Nat) : Nat := if x < p' then ((x : ZMod p')⁻¹).val else x

/-- The circulant matrix `circ(2, 1, 1)`. -/
def circ {F : Type} [OfNat F 1] [OfNat F 2] : Matrix (Fin 3) (Fin 3) F := !![2, 1, 1; 1, 2, 1; 1, 1, 2]

/-- The Bricks layer. -/
def bricks {F : Type} [CommRing F] (d : Nat) (α β : Fin 2 → F) (x : Fin 3 → F) : Fin 3 → F :=
  ![x 0 ^ d, x 1 * (x 0 ^ 2 + α 0 * x 0 + β 0), x 2 * (x 1 ^ 2 + α 1 * x 1 + β 1)]

/-- The number with these digits (field elements), least significant first. -/
def combine {F : Type} [CommRing F] : List Nat → List F → F
  | s :: ss, d :: ds => d + (s : F) * combine ss ds
  | _, _ => 0

/-- The Bar function: the digits of the representative, the S-box on each, and the number with these digits. -/
def bar {p : Nat} (radices : List Nat) (S : Nat → ZMod p) (e : ZMod p) : ZMod p :=
  combine radices ((digits radices e.val).map S)

/-- The permutation with `k` rounds on either side of Bars: Concrete 0, then `k` times Bricks and Concrete, Bars,
Concrete, and again `k` times Bricks and Concrete. -/
def permutation {X : Type} (k : Nat) (concrete : Nat → X → X) (bricks bars : X → X) (x : X) : X :=
  let half := fun (first : Nat) (x : X) => (List.range k).foldl (fun x i => concrete (first + i) (bricks x)) x
  half (k + 2) (concrete (k + 1) (bars (half 1 (concrete 0 x))))

end Verif.Spec.ReinforcedConcrete
