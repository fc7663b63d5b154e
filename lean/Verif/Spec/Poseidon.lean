import Mathlib.Data.Matrix.Mul
import Mathlib.Logic.Function.Basic
/-
Specification of the Poseidon permutation (Grassi, Khovratovich, Rechberger, Roy, Schofnegger, "Poseidon", section 2.2;
the Mina variant has the layers in the order S-box, mix, add constants) and of the way the library chains it.
-/
namespace Verif.Spec.Poseidon

section
variable {F : Type} [CommRing F] {t : Nat}

/-- The S-box layer: every word in a full round, word 0 in a partial one. -/
def sbox (α : Nat) (full : Bool) (x : Fin t → F) : Fin t → F := fun i => if full || i.val == 0 then x i ^ α else x i

/-- Round `r` of the original order: add constants, S-box, multiply by the matrix. -/
def roundOrig (α : Nat) (M : Matrix (Fin t) (Fin t) F) (rc : Nat → Fin t → F) (full : Bool) (r : Nat)
    (x : Fin t → F) : Fin t → F := M.mulVec (sbox α full (x + rc r))

/-- Round `r` of the Mina order: S-box, multiply by the matrix, add constants. -/
def roundMina (α : Nat) (M : Matrix (Fin t) (Fin t) F) (rc : Nat → Fin t → F) (full : Bool) (r : Nat)
    (x : Fin t → F) : Fin t → F := M.mulVec (sbox α full x) + rc r

/-- The permutation: `RF / 2` full rounds, `RP` partial rounds, and the remaining full rounds; `round` is one of the
two round functions. -/
def perm (round : Bool → Nat → (Fin t → F) → Fin t → F) (RF RP : Nat) (x : Fin t → F) : Fin t → F :=
  (List.range (RF + RP)).foldl (fun x r => round (decide (r < RF / 2 ∨ RF / 2 + RP ≤ r)) r x) x
end

section
variable {F : Type} [Zero F]

/-- The blocks of a list: pieces of `n` elements, the last of at most `n`; the empty list is one empty block. -/
def blocks (n : Nat) (l : List F) : List (List F) :=
  if h : l.length ≤ n ∨ n = 0 then [l] else l.take n :: blocks n (l.drop n)
termination_by l.length
decreasing_by simp only [List.length_drop]; omega

/-- Word `i` of the permutation input: the chaining value, then the block, then zeros. -/
def input {n : Nat} (h : F) (block : List F) : Fin (n + 1) → F :=
  Fin.cons h (fun i => (block[i.val]?).getD 0)

/-- The new chaining value: the last word of the permuted input. -/
def compress {n : Nat} (P : (Fin (n + 1) → F) → Fin (n + 1) → F) (h : F) (block : List F) : F :=
  P (input h block) (Fin.last n)

/-- The digest of a list. -/
def digest {n : Nat} (P : (Fin (n + 1) → F) → Fin (n + 1) → F) (l : List F) : F :=
  (blocks n l).foldl (compress P) 0

/-- The states that are handed to the permutation when a list is hashed, in order. -/
def inputsFrom {n : Nat} (P : (Fin (n + 1) → F) → Fin (n + 1) → F) : F → List (List F) → List (Fin (n + 1) → F)
  | _, [] => []
  | h, b :: bs => input h b :: inputsFrom P (compress P h b) bs

@[inherit_doc inputsFrom]
def inputs {n : Nat} (P : (Fin (n + 1) → F) → Fin (n + 1) → F) (l : List F) : List (Fin (n + 1) → F) :=
  inputsFrom P 0 (blocks n l)

/-- The list extended with zeros to a whole number of blocks, at least one. -/
def zeroPad (n : Nat) (l : List F) : List F :=
  l ++ List.replicate ((if l = [] then 1 else (l.length + n - 1) / n) * n - l.length) 0

end

/-- The integer with the given digits in base `2 ^ w`, most significant first. -/
def fromDigits (w : Nat) (ds : List Int) : Int := ds.foldl (fun a d => a * 2 ^ w + d) 0

/-- The field elements that a container of `w`-bit words is packed into, `k` words in each. -/
def pack (k w : Nat) (words : List Int) : List Int := if words = [] then [] else (blocks k words).map (fromDigits w)

end Verif.Spec.Poseidon
