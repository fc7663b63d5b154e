import Mathlib.Data.ZMod.Basic
import Mathlib.Data.Matrix.Mul
import Mathlib.Data.List.FinRange
import Mathlib.Logic.Function.Basic
import Verif.Model.PoseidonGen
/-
Model of the Reinforced Concrete permutation (detail/reinforced_concrete/*.hpp).  Field elements are `ZMod p`;
`element.data` is the canonical representative (contract), `inversed` of zero is not used by the code.
-/
namespace Verif

/-- `reinforced_concrete_policy`, detail/reinforced_concrete/reinforced_concrete_policy.hpp:33-92. -/
structure RcPolicy where
  bucket : List Nat
  alphas : Fin 2 → Nat
  betas : Fin 2 → Nat
  d : Nat
  pMin : Nat
  partRounds : Nat

/-- `reinforced_concrete_policy<bls12_fr<381>>`, reinforced_concrete_policy.hpp:65-92. -/
def rcBls12 : RcPolicy where
  bucket := [693, 696, 694, 668, 679, 695, 691, 693, 700, 688, 700, 694, 701, 694, 699, 701, 701, 701, 695, 698, 697,
    703, 702, 691, 688, 703, 679]
  alphas := ![1, 3]
  betas := ![2, 4]
  d := 5
  pMin := 659
  partRounds := 3

section
variable {p : Nat} [Fact p.Prime]

/-- `circulant` and `new_matrix[i][j] = circulant[(j + i) % state_words]`, `generate_mds_matrix`,
reinforced_concrete_operators.hpp:68-79. -/
def rcMds : Fin 3 → Fin 3 → ZMod p := fun i j => (![2, 1, 1] : Fin 3 → ZMod p) (Fin.ofNat 3 (j.val + i.val))

/-- `concrete(A, round)`, reinforced_concrete_operators.hpp:81-87 (contract: `matvectmul(m, v)` is the matrix times the
column vector). -/
def rcConcrete (constants : List (ZMod p)) (A : Fin 3 → ZMod p) (round : Nat) : Except Fault (Fin 3 → ZMod p) :=
  (List.finRange 3).foldlM (fun A i =>
    match constants[round * 3 + i.val]? with
    | some c => .ok (Function.update A i (A i + c))
    | none => .error .outOfRange) ((Matrix.of rcMds).mulVec A)

/-- `bricks(A)`, reinforced_concrete_operators.hpp:89-95. -/
def rcBricks (P : RcPolicy) (A : Fin 3 → ZMod p) : Fin 3 → ZMod p :=
  let A0 := A 0
  let A1 := A 1
  let A := Function.update A 0 (A 0 ^ P.d)
  let A := Function.update A 1 (A 1 * (A0 * A0 + (P.alphas 0 : ZMod p) * A0 + (P.betas 0 : ZMod p)))
  Function.update A 2 (A 2 * (A1 * A1 + (P.alphas 1 : ZMod p) * A1 + (P.betas 1 : ZMod p)))

/-- The loop of `decompose`, reinforced_concrete_operators.hpp:102-107, over the buckets from the last to the first:
the digits, the last first. -/
def rcDecomposeLoop (e : ZMod p) : List Nat → (sum product : ZMod p) → List (ZMod p)
  | [], _, _ => []
  | s :: ss, sum, product =>
    let x : ZMod p := ((((e - sum) * product⁻¹).val % (s : ZMod p).val : Nat) : ZMod p)
    x :: rcDecomposeLoop e ss (sum + x * product) (product * (s : ZMod p))

/-- `decompose(element)`, reinforced_concrete_operators.hpp:97-109. -/
def rcDecompose (P : RcPolicy) (e : ZMod p) : List (ZMod p) := (rcDecomposeLoop e P.bucket.reverse 0 1).reverse

/-- The loop of `compose`, reinforced_concrete_operators.hpp:115-118, over pairs of a bucket and a digit, the last
first. -/
def rcComposeLoop : List (Nat × ZMod p) → (comp product : ZMod p) → ZMod p
  | [], comp, _ => comp
  | (s, y) :: l, comp, product => rcComposeLoop l (comp + y * product) (product * (s : ZMod p))

/-- `compose(y_bucket)`, reinforced_concrete_operators.hpp:111-120. -/
def rcCompose (P : RcPolicy) (ys : List (ZMod p)) : ZMod p := rcComposeLoop (P.bucket.zip ys).reverse 0 1

/-- `f(element)` with `SBox_inverse`, reinforced_concrete_operators.hpp:122-124, 130-132. -/
def rcF (x : ZMod p) : ZMod p := if x = 0 then 0 else x⁻¹

/-- `S(element)`, reinforced_concrete_operators.hpp:134-136 (contract: `<` compares canonical representatives). -/
def rcS (P : RcPolicy) (x : ZMod p) : ZMod p := if x.val < (P.pMin : ZMod p).val then rcF x else x

/-- The body of the loop of `Bars`, reinforced_concrete_operators.hpp:141-145. -/
def rcBar (P : RcPolicy) (x : ZMod p) : ZMod p := rcCompose P ((rcDecompose P x).map (rcS P))

/-- `Bars(A)`, reinforced_concrete_operators.hpp:138-147. -/
def rcBars (P : RcPolicy) (A : Fin 3 → ZMod p) : Fin 3 → ZMod p :=
  (List.finRange 3).foldl (fun A i => Function.update A i (rcBar P (A i))) A

/-- The loops of `permute`: for each round number in the list `bricks` and then `concrete`,
reinforced_concrete_functions.hpp:73-76, 80-83. -/
def rcRounds (P : RcPolicy) (constants : List (ZMod p)) (A : Fin 3 → ZMod p) (rounds : List Nat) :
    Except Fault (Fin 3 → ZMod p) :=
  rounds.foldlM (fun A i => rcConcrete constants (rcBricks P A) i) A

/-- `permute(A)`, reinforced_concrete_functions.hpp:68-86. -/
def rcPermute (P : RcPolicy) (constants : List (ZMod p)) (A : Fin 3 → ZMod p) : Except Fault (Fin 3 → ZMod p) := do
  let A ← rcConcrete constants A 0
  let A ← rcRounds P constants A (List.range' 1 P.partRounds)
  let A ← rcConcrete constants (rcBars P A) (P.partRounds + 1)
  rcRounds P constants A (List.range' (P.partRounds + 2) P.partRounds)

end

/-- `generate_round_constants`, detail/reinforced_concrete/reinforced_concrete_lfsr.hpp:61-79, with `full_rounds` and
`constants_number` from lines 46, 58.  The helpers (lines 81-129) are word for word those of the Poseidon generator. -/
def rcConstants (bitFuel fuel wordBits modulus stateWords partRounds : Nat) : Option (List Nat) :=
  let fullRounds := 2 * (partRounds + 1)
  (lfsrRow bitFuel wordBits modulus fuel (fullRounds * stateWords)
    (lfsrInit wordBits stateWords fullRounds partRounds)).map Prod.fst

/-- `process_block`, reinforced_concrete.hpp:28-34; `xorF` is the `^=` of the element type. -/
def rcProcessBlock {F : Type} (xorF : F → F → F) (perm : (Fin 3 → F) → Except Fault (Fin 3 → F))
    (state : Fin 3 → F) (block : Fin 2 → F) : Except Fault (Fin 3 → F) :=
  perm ((List.finRange 2).foldl (fun A i => Function.update A i.castSucc (xorF (A i.castSucc) (block i))) state)

end Verif
