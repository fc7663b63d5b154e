import Mathlib.LinearAlgebra.Matrix.Determinant.Basic
import Mathlib.Algebra.Field.Defs
import Verif.Model.Core
/-
Model of `poseidon_constants_generator`, detail/poseidon/poseidon_constants_generator.hpp.
Loops without a bound take fuel and give `none` when it runs out.
-/
namespace Verif

section
variable {F : Type} [Field F] [DecidableEq F] {t : Nat}

/-- The inner loop over `j`, lines 89-100: `false` after the `break`. -/
def mdsRow (x y : Fin t → F) (i : Fin t) : List (Fin t) → (Fin t → Fin t → F) → Bool × (Fin t → Fin t → F)
  | [], M => (true, M)
  | j :: js, M =>
    if (i ≠ j ∧ x i = x j) ∨ (i ≠ j ∧ y i = y j) ∨ x i = y j then (false, M)
    else mdsRow x y i js (Function.update M i (Function.update (M i) j (x i - y i)⁻¹))

/-- The outer loop over `i`, lines 88-103. -/
def mdsRows (x y : Fin t → F) : List (Fin t) → (Fin t → Fin t → F) → Bool × (Fin t → Fin t → F)
  | [], M => (true, M)
  | i :: is, M =>
    let r := mdsRow x y i (List.finRange t) M
    if r.1 then mdsRows x y is r.2 else (false, r.2)

/-- `generate_mds_matrix`, lines 75-114.  `random` is the sequence of the values of `random_element`, of which attempt
`k` takes `2 t` (`x[i]`, `y[i]` alternately, lines 83-86); `M` is the matrix as the loop finds it, initially
indeterminate.  Contract: `inversed` is the field inverse and `det` the determinant. -/
def generateMds (random : Nat → F) : (fuel : Nat) → (k : Nat) → (M : Fin t → Fin t → F) → Option (Fin t → Fin t → F)
  | 0, _, _ => none
  | fuel + 1, k, M =>
    let x : Fin t → F := fun i => random (2 * t * k + 2 * i.val)
    let y : Fin t → F := fun i => random (2 * t * k + 2 * i.val + 1)
    let r := mdsRows x y (List.finRange t) M
    let secure := if (Matrix.of r.2).det = 0 then false else r.1
    if secure then some r.2 else generateMds random fuel (k + 1) r.2

end

/-- `get_lfsr_state_bit(state, pos)`, lines 185-187. -/
def lfsrBit (state pos : Nat) : Bool := state.testBit (80 - 1 - pos)

/-- `set_new_bit`, lines 189-192, in an unsigned type of `width` bits. -/
def setNewBit (width var : Nat) (newBit : Bool) : Nat := ((var <<< 1) ||| (if newBit then 1 else 0)) % 2 ^ width

/-- `update_lfsr_state_raw`, lines 178-183; `!=` associates to the left. -/
def lfsrRaw (state : Nat) : Nat :=
  let newBit := ((((lfsrBit state 0 != lfsrBit state 13) != lfsrBit state 23) != lfsrBit state 38) !=
    lfsrBit state 51) != lfsrBit state 62
  setNewBit 80 state newBit

/-- A loop `for (i = n - 1; i >= 0; i--) state = set_new_bit(state, (v >> i) & 1U)`, lines 147-158. -/
def lfsrPush : (n v state : Nat) → Nat
  | 0, _, state => state
  | i + 1, v, state => lfsrPush i v (setNewBit 80 state ((v >>> i) &&& 1 != 0))

/-- `for (i = 29; i >= 0; i--) state = set_new_bit(state, 1)`, lines 159-160. -/
def lfsrPushOnes : (n state : Nat) → Nat
  | 0, state => state
  | n + 1, state => lfsrPushOnes n (setNewBit 80 state true)

/-- The state before idling, lines 145-160. -/
def lfsrSeed (wordBits stateWords fullRounds partRounds : Nat) : Nat :=
  lfsrPushOnes 30 (lfsrPush 10 partRounds (lfsrPush 10 fullRounds (lfsrPush 12 stateWords (lfsrPush 12 wordBits
    (lfsrPush 4 1 (lfsrPush 2 1 0))))))

/-- `get_lfsr_init_state`, lines 144-165. -/
def lfsrInit (wordBits stateWords fullRounds partRounds : Nat) : Nat :=
  lfsrRaw^[160] (lfsrSeed wordBits stateWords fullRounds partRounds)

/-- `update_lfsr_state`, lines 167-176. -/
def lfsrUpdate : (fuel state : Nat) → Option Nat
  | 0, _ => none
  | fuel + 1, state =>
    let state := lfsrRaw state
    if lfsrBit state (80 - 1) then some (lfsrRaw state) else lfsrUpdate fuel (lfsrRaw state)

/-- The loop over the bits of one candidate, lines 129-133: the candidate and the state. -/
def lfsrWord (fuel width : Nat) : (j constant state : Nat) → Option (Nat × Nat)
  | 0, constant, state => some (constant, state)
  | j + 1, constant, state => do
    let state ← lfsrUpdate fuel state
    lfsrWord fuel width j (setNewBit width constant (lfsrBit state (80 - 1))) state

/-- The `while (true)` loop for one constant, lines 127-138. -/
def lfsrConstant (bitFuel wordBits modulus : Nat) : (fuel state : Nat) → Option (Nat × Nat)
  | 0, _ => none
  | fuel + 1, state => do
    let r ← lfsrWord bitFuel wordBits wordBits 0 state
    if r.1 < modulus then some r else lfsrConstant bitFuel wordBits modulus fuel r.2

/-- The loop over the words of a row, lines 126-139. -/
def lfsrRow (bitFuel wordBits modulus fuel : Nat) : (i state : Nat) → Option (List Nat × Nat)
  | 0, state => some ([], state)
  | i + 1, state => do
    let c ← lfsrConstant bitFuel wordBits modulus fuel state
    let r ← lfsrRow bitFuel wordBits modulus fuel i c.2
    some (c.1 :: r.1, r.2)

/-- The loop over the rounds, lines 125-140. -/
def lfsrRows (bitFuel wordBits modulus fuel stateWords : Nat) : (r state : Nat) → Option (List (List Nat))
  | 0, _ => some []
  | r + 1, state => do
    let row ← lfsrRow bitFuel wordBits modulus fuel stateWords state
    let rows ← lfsrRows bitFuel wordBits modulus fuel stateWords r row.2
    some (row.1 :: rows)

/-- `generate_round_constants`, lines 119-142; `bitFuel` and `fuel` bound the two `while (true)` loops. -/
def generateRoundConstants (bitFuel fuel wordBits modulus stateWords fullRounds partRounds : Nat) :
    Option (List (List Nat)) :=
  lfsrRows bitFuel wordBits modulus fuel stateWords (fullRounds + partRounds)
    (lfsrInit wordBits stateWords fullRounds partRounds)

end Verif
