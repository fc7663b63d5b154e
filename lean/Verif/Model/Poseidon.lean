import Mathlib.Data.Matrix.Mul
import Mathlib.Data.List.FinRange
import Mathlib.Logic.Function.Basic
import Verif.Model.Core
/-
Model of the Poseidon hash: policies, rounds, permutation, sponge and the `hash` overloads
(detail/poseidon/*.hpp, poseidon.hpp, algorithm/hash.hpp:104-116, 172-185, 264-374).
Arrays of field elements of a static size are functions from `Fin`; the dynamic index of `absorb` can fault.
-/
namespace Verif

/-- `base_poseidon_policy`, detail/poseidon/poseidon_policy.hpp:29-77 (the parameters that the code uses). -/
structure PoseidonPolicy where
  rate : Nat
  capacity : Nat
  sboxPower : Nat
  fullRounds : Nat
  partRounds : Nat
  mina : Bool
  deriving DecidableEq, Repr

/-- `state_words`, poseidon_policy.hpp:44. -/
def PoseidonPolicy.stateWords (P : PoseidonPolicy) : Nat := P.rate + P.capacity

/-- `half_full_rounds`, poseidon_policy.hpp:56. -/
def PoseidonPolicy.halfFullRounds (P : PoseidonPolicy) : Nat := P.fullRounds >>> 1

/-- `poseidon_policy<FieldType, Security, Rate>`, poseidon_policy.hpp:86-114; `none` when no specialisation exists. -/
def poseidonPolicy (security rate : Nat) : Option PoseidonPolicy :=
  if security = 80 ∧ (rate = 1 ∨ rate = 2) then some ⟨rate, 1, 5, 8, 33, false⟩
  else if security = 80 ∧ rate = 4 then some ⟨4, 1, 5, 8, 35, false⟩
  else if security = 128 ∧ (rate = 1 ∨ rate = 2) then some ⟨rate, 1, 5, 8, 57, false⟩
  else if security = 128 ∧ rate = 4 then some ⟨4, 1, 5, 8, 60, false⟩
  else if security = 128 ∧ rate = 8 then some ⟨4, 1, 5, 8, 63, false⟩
  else if security = 256 ∧ rate ≤ 4 then some ⟨rate, 1, 5, 8, 120, false⟩
  else none

/-- `mina_poseidon_policy`, poseidon_policy.hpp:124-125. -/
def minaPoseidonPolicy : PoseidonPolicy := ⟨2, 1, 7, 55, 0, true⟩

section
variable {F : Type} [CommRing F]

/-- `for (i = 0; i < state_words; i++) A[i] = f(i, A[i])`: the loops of the rounds. -/
def forWords {α : Type} {t : Nat} (A : Fin t → α) (f : Fin t → α → α) : Fin t → α :=
  (List.finRange t).foldl (fun A i => Function.update A i (f i (A i))) A

/-- The tables that `poseidon_constants` reads: `constants_data_type::mds_matrix` and `round_constants`
(the array has `full_rounds + part_rounds` rows, so an access is out of range from that row on). -/
structure PoseidonData (F : Type) (t : Nat) where
  mds : Fin t → Fin t → F
  rounds : Nat
  rc : Nat → Fin t → F

/-- The constructor of `poseidon_constants` (the transposition), detail/poseidon/poseidon_constants.hpp:52-59. -/
def PoseidonData.stored {t : Nat} (D : PoseidonData F t) : Fin t → Fin t → F := fun i j => D.mds j i

/-- `product_with_mds_matrix`, poseidon_constants.hpp:66-68 (contract: `algebra::vectmatmul(v, m)` is the product of
the row vector with the matrix). -/
def PoseidonData.product {t : Nat} (D : PoseidonData F t) (A : Fin t → F) : Fin t → F :=
  Matrix.vecMul A (Matrix.of D.stored)

/-- `get_round_constant`, poseidon_constants.hpp:61-64. -/
def PoseidonData.const {t : Nat} (D : PoseidonData F t) (round : Nat) (i : Fin t) : Except Fault F :=
  if round < D.rounds then .ok (D.rc round i) else .error .outOfRange

/-- The loop that adds the constants of a round (poseidon_round_operator.hpp:54-57, 65-67, 111-113, 122-124). -/
def addConstants {t : Nat} (D : PoseidonData F t) (round : Nat) (A : Fin t → F) : Except Fault (Fin t → F) :=
  (List.finRange t).foldlM (fun A i => do
    let c ← D.const round i
    pure (Function.update A i (A i + c))) A

/-- The same loop with the S-box applied in the body, poseidon_round_operator.hpp:54-57. -/
def addConstantsPow {t : Nat} (D : PoseidonData F t) (e round : Nat) (A : Fin t → F) : Except Fault (Fin t → F) :=
  (List.finRange t).foldlM (fun A i => do
    let c ← D.const round i
    let A := Function.update A i (A i + c)
    pure (Function.update A i (A i ^ e))) A

/-- `full_round` of the original version, poseidon_round_operator.hpp:50-59. -/
def fullRoundOrig {t : Nat} (P : PoseidonPolicy) (D : PoseidonData F t) (A : Fin t → F) (r : Nat) :
    Except Fault (Fin t → F) := do
  unless r < P.halfFullRounds ∨ r ≥ P.halfFullRounds + P.partRounds do throw .assertion
  let A ← addConstantsPow D P.sboxPower r A
  pure (D.product A)

/-- `part_round` of the original version, poseidon_round_operator.hpp:61-70. -/
def partRoundOrig {t : Nat} [NeZero t] (P : PoseidonPolicy) (D : PoseidonData F t) (A : Fin t → F) (r : Nat) :
    Except Fault (Fin t → F) := do
  unless r ≥ P.halfFullRounds ∧ r < P.halfFullRounds + P.partRounds do throw .assertion
  let A ← addConstants D r A
  let A := Function.update A 0 (A 0 ^ P.sboxPower)
  pure (D.product A)

/-- `full_round` of the Mina version, poseidon_round_operator.hpp:103-114. -/
def fullRoundMina {t : Nat} (P : PoseidonPolicy) (D : PoseidonData F t) (A : Fin t → F) (r : Nat) :
    Except Fault (Fin t → F) := do
  unless r < P.halfFullRounds ∨ r ≥ P.halfFullRounds + P.partRounds do throw .assertion
  let A := forWords A (fun _ x => x ^ P.sboxPower)
  addConstants D r (D.product A)

/-- `part_round` of the Mina version, poseidon_round_operator.hpp:116-125. -/
def partRoundMina {t : Nat} [NeZero t] (P : PoseidonPolicy) (D : PoseidonData F t) (A : Fin t → F) (r : Nat) :
    Except Fault (Fin t → F) := do
  unless r ≥ P.halfFullRounds ∧ r < P.halfFullRounds + P.partRounds do throw .assertion
  let A := Function.update A 0 (A 0 ^ P.sboxPower)
  addConstants D r (D.product A)

/-- The selection of the round operator, poseidon_round_operator.hpp:29-31, 82-84. -/
def fullRound {t : Nat} (P : PoseidonPolicy) (D : PoseidonData F t) (A : Fin t → F) (r : Nat) :
    Except Fault (Fin t → F) :=
  if P.mina then fullRoundMina P D A r else fullRoundOrig P D A r

@[inherit_doc fullRound]
def partRound {t : Nat} [NeZero t] (P : PoseidonPolicy) (D : PoseidonData F t) (A : Fin t → F) (r : Nat) :
    Except Fault (Fin t → F) :=
  if P.mina then partRoundMina P D A r else partRoundOrig P D A r

/-- One of the three loops of `permute`: `n` rounds, each with `round_number++`. -/
def roundLoop {α : Type} (step : α → Nat → Except Fault α) : Nat → α × Nat → Except Fault (α × Nat)
  | 0, s => .ok s
  | n + 1, (A, r) => do
    let A ← step A r
    roundLoop step n (A, r + 1)

/-- `poseidon_permutation::permute`, detail/poseidon/poseidon_permutation.hpp:45-72. -/
def poseidonPermute {t : Nat} [NeZero t] (P : PoseidonPolicy) (D : PoseidonData F t) (A : Fin t → F) :
    Except Fault (Fin t → F) := do
  let s ← roundLoop (fullRound P D) P.halfFullRounds (A, 0)
  let s ← roundLoop (partRound P D) P.partRounds s
  let s ← roundLoop (fullRound P D) (P.fullRounds - P.halfFullRounds) s
  pure s.1

/-- `poseidon_sponge_construction`: the members `state` and `state_count`, poseidon_sponge.hpp:23, 35. -/
structure Sponge (F : Type) (t : Nat) where
  state : Fin t → F
  count : Nat

/-- The constructor, poseidon_sponge.hpp:37-42. -/
def Sponge.init (F : Type) [CommRing F] (t : Nat) : Sponge F t := ⟨fun _ => 0, 1⟩

/-- `permute`, poseidon_sponge.hpp:50-59; `perm` is `permutation_type::permute`. -/
def Sponge.permute {t : Nat} [NeZero t] (perm : (Fin t → F) → Except Fault (Fin t → F)) (s : Sponge F t) :
    Except Fault (Sponge F t) := do
  let A ← perm s.state
  let A := Function.update A 0 (A (Fin.ofNat t (t - 1)))
  pure ⟨fun i => if i.val ≥ 1 then 0 else A i, 1⟩

/-- `state[k] = x` with a dynamic index. -/
def setWord {t : Nat} (A : Fin t → F) (k : Nat) (x : F) : Except Fault (Fin t → F) :=
  if h : k < t then .ok (Function.update A ⟨k, h⟩ x) else .error .outOfRange

/-- `absorb(input)`, poseidon_sponge.hpp:61-68. -/
def Sponge.absorb {t : Nat} [NeZero t] (perm : (Fin t → F) → Except Fault (Fin t → F)) (s : Sponge F t) (x : F) :
    Except Fault (Sponge F t) := do
  let s ← if s.count = t then s.permute perm else .ok s
  let A ← setWord s.state s.count x
  pure ⟨A, s.count + 1⟩

/-- `squeeze()`, poseidon_sponge.hpp:70-73: the new sponge and the returned element. -/
def Sponge.squeeze {t : Nat} [NeZero t] (perm : (Fin t → F) → Except Fault (Fin t → F)) (s : Sponge F t) :
    Except Fault (Sponge F t × F) := do
  let s ← s.permute perm
  pure (s, s.state 0)

/-- `absorb(inputs)` for a vector, poseidon_sponge.hpp:44-48; the same loop is in every overload of `hash`. -/
def Sponge.absorbAll {t : Nat} [NeZero t] (perm : (Fin t → F) → Except Fault (Fin t → F)) (s : Sponge F t)
    (l : List F) : Except Fault (Sponge F t) := l.foldlM (fun s x => s.absorb perm x) s

section
variable {t : Nat} [NeZero t] (perm : (Fin t → F) → Except Fault (Fin t → F))

/-- `hash<Hash>(first, last)`, algorithm/hash.hpp:173-185; also `hash<Hash>(container)`, lines 284-295. -/
def poseidonHash (l : List F) : Except Fault F := do
  let s ← (Sponge.init F t).absorbAll perm l
  let r ← s.squeeze perm
  pure r.2

/-- `hash<Hash>(first, last, out)`, algorithm/hash.hpp:105-116; `written` is what the iterator has written so far. -/
def poseidonHashOut (l : List F) (written : List F) : Except Fault (List F) := do
  let s ← (Sponge.init F t).absorbAll perm l
  let r ← s.squeeze perm
  pure (written ++ [r.2])

/-- `hash<Hash>(container, initial_element)`, algorithm/hash.hpp:268-281. -/
def poseidonHashInitial (l : List F) (initial : F) : Except Fault F := do
  let s ← (Sponge.init F t).absorb perm initial
  let s ← s.absorbAll perm l
  let r ← s.squeeze perm
  pure r.2

/-- `hash<Hash>(element, initial_element)`, algorithm/hash.hpp:298-309. -/
def poseidonHashPair (element initial : F) : Except Fault F := do
  let s ← (Sponge.init F t).absorb perm initial
  let s ← s.absorb perm element
  let r ← s.squeeze perm
  pure r.2

/-- `hash<Hash>(element)`, algorithm/hash.hpp:311-321. -/
def poseidonHashSingle (element : F) : Except Fault F := do
  let s ← (Sponge.init F t).absorb perm element
  let r ← s.squeeze perm
  pure r.2

/-- `1 << input_word_size`, an `int` of 32 bits, algorithm/hash.hpp:346. -/
def intShl1 (w : Nat) : Except Fault Int := if w < 32 then .ok (2 ^ w) else .error .shift

/-- One iteration of the loop of `absorb` for integral containers, algorithm/hash.hpp:340-349: the sponge,
`next_element` and `bits_left`.  `wordBits` is `Hash::word_bits`, `w` is `input_word_size`. -/
def absorbWordStep (wordBits w : Nat) (st : Sponge F t × F × Nat) (word : Int) :
    Except Fault (Sponge F t × F × Nat) := do
  let st ← if st.2.2 < w then do
      let s ← st.1.absorb perm st.2.1
      pure (s, (0 : F), wordBits)
    else pure st
  let m ← intShl1 w
  let next := st.2.1 * (m : F)
  let next := next + (word : F)
  pure (st.1, next, st.2.2 - w)

/-- `absorb<Hash>(sponge, container)` for integral containers, algorithm/hash.hpp:326-356: the digest.
The word size is `w = CHAR_BIT * sizeof(value_type)`; the words are the values of the container, negative ones for a
signed type (contract: arithmetic between a field element and an integer is that of the integer's residue). -/
def absorbWords (wordBits w : Nat) (s : Sponge F t) (words : List Int) : Except Fault F := do
  unless w ≤ wordBits do throw .assertion
  let st ← words.foldlM (absorbWordStep perm wordBits w) (s, (0 : F), wordBits)
  let s ← if st.2.2 ≠ wordBits then st.1.absorb perm st.2.1 else pure st.1
  let r ← s.squeeze perm
  pure r.2

/-- `hash<Hash>(integral container)`, algorithm/hash.hpp:368-374. -/
def poseidonHashWords (wordBits w : Nat) (words : List Int) : Except Fault F :=
  absorbWords perm wordBits w (Sponge.init F t) words

/-- `hash<Hash>(integral container, initial_element)`, algorithm/hash.hpp:358-366. -/
def poseidonHashWordsInitial (wordBits w : Nat) (words : List Int) (initial : F) : Except Fault F := do
  let s ← (Sponge.init F t).absorb perm initial
  absorbWords perm wordBits w s words

end

/-- One pass of the loop of `process_block`, poseidon.hpp:56-57; `xorF` is the `^=` of the element type (no contract;
the algebra library has none). -/
def poseidonXorWord {t : Nat} (xorF : F → F → F) (block : List F) (A : Fin t → F) (i : Fin t) :
    Except Fault (Fin t → F) :=
  match block[i.val]? with
  | some b => .ok (Function.update A i (xorF (A i) b))
  | none => .error .outOfRange

/-- `poseidon_compressor::process_block`, poseidon.hpp:54-66: the block is an array of `rate` elements and the loop
runs over `state_words`. -/
def poseidonProcessBlock {t : Nat} (xorF : F → F → F) (perm : (Fin t → F) → Except Fault (Fin t → F))
    (state : Fin t → F) (block : List F) : Except Fault (Fin t → F) := do
  let A ← (List.finRange t).foldlM (poseidonXorWord xorF block) state
  perm A

/-- `reset`, poseidon_sponge.hpp:76-79.  `std::array` has no member `clear`, so that the function does not compile when
it is used; the model reads `state.clear()` as "set every word to zero". -/
def Sponge.reset {t : Nat} (_ : Sponge F t) : Sponge F t := ⟨fun _ => 0, 0⟩

end
end Verif
