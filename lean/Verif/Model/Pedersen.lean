import Mathlib.Data.ZMod.Basic
import Verif.Model.Core
import Verif.Model.Util
/-
Model of `pedersen_to_point` and `pedersen` (pedersen.hpp), `lookup` (detail/pedersen/lookup.hpp) and
`chunks_per_base_point` (detail/pedersen/basic_functions.hpp).
-/
namespace Verif

/-- Template parameters of `pedersen_to_point` (pedersen.hpp:50-89): `r` is the order of the scalar field,
`c` is `chunks_per_base_point`, `width` the number of bits of `scalar_field_type::integral_type`, `base` the
result of `hash<base_point_generator>({i})`.  The group operations of the algebra library are those of an
abelian group; multiplying a point by a scalar field element uses its representative in `[0, r)`. -/
structure PedersenParams (G : Type) where
  r : Nat
  c : Nat
  width : Nat
  base : Nat → G

/-- Data members of `internal_accumulator_type`, pedersen.hpp:91-103. -/
structure PedersenAcc (G : Type) (r : Nat) where
  bitsSupplied : Nat
  cached : List Bool
  powTwo : Nat
  segment : ZMod r
  point : G
  result : G

/-- `lookup<ResultT, 3>::process`, detail/pedersen/lookup.hpp:42-44, in `int` arithmetic: the operands are
`bool`s promoted to `int`. -/
def pedersenLookup (bits : List Bool) : Int :=
  (1 - 2 * ((bits.getD 2 false).toNat : Int)) *
    (1 + ((bits.getD 0 false).toNat : Int) + 2 * ((bits.getD 1 false).toNat : Int))

variable {G : Type} [Zero G] [Add G] [SMul ℕ G]

/-- Default member initialisers, pedersen.hpp:92-103. -/
def PedersenAcc.init (P : PedersenParams G) : PedersenAcc G P.r where
  bitsSupplied := 0
  cached := []
  powTwo := 1
  segment := 0
  point := P.base 0
  result := 0

/-- `is_time_to_go_to_new_segment`, pedersen.hpp:111-116; `supplied_chunks()` (106-109) divides by 3. -/
def PedersenAcc.newSegment (P : PedersenParams G) (a : PedersenAcc G P.r) : Bool :=
  decide (a.bitsSupplied / 3 > 1 ∧ a.bitsSupplied / 3 % P.c = 1)

/-- `update_result`, pedersen.hpp:118-120. -/
def PedersenAcc.updateResult (P : PedersenParams G) (a : PedersenAcc G P.r) : PedersenAcc G P.r :=
  { a with result := a.result + a.segment.val • a.point }

/-- `update_new_segment`, pedersen.hpp:122-130; the index is cast to `uint32_t`. -/
def PedersenAcc.updateNewSegment (P : PedersenParams G) (a : PedersenAcc G P.r) : PedersenAcc G P.r :=
  { a with point := P.base (a.bitsSupplied / 3 / P.c % 2 ^ 32), powTwo := 1, segment := 0 }

/-- `update_current_segment`, pedersen.hpp:132-142; `pow_two << 4` in an integer type of `width` bits. -/
def PedersenAcc.updateCurrentSegment (P : PedersenParams G) (a : PedersenAcc G P.r) : PedersenAcc G P.r :=
  { a with segment := a.segment + (pedersenLookup a.cached : ZMod P.r) * (a.powTwo : ZMod P.r)
           powTwo := a.powTwo * 2 ^ 4 % 2 ^ P.width
           cached := [] }

/-- `update(bool)`, pedersen.hpp:145-155. -/
def PedersenAcc.update (P : PedersenParams G) (a : PedersenAcc G P.r) (b : Bool) : PedersenAcc G P.r :=
  let a := { a with cached := a.cached ++ [b], bitsSupplied := wrap64 (a.bitsSupplied + 1) }
  if a.cached.length = 3 then
    let a := if a.newSegment P then (a.updateResult P).updateNewSegment P else a
    a.updateCurrentSegment P
  else a

/-- The loop of `pad_update`, pedersen.hpp:158-162, run at most `fuel` times; `none`: not finished. -/
def PedersenAcc.padLoop (P : PedersenParams G) : Nat → PedersenAcc G P.r → Option (PedersenAcc G P.r)
  | fuel, a =>
    if a.cached ≠ [] ∨ a.bitsSupplied = 0 then
      match fuel with
      | 0 => none
      | fuel + 1 => padLoop P fuel (a.update P false)
    else some a

/-- `pad_update`, pedersen.hpp:157-164. -/
def PedersenAcc.padUpdate (P : PedersenParams G) (fuel : Nat) (a : PedersenAcc G P.r) :
    Option (PedersenAcc G P.r) :=
  (a.padLoop P fuel).map fun a => a.updateResult P

/-- `process`, pedersen.hpp:192-195: works on the accumulator itself (the member `acc` of `hash_impl` is
`mutable`, accumulators/hash.hpp:256-258, 271), so the changed accumulator is returned with the result. -/
def PedersenAcc.process (P : PedersenParams G) (fuel : Nat) (a : PedersenAcc G P.r) :
    Option (PedersenAcc G P.r × G) :=
  (a.padUpdate P fuel).map fun a => (a, a.result)

/-- Calls on an accumulator: `update(range)` (172-176), `update(first, last)` (183-187), extraction. -/
inductive PedersenOp where
  | range (bits : List Bool)
  | iterators (bits : List Bool)
  | extract

/-- One call. -/
def PedersenAcc.call (P : PedersenParams G) (fuel : Nat) (a : PedersenAcc G P.r) (out : List G) :
    PedersenOp → Option (PedersenAcc G P.r × List G)
  | .range bits => some (bits.foldl (PedersenAcc.update P) a, out)
  | .iterators bits => some (bits.foldl (PedersenAcc.update P) a, out)
  | .extract => (a.process P fuel).map fun (a, g) => (a, out ++ [g])

/-- A program. -/
def PedersenAcc.run (P : PedersenParams G) (fuel : Nat) : PedersenAcc G P.r → List G → List PedersenOp →
    Option (PedersenAcc G P.r × List G)
  | a, out, [] => some (a, out)
  | a, out, op :: ops => (a.call P fuel out op).bind fun (a, out) => run P fuel a out ops

/-- `hash<pedersen_to_point>(bits)`. -/
def pedersenHash (P : PedersenParams G) (fuel : Nat) (bits : List Bool) : Option G :=
  (PedersenAcc.process P fuel (bits.foldl (PedersenAcc.update P) (PedersenAcc.init P))).map Prod.snd

/-! ### `chunks_per_base_point` -/

/-- `get_test_value(i)`, detail/pedersen/basic_functions.hpp:46-50, in an integer type whose largest value is
`bound` (`none`: overflow); `k = chunk_bits + 1`. -/
def pedersenTestValue (bound k i : Nat) : Option Nat := do
  let p ← staticPow (fun a b => if a * b ≤ bound then some (a * b) else none) 1 2 (i * k : Nat)
  let q ← staticPow (fun a b => if a * b ≤ bound then some (a * b) else none) 1 2 (k : Nat)
  let v := k * ((p - 1) / (q - 1))
  if v ≤ bound then some v else none

/-- The loop, lines 52-55, at most `fuel` iterations; the outer `none` is overflow, the inner one an
unfinished loop. -/
def chunksLoop (bound k upper : Nat) : Nat → Nat → Nat → Option (Option Nat)
  | fuel, c, prev => do
    let v ← pedersenTestValue bound k c
    if v ≤ upper then
      match fuel with
      | 0 => some none
      | fuel + 1 => chunksLoop bound k upper fuel (c + 1) c
    else some (some prev)

/-- `chunks_per_base_point<Field>(chunk_bits)`, detail/pedersen/basic_functions.hpp:38-58. -/
def chunksPerBasePoint (bound modulus chunkBits fuel : Nat) : Option (Option Nat) :=
  chunksLoop bound (chunkBits + 1) ((modulus - 1) / 2) fuel 1 0

end Verif
