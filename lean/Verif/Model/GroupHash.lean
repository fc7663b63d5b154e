import Mathlib.Algebra.Group.Defs
import Verif.Model.Policies
import Verif.Model.Accumulator
/-
Model of `find_group_hash` (find_group_hash.hpp:67-153).
-/
namespace Verif

variable {σ δ G : Type}

/-- Template parameters of `find_group_hash` (find_group_hash.hpp:67-83): the construction of `Hash`, the
way it views octets, the domain separator `params::dst`, the decoder
`nil::marshalling::pack<little_endian>(H_vec, status)` (`none`: the status is not `success`), and the cofactor
of the group.  `cache0` is the element cache of the stream processors that feed octets. -/
structure GroupHashParams (σ δ G : Type) where
  C : Construction σ δ
  J : Injector
  octets : Endian
  cache0 : List Nat
  dst : List Nat
  decode : δ → Option G
  cofactor : Nat

/-- `urs`, find_group_hash.hpp:103-107. -/
def groupHashUrs : List Nat :=
  [0x30, 0x39, 0x36, 0x62, 0x33, 0x36, 0x61, 0x35, 0x38, 0x30, 0x34, 0x62, 0x66, 0x61, 0x63, 0x65,
   0x66, 0x31, 0x36, 0x39, 0x31, 0x65, 0x31, 0x37, 0x33, 0x63, 0x33, 0x36, 0x36, 0x61, 0x34, 0x37,
   0x66, 0x66, 0x35, 0x62, 0x61, 0x38, 0x34, 0x61, 0x34, 0x34, 0x66, 0x32, 0x36, 0x64, 0x64, 0x64,
   0x37, 0x65, 0x38, 0x64, 0x39, 0x66, 0x37, 0x39, 0x64, 0x35, 0x62, 0x34, 0x32, 0x64, 0x66, 0x30]

/-- `find_group_hash_default_params::dst`, find_group_hash.hpp:48-57: the characters of "Zcash_PH". -/
def groupHashDst : List Nat := [0x5a, 0x63, 0x61, 0x73, 0x68, 0x5f, 0x50, 0x48]

variable [Zero G] [SMul ℕ G]

/-- Feeding octets from a container. -/
def GroupHashParams.feed (P : GroupHashParams σ δ G) (a : Acc σ) (xs : List Nat) : Except Fault (Acc σ) :=
  a.feed P.C P.J (wordElem P.octets 8) .container P.cache0 xs

/-- Construction of the accumulator and `init_accumulator`, accumulators/hash.hpp:245-248,
find_group_hash.hpp:109-112. -/
def GroupHashParams.init (P : GroupHashParams σ δ G) (garbage : Bits) : Except Fault (Acc σ) := do
  let a ← P.feed (Acc.init P.C garbage) P.dst
  P.feed a groupHashUrs

/-- The loop of `process`, find_group_hash.hpp:129-146, at most `fuel` iterations (`none`: not finished).
`i` is a `uint8_t`, incremented before the hash is computed; the assertion `i < 256` (line 145) compares the
incremented octet. -/
def GroupHashParams.loop (P : GroupHashParams σ δ G) (a : Acc σ) : Nat → Nat → Except Fault (Option G)
  | 0, _ => .ok none
  | fuel + 1, i => do
    let copy ← P.feed a [i]
    let i := (i + 1) % 2 ^ 8
    let H ← copy.result P.C
    match P.decode H with
    | some p => .ok (some p)
    | none => if i < 256 then loop P a fuel i else .error .assertion

/-- `process`, find_group_hash.hpp:124-153: the point is multiplied by the cofactor; a zero result is an
assertion failure.  `is_well_formed` holds for elements of the group. -/
def GroupHashParams.process [DecidableEq G] (P : GroupHashParams σ δ G) (a : Acc σ) (fuel : Nat) :
    Except Fault (Option G) := do
  match ← P.loop a fuel 0 with
  | none => .ok none
  | some p => if P.cofactor • p = 0 then .error .assertion else .ok (some (P.cofactor • p))

/-- Calls: `update` with a range or iterators of any element type (lines 114-122), and extraction. -/
inductive GroupHashOp where
  | update {α : Type} (E : Elem α) (k : RangeKind) (cache0 xs : List α)
  | extract

/-- A program; the accumulator is only changed by `update` (`process` copies it, line 130). -/
def GroupHashParams.run [DecidableEq G] (P : GroupHashParams σ δ G) (fuel : Nat) :
    Acc σ → List (Option G) → List GroupHashOp → Except Fault (Acc σ × List (Option G))
  | a, out, [] => .ok (a, out)
  | a, out, .update E k cache0 xs :: ops => do
    let a ← a.feed P.C P.J E k cache0 xs
    run P fuel a out ops
  | a, out, .extract :: ops => do
    let g ← P.process a fuel
    run P fuel a (out ++ [g]) ops

end Verif
