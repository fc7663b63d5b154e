/-
Core data of the model: bit streams, faults, the injector contract.

`/repo` does not contain `nil/crypto3/detail/inject.hpp`; the injector is therefore a
*parameter* constrained by a contract (DESIGN.md section 3).  A block (array of words) is
represented by its stream view: the list of its bits in the order given by the endianness of the
hash.  Word `i` of the array occupies stream bits `[i*w, (i+1)*w)`.
-/
namespace Verif

/-- Stream view of data. -/
abbrev Bits := List Bool

/-- Outcomes that are undefined behaviour or contract violations in C++. -/
inductive Fault where
  /-- an access outside an array, or a bit injection past the end of the block -/
  | outOfRange
  /-- a failed `assert` -/
  | assertion
  /-- a shift by at least the width of the promoted operand -/
  | shift
  deriving DecidableEq, Repr

/-- The contract of `injector::inject(src, n, dst, cursor, off)` (`nil/crypto3/detail/inject.hpp`,
used at accumulators/hash.hpp:135,152,194,211 and in the paddings).  Bits `[cursor, cursor+n)` of
`dst` become bits `[off, off+n)` of `src`, the bits before are kept; every later bit is either
kept or cleared (the implementation clears the rest of the word it touches). -/
structure Injector where
  inject : (src : Bits) → (n : Nat) → (dst : Bits) → (cursor off : Nat) → Bits
  length_inject : ∀ src n dst cursor off, cursor + n ≤ dst.length → off + n ≤ src.length →
    (inject src n dst cursor off).length = dst.length
  take_inject : ∀ src n dst cursor off, cursor + n ≤ dst.length → off + n ≤ src.length →
    (inject src n dst cursor off).take (cursor + n) = dst.take cursor ++ (src.drop off).take n
  rest_inject : ∀ src n dst cursor off, cursor + n ≤ dst.length → off + n ≤ src.length →
    ∀ i, cursor + n ≤ i →
      (inject src n dst cursor off)[i]? = dst[i]? ∨ (inject src n dst cursor off)[i]? = some false

/-- A checked call of `inject`: a request that does not fit is a fault. -/
def Injector.run (J : Injector) (src : Bits) (n : Nat) (dst : Bits) (cursor off : Nat) :
    Except Fault Bits :=
  if cursor + n ≤ dst.length ∧ off + n ≤ src.length then
    .ok (J.inject src n dst cursor off)
  else .error .outOfRange

/-- An injector that keeps every other bit. -/
def spliceInjector : Injector where
  inject src n dst cursor off := dst.take cursor ++ (src.drop off).take n ++ dst.drop (cursor + n)
  length_inject := by intros; simp; omega
  take_inject := by
    intro src n dst cursor off h h'
    rw [List.take_append_of_le_length (by simp; omega), List.take_of_length_le (by simp; omega)]
  rest_inject := by
    intro src n dst cursor off h h' i hi
    left
    rw [List.getElem?_append_right (by simp; omega), List.getElem?_drop]
    congr 1
    simp
    omega

/-- An injector that clears every bit after the written ones. -/
def clearingInjector : Injector where
  inject src n dst cursor off :=
    dst.take cursor ++ (src.drop off).take n ++ List.replicate (dst.length - (cursor + n)) false
  length_inject := by intros; simp; omega
  take_inject := by
    intro src n dst cursor off h h'
    rw [List.take_append_of_le_length (by simp; omega), List.take_of_length_le (by simp; omega)]
  rest_inject := by
    intro src n dst cursor off h h' i hi
    rw [List.getElem?_append_right (by simp; omega)]
    by_cases hi' : i < dst.length
    · right
      rw [List.getElem?_replicate, if_pos]
      simp; omega
    · left
      rw [List.getElem?_eq_none (by simp; omega), List.getElem?_eq_none (by omega)]

/-- The value of a `std::size_t` / `uint64_t` counter after an addition. -/
def wrap64 (n : Nat) : Nat := n % 2 ^ 64

end Verif
