import Verif.Model.Accumulator
import Verif.Model.Pack
/-
How a digest leaves the library: the conversion operators of `range_hash_impl` and `itr_hash_impl`
(hash_value.hpp:148-259), and the `hashed` adaptor (adaptor/hashed.hpp).
-/
namespace Verif

variable {T : Type}

/-- `std::copy(result.begin(), result.end(), out.begin())` into an array: one assignment per element,
an assignment past the end is a fault.  `i` is the current position. -/
def copyLoop (conv : Nat → T) : List Nat → Nat → List T → Except Fault (List T)
  | [], _, out => .ok out
  | x :: xs, i, out =>
    if i < out.length then copyLoop conv xs (i + 1) (out.set i (conv x)) else .error .outOfRange

/-- `operator std::array<T, Size>` and `operator boost::array<T, Size>`, hash_value.hpp:148-164.  The local
array `out` is default-initialised: `garbage` is its content, `garbage.length` is `Size`; `conv` is the
conversion of a byte to `T`. -/
def toArray (conv : Nat → T) (digest : List Nat) (garbage : List T) : Except Fault (List T) :=
  copyLoop conv digest 0 garbage

/-- `operator OutputRange`, hash_value.hpp:166-171: `OutputRange(result.begin(), result.end())`, the range
constructor of a sequence container (contract: the elements in order, converted). -/
def toRange (conv : Nat → T) (digest : List Nat) : List T := digest.map conv

/-- `operator Integral`, hash_value.hpp:181-190, for an integral type of exactly `digest_bits` bits:
`pack_to<little_octet_big_bit>` of the octets into one integer. -/
def toIntegral (digest : List Nat) : Nat :=
  implodeOne littleOctetBigBit littleOctetBigBit 8 (8 * digest.length) digest

/-- Output iterators: `put it x mem` is `*it = x; ++it`. -/
structure OutIter (ι μ : Type) where
  put : ι → Nat → μ → Except Fault (ι × μ)

/-- A pointer (index) into an array. -/
def pointerIter (conv : Nat → T) : OutIter Nat (List T) where
  put i x mem := if i < mem.length then .ok (i + 1, mem.set i (conv x)) else .error .outOfRange

/-- `std::back_inserter`. -/
def backInserter (conv : Nat → T) : OutIter Unit (List T) where
  put _ x mem := .ok ((), mem ++ [conv x])

/-- `std::move(first, last, out)`: one `put` per element, returns the advanced iterator. -/
def moveLoop {ι μ : Type} (O : OutIter ι μ) : List Nat → ι → μ → Except Fault (ι × μ)
  | [], it, mem => .ok (it, mem)
  | x :: xs, it, mem => do
    let (it, mem) ← O.put it x mem
    moveLoop O xs it mem

/-- `itr_hash_impl::operator OutputIterator`, hash_value.hpp:255-259: the member `out` is passed by value,
so the object keeps the old iterator; the returned one is advanced.  Returns the returned iterator, the
member `out` afterwards and the memory. -/
def toIterator {ι μ : Type} (O : OutIter ι μ) (digest : List Nat) (member : ι) (mem : μ) :
    Except Fault (ι × ι × μ) := do
  let (it, mem) ← moveLoop O digest member mem
  return (it, member, mem)

/-- Converting the same `itr_hash_impl` object `n` times; returns the last returned iterator. -/
def convertTimes {ι μ : Type} (O : OutIter ι μ) (digest : List Nat) : Nat → ι → ι → μ →
    Except Fault (ι × ι × μ)
  | 0, ret, member, mem => .ok (ret, member, mem)
  | n + 1, _, member, mem => do
    let (ret, member, mem) ← toIterator O digest member mem
    convertTimes O digest n ret member mem

/-! ### The adaptor -/

variable {σ δ : Type}

/-- One use `range | adaptors::hashed<H>` converted to a digest: a range with its element type and category
and the uninitialised memory of the objects created. -/
structure AdaptorUse where
  {α : Type}
  E : Elem α
  k : RangeKind
  cache0 : List α
  garbage : Bits
  xs : List α

/-- `operator|(r, f)`, adaptor/hashed.hpp:38-70, followed by the conversion: `f` (the shared object
`hashed<H>`, lines 77-80) is not touched, a new accumulator is used. -/
def adaptorUse (C : Construction σ δ) (J : Injector) (f : Acc σ) (u : AdaptorUse) :
    Except Fault (Acc σ × δ) := do
  let d ← hashOnce C J u.E u.k u.garbage u.cache0 u.xs
  return (f, d)

/-- Any number of uses of the same shared object. -/
def adaptorUses (C : Construction σ δ) (J : Injector) : Acc σ → List AdaptorUse →
    Except Fault (Acc σ × List δ)
  | f, [] => .ok (f, [])
  | f, u :: us => do
    let (f, d) ← adaptorUse C J f u
    let (f, ds) ← adaptorUses C J f us
    return (f, d :: ds)

end Verif
