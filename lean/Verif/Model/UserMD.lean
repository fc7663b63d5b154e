import Verif.Model.MerkleDamgard
import Verif.Model.Modes
/-
`merkle_damgard_construction` (detail/merkle_damgard_construction.hpp) for arbitrary template arguments: the type of the
`total_seen` argument of `digest`, a length field of zero bits, and a `block_type` whose size is not `block_bits`.
Model/MerkleDamgard.lean has the special case of the policies in the repository.
-/
namespace Verif

/-- `boost::uint_t<bits>::least`: width of the smallest unsigned type with at least that many bits (at most 64). -/
def leastWidth (bits : Nat) : Nat := if bits ≤ 8 then 8 else if bits ≤ 16 then 16 else if bits ≤ 32 then 32 else 64

/-- Width of `length_type`, merkle_damgard_construction.hpp:82-85. -/
def MD.lengthTypeBits {σ : Type} (M : MD σ) : Nat :=
  leastWidth (if M.lengthBits < M.wordBits then M.wordBits else if M.lengthBits > 64 then 64 else M.lengthBits)

/-- `padding(b, block_seen)`, merkle_damgard_padding.hpp:62-78, for a block array of any size: `block_of_zeros` has the size of
the array, the first injection copies `block_bits - block_seen` bits of it. -/
def MD.padU {σ : Type} (M : MD σ) (J : Injector) (b : Bits) (seen : Nat) : Except Fault (Bits × Nat) := do
  let b ← J.run (List.replicate b.length false) (M.blockBits - seen) b seen 0
  let b ← J.run M.markWord M.markBits b seen 0
  return (b, seen + M.markBits)

/-- `append_length`, merkle_damgard_construction.hpp:151-169: nothing for a length field of zero bits, else
`block[block_words - i] = …` for `i = length_words … 1`. -/
def MD.appendLengthU {σ : Type} (M : MD σ) (b : Bits) (length : Nat) : Except Fault Bits :=
  if M.lengthBits = 0 then .ok b else
  let f := M.endian.views M.wordBits (M.lengthWords length)
  let stop := M.blockBits / M.wordBits * M.wordBits
  if f.length ≤ stop ∧ stop ≤ b.length then .ok (b.take (stop - f.length) ++ f ++ b.drop stop) else .error .outOfRange

/-- `digest(block, total_seen)`, merkle_damgard_construction.hpp:97-131: the argument is converted to `length_type`. -/
def MD.digestU {σ : Type} (M : MD σ) (J : Injector) (st : σ) (block : Bits) (totalSeen : Nat) : Except Fault Bits := do
  let total := totalSeen % 2 ^ M.lengthTypeBits
  let seen := total % M.blockBits
  -- 104-105
  let st := if total ≠ 0 ∧ seen = 0 then M.compress st block else st
  -- 108-109
  let (b, seen) ← M.padU J block seen
  -- 112-115
  let (st, b) := if seen + M.lengthBits > M.blockBits
    then (M.compress st b, List.replicate b.length false) else (st, b)
  -- 118-121
  let b ← M.appendLengthU b total
  let st := M.compress st b
  -- 124-130
  let v := M.stateView (M.finalize st)
  let n := M.digestBits / M.wordBits * M.wordBits
  if n ≤ v.length ∧ n ≤ M.digest0.length then
    return v.take n ++ M.digest0.drop n
  else .error .outOfRange

/-- `merkle_damgard_construction<Params, IV, Compressor, Padding, Finalizer>` with `process_block` (lines 92-95) and `reset()`
(lines 133-144). -/
def MD.constructionU {σ : Type} (M : MD σ) (J : Injector) : Construction σ Bits where
  blockBits := M.blockBits
  wordBits := M.wordBits
  init := M.iv
  processBlock st b _ := M.compress st b
  digest := M.digestU J

/-- The words of a block array, read from its stream view. -/
def Endian.words (e : Endian) (w n : Nat) (b : Bits) : Vector (BitVec w) n := Vector.ofFn fun i : Fin n => e.word w b i.1

/-- `merkle_damgard_construction` over `matyas_meyer_oseas_compressor<Cipher, state_adder, Conv>`
(matyas_meyer_oseas_compressor.hpp:43-70) or `miyaguchi_preneel_compressor<…>` (miyaguchi_preneel_compressor.hpp:43-70), with
`merkle_damgard_padding`, `nop_finalizer`, a cipher with blocks of `n` words of `w` bits and keys of `keyWords` words, a length
field of `L` bits and a digest of `d` bits.  Both compressors declare `block_bits = key_bits` (lines 55-56) although
`block_type` is the block of the cipher (line 57). -/
def feedForwardHash {w n : Nat} (compress : Vector (BitVec w) n → Vector (BitVec w) n → Vector (BitVec w) n) (keyWords L d : Nat)
    (e : Endian) (iv : Vector (BitVec w) n) (d0 : Bits) : MD (Vector (BitVec w) n) where
  blockBits := keyWords * w
  wordBits := w
  lengthBits := L
  digestBits := d
  endian := e
  markOctet := 0x80
  markBits := 1
  iv := iv
  compress s b := compress s (e.words w n b)
  finalize s := s
  stateView := e.arrayView
  digest0 := d0

/-- `merkle_damgard_construction` over `davies_meyer_compressor<Cipher, state_adder>` (davies_meyer_compressor.hpp:42-64), with
`merkle_damgard_padding`, `nop_finalizer`, a cipher with blocks of `n` and keys of `k` words of `w` bits, a length field of `L` bits
and a digest of `d` bits.  `block_type` is the key of the cipher, and `block_bits` its size. -/
def daviesMeyerHash {w n k : Nat} (encrypt : Vector (BitVec w) k → Vector (BitVec w) n → Vector (BitVec w) n) (L d : Nat) (e : Endian)
    (iv : Vector (BitVec w) n) (d0 : Bits) : MD (Vector (BitVec w) n) where
  blockBits := k * w
  wordBits := w
  lengthBits := L
  digestBits := d
  endian := e
  markOctet := 0x80
  markBits := 1
  iv := iv
  compress s b := daviesMeyer encrypt stateAdder s (e.words w k b)
  finalize s := s
  stateView := e.arrayView
  digest0 := d0

end Verif
