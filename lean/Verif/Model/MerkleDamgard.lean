import Verif.Model.Accumulator
import Verif.Model.Pack
/-
Model of `merkle_damgard_construction` (detail/merkle_damgard_construction.hpp) with
`merkle_damgard_padding` (detail/merkle_damgard_padding.hpp) and `tiger_padding`
(detail/tiger/tiger_padding.hpp).
-/
namespace Verif

/-- Template parameters of `merkle_damgard_construction` (merkle_damgard_construction.hpp:53-88).
The compressor, the IV and the finalizer are parameters; `stateView` is the stream view of the
state array.  `markOctet`, `markBits`: the octet and the number of its bits that the padding injects:
`0x80` and 1 (merkle_damgard_padding.hpp:71-77), or `0x01` and 8 (tiger_padding.hpp:69-75).  `digest0` is the content of a default-constructed
`static_digest<digest_bits>` (line 127). -/
structure MD (σ : Type) where
  blockBits : Nat
  wordBits : Nat
  lengthBits : Nat
  digestBits : Nat
  endian : Endian
  markOctet : Nat
  markBits : Nat
  iv : σ
  compress : σ → Bits → σ
  finalize : σ → σ
  stateView : σ → Bits
  digest0 : Bits

/-- Stream view of the word `bit_one_word[0]` (merkle_damgard_padding.hpp:71-74): an array of octets
`{0x80, 0, …}` (or `{0x01, 0, …}`) packed into one word by `pack<big_octet_big_bit, endian>`. -/
def MD.markWord {σ : Type} (M : MD σ) : Bits :=
  M.endian.view M.wordBits (implodeOne bigOctetBigBit M.endian 8 M.wordBits
    (M.markOctet :: List.replicate (M.wordBits / 8 - 1) 0))

/-- `padding(b, block_seen)`, merkle_damgard_padding.hpp:62-78 / tiger_padding.hpp:60-76.
Returns the block and the advanced `block_seen`. -/
def MD.pad {σ : Type} (M : MD σ) (J : Injector) (b : Bits) (seen : Nat) :
    Except Fault (Bits × Nat) := do
  let b ← J.run (List.replicate M.blockBits false) (M.blockBits - seen) b seen 0
  let b ← J.run M.markWord M.markBits b seen 0
  return (b, seen + M.markBits)

/-- The words of the length field: `pack<endian, endian, length_bits, word_bits>`,
merkle_damgard_construction.hpp:156-159 (exploder, docs/pack.md:317-346). -/
def MD.lengthWords {σ : Type} (M : MD σ) (length : Nat) : List Nat :=
  explodeOne M.endian M.endian M.lengthBits M.wordBits length

/-- `append_length`, merkle_damgard_construction.hpp:151-169: overwrite the last `length_words`
words of the block. -/
def MD.appendLength {σ : Type} (M : MD σ) (b : Bits) (length : Nat) : Except Fault Bits :=
  let f := M.endian.views M.wordBits (M.lengthWords length)
  if f.length ≤ b.length then
    .ok (b.take (b.length - f.length) ++ f)
  else .error .outOfRange

/-- `digest(block, total_seen)`, merkle_damgard_construction.hpp:97-131.  (`length_type` is 64 bits
wide for every policy in the repository, so passing `total_seen` does not truncate it.) -/
def MD.digest {σ : Type} (M : MD σ) (J : Injector) (st : σ) (block : Bits) (total : Nat) :
    Except Fault Bits := do
  let seen := total % M.blockBits
  -- 104-105
  let st := if total ≠ 0 ∧ seen = 0 then M.compress st block else st
  -- 108-109
  let (b, seen) ← M.pad J block seen
  -- 112-115
  let (st, b) := if seen + M.lengthBits > M.blockBits
    then (M.compress st b, List.replicate M.blockBits false) else (st, b)
  -- 118-121
  let b ← M.appendLength b total
  let st := M.compress st b
  -- 124-130
  let v := M.stateView (M.finalize st)
  let n := M.digestBits / M.wordBits * M.wordBits
  if n ≤ v.length ∧ n ≤ M.digest0.length then
    return v.take n ++ M.digest0.drop n
  else .error .outOfRange

/-- `process_block` (lines 92-95) ignores `seen`; `reset()` (lines 133-144) loads the IV. -/
def MD.construction {σ : Type} (M : MD σ) (J : Injector) : Construction σ Bits where
  blockBits := M.blockBits
  wordBits := M.wordBits
  init := M.iv
  processBlock st b _ := M.compress st b
  digest := M.digest J

end Verif
