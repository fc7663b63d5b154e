import Verif.Model.Accumulator
import Verif.Model.Words
/-
Model of `haifa_construction` (detail/haifa_construction.hpp) with the BLAKE2b padding.
-/
namespace Verif

/-- `blake2b_padding::operator()`, detail/blake2b/blake2b_padding.hpp:53-66.  `B` is `block_bits`, `w`
is `word_bits`; `std::fill` from `block.begin() + seen_words` past the end is a fault. -/
def blake2bPad (B w : Nat) (J : Injector) (block : Bits) (total : Nat) : Except Fault Bits :=
  if total = 0 ∨ total % B ≠ 0 then
    let seenWords := total / w % (B / w) + (if total % w ≠ 0 then 1 else 0)
    if seenWords * w ≤ B then
      let block := block.take (seenWords * w) ++ List.replicate (B - seenWords * w) false
      if total % w ≠ 0 then
        let blockSeen := total % B
        J.run (List.replicate w false) (w - blockSeen % w) block blockSeen 0
      else .ok block
    else .error .outOfRange
  else .ok block

variable {σ δ : Type}

/-- `haifa_construction::digest`, detail/haifa_construction.hpp:104-130, for any compressor
(`compress state block seen final`; `final` says whether the third argument of `process_block` is
`salt_value` or 0) and any output function (lines 120-129). -/
def haifaDigest (B w : Nat) (compress : σ → Bits → Nat → Bool → σ) (output : σ → Except Fault δ)
    (J : Injector) (st : σ) (block : Bits) (total : Nat) : Except Fault δ := do
  -- 110-111
  let st := if total ≠ 0 ∧ total % B = 0 then compress st block total false else st
  -- 114-115
  let b ← blake2bPad B w J block total
  -- 118
  let st := compress st b total true
  output st

/-- `haifa_construction`; `process_block` (lines 97-102) passes the number of bits seen. -/
def haifaConstruction (B w : Nat) (init : σ) (compress : σ → Bits → Nat → Bool → σ)
    (output : σ → Except Fault δ) (J : Injector) : Construction σ δ where
  blockBits := B
  wordBits := w
  init := init
  processBlock st b n := compress st b n false
  digest := haifaDigest B w compress output J

end Verif
