import Verif.Model.Accumulator
import Verif.Model.Words
import Verif.Model.Keccak
/-
Model of `sponge_construction` (detail/sponge_construction.hpp) with the Keccak and SHA-3 paddings,
compressors and finalizers.
-/
namespace Verif

/-- `keccak_1600<d>` or `sha3<d>`. -/
inductive SpongeKind where
  | keccak | sha3
  deriving DecidableEq, Repr

/-- `block_bits = state_bits - 2 * digest_bits`, detail/keccak/keccak_policy.hpp:45,
detail/sha3/sha3_policy.hpp:135. -/
def spongeBlockBits (digestBits : Nat) : Nat := 1600 - 2 * digestBits

/-- `keccak_1600_compressor::process_block` (keccak.hpp:62-77), `sha3_compressor::process_block`
(sha3.hpp:59-70).  `permute` is `impl_type::permute` (detail/keccak/keccak_functions.hpp:60-76 selects
the implementation). -/
def spongeCompress (permute : Lanes → Lanes) (blockBits : Nat) (state : Lanes) (block : Bits) : Lanes :=
  let state := Vector.ofFn fun i : Fin 25 =>
    if i.1 < blockBits / 64 then state[i] ^^^ bigOctetBigBit.word 64 block i.1 else state[i]
  let state := state.map byteSwap64
  let state := permute state
  state.map byteSwap64

/-- `unbounded_shr(high_bits<word_bits>(~word_type(), 1), 7)`: the word with bit 56 set
(detail/keccak/keccak_padding.hpp:78). -/
def padOne : Bits := bigOctetLittleBit.view 64 ((2 ^ 64 - 2 ^ 63) >>> 7)

/-- `unbounded_shr(high_bits<word_bits>(~word_type(), 2), 5)` (detail/sha3/sha3_padding.hpp:77). -/
def padZeroOneOne : Bits := bigOctetLittleBit.view 64 ((2 ^ 64 - 2 ^ 62) >>> 5)

/-- Set the `n` most significant bits of the last word of the block to `v`: `block[block_words - 1] &=
~high_bits(~0, n)` or `|= high_bits(~0, n)` (in the big-bit view these are the first bits of the
word). -/
def setHighOfLast (b : Bits) (n : Nat) (v : Bool) : Bits :=
  b.take (b.length - 64) ++ List.replicate n v ++ b.drop (b.length - 64 + n)

/-- `keccak_1600_padding::operator()`, detail/keccak/keccak_padding.hpp:68-93.  The injector is the one
for `big_octet_little_bit` although the accumulator filled the block as `big_octet_big_bit`; it sees the
octets of the block with reversed bits.  Returns the block and `is_last`. -/
def keccakPad (B : Nat) (J : Injector) (block : Bits) (seen : Nat) : Except Fault (Bits × Bool) :=
  if B - seen > 1 then do
    let b := flipOctets block
    let b ← J.run padOne 1 b seen 0
    let seen := seen + 1
    let b ← J.run (List.replicate B false) (B - 1 - seen) b seen 0
    let seen := seen + (B - 1 - seen)
    let b ← J.run padOne 1 b seen 0
    return (flipOctets b, true)
  else
    .ok (setHighOfLast block 1 false, false)

/-- `keccak_1600_padding::process_last`, detail/keccak/keccak_padding.hpp:95-105. -/
def keccakPadLast (B : Nat) (J : Injector) (block : Bits) (seen : Nat) : Except Fault Bits := do
  let b := flipOctets block
  let b ← J.run (List.replicate B false) (B - 1) b seen 0
  let seen := seen + (B - 1)
  let b ← J.run padOne 1 b seen 0
  return flipOctets b

/-- `sha3_padding::operator()`, detail/sha3/sha3_padding.hpp:68-94. -/
def sha3Pad (B : Nat) (J : Injector) (block : Bits) (seen : Nat) : Except Fault (Bits × Bool) :=
  if B - seen > 3 then do
    let b := flipOctets block
    let b ← J.run padZeroOneOne 3 b seen 0
    let seen := seen + 3
    let b ← J.run (List.replicate B false) (B - 1 - seen) b seen 0
    let seen := seen + (B - 1 - seen)
    let b ← J.run padOne 1 b seen 0
    return (flipOctets b, true)
  else
    let ind := B - seen - 1
    .ok (setHighOfLast (setHighOfLast block (ind + 1) false) ind true, false)

/-- `sha3_padding::process_last`, detail/sha3/sha3_padding.hpp:96-109. -/
def sha3PadLast (B : Nat) (J : Injector) (block : Bits) (seen : Nat) : Except Fault Bits := do
  let ind := 3 - (B - seen)
  let b := flipOctets block
  let b ← J.run (bigOctetLittleBit.view 64 (2 ^ ind - 1)) ind b seen 0
  let seen := seen + ind
  let b ← J.run (List.replicate B false) (B - 1 - ind) b seen 0
  let seen := seen + (B - 1 - ind)
  let b ← J.run padOne 1 b seen 0
  return flipOctets b

/-- `padding(b, block_seen)`. -/
def SpongeKind.pad : SpongeKind → Nat → Injector → Bits → Nat → Except Fault (Bits × Bool)
  | .keccak => keccakPad
  | .sha3 => sha3Pad

/-- `padding.process_last(b, copy_seen)`. -/
def SpongeKind.padLast : SpongeKind → Nat → Injector → Bits → Nat → Except Fault Bits
  | .keccak => keccakPadLast
  | .sha3 => sha3PadLast

/-- The body of the loop over `digest_blocks` of the finalizers (keccak_finalizer.hpp:70-85,
sha3_finalizer.hpp:65-76): copy a block of words out, byte-swap, permute, byte-swap.  An index past the
25 words of `temp_state` is a fault. -/
def squeezeStep (permute : Lanes → Lanes) (blockWords : Nat) (i : Nat) (ts : Lanes × Lanes) :
    Except Fault (Lanes × Lanes) :=
  let (temp, state) := ts
  if i * blockWords + blockWords ≤ 25 then
    let temp := Vector.ofFn fun k : Fin 25 =>
      if h : i * blockWords ≤ k.1 ∧ k.1 < i * blockWords + blockWords then
        state[k.1 - i * blockWords]'(by omega) else temp[k]
    .ok (temp, (permute (state.map byteSwap64)).map byteSwap64)
  else .error .outOfRange

/-- The whole loop. -/
def squeezeLoop (permute : Lanes → Lanes) (blockWords : Nat) :
    Nat → Lanes × Lanes → Except Fault (Lanes × Lanes)
  | 0, ts => .ok ts
  | n + 1, ts => do
    let ts ← squeezeLoop permute blockWords n ts
    squeezeStep permute blockWords n ts

/-- `keccak_1600_finalizer::operator()` (detail/keccak/keccak_finalizer.hpp:66-93),
`sha3_finalizer::operator()` (detail/sha3/sha3_finalizer.hpp:61-84). -/
def spongeFinalize (permute : Lanes → Lanes) (blockBits digestBits : Nat) (state : Lanes) :
    Except Fault Lanes := do
  let blockWords := blockBits / 64
  let digestBlocks := digestBits / blockBits
  let lastBits := digestBits % blockBits
  let lastWords := lastBits / 64 + (if lastBits % 64 ≠ 0 then 1 else 0)
  let (temp, state) ← squeezeLoop permute blockWords digestBlocks (Vector.replicate 25 0, state)
  if lastBits ≠ 0 then
    if digestBlocks * blockWords + lastWords ≤ 25 then
      return Vector.ofFn fun k : Fin 25 =>
        if h : digestBlocks * blockWords ≤ k.1 ∧ k.1 < digestBlocks * blockWords + lastWords then
          state[k.1 - digestBlocks * blockWords]'(by omega) else temp[k]
    else throw .outOfRange
  else return temp

/-- Lines 112-120 of `sponge_construction::digest`: the finalizer, packing of the state into octets,
copying of `digest_bytes` octets. -/
def spongeOutput (permute : Lanes → Lanes) (digestBits : Nat) (st : Lanes) : Except Fault Bits := do
  let st ← spongeFinalize permute (spongeBlockBits digestBits) digestBits st
  let v := bigOctetBigBit.arrayView st
  if digestBits / 8 * 8 ≤ v.length then
    return v.take (digestBits / 8 * 8)
  else .error .outOfRange

/-- `sponge_construction::digest`, detail/sponge_construction.hpp:87-121, for any compressor and any
output function (lines 110-120). -/
def spongeDigest {σ δ : Type} (kind : SpongeKind) (B : Nat) (compress : σ → Bits → σ)
    (output : σ → Except Fault δ) (J : Injector) (st : σ) (block : Bits) (total : Nat) :
    Except Fault δ := do
  let seen := total % B
  -- 94-95
  let st := if total ≠ 0 ∧ seen = 0 then compress st block else st
  -- 97-101
  let (b, isLast) ← kind.pad B J block seen
  let st := compress st b
  -- 104-108
  let st ← if isLast then pure st else do
    let b ← kind.padLast B J (List.replicate B false) seen
    pure (compress st b)
  output st

/-- `sponge_construction` (a template over compressor and finalizer); `process_block` (lines 81-85)
ignores `seen`.  `J` is the injector of the padding. -/
def spongeConstructionOf {σ δ : Type} (kind : SpongeKind) (B : Nat) (init : σ)
    (compress : σ → Bits → σ) (output : σ → Except Fault δ) (J : Injector) : Construction σ δ where
  blockBits := B
  wordBits := 64
  init := init
  processBlock st b _ := compress st b
  digest := spongeDigest kind B compress output J

/-- `keccak_1600<d>::construction` (keccak.hpp:100-117), `sha3<d>::construction` (sha3.hpp:99-116); the
initial state is zero (keccak_policy.hpp:55-72, sha3_policy.hpp:151-168). -/
def spongeConstruction (kind : SpongeKind) (permute : Lanes → Lanes) (digestBits : Nat) (J : Injector) :
    Construction Lanes Bits :=
  spongeConstructionOf kind (spongeBlockBits digestBits) (Vector.replicate 25 0)
    (spongeCompress permute (spongeBlockBits digestBits)) (spongeOutput permute digestBits) J

end Verif
