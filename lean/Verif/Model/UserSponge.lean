import Verif.Model.Accumulator
import Verif.Model.Words
/-
`sponge_construction` (detail/sponge_construction.hpp) and `haifa_construction` (detail/haifa_construction.hpp) for arbitrary
template arguments.  Model/Sponge.lean and Model/Haifa.lean have the padding functors of the library.
-/
namespace Verif

/-- Template arguments of `sponge_construction`, sponge_construction.hpp:51-80: `pad` is `padding(b, block_seen)` with
`is_last_block()` afterwards, `padLast` is `process_last`, `stateView` is `pack_from` of the state. -/
structure UserSponge (σ : Type) where
  blockBits : Nat
  wordBits : Nat
  digestBits : Nat
  iv : σ
  compress : σ → Bits → σ
  pad : Bits → Nat → Except Fault (Bits × Bool)
  padLast : Bits → Nat → Except Fault Bits
  finalize : σ → Except Fault σ
  stateView : σ → Bits

/-- `digest(block, total_seen)`, sponge_construction.hpp:87-121; `block_type` has `block_bits` bits. -/
def UserSponge.digest {σ : Type} (S : UserSponge σ) (st : σ) (block : Bits) (total : Nat) : Except Fault Bits := do
  let seen := total % S.blockBits
  -- 94-95
  let st := if total ≠ 0 ∧ seen = 0 then S.compress st block else st
  -- 99-101
  let (b, isLast) ← S.pad block seen
  let st := S.compress st b
  -- 104-108
  let st ← if isLast then pure st else do
    let b ← S.padLast (List.replicate S.blockBits false) seen
    pure (S.compress st b)
  -- 111
  let st ← S.finalize st
  -- 114-118
  let v := S.stateView st
  if S.digestBits / 8 * 8 ≤ v.length then return v.take (S.digestBits / 8 * 8) else .error .outOfRange

/-- `sponge_construction<Params, IV, Compressor, Padding, Finalizer>` with `process_block` (lines 81-85). -/
def UserSponge.construction {σ : Type} (S : UserSponge σ) : Construction σ Bits where
  blockBits := S.blockBits
  wordBits := S.wordBits
  init := S.iv
  processBlock st b _ := S.compress st b
  digest := S.digest

/-- Template arguments of `haifa_construction`, haifa_construction.hpp:53-94: `compress state block seen final`, where `final` says
whether the last argument of `process_block` is `salt_value` or 0; `iv` is the state after `reset()` (lines 136-144). -/
structure UserHaifa (σ : Type) where
  blockBits : Nat
  wordBits : Nat
  digestBits : Nat
  iv : σ
  compress : σ → Bits → Nat → Bool → σ
  pad : Bits → Nat → Except Fault Bits
  finalize : σ → Except Fault σ
  stateView : σ → Bits

/-- `digest(block, total_seen)`, haifa_construction.hpp:104-130. -/
def UserHaifa.digest {σ : Type} (S : UserHaifa σ) (st : σ) (block : Bits) (total : Nat) : Except Fault Bits := do
  -- 110-111
  let st := if total ≠ 0 ∧ total % S.blockBits = 0 then S.compress st block total false else st
  -- 114-115
  let b ← S.pad block total
  -- 118
  let st := S.compress st b total true
  -- 121
  let st ← S.finalize st
  -- 124-127
  let v := S.stateView st
  if S.digestBits / 8 * 8 ≤ v.length then return v.take (S.digestBits / 8 * 8) else .error .outOfRange

/-- `haifa_construction<Params, Compressor, Padding, Finalizer>` with `process_block` (lines 97-102). -/
def UserHaifa.construction {σ : Type} (S : UserHaifa σ) : Construction σ Bits where
  blockBits := S.blockBits
  wordBits := S.wordBits
  init := S.iv
  processBlock st b n := S.compress st b n false
  digest := S.digest

end Verif
