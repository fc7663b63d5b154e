import Verif.Model.MerkleDamgard
import Verif.Model.Sponge
import Verif.Model.Blake2b
/-
Construction objects used directly: `process_block`, `digest` (which changes the object's `state_`),
`reset()`, `reset(state)`, `state()`.
-/
namespace Verif

/-- A construction object whose only data member is `state_`.  `load s` is what `reset(s)` makes of the
state, `iv` is `iv_generator()()`, `digest` also returns the state that `digest()` leaves behind. -/
structure ObjectModel (σ δ : Type) where
  C : Construction σ δ
  iv : σ
  load : σ → σ
  digest : σ → Bits → Nat → Except Fault (σ × δ)

/-- The constructors call `reset()`, which is `reset(iv())` (merkle_damgard_construction.hpp:133-144,
haifa_construction.hpp:132-144, sponge_construction.hpp:123-134). -/
def ObjectModel.fresh {σ δ : Type} (O : ObjectModel σ δ) : σ := O.load O.iv

/-- Member calls of a construction object. -/
inductive ConsOp (σ : Type) where
  | block (b : Bits) (seen : Nat)
  | digest (b : Bits) (total : Nat)
  | reset
  | resetTo (s : σ)

/-- One call; `out` collects the digests. -/
def ObjectModel.call {σ δ : Type} (O : ObjectModel σ δ) (st : σ) (out : List δ) :
    ConsOp σ → Except Fault (σ × List δ)
  | .block b seen => .ok (O.C.processBlock st b seen, out)
  | .digest b total => do
    let (st, d) ← O.digest st b total
    return (st, out ++ [d])
  | .reset => .ok (O.load O.iv, out)
  | .resetTo s => .ok (O.load s, out)

/-- A program of member calls. -/
def ObjectModel.run {σ δ : Type} (O : ObjectModel σ δ) :
    σ → List δ → List (ConsOp σ) → Except Fault (σ × List δ)
  | st, out, [] => .ok (st, out)
  | st, out, op :: ops => do
    let (st, out) ← O.call st out op
    run O st out ops

/-- `merkle_damgard_construction::digest` on the object itself, merkle_damgard_construction.hpp:97-131:
`state_` keeps the finalized state. -/
def MD.digestObject {σ : Type} (M : MD σ) (J : Injector) (st : σ) (block : Bits) (total : Nat) :
    Except Fault (σ × Bits) := do
  let seen := total % M.blockBits
  let st := if total ≠ 0 ∧ seen = 0 then M.compress st block else st
  let (b, seen) ← M.pad J block seen
  let (st, b) := if seen + M.lengthBits > M.blockBits
    then (M.compress st b, List.replicate M.blockBits false) else (st, b)
  let b ← M.appendLength b total
  let st := M.finalize (M.compress st b)
  let v := M.stateView st
  let n := M.digestBits / M.wordBits * M.wordBits
  if n ≤ v.length ∧ n ≤ M.digest0.length then
    return (st, v.take n ++ M.digest0.drop n)
  else .error .outOfRange

/-- `merkle_damgard_construction`; `reset(s)` (lines 137-139) assigns `state_`. -/
def MD.object {σ : Type} (M : MD σ) (J : Injector) : ObjectModel σ Bits where
  C := M.construction J
  iv := M.iv
  load s := s
  digest := M.digestObject J

/-- `haifa_construction::digest` on the object itself, haifa_construction.hpp:104-130 (no finalizer in
BLAKE2b). -/
def blakeDigestObject (digestBits : Nat) (J : Injector) (st : BlakeState) (block : Bits) (total : Nat) :
    Except Fault (BlakeState × Bits) := do
  let st := if total ≠ 0 ∧ total % 1024 = 0 then blakeCompress st block total false else st
  let b ← blake2bPad 1024 64 J block total
  let st := blakeCompress st b total true
  let d ← blakeOutput digestBits st
  return (st, d)

/-- `blake2b<DigestBits>::construction::type`; `reset(s)` (haifa_construction.hpp:136-139) xors the
parameter word into `state_[0]`, whatever `s` is. -/
def blakeObject (digestBits : Nat) (J : Injector) : ObjectModel BlakeState Bits where
  C := blake2bConstruction digestBits J
  iv := blakeIV
  load s := s.set 0 (s[0] ^^^ (0x01010000 ^^^ BitVec.ofNat 64 (digestBits / 8)))
  digest := blakeDigestObject digestBits J

/-- `sponge_construction::digest` on the object itself, sponge_construction.hpp:87-121: `state_` keeps
what the finalizer leaves. -/
def spongeDigestObject (kind : SpongeKind) (permute : Lanes → Lanes) (digestBits : Nat) (J : Injector)
    (st : Lanes) (block : Bits) (total : Nat) : Except Fault (Lanes × Bits) := do
  let B := spongeBlockBits digestBits
  let seen := total % B
  let st := if total ≠ 0 ∧ seen = 0 then spongeCompress permute B st block else st
  let (b, isLast) ← kind.pad B J block seen
  let st := spongeCompress permute B st b
  let st ← if isLast then pure st else do
    let b ← kind.padLast B J (List.replicate B false) seen
    pure (spongeCompress permute B st b)
  let st ← spongeFinalize permute B digestBits st
  let v := bigOctetBigBit.arrayView st
  if digestBits / 8 * 8 ≤ v.length then
    return (st, v.take (digestBits / 8 * 8))
  else .error .outOfRange

/-- `keccak_1600<d>::construction::type`, `sha3<d>::construction::type`; `reset(s)`
(sponge_construction.hpp:127-129) assigns `state_`. -/
def spongeObject (kind : SpongeKind) (permute : Lanes → Lanes) (digestBits : Nat) (J : Injector) :
    ObjectModel Lanes Bits where
  C := spongeConstruction kind permute digestBits J
  iv := Vector.replicate 25 0
  load s := s
  digest := spongeDigestObject kind permute digestBits J

end Verif
