import Verif.Spec.MerkleDamgard
/-
Sponge and HAIFA iteration over any compression function and any padding rule.
-/
namespace Verif.Spec

/-- The blocks of a message followed by the blocks that the padding rule makes of the incomplete last one. -/
def paddedBlocks (B : Nat) (pad : List Bool → List (List Bool)) (m : List Bool) : List (List Bool) :=
  blocks B m ++ pad (m.drop (m.length / B * B))

/-- Absorb the padded blocks, then output. -/
def absorbHash {σ : Type} (B : Nat) (pad : List Bool → List (List Bool)) (iv : σ) (compress : σ → List Bool → σ)
    (out : σ → List Bool) (m : List Bool) : List Bool :=
  out ((paddedBlocks B pad m).foldl compress iv)

/-- Iterate with the number of bits up to the end of each block; `n` bits before the first one. -/
def countedFold {σ : Type} (B : Nat) (f : σ → List Bool → Nat → σ) : Nat → σ → List (List Bool) → σ
  | _, s, [] => s
  | n, s, b :: bs => countedFold B f (n + B) (f s b (n + B)) bs

/-- The part of the message that the last call of the compression function takes: the incomplete block, or the last one if the
message is a non-empty number of whole blocks. -/
def lastPart (B : Nat) (m : List Bool) : List Bool :=
  if m.length ≠ 0 ∧ m.length % B = 0 then m.drop (m.length - B) else m.drop (m.length / B * B)

/-- All whole blocks with their counters, then the padded last part with the length and the final flag. -/
def countedHash {σ : Type} (B : Nat) (pad : List Bool → Nat → List Bool) (iv : σ) (compress : σ → List Bool → Nat → Bool → σ)
    (out : σ → List Bool) (m : List Bool) : List Bool :=
  out (compress (countedFold B (fun s b n => compress s b n false) 0 iv (blocks B m)) (pad (lastPart B m) m.length) m.length true)

end Verif.Spec
