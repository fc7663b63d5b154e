import Verif.Spec.WordOps
import Verif.Spec.Blocks
/-
What a program with word pushes really does.  A word push that starts at a multiple of the word size and
ends at a multiple of the block size leaves the completed block loose: if more data follows, the block is
lost.
-/
namespace Verif

/-- The elements of a list whose index is not in `lost`. -/
def without {α : Type} (lost : List Nat) (xs : List α) : List α :=
  (xs.zipIdx.filter fun p => !lost.contains p.2).map (·.1)

/-- What has been fed so far: the message, whether its last block is loose, and the numbers of the blocks
that are lost. -/
structure Fed where
  m : Bits
  loose : Bool
  lost : List Nat

/-- Nothing fed. -/
def Fed.start : Fed := ⟨[], false, []⟩

/-- The operation is the push of a word. -/
def WOp.isWord : WOp → Bool
  | .op _ => false
  | .word _ _ => true

/-- One operation.  Operations that feed nothing (extractions, empty ranges) change nothing. -/
def Fed.step (B w : Nat) (s : Fed) (op : WOp) : Fed :=
  let x := op.stream B w
  if x = [] then s
  else
    { m := s.m ++ x
      loose := op.isWord && s.m.length % w == 0 && (s.m ++ x).length % B == 0
      lost := s.lost ++ if s.loose then [s.m.length / B - 1] else [] }

/-- A whole program. -/
def Fed.steps (B w : Nat) (s : Fed) (ops : List WOp) : Fed := ops.foldl (Fed.step B w) s

variable {δ : Type}

/-- The digests that a program outputs, if `H lost m` is the digest of message `m` with the blocks `lost`
left out. -/
def lossyOutputs (B w : Nat) (H : List Nat → Bits → δ) : Fed → List WOp → List δ
  | _, [] => []
  | s, .op .extract :: ops => H s.lost s.m :: lossyOutputs B w H s ops
  | s, op :: ops => lossyOutputs B w H (s.step B w op) ops

end Verif
