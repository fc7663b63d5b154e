import Verif.Model.WordOps
import Verif.Spec.History
/-
What a program that also pushes single words should do.  `B` is the block size, `w` the word size.
-/
namespace Verif

/-- The number of bits that `bits = n` announces: `0` means a whole word. -/
def announced (w bits : Nat) : Nat := if bits = 0 then w else bits

/-- The bits an operation adds to the message. -/
def WOp.stream (B w : Nat) : WOp → Bits
  | .op o => o.stream B
  | .word value bits => value.take (announced w bits)

/-- The message fed by a program. -/
def wstreamOf (B w : Nat) (ops : List WOp) : Bits := ops.flatMap (WOp.stream B w)

/-- A word has `w` bits; documented range of the `bits` argument. -/
def WOp.WellTyped (B w : Nat) : WOp → Prop
  | .op o => o.WellTyped B
  | .word value bits => value.length = w ∧ bits ≤ w

variable {δ : Type}

/-- The digests a program should output. -/
def wexpected (B w : Nat) (H : Bits → δ) : Bits → List WOp → List δ
  | _, [] => []
  | m, .op .extract :: ops => H m :: wexpected B w H m ops
  | m, op :: ops => wexpected B w H (m ++ op.stream B w) ops

/-- Every message prefix present at an extraction satisfies `Good`. -/
def WGoodExtracts (B w : Nat) (Good : Bits → Prop) : Bits → List WOp → Prop
  | _, [] => True
  | m, .op .extract :: ops => Good m ∧ WGoodExtracts B w Good m ops
  | m, op :: ops => WGoodExtracts B w Good (m ++ op.stream B w) ops

/-- No word push starts at a multiple of the word size and ends at a multiple of the block size,
except as the last update of the program. -/
def NoAlignedFill (B w : Nat) : Bits → List WOp → Prop
  | _, [] => True
  | m, .op o :: ops => NoAlignedFill B w (m ++ o.stream B) ops
  | m, .word value bits :: ops =>
    ((m.length % w = 0 ∧ (m.length + announced w bits) % B = 0) → ∀ o ∈ ops, o = .op .extract) ∧
      NoAlignedFill B w (m ++ value.take (announced w bits)) ops

end Verif
