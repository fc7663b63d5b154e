import Verif.Model.History
/-
What a program over an accumulator should do: the message it feeds, the digests it should output.
-/
namespace Verif

/-- The bits an operation adds to the message. -/
def Op.stream (B : Nat) : Op → Bits
  | .feed E _ _ xs => xs.flatMap E.view
  | .block value bits => value.take (if bits = 0 then B else bits)
  | .extract => []

/-- The message fed by a program. -/
def streamOf (B : Nat) (ops : List Op) : Bits := ops.flatMap (Op.stream B)

/-- Conditions that the types of the library enforce: the buffer of the stream processor has
`block_bits / value_bits` elements and `value_bits` divides `block_bits`
(block_stream_processor.hpp:71-76, static assertions), a block has `block_bits` bits; and the
documented range of the `bits` argument. -/
def Op.WellTyped (B : Nat) : Op → Prop
  | .feed E _ cache0 _ => 0 < E.valueBits ∧ E.valueBits ∣ B ∧ cache0.length = B / E.valueBits
  | .block value bits => value.length = B ∧ bits ≤ B
  | .extract => True

variable {δ : Type}

/-- The digests a program should output: one per extraction, of the message fed so far. -/
def expected (B : Nat) (H : Bits → δ) : Bits → List Op → List δ
  | _, [] => []
  | m, .extract :: ops => H m :: expected B H m ops
  | m, op :: ops => expected B H (m ++ op.stream B) ops

/-- Every message prefix present at an extraction satisfies `Good`. -/
def GoodExtracts (B : Nat) (Good : Bits → Prop) : Bits → List Op → Prop
  | _, [] => True
  | m, .extract :: ops => Good m ∧ GoodExtracts B Good m ops
  | m, op :: ops => GoodExtracts B Good (m ++ op.stream B) ops

end Verif
