import Verif.Model.Accumulator
/-
User programs over one accumulator: any sequence of `hash<H>(range, acc)` calls
(algorithm/hash.hpp:133-143, 228-238), direct block pushes `acc(block, bits = n)`
(accumulators/hash.hpp:97-111) and extractions `extract::hash<H>(acc)` (accumulators/hash.hpp:102,
`result`).
-/
namespace Verif

/-- One user-visible operation. `feed` may use a different element type, range kind and (arbitrary)
initial content of the stream processor's buffer every time. -/
inductive Op : Type 1 where
  | feed {α : Type} (E : Elem α) (k : RangeKind) (cache0 : List α) (xs : List α)
  | block (value : Bits) (bits : Nat)
  | extract

variable {σ δ : Type}

/-- Run one operation; extraction appends the digest to the output. -/
def Op.run (C : Construction σ δ) (J : Injector) (a : Acc σ) (out : List δ) :
    Op → Except Fault (Acc σ × List δ)
  | .feed E k cache0 xs => do return (← a.feed C J E k cache0 xs, out)
  | .block value bits => do return (← a.pushBlock C J value bits, out)
  | .extract => do return (a, out ++ [← a.result C])

/-- Run a program from accumulator `a`. -/
def runOps (C : Construction σ δ) (J : Injector) :
    Acc σ → List δ → List Op → Except Fault (Acc σ × List δ)
  | a, out, [] => .ok (a, out)
  | a, out, op :: ops => do
    let (a, out) ← op.run C J a out
    runOps C J a out ops

end Verif
