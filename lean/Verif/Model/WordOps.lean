import Verif.Model.History
/-
Programs that also push single words, `acc(word, bits = n)` (accumulators/hash.hpp:97-100, 113-116,
179-223), as the accumulator and preprocessor test suites of the library do
(e.g. test/md5.cpp:198-250, test/sha2.cpp).
-/
namespace Verif

/-- An operation of `History.lean` or the push of one word. -/
inductive WOp : Type 1 where
  | op (o : Op)
  | word (value : Bits) (bits : Nat)

variable {σ δ : Type}

/-- Run one operation (accumulators/hash.hpp:97-116). -/
def WOp.run (C : Construction σ δ) (J : Injector) (a : Acc σ) (out : List δ) :
    WOp → Except Fault (Acc σ × List δ)
  | .op o => o.run C J a out
  | .word value bits => do return (← a.pushWord C J value bits, out)

/-- Run a program from accumulator `a`. -/
def runWOps (C : Construction σ δ) (J : Injector) :
    Acc σ → List δ → List WOp → Except Fault (Acc σ × List δ)
  | a, out, [] => .ok (a, out)
  | a, out, op :: ops => do
    let (a, out) ← op.run C J a out
    runWOps C J a out ops

end Verif
