/-
Attacks on a construction from a random hash function: programs that call the hash function and finish with a result.
-/
namespace Verif.Spec.Oracle

universe u

/-- A program that finishes with a result, or calls the hash function and continues depending on the answer. -/
inductive Finder (I D : Type) (R : Type u)
  | done (r : R)
  | hash (x : I) (next : D → Finder I D R)

namespace Finder
variable {I D : Type} {R : Type u}

/-- At most `n` calls, whatever the answers. -/
def AtMost : Finder I D R → Nat → Prop
  | done _, _ => True
  | hash _ _, 0 => False
  | hash _ next, n + 1 => ∀ d, (next d).AtMost n

/-- The result with the hash function `H`. -/
def result (H : I → D) : Finder I D R → R
  | done r => r
  | hash x next => (next (H x)).result H

end Finder
end Verif.Spec.Oracle
