/- What a collision of an iterated function is. -/
namespace Verif.Spec

/-- Two runs of the iteration `iv, f iv x₀, f (f iv x₀) x₁, …` over `xs` and over `ys` contain steps
with different inputs and the same output. -/
def CollisionInRuns {σ β : Type} (f : σ → β → σ) (iv : σ) (xs ys : List β) : Prop :=
  ∃ (i j : Nat) (b b' : β), xs[i]? = some b ∧ ys[j]? = some b' ∧
    ((xs.take i).foldl f iv, b) ≠ ((ys.take j).foldl f iv, b') ∧
    f ((xs.take i).foldl f iv) b = f ((ys.take j).foldl f iv) b'

end Verif.Spec
