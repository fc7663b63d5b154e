import Verif.Spec.Sponge
/-
What a collision of a sponge consists of.
-/
namespace Verif.Spec

/-- The state after absorbing the blocks `Ps`, each of `r` bits, from the zero state of `b` bits. -/
def absorbBlocks (b r : Nat) (f : List Bool → List Bool) (Ps : List (List Bool)) : List Bool :=
  Ps.foldl (fun S Pi => f (xorBits S (Pi ++ List.replicate (b - r) false))) (List.replicate b false)

/-- An inner collision among the states reached while absorbing `Ps` and `Qs`: the capacity parts are equal,
the rate parts are not. -/
def InnerCollision (b r : Nat) (f : List Bool → List Bool) (Ps Qs : List (List Bool)) : Prop :=
  ∃ p q, p <+: Ps ∧ q <+: Qs ∧
    (absorbBlocks b r f p).drop r = (absorbBlocks b r f q).drop r ∧
    (absorbBlocks b r f p).take r ≠ (absorbBlocks b r f q).take r

/-- A non-empty part of `Ps` leads back to the initial state. -/
def ReturnsToZero (b r : Nat) (f : List Bool → List Bool) (Ps : List (List Bool)) : Prop :=
  ∃ p, p <+: Ps ∧ p ≠ [] ∧ absorbBlocks b r f p = List.replicate b false

/-- Different final states with the same `d` output bits. -/
def OutputCollision (b r : Nat) (f : List Bool → List Bool) (d : Nat) (Ps Qs : List (List Bool)) : Prop :=
  absorbBlocks b r f Ps ≠ absorbBlocks b r f Qs ∧
    squeeze r f (absorbBlocks b r f Ps) d = squeeze r f (absorbBlocks b r f Qs) d

end Verif.Spec
