import Mathlib.Algebra.BigOperators.Group.Finset.Basic
import Mathlib.Algebra.Module.NatInt
import Verif.Spec.Blocks
/-
The Pedersen hash of the Zcash protocol specification, section 5.4.1.7 ("Pedersen Hash Function").
-/
namespace Verif.Spec

/-- `M` with zero bits appended so that its length is a multiple of three. -/
def pedersenPad (m : List Bool) : List Bool := m ++ List.replicate (fillTo 3 m.length) false

/-- `enc(m_j) = (1 - 2 s_2) * (1 + s_0 + 2 s_1)` for a chunk `[s_0, s_1, s_2]`: a sign bit and a magnitude
between one and four. -/
def enc : List Bool → Int
  | [s0, s1, s2] =>
    let magnitude : Int := match s0, s1 with
      | false, false => 1
      | true, false => 2
      | false, true => 3
      | true, true => 4
    if s2 then -magnitude else magnitude
  | _ => 0

/-- `⟨M_i⟩`, the sum of `enc(m_j) * 2^(4 (j - 1))` over the chunks of a segment. -/
def segmentScalar (seg : List (List Bool)) : Int :=
  ((List.range seg.length).map fun j => enc (seg.getD j []) * 2 ^ (4 * j)).sum

/-- Segment `i` (from zero) of a list of chunks, `c` chunks each, the last one possibly shorter. -/
def segment (c : Nat) (chunks : List (List Bool)) (i : Nat) : List (List Bool) :=
  (chunks.drop (i * c)).take c

/-- Number of segments. -/
def segmentCount (c : Nat) (chunks : List (List Bool)) : Nat := (chunks.length + c - 1) / c

/-- The point: the sum of `⟨M_i⟩ * I_i`. -/
def pedersen {G : Type} [AddCommGroup G] (c : Nat) (base : Nat → G) (m : List Bool) : G :=
  ∑ i ∈ Finset.range (segmentCount c (blocks 3 (pedersenPad m))),
    segmentScalar (segment c (blocks 3 (pedersenPad m)) i) • base i

end Verif.Spec
