/-
Specification vocabulary: cutting a bit string into blocks.
Written without reference to the model.
-/
namespace Verif.Spec

/-- Block number `i` (of size `B`) of a bit string. -/
def block (B : Nat) (m : List Bool) (i : Nat) : List Bool := (m.drop (i * B)).take B

/-- All full blocks of a bit string, in order. -/
def blocks (B : Nat) (m : List Bool) : List (List Bool) :=
  (List.range (m.length / B)).map (block B m)

/-- Number of zero bits that make `n` a multiple of `B`. -/
def fillTo (B n : Nat) : Nat := (B - n % B) % B

end Verif.Spec
