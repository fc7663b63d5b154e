import Mathlib.Data.List.Basic
/-
Specification of the generation of the Poseidon round constants (Poseidon paper, appendix F): an 80-bit LFSR in
self-shrinking mode and rejection of the numbers that are not below the modulus.
-/
namespace Verif.Spec.Grain

/-- The `n` low bits of a number, the most significant first. -/
def toBits (n v : Nat) : List Bool := (List.range n).reverse.map v.testBit

/-- The initial state `b_0, …, b_79`: two bits for the field, four for the S-box, twelve each for the bit length and
the width, ten each for the numbers of full and partial rounds, thirty ones. -/
def initial (field sbox n t RF RP : Nat) : List Bool :=
  toBits 2 field ++ toBits 4 sbox ++ toBits 12 n ++ toBits 12 t ++ toBits 10 RF ++ toBits 10 RP ++
    List.replicate 30 true

/-- The output of the LFSR: `b_{i+80} = b_{i+62} ⊕ b_{i+51} ⊕ b_{i+38} ⊕ b_{i+23} ⊕ b_{i+13} ⊕ b_i`. -/
def seq (init : List Bool) (n : Nat) : Bool :=
  if n < 80 then (init[n]?).getD false
  else
    let i := n - 80
    (seq init (i + 62)) ^^ (seq init (i + 51)) ^^ (seq init (i + 38)) ^^ (seq init (i + 23)) ^^ (seq init (i + 13)) ^^
      (seq init i)
termination_by n
decreasing_by all_goals omega

/-- The output of the self-shrinking generator on the first `N` pairs from position `m` on: of each pair the second bit
if the first is one. -/
def shrunk (b : Nat → Bool) (m N : Nat) : List Bool :=
  (List.range N).filterMap fun k => if b (m + 2 * k) then some (b (m + 2 * k + 1)) else none

/-- The number with these bits, the most significant first. -/
def fromBits (bs : List Bool) : Nat := bs.foldl (fun a b => 2 * a + b.toNat) 0

/-- The constants are what the procedure gives: consecutive `n`-bit words of the self-shrunk output after 160 discarded
bits, those below the modulus kept in order; as many as there are constants, and the last word read is kept. -/
def Generates (b : Nat → Bool) (n modulus : Nat) (constants : List Nat) : Prop :=
  ∃ (N : Nat) (words : List (List Bool)), (∀ w ∈ words, w.length = n) ∧ shrunk b 240 N = words.flatten ∧
    (words.map fromBits).filter (· < modulus) = constants ∧
    ∀ w, words.getLast? = some w → fromBits w < modulus

/-- The whole procedure of the reference implementation (`generate_parameters_grain.sage`): the constants as in
`Generates`, and then from the same stream the numbers `x_0, …, y_0, …` of the matrix, without rejection. -/
def GeneratesAll (b : Nat → Bool) (n modulus : Nat) (constants xy : List Nat) : Prop :=
  ∃ (N : Nat) (words extra : List (List Bool)), (∀ w ∈ words ++ extra, w.length = n) ∧
    shrunk b 240 N = (words ++ extra).flatten ∧
    (words.map fromBits).filter (· < modulus) = constants ∧
    (∀ w, words.getLast? = some w → fromBits w < modulus) ∧
    extra.map fromBits = xy

/-- The matrix has the entries `1 / (x_i + y_j)`, where `x` is the first and `y` the second half of the list, and all
`2 t` numbers are different. -/
def CauchyOf (p t : Nat) (xy : List Nat) (M : List (List Nat)) : Prop :=
  M.length = t ∧ (∀ row ∈ M, row.length = t) ∧ xy.length = 2 * t ∧ (xy.map (· % p)).Nodup ∧
    ∀ i < t, ∀ j < t, (xy.getD i 0 + xy.getD (t + j) 0) * (M.getD i []).getD j 0 % p = 1 % p

end Verif.Spec.Grain
