import Mathlib.Data.Fintype.Perm
import Mathlib.Data.Fintype.Pi
import Mathlib.Data.Rat.Defs
/-
Attackers that query a block cipher, or a permutation, from outside: the ideal cipher model.  A cipher is any family of
permutations; "random" means uniform among all of them, so that a probability is a quotient of two numbers of ciphers.
-/
namespace Verif.Spec.Ideal

universe u

/-- A block cipher: a permutation of the blocks for every key. -/
abbrev Cipher (K X : Type) := K → Equiv.Perm X

/-- A query: encryption or decryption of a block. -/
inductive Dir | enc | dec
  deriving DecidableEq

/-- The answer of the cipher. -/
def answer {K X : Type} (E : Cipher K X) (d : Dir) (k : K) (v : X) : X :=
  match d with
  | .enc => E k v
  | .dec => (E k).symm v

/-- Key, plaintext and ciphertext of a query and its answer. -/
def triple {K X : Type} (d : Dir) (k : K) (v a : X) : K × X × X :=
  match d with
  | .enc => (k, v, a)
  | .dec => (k, a, v)

/-- An attacker: finishes with a result, or asks a query and continues depending on the answer. -/
inductive Attacker (K X : Type) (R : Type u)
  | done (r : R)
  | ask (d : Dir) (k : K) (v : X) (next : X → Attacker K X R)

namespace Attacker
variable {K X : Type} {R : Type u}

/-- The attacker asks at most `q` queries, whatever the answers. -/
def AtMost : Attacker K X R → Nat → Prop
  | done _, _ => True
  | ask _ _ _ _, 0 => False
  | ask _ _ _ next, q + 1 => ∀ a, (next a).AtMost q

/-- The result against the cipher `E`. -/
def result (E : Cipher K X) : Attacker K X R → R
  | done r => r
  | ask d k v next => (next (answer E d k v)).result E

/-- The triples key, plaintext, ciphertext that the attacker learns from its queries. -/
def learns (E : Cipher K X) : Attacker K X R → List (K × X × X)
  | done _ => []
  | ask d k v next =>
    triple d k v (answer E d k v) :: (next (answer E d k v)).learns E

end Attacker

open Classical in
/-- The probability of an event over all ciphers. -/
noncomputable def prob {K X : Type} [Fintype K] [DecidableEq K] [Fintype X] [DecidableEq X] (p : Cipher K X → Prop) : ℚ :=
  (Finset.univ.filter p).card / (Fintype.card (Cipher K X) : ℚ)

end Verif.Spec.Ideal
