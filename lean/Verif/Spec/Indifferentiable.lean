import Mathlib.Data.Fintype.Prod
import Verif.Spec.IdealCipher
/-
Indifferentiability (Maurer, Renner, Holenstein): a hash function built from a random cipher, or a random permutation (a cipher
with one key), against a random oracle.

The distinguisher asks for digests and queries the cipher and its inverse.  In the real world the cipher is random and the digests
are those of the hash function that uses it.  In the ideal world the digests come from a random function, and a simulator, which
does not see what the distinguisher asks the random function, answers the queries to the cipher.
-/
namespace Verif.Spec.Ideal

/-- A distinguisher: finishes with a bit, asks for the digest of an input, or queries the cipher, and continues depending
on the answer. -/
inductive Distinguisher (Q : Type*) (A K X : Type)
  | done (b : Bool)
  | hash (q : Q) (next : A → Distinguisher Q A K X)
  | ask (d : Dir) (k : K) (v : X) (next : X → Distinguisher Q A K X)

namespace Distinguisher
variable {Q : Type*} {A K X : Type}

/-- The cost is at most `n`: one for a query to the cipher, `cost q` for the digest of `q`. -/
def AtMost (cost : Q → Nat) : Distinguisher Q A K X → Nat → Prop
  | done _, _ => True
  | hash q next, n => cost q ≤ n ∧ ∀ a, (next a).AtMost cost (n - cost q)
  | ask _ _ _ _, 0 => False
  | ask _ _ _ next, n + 1 => ∀ a, (next a).AtMost cost n

/-- The real world: digests by `h`, the cipher `E`. -/
def real (h : Q → A) (E : Cipher K X) : Distinguisher Q A K X → Bool
  | done b => b
  | hash q next => (next (h q)).real h E
  | ask d k v next => (next (answer E d k v)).real h E

end Distinguisher

/-- A simulator of a cipher on `X`, with random coins.  For every query it may ask the random oracle for one digest. -/
structure Simulator (M D K X : Type) where
  State : Type
  start : State
  Coins : Type
  fintype : Fintype Coins
  /-- The message whose digest it asks for. -/
  wants : Coins → State → Dir → K → X → Option M
  /-- The answer, when it knows the digest. -/
  reply : Coins → State → Dir → K → X → Option D → State × X

/-- The ideal world: digests by `h`, the simulator with coins `c` and oracle `F`. -/
def Distinguisher.ideal {Q : Type*} {A K X M D : Type} (h : Q → A) (S : Simulator M D K X) (F : M → D) (c : S.Coins) :
    Distinguisher Q A K X → S.State → Bool
  | done b, _ => b
  | hash q next, s => (next (h q)).ideal h S F c s
  | ask d k v next, s =>
    (next (S.reply c s d k v ((S.wants c s d k v).map F)).2).ideal h S F c (S.reply c s d k v ((S.wants c s d k v).map F)).1

open Classical in
/-- The probability of an event over a finite set of equally likely outcomes. -/
noncomputable def chance {Ω : Type} [Fintype Ω] (p : Ω → Prop) : ℚ := (Finset.univ.filter p).card / (Fintype.card Ω : ℚ)

open Classical in
/-- The probability that the distinguisher outputs one in the ideal world, where the digest of `q` is `wrap` of the value of
the random function at the message `msg q`. -/
noncomputable def Distinguisher.idealChance {Q : Type*} {A K X M D : Type} [Fintype M] [Fintype D] (msg : Q → M) (wrap : D → A)
    (S : Simulator M D K X) (P : Distinguisher Q A K X) : ℚ :=
  haveI := S.fintype
  chance fun w : (M → D) × S.Coins => P.ideal (fun q => wrap (w.1 (msg q))) S w.1 w.2 S.start = true

end Verif.Spec.Ideal
