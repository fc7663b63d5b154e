import Verif.Spec.Indifferentiable
import Verif.Spec.RandomOracle
/-
Indifferentiability for a construction from a random hash function: the distinguisher calls the construction and the hash function.
In the real world the hash function is random and the construction uses it.  In the ideal world the construction is replaced by a
random function, and a simulator, which does not see the calls of the construction, answers the calls of the hash function.
-/
universe u

namespace Verif.Spec.Oracle

/-- A distinguisher: finishes with a bit, calls the construction, or calls the hash function, and continues depending on the answer. -/
inductive Caller (Q : Type u) (A I D : Type)
  | done (b : Bool)
  | call (q : Q) (next : A → Caller Q A I D)
  | hash (x : I) (next : D → Caller Q A I D)

namespace Caller
variable {Q : Type*} {A I D : Type}

/-- At most `n` calls of either kind, whatever the answers. -/
def AtMost : Caller Q A I D → Nat → Prop
  | done _, _ => True
  | call _ _, 0 => False
  | hash _ _, 0 => False
  | call _ next, n + 1 => ∀ a, (next a).AtMost n
  | hash _ next, n + 1 => ∀ d, (next d).AtMost n

/-- The real world: the construction `h`, the hash function `H`. -/
def real (h : Q → A) (H : I → D) : Caller Q A I D → Bool
  | done b => b
  | call q next => (next (h q)).real h H
  | hash x next => (next (H x)).real h H

end Caller

/-- A simulator of a hash function, with random coins.  For every call it may ask the random function of the ideal world for one
value. -/
structure HashSimulator (M : Type) (V : M → Type) (I D : Type) where
  State : Type
  start : State
  Coins : Type
  fintype : Fintype Coins
  /-- The message whose value it asks for. -/
  wants : Coins → State → I → Option M
  /-- The answer, when it knows the value. -/
  reply : Coins → State → I → Option (Σ m, V m) → State × D

/-- The ideal world: the construction `h`, the simulator with coins `c` and the random function `F`. -/
def Caller.ideal {Q : Type*} {A I D M : Type} {V : M → Type} (h : Q → A) (S : HashSimulator M V I D) (F : (m : M) → V m) (c : S.Coins) :
    Caller Q A I D → S.State → Bool
  | done b, _ => b
  | call q next, s => (next (h q)).ideal h S F c s
  | hash x next, s =>
    (next (S.reply c s x ((S.wants c s x).map fun m => ⟨m, F m⟩)).2).ideal h S F c
      (S.reply c s x ((S.wants c s x).map fun m => ⟨m, F m⟩)).1

open Classical Ideal in
/-- The probability that the distinguisher outputs one in the ideal world, where the call `q` returns `wrap q` of the value of the
random function at `msg q`. -/
noncomputable def Caller.idealChance {Q : Type*} {A I D M : Type} {V : M → Type} [Fintype M] [∀ m, Fintype (V m)] (msg : Q → M)
    (wrap : (q : Q) → V (msg q) → A) (S : HashSimulator M V I D) (P : Caller Q A I D) : ℚ :=
  haveI := S.fintype
  chance fun w : ((m : M) → V m) × S.Coins => P.ideal (fun q => wrap q (w.1 (msg q))) S w.1 w.2 S.start = true

end Verif.Spec.Oracle
