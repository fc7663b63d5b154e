import Verif.Spec.Indifferentiable
/-
Message authentication with a secret key, over a random cipher: forgers.
-/
namespace Verif.Spec.Ideal

/-- A forger: asks for tags and queries the cipher, and finishes with an input and a tag. -/
inductive Forger (Q : Type*) (A K X : Type)
  | forge (q : Q) (t : A)
  | tag (q : Q) (next : A → Forger Q A K X)
  | ask (d : Dir) (k : K) (v : X) (next : X → Forger Q A K X)

namespace Forger
variable {Q : Type*} {A K X Msg : Type}

/-- The cost is at most `n`: one for a query to the cipher, `cost q` for the tag of `q`, including the check at the end. -/
def AtMost (cost : Q → Nat) : Forger Q A K X → Nat → Prop
  | forge q _, n => cost q ≤ n
  | tag q next, n => cost q ≤ n ∧ ∀ a, (next a).AtMost cost (n - cost q)
  | ask _ _ _ _, 0 => False
  | ask _ _ _ next, n + 1 => ∀ a, (next a).AtMost cost n

/-- The messages whose tags have been asked for, and the input and the tag at the end. -/
def outcome (msg : Q → Msg) (mac : Q → A) (E : Cipher K X) : Forger Q A K X → List Msg → List Msg × Q × A
  | forge q t, asked => (asked, q, t)
  | tag q next, asked => (next (mac q)).outcome msg mac E (msg q :: asked)
  | ask d k v next, asked => (next (answer E d k v)).outcome msg mac E asked

/-- The tag is right and belongs to a message for which none has been asked. -/
def Wins (msg : Q → Msg) (mac : Q → A) (E : Cipher K X) (F : Forger Q A K X) : Prop :=
  msg (F.outcome msg mac E []).2.1 ∉ (F.outcome msg mac E []).1 ∧ mac (F.outcome msg mac E []).2.1 = (F.outcome msg mac E []).2.2

end Forger

end Verif.Spec.Ideal
