import Verif.Spec.IdealCipher
import Mathlib.Tactic.Common
/-
Attackers that go on after their last query: every attacker can be extended by the queries for computing the hashes of its own
messages.
-/
namespace Verif.Ideal
open Spec.Ideal

universe u v
variable {K X : Type} {R : Type u} {S : Type v}

/-- `A`, then an attacker depending on its result. -/
def andThen (A : Attacker K X R) (f : R → Attacker K X S) : Attacker K X S :=
  match A with
  | .done r => f r
  | .ask d k x next => .ask d k x fun a => andThen (next a) f

theorem result_andThen (E : Cipher K X) (A : Attacker K X R) (f : R → Attacker K X S) :
    (andThen A f).result E = (f (A.result E)).result E := by
  induction A with
  | done r => rfl
  | ask d k x next ih => exact ih _

theorem learns_andThen (E : Cipher K X) (A : Attacker K X R) (f : R → Attacker K X S) :
    (andThen A f).learns E = A.learns E ++ (f (A.result E)).learns E := by
  induction A with
  | done r => rfl
  | ask d k x next ih => exact congrArg (_ :: ·) (ih _)

theorem atMost_mono {A : Attacker K X R} {q q' : Nat} (h : A.AtMost q) (hq : q ≤ q') : A.AtMost q' := by
  induction A generalizing q q' with
  | done r => trivial
  | ask d k x next ih =>
    rcases q with _ | q
    · exact h.elim
    rcases q' with _ | q'
    · omega
    exact fun a => ih a (h a) (Nat.le_of_succ_le_succ hq)

theorem atMost_andThen {A : Attacker K X R} {f : R → Attacker K X S} {q l : Nat} (h : A.AtMost q) (hf : ∀ r, (f r).AtMost l) :
    (andThen A f).AtMost (q + l) := by
  induction A generalizing q with
  | done r => exact atMost_mono (hf r) (Nat.le_add_left _ _)
  | ask d k x next ih =>
    rcases q with _ | q
    · exact h.elim
    rw [Nat.add_right_comm]
    exact fun a => ih a (h a)

variable {B V : Type}

/-- The chaining values along a list of blocks: block `b` makes the cipher with key `key b` encrypt `input v b`, and the answer
`y` leads to `next v y`. -/
def chain (E : Cipher K X) (key : B → K) (input : V → B → X) (next : V → X → V) (bs : List B) (x : V) : V :=
  bs.foldl (fun v b => next v (E (key b) (input v b))) x

/-- The attacker that computes them. -/
def walk (key : B → K) (input : V → B → X) (next : V → X → V) (r : R) : List B → V → Attacker K X R
  | [], _ => .done r
  | b :: bs, v => .ask .enc (key b) (input v b) fun y => walk key input next r bs (next v y)

variable (key : B → K) (input : V → B → X) (next : V → X → V)

theorem result_walk (E : Cipher K X) (r : R) (bs : List B) (x : V) : (walk key input next r bs x).result E = r := by
  induction bs generalizing x with
  | nil => rfl
  | cons b bs ih => exact ih _

theorem atMost_walk (r : R) (bs : List B) (x : V) : (walk key input next r bs x).AtMost bs.length := by
  induction bs generalizing x with
  | nil => trivial
  | cons b bs ih => exact fun a => ih _

theorem learns_walk (E : Cipher K X) (r : R) (bs : List B) (x : V) {i : Nat} {b : B} (h : bs[i]? = some b) :
    (key b, input (chain E key input next (bs.take i) x) b, E (key b) (input (chain E key input next (bs.take i) x) b)) ∈
      (walk key input next r bs x).learns E := by
  induction bs generalizing x i with
  | nil => cases h
  | cons c bs ih =>
    rcases i with _ | i
    · cases h
      exact List.mem_cons_self
    · exact List.mem_cons_of_mem _ (ih _ h)

end Verif.Ideal
