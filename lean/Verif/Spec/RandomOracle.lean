import Mathlib.Data.Fintype.Pi
import Mathlib.Data.Rat.Defs
import Verif.Spec.H2F
/-
A random hash function: the random oracle model.  The strings that can be hashed are any finite set; "random" means uniform among
all functions from this set to the digests, so that a probability is a quotient of two numbers of functions.
-/
namespace Verif.Spec.Oracle

/-- Digests of `b` octets. -/
abbrev Digest (b : Nat) := Fin b → Fin 256

/-- A digest as a list. -/
def octets {b : Nat} (d : Digest b) : List Nat := List.ofFn fun i => (d i).1

/-- A hash of the strings in `S`. -/
abbrev Hash (S : Finset (List Nat)) (b : Nat) := S → Digest b

/-- The digest of a string, as a list; zeros for strings outside `S`. -/
def Hash.apply {S : Finset (List Nat)} {b : Nat} (H : Hash S b) (x : List Nat) : List Nat :=
  if h : x ∈ S then octets (H ⟨x, h⟩) else List.replicate b 0

open Classical in
/-- The probability of an event over all elements of a finite type. -/
noncomputable def prob {Ω : Type} [Fintype Ω] (p : Ω → Prop) : ℚ := (Finset.univ.filter p).card / (Fintype.card Ω : ℚ)

/-- A call of expand_message_xmd: message, tag and number of blocks of output. -/
structure XmdCall where
  msg : List Nat
  dst : List Nat
  ell : Nat

/-- The strings that expand_message_xmd may hash in a call are in `S`. -/
def Covers (S : Finset (List Nat)) (b s : Nat) (c : XmdCall) : Prop :=
  msgPrime s c.msg c.dst (b * c.ell) ∈ S ∧
  ∀ (y : Digest b) (i : Nat), 0 < i → i ≤ c.ell → octets y ++ i2osp i 1 ++ dstPrime c.dst ∈ S

/-- The limits of RFC 9380 section 5.3.1. -/
def Allowed (b : Nat) (c : XmdCall) : Prop := c.dst.length ≤ 255 ∧ c.ell ≤ 255 ∧ b * c.ell < 65536

end Verif.Spec.Oracle
