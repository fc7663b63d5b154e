import Mathlib.Algebra.Field.ZMod
import Mathlib.Tactic.Ring
import Mathlib.Tactic.LinearCombination
import Mathlib.Data.List.Zip
import Verif.Model.ReinforcedConcrete
import Verif.Spec.ReinforcedConcrete
/-
Lemmas about the mixed radix conversions of Reinforced Concrete.
-/
namespace Verif
open Spec.ReinforcedConcrete

theorem digits_length (ss : List Nat) (n : Nat) : (digits ss n).length = ss.length := by
  induction ss generalizing n with
  | nil => rfl
  | cons s ss ih => rw [digits, List.length_cons, ih, List.length_cons]

theorem digits_lt (ss : List Nat) (h : ∀ s ∈ ss, 0 < s) (n : Nat) :
    List.Forall₂ (fun d s => d < s) (digits ss n) ss := by
  induction ss generalizing n with
  | nil => exact .nil
  | cons s ss ih => exact .cons (Nat.mod_lt _ (h s (by simp))) (ih (fun s hs => h s (by simp [hs])) _)

theorem value_digits (ss : List Nat) (n : Nat) : value ss (digits ss n) = n % ss.prod := by
  induction ss generalizing n with
  | nil => simp [digits, value, Nat.mod_one]
  | cons s ss ih => rw [digits, value, ih, List.prod_cons, Nat.mod_mul]

theorem value_lt (ss ds : List Nat) (h : List.Forall₂ (fun d s => d < s) ds ss) : value ss ds < ss.prod := by
  induction h with
  | nil => simp [value]
  | @cons d s ds ss hd _ ih =>
    rw [value, List.prod_cons]
    calc d + s * value ss ds < s + s * value ss ds := by omega
      _ = s * (value ss ds + 1) := by ring
      _ ≤ s * ss.prod := Nat.mul_le_mul_left s ih

theorem digits_value (ss ds : List Nat) (h : List.Forall₂ (fun d s => d < s) ds ss) :
    digits ss (value ss ds) = ds := by
  induction h with
  | nil => rfl
  | @cons d s ds ss hd _ ih =>
    rw [value, digits, Nat.add_mul_mod_self_left, Nat.mod_eq_of_lt hd, Nat.add_mul_div_left _ _ (by omega),
      Nat.div_eq_of_lt hd, Nat.zero_add, ih]

section
variable {p : Nat} [Fact p.Prime]

theorem decomposeLoop_eq (e : ZMod p) (ss : List Nat) (hs : ∀ s ∈ ss, 0 < s ∧ s < p) (P : Nat)
    (hP : (P : ZMod p) ≠ 0) :
    rcDecomposeLoop e ss ((e.val % P : Nat) : ZMod p) (P : ZMod p) = (digits ss (e.val / P)).map (fun n : Nat => (n : ZMod p)) := by
  haveI : NeZero p := ⟨(Fact.out : p.Prime).ne_zero⟩
  induction ss generalizing P with
  | nil => rfl
  | cons s ss ih =>
    obtain ⟨hs0, hsp⟩ := hs s (by simp)
    have hq : (e - ((e.val % P : Nat) : ZMod p)) * (P : ZMod p)⁻¹ = ((e.val / P : Nat) : ZMod p) := by
      have h1 : (e : ZMod p) = ((e.val % P : Nat) : ZMod p) + (P : ZMod p) * ((e.val / P : Nat) : ZMod p) := by
        have := congrArg (fun n : Nat => (n : ZMod p)) (Nat.mod_add_div e.val P)
        simp only [Nat.cast_add, Nat.cast_mul, ZMod.natCast_zmod_val] at this
        exact this.symm
      have h2 : e - ((e.val % P : Nat) : ZMod p) = (P : ZMod p) * ((e.val / P : Nat) : ZMod p) := by
        linear_combination h1
      rw [h2, mul_comm (P : ZMod p), mul_assoc, mul_inv_cancel₀ hP, mul_one]
    have hv : ((e - ((e.val % P : Nat) : ZMod p)) * (P : ZMod p)⁻¹).val = e.val / P := by
      rw [hq, ZMod.val_natCast_of_lt]
      exact lt_of_le_of_lt (Nat.div_le_self _ _) (ZMod.val_lt e)
    rw [rcDecomposeLoop, digits, List.map_cons]
    simp only [hv, ZMod.val_natCast_of_lt hsp]
    congr 1
    have hsum : ((e.val % P : Nat) : ZMod p) + ((e.val / P % s : Nat) : ZMod p) * (P : ZMod p)
        = ((e.val % (P * s) : Nat) : ZMod p) := by
      rw [Nat.mod_mul, Nat.cast_add, Nat.cast_mul, mul_comm (P : ZMod p)]
    rw [hsum, show (P : ZMod p) * (s : ZMod p) = ((P * s : Nat) : ZMod p) by push_cast; rfl,
      ih (fun s hs' => hs s (by simp [hs'])) (P * s), Nat.div_div_eq_div_mul]
    push_cast
    refine mul_ne_zero hP ?_
    rw [Ne, ZMod.natCast_eq_zero_iff]
    exact Nat.not_dvd_of_pos_of_lt hs0 hsp

/-- The value of a list of field elements in the mixed radix system, least significant first. -/
def fieldValue : List Nat → List (ZMod p) → ZMod p
  | s :: ss, d :: ds => d + (s : ZMod p) * fieldValue ss ds
  | _, _ => 0

theorem composeLoop_eq (ss : List Nat) (ys : List (ZMod p)) (comp product : ZMod p) :
    rcComposeLoop (ss.zip ys) comp product = comp + product * fieldValue ss ys := by
  induction ss generalizing ys comp product with
  | nil => simp [rcComposeLoop, fieldValue]
  | cons s ss ih =>
    cases ys with
    | nil => simp [rcComposeLoop, fieldValue]
    | cons y ys =>
      rw [List.zip_cons_cons, rcComposeLoop, ih, fieldValue]
      ring

theorem fieldValue_cast (ss ds : List Nat) :
    fieldValue (p := p) ss (ds.map fun n : Nat => (n : ZMod p)) = ((value ss ds : Nat) : ZMod p) := by
  induction ss generalizing ds with
  | nil => simp [fieldValue, value]
  | cons s ss ih =>
    cases ds with
    | nil => simp [fieldValue, value]
    | cons d ds => rw [List.map_cons, fieldValue, ih, value]; push_cast; rfl

theorem decompose_eq (P : RcPolicy) (hs : ∀ s ∈ P.bucket, 0 < s ∧ s < p) (e : ZMod p) :
    rcDecompose P e = ((digits P.bucket.reverse e.val).map (fun n : Nat => (n : ZMod p))).reverse := by
  have := decomposeLoop_eq e P.bucket.reverse (by simpa using hs) 1 (by simp)
  rw [Nat.mod_one, Nat.div_one, Nat.cast_zero, Nat.cast_one] at this
  rw [rcDecompose, this]

theorem zip_reverse {α β : Type} (l : List α) (m : List β) (h : l.length = m.length) :
    (l.zip m).reverse = l.reverse.zip m.reverse := by
  rw [List.zip_eq_zipWith, List.zip_eq_zipWith, List.reverse_zipWith h]

theorem compose_eq (P : RcPolicy) (ys : List (ZMod p)) (h : ys.length = P.bucket.length) :
    rcCompose P ys = fieldValue P.bucket.reverse ys.reverse := by
  rw [rcCompose, zip_reverse _ _ h.symm, composeLoop_eq]
  ring

theorem bar_eq (P : RcPolicy) (hs : ∀ s ∈ P.bucket, 0 < s ∧ s < p) (e : ZMod p) :
    rcBar P e = fieldValue P.bucket.reverse
      ((digits P.bucket.reverse e.val).map (fun n : Nat => rcS P (n : ZMod p))) := by
  rw [rcBar, decompose_eq P hs, compose_eq]
  · simp [List.map_reverse, Function.comp_def]
  · simp [digits_length]

end
end Verif
