import Mathlib.Data.Fin.Tuple.Basic
import Mathlib.Logic.Equiv.Fin.Basic
import Verif.Proof.CipherLaw
/-
A random cipher with two lines under different keys: functions of the two values that are bijective in the first one give
independent, uniform results.
-/
namespace Verif.Ideal

open Spec.Ideal

variable {K X D : Type} [Fintype K] [DecidableEq K] [Fintype X] [DecidableEq X] [Fintype D] [DecidableEq D] {q : Nat}

theorem append_keys_injective (k : Fin q → K) (hk : Function.Injective k) :
    Function.Injective (Fin.append (fun i => (k i, false)) fun i => (k i, true)) := by
  intro i j
  refine Fin.addCases (fun i => ?_) (fun i => ?_) i <;> refine Fin.addCases (fun j => ?_) (fun j => ?_) j
  all_goals
    simp only [Fin.append_left, Fin.append_right, Prod.mk.injEq, reduceCtorEq, and_false, and_true, IsEmpty.forall_iff]
  · exact fun e => congrArg _ (hk e)
  · exact fun e => congrArg _ (hk e)

theorem card_pairs (f : Fin q → X → X → D) (hf : ∀ i z, Function.Bijective fun y => f i y z) (P : (Fin q → D) → Prop)
    [DecidablePred P] :
    (Finset.univ.filter fun y : Fin (q + q) → X => P fun i => f i (y (Fin.castAdd q i)) (y (Fin.natAdd q i))).card =
      (Finset.univ.filter P).card * Fintype.card X ^ q := by
  classical
  have e : (Finset.univ.filter P).card * Fintype.card X ^ q = ((Finset.univ.filter P) ×ˢ (Finset.univ : Finset (Fin q → X))).card := by
    rw [Finset.card_product, Finset.card_univ, Fintype.card_fun, Fintype.card_fin]
  rw [e]
  let g : Fin q → X → D ≃ X := fun i z => (Equiv.ofBijective _ (hf i z)).symm
  have hg : ∀ i z d, f i (g i z d) z = d := fun i z d => (Equiv.ofBijective _ (hf i z)).apply_symm_apply d
  have hg' : ∀ i z y, g i z (f i y z) = y := fun i z y => (Equiv.ofBijective _ (hf i z)).symm_apply_apply y
  refine Finset.card_bij' (fun y _ => (fun i => f i (y (Fin.castAdd q i)) (y (Fin.natAdd q i)), fun i => y (Fin.natAdd q i)))
    (fun p _ => Fin.append (fun i => g i (p.2 i) (p.1 i)) p.2) ?_ ?_ ?_ ?_
  · intro y hy
    rw [Finset.mem_filter] at hy
    rw [Finset.mem_product, Finset.mem_filter]
    exact ⟨⟨Finset.mem_univ _, hy.2⟩, Finset.mem_univ _⟩
  · rintro ⟨d, z⟩ hd
    rw [Finset.mem_product, Finset.mem_filter] at hd
    rw [Finset.mem_filter]
    refine ⟨Finset.mem_univ _, ?_⟩
    simp only [Fin.append_left, Fin.append_right, hg]
    exact hd.1.2
  · intro y _
    funext j
    refine Fin.addCases (fun i => ?_) (fun i => ?_) j
    · simp only [Fin.append_left, hg']
    · simp only [Fin.append_right]
  · rintro ⟨d, z⟩ _
    simp only [Fin.append_left, Fin.append_right, hg]

/-- Functions of the values of both lines, bijective in the first value, give independent, uniform results. -/
theorem prob_values_pair [Nonempty X] (k : Fin q → K) (hk : Function.Injective k) (x : Fin q → X) (f : Fin q → X → X → D)
    (hf : ∀ i z, Function.Bijective fun y => f i y z) (P : (Fin q → D) → Prop) [DecidablePred P] :
    prob (fun E : Cipher (K × Bool) X => P fun i => f i (E (k i, false) (x i)) (E (k i, true) (x i))) =
      (Finset.univ.filter P).card / (Fintype.card D : ℚ) ^ q := by
  have key := prob_values (Fin.append (fun i => (k i, false)) fun i => (k i, true)) (append_keys_injective k hk) (Fin.append x x)
    (fun _ y => y) 1 (fun _ d => by rw [Finset.filter_eq' Finset.univ d, if_pos (Finset.mem_univ d), Finset.card_singleton])
    (fun y : Fin (q + q) → X => P fun i => f i (y (Fin.castAdd q i)) (y (Fin.natAdd q i)))
  simp only [Fin.append_left, Fin.append_right] at key
  rw [key, card_pairs f hf]
  rcases q with _ | q
  · simp
  · have hc : Fintype.card X = Fintype.card D := Fintype.card_of_bijective (hf 0 (Classical.arbitrary X))
    have hD : (Fintype.card D : ℚ) ≠ 0 := by
      rw [← hc]
      exact Nat.cast_ne_zero.2 Fintype.card_ne_zero
    rw [hc]
    push_cast
    rw [pow_add _ (q + 1) (q + 1), mul_div_mul_right _ _ (pow_ne_zero _ hD)]

end Verif.Ideal
