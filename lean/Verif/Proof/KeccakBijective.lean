import Mathlib.Data.Fintype.Pi
import Mathlib.Data.Fintype.EquivFin
import Mathlib.Logic.Function.Iterate
import Verif.Proof.Keccak
/-
Every step of KECCAK-p[1600] is injective, hence so is the permutation of the code.

Theta: with `P` the column parities, the parities after theta are `T P`, where `T` is the linear map
`P(x, z) ↦ P(x, z) + P(x-1, z) + P(x+1, z-1)`.  Squaring gives `T^(2^k) P (x, z) = P(x, z) +
P(x - 2^k, z) + P(x + 2^k, z - 2^k)`, so `T^64` only moves `x`, and `T^192` is the identity.
-/
namespace Verif

open Spec.Keccak

/-- `T` with shift `s`, `t`. -/
def parityStep (s : Fin 5) (t : Fin 64) (P : Fin 5 → Fin 64 → Bool) : Fin 5 → Fin 64 → Bool :=
  fun x z => P x z ^^ (P (x - s) z ^^ P (x + s) (z - t))

theorem fin5_cancel : ∀ x s : Fin 5, x - s + s = x ∧ x + s - s = x ∧ x - s - s = x - (s + s) ∧
    x + s + s = x + (s + s) := by decide

theorem fin64_sub (z t : Fin 64) : z - t - t = z - (t + t) := by omega

theorem parityStep_twice (s : Fin 5) (t : Fin 64) (P : Fin 5 → Fin 64 → Bool) :
    parityStep s t (parityStep s t P) = parityStep (s + s) (t + t) P := by
  funext x z
  obtain ⟨h1, h2, h3, h4⟩ := fin5_cancel x s
  unfold parityStep
  rw [h1, h2, h3, h4, fin64_sub]
  cases P x z <;> cases P (x - s) z <;> cases P (x + s) (z - t) <;> cases P (x - (s + s)) z <;>
    cases P x (z - t) <;> cases P (x + (s + s)) (z - (t + t)) <;> rfl

theorem parityStep_64 (P : Fin 5 → Fin 64 → Bool) :
    (parityStep 1 1)^[64] P = parityStep 4 0 P := by
  have h : ∀ k s t, (parityStep 1 1)^[k] = parityStep s t →
      (parityStep 1 1)^[k + k] = parityStep (s + s) (t + t) := by
    intro k s t e
    rw [Function.iterate_add, e]
    funext P
    exact parityStep_twice s t P
  have e := h 32 _ _ (h 16 _ _ (h 8 _ _ (h 4 _ _ (h 2 _ _ (h 1 1 1 rfl)))))
  exact congrFun e P

theorem parityStep_192 (P : Fin 5 → Fin 64 → Bool) : (parityStep 1 1)^[192] P = P := by
  have e : (192 : Nat) = 64 + (64 + 64) := rfl
  rw [e, Function.iterate_add, Function.iterate_add]
  simp only [Function.comp, parityStep_64]
  rw [parityStep_twice]
  funext x z
  have hz : z - 0 = z := by omega
  have h : ∀ x : Fin 5, x - (4 + 4) - 4 = x - 2 ∧ x - (4 + 4) + 4 = x + 1 ∧
    x + (4 + 4) - 4 = x - 1 ∧ x + (4 + 4) + 4 = x + 2 ∧ x - (4 + 4) = x + 2 ∧
    x + (4 + 4) = x - 2 ∧ x + 4 = x - 1 ∧ x - 4 = x + 1 := by decide
  simp only [parityStep]
  obtain ⟨h1, h2, h3, h4, h5, h6, h7, h8⟩ := h x
  have hz' : z - (0 + 0) = z := by omega
  rw [hz', hz, h1, h2, h3, h4, h5, h6, h7, h8]
  cases P x z <;> cases P (x - 1) z <;> cases P (x - 2) z <;> cases P (x + 1) z <;>
    cases P (x + 2) z <;> rfl

theorem parityStep_injective : Function.Injective (parityStep 1 1) := by
  intro P Q h
  have : (parityStep 1 1)^[192] P = (parityStep 1 1)^[192] Q := by
    show (parityStep 1 1)^[191] (parityStep 1 1 P) = (parityStep 1 1)^[191] (parityStep 1 1 Q)
    rw [h]
  rwa [parityStep_192, parityStep_192] at this

/-- Parities after theta. -/
theorem column_theta (A : State) : (fun x z => column (theta A) x z) = parityStep 1 1 (column A) := by
  funext x z
  unfold parityStep
  show (theta A x 0 z ^^ theta A x 1 z ^^ theta A x 2 z ^^ theta A x 3 z ^^ theta A x 4 z) = _
  unfold theta
  generalize (column A (x - 1) z ^^ column A (x + 1) (z - 1)) = e
  unfold column
  cases e <;> cases A x 0 z <;> cases A x 1 z <;> cases A x 2 z <;> cases A x 3 z <;>
    cases A x 4 z <;> rfl

theorem theta_injective : Function.Injective theta := by
  intro A B h
  have hc : column A = column B := by
    apply parityStep_injective
    rw [← column_theta, ← column_theta, h]
  funext x y z
  have := congrFun (congrFun (congrFun h x) y) z
  unfold theta at this
  rw [hc] at this
  exact Bool.xor_left_inj.1 this

theorem rho_injective : Function.Injective rho := by
  intro A B h
  funext x y z
  have := congrFun (congrFun (congrFun h x) y) (z + Fin.ofNat 64 (rhoOffset x y))
  unfold rho at this
  have e : ∀ t : Fin 64, z + t - t = z := by intro t; omega
  rwa [e] at this

theorem pi_injective : Function.Injective pi := by
  intro A B h
  funext x y z
  have := congrFun (congrFun (congrFun h y) (2 * x + 3 * y)) z
  unfold pi at this
  have e : ∀ x y : Fin 5, y + 3 * (2 * x + 3 * y) = x := by decide
  rwa [e] at this

/-- Chi on one row. -/
theorem chi_row : ∀ a b c d e a' b' c' d' e' : Bool,
    (a ^^ ((b ^^ true) && c)) = (a' ^^ ((b' ^^ true) && c')) →
    (b ^^ ((c ^^ true) && d)) = (b' ^^ ((c' ^^ true) && d')) →
    (c ^^ ((d ^^ true) && e)) = (c' ^^ ((d' ^^ true) && e')) →
    (d ^^ ((e ^^ true) && a)) = (d' ^^ ((e' ^^ true) && a')) →
    (e ^^ ((a ^^ true) && b)) = (e' ^^ ((a' ^^ true) && b')) →
    a = a' := by decide +kernel

theorem chi_injective : Function.Injective chi := by
  intro A B h
  funext x y z
  have hh := fun x => congrFun (congrFun (congrFun h x) y) z
  have e : ∀ x : Fin 5, x + 1 + 1 = x + 2 ∧ x + 1 + 2 = x + 3 ∧ x + 2 + 1 = x + 3 ∧ x + 2 + 2 = x + 4 ∧
      x + 3 + 1 = x + 4 ∧ x + 3 + 2 = x ∧ x + 4 + 1 = x ∧ x + 4 + 2 = x + 1 := by decide
  obtain ⟨e1, e2, e3, e4, e5, e6, e7, e8⟩ := e x
  have h0 := hh x
  have h1 := hh (x + 1)
  have h2 := hh (x + 2)
  have h3 := hh (x + 3)
  have h4 := hh (x + 4)
  unfold chi at h0 h1 h2 h3 h4
  rw [e1, e2] at h1
  rw [e3, e4] at h2
  rw [e5, e6] at h3
  rw [e7, e8] at h4
  exact chi_row _ _ _ _ _ _ _ _ _ _ h0 h1 h2 h3 h4

theorem iota_injective (ir : Nat) : Function.Injective (iota ir) := by
  intro A B h
  funext x y z
  have := congrFun (congrFun (congrFun h x) y) z
  unfold iota at this
  split at this
  · exact Bool.xor_left_inj.1 this
  · exact this

theorem round_injective (ir : Nat) : Function.Injective (fun A => Spec.Keccak.round A ir) := by
  intro A B h
  exact theta_injective (rho_injective (pi_injective (chi_injective (iota_injective ir h))))

theorem permutation_injective : Function.Injective permutation := by
  have key : ∀ l : List Nat, Function.Injective (fun A => l.foldl Spec.Keccak.round A) := by
    intro l
    induction l with
    | nil => exact fun A B h => h
    | cons i l ih => exact fun A B h => round_injective i (ih h)
  exact key _

theorem array_injective : Function.Injective Lanes.array := by
  intro A B h
  apply Vector.ext
  intro i hi
  have h1 : i % 5 < 5 := Nat.mod_lt _ (by omega)
  have h2 : i / 5 < 5 := by omega
  have e : 5 * (i / 5) + i % 5 = i := by omega
  apply BitVec.eq_of_getElem_eq
  intro z hz
  have := congrFun (congrFun (congrFun h ⟨i % 5, h1⟩) ⟨i / 5, h2⟩) ⟨z, hz⟩
  simp only [Lanes.array, e, Fin.getElem_fin] at this
  exact this

theorem keccakPermute_injective : Function.Injective keccakPermute := by
  intro A B h
  apply array_injective
  apply permutation_injective
  rw [← keccakPermute_array, ← keccakPermute_array, h]

instance : Finite Lanes := Finite.of_injective _ array_injective

theorem keccakPermute_bijective : Function.Bijective keccakPermute :=
  Finite.injective_iff_bijective.1 keccakPermute_injective

end Verif
