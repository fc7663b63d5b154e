import Batteries.Data.BitVec.Lemmas
import Mathlib.Tactic.FinCases
import Mathlib.Data.Fintype.Basic
import Verif.Model.Keccak
import Verif.Spec.Keccak
/- The unrolled permutation of the code is KECCAK-p[1600, 24]. -/
namespace Verif

open Spec.Keccak

/-- FIPS 202 section 3.1.4: lane `(x, y)` is word `5 y + x`, bit `z` has weight `2^z`. -/
def Lanes.array (A : Lanes) : State := fun x y z => (A[5 * y.1 + x.1]'(by omega))[z]

theorem rotl_bit (v : BitVec 64) (r : Nat) (hr : r < 64) (z : Fin 64) :
    (v.rotateLeft r)[z] = v[z - Fin.ofNat 64 r] := by
  have hz := z.2
  show (v.rotateLeft r)[z.1] = v[(z - Fin.ofNat 64 r).1]
  rw [← BitVec.getLsbD_eq_getElem, BitVec.getLsbD_rotateLeft, ← BitVec.getLsbD_eq_getElem]
  have e : (z - Fin.ofNat 64 r).1 = (64 - r + z.1) % 64 := by
    rw [Fin.sub_def]; simp [Nat.mod_eq_of_lt hr]
  rw [e, Nat.mod_eq_of_lt hr]
  by_cases h : z.1 < r
  · simp only [h, decide_true, cond_true]
    rw [Nat.mod_eq_of_lt (by omega)]
  · simp only [h, hz, decide_true, decide_false, cond_false, Bool.true_and]
    congr 1
    omega

theorem xor_bit (v w : BitVec 64) (z : Fin 64) : (v ^^^ w)[z] = (v[z] ^^ w[z]) := by
  simp [Fin.getElem_fin]

theorem and_bit (v w : BitVec 64) (z : Fin 64) : (v &&& w)[z] = (v[z] && w[z]) := by
  simp [Fin.getElem_fin]

theorem not_bit (v : BitVec 64) (z : Fin 64) : (~~~v)[z] = (v[z] ^^ true) := by
  simp [Fin.getElem_fin]

theorem round_table : ∀ ir : Fin 24, ∀ z : Fin 64,
    (keccakConstants[ir.1]'ir.2)[z] = roundConstant ir.1 z := by
  decide +kernel

/-- Column parity word. -/
def Lanes.parity (A : Lanes) (x : Fin 5) : BitVec 64 :=
  (A[x.1]'(by omega)) ^^^ (A[5 + x.1]'(by omega)) ^^^ (A[10 + x.1]'(by omega)) ^^^
    (A[15 + x.1]'(by omega)) ^^^ (A[20 + x.1]'(by omega))

/-- Rotation offsets that appear in the code, by lane `5 y + x`. -/
def offsets : List Nat := [0, 1, 62, 28, 27, 36, 44, 6, 55, 20, 3, 10, 43, 25, 39, 41, 45, 15, 21, 8,
  18, 2, 61, 56, 14]

/-- `rotl`, where a rotation by zero is not written. -/
def rotl' (v : BitVec 64) : Nat → BitVec 64
  | 0 => v
  | n + 1 => v.rotateLeft (n + 1)

/-- Lane `(x, y)` after theta and rho. -/
def Lanes.thetaRho (A : Lanes) (x y : Fin 5) : BitVec 64 :=
  rotl' ((A[5 * y.1 + x.1]'(by omega)) ^^^
    ((A.parity (x + 1)).rotateLeft 1 ^^^ A.parity (x - 1))) (offsets.getD (5 * y.1 + x.1) 0)

/-- Lane `(x, y)` after theta, rho and pi. -/
def Lanes.B (A : Lanes) (x y : Fin 5) : BitVec 64 := A.thetaRho (x + 3 * y) x

theorem keccakRound_lane (A : Lanes) (c : BitVec 64) (x y : Fin 5) :
    (keccakRound A c)[5 * y.1 + x.1]'(by omega) =
      if x = 0 ∧ y = 0 then (A.B x y ^^^ (~~~(A.B (x + 1) y) &&& A.B (x + 2) y)) ^^^ c
      else A.B x y ^^^ (~~~(A.B (x + 1) y) &&& A.B (x + 2) y) := by
  fin_cases y <;> fin_cases x <;> rfl

theorem rho_table : ∀ x y : Fin 5,
    Fin.ofNat 64 (rhoOffset x y) = Fin.ofNat 64 (offsets.getD (5 * y.1 + x.1) 0) := by
  decide +kernel

theorem offsets_lt : ∀ x y : Fin 5, offsets.getD (5 * y.1 + x.1) 0 < 64 := by decide +kernel

theorem rotl'_bit (v : BitVec 64) (r : Nat) (hr : r < 64) (z : Fin 64) :
    (rotl' v r)[z] = v[z - Fin.ofNat 64 r] := by
  cases r with
  | zero =>
    have e : z - Fin.ofNat 64 0 = z := by
      apply Fin.ext
      have := z.2
      rw [Fin.sub_def]; simp
    simp only [e]; rfl
  | succ n => exact rotl_bit v (n + 1) hr z

theorem parity_bit (A : Lanes) (x : Fin 5) (z : Fin 64) : (A.parity x)[z] = column A.array x z := by
  unfold Lanes.parity column Lanes.array
  simp only [xor_bit]
  congr 2
  simp

theorem thetaRho_bit (A : Lanes) (x y : Fin 5) (z : Fin 64) :
    (A.thetaRho x y)[z] = rho (theta A.array) x y z := by
  unfold Lanes.thetaRho rho theta
  rw [rotl'_bit _ _ (offsets_lt x y), rho_table, xor_bit, xor_bit, rotl_bit _ _ (by omega),
    parity_bit, parity_bit, Bool.xor_comm (column _ _ _)]
  rfl

/-- One round. -/
theorem keccakRound_array (A : Lanes) (c : BitVec 64) (ir : Nat)
    (hc : ∀ z : Fin 64, c[z] = roundConstant ir z) :
    (keccakRound A c).array = round A.array ir := by
  have hB : ∀ x y z, (A.B x y)[z] = pi (rho (theta A.array)) x y z := fun x y z => thetaRho_bit _ _ _ _
  funext x y z
  show ((keccakRound A c)[5 * y.1 + x.1]'(by omega))[z] = _
  rw [keccakRound_lane]
  unfold Spec.Keccak.round iota chi
  split <;> simp only [xor_bit, and_bit, not_bit, hB, hc]

/-- The permutation. -/
theorem keccakPermute_array (A : Lanes) : (keccakPermute A).array = permutation A.array := by
  have key : ∀ n, n ≤ 24 → ((keccakConstants.take n).foldl keccakRound A).array =
      (List.range n).foldl Spec.Keccak.round A.array := by
    intro n
    induction n with
    | zero => intro _; rfl
    | succ n ih =>
      intro hn
      have hl : n < keccakConstants.length := hn
      rw [List.take_succ_eq_append_getElem hl, List.foldl_append, List.range_succ,
        List.foldl_append, ← ih (by omega)]
      exact keccakRound_array _ _ n (fun z => round_table ⟨n, hn⟩ z)
  exact key 24 (Nat.le_refl _)

end Verif
