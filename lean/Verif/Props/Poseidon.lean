import Mathlib.FieldTheory.Finite.Basic
import Mathlib.LinearAlgebra.Matrix.NonsingularInverse
import Mathlib.LinearAlgebra.Matrix.Determinant.Basic
import Mathlib.Algebra.Field.ZMod
import Mathlib.Tactic.NormNum.Prime
import Verif.Proof.Poseidon
/-
C43 (the permutation is a bijection and the one of the paper).
-/
namespace Verif.Props
open Spec.Poseidon

section
variable {F : Type} [Field F] [Fintype F]

/-- `x ↦ x ^ e` permutes a finite field when `e` is coprime to the order of the multiplicative group. -/
theorem pow_bijective (e : Nat) (he : 0 < e) (hc : Nat.Coprime e (Fintype.card F - 1)) :
    Function.Bijective (fun x : F => x ^ e) := by
  classical
  refine Function.Injective.bijective_of_finite ?_
  intro x y h
  simp only at h
  by_cases hx : x = 0
  · subst hx
    rw [zero_pow (by omega)] at h
    exact (pow_eq_zero_iff (by omega)).1 h.symm |>.symm
  by_cases hy : y = 0
  · subst hy
    rw [zero_pow (by omega)] at h
    exact (pow_eq_zero_iff (by omega)).1 h
  have hcard : (Nat.card Fˣ).Coprime e := by
    rw [Nat.card_eq_fintype_card, Fintype.card_units]; exact hc.symm
  have := (powCoprime hcard).injective (a₁ := Units.mk0 x hx) (a₂ := Units.mk0 y hy)
    (by simp only [powCoprime_apply]; ext; simpa using h)
  simpa using congrArg Units.val this

theorem sbox_injective {t : Nat} (e : Nat) (he : 0 < e) (hc : Nat.Coprime e (Fintype.card F - 1)) (full : Bool) :
    Function.Injective (sbox (F := F) (t := t) e full) := by
  intro x y h
  funext i
  have hi := congrFun h i
  unfold sbox at hi
  split at hi
  · exact (pow_bijective e he hc).1 hi
  · exact hi

theorem mulVec_injective {t : Nat} (M : Matrix (Fin t) (Fin t) F) (hM : M.det ≠ 0) :
    Function.Injective M.mulVec := by
  have hu : IsUnit M := (Matrix.isUnit_iff_isUnit_det M).2 (isUnit_iff_ne_zero.2 hM)
  exact Matrix.mulVec_injective_of_isUnit hu

theorem specRound_injective {t : Nat} (P : PoseidonPolicy) (D : PoseidonData F t) (he : 0 < P.sboxPower)
    (hc : Nat.Coprime P.sboxPower (Fintype.card F - 1)) (hM : (Matrix.of D.mds).det ≠ 0) (full : Bool) (r : Nat) :
    Function.Injective (P.specRound D full r) := by
  intro x y h
  unfold PoseidonPolicy.specRound at h
  split at h
  · exact sbox_injective _ he hc full (mulVec_injective _ hM (add_right_cancel h))
  · exact add_right_cancel (sbox_injective _ he hc full (mulVec_injective _ hM h))

theorem foldl_injective {α β : Type} (f : α → β → α) (hf : ∀ b, Function.Injective (fun a => f a b)) (l : List β) :
    Function.Injective (fun a => l.foldl f a) := by
  induction l with
  | nil => intro a b h; exact h
  | cons c l ih => intro a b h; exact hf c (ih h)

end

/-- **C43, the function.** `permute` never fails an assertion nor reads past the constants table, and computes the
permutation of the specification, for every policy, table of that many rounds and state. -/
theorem C43_permutation {F : Type} [CommRing F] {t : Nat} [NeZero t] (P : PoseidonPolicy) (D : PoseidonData F t)
    (hD : P.fullRounds + P.partRounds ≤ D.rounds) (A : Fin t → F) :
    poseidonPermute P D A = .ok (perm
      ((if P.mina then roundMina else roundOrig) P.sboxPower (Matrix.of D.mds) D.rc) P.fullRounds P.partRounds A) :=
  poseidonPermute_ok P D hD A

/-- **C43.** When the S-box exponent is coprime to the order of the multiplicative group and the matrix is invertible,
`permute` is a bijection on states, in both round orders, for every constants table and all round counts. -/
theorem C43_bijective {F : Type} [Field F] [Fintype F] {t : Nat} [NeZero t] (P : PoseidonPolicy)
    (D : PoseidonData F t) (hD : P.fullRounds + P.partRounds ≤ D.rounds) (he : 0 < P.sboxPower)
    (hc : Nat.Coprime P.sboxPower (Fintype.card F - 1)) (hM : (Matrix.of D.mds).det ≠ 0) :
    ∃ f : (Fin t → F) → (Fin t → F), Function.Bijective f ∧ ∀ A, poseidonPermute P D A = .ok (f A) := by
  refine ⟨_, ?_, poseidonPermute_ok P D hD⟩
  refine Function.Injective.bijective_of_finite ?_
  exact foldl_injective _ (fun r => specRound_injective P D he hc hM _ r) _

theorem foldlM_no_assertion {α β : Type} (f : α → β → Except Fault α) (hf : ∀ a b, f a b ≠ .error .assertion) (l : List β)
    (a : α) : l.foldlM f a ≠ .error .assertion := by
  induction l generalizing a with
  | nil => intro h; cases h
  | cons b l ih =>
    rw [List.foldlM_cons]
    cases h : f a b with
    | error e => intro h'; cases h'; exact hf a b h
    | ok a' => exact ih a'

theorem const_no_assertion {F : Type} {t : Nat} (D : PoseidonData F t) (r : Nat) (i : Fin t) {α : Type} (g : F → α) :
    (do let c ← D.const r i; pure (g c) : Except Fault α) ≠ .error .assertion := by
  unfold PoseidonData.const
  split <;> intro h <;> cases h

/-- C43, the asserts: a round function aborts exactly when it is called with the number of a round of the other kind. -/
theorem C43_assertions {F : Type} [CommRing F] {t : Nat} [NeZero t] (P : PoseidonPolicy) (D : PoseidonData F t)
    (A : Fin t → F) (r : Nat) :
    (fullRound P D A r = .error .assertion ↔ P.halfFullRounds ≤ r ∧ r < P.halfFullRounds + P.partRounds) ∧
    (partRound P D A r = .error .assertion ↔ r < P.halfFullRounds ∨ P.halfFullRounds + P.partRounds ≤ r) := by
  have h1 : ∀ B, addConstants D r B ≠ .error .assertion := fun B =>
    foldlM_no_assertion _ (fun A i => const_no_assertion D r i _) _ B
  have h2 : ∀ e B, addConstantsPow D e r B ≠ .error .assertion := fun e B =>
    foldlM_no_assertion _ (fun A i => const_no_assertion D r i fun c =>
      Function.update (Function.update A i (A i + c)) i (Function.update A i (A i + c) i ^ e)) _ B
  have h3 : ∀ (x : Except Fault (Fin t → F)) (g : (Fin t → F) → (Fin t → F)), x ≠ .error .assertion →
      (x >>= fun a => pure (g a)) ≠ .error .assertion := by
    intro x g hx h
    cases x with
    | error e => cases h; exact hx rfl
    | ok a => cases h
  unfold fullRound partRound fullRoundMina fullRoundOrig partRoundMina partRoundOrig
  constructor
  · by_cases h : r < P.halfFullRounds ∨ r ≥ P.halfFullRounds + P.partRounds
    · refine ⟨fun e => ?_, fun e => by omega⟩
      simp only [if_pos h] at e
      split at e
      · exact absurd e (h1 _)
      · exact absurd e (h3 _ _ (h2 _ _))
    · refine ⟨fun _ => by omega, fun _ => ?_⟩
      simp only [if_neg h]
      split <;> rfl
  · by_cases h : r ≥ P.halfFullRounds ∧ r < P.halfFullRounds + P.partRounds
    · refine ⟨fun e => ?_, fun e => by omega⟩
      simp only [if_pos h] at e
      split at e
      · exact absurd e (h1 _)
      · exact absurd e (h3 _ _ (h1 _))
    · refine ⟨fun _ => by omega, fun _ => ?_⟩
      simp only [if_neg h]
      split <;> rfl

/-- Round 1 of two full and two partial rounds is partial, round 3 full. -/
example : fullRound (F := ZMod 13) (t := 2) ⟨1, 1, 5, 2, 2, false⟩ ⟨fun i j => if i = j then 2 else 1, 4, fun r i => (r + i.val : Nat)⟩
      (fun _ => 1) 1 = .error .assertion ∧
    partRound (F := ZMod 13) (t := 2) ⟨1, 1, 5, 2, 2, true⟩ ⟨fun i j => if i = j then 2 else 1, 4, fun r i => (r + i.val : Nat)⟩
      (fun _ => 1) 3 = .error .assertion :=
  ⟨(C43_assertions _ _ _ _).1.2 (by decide), (C43_assertions _ _ _ _).2.2 (by decide)⟩

/-- **C43, as stated.** Different states are taken to different states. -/
theorem C43_injective {F : Type} [Field F] [Fintype F] {t : Nat} [NeZero t] (P : PoseidonPolicy)
    (D : PoseidonData F t) (hD : P.fullRounds + P.partRounds ≤ D.rounds) (he : 0 < P.sboxPower)
    (hc : Nat.Coprime P.sboxPower (Fintype.card F - 1)) (hM : (Matrix.of D.mds).det ≠ 0)
    (A B : Fin t → F) (h : poseidonPermute P D A = poseidonPermute P D B) : A = B := by
  obtain ⟨f, hf, e⟩ := C43_bijective P D hD he hc hM
  rw [e, e] at h
  exact hf.1 (Except.ok.inj h)

/-- Both conditions are needed: in the field with 11 elements the exponent 5 divides 10, and the permutation with no
rounds other than one full one is not injective. -/
example : poseidonPermute (F := ZMod 11) (t := 1) ⟨0, 1, 5, 1, 0, false⟩ ⟨fun _ _ => 1, 1, fun _ _ => 0⟩ (fun _ => 1)
    = poseidonPermute (F := ZMod 11) (t := 1) ⟨0, 1, 5, 1, 0, false⟩ ⟨fun _ _ => 1, 1, fun _ _ => 0⟩ (fun _ => 3) := by
  rw [C43_permutation _ _ (by decide), C43_permutation _ _ (by decide)]
  congr 1

instance : Fact (Nat.Prime 13) := ⟨by norm_num⟩

/-- The hypotheses hold for a policy of two full and two partial rounds over the field with 13 elements. -/
example : ∃ f : (Fin 2 → ZMod 13) → (Fin 2 → ZMod 13), Function.Bijective f ∧
    ∀ A, poseidonPermute (F := ZMod 13) (t := 2) ⟨1, 1, 5, 2, 2, false⟩
      ⟨fun i j => if i = j then 2 else 1, 4, fun r i => (r + i.val : Nat)⟩ A = .ok (f A) :=
  C43_bijective _ _ (by decide) (by decide) (by rw [ZMod.card]; decide)
    (by rw [Matrix.det_fin_two]; decide)

end Verif.Props
