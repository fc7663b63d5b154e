import Verif.Model.Poseidon
import Verif.Spec.Poseidon
/-
Lemmas on the loops of the Poseidon model.
-/
namespace Verif
open Spec.Poseidon

section
variable {F : Type} [CommRing F]

/-- A loop over all indices that rewrites entry `i` from its old value. -/
theorem foldl_update {α : Type} {t : Nat} (f : Fin t → α → α) (l : List (Fin t)) (hl : l.Nodup) (A : Fin t → α) :
    l.foldl (fun A i => Function.update A i (f i (A i))) A = fun i => if i ∈ l then f i (A i) else A i := by
  induction l generalizing A with
  | nil => simp
  | cons a l ih =>
    rw [List.nodup_cons] at hl
    rw [List.foldl_cons, ih hl.2]
    funext i
    by_cases hi : i = a
    · subst hi; simp [hl.1]
    · simp [hi]

theorem forWords_eq {α : Type} {t : Nat} (A : Fin t → α) (f : Fin t → α → α) :
    forWords A f = fun i => f i (A i) := by
  rw [forWords, foldl_update f _ (List.nodup_finRange t)]
  funext i; simp

theorem foldlM_ok {α β : Type} (f : β → α → Except Fault β) (g : β → α → β) (l : List α) (b : β)
    (h : ∀ b a, a ∈ l → f b a = .ok (g b a)) : l.foldlM f b = .ok (l.foldl g b) := by
  induction l generalizing b with
  | nil => rfl
  | cons a l ih =>
    rw [List.foldlM_cons, h b a (by simp), List.foldl_cons]
    exact ih _ fun b a ha => h b a (by simp [ha])

theorem addConstants_ok {t : Nat} (D : PoseidonData F t) (r : Nat) (hr : r < D.rounds) (A : Fin t → F) :
    addConstants D r A = .ok (A + D.rc r) := by
  rw [addConstants, foldlM_ok _ (fun A i => Function.update A i (A i + D.rc r i))]
  · congr 1
    rw [foldl_update (fun i x => x + D.rc r i) _ (List.nodup_finRange t)]
    funext i; simp
  · intro A i _; simp [PoseidonData.const, hr]

theorem addConstantsPow_ok {t : Nat} (D : PoseidonData F t) (e r : Nat) (hr : r < D.rounds) (A : Fin t → F) :
    addConstantsPow D e r A = .ok (fun i => (A i + D.rc r i) ^ e) := by
  rw [addConstantsPow, foldlM_ok _ (fun A i => Function.update A i ((A i + D.rc r i) ^ e))]
  · congr 1
    rw [foldl_update (fun i x => (x + D.rc r i) ^ e) _ (List.nodup_finRange t)]
    funext i; simp
  · intro A i _; simp [PoseidonData.const, hr]

theorem product_eq {t : Nat} (D : PoseidonData F t) (A : Fin t → F) :
    D.product A = (Matrix.of D.mds).mulVec A := by
  rw [PoseidonData.product, ← Matrix.vecMul_transpose]
  congr 1

theorem update_zero_eq {t : Nat} [NeZero t] (α : Nat) (A : Fin t → F) :
    Function.update A 0 (A 0 ^ α) = sbox α false A := by
  funext i
  by_cases hi : i = 0
  · subst hi; simp [sbox]
  · rw [Function.update_of_ne hi]
    have : i.val ≠ 0 := fun h => hi (Fin.ext (by simpa using h))
    simp [sbox, this]

theorem sbox_true {t : Nat} (α : Nat) (A : Fin t → F) : sbox α true A = fun i => A i ^ α := by
  funext i; simp [sbox]

/-- The round function that a policy selects, in the specification. -/
def PoseidonPolicy.specRound {t : Nat} (P : PoseidonPolicy) (D : PoseidonData F t) :
    Bool → Nat → (Fin t → F) → Fin t → F :=
  (if P.mina then roundMina else roundOrig) P.sboxPower (Matrix.of D.mds) D.rc

theorem fullRound_ok {t : Nat} [NeZero t] (P : PoseidonPolicy) (D : PoseidonData F t) (A : Fin t → F) (r : Nat)
    (hr : r < D.rounds) (h : r < P.halfFullRounds ∨ P.halfFullRounds + P.partRounds ≤ r) :
    fullRound P D A r = .ok (P.specRound D true r A) := by
  unfold fullRound PoseidonPolicy.specRound
  by_cases hm : P.mina
  · simp only [hm, if_true, fullRoundMina, forWords_eq, product_eq, addConstants_ok D r hr, ge_iff_le, h]
    simp [roundMina, sbox_true]
  · simp only [hm, Bool.false_eq_true, if_false, fullRoundOrig, product_eq, addConstantsPow_ok D _ r hr, ge_iff_le, h]
    simp [roundOrig, sbox_true]

theorem partRound_ok {t : Nat} [NeZero t] (P : PoseidonPolicy) (D : PoseidonData F t) (A : Fin t → F) (r : Nat)
    (hr : r < D.rounds) (h : P.halfFullRounds ≤ r ∧ r < P.halfFullRounds + P.partRounds) :
    partRound P D A r = .ok (P.specRound D false r A) := by
  unfold partRound PoseidonPolicy.specRound
  by_cases hm : P.mina
  · simp only [hm, if_true, partRoundMina, update_zero_eq, product_eq, addConstants_ok D r hr, ge_iff_le, h]
    simp [roundMina]
  · simp only [hm, Bool.false_eq_true, if_false, partRoundOrig, product_eq, addConstants_ok D r hr, ge_iff_le, h]
    simp only [roundOrig, ← update_zero_eq]
    rfl

theorem roundLoop_ok {α : Type} (step : α → Nat → Except Fault α) (g : Nat → α → α) (n : Nat) (A : α) (r : Nat)
    (h : ∀ A k, r ≤ k → k < r + n → step A k = .ok (g k A)) :
    roundLoop step n (A, r) = .ok ((List.range' r n).foldl (fun A k => g k A) A, r + n) := by
  induction n generalizing A r with
  | zero => rfl
  | succ n ih =>
    rw [roundLoop, h A r (by omega) (by omega), List.range'_succ, List.foldl_cons]
    show roundLoop step n (g r A, r + 1) = _
    rw [ih _ _ fun A k h1 h2 => h A k (by omega) (by omega)]
    congr 2; omega

/-- `permute` never fails and is the permutation of the specification. -/
theorem poseidonPermute_ok {t : Nat} [NeZero t] (P : PoseidonPolicy) (D : PoseidonData F t)
    (hD : P.fullRounds + P.partRounds ≤ D.rounds) (A : Fin t → F) :
    poseidonPermute P D A = .ok (perm (P.specRound D) P.fullRounds P.partRounds A) := by
  have hh : P.halfFullRounds = P.fullRounds / 2 := by simp [PoseidonPolicy.halfFullRounds, Nat.shiftRight_eq_div_pow]
  have hle : P.fullRounds / 2 ≤ P.fullRounds := Nat.div_le_self _ _
  rw [poseidonPermute, roundLoop_ok _ (P.specRound D true)]
  · show (do
      let s ← roundLoop (partRound P D) P.partRounds _
      let s ← roundLoop (fullRound P D) (P.fullRounds - P.halfFullRounds) s
      pure s.1) = _
    rw [roundLoop_ok _ (P.specRound D false)]
    · show (do
        let s ← roundLoop (fullRound P D) (P.fullRounds - P.halfFullRounds) _
        pure s.1) = _
      rw [roundLoop_ok _ (P.specRound D true)]
      · show Except.ok _ = Except.ok _
        congr 1
        rw [perm, List.range_eq_range', hh]
        rw [show P.fullRounds + P.partRounds
          = P.fullRounds / 2 + (P.partRounds + (P.fullRounds - P.fullRounds / 2)) by omega,
          ← List.range'_append_1, ← List.range'_append_1, List.foldl_append, List.foldl_append]
        rw [show (0 + P.fullRounds / 2 + P.partRounds) = P.fullRounds / 2 + P.partRounds by omega,
          show (0 + P.fullRounds / 2) = P.fullRounds / 2 by omega]
        have e1 : ∀ A : Fin t → F, (List.range' 0 (P.fullRounds / 2)).foldl
            (fun x r => P.specRound D (decide (r < P.fullRounds / 2 ∨ P.fullRounds / 2 + P.partRounds ≤ r)) r x) A
            = (List.range' 0 (P.fullRounds / 2)).foldl (fun A k => P.specRound D true k A) A := by
          intro A
          refine List.foldl_ext _ _ _ fun A k hk => ?_
          rw [List.mem_range'_1] at hk
          rw [decide_eq_true (by omega)]
        have e2 : ∀ A : Fin t → F, (List.range' (P.fullRounds / 2) P.partRounds).foldl
            (fun x r => P.specRound D (decide (r < P.fullRounds / 2 ∨ P.fullRounds / 2 + P.partRounds ≤ r)) r x) A
            = (List.range' (P.fullRounds / 2) P.partRounds).foldl (fun A k => P.specRound D false k A) A := by
          intro A
          refine List.foldl_ext _ _ _ fun A k hk => ?_
          rw [List.mem_range'_1] at hk
          rw [decide_eq_false (by omega)]
        have e3 : ∀ A : Fin t → F, (List.range' (P.fullRounds / 2 + P.partRounds) (P.fullRounds - P.fullRounds / 2)).foldl
            (fun x r => P.specRound D (decide (r < P.fullRounds / 2 ∨ P.fullRounds / 2 + P.partRounds ≤ r)) r x) A
            = (List.range' (P.fullRounds / 2 + P.partRounds) (P.fullRounds - P.fullRounds / 2)).foldl
              (fun A k => P.specRound D true k A) A := by
          intro A
          refine List.foldl_ext _ _ _ fun A k hk => ?_
          rw [List.mem_range'_1] at hk
          rw [decide_eq_true (by omega)]
        rw [e1, e2, e3]
      · intro A k h1 h2
        exact fullRound_ok P D A k (by omega) (Or.inr (by omega))
    · intro A k h1 h2
      exact partRound_ok P D A k (by omega) ⟨by omega, by omega⟩
  · intro A k h1 h2
    exact fullRound_ok P D A k (by omega) (Or.inl (by omega))

end
end Verif
