import Verif.Props.XmdIndifferentiable
import Verif.Proof.OracleFinder
/-
C114: collisions, preimages and second preimages of what is computed from the output of expand_message_xmd with a random hash function.
-/
namespace Verif.Props

open Spec Spec.Oracle Spec.Ideal Oracle Verif.Ideal

section
variable {b s k : Nat} {c : Fin k → XmdCall} {S : Finset (List Nat)} {A : Type}

theorem idealChance_le {Q I D M : Type} {V : M → Type} [Fintype M] [∀ m, Fintype (V m)] [∀ m, Nonempty (V m)] (msg : Q → M)
    (wrap : (q : Q) → V (msg q) → A) (Sim : HashSimulator M V I D) (P : Caller Q A I D) {ε : ℚ} (h0 : 0 ≤ ε)
    (h : ∀ t, haveI : DecidableEq M := Classical.decEq M
      (chance fun F : (m : M) → V m => (asker msg Sim wrap t P Sim.start).eval F = true) ≤ ε) : P.idealChance msg wrap Sim ≤ ε := by
  classical
  unfold Caller.idealChance
  letI := Sim.fintype
  rcases isEmpty_or_nonempty Sim.Coins with he | hne
  · refine le_trans (le_of_eq ?_) h0
    exact chance_none fun w => he.elim w.2
  · refine chance_le_of_snd fun t => ?_
    simp only [← eval_asker]
    have := h t
    convert this

instance : Nonempty (OctetString n) := ⟨fun _ => 0⟩

open Classical in
/-- A collision of what `G` computes from the outputs of two different calls. -/
theorem C114_collision (hc : Function.Injective c) (ha : ∀ j, Allowed b (c j)) {ell : Nat} (hL : ∀ j, (c j).ell ≤ ell) (hl : 0 < ell)
    (hb : 0 < b) (hS : ∀ j, Covers S b s (c j)) (G : Fin k → List Nat → A) {δ : ℚ} (h0 : 0 ≤ δ)
    (hδ : ∀ j t, (chance fun d : OctetString (b * (c j).ell) => G j d.toList = t) ≤ δ) (P : Finder S (Digest b) (Fin k × Fin k)) (N : Nat)
    (hP : P.AtMost N) :
    (chance fun H : Hash S b => (P.result H).1 ≠ (P.result H).2 ∧
        G (P.result H).1 (expandMessageXmd H.apply b s (c (P.result H).1).msg (c (P.result H).1).dst (b * (c (P.result H).1).ell)) =
          G (P.result H).2 (expandMessageXmd H.apply b s (c (P.result H).2).msg (c (P.result H).2).dst (b * (c (P.result H).2).ell))) ≤
      ((N + 2) * (N + 1) / 2 : ℚ) * (δ + ell / 256 ^ b) := by
  obtain ⟨Sim, hSim⟩ := C112_indifferentiable hc ha hL hl hb hS
  let last : Fin k × Fin k → Caller (Fin k) (List Nat) S (Digest b) := fun r =>
    .call r.1 fun x => .call r.2 fun y => .done (decide (r.1 ≠ r.2 ∧ G r.1 x = G r.2 y))
  have hlast : ∀ r n, 2 ≤ n → (last r).AtMost n := by
    intro r n hn
    obtain ⟨n, rfl⟩ : ∃ n', n = n' + 2 := ⟨n - 2, by omega⟩
    exact fun _ _ => trivial
  have hat := atMost_finish last 2 hlast P N hP
  have h1 := hSim (finish last P) (N + 2) hat
  have h2 : (finish last P).idealChance id (fun _ d => d.toList) Sim ≤ ((N + 2 : Nat) * ((N + 2 : Nat) - 1) / 2 : ℚ) * δ := by
    have hN : (0 : ℚ) ≤ ((N + 2 : Nat) * ((N + 2 : Nat) - 1) / 2 : ℚ) := by push_cast; rw [show (N + 2 - 1 : ℚ) = N + 1 by ring]; positivity
    refine idealChance_le _ _ _ _ (mul_nonneg hN h0) fun t => ?_
    have h3 := ask_collision (V := fun j => OctetString (b * (c j).ell)) (fun j d => G j d.toList) h0 hδ (N + 2)
      (asker id Sim (fun _ d => d.toList) t (finish last P) Sim.start) ∅ (fun _ _ => 0) (atMost_asker _ _ _ _ _ _ _ hat) (by simp) ?_
    · simp only [Finset.card_empty, Nat.cast_zero, mul_zero, zero_add] at h3
      convert h3
    · intro F hF
      have h4 := ideal_finish last id (fun _ d => d.toList) Sim F t
        (fun p => ∃ i j, p i ∧ p j ∧ i ≠ j ∧ G i (F i).toList = G j (F j).toList)
        (fun p q hpq ⟨i, j, hi, hj, h⟩ => ⟨i, j, hpq i hi, hpq j hj, h⟩)
        (fun r s' hr => ⟨r.1, r.2, Or.inl rfl, Or.inr (Or.inl rfl), of_decide_eq_true hr⟩) P Sim.start hF
      obtain ⟨i, j, hi, hj, hij, he⟩ := h4
      refine ⟨i, j, Or.inr hi, Or.inr hj, hij, ?_⟩
      simpa [over] using he
  have h5 : (chance fun H : Hash S b => (finish last P).real (fun j => expandMessageXmd H.apply b s (c j).msg (c j).dst (b * (c j).ell)) H = true) =
      chance fun H : Hash S b => (P.result H).1 ≠ (P.result H).2 ∧
        G (P.result H).1 (expandMessageXmd H.apply b s (c (P.result H).1).msg (c (P.result H).1).dst (b * (c (P.result H).1).ell)) =
          G (P.result H).2 (expandMessageXmd H.apply b s (c (P.result H).2).msg (c (P.result H).2).dst (b * (c (P.result H).2).ell)) := by
    congr 1
    funext H
    rw [real_finish]
    exact propext (decide_eq_true_iff)
  rw [h5] at h1
  have h6 := (abs_le.1 h1).2
  have e : ((N + 2 : Nat) * ((N + 2 : Nat) - 1) / 2 : ℚ) = (N + 2) * (N + 1) / 2 := by push_cast; ring
  rw [e] at h2 h6
  calc _ ≤ ((N + 2) * (N + 1) / 2 : ℚ) * ell / 256 ^ b + ((N + 2) * (N + 1) / 2 : ℚ) * δ := by linarith
    _ = _ := by ring

open Classical in
/-- A call whose output has a rare property. -/
theorem C114_hit (hc : Function.Injective c) (ha : ∀ j, Allowed b (c j)) {ell : Nat} (hL : ∀ j, (c j).ell ≤ ell) (hl : 0 < ell)
    (hb : 0 < b) (hS : ∀ j, Covers S b s (c j)) (hit : Fin k → List Nat → Prop) {δ : ℚ} (h0 : 0 ≤ δ)
    (hδ : ∀ j, (chance fun d : OctetString (b * (c j).ell) => hit j d.toList) ≤ δ) (P : Finder S (Digest b) (Fin k)) (N : Nat)
    (hP : P.AtMost N) :
    (chance fun H : Hash S b =>
        hit (P.result H) (expandMessageXmd H.apply b s (c (P.result H)).msg (c (P.result H)).dst (b * (c (P.result H)).ell))) ≤
      (N + 1) * δ + ((N + 1) * N / 2 : ℚ) * ell / 256 ^ b := by
  obtain ⟨Sim, hSim⟩ := C112_indifferentiable hc ha hL hl hb hS
  let last : Fin k → Caller (Fin k) (List Nat) S (Digest b) := fun r => .call r fun x => .done (decide (hit r x))
  have hlast : ∀ r n, 1 ≤ n → (last r).AtMost n := by
    intro r n hn
    obtain ⟨n, rfl⟩ : ∃ n', n = n' + 1 := ⟨n - 1, by omega⟩
    exact fun _ => trivial
  have hat := atMost_finish last 1 hlast P N hP
  have h1 := hSim (finish last P) (N + 1) hat
  have h2 : (finish last P).idealChance id (fun _ d => d.toList) Sim ≤ (N + 1 : Nat) * δ := by
    refine idealChance_le _ _ _ _ (mul_nonneg (Nat.cast_nonneg _) h0) fun t => ?_
    have h3 := ask_preimage (V := fun j => OctetString (b * (c j).ell)) (fun j d => hit j d.toList) True h0
      (fun j => by simpa using hδ j) (N + 1)
      (asker id Sim (fun _ d => d.toList) t (finish last P) Sim.start) (atMost_asker _ _ _ _ _ _ _ hat) ?_
    · convert h3
    · intro F hF
      obtain ⟨i, hi, he⟩ := ideal_finish last id (fun _ d => d.toList) Sim F t (fun p => ∃ i, p i ∧ hit i (F i).toList)
        (fun p q hpq ⟨i, hi, h⟩ => ⟨i, hpq i hi, h⟩)
        (fun r s' hr => ⟨r, Or.inl rfl, of_decide_eq_true hr⟩) P Sim.start hF
      exact ⟨i, hi, eq_true he⟩
  have h5 : (chance fun H : Hash S b => (finish last P).real (fun j => expandMessageXmd H.apply b s (c j).msg (c j).dst (b * (c j).ell)) H = true) =
      chance fun H : Hash S b =>
        hit (P.result H) (expandMessageXmd H.apply b s (c (P.result H)).msg (c (P.result H)).dst (b * (c (P.result H)).ell)) := by
    congr 1
    funext H
    rw [real_finish]
    exact propext (decide_eq_true_iff)
  rw [h5] at h1
  have h6 := (abs_le.1 h1).2
  have e : ((N + 1 : Nat) * ((N + 1 : Nat) - 1) / 2 : ℚ) = (N + 1) * N / 2 := by push_cast; ring
  rw [e] at h6
  push_cast at h2
  linarith

open Classical in
/-- A second call with what `G` computes from the output of the call `j`. -/
theorem C114_second (hc : Function.Injective c) (ha : ∀ j, Allowed b (c j)) {ell : Nat} (hL : ∀ j, (c j).ell ≤ ell) (hl : 0 < ell)
    (hb : 0 < b) (hS : ∀ j, Covers S b s (c j)) (G : Fin k → List Nat → A) {δ : ℚ} (h0 : 0 ≤ δ)
    (hδ : ∀ j t, (chance fun d : OctetString (b * (c j).ell) => G j d.toList = t) ≤ δ) (j : Fin k) (P : Finder S (Digest b) (Fin k)) (N : Nat)
    (hP : P.AtMost N) :
    (chance fun H : Hash S b => P.result H ≠ j ∧
        G (P.result H) (expandMessageXmd H.apply b s (c (P.result H)).msg (c (P.result H)).dst (b * (c (P.result H)).ell)) =
          G j (expandMessageXmd H.apply b s (c j).msg (c j).dst (b * (c j).ell))) ≤
      (N + 1) * δ + ((N + 2) * (N + 1) / 2 : ℚ) * ell / 256 ^ b := by
  obtain ⟨Sim, hSim⟩ := C112_indifferentiable hc ha hL hl hb hS
  let last : List Nat → Fin k → Caller (Fin k) (List Nat) S (Digest b) := fun y r =>
    .call r fun x => .done (decide (r ≠ j ∧ G r x = G j y))
  have hlast : ∀ y r n, 1 ≤ n → (last y r).AtMost n := by
    intro y r n hn
    obtain ⟨n, rfl⟩ : ∃ n', n = n' + 1 := ⟨n - 1, by omega⟩
    exact fun _ => trivial
  have hat := fun y => atMost_finish (last y) 1 (hlast y) P N hP
  let T : Caller (Fin k) (List Nat) S (Digest b) := .call j fun y => finish (last y) P
  have h1 := hSim T (N + 2) fun y => hat y
  have h2 : T.idealChance id (fun _ d => d.toList) Sim ≤ (N + 1 : Nat) * δ := by
    refine idealChance_le _ _ _ _ (mul_nonneg (Nat.cast_nonneg _) h0) fun t => ?_
    have h4 := ask_second (V := fun j => OctetString (b * (c j).ell)) (fun i d => G i d.toList) h0 hδ (N + 1) j
      (fun d => asker id Sim (fun _ d => d.toList) t (finish (last d.toList) P) Sim.start) (fun d => atMost_asker _ _ _ _ _ _ _ (hat _))
      fun d F hF => ideal_finish (last d.toList) id (fun _ d => d.toList) Sim F t
        (fun p => ∃ i, p i ∧ i ≠ j ∧ G i (F i).toList = G j d.toList) (fun p q hpq ⟨i, hi, h⟩ => ⟨i, hpq i hi, h⟩)
        (fun r s' hr => ⟨r, Or.inl rfl, of_decide_eq_true hr⟩) P Sim.start hF
    convert h4
    rfl
  have h5 : (chance fun H : Hash S b => T.real (fun j => expandMessageXmd H.apply b s (c j).msg (c j).dst (b * (c j).ell)) H = true) =
      chance fun H : Hash S b => P.result H ≠ j ∧
        G (P.result H) (expandMessageXmd H.apply b s (c (P.result H)).msg (c (P.result H)).dst (b * (c (P.result H)).ell)) =
          G j (expandMessageXmd H.apply b s (c j).msg (c j).dst (b * (c j).ell)) := by
    congr 1
    funext H
    show ((finish _ P).real _ _ = true) = _
    rw [real_finish]
    exact propext (decide_eq_true_iff)
  rw [h5] at h1
  have h6 := (abs_le.1 h1).2
  have e : ((N + 2 : Nat) * ((N + 2 : Nat) - 1) / 2 : ℚ) = (N + 2) * (N + 1) / 2 := by push_cast; ring
  rw [e] at h6
  push_cast at h2
  linarith

end
end Verif.Props
