import Verif.Spec.WordOps
import Verif.Proof.Words
import Verif.Proof.Generic
/- Programs that push single words. -/
namespace Verif

open Spec

variable {σ δ : Type} {C : Construction σ δ} {Good : Bits → Prop} {H : Bits → δ}

theorem wstreamOf_cons (B w : Nat) (op : WOp) (ops : List WOp) :
    wstreamOf B w (op :: ops) = op.stream B w ++ wstreamOf B w ops := by simp [wstreamOf]

/-- A word push of any number of bits. -/
theorem Rep.pushWord' {J : Injector} {a : Acc σ} {m value : Bits} {bits : Nat}
    (h : Rep C a m) (hB : 0 < C.blockBits) (hw : 0 < C.wordBits) (hwB : C.wordBits ∣ C.blockBits)
    (hv : value.length = C.wordBits) (hb : bits ≤ C.wordBits)
    (hlen : Fits C (m.length + announced C.wordBits bits)) :
    ∃ a', a.pushWord C J value bits = .ok a' ∧
      RepEnd C a' (m ++ value.take (announced C.wordBits bits)) ∧
      (¬ (m.length % C.wordBits = 0 ∧ (m.length + announced C.wordBits bits) % C.blockBits = 0) →
        Rep C a' (m ++ value.take (announced C.wordBits bits))) := by
  have e0 : a.pushWord C J value bits = a.pushWord C J value (announced C.wordBits bits) := by
    unfold Acc.pushWord announced
    by_cases h0 : bits = 0
    · simp only [if_pos h0, if_neg (show ¬ C.wordBits = 0 by omega)]
    · simp only [if_neg h0]
  rw [e0]
  have hpos : 0 < announced C.wordBits bits := by unfold announced; split <;> omega
  have hle : announced C.wordBits bits ≤ C.wordBits := by unfold announced; split <;> omega
  exact h.pushWord (J := J) hB hw hwB hv hpos hle hlen

/-- Only extractions: the accumulator stays. -/
theorem runWOps_extracts (V : Verified C Good H) (J : Injector) {a : Acc σ} {m : Bits}
    (h : RepEnd C a m) (ops : List WOp) (hops : ∀ o ∈ ops, o = .op .extract) :
    ∀ out, WGoodExtracts C.blockBits C.wordBits Good m ops →
      runWOps C J a out ops =
        .ok (a, out ++ wexpected C.blockBits C.wordBits H m ops) ∧
      wstreamOf C.blockBits C.wordBits ops = [] := by
  induction ops with
  | nil => intro out _; exact ⟨by simp [runWOps, wexpected], rfl⟩
  | cons o ops ih =>
    intro out hg
    have ho := hops o (by simp)
    subst ho
    obtain ⟨a', r, e⟩ := h.result
    have hd : a.result C = .ok (H m) := by rw [e]; exact V.computes a' m r hg.1
    obtain ⟨e1, e2⟩ := ih (fun o ho => hops o (by simp [ho])) (out ++ [H m]) hg.2
    refine ⟨?_, by rw [wstreamOf_cons, e2]; rfl⟩
    simp only [runWOps, WOp.run, Op.run]
    rw [hd]
    refine e1.trans ?_
    simp [wexpected]

/-- Running a program of updates, word pushes and extractions. -/
theorem Verified.runW (V : Verified C Good H) (J : Injector) (ops : List WOp) :
    ∀ {a : Acc σ} {m : Bits} {out : List δ}, Rep C a m →
      (∀ op ∈ ops, op.WellTyped C.blockBits C.wordBits) →
      Fits C (m ++ wstreamOf C.blockBits C.wordBits ops).length →
      WGoodExtracts C.blockBits C.wordBits Good m ops →
      NoAlignedFill C.blockBits C.wordBits m ops →
      ∃ a', runWOps C J a out ops =
          .ok (a', out ++ wexpected C.blockBits C.wordBits H m ops) ∧
        RepEnd C a' (m ++ wstreamOf C.blockBits C.wordBits ops) := by
  induction ops with
  | nil =>
    intro a m out h _ _ _ _
    exact ⟨a, by simp [runWOps, wexpected], by simpa [wstreamOf] using h.toEnd⟩
  | cons op ops ih =>
    intro a m out h hwt hlen hgood hsafe
    have hwts : ∀ o ∈ ops, o.WellTyped C.blockBits C.wordBits := fun o ho => hwt o (by simp [ho])
    rw [wstreamOf_cons, ← List.append_assoc] at hlen ⊢
    cases op with
    | op o =>
      by_cases hne : o = .extract
      · subst hne
        simp only [WOp.stream, Op.stream, List.append_nil] at hlen ⊢
        obtain ⟨a2, e2, r2⟩ := ih (out := out ++ [H m]) h hwts hlen hgood.2
          (by simpa [NoAlignedFill, Op.stream] using hsafe)
        refine ⟨a2, ?_, r2⟩
        simp only [runWOps, WOp.run, Op.run]
        rw [V.computes a m h hgood.1]
        refine Eq.trans ?_ (e2.trans ?_)
        · rfl
        · simp [wexpected]
      · obtain ⟨a1, e1, r1⟩ := h.step (J := J) V.block V.word V.wordBlock o hne
          (hwt (.op o) (by simp)) (hlen.mono (by simp [WOp.stream]))
        have hg' : WGoodExtracts C.blockBits C.wordBits Good (m ++ o.stream C.blockBits) ops ∧
            wexpected C.blockBits C.wordBits H m (.op o :: ops) =
              wexpected C.blockBits C.wordBits H (m ++ o.stream C.blockBits) ops := by
          cases o with
          | extract => exact absurd rfl hne
          | feed => exact ⟨hgood, rfl⟩
          | block => exact ⟨hgood, rfl⟩
        obtain ⟨a2, e2, r2⟩ := ih (out := out) r1 hwts hlen hg'.1 hsafe
        refine ⟨a2, ?_, r2⟩
        simp only [runWOps, WOp.run]
        rw [e1, hg'.2]
        exact e2
    | word value bits =>
      obtain ⟨hv, hb⟩ := hwt (.word value bits) (by simp)
      have hl : (value.take (announced C.wordBits bits)).length = announced C.wordBits bits := by
        rw [List.length_take, hv]; unfold announced; split <;> omega
      obtain ⟨a1, e1, rE, rR⟩ := h.pushWord' (J := J) V.block V.word V.wordBlock hv hb
        (hlen.mono (by simp only [WOp.stream, List.length_append, hl]; omega))
      by_cases hal : m.length % C.wordBits = 0 ∧
          (m.length + announced C.wordBits bits) % C.blockBits = 0
      · obtain ⟨e2, e3⟩ := runWOps_extracts V J rE ops (hsafe.1 hal) out hgood
        refine ⟨a1, ?_, ?_⟩
        · simp only [runWOps, WOp.run]
          rw [e1]
          exact e2
        · rw [e3, List.append_nil]; exact rE
      · obtain ⟨a2, e2, r2⟩ := ih (out := out) (rR hal) hwts hlen hgood hsafe.2
        refine ⟨a2, ?_, r2⟩
        simp only [runWOps, WOp.run]
        rw [e1]
        exact e2

/-- Pushes of less than a word never meet the exception. -/
theorem noAlignedFill_partial {B w : Nat} (hwB : w ∣ B) (ops : List WOp)
    (h : ∀ v n, WOp.word v n ∈ ops → 0 < n ∧ n < w) : ∀ m, NoAlignedFill B w m ops := by
  induction ops with
  | nil => intro m; trivial
  | cons op ops ih =>
    intro m
    have ih := ih (fun v n hh => h v n (by simp [hh]))
    cases op with
    | op o => exact ih _
    | word v n =>
      obtain ⟨h1, h2⟩ := h v n (by simp)
      refine ⟨?_, ih _⟩
      rintro ⟨k1, k2⟩
      exfalso
      have ha : announced w n = n := if_neg (by omega)
      rw [ha] at k2
      have h3 : (m.length + n) % w = 0 :=
        Nat.mod_eq_zero_of_dvd (Nat.dvd_trans hwB (Nat.dvd_of_mod_eq_zero k2))
      rw [Nat.add_mod, k1, Nat.zero_add, Nat.mod_mod, Nat.mod_eq_of_lt h2] at h3
      omega

end Verif
