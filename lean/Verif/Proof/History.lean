import Verif.Spec.History
import Verif.Proof.Accumulator
/- Programs over one accumulator compute a function of the fed stream. -/
namespace Verif

variable {σ δ : Type}

/-- The construction computes `H` on every represented message that satisfies `Good`. -/
def Computes (C : Construction σ δ) (Good : Bits → Prop) (H : Bits → δ) : Prop :=
  ∀ a m, Rep C a m → Good m → a.result C = .ok (H m)

theorem streamOf_nil (B : Nat) : streamOf B [] = [] := rfl

theorem streamOf_cons (B : Nat) (op : Op) (ops : List Op) :
    streamOf B (op :: ops) = op.stream B ++ streamOf B ops := by simp [streamOf]

/-- One update. -/
theorem Rep.step {C : Construction σ δ} {J : Injector} (hB : 0 < C.blockBits)
    (hw : 0 < C.wordBits) (hwB : C.wordBits ∣ C.blockBits) {a : Acc σ} {m : Bits} (h : Rep C a m)
    (op : Op) (hne : op ≠ .extract) (hwt : op.WellTyped C.blockBits)
    (hlen : Fits C (m ++ op.stream C.blockBits).length) :
    ∃ a1, (∀ out, op.run C J a out = .ok (a1, out)) ∧ Rep C a1 (m ++ op.stream C.blockBits) := by
  cases op with
  | feed E k cache0 xs =>
    obtain ⟨h1, h2, h3⟩ := hwt
    obtain ⟨a1, e1, r1⟩ := h.feed (J := J) hw hwB ⟨hB, h1, h2⟩ k cache0 xs h3 hlen
    refine ⟨a1, fun out => ?_, r1⟩
    simp only [Op.run]
    rw [e1]; rfl
  | block value bits =>
    obtain ⟨h1, h2⟩ := hwt
    by_cases h0 : bits = 0
    · subst h0
      obtain ⟨a1, e1, r1⟩ := h.pushBlock_zero (J := J) hB hw hwB h1
        (hlen.mono (by simp [Op.stream]; omega))
      refine ⟨a1, fun out => ?_, ?_⟩
      · simp only [Op.run]
        rw [e1]; rfl
      · simp only [Op.stream, if_true]
        rwa [List.take_of_length_le (by omega)]
    · simp only [Op.stream, if_neg h0] at hlen ⊢
      obtain ⟨a1, e1, r1⟩ := h.pushBlock (J := J) hw hwB (by omega) h2 h1
        (hlen.mono (by simp; omega))
      refine ⟨a1, fun out => ?_, r1⟩
      simp only [Op.run]
      rw [e1]; rfl
  | extract => exact absurd rfl hne

/-- Programs never fault if extraction never faults. -/
theorem runOps_ok {C : Construction σ δ} {J : Injector} (hB : 0 < C.blockBits)
    (hw : 0 < C.wordBits) (hwB : C.wordBits ∣ C.blockBits) {Good : Bits → Prop}
    (hC : ∀ a m, Rep C a m → Good m → ∃ d, a.result C = .ok d) (ops : List Op) :
    ∀ {a : Acc σ} {m : Bits} {out : List δ}, Rep C a m →
      (∀ op ∈ ops, op.WellTyped C.blockBits) →
      Fits C (m ++ streamOf C.blockBits ops).length →
      GoodExtracts C.blockBits Good m ops →
      ∃ a' out', runOps C J a out ops = .ok (a', out') ∧
        Rep C a' (m ++ streamOf C.blockBits ops) := by
  induction ops with
  | nil =>
    intro a m out h _ _ _
    exact ⟨a, out, by simp [runOps], by simpa [streamOf] using h⟩
  | cons op ops ih =>
    intro a m out h hwt hlen hgood
    have hwts : ∀ o ∈ ops, o.WellTyped C.blockBits := fun o ho => hwt o (by simp [ho])
    rw [streamOf_cons, ← List.append_assoc] at hlen ⊢
    by_cases hne : op = .extract
    · subst hne
      simp only [Op.stream, List.append_nil] at hlen ⊢
      obtain ⟨d, hd⟩ := hC a m h hgood.1
      obtain ⟨a2, o2, e2, r2⟩ := ih (out := out ++ [d]) h hwts hlen hgood.2
      refine ⟨a2, o2, ?_, r2⟩
      simp only [runOps, Op.run]
      rw [hd]
      exact e2
    · obtain ⟨a1, e1, r1⟩ := h.step (J := J) hB hw hwB op hne (hwt op (by simp))
        (hlen.mono (by simp))
      have hg' : GoodExtracts C.blockBits Good (m ++ op.stream C.blockBits) ops := by
        cases op with
        | extract => exact absurd rfl hne
        | feed => exact hgood
        | block => exact hgood
      obtain ⟨a2, o2, e2, r2⟩ := ih (out := out) r1 hwts hlen hg'
      refine ⟨a2, o2, ?_, r2⟩
      simp only [runOps]
      rw [e1]
      exact e2

/-- Running a program of updates and extractions. -/
theorem runOps_spec {C : Construction σ δ} {J : Injector} (hB : 0 < C.blockBits)
    (hw : 0 < C.wordBits) (hwB : C.wordBits ∣ C.blockBits) {Good : Bits → Prop} {H : Bits → δ}
    (hC : Computes C Good H) (ops : List Op) :
    ∀ {a : Acc σ} {m : Bits} {out : List δ}, Rep C a m →
      (∀ op ∈ ops, op.WellTyped C.blockBits) →
      Fits C (m ++ streamOf C.blockBits ops).length →
      GoodExtracts C.blockBits Good m ops →
      ∃ a', runOps C J a out ops = .ok (a', out ++ expected C.blockBits H m ops) ∧
        Rep C a' (m ++ streamOf C.blockBits ops) := by
  induction ops with
  | nil =>
    intro a m out h _ _ _
    exact ⟨a, by simp [runOps, expected], by simpa [streamOf] using h⟩
  | cons op ops ih =>
    intro a m out h hwt hlen hgood
    have hwts : ∀ o ∈ ops, o.WellTyped C.blockBits := fun o ho => hwt o (by simp [ho])
    rw [streamOf_cons, ← List.append_assoc] at hlen ⊢
    by_cases hne : op = .extract
    · subst hne
      simp only [Op.stream, List.append_nil] at hlen ⊢
      obtain ⟨a2, e2, r2⟩ := ih (out := out ++ [H m]) h hwts hlen hgood.2
      refine ⟨a2, ?_, r2⟩
      simp only [runOps, Op.run]
      rw [hC a m h hgood.1]
      simp only [expected]
      rw [List.append_assoc, List.singleton_append] at e2
      exact e2
    · obtain ⟨a1, e1, r1⟩ := h.step (J := J) hB hw hwB op hne (hwt op (by simp))
        (hlen.mono (by simp))
      have hg' : GoodExtracts C.blockBits Good (m ++ op.stream C.blockBits) ops ∧
          expected C.blockBits H m (op :: ops) =
            expected C.blockBits H (m ++ op.stream C.blockBits) ops := by
        cases op with
        | extract => exact absurd rfl hne
        | feed => exact ⟨hgood, rfl⟩
        | block => exact ⟨hgood, rfl⟩
      obtain ⟨a2, e2, r2⟩ := ih (out := out) r1 hwts hlen hg'.1
      refine ⟨a2, ?_, r2⟩
      simp only [runOps]
      rw [e1, hg'.2]
      exact e2

end Verif
