import Verif.Proof.Accumulator
/- Pushing single words. -/
namespace Verif

open Spec

variable {σ δ : Type}

/-- Like `Rep`, but a completed block may not be marked as filled: good for extraction, not for
further pushes. -/
structure RepEnd (C : Construction σ δ) (a : Acc σ) (m : Bits) : Prop where
  cache_len : a.cache.length = C.blockBits
  total : a.total = wrap64 m.length
  small : Fits C m.length
  core : ∃ q, q * C.blockBits ≤ m.length ∧ m.length ≤ q * C.blockBits + C.blockBits ∧
    (q = 0 ∨ q * C.blockBits < m.length) ∧
    a.st = absorbed C m q ∧
    a.cache.take (m.length - q * C.blockBits) = m.drop (q * C.blockBits)

theorem Rep.toEnd {C : Construction σ δ} {a : Acc σ} {m : Bits} (h : Rep C a m) : RepEnd C a m := by
  obtain ⟨q, h1, h2, h3, _, h5, h6⟩ := h.core
  exact ⟨h.cache_len, h.total, h.small, q, h1, h2, h3, h5, h6⟩

/-- Extraction does not look at the `filled` flag. -/
theorem RepEnd.result {C : Construction σ δ} {a : Acc σ} {m : Bits} (h : RepEnd C a m) :
    ∃ a', Rep C a' m ∧ a.result C = a'.result C := by
  obtain ⟨q, h1, h2, h3, h5, h6⟩ := h.core
  refine ⟨{ a with filled := decide (m.length = q * C.blockBits + C.blockBits) },
    ⟨h.cache_len, h.total, h.small, q, h1, h2, h3, by simp, h5, h6⟩, rfl⟩

/-- One word push. -/
theorem Rep.pushWord {C : Construction σ δ} {J : Injector} {a : Acc σ} {m value : Bits} {bits : Nat}
    (h : Rep C a m) (hB : 0 < C.blockBits) (hw : 0 < C.wordBits) (hwB : C.wordBits ∣ C.blockBits)
    (hv : value.length = C.wordBits) (h0 : 0 < bits) (hb : bits ≤ C.wordBits)
    (hlen : Fits C (m.length + bits)) :
    ∃ a', a.pushWord C J value bits = .ok a' ∧ RepEnd C a' (m ++ value.take bits) ∧
      (¬ (m.length % C.wordBits = 0 ∧ (m.length + bits) % C.blockBits = 0) →
        Rep C a' (m ++ value.take bits)) := by
  have hf := h.flush hB
  unfold Acc.pushWord Acc.processWordValue
  have hb0 : ¬ bits = 0 := by omega
  simp only [if_neg hb0]
  generalize a.flush C = b at *
  have hmod : b.total % C.blockBits = m.length % C.blockBits := by rw [hf.total]; exact hf.small.mod
  have hmw : m.length % C.blockBits % C.wordBits = m.length % C.wordBits :=
    Nat.mod_mod_of_dvd _ hwB
  rw [hmod, hmw]
  by_cases hal : m.length % C.wordBits ≠ 0
  · rw [if_pos hal]
    have hne : m.length % C.blockBits ≠ 0 := by
      intro e; rw [e, Nat.zero_mod] at hmw; exact hal hmw.symm
    have hle : bits ≤ C.blockBits := Nat.le_trans hb (Nat.le_of_dvd hB hwB)
    obtain ⟨a', e, r⟩ := hf.append (J := J) (value := value) hne h0 (by omega) hle hlen
    exact ⟨a', e, r.toEnd, fun _ => r⟩
  · rw [if_neg hal]
    have hal : m.length % C.wordBits = 0 := by omega
    obtain ⟨q, h1, h2, h5, h6⟩ := hf.core
    have hcl := hf.cache_len
    have hmb : m.length % C.blockBits = m.length - q * C.blockBits := mod_of_between h1 h2
    have hc0 : (m.length - q * C.blockBits) % C.wordBits = 0 := by rw [← hmb, hmw, hal]
    have hdiv : m.length % C.blockBits / C.wordBits * C.wordBits = m.length - q * C.blockBits := by
      rw [hmb]; exact Nat.div_mul_cancel (Nat.dvd_of_mod_eq_zero hc0)
    rw [hdiv]
    have hfit : m.length - q * C.blockBits + C.wordBits ≤ C.blockBits := by
      obtain ⟨t, ht⟩ := Nat.dvd_of_mod_eq_zero hc0
      obtain ⟨k, hk⟩ := hwB
      have hlt : C.wordBits * t < C.wordBits * k := by rw [← ht, ← hk]; omega
      have htk : t < k := Nat.lt_of_mul_lt_mul_left hlt
      rw [ht, hk]
      calc C.wordBits * t + C.wordBits = C.wordBits * (t + 1) := by rw [Nat.mul_add]; omega
        _ ≤ C.wordBits * k := Nat.mul_le_mul_left _ htk
    rw [if_pos (by omega)]
    generalize hcc : m.length - q * C.blockBits = c at *
    have hcache : (b.cache.take c ++ value ++ b.cache.drop (c + value.length)).take (c + bits) =
        m.drop (q * C.blockBits) ++ value.take bits := by
      rw [List.append_assoc, List.take_append, List.length_take, Nat.min_eq_left (by omega),
        List.take_take, Nat.min_eq_right (by omega), h6, Nat.add_sub_cancel_left,
        List.take_append_of_le_length (by omega)]
    have hl1 : (m ++ value.take bits).length - q * C.blockBits = c + bits := by simp; omega
    have hend : RepEnd C { b with
        cache := b.cache.take c ++ value ++ b.cache.drop (c + value.length),
        total := wrap64 (b.total + bits) } (m ++ value.take bits) := by
      refine ⟨?_, ?_, ?_, q, ?_, ?_, ?_, ?_, ?_⟩
      · simp; omega
      · simp only; rw [hf.total, wrap64_add]; congr 1; simp; omega
      · exact hlen.mono (by simp; omega)
      · simp; omega
      · simp; omega
      · right; simp; omega
      · simp only; rw [h5, absorbed_append _ _ _ _ h1]
      · simp only
        rw [hl1, hcache, List.drop_append_of_le_length h1]
    refine ⟨_, rfl, hend, ?_⟩
    intro hno
    have hlt : c + bits < C.blockBits := by
      rcases Nat.lt_or_ge (c + bits) C.blockBits with hlt | hge
      · exact hlt
      · exfalso
        apply hno
        refine ⟨hal, ?_⟩
        have : m.length + bits = C.blockBits * (q + 1) := by
          rw [Nat.mul_comm, Nat.add_mul]; omega
        rw [this, Nat.mul_mod_right]
    refine ⟨hend.cache_len, hend.total, hend.small, q, ?_, ?_, ?_, ?_, ?_, ?_⟩
    · simp; omega
    · simp; omega
    · right; simp; omega
    · simp [hf.notFilled]; omega
    · simp only; rw [h5, absorbed_append _ _ _ _ h1]
    · simp only
      rw [hl1, hcache, List.drop_append_of_le_length h1]

/-- Pushing several words: correct if no push but the last completes a block at a word-aligned fill
level. -/
theorem Rep.pushWords {C : Construction σ δ} {J : Injector} (hB : 0 < C.blockBits)
    (hw : 0 < C.wordBits) (hwB : C.wordBits ∣ C.blockBits) (ws : List Bits) :
    ∀ {a : Acc σ} {m : Bits}, Rep C a m → (∀ v ∈ ws, v.length = C.wordBits) →
      (∀ k, k + 1 < ws.length → ¬ (m.length % C.wordBits = 0 ∧
        (m.length + (k + 1) * C.wordBits) % C.blockBits = 0)) →
      Fits C (m ++ ws.flatten).length →
      ∃ a', a.pushWords C J ws = .ok a' ∧ RepEnd C a' (m ++ ws.flatten) := by
  induction ws with
  | nil => intro a m h _ _ _; exact ⟨a, rfl, by simpa using h.toEnd⟩
  | cons v ws ih =>
    intro a m h hv hno hlen
    have hvl := hv v (by simp)
    have hf : Fits C (m.length + C.wordBits) := hlen.mono (by simp; omega)
    obtain ⟨a1, e1, r1, r1'⟩ := h.pushWord (J := J) (bits := C.wordBits) hB hw hwB hvl hw
      (Nat.le_refl _) hf
    rw [List.take_of_length_le (by omega)] at r1 r1'
    have e0 : a.pushWord C J v 0 = .ok a1 := by
      unfold Acc.pushWord at e1 ⊢
      rw [if_neg (by omega)] at e1
      rw [if_pos rfl]; exact e1
    cases ws with
    | nil =>
      refine ⟨a1, ?_, by simpa using r1⟩
      simp only [Acc.pushWords]; rw [e0]; rfl
    | cons v2 ws =>
      have hrep := r1' (by have := hno 0 (by simp); simpa using this)
      obtain ⟨a2, e2, r2⟩ := ih hrep (fun x hx => hv x (by simp [hx]))
        (by
          intro k hk
          have := hno (k + 1) (by simp at hk ⊢; omega)
          rw [List.length_append, hvl, Nat.add_mod_right, Nat.add_assoc m.length,
            show C.wordBits + (k + 1) * C.wordBits = (k + 1 + 1) * C.wordBits by
              rw [Nat.add_mul (k + 1)]; omega]
          exact this)
        (by simpa [Nat.add_assoc] using hlen)
      refine ⟨a2, ?_, by simpa using r2⟩
      simp only [Acc.pushWords]; rw [e0]; exact e2

end Verif
