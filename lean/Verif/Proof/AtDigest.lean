import Verif.Proof.Accumulator
import Verif.Proof.Blocks
/- What `digest` finds when it is called on an accumulator that represents `m`. -/
namespace Verif

open Spec

variable {σ δ : Type}

/-- After the "process block if it is full" step of `digest`, the state has absorbed all full blocks and
the rest is at the front of the cache. -/
theorem Rep.atDigest {C : Construction σ δ} (hB : 0 < C.blockBits) {a : Acc σ} {m : Bits}
    (h : Rep C a m) : ∃ q, q * C.blockBits ≤ m.length ∧ m.length < q * C.blockBits + C.blockBits ∧
      (if m.length ≠ 0 ∧ m.length % C.blockBits = 0
        then C.processBlock a.st a.cache (wrap64 m.length) else a.st) = absorbed C m q ∧
      a.cache.take (m.length % C.blockBits) = m.drop (q * C.blockBits) ∧
      m.length % C.blockBits = m.length - q * C.blockBits := by
  obtain ⟨q, h1, h2, h3, h4, h5, h6⟩ := h.core
  have hcl := h.cache_len
  by_cases hf : m.length = q * C.blockBits + C.blockBits
  · have hmod : m.length % C.blockBits = 0 := by
      rw [hf, Nat.add_mod_right, Nat.mul_mod_left]
    have hq : (q + 1) * C.blockBits = m.length := by rw [Nat.add_mul]; omega
    refine ⟨q + 1, by omega, by omega, ?_, ?_, by omega⟩
    · rw [if_pos ⟨by omega, hmod⟩, h5]
      simp only [absorbed]
      have hc : a.cache = block C.blockBits m q := by
        unfold block
        rw [← h6, List.take_take, hf, List.take_of_length_le]
        rw [hcl]; omega
      rw [hc, hq]
    · rw [hmod, List.take_zero, List.drop_of_length_le (by omega)]
  · have hmod : m.length % C.blockBits = m.length - q * C.blockBits :=
      mod_of_between h1 (by omega)
    refine ⟨q, h1, by omega, ?_, ?_, hmod⟩
    · rw [if_neg, h5]
      rintro ⟨hne, h0⟩
      rcases h3 with h3 | h3
      · subst h3; omega
      · omega
    · rw [hmod, h6]

/-- The absorbed state is a fold if the counter is ignored. -/
theorem absorbed_eq_foldl (C : Construction σ δ) (f : σ → Bits → σ)
    (hf : ∀ s b n, C.processBlock s b n = f s b) (hB : 0 < C.blockBits) (m : Bits) :
    ∀ q, q * C.blockBits ≤ m.length → absorbed C m q =
      (blocks C.blockBits (m.take (q * C.blockBits))).foldl f C.init := by
  intro q
  induction q with
  | zero => intro _; simp [absorbed, blocks]
  | succ q ih =>
    intro hq
    rw [Nat.add_mul] at hq
    simp only [absorbed]
    rw [ih (by omega)]
    have e : m.take ((q + 1) * C.blockBits) =
        m.take (q * C.blockBits) ++ block C.blockBits m q := by
      rw [Nat.add_mul, Nat.one_mul, List.take_add]; rfl
    have hl : (block C.blockBits m q).length = C.blockBits := by simp [block]; omega
    rw [e, blocks_append hB, List.foldl_append, blocks_single hB hl]
    · simp [hf]
    · rw [List.length_take, Nat.min_eq_left (by omega)]; exact ⟨q, Nat.mul_comm _ _⟩

theorem take_blocks_length {B q : Nat} {m : Bits} (h : q * B ≤ m.length) :
    B ∣ (m.take (q * B)).length := by
  rw [List.length_take, Nat.min_eq_left h]; exact ⟨q, Nat.mul_comm _ _⟩

end Verif
