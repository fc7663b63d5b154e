import Verif.Proof.MDHistory
/- Extraction from a Merkle–Damgård accumulator never faults. -/
namespace Verif

open Spec

variable {σ : Type} {h : MDHash}

theorem MDInst.result_ok (I : MDInst h σ) (J : Injector) {a : Acc σ} {m : Bits}
    (hrep : Rep (I.C J) a m) (hm : (standard h).marker.length ∣ m.length) :
    ∃ d, a.result (I.C J) = .ok d := by
  have hdig : h.policy.digestBits / h.policy.wordBits * h.policy.wordBits = h.policy.digestBits := by
    cases h <;> decide
  have hle : h.policy.digestBits ≤ h.policy.stateBits := by cases h <;> decide
  have hwL : h.policy.wordBits ∣ h.policy.lengthBits := by cases h <;> decide
  have V := policy_valid h I.iv I.compress I.view I.digest0
  have hmark := policy_mark h I.iv I.compress I.view I.digest0
  have hml := MD.length_mark _ V
  have hB : 0 < h.policy.blockBits := V.block
  have hcl : a.cache.length = h.policy.blockBits := hrep.cache_len
  have hmod : a.total % h.policy.blockBits = m.length % h.policy.blockBits := by
    rw [hrep.total]; exact hrep.small.mod
  have hfit : a.total % h.policy.blockBits + h.policy.markBits ≤ h.policy.blockBits := by
    rw [hmod]
    have hmb : (standard h).marker.length = h.policy.markBits := by rw [← hmark, hml]; rfl
    rw [hmb] at hm
    have hd : h.policy.markBits ∣ m.length % h.policy.blockBits := by
      exact (Nat.dvd_mod_iff (k := h.policy.markBits) V.markBlock).2 hm
    obtain ⟨t, ht⟩ := hd
    obtain ⟨v, hv⟩ : h.policy.markBits ∣ h.policy.blockBits := V.markBlock
    have hlt := Nat.mod_lt m.length hB
    rw [ht, hv] at hlt
    have htv : t < v := Nat.lt_of_mul_lt_mul_left hlt
    rw [ht, hv]
    calc h.policy.markBits * t + h.policy.markBits = h.policy.markBits * (t + 1) := by
          rw [Nat.mul_add]; omega
      _ ≤ h.policy.markBits * v := Nat.mul_le_mul_left _ htv
  have hlt := Nat.mod_lt a.total hB
  refine ⟨_, MD.digest_tail (h.policy.md I.iv I.compress I.view I.digest0) V hwL J ?_ ?_ hcl rfl ?_
    rfl hfit⟩
  · intro s
    show h.policy.digestBits / h.policy.wordBits * h.policy.wordBits ≤ (I.view s).length
    rw [hdig, I.length_view]; exact hle
  · show h.policy.digestBits / h.policy.wordBits * h.policy.wordBits ≤ I.digest0.length
    rw [hdig, I.length_digest0]; exact Nat.le_refl _
  · rw [List.length_take, hcl]
    exact Nat.min_eq_left (Nat.le_of_lt hlt)

end Verif
