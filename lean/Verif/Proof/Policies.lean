import Verif.Spec.MDStandards
import Verif.Proof.MerkleDamgard
import Verif.Proof.LengthField
import Verif.Proof.History
/- Every Merkle–Damgård hash of the repository computes its standard. -/
namespace Verif

open Spec

variable {σ : Type}

theorem policy_valid (h : MDHash) (iv : σ) (compress : σ → Bits → σ) (view : σ → Bits)
    (d0 : Bits) : (h.policy.md iv compress view d0).Valid := by
  cases h <;> constructor <;> first | decide | (simp only [Policy.md, MDHash.policy]; decide)

theorem policy_mark (h : MDHash) (iv : σ) (compress : σ → Bits → σ) (view : σ → Bits)
    (d0 : Bits) : (h.policy.md iv compress view d0).mark = (standard h).marker := by
  cases h <;> simp only [MD.mark, MD.markWord, Policy.md, MDHash.policy, standard] <;> decide +kernel

theorem policy_enc (h : MDHash) (iv : σ) (compress : σ → Bits → σ) (view : σ → Bits)
    (d0 : Bits) (n : Nat) (hn : (standard h).length ≤ 64 ∨ n < 2 ^ 64) :
    (h.policy.md iv compress view d0).enc (n % 2 ^ 64) = (standard h).encode n := by
  have key : (h.policy.md iv compress view d0).enc (n % 2 ^ 64) =
      (standard h).encode (n % 2 ^ 64) := by
    have h8 : 8 ∣ h.policy.wordBits := by cases h <;> decide
    have hwL : h.policy.wordBits ∣ h.policy.lengthBits := by cases h <;> decide
    have hL : h.policy.lengthBits = (standard h).length := by cases h <;> decide
    have he : (h.policy.endian = bigOctetBigBit ∧ (standard h).bigEndianLength = true) ∨
        (h.policy.endian = littleOctetBigBit ∧ (standard h).bigEndianLength = false) := by
      cases h <;> decide
    show h.policy.endian.views h.policy.wordBits (explodeOne h.policy.endian h.policy.endian
      h.policy.lengthBits h.policy.wordBits (n % 2 ^ 64)) = _
    unfold Standard.encode
    rcases he with ⟨he, hb⟩ | ⟨he, hb⟩
    · rw [he, hb, views_explode_big h8 hwL, hL]; rfl
    · rw [he, hb, views_explode_little h8 hwL, hL]; rfl
  rw [key]
  rcases hn with hn | hn
  · unfold Standard.encode
    split
    · exact bigEndian_mod hn n
    · exact littleEndianOctets_mod hn (by cases h <;> decide) n
  · rw [Nat.mod_eq_of_lt hn]

/-- The accumulator of hash `h` computes the standard digest of every represented good message. -/
theorem md_computes (h : MDHash) (iv : σ) (compress : σ → Bits → σ) (view : σ → Bits)
    (hv : ∀ s, (view s).length = h.policy.stateBits) (d0 : Bits)
    (hd0 : d0.length = h.policy.digestBits) (J : Injector) :
    Computes ((h.policy.md iv compress view d0).construction J) (GoodMsg h)
      (mdDigest h iv compress view) := by
  intro a m hrep hgood
  obtain ⟨hg1, hg2, hg3⟩ := hgood
  have hdig : h.policy.digestBits / h.policy.wordBits * h.policy.wordBits = h.policy.digestBits := by
    cases h <;> decide
  have hle : h.policy.digestBits ≤ h.policy.stateBits := by cases h <;> decide
  have hwL : h.policy.wordBits ∣ h.policy.lengthBits := by cases h <;> decide
  have V := policy_valid h iv compress view d0
  have hmark := policy_mark h iv compress view d0
  have hml := MD.length_mark _ V
  rw [hmark] at hml
  rw [MD.result_spec (h.policy.md iv compress view d0) V hwL J
    (by intro s; show h.policy.digestBits / h.policy.wordBits * h.policy.wordBits ≤ (view s).length
        rw [hdig, hv]; exact hle)
    (by show h.policy.digestBits / h.policy.wordBits * h.policy.wordBits ≤ d0.length
        rw [hdig, hd0]; exact Nat.le_refl _)
    hrep (by rw [← hml]; exact hg1) hg2]
  congr 1
  unfold MD.output
  show (view _).take (h.policy.digestBits / h.policy.wordBits * h.policy.wordBits) ++
    d0.drop (h.policy.digestBits / h.policy.wordBits * h.policy.wordBits) = _
  rw [hdig, List.drop_of_length_le (by omega), List.append_nil]
  unfold mdDigest paddedMessage mdState mdPad
  simp only
  rw [hmark, policy_enc h iv compress view d0 m.length hg3]
  have hb : (h.policy.md iv compress view d0).blockBits = (standard h).block := by cases h <;> rfl
  have hl : (h.policy.md iv compress view d0).lengthBits = (standard h).length := by cases h <;> rfl
  have hd : h.policy.digestBits = (standard h).digest := by cases h <;> rfl
  rw [hb, hl, hd]
  rfl

theorem policy_sizes (h : MDHash) : 0 < h.policy.blockBits ∧ 0 < h.policy.wordBits ∧
    h.policy.wordBits ∣ h.policy.blockBits ∧ h.policy.blockBits ∣ 2 ^ 64 ∧
    8 ∣ h.policy.blockBits ∧ (standard h).marker.length ∣ 8 := by
  cases h <;> decide

end Verif
