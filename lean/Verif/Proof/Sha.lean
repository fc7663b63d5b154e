import Verif.Spec.Sha
import Verif.Proof.ByteMD
import Verif.Model.Modes
/- Block-cipher compressors and the big-endian hashes. -/
namespace Verif

open Spec

/-! ### The combiner -/

theorem stateAdder_get {w n k : Nat} (s1 : Vector (BitVec w) n) (s2 : Vector (BitVec w) k) (i : Nat)
    (hi : i < n) : (stateAdder s1 s2)[i] = if h : i < k then s1[i] + s2[i] else s1[i] := by
  unfold stateAdder
  have key : ∀ m, m ≤ n → m ≤ k → ∀ i (hi : i < n),
      ((List.range m).foldl (fun s i => s.setIfInBounds i (s[i]?.getD 0 + s2[i]?.getD 0)) s1)[i] =
        if h : i < m then s1[i] + s2[i]?.getD 0 else s1[i] := by
    intro m
    induction m with
    | zero => intro _ _ i hi; simp
    | succ m ih =>
      intro hn hk i hi
      have ih1 := ih (by omega) (by omega) m (by omega)
      have ih2 := ih (by omega) (by omega) i hi
      rw [List.range_succ, List.foldl_append]
      generalize (List.range m).foldl (fun s i => s.setIfInBounds i (s[i]?.getD 0 + s2[i]?.getD 0)) s1 = t
        at ih1 ih2
      show (t.setIfInBounds m (t[m]?.getD 0 + s2[m]?.getD 0))[i] = _
      rw [Vector.getElem_setIfInBounds, Vector.getElem?_eq_getElem (by omega : m < n)]
      rw [ih1, ih2]
      by_cases e : m = i
      · subst e; simp
      · by_cases h : i < m <;> by_cases h' : i < m + 1 <;> first | omega | simp [e, h, h']
  have hm : (if k < n then k else n) ≤ n ∧ (if k < n then k else n) ≤ k := by split <;> omega
  rw [key _ hm.1 hm.2]
  by_cases h : i < k
  · rw [dif_pos (by split <;> omega), dif_pos h, Vector.getElem?_eq_getElem h]; rfl
  · rw [dif_neg (by split <;> omega), dif_neg h]

theorem stateAdder_eq {w n : Nat} (s1 s2 : Vector (BitVec w) n) : stateAdder s1 s2 = Sha.plus s1 s2 := by
  apply Vector.ext
  intro i hi
  rw [stateAdder_get _ _ _ hi, dif_pos hi]
  unfold Sha.plus
  rw [Vector.getElem_ofFn]
  apply BitVec.eq_of_toNat_eq
  simp

/-! ### Big-endian words -/

/-- Big-endian number with digits `g 0, …, g (n-1)`. -/
def beNat (g : Nat → Nat) (n : Nat) : Nat := (List.range n).foldl (fun a k => a * 256 + g k) 0

theorem beNat_succ (g : Nat → Nat) (n : Nat) : beNat g (n + 1) = beNat g n * 256 + g n := by
  simp [beNat, List.range_succ]

theorem beNat_testBit (g : Nat → Nat) (n : Nat) (h : ∀ k, k < n → g k < 256) (p : Nat) :
    (beNat g n).testBit p = (decide (p < 8 * n) && (g (n - 1 - p / 8)).testBit (p % 8)) := by
  induction n generalizing p with
  | zero => simp [beNat]
  | succ n ih =>
    have hlt : g n < 2 ^ 8 := h n (by omega)
    rw [beNat_succ, Nat.mul_comm, show 256 = 2 ^ 8 from rfl, Nat.testBit_two_pow_mul_add _ hlt]
    by_cases hp : p < 8
    · rw [if_pos hp, decide_eq_true (by omega), Bool.true_and]
      congr 1
      · congr 1; omega
      · omega
    · rw [if_neg hp, ih (fun k hk => h k (by omega))]
      rw [show (p - 8) % 8 = p % 8 by omega, show n - 1 - (p - 8) / 8 = n + 1 - 1 - p / 8 by omega]
      congr 1
      exact decide_eq_decide.2 (by omega)

theorem be_word (n : Nat) (bytes : List Nat) (hb : ∀ b ∈ bytes, b < 256) (i : Nat) :
    bigOctetBigBit.word (8 * n) (octetBits bytes) i =
      BitVec.ofNat (8 * n) (beNat (fun k => bytes.getD (n * i + k) 0) n) := by
  apply BitVec.eq_of_getLsbD_eq
  intro p hp
  unfold Endian.word
  rw [BitVec.getLsbD_ofFnLE, dif_pos hp, BitVec.getLsbD_ofNat, decide_eq_true hp, Bool.true_and,
    beNat_testBit, decide_eq_true hp, Bool.true_and, octetBits_getD]
  · unfold Endian.pos bigOctetBigBit
    simp only [Bool.false_eq_true, if_false]
    have e : 8 * n * i = 8 * (n * i) := Nat.mul_assoc _ _ _
    rw [e]
    generalize n * i = m
    congr 1
    · congr 1
      omega
    · omega
  · intro k _
    rw [List.getD_eq_getElem?_getD]
    cases e : bytes[n * i + k]? with
    | none => simp
    | some b => exact hb b (List.mem_of_getElem? e)

theorem be_view (n x : Nat) : bigOctetBigBit.view (8 * n) x =
    octetBits ((List.range n).map fun k => x / 256 ^ (n - 1 - k) % 256) := by
  apply List.ext_getElem?
  intro p
  rw [octetBits_getElem?]
  unfold Endian.view
  rw [List.getElem?_map, List.getElem?_map]
  by_cases hp : p < 8 * n
  · rw [List.getElem?_range hp, List.getElem?_range (by omega)]
    simp only [Option.map_some]
    rw [show 256 = 2 ^ 8 from rfl, ← Nat.pow_mul, Nat.testBit_mod_two_pow, Nat.testBit_div_two_pow,
      decide_eq_true (by omega), Bool.true_and]
    unfold Endian.pos bigOctetBigBit
    simp only [Bool.false_eq_true, if_false]
    congr 2
    omega
  · rw [List.getElem?_eq_none (by simp; omega), List.getElem?_eq_none (by simp; omega)]
    rfl

theorem beOctets_bits (w : Nat) (words : List (BitVec (8 * w))) :
    (words.flatMap fun x => bigOctetBigBit.view (8 * w) x.toNat) = octetBits (Sha.beOctets w words) := by
  unfold Sha.beOctets octetBits
  rw [List.flatMap_assoc]
  congr 1
  funext x
  rw [be_view]; rfl

theorem length_mem_blocks {B : Nat} {bytes block : List Nat} (h : block ∈ ByteMD.blocks B bytes) :
    block.length = B := by
  unfold ByteMD.blocks at h
  rw [List.mem_map] at h
  obtain ⟨i, hi, rfl⟩ := h
  rw [List.mem_range] at hi
  rw [List.length_take, List.length_drop]
  have h1 : (i + 1) * B ≤ bytes.length / B * B := Nat.mul_le_mul_right B hi
  have h2 := Nat.div_mul_le_self bytes.length B
  rw [Nat.add_mul] at h1
  omega

/-- Words past the end of a block are zero. -/
theorem word_past (e : Endian) (w : Nat) (b : Bits) (i : Nat) (h : b.length ≤ w * i) :
    e.word w b i = 0 := by
  apply BitVec.eq_of_getLsbD_eq
  intro p hp
  unfold Endian.word
  rw [BitVec.getLsbD_ofFnLE, dif_pos hp, List.getD_eq_getElem?_getD, List.getElem?_eq_none (by omega)]
  simp

/-- The digest of a byte string by a big-endian hash built on a block cipher. -/
theorem be_digest_bytes (h : MDHash) (w n B L D : Nat) (hB : 0 < B) (hD : D ≤ w * n)
    (hs : (standard h).block = 8 * B ∧ (standard h).length = 8 * L ∧
      (standard h).bigEndianLength = true ∧ (standard h).digest = 8 * D) (hm : markOctetOf h = 0x80)
    (iv : Vector (BitVec (8 * w)) n)
    (compress : Vector (BitVec (8 * w)) n → Bits → Vector (BitVec (8 * w)) n)
    (rounds : (Nat → BitVec (8 * w)) → Vector (BitVec (8 * w)) n → Vector (BitVec (8 * w)) n)
    (hc : ∀ v b, b.length = 8 * B →
      compress v b = Sha.plus v (rounds (bigOctetBigBit.word (8 * w) b) v))
    (bytes : List Nat) (hb : ∀ b ∈ bytes, b < 256) :
    mdDigest h iv compress bigOctetBigBit.arrayView (octetBits bytes) =
      octetBits (Sha.beDigest w B L D iv rounds bytes) := by
  unfold mdDigest
  rw [paddedMessage_bytes, hs.1, hs.2.1, hs.2.2.1, hs.2.2.2, hm]
  rw [Nat.mul_div_cancel_left _ (by omega : 0 < 8), Nat.mul_div_cancel_left _ (by omega : 0 < 8),
    blocks_bytes B _ hB]
  unfold Sha.beDigest
  rw [← octetBits_take, ← beOctets_bits]
  have key := foldl_hom_mem (fun x => x) compress
    (fun H block => Sha.plus H (rounds (Sha.beWord w block) H)) octetBits
    (ByteMD.blocks B (ByteMD.pad B L 128 true bytes)) ?_ iv
  · rw [key]; rfl
  · intro v blk hblk
    rw [hc v _ (by rw [length_bytes, length_mem_blocks hblk, Nat.mul_comm])]
    congr 2
    funext i
    rw [be_word w blk (mem_blocks (mem_pad (by omega) hb) hblk)]
    rfl

end Verif
