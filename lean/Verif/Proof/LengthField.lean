import Verif.Model.MerkleDamgard
import Verif.Spec.MerkleDamgard
/- The length field written by `append_length` is the one of the standards. -/
namespace Verif

open Spec

theorem flatMap_range (k w : Nat) (g : Nat → Nat → Bool) :
    (List.range k).flatMap (fun a => (List.range w).map (g a)) =
      (List.range (k * w)).map (fun t => g (t / w) (t % w)) := by
  rcases Nat.eq_zero_or_pos w with h0 | hw
  · subst h0; simp
  induction k with
  | zero => simp
  | succ k ih =>
    rw [List.range_succ, List.flatMap_append, ih, Nat.add_mul, Nat.one_mul, List.range_add,
      List.map_append]
    congr 1
    rw [List.flatMap_cons, List.flatMap_nil, List.append_nil, List.map_map]
    apply List.map_congr_left
    intro i hi
    have hi : i < w := List.mem_range.1 hi
    simp only [Function.comp]
    rw [Nat.mul_comm k w, Nat.mul_add_div hw, Nat.div_eq_of_lt hi, Nat.add_zero,
      Nat.mul_add_mod, Nat.mod_eq_of_lt hi]

theorem convertUnit_self (e : Endian) (w x : Nat) : convertUnit e e w x = x := by
  simp [convertUnit]

theorem Endian.pos_lt (e : Endian) {w i : Nat} (h8 : 8 ∣ w) (hi : i < w) : e.pos w i < w := by
  obtain ⟨v, rfl⟩ := h8
  unfold Endian.pos
  split <;> split <;> omega

theorem views_explode (e : Endian) {L w : Nat} (h8 : 8 ∣ w) (n : Nat) :
    e.views w (explodeOne e e L w n) = (List.range (L / w * w)).map (fun t =>
      n.testBit ((if e.littleOctet then t / w * w else L - (w + t / w * w)) + e.pos w (t % w))) := by
  unfold Endian.views explodeOne
  rw [List.flatMap_map]
  rw [← flatMap_range (L / w) w (fun k i =>
    n.testBit ((if e.littleOctet then k * w else L - (w + k * w)) + e.pos w i))]
  congr 1
  funext k
  unfold Endian.view
  apply List.map_congr_left
  intro i hi
  have hi : i < w := List.mem_range.1 hi
  simp only [convertUnit_self]
  rw [Nat.testBit_mod_two_pow, Nat.testBit_shiftRight]
  simp [e.pos_lt h8 hi]

theorem views_explode_big {L w : Nat} (h8 : 8 ∣ w) (hL : w ∣ L) (n : Nat) :
    bigOctetBigBit.views w (explodeOne bigOctetBigBit bigOctetBigBit L w n) = bigEndian L n := by
  rw [views_explode _ h8, Nat.div_mul_cancel hL]
  unfold bigEndian
  apply List.map_congr_left
  intro t ht
  have ht : t < L := List.mem_range.1 ht
  congr 1
  obtain ⟨k, rfl⟩ := hL
  have hw : 0 < w := Nat.pos_of_ne_zero (by rintro rfl; simp at ht)
  have h1 := Nat.div_add_mod t w
  have h2 := Nat.mod_lt t hw
  have h3 : t / w < k := Nat.div_lt_of_lt_mul ht
  have h4 : t / w * w + w ≤ w * k := by
    rw [Nat.mul_comm w k, ← Nat.succ_mul]; exact Nat.mul_le_mul_right _ h3
  rw [Nat.mul_comm w (t / w)] at h1
  obtain ⟨v, rfl⟩ := h8
  unfold Endian.pos bigOctetBigBit
  simp only [Bool.false_eq_true, if_false]
  omega

theorem views_explode_little {L w : Nat} (h8 : 8 ∣ w) (hL : w ∣ L) (n : Nat) :
    littleOctetBigBit.views w (explodeOne littleOctetBigBit littleOctetBigBit L w n) =
      littleEndianOctets L n := by
  rw [views_explode _ h8, Nat.div_mul_cancel hL]
  unfold littleEndianOctets
  apply List.map_congr_left
  intro t _
  congr 1
  obtain ⟨v, rfl⟩ := h8
  have h1 := Nat.div_add_mod t (8 * v)
  unfold Endian.pos littleOctetBigBit
  simp only [Bool.false_eq_true, if_false, if_true]
  generalize ht : t % (8 * v) = r at *
  have h3 : t = 8 * (v * (t / (8 * v))) + r := by rw [← Nat.mul_assoc]; exact h1.symm
  have h4 : t / (8 * v) * (8 * v) = 8 * (v * (t / (8 * v))) := by
    rw [Nat.mul_comm, Nat.mul_assoc]
  rw [h4]
  generalize v * (t / (8 * v)) = u at *
  omega

theorem bigEndian_mod {L : Nat} (hL : L ≤ 64) (n : Nat) :
    bigEndian L (n % 2 ^ 64) = bigEndian L n := by
  unfold bigEndian
  apply List.map_congr_left
  intro i hi
  have hi : i < L := List.mem_range.1 hi
  rw [Nat.testBit_mod_two_pow]
  simp; omega

theorem littleEndianOctets_mod {L : Nat} (hL : L ≤ 64) (h8 : 8 ∣ L) (n : Nat) :
    littleEndianOctets L (n % 2 ^ 64) = littleEndianOctets L n := by
  unfold littleEndianOctets
  apply List.map_congr_left
  intro i hi
  have hi : i < L := List.mem_range.1 hi
  obtain ⟨v, rfl⟩ := h8
  rw [Nat.testBit_mod_two_pow]
  have : 8 * (i / 8) + (7 - i % 8) < 64 := by omega
  simp [this]

end Verif
