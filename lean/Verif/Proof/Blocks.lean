import Verif.Spec.Blocks
/- Lemmas about cutting bit strings into blocks. -/
namespace Verif

open Spec

theorem blocks_append {B : Nat} (hB : 0 < B) {x y : List Bool} (h : B ∣ x.length) :
    blocks B (x ++ y) = blocks B x ++ blocks B y := by
  obtain ⟨k, hk⟩ := h
  unfold blocks
  have e1 : x.length / B = k := by rw [hk, Nat.mul_div_cancel_left _ hB]
  have e2 : (x ++ y).length / B = k + y.length / B := by
    rw [List.length_append, hk, Nat.mul_add_div hB]
  rw [e1, e2, List.range_add, List.map_append, List.map_map]
  congr 1
  · apply List.map_congr_left
    intro i hi
    rw [List.mem_range] at hi
    have : (i + 1) * B ≤ x.length := by
      rw [hk, Nat.mul_comm B k]; exact Nat.mul_le_mul_right _ hi
    rw [Nat.add_mul] at this
    unfold block
    rw [List.drop_append_of_le_length (by omega), List.take_append_of_le_length (by simp; omega)]
  · apply List.map_congr_left
    intro i _
    simp only [Function.comp, block]
    have hd : x.drop ((k + i) * B) = [] := by
      apply List.drop_of_length_le
      rw [hk, Nat.add_mul, Nat.mul_comm B k]; omega
    rw [List.drop_append, hd, List.nil_append]
    congr 2
    rw [hk, Nat.add_mul, Nat.mul_comm B k]; omega

theorem blocks_nil (B : Nat) : blocks B [] = [] := by simp [blocks]

theorem blocks_single {B : Nat} (hB : 0 < B) {x : List Bool} (h : x.length = B) :
    blocks B x = [x] := by
  unfold blocks
  rw [h, Nat.div_self hB]
  simp [List.range_succ, block, List.take_of_length_le (Nat.le_of_eq h)]

theorem fillTo_spec {B : Nat} (hB : 0 < B) (n : Nat) : B ∣ n + fillTo B n := by
  unfold fillTo
  have h := Nat.mod_lt n hB
  have hd := Nat.div_add_mod n B
  by_cases h0 : n % B = 0
  · rw [h0, Nat.sub_zero, Nat.mod_self, Nat.add_zero]
    exact Nat.dvd_of_mod_eq_zero h0
  · rw [Nat.mod_eq_of_lt (by omega : B - n % B < B)]
    refine ⟨n / B + 1, ?_⟩
    rw [Nat.mul_add]; omega

theorem fillTo_lt {B : Nat} (hB : 0 < B) (n : Nat) : fillTo B n < B := Nat.mod_lt _ hB

/-- `fillTo` only depends on the residue. -/
theorem fillTo_add_mul (B k n : Nat) : fillTo B (B * k + n) = fillTo B n := by
  unfold fillTo; rw [Nat.mul_add_mod]

theorem fillTo_of_le {B n : Nat} (h0 : 0 < n) (h : n ≤ B) : fillTo B n = B - n := by
  unfold fillTo
  by_cases he : n = B
  · subst he; simp
  · rw [Nat.mod_eq_of_lt (by omega : n < B), Nat.mod_eq_of_lt (by omega)]

theorem fillTo_of_lt_two {B n : Nat} (h0 : B < n) (h : n ≤ 2 * B) : fillTo B n = 2 * B - n := by
  have : n = B * 1 + (n - B) := by omega
  rw [this, fillTo_add_mul, fillTo_of_le (by omega) (by omega)]; omega

end Verif
