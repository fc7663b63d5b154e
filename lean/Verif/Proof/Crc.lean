import Mathlib.Tactic.LinearCombination
import Mathlib.Algebra.CharP.Two
import Mathlib.Data.ZMod.Basic
import Verif.Model.Crc
import Verif.Spec.Crc
/- The bitwise register is the remainder of the division. -/
open Polynomial

namespace Verif.Crc

open Verif.Spec.Crc

theorem coefficient_xor (a b : Bool) : coefficient (a ^^ b) = coefficient a + coefficient b := by
  cases a <;> cases b <;> decide

theorem coefficient_and (a b : Bool) : coefficient (a && b) = coefficient a * coefficient b := by
  cases a <;> cases b <;> decide

theorem coefficient_inj {a b : Bool} (h : coefficient a = coefficient b) : a = b := by
  revert h; cases a <;> cases b <;> decide

theorem ofBits_snoc (bs : List Bool) (b : Bool) :
    ofBits (bs ++ [b]) = ofBits bs * X + C (coefficient b) := by
  induction bs with
  | nil => simp [ofBits]
  | cons a bs ih =>
    rw [List.cons_append, ofBits, ih, ofBits, List.length_append, List.length_singleton, pow_succ]
    ring

theorem coeff_ofBits (bs : List Bool) (k : Nat) :
    (ofBits bs).coeff k = coefficient (bs.reverse.getD k false) := by
  induction bs using List.reverseRecOn generalizing k with
  | nil => simp [ofBits, coefficient]
  | append_singleton bs b ih =>
    rw [ofBits_snoc, List.reverse_append]
    cases k with
    | zero => simp [coeff_C]
    | succ k => simp [coeff_C, ih]

variable {N : Nat}

theorem coeff_ofWord (v : BitVec N) (k : Nat) : (ofWord v).coeff k = coefficient (v.getLsbD k) := by
  unfold ofWord
  rw [coeff_ofBits]
  congr 1
  rw [List.getD_eq_getElem?_getD]
  by_cases hk : k < N
  · rw [List.getElem?_reverse (by simpa using hk), List.length_map, List.length_range,
      List.getElem?_map, List.getElem?_range (by omega), Option.map_some, Option.getD_some,
      BitVec.getMsbD]
    simp only [show N - 1 - k < N by omega, decide_true, Bool.true_and]
    congr 1; omega
  · rw [List.getElem?_eq_none (by simp; omega), BitVec.getLsbD_of_ge _ _ (by omega)]; rfl

theorem ofWord_injective {v v' : BitVec N} (h : ofWord v = ofWord v') : v = v' := by
  apply BitVec.eq_of_getLsbD_eq
  intro i _
  exact coefficient_inj (by rw [← coeff_ofWord, ← coeff_ofWord, h])

theorem degree_ofWord (v : BitVec N) : (ofWord v).degree < N := by
  rw [degree_lt_iff_coeff_zero]
  intro m hm
  rw [coeff_ofWord, BitVec.getLsbD_of_ge _ _ hm]; rfl

theorem monic_generator (poly : BitVec N) : (generator poly).Monic :=
  monic_X_pow_add (degree_ofWord poly)

theorem degree_generator (poly : BitVec N) : (generator poly).degree = N := by
  unfold generator
  rw [degree_add_eq_left_of_degree_lt] <;> rw [degree_X_pow]
  exact degree_ofWord poly

theorem bit_poly (P : Params N) (hN : 0 < N) (r : BitVec N) (b : Bool) :
    X * ofWord r + C (coefficient b) * X ^ N =
      ofWord (P.bit r b) + generator P.poly * C (coefficient (r.getMsbD 0 ^^ b)) := by
  have hmsb : r.getMsbD 0 = r.getLsbD (N - 1) := by simp [BitVec.getMsbD, hN]
  ext k
  unfold generator
  rw [coeff_add, coeff_add, coeff_C_mul, coeff_mul_C, coeff_add, coeff_X_pow, coeff_ofWord, coeff_ofWord]
  have hbit : (P.bit r b).getLsbD k = ((decide (k < N) && decide (1 ≤ k) && r.getLsbD (k - 1)) ^^
      ((r.getMsbD 0 ^^ b) && P.poly.getLsbD k)) := by
    unfold Params.bit
    split
    · rename_i h
      rw [h, BitVec.getLsbD_xor, BitVec.getLsbD_shiftLeft, Bool.true_and]
      by_cases h1 : 1 ≤ k
      · simp [h1, show ¬ k = 0 by omega]
      · simp [show k = 0 by omega]
    · rename_i h
      rw [Bool.not_eq_true] at h
      rw [h, BitVec.getLsbD_shiftLeft, Bool.false_and]
      by_cases h1 : 1 ≤ k
      · simp [h1, show ¬ k = 0 by omega]
      · simp [show k = 0 by omega]
  rw [hbit, hmsb]
  clear hbit hmsb
  cases k with
  | zero =>
    rw [coeff_X_mul_zero]
    simp only [show ¬ (1 ≤ 0) by omega, decide_false, Bool.and_false, Bool.false_and,
      show ¬ (0 = N) by omega, if_false]
    generalize r.getLsbD (N - 1) = x, P.poly.getLsbD 0 = y
    revert x y b; decide
  | succ k =>
    rw [coeff_X_mul, coeff_ofWord]
    simp only [show 1 ≤ k + 1 by omega, decide_true, Bool.and_true, Nat.add_sub_cancel]
    by_cases hk : k + 1 < N
    · simp only [hk, decide_true, Bool.true_and, show ¬ (k + 1 = N) by omega, if_false]
      generalize r.getLsbD (N - 1) = x, P.poly.getLsbD (k + 1) = y, r.getLsbD k = z
      revert x y z b; decide
    · simp only [hk, decide_false, Bool.false_and]
      rw [BitVec.getLsbD_of_ge P.poly _ (by omega)]
      by_cases he : k + 1 = N
      · simp only [he, if_true]
        rw [show N - 1 = k by omega]
        generalize r.getLsbD k = z
        revert z b; decide
      · simp only [he, if_false]
        rw [BitVec.getLsbD_of_ge r _ (by omega)]
        generalize r.getLsbD (N - 1) = x
        revert x b; decide

theorem bit_mod (P : Params N) (hN : 0 < N) (r : BitVec N) (b : Bool) :
    ofWord (P.bit r b) = (X * ofWord r + C (coefficient b) * X ^ N) %ₘ generator P.poly := by
  refine ((div_modByMonic_unique (C (coefficient (r.getMsbD 0 ^^ b))) (ofWord (P.bit r b))
    (monic_generator P.poly) ⟨(bit_poly P hN r b).symm, ?_⟩).2).symm
  rw [degree_generator]
  exact degree_ofWord _

theorem bits_mod (P : Params N) (hN : 0 < N) (r : BitVec N) (bs : List Bool) :
    ofWord (bs.foldl P.bit r) = (ofBits bs * X ^ N + ofWord r * X ^ bs.length) %ₘ generator P.poly := by
  induction bs using List.reverseRecOn with
  | nil =>
    rw [List.foldl_nil, ofBits, zero_mul, zero_add, List.length_nil, pow_zero, mul_one,
      (modByMonic_eq_self_iff (monic_generator P.poly)).2]
    rw [degree_generator]; exact degree_ofWord _
  | append_singleton bs b ih =>
    rw [List.foldl_append, List.foldl_cons, List.foldl_nil, bit_mod P hN, ih, ofBits_snoc,
      List.length_append, List.length_singleton]
    set A := ofBits bs * X ^ N + ofWord r * X ^ bs.length with hA
    have e : (ofBits bs * X + C (coefficient b)) * X ^ N + ofWord r * X ^ (bs.length + 1) =
        X * (A %ₘ generator P.poly) + C (coefficient b) * X ^ N +
          generator P.poly * (X * (A /ₘ generator P.poly)) := by
      have h := modByMonic_add_div A (generator P.poly)
      have : (ofBits bs * X + C (coefficient b)) * X ^ N + ofWord r * X ^ (bs.length + 1) =
          X * A + C (coefficient b) * X ^ N := by rw [hA]; ring
      rw [this]
      linear_combination (-X) * h
    rw [e, add_modByMonic (q := generator P.poly) (_ + _) (generator P.poly * _),
      self_mul_modByMonic (monic_generator P.poly), add_zero]

theorem bytes_bits (P : Params N) (r : BitVec N) (bytes : List Nat) :
    bytes.foldl P.byte r = (messageBits P.reflectIn bytes).foldl P.bit r := by
  unfold messageBits
  rw [List.foldl_flatMap]
  congr 1

theorem register_is_remainder (P : Params N) (hN : 0 < N) (bytes : List Nat) :
    ofWord (bytes.foldl P.byte P.init) = remainder P.poly P.init P.reflectIn bytes := by
  rw [bytes_bits, bits_mod P hN]; rfl

theorem checksum_is (P : Params N) (hN : 0 < N) (bytes : List Nat) :
    IsChecksum P.poly P.init P.finalXor P.reflectIn P.reflectRem bytes
      (P.checksum (bytes.foldl P.byte P.init)) :=
  ⟨_, register_is_remainder P hN bytes, rfl⟩

end Verif.Crc
