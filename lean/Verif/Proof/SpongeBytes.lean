import Verif.Proof.Keccak
import Verif.Proof.Sponge
import Verif.Spec.MDStandards
/- Octet strings and bit strings; the permutation on strings. -/
namespace Verif

open Spec

theorem length_bytes (bytes : List Nat) : (octetBits bytes).length = bytes.length * 8 := by
  unfold octetBits
  rw [length_flatMap_const _ 8 _ (by intro x _; simp [bigEndian])]

theorem flipOctets_octet (x : Nat) : flipOctets (bigEndian 8 x) = (List.range 8).map x.testBit := by
  simp [flipOctets, bigEndian, List.range_succ]

/-- Octets most significant bit first, every octet reversed, are octets least significant bit
first. -/
theorem flipOctets_octetBits (bytes : List Nat) : flipOctets (octetBits bytes) = fipsBits bytes := by
  induction bytes with
  | nil => rfl
  | cons x xs ih =>
    have e : octetBits (x :: xs) = bigEndian 8 x ++ octetBits xs := rfl
    have e' : fipsBits (x :: xs) = (List.range 8).map x.testBit ++ fipsBits xs := rfl
    rw [e, e', flipOctets_append _ _ (by simp [bigEndian]) (by rw [length_bytes]; omega), ih,
      flipOctets_octet]

theorem octet_testBit (g : Nat → Bool) (i : Nat) (hi : i < 8) :
    ((List.range 8).foldl (fun n j => n + (g j).toNat * 2 ^ j) 0).testBit i = g i := by
  have e : List.range 8 = [0, 1, 2, 3, 4, 5, 6, 7] := rfl
  rw [e]
  simp only [List.foldl]
  have key : ∀ b0 b1 b2 b3 b4 b5 b6 b7 : Bool, ∀ k : Fin 8,
      (0 + b0.toNat * 2 ^ 0 + b1.toNat * 2 ^ 1 + b2.toNat * 2 ^ 2 + b3.toNat * 2 ^ 3 +
        b4.toNat * 2 ^ 4 + b5.toNat * 2 ^ 5 + b6.toNat * 2 ^ 6 + b7.toNat * 2 ^ 7).testBit k.1 =
        [b0, b1, b2, b3, b4, b5, b6, b7].getD k.1 false := by decide +kernel
  rw [key _ _ _ _ _ _ _ _ ⟨i, hi⟩]
  rcases i with _ | _ | _ | _ | _ | _ | _ | _ | i <;> first | rfl | omega

/-- Reading a string out as octets. -/
theorem octetBits_fipsBytes (S : Bits) (h8 : 8 ∣ S.length) :
    octetBits (fipsBytes S) = flipOctets S := by
  apply List.ext_getElem?
  intro k
  rw [getElem?_flipOctets S h8]
  unfold octetBits
  rw [getElem?_flatMap_const _ 8 (by omega) _ (by intro x _; simp [bigEndian])]
  unfold fipsBytes
  by_cases hk : k < S.length
  · have hk8 : k / 8 < S.length / 8 := by omega
    rw [List.getElem?_map, List.getElem?_range hk8]
    have hm : k % 8 < 8 := by omega
    simp only [Option.map_some, Option.bind_some, bigEndian, List.getElem?_map,
      List.getElem?_range hm]
    rw [octet_testBit _ _ (by omega), List.getD_eq_getElem?_getD]
    have hlt : 8 * (k / 8) + (8 - 1 - k % 8) < S.length := by omega
    rw [List.getElem?_eq_getElem hlt]
    simp only [Option.getD_some]
  · rw [List.getElem?_eq_none (by simp; omega), List.getElem?_eq_none (by omega)]
    rfl

open Spec.Keccak in
theorem toBits_array (A : Lanes) : toBits A.array = laneString A := by
  apply List.ext_getElem?
  intro k
  unfold toBits
  have hlen : ∀ y : Fin 5, ((List.finRange 5).flatMap fun x => (List.finRange 64).map fun z =>
      A.array x y z).length = 320 := by
    intro y
    rw [length_flatMap_const _ 64 _ (by intro x _; simp)]; simp
  rw [getElem?_flatMap_const _ 320 (by omega) _ (fun y _ => hlen y)]
  by_cases hk : k < 1600
  · rw [getElem?_laneString A k hk]
    have hy : k / 320 < 5 := by omega
    rw [List.getElem?_eq_getElem (by simpa using hy), Option.bind_some,
      getElem?_flatMap_const _ 64 (by omega) _ (by intro x _; simp)]
    have hx : k % 320 / 64 < 5 := by omega
    rw [List.getElem?_eq_getElem (by simpa using hx), Option.bind_some]
    have hz : k % 320 % 64 < 64 := by omega
    rw [List.getElem?_eq_getElem (by simpa using hz)]
    simp only [List.getElem_map, List.getElem_finRange, Lanes.array, Fin.val_cast]
    have e1 : 5 * (k / 320) + k % 320 / 64 = k / 64 := by omega
    have e2 : k % 320 % 64 = k % 64 := by omega
    simp only [e1, e2, Fin.getElem_fin, Fin.val_cast, ← BitVec.getLsbD_eq_getElem]
  · rw [List.getElem?_eq_none (by simp; omega), List.getElem?_eq_none (by rw [length_laneString]; omega)]
    rfl

open Spec.Keccak in
theorem array_stringLanes (S : Bits) : Lanes.array (stringLanes S) = ofBits S := by
  funext x y z
  unfold Lanes.array stringLanes ofBits
  rw [Vector.getElem_ofFn, Fin.getElem_fin, ← BitVec.getLsbD_eq_getElem, BitVec.getLsbD_ofFnLE,
    dif_pos z.2]

/-- The permutation of the code on strings is `KECCAK-p[1600, 24]` on strings. -/
theorem onStrings_keccakPermute : onStrings keccakPermute = fun S =>
    Spec.Keccak.toBits (Spec.Keccak.permutation (Spec.Keccak.ofBits S)) := by
  funext S
  unfold onStrings
  rw [← toBits_array, keccakPermute_array, array_stringLanes]

end Verif
