import Verif.Model.Sponge
import Verif.Spec.Sponge
import Verif.Proof.Blocks
/- Lanes, strings and stream views. -/
namespace Verif

open Spec

/-- Indexing a concatenation of pieces of equal length. -/
theorem getElem?_flatMap_const {α β : Type} (f : α → List β) (n : Nat) (hn : 0 < n) (l : List α)
    (h : ∀ x ∈ l, (f x).length = n) (k : Nat) :
    (l.flatMap f)[k]? = (l[k / n]?).bind fun x => (f x)[k % n]? := by
  induction l generalizing k with
  | nil => simp
  | cons x l ih =>
    have hx : (f x).length = n := h x (by simp)
    rw [List.flatMap_cons]
    by_cases hk : k < n
    · rw [List.getElem?_append_left (by omega), Nat.div_eq_of_lt hk, Nat.mod_eq_of_lt hk]
      rfl
    · rw [List.getElem?_append_right (by omega), hx, ih (fun y hy => h y (by simp [hy]))]
      have e1 : k / n = (k - n) / n + 1 := by
        rw [Nat.div_eq_sub_div hn (by omega)]
      have e2 : (k - n) % n = k % n := by
        rw [Nat.mod_eq_sub_mod (a := k) (by omega)]
      rw [e1, e2, List.getElem?_cons_succ]

theorem length_flatMap_const {α β : Type} (f : α → List β) (n : Nat) (l : List α)
    (h : ∀ x ∈ l, (f x).length = n) : (l.flatMap f).length = l.length * n := by
  induction l with
  | nil => simp
  | cons x l ih =>
    rw [List.flatMap_cons, List.length_append, h x (by simp), ih (fun y hy => h y (by simp [hy])),
      List.length_cons, Nat.add_mul]; omega

theorem length_flipOctets (b : Bits) : (flipOctets b).length = b.length := by simp [flipOctets]

theorem getElem?_flipOctets (b : Bits) (h8 : 8 ∣ b.length) (k : Nat) :
    (flipOctets b)[k]? = b[8 * (k / 8) + (7 - k % 8)]? := by
  unfold flipOctets
  by_cases hk : k < b.length
  · have hk' : 8 * (k / 8) + (7 - k % 8) < b.length := by omega
    rw [List.getElem?_map, List.getElem?_range hk]
    simp [hk']
  · rw [List.getElem?_eq_none (by simp; omega), List.getElem?_eq_none (by omega)]

theorem flipOctets_flipOctets (b : Bits) (h8 : 8 ∣ b.length) : flipOctets (flipOctets b) = b := by
  apply List.ext_getElem?
  intro k
  rw [getElem?_flipOctets _ (by rwa [length_flipOctets]), getElem?_flipOctets _ h8]
  congr 1; omega

theorem flipOctets_append (a b : Bits) (ha : 8 ∣ a.length) (hb : 8 ∣ b.length) :
    flipOctets (a ++ b) = flipOctets a ++ flipOctets b := by
  apply List.ext_getElem?
  intro k
  rw [getElem?_flipOctets _ (by rw [List.length_append]; omega)]
  by_cases hk : k < a.length
  · rw [List.getElem?_append_left (by omega), List.getElem?_append_left (by rw [length_flipOctets]; omega),
      getElem?_flipOctets _ ha]
  · rw [List.getElem?_append_right (by omega), List.getElem?_append_right (by rw [length_flipOctets]; omega),
      getElem?_flipOctets _ hb, length_flipOctets]
    congr 1; omega

theorem flipOctets_take (b : Bits) (hb : 8 ∣ b.length) (n : Nat) (hn : 8 ∣ n) :
    (flipOctets b).take n = flipOctets (b.take n) := by
  by_cases h : n ≤ b.length
  · have hl : (b.take n).length = n := by simp; omega
    conv => lhs; rw [← List.take_append_drop n b]
    rw [flipOctets_append _ _ (by omega) (by simp; omega), List.take_left' (by
      rw [length_flipOctets, hl])]
  · rw [List.take_of_length_le (by rw [length_flipOctets]; omega), List.take_of_length_le (by omega)]

theorem flipOctets_drop (b : Bits) (hb : 8 ∣ b.length) (n : Nat) (hn : 8 ∣ n) :
    (flipOctets b).drop n = flipOctets (b.drop n) := by
  by_cases h : n ≤ b.length
  · have hl : (b.take n).length = n := by simp; omega
    conv => lhs; rw [← List.take_append_drop n b]
    rw [flipOctets_append _ _ (by omega) (by simp; omega), List.drop_left' (by
      rw [length_flipOctets, hl])]
  · rw [List.drop_of_length_le (by rw [length_flipOctets]; omega), List.drop_of_length_le (by omega)]
    rfl

theorem blocks_flipOctets (B : Nat) (hB : 8 ∣ B) (m : Bits) (hm : 8 ∣ m.length) :
    blocks B (flipOctets m) = (blocks B m).map flipOctets := by
  unfold blocks
  rw [length_flipOctets, List.map_map]
  apply List.map_congr_left
  intro i _
  have h1 : 8 ∣ i * B := Nat.dvd_trans hB ⟨i, Nat.mul_comm _ _⟩
  unfold block
  simp only [Function.comp]
  rw [flipOctets_drop _ hm _ h1, flipOctets_take _ (by rw [List.length_drop]; omega) _ hB]

/-! ### Lanes -/

theorem length_laneString (A : Lanes) : (laneString A).length = 1600 := by
  unfold laneString
  rw [length_flatMap_const _ 64 _ (by simp)]; simp

theorem getElem?_laneString (A : Lanes) (k : Nat) (hk : k < 1600) :
    (laneString A)[k]? = some ((A[k / 64]'(by omega)).getLsbD (k % 64)) := by
  unfold laneString
  rw [getElem?_flatMap_const _ 64 (by omega) _ (by simp)]
  have h1 : k / 64 < 25 := by omega
  have h2 : k % 64 < 64 := by omega
  simp [h1, h2]

theorem stringLanes_laneString (A : Lanes) : stringLanes (laneString A) = A := by
  apply Vector.ext
  intro i hi
  apply BitVec.eq_of_getLsbD_eq
  intro z hz
  unfold stringLanes
  rw [Vector.getElem_ofFn, BitVec.getLsbD_ofFnLE, dif_pos hz, List.getD_eq_getElem?_getD,
    getElem?_laneString _ _ (by show 64 * i + z < 1600; omega)]
  show (A[(64 * i + z) / 64]'_).getLsbD ((64 * i + z) % 64) = _
  have e1 : (64 * i + z) / 64 = i := by omega
  have e2 : (64 * i + z) % 64 = z := by omega
  simp only [e1, e2]

theorem length_onStrings (f : Lanes → Lanes) (S : Bits) : (onStrings f S).length = 1600 :=
  length_laneString _

/-- The FIPS 202 string of the state of the code (whose words are byte-swapped lanes). -/
def fipsState (s : Lanes) : Bits := laneString (s.map byteSwap64)

theorem length_fipsState (s : Lanes) : (fipsState s).length = 1600 := length_laneString _

theorem getElem?_fipsState (s : Lanes) (k : Nat) (hk : k < 1600) :
    (fipsState s)[k]? =
      some ((s[k / 64]'(by omega)).getLsbD (8 * (7 - k % 64 / 8) + k % 8)) := by
  unfold fipsState
  rw [getElem?_laneString _ _ hk, Vector.getElem_map]
  unfold byteSwap64
  rw [BitVec.getLsbD_ofFnLE, dif_pos (by omega)]
  simp only [Option.some.injEq]
  congr 1
  omega

/-- The bytes of the state in stream order. -/
theorem arrayView_eq (s : Lanes) : bigOctetBigBit.arrayView s = flipOctets (fipsState s) := by
  apply List.ext_getElem?
  intro k
  rw [getElem?_flipOctets _ (by rw [length_fipsState]; decide)]
  by_cases hk : k < 1600
  · rw [getElem?_fipsState _ _ (by omega)]
    unfold Endian.arrayView
    rw [getElem?_flatMap_const _ 64 (by omega) _ (by simp [Endian.view])]
    have h1 : k / 64 < 25 := by omega
    have h2 : k % 64 < 64 := by omega
    have e1 : (8 * (k / 8) + (7 - k % 8)) / 64 = k / 64 := by omega
    simp only [e1]
    simp [h1, h2, Endian.view, Endian.pos, bigOctetBigBit]
    show s[k / 64].getLsbD _ = _
    congr 1
    omega
  · rw [List.getElem?_eq_none, List.getElem?_eq_none]
    · rw [length_fipsState]; omega
    · unfold Endian.arrayView
      rw [length_flatMap_const _ 64 _ (by simp [Endian.view])]
      simp; omega

/-- Absorbing one block. -/
theorem fipsState_compress (permute : Lanes → Lanes) (r : Nat) (hr : 64 ∣ r) (hr' : r ≤ 1600)
    (s : Lanes) (b : Bits) (hb : b.length = r) :
    fipsState (spongeCompress permute r s b) = onStrings permute
      (xorBits (fipsState s) (flipOctets b ++ List.replicate (1600 - r) false)) := by
  have swap2 : ∀ A : Lanes, (A.map byteSwap64).map byteSwap64 = A := by
    intro A
    apply Vector.ext
    intro i hi
    rw [Vector.getElem_map, Vector.getElem_map]
    apply BitVec.eq_of_getLsbD_eq
    intro z hz
    unfold byteSwap64
    rw [BitVec.getLsbD_ofFnLE, dif_pos hz, BitVec.getLsbD_ofFnLE, dif_pos (by show _ < 64; omega)]
    congr 1
    simp only
    omega
  unfold fipsState onStrings
  unfold spongeCompress
  simp only
  rw [swap2]
  refine congrArg (fun v => laneString (permute v)) ?_
  apply Vector.ext
  intro i hi
  apply BitVec.eq_of_getLsbD_eq
  intro z hz
  unfold stringLanes
  rw [Vector.getElem_map, Vector.getElem_ofFn, Vector.getElem_ofFn, BitVec.getLsbD_ofFnLE, dif_pos hz]
  unfold byteSwap64
  rw [BitVec.getLsbD_ofFnLE, dif_pos hz, List.getD_eq_getElem?_getD]
  unfold xorBits
  rw [List.getElem?_zipWith]
  have hs := getElem?_fipsState s (64 * i + z) (by omega)
  unfold fipsState at hs
  unfold byteSwap64 at hs
  simp only
  rw [hs]
  have e1 : (64 * i + z) / 64 = i := by omega
  have e2 : (64 * i + z) % 64 = z := by omega
  have e3 : (64 * i + z) % 8 = z % 8 := by omega
  simp only [e1, e2, e3]
  by_cases hi' : i < r / 64
  · rw [if_pos hi']
    rw [List.getElem?_append_left (by rw [length_flipOctets, hb]; omega),
      getElem?_flipOctets _ (by omega)]
    unfold Endian.word
    rw [BitVec.getLsbD_xor, BitVec.getLsbD_ofFnLE, dif_pos (by omega)]
    have e4 : 8 * ((64 * i + z) / 8) + (7 - (64 * i + z) % 8) = 64 * i + bigOctetBigBit.pos 64
        (8 * (7 - z / 8) + z % 8) := by
      simp [Endian.pos, bigOctetBigBit]; omega
    have hl : 8 * ((64 * i + z) / 8) + (7 - (64 * i + z) % 8) < b.length := by omega
    rw [List.getD_eq_getElem?_getD, ← e4, List.getElem?_eq_getElem hl]
    rfl
  · rw [if_neg hi']
    rw [List.getElem?_append_right (by rw [length_flipOctets, hb]; omega), length_flipOctets, hb,
      List.getElem?_replicate, if_pos (by omega)]
    simp

end Verif
