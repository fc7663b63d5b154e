import Verif.Model.Words
import Verif.Proof.SpongeBytes
/- Octets of words and words of octets. -/
namespace Verif

open Spec

/-- The little-endian value of the octets `g 0, …, g (n-1)`. -/
def leNat (g : Nat → Nat) (n : Nat) : Nat := (List.range n).foldl (fun s k => s + g k * 256 ^ k) 0

theorem leNat_succ (g : Nat → Nat) (n : Nat) : leNat g (n + 1) = leNat g n + g n * 256 ^ n := by
  simp [leNat, List.range_succ]

theorem leNat_lt (g : Nat → Nat) (n : Nat) (h : ∀ k, k < n → g k < 256) : leNat g n < 256 ^ n := by
  induction n with
  | zero => simp [leNat]
  | succ n ih =>
    rw [leNat_succ, Nat.pow_succ]
    have h1 := ih fun k hk => h k (by omega)
    have h2 := Nat.mul_le_mul_right (256 ^ n) (show g n ≤ 255 by have := h n (by omega); omega)
    omega

theorem leNat_testBit (g : Nat → Nat) (n : Nat) (h : ∀ k, k < n → g k < 256) (p : Nat) :
    (leNat g n).testBit p = (decide (p < 8 * n) && (g (p / 8)).testBit (p % 8)) := by
  induction n with
  | zero => simp [leNat]
  | succ n ih =>
    have h1 := leNat_lt g n fun k hk => h k (by omega)
    have e : 256 ^ n = 2 ^ (8 * n) := by rw [Nat.pow_mul]
    rw [leNat_succ, Nat.add_comm, Nat.mul_comm, e, Nat.testBit_two_pow_mul_add _ (by rw [← e]; exact h1),
      ih fun k hk => h k (by omega)]
    by_cases hp : p < 8 * n
    · rw [if_pos hp, decide_eq_true hp, decide_eq_true (by omega)]
    · rw [if_neg hp]
      by_cases hp' : p < 8 * (n + 1)
      · rw [decide_eq_true hp', Bool.true_and]
        rw [show p / 8 = n by omega, show p % 8 = p - 8 * n by omega]
      · rw [decide_eq_false hp', Bool.false_and]
        apply Nat.testBit_lt_two_pow
        have := h n (by omega)
        calc g n < 2 ^ 8 := by omega
          _ ≤ 2 ^ (p - 8 * n) := Nat.pow_le_pow_right (by omega) (by omega)

theorem octetBits_getElem? (bytes : List Nat) (k : Nat) :
    (octetBits bytes)[k]? = bytes[k / 8]?.map fun x => x.testBit (7 - k % 8) := by
  unfold octetBits
  rw [getElem?_flatMap_const _ 8 (by omega) _ (by intro x _; simp [bigEndian])]
  cases bytes[k / 8]? with
  | none => rfl
  | some x =>
    simp only [Option.bind_some, Option.map_some, bigEndian, List.getElem?_map]
    rw [List.getElem?_range (by omega)]
    rfl

theorem octetBits_getD (bytes : List Nat) (k : Nat) :
    (octetBits bytes).getD k false = (bytes.getD (k / 8) 0).testBit (7 - k % 8) := by
  rw [List.getD_eq_getElem?_getD, List.getD_eq_getElem?_getD, octetBits_getElem?]
  cases bytes[k / 8]? <;> simp

theorem octetBits_append (a b : List Nat) : octetBits (a ++ b) = octetBits a ++ octetBits b := by
  simp [octetBits]

theorem octetBits_take (bytes : List Nat) (n : Nat) :
    (octetBits bytes).take (8 * n) = octetBits (bytes.take n) := by
  apply List.ext_getElem?
  intro k
  rw [List.getElem?_take, octetBits_getElem?, octetBits_getElem?, List.getElem?_take]
  by_cases hk : k < 8 * n
  · rw [if_pos hk, if_pos (by omega)]
  · rw [if_neg hk, if_neg (by omega)]; rfl

theorem octetBits_drop (bytes : List Nat) (n : Nat) :
    (octetBits bytes).drop (8 * n) = octetBits (bytes.drop n) := by
  apply List.ext_getElem?
  intro k
  rw [List.getElem?_drop, octetBits_getElem?, octetBits_getElem?, List.getElem?_drop]
  rw [show (8 * n + k) / 8 = n + k / 8 by omega, show (8 * n + k) % 8 = k % 8 by omega]

theorem octetBits_zeros (n : Nat) : octetBits (List.replicate n 0) = List.replicate (8 * n) false := by
  apply List.ext_getElem?
  intro k
  rw [octetBits_getElem?, List.getElem?_replicate, List.getElem?_replicate]
  by_cases hk : k < 8 * n
  · rw [if_pos hk, if_pos (by omega)]; simp
  · rw [if_neg hk, if_neg (by omega)]; rfl

/-- A little-endian word of an octet string. -/
theorem le_word (n : Nat) (bytes : List Nat) (hb : ∀ b ∈ bytes, b < 256) (i : Nat) :
    littleOctetBigBit.word (8 * n) (octetBits bytes) i =
      BitVec.ofNat (8 * n) (leNat (fun k => bytes.getD (n * i + k) 0) n) := by
  apply BitVec.eq_of_getLsbD_eq
  intro p hp
  unfold Endian.word
  rw [BitVec.getLsbD_ofFnLE, dif_pos hp, BitVec.getLsbD_ofNat, decide_eq_true hp, Bool.true_and,
    leNat_testBit, decide_eq_true hp, Bool.true_and, octetBits_getD]
  · simp only [Endian.pos, littleOctetBigBit, if_true, Bool.false_eq_true, if_false]
    rw [show (8 * n * i + (8 * (p / 8) + (7 - p % 8))) / 8 = n * i + p / 8 by
        rw [Nat.mul_assoc]; omega,
      show 7 - (8 * n * i + (8 * (p / 8) + (7 - p % 8))) % 8 = p % 8 by rw [Nat.mul_assoc]; omega]
  · intro k _
    rw [List.getD_eq_getElem?_getD]
    cases h : bytes[n * i + k]? with
    | none => simp
    | some x => exact hb x (List.mem_of_getElem? h)

/-- The view of a word in a little-endian stream. -/
theorem le_view (n x : Nat) : littleOctetBigBit.view (8 * n) x =
    octetBits ((List.range n).map fun k => x / 256 ^ k % 256) := by
  apply List.ext_getElem?
  intro p
  rw [octetBits_getElem?]
  unfold Endian.view
  rw [List.getElem?_map, List.getElem?_map]
  by_cases hp : p < 8 * n
  · rw [List.getElem?_range hp, List.getElem?_range (by omega)]
    simp only [Option.map_some, Endian.pos, littleOctetBigBit, if_true, Bool.false_eq_true, if_false]
    congr 1
    rw [show (256 : Nat) = 2 ^ 8 by rfl, ← Nat.pow_mul, Nat.testBit_mod_two_pow, Nat.testBit_div_two_pow,
      decide_eq_true (by omega), Bool.true_and]
    congr 1
    omega
  · rw [List.getElem?_eq_none (by simp; omega), List.getElem?_eq_none (by simp; omega)]; rfl

/-- The view of an array of words in a little-endian stream. -/
theorem le_arrayView {c : Nat} (n : Nat) (hn : 0 < n) (s : Vector (BitVec (8 * n)) c) :
    littleOctetBigBit.arrayView s = octetBits ((List.range (n * c)).map fun k =>
      (s.toList.getD (k / n) 0).toNat / 256 ^ (k % n) % 256) := by
  have e : ∀ l : List (BitVec (8 * n)), (l.flatMap fun x => littleOctetBigBit.view (8 * n) x.toNat) =
      octetBits ((List.range (n * l.length)).map fun k =>
        (l.getD (k / n) 0).toNat / 256 ^ (k % n) % 256) := by
    intro l
    have e2 : octetBits (l.flatMap fun x => (List.range n).map fun k => x.toNat / 256 ^ k % 256) =
        l.flatMap fun x => littleOctetBigBit.view (8 * n) x.toNat := by
      unfold octetBits
      rw [List.flatMap_assoc]
      congr 1
      funext x
      rw [le_view]; rfl
    rw [← e2]
    congr 1
    apply List.ext_getElem?
    intro k
    rw [getElem?_flatMap_const _ n hn _ (by intro x _; simp), List.getElem?_map]
    by_cases hk : k < n * l.length
    · have hk' : k / n < l.length := Nat.div_lt_of_lt_mul hk
      rw [List.getElem?_range hk, Option.map_some, List.getD_eq_getElem?_getD,
        List.getElem?_eq_getElem hk']
      simp only [Option.bind_some, Option.map_some, Option.getD_some, List.getElem?_map]
      rw [List.getElem?_range (Nat.mod_lt _ hn)]
      rfl
    · have hk' : l.length ≤ k / n := by
        rw [Nat.le_div_iff_mul_le hn, Nat.mul_comm]; omega
      rw [List.getElem?_eq_none hk', List.getElem?_eq_none (by simp; omega)]
      rfl
  unfold Endian.arrayView
  rw [e, Vector.length_toList]

end Verif
