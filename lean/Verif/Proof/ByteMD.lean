import Verif.Spec.ByteMD
import Verif.Spec.MDStandards
import Verif.Proof.Octets
import Verif.Proof.MDHistory
/- Byte strings through a Merkle–Damgård hash. -/
namespace Verif

open Spec

/-- The marker octet and the block and length sizes in octets. -/
def markOctetOf (h : MDHash) : Nat := if h = .tiger192 then 1 else 0x80

theorem encode_bits (S : Standard) (n : Nat) (h8 : 8 ∣ S.length) :
    S.encode n = octetBits (ByteMD.encode S.bigEndianLength (S.length / 8) n) := by
  obtain ⟨L, hL⟩ := h8
  apply List.ext_getElem?
  intro k
  rw [octetBits_getElem?]
  unfold ByteMD.encode Standard.encode
  rw [List.getElem?_map]
  have hL2 : S.length / 8 = L := by omega
  rw [hL2]
  by_cases hk : k < 8 * L
  · rw [List.getElem?_range (by omega)]
    simp only [Option.map_some]
    have h256 : ∀ e, (n / 256 ^ e % 256).testBit (7 - k % 8) = n.testBit (8 * e + (7 - k % 8)) := by
      intro e
      rw [show 256 = 2 ^ 8 from rfl, ← Nat.pow_mul, Nat.testBit_mod_two_pow, Nat.testBit_div_two_pow,
        decide_eq_true (by omega), Bool.true_and, Nat.add_comm]
    cases hb : S.bigEndianLength
    · simp only [Bool.false_eq_true, if_false]
      unfold littleEndianOctets
      rw [List.getElem?_map, hL, List.getElem?_range hk]
      simp only [Option.map_some, h256]
    · simp only [if_true]
      unfold bigEndian
      rw [List.getElem?_map, hL, List.getElem?_range hk]
      simp only [Option.map_some, h256]
      congr 2
      omega
  · rw [List.getElem?_eq_none (by
      cases S.bigEndianLength <;> simp [littleEndianOctets, bigEndian, hL] <;> omega)]
    rw [List.getElem?_eq_none (by simp; omega)]
    rfl

/-- The padded message of a byte string is the bit form of the padded byte string. -/
theorem paddedMessage_bytes (h : MDHash) (bytes : List Nat) :
    paddedMessage h (octetBits bytes) = octetBits (ByteMD.pad ((standard h).block / 8)
      ((standard h).length / 8) (markOctetOf h) (standard h).bigEndianLength bytes) := by
  unfold paddedMessage mdPad ByteMD.pad
  rw [octetBits_append, octetBits_append, octetBits_append, octetBits_zeros,
    encode_bits _ _ (by cases h <;> decide), length_bytes, Nat.mul_comm bytes.length 8]
  congr 1
  rw [List.append_assoc, List.append_assoc]
  congr 1
  have key : ∀ (B L z : Nat) (mk : List Bool) (oct : Nat), mk.length + z = 8 → B = 64 ∨ B = 128 →
      mk ++ List.replicate z false = octetBits [oct] → z < 8 →
      mk ++ List.replicate (fillTo (8 * B) (8 * bytes.length + mk.length + 8 * L)) false =
        octetBits [oct] ++ List.replicate (8 * ((B - (bytes.length + 1 + L) % B) % B)) false := by
    intro B L z mk oct hz hB e hz8
    rw [← e, List.append_assoc, List.replicate_append_replicate]
    congr 2
    unfold fillTo
    rcases hB with rfl | rfl <;> omega
  cases h
  case tiger192 => exact key 64 8 0 _ 1 rfl (Or.inl rfl) (by decide) (by omega)
  case sha384 => exact key 128 16 7 [true] 0x80 rfl (Or.inr rfl) (by decide) (by omega)
  case sha512 => exact key 128 16 7 [true] 0x80 rfl (Or.inr rfl) (by decide) (by omega)
  all_goals exact key 64 8 7 [true] 0x80 rfl (Or.inl rfl) (by decide) (by omega)

theorem blocks_bytes (B : Nat) (bytes : List Nat) (hB : 0 < B) :
    blocks (8 * B) (octetBits bytes) = (ByteMD.blocks B bytes).map octetBits := by
  unfold blocks ByteMD.blocks
  rw [length_bytes, Nat.mul_comm bytes.length 8, Nat.mul_div_mul_left _ _ (by omega), List.map_map]
  apply List.map_congr_left
  intro i _
  simp only [Function.comp, block]
  rw [show i * (8 * B) = 8 * (i * B) by rw [Nat.mul_left_comm], octetBits_drop, octetBits_take]

theorem mem_pad {B L mark : Nat} {be : Bool} {bytes : List Nat} (hm : mark < 256)
    (hb : ∀ b ∈ bytes, b < 256) : ∀ b ∈ ByteMD.pad B L mark be bytes, b < 256 := by
  intro b h
  unfold ByteMD.pad ByteMD.encode at h
  simp only [List.mem_append, List.mem_singleton, List.mem_replicate, List.mem_map] at h
  rcases h with ((h | h) | h) | ⟨k, _, h⟩
  · exact hb b h
  · omega
  · omega
  · rw [← h]; exact Nat.mod_lt _ (by omega)

theorem mem_blocks {B : Nat} {bytes block : List Nat} (hb : ∀ b ∈ bytes, b < 256)
    (h : block ∈ ByteMD.blocks B bytes) : ∀ b ∈ block, b < 256 := by
  unfold ByteMD.blocks at h
  rw [List.mem_map] at h
  obtain ⟨i, _, rfl⟩ := h
  exact fun b h => hb b (List.mem_of_mem_drop (List.mem_of_mem_take h))

theorem leOctets_bits (w : Nat) (words : List (BitVec (8 * w))) :
    (words.flatMap fun x => littleOctetBigBit.view (8 * w) x.toNat) =
      octetBits (ByteMD.leOctets w words) := by
  unfold ByteMD.leOctets octetBits
  rw [List.flatMap_assoc]
  congr 1
  funext x
  rw [le_view]; rfl

theorem foldl_hom_mem {α β γ δ : Type} (f : α → β) (g1 : α → γ → α) (g2 : β → δ → β) (φ : δ → γ)
    (l : List δ) (h : ∀ x, ∀ y ∈ l, f (g1 x (φ y)) = g2 (f x) y) (a : α) :
    f ((l.map φ).foldl g1 a) = l.foldl g2 (f a) := by
  induction l generalizing a with
  | nil => rfl
  | cons y l ih =>
    simp only [List.map_cons, List.foldl_cons]
    rw [ih (fun x z hz => h x z (List.mem_cons_of_mem _ hz)), h a y List.mem_cons_self]

/-- The digest of a byte string by a little-endian hash with 64-octet blocks whose compressor reads
words and whose state is an array of words, all of which are output. -/
theorem le_digest_bytes (h : MDHash) (w n : Nat) (hs : (standard h).block = 512 ∧
    (standard h).length = 64 ∧ (standard h).bigEndianLength = false ∧ (standard h).digest = 8 * w * n)
    {τ : Type} (iv : Vector (BitVec (8 * w)) n)
    (compress : Vector (BitVec (8 * w)) n → (Nat → BitVec (8 * w)) → Vector (BitVec (8 * w)) n)
    (abs : Vector (BitVec (8 * w)) n → τ) (spec : (Nat → BitVec (8 * w)) → τ → τ)
    (words : τ → List (BitVec (8 * w))) (hw : ∀ v, words (abs v) = v.toList)
    (hc : ∀ v X, abs (compress v X) = spec X (abs v)) (bytes : List Nat) (hb : ∀ b ∈ bytes, b < 256) :
    mdDigest h iv (fun s b => compress s (littleOctetBigBit.word (8 * w) b))
        littleOctetBigBit.arrayView (octetBits bytes) =
      octetBits (ByteMD.leDigest w (markOctetOf h) (abs iv) spec words bytes) := by
  unfold mdDigest
  rw [paddedMessage_bytes, hs.1, hs.2.1, hs.2.2.1, hs.2.2.2]
  rw [show (512 : Nat) = 8 * 64 from rfl, show 8 * 64 / 8 = 64 from rfl, blocks_bytes 64 _ (by omega)]
  have hm : markOctetOf h < 256 := by unfold markOctetOf; split <;> omega
  unfold ByteMD.leDigest
  rw [← foldl_hom_mem abs (fun s b => compress s (littleOctetBigBit.word (8 * w) b)) _ octetBits _ ?_ iv,
    hw]
  · rw [← leOctets_bits, List.take_of_length_le]
    · rfl
    · unfold Endian.arrayView
      rw [length_flatMap_const (n := 8 * w)]
      · rw [Vector.length_toList, Nat.mul_comm]
      · intro x _; simp [Endian.view]
  · intro v blk hblk
    rw [hc]
    congr 1
    funext i
    rw [le_word w blk (mem_blocks (mem_pad hm hb) hblk)]
    rfl

end Verif
