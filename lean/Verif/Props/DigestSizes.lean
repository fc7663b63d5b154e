import Verif.Props.Blake2b
import Verif.Props.Modes
import Verif.Props.Sponge2
/-
C116: the digest sizes for which the sponge and BLAKE2b templates work.
-/
namespace Verif.Props

open Spec

/-- The bits in an object of `block_type`: `block_words = block_bits / word_bits` words of 64 bits
(detail/keccak/keccak_policy.hpp:45-47, detail/sha3/sha3_policy.hpp:135-137). -/
def blockTypeBits (d : Nat) : Nat := spongeBlockBits d / 64 * 64

theorem run_cases (J : Injector) (src : Bits) (n : Nat) (dst : Bits) (cursor off : Nat) :
    J.run src n dst cursor off = .error .outOfRange ∨ ∃ b, J.run src n dst cursor off = .ok b ∧ b.length = dst.length := by
  unfold Injector.run
  by_cases h : cursor + n ≤ dst.length ∧ off + n ≤ src.length
  · rw [if_pos h]
    exact .inr ⟨_, rfl, J.length_inject _ _ _ _ _ h.1 h.2⟩
  · rw [if_neg h]
    exact .inl rfl

theorem run_error (J : Injector) (src : Bits) (n : Nat) (dst : Bits) (cursor off : Nat) (h : dst.length < cursor + n) :
    J.run src n dst cursor off = .error .outOfRange := by
  unfold Injector.run
  rw [if_neg (by omega)]

/-- A block that is shorter than `block_bits` cannot be padded: the last bit of the padding is outside. -/
theorem pad_short_block (k : SpongeKind) (B : Nat) (J : Injector) (block : Bits) (seen : Nat) (hs : seen < B) (hl : block.length < B) :
    k.pad B J block seen = .error .outOfRange ∨ ∃ b, k.pad B J block seen = .ok (b, false) ∧ B - seen ≤ 3 := by
  have hfl : (flipOctets block).length = block.length := length_flipOctets block
  cases k with
  | keccak =>
    simp only [SpongeKind.pad, keccakPad]
    by_cases h : B - seen > 1
    · rw [if_pos h]
      left
      simp only [bind, Except.bind]
      rcases run_cases J padOne 1 (flipOctets block) seen 0 with h1 | ⟨b1, h1, l1⟩
      · rw [h1]
      rw [h1]
      rcases run_cases J (List.replicate B false) (B - 1 - (seen + 1)) b1 (seen + 1) 0 with h2 | ⟨b2, h2, l2⟩
      · simp only [h2]
      · simp only [h2]
        rw [run_error J padOne 1 b2 _ 0 (by omega)]
    · rw [if_neg h]
      exact .inr ⟨_, rfl, by omega⟩
  | sha3 =>
    simp only [SpongeKind.pad, sha3Pad]
    by_cases h : B - seen > 3
    · rw [if_pos h]
      left
      simp only [bind, Except.bind]
      rcases run_cases J padZeroOneOne 3 (flipOctets block) seen 0 with h1 | ⟨b1, h1, l1⟩
      · rw [h1]
      rw [h1]
      rcases run_cases J (List.replicate B false) (B - 1 - (seen + 3)) b1 (seen + 3) 0 with h2 | ⟨b2, h2, l2⟩
      · simp only [h2]
      · simp only [h2]
        rw [run_error J padOne 1 b2 _ 0 (by omega)]
    · rw [if_neg h]
      exact .inr ⟨_, rfl, by omega⟩

/-- `process_last` starts behind the message instead of at the beginning of the block, so it leaves the block too, whether it
has `block_bits` bits or fewer. -/
theorem padLast_outside (k : SpongeKind) (B : Nat) (J : Injector) (block : Bits) (seen : Nat) (hB : 8 ≤ B) (hs : seen < B)
    (h3 : B - seen ≤ 3) (hl : block.length ≤ B) : k.padLast B J block seen = .error .outOfRange := by
  have hfl : (flipOctets block).length = block.length := length_flipOctets block
  cases k with
  | keccak =>
    simp only [SpongeKind.padLast, keccakPadLast]
    rw [run_error J _ (B - 1) _ _ 0 (by omega)]
    rfl
  | sha3 =>
    simp only [SpongeKind.padLast, sha3PadLast, bind, Except.bind]
    rcases run_cases J (bigOctetLittleBit.view 64 (2 ^ (3 - (B - seen)) - 1)) (3 - (B - seen)) (flipOctets block) seen 0 with
      h1 | ⟨b1, h1, l1⟩
    · rw [h1]
    · rw [h1]
      simp only
      rw [run_error J _ _ b1 _ 0 (by omega)]

/-- **C116, the part that fails.** For a digest size that is not a multiple of 32 the block (of at least one octet) is smaller than
`block_bits`, and every extraction, of every accumulator, writes outside it. -/
theorem C116_sponge_false (k : SpongeKind) (permute : Lanes → Lanes) {d : Nat} (hd : d ≤ 796) (h32 : ¬ 32 ∣ d) (JP : Injector)
    (a : Acc Lanes) (ha : a.cache.length = blockTypeBits d) : a.result (spongeConstruction k permute d JP) = .error .outOfRange := by
  have hB : blockTypeBits d < spongeBlockBits d ∧ 8 ≤ spongeBlockBits d := by
    unfold blockTypeBits spongeBlockBits
    omega
  unfold Acc.result
  show spongeDigest k (spongeBlockBits d) _ _ JP a.st a.cache a.total = _
  have hm := Nat.mod_lt a.total (show 0 < spongeBlockBits d by omega)
  unfold spongeDigest
  simp only [bind, Except.bind]
  rcases pad_short_block k (spongeBlockBits d) JP a.cache (a.total % spongeBlockBits d) hm (by omega) with h | ⟨b, h, h3⟩
  · rw [h]
  · rw [h]
    simp only [Bool.false_eq_true, if_false]
    rw [padLast_outside k _ JP _ _ (by omega) hm h3 (by rw [List.length_replicate])]

/-- `keccak_1600<200>`, a whole number of octets. -/
example (a : Acc Lanes) (ha : a.cache.length = 18 * 64) :
    a.result (spongeConstruction .keccak keccakPermute 200 spliceInjector) = .error .outOfRange :=
  C116_sponge_false .keccak keccakPermute (by decide) (by decide) _ a (by rw [ha]; rfl)

theorem spongeSize_iff {d : Nat} (h0 : 0 < d) (hd : d ≤ 796) : SpongeSize d ↔ 32 ∣ d :=
  ⟨fun S => by have := S.words; omega, fun h => ⟨h0, by omega, by omega⟩⟩

/-- **C116.** The digest sizes for which `keccak_1600<d>` and `sha3<d>` give the digests of FIPS 202 for all octet strings are
exactly the multiples of 32; for the others not even the empty string has a digest. -/
theorem C116_sponge_iff_partial (k : SpongeKind) (permute : Lanes → Lanes) {d : Nat} (h0 : 0 < d) (hd : d ≤ 796) (JP J : Injector) :
    32 ∣ d ↔ ∀ (garbage : Bits), garbage.length = blockTypeBits d → ∀ (kind : RangeKind) (cache0 bytes : List Nat),
      cache0.length = blockTypeBits d / 8 → bytes.length < 2 ^ 61 →
      hashOnce (spongeConstruction k permute d JP) J (wordElem bigOctetBigBit 8) kind garbage cache0 bytes =
        .ok (octetBits (fipsBytes (sponge 1600 (1600 - 2 * d) (onStrings permute) (fipsBits bytes ++ k.suffix) d))) := by
  constructor
  · intro h garbage hg kind cache0 bytes hc hlen
    have e : blockTypeBits d = spongeBlockBits d := by
      unfold blockTypeBits spongeBlockBits
      omega
    rw [e] at hg hc
    cases k with
    | keccak =>
      rw [C05_keccak_is_sponge permute JP J ((spongeSize_iff h0 hd).2 h) garbage hg kind cache0 bytes hc hlen, SpongeKind.suffix,
        List.append_nil]
    | sha3 => exact C06_sha3_is_sponge permute JP J ((spongeSize_iff h0 hd).2 h) garbage hg kind cache0 bytes hc hlen
  · intro h
    by_contra h32
    have h1 := h (List.replicate (blockTypeBits d) false) List.length_replicate .container
      (List.replicate (blockTypeBits d / 8) 0) [] List.length_replicate (by decide)
    have h2 : hashOnce (spongeConstruction k permute d JP) J (wordElem bigOctetBigBit 8) .container
        (List.replicate (blockTypeBits d) false) (List.replicate (blockTypeBits d / 8) 0) [] =
        (Acc.init (spongeConstruction k permute d JP) (List.replicate (blockTypeBits d) false)).result
          (spongeConstruction k permute d JP) := rfl
    rw [h2, C116_sponge_false k permute hd h32 JP _ List.length_replicate] at h1
    cases h1

/-- `keccak_1600<288>`, a size that FIPS 202 does not list. -/
example (JP J : Injector) :
    hashOnce (spongeConstruction .keccak keccakPermute 288 JP) J (wordElem bigOctetBigBit 8) .container
        (List.replicate 1024 true) (List.replicate 128 7) [97, 98, 99] =
      .ok (octetBits (fipsBytes (sponge 1600 (1600 - 2 * 288) (onStrings keccakPermute)
        (fipsBits [97, 98, 99] ++ SpongeKind.keccak.suffix) 288))) :=
  (C116_sponge_iff_partial .keccak keccakPermute (d := 288) (by decide) (by decide) JP J).1 (by decide) _ List.length_replicate _ _ _
    List.length_replicate (by decide)

/-- **C116**, BLAKE2b: the digest of more than 64 octets is read from behind the state, in every extraction. -/
theorem C116_blake_false {d : Nat} (hd : 520 ≤ d) (JP : Injector) (a : Acc BlakeState) :
    a.result (blake2bConstruction d JP) = .error .outOfRange := by
  unfold Acc.result
  show haifaDigest 1024 64 blakeCompress (blakeOutput d) JP a.st a.cache a.total = _
  have ho : ∀ st, blakeOutput d st = .error .outOfRange := fun st => by
    unfold blakeOutput
    simp only
    rw [if_neg]
    rw [length_arrayView']
    omega
  unfold haifaDigest
  simp only [bind, Except.bind, ho]
  have hp : blake2bPad 1024 64 JP a.cache a.total = .error .outOfRange ∨ ∃ b, blake2bPad 1024 64 JP a.cache a.total = .ok b := by
    unfold blake2bPad
    simp only
    by_cases h1 : a.total = 0 ∨ a.total % 1024 ≠ 0
    · rw [if_pos h1]
      split_ifs
      · rcases run_cases JP _ _ _ _ _ with h | ⟨b, h, _⟩
        · exact .inl h
        · exact .inr ⟨b, h⟩
      all_goals first
        | exact .inr ⟨_, rfl⟩
        | exact .inl rfl
        | (rcases run_cases JP _ _ _ _ _ with h | ⟨b, h, _⟩
           · exact .inl h
           · exact .inr ⟨b, h⟩)
    · rw [if_neg h1]
      exact .inr ⟨_, rfl⟩
  rcases hp with h | ⟨b, h⟩
  · rw [h]
  · rw [h]

example (a : Acc BlakeState) : a.result (blake2bConstruction 1024 spliceInjector) = .error .outOfRange :=
  C116_blake_false (by decide) _ a

/-- **C116.** The digest sizes, in octets, for which `blake2b` gives the digests of RFC 7693 for all octet strings that do not end
with a full block (for the others see C08) are exactly those up to 64; beyond, not even the empty string has a digest. -/
theorem C116_blake_iff_partial (nn : Nat) (JP J : Injector) :
    nn ≤ 64 ↔ ∀ (garbage : Bits), garbage.length = 1024 → ∀ (kind : RangeKind) (cache0 bytes : List Nat),
      cache0.length = 128 → (∀ b ∈ bytes, b < 256) → bytes.length < 2 ^ 61 → (bytes.length = 0 ∨ bytes.length % 128 ≠ 0) →
      hashOnce (blake2bConstruction (8 * nn) JP) J (wordElem littleOctetBigBit 8) kind garbage cache0 bytes =
        .ok (octetBits (Blake2b.blake2b nn bytes)) := by
  constructor
  · intro h garbage hg kind cache0 bytes hc hb hlen hr
    exact C08_rfc7693_partial nn h JP J garbage hg kind cache0 bytes hc hb hlen hr
  · intro h
    by_contra h64
    have h1 := h (List.replicate 1024 false) List.length_replicate .container (List.replicate 128 0) [] List.length_replicate
      (by simp) (by decide) (.inl rfl)
    have h2 : hashOnce (blake2bConstruction (8 * nn) JP) J (wordElem littleOctetBigBit 8) .container
        (List.replicate 1024 false) (List.replicate 128 0) [] =
        (Acc.init (blake2bConstruction (8 * nn) JP) (List.replicate 1024 false)).result (blake2bConstruction (8 * nn) JP) := rfl
    rw [h2, C116_blake_false (by omega)] at h1
    cases h1

/-- The largest size works and the next one does not. -/
example (JP J : Injector) :
    hashOnce (blake2bConstruction 512 JP) J (wordElem littleOctetBigBit 8) .container (List.replicate 1024 true)
      (List.replicate 128 7) [97, 98, 99] = .ok (octetBits (Blake2b.blake2b 64 [97, 98, 99])) :=
  (C116_blake_iff_partial 64 JP J).1 (by decide) _ List.length_replicate _ _ _ List.length_replicate (by decide) (by decide)
    (by decide)

example : ¬ 65 ≤ 64 ∧ ¬ 32 ∣ 200 ∧ 32 ∣ 288 := by decide

end Verif.Props
