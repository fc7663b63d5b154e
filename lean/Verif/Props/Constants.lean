import Verif.Props.Modes
import Verif.Props.Keccak
import Verif.Props.Blake2b
import Verif.Props.Ripemd
import Verif.Props.Tiger
/- C53: constants and tables have their published derivations. -/
namespace Verif.Props

open Spec

/-- `x` is the first `w` bits of the fractional part of the `e`-th root of `p`. -/
def IsRootFraction (w e p x : Nat) : Prop :=
  x < 2 ^ w ∧ ∃ a, a ^ e ≤ p ∧ p < (a + 1) ^ e ∧
    (a * 2 ^ w + x) ^ e ≤ p * 2 ^ (e * w) ∧ p * 2 ^ (e * w) < (a * 2 ^ w + x + 1) ^ e

/-- `x` is the integer part of `2^k` times the `e`-th root of `p`. -/
def IsScaledRoot (k e p x : Nat) : Prop := x ^ e ≤ p * 2 ^ (e * k) ∧ p * 2 ^ (e * k) < (x + 1) ^ e

instance (k e p x : Nat) : Decidable (IsScaledRoot k e p x) := inferInstanceAs (Decidable (_ ∧ _))

theorem rootFraction_of (w e p a x : Nat) (h : x < 2 ^ w ∧ a ^ e ≤ p ∧ p < (a + 1) ^ e ∧
    (a * 2 ^ w + x) ^ e ≤ p * 2 ^ (e * w) ∧ p * 2 ^ (e * w) < (a * 2 ^ w + x + 1) ^ e) :
    IsRootFraction w e p x := ⟨h.1, a, h.2⟩

/-- The first sixteen primes, by trial division. -/
def firstPrimes : List Nat :=
  (List.range 54).filter fun n => 2 ≤ n && (List.range n).all fun d => d < 2 || n % d != 0

/-- C53: SHA-256 and SHA-512 start from the fractional parts of the square roots of the first eight
primes, SHA-384 from those of the next eight, SHA-224 from the second 32 bits of those. -/
theorem C53_sha2_initial_values : firstPrimes.length = 16 ∧ ∀ i : Fin 8,
    IsRootFraction 32 2 (firstPrimes.getD i 0) sha256IV[i].toNat ∧
    IsRootFraction 64 2 (firstPrimes.getD i 0) sha512IV[i].toNat ∧
    IsRootFraction 64 2 (firstPrimes.getD (i + 8) 0) sha384IV[i].toNat ∧
    sha224IV[i].toNat = sha384IV[i].toNat % 2 ^ 32 := by
  refine ⟨by decide +kernel, fun i => ?_⟩
  have h1 : ∀ i : Fin 8, ∃ a : Fin 8, sha256IV[i].toNat < 2 ^ 32 ∧ a.1 ^ 2 ≤ firstPrimes.getD i 0 ∧
      firstPrimes.getD i 0 < (a.1 + 1) ^ 2 ∧
      (a.1 * 2 ^ 32 + sha256IV[i].toNat) ^ 2 ≤ firstPrimes.getD i 0 * 2 ^ (2 * 32) ∧
      firstPrimes.getD i 0 * 2 ^ (2 * 32) < (a.1 * 2 ^ 32 + sha256IV[i].toNat + 1) ^ 2 := by decide +kernel
  have h2 : ∀ i : Fin 8, ∃ a : Fin 8, sha512IV[i].toNat < 2 ^ 64 ∧ a.1 ^ 2 ≤ firstPrimes.getD i 0 ∧
      firstPrimes.getD i 0 < (a.1 + 1) ^ 2 ∧
      (a.1 * 2 ^ 64 + sha512IV[i].toNat) ^ 2 ≤ firstPrimes.getD i 0 * 2 ^ (2 * 64) ∧
      firstPrimes.getD i 0 * 2 ^ (2 * 64) < (a.1 * 2 ^ 64 + sha512IV[i].toNat + 1) ^ 2 := by decide +kernel
  have h3 : ∀ i : Fin 8, ∃ a : Fin 8, sha384IV[i].toNat < 2 ^ 64 ∧ a.1 ^ 2 ≤ firstPrimes.getD (i + 8) 0 ∧
      firstPrimes.getD (i + 8) 0 < (a.1 + 1) ^ 2 ∧
      (a.1 * 2 ^ 64 + sha384IV[i].toNat) ^ 2 ≤ firstPrimes.getD (i + 8) 0 * 2 ^ (2 * 64) ∧
      firstPrimes.getD (i + 8) 0 * 2 ^ (2 * 64) < (a.1 * 2 ^ 64 + sha384IV[i].toNat + 1) ^ 2 := by
    decide +kernel
  have h4 : ∀ i : Fin 8, sha224IV[i].toNat = sha384IV[i].toNat % 2 ^ 32 := by decide +kernel
  obtain ⟨a1, h1⟩ := h1 i
  obtain ⟨a2, h2⟩ := h2 i
  obtain ⟨a3, h3⟩ := h3 i
  exact ⟨rootFraction_of _ _ _ a1 _ h1, rootFraction_of _ _ _ a2 _ h2, rootFraction_of _ _ _ a3 _ h3, h4 i⟩

/-- C53: BLAKE2b starts from the initial value of SHA-512. -/
theorem C53_blake2b_initial_value : ∀ i : Fin 8, blakeIV[i] = sha512IV[i] ∧
    IsRootFraction 64 2 (firstPrimes.getD i 0) blakeIV[i].toNat := by
  have h : ∀ i : Fin 8, blakeIV[i] = sha512IV[i] := by decide +kernel
  exact fun i => ⟨h i, by rw [h i]; exact (C53_sha2_initial_values.2 i).2.1⟩

/-- The octets `01 23 45 67 89 ab cd ef fe dc ba 98 76 54 32 10` of RFC 1320 and 1321: counting nibbles
up and down. -/
def countingOctets : List Nat :=
  (List.range 8).map (fun i => 32 * i + (2 * i + 1)) ++
    (List.range 8).map (fun i => 16 * (15 - 2 * i) + (14 - 2 * i))

/-- Little-endian value of four octets. -/
def le4 (l : List Nat) (i : Nat) : Nat :=
  l.getD (4 * i) 0 + 256 * l.getD (4 * i + 1) 0 + 65536 * l.getD (4 * i + 2) 0 +
    16777216 * l.getD (4 * i + 3) 0

/-- C53: MD4, MD5, SHA-1 and RIPEMD start from the counting nibbles, read as little-endian words; the
second halves of RIPEMD-256 and RIPEMD-320 from the same octets with nibbles exchanged. -/
theorem C53_nibble_initial_values : (∀ i : Fin 4, md4IV[i].toNat = le4 countingOctets i ∧
      sha1IV[i.1].toNat = le4 countingOctets i ∧ Ripemd.iv128[i].toNat = le4 countingOctets i ∧
      Ripemd.iv160[i.1].toNat = le4 countingOctets i ∧ Ripemd.iv256[i.1].toNat = le4 countingOctets i ∧
      Ripemd.iv320[i.1].toNat = le4 countingOctets i ∧
      Ripemd.iv256[4 + i.1].toNat =
        le4 (countingOctets.map fun x => x % 16 * 16 + x / 16) i ∧
      Ripemd.iv320[5 + i.1].toNat = Ripemd.iv256[4 + i.1].toNat) ∧
    sha1IV[4].toNat = 0xc3d2e1f0 ∧ Ripemd.iv160[4].toNat = 0xc3d2e1f0 ∧
    Ripemd.iv320[4].toNat = 0xc3d2e1f0 ∧ Ripemd.iv320[9].toNat = 0x3c2d1e0f := by
  decide +kernel

/-- C53: Tiger starts from counting nibbles up, down, and the published third word. -/
theorem C53_tiger_initial_value :
    Tiger.iv[0].toNat = (List.range 16).foldl (fun n i => 16 * n + i) 0 ∧
    Tiger.iv[1].toNat = (List.range 16).foldl (fun n i => 16 * n + (15 - i)) 0 ∧
    Tiger.iv[2].toNat = 0xF096A5B4C3B2E187 := by decide +kernel

/-- C53: the twenty-four Keccak constants are those of the FIPS 202 register. -/
theorem C53_keccak_constants : keccakConstants.length = 24 ∧ ∀ ir : Fin 24, ∀ z : Fin 64,
    (keccakConstants[ir.1]'ir.2)[z] = Spec.Keccak.roundConstant ir.1 z :=
  ⟨by decide, round_table⟩

/-- One BLAKE2b round with a row of a table. -/
def blakeRow (M : Nat → BitVec 64) (v : BlakeWork) (s : List Nat) : BlakeWork :=
  blakeRound M v (s.getD 0 0) (s.getD 1 0) (s.getD 2 0) (s.getD 3 0) (s.getD 4 0) (s.getD 5 0)
    (s.getD 6 0) (s.getD 7 0) (s.getD 8 0) (s.getD 9 0) (s.getD 10 0) (s.getD 11 0) (s.getD 12 0)
    (s.getD 13 0) (s.getD 14 0) (s.getD 15 0)

/-- C53: the rounds of the code use the rows of the RFC 7693 table, each of which is a permutation of
the sixteen message words. -/
theorem C53_blake2b_sigma (M : Nat → BitVec 64) (v : BlakeWork) :
    blakeRounds M v = ((List.range 12).map fun i => Spec.Blake2b.SIGMA.getD (i % 10) []).foldl (blakeRow M) v ∧
    ∀ row ∈ Spec.Blake2b.SIGMA, row.length = 16 ∧ ∀ k, k < 16 → row.count k = 1 := by
  refine ⟨rfl, ?_⟩
  decide +kernel

/-- C53: every row of sixteen entries of the RIPEMD selection tables is a permutation of the message
words; the rotation amounts are between 5 and 15. -/
theorem C53_ripemd_rows :
    Ripemd.r1.length = 80 ∧ Ripemd.r2.length = 80 ∧ Ripemd.s1.length = 80 ∧ Ripemd.s2.length = 80 ∧
    (∀ row, row < 5 → ∀ k, k < 16 → ((Ripemd.r1.drop (16 * row)).take 16).count k = 1 ∧
      ((Ripemd.r2.drop (16 * row)).take 16).count k = 1) ∧
    (∀ x ∈ Ripemd.s1 ++ Ripemd.s2, 5 ≤ x ∧ x ≤ 15) ∧
    ∀ j, j < 80 → Ripemd.r1.getD j 0 = Spec.Ripemd.r j ∧ Ripemd.r2.getD j 0 = Spec.Ripemd.r' j ∧
      Ripemd.s1.getD j 0 = Spec.Ripemd.s j ∧ Ripemd.s2.getD j 0 = Spec.Ripemd.s' j := by
  decide +kernel

/-- C53: the added constants of RIPEMD (used by the code through C25) are the integer parts of `2^30`
times the square roots (left line) and cube roots (right line) of 2, 3, 5, 7. -/
theorem C53_ripemd_constants : ∀ i : Fin 4,
    IsScaledRoot 30 2 (firstPrimes.getD i 0) (Spec.Ripemd.K (16 * (i + 1))).toNat ∧
    IsScaledRoot 30 3 (firstPrimes.getD i 0) (Spec.Ripemd.K5' (16 * i)).toNat ∧
    (i.1 < 3 → Spec.Ripemd.K4' (16 * i) = Spec.Ripemd.K5' (16 * i)) ∧
    Spec.Ripemd.K 0 = 0 ∧ Spec.Ripemd.K5' 64 = 0 ∧ Spec.Ripemd.K4' 48 = 0 := by
  decide +kernel

end Verif.Props
