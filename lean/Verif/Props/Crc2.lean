import Mathlib.RingTheory.AdjoinRoot
import Mathlib.GroupTheory.OrderOfElement
import Mathlib.Tactic.NormNum.Prime
import Verif.Props.Crc
/- C80 (which errors a CRC detects; double-bit errors), C81 (four octets reach every checksum). -/
open Polynomial

namespace Verif.Props

open Verif.Crc Verif.Spec.Crc

variable {N : Nat}

theorem length_messageBits (ri : Bool) (l : List Nat) : (messageBits ri l).length = 8 * l.length := by
  induction l with
  | nil => rfl
  | cons x l ih =>
    unfold messageBits at ih ⊢
    rw [List.flatMap_cons, List.length_append, ih]; simp; omega

theorem octets_injective (h8 : 8 ∣ N) {s s' : BitVec N} (h : octets s = octets s') : s = s' := by
  obtain ⟨n, rfl⟩ := h8
  apply BitVec.eq_of_getLsbD_eq
  intro i hi
  have hk : n - 1 - i / 8 < n := by omega
  have := congrArg (fun l => l[n - 1 - i / 8]?) h
  simp only [octets, List.getElem?_map] at this
  rw [show 8 * n / 8 = n by omega, List.getElem?_range hk] at this
  simp only [Option.map_some, Option.some.injEq] at this
  have := congrArg (fun x => x.testBit (i % 8)) this
  simp only [show (256 : Nat) = 2 ^ 8 by rfl, ← Nat.pow_mul, Nat.testBit_mod_two_pow,
    Nat.testBit_div_two_pow] at this
  rw [decide_eq_true (by omega : i % 8 < 8), Bool.true_and, Bool.true_and,
    show i % 8 + 8 * (n - 1 - (n - 1 - i / 8)) = i by omega] at this
  rw [← BitVec.testBit_toNat, ← BitVec.testBit_toNat]
  exact this

theorem generator_coprime {P : Params N} (hN : 0 < N) (hodd : P.poly.getLsbD 0 = true) :
    IsCoprime (X : (ZMod 2)[X]) (generator P.poly) := by
  have h0 : (generator P.poly).coeff 0 = 1 := by
    unfold generator
    rw [coeff_add, coeff_ofWord, hodd, coeff_X_pow, if_neg (by omega)]; rfl
  refine ⟨-(generator P.poly).divX, 1, ?_⟩
  have := divX_mul_X_add (generator P.poly)
  rw [h0] at this
  have h1 : (C 1 : (ZMod 2)[X]) = 1 := C_1
  rw [h1] at this
  linear_combination -this

/-- C80: which errors a CRC detects.  Two messages of equal length have the same digest exactly if the generator divides
the polynomial of their difference. -/
theorem C80_errors_exact (P : Params N) (hN : 0 < N) (h8 : 8 ∣ N) (hodd : P.poly.getLsbD 0 = true) (a b : List Nat)
    (hl : a.length = b.length) :
    P.digest (a.foldl P.byte P.init) = P.digest (b.foldl P.byte P.init) ↔
      generator P.poly ∣ ofBits (messageBits P.reflectIn a) - ofBits (messageBits P.reflectIn b) := by
  constructor
  · intro h
    rw [digest_octets P h8, digest_octets P h8] at h
    have hsum := octets_injective h8 h
    have hd := same_checksum (checksum_is P hN a) (hsum ▸ checksum_is P hN b) hl
    exact ((generator_coprime hN hodd).symm.pow_right (n := N)).dvd_of_dvd_mul_right hd
  · intro h
    have : a.foldl P.byte P.init = b.foldl P.byte P.init := by
      apply ofWord_injective
      rw [register_is_remainder P hN, register_is_remainder P hN]
      unfold remainder
      rw [length_messageBits, length_messageBits, hl, ← sub_eq_zero, ← sub_modByMonic,
        modByMonic_eq_zero_iff_dvd (monic_generator P.poly)]
      have e : ∀ p q r s : (ZMod 2)[X], p * s + r - (q * s + r) = (p - q) * s := fun p q r s => by ring
      rw [e]
      exact Dvd.dvd.mul_right h _
    rw [this]

/-- A flipped bit: the digests of `[1, 2]` and `[1, 3]` differ, so the generator does not divide the difference. -/
example : ¬ generator crc32Png.poly ∣ ofBits (messageBits true [1, 2]) - ofBits (messageBits true [1, 3]) :=
  fun h => absurd ((C80_errors_exact crc32Png (by decide) (by decide) (by decide) [1, 2] [1, 3] rfl).2 h)
    (by decide +kernel)

/-- C80: `x` has order `n` modulo the generator. -/
def OrderOfX (poly : BitVec N) (n : Nat) : Prop := ∀ d, generator poly ∣ X ^ d - 1 ↔ n ∣ d

theorem char_two (p : (ZMod 2)[X]) : p + p = 0 := by
  have : (2 : (ZMod 2)[X]) = 0 := by
    have : ((2 : ZMod 2)) = 0 := by decide
    have := congrArg (C : ZMod 2 →+* _) this
    rwa [C_0, map_ofNat] at this
  linear_combination p * this

theorem flip_diff (x : Bool) : (C (coefficient x) : (ZMod 2)[X]) - C (coefficient (!x)) = 1 := by
  have : ∀ x, coefficient x - coefficient (!x) = 1 := by decide
  rw [← C_sub, this, C_1]

/-- C80: two flipped bits at distance `d` go unnoticed exactly if the order of `x` divides `d`. -/
theorem C80_two_bits (P : Params N) (hN : 0 < N) (h8 : 8 ∣ N) (hodd : P.poly.getLsbD 0 = true) {n : Nat}
    (hn : OrderOfX P.poly n) (a b : List Nat) (u v w : List Bool) (x y : Bool)
    (ha : messageBits P.reflectIn a = u ++ x :: v ++ y :: w)
    (hb : messageBits P.reflectIn b = u ++ (!x) :: v ++ (!y) :: w) (hl : a.length = b.length) :
    P.digest (a.foldl P.byte P.init) = P.digest (b.foldl P.byte P.init) ↔ n ∣ v.length + 1 := by
  rw [C80_errors_exact P hN h8 hodd a b hl, ha, hb, ← hn]
  have hdiff : ofBits (u ++ x :: v ++ y :: w) - ofBits (u ++ (!x) :: v ++ (!y) :: w) =
      (X ^ (v.length + 1) - 1) * X ^ w.length := by
    have e : ∀ x y : Bool, ofBits (u ++ x :: v ++ y :: w) =
        ofBits u * X ^ (v.length + 1 + w.length + 1) + C (coefficient x) * X ^ (v.length + w.length + 1) +
          ofBits v * X ^ (w.length + 1) + C (coefficient y) * X ^ w.length + ofBits w := by
      intro x y
      rw [List.append_assoc, ofBits_append, List.cons_append, ofBits, ofBits_append, ofBits]
      simp only [List.length_cons, List.length_append, pow_add, pow_one]
      ring
    rw [e, e]
    have h1 := flip_diff x
    have h2 := flip_diff y
    have h3 := char_two (X ^ w.length : (ZMod 2)[X])
    simp only [pow_add, pow_one] at h3 ⊢
    linear_combination (X ^ v.length * X ^ w.length * X) * h1 + X ^ w.length * h2 + h3
  rw [hdiff]
  constructor
  · exact ((generator_coprime hN hodd).symm.pow_right (n := w.length)).dvd_of_dvd_mul_right
  · intro h; exact Dvd.dvd.mul_right h _

/-! ### The order of `x` for CRC-32 -/

/-- Evaluates its argument first (for the kernel). -/
def force {α : Type} (v : BitVec N) (k : BitVec N → α) : α :=
  match v.toNat with
  | 0 => k 0
  | n + 1 => k (BitVec.ofNat N (n + 1))

theorem force_eq {α : Type} (v : BitVec N) (k : BitVec N → α) : force v k = k v := by
  unfold force
  split
  · rename_i h
    rw [show v = 0 from BitVec.eq_of_toNat_eq (by simpa using h)]
  · rename_i n h
    rw [show n + 1 = v.toNat from h.symm, BitVec.ofNat_toNat, BitVec.setWidth_eq]

/-- Multiplication of remainders: Horner's rule over the bits of the second factor. -/
def mulStep (P : Params N) (a : BitVec N) (r : BitVec N) (b : Bool) : BitVec N :=
  force r fun r => P.bit r false ^^^ (if b then a else 0)

def mulMod (P : Params N) (a b : BitVec N) : BitVec N :=
  ((List.range N).map b.getMsbD).foldl (mulStep P a) 0

/-- `x` to the power with the given binary digits, most significant first. -/
def powStep (P : Params N) (r : BitVec N) (b : Bool) : BitVec N :=
  force r fun r => force (mulMod P r r) fun s => if b then P.bit s false else s

/-- The value of binary digits, most significant first. -/
def binary (bs : List Bool) : Nat := bs.foldl (fun n b => 2 * n + b.toNat) 0

section
variable (P : Params N)

/-- The residue class of a remainder. -/
noncomputable def residue (v : BitVec N) : AdjoinRoot (generator P.poly) := AdjoinRoot.mk _ (ofWord v)

theorem ofWord_xor (u v : BitVec N) : ofWord (u ^^^ v) = ofWord u + ofWord v := by
  ext k
  rw [coeff_add, coeff_ofWord, coeff_ofWord, coeff_ofWord, BitVec.getLsbD_xor, coefficient_xor]

theorem ofWord_zero : ofWord (0 : BitVec N) = 0 := by
  ext k
  rw [coeff_ofWord]; simp [coefficient]

theorem residue_bit (hN : 0 < N) (v : BitVec N) :
    residue P (P.bit v false) = residue P v * AdjoinRoot.root (generator P.poly) := by
  have := congrArg (AdjoinRoot.mk (generator P.poly)) (bit_poly P hN v false)
  have h0 : coefficient false = 0 := rfl
  rw [h0, C_0, zero_mul, add_zero, map_mul, map_add, map_mul, AdjoinRoot.mk_self, zero_mul, add_zero,
    AdjoinRoot.mk_X] at this
  unfold residue
  rw [← this, mul_comm]

theorem residue_mulMod (hN : 0 < N) (a b : BitVec N) : residue P (mulMod P a b) = residue P a * residue P b := by
  unfold mulMod
  have key : ∀ bs : List Bool, residue P (bs.foldl (mulStep P a) 0) =
      residue P a * AdjoinRoot.mk (generator P.poly) (ofBits bs) := by
    intro bs
    induction bs using List.reverseRecOn with
    | nil =>
      rw [List.foldl_nil, ofBits, map_zero, mul_zero]
      unfold residue
      rw [ofWord_zero, map_zero]
    | append_singleton bs b ih =>
      rw [List.foldl_append, List.foldl_cons, List.foldl_nil, ofBits_snoc]
      unfold mulStep at ih ⊢
      simp only [force_eq] at ih ⊢
      have hx : ∀ u v : BitVec N, residue P (u ^^^ v) = residue P u + residue P v := by
        intro u v; unfold residue; rw [ofWord_xor, map_add]
      rw [hx, residue_bit P hN, ih, map_add, map_mul, AdjoinRoot.mk_X]
      cases b with
      | false =>
        simp only [coefficient, Bool.false_eq_true, if_false, C_0, map_zero]
        rw [show residue P (0 : BitVec N) = 0 by unfold residue; rw [ofWord_zero, map_zero]]
        ring
      | true =>
        simp only [coefficient, if_true, C_1, map_one]
        ring
  exact key _

theorem residue_pow (hN : 0 < N) (one : BitVec N) (h1 : residue P one = 1) (bs : List Bool) :
    residue P (bs.foldl (powStep P) one) = AdjoinRoot.root (generator P.poly) ^ binary bs := by
  unfold binary
  induction bs using List.reverseRecOn with
  | nil => simpa using h1
  | append_singleton bs b ih =>
    rw [List.foldl_append, List.foldl_append, List.foldl_cons, List.foldl_nil, List.foldl_cons, List.foldl_nil]
    unfold powStep at ih ⊢
    simp only [force_eq] at ih ⊢
    cases b with
    | false =>
      simp only [Bool.false_eq_true, if_false, Bool.toNat_false, add_zero]
      rw [residue_mulMod P hN, ih, ← pow_add, two_mul]
    | true =>
      simp only [if_true, Bool.toNat_true]
      rw [residue_bit P hN, residue_mulMod P hN, ih, ← pow_add, ← pow_succ, two_mul]

theorem residue_one (hN : 0 < N) : residue P (1#N) = 1 := by
  unfold residue
  have : ofWord (1#N) = 1 := by
    ext k
    rw [coeff_ofWord, coeff_one]
    by_cases hk : k = 0
    · subst hk; simp [hN, coefficient]
    · simp [hk, coefficient, eq_comm]
  rw [this, map_one]

theorem residue_injective {u v : BitVec N} (h : residue P u = residue P v) : u = v := by
  apply ofWord_injective
  unfold residue at h
  have h' := AdjoinRoot.mk_eq_mk.1 h
  by_contra hne
  refine Monic.not_dvd_of_degree_lt (monic_generator P.poly) (sub_ne_zero.2 hne) ?_ h'
  rw [degree_generator]
  exact lt_of_le_of_lt (degree_sub_le _ _) (max_lt (degree_ofWord u) (degree_ofWord v))

theorem dvd_iff_root_pow (d : Nat) :
    generator P.poly ∣ X ^ d - 1 ↔ AdjoinRoot.root (generator P.poly) ^ d = 1 := by
  rw [← AdjoinRoot.mk_eq_zero, map_sub, map_pow, AdjoinRoot.mk_X, map_one, sub_eq_zero]
end

/-- The binary digits of a number, most significant first. -/
def digits (k n : Nat) : List Bool := (List.range k).map fun i => n.testBit (k - 1 - i)

/-- C80: the order of `x` modulo the generator of CRC-32 is `2^32 - 1 = 3 * 5 * 17 * 257 * 65537`: the generator is
primitive. -/
theorem C80_crc32_order : OrderOfX crc32Png.poly (2 ^ 32 - 1) := by
  have hpow : ∀ n, binary (digits 32 n) = n →
      (AdjoinRoot.root (generator crc32Png.poly) ^ n = 1 ↔ (digits 32 n).foldl (powStep crc32Png) 1#32 = 1#32) := by
    intro n hn
    have := residue_pow crc32Png (by decide) 1#32 (residue_one _ (by decide)) (digits 32 n)
    rw [hn] at this
    rw [← this, ← residue_one crc32Png (by decide)]
    exact ⟨fun h => residue_injective _ h, fun h => by rw [h]⟩
  have hne : ∀ n, binary (digits 32 n) = n → (digits 32 n).foldl (powStep crc32Png) 1#32 ≠ 1#32 →
      AdjoinRoot.root (generator crc32Png.poly) ^ n ≠ 1 := fun n h1 h2 h3 => h2 ((hpow n h1).1 h3)
  have horder : orderOf (AdjoinRoot.root (generator crc32Png.poly)) = 2 ^ 32 - 1 := by
    apply orderOf_eq_of_pow_and_pow_div_prime (by decide)
    · exact (hpow _ (by decide +kernel)).2 (by decide +kernel)
    · intro p hp hd
      rw [show 2 ^ 32 - 1 = 3 * (5 * (17 * (257 * 65537))) by norm_num] at hd
      have h1 : ∀ q, Nat.Prime q → p ∣ q → p = q := fun q hq h => (Nat.prime_dvd_prime_iff_eq hp hq).1 h
      rcases (Nat.Prime.dvd_mul hp).1 hd with h | hd
      · obtain rfl := h1 3 (by norm_num) h
        exact hne _ (by decide +kernel) (by decide +kernel)
      rcases (Nat.Prime.dvd_mul hp).1 hd with h | hd
      · obtain rfl := h1 5 (by norm_num) h
        exact hne _ (by decide +kernel) (by decide +kernel)
      rcases (Nat.Prime.dvd_mul hp).1 hd with h | hd
      · obtain rfl := h1 17 (by norm_num) h
        exact hne _ (by decide +kernel) (by decide +kernel)
      rcases (Nat.Prime.dvd_mul hp).1 hd with h | h
      · obtain rfl := h1 257 (by norm_num) h
        exact hne _ (by decide +kernel) (by decide +kernel)
      · obtain rfl := h1 65537 (by norm_num) h
        exact hne _ (by decide +kernel) (by decide +kernel)
  intro d
  rw [dvd_iff_root_pow, ← horder, orderOf_dvd_iff_pow_eq_one]

/-- `C80_two_bits` on the first and the last bit of four octets, at distance 31. -/
example : crc32Png.digest ([0x01, 2, 3, 0x80].foldl crc32Png.byte crc32Png.init) =
    crc32Png.digest ([0x00, 2, 3, 0x00].foldl crc32Png.byte crc32Png.init) ↔ 2 ^ 32 - 1 ∣ 31 :=
  C80_two_bits crc32Png (by decide) (by decide) (by decide) C80_crc32_order _ _ []
    ((messageBits true [0x01, 2, 3, 0x80]).tail.take 30) [] true true (by decide) (by decide) rfl

/-- C80: `crc32_png` detects every double-bit error in messages of less than `2^32` bits, that is below 512 MiB. -/
theorem C80_crc32_two_bits (a b : List Nat) (u v w : List Bool) (x y : Bool)
    (ha : messageBits true a = u ++ x :: v ++ y :: w) (hb : messageBits true b = u ++ (!x) :: v ++ (!y) :: w)
    (hlen : a.length < 2 ^ 29) :
    crc32Png.digest (a.foldl crc32Png.byte crc32Png.init) ≠ crc32Png.digest (b.foldl crc32Png.byte crc32Png.init) := by
  have h1 := congrArg List.length ha
  have h2 := congrArg List.length hb
  rw [length_messageBits] at h1 h2
  simp only [List.length_append, List.length_cons] at h1 h2
  rw [Ne, C80_two_bits crc32Png (by decide) (by decide) (by decide) C80_crc32_order a b u v w x y ha hb (by omega)]
  intro h
  have := Nat.le_of_dvd (by omega) h
  omega

/-- The first and the last bit of four octets. -/
example : crc32Png.digest ([0x01, 2, 3, 0x80].foldl crc32Png.byte crc32Png.init) ≠
    crc32Png.digest ([0x00, 2, 3, 0x00].foldl crc32Png.byte crc32Png.init) :=
  C80_crc32_two_bits _ _ [] ((messageBits true [0x01, 2, 3, 0x80]).tail.take 30) [] true true (by decide) (by decide)
    (by decide)

/-! ### Odd numbers of errors -/

/-- The number of positions at which two bit strings differ. -/
def distance : List Bool → List Bool → Nat
  | x :: u, y :: v => (x ^^ y).toNat + distance u v
  | _, _ => 0

theorem eval_ofBits_sub (u v : List Bool) (h : u.length = v.length) :
    (ofBits u - ofBits v).eval 1 = (distance u v : ZMod 2) := by
  induction u generalizing v with
  | nil => obtain rfl : v = [] := List.length_eq_zero_iff.1 h.symm; simp [ofBits, distance]
  | cons x u ih =>
    match v, h with
    | y :: v, h =>
      have := ih v (by simpa using h)
      rw [eval_sub] at this ⊢
      simp only [ofBits, distance, eval_add, eval_mul, eval_C, eval_pow, eval_X, one_pow, mul_one, Nat.cast_add]
      rw [← this]
      have : coefficient x - coefficient y = ((x ^^ y).toNat : ZMod 2) := by cases x <;> cases y <;> decide
      linear_combination this

/-- C80: a generator with an even number of terms (an odd number of ones in `poly`) detects every odd number of bit
errors. -/
theorem C80_odd_errors (P : Params N) (hN : 0 < N) (h8 : 8 ∣ N) (hodd : P.poly.getLsbD 0 = true)
    (hpar : (((List.range N).map P.poly.getMsbD).countP (· = true)) % 2 = 1) (a b : List Nat) (hl : a.length = b.length)
    (hd : distance (messageBits P.reflectIn a) (messageBits P.reflectIn b) % 2 = 1) :
    P.digest (a.foldl P.byte P.init) ≠ P.digest (b.foldl P.byte P.init) := by
  intro h
  have hdvd := (C80_errors_exact P hN h8 hodd a b hl).1 h
  have hroot : (generator P.poly).eval 1 = 0 := by
    have key : ∀ bs : List Bool, (ofBits bs).eval 1 = ((bs.countP (· = true) : Nat) : ZMod 2) := by
      intro bs
      induction bs with
      | nil => simp [ofBits]
      | cons x bs ih =>
        rw [ofBits, eval_add, ih, List.countP_cons]
        cases x <;> simp [coefficient, add_comm]
    unfold generator ofWord
    rw [eval_add, key, eval_pow, eval_X, one_pow]
    have : (((List.range N).map P.poly.getMsbD).countP (· = true) : ZMod 2) = ((1 : Nat) : ZMod 2) :=
      (ZMod.natCast_eq_natCast_iff' _ _ 2).2 (by rw [hpar])
    rw [this]; decide
  have h0 := eval_ofBits_sub (messageBits P.reflectIn a) (messageBits P.reflectIn b)
    (by rw [length_messageBits, length_messageBits, hl])
  obtain ⟨q, hq⟩ := hdvd
  rw [hq, eval_mul, hroot, zero_mul] at h0
  have h1 : ((0 : Nat) : ZMod 2) =
      ((distance (messageBits P.reflectIn a) (messageBits P.reflectIn b) : Nat) : ZMod 2) := by
    rw [Nat.cast_zero]; exact h0
  rw [ZMod.natCast_eq_natCast_iff' 0 _ 2, hd] at h1
  exact absurd h1 (by decide)

/-- CRC-16-CCITT meets the hypotheses, CRC-32 does not. -/
example : let P : Params 16 := ⟨0x1021, 0xffff, 0, false, false⟩
    P.poly.getLsbD 0 = true ∧ (((List.range 16).map P.poly.getMsbD).countP (· = true)) % 2 = 1 ∧
    (((List.range 32).map crc32Png.poly.getMsbD).countP (· = true)) % 2 = 0 := by decide

/-- C80: CRC-32 does not detect all odd numbers of errors: the generator itself, with its 15 terms, goes unnoticed. -/
theorem C80_crc32_odd_undetected : distance (messageBits true [0, 0, 0, 0, 0]) (messageBits true [0x41, 0x06, 0x71, 0xdb, 0x01]) = 15 ∧
    crc32Png.digest ([0, 0, 0, 0, 0].foldl crc32Png.byte crc32Png.init) =
      crc32Png.digest ([0x41, 0x06, 0x71, 0xdb, 0x01].foldl crc32Png.byte crc32Png.init) := by decide +kernel

/-! ### C81 -/

theorem messageBits_injective (ri : Bool) : ∀ {a b : List Nat}, (∀ x ∈ a, x < 256) → (∀ x ∈ b, x < 256) →
    messageBits ri a = messageBits ri b → a = b
  | [], [], _, _, _ => rfl
  | [], y :: b, _, _, h => by have := congrArg List.length h; simp [length_messageBits] at this
  | x :: a, [], _, _, h => by have := congrArg List.length h; simp [length_messageBits] at this
  | x :: a, y :: b, ha, hb, h => by
    unfold messageBits at h
    rw [List.flatMap_cons, List.flatMap_cons] at h
    obtain ⟨h1, h2⟩ := List.append_inj h (by simp)
    have hxy : x = y := by
      apply Nat.eq_of_testBit_eq
      intro i
      by_cases hi : i < 8
      · have e := fun j : Nat => congrArg (fun l => l[j]?) h1
        simp only [List.getElem?_map] at e
        cases ri
        · have := e (7 - i)
          rw [List.getElem?_range (by omega)] at this
          simpa [show 7 - (7 - i) = i by omega] using this
        · have := e i
          rw [List.getElem?_range hi] at this
          simpa using this
      · rw [Nat.testBit_lt_two_pow, Nat.testBit_lt_two_pow]
        · exact lt_of_lt_of_le (hb y (by simp)) (Nat.pow_le_pow_right (n := 2) (by decide) (by omega : 8 ≤ i))
        · exact lt_of_lt_of_le (ha x (by simp)) (Nat.pow_le_pow_right (n := 2) (by decide) (by omega : 8 ≤ i))
    rw [hxy, messageBits_injective ri (fun x hx => ha x (by simp [hx])) (fun x hx => hb x (by simp [hx])) h2]

/-- C81: after any message, exactly one continuation of `N / 8` octets leads to a given digest. -/
theorem C81_suffix (P : Params N) (hN : 0 < N) (h8 : 8 ∣ N) (hodd : P.poly.getLsbD 0 = true) (a target : List Nat)
    (ht : target.length = N / 8) (htb : ∀ x ∈ target, x < 256) :
    ∃! s : List Nat, (s.length = N / 8 ∧ ∀ x ∈ s, x < 256) ∧ P.digest ((a ++ s).foldl P.byte P.init) = target := by
  have hdig : ∀ r : BitVec N, (P.digest r).length = N / 8 ∧ ∀ x ∈ P.digest r, x < 256 := by
    intro r
    rw [digest_octets P h8]
    unfold octets
    refine ⟨by simp, fun x hx => ?_⟩
    obtain ⟨k, _, rfl⟩ := List.mem_map.1 hx
    exact Nat.mod_lt _ (by decide)
  let Oct := {s : List Nat // s.length = N / 8 ∧ ∀ x ∈ s, x < 256}
  have : Finite Oct := by
    apply Finite.of_injective (fun s : Oct => (fun i : Fin (N / 8) => (⟨s.1.getD i.1 0, by
      rw [List.getD_eq_getElem?_getD]
      by_cases hi : i.1 < s.1.length
      · rw [List.getElem?_eq_getElem hi]; exact s.2.2 _ (List.getElem_mem hi)
      · rw [List.getElem?_eq_none (by omega)]; decide⟩ : Fin 256)))
    intro s t h
    apply Subtype.ext
    apply List.ext_getElem (s.2.1.trans t.2.1.symm)
    intro i h1 h2
    have := congrArg (fun f => (f ⟨i, by rw [← s.2.1]; exact h1⟩).1) h
    simpa [List.getD_eq_getElem?_getD, List.getElem?_eq_getElem, h1, h2] using this
  let f : Oct → Oct := fun s => ⟨P.digest ((a ++ s.1).foldl P.byte P.init), hdig _⟩
  have hinj : Function.Injective f := by
    intro s t h
    by_contra hne
    have h' := congrArg Subtype.val h
    refine C56_burst_errors P hN h8 hodd (a ++ s.1) (a ++ t.1) (messageBits P.reflectIn a)
      (messageBits P.reflectIn s.1) (messageBits P.reflectIn t.1) [] ?_ ?_ ?_ ?_ ?_ ?_ h'
    · simp [messageBits]
    · simp [messageBits]
    · simp [s.2.1, t.2.1]
    · rw [length_messageBits, length_messageBits, s.2.1, t.2.1]
    · rw [length_messageBits, s.2.1]; omega
    · exact fun e => hne (Subtype.ext (messageBits_injective _ s.2.2 t.2.2 e))
  obtain ⟨s, hs⟩ := Finite.surjective_of_injective hinj ⟨target, ht, htb⟩
  refine ⟨s.1, ⟨s.2, congrArg Subtype.val hs⟩, ?_⟩
  intro t ⟨ht, he⟩
  exact congrArg Subtype.val (hinj (a₁ := ⟨t, ht⟩) (a₂ := s) (Subtype.ext (he.trans (congrArg Subtype.val hs).symm)))

/-- The digest of every message can be set to zero by four more octets. -/
example (a : List Nat) : ∃ s : List Nat, crc32Png.digest ((a ++ s).foldl crc32Png.byte crc32Png.init) = [0, 0, 0, 0] := by
  obtain ⟨s, h, -⟩ := C81_suffix crc32Png (by decide) (by decide) (by decide) a [0, 0, 0, 0] rfl (by decide)
  exact ⟨s, h.2⟩

end Verif.Props
