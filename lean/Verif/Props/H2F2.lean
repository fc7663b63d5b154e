import Mathlib.Algebra.BigOperators.Fin
import Mathlib.Data.Nat.Digits.Lemmas
import Mathlib.Data.Fintype.BigOperators
import Verif.Props.H2F
import Verif.Props.Modes
/- C37-C40 for the suites of the library (BLS12-381 with SHA-256), and C40, C58. -/
namespace Verif.Props

open Spec

/-! ### C40 -/

theorem foldl_octets (s : List Nat) : ∀ n, s.foldl (fun n b => 256 * n + b) n =
    n * 256 ^ s.length + os2ip s := by
  induction s with
  | nil => intro n; simp [os2ip]
  | cons x s ih =>
    intro n
    rw [List.foldl_cons, ih, os2ip, os2ip, List.reverse_cons, Nat.ofDigits_append, List.length_cons,
      List.length_reverse, Nat.ofDigits_singleton]
    ring

theorem packModular_eq (p : Nat) (s : List Nat) : packModular p s = os2ip s % p := by
  unfold packModular
  rw [foldl_octets]; simp

theorem mapM_ok {α β : Type} (f : α → Except Fault β) (g : α → β) (l : List α)
    (h : ∀ x ∈ l, f x = .ok (g x)) : l.mapM f = .ok (l.map g) := by
  induction l with
  | nil => rfl
  | cons x l ih =>
    rw [List.mapM_cons, h x (by simp)]
    show (l.mapM f >>= _) = _
    rw [ih fun y hy => h y (by simp [hy])]
    rfl

/-- C40: for every expanded octet string the field elements are RFC 9380's, nothing is read out of range. -/
theorem C40_hash_to_field (count m L p : Nat) (bytes : List Nat) (hl : bytes.length = count * m * L) :
    h2fProcess count m L p bytes = .ok (hashToField count m L p bytes) := by
  refine mapM_ok _ _ _ fun i hi => ?_
  refine mapM_ok _ _ _ fun j hj => ?_
  have hi := List.mem_range.1 hi
  have hj := List.mem_range.1 hj
  have hfit : L * (j + i * m) + L ≤ bytes.length := by
    rw [hl]
    have h1 : j + i * m + 1 ≤ count * m := by
      have : (i + 1) * m ≤ count * m := Nat.mul_le_mul_right _ hi
      rw [Nat.add_mul, Nat.one_mul] at this
      omega
    calc L * (j + i * m) + L = (j + i * m + 1) * L := by ring
      _ ≤ _ := Nat.mul_le_mul_right _ h1
  show (readSlice bytes (L * (j + i * m)) L >>= fun s => pure (packModular p s)) = _
  rw [readSlice, if_pos hfit]
  exact congrArg Except.ok (packModular_eq p _)

/-- C40: shape and canonicity: `count` elements of `m` coordinates, each below `p`. -/
theorem C40_canonical (count m L p : Nat) (hp : 0 < p) (bytes : List Nat)
    (hl : bytes.length = count * m * L) :
    ∃ r, h2fProcess count m L p bytes = .ok r ∧ r.length = count ∧
      ∀ e ∈ r, e.length = m ∧ ∀ c ∈ e, c < p := by
  refine ⟨_, C40_hash_to_field count m L p bytes hl, by simp [hashToField], fun e he => ?_⟩
  obtain ⟨i, _, rfl⟩ := List.mem_map.1 he
  refine ⟨by simp, fun c hc => ?_⟩
  obtain ⟨j, _, rfl⟩ := List.mem_map.1 hc
  exact Nat.mod_lt _ hp

example : h2fProcess 2 2 3 1009 [1, 2, 3, 4, 5, 6, 7, 8, 9, 255, 254, 253] =
    .ok [[66051 % 1009, 263430 % 1009], [460809 % 1009, 16776957 % 1009]] := by
  rw [C40_hash_to_field 2 2 3 1009 _ rfl]
  decide

/-! ### C58 -/

/-- All octet strings of length `L`. -/
abbrev OctetString (L : Nat) := Fin L → Fin 256

def OctetString.toList {L : Nat} (s : OctetString L) : List Nat := List.ofFn fun i => (s i).1

theorem length_octetString {L : Nat} (s : OctetString L) : (OctetString.toList s).length = L := by
  simp [OctetString.toList]

theorem octetString_lt {L : Nat} (s : OctetString L) : ∀ x ∈ (OctetString.toList s).reverse, x < 256 := by
  intro x hx
  rw [List.mem_reverse, OctetString.toList, List.mem_ofFn] at hx
  obtain ⟨i, rfl⟩ := hx
  exact (s i).2

theorem os2ip_lt {L : Nat} (s : OctetString L) : os2ip (OctetString.toList s) < 256 ^ L := by
  have := Nat.ofDigits_lt_base_pow_length (by omega) (octetString_lt s)
  rwa [List.length_reverse, length_octetString] at this

/-- `OS2IP` is a bijection from the strings of `L` octets to the numbers below `256^L`. -/
theorem os2ip_bijective (L : Nat) :
    Function.Bijective (fun s : OctetString L => (⟨os2ip (OctetString.toList s), os2ip_lt s⟩ : Fin (256 ^ L))) := by
  rw [Fintype.bijective_iff_injective_and_card]
  refine ⟨fun s t e => ?_, by simp⟩
  have e : os2ip (OctetString.toList s) = os2ip (OctetString.toList t) := congrArg Fin.val e
  have := Nat.ofDigits_inj_of_len_eq (by omega) (by simp [length_octetString]) (octetString_lt s) (octetString_lt t) e
  have := List.ofFn_injective (List.reverse_injective this)
  funext i
  exact Fin.ext (congrFun this i)

/-- Number of `L`-octet strings that the code's reduction sends to the residue `r`. -/
def preimages (L p r : Nat) : Nat :=
  (Finset.univ.filter fun s : OctetString L => packModular p (OctetString.toList s) = r).card

theorem preimages_eq (L p r : Nat) (hp : 0 < p) (hr : r < p) :
    preimages L p r = 256 ^ L / p + if r < 256 ^ L % p then 1 else 0 := by
  have h1 : preimages L p r = (Finset.univ.filter fun n : Fin (256 ^ L) => n.1 % p = r).card := by
    unfold preimages
    refine Finset.card_bij (fun s _ => (⟨os2ip (OctetString.toList s), os2ip_lt s⟩ : Fin (256 ^ L))) ?_ ?_ ?_
    · intro s hs
      simp only [Finset.mem_filter, Finset.mem_univ, true_and, packModular_eq] at hs ⊢
      exact hs
    · intro s _ t _ e
      exact (os2ip_bijective L).1 e
    · intro n hn
      obtain ⟨s, hs⟩ := (os2ip_bijective L).2 n
      refine ⟨s, ?_, hs⟩
      simp only [Finset.mem_filter, Finset.mem_univ, true_and, packModular_eq] at hn ⊢
      rw [← hs] at hn
      exact hn
  have h2 : (Finset.univ.filter fun n : Fin (256 ^ L) => n.1 % p = r).card =
      ((Finset.range (256 ^ L)).filter fun n => n ≡ r [MOD p]).card := by
    refine Finset.card_bij (fun n _ => n.1) ?_ ?_ ?_
    · intro n hn
      simp only [Finset.mem_filter, Finset.mem_univ, true_and, Finset.mem_range] at hn ⊢
      exact ⟨n.2, by rw [Nat.ModEq, Nat.mod_eq_of_lt hr]; exact hn⟩
    · intro a _ b _ e
      exact Fin.ext e
    · intro n hn
      simp only [Finset.mem_filter, Finset.mem_range] at hn
      refine ⟨⟨n, hn.1⟩, ?_, rfl⟩
      simp only [Finset.mem_filter, Finset.mem_univ, true_and]
      have := hn.2
      rwa [Nat.ModEq, Nat.mod_eq_of_lt hr] at this
  rw [h1, h2, ← Nat.count_eq_card_filter_range, Nat.count_modEq_card _ hp, Nat.mod_eq_of_lt hr]

/-- C58: every residue has `N / p` or `N / p + 1` preimages among the `N = 256^L` octet strings. -/
theorem C58_balanced (L p r : Nat) (hp : 0 < p) (hr : r < p) :
    preimages L p r = 256 ^ L / p ∨ preimages L p r = 256 ^ L / p + 1 := by
  rw [preimages_eq L p r hp hr]
  split <;> simp

/-- C58: the statistical distance between the reduction of a uniform octet string and the uniform
distribution on residues is at most `p / (2·256^L)`. -/
theorem C58_statistical_distance (L p : Nat) (hp : 0 < p) :
    (∑ r ∈ Finset.range p, |((preimages L p r : ℚ) / 256 ^ L - 1 / p)|) / 2 ≤ (p : ℚ) / (2 * 256 ^ L) := by
  have hN : (0 : ℚ) < 256 ^ L := by positivity
  have hpq : (0 : ℚ) < p := by exact_mod_cast hp
  have hterm : ∀ r ∈ Finset.range p, |((preimages L p r : ℚ) / 256 ^ L - 1 / p)| ≤ 1 / 256 ^ L := by
    intro r hr
    have hr := Finset.mem_range.1 hr
    have hdm := Nat.div_add_mod (256 ^ L) p
    have hlt := Nat.mod_lt (256 ^ L) hp
    have key : |((preimages L p r : ℚ) * p - 256 ^ L)| ≤ p := by
      have hq : ((256 : ℚ) ^ L) = p * ((256 ^ L / p : Nat) : ℚ) + ((256 ^ L % p : Nat) : ℚ) := by
        exact_mod_cast hdm.symm
      have hltq : ((256 ^ L % p : Nat) : ℚ) ≤ p := by exact_mod_cast hlt.le
      have hge : (0 : ℚ) ≤ ((256 ^ L % p : Nat) : ℚ) := Nat.cast_nonneg _
      rcases C58_balanced L p r hp hr with h | h <;> rw [h, hq, abs_le] <;> push_cast <;>
        constructor <;> nlinarith
    rw [show (preimages L p r : ℚ) / 256 ^ L - 1 / p = ((preimages L p r : ℚ) * p - 256 ^ L) / (256 ^ L * p) by
      field_simp, abs_div, abs_of_pos (mul_pos hN hpq), div_le_div_iff₀ (mul_pos hN hpq) hN]
    nlinarith
  have := Finset.sum_le_sum hterm
  rw [Finset.sum_const, Finset.card_range, nsmul_eq_mul] at this
  calc _ ≤ (p * (1 / 256 ^ L) : ℚ) / 2 := by linarith
    _ = _ := by field_simp

/-- 48 octets modulo a 255-bit number: no residue class is off by more than one preimage. -/
example : preimages 48 (2 ^ 255 - 19) 5 = 256 ^ 48 / (2 ^ 255 - 19) ∨
    preimages 48 (2 ^ 255 - 19) 5 = 256 ^ 48 / (2 ^ 255 - 19) + 1 :=
  C58_balanced 48 (2 ^ 255 - 19) 5 (by decide) (by decide)

example : (∑ r ∈ Finset.range (2 ^ 255 - 19),
      |((preimages 48 (2 ^ 255 - 19) r : ℚ) / 256 ^ 48 - 1 / ((2 ^ 255 - 19 : Nat) : ℚ))|) / 2 ≤
    ((2 ^ 255 - 19 : Nat) : ℚ) / (2 * 256 ^ 48) :=
  C58_statistical_distance 48 (2 ^ 255 - 19) (by decide +kernel)

/-- The base field modulus of BLS12-381. -/
def bls12381P : Nat :=
  0x1a0111ea397fe69a4b1ba7b6434bacd764774b84f38512bf6730d2a0f6b0f6241eabfffeb153ffffb9feffffffffaaab

/-- C58 for the suites of the library (`L = 64`, k = 128): distance at most `2^-132` per coordinate. -/
theorem C58_bls12381 :
    (∑ r ∈ Finset.range bls12381P, |((preimages 64 bls12381P r : ℚ) / 256 ^ 64 - 1 / bls12381P)|) / 2 ≤
      1 / 2 ^ 132 := by
  refine (C58_statistical_distance 64 bls12381P (by decide)).trans ?_
  have : (bls12381P : ℚ) ≤ 2 ^ 381 := by
    have : bls12381P ≤ 2 ^ 381 := by decide
    exact_mod_cast this
  rw [div_le_div_iff₀ (by positivity) (by positivity)]
  calc (bls12381P : ℚ) * 2 ^ 132 ≤ 2 ^ 381 * 2 ^ 132 := by nlinarith
    _ ≤ 1 * (2 * 256 ^ 64) := by
      have : 2 ^ 381 * 2 ^ 132 ≤ 1 * (2 * 256 ^ 64) := by decide
      exact_mod_cast this

example : preimages 1 100 55 = 3 ∧ preimages 1 100 56 = 2 := by
  rw [preimages_eq _ _ _ (by omega) (by omega), preimages_eq _ _ _ (by omega) (by omega)]
  decide

/-! ### The suites of the library: SHA-256 -/

/-- The octets of a digest of `n` octets (`digest_type` is an array of octets). -/
def bitOctets (n : Nat) (d : Bits) : List Nat :=
  (List.range n).map fun i => ((d.drop (8 * i)).take 8).foldl (fun n b => 2 * n + b.toNat) 0

theorem foldl_bits_lt (d : Bits) : ∀ n k, n < 2 ^ k →
    d.foldl (fun n b => 2 * n + b.toNat) n < 2 ^ (k + d.length) := by
  induction d with
  | nil => intro n k h; simpa using h
  | cons x d ih =>
    intro n k h
    have := ih (2 * n + x.toNat) (k + 1) (by
      have := Bool.toNat_le x
      rw [Nat.pow_succ]; omega)
    rw [List.foldl_cons, List.length_cons]
    rwa [show k + (d.length + 1) = k + 1 + d.length by omega]

theorem bitOctets_facts (n : Nat) (d : Bits) : (bitOctets n d).length = n ∧ ∀ x ∈ bitOctets n d, x < 256 := by
  refine ⟨by simp [bitOctets], fun x hx => ?_⟩
  obtain ⟨i, _, rfl⟩ := List.mem_map.1 hx
  have := foldl_bits_lt ((d.drop (8 * i)).take 8) 0 0 (by omega)
  refine this.trans_le ?_
  rw [show (256 : Nat) = 2 ^ 8 from rfl]
  exact Nat.pow_le_pow_right (by omega) (by simp)

theorem octet_bits : ∀ x < 256, (bigEndian 8 x).foldl (fun n b => 2 * n + b.toNat) 0 = x := by
  decide +kernel

theorem bitOctets_octetBits (xs : List Nat) (h : ∀ x ∈ xs, x < 256) :
    bitOctets xs.length (octetBits xs) = xs := by
  induction xs with
  | nil => rfl
  | cons x xs ih =>
    have e : octetBits (x :: xs) = bigEndian 8 x ++ octetBits xs := rfl
    have h8 : (bigEndian 8 x).length = 8 := by simp [bigEndian]
    rw [List.length_cons, bitOctets, List.range_succ_eq_map, List.map_cons, List.map_map, e, Nat.mul_zero,
      List.drop_zero, List.take_left' h8, octet_bits x (h x (by simp))]
    refine congrArg (x :: ·) ?_
    refine Eq.trans ?_ (ih fun y hy => h y (by simp [hy]))
    apply List.map_congr_left
    intro i _
    show (List.take 8 (List.drop (8 * (i + 1)) _)).foldl _ 0 = _
    rw [show 8 * (i + 1) = (bigEndian 8 x).length + 8 * i by rw [h8]; omega, ← List.drop_drop, List.drop_left]

/-- `expand_message_xmd<…, sha2<256>, len>`; `E` is the block cipher, `d0` the initial digest object. -/
def sha256Xmd (J : Injector) (E : Vector (BitVec 32) 16 → Vector (BitVec 32) 8 → Vector (BitVec 32) 8) (d0 : Bits)
    (hd : d0.length = 256) (cache0 : List Nat) (len : Nat) : XmdParams (Vector (BitVec 32) 8) Bits where
  C := (cipherHash .sha256 rfl sha256IV E d0 hd).C J
  J := J
  octets := bigOctetBigBit
  cache0 := cache0
  digest := bitOctets 32
  b := 32
  len := len

variable (J : Injector) {E : Vector (BitVec 32) 16 → Vector (BitVec 32) 8 → Vector (BitVec 32) 8} (d0 : Bits)
  (hd : d0.length = 256) (cache0 : List Nat) (hc : cache0.length = 64) (len : Nat)

include hc in
theorem sha256Xmd_valid : XmdParams.Valid (sha256Xmd J E d0 hd cache0 len) (GoodMsg .sha256)
    (cipherHash .sha256 rfl sha256IV E d0 hd).spec (2 ^ 60) := by
  obtain ⟨h1, h2, h3, _⟩ := policy_sizes .sha256
  refine ⟨⟨h1, h2, h3, (cipherHash .sha256 rfl sha256IV E d0 hd).computes J⟩, Or.inl rfl, ?_, ?_, ?_, ?_, ?_, ?_⟩
  · show 8 ∣ 512; decide
  · rw [show (sha256Xmd J E d0 hd cache0 len).C.blockBits = 512 from rfl]
    exact hc
  · exact fun d => bitOctets_facts 32 d
  · show 0 < 32; decide
  · intro xs hxs
    exact goodMsg_of_bytes .sha256 (by rw [length_octetBits]; exact Nat.dvd_mul_left _ _)
      (by rw [length_octetBits]; omega)
  · exact (cipherHash .sha256 rfl sha256IV E d0 hd).fits J _

theorem length_sha256 (xs : List Nat) : (Sha.sha256 xs).length = 32 ∧ ∀ x ∈ Sha.sha256 xs, x < 256 := by
  unfold Sha.sha256 Sha.beDigest
  generalize List.foldl _ _ _ = v
  constructor
  · rw [List.length_take, Sha.beOctets, length_flatMap_const _ 4 _ (by simp)]
    simp
  · intro x hx
    have hx := List.mem_of_mem_take hx
    obtain ⟨w, _, hw⟩ := List.mem_flatMap.1 hx
    obtain ⟨k, _, rfl⟩ := List.mem_map.1 hw
    exact Nat.mod_lt _ (by omega)

/-- The model's SHA-256 on octet strings is FIPS 180-4's. -/
theorem sha256_xmdHash (hE : Computes16 E Sha.sha256fns.run) (xs : List Nat) (hx : ∀ x ∈ xs, x < 256)
    (hl : xs.length ≤ 2 ^ 60) :
    xmdHash (bitOctets 32) (cipherHash .sha256 rfl sha256IV E d0 hd).spec xs = Sha.sha256 xs := by
  have e1 := C27_sha256 spliceInjector .container (List.replicate 512 false) (List.replicate 64 0) xs
    (by omega) hx d0 hE List.length_replicate List.length_replicate hd
  have e2 := C02_byte_strings (cipherHash .sha256 rfl sha256IV E d0 hd) spliceInjector
    (List.replicate 512 false) List.length_replicate .container (List.replicate 64 0) xs List.length_replicate
    (by omega)
  have e3 : (cipherHash .sha256 rfl sha256IV E d0 hd).spec (octetBits xs) = octetBits (Sha.sha256 xs) :=
    Except.ok.inj (e2.symm.trans e1)
  unfold xmdHash
  rw [e3]
  conv_lhs => rw [← (length_sha256 xs).1]
  exact bitOctets_octetBits _ (length_sha256 xs).2

theorem zipWith_xor_lt (x y : List Nat) (hx : ∀ a ∈ x, a < 256) (hy : ∀ a ∈ y, a < 256) :
    ∀ a ∈ List.zipWith (· ^^^ ·) x y, a < 256 := by
  intro a ha
  obtain ⟨i, hi, rfl⟩ := List.mem_iff_getElem.1 ha
  rw [List.getElem_zipWith]
  exact Nat.xor_lt_two_pow (n := 8) (hx _ (List.getElem_mem _)) (hy _ (List.getElem_mem _))

/-- The expansion depends on the hash only at short octet strings. -/
theorem expand_congr (Hb Hb' : List Nat → List Nat) (N b s : Nat) (msg dst : List Nat) (len : Nat)
    (h : ∀ xs : List Nat, (∀ x ∈ xs, x < 256) → xs.length ≤ N → Hb xs = Hb' xs)
    (hHb : ∀ xs, (Hb' xs).length = b ∧ ∀ x ∈ Hb' xs, x < 256)
    (hm : ∀ x ∈ msg, x < 256) (hd : ∀ x ∈ dst, x < 256) (hN : s + msg.length + dst.length + b + 5 ≤ N) :
    expandMessageXmd Hb b s msg dst len = expandMessageXmd Hb' b s msg dst len := by
  have hdst : ∀ x ∈ dstPrime dst, x < 256 := by
    intro x hx
    rcases List.mem_append.1 hx with hx | hx
    · exact hd x hx
    · simp [i2osp] at hx; omega
  have hldst : (dstPrime dst).length = dst.length + 1 := by simp [dstPrime, i2osp]
  have h0 : Hb (msgPrime s msg dst len) = Hb' (msgPrime s msg dst len) := by
    refine h _ ?_ ?_
    · intro x hx
      simp only [msgPrime, List.mem_append] at hx
      rcases hx with (((hx | hx) | hx) | hx) | hx
      · rw [i2osp_zero] at hx; rw [(List.mem_replicate.1 hx).2]; omega
      · exact hm x hx
      · simp [i2osp] at hx; omega
      · simp [i2osp] at hx; omega
      · exact hdst x hx
    · simp only [msgPrime, List.length_append, hldst, i2osp_zero, List.length_replicate]
      simp [i2osp]; omega
  have hblock : ∀ b0 : List Nat, (b0.length = b ∧ ∀ x ∈ b0, x < 256) → ∀ i,
      xmdBlock Hb dst b0 (i + 1) = xmdBlock Hb' dst b0 (i + 1) := by
    intro b0 hb0 i
    induction i with
    | zero =>
      refine h _ ?_ ?_
      · intro x hx
        rcases List.mem_append.1 hx with hx | hx
        · rcases List.mem_append.1 hx with hx | hx
          · exact hb0.2 x hx
          · simp [i2osp] at hx; omega
        · exact hdst x hx
      · simp only [List.length_append, hldst, hb0.1]; simp [i2osp]; omega
    | succ i ih =>
      show Hb (List.zipWith (· ^^^ ·) b0 (xmdBlock Hb dst b0 (i + 1)) ++ i2osp (i + 2) 1 ++ dstPrime dst) =
        Hb' (List.zipWith (· ^^^ ·) b0 (xmdBlock Hb' dst b0 (i + 1)) ++ i2osp (i + 2) 1 ++ dstPrime dst)
      rw [ih]
      have hprev : (xmdBlock Hb' dst b0 (i + 1)).length = b ∧ ∀ x ∈ xmdBlock Hb' dst b0 (i + 1), x < 256 := by
        cases i with
        | zero => exact hHb _
        | succ i => exact hHb _
      refine h _ ?_ ?_
      · intro x hx
        rcases List.mem_append.1 hx with hx | hx
        · rcases List.mem_append.1 hx with hx | hx
          · exact zipWith_xor_lt _ _ hb0.2 hprev.2 x hx
          · simp [i2osp] at hx; omega
        · exact hdst x hx
      · simp only [List.length_append, hldst, List.length_zipWith, hb0.1, hprev.1]; simp [i2osp]; omega
  unfold expandMessageXmd
  simp only [h0]
  congr 2
  apply List.map_congr_left
  intro i _
  exact hblock _ (hHb _) i

include hc in
/-- C37 and C38 for SHA-256, every history: what each extraction returns. -/
theorem C38_sha256_history_partial {ρ : Type} (hE : Computes16 E Sha.sha256fns.run) (garbage : Nat → Bits)
    (hg : ∀ i, (garbage i).length = 512) (out0 : List Nat) (hout : out0.length = len) (hlen : len < 65536)
    (hpos : 0 < len) (hdvd : 32 ∣ len) (dst : List Nat) (hdl : 16 ≤ dst.length ∧ dst.length ≤ 255)
    (hdb : ∀ x ∈ dst, x < 256) (post : List Nat → Except Fault ρ) (F : List Nat → ρ)
    (hpost : ∀ bytes : List Nat, bytes.length = len → post bytes = .ok (F bytes))
    (ops : List GroupHashOp) (script : List (Option (List Nat)))
    (hm : List.Forall₂ (XmdMatches 512) ops script) (hb : ∀ bs, some bs ∈ script → ∀ x ∈ bs, x < 256)
    (hl : (script.map (xmdCost (i2osp len 2 ++ [0] ++ dstPrime dst))).sum < 2 ^ 59) :
    ∃ a a', (sha256Xmd J E d0 hd cache0 len).init (garbage 0) = .ok a ∧
      (sha256Xmd J E d0 hd cache0 len).run garbage out0 dst post a [] ops = .ok (a', xmdOutputs
        (fun msg => expandMessageXmd Sha.sha256 32 64 msg dst len) F (i2osp len 2 ++ [0] ++ dstPrime dst) []
        script) := by
  have hsuf : xmdSuffix (sha256Xmd J E d0 hd cache0 len) dst = i2osp len 2 ++ [0] ++ dstPrime dst := by
    unfold xmdSuffix XmdParams.libStr dstPrime
    rw [show i2osp len 2 = [len / 256 % 256, len % 256] from rfl, i2osp_one]
    simp [sha256Xmd]
  have hblk : (sha256Xmd J E d0 hd cache0 len).C.blockBits = 512 := rfl
  obtain ⟨a, a', e, e'⟩ := C38_history_partial (sha256Xmd J E d0 hd cache0 len) (sha256Xmd_valid J d0 hd cache0 hc len)
    garbage hg out0 hout hlen hpos hdvd dst hdl post F hpost ops script hm (by
      rw [hsuf, hblk]
      show 512 / 8 + _ + 32 + 300 ≤ _
      omega)
  refine ⟨a, a', e, e'.trans ?_⟩
  rw [hsuf]
  simp only [show (sha256Xmd J E d0 hd cache0 len).C.blockBits / 8 = 64 by rw [hblk]]
  refine congrArg (fun x => Except.ok (a', x)) ?_
  have hsb : ∀ x ∈ i2osp len 2 ++ [0] ++ dstPrime dst, x < 256 := by
    intro x hx
    simp only [dstPrime, i2osp, List.mem_append, List.mem_singleton, List.nil_append] at hx
    rcases hx with (hx | hx) | hx | hx
    · omega
    · omega
    · exact hdb x hx
    · omega
  suffices key : ∀ (script : List (Option (List Nat))), (∀ bs, some bs ∈ script → ∀ x ∈ bs, x < 256) →
      ∀ msg : List Nat, (∀ x ∈ msg, x < 256) →
      msg.length + (script.map (xmdCost (i2osp len 2 ++ [0] ++ dstPrime dst))).sum < 2 ^ 59 →
      xmdOutputs (fun msg => expandMessageXmd (xmdHash (bitOctets 32)
        (cipherHash .sha256 rfl sha256IV E d0 hd).spec) 32 64 msg dst len) F
        (i2osp len 2 ++ [0] ++ dstPrime dst) msg script =
      xmdOutputs (fun msg => expandMessageXmd Sha.sha256 32 64 msg dst len) F
        (i2osp len 2 ++ [0] ++ dstPrime dst) msg script from
    key script hb [] (by simp) (by simpa using hl)
  intro script
  induction script with
  | nil => intro _ _ _ _; rfl
  | cons st script ih =>
    intro hb msg hmsg hl
    rw [List.map_cons, List.sum_cons] at hl
    have ih := ih fun bs hbs => hb bs (by simp [hbs])
    cases st with
    | some bs =>
      exact ih (msg ++ bs) (fun x hx => (List.mem_append.1 hx).elim (hmsg x) (hb bs (by simp) x)) (by
        rw [List.length_append]; simp only [xmdCost] at hl; omega)
    | none =>
      rw [xmdOutputs, xmdOutputs, ih (msg ++ (i2osp len 2 ++ [0] ++ dstPrime dst))
        (fun x hx => (List.mem_append.1 hx).elim (hmsg x) (hsb x)) (by
          rw [List.length_append]; simp only [xmdCost] at hl; omega)]
      have := expand_congr (xmdHash (bitOctets 32) (cipherHash .sha256 rfl sha256IV E d0 hd).spec) Sha.sha256
        (2 ^ 60) 32 64 msg dst len (fun xs hx hl => sha256_xmdHash d0 hd hE xs hx hl) length_sha256 hmsg hdb
        (by omega)
      rw [this]

include hc in
/-- C37 for SHA-256: a message fed in any pieces and extracted once gives RFC 9380's expand_message_xmd. -/
theorem C37_sha256_partial (hE : Computes16 E Sha.sha256fns.run) (garbage : Nat → Bits)
    (hg : ∀ i, (garbage i).length = 512) (out0 : List Nat) (hout : out0.length = len) (hlen : len < 65536)
    (hpos : 0 < len) (hdvd : 32 ∣ len) (dst : List Nat) (hdl : 16 ≤ dst.length ∧ dst.length ≤ 255)
    (hdb : ∀ x ∈ dst, x < 256) (ops : List GroupHashOp) (pieces : List (List Nat))
    (hm : List.Forall₂ (XmdMatches 512) ops (pieces.map some)) (hb : ∀ bs ∈ pieces, ∀ x ∈ bs, x < 256)
    (hl : pieces.flatten.length < 2 ^ 58) :
    ∃ a a', (sha256Xmd J E d0 hd cache0 len).init (garbage 0) = .ok a ∧
      (sha256Xmd J E d0 hd cache0 len).run garbage out0 dst (fun bytes => .ok bytes) a [] (ops ++ [.extract]) =
        .ok (a', [expandMessageXmd Sha.sha256 32 64 pieces.flatten dst len]) := by
  have hcost : ((pieces.map some).map (xmdCost (i2osp len 2 ++ [0] ++ dstPrime dst))).sum = pieces.flatten.length := by
    rw [List.map_map, List.length_flatten]; rfl
  obtain ⟨a, a', e, e'⟩ := C38_sha256_history_partial J d0 hd cache0 hc len hE garbage hg out0 hout hlen hpos hdvd dst hdl hdb
    (fun bytes => .ok bytes) id (fun _ _ => rfl) (ops ++ [.extract]) (pieces.map some ++ [none])
    (List.rel_append hm (.cons (show XmdMatches 512 .extract none from trivial) .nil)) (by
      intro bs hbs
      have : bs ∈ pieces := by simpa using hbs
      exact hb bs this) (by
      rw [List.map_append, List.sum_append, hcost]
      simp only [List.map_cons, List.map_nil, List.sum_cons, List.sum_nil, xmdCost]
      have : (i2osp len 2 ++ [0] ++ dstPrime dst).length = dst.length + 4 := by simp [dstPrime, i2osp]
      omega)
  refine ⟨a, a', e, ?_⟩
  rw [e', xmdOutputs_feed]
  rfl

include hc in
/-- C37 and C40 together, for every suite of the library (`m = 1` or `2`, `count = 1` or `2`, `L = 64`) and in
fact every `count` and `m`: `h2f` returns RFC 9380's hash_to_field of the message. -/
theorem C40_suites (count m : Nat) (h0 : 0 < count * m) (h1 : count * m < 1024)
    (hE : Computes16 E Sha.sha256fns.run) (garbage : Nat → Bits) (hg : ∀ i, (garbage i).length = 512)
    (out0 : List Nat) (hout : out0.length = count * m * 64) (dst : List Nat)
    (hdl : 16 ≤ dst.length ∧ dst.length ≤ 255) (hdb : ∀ x ∈ dst, x < 256) (ops : List GroupHashOp)
    (pieces : List (List Nat)) (hm : List.Forall₂ (XmdMatches 512) ops (pieces.map some))
    (hb : ∀ bs ∈ pieces, ∀ x ∈ bs, x < 256) (hl : pieces.flatten.length < 2 ^ 58) :
    ∃ a a', (sha256Xmd J E d0 hd cache0 (count * m * 64)).init (garbage 0) = .ok a ∧
      (sha256Xmd J E d0 hd cache0 (count * m * 64)).run garbage out0 dst (h2fProcess count m 64 bls12381P) a []
          (ops ++ [.extract]) =
        .ok (a', [hashToField count m 64 bls12381P
          (expandMessageXmd Sha.sha256 32 64 pieces.flatten dst (count * m * 64))]) := by
  have hcost : ((pieces.map some).map (xmdCost (i2osp (count * m * 64) 2 ++ [0] ++ dstPrime dst))).sum =
      pieces.flatten.length := by
    rw [List.map_map, List.length_flatten]; rfl
  obtain ⟨a, a', e, e'⟩ := C38_sha256_history_partial J d0 hd cache0 hc (count * m * 64) hE garbage hg out0 hout (by omega)
    (by omega) (by omega) dst hdl hdb (h2fProcess count m 64 bls12381P) (hashToField count m 64 bls12381P)
    (fun bytes hb => C40_hash_to_field _ _ _ _ bytes hb) (ops ++ [.extract]) (pieces.map some ++ [none])
    (List.rel_append hm (.cons (show XmdMatches 512 .extract none from trivial) .nil)) (by
      intro bs hbs
      have : bs ∈ pieces := by simpa using hbs
      exact hb bs this) (by
      rw [List.map_append, List.sum_append, hcost]
      simp only [List.map_cons, List.map_nil, List.sum_cons, List.sum_nil, xmdCost]
      have : (i2osp (count * m * 64) 2 ++ [0] ++ dstPrime dst).length = dst.length + 4 := by simp [dstPrime, i2osp]
      omega)
  refine ⟨a, a', e, ?_⟩
  rw [e', xmdOutputs_feed]
  rfl

/-- "QUUX-V01-CS02-with-expander-SHA256-128", the tag of RFC 9380 appendix K.1. -/
def quuxDst : List Nat := [81, 85, 85, 88, 45, 86, 48, 49, 45, 67, 83, 48, 50, 45, 119, 105, 116, 104, 45, 101,
  120, 112, 97, 110, 100, 101, 114, 45, 83, 72, 65, 50, 53, 54, 45, 49, 50, 56]

/-- The test vector of RFC 9380 appendix K.1 for the empty message and 32 octets. -/
example : expandMessageXmd Sha.sha256 32 64 [] quuxDst 32 =
    [0x68, 0xa9, 0x85, 0xb8, 0x7e, 0xb6, 0xb4, 0x69, 0x52, 0x12, 0x89, 0x11, 0xf2, 0xa4, 0x41, 0x2b, 0xbc, 0x30,
      0x2a, 0x9d, 0x75, 0x96, 0x67, 0xf8, 0x7f, 0x7a, 0x21, 0xd8, 0x03, 0xf0, 0x72, 0x35] := by
  decide +kernel

/-- C38 is false: with SHA-256 and the parameters of BLS12381G1, extracting twice from an accumulator that was
fed nothing returns two different lists of field elements. -/
theorem C38_repeat_false : ∃ x y : List (List Nat), x ≠ y ∧ ∃ a a',
    (sha256Xmd spliceInjector (cipherOf Sha.sha256fns.run) (List.replicate 256 false) List.length_replicate
      (List.replicate 64 0) 64).init (List.replicate 512 false) = .ok a ∧
    (sha256Xmd spliceInjector (cipherOf Sha.sha256fns.run) (List.replicate 256 false) List.length_replicate
      (List.replicate 64 0) 64).run (fun _ => List.replicate 512 false) (List.replicate 64 0) quuxDst
      (h2fProcess 1 1 64 bls12381P) a [] [.extract, .extract] = .ok (a', [x, y]) := by
  obtain ⟨a, a', e, e'⟩ := C38_sha256_history_partial spliceInjector (List.replicate 256 false) List.length_replicate
    (List.replicate 64 0) List.length_replicate 64 (computes16_cipherOf Sha.sha256fns.run)
    (fun _ => List.replicate 512 false) (fun _ => List.length_replicate) (List.replicate 64 0) List.length_replicate
    (by omega) (by omega) (by omega) quuxDst (by decide) (by decide) (h2fProcess 1 1 64 bls12381P)
    (hashToField 1 1 64 bls12381P) (fun bytes hb => C40_hash_to_field _ _ _ _ bytes hb) [.extract, .extract]
    [none, none] (.cons trivial (.cons trivial .nil)) (by simp) (by decide)
  refine ⟨_, _, ?_, a, a', e, e'⟩
  have : (hashToField 1 1 64 bls12381P (expandMessageXmd Sha.sha256 32 64 [] quuxDst 64) ==
      hashToField 1 1 64 bls12381P (expandMessageXmd Sha.sha256 32 64
        ([] ++ (i2osp 64 2 ++ [0] ++ dstPrime quuxDst)) quuxDst 64)) = false := by decide +kernel
  exact fun h => absurd (beq_iff_eq.2 h) (by rw [this]; decide)

/-- The hypotheses of C37 and C40 hold: "abc" fed in two pieces of different element types. -/
example := C40_suites spliceInjector (List.replicate 256 true) List.length_replicate (List.replicate 64 9)
  List.length_replicate 2 2 (by omega) (by omega) (computes16_cipherOf Sha.sha256fns.run)
  (fun _ => List.replicate 512 true) (fun _ => List.length_replicate) (List.replicate 256 7) List.length_replicate
  quuxDst (by decide) (by decide)
  [.update (wordElem bigOctetBigBit 8) .container (List.replicate 64 9) [0x61],
    .update (wordElem bigOctetBigBit 16) .singlePass (List.replicate 32 9) [0x6263]]
  [[0x61], [0x62, 0x63]]
  (.cons ⟨⟨by decide, by decide, by decide⟩, by decide⟩
    (.cons ⟨⟨by decide, by decide, by decide⟩, by decide⟩ .nil)) (by decide) (by decide)

/-- C39 is false for 48 octets with SHA-256: the last digest is copied past the end. -/
example {a : Acc (Vector (BitVec 32) 8)}
    (r : Rep (sha256Xmd spliceInjector (cipherOf Sha.sha256fns.run) (List.replicate 256 false) List.length_replicate
      (List.replicate 64 0) 48).C a (octetBits (List.replicate 64 0 ++ [1, 2, 3]))) :
    (sha256Xmd spliceInjector (cipherOf Sha.sha256fns.run) (List.replicate 256 false) List.length_replicate
      (List.replicate 64 0) 48).process (fun _ => List.replicate 512 false) (List.replicate 48 0) a quuxDst =
      .error .outOfRange :=
  C39_overrun_false _ (sha256Xmd_valid spliceInjector _ _ _ List.length_replicate 48) _
    (fun _ => List.length_replicate) _ List.length_replicate (by decide) (Or.inr (by decide)) r quuxDst (by decide)
    (by decide)

/-- "a", "bc" with SHA-256; then two requests in one history. -/
example := C37_sha256_partial spliceInjector (List.replicate 256 true) List.length_replicate (List.replicate 64 9)
  List.length_replicate 96 (computes16_cipherOf Sha.sha256fns.run)
  (fun _ => List.replicate 512 true) (fun _ => List.length_replicate) (List.replicate 96 7) List.length_replicate
  (by decide) (by decide) (by decide) quuxDst (by decide) (by decide)
  [.update (wordElem bigOctetBigBit 8) .container (List.replicate 64 9) [0x61],
    .update (wordElem bigOctetBigBit 16) .singlePass (List.replicate 32 9) [0x6263]]
  [[0x61], [0x62, 0x63]]
  (.cons ⟨⟨by decide, by decide, by decide⟩, by decide⟩
    (.cons ⟨⟨by decide, by decide, by decide⟩, by decide⟩ .nil)) (by decide) (by decide)

example := C38_sha256_history_partial spliceInjector (List.replicate 256 true) List.length_replicate
  (List.replicate 64 9) List.length_replicate 96 (computes16_cipherOf Sha.sha256fns.run)
  (fun _ => List.replicate 512 true) (fun _ => List.length_replicate) (List.replicate 96 7) List.length_replicate
  (by decide) (by decide) (by decide) quuxDst (by decide) (by decide) (fun bytes => .ok bytes.length) List.length
  (fun _ _ => rfl)
  [.update (wordElem bigOctetBigBit 8) .container (List.replicate 64 9) [0x61], .extract,
    .update (wordElem bigOctetBigBit 16) .singlePass (List.replicate 32 9) [0x6263], .extract]
  [some [0x61], none, some [0x62, 0x63], none]
  (.cons ⟨⟨by decide, by decide, by decide⟩, by decide⟩ (.cons trivial
    (.cons ⟨⟨by decide, by decide, by decide⟩, by decide⟩ (.cons trivial .nil))))
  (by
    intro bs hb
    simp only [List.mem_cons, Option.some.injEq, List.not_mem_nil, or_false, reduceCtorEq, false_or] at hb
    rcases hb with rfl | rfl <;> decide)
  (by decide +kernel)

/-- The same through the theorems that are stated for any hash. -/
example := C37_expand_message_xmd_partial
  (sha256Xmd spliceInjector (cipherOf Sha.sha256fns.run) (List.replicate 256 false) List.length_replicate
    (List.replicate 64 0) 64)
  (sha256Xmd_valid spliceInjector _ _ _ List.length_replicate 64) (fun _ => List.replicate 512 true)
  (fun _ => List.length_replicate) (List.replicate 64 7) List.length_replicate (by decide) (by decide) (by decide)
  quuxDst (by decide)
  [.update (wordElem bigOctetBigBit 8) .container (List.replicate 64 9) [0x61]] [[0x61]]
  (.cons ⟨⟨by decide, by decide, by decide⟩, by decide⟩ .nil) (by decide +kernel)

example := C38_history_partial
  (sha256Xmd spliceInjector (cipherOf Sha.sha256fns.run) (List.replicate 256 false) List.length_replicate
    (List.replicate 64 0) 64)
  (sha256Xmd_valid spliceInjector _ _ _ List.length_replicate 64) (fun _ => List.replicate 512 true)
  (fun _ => List.length_replicate) (List.replicate 64 7) List.length_replicate (by decide) (by decide) (by decide)
  quuxDst (by decide) (fun bytes => .ok bytes.length) List.length (fun _ _ => rfl)
  [.update (wordElem bigOctetBigBit 8) .container (List.replicate 64 9) [0x61], .extract, .extract]
  [some [0x61], none, none]
  (.cons ⟨⟨by decide, by decide, by decide⟩, by decide⟩ (.cons trivial (.cons trivial .nil))) (by decide +kernel)

section
variable {a : Acc (Vector (BitVec 32) 8)}
  (r : Rep (sha256Xmd spliceInjector (cipherOf Sha.sha256fns.run) (List.replicate 256 false) List.length_replicate
    (List.replicate 64 0) 64).C a (octetBits (List.replicate 64 0 ++ [1, 2, 3])))
include r

example := C37_process_partial
  (sha256Xmd spliceInjector (cipherOf Sha.sha256fns.run) (List.replicate 256 false) List.length_replicate
    (List.replicate 64 0) 64)
  (sha256Xmd_valid spliceInjector _ _ _ List.length_replicate 64) (fun _ => List.replicate 512 true)
  (fun _ => List.length_replicate) (List.replicate 64 7) List.length_replicate (by decide) (by decide) (by decide)
  (msg := [1, 2, 3]) r quuxDst (by decide) (by decide)

example : (sha256Xmd spliceInjector (cipherOf Sha.sha256fns.run) (List.replicate 256 false) List.length_replicate
      (List.replicate 64 0) 64).process (fun _ => List.replicate 512 true) (List.replicate 64 7) a quuxDst ≠
    .error .outOfRange :=
  (C39_bounds_partial _ (sha256Xmd_valid spliceInjector _ _ _ List.length_replicate 64) _
    (fun _ => List.length_replicate) _ List.length_replicate (by decide) (msg := [1, 2, 3]) r quuxDst (by decide)
    (by decide)).2 (by decide)

end

end Verif.Props
