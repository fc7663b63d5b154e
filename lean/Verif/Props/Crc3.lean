import Verif.Props.Crc2
/- C84: CRC is affine; a message followed by its checksum has a fixed checksum. -/
open Polynomial

namespace Verif.Props

open Verif.Crc Verif.Spec.Crc

variable {N : Nat}

/-! ### Affine -/

theorem ofBits_xor : ∀ {u v : List Bool}, u.length = v.length →
    ofBits (List.zipWith (· ^^ ·) u v) = ofBits u + ofBits v
  | [], [], _ => by simp [ofBits]
  | x :: u, y :: v, h => by
    have h' : u.length = v.length := by simpa using h
    rw [List.zipWith_cons_cons, ofBits, ofBits, ofBits, ofBits_xor h', coefficient_xor, List.length_zipWith, h',
      Nat.min_self, C_add]
    ring

theorem messageBits_xor (ri : Bool) : ∀ {a b : List Nat}, a.length = b.length →
    messageBits ri (List.zipWith (· ^^^ ·) a b) = List.zipWith (· ^^ ·) (messageBits ri a) (messageBits ri b)
  | [], [], _ => rfl
  | x :: a, y :: b, h => by
    have ih := messageBits_xor ri (a := a) (b := b) (by simpa using h)
    unfold messageBits at ih ⊢
    rw [List.zipWith_cons_cons, List.flatMap_cons, List.flatMap_cons, List.flatMap_cons, ih,
      List.zipWith_append (by simp)]
    congr 1
    rw [List.zipWith_map]
    simp [Nat.testBit_xor]

theorem octets_xor (s s' : BitVec N) :
    octets (s ^^^ s') = List.zipWith (· ^^^ ·) (octets s) (octets s') := by
  unfold octets
  rw [List.zipWith_map, List.zipWith_self]
  apply List.map_congr_left
  intro k _
  rw [BitVec.toNat_xor, show (256 : Nat) = 2 ^ 8 by rfl, ← Nat.pow_mul]
  apply Nat.eq_of_testBit_eq
  intro i
  simp only [Nat.testBit_xor, Nat.testBit_mod_two_pow, Nat.testBit_div_two_pow]
  by_cases hi : i < 8 <;> simp [hi]

/-- C84: the digest is affine: the digest of the bitwise sum of three messages of equal length is the bitwise sum of
their digests. -/
theorem C84_affine (P : Params N) (hN : 0 < N) (h8 : 8 ∣ N) (a b c : List Nat) (hab : a.length = b.length)
    (hbc : b.length = c.length) :
    P.digest ((List.zipWith (· ^^^ ·) (List.zipWith (· ^^^ ·) a b) c).foldl P.byte P.init) =
      List.zipWith (· ^^^ ·) (List.zipWith (· ^^^ ·) (P.digest (a.foldl P.byte P.init))
        (P.digest (b.foldl P.byte P.init))) (P.digest (c.foldl P.byte P.init)) := by
  have hreg : (List.zipWith (· ^^^ ·) (List.zipWith (· ^^^ ·) a b) c).foldl P.byte P.init =
      a.foldl P.byte P.init ^^^ b.foldl P.byte P.init ^^^ c.foldl P.byte P.init := by
    apply ofWord_injective
    rw [ofWord_xor, ofWord_xor, bytes_bits, bytes_bits, bytes_bits, bytes_bits, bits_mod P hN, bits_mod P hN,
      bits_mod P hN, bits_mod P hN, ← add_modByMonic, ← add_modByMonic]
    have hl1 : (List.zipWith (· ^^^ ·) a b).length = c.length := by rw [List.length_zipWith]; omega
    rw [messageBits_xor _ hl1, messageBits_xor _ hab, ofBits_xor (by
      rw [List.length_zipWith, length_messageBits, length_messageBits, length_messageBits]; omega),
      ofBits_xor (by rw [length_messageBits, length_messageBits, hab])]
    simp only [List.length_zipWith, length_messageBits, hab, hbc, Nat.min_self]
    congr 1
    have := char_two (ofWord P.init * X ^ (8 * c.length))
    linear_combination -this
  rw [hreg]
  simp only [digest_octets P h8]
  rw [← octets_xor, ← octets_xor]
  congr 1
  unfold Params.checksum
  have hrev : ∀ x y : BitVec N, (x ^^^ y).reverse = x.reverse ^^^ y.reverse := by
    intro x y
    apply BitVec.eq_of_getLsbD_eq
    intro i hi
    simp [BitVec.getLsbD_reverse, BitVec.getMsbD_xor]
  have hf : ∀ x y z f : BitVec N, x ^^^ y ^^^ z ^^^ f = x ^^^ f ^^^ (y ^^^ f) ^^^ (z ^^^ f) := by
    intro x y z f
    apply BitVec.eq_of_getLsbD_eq
    intro i hi
    simp only [BitVec.getLsbD_xor]
    cases x.getLsbD i <;> cases y.getLsbD i <;> cases z.getLsbD i <;> cases f.getLsbD i <;> rfl
  split
  · rw [hrev, hrev]; exact hf _ _ _ _
  · exact hf _ _ _ _

example : crc32Png.digest ([1 ^^^ 7 ^^^ 200, 2 ^^^ 9 ^^^ 100].foldl crc32Png.byte crc32Png.init) =
    List.zipWith (· ^^^ ·) (List.zipWith (· ^^^ ·) (crc32Png.digest ([1, 2].foldl crc32Png.byte crc32Png.init))
      (crc32Png.digest ([7, 9].foldl crc32Png.byte crc32Png.init)))
      (crc32Png.digest ([200, 100].foldl crc32Png.byte crc32Png.init)) :=
  C84_affine crc32Png (by decide) (by decide) [1, 2] [7, 9] [200, 100] rfl rfl

/-! ### Frames -/

/-- The checksum as it is sent behind the message: the coefficient of the highest power first.  With reflected octets
that is the least significant octet first. -/
def trailer (reflect : Bool) (digest : List Nat) : List Nat := if reflect then digest.reverse else digest

theorem range_octets (f : Nat → Bool) (n : Nat) :
    (List.range (8 * n)).map f = (List.range n).flatMap fun k => (List.range 8).map fun i => f (8 * k + i) := by
  induction n with
  | zero => rfl
  | succ n ih =>
    rw [Nat.mul_add, List.range_add, List.map_append, ih, List.range_succ (n := n), List.flatMap_append]
    simp

/-- The bits of a word, sent as a trailer. -/
theorem messageBits_trailer (h8 : 8 ∣ N) (ri : Bool) (w : BitVec N) :
    messageBits ri (trailer ri (octets (if ri then w.reverse else w))) = (List.range N).map w.getMsbD := by
  obtain ⟨n, rfl⟩ := h8
  rw [range_octets]
  have hbit : ∀ (v : BitVec (8 * n)) (k i : Nat), i < 8 →
      (v.toNat / 256 ^ k % 256).testBit i = v.getLsbD (8 * k + i) := by
    intro v k i hi
    rw [show (256 : Nat) = 2 ^ 8 by rfl, ← Nat.pow_mul, Nat.testBit_mod_two_pow, Nat.testBit_div_two_pow,
      decide_eq_true hi, Bool.true_and, BitVec.testBit_toNat]
    congr 1; omega
  unfold messageBits trailer octets
  rw [show 8 * n / 8 = n by omega]
  cases ri with
  | false =>
    simp only [Bool.false_eq_true, if_false]
    rw [List.flatMap_map]
    apply List.flatMap_congr
    intro k hk
    have hk : k < n := List.mem_range.1 hk
    apply List.map_congr_left
    intro i hi
    have hi : i < 8 := List.mem_range.1 hi
    rw [hbit _ _ _ (by omega), BitVec.getMsbD, decide_eq_true (show 8 * k + i < 8 * n by omega), Bool.true_and]
    congr 1; omega
  | true =>
    simp only [if_true]
    have : ((List.range n).map fun k => w.reverse.toNat / 256 ^ (n - 1 - k) % 256).reverse =
        (List.range n).map fun k => w.reverse.toNat / 256 ^ k % 256 := by
      rw [← List.map_reverse]
      apply List.ext_getElem
      · simp
      · intro i h1 h2
        simp only [List.length_map, List.length_reverse, List.length_range] at h1
        simp only [List.getElem_map, List.getElem_reverse, List.length_range, List.getElem_range]
        congr 3; omega
    rw [this, List.flatMap_map]
    apply List.flatMap_congr
    intro k hk
    apply List.map_congr_left
    intro i hi
    rw [hbit _ _ _ (List.mem_range.1 hi), BitVec.getLsbD_reverse]

theorem octets_complete (h8 : 8 ∣ N) (t : List Nat) (hl : t.length = N / 8) (hb : ∀ x ∈ t, x < 256) :
    ∃ s : BitVec N, octets s = t := by
  obtain ⟨n, rfl⟩ := h8
  have key : ∀ (n : Nat) (t : List Nat), t.length = n → (∀ x ∈ t, x < 256) → ∃ v, v < 256 ^ n ∧
      ((List.range n).map fun k => v / 256 ^ (n - 1 - k) % 256) = t := by
    intro n
    induction n with
    | zero => intro t hl _; exact ⟨0, by simp, by rw [List.length_eq_zero_iff.1 hl]; rfl⟩
    | succ n ih =>
      intro t hl hb
      rcases List.eq_nil_or_concat t with rfl | ⟨t', x, rfl⟩
      · simp at hl
      · have hb' : ∀ y ∈ t', y < 256 := fun y hy => hb y (by simp [hy])
        have hx : x < 256 := hb x (by simp)
        obtain ⟨v, hv, e⟩ := ih t' (by simpa using hl) hb'
        refine ⟨256 * v + x, by rw [Nat.pow_succ]; omega, ?_⟩
        rw [List.range_succ, List.map_append, List.concat_eq_append, ← e]
        congr 1
        · apply List.map_congr_left
          intro k hk
          have hk : k < n := List.mem_range.1 hk
          rw [show n + 1 - 1 - k = (n - 1 - k) + 1 by omega, Nat.pow_succ', ← Nat.div_div_eq_div_mul,
            show (256 * v + x) / 256 = v by omega]
        · simp; omega
  rw [show 8 * n / 8 = n by omega] at hl
  obtain ⟨v, hv, e⟩ := key n t hl hb
  refine ⟨BitVec.ofNat (8 * n) v, ?_⟩
  unfold octets
  rw [show 8 * n / 8 = n by omega, BitVec.toNat_ofNat, Nat.mod_eq_of_lt (by
    rw [Nat.pow_mul]; exact hv)]
  exact e

theorem reverse_reverse (v : BitVec N) : v.reverse.reverse = v := by
  apply BitVec.eq_of_getLsbD_eq
  intro i hi
  rw [BitVec.getLsbD_reverse, BitVec.getMsbD_reverse]

/-- C84: the check of a received frame.  For every parameter set that reflects both octets and remainder, or neither,
there is one digest `K` such that a message followed by a trailer has digest `K` exactly if the trailer is the checksum
of the message. -/
theorem C84_frame (P : Params N) (hN : 0 < N) (h8 : 8 ∣ N) (hodd : P.poly.getLsbD 0 = true)
    (hr : P.reflectIn = P.reflectRem) : ∃ K, ∀ m t : List Nat, t.length = N / 8 → (∀ x ∈ t, x < 256) →
      (P.digest ((m ++ t).foldl P.byte P.init) = K ↔
        t = trailer P.reflectIn (P.digest (m.foldl P.byte P.init))) := by
  set f : BitVec N := if P.reflectIn then P.finalXor.reverse else P.finalXor with hf
  -- a trailer is a word
  have hword : ∀ t : List Nat, t.length = N / 8 → (∀ x ∈ t, x < 256) →
      ∃ w : BitVec N, t = trailer P.reflectIn (octets (if P.reflectIn then w.reverse else w)) := by
    intro t hl hb
    cases h : P.reflectIn with
    | false =>
      obtain ⟨s, e⟩ := octets_complete h8 t hl hb
      exact ⟨s, by simp [trailer, e]⟩
    | true =>
      obtain ⟨s, e⟩ := octets_complete h8 t.reverse (by simpa using hl) (by simpa using hb)
      refine ⟨s.reverse, ?_⟩
      simp only [trailer, if_true, reverse_reverse, e, List.reverse_reverse]
  -- the register behind it
  have hreg : ∀ (m : List Nat) (w : BitVec N),
      ofWord ((m ++ trailer P.reflectIn (octets (if P.reflectIn then w.reverse else w))).foldl P.byte P.init) =
        (ofWord (w ^^^ m.foldl P.byte P.init) * X ^ N) %ₘ generator P.poly := by
    intro m w
    rw [List.foldl_append, bytes_bits P (m.foldl P.byte P.init), messageBits_trailer h8, bits_mod P hN,
      List.length_map, List.length_range, ofWord_xor, add_mul]
    rfl
  -- the own checksum of `m` as a word
  have hown : ∀ r : BitVec N, P.digest r =
      octets (if P.reflectIn then (r ^^^ f).reverse else r ^^^ f) := by
    intro r
    have hrev : ∀ x y : BitVec N, (x ^^^ y).reverse = x.reverse ^^^ y.reverse := by
      intro x y
      apply BitVec.eq_of_getLsbD_eq
      intro i hi
      simp [BitVec.getLsbD_reverse, BitVec.getMsbD_xor]
    rw [digest_octets P h8, Params.checksum, ← hr, hf]
    split
    · rw [hrev, reverse_reverse]
    · rfl
  have htrail : ∀ w w' : BitVec N, trailer P.reflectIn (octets (if P.reflectIn then w.reverse else w)) =
      trailer P.reflectIn (octets (if P.reflectIn then w'.reverse else w')) → w = w' := by
    intro w w' h
    unfold trailer at h
    split at h
    · have := octets_injective h8 (List.reverse_injective h)
      rw [← reverse_reverse w, this, reverse_reverse]
    · exact octets_injective h8 h
  obtain ⟨R, hR⟩ : ∃ R : BitVec N, ofWord R = (ofWord f * X ^ N) %ₘ generator P.poly := by
    refine ⟨((List.range N).map f.getMsbD).foldl P.bit 0#N, ?_⟩
    rw [bits_mod P hN]
    have : ofWord (0#N) = 0 := by
      ext k; rw [coeff_ofWord]; simp [coefficient]
    rw [this, zero_mul, add_zero]
    rfl
  refine ⟨P.digest R, fun m t hl hb => ?_⟩
  obtain ⟨w, rfl⟩ := hword t hl hb
  set r := m.foldl P.byte P.init with hrdef
  have hinj : ∀ a b : BitVec N, P.digest a = P.digest b → a = b := by
    intro a b h
    rw [hown, hown] at h
    have h' : a ^^^ f = b ^^^ f := by
      split at h
      · have := octets_injective h8 h
        rw [← reverse_reverse (a ^^^ f), this, reverse_reverse]
      · exact octets_injective h8 h
    have := congrArg (· ^^^ f) h'
    simpa [BitVec.xor_assoc] using this
  have hcancel : ∀ a b : BitVec N, (ofWord a * X ^ N) %ₘ generator P.poly = (ofWord b * X ^ N) %ₘ generator P.poly →
      a = b := by
    intro a b h
    rw [← sub_eq_zero, ← sub_modByMonic, ← sub_mul, modByMonic_eq_zero_iff_dvd (monic_generator P.poly)] at h
    have hd := ((generator_coprime hN hodd).symm.pow_right (n := N)).dvd_of_dvd_mul_right h
    apply ofWord_injective
    rw [← sub_eq_zero]
    refine eq_zero_of_dvd_of_degree_lt hd ?_
    rw [degree_generator]
    exact lt_of_le_of_lt (degree_sub_le _ _) (max_lt (degree_ofWord _) (degree_ofWord _))
  constructor
  · intro h
    have h1 := congrArg ofWord (hinj _ _ h)
    rw [hreg, hR] at h1
    have h2 := hcancel _ _ h1
    rw [hown]
    congr 2
    have h3 : w = r ^^^ f := by
      rw [← h2, BitVec.xor_comm w, ← BitVec.xor_assoc, BitVec.xor_self, BitVec.zero_xor]
    rw [h3]
  · intro h
    rw [hown] at h
    have h2 := htrail _ _ h
    congr 1
    apply ofWord_injective
    rw [hreg, hR, h2]
    congr 3
    rw [BitVec.xor_comm r, BitVec.xor_assoc, BitVec.xor_self, BitVec.xor_zero]

/-- CRC-32: whatever the message, the same residue. -/
example : ∃ K, ∀ m t : List Nat, t.length = 4 → (∀ x ∈ t, x < 256) →
    (crc32Png.digest ((m ++ t).foldl crc32Png.byte crc32Png.init) = K ↔ t = trailer true (crc32Png.digest (m.foldl crc32Png.byte crc32Png.init))) :=
  C84_frame crc32Png (by decide) (by decide) (by decide) rfl

/-- C84 for `crc32_png`: the digest of a valid frame is `2144df1c`. -/
theorem C84_crc32_frame (m t : List Nat) (hl : t.length = 4) (hb : ∀ x ∈ t, x < 256) :
    crc32Png.digest ((m ++ t).foldl crc32Png.byte crc32Png.init) = [0x21, 0x44, 0xdf, 0x1c] ↔
      t = (crc32Png.digest (m.foldl crc32Png.byte crc32Png.init)).reverse := by
  obtain ⟨K, h⟩ := C84_frame crc32Png (by decide) (by decide) (by decide) rfl
  have hK : K = [0x21, 0x44, 0xdf, 0x1c] := by
    rw [← (h [] [0, 0, 0, 0] rfl (by decide)).2 (by decide +kernel)]
    decide +kernel
  rw [← hK]
  exact h m t hl hb

/-- "123456789" with its checksum `cbf43926`, least significant octet first. -/
example : crc32Png.digest (([49, 50, 51, 52, 53, 54, 55, 56, 57] ++ [0x26, 0x39, 0xf4, 0xcb]).foldl crc32Png.byte
    crc32Png.init) = [0x21, 0x44, 0xdf, 0x1c] :=
  (C84_crc32_frame [49, 50, 51, 52, 53, 54, 55, 56, 57] _ rfl (by decide)).2 (by decide +kernel)

/-- The digest octets in the order in which `digest` returns them are not a valid trailer of a reflected CRC. -/
theorem C84_digest_order_false : ¬ ∀ m : List Nat,
    crc32Png.digest ((m ++ crc32Png.digest (m.foldl crc32Png.byte crc32Png.init)).foldl crc32Png.byte crc32Png.init) =
      [0x21, 0x44, 0xdf, 0x1c] := fun h => absurd (h [97]) (by decide +kernel)

end Verif.Props
