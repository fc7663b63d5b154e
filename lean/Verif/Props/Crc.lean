import Mathlib.RingTheory.Coprime.Lemmas
import Verif.Proof.Crc
import Verif.Proof.LengthField
/- C28 (CRC streaming and polynomial division), C56 (burst errors), C54 for `basic_crc`. -/
open Polynomial

namespace Verif.Props

open Verif.Crc Verif.Spec.Crc

variable {N : Nat}

theorem digest_octets (P : Params N) (h8 : 8 ∣ N) (r : BitVec N) : P.digest r = octets (P.checksum r) := by
  obtain ⟨k, rfl⟩ := h8
  unfold Params.digest octets explodeOne
  rw [show 8 * k / 8 = k by omega]
  apply List.map_congr_left
  intro i hi
  have hi : i < k := List.mem_range.1 hi
  simp only [convertUnit_self, bigOctetBigBit, Bool.false_eq_true, if_false]
  rw [Nat.shiftRight_eq_div_pow, show (256 : Nat) = 2 ^ 8 by rfl, ← Nat.pow_mul]
  congr 3
  omega

/-- The checksum of a byte string is unique. -/
theorem C28_checksum_unique {poly init fx : BitVec N} {ri rr : Bool} {bytes : List Nat} {s s' : BitVec N}
    (h : IsChecksum poly init fx ri rr bytes s) (h' : IsChecksum poly init fx ri rr bytes s') : s = s' := by
  obtain ⟨r, e, rfl⟩ := h
  obtain ⟨r', e', rfl⟩ := h'
  rw [ofWord_injective (e.trans e'.symm)]

/-- CRC-8 (polynomial 07) of the octet `C2` is `40` and nothing else. -/
example (s : BitVec 8) (h : IsChecksum 0x07 0 0 false false [0xC2] s) : s = 0x40 :=
  C28_checksum_unique h (checksum_is (⟨0x07, 0, 0, false, false⟩ : Params 8) (by decide) [0xC2])

/-- The bytes an operation adds. -/
def crcData : Crc.Op → List Nat
  | .feed _ xs => xs
  | .byte x _ => [x]
  | .block xs _ => xs
  | .extract => []

/-- What the extractions of a program must return, given the bytes seen before. -/
def CrcOutputs (P : Params N) : List Nat → List Crc.Op → List (List Nat) → Prop
  | _, [], outs => outs = []
  | bytes, .extract :: ops, outs => ∃ sum outs', outs = octets sum :: outs' ∧
      IsChecksum P.poly P.init P.finalXor P.reflectIn P.reflectRem bytes sum ∧
      CrcOutputs P bytes ops outs'
  | bytes, op :: ops, outs => CrcOutputs P (bytes ++ crcData op) ops outs

theorem map_mod (xs : List Nat) (h : ∀ x ∈ xs, x < 256) : xs.map (· % 256) = xs := by
  have : xs.map (· % 256) = xs.map id := List.map_congr_left fun x hx => Nat.mod_eq_of_lt (h x hx)
  rw [this, List.map_id]

theorem feed_ok (P : Params N) (r : BitVec N) (k : Feed) (xs : List Nat) (h : ∀ x ∈ xs, x < 256)
    (hl : xs.length < 2 ^ 61) : P.feed r k xs = .ok (xs.foldl P.byte r) := by
  cases k with
  | all =>
    simp only [Params.feed, Params.streamUpdateN, Params.pushIterator, Params.updateN]
    rw [show xs.length * 1 * 8 % 2 ^ 64 / 8 = xs.length by omega, if_pos (Nat.le_refl _),
      List.take_length, map_mod xs h]
  | oneByOne =>
    simp only [Params.feed, Params.pushByte]
    rw [← List.foldl_map (f := (· % 256)) (g := P.byte), map_mod xs h]

theorem crc_run (P : Params N) (hN : 0 < N) (h8 : 8 ∣ N) (ops : List Crc.Op) :
    ∀ (bytes : List Nat) (out : List (List Nat)),
    (∀ op ∈ ops, (∀ x ∈ crcData op, x < 256) ∧ (crcData op).length < 2 ^ 61) →
    ∃ outs, Crc.runOps P (bytes.foldl P.byte P.init) out ops =
        .ok ((bytes ++ ops.flatMap crcData).foldl P.byte P.init, out ++ outs) ∧
      CrcOutputs P bytes ops outs := by
  induction ops with
  | nil => intro bytes out _; exact ⟨[], by simp [Crc.runOps], rfl⟩
  | cons op ops ih =>
    intro bytes out h
    have hop := h op List.mem_cons_self
    have hrest := fun o ho => h o (List.mem_cons_of_mem _ ho)
    cases op with
    | extract =>
      obtain ⟨outs, e, ho⟩ := ih bytes (out ++ [P.digest (bytes.foldl P.byte P.init)]) hrest
      refine ⟨P.digest (bytes.foldl P.byte P.init) :: outs, ?_, _, outs, ?_, checksum_is P hN bytes, ho⟩
      · simp only [Crc.runOps, Crc.Op.run, bind, Except.bind, List.flatMap_cons, crcData,
          List.nil_append]
        rw [e, List.append_assoc]; rfl
      · rw [digest_octets P h8]
    | feed k xs =>
      obtain ⟨outs, e, ho⟩ := ih (bytes ++ xs) out hrest
      refine ⟨outs, ?_, ho⟩
      simp only [Crc.runOps, Crc.Op.run, feed_ok P _ k xs hop.1 hop.2, bind, Except.bind, pure,
        Except.pure, List.flatMap_cons, crcData]
      rw [← List.foldl_append, e, List.append_assoc]
    | byte x b =>
      obtain ⟨outs, e, ho⟩ := ih (bytes ++ [x]) out hrest
      refine ⟨outs, ?_, ho⟩
      simp only [Crc.runOps, Crc.Op.run, bind, Except.bind, List.flatMap_cons, crcData, Params.pushByte]
      rw [Nat.mod_eq_of_lt (hop.1 x (by simp [crcData])), ← List.append_assoc, ← e, List.foldl_append]
      rfl
    | block xs b =>
      obtain ⟨outs, e, ho⟩ := ih (bytes ++ xs) out hrest
      refine ⟨outs, ?_, ho⟩
      simp only [Crc.runOps, Crc.Op.run, bind, Except.bind, List.flatMap_cons, crcData, Params.pushBlock]
      rw [map_mod xs hop.1, ← List.append_assoc, ← e, List.foldl_append]

/-- C28: for every program of pushes of bytes (any cuts, any iterator category) and extractions, no read
is out of range and every extraction returns the octets of the remainder of the polynomial division of
all bytes pushed before it. -/
theorem C28_streaming_partial (P : Params N) (hN : 0 < N) (h8 : 8 ∣ N) (ops : List Crc.Op)
    (h : ∀ op ∈ ops, (∀ x ∈ crcData op, x < 256) ∧ (crcData op).length < 2 ^ 61) :
    ∃ r outs, Crc.runOps P P.init [] ops = .ok (r, outs) ∧ CrcOutputs P [] ops outs := by
  obtain ⟨outs, e, ho⟩ := crc_run P hN h8 ops [] [] h
  exact ⟨_, outs, by simpa using e, ho⟩

/-- "123456789" in two pieces, through both kinds of iterators. -/
example : (Crc.runOps crc32Png crc32Png.init [] [.feed .all [49, 50, 51], .extract,
    .feed .oneByOne [52, 53, 54, 55], .byte 56 8, .byte 57 3, .extract]).map Prod.snd =
    .ok [[0x88, 0x48, 0x63, 0xd2], [0xcb, 0xf4, 0x39, 0x26]] := by decide +kernel

/-- C28: two programs that push the same bytes and then extract return the same digest. -/
theorem C28_chunking (P : Params N) (ops ops' : List Crc.Op)
    (h : ∀ op ∈ ops ++ ops', (∀ x ∈ crcData op, x < 256) ∧ (crcData op).length < 2 ^ 61)
    (he : ops.flatMap crcData = ops'.flatMap crcData) (hN : 0 < N) (h8 : 8 ∣ N) :
    ∃ r outs outs', Crc.runOps P P.init [] ops = .ok (r, outs) ∧
      Crc.runOps P P.init [] ops' = .ok (r, outs') := by
  obtain ⟨outs, e, -⟩ := crc_run P hN h8 ops [] [] fun o ho => h o (List.mem_append_left _ ho)
  obtain ⟨outs', e', -⟩ := crc_run P hN h8 ops' [] [] fun o ho => h o (List.mem_append_right _ ho)
  rw [he] at e
  exact ⟨_, _, _, e, e'⟩

/-- Three bytes at once and one after the other. -/
example : ∃ r outs outs', Crc.runOps crc32Png crc32Png.init [] [.feed .all [49, 50, 51], .extract] = .ok (r, outs) ∧
    Crc.runOps crc32Png crc32Png.init [] [.byte 49 8, .extract, .feed .oneByOne [50, 51]] = .ok (r, outs') :=
  C28_chunking _ _ _ (by decide) (by decide) (by decide) (by decide)

/-- C28, the part that fails: a push of `n > 0` elements of more than one byte each with their exact
number of bits makes the accumulator read past the end of the range (`p + bits / 8` counts bytes, not
elements).  The stream processors exclude such elements by a static assertion. -/
theorem C28_wide_push_false (P : Params N) (r : BitVec N) (arr : List Nat) (size : Nat) (hs : 1 < size)
    (hne : arr ≠ []) : P.pushIterator r arr (arr.length * size * 8) = .error .outOfRange := by
  have : 0 < arr.length := List.length_pos_iff.2 hne
  unfold Params.pushIterator Params.updateN
  rw [if_neg]
  rw [Nat.mul_div_cancel _ (by omega)]
  have : arr.length * 2 ≤ arr.length * size := Nat.mul_le_mul_left _ hs
  omega

example : crc32Png.pushIterator crc32Png.init [0x11223344, 0x55667788] 64 = .error .outOfRange := by
  decide +kernel

/-- C28: the length computation `n * sizeof * CHAR_BIT` wraps: of a range of `n` bytes only the first
`n mod 2^61` are used, so a range of exactly `2^61` bytes is ignored. -/
theorem C28_length_wraps (P : Params N) (r : BitVec N) (xs : List Nat) (h : ∀ x ∈ xs, x < 256) :
    P.feed r .all xs = .ok ((xs.take (xs.length % 2 ^ 61)).foldl P.byte r) := by
  have hle := Nat.mod_le xs.length (2 ^ 61)
  simp only [Params.feed, Params.streamUpdateN, Params.pushIterator, Params.updateN]
  rw [show xs.length * 1 * 8 % 2 ^ 64 / 8 = xs.length % 2 ^ 61 by omega, if_pos hle,
    map_mod _ fun x hx => h x (List.mem_of_mem_take hx)]

example : crc32Png.feed crc32Png.init .all [49, 50, 51] =
    .ok (([49, 50, 51].take (3 % 2 ^ 61)).foldl crc32Png.byte crc32Png.init) :=
  C28_length_wraps _ _ [49, 50, 51] (by decide)

/-- C28: an explicit bit count below eight is ignored, a whole byte is processed. -/
theorem C28_bits_argument_ignored (P : Params N) (r : BitVec N) (x bits bits' : Nat) (block : List Nat) :
    P.pushByte r x bits = P.byte r (x % 256) ∧ P.pushByte r x bits = P.pushByte r x bits' ∧
      P.pushBlock r block bits = P.pushBlock r block bits' := ⟨rfl, rfl, rfl⟩

/-! ### C54 for a bare `basic_crc` object -/

/-- C54: after `reset` or `end_message` nothing of the previous messages is left: the rest of the
program behaves as on a new object. -/
theorem C54_crc (P : Params N) (before after : List Crc.ObjOp) (r0 : BitVec N) (out : List (List Nat))
    (op : Crc.ObjOp) (hop : op = .reset ∨ op = .endMessage) :
    Crc.runObj P r0 out (before ++ op :: after) = ((Crc.runObj P P.init [] after).1,
      (Crc.runObj P r0 out (before ++ [op])).2 ++ (Crc.runObj P P.init [] after).2) := by
  have key : ∀ (ops : List Crc.ObjOp) (r : BitVec N) (o : List (List Nat)),
      Crc.runObj P r o ops = ((Crc.runObj P r [] ops).1, o ++ (Crc.runObj P r [] ops).2) := by
    intro ops
    induction ops with
    | nil => intro r o; simp [Crc.runObj]
    | cons op ops ih =>
      intro r o
      have step : ∀ r o, Crc.runObj P r o (op :: ops) = Crc.runObj P (op.run P r o).1 (op.run P r o).2 ops :=
        fun _ _ => rfl
      rw [step, step, ih _ (op.run P r o).2, ih _ (op.run P r []).2]
      cases op <;> simp [Crc.ObjOp.run]
  have e : Crc.runObj P r0 out (before ++ op :: after) =
      Crc.runObj P P.init (op.run P (Crc.runObj P r0 out before).1 (Crc.runObj P r0 out before).2).2 after := by
    unfold Crc.runObj
    rw [List.foldl_append, List.foldl_cons]
    rcases hop with rfl | rfl <;> rfl
  have e' : (Crc.runObj P r0 out (before ++ [op])).2 =
      (op.run P (Crc.runObj P r0 out before).1 (Crc.runObj P r0 out before).2).2 := by
    unfold Crc.runObj
    rw [List.foldl_append]
    rfl
  rw [e, e', key after P.init]

example : (Crc.runObj crc32Png crc32Png.init [] [.bytes [1, 2, 3], .endMessage,
    .bytes [49, 50, 51, 52, 53, 54, 55, 56, 57], .digest]).2.getLast? =
    some [0xcb, 0xf4, 0x39, 0x26] := by decide +kernel

/-! ### C56 -/

/-- Equal checksums of messages of equal length mean that the generator divides the difference. -/
theorem same_checksum {P : Params N} {a b : List Nat} {s : BitVec N}
    (ha : IsChecksum P.poly P.init P.finalXor P.reflectIn P.reflectRem a s)
    (hb : IsChecksum P.poly P.init P.finalXor P.reflectIn P.reflectRem b s)
    (hl : a.length = b.length) :
    generator P.poly ∣ (ofBits (messageBits P.reflectIn a) - ofBits (messageBits P.reflectIn b)) * X ^ N := by
  obtain ⟨r, e, h⟩ := ha
  obtain ⟨r', e', h'⟩ := hb
  have hr : r = r' := by
    rw [h] at h'
    have h' : (if P.reflectRem then r.reverse else r) = (if P.reflectRem then r'.reverse else r') := by
      have := congrArg (· ^^^ P.finalXor) h'
      simpa [BitVec.xor_assoc] using this
    split at h'
    · have := congrArg BitVec.reverse h'
      simpa using this
    · exact h'
  rw [← hr, e] at e'
  have hlen : (messageBits P.reflectIn a).length = (messageBits P.reflectIn b).length := by
    have : ∀ l, (messageBits P.reflectIn l).length = 8 * l.length := by
      intro l
      induction l with
      | nil => rfl
      | cons x l ih =>
        unfold messageBits at ih ⊢
        rw [List.flatMap_cons, List.length_append, ih]; simp; omega
    rw [this, this, hl]
  unfold remainder at e'
  rw [hlen] at e'
  have h3 := (modByMonic_eq_zero_iff_dvd (monic_generator P.poly)).1 (by
    rw [sub_modByMonic, e', sub_self] :
    ((ofBits (messageBits P.reflectIn a) * X ^ N + ofWord P.init * X ^ (messageBits P.reflectIn b).length) -
      (ofBits (messageBits P.reflectIn b) * X ^ N + ofWord P.init *
        X ^ (messageBits P.reflectIn b).length)) %ₘ generator P.poly = 0)
  have e4 : (ofBits (messageBits P.reflectIn a) - ofBits (messageBits P.reflectIn b)) * X ^ N =
      (ofBits (messageBits P.reflectIn a) * X ^ N + ofWord P.init * X ^ (messageBits P.reflectIn b).length) -
      (ofBits (messageBits P.reflectIn b) * X ^ N + ofWord P.init *
        X ^ (messageBits P.reflectIn b).length) := by ring
  rw [e4]; exact h3

theorem ofBits_append (u v : List Bool) : ofBits (u ++ v) = ofBits u * X ^ v.length + ofBits v := by
  induction u with
  | nil => simp [ofBits]
  | cons a u ih =>
    rw [List.cons_append, ofBits, ih, ofBits, List.length_append, pow_add]; ring

theorem ofBits_injective {u v : List Bool} (hl : u.length = v.length) (h : ofBits u = ofBits v) : u = v := by
  rw [← List.reverse_inj]
  apply List.ext_getElem?
  intro k
  by_cases hk : k < u.length
  · have := congrArg (fun p => p.coeff k) h
    simp only [coeff_ofBits] at this
    have := coefficient_inj this
    rw [List.getD_eq_getElem?_getD, List.getD_eq_getElem?_getD] at this
    rw [List.getElem?_eq_getElem (by simpa using hk), List.getElem?_eq_getElem (by simp; omega)] at this ⊢
    simpa using this
  · rw [List.getElem?_eq_none (by simp; omega), List.getElem?_eq_none (by simp; omega)]

/-- C56: a generator with nonzero constant term detects every error burst of up to `N` bits: two messages
that differ, but only inside a window of at most `N` transmitted bits, have different digests. -/
theorem C56_burst_errors (P : Params N) (hN : 0 < N) (h8 : 8 ∣ N) (hodd : P.poly.getLsbD 0 = true)
    (a b : List Nat) (u e e' v : List Bool) (ha : messageBits P.reflectIn a = u ++ e ++ v)
    (hb : messageBits P.reflectIn b = u ++ e' ++ v) (hl : a.length = b.length) (hee : e.length = e'.length)
    (hlen : e.length ≤ N) (hne : e ≠ e') :
    P.digest (a.foldl P.byte P.init) ≠ P.digest (b.foldl P.byte P.init) := by
  intro h
  rw [digest_octets P h8, digest_octets P h8] at h
  have hsum : P.checksum (a.foldl P.byte P.init) = P.checksum (b.foldl P.byte P.init) := by
    generalize P.checksum (a.foldl P.byte P.init) = s at h
    generalize P.checksum (b.foldl P.byte P.init) = s' at h
    obtain ⟨n, rfl⟩ := h8
    apply BitVec.eq_of_getLsbD_eq
    intro i hi
    have hk : n - 1 - i / 8 < n := by omega
    have := congrArg (fun l => l[n - 1 - i / 8]?) h
    simp only [octets, List.getElem?_map] at this
    rw [show 8 * n / 8 = n by omega, List.getElem?_range hk] at this
    simp only [Option.map_some, Option.some.injEq] at this
    have := congrArg (fun x => x.testBit (i % 8)) this
    simp only [show (256 : Nat) = 2 ^ 8 by rfl, ← Nat.pow_mul, Nat.testBit_mod_two_pow,
      Nat.testBit_div_two_pow] at this
    rw [decide_eq_true (by omega : i % 8 < 8), Bool.true_and, Bool.true_and,
      show i % 8 + 8 * (n - 1 - (n - 1 - i / 8)) = i by omega] at this
    rw [← BitVec.testBit_toNat, ← BitVec.testBit_toNat]
    exact this
  have hd := same_checksum (checksum_is P hN a) (hsum ▸ checksum_is P hN b) hl
  have hdiff : ofBits (messageBits P.reflectIn a) - ofBits (messageBits P.reflectIn b) =
      (ofBits e - ofBits e') * X ^ v.length := by
    rw [ha, hb, List.append_assoc, List.append_assoc, ofBits_append, ofBits_append, ofBits_append,
      ofBits_append, List.length_append, List.length_append, hee]
    ring
  rw [hdiff, mul_assoc, ← pow_add] at hd
  have hcop : IsCoprime (X : (ZMod 2)[X]) (generator P.poly) := by
    have h0 : (generator P.poly).coeff 0 = 1 := by
      unfold generator
      rw [coeff_add, coeff_ofWord, hodd, coeff_X_pow, if_neg (by omega)]; rfl
    refine ⟨-(generator P.poly).divX, 1, ?_⟩
    have := divX_mul_X_add (generator P.poly)
    rw [h0] at this
    have h1 : (C 1 : (ZMod 2)[X]) = 1 := C_1
    rw [h1] at this
    linear_combination -this
  have hdvd : generator P.poly ∣ ofBits e - ofBits e' :=
    (hcop.symm.pow_right (n := v.length + N)).dvd_of_dvd_mul_right hd
  have hdeg : (ofBits e - ofBits e').degree < N := by
    rw [degree_lt_iff_coeff_zero]
    intro m hm
    rw [coeff_sub, coeff_ofBits, coeff_ofBits, List.getD_eq_getElem?_getD, List.getD_eq_getElem?_getD,
      List.getElem?_eq_none (by simp; omega), List.getElem?_eq_none (by simp; omega), sub_self]
  have hz : ofBits e - ofBits e' = 0 := by
    by_contra hz
    have h1 := Monic.not_dvd_of_degree_lt (monic_generator P.poly) hz (by rw [degree_generator]; exact hdeg)
    exact h1 hdvd
  exact hne (ofBits_injective hee (sub_eq_zero.1 hz))

example : crc32Png.poly.getLsbD 0 = true ∧
    crc32Png.digest ([1, 2, 3, 4, 5, 6, 7, 8].foldl crc32Png.byte crc32Png.init) ≠
    crc32Png.digest ([1, 2, 3, 7, 6, 5, 4, 8].foldl crc32Png.byte crc32Png.init) := by decide +kernel

end Verif.Props
