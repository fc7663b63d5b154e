import Mathlib.Data.Nat.Count
import Mathlib.Data.Int.CardIntervalMod
import Verif.Model.H2F
import Verif.Spec.H2F
import Verif.Props.GroupHash
import Verif.Props.Output
/- C37-C40, C58: expand_message_xmd and hash_to_field. -/
namespace Verif.Props

open Spec

variable {σ δ : Type} {Good : Bits → Prop} {H : Bits → δ}

/-- The hash is a verified construction with octet digests, defined on octet strings up to `limit` octets. -/
structure XmdParams.Valid (P : XmdParams σ δ) (Good : Bits → Prop) (H : Bits → δ) (limit : Nat) : Prop where
  hash : Verified P.C Good H
  octets : P.octets = bigOctetBigBit ∨ P.octets = littleOctetBigBit
  block : 8 ∣ P.C.blockBits
  cache0 : P.cache0.length = P.C.blockBits / 8
  digest : ∀ d, (P.digest d).length = P.b ∧ ∀ x ∈ P.digest d, x < 256
  b : 0 < P.b
  good : ∀ xs : List Nat, xs.length ≤ limit → Good (octetBits xs)
  fits : Fits P.C (8 * limit)

/-- The hash as a function on octet strings. -/
def xmdHash (digest : δ → List Nat) (H : Bits → δ) (xs : List Nat) : List Nat := digest (H (octetBits xs))

theorem octetBits_append (xs ys : List Nat) : octetBits (xs ++ ys) = octetBits xs ++ octetBits ys := by
  simp [octetBits]

theorem xmd_feed {P : XmdParams σ δ} {limit : Nat} (V : XmdParams.Valid P Good H limit) {a : Acc σ}
    {m : List Nat} (r : Rep P.C a (octetBits m)) (xs : List Nat) (hl : m.length + xs.length ≤ limit) :
    ∃ a', P.feed a xs = .ok a' ∧ Rep P.C a' (octetBits (m ++ xs)) := by
  have hview : ∀ xs : List Nat, xs.flatMap (wordElem P.octets 8).view = octetBits xs := by
    intro xs
    rcases V.octets with h | h
    · rw [h]; exact view_octet .sha256 xs
    · rw [h]; exact view_octet .md5 xs
  have := r.feed (J := P.J) (E := wordElem P.octets 8) V.hash.word V.hash.wordBlock
    ⟨V.hash.block, by simp [wordElem], by simpa [wordElem] using V.block⟩ .container P.cache0 xs
    (by simpa [wordElem] using V.cache0) (by
      rw [hview, ← octetBits_append, length_octetBits, List.length_append]
      exact V.fits.mono (by omega))
  rw [hview, ← octetBits_append] at this
  exact this

theorem xmd_finish {P : XmdParams σ δ} {limit : Nat} (V : XmdParams.Valid P Good H limit) {a : Acc σ}
    {m : List Nat} (r : Rep P.C a (octetBits m)) (data : List Nat) (i : Nat) (dst : List Nat)
    (hl : m.length + data.length + dst.length + 2 ≤ limit) :
    ∃ a', P.finish a data i dst = .ok (a', xmdHash P.digest H
        (m ++ data ++ [i % 256] ++ dst ++ [dst.length % 256])) ∧
      Rep P.C a' (octetBits (m ++ data ++ [i % 256] ++ dst ++ [dst.length % 256])) := by
  obtain ⟨a1, e1, r1⟩ := xmd_feed V r data (by omega)
  obtain ⟨a2, e2, r2⟩ := xmd_feed V r1 [i % 2 ^ 8] (by simp; omega)
  obtain ⟨a3, e3, r3⟩ := xmd_feed V r2 dst (by simp; omega)
  obtain ⟨a4, e4, r4⟩ := xmd_feed V r3 [dst.length % 2 ^ 8] (by simp; omega)
  have e5 := V.hash.computes a4 _ r4 (V.good _ (by simp; omega))
  refine ⟨a4, ?_, r4⟩
  unfold XmdParams.finish
  rw [e1]
  show (P.feed a1 [i % 2 ^ 8] >>= _) = _
  rw [e2]
  show (P.feed a2 dst >>= _) = _
  rw [e3]
  show (P.feed a3 [dst.length % 2 ^ 8] >>= _) = _
  rw [e4]
  show (a4.result P.C >>= _) = _
  rw [show a4.result P.C = _ from e5]
  rfl

theorem xmd_fresh {P : XmdParams σ δ} {limit : Nat} (V : XmdParams.Valid P Good H limit) (garbage : Bits)
    (hg : garbage.length = P.C.blockBits) (data : List Nat) (i : Nat) (dst : List Nat)
    (hl : data.length + dst.length + 2 ≤ limit) :
    ∃ a', P.finish (Acc.init P.C garbage) data i dst = .ok (a', xmdHash P.digest H
        (data ++ [i % 256] ++ dst ++ [dst.length % 256])) := by
  obtain ⟨a', e, _⟩ := xmd_finish V (m := []) (V.hash.init garbage hg) data i dst (by simpa using hl)
  exact ⟨a', by simpa using e⟩

theorem xorOctets_eq (x y : List Nat) (hl : x.length = y.length) (hx : ∀ a ∈ x, a < 256)
    (hy : ∀ a ∈ y, a < 256) : xorOctets x y = .ok (List.zipWith (· ^^^ ·) x y) := by
  unfold xorOctets
  obtain ⟨mem', e, h1, _⟩ := C51_strxor false (fun a => BitVec.ofNat 8 ((x ++ y).getD a 0)) 0 x.length
    (x.length + y.length) x.length (Or.inr (by omega)) (Or.inr (by omega))
  rw [← hl] at e ⊢
  rw [e]
  refine congrArg Except.ok ?_
  apply List.ext_getElem
  · simp [← hl]
  · intro k hk1 hk2
    have hk : k < x.length := by simpa [← hl] using hk1
    have hky : k < y.length := by omega
    rw [List.getElem_map, List.getElem_range, List.getElem_zipWith, show x.length + x.length + k = x.length + y.length + k by omega,
      h1 k hk]
    have g1 : (x ++ y).getD (0 + k) 0 = x[k] := by
      rw [Nat.zero_add, List.getD_eq_getElem?_getD, List.getElem?_append_left hk, List.getElem?_eq_getElem hk]; rfl
    have g2 : (x ++ y).getD (x.length + k) 0 = y[k] := by
      rw [List.getD_eq_getElem?_getD, List.getElem?_append_right (by omega), Nat.add_sub_cancel_left,
        List.getElem?_eq_getElem hky]; rfl
    rw [g1, g2]
    simp only [BitVec.toNat_xor, BitVec.toNat_ofNat]
    rw [Nat.mod_eq_of_lt (hx _ (List.getElem_mem hk)), Nat.mod_eq_of_lt (hy _ (List.getElem_mem hky))]

/-- Block `i` of the expansion. -/
abbrev xmdB (P : XmdParams σ δ) (H : Bits → δ) (dst b0 : List Nat) (i : Nat) : List Nat :=
  xmdBlock (xmdHash P.digest H) dst b0 i

theorem i2osp_one (x : Nat) : i2osp x 1 = [x % 256] := rfl

theorem xmdB_facts {P : XmdParams σ δ} {limit : Nat} (V : XmdParams.Valid P Good H limit) (dst b0 : List Nat)
    (i : Nat) : (xmdB P H dst b0 (i + 1)).length = P.b ∧ ∀ x ∈ xmdB P H dst b0 (i + 1), x < 256 := by
  cases i with
  | zero => exact V.digest _
  | succ i => exact V.digest _

theorem xmd_loop {P : XmdParams σ δ} {limit : Nat} (V : XmdParams.Valid P Good H limit)
    (garbage : Nat → Bits) (hg : ∀ i, (garbage i).length = P.C.blockBits) (dst b0 : List Nat)
    (hb0 : b0.length = P.b ∧ ∀ x ∈ b0, x < 256) (hl : P.b + dst.length + 2 ≤ limit) :
    ∀ (n i : Nat) (out : List Nat),
      ((i + 1 + n) * P.b ≤ out.length →
        P.loop garbage dst b0 n (i + 2) (xmdB P H dst b0 (i + 1)) out = .ok (out.take ((i + 1) * P.b) ++
          ((List.range n).map fun j => xmdB P H dst b0 (i + 2 + j)).flatten ++
          out.drop ((i + 1 + n) * P.b))) ∧
      (out.length < (i + 1 + n) * P.b → (i + 1) * P.b ≤ out.length → 
        P.loop garbage dst b0 n (i + 2) (xmdB P H dst b0 (i + 1)) out = .error .outOfRange) := by
  intro n
  induction n with
  | zero =>
    intro i out
    refine ⟨fun _ => by simp [XmdParams.loop], fun h1 h2 => ?_⟩
    simp only [Nat.add_zero] at h1
    omega
  | succ n ih =>
    intro i out
    have hbl := xmdB_facts V dst b0 i
    have hbl' := xmdB_facts V dst b0 (i + 1)
    obtain ⟨a', e⟩ := xmd_fresh V (garbage (i + 2)) (hg _) (List.zipWith (· ^^^ ·) b0 (xmdB P H dst b0 (i + 1)))
      (i + 2) dst (by simp [hb0.1, hbl.1]; omega)
    have hnext : xmdHash P.digest H (List.zipWith (· ^^^ ·) b0 (xmdB P H dst b0 (i + 1)) ++ [(i + 2) % 256] ++
        dst ++ [dst.length % 256]) = xmdB P H dst b0 (i + 2) := by
      rw [List.append_assoc]; rfl
    rw [hnext] at e
    have hstep : P.loop garbage dst b0 (n + 1) (i + 2) (xmdB P H dst b0 (i + 1)) out =
        (copyLoop id (xmdB P H dst b0 (i + 2)) ((i + 1) * P.b) out >>= fun out =>
          P.loop garbage dst b0 n (i + 3) (xmdB P H dst b0 (i + 2)) out) := by
      rw [XmdParams.loop, xorOctets_eq b0 _ (by rw [hb0.1, hbl.1]) hb0.2 hbl.2]
      show (P.finish (Acc.init P.C (garbage (i + 2))) _ (i + 2) dst >>= _) = _
      rw [e]
      rfl
    have hmul : (i + 1 + (n + 1)) * P.b = (i + 1) * P.b + P.b + n * P.b := by ring
    have hmul' : (i + 1 + 1 + n) * P.b = (i + 1) * P.b + P.b + n * P.b := by ring
    have hmul2 : (i + 1 + 1) * P.b = (i + 1) * P.b + P.b := by ring
    constructor
    · intro h
      rw [hstep, (copyLoop_eq id _ _ _).1 (by rw [hbl'.1]; omega)]
      show P.loop garbage dst b0 n (i + 1 + 2) (xmdB P H dst b0 (i + 1 + 1)) _ = _
      rw [(ih (i + 1) _).1 (by simp [hbl'.1]; omega), hbl'.1, List.map_id]
      refine congrArg Except.ok ?_
      have hlen : (out.take ((i + 1) * P.b) ++ xmdB P H dst b0 (i + 2)).length = (i + 1 + 1) * P.b := by
        rw [List.length_append, List.length_take, hbl'.1, Nat.min_eq_left (by omega), hmul2]
      rw [List.take_left' hlen, List.drop_append, hlen, List.range_succ_eq_map, List.map_cons, List.flatten_cons,
        List.map_map]
      have hd : List.drop ((i + 1 + 1 + n) * P.b) (out.take ((i + 1) * P.b) ++ xmdB P H dst b0 (i + 2)) = [] :=
        List.drop_of_length_le (by rw [hlen]; omega)
      rw [hd, List.nil_append, List.drop_drop]
      have he : (i + 1) * P.b + P.b + ((i + 1 + 1 + n) * P.b - (i + 1 + 1) * P.b) = (i + 1 + (n + 1)) * P.b := by
        omega
      rw [he]
      simp only [List.append_assoc, Nat.add_zero]
      congr 3
      · congr 1
        apply List.map_congr_left
        intro j _
        show xmdB P H dst b0 (i + 1 + 2 + j) = xmdB P H dst b0 (i + 2 + (j + 1))
        congr 1; omega
    · intro h1 h2
      rw [hstep]
      by_cases hfit : (i + 1) * P.b + P.b ≤ out.length
      · rw [(copyLoop_eq id _ _ _).1 (by rw [hbl'.1]; omega)]
        show P.loop garbage dst b0 n (i + 1 + 2) (xmdB P H dst b0 (i + 1 + 1)) _ = _
        have hlen : (List.take ((i + 1) * P.b) out ++ List.map id (xmdB P H dst b0 (i + 2)) ++
            List.drop ((i + 1) * P.b + (xmdB P H dst b0 (i + 2)).length) out).length = out.length := by
          simp [hbl'.1]; omega
        exact (ih (i + 1) _).2 (by rw [hlen]; omega) (by rw [hlen]; omega)
      · rw [(copyLoop_eq id _ _ _).2 (by rw [hbl'.1]; omega) h2]
        rfl

/-- What an extraction appends to the input of the accumulator. -/
def xmdSuffix (P : XmdParams σ δ) (dst : List Nat) : List Nat :=
  P.libStr ++ [0] ++ dst ++ [dst.length % 256]

/-- `Z_pad`. -/
def xmdPad (P : XmdParams σ δ) : List Nat := List.replicate (P.C.blockBits / 8) 0

theorem i2osp_zero (n : Nat) : i2osp 0 n = List.replicate n 0 := by
  induction n with
  | zero => rfl
  | succ n ih => rw [i2osp, Nat.zero_div, ih, List.replicate_succ']

theorem ell_eq (P : XmdParams σ δ) (hb : 0 < P.b) : P.ell = (P.len + P.b - 1) / P.b := by
  unfold XmdParams.ell
  have hdiv := Nat.div_add_mod P.len P.b
  have hlt := Nat.mod_lt P.len hb
  split
  · have e : P.len + P.b - 1 = P.b * (P.len / P.b + 1) + (P.len % P.b - 1) := by rw [Nat.mul_add]; omega
    rw [e, Nat.mul_add_div hb, Nat.div_eq_of_lt (show P.len % P.b - 1 < P.b by omega)]
  · have e : P.len + P.b - 1 = P.b * (P.len / P.b) + (P.b - 1) := by omega
    rw [e, Nat.mul_add_div hb, Nat.div_eq_of_lt (show P.b - 1 < P.b by omega)]

theorem msgPrime_eq (P : XmdParams σ δ) (hlen : P.len < 65536) (msg dst : List Nat) :
    xmdPad P ++ msg ++ xmdSuffix P dst = msgPrime (P.C.blockBits / 8) msg dst P.len := by
  unfold msgPrime xmdPad xmdSuffix XmdParams.libStr dstPrime
  rw [i2osp_zero, show i2osp P.len 2 = [P.len / 256 % 256, P.len % 256] from rfl]
  simp [i2osp_one]

/-- The first two steps of `process`. -/
theorem xmd_process {P : XmdParams σ δ} {limit : Nat} (V : XmdParams.Valid P Good H limit)
    (garbage : Nat → Bits) (hg : ∀ i, (garbage i).length = P.C.blockBits) (out0 : List Nat)
    (hlen : P.len < 65536) {a : Acc σ} {msg : List Nat} (r : Rep P.C a (octetBits (xmdPad P ++ msg)))
    (dst : List Nat) (hd : 16 ≤ dst.length ∧ dst.length ≤ 255)
    (hl : P.C.blockBits / 8 + msg.length + P.b + 300 ≤ limit) :
    ∃ a', Rep P.C a' (octetBits (xmdPad P ++ (msg ++ xmdSuffix P dst))) ∧
      P.process garbage out0 a dst =
        (copyLoop id (xmdB P H dst (xmdHash P.digest H (msgPrime (P.C.blockBits / 8) msg dst P.len)) 1) 0 out0 >>=
          fun out => P.loop garbage dst (xmdHash P.digest H (msgPrime (P.C.blockBits / 8) msg dst P.len))
            (P.ell - 1) 2 (xmdB P H dst (xmdHash P.digest H (msgPrime (P.C.blockBits / 8) msg dst P.len)) 1) out >>=
          fun out => .ok (a', out)) := by
  obtain ⟨a', e1, r1⟩ := xmd_finish V r P.libStr 0 dst (by
    simp [xmdPad, XmdParams.libStr]; omega)
  have hm : xmdPad P ++ msg ++ P.libStr ++ [0 % 256] ++ dst ++ [dst.length % 256] =
      xmdPad P ++ msg ++ xmdSuffix P dst := by
    simp [xmdSuffix]
  rw [hm] at e1 r1
  rw [msgPrime_eq P hlen] at e1
  refine ⟨a', by rw [← List.append_assoc]; exact r1, ?_⟩
  have hb0 := (V.digest (H (octetBits (msgPrime (P.C.blockBits / 8) msg dst P.len)))).1
  change (xmdHash P.digest H (msgPrime (P.C.blockBits / 8) msg dst P.len)).length = _ at hb0
  generalize xmdHash P.digest H (msgPrime (P.C.blockBits / 8) msg dst P.len) = b0 at e1 hb0 ⊢
  obtain ⟨a'', e2⟩ := xmd_fresh V (garbage 1) (hg 1) b0 1 dst (by omega)
  have hnext : xmdHash P.digest H (b0 ++ [1 % 256] ++ dst ++ [dst.length % 256]) = xmdB P H dst b0 1 := by
    rw [List.append_assoc]; rfl
  rw [hnext] at e2
  unfold XmdParams.process
  rw [if_pos hd, e1]
  show (P.finish (Acc.init P.C (garbage 1)) b0 1 dst >>= _) = _
  rw [e2]
  rfl

theorem length_xmdHash {P : XmdParams σ δ} {limit : Nat} (V : XmdParams.Valid P Good H limit) (xs : List Nat) :
    (xmdHash P.digest H xs).length = P.b ∧ ∀ x ∈ xmdHash P.digest H xs, x < 256 := V.digest _

theorem spec_length {P : XmdParams σ δ} {limit : Nat} (V : XmdParams.Valid P Good H limit) (dst b0 : List Nat)
    (n : Nat) : (((List.range n).map fun i => xmdB P H dst b0 (i + 1)).flatten).length = n * P.b := by
  rw [List.length_flatten, List.map_map]
  have : (List.range n).map (List.length ∘ fun i => xmdB P H dst b0 (i + 1)) = List.replicate n P.b := by
    rw [List.eq_replicate_iff]
    refine ⟨by simp, fun x hx => ?_⟩
    obtain ⟨i, _, rfl⟩ := List.mem_map.1 hx
    exact (xmdB_facts V dst b0 i).1
  rw [this, List.sum_replicate]; rfl

/-- C37, one extraction: an accumulator that has been fed `msg` returns the RFC's expansion (and keeps the
octets that the extraction appended).  Requires that the digest size divides `len_in_bytes`. -/
theorem C37_process_partial (P : XmdParams σ δ) {limit : Nat} (V : XmdParams.Valid P Good H limit)
    (garbage : Nat → Bits) (hg : ∀ i, (garbage i).length = P.C.blockBits) (out0 : List Nat)
    (hout : out0.length = P.len) (hlen : P.len < 65536) (hpos : 0 < P.len) (hdvd : P.b ∣ P.len) {a : Acc σ}
    {msg : List Nat} (r : Rep P.C a (octetBits (xmdPad P ++ msg))) (dst : List Nat)
    (hd : 16 ≤ dst.length ∧ dst.length ≤ 255) (hl : P.C.blockBits / 8 + msg.length + P.b + 300 ≤ limit) :
    ∃ a', P.process garbage out0 a dst = .ok (a', expandMessageXmd (xmdHash P.digest H) P.b (P.C.blockBits / 8)
        msg dst P.len) ∧ Rep P.C a' (octetBits (xmdPad P ++ (msg ++ xmdSuffix P dst))) := by
  obtain ⟨a', r', e⟩ := xmd_process V garbage hg out0 hlen r dst hd hl
  refine ⟨a', ?_, r'⟩
  rw [e]
  unfold expandMessageXmd
  rw [← ell_eq P V.b]
  have hb0 := length_xmdHash V (msgPrime (P.C.blockBits / 8) msg dst P.len)
  generalize xmdHash P.digest H (msgPrime (P.C.blockBits / 8) msg dst P.len) = b0 at hb0 ⊢
  obtain ⟨q, hq⟩ := hdvd
  have hb := V.b
  have hell : P.ell = q := by
    unfold XmdParams.ell
    rw [hq, Nat.mul_div_cancel_left _ hb, Nat.mul_mod_right]; simp
  have hq0 : 0 < q := Nat.pos_of_ne_zero (by intro h0; rw [h0] at hq; omega)
  have h1 := (xmdB_facts V dst b0 0).1
  have hbl : P.b ≤ P.len := by rw [hq]; exact Nat.le_mul_of_pos_right _ hq0
  rw [(copyLoop_eq id _ 0 out0).1 (by rw [h1]; omega)]
  show (P.loop garbage dst b0 (P.ell - 1) (0 + 2) (xmdB P H dst b0 (0 + 1)) _ >>= _) = _
  rw [(xmd_loop V garbage hg dst b0 hb0 (by omega) (P.ell - 1) 0 _).1 (by
    simp only [List.take_zero, List.nil_append, List.length_append, List.map_id, h1, List.length_drop, hout, hell]
    rw [show 0 + 1 + (q - 1) = q by omega, Nat.mul_comm, ← hq]; omega)]
  show Except.ok (a', _) = _
  refine congrArg (fun x => Except.ok (a', x)) ?_
  rw [hell, List.map_id, List.take_zero, List.nil_append, h1, Nat.zero_add, Nat.one_mul,
    show 1 + (q - 1) = q by omega, Nat.zero_add, List.take_left' h1, List.drop_of_length_le (by
      rw [List.length_append, h1, List.length_drop, hout, hq, Nat.mul_comm]
      rw [hq, Nat.mul_comm] at hbl
      omega), List.append_nil]
  show _ = List.take P.len (((List.range q).map fun i => xmdB P H dst b0 (i + 1)).flatten)
  rw [List.take_of_length_le (by rw [spec_length V, hq, Nat.mul_comm])]
  obtain ⟨q', rfl⟩ : ∃ q', q = q' + 1 := ⟨q - 1, by omega⟩
  rw [List.range_succ_eq_map, List.map_cons, List.flatten_cons, List.map_map, Nat.add_sub_cancel]
  congr 2
  apply List.map_congr_left
  intro j _
  show xmdB P H dst b0 (2 + j) = xmdB P H dst b0 (j + 1 + 1)
  congr 1; omega

/-- C39, the true part: with a positive multiple of the digest size nothing is written out of range (see
C37). For every other length the last copy runs past the end of the array. -/
theorem C39_overrun_false (P : XmdParams σ δ) {limit : Nat} (V : XmdParams.Valid P Good H limit)
    (garbage : Nat → Bits) (hg : ∀ i, (garbage i).length = P.C.blockBits) (out0 : List Nat)
    (hout : out0.length = P.len) (hlen : P.len < 65536) (hbad : P.len = 0 ∨ ¬ P.b ∣ P.len) {a : Acc σ}
    {msg : List Nat} (r : Rep P.C a (octetBits (xmdPad P ++ msg))) (dst : List Nat)
    (hd : 16 ≤ dst.length ∧ dst.length ≤ 255) (hl : P.C.blockBits / 8 + msg.length + P.b + 300 ≤ limit) :
    P.process garbage out0 a dst = .error .outOfRange := by
  obtain ⟨a', r', e⟩ := xmd_process V garbage hg out0 hlen r dst hd hl
  rw [e]
  have hb0 := length_xmdHash V (msgPrime (P.C.blockBits / 8) msg dst P.len)
  generalize xmdHash P.digest H (msgPrime (P.C.blockBits / 8) msg dst P.len) = b0 at hb0 ⊢
  have hb := V.b
  have h1 := (xmdB_facts V dst b0 0).1
  by_cases hfit : P.b ≤ P.len
  · have hnd : ¬ P.b ∣ P.len := by
      rcases hbad with h | h
      · omega
      · exact h
    have hmod : P.len % P.b ≠ 0 := fun h => hnd (Nat.dvd_of_mod_eq_zero h)
    have hell : P.ell = P.len / P.b + 1 := by unfold XmdParams.ell; rw [if_pos hmod]
    have hdiv := Nat.div_add_mod P.len P.b
    have hlt := Nat.mod_lt P.len hb
    rw [(copyLoop_eq id _ 0 out0).1 (by rw [h1]; omega)]
    show (P.loop garbage dst b0 (P.ell - 1) (0 + 2) (xmdB P H dst b0 (0 + 1)) _ >>= _) = _
    rw [(xmd_loop V garbage hg dst b0 hb0 (by omega) (P.ell - 1) 0 _).2 (by
      simp only [List.take_zero, List.nil_append, List.length_append, List.map_id, h1, List.length_drop, hout, hell]
      rw [Nat.add_sub_cancel, Nat.zero_add, Nat.add_mul, Nat.one_mul, Nat.mul_comm]
      omega) (by
      simp only [List.take_zero, List.nil_append, List.length_append, List.map_id, h1, List.length_drop, hout]
      omega)]
    rfl
  · rw [(copyLoop_eq id _ 0 out0).2 (by rw [h1]; omega) (by omega)]
    rfl

/-- C39, exact: a call of `process` stays inside its output array iff `len_in_bytes` is a positive multiple of
the digest size.  (The property asks for every length; the other lengths overrun.) -/
theorem C39_bounds_partial (P : XmdParams σ δ) {limit : Nat} (V : XmdParams.Valid P Good H limit)
    (garbage : Nat → Bits) (hg : ∀ i, (garbage i).length = P.C.blockBits) (out0 : List Nat)
    (hout : out0.length = P.len) (hlen : P.len < 65536) {a : Acc σ}
    {msg : List Nat} (r : Rep P.C a (octetBits (xmdPad P ++ msg))) (dst : List Nat)
    (hd : 16 ≤ dst.length ∧ dst.length ≤ 255) (hl : P.C.blockBits / 8 + msg.length + P.b + 300 ≤ limit) :
    P.process garbage out0 a dst ≠ .error .outOfRange ↔ 0 < P.len ∧ P.b ∣ P.len := by
  constructor
  · intro h
    by_contra hc
    refine h (C39_overrun_false P V garbage hg out0 hout hlen ?_ r dst hd hl)
    by_cases h0 : P.len = 0
    · exact Or.inl h0
    · exact Or.inr fun hb => hc ⟨by omega, hb⟩
  · rintro ⟨h0, hb⟩ h
    obtain ⟨a', e, _⟩ := C37_process_partial P V garbage hg out0 hout hlen h0 hb r dst hd hl
    rw [e] at h
    exact absurd h (by simp)

/-- A call with the octets it feeds (`none`: extraction). -/
def XmdMatches (B : Nat) : GroupHashOp → Option (List Nat) → Prop
  | .update E _ cache0 xs, some bs => (0 < E.valueBits ∧ E.valueBits ∣ B ∧ cache0.length = B / E.valueBits) ∧
      xs.flatMap E.view = octetBits bs
  | .extract, none => True
  | _, _ => False

/-- What the extractions of a program return: the expansion of the octets fed so far, including those that
earlier extractions appended. -/
def xmdOutputs {ρ : Type} (expand : List Nat → List Nat) (F : List Nat → ρ) (suffix : List Nat) :
    List Nat → List (Option (List Nat)) → List ρ
  | _, [] => []
  | msg, some bs :: s => xmdOutputs expand F suffix (msg ++ bs) s
  | msg, none :: s => F (expand msg) :: xmdOutputs expand F suffix (msg ++ suffix) s

/-- Octets fed by a script, counting the octets that extractions append. -/
def xmdCost (suffix : List Nat) : Option (List Nat) → Nat
  | some bs => bs.length
  | none => suffix.length

/-- C37 and C38, exact form: the outputs of every history of updates and extractions, for any
post-processing of the expanded octets (`hash_to_field`, `hash_to_curve`). -/
theorem C38_history_partial {ρ : Type} (P : XmdParams σ δ) {limit : Nat} (V : XmdParams.Valid P Good H limit)
    (garbage : Nat → Bits) (hg : ∀ i, (garbage i).length = P.C.blockBits) (out0 : List Nat)
    (hout : out0.length = P.len) (hlen : P.len < 65536) (hpos : 0 < P.len) (hdvd : P.b ∣ P.len)
    (dst : List Nat) (hd : 16 ≤ dst.length ∧ dst.length ≤ 255) (post : List Nat → Except Fault ρ)
    (F : List Nat → ρ) (hpost : ∀ bytes : List Nat, bytes.length = P.len → post bytes = .ok (F bytes))
    (ops : List GroupHashOp) (script : List (Option (List Nat)))
    (hm : List.Forall₂ (XmdMatches P.C.blockBits) ops script)
    (hl : P.C.blockBits / 8 + (script.map (xmdCost (xmdSuffix P dst))).sum + P.b + 300 ≤ limit) :
    ∃ a a', P.init (garbage 0) = .ok a ∧ P.run garbage out0 dst post a [] ops = .ok (a', xmdOutputs
      (fun msg => expandMessageXmd (xmdHash P.digest H) P.b (P.C.blockBits / 8) msg dst P.len) F
      (xmdSuffix P dst) [] script) := by
  obtain ⟨a, e, r⟩ := xmd_feed V (m := []) (V.hash.init (garbage 0) (hg 0)) (xmdPad P) (by
    simp [xmdPad]; omega)
  refine ⟨a, ?_⟩
  suffices key : ∀ (ops : List GroupHashOp) (script : List (Option (List Nat))),
      List.Forall₂ (XmdMatches P.C.blockBits) ops script → ∀ (a : Acc σ) (msg : List Nat) (out : List ρ),
      Rep P.C a (octetBits (xmdPad P ++ msg)) →
      P.C.blockBits / 8 + msg.length + (script.map (xmdCost (xmdSuffix P dst))).sum + P.b + 300 ≤ limit →
      ∃ a', P.run garbage out0 dst post a out ops = .ok (a', out ++ xmdOutputs
        (fun msg => expandMessageXmd (xmdHash P.digest H) P.b (P.C.blockBits / 8) msg dst P.len) F
        (xmdSuffix P dst) msg script) by
    obtain ⟨a', e'⟩ := key ops script hm a [] [] (by simpa using r) (by simpa using hl)
    exact ⟨a', e, by simpa using e'⟩
  intro ops script hm
  induction hm with
  | nil => intro a msg out _ _; exact ⟨a, by simp [XmdParams.run, xmdOutputs]⟩
  | @cons op st ops script hop _ ih =>
    intro a msg out r hl
    rw [List.map_cons, List.sum_cons] at hl
    cases op with
    | update E k cache0 xs =>
      cases st with
      | none => exact absurd hop (by simp [XmdMatches])
      | some bs =>
        obtain ⟨⟨t1, t2, t3⟩, hbs⟩ := hop
        have hl' : P.C.blockBits / 8 + msg.length + (bs.length +
          (script.map (xmdCost (xmdSuffix P dst))).sum) + P.b + 300 ≤ limit := hl
        obtain ⟨a1, e1, r1⟩ := r.feed (J := P.J) V.hash.word V.hash.wordBlock ⟨V.hash.block, t1, t2⟩ k cache0 xs t3
          (by
            rw [hbs, ← octetBits_append, length_octetBits]
            refine V.fits.mono ?_
            simp [xmdPad]; omega)
        rw [hbs, ← octetBits_append, List.append_assoc] at r1
        obtain ⟨a', e'⟩ := ih a1 (msg ++ bs) out r1 (by rw [List.length_append]; omega)
        refine ⟨a', ?_⟩
        rw [XmdParams.run, e1]
        exact e'
    | extract =>
      cases st with
      | some bs => exact absurd hop (by simp [XmdMatches])
      | none =>
        have hl' : P.C.blockBits / 8 + msg.length + ((xmdSuffix P dst).length +
          (script.map (xmdCost (xmdSuffix P dst))).sum) + P.b + 300 ≤ limit := hl
        obtain ⟨a1, e1, r1⟩ := C37_process_partial P V garbage hg out0 hout hlen hpos hdvd r dst hd (by omega)
        have hlb : (expandMessageXmd (xmdHash P.digest H) P.b (P.C.blockBits / 8) msg dst P.len).length = P.len := by
          show (List.take P.len (((List.range ((P.len + P.b - 1) / P.b)).map fun i =>
            xmdB P H dst (xmdHash P.digest H (msgPrime (P.C.blockBits / 8) msg dst P.len)) (i + 1)).flatten)).length = _
          rw [List.length_take, spec_length V, ← ell_eq P V.b]
          obtain ⟨q, hq⟩ := hdvd
          have hb := V.b
          have hell : P.ell = q := by
            unfold XmdParams.ell
            rw [hq, Nat.mul_div_cancel_left _ hb, Nat.mul_mod_right]; simp
          rw [hell, hq, Nat.mul_comm, Nat.min_self]
        obtain ⟨a', e'⟩ := ih a1 (msg ++ xmdSuffix P dst)
          (out ++ [F (expandMessageXmd (xmdHash P.digest H) P.b (P.C.blockBits / 8) msg dst P.len)]) r1
          (by rw [List.length_append]; omega)
        refine ⟨a', ?_⟩
        rw [XmdParams.run, e1]
        show (post _ >>= _) = _
        rw [hpost _ hlb]
        show P.run garbage out0 dst post a1 _ ops = _
        rw [e', xmdOutputs, List.append_assoc]
        rfl

theorem xmdOutputs_feed {ρ : Type} (expand : List Nat → List Nat) (F : List Nat → ρ) (suffix : List Nat)
    (pieces : List (List Nat)) (tail : List (Option (List Nat))) : ∀ msg,
    xmdOutputs expand F suffix msg (pieces.map some ++ tail) = xmdOutputs expand F suffix (msg ++ pieces.flatten) tail := by
  induction pieces with
  | nil => intro msg; simp
  | cons p ps ih => intro msg; simp [xmdOutputs, ih]

/-- C37: a message fed in any pieces, with any element types and iterator categories, then extracted once,
gives RFC 9380's expand_message_xmd. -/
theorem C37_expand_message_xmd_partial (P : XmdParams σ δ) {limit : Nat} (V : XmdParams.Valid P Good H limit)
    (garbage : Nat → Bits) (hg : ∀ i, (garbage i).length = P.C.blockBits) (out0 : List Nat)
    (hout : out0.length = P.len) (hlen : P.len < 65536) (hpos : 0 < P.len) (hdvd : P.b ∣ P.len)
    (dst : List Nat) (hd : 16 ≤ dst.length ∧ dst.length ≤ 255) (ops : List GroupHashOp) (pieces : List (List Nat))
    (hm : List.Forall₂ (XmdMatches P.C.blockBits) ops (pieces.map some))
    (hl : P.C.blockBits / 8 + pieces.flatten.length + P.b + 600 ≤ limit) :
    ∃ a a', P.init (garbage 0) = .ok a ∧ P.run garbage out0 dst (fun bytes => .ok bytes) a [] (ops ++ [.extract]) =
      .ok (a', [expandMessageXmd (xmdHash P.digest H) P.b (P.C.blockBits / 8) pieces.flatten dst P.len]) := by
  have hm' : List.Forall₂ (XmdMatches P.C.blockBits) (ops ++ [.extract]) (pieces.map some ++ [none]) :=
    List.rel_append hm (.cons trivial .nil)
  have hs : (xmdSuffix P dst).length ≤ 259 := by
    simp [xmdSuffix, XmdParams.libStr]; omega
  have hcost : ((pieces.map some).map (xmdCost (xmdSuffix P dst))).sum = pieces.flatten.length := by
    rw [List.map_map, List.length_flatten]; rfl
  obtain ⟨a, a', e, e'⟩ := C38_history_partial P V garbage hg out0 hout hlen hpos hdvd dst hd (fun bytes => .ok bytes) id
    (fun _ _ => rfl) _ _ hm' (by
      rw [List.map_append, List.sum_append, hcost]
      simp only [List.map_cons, List.map_nil, List.sum_cons, List.sum_nil, xmdCost]
      omega)
  refine ⟨a, a', e, ?_⟩
  rw [e', xmdOutputs_feed]
  rfl

/-- C38: if two extractions in a row return the same octets, there is a collision among the first two hash calls
of each: either the two different first messages collide, or their digests do when hashed again. -/
theorem C38_repeat_collision (Hb : List Nat → List Nat) (b s : Nat) (msg dst : List Nat) (len : Nat)
    (hb : 0 < b) (hbl : b ≤ len) (hHb : ∀ xs, (Hb xs).length = b)
    (e : expandMessageXmd Hb b s msg dst len =
      expandMessageXmd Hb b s (msg ++ (i2osp len 2 ++ [0] ++ dstPrime dst)) dst len) :
    let first := msgPrime s msg dst len
    let second := msgPrime s (msg ++ (i2osp len 2 ++ [0] ++ dstPrime dst)) dst len
    (first ≠ second ∧ Hb first = Hb second) ∨
    (let x := Hb first ++ i2osp 1 1 ++ dstPrime dst
     let y := Hb second ++ i2osp 1 1 ++ dstPrime dst
     x ≠ y ∧ Hb x = Hb y) := by
  intro first second
  have hfirst : ∀ m, (expandMessageXmd Hb b s m dst len).take b =
      Hb (Hb (msgPrime s m dst len) ++ i2osp 1 1 ++ dstPrime dst) := by
    intro m
    unfold expandMessageXmd
    rw [List.take_take, Nat.min_eq_left hbl]
    obtain ⟨q, hq⟩ : ∃ q, (len + b - 1) / b = q + 1 :=
      ⟨(len + b - 1) / b - 1, by have := Nat.div_pos (show b ≤ len + b - 1 by omega) hb; omega⟩
    rw [hq, List.range_succ_eq_map, List.map_cons, List.flatten_cons]
    exact List.take_left' (hHb _)
  have e1 := congrArg (List.take b) e
  rw [hfirst, hfirst] at e1
  by_cases hne : Hb (msgPrime s msg dst len) ++ i2osp 1 1 ++ dstPrime dst =
      Hb (msgPrime s (msg ++ (i2osp len 2 ++ [0] ++ dstPrime dst)) dst len) ++ i2osp 1 1 ++ dstPrime dst
  · rw [List.append_assoc, List.append_assoc] at hne
    refine .inl ⟨?_, List.append_cancel_right hne⟩
    intro h
    have := congrArg List.length h
    simp [first, second, msgPrime, i2osp] at this
  · exact .inr ⟨hne, e1⟩

/-- A hash of two octets that only sees the length modulo 3: the repeated request collides in `Hb`. -/
example : let Hb : List Nat → List Nat := fun xs => [xs.length % 3, 0]
    let first := msgPrime 1 [1] [7] 4
    let second := msgPrime 1 ([1] ++ (i2osp 4 2 ++ [0] ++ dstPrime [7])) [7] 4
    (first ≠ second ∧ Hb first = Hb second) ∨
    (let x := Hb first ++ i2osp 1 1 ++ dstPrime [7]
     let y := Hb second ++ i2osp 1 1 ++ dstPrime [7]
     x ≠ y ∧ Hb x = Hb y) :=
  C38_repeat_collision (fun xs => [xs.length % 3, 0]) 2 1 [1] [7] 4 (by decide) (by decide) (fun _ => rfl)
    (by decide)

end Verif.Props
