import Verif.Model.H2fSuites
import Verif.Props.H2CG2
import Mathlib.Data.Nat.Log
/-
C78: the suites and default tags of `h2f` and `h2c` are those of RFC 9380.
C79: domain separation of `expand_message_xmd`.
-/
namespace Verif.Props
open Verif Verif.Spec Verif.Spec.H2C

/-- The ASCII octets of a string. -/
def ascii (s : String) : List Nat := s.toList.map Char.toNat

/-- `L` of RFC 9380 section 5.1: `ceil((ceil(log2(p)) + k) / 8)`. -/
def rfcL (p k : Nat) : Nat := (Nat.clog 2 p + k + 7) / 8

theorem clog_bls12381P : Nat.clog 2 bls12381P = 381 := by
  apply Nat.le_antisymm
  · exact (Nat.clog_le_iff_le_pow (by decide)).2 (by decide +kernel)
  · exact (Nat.lt_clog_iff_pow_lt (by decide)).2 (by decide +kernel)

/-- C78, RFC 9380 sections 8.8.1 and 8.8.2: identifier, extension degree, security level and `L` of the two suites. -/
theorem C78_suites :
    h2fG1.suiteId = ascii "BLS12381G1_XMD:SHA-256_SSWU_RO_" ∧ h2fG1.m = 1 ∧ h2fG1.k = 128 ∧
      h2fG1.L = rfcL bls12381P h2fG1.k ∧
    h2fG2.suiteId = ascii "BLS12381G2_XMD:SHA-256_SSWU_RO_" ∧ h2fG2.m = 2 ∧ h2fG2.k = 128 ∧
      h2fG2.L = rfcL bls12381P h2fG2.k := by
  have h : rfcL bls12381P 128 = 64 := by unfold rfcL; rw [clog_bls12381P]
  exact ⟨by decide +kernel, rfl, rfl, h.symm, by decide +kernel, rfl, rfl, h.symm⟩

/-- C78: what the compile-time assertions require of any suite: octet sizes, a digest of twice the security level, a
length of at most two octets, at most 255 blocks. -/
theorem C78_assertions (S : H2fSuite) (u : UniformityCount) (h8 : 8 ≤ S.digestBits) :
    S.staticAsserts u = true ↔ 8 ∣ S.blockBits ∧ 8 ∣ S.digestBits ∧ 2 * S.k ≤ S.digestBits ∧
      u.count * S.m * S.L < 2 ^ 16 ∧ u.count * S.m * S.L ≤ 255 * (S.digestBits / 8) := by
  have hb : 0 < S.digestBits / 8 := by omega
  have hell : (S.lenInBytes u / (S.digestBits / 8) + (if S.lenInBytes u % (S.digestBits / 8) ≠ 0 then 1 else 0) ≤ 255) ↔
      S.lenInBytes u ≤ 255 * (S.digestBits / 8) := by
    generalize S.lenInBytes u = n
    generalize S.digestBits / 8 = b at *
    have h1 := Nat.div_add_mod n b
    have h2 := Nat.mod_lt n hb
    generalize n / b = q at *
    generalize n % b = r at *
    subst h1
    constructor
    · intro h
      split at h
      · exact Nat.le_of_lt_succ (by have := Nat.mul_le_mul_left b (show q + 1 ≤ 255 by omega); rw [Nat.mul_add] at this; omega)
      · have := Nat.mul_le_mul_left b (show q ≤ 255 by omega); omega
    · intro h
      split
      · by_contra hc
        have := Nat.mul_le_mul_left b (show 255 ≤ q by omega); omega
      · by_contra hc
        have := Nat.mul_le_mul_left b (show 256 ≤ q by omega); omega
  simp only [H2fSuite.staticAsserts, Bool.and_eq_true, beq_iff_eq, decide_eq_true_eq, hell, Nat.dvd_iff_mod_eq_zero]
  exact ⟨fun ⟨⟨⟨⟨a, b⟩, c⟩, d⟩, e⟩ => ⟨a, b, c, d, e⟩, fun ⟨a, b, c, d, e⟩ => ⟨⟨⟨⟨a, b⟩, c⟩, d⟩, e⟩⟩

/-- A suite with 768 octets of output per element and a digest of 256 bits is not accepted for eleven elements. -/
example : { h2fG1 with m := 11, L := 768 }.staticAsserts .nonuniform = false := by
  rw [Bool.eq_false_iff, Ne, C78_assertions _ _ (by decide)]
  decide

/-- C78: the assertions of `expand_message_xmd` hold for both suites and both counts, with the lengths of RFC 9380. -/
theorem C78_lengths (u : UniformityCount) :
    h2fG1.staticAsserts u = true ∧ h2fG1.lenInBytes u = u.count * 1 * rfcL bls12381P 128 ∧
    h2fG2.staticAsserts u = true ∧ h2fG2.lenInBytes u = u.count * 2 * rfcL bls12381P 128 := by
  have h : rfcL bls12381P 128 = 64 := by unfold rfcL; rw [clog_bls12381P]
  rw [h]
  cases u <;> decide +kernel

/-- C78: the default tags are those of RFC 9380 appendices J.9.1 and J.10.1, and admissible (at least 16 and at most 255
octets). -/
theorem C78_default_dst (u : UniformityCount) :
    h2fG1.defaultDst u = ascii "QUUX-V01-CS02-with-BLS12381G1_XMD:SHA-256_SSWU_RO_" ∧
    h2fG2.defaultDst u = ascii "QUUX-V01-CS02-with-BLS12381G2_XMD:SHA-256_SSWU_RO_" ∧
    (∀ S ∈ [h2fG1, h2fG2], 16 ≤ (S.defaultDst u).length ∧ (S.defaultDst u).length ≤ 255 ∧
      ∀ x ∈ S.defaultDst u, x < 256) := by
  refine ⟨?_, ?_, ?_⟩ <;> cases u <;> decide +kernel

/-- C78 is false for the nonuniform encoding: RFC 9380 names it `…_NU_` (sections 8.8.1, 8.8.2), the default tag of the
library is that of the uniform one. -/
theorem C78_nonuniform_false :
    h2fG1.defaultDst .nonuniform ≠ ascii "QUUX-V01-CS02-with-BLS12381G1_XMD:SHA-256_SSWU_NU_" ∧
    h2fG2.defaultDst .nonuniform ≠ ascii "QUUX-V01-CS02-with-BLS12381G2_XMD:SHA-256_SSWU_NU_" ∧
    h2fG1.defaultDst .nonuniform = h2fG1.defaultDst .uniform ∧
    h2fG2.defaultDst .nonuniform = h2fG2.defaultDst .uniform := by
  refine ⟨?_, ?_, rfl, rfl⟩ <;> decide +kernel

section
variable (J : Injector) {E : Vector (BitVec 32) 16 → Vector (BitVec 32) 8 → Vector (BitVec 32) 8} (d0 : Bits)
  (hd : d0.length = 256) (cache0 : List Nat) (hc : cache0.length = 64)

include hc in
/-- C78: `h2c` over G2 with the default parameters is hash_to_curve of the suite, with the tag of appendix J.10.1. -/
theorem C78_default_g2 {G : Type} [AddCommGroup G] (point : Fp2 × Fp2 → G) (O : FieldOps Fp2) (hO : FieldOps.Correct O)
    (hs : O.sgn0 = fun y => sgn0Fp2 y) (one : Fp2 × Fp2) (hE : Computes16 E Sha.sha256fns.run) (garbage : Nat → Bits)
    (hg : ∀ i, (garbage i).length = 512) (out0 : List Nat) (hout : out0.length = h2fG2.lenInBytes .uniform)
    (ops : List GroupHashOp) (pieces : List (List Nat)) (hm : List.Forall₂ (XmdMatches 512) ops (pieces.map some))
    (hb : ∀ bs ∈ pieces, ∀ x ∈ bs, x < 256) (hl : pieces.flatten.length < 2 ^ 58) :
    ∃ a a' R, (sha256Xmd J E d0 hd cache0 (h2fG2.lenInBytes .uniform)).init (garbage 0) = .ok a ∧
      (sha256Xmd J E d0 hd cache0 (h2fG2.lenInBytes .uniform)).run garbage out0 (h2fG2.defaultDst .uniform)
        (h2cProcess h2fG2.m h2fG2.L bls12381P toFp2 O (g2Suite im2) one point) a [] (ops ++ [.extract]) =
          .ok (a', [R]) ∧
      HashToCurve 2 bls12381P toFp2 point (fun x : Fp2 => Spec.H2C.sgn0 [x.re.val, x.im.val]) (g2Suite im2)
        pieces.flatten (ascii "QUUX-V01-CS02-with-BLS12381G2_XMD:SHA-256_SSWU_RO_") R := by
  obtain ⟨-, e, hadm⟩ := C78_default_dst .uniform
  obtain ⟨h1, h2, h3⟩ := hadm h2fG2 (by simp)
  rw [← e]
  exact C60_g2 J d0 hd cache0 hc point O hO hs one hE garbage hg out0 hout _ ⟨h1, h2⟩ h3 ops pieces hm hb hl

include hc in
/-- C78: `h2c` over G1 with the default parameters, except on the messages excluded by C60. -/
theorem C78_default_g1_partial {G : Type} [AddCommGroup G] (point : Fp × Fp → G) (O : FieldOps Fp)
    (hO : FieldOps.Correct O) (hs : O.sgn0 = sgn0Fp) (one : Fp × Fp) (h1 : OnCurve 0 4 one)
    (hE : Computes16 E Sha.sha256fns.run) (garbage : Nat → Bits)
    (hg : ∀ i, (garbage i).length = 512) (out0 : List Nat) (hout : out0.length = h2fG1.lenInBytes .uniform)
    (ops : List GroupHashOp) (pieces : List (List Nat)) (hm : List.Forall₂ (XmdMatches 512) ops (pieces.map some))
    (hb : ∀ bs ∈ pieces, ∀ x ∈ bs, x < 256) (hl : pieces.flatten.length < 2 ^ 58) :
    let dst := ascii "QUUX-V01-CS02-with-BLS12381G1_XMD:SHA-256_SSWU_RO_"
    ∃ a a' R, (sha256Xmd J E d0 hd cache0 (h2fG1.lenInBytes .uniform)).init (garbage 0) = .ok a ∧
      (sha256Xmd J E d0 hd cache0 (h2fG1.lenInBytes .uniform)).run garbage out0 (h2fG1.defaultDst .uniform)
        (h2cProcess h2fG1.m h2fG1.L bls12381P toFp O (g1Suite Fp) one point) a [] (ops ++ [.extract]) = .ok (a', [R]) ∧
      ((∀ c ∈ hashToField 2 1 64 bls12381P (expandMessageXmd Sha.sha256 32 64 pieces.flatten dst 128),
          ¬ MapToCurve (fun x : Fp => Spec.H2C.sgn0 [x.val]) (g1Suite Fp).A (g1Suite Fp).B (g1Suite Fp).Z
            (g1Suite Fp).xNum (g1Suite Fp).xDen (g1Suite Fp).yNum (g1Suite Fp).yDen (toFp c) none) →
        HashToCurve 1 bls12381P toFp point (fun x : Fp => Spec.H2C.sgn0 [x.val]) (g1Suite Fp) pieces.flatten dst R) := by
  obtain ⟨e, -, hadm⟩ := C78_default_dst .uniform
  obtain ⟨h2, h3, h4⟩ := hadm h2fG1 (by simp)
  intro dst
  have e' : dst = h2fG1.defaultDst .uniform := e.symm
  rw [e']
  exact C60_g1_partial J d0 hd cache0 hc point O hO hs one h1 hE garbage hg out0 hout _ ⟨h2, h3⟩ h4 ops pieces hm hb hl

include hc in
/-- C78: `h2f` with the default parameters, for both suites and both counts: hash_to_field of RFC 9380 of the message,
with the tag of appendix J (that of the uniform suite in both cases). -/
theorem C78_default_h2f (S : H2fSuite) (hS : S ∈ [h2fG1, h2fG2]) (u : UniformityCount)
    (hE : Computes16 E Sha.sha256fns.run) (garbage : Nat → Bits)
    (hg : ∀ i, (garbage i).length = 512) (out0 : List Nat) (hout : out0.length = S.lenInBytes u)
    (ops : List GroupHashOp) (pieces : List (List Nat)) (hm : List.Forall₂ (XmdMatches 512) ops (pieces.map some))
    (hb : ∀ bs ∈ pieces, ∀ x ∈ bs, x < 256) (hl : pieces.flatten.length < 2 ^ 58) :
    ∃ a a', (sha256Xmd J E d0 hd cache0 (S.lenInBytes u)).init (garbage 0) = .ok a ∧
      (sha256Xmd J E d0 hd cache0 (S.lenInBytes u)).run garbage out0 (S.defaultDst u)
        (h2fProcess u.count S.m S.L bls12381P) a [] (ops ++ [.extract]) =
        .ok (a', [hashToField u.count S.m 64 bls12381P (expandMessageXmd Sha.sha256 32 64 pieces.flatten
          (ascii "QUUX-V01-CS02-with-" ++ S.suiteId) (u.count * S.m * 64))]) := by
  obtain ⟨h1, h2, h3⟩ := (C78_default_dst u).2.2 S hS
  have e : S.defaultDst u = ascii "QUUX-V01-CS02-with-" ++ S.suiteId := by
    have : defaultTag = ascii "QUUX-V01-CS02-with-" := by decide +kernel
    unfold H2fSuite.defaultDst
    rw [this]
  rw [← e]
  have hL : S.L = 64 ∧ 0 < u.count * S.m ∧ u.count * S.m < 1024 := by
    rcases List.mem_cons.1 hS with rfl | h
    · cases u <;> decide
    · rcases List.mem_singleton.1 h with rfl
      cases u <;> decide
  have hlen : S.lenInBytes u = u.count * S.m * 64 := by unfold H2fSuite.lenInBytes; rw [hL.1]
  rw [hlen] at hout ⊢
  rw [hL.1]
  exact C40_suites J d0 hd cache0 hc u.count S.m hL.2.1 hL.2.2 hE garbage hg out0 hout _ ⟨h1, h2⟩ h3 ops pieces hm hb hl
end

/-- "abc" in two pieces of different element types, hashed to G2; `G` is any group. -/
example {G : Type} [AddCommGroup G] (point : Fp2 × Fp2 → G) :=
  C78_default_g2 spliceInjector (List.replicate 256 true) List.length_replicate (List.replicate 64 9)
    List.length_replicate point (classicalOps (fun y : Fp2 => sgn0Fp2 y)) (classicalOps_correct _) rfl (0, 0)
    (computes16_cipherOf Sha.sha256fns.run) (fun _ => List.replicate 512 true) (fun _ => List.length_replicate)
    (List.replicate 256 7) List.length_replicate
    [.update (wordElem bigOctetBigBit 8) .container (List.replicate 64 9) [0x61],
      .update (wordElem bigOctetBigBit 16) .singlePass (List.replicate 32 9) [0x6263]]
    [[0x61], [0x62, 0x63]]
    (.cons ⟨⟨by decide, by decide, by decide⟩, by decide⟩
      (.cons ⟨⟨by decide, by decide, by decide⟩, by decide⟩ .nil)) (by decide) (by decide)

example {G : Type} [AddCommGroup G] (point : Fp × Fp → G) :=
  C78_default_g1_partial spliceInjector (List.replicate 256 true) List.length_replicate (List.replicate 64 9)
    List.length_replicate point (classicalOps sgn0Fp) (classicalOps_correct _) rfl _ g1_one_on_curve
    (computes16_cipherOf Sha.sha256fns.run) (fun _ => List.replicate 512 true) (fun _ => List.length_replicate)
    (List.replicate 128 7) List.length_replicate
    [.update (wordElem bigOctetBigBit 8) .container (List.replicate 64 9) [0x61],
      .update (wordElem bigOctetBigBit 16) .singlePass (List.replicate 32 9) [0x6263]]
    [[0x61], [0x62, 0x63]]
    (.cons ⟨⟨by decide, by decide, by decide⟩, by decide⟩
      (.cons ⟨⟨by decide, by decide, by decide⟩, by decide⟩ .nil)) (by decide) (by decide)

/-- RFC 9380 appendix J.9.1, empty message: the two field elements that the right-hand side of `C78_default_h2f` gives. -/
example : hashToField 2 1 64 bls12381P (expandMessageXmd Sha.sha256 32 64 []
      (ascii "QUUX-V01-CS02-with-" ++ h2fG1.suiteId) 128) =
    [[0x0ba14bd907ad64a016293ee7c2d276b8eae71f25a4b941eece7b0d89f17f75cb3ae5438a614fb61d6835ad59f29c564f],
     [0x019b9bd7979f12657976de2884c7cce192b82c177c80e0ec604436a7f538d231552f0d96d9f7babe5fa3b19b3ff25ac9]] := by
  decide +kernel

theorem i2osp_octet {x : Nat} (h : x < 256) : i2osp x 1 = [x] := by
  simp [i2osp, Nat.mod_eq_of_lt h]

/-- Something followed by a tag of at most 255 octets and its length: both parts can be read off. -/
theorem append_dstPrime_inj {x y dst dst' : List Nat} (h : dst.length ≤ 255) (h' : dst'.length ≤ 255)
    (e : x ++ dstPrime dst = y ++ dstPrime dst') : x = y ∧ dst = dst' := by
  unfold dstPrime at e
  rw [i2osp_octet (by omega), i2osp_octet (by omega), ← List.append_assoc, ← List.append_assoc] at e
  obtain ⟨e1, e2⟩ := List.append_inj' e rfl
  exact List.append_inj' e1 (by simpa using e2)

theorem i2osp_two_inj {a b : Nat} (ha : a < 65536) (hb : b < 65536) (e : i2osp a 2 = i2osp b 2) : a = b := by
  simp only [i2osp, List.nil_append, List.cons_append, List.cons.injEq, and_true] at e
  omega

/-- C79: the input of the first hash determines message, tag and output length. -/
theorem C79_msg_prime_injective (s : Nat) {msg msg' dst dst' : List Nat} {len len' : Nat} (h : dst.length ≤ 255)
    (h' : dst'.length ≤ 255) (hl : len < 65536) (hl' : len' < 65536)
    (e : msgPrime s msg dst len = msgPrime s msg' dst' len') : msg = msg' ∧ dst = dst' ∧ len = len' := by
  unfold msgPrime at e
  obtain ⟨e0, rfl⟩ := append_dstPrime_inj h h' e
  obtain ⟨e1, e2⟩ := List.append_inj' (List.append_cancel_right e0) (by simp [i2osp])
  exact ⟨List.append_cancel_left e1, rfl, i2osp_two_inj hl hl' e2⟩

/-- C79: two calls of expand_message_xmd that differ in the message, the tag or the length and whose outputs begin with
the same `b` octets give a collision of the hash, among the first two hash calls of each. -/
theorem C79_expand_collision (Hb : List Nat → List Nat) (b s : Nat) {msg msg' dst dst' : List Nat} {len len' : Nat}
    (hb : 0 < b) (hbl : b ≤ len) (hbl' : b ≤ len') (hHb : ∀ xs, (Hb xs).length = b) (h : dst.length ≤ 255)
    (h' : dst'.length ≤ 255) (hl : len < 65536) (hl' : len' < 65536) (hne : (msg, dst, len) ≠ (msg', dst', len'))
    (e : (expandMessageXmd Hb b s msg dst len).take b = (expandMessageXmd Hb b s msg' dst' len').take b) :
    (msgPrime s msg dst len ≠ msgPrime s msg' dst' len' ∧ Hb (msgPrime s msg dst len) = Hb (msgPrime s msg' dst' len')) ∨
    (let x := Hb (msgPrime s msg dst len) ++ i2osp 1 1 ++ dstPrime dst
     let y := Hb (msgPrime s msg' dst' len') ++ i2osp 1 1 ++ dstPrime dst'
     x ≠ y ∧ Hb x = Hb y) := by
  have hfirst : ∀ m d (l : Nat), b ≤ l → (expandMessageXmd Hb b s m d l).take b =
      Hb (Hb (msgPrime s m d l) ++ i2osp 1 1 ++ dstPrime d) := by
    intro m d l hbl
    unfold expandMessageXmd
    rw [List.take_take, Nat.min_eq_left hbl]
    obtain ⟨q, hq⟩ : ∃ q, (l + b - 1) / b = q + 1 :=
      ⟨(l + b - 1) / b - 1, by have := Nat.div_pos (show b ≤ l + b - 1 by omega) hb; omega⟩
    rw [hq, List.range_succ_eq_map, List.map_cons, List.flatten_cons]
    exact List.take_left' (hHb _)
  rw [hfirst _ _ _ hbl, hfirst _ _ _ hbl'] at e
  by_cases hx : Hb (msgPrime s msg dst len) ++ i2osp 1 1 ++ dstPrime dst =
      Hb (msgPrime s msg' dst' len') ++ i2osp 1 1 ++ dstPrime dst'
  · left
    obtain ⟨e1, rfl⟩ := append_dstPrime_inj h h' hx
    refine ⟨fun hm => hne ?_, List.append_cancel_right e1⟩
    obtain ⟨rfl, -, rfl⟩ := C79_msg_prime_injective s h h' hl hl' hm
    rfl
  · exact .inr ⟨hx, e⟩

section
variable (J : Injector) {E : Vector (BitVec 32) 16 → Vector (BitVec 32) 8 → Vector (BitVec 32) 8} (d0 : Bits)
  (hd : d0.length = 256) (cache0 : List Nat) (hc : cache0.length = 64)

include hc in
/-- C79 for the code over SHA-256: two accumulators fed different messages, or used with different tags or lengths, whose
outputs begin with the same 32 octets exhibit a collision of SHA-256, among the first two hash calls of each. -/
theorem C79_sha256_collision (hE : Computes16 E Sha.sha256fns.run) (garbage : Nat → Bits)
    (hg : ∀ i, (garbage i).length = 512) {len len' : Nat} (out0 out0' : List Nat) (hout : out0.length = len)
    (hout' : out0'.length = len') (hlen : len < 65536) (hlen' : len' < 65536) (hpos : 0 < len) (hpos' : 0 < len')
    (hdvd : 32 ∣ len) (hdvd' : 32 ∣ len') (dst dst' : List Nat) (hdl : 16 ≤ dst.length ∧ dst.length ≤ 255)
    (hdl' : 16 ≤ dst'.length ∧ dst'.length ≤ 255) (hdb : ∀ x ∈ dst, x < 256) (hdb' : ∀ x ∈ dst', x < 256)
    (ops ops' : List GroupHashOp) (pieces pieces' : List (List Nat))
    (hm : List.Forall₂ (XmdMatches 512) ops (pieces.map some))
    (hm' : List.Forall₂ (XmdMatches 512) ops' (pieces'.map some)) (hb : ∀ bs ∈ pieces, ∀ x ∈ bs, x < 256)
    (hb' : ∀ bs ∈ pieces', ∀ x ∈ bs, x < 256) (hl : pieces.flatten.length < 2 ^ 58)
    (hl' : pieces'.flatten.length < 2 ^ 58) (hne : (pieces.flatten, dst, len) ≠ (pieces'.flatten, dst', len')) :
    ∃ a a₁ b b₁ out out', (sha256Xmd J E d0 hd cache0 len).init (garbage 0) = .ok a ∧
      (sha256Xmd J E d0 hd cache0 len).run garbage out0 dst (fun bytes => .ok bytes) a [] (ops ++ [.extract]) =
        .ok (a₁, [out]) ∧
      (sha256Xmd J E d0 hd cache0 len').init (garbage 0) = .ok b ∧
      (sha256Xmd J E d0 hd cache0 len').run garbage out0' dst' (fun bytes => .ok bytes) b [] (ops' ++ [.extract]) =
        .ok (b₁, [out']) ∧
      (out.take 32 = out'.take 32 →
        let first := msgPrime 64 pieces.flatten dst len
        let first' := msgPrime 64 pieces'.flatten dst' len'
        (first ≠ first' ∧ Sha.sha256 first = Sha.sha256 first') ∨
        (let x := Sha.sha256 first ++ i2osp 1 1 ++ dstPrime dst
         let y := Sha.sha256 first' ++ i2osp 1 1 ++ dstPrime dst'
         x ≠ y ∧ Sha.sha256 x = Sha.sha256 y)) := by
  obtain ⟨a, a₁, e, e₁⟩ := C37_sha256_partial J d0 hd cache0 hc len hE garbage hg out0 hout hlen hpos hdvd dst hdl hdb ops
    pieces hm hb hl
  obtain ⟨b, b₁, f, f₁⟩ := C37_sha256_partial J d0 hd cache0 hc len' hE garbage hg out0' hout' hlen' hpos' hdvd' dst' hdl'
    hdb' ops' pieces' hm' hb' hl'
  refine ⟨a, a₁, b, b₁, _, _, e, e₁, f, f₁, fun h => ?_⟩
  exact C79_expand_collision Sha.sha256 32 64 (by omega) (Nat.le_of_dvd hpos hdvd) (Nat.le_of_dvd hpos' hdvd')
    (fun xs => (length_sha256 xs).1) hdl.2 hdl'.2 hlen hlen' hne h
end

/-- The default tags of the two suites separate them, and the output length separates the two counts. -/
example (msg : List Nat) :
    msgPrime 64 msg (h2fG1.defaultDst .uniform) (h2fG1.lenInBytes .uniform) ≠
      msgPrime 64 msg (h2fG2.defaultDst .uniform) (h2fG2.lenInBytes .uniform) ∧
    msgPrime 64 msg (h2fG1.defaultDst .uniform) (h2fG1.lenInBytes .uniform) ≠
      msgPrime 64 msg (h2fG1.defaultDst .nonuniform) (h2fG1.lenInBytes .nonuniform) := by
  constructor
  · intro h
    have := (C79_msg_prime_injective 64 (by decide) (by decide) (by decide) (by decide) h).2.1
    exact absurd this (by decide +kernel)
  · intro h
    have := (C79_msg_prime_injective 64 (by decide) (by decide) (by decide) (by decide) h).2.2
    exact absurd this (by decide)

/-- A hash that only keeps the length: messages of equal length collide. -/
example : let Hb : List Nat → List Nat := fun xs => [xs.length % 256]
    (msgPrime 1 [1] [7] 2 ≠ msgPrime 1 [2] [7] 2 ∧ Hb (msgPrime 1 [1] [7] 2) = Hb (msgPrime 1 [2] [7] 2)) ∨
    (let x := Hb (msgPrime 1 [1] [7] 2) ++ i2osp 1 1 ++ dstPrime [7]
     let y := Hb (msgPrime 1 [2] [7] 2) ++ i2osp 1 1 ++ dstPrime [7]
     x ≠ y ∧ Hb x = Hb y) :=
  C79_expand_collision (fun xs => [xs.length % 256]) 1 1 (msg := [1]) (msg' := [2]) (dst := [7]) (dst' := [7]) (len := 2)
    (len' := 2) (by decide) (by decide) (by decide) (fun _ => rfl) (by decide) (by decide) (by decide) (by decide)
    (by decide) (by decide)

end Verif.Props
