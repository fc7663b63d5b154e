import Verif.Props.XmdFinder
import Verif.Proof.H2CRandom
/-
C114 for the code: collisions, preimages and second preimages of hash_to_curve with a random hash function.
-/
namespace Verif.Props

open Spec Spec.H2C Spec.Oracle Spec.Ideal Oracle Verif.Ideal Verif.Curve

section
variable {b s k : Nat} {c : Fin k → XmdCall} {S : Finset (List Nat)}

open Classical in
/-- **C114, the code.** For any post-processing that sends no more than a share `δ` of the strings to the same value, a program
with `N` calls of the hash function finds two messages with the same result, a message with a given result, or a message with the
result of a given one, with small probability.  (Messages with their tags and output lengths, fed in any way.) -/
theorem C114_code {σ τ ρ : Type} {limit : Nat} {Par : Hash S b → Nat → XmdParams σ τ} {Good : Hash S b → Bits → Prop}
    {Hf : Hash S b → Bits → τ} (R : RandomHash S b s limit Par Good Hf) (hc : Function.Injective c) (ha : ∀ j, Allowed b (c j))
    {ell : Nat} (hL : ∀ j, (c j).ell ≤ ell) (h0 : 0 < ell) (hell : ∀ j, 0 < (c j).ell) (hdst : ∀ j, 16 ≤ (c j).dst.length) (hb : 0 < b)
    (hS : ∀ j, Covers S b s (c j)) (post : Fin k → List Nat → Except Fault ρ) (F : Fin k → List Nat → ρ)
    (hpost : ∀ j (bytes : List Nat), bytes.length = b * (c j).ell → post j bytes = .ok (F j bytes))
    {δ : ℚ} (hδ0 : 0 ≤ δ) (hδ : ∀ j t, (chance fun d : OctetString (b * (c j).ell) => F j d.toList = t) ≤ δ)
    (garbage : Nat → Bits) (hg : ∀ i, (garbage i).length = 8 * s) (out0 : Fin k → List Nat) (hout : ∀ j, (out0 j).length = b * (c j).ell) :
    ∃ out : Hash S b → (Σ j, Fed s limit b (c j)) → ρ,
      (∀ H q, ∃ a a', (Par H (b * (c q.1).ell)).init (garbage 0) = .ok a ∧
        (Par H (b * (c q.1).ell)).run garbage (out0 q.1) (c q.1).dst (post q.1) a [] (q.2.ops ++ [.extract]) = .ok (a', [out H q])) ∧
      (∀ (P : Finder S (Digest b) ((Σ j, Fed s limit b (c j)) × Σ j, Fed s limit b (c j))) (N : Nat), P.AtMost N →
        (chance fun H : Hash S b => (P.result H).1.1 ≠ (P.result H).2.1 ∧ out H (P.result H).1 = out H (P.result H).2) ≤
          ((N + 2) * (N + 1) / 2 : ℚ) * (δ + ell / 256 ^ b)) ∧
      (∀ (t : ρ) (P : Finder S (Digest b) (Σ j, Fed s limit b (c j))) (N : Nat), P.AtMost N →
        (chance fun H : Hash S b => out H (P.result H) = t) ≤ (N + 1) * δ + ((N + 1) * N / 2 : ℚ) * ell / 256 ^ b) ∧
      ∀ (q : Σ j, Fed s limit b (c j)) (P : Finder S (Digest b) (Σ j, Fed s limit b (c j))) (N : Nat), P.AtMost N →
        (chance fun H : Hash S b => (P.result H).1 ≠ q.1 ∧ out H (P.result H) = out H q) ≤
          (N + 1) * δ + ((N + 2) * (N + 1) / 2 : ℚ) * ell / 256 ^ b := by
  refine ⟨fun H q => F q.1 (expandMessageXmd H.apply b s (c q.1).msg (c q.1).dst (b * (c q.1).ell)), fun H q => ?_, fun P N hP => ?_,
    fun t P N hP => ?_, fun q P N hP => ?_⟩
  · exact random_run R (ha q.1) (hell q.1) (hdst q.1) hb (hS q.1) (post q.1) (F q.1) (hpost q.1) q.2 garbage hg (out0 q.1) (hout q.1) H
  · have h := C114_collision hc ha hL h0 hb hS F hδ0 hδ (mapResult (fun r => (r.1.1, r.2.1)) P) N (atMost_mapResult _ P N hP)
    simp only [result_mapResult] at h
    exact h
  · have h := C114_hit hc ha hL h0 hb hS (fun j l => F j l = t) hδ0 (fun j => hδ j t) (mapResult (fun r => r.1) P) N
      (atMost_mapResult _ P N hP)
    simp only [result_mapResult] at h
    exact h
  · have h := C114_second hc ha hL h0 hb hS F hδ0 hδ q.1 (mapResult (fun r => r.1) P) N (atMost_mapResult _ P N hP)
    simp only [result_mapResult] at h
    exact h

theorem chance_octets_le {n m : Nat} (h : m ≤ n) (t : List Nat) : (chance fun d : OctetString n => d.toList = t) ≤ 1 / 256 ^ m := by
  classical
  unfold chance
  have h1 : (Finset.univ.filter fun d : OctetString n => d.toList = t).card ≤ 1 := by
    refine Finset.card_le_one.2 fun d hd d' hd' => ?_
    exact octets_injective (((Finset.mem_filter.1 hd).2).trans ((Finset.mem_filter.1 hd').2).symm)
  have h2 : (Fintype.card (OctetString n) : ℚ) = 256 ^ n := by
    rw [show Fintype.card (OctetString n) = 256 ^ n from card_digest n]
    push_cast
    rfl
  rw [h2]
  refine div_le_div₀ zero_le_one ?_ (by positivity) (pow_le_pow_right₀ (by norm_num) h)
  refine Nat.cast_le_one.2 (le_trans (le_of_eq ?_) h1)
  congr

open Classical in
/-- **C114, expand_message_xmd.** -/
theorem C114_expand (hc : Function.Injective c) (ha : ∀ j, Allowed b (c j)) {ell : Nat} (hL : ∀ j, (c j).ell ≤ ell)
    (hell : ∀ j, 0 < (c j).ell) (hl : 0 < ell) (hb : 0 < b) (hS : ∀ j, Covers S b s (c j)) (P : Finder S (Digest b) (Fin k × Fin k)) (N : Nat)
    (hP : P.AtMost N) :
    (chance fun H : Hash S b => (P.result H).1 ≠ (P.result H).2 ∧
        expandMessageXmd H.apply b s (c (P.result H).1).msg (c (P.result H).1).dst (b * (c (P.result H).1).ell) =
          expandMessageXmd H.apply b s (c (P.result H).2).msg (c (P.result H).2).dst (b * (c (P.result H).2).ell)) ≤
      ((N + 2) * (N + 1) / 2 : ℚ) * (ell + 1) / 256 ^ b := by
  have h := C114_collision hc ha hL hl hb hS (fun _ l => l) (δ := 1 / 256 ^ b) (by positivity)
    (fun j t => chance_octets_le (Nat.le_mul_of_pos_right b (hell j)) t) P N hP
  refine le_trans h (le_of_eq ?_)
  ring

open Classical in
/-- **C114, hash_to_field**: `count` elements with `m` coordinates modulo `p`, from `L` octets each. -/
theorem C114_field (hc : Function.Injective c) (ha : ∀ j, Allowed b (c j)) {ell : Nat} (hL : ∀ j, (c j).ell ≤ ell)
    (hl : 0 < ell) (hb : 0 < b) (hS : ∀ j, Covers S b s (c j)) {count m L p : Nat} (hlen : ∀ j, b * (c j).ell = count * m * L) (hp : 0 < p)
    (P : Finder S (Digest b) (Fin k × Fin k)) (N : Nat) (hP : P.AtMost N) :
    (chance fun H : Hash S b => (P.result H).1 ≠ (P.result H).2 ∧
        hashToField count m L p (expandMessageXmd H.apply b s (c (P.result H).1).msg (c (P.result H).1).dst (b * (c (P.result H).1).ell)) =
          hashToField count m L p (expandMessageXmd H.apply b s (c (P.result H).2).msg (c (P.result H).2).dst (b * (c (P.result H).2).ell))) ≤
      ((N + 2) * (N + 1) / 2 : ℚ) * (((1 + p / 256 ^ L : ℚ) / p) ^ (count * m) + ell / 256 ^ b) := by
  refine C114_collision hc ha hL hl hb hS (fun _ l => hashToField count m L p l) (by positivity) (fun j t => ?_) P N hP
  have h := chance_field_le (hlen j) hp fun u => elements u = t
  simp only [elements_fieldOf] at h
  refine le_trans h (mul_le_of_le_one_left (by positivity) ?_)
  have h1 : (Finset.univ.filter fun u : Fin count → Fin m → Fin p => elements u = t).card ≤ 1 :=
    Finset.card_le_one.2 fun u hu u' hu' => elements_injective (((Finset.mem_filter.1 hu).2).trans ((Finset.mem_filter.1 hu').2).symm)
  refine Nat.cast_le_one.2 (le_trans (le_of_eq ?_) h1)
  congr

open Classical in
/-- **C114, G1.** Points of BLS12-381 G1 computed by the code from different messages (or tags). -/
theorem C114_g1 {σ τ : Type} {limit : Nat} {Par : Hash S 32 → Nat → XmdParams σ τ} {Good : Hash S 32 → Bits → Prop}
    {Hf : Hash S 32 → Bits → τ} (R : RandomHash S 32 s limit Par Good Hf) (hc : Function.Injective c) (ha : ∀ j, Allowed 32 (c j))
    (hell : ∀ j, (c j).ell = 4) (hdst : ∀ j, 16 ≤ (c j).dst.length)
    (hS : ∀ j, Covers S 32 s (c j)) (O : FieldOps Fp) (hO : FieldOps.Correct O) (hs : O.sgn0 = sgn0Fp) (one : Fp × Fp) (h1 : OnCurve 0 4 one)
    (garbage : Nat → Bits) (hg : ∀ i, (garbage i).length = 8 * s) (out0 : Fin k → List Nat) (hout : ∀ j, (out0 j).length = 128) :
    ∃ out : Hash S 32 → (Σ j, Fed s limit 32 (c j)) → (shortCurve (4 : Fp)).Point,
      (∀ H q, ∃ a a', (Par H 128).init (garbage 0) = .ok a ∧
        (Par H 128).run garbage (out0 q.1) (c q.1).dst (h2cProcess 1 64 bls12381P toFp O (g1Suite Fp) one (curvePoint 4)) a []
          (q.2.ops ++ [.extract]) = .ok (a', [out H q])) ∧
      (∀ (P : Finder S (Digest 32) ((Σ j, Fed s limit 32 (c j)) × Σ j, Fed s limit 32 (c j))) (N : Nat), P.AtMost N →
        (chance fun H : Hash S 32 => (P.result H).1.1 ≠ (P.result H).2.1 ∧ out H (P.result H).1 = out H (P.result H).2) ≤
          ((N + 2) * (N + 1) / 2 : ℚ) * (1 / 2 ^ 248 + 4 / 2 ^ 256)) ∧
      (∀ (t : (shortCurve (4 : Fp)).Point) (P : Finder S (Digest 32) (Σ j, Fed s limit 32 (c j))) (N : Nat), P.AtMost N →
        (chance fun H : Hash S 32 => out H (P.result H) = t) ≤ (N + 1) / 2 ^ 248 + ((N + 1) * N / 2 : ℚ) * 4 / 2 ^ 256) ∧
      ∀ (q : Σ j, Fed s limit 32 (c j)) (P : Finder S (Digest 32) (Σ j, Fed s limit 32 (c j))) (N : Nat), P.AtMost N →
        (chance fun H : Hash S 32 => (P.result H).1 ≠ q.1 ∧ out H (P.result H) = out H q) ≤
          (N + 1) / 2 ^ 248 + ((N + 2) * (N + 1) / 2 : ℚ) * 4 / 2 ^ 256 := by
  have hlen : ∀ j, 32 * (c j).ell = 128 := fun j => by rw [hell j]
  have h := C114_code R hc ha (ell := 4) (fun j => le_of_eq (hell j)) (by decide) (fun j => by rw [hell j]; decide) hdst (by decide) hS
    (fun _ => h2cProcess 1 64 bls12381P toFp O (g1Suite Fp) one (curvePoint 4))
    (fun _ => curveOf 1 64 bls12381P toFp (fun u => curvePoint 4 (mapped O (g1Suite Fp) one u)) (g1Suite Fp).hEff)
    (fun j bytes hb => h2cProcess_eq (curvePoint 4) (fun u => (C59_g1_iff O hO hs one h1 u).imp fun Q h => h.1) (hb.trans (hlen j)))
    (δ := 1 / 2 ^ 248) (by positivity) (fun j t => chance_g1 O hO hs one h1 (hlen j) t)
    garbage hg out0 (fun j => (hout j).trans (hlen j).symm)
  obtain ⟨out, hrun, hcol, hpre, hsec⟩ := h
  have e : ∀ N x : ℚ, N * (1 / 2 ^ 248) + x * ((4 : Nat) : ℚ) / 256 ^ 32 = N / 2 ^ 248 + x * 4 / 2 ^ 256 := by
    intro N x
    rw [show (256 : ℚ) ^ 32 = 2 ^ 256 by norm_num]
    push_cast
    ring
  refine ⟨out, fun H q => ?_, fun P N hP => ?_, fun t P N hP => ?_, fun q P N hP => ?_⟩
  · obtain ⟨a, a', h1, h2⟩ := hrun H q
    rw [hlen q.1] at h1 h2
    exact ⟨a, a', h1, h2⟩
  · have h := hcol P N hP
    rw [show (256 : ℚ) ^ 32 = 2 ^ 256 by norm_num] at h
    exact h
  · have h := hpre t P N hP
    rw [e] at h
    exact h
  · have h := hsec q P N hP
    rw [e] at h
    exact h

open Classical in
/-- **C114, G2.** -/
theorem C114_g2 {σ τ : Type} {limit : Nat} {Par : Hash S 32 → Nat → XmdParams σ τ} {Good : Hash S 32 → Bits → Prop}
    {Hf : Hash S 32 → Bits → τ} (R : RandomHash S 32 s limit Par Good Hf) (hc : Function.Injective c) (ha : ∀ j, Allowed 32 (c j))
    (hell : ∀ j, (c j).ell = 8) (hdst : ∀ j, 16 ≤ (c j).dst.length)
    (hS : ∀ j, Covers S 32 s (c j)) (O : FieldOps Fp2) (hO : FieldOps.Correct O) (hs : O.sgn0 = fun y => sgn0Fp2 y) (one : Fp2 × Fp2)
    (garbage : Nat → Bits) (hg : ∀ i, (garbage i).length = 8 * s) (out0 : Fin k → List Nat) (hout : ∀ j, (out0 j).length = 256) :
    ∃ out : Hash S 32 → (Σ j, Fed s limit 32 (c j)) → (shortCurve (4 * (1 + im2))).Point,
      (∀ H q, ∃ a a', (Par H 256).init (garbage 0) = .ok a ∧
        (Par H 256).run garbage (out0 q.1) (c q.1).dst (h2cProcess 2 64 bls12381P toFp2 O (g2Suite im2) one (curvePoint (4 * (1 + im2)))) a []
          (q.2.ops ++ [.extract]) = .ok (a', [out H q])) ∧
      (∀ (P : Finder S (Digest 32) ((Σ j, Fed s limit 32 (c j)) × Σ j, Fed s limit 32 (c j))) (N : Nat), P.AtMost N →
        (chance fun H : Hash S 32 => (P.result H).1.1 ≠ (P.result H).2.1 ∧ out H (P.result H).1 = out H (P.result H).2) ≤
          ((N + 2) * (N + 1) / 2 : ℚ) * (1 / 2 ^ 250 + 8 / 2 ^ 256)) ∧
      (∀ (t : (shortCurve (4 * (1 + im2))).Point) (P : Finder S (Digest 32) (Σ j, Fed s limit 32 (c j))) (N : Nat), P.AtMost N →
        (chance fun H : Hash S 32 => out H (P.result H) = t) ≤ (N + 1) / 2 ^ 250 + ((N + 1) * N / 2 : ℚ) * 8 / 2 ^ 256) ∧
      ∀ (q : Σ j, Fed s limit 32 (c j)) (P : Finder S (Digest 32) (Σ j, Fed s limit 32 (c j))) (N : Nat), P.AtMost N →
        (chance fun H : Hash S 32 => (P.result H).1 ≠ q.1 ∧ out H (P.result H) = out H q) ≤
          (N + 1) / 2 ^ 250 + ((N + 2) * (N + 1) / 2 : ℚ) * 8 / 2 ^ 256 := by
  have hlen : ∀ j, 32 * (c j).ell = 256 := fun j => by rw [hell j]
  have h := C114_code R hc ha (ell := 8) (fun j => le_of_eq (hell j)) (by decide) (fun j => by rw [hell j]; decide) hdst (by decide) hS
    (fun _ => h2cProcess 2 64 bls12381P toFp2 O (g2Suite im2) one (curvePoint (4 * (1 + im2))))
    (fun _ => curveOf 2 64 bls12381P toFp2 (fun u => curvePoint (4 * (1 + im2)) (mapped O (g2Suite im2) one u)) (g2Suite im2).hEff)
    (fun j bytes hb => h2cProcess_eq (curvePoint (4 * (1 + im2))) (fun u => (C59_g2 O hO hs one u).imp fun Q h => h.1) (hb.trans (hlen j)))
    (δ := 1 / 2 ^ 250) (by positivity) (fun j t => chance_g2 O hO hs one (hlen j) t)
    garbage hg out0 (fun j => (hout j).trans (hlen j).symm)
  obtain ⟨out, hrun, hcol, hpre, hsec⟩ := h
  have e : ∀ N x : ℚ, N * (1 / 2 ^ 250) + x * ((8 : Nat) : ℚ) / 256 ^ 32 = N / 2 ^ 250 + x * 8 / 2 ^ 256 := by
    intro N x
    rw [show (256 : ℚ) ^ 32 = 2 ^ 256 by norm_num]
    push_cast
    ring
  refine ⟨out, fun H q => ?_, fun P N hP => ?_, fun t P N hP => ?_, fun q P N hP => ?_⟩
  · obtain ⟨a, a', h1, h2⟩ := hrun H q
    rw [hlen q.1] at h1 h2
    exact ⟨a, a', h1, h2⟩
  · have h := hcol P N hP
    rw [show (256 : ℚ) ^ 32 = 2 ^ 256 by norm_num] at h
    exact h
  · have h := hpre t P N hP
    rw [e] at h
    exact h
  · have h := hsec q P N hP
    rw [e] at h
    exact h

/-! ### Exceptional inputs of G1 -/

/-- hash_to_curve of RFC 9380 section 3 with any hash function (of 32 octets). -/
def CurveHash {F G : Type} [Field F] [DecidableEq F] [AddCommGroup G] (hash : List Nat → List Nat) (s m p : Nat) (toField : List Nat → F)
    (point : F × F → G) (sgn : F → Nat) (S : H2cSuite F) (msg dst : List Nat) (R : G) : Prop :=
  ∃ c0 c1 Q0 Q1,
    hashToField 2 m 64 p (expandMessageXmd hash 32 s msg dst (2 * m * 64)) = [c0, c1] ∧
    MapToCurve sgn S.A S.B S.Z S.xNum S.xDen S.yNum S.yDen (toField c0) Q0 ∧
    MapToCurve sgn S.A S.B S.Z S.xNum S.xDen S.yNum S.yDen (toField c1) Q1 ∧
    R = S.hEff • (toGroup point Q0 + toGroup point Q1)

/-- With SHA-256 this is the definition used in C60. -/
theorem curveHash_sha256 {F G : Type} [Field F] [DecidableEq F] [AddCommGroup G] (m p : Nat) (toField : List Nat → F)
    (point : F × F → G) (sgn : F → Nat) (S : H2cSuite F) (msg dst : List Nat) (R : G) :
    CurveHash Sha.sha256 64 m p toField point sgn S msg dst R ↔ HashToCurve m p toField point sgn S msg dst R := Iff.rfl

/-- One of the two field elements is exceptional. -/
def Exceptional (bytes : List Nat) : Prop :=
  ∃ i < 2, ∃ n ∈ g1Exceptional, toFp ((hashToField 2 1 64 bls12381P bytes).getD i []) = (n : Fp)

theorem chance_exceptional {n : Nat} (hn : n = 128) : (chance fun d : OctetString n => Exceptional d.toList) ≤ 1 / 2 ^ 375 := by
  classical
  let E : Finset Fp := (g1Exceptional.map fun n : Nat => (n : Fp)).toFinset
  have hE : E.card ≤ 16 := by
    refine (List.toFinset_card_le _).trans (le_of_eq ?_)
    rw [List.length_map]
    exact g1Exceptional_nodup.2.1
  have h1 := chance_in_le (m := 1) (L := 64) (p := bls12381P) (by decide) toFp toFp_injective (by rw [ZMod.card, pow_one]) E hn
  refine le_trans (chance_mono fun d hd => ?_) (le_trans h1 ?_)
  · obtain ⟨i, hi, n, hn, h⟩ := hd
    exact ⟨i, hi, List.mem_toFinset.2 (List.mem_map.2 ⟨n, hn, h.symm⟩)⟩
  · have hEq : (E.card : ℚ) ≤ 16 := by exact_mod_cast hE
    refine le_trans (b := (2 * 16 : ℚ) * (1 + bls12381P / 256 ^ 64) ^ (2 * 1) / bls12381P ^ 1) ?_ ?_
    · gcongr
    · rw [show (2 : ℚ) ^ 375 = 2 ^ 200 * 2 ^ 175 by rw [← pow_add]]
      unfold bls12381P
      norm_num

/-- Otherwise the code computes hash_to_curve of RFC 9380. -/
theorem curveHash_of_not_exceptional (O : FieldOps Fp) (hO : FieldOps.Correct O) (hs : O.sgn0 = sgn0Fp) (one : Fp × Fp) (h1 : OnCurve 0 4 one)
    (hash : List Nat → List Nat) (s : Nat) (msg dst : List Nat) (h : ¬ Exceptional (expandMessageXmd hash 32 s msg dst 128)) :
    CurveHash hash s 1 bls12381P toFp (curvePoint (4 : Fp)) (fun x : Fp => Spec.H2C.sgn0 [x.val]) (g1Suite Fp) msg dst
      (curveOf 1 64 bls12381P toFp (fun u => curvePoint 4 (mapped O (g1Suite Fp) one u)) (g1Suite Fp).hEff
        (expandMessageXmd hash 32 s msg dst 128)) := by
  obtain ⟨c0, c1, hc⟩ := hashToField_two 1 64 bls12381P (expandMessageXmd hash 32 s msg dst 128)
  obtain ⟨Q0, e0, -, m0⟩ := C59_g1_iff O hO hs one h1 (toFp c0)
  obtain ⟨Q1, e1, -, m1⟩ := C59_g1_iff O hO hs one h1 (toFp c1)
  refine ⟨c0, c1, some Q0, some Q1, hc, m0.2 fun n hn he => h ⟨0, by decide, n, hn, ?_⟩, m1.2 fun n hn he => h ⟨1, by decide, n, hn, ?_⟩, ?_⟩
  · rw [hc]
    exact he
  · rw [hc]
    exact he
  · unfold curveOf
    rw [hc, List.getD_cons_zero, List.getD_cons_succ, List.getD_cons_zero]
    simp only [mapped_eq e0, mapped_eq e1]
    rfl

open Classical in
/-- **C114, exceptional inputs.** With a random hash function, a program with `N` calls finds a message for which the point extracted
for G1 is not hash_to_curve of RFC 9380 with probability at most `(N+1)/2^375 + 2N(N+1)/2^256`. -/
theorem C114_g1_exceptional {σ τ : Type} {limit : Nat} {Par : Hash S 32 → Nat → XmdParams σ τ} {Good : Hash S 32 → Bits → Prop}
    {Hf : Hash S 32 → Bits → τ} (R : RandomHash S 32 s limit Par Good Hf) (hc : Function.Injective c) (ha : ∀ j, Allowed 32 (c j))
    (hell : ∀ j, (c j).ell = 4) (hdst : ∀ j, 16 ≤ (c j).dst.length)
    (hS : ∀ j, Covers S 32 s (c j)) (O : FieldOps Fp) (hO : FieldOps.Correct O) (hs : O.sgn0 = sgn0Fp) (one : Fp × Fp) (h1 : OnCurve 0 4 one)
    (garbage : Nat → Bits) (hg : ∀ i, (garbage i).length = 8 * s) (out0 : Fin k → List Nat) (hout : ∀ j, (out0 j).length = 128) :
    ∃ out : Hash S 32 → (Σ j, Fed s limit 32 (c j)) → (shortCurve (4 : Fp)).Point,
      (∀ H q, ∃ a a', (Par H 128).init (garbage 0) = .ok a ∧
        (Par H 128).run garbage (out0 q.1) (c q.1).dst (h2cProcess 1 64 bls12381P toFp O (g1Suite Fp) one (curvePoint 4)) a []
          (q.2.ops ++ [.extract]) = .ok (a', [out H q])) ∧
      ∀ (P : Finder S (Digest 32) (Σ j, Fed s limit 32 (c j))) (N : Nat), P.AtMost N →
        (chance fun H : Hash S 32 => ¬ CurveHash H.apply s 1 bls12381P toFp (curvePoint (4 : Fp)) (fun x : Fp => Spec.H2C.sgn0 [x.val])
            (g1Suite Fp) (c (P.result H).1).msg (c (P.result H).1).dst (out H (P.result H))) ≤
          (N + 1) / 2 ^ 375 + ((N + 1) * N / 2 : ℚ) * 4 / 2 ^ 256 := by
  have hlen : ∀ j, 32 * (c j).ell = 128 := fun j => by rw [hell j]
  refine ⟨fun H q => curveOf 1 64 bls12381P toFp (fun u => curvePoint 4 (mapped O (g1Suite Fp) one u)) (g1Suite Fp).hEff
    (expandMessageXmd H.apply 32 s (c q.1).msg (c q.1).dst 128), fun H q => ?_, fun P N hP => ?_⟩
  · obtain ⟨a, a', e1, e2⟩ := random_run R (ha q.1) (by rw [hell q.1]; decide) (hdst q.1) (by decide) (hS q.1)
      (h2cProcess 1 64 bls12381P toFp O (g1Suite Fp) one (curvePoint 4))
      (curveOf 1 64 bls12381P toFp (fun u => curvePoint 4 (mapped O (g1Suite Fp) one u)) (g1Suite Fp).hEff)
      (fun bytes hb => h2cProcess_eq (curvePoint 4) (fun u => (C59_g1_iff O hO hs one h1 u).imp fun Q h => h.1) (hb.trans (hlen q.1)))
      q.2 garbage hg (out0 q.1) ((hout q.1).trans (hlen q.1).symm) H
    rw [hlen q.1] at e1 e2
    exact ⟨a, a', e1, e2⟩
  · have h := C114_hit hc ha (ell := 4) (fun j => le_of_eq (hell j)) (by decide) (by decide) hS (fun _ l => Exceptional l)
      (δ := 1 / 2 ^ 375) (by positivity) (fun j => chance_exceptional (hlen j)) (mapResult (fun r => r.1) P) N (atMost_mapResult _ P N hP)
    simp only [result_mapResult, hlen] at h
    refine le_trans (chance_mono fun H hH => ?_) (le_trans h (le_of_eq ?_))
    · by_contra hne
      exact hH (curveHash_of_not_exceptional O hO hs one h1 H.apply s _ _ hne)
    · rw [show (256 : ℚ) ^ 32 = 2 ^ 256 by norm_num]
      push_cast
      ring
end

/-! ### Examples -/

/-- Three calls for G1: four blocks of output. -/
def g1Calls : Fin 3 → XmdCall := ![⟨[1, 2, 3], quuxDst, 4⟩, ⟨[], quuxDst, 4⟩, ⟨[], quuxDst ++ [0], 4⟩]

theorem g1Calls_injective : Function.Injective g1Calls := by
  intro i j h
  revert i j
  have : ∀ i j : Fin 3, ((g1Calls i).msg, (g1Calls i).dst) = ((g1Calls j).msg, (g1Calls j).dst) → i = j := by decide
  exact fun i j h => this i j (by rw [h])

theorem g1Calls_allowed (j : Fin 3) : Allowed 32 (g1Calls j) := by
  revert j
  unfold Allowed
  decide

theorem g1Calls_strings : ∀ x ∈ callStrings 32 64 g1Calls, (∀ y ∈ x, y < 256) ∧ x.length ≤ 2 ^ 60 :=
  callStrings_octets 32 64 g1Calls g1Calls_allowed (by omega) (by omega) (by decide)

/-- The accumulator around a random function, G1. -/
example := C114_g1 (collectingXmd_random g1Calls_strings) g1Calls_injective g1Calls_allowed (by decide) (by decide)
  (covers_callStrings 32 64 g1Calls) (classicalOps (fun y : Fp => sgn0Fp y)) (classicalOps_correct _) rfl g1Gen g1_one_on_curve
  (fun _ => List.replicate 512 false) (fun _ => List.length_replicate) (fun _ => List.replicate 128 0) fun _ => List.length_replicate

example := C114_g1_exceptional (collectingXmd_random g1Calls_strings) g1Calls_injective g1Calls_allowed (by decide) (by decide)
  (covers_callStrings 32 64 g1Calls) (classicalOps (fun y : Fp => sgn0Fp y)) (classicalOps_correct _) rfl g1Gen g1_one_on_curve
  (fun _ => List.replicate 512 false) (fun _ => List.length_replicate) (fun _ => List.replicate 128 0) fun _ => List.length_replicate

/-- The accumulator around a random function, G2. -/
example := C114_g2 (collectingXmd_random threeCalls_strings) threeCalls_injective threeCalls_allowed (by decide) (by decide)
  (covers_callStrings 32 64 threeCalls) (classicalOps (fun y : Fp2 => sgn0Fp2 y)) (classicalOps_correct _) rfl (0, 0)
  (fun _ => List.replicate 512 false) (fun _ => List.length_replicate) (fun _ => List.replicate 256 0) fun _ => List.length_replicate

/-- The same without post-processing: the octets themselves. -/
example := C114_code (collectingXmd_random threeCalls_strings) threeCalls_injective threeCalls_allowed (ell := 8) (by decide) (by decide)
  (by decide) (by decide) (by decide) (covers_callStrings 32 64 threeCalls) (fun _ bytes => .ok bytes) (fun _ bytes => bytes)
  (fun _ _ _ => rfl) (δ := 1 / 256 ^ 32) (by positivity)
  (fun j t => chance_octets_le (by revert j; decide) t)
  (fun _ => List.replicate 512 false) (fun _ => List.length_replicate) (fun j => List.replicate (32 * (threeCalls j).ell) 0)
  fun _ => List.length_replicate

/-- A program with two calls: it hashes the first string of one message and of another, and compares a digit. -/
def peeking {S : Finset (List Nat)} (h0 : Covers S 32 64 (g1Calls 0)) (h1 : Covers S 32 64 (g1Calls 1)) :
    Finder S (Digest 32) (Fin 3 × Fin 3) :=
  .hash ⟨_, h0.1⟩ fun d => .hash ⟨_, h1.1⟩ fun d' => .done (if d 0 = d' 0 then (0, 1) else (0, 2))

/-- It finds a collision of expand_message_xmd with probability at most `30 / 2^256`. -/
example : (chance fun H : Hash (callStrings 32 64 g1Calls) 32 =>
    let r := (peeking (covers_callStrings 32 64 g1Calls 0) (covers_callStrings 32 64 g1Calls 1)).result H
    r.1 ≠ r.2 ∧ expandMessageXmd H.apply 32 64 (g1Calls r.1).msg (g1Calls r.1).dst (32 * (g1Calls r.1).ell) =
      expandMessageXmd H.apply 32 64 (g1Calls r.2).msg (g1Calls r.2).dst (32 * (g1Calls r.2).ell)) ≤ 30 / 256 ^ 32 := by
  refine le_trans (C114_expand g1Calls_injective g1Calls_allowed (ell := 4) (by decide) (by decide) (by decide) (by decide)
    (covers_callStrings 32 64 g1Calls) (peeking (covers_callStrings 32 64 g1Calls 0) (covers_callStrings 32 64 g1Calls 1)) 2
    (fun _ _ => trivial)) (le_of_eq ?_)
  norm_num

/-- A collision of hash_to_field for G1, with any program of `N` calls. -/
example := fun P : Finder (callStrings 32 64 g1Calls) (Digest 32) (Fin 3 × Fin 3) =>
  C114_field g1Calls_injective g1Calls_allowed (ell := 4) (by decide) (by decide) (by decide) (covers_callStrings 32 64 g1Calls)
    (count := 2) (m := 1) (L := 64) (p := bls12381P) (by decide) (by decide) P

/-- A toy field: an output whose two coordinates modulo 5 are zero, with no call. -/
example : (chance fun H : Hash (callStrings 2 4 oneCall) 2 => hashToField 1 2 1 5 (expandMessageXmd H.apply 2 4 [7] [8] (2 * 1)) = [[0, 0]]) ≤
    (1 + 5 / 256) ^ 2 / 25 := by
  have h := C114_hit (c := oneCall) (fun i j _ => Subsingleton.elim i j) oneCall_allowed (ell := 1) (fun _ => le_rfl) (by decide) (by decide)
    (covers_callStrings 2 4 oneCall) (fun _ l => hashToField 1 2 1 5 l = [[0, 0]]) (δ := (1 + 5 / 256) ^ 2 / 25) (by norm_num)
    (fun j => ?_) (.done 0) 0 trivial
  · refine le_trans h (le_of_eq ?_)
    norm_num
  · classical
    have h := chance_field_le (n := 2 * (oneCall j).ell) (count := 1) (m := 2) (L := 1) (P := 5) rfl (by decide)
      fun u => elements u = [[0, 0]]
    simp only [elements_fieldOf] at h
    refine le_trans h ?_
    have h1 : (Finset.univ.filter fun u : Fin 1 → Fin 2 → Fin 5 => elements u = [[0, 0]]).card = 1 := by decide +kernel
    rw [card_filter_inst _ _ (fun u => inferInstance), h1]
    norm_num

/-- A second message with the octets of the first call. -/
example := fun P : Finder (callStrings 32 64 threeCalls) (Digest 32) (Fin 3) =>
  C114_second threeCalls_injective threeCalls_allowed (ell := 8) (by decide) (by decide) (by decide) (covers_callStrings 32 64 threeCalls)
    (fun _ l => l) (δ := 1 / 256 ^ 32) (by positivity) (fun j t => chance_octets_le (by revert j; decide) t) 0 P
end Verif.Props
