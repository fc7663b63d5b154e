import Verif.Model.Haifa
import Verif.Proof.AtDigest
import Verif.Proof.Inject
import Verif.Proof.Generic
/- What `haifa_construction` computes. -/
namespace Verif

open Spec

variable {σ δ : Type}

/-- The block compressed with the final flag: the zero-padded rest, or the last full block again if
the message is a non-empty whole number of blocks. -/
def haifaLast (B : Nat) (m : Bits) : Bits :=
  if m.length ≠ 0 ∧ m.length % B = 0 then m.drop (m.length - B)
  else m.drop (m.length / B * B) ++ List.replicate (B - m.length % B) false

/-- The state after `q` blocks, block `i` being compressed with the number of bits up to its end. -/
def haifaAbsorbed (B : Nat) (init : σ) (compress : σ → Bits → Nat → Bool → σ) (m : Bits) : Nat → σ
  | 0 => init
  | q + 1 => compress (haifaAbsorbed B init compress m q) (block B m q) ((q + 1) * B) false

/-- Zeros injected in front of zeros. -/
theorem inject_zeros (J : Injector) {w n cursor : Nat} {d : Bits} (hn : n ≤ w)
    (h : cursor + n ≤ d.length) (hz : ∀ i, cursor + n ≤ i → i < d.length → d[i]? = some false) :
    J.inject (List.replicate w false) n d cursor 0 =
      d.take cursor ++ List.replicate (d.length - cursor) false := by
  have h' : 0 + n ≤ (List.replicate w false).length := by simp; omega
  have ht := J.take_inject (List.replicate w false) n d cursor 0 h h'
  have hl := J.length_inject (List.replicate w false) n d cursor 0 h h'
  have hr := J.rest_inject (List.replicate w false) n d cursor 0 h h'
  generalize J.inject (List.replicate w false) n d cursor 0 = r at *
  rw [List.drop_zero, List.take_replicate, Nat.min_eq_left hn] at ht
  rw [← List.take_append_drop (cursor + n) r, ht,
    show d.length - cursor = n + (d.length - cursor - n) by omega, ← List.replicate_append_replicate,
    List.append_assoc]
  congr 2
  apply List.ext_getElem?
  intro i
  rw [List.getElem?_drop, List.getElem?_replicate]
  by_cases hi : i < d.length - cursor - n
  · rw [if_pos hi]
    rcases hr (cursor + n + i) (by omega) with h1 | h1
    · rw [h1, hz _ (by omega) (by omega)]
    · exact h1
  · rw [if_neg hi, List.getElem?_eq_none (by omega)]

theorem blake2bPad_eq (B w : Nat) (hB : 0 < B) (hw : 0 < w) (hwB : w ∣ B) (J : Injector) (b : Bits)
    (hb : b.length = B) (n : Nat) (hn : n = 0 ∨ n % B ≠ 0) :
    blake2bPad B w J b n = .ok (b.take (n % B) ++ List.replicate (B - n % B) false) := by
  obtain ⟨c, rfl⟩ := hwB
  have hc : 0 < c := Nat.pos_of_mul_pos_left hB
  have hr : n % (w * c) < w * c := Nat.mod_lt _ hB
  have hmm : n % (w * c) = w * (n / w % c) + n % w := by
    rw [Nat.mod_mul]; omega
  have hq : w * c / w = c := Nat.mul_div_cancel_left c hw
  have hlt : n / w % c < c := Nat.mod_lt _ hc
  have hmw : n % (w * c) % w = n % w := Nat.mod_mul_right_mod n w c
  have hwlt : n % w < w := Nat.mod_lt _ hw
  unfold blake2bPad
  rw [if_pos hn, hq]
  generalize hk : n / w % c = k at *
  have hkc : w * k + w ≤ w * c := by
    calc w * k + w = w * (k + 1) := by rw [Nat.mul_add, Nat.mul_one]
      _ ≤ w * c := Nat.mul_le_mul_left _ hlt
  by_cases hz : n % w = 0
  · simp only [hz, ne_eq, not_true_eq_false, if_false, Nat.add_zero]
    rw [if_pos (by rw [Nat.mul_comm]; omega)]
    rw [hmm, hz, Nat.add_zero, Nat.mul_comm]
  · simp only [ne_eq, hz, not_false_eq_true, if_true]
    have e1 : (k + 1) * w = w * k + w := by rw [Nat.add_mul, Nat.one_mul, Nat.mul_comm]
    rw [if_pos (by omega), e1, hmw]
    have hl : (b.take (w * k + w) ++ List.replicate (w * c - (w * k + w)) false).length = w * c := by
      simp; omega
    generalize hd : b.take (w * k + w) ++ List.replicate (w * c - (w * k + w)) false = d at *
    rw [J.run_ok (by omega) (by simp)]
    congr 1
    rw [inject_zeros J (by omega) (by omega) ?_, hl, ← hd,
      List.take_append_of_le_length (by simp; omega), List.take_take, Nat.min_eq_left (by omega)]
    intro i hi h'
    rw [← hd, List.getElem?_append_right (by simp; omega), List.getElem?_replicate, if_pos]
    simp; omega

/-- `haifa_construction` compresses the full blocks, then `haifaLast` with the final flag; the counters are
those of the 64-bit bit counter.  The length must not be a non-zero multiple of `2^64`. -/
theorem haifa_result_any (B w : Nat) (hB : 0 < B) (hw : 0 < w) (hwB : w ∣ B) (init : σ)
    (compress : σ → Bits → Nat → Bool → σ) (output : σ → Except Fault δ) (J : Injector) (a : Acc σ)
    (m : Bits) (h : Rep (haifaConstruction B w init compress output J) a m)
    (hm : m.length = 0 ∨ wrap64 m.length ≠ 0) :
    a.result (haifaConstruction B w init compress output J) =
      output (compress (absorbed (haifaConstruction B w init compress output J) m (m.length / B))
        (haifaLast B m) (wrap64 m.length) true) := by
  obtain ⟨q, h1, h2, h3, h4, h5⟩ := h.atDigest hB
  have hcl : a.cache.length = B := h.cache_len
  replace h1 : q * B ≤ m.length := h1
  replace h2 : m.length < q * B + B := h2
  replace h4 : a.cache.take (m.length % B) = m.drop (q * B) := h4
  have hq : m.length / B = q := by
    apply Nat.div_eq_of_lt_le h1
    rw [Nat.add_mul]; omega
  have hmod : wrap64 m.length % B = m.length % B := h.small.mod
  have h0 : wrap64 m.length = 0 ↔ m.length = 0 :=
    ⟨fun e => hm.resolve_right (fun h' => h' e), fun e => by rw [e]; rfl⟩
  unfold Acc.result
  rw [h.total]
  show haifaDigest B w compress output J a.st a.cache (wrap64 m.length) = _
  unfold haifaDigest
  simp only [bind, Except.bind]
  replace h3 : (if m.length ≠ 0 ∧ m.length % B = 0 then compress a.st a.cache (wrap64 m.length) false
      else a.st) = absorbed (haifaConstruction B w init compress output J) m q := h3
  simp only [ne_eq, h0, hmod] at h3 ⊢
  rw [h3, hq]
  unfold haifaLast
  by_cases hf : m.length ≠ 0 ∧ m.length % B = 0
  · have hp : blake2bPad B w J a.cache (wrap64 m.length) = .ok a.cache := by
      unfold blake2bPad
      rw [if_neg (by rw [h0, hmod]; omega)]
    rw [hp, if_pos hf]
    simp only
    have hc : a.cache = m.drop (m.length - B) := by
      obtain ⟨q', k1, k2, k3, _, _, k6⟩ := h.core
      replace k1 : q' * B ≤ m.length := k1
      replace k2 : m.length ≤ q' * B + B := k2
      replace k3 : q' = 0 ∨ q' * B < m.length := k3
      replace k6 : a.cache.take (m.length - q' * B) = m.drop (q' * B) := k6
      have e : m.length = q' * B + B := by
        obtain ⟨c, hc⟩ := Nat.dvd_of_mod_eq_zero hf.2
        rw [Nat.mul_comm] at hc
        have hlt : q' < c := by
          rcases k3 with rfl | k3
          · rcases Nat.eq_zero_or_pos c with rfl | hc0
            · rw [Nat.zero_mul] at hc; omega
            · exact hc0
          · rw [hc] at k3; exact Nat.lt_of_mul_lt_mul_right k3
        have := Nat.mul_le_mul_right B hlt
        rw [Nat.succ_mul] at this
        omega
      rw [show m.length - q' * B = B by omega, List.take_of_length_le (by omega)] at k6
      rw [k6, show m.length - B = q' * B by omega]
    rw [hc]
  · rw [blake2bPad_eq B w hB hw hwB J _ hcl _ (by rw [h0, hmod]; omega), if_neg hf]
    simp only
    rw [hmod, h4, hq]

/-- Below `2^64` bits the counters are the numbers of bits. -/
theorem haifa_result (B w : Nat) (hB : 0 < B) (hw : 0 < w) (hwB : w ∣ B) (init : σ)
    (compress : σ → Bits → Nat → Bool → σ) (output : σ → Except Fault δ) (J : Injector) (a : Acc σ)
    (m : Bits) (h : Rep (haifaConstruction B w init compress output J) a m) (hm : m.length < 2 ^ 64) :
    a.result (haifaConstruction B w init compress output J) =
      output (compress (haifaAbsorbed B init compress m (m.length / B)) (haifaLast B m) m.length
        true) := by
  have hab : ∀ k, k * B ≤ m.length →
      absorbed (haifaConstruction B w init compress output J) m k = haifaAbsorbed B init compress m k := by
    intro k
    induction k with
    | zero => intro _; rfl
    | succ k ih =>
      intro hk
      have hk' : k * B ≤ m.length := by rw [Nat.add_mul] at hk; omega
      simp only [absorbed, haifaAbsorbed, ih hk']
      show compress _ _ (wrap64 ((k + 1) * B)) false = _
      rw [wrap64_of_lt (by omega)]
      rfl
  rw [haifa_result_any B w hB hw hwB init compress output J a m h (by rw [wrap64_of_lt hm]; omega),
    hab _ (Nat.div_mul_le_self _ _), wrap64_of_lt hm]

/-- A message of a non-zero multiple of `2^64` bits is taken for empty: its last block is never
compressed. -/
theorem haifa_result_wrapped (B w : Nat) (hB : 0 < B) (hw : 0 < w) (hwB : w ∣ B) (h64 : B ∣ 2 ^ 64) (init : σ)
    (compress : σ → Bits → Nat → Bool → σ) (output : σ → Except Fault δ) (J : Injector) (a : Acc σ)
    (m : Bits) (h : Rep (haifaConstruction B w init compress output J) a m)
    (hpos : 0 < m.length) (hm : 2 ^ 64 ∣ m.length) :
    a.result (haifaConstruction B w init compress output J) =
      output (compress (absorbed (haifaConstruction B w init compress output J) m (m.length / B - 1))
        (List.replicate B false) 0 true) := by
  have hcl : a.cache.length = B := h.cache_len
  obtain ⟨q, k1, k2, k3, _, k5, _⟩ := h.core
  replace k1 : q * B ≤ m.length := k1
  replace k2 : m.length ≤ q * B + B := k2
  replace k3 : q = 0 ∨ q * B < m.length := k3
  obtain ⟨c, hc⟩ := Nat.dvd_trans h64 hm
  have hq : q = c - 1 := by
    rw [Nat.mul_comm] at hc
    have hc0 : c ≠ 0 := by rintro rfl; omega
    have a1 : q < c := by
      rcases k3 with rfl | k3
      · omega
      · rw [hc] at k3; exact Nat.lt_of_mul_lt_mul_right k3
    have a2 : c ≤ q + 1 := by
      have : c * B ≤ (q + 1) * B := by rw [Nat.add_mul, Nat.one_mul]; omega
      exact Nat.le_of_mul_le_mul_right this hB
    omega
  have htot : a.total = 0 := by rw [h.total]; exact Nat.mod_eq_zero_of_dvd hm
  unfold Acc.result
  show haifaDigest B w compress output J a.st a.cache a.total = _
  rw [htot]
  unfold haifaDigest
  simp only [bind, Except.bind]
  rw [if_neg (by omega), blake2bPad_eq B w hB hw hwB J _ hcl _ (Or.inl rfl), hc,
    Nat.mul_div_cancel_left _ hB, ← hq, ← k5]
  simp

/-- The digest of `haifa_construction` as a function of the message. -/
def haifaDigestOf (B : Nat) (init : σ) (compress : σ → Bits → Nat → Bool → σ) (out : σ → δ)
    (m : Bits) : δ :=
  out (compress (haifaAbsorbed B init compress m (m.length / B)) (haifaLast B m) m.length true)

def HaifaGood (m : Bits) : Prop := m.length < 2 ^ 64

theorem haifa_verified (B w : Nat) (hB : 0 < B) (hw : 0 < w) (hwB : w ∣ B) (init : σ)
    (compress : σ → Bits → Nat → Bool → σ) (output : σ → Except Fault δ) (out : σ → δ)
    (hout : ∀ s, output s = .ok (out s)) (J : Injector) :
    Verified (haifaConstruction B w init compress output J) HaifaGood
      (haifaDigestOf B init compress out) where
  block := hB
  word := hw
  wordBlock := hwB
  computes := by
    intro a m h hm
    rw [haifa_result B w hB hw hwB init compress output J a m h hm, hout]
    rfl

end Verif
