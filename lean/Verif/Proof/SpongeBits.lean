import Verif.Proof.Sponge
/- Messages whose last octet is incomplete, its bits in the order of FIPS 202 section B.1. -/
namespace Verif

open Spec

variable {σ δ : Type}

/-- The accumulator holds `m` (whole octets) and then `t`, the latter in FIPS 202 bit order. -/
structure BitRep (C : Construction σ δ) (a : Acc σ) (m t : Bits) : Prop where
  octets : 8 ∣ m.length
  cache_len : a.cache.length = C.blockBits
  total : a.total = m.length + t.length
  small : m.length + t.length < 2 ^ 64
  core : ∃ q, q * C.blockBits ≤ m.length ∧ m.length < q * C.blockBits + C.blockBits ∧
    a.st = absorbed C m q ∧
    (flipOctets a.cache).take (m.length - q * C.blockBits + t.length) =
      flipOctets (m.drop (q * C.blockBits)) ++ t

/-- What the construction compresses then. -/
theorem sponge_bits_result (k : SpongeKind) (B : Nat) (hB : 0 < B) (h64 : 64 ∣ B) (init : σ)
    (compress : σ → Bits → σ) (output : σ → Except Fault δ) (J : Injector) (a : Acc σ) (m t : Bits)
    (h : BitRep (spongeConstructionOf k B init compress output J) a m t) (ht : 0 < t.length)
    (hfit : m.length % B + t.length + k.suffix.length + 2 ≤ B) :
    a.result (spongeConstructionOf k B init compress output J) =
      output (((blocks B (flipOctets m ++ t ++ k.suffix ++
        pad101 B (flipOctets m ++ t ++ k.suffix).length)).map flipOctets).foldl compress init) := by
  obtain ⟨hm8, hcl, htot, hlt, q, hq1, hq2, hst, hc⟩ := h
  have hC : (spongeConstructionOf k B init compress output J).blockBits = B := rfl
  rw [hC] at hcl hq1 hq2 hc
  have hmod : m.length % B = m.length - q * B := mod_of_between hq1 hq2
  rw [hmod] at hfit
  have hseen : (m.length + t.length) % B = m.length - q * B + t.length := by
    rw [mod_of_between (q := q) (by omega) (by omega)]; omega
  unfold Acc.result
  show spongeDigest k B compress output J a.st a.cache a.total = _
  rw [htot]
  unfold spongeDigest
  simp only
  rw [hseen, if_neg (by omega), k.pad_eq' J a.cache _ hcl (by omega)]
  simp only [bind, Except.bind, if_true, pure, Except.pure]
  rw [hc, hst, absorbed_eq_foldl _ compress (fun _ _ _ => rfl) hB m q hq1, hC]
  generalize hbs : blocks B (m.take (q * B)) = bs
  have hsz : (m.drop (q * B)).length = m.length - q * B := by rw [List.length_drop]
  generalize htail : flipOctets (m.drop (q * B)) ++ t ++ k.suffix ++ [true] ++
    List.replicate (B - 1 - (m.length - q * B + t.length + k.suffix.length + 1)) false ++ [true] = tail
  have htl : tail.length = B := by
    rw [← htail]
    simp only [List.length_append, length_flipOctets, hsz, List.length_cons, List.length_nil,
      List.length_replicate]
    omega
  have e0 : compress (bs.foldl compress
        (spongeConstructionOf k B init compress output J).init) (flipOctets tail) =
      (bs ++ [flipOctets tail]).foldl compress init := by rw [List.foldl_append]; rfl
  rw [e0]
  congr 2
  have h1 : 8 ∣ (m.take (q * B)).length := Nat.dvd_trans (by omega) (take_blocks_length hq1)
  have h2 : 8 ∣ (m.drop (q * B)).length := by
    have e : m.length = (m.take (q * B)).length + (m.drop (q * B)).length := by
      rw [← List.length_append, List.take_append_drop]
    omega
  have hN : (flipOctets m ++ t ++ k.suffix).length = m.length + t.length + k.suffix.length := by
    rw [List.length_append, List.length_append, length_flipOctets]
  have hfill : fillTo B ((flipOctets m ++ t ++ k.suffix).length + 2) =
      B - 1 - (m.length - q * B + t.length + k.suffix.length + 1) := by
    rw [hN]
    have e : m.length + t.length + k.suffix.length + 2 =
        B * q + (m.length - q * B + t.length + k.suffix.length + 2) := by
      rw [Nat.mul_comm]; omega
    rw [e, fillTo_add_mul, fillTo_of_le (by omega) (by omega)]
    omega
  have hsplit : flipOctets m ++ t ++ k.suffix ++ pad101 B (flipOctets m ++ t ++ k.suffix).length =
      flipOctets (m.take (q * B)) ++ tail := by
    unfold pad101
    rw [hfill, ← htail]
    have e : flipOctets m = flipOctets (m.take (q * B)) ++ flipOctets (m.drop (q * B)) := by
      rw [← flipOctets_append _ _ h1 h2, List.take_append_drop]
    rw [e]
    simp only [List.append_assoc, List.cons_append, List.nil_append]
  rw [hsplit, blocks_append hB (by rw [length_flipOctets]; exact take_blocks_length hq1),
    blocks_single hB htl, List.map_append, List.map_cons, List.map_nil,
    blocks_flipOctets _ (by omega) _ h1, hbs, List.map_map]
  congr 1
  symm
  conv => rhs; rw [← List.map_id bs]
  apply List.map_congr_left
  intro b hb
  rw [← hbs] at hb
  exact flipOctets_flipOctets b (by rw [length_of_mem_blocks hb]; omega)

/-- A block pushed at the beginning of a block: whole words are copied, so the last octet arrives
complete. -/
theorem Rep.bitBlock {C : Construction σ δ} {J : Injector} {a : Acc σ} {m value : Bits} {n : Nat}
    (h : Rep C a m) (hw : C.wordBits = 64) (hwB : 64 ∣ C.blockBits) (hm : C.blockBits ∣ m.length)
    (h0 : 0 < n) (hn : n < C.blockBits) (hv : value.length = C.blockBits)
    (hlen : m.length + n < 2 ^ 64) :
    ∃ a', a.pushBlock C J value n = .ok a' ∧ BitRep C a' m ((flipOctets value).take n) := by
  have hB : 0 < C.blockBits := by omega
  have hf := h.flush hB
  unfold Acc.pushBlock Acc.processBlockValue
  have hn0 : ¬ n = 0 := by omega
  simp only [if_neg hn0]
  generalize a.flush C = b at *
  have hmod : m.length % C.blockBits = 0 := Nat.mod_eq_zero_of_dvd hm
  have hbt : b.total % C.blockBits = 0 := by rw [hf.total, hf.small.mod, hmod]
  rw [if_neg (by omega), if_neg (by omega)]
  obtain ⟨q, h1, h2, h5, h6⟩ := hf.core
  rw [mod_of_between h1 h2] at hmod
  have hcl := hf.cache_len
  generalize hk : (n / C.wordBits + if n % C.wordBits ≠ 0 then 1 else 0) * C.wordBits = k
  have hk' : n ≤ k ∧ k ≤ C.blockBits ∧ 8 ∣ k := by
    rw [← hk, hw]
    by_cases h3 : n % 64 = 0
    · rw [if_neg (by omega)]; omega
    · rw [if_pos h3]; omega
  rw [if_pos ⟨by omega, by omega⟩]
  refine ⟨_, rfl, ?_⟩
  have hl : ((flipOctets value).take n).length = n := by
    rw [List.length_take, length_flipOctets]; omega
  have hcl' : (value.take k ++ b.cache.drop k).length = C.blockBits := by simp; omega
  have hd : m.drop (q * C.blockBits) = [] := List.drop_of_length_le (by omega)
  refine ⟨Nat.dvd_trans (by omega) hm, hcl', ?_, by omega, q, h1, h2, h5, ?_⟩
  · rw [hl]
    show wrap64 (b.total + n) = _
    rw [hf.total, wrap64_add, wrap64_of_lt hlen]
  · rw [hl, hmod, Nat.zero_add, hd]
    show (flipOctets (value.take k ++ b.cache.drop k)).take n = flipOctets [] ++ _
    have e1 : (flipOctets (value.take k ++ b.cache.drop k)).take k = (flipOctets value).take k := by
      rw [flipOctets_take _ (by omega) _ hk'.2.2, flipOctets_take _ (by omega) _ hk'.2.2,
        List.take_append_of_le_length (by simp; omega), List.take_take, Nat.min_self]
    have e2 := congrArg (List.take n) e1
    rw [List.take_take, List.take_take, Nat.min_eq_left hk'.1] at e2
    rw [e2]
    rfl

/-- A word pushed at the beginning of a word is stored whole. -/
theorem Rep.bitWord {C : Construction σ δ} {J : Injector} {a : Acc σ} {m value : Bits} {n : Nat}
    (h : Rep C a m) (hw : C.wordBits = 64) (hB : 0 < C.blockBits) (hwB : 64 ∣ C.blockBits)
    (hm : 64 ∣ m.length) (h0 : 0 < n) (hn : n ≤ 64) (hv : value.length = 64)
    (hlen : m.length + n < 2 ^ 64) :
    ∃ a', a.pushWord C J value n = .ok a' ∧ BitRep C a' m ((flipOctets value).take n) := by
  have hf := h.flush hB
  unfold Acc.pushWord Acc.processWordValue
  have hn0 : ¬ n = 0 := by omega
  simp only [if_neg hn0]
  generalize a.flush C = b at *
  obtain ⟨q, h1, h2, h5, h6⟩ := hf.core
  have hmod : b.total % C.blockBits = m.length - q * C.blockBits := by
    rw [hf.total, hf.small.mod, mod_of_between h1 h2]
  have h64 : 64 ∣ m.length - q * C.blockBits :=
    Nat.dvd_sub hm (Nat.dvd_trans hwB (Nat.dvd_mul_left _ _))
  rw [hmod, hw, if_neg (by omega)]
  generalize hs : m.length - q * C.blockBits = s at *
  rw [show s / 64 * 64 = s by omega]
  have hcl := hf.cache_len
  rw [if_pos (by omega)]
  refine ⟨_, rfl, ?_⟩
  have hl : ((flipOctets value).take n).length = n := by
    rw [List.length_take, length_flipOctets]; omega
  have hcl' : (b.cache.take s ++ value ++ b.cache.drop (s + value.length)).length = C.blockBits := by
    simp; omega
  refine ⟨by omega, hcl', ?_, by omega, q, h1, h2, h5, ?_⟩
  · rw [hl]
    show wrap64 (b.total + n) = _
    rw [hf.total, wrap64_add, wrap64_of_lt hlen]
  · rw [hl, hs]
    show (flipOctets (b.cache.take s ++ value ++ b.cache.drop (s + value.length))).take (s + n) = _
    have l1 : (b.cache.take s).length = s := by rw [List.length_take]; omega
    rw [flipOctets_append _ _ (by rw [List.length_append]; omega) (by rw [List.length_drop]; omega),
      flipOctets_append _ _ (by omega) (by omega), List.append_assoc, List.take_append,
      length_flipOctets, l1, List.take_of_length_le (by rw [length_flipOctets]; omega), h6,
      show s + n - s = n by omega, List.take_append_of_le_length (by rw [length_flipOctets]; omega)]

theorem flipOctets_eight (b : Bits) (h : b.length = 8) : flipOctets b = b.reverse := by
  apply List.ext_getElem?
  intro i
  by_cases hi : i < 8
  · rw [getElem?_flipOctets _ (by omega), List.getElem?_reverse (by omega)]
    congr 1
    omega
  · rw [List.getElem?_eq_none (by rw [length_flipOctets]; omega),
      List.getElem?_eq_none (by rw [List.length_reverse]; omega)]

/-- The bits that the padding takes for the end of a message of `m.length` bits: the first bits, from the
least significant one, of the octet that the cache holds at the end of the message. -/
def tailSeen (B : Nat) (cache m : Bits) : Bits :=
  ((m.drop (m.length - m.length % 8) ++ (cache.drop (m.length % B)).take (8 - m.length % 8)).reverse).take
    (m.length % 8)

/-- An accumulator that holds any bits, seen by the padding. -/
theorem Rep.toBitRep {C : Construction σ δ} {a : Acc σ} {m : Bits} (h : Rep C a m) (h8 : 8 ∣ C.blockBits)
    (hB : 0 < C.blockBits) (hlt : m.length < 2 ^ 64) (hr : m.length % 8 ≠ 0) :
    BitRep C a (m.take (m.length - m.length % 8)) (tailSeen C.blockBits a.cache m) := by
  obtain ⟨q, h1, h2, h3, h4, h5, h6⟩ := h.core
  have hcl := h.cache_len
  have hq8 : 8 ∣ q * C.blockBits := Nat.dvd_trans h8 (Nat.dvd_mul_left _ _)
  have h2' : m.length < q * C.blockBits + C.blockBits := by omega
  have hs : m.length % C.blockBits = m.length - q * C.blockBits := mod_of_between h1 h2'
  generalize hr' : m.length % 8 = r at *
  have hr8 : r < 8 := by omega
  have hq1 : q * C.blockBits ≤ m.length - r := by omega
  have hl0 : (m.take (m.length - r)).length = m.length - r := by rw [List.length_take]; omega
  have hd : (m.drop (m.length - r)).length = r := by rw [List.length_drop]; omega
  have hcd : ((a.cache.drop (m.length % C.blockBits)).take (8 - r)).length = 8 - r := by
    rw [List.length_take, List.length_drop, hs]; omega
  have hlt' : (tailSeen C.blockBits a.cache m).length = r := by
    unfold tailSeen
    rw [hr', List.length_take, List.length_reverse, List.length_append, hd, hcd]; omega
  refine ⟨by rw [hl0]; omega, hcl, ?_, by rw [hl0, hlt']; omega, q, by rw [hl0]; exact hq1,
    by rw [hl0]; omega, ?_, ?_⟩
  · rw [h.total, wrap64_of_lt hlt, hl0, hlt']; omega
  · rw [h5]
    conv => lhs; rw [← List.take_append_drop (m.length - r) m]
    exact absorbed_append C _ _ q (by rw [hl0]; exact hq1)
  · rw [hl0, hlt']
    generalize hs0 : m.length - r - q * C.blockBits = s0
    have hs8 : 8 ∣ s0 := by omega
    have hsr : m.length - q * C.blockBits = s0 + r := by omega
    rw [hsr] at h6 hs
    have e1 : a.cache.take s0 = (m.take (m.length - r)).drop (q * C.blockBits) := by
      have e := congrArg (List.take s0) h6
      rw [List.take_take, Nat.min_eq_left (by omega)] at e
      rw [e, List.drop_take, hs0]
    have e2 : (a.cache.drop s0).take 8 =
        m.drop (m.length - r) ++ (a.cache.drop (m.length % C.blockBits)).take (8 - r) := by
      rw [hs]
      have e := congrArg (List.drop s0) h6
      rw [List.drop_take, List.drop_drop, show s0 + r - s0 = r by omega,
        show q * C.blockBits + s0 = m.length - r by omega] at e
      rw [← e, ← List.drop_drop]
      conv => lhs; rw [show 8 = r + (8 - r) by omega]
      rw [List.take_add]
    have e3 : (flipOctets a.cache).take (s0 + 8) =
        flipOctets (a.cache.take s0) ++ ((a.cache.drop s0).take 8).reverse := by
      rw [flipOctets_take _ (by omega) _ (by omega), List.take_add,
        flipOctets_append _ _ (by rw [List.length_take]; omega)
          (by rw [List.length_take, List.length_drop]; omega),
        flipOctets_eight ((a.cache.drop s0).take 8) (by rw [List.length_take, List.length_drop]; omega)]
    have e4 := congrArg (List.take (s0 + r)) e3
    rw [List.take_take, Nat.min_eq_left (by omega), List.take_append,
      List.take_of_length_le (l := flipOctets (a.cache.take s0))
        (by rw [length_flipOctets, List.length_take]; omega), length_flipOctets,
      List.length_take, Nat.min_eq_left (by omega), show s0 + r - s0 = r by omega, e1, e2] at e4
    rw [e4]
    unfold tailSeen
    rw [hr']

end Verif
