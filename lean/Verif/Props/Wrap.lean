import Verif.Props.Sponge2
import Verif.Props.Blake2b
import Verif.Props.MerkleDamgard2
/-
C86: messages of 2^64 bits and more.  The bit counter of the accumulator (`total_seen`, a `std::size_t`,
accumulators/hash.hpp:226) wraps around.
-/
namespace Verif.Props

open Spec

/-! ### One range split at a block boundary -/

section
variable {A α : Type} (push : Push A) (B : Nat) (E : Elem α)

theorem updateWhile_append (xs ys : List α) : ∀ p : Proc A α,
    p.updateWhile push B E (xs ++ ys) = p.updateWhile push B E xs >>= fun p => p.updateWhile push B E ys := by
  induction xs with
  | nil => intro p; rfl
  | cons x xs ih =>
    intro p
    simp only [List.cons_append, Proc.updateWhile]
    cases p.updateOne push B E x with
    | error e => rfl
    | ok p' => exact ih p'

theorem updateWhile_seen (hn : 0 < B / E.valueBits) (xs : List α) : ∀ {p p' : Proc A α},
    p.updateWhile push B E xs = .ok p' → p.seen < B / E.valueBits →
      p'.seen = (p.seen + xs.length) % (B / E.valueBits) := by
  induction xs with
  | nil =>
    intro p p' h hp
    cases h
    exact (Nat.mod_eq_of_lt hp).symm
  | cons x xs ih =>
    intro p p' h hp
    simp only [Proc.updateWhile] at h
    cases hu : p.updateOne push B E x with
    | error e => rw [hu] at h; cases h
    | ok p1 =>
      rw [hu] at h
      have h1 : p1.seen = (p.seen + 1) % (B / E.valueBits) := by
        unfold Proc.updateOne at hu
        split at hu
        · simp only at hu
          split at hu
          · rename_i hfull
            simp only [Proc.processBlock, bind, Except.bind, pure, Except.pure] at hu
            split at hu
            · cases hu
            · cases hu
              rw [hfull, Nat.mod_self]
          · rename_i hfull
            cases hu
            rw [Nat.mod_eq_of_lt (by omega)]
        · cases hu
      rw [ih h (by rw [h1]; exact Nat.mod_lt _ hn), h1, List.length_cons, Nat.mod_add_mod]
      congr 1
      omega

theorem updateWhile_fill (zs : List α) : ∀ p : Proc A α, zs ≠ [] →
    p.cache.length = B / E.valueBits → p.seen + zs.length = B / E.valueBits →
    p.updateWhile push B E zs = (push p.acc ((p.cache.take p.seen ++ zs).flatMap E.view) B >>= fun acc =>
      pure { acc := acc, cache := p.cache.take p.seen ++ zs, seen := 0 }) := by
  induction zs with
  | nil => intro p h; exact absurd rfl h
  | cons z zs ih =>
    intro p _ hc hs
    rw [List.length_cons] at hs
    have hset : p.cache.set p.seen z = p.cache.take p.seen ++ z :: p.cache.drop (p.seen + 1) := by
      rw [List.set_eq_take_append_cons_drop, if_pos (by omega)]
    have htl : (p.cache.take p.seen).length = p.seen := by rw [List.length_take]; omega
    simp only [Proc.updateWhile, Proc.updateOne]
    rw [if_pos (by omega)]
    by_cases hz : zs = []
    · subst hz
      rw [if_pos (by simpa using hs)]
      have hd : p.cache.drop (p.seen + 1) = [] := List.drop_of_length_le (by simp at hs; omega)
      rw [hset, hd]
      simp only [Proc.processBlock, bind, Except.bind, pure, Except.pure]
      cases push p.acc ((p.cache.take p.seen ++ [z]).flatMap E.view) B with
      | error e => rfl
      | ok a => rfl
    · have : 0 < zs.length := List.length_pos_iff.2 hz
      rw [if_neg (by omega)]
      simp only [bind, Except.bind]
      rw [ih _ hz (by simpa using hc) (by simp only; omega)]
      have ht : (p.cache.set p.seen z).take (p.seen + 1) = p.cache.take p.seen ++ [z] := by
        rw [hset, List.take_append, htl, show p.seen + 1 - p.seen = 1 by omega,
          List.take_of_length_le (by omega)]
        rfl
      simp only [ht, List.append_assoc, List.singleton_append]
      rfl

end

section
variable {σ δ α : Type} {C : Construction σ δ} {J : Injector} {E : Elem α}

/-- A range of whole blocks and one block more: the accumulator is fed the first part, then gets the last
block in one push. -/
theorem feed_last_block (hw : 0 < C.wordBits) (hwB : C.wordBits ∣ C.blockBits) (hB : 0 < C.blockBits)
    (hv : 0 < E.valueBits) (hvB : E.valueBits ∣ C.blockBits) {a : Acc σ} {m : Bits} (h : Rep C a m)
    (k : RangeKind) (cache0 xs ys : List α) (hc : cache0.length = C.blockBits / E.valueBits)
    (hx : C.blockBits / E.valueBits ∣ xs.length) (hy : ys.length = C.blockBits / E.valueBits)
    (hfit : Fits C (m ++ xs.flatMap E.view).length) :
    ∃ a1, Rep C a1 (m ++ xs.flatMap E.view) ∧
      a.feed C J E k cache0 (xs ++ ys) = a1.pushBlock C J (ys.flatMap E.view) C.blockBits := by
  have hn : 0 < C.blockBits / E.valueBits := Nat.div_pos (Nat.le_of_dvd hB hvB) hv
  have hP : Pushes (fun a v n => Acc.pushBlock C J a v n) C.blockBits (Fits C) (Rep C) :=
    ⟨fun h h' => h.mono h', fun h h0 hb hv' hf => h.pushBlock hw hwB h0 hb hv' hf⟩
  obtain ⟨p', m', buf, e, r, eq⟩ := PRep.updateWhile hP ⟨hB, hv, hvB⟩ xs
    (p := { acc := a, cache := cache0, seen := 0 }) (m := m) (buf := [])
    ⟨h, hc, rfl, hn, rfl⟩ (by simpa using hfit)
  have hs := updateWhile_seen _ _ E hn xs e hn
  simp only [Nat.zero_add] at hs
  rw [Nat.mod_eq_zero_of_dvd hx] at hs
  have hb : buf = [] := List.eq_nil_of_length_eq_zero (by rw [← r.seen, hs])
  subst hb
  rw [List.nil_append, List.flatMap_nil, List.append_nil] at eq
  refine ⟨p'.acc, eq ▸ r.rep, ?_⟩
  unfold Acc.feed feedSet
  rw [run_eq_updateWhile, updateWhile_append, e]
  simp only [bind, Except.bind]
  have hyne : ys ≠ [] := by rintro rfl; simp at hy; omega
  rw [updateWhile_fill _ _ E ys p' hyne r.cache_len (by rw [hs, hy, Nat.zero_add]), hs, List.take_zero,
    List.nil_append]
  cases p'.acc.pushBlock C J (ys.flatMap E.view) C.blockBits with
  | error e => rfl
  | ok a2 => rfl

end

/-! ### Keccak and SHA-3 -/

section
variable {σ δ : Type} (k : SpongeKind) {B : Nat} (hB : 0 < B) (h64 : 64 ∣ B) (hle : B ≤ 2 ^ 64)
  (hnd : ¬ B ∣ 2 ^ 64) (init : σ) (compress : σ → Bits → σ) (output : σ → Except Fault δ) (JP J : Injector)
include hB h64 hle hnd

omit hle in
theorem rest_facts : 0 < 2 ^ 64 % B ∧ 2 ^ 64 % B < B ∧ 64 ∣ 2 ^ 64 % B ∧
    2 ^ 64 / B * B + 2 ^ 64 % B = 2 ^ 64 := by
  refine ⟨Nat.pos_of_ne_zero fun h => hnd (Nat.dvd_of_mod_eq_zero h), Nat.mod_lt _ hB, ?_, ?_⟩
  · rw [Nat.dvd_mod_iff h64]; exact ⟨2 ^ 58, by decide⟩
  · rw [Nat.mul_comm]; exact Nat.div_add_mod _ _

/-- The block in which the counter wraps around: of its `B` bits only the first `B - 2^64 % B` enter the
digest. -/
theorem sponge_wrap_push {a : Acc σ} {m v : Bits}
    (h : Rep (spongeConstructionOf k B init compress output JP) a m) (hm : m.length = 2 ^ 64 / B * B)
    (hv : v.length = B) (bits : Nat) (hbits : bits = 0 ∨ bits = B) :
    ∃ a', a.pushBlock (spongeConstructionOf k B init compress output JP) J v bits = .ok a' ∧
      a'.result (spongeConstructionOf k B init compress output JP) =
        output ((absorbedBlocks k B (m ++ v.take (B - 2 ^ 64 % B))).foldl compress init) := by
  obtain ⟨hc0, hcB, hc64, hsum⟩ := rest_facts hB h64 hnd
  obtain ⟨f1, f2, f3, f4, q, f5, f6, f7, f8⟩ := h.flush hB
  replace f1 : _ = B := f1
  replace f5 : q * B ≤ m.length := f5
  replace f6 : m.length < q * B + B := f6
  generalize hc : 2 ^ 64 % B = c at *
  unfold Acc.pushBlock Acc.processBlockValue
  generalize a.flush (spongeConstructionOf k B init compress output JP) = b at *
  have hseen : (if bits = 0 then (spongeConstructionOf k B init compress output JP).blockBits else bits) = B := by
    rcases hbits with rfl | rfl
    · rfl
    · exact if_neg (by omega)
  have hlt : m.length < 2 ^ 64 := by omega
  have htot : b.total = m.length := f2.trans (wrap64_of_lt hlt)
  have hmod : m.length % B = 0 := by rw [hm, Nat.mul_mod_left]
  have hq : m.length = q * B := by
    have := mod_of_between f5 f6
    omega
  simp only [hseen]
  rw [if_neg (by show ¬ (b.total % B ≠ 0); rw [htot, hmod]; omega),
    if_pos (show B = (spongeConstructionOf k B init compress output JP).blockBits from rfl)]
  refine ⟨_, rfl, ?_⟩
  have hw : wrap64 (b.total + B) = B - c := by
    rw [htot, hm, show 2 ^ 64 / B * B + B = 2 ^ 64 + (B - c) by omega]
    unfold wrap64
    rw [Nat.add_mod_left, Nat.mod_eq_of_lt (by omega)]
  unfold Acc.result
  show spongeDigest k B compress output JP b.st v (wrap64 (b.total + B)) = _
  rw [hw]
  have hl : (v.take (B - c)).length = B - c := by rw [List.length_take]; omega
  refine spongeDigest_tail k B hB h64 init compress output JP b.st v _ m _ hv
    (Nat.dvd_of_mod_eq_zero hmod) ?_ ?_ ?_ ?_
  · rw [hl, Nat.mod_eq_of_lt (by omega)]
  · rw [hl]; omega
  · rw [hl]
  · rw [Nat.mod_eq_of_lt (by omega), if_neg (by omega), f7,
      absorbed_eq_foldl _ compress (fun _ _ _ => rfl) hB m q f5]
    show (blocks B (m.take (q * B))).foldl compress init = _
    rw [← hq, List.take_length]

/-- The same block in two pushes, the first of which ends where the counter wraps around: the bits of the first
push are overwritten. -/
theorem sponge_wrap_two_pushes {a : Acc σ} {m v w : Bits}
    (h : Rep (spongeConstructionOf k B init compress output JP) a m) (hm : m.length = 2 ^ 64 / B * B)
    (hv : v.length = B) (hw : w.length = B) :
    ∃ a' a'', a.pushBlock (spongeConstructionOf k B init compress output JP) J v (2 ^ 64 % B) = .ok a' ∧
      a'.pushBlock (spongeConstructionOf k B init compress output JP) J w (B - 2 ^ 64 % B) = .ok a'' ∧
      a''.result (spongeConstructionOf k B init compress output JP) =
        output ((absorbedBlocks k B (m ++ w.take (B - 2 ^ 64 % B))).foldl compress init) := by
  obtain ⟨hc0, hcB, hc64, hsum⟩ := rest_facts hB h64 hnd
  obtain ⟨f1, f2, f3, f4, q, f5, f6, f7, f8⟩ := h.flush hB
  replace f1 : _ = B := f1
  replace f5 : q * B ≤ m.length := f5
  replace f6 : m.length < q * B + B := f6
  generalize hc : 2 ^ 64 % B = c at *
  unfold Acc.pushBlock
  rw [if_neg (by omega)]
  simp only [show (if B - c = 0 then (spongeConstructionOf k B init compress output JP).blockBits else B - c) =
    B - c from if_neg (by omega)]
  have hlt : m.length < 2 ^ 64 := by omega
  have hmod : m.length % B = 0 := by rw [hm, Nat.mul_mod_left]
  have hq : m.length = q * B := by
    have := mod_of_between f5 f6
    omega
  have words : ∀ n, 64 ∣ n → (n / 64 + (if n % 64 ≠ 0 then 1 else 0)) * 64 = n := by
    intro n hn
    rw [if_neg (by omega)]
    omega
  have key : ∀ (b : Acc σ) (u : Bits) (n : Nat), b.filled = false → b.cache.length = B → b.total % B = 0 →
      u.length = B → 64 ∣ n → n < B →
      b.processBlockValue (spongeConstructionOf k B init compress output JP) J u n =
        .ok { b with total := wrap64 (b.total + n), cache := u.take n ++ b.cache.drop n } := by
    intro b u n hb hbl hbt hu hn hnB
    unfold Acc.processBlockValue
    have hfl : b.flush (spongeConstructionOf k B init compress output JP) = b := by
      unfold Acc.flush
      rw [hb]
      rfl
    rw [hfl]
    simp only
    rw [if_neg (by show ¬ (b.total % B ≠ 0); omega), 
      if_neg (show ¬ n = (spongeConstructionOf k B init compress output JP).blockBits from Nat.ne_of_lt hnB)]
    have hw' : (n / (spongeConstructionOf k B init compress output JP).wordBits +
      (if n % (spongeConstructionOf k B init compress output JP).wordBits ≠ 0 then 1 else 0)) *
      (spongeConstructionOf k B init compress output JP).wordBits = n := words n hn
    rw [hw', if_pos ⟨by omega, by omega⟩]
  have hflush : ∀ u n, a.processBlockValue (spongeConstructionOf k B init compress output JP) J u n =
      (a.flush (spongeConstructionOf k B init compress output JP)).processBlockValue
        (spongeConstructionOf k B init compress output JP) J u n := by
    intro u n
    unfold Acc.processBlockValue
    have : (a.flush (spongeConstructionOf k B init compress output JP)).flush
        (spongeConstructionOf k B init compress output JP) =
        a.flush (spongeConstructionOf k B init compress output JP) := by
      rw [Acc.flush, f4]
      rfl
    rw [this]
  rw [hflush]
  generalize a.flush (spongeConstructionOf k B init compress output JP) = b at *
  have htot : b.total = m.length := f2.trans (wrap64_of_lt hlt)
  have h1 := key b v c f4 f1 (by rw [htot, hmod]) hv hc64 hcB
  have hw0 : wrap64 (b.total + c) = 0 := by
    rw [htot, hm, hsum]; exact Nat.mod_self _
  rw [hw0] at h1
  have h2 := key { b with total := 0, cache := v.take c ++ b.cache.drop c } w (B - c) f4
    (by simp only [List.length_append, List.length_take, List.length_drop]; omega) (Nat.zero_mod _) hw
    (by omega) (by omega)
  refine ⟨_, _, h1, h2, ?_⟩
  unfold Acc.result
  generalize hcache : w.take (B - c) ++ (v.take c ++ b.cache.drop c).drop (B - c) = cache
  have hcl : cache.length = B := by
    rw [← hcache]
    simp only [List.length_append, List.length_take, List.length_drop]
    omega
  show spongeDigest k B compress output JP b.st cache (wrap64 (0 + (B - c))) = _
  rw [wrap64_of_lt (by omega)]
  have hl : (w.take (B - c)).length = B - c := by rw [List.length_take]; omega
  refine spongeDigest_tail k B hB h64 init compress output JP b.st cache _ m _ hcl
    (Nat.dvd_of_mod_eq_zero hmod) ?_ ?_ ?_ ?_
  · rw [hl, Nat.zero_add, Nat.mod_eq_of_lt (by omega)]
  · rw [hl]; omega
  · rw [← hcache, hl, List.take_append_of_le_length (by omega), List.take_of_length_le (by omega)]
  · rw [Nat.zero_add, Nat.mod_eq_of_lt (by omega), if_neg (by omega), f7,
      absorbed_eq_foldl _ compress (fun _ _ _ => rfl) hB m q f5]
    show (blocks B (m.take (q * B))).foldl compress init = _
    rw [← hq, List.take_length]

end

/-- The rate in octets. -/
def rateBytes (d : Nat) : Nat := (1600 - 2 * d) / 8

theorem rate_facts {d : Nat} (S : SpongeSize d) (hnd : ¬ rateBytes d ∣ 2 ^ 61) :
    spongeBlockBits d = 8 * rateBytes d ∧ 0 < rateBytes d ∧ ¬ spongeBlockBits d ∣ 2 ^ 64 ∧
      2 ^ 64 / spongeBlockBits d = 2 ^ 61 / rateBytes d ∧
      2 ^ 64 % spongeBlockBits d = 8 * (2 ^ 61 % rateBytes d) := by
  have h := S.facts
  have e : spongeBlockBits d = 8 * rateBytes d := by
    unfold rateBytes
    unfold spongeBlockBits at h ⊢
    omega
  refine ⟨e, by omega, ?_, ?_, ?_⟩
  · rw [e, show 2 ^ 64 = 8 * 2 ^ 61 by decide]
    exact fun hd => hnd (Nat.dvd_of_mul_dvd_mul_left (by omega) hd)
  · rw [e, show 2 ^ 64 = 8 * 2 ^ 61 by decide]
    exact Nat.mul_div_mul_left _ _ (by omega)
  · rw [e, show 2 ^ 64 = 8 * 2 ^ 61 by decide, Nat.mul_mod_mul_left]

/-- The digest sizes of the library are affected: the rates are 144, 136, 104 and 72 octets, the numbers of
octets that are lost 128, 32, 80 and 56. -/
theorem rate_values : (2 ^ 61 % rateBytes 224 = 128 ∧ 2 ^ 61 % rateBytes 256 = 32) ∧
    2 ^ 61 % rateBytes 384 = 80 ∧ 2 ^ 61 % rateBytes 512 = 56 := by decide

section
variable (k : SpongeKind) (permute : Lanes → Lanes) {d : Nat} (JP J : Injector)

/-- C86, Keccak and SHA-3 (refutation, 1): for a byte string of the first whole number of blocks beyond
`2^61` octets the digest is the one FIPS 202 gives to the string without its last `2^61 % r` octets. -/
theorem C86_sponge_octets_lost (S : SpongeSize d) (hnd : ¬ rateBytes d ∣ 2 ^ 61) (garbage : Bits)
    (hgb : garbage.length = spongeBlockBits d) (kind : RangeKind) (cache0 bytes : List Nat)
    (hc : cache0.length = spongeBlockBits d / 8) (hlen : bytes.length = (2 ^ 61 / rateBytes d + 1) * rateBytes d) :
    hashOnce (spongeConstruction k permute d JP) J (wordElem bigOctetBigBit 8) kind garbage cache0 bytes =
      .ok (octetBits (fipsBytes (sponge 1600 (1600 - 2 * d) (onStrings permute)
        (fipsBits (bytes.take (bytes.length - 2 ^ 61 % rateBytes d)) ++ k.suffix) d))) := by
  obtain ⟨e, hr, hnd', hdiv, hmod⟩ := rate_facts S hnd
  have h := S.facts
  have hdm := Nat.div_add_mod (2 ^ 61) (rateBytes d)
  have hml := Nat.mod_lt (2 ^ 61) hr
  rw [Nat.add_mul, Nat.one_mul] at hlen
  rw [Nat.mul_comm] at hdm
  generalize hn : 2 ^ 61 / rateBytes d * rateBytes d = n at *
  have hbd : (spongeConstruction k permute d JP).blockBits / (wordElem bigOctetBigBit 8).valueBits =
      rateBytes d := by
    show spongeBlockBits d / 8 = _
    omega
  have hx : (bytes.take n).length = n := by rw [List.length_take]; omega
  have hy : (bytes.drop n).length = rateBytes d := by rw [List.length_drop]; omega
  have hxs : ((bytes.take n).flatMap (wordElem bigOctetBigBit 8).view).length = 8 * n := by
    rw [view_octet_big, length_octetBits, hx, Nat.mul_comm]
  have hys : ((bytes.drop n).flatMap (wordElem bigOctetBigBit 8).view).length = spongeBlockBits d := by
    rw [view_octet_big, length_octetBits, hy, e, Nat.mul_comm]
  obtain ⟨a1, r1, e1⟩ := feed_last_block (C := spongeConstruction k permute d JP) (J := J)
    (E := wordElem bigOctetBigBit 8) (by show 0 < 64; omega) h.2.1 h.1 (by simp [wordElem])
    (by show 8 ∣ spongeBlockBits d; omega)
    ((sponge_verified k permute JP S).init garbage hgb) kind cache0 (bytes.take n) (bytes.drop n) hc
    (by rw [hbd, hx, ← hn]; exact ⟨_, Nat.mul_comm _ _⟩) (by rw [hbd, hy])
    (Or.inl (by rw [List.nil_append, hxs]; omega))
  rw [List.nil_append] at r1
  rw [List.take_append_drop] at e1
  obtain ⟨a2, e2, r2⟩ := sponge_wrap_push k h.1 h.2.1 (by omega) hnd' (Vector.replicate 25 0)
    (spongeCompress permute (spongeBlockBits d)) (spongeOutput permute d) JP J r1
    (by rw [hxs, hdiv, e, ← hn, Nat.mul_left_comm]) hys (spongeBlockBits d) (Or.inr rfl)
  unfold hashOnce
  rw [e1, show (spongeConstruction k permute d JP).blockBits = spongeBlockBits d from rfl]
  rw [show a1.pushBlock (spongeConstruction k permute d JP) J _ _ = .ok a2 from e2]
  simp only [bind, Except.bind]
  refine r2.trans ?_
  have hM : (bytes.take n).flatMap (wordElem bigOctetBigBit 8).view ++
      ((bytes.drop n).flatMap (wordElem bigOctetBigBit 8).view).take
        (spongeBlockBits d - 2 ^ 64 % spongeBlockBits d) =
      octetBits (bytes.take (bytes.length - 2 ^ 61 % rateBytes d)) := by
    rw [view_octet_big, view_octet_big, hmod,
      show spongeBlockBits d - 8 * (2 ^ 61 % rateBytes d) = 8 * (rateBytes d - 2 ^ 61 % rateBytes d) by omega,
      octetBits_take, ← octetBits_append]
    congr 1
    rw [show bytes.length - 2 ^ 61 % rateBytes d = n + (rateBytes d - 2 ^ 61 % rateBytes d) by omega,
      List.take_add]
  rw [hM]
  refine (output_of_blocks permute d S _).trans ?_
  rw [← spongeSpec_bytes k permute S]
  rfl

/-- SHA3-256: of a message of `2^61 + 88` octets the last 32 do not matter. -/
example (permute : Lanes → Lanes) (JP J : Injector) (n : Nat) (hn : n = (2 ^ 61 / rateBytes 256 + 1) * rateBytes 256) :
    hashOnce (spongeConstruction .sha3 permute 256 JP) J (wordElem bigOctetBigBit 8) .container (List.replicate 1088 true)
      (List.replicate 136 0) (List.replicate n 7) =
      .ok (octetBits (fipsBytes (sponge 1600 (1600 - 2 * 256) (onStrings permute)
        (fipsBits ((List.replicate n 7).take ((List.replicate n 7).length - 2 ^ 61 % rateBytes 256)) ++ SpongeKind.sha3.suffix) 256))) :=
  C86_sponge_octets_lost .sha3 permute JP J sizes.2.1 (by decide) _ List.length_replicate _ _ _ List.length_replicate
    (by rw [List.length_replicate, hn])

/-- C86, Keccak and SHA-3 (refutation, 2): strings of that length that differ only in those last octets
collide, whatever the permutation. -/
theorem C86_sponge_collisions (S : SpongeSize d) (hnd : ¬ rateBytes d ∣ 2 ^ 61) (garbage : Bits)
    (hgb : garbage.length = spongeBlockBits d) (kind : RangeKind) (cache0 : List Nat)
    (hc : cache0.length = spongeBlockBits d / 8) (common tail tail' : List Nat)
    (hl : common.length + 2 ^ 61 % rateBytes d = (2 ^ 61 / rateBytes d + 1) * rateBytes d)
    (ht : tail.length = 2 ^ 61 % rateBytes d) (ht' : tail'.length = 2 ^ 61 % rateBytes d) :
    ∃ dig, hashOnce (spongeConstruction k permute d JP) J (wordElem bigOctetBigBit 8) kind garbage cache0
        (common ++ tail) = .ok dig ∧
      hashOnce (spongeConstruction k permute d JP) J (wordElem bigOctetBigBit 8) kind garbage cache0
        (common ++ tail') = .ok dig := by
  have key : ∀ t : List Nat, t.length = 2 ^ 61 % rateBytes d →
      hashOnce (spongeConstruction k permute d JP) J (wordElem bigOctetBigBit 8) kind garbage cache0
        (common ++ t) = .ok (octetBits (fipsBytes (sponge 1600 (1600 - 2 * d) (onStrings permute)
        (fipsBits common ++ k.suffix) d))) := by
    intro t ht
    have hlen : (common ++ t).length = (2 ^ 61 / rateBytes d + 1) * rateBytes d := by
      rw [List.length_append, ht, hl]
    rw [C86_sponge_octets_lost k permute JP J S hnd garbage hgb kind cache0 _ hc hlen, List.length_append, ht,
      Nat.add_sub_cancel, List.take_left]
  exact ⟨_, key tail ht, key tail' ht'⟩


/-- C86, Keccak and SHA-3 (refutation, 3): if the same block is fed in two pieces, cut where the counter
wraps around, other bits of it are lost: the first piece is overwritten by the second.  So beyond `2^64` bits
the digest depends on the cuts. -/
theorem C86_sponge_two_pieces (S : SpongeSize d) (hnd : ¬ rateBytes d ∣ 2 ^ 61) (garbage : Bits)
    (hgb : garbage.length = spongeBlockBits d) (pre : List Op)
    (hwt : ∀ op ∈ pre, op.WellTyped (spongeBlockBits d)) (hne : Op.extract ∉ pre)
    (hlen : (streamOf (spongeBlockBits d) pre).length = 2 ^ 64 / spongeBlockBits d * spongeBlockBits d)
    (v w : Bits) (hv : v.length = spongeBlockBits d) (hw : w.length = spongeBlockBits d) :
    (do let (a, _) ← runOps (spongeConstruction k permute d JP) J
          (Acc.init (spongeConstruction k permute d JP) garbage) [] pre
        let a ← a.pushBlock (spongeConstruction k permute d JP) J v (2 ^ 64 % spongeBlockBits d)
        let a ← a.pushBlock (spongeConstruction k permute d JP) J w
          (spongeBlockBits d - 2 ^ 64 % spongeBlockBits d)
        a.result (spongeConstruction k permute d JP)) =
      .ok (spongeSpec k permute d (streamOf (spongeBlockBits d) pre ++
        w.take (spongeBlockBits d - 2 ^ 64 % spongeBlockBits d))) := by
  obtain ⟨e, hr, hnd', hdiv, hmod⟩ := rate_facts S hnd
  have h := S.facts
  obtain ⟨a, e0, r0⟩ := (sponge_verified k permute JP S).run J pre hwt
    ((sponge_verified k permute JP S).init garbage hgb)
    (Or.inl (by
      rw [List.nil_append]
      have := (rest_facts h.1 h.2.1 hnd')
      show (streamOf (spongeBlockBits d) pre).length < _
      omega))
    (goodExtracts_of_no_extract _ _ pre hne _) []
  rw [List.nil_append] at r0
  obtain ⟨a1, a2, e1, e2, r2⟩ := sponge_wrap_two_pushes k h.1 h.2.1 (by omega) hnd' (Vector.replicate 25 0)
    (spongeCompress permute (spongeBlockBits d)) (spongeOutput permute d) JP J r0 hlen hv hw
  rw [e0]
  show (a.pushBlock (spongeConstruction k permute d JP) J v (2 ^ 64 % spongeBlockBits d) >>= _) = _
  rw [show a.pushBlock (spongeConstruction k permute d JP) J v (2 ^ 64 % spongeBlockBits d) = .ok a1 from e1]
  show (a1.pushBlock (spongeConstruction k permute d JP) J w _ >>= _) = _
  rw [show a1.pushBlock (spongeConstruction k permute d JP) J w
    (spongeBlockBits d - 2 ^ 64 % spongeBlockBits d) = .ok a2 from e2]
  exact r2.trans (output_of_blocks permute d S _)

end

/-- SHA3-256 of a little more than `2^61` octets: the last 32 octets do not matter. -/
example (n : Nat) (hn : n = 2 ^ 61 / rateBytes 256 * rateBytes 256 + 104) : ∃ dig,
    hashOnce (spongeConstruction .sha3 keccakPermute 256 spliceInjector) clearingInjector
      (wordElem bigOctetBigBit 8) .container (List.replicate 1088 true) (List.replicate 136 0)
      (List.replicate n 5 ++ List.replicate 32 1) = .ok dig ∧
    hashOnce (spongeConstruction .sha3 keccakPermute 256 spliceInjector) clearingInjector
      (wordElem bigOctetBigBit 8) .container (List.replicate 1088 true) (List.replicate 136 0)
      (List.replicate n 5 ++ List.replicate 32 2) = .ok dig :=
  C86_sponge_collisions .sha3 keccakPermute _ _ sizes.2.1 (by decide) _ List.length_replicate _ _
    List.length_replicate _ _ _ (by rw [List.length_replicate, hn]; decide)
    (by rw [rate_values.1.2]; exact List.length_replicate) (by rw [rate_values.1.2]; exact List.length_replicate)

theorem runOps_append {σ δ : Type} (C : Construction σ δ) (J : Injector) (xs ys : List Op) :
    ∀ (a : Acc σ) (out : List δ), runOps C J a out (xs ++ ys) =
      runOps C J a out xs >>= fun r => runOps C J r.1 r.2 ys := by
  induction xs with
  | nil => intro a out; rfl
  | cons x xs ih =>
    intro a out
    simp only [List.cons_append, runOps]
    cases x.run C J a out with
    | error e => rfl
    | ok r => exact ih r.1 r.2

/-- Programs that feed a given number of blocks. -/
theorem stream_replicate (B n : Nat) (v : Bits) (hv : v.length = B) :
    (streamOf B (List.replicate n (.block v 0))).length = n * B := by
  unfold streamOf
  rw [List.flatMap_replicate]
  induction n with
  | zero => simp
  | succ n ih =>
    rw [List.replicate_succ, List.flatten_cons, List.length_append, ih, Nat.add_mul]
    simp [Op.stream, hv]
    omega

theorem wellTyped_replicate (B n : Nat) (v : Bits) (hv : v.length = B) :
    (∀ op ∈ List.replicate n (Op.block v 0), op.WellTyped B) ∧ Op.extract ∉ List.replicate n (Op.block v 0) := by
  constructor
  · intro op hop
    rw [(List.mem_replicate.1 hop).2]
    exact ⟨hv, by omega⟩
  · intro hmem
    exact absurd (List.mem_replicate.1 hmem).2 (by simp)

theorem stream_snoc (B : Nat) (ops : List Op) (v : Bits) (hv : v.length = B) :
    streamOf B (ops ++ [.block v 0]) = streamOf B ops ++ v := by
  unfold streamOf
  rw [List.flatMap_append]
  simp [Op.stream, ← hv]

theorem wellTyped_snoc (B : Nat) (ops : List Op) (v : Bits) (hv : v.length = B)
    (h : (∀ op ∈ ops, op.WellTyped B) ∧ Op.extract ∉ ops) :
    (∀ op ∈ ops ++ [.block v 0], op.WellTyped B) ∧ Op.extract ∉ ops ++ [.block v 0] := by
  constructor
  · intro op hop
    rcases List.mem_append.1 hop with h' | h'
    · exact h.1 op h'
    · rw [List.mem_singleton.1 h']; exact ⟨hv, by omega⟩
  · intro hmem
    rcases List.mem_append.1 hmem with h' | h'
    · exact h.2 h'
    · exact Op.noConfusion (List.mem_singleton.1 h')

/-- Keccak-512 fed `2^64 / 576` blocks, then a block in two pieces. -/
example (n : Nat) (hn : n = 2 ^ 64 / 576) :
    (do let (a, _) ← runOps (spongeConstruction .keccak keccakPermute 512 spliceInjector) spliceInjector
          (Acc.init (spongeConstruction .keccak keccakPermute 512 spliceInjector) (List.replicate 576 true)) []
          (List.replicate n (.block (List.replicate 576 false) 0))
        let a ← a.pushBlock (spongeConstruction .keccak keccakPermute 512 spliceInjector) spliceInjector
          (List.replicate 576 true) (2 ^ 64 % spongeBlockBits 512)
        let a ← a.pushBlock (spongeConstruction .keccak keccakPermute 512 spliceInjector) spliceInjector
          (List.replicate 576 false) (spongeBlockBits 512 - 2 ^ 64 % spongeBlockBits 512)
        a.result (spongeConstruction .keccak keccakPermute 512 spliceInjector)) =
      .ok (spongeSpec .keccak keccakPermute 512 (streamOf 576 (List.replicate n
        (.block (List.replicate 576 false) 0)) ++ (List.replicate 576 false).take
        (spongeBlockBits 512 - 2 ^ 64 % spongeBlockBits 512))) :=
  C86_sponge_two_pieces .keccak keccakPermute _ _ sizes.2.2.2 (by decide) _ List.length_replicate _
    (wellTyped_replicate 576 n _ List.length_replicate).1 (wellTyped_replicate 576 n _ List.length_replicate).2
    ((stream_replicate 576 n _ List.length_replicate).trans (by rw [hn]; rfl)) _ _ List.length_replicate
    List.length_replicate

/-- C86 is false for the sponge construction: one message, two ways of cutting it, different blocks absorbed,
and neither way absorbs the blocks of the padded message. -/
theorem C86_sponge_false (k : SpongeKind) {B : Nat} (hB : 0 < B) (h64 : 64 ∣ B) (hle : B ≤ 2 ^ 64)
    (hnd : ¬ B ∣ 2 ^ 64) (JP J : Injector) (garbage : Bits) (hgb : garbage.length = B) :
    ∃ (pre cut whole : List Op) (a b : Acc (List Bits)) (calls calls' : List Bits),
      (∀ op ∈ pre ++ cut ++ whole, op.WellTyped B) ∧ streamOf B cut = streamOf B whole ∧
      runOps (spongeTracing k B JP) J (Acc.init (spongeTracing k B JP) garbage) [] (pre ++ cut) = .ok (a, []) ∧
      runOps (spongeTracing k B JP) J (Acc.init (spongeTracing k B JP) garbage) [] (pre ++ whole) = .ok (b, []) ∧
      a.result (spongeTracing k B JP) = .ok calls ∧ b.result (spongeTracing k B JP) = .ok calls' ∧
      calls ≠ calls' ∧ calls ≠ absorbedBlocks k B (streamOf B (pre ++ cut)) ∧
      calls' ≠ absorbedBlocks k B (streamOf B (pre ++ cut)) := by
  obtain ⟨hc0, hcB, hc64, hsum⟩ := rest_facts hB h64 hnd
  generalize hc : 2 ^ 64 % B = c at *
  generalize hn : 2 ^ 64 / B = n at *
  let z : Bits := List.replicate B false
  let w : Bits := List.replicate B true
  let v : Bits := List.replicate c false ++ List.replicate (B - c) true
  have hz : z.length = B := List.length_replicate
  have hw : w.length = B := List.length_replicate
  have hv : v.length = B := by
    simp only [v, List.length_append, List.length_replicate]; omega
  have hwt : ∀ op ∈ List.replicate n (Op.block z 0), op.WellTyped B := by
    intro op hop
    rw [(List.mem_replicate.1 hop).2]
    exact ⟨hz, by omega⟩
  have hsl := stream_replicate B n z hz
  generalize hpre : List.replicate n (Op.block z 0) = pre at *
  have hne : Op.extract ∉ pre := by
    rw [← hpre]
    intro hmem
    exact absurd (List.mem_replicate.1 hmem).2 (by simp)
  have V := spongeTracing_verified k hB h64 JP
  have hsl' : (streamOf B pre).length < 2 ^ 64 := by omega
  obtain ⟨a0, e0, r0⟩ := V.run J pre hwt (V.init garbage hgb) (Or.inl (by rw [List.nil_append]; exact hsl'))
    (goodExtracts_of_no_extract _ _ pre hne _) []
  rw [expected_of_no_extract _ _ pre hne, List.nil_append] at e0
  rw [List.nil_append] at r0
  replace r0 : Rep (spongeTracing k B JP) a0 (streamOf B pre) := r0
  obtain ⟨b1, e1, r1⟩ := sponge_wrap_push (J := J) k hB h64 hle hnd [] (fun t b => t ++ [b]) Except.ok JP r0
    (by rw [hsl, hn]) hv 0 (Or.inl rfl)
  obtain ⟨a1, a2, e2, e3, r3⟩ := sponge_wrap_two_pushes (J := J) k hB h64 hle hnd [] (fun t b => t ++ [b])
    Except.ok JP r0 (by rw [hsl, hn]) hz hw
  rw [foldl_trace, List.nil_append, hc] at r1 r3
  rw [hc] at e2 e3
  have hnB : 64 ∣ n * B := Nat.dvd_trans h64 ⟨n, Nat.mul_comm _ _⟩
  have hlen2 : (streamOf B (pre ++ [.block z c, .block w (B - c)])).length = n * B + B := by
    unfold streamOf at hsl ⊢
    rw [List.flatMap_append, List.length_append, hsl]
    simp only [List.flatMap_cons, List.flatMap_nil, List.append_nil, Op.stream]
    rw [if_neg (by omega), if_neg (by omega), List.length_append, List.length_take, List.length_take]
    omega
  refine ⟨pre, [.block z c, .block w (B - c)], [.block v 0], a2, b1, _, _, ?_, ?_, ?_, ?_, r3, r1, ?_, ?_, ?_⟩
  · intro op hop
    simp only [List.mem_append, List.mem_cons, List.not_mem_nil, or_false] at hop
    rcases hop with (hop | rfl | rfl) | rfl
    · exact hwt op hop
    · exact ⟨hz, by omega⟩
    · exact ⟨hw, by omega⟩
    · exact ⟨hv, by omega⟩
  · simp only [streamOf, List.flatMap_cons, List.flatMap_nil, List.append_nil, Op.stream]
    rw [if_neg (by omega), if_neg (by omega), if_pos trivial, List.take_of_length_le (Nat.le_of_eq hv)]
    simp only [z, w, v, List.take_replicate]
    rw [Nat.min_eq_left (by omega), Nat.min_eq_left (by omega)]
  · rw [runOps_append, e0]
    simp only [bind, Except.bind, runOps, Op.run, pure, Except.pure]
    rw [show a0.pushBlock (spongeTracing k B JP) J z c = .ok a1 from e2]
    simp only
    rw [show a1.pushBlock (spongeTracing k B JP) J w (B - c) = .ok a2 from e3]
  · rw [runOps_append, e0]
    simp only [bind, Except.bind, runOps, Op.run, pure, Except.pure]
    rw [show a0.pushBlock (spongeTracing k B JP) J v 0 = .ok b1 from e1]
  · intro h
    have h1 := (absorbedBlocks_inj hB h64 (by rw [List.length_append, List.length_take, hsl]; omega)
      (by rw [List.length_append, List.length_take, hsl]; omega) h).2
    have h2 := congrArg (fun l => l[0]?) (List.append_cancel_left h1)
    simp only [List.getElem?_take_of_lt (show 0 < B - c by omega), w, v] at h2
    rw [List.getElem?_append_left (by rw [List.length_replicate]; omega), List.getElem?_replicate,
      List.getElem?_replicate, if_pos hB, if_pos hc0] at h2
    cases h2
  · intro h
    have h1 := (absorbedBlocks_inj hB h64 (by rw [List.length_append, List.length_take, hsl]; omega)
      (by rw [hlen2]; omega) h).2
    have h2 := congrArg List.length h1
    rw [hlen2, List.length_append, List.length_take, hsl] at h2
    omega
  · intro h
    have h1 := (absorbedBlocks_inj hB h64 (by rw [List.length_append, List.length_take, hsl]; omega)
      (by rw [hlen2]; omega) h).2
    have h2 := congrArg List.length h1
    rw [hlen2, List.length_append, List.length_take, hsl] at h2
    omega

/-- The rates of the library. -/
example (JP J : Injector) := C86_sponge_false .sha3 (B := 1088) (by decide) (by decide) (by decide) (by decide) JP J
  (List.replicate 1088 true) List.length_replicate

/-! ### BLAKE2b -/

theorem absorbed_take {σ δ : Type} (C : Construction σ δ) {m m' : Bits} {n q : Nat} (hm : n ≤ m.length)
    (hm' : n ≤ m'.length) (hq : q * C.blockBits ≤ n) (h : m.take n = m'.take n) :
    absorbed C m q = absorbed C m' q := by
  have e : ∀ u : Bits, n ≤ u.length → absorbed C u q = absorbed C (u.take n) q := by
    intro u hu
    conv => lhs; rw [← List.take_append_drop n u]
    exact absorbed_append C _ _ q (by rw [List.length_take]; omega)
  rw [e m hm, e m' hm', h]

/-- The calls of the compression function for a message of any length: as in `haifaCalls`, but with the
counters modulo `2^61` bytes. -/
def wrappedCalls (m : Bits) : List (Bits × BitVec 64 × Bool) :=
  (List.range (m.length / 1024)).map (fun i =>
    ((m.drop (1024 * i)).take 1024, BitVec.ofNat 64 (128 * (i + 1) % 2 ^ 61), false)) ++
  [(if m.length ≠ 0 ∧ m.length % 1024 = 0 then m.drop (m.length - 1024)
    else m.drop (1024 * (m.length / 1024)) ++ List.replicate (1024 - m.length % 1024) false,
    BitVec.ofNat 64 ((m.length % 2 ^ 64 + 7) / 8), true)]

/-- C86, BLAKE2b (refutation, 1): for every program and a message of any length that is not a non-zero multiple
of `2^64` bits, the byte counters of RFC 7693 are given modulo `2^61`. -/
theorem C86_blake2b_counters (JP J : Injector) (garbage : Bits) (hgb : garbage.length = 1024) (ops : List Op)
    (hwt : ∀ op ∈ ops, op.WellTyped 1024) (hne : Op.extract ∉ ops)
    (hlen : (streamOf 1024 ops).length = 0 ∨ (streamOf 1024 ops).length % 2 ^ 64 ≠ 0) :
    ∃ a, runOps (haifaTracing JP) J (Acc.init (haifaTracing JP) garbage) [] ops = .ok (a, []) ∧
      a.result (haifaTracing JP) = .ok (wrappedCalls (streamOf 1024 ops)) := by
  have V := haifaTracing_verified JP
  have hfit : ∀ n, Fits (haifaTracing JP) n := fun n =>
    Or.inr (show 1024 ∣ 2 ^ 64 from ⟨2 ^ 54, by decide⟩)
  obtain ⟨a, e, r⟩ := V.run J ops hwt (V.init garbage hgb) (hfit _)
    (goodExtracts_of_no_extract _ _ ops hne _) []
  rw [expected_of_no_extract _ _ ops hne, List.nil_append] at e
  rw [List.nil_append] at r
  refine ⟨a, e, ?_⟩
  replace r : Rep (haifaTracing JP) a (streamOf 1024 ops) := r
  generalize streamOf 1024 ops = m at *
  rw [haifa_result_any 1024 64 (by omega) (by omega) (by omega) _ _ _ JP a m r hlen]
  have hab : ∀ q, absorbed (haifaTracing JP) m q = (List.range q).map (fun i =>
      ((m.drop (1024 * i)).take 1024, BitVec.ofNat 64 (128 * (i + 1) % 2 ^ 61), false)) := by
    intro q
    induction q with
    | zero => rfl
    | succ q ih =>
      rw [List.range_succ, List.map_append, ← ih]
      simp only [absorbed, List.map_cons, List.map_nil]
      show _ ++ [(_, blakeBytes (BitVec.ofNat 64 (wrap64 ((q + 1) * 1024))), false)] = _
      have hw : (wrap64 ((q + 1) * 1024) + 7) / 8 = 128 * (q + 1) % 2 ^ 61 := by unfold wrap64; omega
      rw [byteCount (wrap64 ((q + 1) * 1024)) (Nat.mod_lt _ (by decide)), hw]
      unfold block
      show _ ++ [((m.drop (q * 1024)).take 1024, _, _)] = _
      rw [Nat.mul_comm q 1024]
  show Except.ok (absorbed (haifaTracing JP) m (m.length / 1024) ++
    [(haifaLast 1024 m, blakeBytes (BitVec.ofNat 64 (wrap64 m.length)), true)]) = _
  rw [hab, byteCount (wrap64 m.length) (Nat.mod_lt _ (by decide))]
  unfold wrappedCalls haifaLast wrap64
  rw [Nat.mul_comm _ 1024]

/-- `2^54 + 1` blocks. -/
example (n : Nat) (hn : n = 2 ^ 54 + 1) : ∃ a, runOps (haifaTracing spliceInjector) clearingInjector
      (Acc.init (haifaTracing spliceInjector) (List.replicate 1024 true)) []
      (List.replicate n (.block (List.replicate 1024 true) 0)) = .ok (a, []) ∧
    a.result (haifaTracing spliceInjector) =
      .ok (wrappedCalls (streamOf 1024 (List.replicate n (.block (List.replicate 1024 true) 0)))) :=
  C86_blake2b_counters _ _ _ List.length_replicate _ (wellTyped_replicate 1024 n _ List.length_replicate).1
    (wellTyped_replicate 1024 n _ List.length_replicate).2
    (Or.inr (by rw [stream_replicate 1024 n _ List.length_replicate, hn]; decide))

/-- C86, BLAKE2b: so the last counter of a message of more than `2^61` bytes is wrong. -/
theorem C86_blake2b_false (m : Bits) (hm : 2 ^ 64 < m.length) :
    (wrappedCalls m).getLast?.map (fun c => c.2.1.toNat) ≠ some ((m.length + 7) / 8) := by
  unfold wrappedCalls
  rw [List.getLast?_append]
  simp only [List.getLast?_singleton, Option.some_or, Option.map_some, BitVec.toNat_ofNat]
  intro h
  have := Option.some.inj h
  omega

example (n : Nat) (hn : n = 2 ^ 64 + 8) :
    (wrappedCalls (List.replicate n true)).getLast?.map (fun c => c.2.1.toNat) ≠ some (2 ^ 61 + 1) := by
  have h := C86_blake2b_false (List.replicate n true) (by rw [List.length_replicate, hn]; decide)
  rwa [List.length_replicate, show (n + 7) / 8 = 2 ^ 61 + 1 by rw [hn]] at h

/-- C86, BLAKE2b (refutation, 2): messages of a non-zero multiple of `2^64` bits that differ only in the last
block collide. -/
theorem C86_blake2b_collisions {nn : Nat} (hnn : nn ≤ 64) (JP J : Injector) (garbage garbage' : Bits)
    (hgb : garbage.length = 1024) (hgb' : garbage'.length = 1024) (ops ops' : List Op)
    (hwt : ∀ op ∈ ops, op.WellTyped 1024) (hwt' : ∀ op ∈ ops', op.WellTyped 1024)
    (hne : Op.extract ∉ ops) (hne' : Op.extract ∉ ops')
    (hpos : 0 < (streamOf 1024 ops).length) (hdvd : 2 ^ 64 ∣ (streamOf 1024 ops).length)
    (hlen : (streamOf 1024 ops').length = (streamOf 1024 ops).length)
    (hsame : (streamOf 1024 ops').take ((streamOf 1024 ops).length - 1024) =
      (streamOf 1024 ops).take ((streamOf 1024 ops).length - 1024)) :
    ∃ a a' dig, runOps (blake2bConstruction (8 * nn) JP) J
        (Acc.init (blake2bConstruction (8 * nn) JP) garbage) [] ops = .ok (a, []) ∧
      runOps (blake2bConstruction (8 * nn) JP) J
        (Acc.init (blake2bConstruction (8 * nn) JP) garbage') [] ops' = .ok (a', []) ∧
      a.result (blake2bConstruction (8 * nn) JP) = .ok dig ∧
      a'.result (blake2bConstruction (8 * nn) JP) = .ok dig := by
  have V := blake_verified nn hnn JP
  have hfit : ∀ n, Fits (blake2bConstruction (8 * nn) JP) n := fun n =>
    Or.inr (show 1024 ∣ 2 ^ 64 from ⟨2 ^ 54, by decide⟩)
  have key : ∀ (g : Bits) (ops : List Op), g.length = 1024 → (∀ op ∈ ops, op.WellTyped 1024) →
      Op.extract ∉ ops → 0 < (streamOf 1024 ops).length → 2 ^ 64 ∣ (streamOf 1024 ops).length →
      ∃ a, runOps (blake2bConstruction (8 * nn) JP) J
        (Acc.init (blake2bConstruction (8 * nn) JP) g) [] ops = .ok (a, []) ∧
        a.result (blake2bConstruction (8 * nn) JP) = .ok (octetBits (readout nn
          (blakeCompress (absorbed (blake2bConstruction (8 * nn) JP) (streamOf 1024 ops)
            ((streamOf 1024 ops).length / 1024 - 1)) (List.replicate 1024 false) 0 true).toList)) := by
    intro g ops hg hwt hne hpos hdvd
    obtain ⟨a, e, r⟩ := V.run J ops hwt (V.init g hg) (hfit _)
      (goodExtracts_of_no_extract _ _ ops hne _) []
    rw [expected_of_no_extract _ _ ops hne, List.nil_append] at e
    rw [List.nil_append] at r
    refine ⟨a, e, ?_⟩
    have h1 := haifa_result_wrapped 1024 64 (by omega) (by omega) (by omega) ⟨2 ^ 54, by decide⟩ _ _ _ JP a _ r
      hpos hdvd
    exact h1.trans (blakeOutput_eq nn hnn _)
  obtain ⟨a, e, r⟩ := key garbage ops hgb hwt hne hpos hdvd
  obtain ⟨a', e', r'⟩ := key garbage' ops' hgb' hwt' hne' (by rw [hlen]; exact hpos) (by rw [hlen]; exact hdvd)
  refine ⟨a, a', _, e, e', r, ?_⟩
  rw [r', hlen, absorbed_take (blake2bConstruction (8 * nn) JP) (n := (streamOf 1024 ops).length - 1024)
    (m' := streamOf 1024 ops) (by omega) (by omega) ?_ hsame]
  show ((streamOf 1024 ops).length / 1024 - 1) * 1024 ≤ _
  omega

/-- `2^54` blocks, the last one different. -/
example (n : Nat) (hn : n + 1 = 2 ^ 54) : ∃ a a' dig,
    runOps (blake2bConstruction 512 spliceInjector) spliceInjector
      (Acc.init (blake2bConstruction 512 spliceInjector) (List.replicate 1024 true)) []
      (List.replicate n (.block (List.replicate 1024 true) 0) ++ [.block (List.replicate 1024 true) 0]) =
        .ok (a, []) ∧
    runOps (blake2bConstruction 512 spliceInjector) spliceInjector
      (Acc.init (blake2bConstruction 512 spliceInjector) (List.replicate 1024 true)) []
      (List.replicate n (.block (List.replicate 1024 true) 0) ++ [.block (List.replicate 1024 false) 0]) =
        .ok (a', []) ∧
    a.result (blake2bConstruction 512 spliceInjector) = .ok dig ∧
    a'.result (blake2bConstruction 512 spliceInjector) = .ok dig := by
  have hl0 := stream_replicate 1024 n (List.replicate 1024 true) List.length_replicate
  have w := wellTyped_replicate 1024 n (List.replicate 1024 true) List.length_replicate
  generalize List.replicate n (Op.block (List.replicate 1024 true) 0) = ops at hl0 w ⊢
  have e : ∀ b, streamOf 1024 (ops ++ [.block (List.replicate 1024 b) 0]) =
      streamOf 1024 ops ++ List.replicate 1024 b := fun b => stream_snoc 1024 ops _ List.length_replicate
  have hl : ∀ b, (streamOf 1024 (ops ++ [.block (List.replicate 1024 b) 0])).length = (n + 1) * 1024 := by
    intro b
    rw [e, List.length_append, hl0, List.length_replicate, Nat.add_mul, Nat.one_mul]
  have w' := fun b => wellTyped_snoc 1024 ops (List.replicate 1024 b) List.length_replicate w
  refine C86_blake2b_collisions (nn := 64) (by omega) _ _ _ _ List.length_replicate List.length_replicate _ _
    (w' true).1 (w' false).1 (w' true).2 (w' false).2 ?_ ?_ ?_ ?_
  · rw [hl]; omega
  · rw [hl, hn]; exact ⟨1, by decide⟩
  · rw [hl, hl]
  · rw [hl, e, e, show (n + 1) * 1024 - 1024 = (streamOf 1024 ops).length by rw [hl0]; omega,
      List.take_left, List.take_left]

/-! ### The Merkle–Damgård hashes -/

/-- C86, Merkle–Damgård (refutation, 1): messages of a non-zero multiple of `2^64` bits that differ only in
the last block collide, whatever the compression function. -/
theorem C86_md_collisions {σ : Type} {h : MDHash} (I : MDInst h σ) (J : Injector) (garbage garbage' : Bits)
    (hgb : garbage.length = h.policy.blockBits) (hgb' : garbage'.length = h.policy.blockBits)
    (ops ops' : List Op) (hwt : ∀ op ∈ ops, op.WellTyped h.policy.blockBits)
    (hwt' : ∀ op ∈ ops', op.WellTyped h.policy.blockBits) (hne : Op.extract ∉ ops) (hne' : Op.extract ∉ ops')
    (hpos : 0 < (streamOf h.policy.blockBits ops).length)
    (hdvd : 2 ^ 64 ∣ (streamOf h.policy.blockBits ops).length)
    (hlen : (streamOf h.policy.blockBits ops').length = (streamOf h.policy.blockBits ops).length)
    (hsame : (streamOf h.policy.blockBits ops').take ((streamOf h.policy.blockBits ops).length -
        (standard h).block) =
      (streamOf h.policy.blockBits ops).take ((streamOf h.policy.blockBits ops).length - (standard h).block)) :
    ∃ dig, (do let (a, _) ← runOps (I.C J) J (Acc.init (I.C J) garbage) [] ops
               a.result (I.C J)) = .ok dig ∧
      (do let (a, _) ← runOps (I.C J) J (Acc.init (I.C J) garbage') [] ops'
          a.result (I.C J)) = .ok dig := by
  refine ⟨_, C20_wrapped_counter_drops_last_block I J garbage hgb ops hwt hne hpos hdvd, ?_⟩
  rw [C20_wrapped_counter_drops_last_block I J garbage' hgb' ops' hwt' hne' (by rw [hlen]; exact hpos)
    (by rw [hlen]; exact hdvd), hlen, hsame]

/-- The hypotheses are satisfiable: `2^55` blocks of SHA-256, the last one different. -/
example (n : Nat) (hn : n + 1 = 2 ^ 55) : ∃ dig,
    (do let (a, _) ← runOps ((toy .sha256).C spliceInjector) spliceInjector
          (Acc.init ((toy .sha256).C spliceInjector) (List.replicate 512 true)) []
          (List.replicate n (Op.block (List.replicate 512 true) 0) ++ [Op.block (List.replicate 512 true) 0])
        a.result ((toy .sha256).C spliceInjector)) = .ok dig ∧
    (do let (a, _) ← runOps ((toy .sha256).C spliceInjector) spliceInjector
          (Acc.init ((toy .sha256).C spliceInjector) (List.replicate 512 true)) []
          (List.replicate n (Op.block (List.replicate 512 true) 0) ++ [Op.block (List.replicate 512 false) 0])
        a.result ((toy .sha256).C spliceInjector)) = .ok dig := by
  have hl0 := stream_replicate 512 n (List.replicate 512 true) List.length_replicate
  have w := wellTyped_replicate 512 n (List.replicate 512 true) List.length_replicate
  generalize List.replicate n (Op.block (List.replicate 512 true) 0) = ops at hl0 w ⊢
  have e : ∀ b, streamOf 512 (ops ++ [.block (List.replicate 512 b) 0]) =
      streamOf 512 ops ++ List.replicate 512 b := fun b => stream_snoc 512 ops _ List.length_replicate
  have hl : ∀ b, (streamOf 512 (ops ++ [.block (List.replicate 512 b) 0])).length = (n + 1) * 512 := by
    intro b
    rw [e, List.length_append, hl0, List.length_replicate, Nat.add_mul, Nat.one_mul]
  have w' := fun b => wellTyped_snoc 512 ops (List.replicate 512 b) List.length_replicate w
  have ht : (streamOf 512 (ops ++ [.block (List.replicate 512 true) 0])).take ((n + 1) * 512 - 512) =
      (streamOf 512 (ops ++ [.block (List.replicate 512 false) 0])).take ((n + 1) * 512 - 512) := by
    rw [e, e, show (n + 1) * 512 - 512 = (streamOf 512 ops).length by rw [hl0]; omega,
      List.take_left, List.take_left]
  have h1 := hl true
  have h2 := hl false
  have w1 := w' true
  have w2 := w' false
  generalize ops ++ [Op.block (List.replicate 512 true) 0] = opsT at *
  generalize ops ++ [Op.block (List.replicate 512 false) 0] = opsF at *
  exact C86_md_collisions (toy .sha256) _ _ _ List.length_replicate List.length_replicate opsT opsF w1.1 w2.1
    w1.2 w2.2 (lt_of_lt_of_eq (by omega) h1.symm) ⟨1, h1.trans (by rw [hn])⟩
    (h2.trans h1.symm) (by
      show (streamOf 512 opsF).take ((streamOf 512 opsT).length - 512) =
        (streamOf 512 opsT).take ((streamOf 512 opsT).length - 512)
      rw [h1, ht])

/-- C86, the hashes whose length field has 64 bits (missing: lengths that are a multiple of `2^64`, for which
`C86_md_collisions` shows the claim false): the digest of a byte string of any other length is the standard's,
beyond `2^61` octets too. -/
theorem C86_md_partial {σ : Type} {h : MDHash} (hL : (standard h).length = 64) (I : MDInst h σ) (J : Injector)
    (garbage : Bits) (hgb : garbage.length = h.policy.blockBits) (k : RangeKind) (cache0 bytes : List Nat)
    (hc : cache0.length = h.policy.blockBits / 8) (hlen : bytes = [] ∨ ¬ 2 ^ 61 ∣ bytes.length) :
    hashOnce (I.C J) J (wordElem h.policy.endian 8) k garbage cache0 bytes =
      .ok (mdDigest h I.iv I.compress I.view (octetBits bytes)) := by
  rw [C02_digest_is_textbook I J garbage hgb _ k cache0 bytes
    ⟨by simp [wordElem], (policy_sizes h).2.2.2.2.1, hc⟩ ?_, view_octet h]
  rw [view_octet h]
  refine ⟨?_, ?_, Or.inl (Nat.le_of_eq hL)⟩
  · rw [length_octetBits]
    refine Nat.dvd_trans ?_ (Nat.dvd_mul_left 8 _)
    cases h <;> decide
  · rw [length_octetBits]
    rcases hlen with rfl | hlen
    · exact Or.inl rfl
    · right
      intro h0
      apply hlen
      obtain ⟨t, ht⟩ := Nat.dvd_of_mod_eq_zero h0
      exact ⟨t, Nat.eq_of_mul_eq_mul_left (show 0 < 8 by decide) (by rw [Nat.mul_comm, ht, ← Nat.mul_assoc])⟩

/-- MD5 of `2^61 + 1` octets. -/
example (n : Nat) (hn : n = 2 ^ 61 + 1) :
    hashOnce ((toy .md5).C spliceInjector) spliceInjector (wordElem littleOctetBigBit 8) .singlePass
      (List.replicate 512 true) (List.replicate 64 0) (List.replicate n 3) =
    .ok (mdDigest .md5 (toy .md5).iv (toy .md5).compress (toy .md5).view (octetBits (List.replicate n 3))) :=
  C86_md_partial rfl _ _ _ List.length_replicate _ _ _ List.length_replicate
    (Or.inr (by rw [List.length_replicate, hn]; decide))

/-- The last 128 bits compressed, as the start of a digest. -/
def lastField (s : List Bits) : Bits :=
  (s.flatten.drop (s.flatten.length - 128) ++ List.replicate 512 false).take 512

/-- The instantiation that shows the length field. -/
def fieldInst (h : MDHash) (hs : h.policy.stateBits = 512) : MDInst h (List Bits) :=
  tracing h lastField (by
    intro s
    rw [hs]
    unfold lastField
    rw [List.length_take, List.length_append, List.length_replicate]
    omega) (List.replicate h.policy.digestBits false)
    List.length_replicate

theorem tracing_view (h : MDHash) (view hv d0 hd0) : (tracing h view hv d0 hd0).view = view := rfl
theorem fieldInst_view (h : MDHash) (hs) : (fieldInst h hs).view = lastField := by
  unfold fieldInst; exact tracing_view ..
theorem fieldInst_iv (h : MDHash) (hs) : (fieldInst h hs).iv = [] := by unfold fieldInst tracing; rfl
theorem fieldInst_compress (h : MDHash) (hs) : (fieldInst h hs).compress = fun t b => t ++ [b] := by
  unfold fieldInst tracing; rfl

/-- C86, SHA-384 and SHA-512 (refutation, 2): a message of more than `2^64` bits gets the 128-bit length field of
its length modulo `2^64`, so the digest is not the standard's. -/
theorem C86_sha512_false (h : MDHash) (hh : h = .sha384 ∨ h = .sha512) (J : Injector) (garbage : Bits)
    (hgb : garbage.length = h.policy.blockBits) (ops : List Op)
    (hwt : ∀ op ∈ ops, op.WellTyped h.policy.blockBits) (hne : Op.extract ∉ ops)
    (hlen : 2 ^ 64 ≤ (streamOf h.policy.blockBits ops).length)
    (hlen' : (streamOf h.policy.blockBits ops).length < 2 ^ 128)
    (hmod : (streamOf h.policy.blockBits ops).length % 2 ^ 64 ≠ 0) :
    ∃ I : MDInst h (List Bits), (do
      let (a, _) ← runOps (I.C J) J (Acc.init (I.C J) garbage) [] ops
      a.result (I.C J)) ≠
      .ok (mdDigest h I.iv I.compress I.view (streamOf h.policy.blockBits ops)) := by
  have hs : h.policy.stateBits = 512 := by rcases hh with rfl | rfl <;> rfl
  have hL : (standard h).length = 128 := by rcases hh with rfl | rfl <;> rfl
  have hBig : (standard h).bigEndianLength = true := by rcases hh with rfl | rfl <;> rfl
  have hD : 128 ≤ (standard h).digest := by rcases hh with rfl | rfl <;> decide
  have hBk : 0 < (standard h).block := by rcases hh with rfl | rfl <;> decide
  refine ⟨fieldInst h hs, ?_⟩
  rw [C20_encoded_length (fieldInst h hs) J garbage hgb ops hwt hne
    (by rcases hh with rfl | rfl <;> exact ⟨_, (Nat.one_mul _).symm⟩) (Or.inr hmod)]
  generalize streamOf h.policy.blockBits ops = m at *
  intro heq
  have h1 := Except.ok.inj heq
  have field : ∀ enc : Nat → Bits, (∀ n, (enc n).length = 128) →
      ((lastField (mdState (standard h).block (standard h).length (standard h).marker enc []
        (fun t b => t ++ [b]) m)).take (standard h).digest).take 128 = enc m.length := by
    intro enc henc
    unfold mdState
    rw [foldl_trace, List.nil_append]
    have hdvd : (standard h).block ∣ (mdPad (standard h).block (standard h).length (standard h).marker enc m).length := by
      have := fillTo_spec hBk (m.length + (standard h).marker.length + (standard h).length)
      unfold mdPad
      simp only [List.length_append, List.length_replicate, henc]
      rw [hL] at this ⊢
      rwa [show m.length + (standard h).marker.length + fillTo (standard h).block (m.length +
        (standard h).marker.length + 128) + 128 = m.length + (standard h).marker.length + 128 +
        fillTo (standard h).block (m.length + (standard h).marker.length + 128) by omega]
    obtain ⟨t, ht⟩ := hdvd
    unfold lastField
    rw [flatten_blocks hBk t _ (by rw [ht, Nat.mul_comm]), List.take_take, List.take_take,
      Nat.min_eq_left (by omega : 128 ≤ _)]
    unfold mdPad
    rw [List.length_append, henc, Nat.add_sub_cancel, List.drop_left, Nat.min_eq_left (by omega),
      List.take_append_of_le_length (Nat.le_of_eq (henc _).symm), List.take_of_length_le (Nat.le_of_eq (henc _))]
  have h1' : (lastField (mdState (standard h).block (standard h).length (standard h).marker
      (fun n => (standard h).encode (n % 2 ^ 64)) [] (fun t b => t ++ [b]) m)).take (standard h).digest =
    (lastField (mdState (standard h).block (standard h).length (standard h).marker (standard h).encode []
      (fun t b => t ++ [b]) m)).take (standard h).digest := by
    have h1'' := h1
    unfold mdDigest paddedMessage at h1''
    rw [fieldInst_view, fieldInst_compress, fieldInst_iv] at h1''
    exact h1''
  have h2 := congrArg (List.take 128) h1'
  have e1 := field (fun n => (standard h).encode (n % 2 ^ 64)) (fun n => by rw [length_encode, hL])
  have e2 := field (standard h).encode (fun n => by rw [length_encode, hL])
  rw [e1, e2] at h2
  have h3 := h2
  clear h1 h1' e1 e2
  simp only [Standard.encode, hBig, if_true, hL] at h3
  -- a bit at position 64 or above is set
  have hne0 : m.length / 2 ^ 64 ≠ 0 := by
    intro h0
    have := Nat.div_add_mod m.length (2 ^ 64)
    rw [h0, Nat.mul_zero, Nat.zero_add] at this
    have hlt := Nat.mod_lt m.length (show 0 < 2 ^ 64 by decide)
    rw [this] at hlt
    exact absurd hlen (Nat.not_le.2 hlt)
  obtain ⟨i, hi⟩ := Nat.exists_testBit_of_ne_zero hne0
  rw [Nat.testBit_div_two_pow] at hi
  have hi64 : i < 64 := by
    rcases Nat.lt_or_ge i 64 with h' | h'
    · exact h'
    · rw [Nat.testBit_lt_two_pow (Nat.lt_of_lt_of_le hlen' (Nat.pow_le_pow_right (by omega) (by omega)))] at hi
      cases hi
  have h4 := congrArg (fun l => l[63 - i]?) h3
  unfold bigEndian at h4
  simp only [List.getElem?_map] at h4
  rw [List.getElem?_range (by omega)] at h4
  simp only [Option.map_some] at h4
  have h5 := Option.some.inj h4
  rw [show 128 - 1 - (63 - i) = i + 64 by omega, Nat.testBit_mod_two_pow] at h5
  rw [hi] at h5
  simp at h5
  omega

/-- The hypotheses are satisfiable: `2^54 + 1` blocks of SHA-512. -/
example (n : Nat) (hn : n = 2 ^ 54 + 1) : ∃ I : MDInst .sha512 (List Bits), (do
      let (a, _) ← runOps (I.C spliceInjector) spliceInjector
        (Acc.init (I.C spliceInjector) (List.replicate 1024 true)) []
        (List.replicate n (.block (List.replicate 1024 true) 0))
      a.result (I.C spliceInjector)) ≠
      .ok (mdDigest .sha512 I.iv I.compress I.view
        (streamOf 1024 (List.replicate n (.block (List.replicate 1024 true) 0)))) := by
  have hl := stream_replicate 1024 n (List.replicate 1024 true) List.length_replicate
  exact C86_sha512_false .sha512 (Or.inr rfl) _ _ List.length_replicate _
    (wellTyped_replicate 1024 n _ List.length_replicate).1 (wellTyped_replicate 1024 n _ List.length_replicate).2
    (hl.symm ▸ (by rw [hn]; decide)) (hl.symm ▸ (by rw [hn]; decide)) (hl.symm ▸ (by rw [hn]; decide))

end Verif.Props
