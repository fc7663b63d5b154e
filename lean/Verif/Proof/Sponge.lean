import Verif.Proof.SpongeWords
import Verif.Proof.AtDigest
import Verif.Proof.Inject
import Verif.Proof.History
/- `sponge_construction` computes the FIPS 202 sponge on byte-aligned messages. -/
namespace Verif

open Spec

/-- The domain separation bits of the two families. -/
def SpongeKind.suffix : SpongeKind → Bits
  | .keccak => []
  | .sha3 => [false, true]

/-- Sizes for which the block is a positive whole number of words. (Others compile too, but fault: C116.) -/
structure SpongeSize (d : Nat) : Prop where
  pos : 0 < d
  lt : d < 800
  words : 64 ∣ 1600 - 2 * d

theorem SpongeSize.facts {d : Nat} (S : SpongeSize d) : 0 < spongeBlockBits d ∧
    64 ∣ spongeBlockBits d ∧ spongeBlockBits d ≤ 1600 ∧ 8 ∣ d ∧ 64 ≤ spongeBlockBits d := by
  obtain ⟨h1, h2, h3⟩ := S
  unfold spongeBlockBits
  omega

theorem padOne_take : padOne.take 1 = [true] := by decide +kernel
theorem padOne_length : padOne.length = 64 := by decide +kernel
theorem padZeroOneOne_take : padZeroOneOne.take 3 = [false, true, true] := by decide +kernel
theorem padZeroOneOne_length : padZeroOneOne.length = 64 := by decide +kernel

/-- The three injections of a padding. -/
theorem inject_pad (J : Injector) (B : Nat) (v w : Bits) (seen n : Nat) (hv : v.length = B)
    (hw : n ≤ w.length) (hfit : seen + n < B) :
    (do
      let b ← J.run w n v seen 0
      let b ← J.run (List.replicate B false) (B - 1 - (seen + n)) b (seen + n) 0
      J.run padOne 1 b (seen + n + (B - 1 - (seen + n))) 0) =
    .ok (v.take seen ++ w.take n ++ List.replicate (B - 1 - (seen + n)) false ++ [true]) := by
  rw [J.run_ok (by omega) (by omega)]
  simp only [bind, Except.bind]
  have t1 := J.take_inject w n v seen 0 (by omega) (by omega)
  have l1 := J.length_inject w n v seen 0 (by omega) (by omega)
  generalize J.inject w n v seen 0 = b1 at *
  rw [J.run_ok (by omega) (by simp; omega)]
  have t2 := J.take_inject (List.replicate B false) (B - 1 - (seen + n)) b1 (seen + n) 0 (by omega)
    (by simp; omega)
  have l2 := J.length_inject (List.replicate B false) (B - 1 - (seen + n)) b1 (seen + n) 0 (by omega)
    (by simp; omega)
  generalize J.inject (List.replicate B false) (B - 1 - (seen + n)) b1 (seen + n) 0 = b2 at *
  have hp := padOne_length
  simp only
  rw [J.run_ok (by omega) (by omega), J.inject_to_end (by omega) (by omega), t2, t1]
  rw [List.drop_zero, List.drop_zero, List.drop_zero, padOne_take, List.take_replicate,
    Nat.min_eq_left (by omega)]

/-- The padding, whenever the suffix and the two ones fit into the block. -/
theorem SpongeKind.pad_eq' (k : SpongeKind) (J : Injector) {B : Nat} (b : Bits) (seen : Nat)
    (hb : b.length = B) (hfit : seen + k.suffix.length + 2 ≤ B) :
    k.pad B J b seen = .ok (flipOctets ((flipOctets b).take seen ++ k.suffix ++ [true] ++
      List.replicate (B - 1 - (seen + k.suffix.length + 1)) false ++ [true]), true) := by
  have hv : (flipOctets b).length = B := by rw [length_flipOctets, hb]
  cases k with
  | keccak =>
    replace hfit : seen + 0 + 2 ≤ B := hfit
    have h := inject_pad J B (flipOctets b) padOne seen 1 hv (by rw [padOne_length]; omega) (by omega)
    show keccakPad B J b seen = _
    unfold keccakPad
    rw [if_pos (by omega)]
    rw [padOne_take] at h
    simp only [bind, Except.bind, pure, Except.pure] at h ⊢
    revert h
    generalize J.run padOne 1 (flipOctets b) seen 0 = x1
    cases x1 with
    | error e => intro h; simp at h
    | ok b1 =>
      simp only
      generalize J.run (List.replicate B false) (B - 1 - (seen + 1)) b1 (seen + 1) 0 = x2
      cases x2 with
      | error e => intro h; simp at h
      | ok b2 =>
        simp only
        intro h
        rw [h]
        simp [SpongeKind.suffix]
  | sha3 =>
    replace hfit : seen + 2 + 2 ≤ B := hfit
    have h := inject_pad J B (flipOctets b) padZeroOneOne seen 3 hv
      (by rw [padZeroOneOne_length]; omega) (by omega)
    show sha3Pad B J b seen = _
    unfold sha3Pad
    rw [if_pos (by omega)]
    rw [padZeroOneOne_take] at h
    simp only [bind, Except.bind, pure, Except.pure] at h ⊢
    revert h
    generalize J.run padZeroOneOne 3 (flipOctets b) seen 0 = x1
    cases x1 with
    | error e => intro h; simp at h
    | ok b1 =>
      simp only
      generalize J.run (List.replicate B false) (B - 1 - (seen + 3)) b1 (seen + 3) 0 = x2
      cases x2 with
      | error e => intro h; simp at h
      | ok b2 =>
        simp only
        intro h
        rw [h]
        simp [SpongeKind.suffix]

theorem SpongeKind.suffix_le (k : SpongeKind) : k.suffix.length ≤ 2 := by cases k <;> decide

theorem SpongeKind.pad_eq (k : SpongeKind) (J : Injector) {B : Nat} (b : Bits) (seen : Nat)
    (hb : b.length = B) (hfit : seen + 8 ≤ B) :
    k.pad B J b seen = .ok (flipOctets ((flipOctets b).take seen ++ k.suffix ++ [true] ++
      List.replicate (B - 1 - (seen + k.suffix.length + 1)) false ++ [true]), true) :=
  k.pad_eq' J b seen hb (by have := k.suffix_le; omega)

/-! ### Squeezing -/

/-- One call of the permutation on the byte-swapped state. -/
def swapPermute (permute : Lanes → Lanes) (s : Lanes) : Lanes :=
  (permute (s.map byteSwap64)).map byteSwap64

theorem byteSwap_twice (A : Lanes) : (A.map byteSwap64).map byteSwap64 = A := by
  apply Vector.ext
  intro i hi
  rw [Vector.getElem_map, Vector.getElem_map]
  apply BitVec.eq_of_getLsbD_eq
  intro z hz
  unfold byteSwap64
  rw [BitVec.getLsbD_ofFnLE, dif_pos hz, BitVec.getLsbD_ofFnLE, dif_pos (by show _ < 64; omega)]
  congr 1
  simp only
  omega

theorem fipsState_swapPermute (permute : Lanes → Lanes) (s : Lanes) :
    fipsState (swapPermute permute s) = onStrings permute (fipsState s) := by
  unfold fipsState swapPermute onStrings
  rw [byteSwap_twice, stringLanes_laneString]

theorem fipsState_repeat (permute : Lanes → Lanes) (s : Lanes) (n : Nat) :
    fipsState (Nat.repeat (swapPermute permute) n s) =
      Nat.repeat (onStrings permute) n (fipsState s) := by
  induction n with
  | zero => rfl
  | succ n ih => simp only [Nat.repeat]; rw [fipsState_swapPermute, ih]

theorem squeezeLoop_ok (permute : Lanes → Lanes) (bw : Nat) (hbw : 0 < bw) (s : Lanes) :
    ∀ n, n * bw ≤ 25 → ∃ temp : Lanes,
      squeezeLoop permute bw n (Vector.replicate 25 0, s) =
        .ok (temp, Nat.repeat (swapPermute permute) n s) ∧
      ∀ (k : Nat) (hk : k < 25), k < n * bw →
        temp[k] = (Nat.repeat (swapPermute permute) (k / bw) s)[k % bw]'(by
          have := Nat.mod_le k bw; omega) := by
  intro n
  induction n with
  | zero => intro _; exact ⟨_, rfl, fun k _ h => by omega⟩
  | succ n ih =>
    intro hn
    rw [Nat.add_mul] at hn
    obtain ⟨temp, e, h⟩ := ih (by omega)
    refine ⟨Vector.ofFn fun k : Fin 25 =>
      if h : n * bw ≤ k.1 ∧ k.1 < n * bw + bw then
        (Nat.repeat (swapPermute permute) n s)[k.1 - n * bw]'(by omega) else temp[k], ?_, ?_⟩
    · simp only [squeezeLoop]
      rw [e]
      simp only [bind, Except.bind, squeezeStep]
      rw [if_pos (by omega)]
      rfl
    · intro k hk hlt
      rw [Nat.add_mul] at hlt
      rw [Vector.getElem_ofFn]
      by_cases hc : n * bw ≤ k
      · rw [dif_pos (show n * bw ≤ k ∧ k < n * bw + bw from ⟨hc, by omega⟩)]
        have e1 : k / bw = n := by
          apply Nat.div_eq_of_lt_le
          · omega
          · rw [Nat.add_mul]; omega
        have e2 : k % bw = k - n * bw := mod_of_between hc (by omega)
        simp only [e1, e2]
      · rw [dif_neg (show ¬ (n * bw ≤ k ∧ k < n * bw + bw) by omega)]
        exact h k hk (by omega)

theorem spongeFinalize_ok (permute : Lanes → Lanes) (r d : Nat) (hr : 0 < r) (h64 : 64 ∣ r)
    (hd : d ≤ 1600) (s : Lanes) : ∃ T : Lanes, spongeFinalize permute r d s = .ok T ∧
      ∀ (k : Nat) (hk : k < 25), 64 * k < d →
        T[k] = (Nat.repeat (swapPermute permute) (k / (r / 64)) s)[k % (r / 64)]'(by
          have := Nat.mod_le k (r / 64); omega) := by
  obtain ⟨bw, rfl⟩ := h64
  have hbw : 0 < bw := by omega
  have ebw : 64 * bw / 64 = bw := by omega
  have hdm := Nat.div_add_mod d (64 * bw)
  have hml := Nat.mod_lt d hr
  have hq : d / (64 * bw) * bw * 64 + d % (64 * bw) = d := by
    rw [Nat.mul_assoc, Nat.mul_comm bw 64, Nat.mul_comm]; exact hdm
  have hq25 : d / (64 * bw) * bw ≤ 25 := by omega
  obtain ⟨temp, e, h⟩ := squeezeLoop_ok permute bw hbw s (d / (64 * bw)) hq25
  unfold spongeFinalize
  simp only [ebw]
  rw [e]
  simp only [bind, Except.bind]
  have hlw1 : d % (64 * bw) ≤ 64 * (d % (64 * bw) / 64 + (if d % (64 * bw) % 64 ≠ 0 then 1 else 0)) ∧
      64 * (d % (64 * bw) / 64 + (if d % (64 * bw) % 64 ≠ 0 then 1 else 0)) <
        d % (64 * bw) + 64 := by
    split <;> omega
  by_cases h0 : d % (64 * bw) ≠ 0
  · rw [if_pos h0, if_pos (by omega)]
    refine ⟨_, rfl, ?_⟩
    intro k hk hkd
    rw [Vector.getElem_ofFn]
    by_cases hc : d / (64 * bw) * bw ≤ k
    · rw [dif_pos ⟨hc, by show k < _; omega⟩]
      have hlt : k < d / (64 * bw) * bw + bw := by omega
      have e1 : k / bw = d / (64 * bw) := by
        apply Nat.div_eq_of_lt_le
        · omega
        · rw [Nat.add_mul]; omega
      have e2 : k % bw = k - d / (64 * bw) * bw := mod_of_between hc hlt
      simp only [e1, e2]
    · rw [dif_neg (by show ¬ (_ ≤ k ∧ _); omega)]
      exact h k hk (by omega)
  · rw [if_neg h0]
    exact ⟨_, rfl, fun k hk hkd => h k hk (by omega)⟩

/-- The output of the finalizer is the squeezed string. -/
theorem finalize_squeeze (permute : Lanes → Lanes) (r d : Nat) (hr : 0 < r) (h64 : 64 ∣ r)
    (hr16 : r ≤ 1600) (hd : d ≤ 1600) (h8 : 8 ∣ d) (s : Lanes) :
    ∃ T : Lanes, spongeFinalize permute r d s = .ok T ∧
      (bigOctetBigBit.arrayView T).take d =
        flipOctets (squeeze r (onStrings permute) (fipsState s) d) := by
  obtain ⟨T, e, h⟩ := spongeFinalize_ok permute r d hr h64 hd s
  refine ⟨T, e, ?_⟩
  rw [arrayView_eq, flipOctets_take _ (by rw [length_fipsState]; decide) _ h8]
  congr 1
  apply List.ext_getElem?
  intro j
  unfold squeeze
  by_cases hj : j < d
  · rw [List.getElem?_take_of_lt hj, List.getElem?_take_of_lt hj,
      getElem?_flatMap_const _ r hr _ (by
        intro i _
        rw [← fipsState_repeat, List.length_take, length_fipsState]; omega)]
    have hjr : j / r < d / r + 1 := by
      have := Nat.div_le_div_right (c := r) (Nat.le_of_lt hj); omega
    rw [List.getElem?_range hjr]
    show _ = ((Nat.repeat (onStrings permute) (j / r) (fipsState s)).take r)[j % r]?
    have hmr := Nat.mod_lt j hr
    rw [List.getElem?_take_of_lt hmr, ← fipsState_repeat, getElem?_fipsState _ _ (by omega),
      getElem?_fipsState _ _ (by omega), h (j / 64) (by omega) (by omega)]
    obtain ⟨bw, rfl⟩ := h64
    have e1 : j / 64 / (64 * bw / 64) = j / (64 * bw) := by
      rw [Nat.mul_div_cancel_left _ (by omega), Nat.div_div_eq_div_mul]
    have e2 : j / 64 % (64 * bw / 64) = j % (64 * bw) / 64 := by
      rw [Nat.mul_div_cancel_left _ (by omega), Nat.mod_mul_right_div_self]
    have e3 : j % (64 * bw) % 64 = j % 64 := Nat.mod_mul_right_mod _ _ _
    have e4 : j % (64 * bw) % 8 = j % 8 := by omega
    simp only [e1, e2, e3, e4]
  · rw [List.getElem?_eq_none (by simp; omega), List.getElem?_eq_none (by simp; omega)]

/-! ### The digest -/

/-- The digest prescribed by FIPS 202 for a message given as a stream of octets, most significant bit
first. -/
def spongeSpec (k : SpongeKind) (permute : Lanes → Lanes) (d : Nat) (m : Bits) : Bits :=
  flipOctets (sponge 1600 (spongeBlockBits d) (onStrings permute) (flipOctets m ++ k.suffix) d)

theorem fipsState_foldl (permute : Lanes → Lanes) (r : Nat) (hr : 64 ∣ r) (hr' : r ≤ 1600)
    (bs : List Bits) (hbs : ∀ b ∈ bs, b.length = r) (s : Lanes) :
    fipsState (bs.foldl (spongeCompress permute r) s) =
      (bs.map flipOctets).foldl (fun S Pi => onStrings permute
        (xorBits S (Pi ++ List.replicate (1600 - r) false))) (fipsState s) := by
  induction bs generalizing s with
  | nil => rfl
  | cons b bs ih =>
    rw [List.foldl_cons, ih (fun x hx => hbs x (by simp [hx])), List.map_cons, List.foldl_cons,
      fipsState_compress permute r hr hr' s b (hbs b (by simp))]

theorem fipsState_zero : fipsState (Vector.replicate 25 0) = List.replicate 1600 false := by
  decide +kernel

theorem length_of_mem_blocks {B : Nat} {m b : Bits} (h : b ∈ blocks B m) : b.length = B := by
  unfold blocks at h
  obtain ⟨i, hi, rfl⟩ := List.mem_map.1 h
  rw [List.mem_range] at hi
  unfold block
  have : (i + 1) * B ≤ m.length := by
    calc (i + 1) * B ≤ m.length / B * B := Nat.mul_le_mul_right _ hi
      _ ≤ m.length := Nat.div_mul_le_self _ _
  rw [Nat.add_mul] at this
  simp; omega

/-- Messages the padding handles: whole octets (and no wrap-around of the counter). -/
def SpongeGood (m : Bits) : Prop := 8 ∣ m.length ∧ m.length < 2 ^ 64

/-- The blocks that the standard absorbs, as the code sees them (octets most significant bit first). -/
def absorbedBlocks (k : SpongeKind) (B : Nat) (m : Bits) : List Bits :=
  (blocks B (flipOctets m ++ k.suffix ++ pad101 B (flipOctets m ++ k.suffix).length)).map flipOctets

/-- `digest` on a state that has absorbed `bs`, with `rest` at the front of the block and a counter that
agrees with the length of `rest` modulo the block size. -/
theorem spongeDigest_tail {σ δ : Type} (k : SpongeKind) (B : Nat) (hB : 0 < B) (h64 : 64 ∣ B) (init : σ)
    (compress : σ → Bits → σ) (output : σ → Except Fault δ) (J : Injector) (st : σ) (cache : Bits)
    (total : Nat) (bs rest : Bits) (hcl : cache.length = B) (hbs : B ∣ bs.length)
    (hseen : total % B = rest.length) (h8 : 8 ∣ rest.length) (hrest : cache.take rest.length = rest)
    (hst : (if total ≠ 0 ∧ total % B = 0 then compress st cache else st) =
      (blocks B bs).foldl compress init) :
    spongeDigest k B compress output J st cache total =
      output ((absorbedBlocks k B (bs ++ rest)).foldl compress init) := by
  unfold spongeDigest
  simp only
  rw [hst, hseen]
  have hlt : rest.length < B := by rw [← hseen]; exact Nat.mod_lt _ hB
  rw [k.pad_eq J cache rest.length hcl (by omega)]
  simp only [bind, Except.bind, if_true, pure, Except.pure]
  have htk : (flipOctets cache).take rest.length = flipOctets rest := by
    rw [flipOctets_take _ (by omega) _ h8, hrest]
  rw [htk]
  have hsl : k.suffix.length ≤ 2 := by cases k <;> decide
  generalize htail : flipOctets rest ++ k.suffix ++ [true] ++
    List.replicate (B - 1 - (rest.length + k.suffix.length + 1)) false ++ [true] = tail
  have htl : tail.length = B := by
    rw [← htail]
    simp only [List.length_append, length_flipOctets, List.length_cons, List.length_nil,
      List.length_replicate]
    omega
  have e0 : compress ((blocks B bs).foldl compress init) (flipOctets tail) =
      (blocks B bs ++ [flipOctets tail]).foldl compress init := by rw [List.foldl_append]; rfl
  rw [e0]
  congr 2
  unfold absorbedBlocks
  have h1 : 8 ∣ bs.length := Nat.dvd_trans (by omega) hbs
  have hN : (flipOctets (bs ++ rest) ++ k.suffix).length = bs.length + rest.length + k.suffix.length := by
    rw [List.length_append, length_flipOctets, List.length_append]
  have hfill : fillTo B ((flipOctets (bs ++ rest) ++ k.suffix).length + 2) =
      B - 1 - (rest.length + k.suffix.length + 1) := by
    rw [hN]
    obtain ⟨q, hq⟩ := hbs
    have e : bs.length + rest.length + k.suffix.length + 2 = B * q + (rest.length + k.suffix.length + 2) := by
      omega
    rw [e, fillTo_add_mul, fillTo_of_le (by omega) (by omega)]
    omega
  have hsplit : flipOctets (bs ++ rest) ++ k.suffix ++ pad101 B (flipOctets (bs ++ rest) ++ k.suffix).length =
      flipOctets bs ++ tail := by
    unfold pad101
    rw [hfill, ← htail, flipOctets_append _ _ h1 h8]
    simp only [List.append_assoc, List.cons_append, List.nil_append]
  rw [hsplit, blocks_append hB (by rw [length_flipOctets]; exact hbs),
    blocks_single hB htl, List.map_append, List.map_cons, List.map_nil,
    blocks_flipOctets _ (by omega) _ h1, List.map_map]
  congr 1
  symm
  conv => rhs; rw [← List.map_id (blocks B bs)]
  apply List.map_congr_left
  intro b hb
  exact flipOctets_flipOctets b (by rw [length_of_mem_blocks hb]; omega)

/-- The construction compresses exactly the blocks of the padded message. -/
theorem sponge_result {σ δ : Type} (k : SpongeKind) (B : Nat) (hB : 0 < B) (h64 : 64 ∣ B) (init : σ)
    (compress : σ → Bits → σ) (output : σ → Except Fault δ) (J : Injector) (a : Acc σ) (m : Bits)
    (h : Rep (spongeConstructionOf k B init compress output J) a m) (hm : SpongeGood m) :
    a.result (spongeConstructionOf k B init compress output J) =
      output ((absorbedBlocks k B m).foldl compress init) := by
  obtain ⟨hm8, hlt⟩ := hm
  have hcl := h.cache_len
  obtain ⟨q, hq1, hq2, hst, hrest, hmod⟩ :=
    h.atDigest (C := spongeConstructionOf k B init compress output J) hB
  have hC : (spongeConstructionOf k B init compress output J).blockBits = B := rfl
  rw [hC] at hcl hq1 hq2 hst hrest hmod
  rw [absorbed_eq_foldl _ compress (fun _ _ _ => rfl) hB m q hq1, hC] at hst
  have hsz : (m.drop (q * B)).length = m.length % B := by
    rw [List.length_drop]; omega
  have ht := spongeDigest_tail k B hB h64 init compress output J a.st a.cache a.total (m.take (q * B))
    (m.drop (q * B)) hcl (take_blocks_length hq1) (by rw [h.total, wrap64_of_lt hlt, hsz])
    (by rw [hsz, Nat.dvd_mod_iff (by omega)]; exact hm8) (by rw [hsz, hrest])
    (by rw [h.total, wrap64_of_lt hlt]; exact hst)
  rw [List.take_append_drop] at ht
  exact ht

theorem map_flip_absorbedBlocks (k : SpongeKind) (B : Nat) (h8 : 8 ∣ B) (m : Bits) :
    (absorbedBlocks k B m).map flipOctets =
      blocks B (flipOctets m ++ k.suffix ++ pad101 B (flipOctets m ++ k.suffix).length) := by
  unfold absorbedBlocks
  rw [List.map_map]
  conv => rhs; rw [← List.map_id (blocks B _)]
  apply List.map_congr_left
  intro b hb
  exact flipOctets_flipOctets b (by rw [length_of_mem_blocks hb]; omega)

theorem length_of_mem_absorbedBlocks {k : SpongeKind} {B : Nat} {m b : Bits}
    (h : b ∈ absorbedBlocks k B m) : b.length = B := by
  obtain ⟨b', hb', rfl⟩ := List.mem_map.1 h
  rw [length_flipOctets, length_of_mem_blocks hb']

/-- Absorbing any padded string `P` and squeezing. -/
theorem output_of_blocks (permute : Lanes → Lanes) (d : Nat) (S : SpongeSize d) (P : Bits) :
    spongeOutput permute d (((blocks (spongeBlockBits d) P).map flipOctets).foldl
      (spongeCompress permute (spongeBlockBits d)) (Vector.replicate 25 0)) =
    .ok (flipOctets (squeeze (spongeBlockBits d) (onStrings permute)
      (absorb 1600 (spongeBlockBits d) (onStrings permute) P) d)) := by
  obtain ⟨hB, h64, h1600, h8d, hB64⟩ := S.facts
  have hd := S.lt
  generalize hs : ((blocks (spongeBlockBits d) P).map flipOctets).foldl
    (spongeCompress permute (spongeBlockBits d)) (Vector.replicate 25 0) = st
  have hf : fipsState st = absorb 1600 (spongeBlockBits d) (onStrings permute) P := by
    rw [← hs, fipsState_foldl permute _ h64 h1600 _ (fun b hb => by
      obtain ⟨b', hb', rfl⟩ := List.mem_map.1 hb
      rw [length_flipOctets, length_of_mem_blocks hb']), fipsState_zero, List.map_map]
    have e : (blocks (spongeBlockBits d) P).map (flipOctets ∘ flipOctets) =
        blocks (spongeBlockBits d) P := by
      conv => rhs; rw [← List.map_id (blocks (spongeBlockBits d) P)]
      apply List.map_congr_left
      intro b hb
      exact flipOctets_flipOctets b (by rw [length_of_mem_blocks hb]; omega)
    rw [e]
    rfl
  obtain ⟨T, eT, hT⟩ := finalize_squeeze permute (spongeBlockBits d) d hB h64 h1600 (by omega) h8d st
  unfold spongeOutput
  rw [eT]
  simp only [bind, Except.bind, pure, Except.pure]
  have hd8 : d / 8 * 8 = d := by omega
  have hlen : (bigOctetBigBit.arrayView T).length = 1600 := by
    rw [arrayView_eq, length_flipOctets, length_fipsState]
  rw [hd8, hlen, if_pos (by omega), hT, hf]

theorem sponge_computes (k : SpongeKind) (permute : Lanes → Lanes) (d : Nat) (S : SpongeSize d)
    (J : Injector) :
    Computes (spongeConstruction k permute d J) SpongeGood (spongeSpec k permute d) := by
  intro a m h hm
  show a.result (spongeConstructionOf k _ _ _ _ J) = _
  rw [sponge_result k _ S.facts.1 S.facts.2.1 _ _ _ J a m h hm]
  exact output_of_blocks permute d S _

end Verif
