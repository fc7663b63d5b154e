import Mathlib.Algebra.BigOperators.Intervals
import Mathlib.Tactic.Ring
import Mathlib.Tactic.Abel
import Verif.Model.Pedersen
import Verif.Spec.Pedersen
import Verif.Proof.Blocks
/- The Pedersen accumulator represents the bits fed so far. -/
namespace Verif

open Spec

variable {G : Type} [AddCommGroup G]

theorem blocks_snoc {B : Nat} (hB : 0 < B) (m : List Bool) (b : Bool) :
    blocks B (m ++ [b]) = if (m.length + 1) % B = 0
      then blocks B m ++ [m.drop (B * (m.length / B)) ++ [b]] else blocks B m := by
  have hblock : ∀ i, i < m.length / B → block B (m ++ [b]) i = block B m i := by
    intro i hi
    have : i * B + B ≤ m.length := by
      have h1 := Nat.div_mul_le_self m.length B
      have h2 : (i + 1) * B ≤ m.length / B * B := Nat.mul_le_mul_right _ hi
      rw [Nat.add_mul] at h2; omega
    unfold block
    rw [List.drop_append_of_le_length (by omega), List.take_append_of_le_length (by simp; omega)]
  have hd := Nat.div_add_mod m.length B
  have hm := Nat.mod_lt m.length hB
  split
  · rename_i h
    have hmod : m.length % B = B - 1 := by
      have h3 : (m.length + 1) % B = (m.length % B + 1) % B := by simp [Nat.add_mod]
      rw [h3] at h
      by_contra hne
      rw [Nat.mod_eq_of_lt (by omega)] at h
      omega
    have hq : (m ++ [b]).length / B = m.length / B + 1 := by
      rw [List.length_append, List.length_singleton]
      rw [show m.length + 1 = B * (m.length / B + 1) by rw [Nat.mul_add]; omega, Nat.mul_div_cancel_left _ hB]
    unfold blocks
    rw [hq, List.range_succ, List.map_append, List.map_congr_left fun i hi => hblock i (List.mem_range.1 hi)]
    congr 1
    simp only [List.map_cons, List.map_nil]
    congr 1
    unfold block
    rw [Nat.mul_comm, List.drop_append_of_le_length (by omega), List.take_of_length_le (by simp; omega)]
  · rename_i h
    have hmod : m.length % B + 1 < B := by
      by_contra hge
      apply h
      have : m.length + 1 = B * (m.length / B + 1) := by rw [Nat.mul_add]; omega
      rw [this, Nat.mul_mod_right]
    have hq : (m ++ [b]).length / B = m.length / B := by
      rw [List.length_append, List.length_singleton]
      conv_lhs => rw [← hd]
      rw [Nat.add_assoc, Nat.mul_add_div hB, Nat.div_eq_of_lt hmod, Nat.add_zero]
    unfold blocks
    rw [hq]
    exact List.map_congr_left fun i hi => hblock i (List.mem_range.1 hi)

theorem length_blocks (B : Nat) (m : List Bool) : (blocks B m).length = m.length / B := by simp [blocks]

theorem segmentScalar_append (seg : List (List Bool)) (x : List Bool) :
    segmentScalar (seg ++ [x]) = segmentScalar seg + enc x * 2 ^ (4 * seg.length) := by
  unfold segmentScalar
  rw [List.length_append, List.length_singleton, List.range_succ, List.map_append, List.sum_append]
  congr 1
  · congr 1
    apply List.map_congr_left
    intro j hj
    have hj : j < seg.length := List.mem_range.1 hj
    simp [List.getD_eq_getElem?_getD, List.getElem?_append_left hj]
  · simp [List.getD_eq_getElem?_getD]

theorem lookup_eq (bits : List Bool) (h : bits.length = 3) : pedersenLookup bits = enc bits := by
  match bits, h with
  | [a, b, c], _ => revert a b c; decide

/-- Multiplying by a scalar field element is multiplying by any integer in its class. -/
theorem val_smul {r : Nat} (hr : 0 < r) {g : G} (hg : r • g = 0) (x : ZMod r) (z : Int)
    (h : x = (z : ZMod r)) : x.val • g = z • g := by
  haveI : NeZero r := ⟨by omega⟩
  have h1 : ((x.val : Int) : ZMod r) = (z : ZMod r) := by
    rw [Int.cast_natCast, ZMod.natCast_zmod_val, h]
  obtain ⟨k, hk⟩ := (ZMod.intCast_eq_intCast_iff_dvd_sub _ _ _).1 h1
  have h2 : z = x.val + k * r := by rw [mul_comm k]; omega
  rw [h2, add_smul, mul_smul, natCast_zsmul, natCast_zsmul, hg, smul_zero, add_zero]

/-- Sizes for which the accumulator computes the Zcash hash. -/
structure PedersenParams.Valid (P : PedersenParams G) : Prop where
  r : 0 < P.r
  c : 2 ≤ P.c
  width : 4 * (P.c - 1) < P.width
  order : ∀ i, P.r • P.base i = 0

/-- Chunks so far, and the index of the segment being filled. -/
def chunks (m : List Bool) : List (List Bool) := blocks 3 m
def current (c : Nat) (m : List Bool) : Nat := (m.length / 3 - 1) / c

/-- Sum over the finished segments. -/
def finished (P : PedersenParams G) (m : List Bool) : G :=
  ∑ j ∈ Finset.range (current P.c m), segmentScalar (segment P.c (chunks m) j) • P.base j

/-- The accumulator has seen `m`; `extra` is what earlier extractions left in `result`. -/
structure PedersenRep (P : PedersenParams G) (a : PedersenAcc G P.r) (m : List Bool) (extra : G) : Prop where
  bits : a.bitsSupplied = m.length
  cached : a.cached = m.drop (3 * (m.length / 3))
  pow : a.powTwo = 2 ^ (4 * ((chunks m).drop (current P.c m * P.c)).length) % 2 ^ P.width
  segment : a.segment = (segmentScalar ((chunks m).drop (current P.c m * P.c)) : ZMod P.r)
  point : a.point = P.base (current P.c m)
  result : a.result = finished P m + extra

theorem PedersenRep.init (P : PedersenParams G) (V : P.Valid) : PedersenRep P (PedersenAcc.init P) [] 0 := by
  have := V.width
  refine ⟨rfl, rfl, ?_, ?_, ?_, ?_⟩
  · simp [PedersenAcc.init, chunks, blocks_nil]
    rw [Nat.mod_eq_of_lt]
    exact Nat.one_lt_two_pow (by omega)
  · simp [PedersenAcc.init, chunks, blocks_nil, segmentScalar]
  · simp [PedersenAcc.init, current]
  · simp [PedersenAcc.init, finished, current]

/-- Segments up to chunk-bit `n` have indices below `2^32`, or the base points repeat with that period. -/
def SegBound (P : PedersenParams G) (n : Nat) : Prop :=
  n ≤ 3 * (P.c * 2 ^ 32) ∨ ∀ i, P.base (i % 2 ^ 32) = P.base i

omit [AddCommGroup G] in
theorem SegBound.mono {P : PedersenParams G} {n n' : Nat} (h : SegBound P n) (hn : n' ≤ n) : SegBound P n' :=
  h.imp (Nat.le_trans hn) id

theorem PedersenRep.update {P : PedersenParams G} (V : P.Valid) {a : PedersenAcc G P.r} {m : List Bool}
    {extra : G} (h : PedersenRep P a m extra) (b : Bool) (h64 : m.length + 1 < 2 ^ 64)
    (hseg : SegBound P (m.length + 1)) : PedersenRep P (a.update P b) (m ++ [b]) extra := by
  have hc := V.c
  have hlen : (m ++ [b]).length = m.length + 1 := by simp
  have hdl : (m.drop (3 * (m.length / 3))).length = m.length % 3 := by simp; omega
  unfold PedersenAcc.update
  simp only
  rw [h.cached, h.bits, show wrap64 (m.length + 1) = m.length + 1 from Nat.mod_eq_of_lt h64,
    List.length_append, hdl, List.length_singleton]
  by_cases h3 : (m.length + 1) % 3 = 0
  · rw [if_pos (by omega)]
    have hch : chunks (m ++ [b]) = chunks m ++ [m.drop (3 * (m.length / 3)) ++ [b]] := by
      unfold chunks
      rw [blocks_snoc (by omega), if_pos h3]
    have hn : (m ++ [b]).length / 3 = m.length / 3 + 1 := by rw [hlen]; omega
    have hcur : current P.c (m ++ [b]) = m.length / 3 / P.c := by
      unfold current; rw [hn, Nat.add_sub_cancel]
    have hcl : (chunks m).length = m.length / 3 := length_blocks 3 m
    have hcached : ∀ (x : List Bool), x.drop (3 * (x.length / 3)) = [] ↔ x.length % 3 = 0 := by
      intro x
      rw [List.drop_eq_nil_iff]; omega
    have hempty : (m ++ [b]).drop (3 * ((m ++ [b]).length / 3)) = [] := by
      rw [hcached, hlen]; exact h3
    have henc : pedersenLookup (m.drop (3 * (m.length / 3)) ++ [b]) =
        enc (m.drop (3 * (m.length / 3)) ++ [b]) :=
      lookup_eq _ (by rw [List.length_append, hdl, List.length_singleton]; omega)
    have hfin : ∀ j, (j + 1) * P.c ≤ m.length / 3 →
        Spec.segment P.c (chunks (m ++ [b])) j = Spec.segment P.c (chunks m) j := by
      intro j hj
      rw [Nat.add_mul] at hj
      unfold Spec.segment
      rw [hch, List.drop_append_of_le_length (by omega), List.take_append_of_le_length (by simp; omega)]
    generalize hN : m.length / 3 = n at *
    have hn3 : (m.length + 1) / 3 = n + 1 := by omega
    generalize hx : m.drop (3 * n) ++ [b] = x at *
    have hdiv := Nat.div_add_mod n P.c
    have hmodlt := Nat.mod_lt n (show 0 < P.c by omega)
    have hi1 : (n + 1) % P.c = 1 ↔ n % P.c = 0 := by
      constructor
      · intro hh
        by_contra hne
        have e : (n + 1) % P.c = (n % P.c + 1) % P.c := by simp [Nat.add_mod]
        rw [e] at hh
        by_cases hl : n % P.c + 1 < P.c
        · rw [Nat.mod_eq_of_lt hl] at hh; omega
        · rw [show n % P.c + 1 = P.c by omega, Nat.mod_self] at hh; omega
      · intro hh
        rw [Nat.add_mod, hh, Nat.zero_add, Nat.mod_mod, Nat.mod_eq_of_lt (by omega)]
    by_cases hnew : 0 < n ∧ n % P.c = 0
    · -- a new segment starts with this chunk
      obtain ⟨t, ht⟩ : ∃ t, n = P.c * t := ⟨n / P.c, by omega⟩
      have ht0 : 0 < t := by
        rcases Nat.eq_zero_or_pos t with h0 | h0
        · rw [h0] at ht; omega
        · exact h0
      have htc : n / P.c = t := by rw [ht, Nat.mul_div_cancel_left _ (by omega)]
      have hcurm : current P.c m = t - 1 := by
        unfold current
        rw [hN, ht]
        obtain ⟨s, rfl⟩ : ∃ s, t = s + 1 := ⟨t - 1, by omega⟩
        rw [Nat.mul_add, Nat.mul_one, Nat.add_sub_assoc (by omega), Nat.mul_add_div (by omega),
          Nat.div_eq_of_lt (by omega)]
        omega
      have hnp : (n + 1) / P.c = t := by
        rw [ht, Nat.mul_add_div (by omega), Nat.div_eq_of_lt (by omega), Nat.add_zero]
      have htlt : P.base (t % 2 ^ 32) = P.base t := by
        rcases hseg with hseg | hseg
        · rw [Nat.mod_eq_of_lt]
          by_contra hge
          have : P.c * 2 ^ 32 ≤ P.c * t := Nat.mul_le_mul_left _ (by omega)
          omega
        · exact hseg t
      have hnseg : PedersenAcc.newSegment P { a with cached := x, bitsSupplied := m.length + 1 } = true := by
        unfold PedersenAcc.newSegment
        simp only [hn3, decide_eq_true_eq]
        exact ⟨by omega, hi1.2 hnew.2⟩
      rw [if_pos hnseg]
      have hdrop : (chunks (m ++ [b])).drop (t * P.c) = [x] := by
        rw [hch, Nat.mul_comm, ← ht, List.drop_append, List.drop_of_length_le (by omega), hcl]
        simp
      refine ⟨hlen.symm, ?_, ?_, ?_, ?_, ?_⟩
      · simp only [PedersenAcc.updateCurrentSegment]; exact hempty.symm
      · simp only [PedersenAcc.updateCurrentSegment, PedersenAcc.updateNewSegment]
        rw [hcur, htc, hdrop]
        simp
      · simp only [PedersenAcc.updateCurrentSegment, PedersenAcc.updateNewSegment,
          PedersenAcc.updateResult]
        rw [hcur, htc, hdrop, henc]
        simp [segmentScalar]
      · simp only [PedersenAcc.updateCurrentSegment, PedersenAcc.updateNewSegment,
          PedersenAcc.updateResult]
        rw [hn3, hnp, htlt, hcur, htc]
      · simp only [PedersenAcc.updateCurrentSegment, PedersenAcc.updateNewSegment,
          PedersenAcc.updateResult]
        rw [h.result, h.point, val_smul V.r (V.order _) _ _ h.segment]
        unfold finished
        rw [hcur, htc, hcurm]
        obtain ⟨s, rfl⟩ : ∃ s, t = s + 1 := ⟨t - 1, by omega⟩
        have hs : n = s * P.c + P.c := by rw [ht]; ring
        rw [Finset.sum_range_succ, Nat.add_sub_cancel]
        have e1 : ∑ j ∈ Finset.range s, segmentScalar (Spec.segment P.c (chunks (m ++ [b])) j) • P.base j =
            ∑ j ∈ Finset.range s, segmentScalar (Spec.segment P.c (chunks m) j) • P.base j := by
          apply Finset.sum_congr rfl
          intro j hj
          rw [hfin j]
          rw [show n = (s + 1) * P.c by rw [hs]; ring]
          exact Nat.mul_le_mul_right _ (by have := Finset.mem_range.1 hj; omega)
        have e2 : Spec.segment P.c (chunks (m ++ [b])) s = (chunks m).drop (s * P.c) := by
          rw [hfin s (by rw [hs]; exact Nat.le_of_eq (by ring))]
          unfold Spec.segment
          rw [List.take_of_length_le (by simp; omega)]
        rw [e1, e2]
        abel
    · -- the chunk belongs to the current segment
      have hcurm : current P.c m = n / P.c := by
        unfold current
        rw [hN]
        rcases Nat.eq_zero_or_pos n with h0 | h0
        · rw [h0]
        · have hne : n % P.c ≠ 0 := fun e => hnew ⟨h0, e⟩
          have e : n - 1 = P.c * (n / P.c) + (n % P.c - 1) := by omega
          rw [e, Nat.mul_add_div (by omega), Nat.div_eq_of_lt (show n % P.c - 1 < P.c by omega), Nat.add_zero]
      have hnseg : PedersenAcc.newSegment P { a with cached := x, bitsSupplied := m.length + 1 } = false := by
        unfold PedersenAcc.newSegment
        simp only [hn3, decide_eq_false_iff_not]
        rintro ⟨hh1, hh2⟩
        exact hnew ⟨by omega, hi1.1 hh2⟩
      rw [if_neg (by rw [hnseg]; simp)]
      have hle : n / P.c * P.c ≤ n := Nat.div_mul_le_self _ _
      have hdrop : (chunks (m ++ [b])).drop (n / P.c * P.c) = (chunks m).drop (n / P.c * P.c) ++ [x] := by
        rw [hch, List.drop_append_of_le_length (by omega)]
      have hsl : ((chunks m).drop (n / P.c * P.c)).length = n % P.c := by
        rw [List.length_drop, hcl]
        have : n / P.c * P.c = P.c * (n / P.c) := Nat.mul_comm _ _
        omega
      have hw := V.width
      have hpow : a.powTwo = 2 ^ (4 * (n % P.c)) := by
        rw [h.pow, hcurm, hsl, Nat.mod_eq_of_lt]
        exact Nat.pow_lt_pow_right (by omega) (by omega)
      refine ⟨hlen.symm, ?_, ?_, ?_, ?_, ?_⟩
      · simp only [PedersenAcc.updateCurrentSegment]; exact hempty.symm
      · simp only [PedersenAcc.updateCurrentSegment]
        rw [hcur, hdrop, List.length_append, hsl, hpow, ← Nat.pow_add, List.length_singleton, Nat.mul_add]
      · simp only [PedersenAcc.updateCurrentSegment]
        rw [hcur, hdrop, segmentScalar_append, hsl, h.segment, hcurm, henc, hpow]
        push_cast
        rfl
      · simp only [PedersenAcc.updateCurrentSegment]
        rw [h.point, hcur, hcurm]
      · simp only [PedersenAcc.updateCurrentSegment]
        rw [h.result]
        congr 1
        unfold finished
        rw [hcur, hcurm]
        apply Finset.sum_congr rfl
        intro j hj
        rw [hfin j]
        have : (j + 1) * P.c ≤ n / P.c * P.c :=
          Nat.mul_le_mul_right _ (by have := Finset.mem_range.1 hj; omega)
        omega
  · rw [if_neg (by omega)]
    have hch : chunks (m ++ [b]) = chunks m := by
      unfold chunks
      rw [blocks_snoc (by omega), if_neg h3]
    have hn : (m ++ [b]).length / 3 = m.length / 3 := by rw [hlen]; omega
    have hcur : current P.c (m ++ [b]) = current P.c m := by unfold current; rw [hn]
    refine ⟨hlen.symm, ?_, ?_, ?_, ?_, ?_⟩
    · simp only
      rw [hn, List.drop_append_of_le_length (by omega)]
    · rw [hcur, hch]; exact h.pow
    · rw [hcur, hch]; exact h.segment
    · rw [hcur]; exact h.point
    · simp only [h.result]
      unfold finished
      rw [hcur, hch]

/-- The message as `pad_update` completes it: three zero bits if it is empty. -/
def padded (m : List Bool) : List Bool :=
  if m = [] then [false, false, false] else pedersenPad m

/-- The term of the last, possibly unfinished segment. -/
def lastTerm (c : Nat) (base : Nat → G) (m : List Bool) : G :=
  segmentScalar (segment c (blocks 3 (padded m)) (segmentCount c (blocks 3 (padded m)) - 1)) •
    base (segmentCount c (blocks 3 (padded m)) - 1)

theorem length_padded (m : List Bool) :
    3 ∣ (padded m).length ∧ 0 < (padded m).length ∧ (padded m).length ≤ m.length + 3 := by
  unfold padded
  split
  · rename_i h; subst h; simp
  · rename_i h
    have h0 : 0 < m.length := List.length_pos_iff.2 h
    have h1 := fillTo_spec (B := 3) (by omega) m.length
    have h2 := fillTo_lt (B := 3) (by omega) m.length
    unfold pedersenPad
    simp only [List.length_append, List.length_replicate]
    exact ⟨h1, by omega, by omega⟩

theorem padded_padded (m : List Bool) : pedersenPad (padded m) = padded m := by
  have := (length_padded m).1
  unfold pedersenPad fillTo
  rw [Nat.mod_eq_zero_of_dvd this]
  simp

theorem PedersenRep.padLoop {P : PedersenParams G} (V : P.Valid) {a : PedersenAcc G P.r} {m : List Bool}
    {extra : G} (h : PedersenRep P a m extra) (h64 : m.length + 3 < 2 ^ 64)
    (hseg : SegBound P (m.length + 3)) (fuel : Nat) (hf : 3 ≤ fuel) :
    ∃ a', a.padLoop P fuel = some a' ∧ PedersenRep P a' (padded m) extra := by
  obtain ⟨f, rfl⟩ : ∃ f, fuel = f + 3 := ⟨fuel - 3, by omega⟩
  have stop : ∀ (k : Nat) (a : PedersenAcc G P.r) (m : List Bool), PedersenRep P a m extra →
      3 ∣ m.length → 0 < m.length → a.padLoop P k = some a := by
    intro k a m h h3 h0
    unfold PedersenAcc.padLoop
    rw [if_neg]
    rw [h.cached, h.bits]
    rintro (hh | hh)
    · apply hh
      rw [List.drop_eq_nil_iff]; omega
    · omega
  have go : ∀ (k : Nat) (a : PedersenAcc G P.r) (m : List Bool), PedersenRep P a m extra →
      m.length % 3 ≠ 0 ∨ m.length = 0 → a.padLoop P (k + 1) = (a.update P false).padLoop P k := by
    intro k a m h h3
    rw [PedersenAcc.padLoop, if_pos]
    rw [h.cached, h.bits]
    rcases h3 with hh | hh
    · left
      intro e
      rw [List.drop_eq_nil_iff] at e; omega
    · right; exact hh
  by_cases h0 : m = []
  · subst h0
    have h1 := h.update V false (by simp) (hseg.mono (by simp))
    have h2 := h1.update V false (by simp) (hseg.mono (by simp))
    have h3 := h2.update V false (by simp) (hseg.mono (by simp))
    refine ⟨_, ?_, h3⟩
    rw [go (f + 2) _ _ h (Or.inr rfl), go (f + 1) _ _ h1 (by simp), go f _ _ h2 (by simp),
      stop f _ _ h3 (by simp) (by simp)]
  · have hm0 : 0 < m.length := List.length_pos_iff.2 h0
    unfold padded
    rw [if_neg h0]
    unfold pedersenPad fillTo
    have hr : m.length % 3 = 0 ∨ m.length % 3 = 1 ∨ m.length % 3 = 2 := by omega
    rcases hr with e | e | e
    · rw [e]
      refine ⟨a, stop _ _ _ h (Nat.dvd_of_mod_eq_zero e) hm0, by simpa using h⟩
    · rw [e]
      have h1 := h.update V false (by omega) (hseg.mono (by omega))
      have h2 := h1.update V false (by simp; omega) (hseg.mono (by simp))
      refine ⟨_, ?_, by simpa using h2⟩
      rw [go (f + 2) _ _ h (by omega), go (f + 1) _ _ h1 (by simp; omega),
        stop (f + 1) _ _ h2 (by simp; omega) (by simp)]
    · rw [e]
      have h1 := h.update V false (by omega) (hseg.mono (by omega))
      refine ⟨_, ?_, by simpa using h1⟩
      rw [go (f + 2) _ _ h (by omega), stop (f + 2) _ _ h1 (by simp; omega) (by simp)]

/-- Extraction: the point of everything fed so far plus what earlier extractions left; the accumulator now
holds the padded message and counts the last segment once more. -/
theorem PedersenRep.process {P : PedersenParams G} (V : P.Valid) {a : PedersenAcc G P.r} {m : List Bool}
    {extra : G} (h : PedersenRep P a m extra) (h64 : m.length + 3 < 2 ^ 64)
    (hseg : SegBound P (m.length + 3)) (fuel : Nat) (hf : 3 ≤ fuel) :
    ∃ a', a.process P fuel = some (a', Spec.pedersen P.c P.base (padded m) + extra) ∧
      PedersenRep P a' (padded m) (extra + lastTerm P.c P.base m) := by
  obtain ⟨a', e, h'⟩ := h.padLoop V h64 hseg fuel hf
  have hc := V.c
  obtain ⟨p1, p2, -⟩ := length_padded m
  have hcl : (blocks 3 (padded m)).length = (padded m).length / 3 := length_blocks 3 _
  have hcount : segmentCount P.c (blocks 3 (padded m)) = current P.c (padded m) + 1 := by
    unfold segmentCount current
    rw [hcl, show (padded m).length / 3 + P.c - 1 = (padded m).length / 3 - 1 + P.c by omega,
      Nat.add_div_right _ (by omega)]
  have hterm : a'.segment.val • a'.point = lastTerm P.c P.base m := by
    rw [h'.point, val_smul V.r (V.order _) _ _ h'.segment]
    unfold lastTerm
    rw [hcount, Nat.add_sub_cancel]
    congr 2
    unfold Spec.segment chunks
    rw [List.take_of_length_le]
    rw [List.length_drop, hcl]
    unfold current
    have := Nat.lt_div_mul_add (a := (padded m).length / 3 - 1) (show 0 < P.c by omega)
    omega
  have hres : (a'.updateResult P).result = finished P (padded m) + extra + lastTerm P.c P.base m := by
    unfold PedersenAcc.updateResult
    simp only
    rw [hterm, h'.result]
  refine ⟨a'.updateResult P, ?_, ⟨h'.bits, h'.cached, h'.pow, h'.segment, h'.point, ?_⟩⟩
  · unfold PedersenAcc.process PedersenAcc.padUpdate
    rw [e]
    simp only [Option.map_some, Option.some.injEq, Prod.mk.injEq, true_and]
    rw [hres]
    unfold Spec.pedersen
    rw [padded_padded, hcount, Finset.sum_range_succ]
    unfold finished lastTerm chunks
    rw [hcount, Nat.add_sub_cancel]
    abel
  · rw [hres, add_assoc]

theorem PedersenRep.feed {P : PedersenParams G} (V : P.Valid) (x : List Bool) : ∀ {a : PedersenAcc G P.r}
    {m : List Bool} {extra : G}, PedersenRep P a m extra → m.length + x.length < 2 ^ 64 →
    SegBound P (m.length + x.length) →
    PedersenRep P (x.foldl (PedersenAcc.update P) a) (m ++ x) extra := by
  induction x with
  | nil => intro a m extra h _ _; simpa using h
  | cons b x ih =>
    intro a m extra h h1 h2
    simp only [List.length_cons] at h1 h2
    have := ih (h.update V b (by omega) (h2.mono (by omega))) (by simp; omega) (h2.mono (by simp; omega))
    simpa using this

/-- Bits that a call adds at most. -/
def PedersenOp.cost : PedersenOp → Nat
  | .range x => x.length
  | .iterators x => x.length
  | .extract => 3

/-- What the extractions of a program return. -/
def pedersenOutputs (c : Nat) (base : Nat → G) : List Bool → G → List PedersenOp → List G
  | _, _, [] => []
  | m, extra, .range x :: ops => pedersenOutputs c base (m ++ x) extra ops
  | m, extra, .iterators x :: ops => pedersenOutputs c base (m ++ x) extra ops
  | m, extra, .extract :: ops => (Spec.pedersen c base (padded m) + extra) ::
      pedersenOutputs c base (padded m) (extra + lastTerm c base m) ops

theorem PedersenRep.run {P : PedersenParams G} (V : P.Valid) (fuel : Nat) (hf : 3 ≤ fuel)
    (ops : List PedersenOp) : ∀ {a : PedersenAcc G P.r} {m : List Bool} {extra : G} (out : List G),
    PedersenRep P a m extra → m.length + (ops.map PedersenOp.cost).sum < 2 ^ 64 →
    SegBound P (m.length + (ops.map PedersenOp.cost).sum) →
    ∃ a', a.run P fuel out ops = some (a', out ++ pedersenOutputs P.c P.base m extra ops) := by
  induction ops with
  | nil => intro a m extra out _ _ _; exact ⟨a, by simp [PedersenAcc.run, pedersenOutputs]⟩
  | cons op ops ih =>
    intro a m extra out h h1 h2
    simp only [List.map_cons, List.sum_cons] at h1 h2
    cases op with
    | range x =>
      simp only [PedersenOp.cost] at h1 h2
      obtain ⟨a', e⟩ := ih out (h.feed V x (by omega) (h2.mono (by omega))) (by simp; omega)
        (h2.mono (by simp; omega))
      exact ⟨a', by simpa [PedersenAcc.run, PedersenAcc.call, pedersenOutputs] using e⟩
    | iterators x =>
      simp only [PedersenOp.cost] at h1 h2
      obtain ⟨a', e⟩ := ih out (h.feed V x (by omega) (h2.mono (by omega))) (by simp; omega)
        (h2.mono (by simp; omega))
      exact ⟨a', by simpa [PedersenAcc.run, PedersenAcc.call, pedersenOutputs] using e⟩
    | extract =>
      simp only [PedersenOp.cost] at h1 h2
      obtain ⟨a1, e1, r1⟩ := h.process V (by omega) (h2.mono (by omega)) fuel hf
      have hl := (length_padded m).2.2
      obtain ⟨a', e⟩ := ih (out ++ [Spec.pedersen P.c P.base (padded m) + extra]) r1 (by omega)
        (h2.mono (by omega))
      refine ⟨a', ?_⟩
      simp only [PedersenAcc.run, PedersenAcc.call, e1, Option.map_some, Option.bind_some]
      rw [e]
      simp [pedersenOutputs]

end Verif
