import Verif.Spec.Lossy
import Verif.Proof.WordOps
import Verif.Proof.AtDigest
/- Programs that lose blocks. -/
namespace Verif

open Spec

variable {σ δ : Type} {C : Construction σ δ}

theorem without_nil {α : Type} (xs : List α) : without [] xs = xs := by
  unfold without
  rw [List.filter_eq_self.2 (by simp), List.zipIdx_map_fst]

theorem without_append {α : Type} (lost : List Nat) (xs ys : List α) (h : ∀ i ∈ lost, i < xs.length) :
    without lost (xs ++ ys) = without lost xs ++ ys := by
  unfold without
  rw [List.zipIdx_append, List.filter_append, List.map_append]
  congr 1
  rw [List.filter_eq_self.2, List.zipIdx_map_fst]
  intro p hp
  have := List.le_snd_of_mem_zipIdx hp
  simp only [Bool.not_eq_true', List.contains_eq_mem, decide_eq_false_iff_not]
  intro hm
  have := h _ hm
  omega

theorem without_snoc {α : Type} (lost : List Nat) (xs : List α) (x : α) :
    without lost (xs ++ [x]) = without lost xs ++ if xs.length ∈ lost then [] else [x] := by
  unfold without
  rw [List.zipIdx_append, List.filter_append, List.map_append]
  congr 1
  by_cases h : xs.length ∈ lost <;> simp [h]

/-- The construction that leaves out the blocks `lost`. -/
def Construction.skip (C : Construction σ δ) (lost : List Nat) : Construction σ δ :=
  { C with processBlock := fun s b t => if t / C.blockBits - 1 ∈ lost then s else C.processBlock s b t }

theorem skip_processBlock {lost : List Nat} {t : Nat} (h : t / C.blockBits - 1 ∉ lost) (s : σ) (b : Bits) :
    (C.skip lost).processBlock s b t = C.processBlock s b t := if_neg h

/-- Appending does not touch a lost block. -/
theorem append_skip (J : Injector) {lost : List Nat} {a : Acc σ} {v : Bits} {n : Nat}
    (h : wrap64 (a.total + (C.blockBits - a.total % C.blockBits)) / C.blockBits - 1 ∉ lost) :
    a.append (C.skip lost) J v n = a.append C J v n := by
  unfold Acc.append
  show (do
    let cached := a.total % C.blockBits
    let needed := C.blockBits - cached
    let new := if needed > n then n else needed
    let cache ← J.run v new a.cache cached 0
    let total := wrap64 (a.total + new)
    if cached + new = C.blockBits then
      if n > new then
        let st := (C.skip lost).processBlock a.st cache total
        let cache ← J.run v (n - new) cache 0 new
        return { filled := false, total := wrap64 (total + (n - new)), cache := cache, st := st : Acc σ }
      else
        return { filled := true, total := total, cache := cache, st := a.st }
    else
      return { filled := a.filled, total := total, cache := cache, st := a.st }) = _
  by_cases hn : C.blockBits - a.total % C.blockBits > n
  · simp only [if_pos hn]
    have hne : ¬ a.total % C.blockBits + n = C.blockBits := by omega
    simp only [if_neg hne]
  · simp only [if_neg hn, skip_processBlock h]

theorem processBlockValue_congr (J : Injector) {C' : Construction σ δ} (hB : C'.blockBits = C.blockBits)
    (hw : C'.wordBits = C.wordBits) {a a' : Acc σ} (hf : a'.flush C' = a.flush C) {v : Bits} {n : Nat}
    (h : (a.flush C).append C' J v n = (a.flush C).append C J v n) :
    a'.processBlockValue C' J v n = a.processBlockValue C J v n := by
  unfold Acc.processBlockValue
  rw [hf]
  simp only [h, hB, hw]

theorem processWordValue_congr (J : Injector) {C' : Construction σ δ} (hB : C'.blockBits = C.blockBits)
    (hw : C'.wordBits = C.wordBits) {a a' : Acc σ} (hf : a'.flush C' = a.flush C) {v : Bits} {n : Nat}
    (h : (a.flush C).append C' J v n = (a.flush C).append C J v n) :
    a'.processWordValue C' J v n = a.processWordValue C J v n := by
  unfold Acc.processWordValue
  rw [hf]
  simp only [h, hB, hw]

theorem flush_filled (a : Acc σ) : (a.flush C).filled = false := by
  unfold Acc.flush
  by_cases h : a.filled = true
  · rw [if_pos h]
  · rw [if_neg h]; simpa using h

/-- `a` represents `m`, the blocks `lost` left out; all of them are followed by more data. -/
structure Settled (C : Construction σ δ) (lost : List Nat) (a : Acc σ) (m : Bits) : Prop where
  before : ∀ i ∈ lost, (i + 1) * C.blockBits < m.length
  rep : Rep (C.skip lost) a m

/-- As far as further pushes are concerned. -/
structure Ready (C : Construction σ δ) (lost : List Nat) (a : Acc σ) (m : Bits) : Prop where
  before : ∀ i ∈ lost, (i + 1) * C.blockBits ≤ m.length
  rep : ∃ a', Rep (C.skip lost) a' m ∧ a'.flush (C.skip lost) = a.flush C

/-- The last block is complete but not marked as such. -/
structure Loose (C : Construction σ δ) (lost : List Nat) (a : Acc σ) (m : Bits) : Prop where
  before : ∀ i ∈ lost, (i + 1) * C.blockBits < m.length
  rep : RepEnd (C.skip lost) a m
  notFilled : a.filled = false
  pos : 0 < m.length
  full : m.length % C.blockBits = 0

theorem Settled.ready {lost : List Nat} {a : Acc σ} {m : Bits} (h : Settled C lost a m)
    (hB : 0 < C.blockBits) (hlt : m.length < 2 ^ 64) : Ready C lost a m := by
  refine ⟨fun i hi => Nat.le_of_lt (h.before i hi), a, h.rep, ?_⟩
  unfold Acc.flush
  by_cases hf : a.filled = true
  · rw [if_pos hf, if_pos hf, skip_processBlock]
    intro hm
    have := h.before _ hm
    obtain ⟨q, _, _, _, h4, _⟩ := h.rep.core
    have hl : m.length = q * C.blockBits + C.blockBits := h4.1 hf
    have ht : a.total = m.length := by rw [h.rep.total, wrap64_of_lt hlt]
    rw [ht, show m.length / C.blockBits = q + 1 by
      rw [hl, ← Nat.succ_mul, Nat.mul_div_cancel _ hB], Nat.add_sub_cancel, Nat.add_mul] at this
    omega
  · rw [if_neg hf, if_neg hf]

theorem absorbed_congr {C' : Construction σ δ} {C : Construction σ δ} (hB : C'.blockBits = C.blockBits)
    (hi : C'.init = C.init) (m : Bits) : ∀ q, (∀ i < q, ∀ s b,
      C'.processBlock s b (wrap64 ((i + 1) * C.blockBits)) = C.processBlock s b (wrap64 ((i + 1) * C.blockBits))) →
      absorbed C' m q = absorbed C m q := by
  intro q
  induction q with
  | zero => intro _; exact hi
  | succ q ih =>
    intro h
    simp only [absorbed]
    rw [ih (fun i hi => h i (by omega)), hB, h q (by omega)]

/-- More data after a loose block: the block is lost. -/
theorem Loose.ready {lost : List Nat} {a : Acc σ} {m : Bits} (h : Loose C lost a m)
    (hB : 0 < C.blockBits) (hlt : m.length < 2 ^ 64) :
    Ready C (lost ++ [m.length / C.blockBits - 1]) a m := by
  obtain ⟨c, hc⟩ := Nat.dvd_of_mod_eq_zero h.full
  have hc0 : 0 < c := by
    rcases Nat.eq_zero_or_pos c with rfl | h0
    · have := h.pos; rw [Nat.mul_zero] at hc; omega
    · exact h0
  obtain ⟨j, rfl⟩ : ∃ j, c = j + 1 := ⟨c - 1, by omega⟩
  have hl : m.length = (j + 1) * C.blockBits := by rw [hc, Nat.mul_comm]
  have hj : m.length / C.blockBits - 1 = j := by
    rw [hl, Nat.mul_div_cancel _ hB, Nat.add_sub_cancel]
  rw [hj]
  have ht : a.total = m.length := by rw [h.rep.total, wrap64_of_lt hlt]
  refine ⟨?_, { a with filled := true }, ?_, ?_⟩
  · intro i hi
    rcases List.mem_append.1 hi with hi | hi
    · exact Nat.le_of_lt (h.before i hi)
    · rw [List.mem_singleton.1 hi, hl]; exact Nat.le_refl _
  · obtain ⟨q, h1, h2, h3, h5, h6⟩ := h.rep.core
    replace h1 : q * C.blockBits ≤ m.length := h1
    replace h2 : m.length ≤ q * C.blockBits + C.blockBits := h2
    replace h3 : q = 0 ∨ q * C.blockBits < m.length := h3
    have hq : q = j := by
      have a1 : q < j + 1 := by
        rcases h3 with rfl | h3
        · omega
        · rw [hl] at h3; exact Nat.lt_of_mul_lt_mul_right h3
      have a2 : j + 1 ≤ q + 1 := by
        have : (j + 1) * C.blockBits ≤ (q + 1) * C.blockBits := by rw [Nat.add_mul q, Nat.one_mul]; omega
        exact Nat.le_of_mul_le_mul_right this hB
      omega
    subst hq
    refine ⟨h.rep.cache_len, h.rep.total, Or.inl hlt, q, h1, h2, h3, ?_, ?_, h6⟩
    · simp only [true_iff]; show m.length = q * C.blockBits + C.blockBits
      rw [hl, Nat.add_mul]; omega
    · rw [show ({ a with filled := true } : Acc σ).st = a.st from rfl, h5]
      refine absorbed_congr (C' := C.skip lost) (C := C.skip (lost ++ [q])) rfl rfl m q ?_
      intro i hi s b
      show (C.skip lost).processBlock s b (wrap64 ((i + 1) * C.blockBits)) =
        (C.skip (lost ++ [q])).processBlock s b (wrap64 ((i + 1) * C.blockBits))
      have hle : (i + 1) * C.blockBits ≤ q * C.blockBits := Nat.mul_le_mul_right _ hi
      rw [wrap64_of_lt (by omega)]
      have e : (i + 1) * C.blockBits / C.blockBits - 1 = i := by
        rw [Nat.mul_div_cancel _ hB, Nat.add_sub_cancel]
      show (if (i + 1) * C.blockBits / C.blockBits - 1 ∈ lost then s else _) =
        (if (i + 1) * C.blockBits / C.blockBits - 1 ∈ lost ++ [q] then s else _)
      rw [e]
      have hiff : i ∈ lost ++ [q] ↔ i ∈ lost := by
        rw [List.mem_append, List.mem_singleton]
        constructor
        · rintro (h | h)
          · exact h
          · omega
        · exact Or.inl
      simp only [hiff]
  · have e1 : a.flush C = a := by
      unfold Acc.flush
      rw [if_neg (by rw [h.notFilled]; simp)]
    rw [e1]
    unfold Acc.flush
    rw [if_pos rfl]
    show ({ a with st := if a.total / C.blockBits - 1 ∈ lost ++ [j] then a.st else _, filled := false } : Acc σ) = a
    rw [if_pos (by rw [ht, hj]; simp)]
    cases a
    simp only [Acc.mk.injEq, and_true, true_and]
    exact h.notFilled.symm

/-- No lost block is touched by an append. -/
theorem Ready.notLost {lost : List Nat} {a : Acc σ} {m : Bits} (h : Ready C lost a m)
    (hB : 0 < C.blockBits) (n : Nat) (h0 : 0 < n) (hlt : m.length + n < 2 ^ 64) (J : Injector) (v : Bits)
    (hn : n ≤ C.blockBits) :
    (a.flush C).append (C.skip lost) J v n = (a.flush C).append C J v n := by
  obtain ⟨a', r, e⟩ := h.rep
  have hf := r.flush hB
  rw [e] at hf
  have ht : (a.flush C).total = m.length := by rw [hf.total, wrap64_of_lt (by omega)]
  by_cases hfit : C.blockBits - m.length % C.blockBits > n
  · -- no block is processed
    unfold Acc.append
    have hne : ¬ m.length % C.blockBits + n = C.blockBits := by omega
    show (do
      let cached := (a.flush C).total % C.blockBits
      let needed := C.blockBits - cached
      let new := if needed > n then n else needed
      let cache ← J.run v new (a.flush C).cache cached 0
      let total := wrap64 ((a.flush C).total + new)
      if cached + new = C.blockBits then
        if n > new then
          let st := (C.skip lost).processBlock (a.flush C).st cache total
          let cache ← J.run v (n - new) cache 0 new
          return { filled := false, total := wrap64 (total + (n - new)), cache := cache, st := st : Acc σ }
        else
          return { filled := true, total := total, cache := cache, st := (a.flush C).st }
      else
        return { filled := (a.flush C).filled, total := total, cache := cache, st := (a.flush C).st }) = _
    simp only [ht, if_pos hfit, if_neg hne]
  · apply append_skip
    rw [ht]
    have hmod := Nat.mod_lt m.length hB
    rw [wrap64_of_lt (by omega)]
    intro hm
    have := h.before _ hm
    have hd := Nat.div_add_mod m.length C.blockBits
    have e2 : m.length + (C.blockBits - m.length % C.blockBits) = (m.length / C.blockBits + 1) * C.blockBits := by
      rw [Nat.add_mul, Nat.mul_comm (m.length / C.blockBits)]; omega
    rw [e2, Nat.mul_div_cancel _ hB, Nat.add_sub_cancel, Nat.add_mul,
      Nat.mul_comm (m.length / C.blockBits)] at this
    omega

/-- `acc(block, bits = n)`. -/
theorem Ready.pushBlock {lost : List Nat} {a : Acc σ} {m value : Bits} {bits : Nat}
    (h : Ready C lost a m) (J : Injector) (hw : 0 < C.wordBits) (hwB : C.wordBits ∣ C.blockBits)
    (h0 : 0 < bits) (hs : bits ≤ C.blockBits) (hv : value.length = C.blockBits)
    (hlt : m.length + bits < 2 ^ 64) :
    ∃ a', a.pushBlock C J value bits = .ok a' ∧ Settled C lost a' (m ++ value.take bits) := by
  have hB : 0 < C.blockBits := by omega
  obtain ⟨b, r, e⟩ := h.rep
  obtain ⟨a', e1, r1⟩ := r.pushBlock (C := C.skip lost) (J := J) hw hwB h0 hs hv (Or.inl hlt)
  refine ⟨a', ?_, ?_, r1⟩
  · rw [← e1]
    unfold Acc.pushBlock
    rw [if_neg (by omega), if_neg (by omega)]
    exact (processBlockValue_congr (C := C) (C' := C.skip lost) J rfl rfl e (h.notLost hB bits h0 hlt J value hs)).symm
  · intro i hi
    have := h.before i hi
    rw [List.length_append, List.length_take]; omega

/-- `acc(word, bits = n)`. -/
theorem Ready.pushWord {lost : List Nat} {a : Acc σ} {m value : Bits} {bits : Nat}
    (h : Ready C lost a m) (J : Injector) (hB : 0 < C.blockBits) (hw : 0 < C.wordBits)
    (hwB : C.wordBits ∣ C.blockBits) (hv : value.length = C.wordBits) (hb : bits ≤ C.wordBits)
    (hlt : m.length + announced C.wordBits bits < 2 ^ 64) :
    ∃ a', a.pushWord C J value bits = .ok a' ∧
      (if m.length % C.wordBits = 0 ∧ (m.length + announced C.wordBits bits) % C.blockBits = 0
        then Loose C lost a' (m ++ value.take (announced C.wordBits bits))
        else Settled C lost a' (m ++ value.take (announced C.wordBits bits))) := by
  obtain ⟨b, r, e⟩ := h.rep
  have hpos : 0 < announced C.wordBits bits := by unfold announced; split <;> omega
  have hle : announced C.wordBits bits ≤ C.wordBits := by unfold announced; split <;> omega
  have hleB : announced C.wordBits bits ≤ C.blockBits := Nat.le_trans hle (Nat.le_of_dvd hB hwB)
  obtain ⟨a', e1, rE, rR⟩ := r.pushWord' (C := C.skip lost) (J := J) (bits := bits) hB hw hwB hv hb (Or.inl hlt)
  have hbefore : ∀ i ∈ lost,
      (i + 1) * C.blockBits < (m ++ value.take (announced C.wordBits bits)).length := by
    intro i hi
    have := h.before i hi
    rw [List.length_append, List.length_take]; omega
  have e2 : a.pushWord C J value bits = .ok a' := by
    rw [← e1]
    unfold Acc.pushWord
    exact (processWordValue_congr (C := C) (C' := C.skip lost) J rfl rfl e (h.notLost hB _ hpos hlt J value hleB)).symm
  refine ⟨a', e2, ?_⟩
  split
  case isFalse hc => exact ⟨hbefore, rR hc⟩
  case isTrue hc =>
    refine ⟨hbefore, rE, ?_, by rw [List.length_append, List.length_take]; omega, ?_⟩
    · -- the word is copied; the flag stays false
      have hf := r.flush hB
      rw [e] at hf
      have ht : (a.flush C).total = m.length := by rw [hf.total, wrap64_of_lt (by omega)]
      unfold Acc.pushWord Acc.processWordValue at e2
      simp only [ht, Nat.mod_mod_of_dvd _ hwB, ne_eq, hc.1, not_true_eq_false, if_false] at e2
      split at e2
      · injection e2 with e2
        rw [← e2]
        exact flush_filled a
      · exact absurd e2 (by simp)
    · rw [List.length_append, List.length_take, hv, Nat.min_eq_left hle]; exact hc.2

/-- A range. -/
theorem Ready.feed {lost : List Nat} {a : Acc σ} {m : Bits} {α : Type} {E : Elem α}
    (h : Ready C lost a m) (J : Injector) (hw : 0 < C.wordBits) (hwB : C.wordBits ∣ C.blockBits)
    (S : Sizes C.blockBits E) (k : RangeKind) (cache0 xs : List α)
    (hc : cache0.length = C.blockBits / E.valueBits)
    (hlt : (m ++ xs.flatMap E.view).length < 2 ^ 64) :
    ∃ a', a.feed C J E k cache0 xs = .ok a' ∧
      ((a' = a ∧ xs.flatMap E.view = []) ∨ Settled C lost a' (m ++ xs.flatMap E.view)) := by
  have P : Pushes (fun a v n => Acc.pushBlock C J a v n) C.blockBits (fun n => n < 2 ^ 64)
      (fun a' m' => (a' = a ∧ m' = m) ∨ Settled C lost a' m') := by
    refine ⟨fun h h' => Nat.lt_of_le_of_lt h' h, ?_⟩
    intro b m' value bits hR h0 hs hv hlen
    have hr : Ready C lost b m' := by
      rcases hR with ⟨rfl, rfl⟩ | hS
      · exact h
      · exact hS.ready S.block (by omega)
    obtain ⟨a', e, r⟩ := hr.pushBlock J hw hwB h0 hs hv hlen
    exact ⟨a', e, Or.inr r⟩
  obtain ⟨a', e, r⟩ := feedSet_rep P S (Or.inl ⟨rfl, rfl⟩) k cache0 xs hc hlt
  refine ⟨a', e, ?_⟩
  rcases r with ⟨r1, r2⟩ | r
  · exact Or.inl ⟨r1, List.append_cancel_left (r2.trans (List.append_nil m).symm)⟩
  · exact Or.inr r

/-- The state between operations. -/
def Fed.Holds (C : Construction σ δ) (s : Fed) (a : Acc σ) : Prop :=
  if s.loose then Loose C s.lost a s.m else Settled C s.lost a s.m

theorem Fed.Holds.before {s : Fed} {a : Acc σ} (h : s.Holds C a) :
    ∀ i ∈ s.lost, (i + 1) * C.blockBits < s.m.length := by
  unfold Fed.Holds at h
  split at h
  · exact h.before
  · exact h.before

theorem Fed.Holds.rep {s : Fed} {a : Acc σ} (h : s.Holds C a) : RepEnd (C.skip s.lost) a s.m := by
  unfold Fed.Holds at h
  split at h
  · exact h.rep
  · exact h.rep.toEnd

theorem Fed.Holds.ready {s : Fed} {a : Acc σ} (h : s.Holds C a) (hB : 0 < C.blockBits)
    (hlt : s.m.length < 2 ^ 64) :
    Ready C (s.lost ++ if s.loose then [s.m.length / C.blockBits - 1] else []) a s.m := by
  unfold Fed.Holds at h
  split at h
  case isTrue hl => rw [if_pos hl]; exact h.ready hB hlt
  case isFalse hl => rw [if_neg hl, List.append_nil]; exact h.ready hB hlt

/-- A construction that computes `H lost m` when the blocks `lost` of `m` have been left out. -/
structure LossyVerified (C : Construction σ δ) (Good : Bits → Prop) (H : List Nat → Bits → δ) : Prop where
  block : 0 < C.blockBits
  word : 0 < C.wordBits
  wordBlock : C.wordBits ∣ C.blockBits
  computes : ∀ lost a m, (∀ i ∈ lost, (i + 1) * C.blockBits < m.length) → Rep (C.skip lost) a m →
    m.length < 2 ^ 64 → Good m → a.result C = .ok (H lost m)

variable {Good : Bits → Prop} {H : List Nat → Bits → δ}

theorem LossyVerified.result (V : LossyVerified C Good H) {s : Fed} {a : Acc σ} (h : s.Holds C a)
    (hlt : s.m.length < 2 ^ 64) (hg : Good s.m) : a.result C = .ok (H s.lost s.m) := by
  obtain ⟨a', r, e⟩ := h.rep.result
  rw [show a.result C = a.result (C.skip s.lost) from rfl, e]
  exact V.computes s.lost a' s.m h.before r hlt hg

theorem step_m (B w : Nat) (s : Fed) (op : WOp) : (s.step B w op).m = s.m ++ op.stream B w := by
  unfold Fed.step
  by_cases hx : op.stream B w = []
  · simp [hx]
  · simp [hx]

theorem steps_m (B w : Nat) (ops : List WOp) : ∀ s : Fed, (s.steps B w ops).m = s.m ++ wstreamOf B w ops := by
  induction ops with
  | nil => intro s; simp [Fed.steps, wstreamOf]
  | cons op ops ih =>
    intro s
    show ((s.step B w op).steps B w ops).m = _
    rw [ih, step_m, wstreamOf_cons, List.append_assoc]

/-- One update. -/
theorem LossyVerified.step (V : LossyVerified C Good H) (J : Injector) {s : Fed} {a : Acc σ}
    (h : s.Holds C a) (op : WOp) (hne : op ≠ .op .extract) (hwt : op.WellTyped C.blockBits C.wordBits)
    (hlt : (s.m ++ op.stream C.blockBits C.wordBits).length < 2 ^ 64) :
    ∃ a', (∀ out, op.run C J a out = .ok (a', out)) ∧
      (s.step C.blockBits C.wordBits op).Holds C a' := by
  have hr := h.ready V.block (Nat.lt_of_le_of_lt (by simp) hlt)
  have hset : ∀ a', op.isWord = false → op.stream C.blockBits C.wordBits ≠ [] →
      Settled C (s.lost ++ if s.loose then [s.m.length / C.blockBits - 1] else []) a'
        (s.m ++ op.stream C.blockBits C.wordBits) → (s.step C.blockBits C.wordBits op).Holds C a' := by
    intro a' hw hx hS
    have e : s.step C.blockBits C.wordBits op = ⟨s.m ++ op.stream C.blockBits C.wordBits, false,
        s.lost ++ if s.loose then [s.m.length / C.blockBits - 1] else []⟩ := by
      unfold Fed.step
      simp [hx, hw]
    rw [e]
    exact hS
  cases op with
  | op o =>
    cases o with
    | extract => exact absurd rfl hne
    | feed E k cache0 xs =>
      obtain ⟨h1, h2, h3⟩ := hwt
      obtain ⟨a', e, r⟩ := hr.feed J V.word V.wordBlock ⟨V.block, h1, h2⟩ k cache0 xs h3 hlt
      refine ⟨a', fun out => by simp only [WOp.run, Op.run]; rw [e]; rfl, ?_⟩
      by_cases hx : xs.flatMap E.view = []
      · have es : s.step C.blockBits C.wordBits (.op (.feed E k cache0 xs)) = s := by
          unfold Fed.step
          exact if_pos hx
        rw [es]
        rcases r with ⟨rfl, _⟩ | r
        · exact h
        · -- an empty range leaves the accumulator as it is
          have hnil : xs = [] := by
            cases xs with
            | nil => rfl
            | cons y ys =>
              exfalso
              have := congrArg List.length hx
              rw [List.flatMap_cons, List.length_append, E.length_view, List.length_nil] at this
              omega
          subst hnil
          have ea : a.feed C J E k cache0 [] = .ok a := by cases k <;> rfl
          rw [ea] at e
          injection e with e
          rw [← e]; exact h
      · rcases r with ⟨_, r⟩ | r
        · exact absurd r hx
        · exact hset a' rfl hx r
    | block value bits =>
      obtain ⟨h1, h2⟩ := hwt
      have hB := V.block
      have e0 : ∀ a : Acc σ, a.pushBlock C J value bits =
          a.pushBlock C J value (if bits = 0 then C.blockBits else bits) := by
        intro a
        unfold Acc.pushBlock
        by_cases h0 : bits = 0
        · simp only [if_pos h0, if_neg (show ¬ C.blockBits = 0 by omega)]
        · simp only [if_neg h0]
      have hpos : 0 < (if bits = 0 then C.blockBits else bits) := by split <;> omega
      have hle : (if bits = 0 then C.blockBits else bits) ≤ C.blockBits := by split <;> omega
      have hlt' : s.m.length + (if bits = 0 then C.blockBits else bits) < 2 ^ 64 := by
        simp only [WOp.stream, Op.stream, List.length_append, List.length_take, h1] at hlt
        omega
      obtain ⟨a', e, r⟩ := hr.pushBlock J V.word V.wordBlock hpos hle h1 hlt'
      refine ⟨a', fun out => by simp only [WOp.run, Op.run]; rw [e0, e]; rfl, ?_⟩
      refine hset a' rfl ?_ r
      intro hh
      have := congrArg List.length hh
      simp only [WOp.stream, Op.stream, List.length_take, h1, List.length_nil] at this
      omega
  | word value bits =>
    obtain ⟨h1, h2⟩ := hwt
    have hl : (value.take (announced C.wordBits bits)).length = announced C.wordBits bits := by
      rw [List.length_take, h1]; unfold announced; split <;> omega
    have hpos : 0 < announced C.wordBits bits := by
      have := V.word
      unfold announced; split <;> omega
    have hlt' : s.m.length + announced C.wordBits bits < 2 ^ 64 := by
      simp only [WOp.stream, List.length_append, hl] at hlt; exact hlt
    obtain ⟨a', e, r⟩ := hr.pushWord J V.block V.word V.wordBlock h1 h2 hlt'
    refine ⟨a', fun out => by simp only [WOp.run]; rw [e]; rfl, ?_⟩
    have hx : value.take (announced C.wordBits bits) ≠ [] := by
      intro hh; rw [hh] at hl; simp at hl; omega
    have es : s.step C.blockBits C.wordBits (.word value bits) =
        ⟨s.m ++ value.take (announced C.wordBits bits),
          decide (s.m.length % C.wordBits = 0 ∧ (s.m.length + announced C.wordBits bits) % C.blockBits = 0),
          s.lost ++ if s.loose then [s.m.length / C.blockBits - 1] else []⟩ := by
      unfold Fed.step
      refine (if_neg hx).trans ?_
      simp only [WOp.stream, WOp.isWord, Bool.true_and, List.length_append, hl, Bool.decide_and]
      rfl
    rw [es]
    unfold Fed.Holds
    simp only [decide_eq_true_eq]
    exact r

/-- A whole program. -/
theorem LossyVerified.run (V : LossyVerified C Good H) (J : Injector) (ops : List WOp) :
    ∀ {a : Acc σ} {s : Fed} {out : List δ}, s.Holds C a →
      (∀ op ∈ ops, op.WellTyped C.blockBits C.wordBits) →
      (s.m ++ wstreamOf C.blockBits C.wordBits ops).length < 2 ^ 64 →
      WGoodExtracts C.blockBits C.wordBits Good s.m ops →
      ∃ a', runWOps C J a out ops =
          .ok (a', out ++ lossyOutputs C.blockBits C.wordBits H s ops) ∧
        (s.steps C.blockBits C.wordBits ops).Holds C a' := by
  induction ops with
  | nil =>
    intro a s out h _ _ _
    exact ⟨a, by simp [runWOps, lossyOutputs], h⟩
  | cons op ops ih =>
    intro a s out h hwt hlt hg
    have hwts : ∀ o ∈ ops, o.WellTyped C.blockBits C.wordBits := fun o ho => hwt o (by simp [ho])
    rw [wstreamOf_cons, ← List.append_assoc] at hlt
    by_cases hne : op = .op .extract
    · subst hne
      simp only [WOp.stream, Op.stream, List.append_nil] at hlt
      have es : s.step C.blockBits C.wordBits (.op .extract) = s := by
        simp [Fed.step, WOp.stream, Op.stream]
      have hd := V.result h (Nat.lt_of_le_of_lt (by simp) hlt) hg.1
      obtain ⟨a', e, r⟩ := ih (out := out ++ [H s.lost s.m]) h hwts hlt hg.2
      refine ⟨a', ?_, ?_⟩
      · simp only [runWOps, WOp.run, Op.run]
        rw [hd]
        refine Eq.trans ?_ (e.trans ?_)
        · rfl
        · simp [lossyOutputs]
      · show ((s.step C.blockBits C.wordBits (.op .extract)).steps C.blockBits C.wordBits ops).Holds C a'
        rw [es]; exact r
    · obtain ⟨a1, e1, r1⟩ := V.step J h op hne (hwt op (by simp)) (Nat.lt_of_le_of_lt (by simp) hlt)
      have hx : WGoodExtracts C.blockBits C.wordBits Good (s.m ++ op.stream C.blockBits C.wordBits) ops ∧
          lossyOutputs C.blockBits C.wordBits H s (op :: ops) =
            lossyOutputs C.blockBits C.wordBits H (s.step C.blockBits C.wordBits op) ops := by
        cases op with
        | word v n => exact ⟨hg, rfl⟩
        | op o =>
          cases o with
          | extract => exact absurd rfl hne
          | feed => exact ⟨hg, rfl⟩
          | block => exact ⟨hg, rfl⟩
      obtain ⟨a', e, r⟩ := ih (out := out) r1 hwts (by rw [step_m]; exact hlt) (by rw [step_m]; exact hx.1)
      refine ⟨a', ?_, r⟩
      simp only [runWOps]
      rw [e1, hx.2]
      exact e

theorem LossyVerified.start (V : LossyVerified C Good H) (garbage : Bits)
    (hgb : garbage.length = C.blockBits) : Fed.start.Holds C (Acc.init C garbage) :=
  ⟨fun i hi => absurd hi (by simp [Fed.start]), Rep.init (C.skip []) garbage V.block hgb⟩

/-- The final theorem for a construction. -/
theorem LossyVerified.program (V : LossyVerified C Good H) (J : Injector) (garbage : Bits)
    (hgb : garbage.length = C.blockBits) (ops : List WOp)
    (hwt : ∀ op ∈ ops, op.WellTyped C.blockBits C.wordBits)
    (hlt : (wstreamOf C.blockBits C.wordBits ops).length < 2 ^ 64)
    (hg : WGoodExtracts C.blockBits C.wordBits Good [] ops)
    (hgf : Good (wstreamOf C.blockBits C.wordBits ops)) :
    ∃ a, runWOps C J (Acc.init C garbage) [] ops =
        .ok (a, lossyOutputs C.blockBits C.wordBits H .start ops) ∧
      a.result C = .ok (H (Fed.start.steps C.blockBits C.wordBits ops).lost
        (wstreamOf C.blockBits C.wordBits ops)) := by
  obtain ⟨a, e, r⟩ := V.run J ops (V.start garbage hgb) hwt hlt hg (out := [])
  refine ⟨a, e, ?_⟩
  have hm : (Fed.start.steps C.blockBits C.wordBits ops).m = wstreamOf C.blockBits C.wordBits ops := by
    rw [steps_m]; rfl
  have := V.result r (by rw [hm]; exact hlt) (by rw [hm]; exact hgf)
  rwa [hm] at this

end Verif
