import Verif.Model.WordOps
import Verif.Spec.WordOps
/-
The length counter of `hash_impl` (accumulators/hash.hpp), for any construction whatsoever.
-/
namespace Verif

variable {σ δ : Type} {C : Construction σ δ} {J : Injector}

theorem Acc.flush_total (a : Acc σ) : (a.flush C).total = a.total := by
  unfold Acc.flush; split <;> rfl

theorem wrap64_eq (n : Nat) : wrap64 n = n % 2 ^ 64 := rfl

theorem Acc.append_total (hB : 0 < C.blockBits) {a b : Acc σ} {value : Bits} {seen : Nat}
    (h : a.append C J value seen = .ok b) : b.total = (a.total + seen) % 2 ^ 64 := by
  unfold Acc.append at h
  simp only [wrap64_eq] at h
  generalize hnew : (if C.blockBits - a.total % C.blockBits > seen then seen
    else C.blockBits - a.total % C.blockBits) = new at h
  cases h1 : J.run value new a.cache (a.total % C.blockBits) 0 with
  | error e => rw [h1] at h; simp [bind, Except.bind] at h
  | ok c =>
    rw [h1] at h
    simp only [bind, Except.bind, pure, Except.pure] at h
    have hle : new ≤ seen := by rw [← hnew]; split <;> omega
    split at h
    · rename_i hfull
      split at h
      · rename_i hgt
        cases h2 : J.run value (seen - new) c 0 new with
        | error e => rw [h2] at h; simp at h
        | ok c2 =>
          rw [h2] at h
          simp only [Except.ok.injEq] at h
          subst h
          show ((a.total + new) % 2 ^ 64 + (seen - new)) % 2 ^ 64 = _
          rw [Nat.mod_add_mod]; congr 1; omega
      · simp only [Except.ok.injEq] at h
        subst h
        have : new = seen := by omega
        rw [this]
    · rename_i hnf
      simp only [Except.ok.injEq] at h
      subst h
      have : new = seen := by
        rw [← hnew] at hnf ⊢
        split
        · rfl
        · rename_i hg
          rw [if_neg hg] at hnf
          have := Nat.mod_lt a.total hB
          omega
      rw [this]

theorem Acc.pushBlock_total (hB : 0 < C.blockBits) {a b : Acc σ} {value : Bits} {bits : Nat}
    (h : a.pushBlock C J value bits = .ok b) :
    b.total = (a.total + (if bits = 0 then C.blockBits else bits)) % 2 ^ 64 := by
  unfold Acc.pushBlock Acc.processBlockValue at h
  generalize (if bits = 0 then C.blockBits else bits) = seen at h ⊢
  rw [← Acc.flush_total (C := C) a]
  simp only [] at h
  split at h
  · exact Acc.append_total hB h
  · split at h
    · simp only [Except.ok.injEq] at h; subst h; rfl
    · generalize (seen / C.wordBits + (if seen % C.wordBits ≠ 0 then 1 else 0)) * C.wordBits = n
        at h
      split at h
      · simp only [Except.ok.injEq] at h; subst h; rfl
      · simp at h

theorem Acc.pushWord_total (hB : 0 < C.blockBits) {a b : Acc σ} {value : Bits} {bits : Nat}
    (h : a.pushWord C J value bits = .ok b) :
    b.total = (a.total + (if bits = 0 then C.wordBits else bits)) % 2 ^ 64 := by
  unfold Acc.pushWord Acc.processWordValue at h
  generalize (if bits = 0 then C.wordBits else bits) = seen at h ⊢
  rw [← Acc.flush_total (C := C) a]
  simp only [] at h
  split at h
  · exact Acc.append_total hB h
  · split at h
    · simp only [Except.ok.injEq] at h; subst h; rfl
    · simp at h

section Feed
variable {α : Type} {E : Elem α}

/-- The stream processor keeps `total + seen * value_bits` in step with the bits read. -/
theorem Proc.updateOne_total (hB : 0 < C.blockBits) (hd : E.valueBits ∣ C.blockBits)
    {p q : Proc (Acc σ) α} {x : α}
    (h : p.updateOne (fun a v n => a.pushBlock C J v n) C.blockBits E x = .ok q) :
    (q.acc.total + q.seen * E.valueBits) % 2 ^ 64 =
      (p.acc.total + p.seen * E.valueBits + E.valueBits) % 2 ^ 64 := by
  unfold Proc.updateOne at h
  split at h
  · simp only [] at h
    split at h
    · rename_i hfull
      unfold Proc.processBlock at h
      simp only [] at h
      cases hp : p.acc.pushBlock C J ((p.cache.set p.seen x).flatMap E.view) C.blockBits with
      | error e => rw [hp] at h; simp [bind, Except.bind] at h
      | ok b =>
        rw [hp] at h
        simp only [bind, Except.bind, pure, Except.pure, Except.ok.injEq] at h
        subst h
        have := Acc.pushBlock_total hB hp
        rw [if_neg (by omega)] at this
        show (b.total + 0 * E.valueBits) % 2 ^ 64 = _
        rw [this, Nat.zero_mul, Nat.add_zero, Nat.mod_mod]
        have e : (p.seen + 1) * E.valueBits = C.blockBits := by
          have : p.seen + 1 = C.blockBits / E.valueBits := hfull
          rw [this]; exact Nat.div_mul_cancel hd
        rw [Nat.add_mul, Nat.one_mul] at e
        rw [Nat.add_assoc, e]
    · simp only [Except.ok.injEq] at h
      subst h
      show (p.acc.total + (p.seen + 1) * E.valueBits) % 2 ^ 64 = _
      rw [Nat.add_mul, Nat.one_mul, Nat.add_assoc]
  · simp at h

theorem Proc.updateWhile_total (hB : 0 < C.blockBits) (hd : E.valueBits ∣ C.blockBits)
    (xs : List α) : ∀ {p q : Proc (Acc σ) α},
    p.updateWhile (fun a v n => a.pushBlock C J v n) C.blockBits E xs = .ok q →
    (q.acc.total + q.seen * E.valueBits) % 2 ^ 64 =
      (p.acc.total + p.seen * E.valueBits + xs.length * E.valueBits) % 2 ^ 64 := by
  induction xs with
  | nil =>
    intro p q h
    simp only [Proc.updateWhile, Except.ok.injEq] at h
    subst h; simp
  | cons x xs ih =>
    intro p q h
    simp only [Proc.updateWhile] at h
    cases h1 : p.updateOne (fun a v n => a.pushBlock C J v n) C.blockBits E x with
    | error e => rw [h1] at h; simp [bind, Except.bind] at h
    | ok r =>
      rw [h1] at h
      have h2 := ih h
      have h3 := Proc.updateOne_total hB hd h1
      rw [h2, ← Nat.mod_add_mod, h3, Nat.mod_add_mod, List.length_cons, Nat.add_mul, Nat.one_mul]
      congr 1; omega

theorem Proc.updateN_total (hB : 0 < C.blockBits) (hd : E.valueBits ∣ C.blockBits)
    (xs : List α) : ∀ {p q : Proc (Acc σ) α},
    p.updateN (fun a v n => a.pushBlock C J v n) C.blockBits E xs xs.length = .ok q →
    (q.acc.total + q.seen * E.valueBits) % 2 ^ 64 =
      (p.acc.total + p.seen * E.valueBits + xs.length * E.valueBits) % 2 ^ 64 := by
  induction xs with
  | nil =>
    intro p q h
    simp only [List.length_nil, Proc.updateN, Except.ok.injEq] at h
    subst h; simp
  | cons x xs ih =>
    intro p q h
    simp only [List.length_cons, Proc.updateN] at h
    cases h1 : p.updateOne (fun a v n => a.pushBlock C J v n) C.blockBits E x with
    | error e => rw [h1] at h; simp [bind, Except.bind] at h
    | ok r =>
      rw [h1] at h
      have h2 := ih h
      have h3 := Proc.updateOne_total hB hd h1
      rw [h2, ← Nat.mod_add_mod, h3, Nat.mod_add_mod, List.length_cons, Nat.add_mul, Nat.one_mul]
      congr 1; omega

theorem Proc.finish_total (hB : 0 < C.blockBits) (hv : 0 < E.valueBits)
    {p : Proc (Acc σ) α} {b : Acc σ} (hlt : p.acc.total < 2 ^ 64)
    (h : p.finish (fun a v n => a.pushBlock C J v n) E = .ok b) :
    b.total = (p.acc.total + p.seen * E.valueBits) % 2 ^ 64 := by
  unfold Proc.finish at h
  split at h
  · rename_i hs
    unfold Proc.processBlock at h
    simp only [] at h
    cases hp : p.acc.pushBlock C J (p.cache.flatMap E.view) (p.seen * E.valueBits) with
    | error e => rw [hp] at h; simp [bind, Except.bind] at h
    | ok c =>
      rw [hp] at h
      simp only [bind, Except.bind, pure, Except.pure, Except.ok.injEq] at h
      subst h
      have := Acc.pushBlock_total hB hp
      rwa [if_neg (Nat.ne_of_gt (Nat.mul_pos hs hv))] at this
  · rename_i hs
    simp only [Except.ok.injEq] at h
    subst h
    have : p.seen = 0 := by omega
    rw [this, Nat.zero_mul, Nat.add_zero, Nat.mod_eq_of_lt hlt]

/-- The counter stays below 2^64. -/
theorem Proc.updateOne_lt (hB : 0 < C.blockBits) {p q : Proc (Acc σ) α} {x : α}
    (hlt : p.acc.total < 2 ^ 64)
    (h : p.updateOne (fun a v n => a.pushBlock C J v n) C.blockBits E x = .ok q) :
    q.acc.total < 2 ^ 64 := by
  unfold Proc.updateOne at h
  split at h
  · simp only [] at h
    split at h
    · unfold Proc.processBlock at h
      simp only [] at h
      cases hp : p.acc.pushBlock C J ((p.cache.set p.seen x).flatMap E.view) C.blockBits with
      | error e => rw [hp] at h; simp [bind, Except.bind] at h
      | ok b =>
        rw [hp] at h
        simp only [bind, Except.bind, pure, Except.pure, Except.ok.injEq] at h
        subst h
        show b.total < _
        rw [Acc.pushBlock_total hB hp]
        exact Nat.mod_lt _ (by decide)
    · simp only [Except.ok.injEq] at h
      subst h
      exact hlt
  · simp at h

theorem Proc.run_lt (hB : 0 < C.blockBits) (k : RangeKind) (xs : List α) {p q : Proc (Acc σ) α}
    (hlt : p.acc.total < 2 ^ 64)
    (h : p.run (fun a v n => a.pushBlock C J v n) C.blockBits E k xs = .ok q) :
    q.acc.total < 2 ^ 64 := by
  have hN : ∀ (xs : List α) {p q : Proc (Acc σ) α}, p.acc.total < 2 ^ 64 →
      p.updateN (fun a v n => a.pushBlock C J v n) C.blockBits E xs xs.length = .ok q →
      q.acc.total < 2 ^ 64 := by
    intro xs
    induction xs with
    | nil =>
      intro p q hlt h
      simp only [List.length_nil, Proc.updateN, Except.ok.injEq] at h
      subst h; exact hlt
    | cons x xs ih =>
      intro p q hlt h
      simp only [List.length_cons, Proc.updateN] at h
      cases h1 : p.updateOne (fun a v n => a.pushBlock C J v n) C.blockBits E x with
      | error e => rw [h1] at h; simp [bind, Except.bind] at h
      | ok r => rw [h1] at h; exact ih (Proc.updateOne_lt hB hlt h1) h
  have hW : ∀ (xs : List α) {p q : Proc (Acc σ) α}, p.acc.total < 2 ^ 64 →
      p.updateWhile (fun a v n => a.pushBlock C J v n) C.blockBits E xs = .ok q →
      q.acc.total < 2 ^ 64 := by
    intro xs
    induction xs with
    | nil =>
      intro p q hlt h
      simp only [Proc.updateWhile, Except.ok.injEq] at h
      subst h; exact hlt
    | cons x xs ih =>
      intro p q hlt h
      simp only [Proc.updateWhile] at h
      cases h1 : p.updateOne (fun a v n => a.pushBlock C J v n) C.blockBits E x with
      | error e => rw [h1] at h; simp [bind, Except.bind] at h
      | ok r => rw [h1] at h; exact ih (Proc.updateOne_lt hB hlt h1) h
  cases k
  · exact hN xs hlt h
  · exact hW xs hlt h
  · exact hN xs hlt h

theorem view_length_total (xs : List α) :
    (xs.flatMap E.view).length = xs.length * E.valueBits := by
  induction xs with
  | nil => simp
  | cons x xs ih =>
    rw [List.flatMap_cons, List.length_append, ih, E.length_view, List.length_cons, Nat.add_mul,
      Nat.one_mul, Nat.add_comm]

theorem Acc.feed_total (hB : 0 < C.blockBits) (hv : 0 < E.valueBits)
    (hd : E.valueBits ∣ C.blockBits) (k : RangeKind) (cache0 xs : List α) {a b : Acc σ}
    (hlt : a.total < 2 ^ 64) (h : a.feed C J E k cache0 xs = .ok b) :
    b.total = (a.total + (xs.flatMap E.view).length) % 2 ^ 64 := by
  unfold Acc.feed feedSet at h
  cases h1 : ({ acc := a, cache := cache0, seen := 0 } : Proc (Acc σ) α).run
      (fun a v n => a.pushBlock C J v n) C.blockBits E k xs with
  | error e => rw [h1] at h; simp [bind, Except.bind] at h
  | ok q =>
    rw [h1] at h
    have hq := Proc.run_lt hB k xs (p := { acc := a, cache := cache0, seen := 0 }) hlt h1
    rw [Proc.finish_total hB hv hq h, view_length_total]
    have : ∀ k, ({ acc := a, cache := cache0, seen := 0 } : Proc (Acc σ) α).run
      (fun a v n => a.pushBlock C J v n) C.blockBits E k xs = .ok q →
        (q.acc.total + q.seen * E.valueBits) % 2 ^ 64 =
          (a.total + 0 * E.valueBits + xs.length * E.valueBits) % 2 ^ 64 := by
      intro k h
      cases k
      · exact Proc.updateN_total hB hd xs h
      · exact Proc.updateWhile_total hB hd xs h
      · exact Proc.updateN_total hB hd xs h
    rw [this k h1, Nat.zero_mul, Nat.add_zero]

end Feed

theorem Op.run_total (hB : 0 < C.blockBits) {a b : Acc σ} {out out' : List δ} {o : Op}
    (hwt : o.WellTyped C.blockBits) (hlt : a.total < 2 ^ 64)
    (h : o.run C J a out = .ok (b, out')) :
    b.total = (a.total + (o.stream C.blockBits).length) % 2 ^ 64 := by
  cases o with
  | feed E k c xs =>
    simp only [Op.run] at h
    cases h1 : a.feed C J E k c xs with
    | error e => rw [h1] at h; simp [bind, Except.bind] at h
    | ok d =>
      rw [h1] at h
      simp only [bind, Except.bind, pure, Except.pure, Except.ok.injEq, Prod.mk.injEq] at h
      rw [← h.1]
      exact Acc.feed_total hB hwt.1 hwt.2.1 k c xs hlt h1
  | block value bits =>
    simp only [Op.run] at h
    cases h1 : a.pushBlock C J value bits with
    | error e => rw [h1] at h; simp [bind, Except.bind] at h
    | ok d =>
      rw [h1] at h
      simp only [bind, Except.bind, pure, Except.pure, Except.ok.injEq, Prod.mk.injEq] at h
      rw [← h.1, Acc.pushBlock_total hB h1]
      obtain ⟨hl, hb⟩ := hwt
      simp only [Op.stream, List.length_take, hl]
      congr 2
      split <;> omega
  | extract =>
    simp only [Op.run] at h
    cases h1 : a.result C with
    | error e => rw [h1] at h; simp [bind, Except.bind] at h
    | ok d =>
      rw [h1] at h
      simp only [bind, Except.bind, pure, Except.pure, Except.ok.injEq, Prod.mk.injEq] at h
      rw [← h.1]
      simp [Op.stream, Nat.mod_eq_of_lt hlt]

theorem WOp.run_total (hB : 0 < C.blockBits) {a b : Acc σ} {out out' : List δ} {o : WOp}
    (hwt : o.WellTyped C.blockBits C.wordBits) (hlt : a.total < 2 ^ 64)
    (h : o.run C J a out = .ok (b, out')) :
    b.total = (a.total + (o.stream C.blockBits C.wordBits).length) % 2 ^ 64 := by
  cases o with
  | op o => exact Op.run_total hB hwt hlt h
  | word value bits =>
    simp only [WOp.run] at h
    cases h1 : a.pushWord C J value bits with
    | error e => rw [h1] at h; simp [bind, Except.bind] at h
    | ok d =>
      rw [h1] at h
      simp only [bind, Except.bind, pure, Except.pure, Except.ok.injEq, Prod.mk.injEq] at h
      rw [← h.1, Acc.pushWord_total hB h1]
      obtain ⟨hl, hb⟩ := hwt
      simp only [WOp.stream, announced, List.length_take, hl]
      congr 2
      split <;> omega

theorem runWOps_total (hB : 0 < C.blockBits) (ops : List WOp)
    (hwt : ∀ o ∈ ops, o.WellTyped C.blockBits C.wordBits) :
    ∀ {a b : Acc σ} {out out' : List δ}, a.total < 2 ^ 64 →
    runWOps C J a out ops = .ok (b, out') →
    b.total = (a.total + (wstreamOf C.blockBits C.wordBits ops).length) % 2 ^ 64 := by
  induction ops with
  | nil =>
    intro a b out out' hlt h
    simp only [runWOps, Except.ok.injEq, Prod.mk.injEq] at h
    rw [← h.1]; simp [wstreamOf, Nat.mod_eq_of_lt hlt]
  | cons o ops ih =>
    intro a b out out' hlt h
    simp only [runWOps] at h
    cases h1 : o.run C J a out with
    | error e => rw [h1] at h; simp [bind, Except.bind] at h
    | ok r =>
      rw [h1] at h
      have h2 := WOp.run_total (b := r.1) (out' := r.2) hB (hwt o (by simp)) hlt h1
      have h3 := ih (fun o ho => hwt o (by simp [ho])) (by rw [h2]; exact Nat.mod_lt _ (by decide)) h
      rw [h3, h2, Nat.mod_add_mod, wstreamOf, wstreamOf, List.flatMap_cons, List.length_append,
        Nat.add_assoc]

end Verif
