import Verif.Model.Accumulator
import Verif.Spec.Blocks
/-
The abstraction relation "accumulator `a` represents the bit string `m`" and its preservation by
every push.
-/
namespace Verif

open Spec

variable {σ δ α : Type}

/-- Lengths for which the 64-bit counter keeps the position inside the block: below the overflow, or
any length if the block size divides `2^64` (all Merkle–Damgård hashes and BLAKE2b). -/
def Fits (C : Construction σ δ) (n : Nat) : Prop := n < 2 ^ 64 ∨ C.blockBits ∣ 2 ^ 64

theorem Fits.mod {C : Construction σ δ} {n : Nat} (h : Fits C n) :
    wrap64 n % C.blockBits = n % C.blockBits := by
  rcases h with h | h
  · rw [wrap64, Nat.mod_eq_of_lt h]
  · exact Nat.mod_mod_of_dvd _ h

theorem Fits.mono {C : Construction σ δ} {n n' : Nat} (h : Fits C n) (hle : n' ≤ n) : Fits C n' := by
  rcases h with h | h
  · exact Or.inl (by omega)
  · exact Or.inr h

theorem wrap64_add (n k : Nat) : wrap64 (wrap64 n + k) = wrap64 (n + k) := by
  simp [wrap64]

/-- State after processing the first `q` blocks of `m`; block `i` is processed together with the
number of bits up to its end (a 64-bit counter). -/
def absorbed (C : Construction σ δ) (m : Bits) : Nat → σ
  | 0 => C.init
  | q + 1 => C.processBlock (absorbed C m q) (block C.blockBits m q) (wrap64 ((q + 1) * C.blockBits))

theorem block_append_left (B : Nat) (m x : Bits) (i : Nat) (h : (i + 1) * B ≤ m.length) :
    block B (m ++ x) i = block B m i := by
  have h1 : i * B + B ≤ m.length := by rw [Nat.add_mul] at h; omega
  unfold block
  rw [List.drop_append_of_le_length (by omega), List.take_append_of_le_length (by simp; omega)]

theorem absorbed_append (C : Construction σ δ) (m x : Bits) (q : Nat)
    (h : q * C.blockBits ≤ m.length) : absorbed C (m ++ x) q = absorbed C m q := by
  induction q with
  | zero => rfl
  | succ q ih =>
    have : q * C.blockBits ≤ m.length := by rw [Nat.add_mul] at h; omega
    simp only [absorbed]
    rw [ih this, block_append_left _ _ _ _ h]

/-- `a` represents `m`: `q` blocks are processed, the rest of `m` (at most one block, and
non-empty unless `m` is empty) is at the front of the cache. -/
structure Rep (C : Construction σ δ) (a : Acc σ) (m : Bits) : Prop where
  cache_len : a.cache.length = C.blockBits
  total : a.total = wrap64 m.length
  small : Fits C m.length
  core : ∃ q, q * C.blockBits ≤ m.length ∧ m.length ≤ q * C.blockBits + C.blockBits ∧
    (q = 0 ∨ q * C.blockBits < m.length) ∧
    (a.filled = true ↔ m.length = q * C.blockBits + C.blockBits) ∧
    a.st = absorbed C m q ∧
    a.cache.take (m.length - q * C.blockBits) = m.drop (q * C.blockBits)

/-- After the flush of a completed block. -/
structure RepFlushed (C : Construction σ δ) (a : Acc σ) (m : Bits) : Prop where
  cache_len : a.cache.length = C.blockBits
  total : a.total = wrap64 m.length
  small : Fits C m.length
  notFilled : a.filled = false
  core : ∃ q, q * C.blockBits ≤ m.length ∧ m.length < q * C.blockBits + C.blockBits ∧
    a.st = absorbed C m q ∧
    a.cache.take (m.length - q * C.blockBits) = m.drop (q * C.blockBits)

theorem Rep.init (C : Construction σ δ) (garbage : Bits) (hB : 0 < C.blockBits)
    (hg : garbage.length = C.blockBits) : Rep C (Acc.init C garbage) [] where
  cache_len := hg
  total := rfl
  small := Or.inl (by simp)
  core := ⟨0, by simp, by simp, Or.inl rfl, by simp [Acc.init]; omega, rfl, by simp⟩

theorem Rep.flush {C : Construction σ δ} {a : Acc σ} {m : Bits} (h : Rep C a m)
    (hB : 0 < C.blockBits) : RepFlushed C (a.flush C) m := by
  obtain ⟨q, h1, h2, h3, h4, h5, h6⟩ := h.core
  unfold Acc.flush
  by_cases hf : a.filled = true
  · have hl := h4.1 hf
    rw [if_pos hf]
    refine ⟨h.cache_len, h.total, h.small, rfl, q + 1, ?_, ?_, ?_, ?_⟩
    · rw [Nat.add_mul]; omega
    · rw [Nat.add_mul]; omega
    · simp only [absorbed]
      have hc : a.cache = block C.blockBits m q := by
        unfold block
        rw [← h6, List.take_take, hl, List.take_of_length_le]
        rw [h.cache_len]; omega
      rw [h5, h.total, hl, hc, Nat.add_mul, Nat.one_mul]
    · rw [Nat.add_mul, Nat.one_mul, hl, Nat.sub_self, List.drop_of_length_le (by omega)]; rfl
  · rw [if_neg hf]
    have : m.length ≠ q * C.blockBits + C.blockBits := fun e => hf (h4.2 e)
    exact ⟨h.cache_len, h.total, h.small, by simpa using hf, q, h1, by omega, h5, h6⟩

theorem mod_of_between {B q n : Nat} (h1 : q * B ≤ n) (h2 : n < q * B + B) : n % B = n - q * B := by
  have : n = (n - q * B) + B * q := by rw [Nat.mul_comm B q]; omega
  rw [this, Nat.add_mul_mod_self_left, Nat.mod_eq_of_lt (by omega)]
  rw [Nat.mul_comm B q]; omega

theorem wrap64_of_lt {n : Nat} (h : n < 2 ^ 64) : wrap64 n = n := Nat.mod_eq_of_lt h

theorem Injector.run_ok (J : Injector) {src : Bits} {n : Nat} {dst : Bits} {cursor off : Nat}
    (h : cursor + n ≤ dst.length) (h' : off + n ≤ src.length) :
    J.run src n dst cursor off = .ok (J.inject src n dst cursor off) := by
  unfold Injector.run; rw [if_pos ⟨h, h'⟩]

/-- Appending to a partially filled cache. -/
theorem RepFlushed.append {C : Construction σ δ} {J : Injector} {a : Acc σ} {m value : Bits}
    {seen : Nat} (h : RepFlushed C a m) (hne : m.length % C.blockBits ≠ 0)
    (h0 : 0 < seen) (hs : seen ≤ value.length) (hv : seen ≤ C.blockBits)
    (hlen : Fits C (m.length + seen)) :
    ∃ a', a.append C J value seen = .ok a' ∧ Rep C a' (m ++ value.take seen) := by
  obtain ⟨q, h1, h2, h5, h6⟩ := h.core
  have hmod : m.length % C.blockBits = m.length - q * C.blockBits := mod_of_between h1 h2
  unfold Acc.append
  rw [h.total, h.small.mod, hmod]
  rw [hmod] at hne
  generalize hc : m.length - q * C.blockBits = c at *
  have hcB : c < C.blockBits := by omega
  simp only
  have hcl := h.cache_len
  by_cases hfit : C.blockBits - c > seen
  · -- the value fits and does not complete the block
    simp only [if_pos hfit]
    rw [J.run_ok (by omega) (by omega)]
    have hneq : c + seen ≠ C.blockBits := by omega
    simp only [bind, Except.bind, if_neg hneq]
    refine ⟨_, rfl, ?_⟩
    refine ⟨?_, ?_, ?_, q, ?_, ?_, ?_, ?_, ?_, ?_⟩
    · rw [J.length_inject _ _ _ _ _ (by omega) (by omega), hcl]
    · simp only; rw [wrap64_add]; congr 1; simp; omega
    · exact hlen.mono (by simp; omega)
    · simp; omega
    · simp; omega
    · right; simp; omega
    · simp [h.notFilled]; omega
    · simp only; rw [h5, absorbed_append _ _ _ _ h1]
    · simp only
      have e1 : (m ++ value.take seen).length - q * C.blockBits = c + seen := by simp; omega
      rw [e1, J.take_inject _ _ _ _ _ (by omega) (by omega), h6,
        List.drop_append_of_le_length h1, List.drop_zero]
  · simp only [if_neg hfit]
    have hneed : C.blockBits - c ≤ seen := by omega
    rw [J.run_ok (by omega) (by omega)]
    have heq : c + (C.blockBits - c) = C.blockBits := by omega
    simp only [bind, Except.bind, if_pos heq]
    have hfull : J.inject value (C.blockBits - c) a.cache c 0 =
        m.drop (q * C.blockBits) ++ value.take (C.blockBits - c) := by
      have := J.take_inject value (C.blockBits - c) a.cache c 0 (by omega) (by omega)
      rw [heq, List.take_of_length_le, h6, List.drop_zero] at this
      · exact this
      · rw [J.length_inject _ _ _ _ _ (by omega) (by omega)]; omega
    have hblock : ∀ r, block C.blockBits (m ++ value.take (C.blockBits - c + r)) q =
        m.drop (q * C.blockBits) ++ value.take (C.blockBits - c) := by
      intro r
      unfold block
      rw [List.drop_append_of_le_length h1, List.take_append]
      have : (m.drop (q * C.blockBits)).length = c := by simp; omega
      rw [List.take_of_length_le (by omega), this, List.take_take]
      congr 2
      omega
    by_cases hmore : seen > C.blockBits - c
    · simp only [if_pos hmore]
      have hlen' : (J.inject value (C.blockBits - c) a.cache c 0).length = C.blockBits := by
        rw [J.length_inject _ _ _ _ _ (by omega) (by omega)]; omega
      rw [J.run_ok (by omega) (by omega)]
      simp only
      refine ⟨_, rfl, ?_⟩
      have hw1 : wrap64 (wrap64 m.length + (C.blockBits - c)) =
        wrap64 (m.length + (C.blockBits - c)) := wrap64_add _ _
      refine ⟨?_, ?_, ?_, q + 1, ?_, ?_, ?_, ?_, ?_, ?_⟩
      · simp only; rw [J.length_inject _ _ _ _ _ (by omega) (by omega), hlen']
      · simp only; rw [hw1, wrap64_add]; congr 1; simp; omega
      · exact hlen.mono (by simp; omega)
      · rw [Nat.add_mul]; simp; omega
      · rw [Nat.add_mul]; simp; omega
      · right; rw [Nat.add_mul]; simp; omega
      · rw [Nat.add_mul]; simp; omega
      · simp only [absorbed]
        have hb := hblock (seen - (C.blockBits - c))
        rw [show C.blockBits - c + (seen - (C.blockBits - c)) = seen by omega] at hb
        rw [hb, hfull, absorbed_append _ _ _ _ h1, ← h5, hw1]
        congr 2
        rw [Nat.add_mul]; omega
      · have e1 : (m ++ value.take seen).length - (q + 1) * C.blockBits
            = 0 + (seen - (C.blockBits - c)) := by rw [Nat.add_mul]; simp; omega
        rw [e1]; simp only
        have hd : m.drop ((q + 1) * C.blockBits) = [] :=
          List.drop_of_length_le (by rw [Nat.add_mul]; omega)
        rw [J.take_inject _ _ _ _ _ (by omega) (by omega), List.take_zero, List.nil_append,
          List.drop_append, hd, List.nil_append, List.drop_take]
        rw [show (q + 1) * C.blockBits - m.length = C.blockBits - c by rw [Nat.add_mul]; omega]
    · simp only [if_neg hmore]
      have hseen : seen = C.blockBits - c := by omega
      refine ⟨_, rfl, ?_⟩
      refine ⟨?_, ?_, ?_, q, ?_, ?_, ?_, ?_, ?_, ?_⟩
      · simp only; rw [J.length_inject _ _ _ _ _ (by omega) (by omega), hcl]
      · simp only; rw [wrap64_add]; congr 1; simp; omega
      · exact hlen.mono (by simp; omega)
      · simp; omega
      · simp; omega
      · right; simp; omega
      · simp; omega
      · simp only; rw [h5, absorbed_append _ _ _ _ h1]
      · simp only
        rw [hfull, hseen, List.drop_append_of_le_length h1, List.take_of_length_le]
        simp; omega

/-- Pushing `bits` bits of a block value (`acc(block, bits = …)`). -/
theorem Rep.processBlockValue {C : Construction σ δ} {J : Injector} {a : Acc σ} {m value : Bits}
    {seen : Nat} (h : Rep C a m) (hw : 0 < C.wordBits) (hwB : C.wordBits ∣ C.blockBits)
    (h0 : 0 < seen) (hs : seen ≤ C.blockBits) (hv : value.length = C.blockBits)
    (hlen : Fits C (m.length + seen)) :
    ∃ a', a.processBlockValue C J value seen = .ok a' ∧ Rep C a' (m ++ value.take seen) := by
  have hB : 0 < C.blockBits := by omega
  have hf := h.flush hB
  unfold Acc.processBlockValue
  generalize a.flush C = b at *
  simp only
  by_cases hne : b.total % C.blockBits ≠ 0
  · rw [if_pos hne]
    rw [hf.total, hf.small.mod] at hne
    exact hf.append hne h0 (by omega) hs hlen
  · rw [if_neg hne]
    rw [hf.total] at hne ⊢
    rw [hf.small.mod] at hne
    obtain ⟨q, h1, h2, h5, h6⟩ := hf.core
    rw [mod_of_between h1 h2] at hne
    have hq : m.length = q * C.blockBits := by omega
    by_cases hfull : seen = C.blockBits
    · rw [if_pos hfull]
      refine ⟨_, rfl, ?_⟩
      refine ⟨hv, ?_, ?_, q, ?_, ?_, ?_, ?_, ?_, ?_⟩
      · simp only; rw [wrap64_add]; congr 1; simp; omega
      · exact hlen.mono (by simp; omega)
      · simp; omega
      · simp; omega
      · right; simp; omega
      · simp; omega
      · simp only; rw [h5, absorbed_append _ _ _ _ h1]
      · simp only
        have hd : m.drop (q * C.blockBits) = [] := List.drop_of_length_le (by omega)
        rw [List.drop_append_of_le_length h1, hd,
          List.nil_append, List.take_of_length_le (by simp; omega), List.take_of_length_le (by omega)]
    · rw [if_neg hfull]
      -- number of bits moved: seen rounded up to words
      obtain ⟨k, hk⟩ := hwB
      generalize hn : (seen / C.wordBits + (if seen % C.wordBits ≠ 0 then 1 else 0)) = n
      have hdm := Nat.div_add_mod seen C.wordBits
      have hml := Nat.mod_lt seen hw
      have hge : seen ≤ n * C.wordBits := by
        rw [← hn, Nat.add_mul, Nat.mul_comm (seen / C.wordBits)]
        split <;> omega
      have hle : n ≤ k := by
        have hlt : seen < C.wordBits * k := by omega
        have hdiv : seen / C.wordBits < k := Nat.div_lt_of_lt_mul hlt
        rw [← hn]; split <;> omega
      have hle' : n * C.wordBits ≤ C.blockBits := by
        rw [hk, Nat.mul_comm]; exact Nat.mul_le_mul_left _ hle
      have hcl := hf.cache_len
      rw [if_pos ⟨by omega, by omega⟩]
      refine ⟨_, rfl, ?_⟩
      refine ⟨?_, ?_, ?_, q, ?_, ?_, ?_, ?_, ?_, ?_⟩
      · simp; omega
      · simp only; rw [wrap64_add]; congr 1; simp; omega
      · exact hlen.mono (by simp; omega)
      · simp; omega
      · simp; omega
      · right; simp; omega
      · simp [hf.notFilled]; omega
      · simp only; rw [h5, absorbed_append _ _ _ _ h1]
      · simp only
        have e1 : (m ++ value.take seen).length - q * C.blockBits = seen := by simp; omega
        have hd : m.drop (q * C.blockBits) = [] := List.drop_of_length_le (by omega)
        rw [e1, List.drop_append_of_le_length h1, hd,
          List.nil_append, List.take_append_of_le_length (by simp; omega), List.take_take]
        congr 1; omega

/-- `acc(block, bits = n)` with `0 < n ≤ block_bits`. -/
theorem Rep.pushBlock {C : Construction σ δ} {J : Injector} {a : Acc σ} {m value : Bits}
    {bits : Nat} (h : Rep C a m) (hw : 0 < C.wordBits) (hwB : C.wordBits ∣ C.blockBits)
    (h0 : 0 < bits) (hs : bits ≤ C.blockBits) (hv : value.length = C.blockBits)
    (hlen : Fits C (m.length + bits)) :
    ∃ a', a.pushBlock C J value bits = .ok a' ∧ Rep C a' (m ++ value.take bits) := by
  unfold Acc.pushBlock
  rw [if_neg (by omega)]
  exact h.processBlockValue hw hwB h0 hs hv hlen

/-- `acc(block)` / `acc(block, bits = 0)`: the whole block. -/
theorem Rep.pushBlock_zero {C : Construction σ δ} {J : Injector} {a : Acc σ} {m value : Bits}
    (h : Rep C a m) (hB : 0 < C.blockBits) (hw : 0 < C.wordBits) (hwB : C.wordBits ∣ C.blockBits)
    (hv : value.length = C.blockBits) (hlen : Fits C (m.length + C.blockBits)) :
    ∃ a', a.pushBlock C J value 0 = .ok a' ∧ Rep C a' (m ++ value) := by
  unfold Acc.pushBlock
  rw [if_pos rfl]
  obtain ⟨a', h1, h2⟩ := h.processBlockValue (J := J) hw hwB hB (Nat.le_refl _) hv hlen
  refine ⟨a', h1, ?_⟩
  rwa [List.take_of_length_le (by omega)] at h2

/-! ### The stream processor -/

theorem length_flatMap_view (E : Elem α) (xs : List α) :
    (xs.flatMap E.view).length = xs.length * E.valueBits := by
  induction xs with
  | nil => simp
  | cons x xs ih =>
    rw [List.flatMap_cons, List.length_append, ih, E.length_view, List.length_cons, Nat.add_mul]
    omega

theorem take_flatMap_view (E : Elem α) (xs : List α) (n : Nat) :
    (xs.flatMap E.view).take (n * E.valueBits) = (xs.take n).flatMap E.view := by
  induction xs generalizing n with
  | nil => simp
  | cons x xs ih =>
    cases n with
    | zero => simp
    | succ n =>
      rw [List.flatMap_cons, List.take_succ_cons, List.flatMap_cons, List.take_append,
        E.length_view, List.take_of_length_le (by rw [E.length_view, Nat.add_mul]; omega),
        show (n + 1) * E.valueBits - E.valueBits = n * E.valueBits by rw [Nat.add_mul]; omega, ih]

/-- Sizes under which a stream processor can be instantiated
(block_stream_processor.hpp:71, 76 and the policies). -/
structure Sizes (B : Nat) (E : Elem α) : Prop where
  block : 0 < B
  value : 0 < E.valueBits
  valueBlock : E.valueBits ∣ B

/-- Pushing into the accumulator set appends to what it represents (`R a m`), as long as the length
is `fine`. -/
structure Pushes {A : Type} (push : Push A) (B : Nat) (fine : Nat → Prop) (R : A → Bits → Prop) :
    Prop where
  mono : ∀ {n n'}, fine n → n' ≤ n → fine n'
  push : ∀ {a m value bits}, R a m → 0 < bits → bits ≤ B → value.length = B →
    fine (m.length + bits) → ∃ a', push a value bits = .ok a' ∧ R a' (m ++ value.take bits)

/-- The stream processor represents `m` followed by its buffered elements. -/
structure PRep {A : Type} (R : A → Bits → Prop) (B : Nat) (E : Elem α) (p : Proc A α) (m : Bits)
    (buf : List α) : Prop where
  rep : R p.acc m
  cache_len : p.cache.length = B / E.valueBits
  seen : p.seen = buf.length
  lt : p.seen < B / E.valueBits
  buf : p.cache.take p.seen = buf

section
variable {A : Type} {push : Push A} {B : Nat} {fine : Nat → Prop} {R : A → Bits → Prop} {E : Elem α}

theorem PRep.updateOne (P : Pushes push B fine R) (S : Sizes B E)
    {p : Proc A α} {m : Bits} {buf : List α} (h : PRep R B E p m buf) (x : α)
    (hlen : fine (m.length + (buf.length + 1) * E.valueBits)) :
    ∃ p' m' buf', p.updateOne push B E x = .ok p' ∧ PRep R B E p' m' buf' ∧
      m' ++ buf'.flatMap E.view = m ++ (buf ++ [x]).flatMap E.view := by
  have hc := h.cache_len
  have hlt := h.lt
  have hset : (p.cache.set p.seen x).take (p.seen + 1) = buf ++ [x] := by
    rw [← h.buf]
    apply List.ext_getElem?
    intro i
    rw [List.getElem?_take, List.getElem?_set]
    by_cases hi : i < p.seen
    · rw [if_pos (by omega), if_neg (by omega), List.getElem?_append_left (by simp; omega),
        List.getElem?_take, if_pos hi]
    · by_cases he : i = p.seen
      · subst he
        rw [if_pos (by omega), if_pos rfl, if_pos (by omega),
          List.getElem?_append_right (by simp; omega)]
        simp
        rw [Nat.min_eq_left (by omega)]; simp
      · rw [if_neg (by omega), List.getElem?_eq_none]
        simp; omega
  unfold Proc.updateOne
  rw [if_pos (by omega)]
  simp only
  by_cases hfull : p.seen + 1 = B / E.valueBits
  · rw [if_pos hfull]
    have hmul : B / E.valueBits * E.valueBits = B := Nat.div_mul_cancel S.valueBlock
    have hvl : ((p.cache.set p.seen x).flatMap E.view).length = B := by
      rw [length_flatMap_view, List.length_set, hc, hmul]
    have hbl : (buf.length + 1) * E.valueBits = B := by rw [← h.seen, hfull, hmul]
    obtain ⟨a', h1, h2⟩ := P.push (value := (p.cache.set p.seen x).flatMap E.view)
      (bits := B) h.rep S.block (Nat.le_refl _) hvl (by rwa [hbl] at hlen)
    refine ⟨{ acc := a', cache := p.cache.set p.seen x, seen := 0 },
      m ++ (buf ++ [x]).flatMap E.view, [], ?_, ?_, by simp⟩
    · simp only [Proc.processBlock]
      rw [h1]; rfl
    · refine ⟨?_, by simp [hc], rfl, by show 0 < _; omega, by simp⟩
      rw [List.take_of_length_le (by omega)] at h2
      rw [← hset, List.take_of_length_le (by simp; omega)]
      exact h2
  · rw [if_neg hfull]
    refine ⟨_, m, buf ++ [x], rfl, ?_, rfl⟩
    refine ⟨h.rep, by simp [hc], by simp [h.seen], ?_, hset⟩
    simp only; omega

theorem PRep.updateWhile (P : Pushes push B fine R) (S : Sizes B E)
    (xs : List α) : ∀ {p : Proc A α} {m : Bits} {buf : List α} (_ : PRep R B E p m buf)
    (_ : fine (m ++ (buf ++ xs).flatMap E.view).length),
    ∃ p' m' buf', p.updateWhile push B E xs = .ok p' ∧ PRep R B E p' m' buf' ∧
      m' ++ buf'.flatMap E.view = m ++ (buf ++ xs).flatMap E.view := by
  induction xs with
  | nil => intro p m buf h _; exact ⟨p, m, buf, rfl, h, by simp⟩
  | cons x xs ih =>
    intro p m buf h hlen
    have hl1 : fine (m.length + (buf.length + 1) * E.valueBits) := by
      refine P.mono hlen ?_
      rw [List.length_append, length_flatMap_view, List.length_append, List.length_cons]
      have : (buf.length + 1) * E.valueBits ≤ (buf.length + (xs.length + 1)) * E.valueBits :=
        Nat.mul_le_mul_right _ (by omega)
      omega
    obtain ⟨p1, m1, b1, e1, r1, eq1⟩ := h.updateOne P S x hl1
    have key : m1 ++ (b1 ++ xs).flatMap E.view = m ++ (buf ++ x :: xs).flatMap E.view := by
      rw [List.flatMap_append, ← List.append_assoc, eq1]
      simp
    obtain ⟨p2, m2, b2, e2, r2, eq2⟩ := ih r1 (by rw [key]; exact hlen)
    refine ⟨p2, m2, b2, ?_, r2, by rw [eq2, key]⟩
    simp only [Proc.updateWhile]
    rw [e1]; exact e2

theorem updateN_eq_updateWhile {A : Type} (push : Push A) (B : Nat) (E : Elem α) (xs : List α) :
    ∀ p : Proc A α, p.updateN push B E xs xs.length = p.updateWhile push B E xs := by
  induction xs with
  | nil => intro p; rfl
  | cons x xs ih =>
    intro p
    simp only [List.length_cons, Proc.updateN, Proc.updateWhile]
    cases p.updateOne push B E x with
    | error e => rfl
    | ok p' => exact ih p'

theorem run_eq_updateWhile {A : Type} (push : Push A) (B : Nat) (E : Elem α) (k : RangeKind)
    (xs : List α) (p : Proc A α) : p.run push B E k xs = p.updateWhile push B E xs := by
  cases k <;> simp [Proc.run, updateN_eq_updateWhile]

theorem PRep.finish (P : Pushes push B fine R) (S : Sizes B E)
    {p : Proc A α} {m : Bits} {buf : List α} (h : PRep R B E p m buf)
    (hlen : fine (m ++ buf.flatMap E.view).length) :
    ∃ a', p.finish push E = .ok a' ∧ R a' (m ++ buf.flatMap E.view) := by
  unfold Proc.finish
  by_cases h0 : p.seen > 0
  · rw [if_pos h0]
    have hmul : B / E.valueBits * E.valueBits = B := Nat.div_mul_cancel S.valueBlock
    have hle : p.seen * E.valueBits ≤ B :=
      Nat.le_trans (Nat.mul_le_mul_right _ (Nat.le_of_lt h.lt)) (Nat.le_of_eq hmul)
    rw [List.length_append, length_flatMap_view, ← h.seen] at hlen
    obtain ⟨a', h1, h2⟩ := P.push (value := p.cache.flatMap E.view)
      (bits := p.seen * E.valueBits) h.rep (Nat.mul_pos h0 S.value) hle
      (by rw [length_flatMap_view, h.cache_len, hmul]) hlen
    refine ⟨a', ?_, ?_⟩
    · simp only [Proc.processBlock]; rw [h1]; rfl
    · rwa [take_flatMap_view, h.buf] at h2
  · rw [if_neg h0]
    refine ⟨p.acc, rfl, ?_⟩
    have : buf = [] := by
      apply List.eq_nil_of_length_eq_zero; have := h.seen; omega
    subst this
    simpa using h.rep

/-- Feeding a range appends its stream to what the accumulator set represents. -/
theorem feedSet_rep (P : Pushes push B fine R) (S : Sizes B E)
    {a : A} {m : Bits} (h : R a m) (k : RangeKind) (cache0 xs : List α)
    (hc : cache0.length = B / E.valueBits) (hlen : fine (m ++ xs.flatMap E.view).length) :
    ∃ a', feedSet push B E k cache0 a xs = .ok a' ∧ R a' (m ++ xs.flatMap E.view) := by
  unfold feedSet
  have hpos : 0 < B / E.valueBits :=
    Nat.div_pos (Nat.le_of_dvd S.block S.valueBlock) S.value
  have hp : PRep R B E ({ acc := a, cache := cache0, seen := 0 } : Proc A α) m [] :=
    ⟨h, hc, rfl, hpos, by simp⟩
  rw [run_eq_updateWhile]
  obtain ⟨p', m', b', e, r, eq⟩ := hp.updateWhile P S xs (by simpa using hlen)
  rw [List.nil_append] at eq
  obtain ⟨a', e', r'⟩ := r.finish P S (by rw [eq]; exact hlen)
  refine ⟨a', ?_, by rwa [eq] at r'⟩
  rw [e]; exact e'

end

theorem Acc.pushes (C : Construction σ δ) (J : Injector) (hw : 0 < C.wordBits)
    (hwB : C.wordBits ∣ C.blockBits) :
    Pushes (fun a v n => Acc.pushBlock C J a v n) C.blockBits (Fits C) (Rep C) where
  mono := Fits.mono
  push h h0 hs hv hlen := h.pushBlock hw hwB h0 hs hv hlen

/-- `hash<H>(range, acc)` appends the stream of the range to what the accumulator represents. -/
theorem Rep.feed {C : Construction σ δ} {J : Injector} {E : Elem α} (hw : 0 < C.wordBits)
    (hwB : C.wordBits ∣ C.blockBits) (S : Sizes C.blockBits E)
    {a : Acc σ} {m : Bits} (h : Rep C a m) (k : RangeKind) (cache0 xs : List α)
    (hc : cache0.length = C.blockBits / E.valueBits)
    (hlen : Fits C (m ++ xs.flatMap E.view).length) :
    ∃ a', a.feed C J E k cache0 xs = .ok a' ∧ Rep C a' (m ++ xs.flatMap E.view) :=
  feedSet_rep (Acc.pushes C J hw hwB) S h k cache0 xs hc hlen

end Verif
