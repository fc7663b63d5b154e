import Verif.Proof.Grain
/-
A checker of constants tables that the kernel can run, and its correctness.  Eighteen steps of the LFSR are taken at a
time; every number is evaluated before it is used.
-/
namespace Verif.GrainCheck
open Spec.Grain

/-- Evaluates `n` before going on. -/
def force {α : Type} (n : Nat) (f : Nat → α) : α := Nat.rec (f 0) (fun k _ => f (Nat.succ k)) n

theorem force_eq {α : Type} (n : Nat) (f : Nat → α) : force n f = f n := by cases n <;> rfl

/-- The next eighteen bits. -/
def chunk (s : Nat) : Nat :=
  Nat.land (Nat.xor (Nat.shiftRight s 62) (Nat.xor (Nat.shiftRight s 49) (Nat.xor (Nat.shiftRight s 39)
    (Nat.xor (Nat.shiftRight s 24) (Nat.xor (Nat.shiftRight s 11) s))))) 262143

/-- What remains to be done: from the bits of the current word (as a number), the number of bits that it lacks besides
the next, the expected constants and the expected numbers after them. -/
abbrev Cont := Nat → Nat → List Nat → List Nat → Bool

/-- A word is complete. -/
def word (n p c : Nat) (k : Cont) (exp ext : List Nat) : Bool :=
  match exp with
  | [] =>
    match ext with
    | [] => false
    | e :: es => Nat.beq c e && (match es with | [] => true | e' :: es => k 0 (Nat.pred n) [] (e' :: es))
  | e :: es =>
    match Nat.ble (Nat.succ c) p with
    | true => Nat.beq c e && k 0 (Nat.pred n) es ext
    | false => k 0 (Nat.pred n) (e :: es) ext

/-- One bit of output. -/
noncomputable def emit (n p b : Nat) (k : Cont) : Cont := fun acc j exp ext =>
  Nat.rec (force (Nat.add (Nat.mul 2 acc) b) fun c => word n p c k exp ext)
    (fun j' _ => force (Nat.add (Nat.mul 2 acc) b) fun c => k c j' exp ext) j

/-- One pair of bits: the low two bits of `w`. -/
noncomputable def onePair (n p w : Nat) (k : Cont) : Cont := fun acc j exp ext =>
  Nat.rec (k acc j exp ext) (fun w1 _ => Nat.rec (k acc j exp ext) (fun b _ => emit n p b k acc j exp ext) w1)
    (Nat.land w 3)

/-- Nine pairs at a time. -/
noncomputable def go (n p : Nat) (fuel : Nat) : Nat → Cont :=
  Nat.rec (fun _ _ _ _ _ => false) (fun _ ih s acc j exp ext =>
    force (chunk s) fun w =>
    force (Nat.mod (Nat.add (Nat.mul 262144 s) w) 1208925819614629174706176) fun s =>
    onePair n p (Nat.shiftRight w 16) (onePair n p (Nat.shiftRight w 14) (onePair n p (Nat.shiftRight w 12)
    (onePair n p (Nat.shiftRight w 10) (onePair n p (Nat.shiftRight w 8) (onePair n p (Nat.shiftRight w 6)
    (onePair n p (Nat.shiftRight w 4) (onePair n p (Nat.shiftRight w 2) (onePair n p w (ih s))))))))) acc j exp ext)
    fuel

section
variable (b : Nat → Bool) (n p : Nat)

/-- From pair `N` on, with the bits `cur` of the current word read, the stream gives the expected numbers. -/
def Good (N : Nat) (cur : List Bool) (exp ext : List Nat) : Prop :=
  ∃ (N' : Nat) (rest : List Bool) (words extra : List (List Bool)),
    shrunk b 240 N' = shrunk b 240 N ++ rest ∧ cur ++ rest = (words ++ extra).flatten ∧
    (∀ w ∈ words ++ extra, w.length = n) ∧ (words.map fromBits).filter (· < p) = exp ∧
    (∀ w, words.getLast? = some w → fromBits w < p) ∧ extra.map fromBits = ext

variable {b n p}

theorem good_skip {N : Nat} {cur : List Bool} {exp ext : List Nat} (h0 : b (240 + 2 * N) = false)
    (h : Good b n p (N + 1) cur exp ext) : Good b n p N cur exp ext := by
  obtain ⟨N', rest, words, extra, e, r⟩ := h
  refine ⟨N', rest, words, extra, ?_, r⟩
  rw [e, shrunk_succ, h0]; simp

theorem good_bit {N : Nat} {cur : List Bool} {exp ext : List Nat} (h0 : b (240 + 2 * N) = true)
    (h : Good b n p (N + 1) (cur ++ [b (240 + 2 * N + 1)]) exp ext) : Good b n p N cur exp ext := by
  obtain ⟨N', rest, words, extra, e, r1, r⟩ := h
  refine ⟨N', b (240 + 2 * N + 1) :: rest, words, extra, ?_, by simpa using r1, r⟩
  rw [e, shrunk_succ, h0]; simp

theorem good_done {N : Nat} {cur : List Bool} (hl : cur.length = n) : Good b n p N cur [] [fromBits cur] :=
  ⟨N, [], [], [cur], by simp, by simp, by simpa using hl, by simp, by simp, by simp⟩

theorem good_extra {N : Nat} {cur : List Bool} {es : List Nat} (hl : cur.length = n)
    (h : Good b n p N [] [] es) : Good b n p N cur [] (fromBits cur :: es) := by
  obtain ⟨N', rest, words, extra, e, r1, r2, r3, r4, r5⟩ := h
  have hw : words = [] := by
    by_contra hne
    obtain ⟨w, hw⟩ : ∃ w, words.getLast? = some w := by
      rw [List.getLast?_eq_some_getLast hne]; exact ⟨_, rfl⟩
    have hlt := r4 w hw
    have : fromBits w ∈ (words.map fromBits).filter (· < p) :=
      List.mem_filter.2 ⟨List.mem_map.2 ⟨w, List.mem_of_getLast? hw, rfl⟩, by simpa using hlt⟩
    rw [r3] at this
    simp at this
  subst hw
  refine ⟨N', rest, [], cur :: extra, e, ?_, ?_, by simp, by simp, by simp [r5]⟩
  · simpa using r1
  · intro w hw
    simp only [List.nil_append, List.mem_cons] at hw
    rcases hw with rfl | hw
    · exact hl
    · exact r2 w (by simpa using hw)

theorem good_accept {N : Nat} {cur : List Bool} {es ext : List Nat} (hl : cur.length = n) (hlt : fromBits cur < p)
    (h : Good b n p N [] es ext) : Good b n p N cur (fromBits cur :: es) ext := by
  obtain ⟨N', rest, words, extra, e, r1, r2, r3, r4, r5⟩ := h
  refine ⟨N', rest, cur :: words, extra, e, by simpa using r1, ?_, by simp [hlt, r3], ?_, r5⟩
  · intro w hw
    simp only [List.cons_append, List.mem_cons] at hw
    rcases hw with rfl | hw
    · exact hl
    · exact r2 w hw
  · intro w hw
    cases words with
    | nil => simp at hw; rw [← hw]; exact hlt
    | cons a l => rw [List.getLast?_cons_cons] at hw; exact r4 w hw

theorem good_reject {N : Nat} {cur : List Bool} {e : Nat} {es ext : List Nat} (hl : cur.length = n)
    (hge : ¬ fromBits cur < p) (h : Good b n p N [] (e :: es) ext) : Good b n p N cur (e :: es) ext := by
  obtain ⟨N', rest, words, extra, e, r1, r2, r3, r4, r5⟩ := h
  have hne : words ≠ [] := by rintro rfl; simp at r3
  refine ⟨N', rest, cur :: words, extra, e, by simpa using r1, ?_, by simpa [hge] using r3, ?_, r5⟩
  · intro w hw
    simp only [List.cons_append, List.mem_cons] at hw
    rcases hw with rfl | hw
    · exact hl
    · exact r2 w hw
  · intro w hw
    cases words with
    | nil => exact absurd rfl hne
    | cons a l => rw [List.getLast?_cons_cons] at hw; exact r4 w hw

variable (b n p)

/-- The continuation is right when it starts at pair `N`. -/
def Right (N : Nat) (k : Cont) : Prop :=
  ∀ (cur : List Bool) (j : Nat) (exp ext : List Nat), cur.length + 1 + j = n → k (fromBits cur) j exp ext = true →
    Good b n p N cur exp ext

variable {b n p}

theorem word_right {N : Nat} {k : Cont} (hk : Right b n p N k) (hn : 0 < n) {cur : List Bool} (hl : cur.length = n)
    {exp ext : List Nat} (h : word n p (fromBits cur) k exp ext = true) : Good b n p N cur exp ext := by
  have h0 : ∀ exp ext, k 0 (Nat.pred n) exp ext = true → Good b n p N [] exp ext := by
    intro exp ext h
    exact hk [] (Nat.pred n) exp ext (by simp; omega) (by simpa [fromBits] using h)
  unfold word at h
  split at h
  · split at h
    · exact absurd h (by simp)
    · rename_i e es
      rw [Bool.and_eq_true] at h
      have he : fromBits cur = e := Nat.eq_of_beq_eq_true h.1
      subst he
      have h2 := h.2
      split at h2
      · exact good_done hl
      · exact good_extra hl (h0 _ _ h2)
  · rename_i e es
    split at h
    · rename_i hble
      rw [Bool.and_eq_true] at h
      have he : fromBits cur = e := Nat.eq_of_beq_eq_true h.1
      subst he
      exact good_accept hl (Nat.le_of_ble_eq_true hble) (h0 _ _ h.2)
    · rename_i hble
      refine good_reject hl ?_ (h0 _ _ h)
      intro hlt
      have : Nat.ble (Nat.succ (fromBits cur)) p = true := Nat.ble_eq_true_of_le hlt
      rw [this] at hble
      exact absurd hble (by simp)

theorem emit_right {N : Nat} {k : Cont} (hk : Right b n p (N + 1) k) (h1 : b (240 + 2 * N) = true)
    {cur : List Bool} {j : Nat} {exp ext : List Nat} (hl : cur.length + 1 + j = n)
    (h : emit n p (b (240 + 2 * N + 1)).toNat k (fromBits cur) j exp ext = true) : Good b n p N cur exp ext := by
  apply good_bit h1
  have hs : Nat.add (Nat.mul 2 (fromBits cur)) (b (240 + 2 * N + 1)).toNat
      = fromBits (cur ++ [b (240 + 2 * N + 1)]) := (fromBits_snoc _ _).symm
  unfold emit at h
  cases j with
  | zero =>
    simp only [force_eq, hs] at h
    exact word_right hk (by omega) (by simp; omega) h
  | succ j =>
    simp only [force_eq, hs] at h
    exact hk _ j exp ext (by simp; omega) h

theorem onePair_right {N w : Nat} {k : Cont} (hk : Right b n p (N + 1) k)
    (hw : Nat.land w 3 = 2 * (b (240 + 2 * N)).toNat + (b (240 + 2 * N + 1)).toNat) : Right b n p N (onePair n p w k) := by
  intro cur j exp ext hl h
  unfold onePair at h
  rw [hw] at h
  cases h1 : b (240 + 2 * N) with
  | false =>
    apply good_skip h1
    rw [h1] at h
    cases h2 : b (240 + 2 * N + 1) <;> rw [h2] at h <;> exact hk cur j exp ext hl h
  | true =>
    apply emit_right hk h1 hl
    rw [h1] at h
    cases h2 : b (240 + 2 * N + 1) <;> rw [h2] at h <;> exact h

theorem chunk_testBit {m s : Nat} (hb : Recurrence b) (h : Window b m s) (i : Nat) (hi : i < 18) :
    (chunk s).testBit (17 - i) = b (m + 80 + i) := by
  have e : chunk s = (s >>> 62 ^^^ (s >>> 49 ^^^ (s >>> 39 ^^^ (s >>> 24 ^^^ (s >>> 11 ^^^ s))))) &&& (2 ^ 18 - 1) := rfl
  rw [e, Nat.testBit_and, Nat.testBit_two_pow_sub_one, decide_eq_true (by omega), Bool.and_true]
  simp only [Nat.testBit_xor, Nat.testBit_shiftRight]
  have g : ∀ k, k < 80 → s.testBit k = b (m + (79 - k)) := by
    intro k hk
    have := h.2 (79 - k) (by omega)
    rw [lfsrBit, show 80 - 1 - (79 - k) = k by omega] at this
    exact this
  rw [g (62 + (17 - i)) (by omega), g (49 + (17 - i)) (by omega), g (39 + (17 - i)) (by omega),
    g (24 + (17 - i)) (by omega), g (11 + (17 - i)) (by omega), g (17 - i) (by omega),
    show m + 80 + i = (m + i) + 80 by omega, hb (m + i)]
  rw [show m + (79 - (62 + (17 - i))) = m + i by omega, show m + (79 - (49 + (17 - i))) = m + i + 13 by omega,
    show m + (79 - (39 + (17 - i))) = m + i + 23 by omega, show m + (79 - (24 + (17 - i))) = m + i + 38 by omega,
    show m + (79 - (11 + (17 - i))) = m + i + 51 by omega, show m + (79 - (17 - i)) = m + i + 62 by omega]
  cases b (m + i) <;> cases b (m + i + 13) <;> cases b (m + i + 23) <;> cases b (m + i + 38) <;>
    cases b (m + i + 51) <;> cases b (m + i + 62) <;> rfl

theorem chunk_lt (s : Nat) : chunk s < 2 ^ 18 := by
  have e : chunk s = (s >>> 62 ^^^ (s >>> 49 ^^^ (s >>> 39 ^^^ (s >>> 24 ^^^ (s >>> 11 ^^^ s))))) &&& (2 ^ 18 - 1) := rfl
  rw [e]
  exact lt_of_le_of_lt Nat.and_le_right (by decide)

theorem window_chunk {m s : Nat} (hb : Recurrence b) (h : Window b m s) :
    Window b (m + 18) (Nat.mod (Nat.add (Nat.mul 262144 s) (chunk s)) 1208925819614629174706176) := by
  have e : Nat.mod (Nat.add (Nat.mul 262144 s) (chunk s)) 1208925819614629174706176
      = (2 ^ 18 * s + chunk s) % 2 ^ 80 := rfl
  rw [e]
  refine ⟨Nat.mod_lt _ (by decide), fun i hi => ?_⟩
  rw [lfsrBit, Nat.testBit_mod_two_pow, decide_eq_true (by omega), Bool.true_and,
    Nat.testBit_two_pow_mul_add _ (chunk_lt s)]
  by_cases h62 : i < 62
  · rw [if_neg (by omega)]
    have := h.2 (i + 18) (by omega)
    rw [lfsrBit] at this
    rw [show 80 - 1 - i - 18 = 80 - 1 - (i + 18) by omega, this]
    congr 1; omega
  · rw [if_pos (by omega), show 80 - 1 - i = 17 - (i - 62) by omega, chunk_testBit hb h _ (by omega)]
    congr 1; omega

theorem land_three {w i : Nat} : Nat.land (Nat.shiftRight w i) 3 = 2 * (w.testBit (i + 1)).toNat + (w.testBit i).toNat := by
  have e : Nat.land (Nat.shiftRight w i) 3 = (w >>> i) % 2 ^ 2 := Nat.and_two_pow_sub_one_eq_mod _ 2
  have h0 : (w.testBit i).toNat = (w >>> i) % 2 := by
    have := Nat.toNat_testBit (w >>> i) 0
    rw [Nat.testBit_shiftRight] at this
    simpa using this
  have h1 : (w.testBit (i + 1)).toNat = (w >>> i) / 2 % 2 := by
    have := Nat.toNat_testBit (w >>> i) 1
    rw [Nat.testBit_shiftRight] at this
    simpa using this
  rw [e, h0, h1]
  omega

theorem go_right (hb : Recurrence b) (fuel : Nat) : ∀ (N s : Nat), Window b (160 + 2 * N) s →
    Right b n p N (go n p fuel s) := by
  induction fuel with
  | zero =>
    intro N s _ cur j exp ext _ h
    exact absurd h (by simp [go])
  | succ fuel ih =>
    intro N s hw
    have hbit : ∀ i, i < 9 → Nat.land (Nat.shiftRight (chunk s) (16 - 2 * i)) 3
        = 2 * (b (240 + 2 * (N + i))).toNat + (b (240 + 2 * (N + i) + 1)).toNat := by
      intro i hi
      rw [land_three]
      have h1 := chunk_testBit hb hw (2 * i) (by omega)
      have h2 := chunk_testBit hb hw (2 * i + 1) (by omega)
      rw [show 16 - 2 * i + 1 = 17 - 2 * i by omega, h1, show 16 - 2 * i = 17 - (2 * i + 1) by omega, h2,
        show 160 + 2 * N + 80 + 2 * i = 240 + 2 * (N + i) by omega,
        show 160 + 2 * N + 80 + (2 * i + 1) = 240 + 2 * (N + i) + 1 by omega]
    have hnext := ih (N + 9) (Nat.mod (Nat.add (Nat.mul 262144 s) (chunk s)) 1208925819614629174706176)
      (by rw [show 160 + 2 * (N + 9) = 160 + 2 * N + 18 by omega]; exact window_chunk hb hw)
    have := onePair_right (onePair_right (onePair_right (onePair_right (onePair_right (onePair_right (onePair_right
      (onePair_right (onePair_right hnext (hbit 8 (by decide))) (hbit 7 (by decide))) (hbit 6 (by decide)))
      (hbit 5 (by decide))) (hbit 4 (by decide))) (hbit 3 (by decide))) (hbit 2 (by decide))) (hbit 1 (by decide)))
      (hbit 0 (by decide))
    intro cur j exp ext hl h
    refine this cur j exp ext hl ?_
    have hunf : go n p (fuel + 1) s (fromBits cur) j exp ext
      = force (chunk s) fun w =>
        force (Nat.mod (Nat.add (Nat.mul 262144 s) w) 1208925819614629174706176) fun s =>
        onePair n p (Nat.shiftRight w 16) (onePair n p (Nat.shiftRight w 14) (onePair n p (Nat.shiftRight w 12)
        (onePair n p (Nat.shiftRight w 10) (onePair n p (Nat.shiftRight w 8) (onePair n p (Nat.shiftRight w 6)
        (onePair n p (Nat.shiftRight w 4) (onePair n p (Nat.shiftRight w 2) (onePair n p w (go n p fuel s)))))))))
        (fromBits cur) j exp ext := rfl
    rw [hunf, force_eq, force_eq] at h
    exact h

/-- What the checker establishes. -/
theorem check (hb : Recurrence b) (fuel s : Nat) (hw : Window b 160 s) (hn : 0 < n) (exp ext : List Nat)
    (h : go n p fuel s 0 (n - 1) exp ext = true) : GeneratesAll b n p exp ext := by
  obtain ⟨N', rest, words, extra, e, r1, r2, r3, r4, r5⟩ := go_right (n := n) (p := p) hb fuel 0 s hw [] (n - 1) exp ext
    (by simp; omega) h
  refine ⟨N', words, extra, r2, ?_, r3, r4, r5⟩
  rw [e, ← r1]
  simp [shrunk]

end

/-- `k` steps of the LFSR, each evaluated. -/
noncomputable def iter (k : Nat) : Nat → Nat := Nat.rec (fun s => s) (fun _ ih s => force (lfsrRaw s) ih) k

theorem iter_eq (k : Nat) : ∀ s, iter k s = lfsrRaw^[k] s := by
  induction k with
  | zero => intro s; rfl
  | succ k ih =>
    intro s
    have : iter (k + 1) s = force (lfsrRaw s) (iter k) := rfl
    rw [this, force_eq, ih, Function.iterate_succ_apply]

theorem fromBits_testBit (bs : List Bool) (k : Nat) : (fromBits bs).testBit k = (bs.reverse[k]?).getD false := by
  induction bs using List.reverseRecOn generalizing k with
  | nil => simp [fromBits]
  | append_singleton bs b ih =>
    rw [fromBits_snoc, List.reverse_append, List.reverse_singleton, List.singleton_append]
    cases k with
    | zero => cases b <;> simp [Nat.testBit_zero, Nat.add_mod]
    | succ k =>
      rw [Nat.testBit_succ, show (2 * fromBits bs + b.toNat) / 2 = fromBits bs by cases b <;> simp <;> omega, ih]
      simp

theorem window_fromBits (init : List Bool) (h : init.length = 80) : Window (seq init) 0 (fromBits init) := by
  refine ⟨by have := fromBits_lt init; rwa [h] at this, fun i hi => ?_⟩
  rw [lfsrBit, fromBits_testBit, Nat.zero_add, seq_init _ _ hi, List.getElem?_reverse (by omega)]
  congr 2
  omega

/-- The checker from the parameters on. -/
noncomputable def checkFrom (sbox n t RF RP p fuel : Nat) (exp ext : List Nat) : Bool :=
  force (fromBits (initial 1 sbox n t RF RP)) fun s => force (iter 160 s) fun s => go n p fuel s 0 (n - 1) exp ext

theorem checkFrom_right (sbox n t RF RP p fuel : Nat) (hn : 0 < n) (exp ext : List Nat)
    (h : checkFrom sbox n t RF RP p fuel exp ext = true) :
    GeneratesAll (seq (initial 1 sbox n t RF RP)) n p exp ext := by
  rw [checkFrom, force_eq, force_eq, iter_eq] at h
  refine check (seq_recurrence _) fuel _ ?_ hn exp ext h
  rw [← Nat.zero_add 160]
  exact window_iter (seq_recurrence _) (window_fromBits _ (initial_length _ _ _ _ _ _)) 160

end Verif.GrainCheck
