import Verif.Proof.GrainTerm
/-
C48, the part of Poseidon: round constants from the LFSR.
-/
namespace Verif.Props
open Spec.Grain

/-- **C48, Poseidon.** Whenever the generator returns, the table has the right shape, every constant is below the
modulus, and the constants are those of the specified procedure (80-bit LFSR, 160 discarded bits, self-shrinking,
rejection), for every parameter set.  The S-box tag is the 1 that the code has. -/
theorem C48_poseidon (bitFuel fuel n p t RF RP : Nat) (rows : List (List Nat))
    (h : generateRoundConstants bitFuel fuel n p t RF RP = some rows) :
    rows.length = RF + RP ∧ (∀ row ∈ rows, row.length = t) ∧ (∀ row ∈ rows, ∀ c ∈ row, c < p) ∧
      Generates (seq (initial 1 1 n t RF RP)) n p rows.flatten := by
  obtain ⟨N, words, l, f, c, len, rl, g⟩ := window_rows (m := 160) (N := 0) (seq_recurrence _) bitFuel n p fuel t
    (RF + RP) (window_init n t RF RP) h
  refine ⟨len, rl, ?_, N, words, l, by simpa [shrunk] using f, c, g⟩
  intro row hrow x hx
  have : x ∈ (words.map fromBits).filter (· < p) := by
    rw [c]; exact List.mem_flatten.2 ⟨row, hrow, hx⟩
  simpa using (List.mem_filter.1 this).2

/-- Toy parameters: 4-bit constants below 13, width 2, two rounds. -/
example : ∃ rows, generateRoundConstants 20 20 4 13 2 2 0 = some rows ∧ rows.length = 2 ∧
    Generates (seq (initial 1 1 4 2 2 0)) 4 13 rows.flatten := by
  obtain ⟨rows, e⟩ := Option.ne_none_iff_exists'.1
    (show generateRoundConstants 20 20 4 13 2 2 0 ≠ none by decide +kernel)
  obtain ⟨l, _, _, g⟩ := C48_poseidon 20 20 4 13 2 2 0 rows e
  exact ⟨rows, e, l, g⟩

theorem lfsrRaw_ne_zero (s : Nat) (hs : s < 2 ^ 80) (h : s ≠ 0) : lfsrRaw s ≠ 0 := by
  obtain ⟨b, hb, hw⟩ := exists_window s hs
  intro h0
  apply h
  rw [window_nonzero hw]
  intro i _
  exact recurrence_window_zero hb _ ((window_nonzero (window_raw hb hw)).1 h0) _

theorem lfsrRaw_iter (s : Nat) (hs : s < 2 ^ 80) (h : s ≠ 0) (k : Nat) :
    lfsrRaw^[k] s < 2 ^ 80 ∧ lfsrRaw^[k] s ≠ 0 := by
  induction k with
  | zero => exact ⟨hs, h⟩
  | succ k ih =>
    rw [Function.iterate_succ_apply']
    exact ⟨setNewBit_lt _ _ _, lfsrRaw_ne_zero _ ih.1 ih.2⟩

/-- **C48, never zero.** For every parameter set the state is not zero after any number of steps from the seed on. -/
theorem C48_nonzero (n t RF RP k : Nat) : lfsrRaw^[k] (lfsrSeed n t RF RP) ≠ 0 := by
  refine (lfsrRaw_iter _ (window_seed n t RF RP).1 ?_ k).2
  rw [Ne, window_nonzero (window_seed n t RF RP)]
  intro h
  have := h 79 (by decide)
  rw [Nat.zero_add, seq_init _ 79 (by decide)] at this
  have hl : (toBits 2 1 ++ toBits 4 1 ++ toBits 12 n ++ toBits 12 t ++ toBits 10 RF ++ toBits 10 RP).length = 50 := by
    simp [toBits_length]
  rw [initial, List.getElem?_append_right (by rw [hl]; decide), hl] at this
  simp at this

/-- **C48, each bit.** From a state that is not zero `update_lfsr_state` returns, after an even number of steps, and
the state it returns is not zero. -/
theorem C48_update (s : Nat) (hs : s < 2 ^ 80) (h : s ≠ 0) :
    ∃ fuel k, lfsrUpdate fuel s = some (lfsrRaw^[2 * k] s) ∧ 0 < k ∧ lfsrRaw^[2 * k] s ≠ 0 := by
  obtain ⟨fuel, hf⟩ := lfsrUpdate_ends s hs h
  have key : ∀ fuel s s', lfsrUpdate fuel s = some s' → ∃ k, 0 < k ∧ s' = lfsrRaw^[2 * k] s := by
    intro fuel
    induction fuel with
    | zero => intro s s' e; simp [lfsrUpdate] at e
    | succ fuel ih =>
      intro s s' e
      rw [lfsrUpdate] at e
      split at e
      · exact ⟨1, by decide, (Option.some.inj e).symm⟩
      · obtain ⟨k, hk, e'⟩ := ih _ _ e
        refine ⟨k + 1, by omega, ?_⟩
        rw [e', Nat.mul_add, Function.iterate_add_apply]
        rfl
  obtain ⟨s', e⟩ := Option.ne_none_iff_exists'.1 hf
  obtain ⟨k, hk, e'⟩ := key fuel s s' e
  exact ⟨fuel, k, by rw [e, e'], hk, (lfsrRaw_iter s hs h _).2⟩

example : ∃ fuel k, lfsrUpdate fuel (2 ^ 79 + 1) = some (lfsrRaw^[2 * k] (2 ^ 79 + 1)) ∧ 0 < k ∧
    lfsrRaw^[2 * k] (2 ^ 79 + 1) ≠ 0 :=
  C48_update (2 ^ 79 + 1) (by decide) (by decide)

theorem shrunk_prefix (b : Nat → Bool) (m N N' : Nat) (h : N ≤ N') : shrunk b m N <+: shrunk b m N' := by
  induction N' with
  | zero => rw [show N = 0 by omega]
  | succ N' ih =>
    by_cases hN : N = N' + 1
    · rw [hN]
    · rw [shrunk_succ]; exact (ih (by omega)).trans (List.prefix_append _ _)

theorem words_prefix (n : Nat) (hn : 0 < n) (A B : List (List Bool)) (hA : ∀ w ∈ A, w.length = n)
    (hB : ∀ w ∈ B, w.length = n) (h : A.flatten <+: B.flatten) : A <+: B := by
  induction A generalizing B with
  | nil => exact List.nil_prefix
  | cons a A ih =>
    cases B with
    | nil =>
      have := hA a (by simp)
      have hl := h.length_le
      simp only [List.flatten_cons, List.length_append, List.flatten_nil, List.length_nil] at hl
      omega
    | cons b B =>
      have ha := hA a (by simp)
      have hb := hB b (by simp)
      rw [List.flatten_cons, List.flatten_cons] at h
      obtain ⟨tl, ht⟩ := h
      rw [List.append_assoc] at ht
      obtain ⟨e1, e2⟩ := List.append_inj ht (by omega)
      rw [e1, List.cons_prefix_cons]
      exact ⟨rfl, ih B (fun w hw => hA w (by simp [hw])) (fun w hw => hB w (by simp [hw])) ⟨tl, e2⟩⟩

/-- The specification determines the constants from their number. -/
theorem C48_unique (b : Nat → Bool) (n p : Nat) (hn : 0 < n) (c c' : List Nat) (h : Generates b n p c)
    (h' : Generates b n p c') (hl : c.length = c'.length) : c = c' := by
  obtain ⟨N, A, lA, fA, cA, gA⟩ := h
  obtain ⟨N', B, lB, fB, cB, gB⟩ := h'
  have key : ∀ (A B : List (List Bool)), A <+: B → (∀ w, B.getLast? = some w → fromBits w < p) →
      ((A.map fromBits).filter (· < p)).length = ((B.map fromBits).filter (· < p)).length → A = B := by
    rintro A B ⟨X, rfl⟩ hlast hlen
    rcases List.eq_nil_or_concat X with rfl | ⟨X, w, rfl⟩
    · simp
    · exfalso
      have hw := hlast w (by simp)
      simp [hw] at hlen
  rw [← cA, ← cB] at hl ⊢
  rcases Nat.le_total N N' with hN | hN
  · have hp := shrunk_prefix b 240 N N' hN
    rw [fA, fB] at hp
    rw [key A B (words_prefix n hn A B lA lB hp) gB hl]
  · have hp := shrunk_prefix b 240 N' N hN
    rw [fA, fB] at hp
    rw [key B A (words_prefix n hn B A lB lA hp) gA hl.symm]

/-- The generator with toy parameters (4-bit constants below 13, width 2, two rounds) returns. -/
example : generateRoundConstants 20 20 4 13 2 2 0 ≠ none := by decide +kernel

end Verif.Props
