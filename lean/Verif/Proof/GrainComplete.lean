import Verif.Props.Grain
/-
The generators of round constants return, with enough fuel, whenever the stream has enough words below the modulus.
-/
namespace Verif
open Spec.Grain Props

theorem lfsrUpdate_mono {f f' s s' : Nat} (hf : f ≤ f') (h : lfsrUpdate f s = some s') :
    lfsrUpdate f' s = some s' := by
  induction f generalizing f' s with
  | zero => simp [lfsrUpdate] at h
  | succ f ih =>
    obtain ⟨g, rfl⟩ : ∃ g, f' = g + 1 := ⟨f' - 1, by omega⟩
    rw [lfsrUpdate] at h ⊢
    split at h
    · rename_i hb; rw [if_pos hb]; exact h
    · rename_i hb; rw [if_neg hb]; exact ih (by omega) h

theorem lfsrWord_mono {f f' w j c s : Nat} {r : Nat × Nat} (hf : f ≤ f') (h : lfsrWord f w j c s = some r) :
    lfsrWord f' w j c s = some r := by
  induction j generalizing c s with
  | zero => exact h
  | succ j ih =>
    rw [lfsrWord] at h ⊢
    obtain ⟨s', hs', h⟩ := Option.bind_eq_some_iff.1 h
    exact Option.bind_eq_some_iff.2 ⟨s', lfsrUpdate_mono hf hs', ih h⟩

theorem lfsrConstant_mono {bf bf' n p f f' s : Nat} {r : Nat × Nat} (hb : bf ≤ bf') (hf : f ≤ f')
    (h : lfsrConstant bf n p f s = some r) : lfsrConstant bf' n p f' s = some r := by
  induction f generalizing f' s with
  | zero => simp [lfsrConstant] at h
  | succ f ih =>
    obtain ⟨g, rfl⟩ : ∃ g, f' = g + 1 := ⟨f' - 1, by omega⟩
    rw [lfsrConstant] at h ⊢
    obtain ⟨w, hw, h⟩ := Option.bind_eq_some_iff.1 h
    refine Option.bind_eq_some_iff.2 ⟨w, lfsrWord_mono hb hw, ?_⟩
    split at h
    · rename_i hlt; rw [if_pos hlt]; exact h
    · rename_i hlt; rw [if_neg hlt]; exact ih (by omega) h

theorem lfsrRow_mono {bf bf' n p f f' i s : Nat} {r : List Nat × Nat} (hb : bf ≤ bf') (hf : f ≤ f')
    (h : lfsrRow bf n p f i s = some r) : lfsrRow bf' n p f' i s = some r := by
  induction i generalizing s r with
  | zero => exact h
  | succ i ih =>
    rw [lfsrRow] at h ⊢
    obtain ⟨c, hc, h⟩ := Option.bind_eq_some_iff.1 h
    obtain ⟨q, hq, h⟩ := Option.bind_eq_some_iff.1 h
    exact Option.bind_eq_some_iff.2 ⟨c, lfsrConstant_mono hb hf hc, Option.bind_eq_some_iff.2 ⟨q, ih hq, h⟩⟩

theorem lfsrRows_mono {bf bf' n p f f' t i s : Nat} {r : List (List Nat)} (hb : bf ≤ bf') (hf : f ≤ f')
    (h : lfsrRows bf n p f t i s = some r) : lfsrRows bf' n p f' t i s = some r := by
  induction i generalizing s r with
  | zero => exact h
  | succ i ih =>
    rw [lfsrRows] at h ⊢
    obtain ⟨c, hc, h⟩ := Option.bind_eq_some_iff.1 h
    obtain ⟨q, hq, h⟩ := Option.bind_eq_some_iff.1 h
    exact Option.bind_eq_some_iff.2 ⟨c, lfsrRow_mono hb hf hc, Option.bind_eq_some_iff.2 ⟨q, ih hq, h⟩⟩

/-- A state that the generator can be in. -/
def Alive (s : Nat) : Prop := s < 2 ^ 80 ∧ s ≠ 0

theorem lfsrUpdate_alive {s : Nat} (h : Alive s) : ∃ f s', lfsrUpdate f s = some s' ∧ Alive s' := by
  obtain ⟨f, k, e, _, hne⟩ := C48_update s h.1 h.2
  exact ⟨f, _, e, (lfsrRaw_iter s h.1 h.2 _).1, hne⟩

theorem lfsrWord_alive (w j : Nat) : ∀ (c s : Nat), Alive s → ∃ f r, lfsrWord f w j c s = some r ∧ Alive r.2 := by
  induction j with
  | zero => intro c s h; exact ⟨0, (c, s), rfl, h⟩
  | succ j ih =>
    intro c s h
    obtain ⟨f, s', e, h'⟩ := lfsrUpdate_alive h
    obtain ⟨g, r, e', hr⟩ := ih (setNewBit w c (lfsrBit s' (80 - 1))) s' h'
    refine ⟨max f g, r, ?_, hr⟩
    rw [lfsrWord]
    exact Option.bind_eq_some_iff.2 ⟨s', lfsrUpdate_mono (le_max_left _ _) e, lfsrWord_mono (le_max_right _ _) e'⟩

/-- From pair `N` on the stream has at least `k` words of `n` bits below `p`. -/
def Avail (b : Nat → Bool) (n p N k : Nat) : Prop :=
  ∃ (N' : Nat) (words : List (List Bool)), (∀ w ∈ words, w.length = n) ∧
    shrunk b 240 N' = shrunk b 240 N ++ words.flatten ∧ k ≤ ((words.map fromBits).filter (· < p)).length

theorem append_prefix_cases (b : Nat → Bool) {N N1 N' : Nat} {x y : List Bool}
    (h1 : shrunk b 240 N1 = shrunk b 240 N ++ x) (h2 : shrunk b 240 N' = shrunk b 240 N ++ y) : x <+: y ∨ y <+: x := by
  rcases Nat.le_total N1 N' with h | h
  · have := shrunk_prefix b 240 N1 N' h
    rw [h1, h2] at this
    exact Or.inl ((List.prefix_append_right_inj _).1 this)
  · have := shrunk_prefix b 240 N' N1 h
    rw [h1, h2] at this
    exact Or.inr ((List.prefix_append_right_inj _).1 this)

theorem lfsrConstant_complete {b : Nat → Bool} (hb : Recurrence b) {n p : Nat} (hn : 0 < n) (words : List (List Bool)) :
    ∀ {N N' s : Nat}, Window b (160 + 2 * N) s → Alive s → (∀ w ∈ words, w.length = n) →
      shrunk b 240 N' = shrunk b 240 N ++ words.flatten → 1 ≤ ((words.map fromBits).filter (· < p)).length →
      ∃ bf f r, lfsrConstant bf n p f s = some r ∧ Alive r.2 := by
  induction words with
  | nil => intro N N' s _ _ _ _ h; simp at h
  | cons w ws ih =>
    intro N N' s hw ha hl hs hk
    obtain ⟨bf, r, e, hr⟩ := lfsrWord_alive n n 0 s ha
    obtain ⟨N1, bs, hw1, hbl, hs1, hc⟩ := window_word hb bf n n [] (by simp) hw (c := r.1) (s' := r.2)
      (by simpa [fromBits] using e)
    by_cases hlt : r.1 < p
    · refine ⟨bf, 1, r, ?_, hr⟩
      rw [lfsrConstant]
      exact Option.bind_eq_some_iff.2 ⟨r, e, by rw [if_pos hlt]⟩
    · have hbw : bs = w := by
        have hwl := hl w (by simp)
        rw [List.flatten_cons] at hs
        have hp : bs <+: w ++ ws.flatten ∨ w ++ ws.flatten <+: bs := append_prefix_cases b hs1 hs
        have hp' : bs <+: w ∨ w <+: bs := by
          rcases hp with h | h
          · exact List.prefix_or_prefix_of_prefix h (List.prefix_append _ _)
          · exact Or.inr ((List.prefix_append _ _).trans h)
        rcases hp' with h | h
        · exact h.eq_of_length (by omega)
        · exact (h.eq_of_length (by omega)).symm
      subst hbw
      rw [List.nil_append] at hc
      have hk' : 1 ≤ ((ws.map fromBits).filter (· < p)).length := by
        rw [List.map_cons, ← hc, List.filter_cons_of_neg (by simpa using hlt)] at hk
        exact hk
      obtain ⟨bf', f, q, e', hq⟩ := ih (N' := N') hw1 hr (fun w hw => hl w (by simp [hw]))
        (by rw [hs, List.flatten_cons, ← List.append_assoc, ← hs1]) hk'
      refine ⟨max bf bf', f + 1, q, ?_, hq⟩
      rw [lfsrConstant]
      refine Option.bind_eq_some_iff.2 ⟨r, lfsrWord_mono (le_max_left _ _) e, ?_⟩
      rw [if_neg hlt]
      exact lfsrConstant_mono (le_max_right _ _) (le_refl _) e'

theorem avail_after {b : Nat → Bool} {n p N N1 k c : Nat} (hn : 0 < n) {words : List (List Bool)}
    (hl : ∀ w ∈ words, w.length = n) (hs : shrunk b 240 N1 = shrunk b 240 N ++ words.flatten)
    (hc : (words.map fromBits).filter (· < p) = [c]) (hlast : ∃ w, words.getLast? = some w ∧ fromBits w < p)
    (h : Avail b n p N (k + 1)) : Avail b n p N1 k := by
  obtain ⟨N', all, al, as, ak⟩ := h
  have hpre : words <+: all := by
    have hp : words.flatten <+: all.flatten ∨ all.flatten <+: words.flatten := append_prefix_cases b hs as
    rcases hp with h | h
    · exact words_prefix n hn words all hl al h
    · have h' := words_prefix n hn all words al hl h
      obtain ⟨rest, hrest⟩ := h'
      rcases List.eq_nil_or_concat rest with rfl | ⟨rest, w, rfl⟩
      · rw [List.append_nil] at hrest; rw [hrest]
      · exfalso
        obtain ⟨w', hw', hlt⟩ := hlast
        rw [List.concat_eq_append] at hrest
        rw [← hrest, ← List.append_assoc, List.getLast?_append] at hw'
        simp at hw'
        subst hw'
        have hlen := congrArg List.length hc
        rw [← hrest] at hlen
        simp [hlt] at hlen
        omega
  obtain ⟨rest, rfl⟩ := hpre
  refine ⟨N', rest, fun w hw => al w (by simp [hw]), ?_, ?_⟩
  · rw [as, List.flatten_append, ← List.append_assoc, ← hs]
  · rw [List.map_append, List.filter_append, hc] at ak
    simp at ak
    omega

theorem lfsrRow_complete {b : Nat → Bool} (hb : Recurrence b) {n p : Nat} (hn : 0 < n) (i : Nat) :
    ∀ {k N s : Nat}, Window b (160 + 2 * N) s → Alive s → Avail b n p N (i + k) →
      ∃ bf f r N1, lfsrRow bf n p f i s = some r ∧ Alive r.2 ∧ Window b (160 + 2 * N1) r.2 ∧ Avail b n p N1 k := by
  induction i with
  | zero =>
    intro k N s hw ha hav
    exact ⟨0, 0, ([], s), N, rfl, ha, hw, by simpa using hav⟩
  | succ i ih =>
    intro k N s hw ha hav
    obtain ⟨N', words, wl, ws, wk⟩ := hav
    obtain ⟨bf, f, c, e, hc⟩ := lfsrConstant_complete hb hn words hw ha wl ws (p := p) (by omega)
    obtain ⟨N1, words1, hw1, hl1, hs1, hc1, hlast1⟩ := window_constant hb bf n p f hw (c := c.1) (s' := c.2) e
    have hav1 : Avail b n p N1 (i + k) :=
      avail_after hn hl1 hs1 hc1 hlast1 ⟨N', words, wl, ws, by omega⟩
    obtain ⟨bf', f', r, N2, e', hr, hw2, hav2⟩ := ih hw1 hc hav1
    refine ⟨max bf bf', max f f', (c.1 :: r.1, r.2), N2, ?_, hr, hw2, hav2⟩
    rw [lfsrRow]
    refine Option.bind_eq_some_iff.2 ⟨c, lfsrConstant_mono (le_max_left _ _) (le_max_left _ _) e, ?_⟩
    exact Option.bind_eq_some_iff.2 ⟨r, lfsrRow_mono (le_max_right _ _) (le_max_right _ _) e', rfl⟩

theorem lfsrRows_complete {b : Nat → Bool} (hb : Recurrence b) {n p t : Nat} (hn : 0 < n) (i : Nat) :
    ∀ {N s : Nat}, Window b (160 + 2 * N) s → Alive s → Avail b n p N (i * t) →
      ∃ bf f r, lfsrRows bf n p f t i s = some r := by
  induction i with
  | zero => intro N s _ _ _; exact ⟨0, 0, [], rfl⟩
  | succ i ih =>
    intro N s hw ha hav
    obtain ⟨bf, f, r, N1, e, hr, hw1, hav1⟩ := lfsrRow_complete hb hn t (k := i * t) hw ha
      (by rw [show t + i * t = (i + 1) * t by ring]; exact hav)
    obtain ⟨bf', f', q, e'⟩ := ih hw1 hr hav1
    refine ⟨max bf bf', max f f', r.1 :: q, ?_⟩
    rw [lfsrRows]
    refine Option.bind_eq_some_iff.2 ⟨r, lfsrRow_mono (le_max_left _ _) (le_max_left _ _) e, ?_⟩
    exact Option.bind_eq_some_iff.2 ⟨q, lfsrRows_mono (le_max_right _ _) (le_max_right _ _) e', rfl⟩

theorem lfsrInit_alive (n t RF RP : Nat) : Alive (lfsrInit n t RF RP) :=
  ⟨(window_init n t RF RP).1, C48_nonzero n t RF RP 160⟩

theorem avail_of_generates {b : Nat → Bool} {n p : Nat} {cs : List Nat} (h : Generates b n p cs) :
    Avail b n p 0 cs.length := by
  obtain ⟨N, words, hl, hs, hc, _⟩ := h
  exact ⟨N, words, hl, by simpa [shrunk] using hs, by rw [hc]⟩

end Verif
