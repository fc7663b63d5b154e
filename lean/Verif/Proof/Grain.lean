import Verif.Model.PoseidonGen
import Verif.Spec.Grain
/-
The LFSR of the model runs through the windows of the sequence of the specification.
-/
namespace Verif
open Spec.Grain

theorem setNewBit_testBit (w v : Nat) (b : Bool) (k : Nat) :
    (setNewBit w v b).testBit k = (decide (k < w) && (if k = 0 then b else v.testBit (k - 1))) := by
  rw [setNewBit, Nat.testBit_mod_two_pow, Nat.testBit_or, Nat.testBit_shiftLeft]
  by_cases hk : k = 0
  · subst hk; cases b <;> simp
  · have h1 : (if b = true then 1 else 0 : Nat).testBit k = false := by
      cases b
      · simp
      · rw [if_pos rfl]; exact Nat.testBit_lt_two_pow (Nat.one_lt_two_pow hk)
    rw [h1]
    simp [hk, Nat.one_le_iff_ne_zero]

theorem setNewBit_lt (w v : Nat) (b : Bool) : setNewBit w v b < 2 ^ w := Nat.mod_lt _ (Nat.two_pow_pos w)

/-- The state holds the bits `b m, …, b (m + 79)`, the oldest in the highest position. -/
def Window (b : Nat → Bool) (m s : Nat) : Prop := s < 2 ^ 80 ∧ ∀ i, i < 80 → lfsrBit s i = b (m + i)

/-- The recurrence of the LFSR. -/
def Recurrence (b : Nat → Bool) : Prop :=
  ∀ i, b (i + 80) = (b (i + 62) ^^ b (i + 51) ^^ b (i + 38) ^^ b (i + 23) ^^ b (i + 13) ^^ b i)

theorem seq_recurrence (init : List Bool) : Recurrence (seq init) := by
  intro i
  rw [seq, if_neg (by omega), Nat.add_sub_cancel]

theorem seq_init (init : List Bool) (i : Nat) (h : i < 80) : seq init i = (init[i]?).getD false := by
  rw [seq, if_pos h]

theorem window_raw {b : Nat → Bool} (hb : Recurrence b) {m s : Nat} (h : Window b m s) :
    Window b (m + 1) (lfsrRaw s) := by
  refine ⟨setNewBit_lt _ _ _, fun i hi => ?_⟩
  unfold lfsrRaw
  rw [lfsrBit, setNewBit_testBit]
  by_cases hi79 : i = 79
  · subst hi79
    simp only [h.2 0 (by omega), h.2 13 (by omega), h.2 23 (by omega), h.2 38 (by omega), h.2 51 (by omega),
      h.2 62 (by omega)]
    rw [show m + 1 + 79 = m + 80 by omega, hb m]
    simp only [Nat.add_zero]
    cases b m <;> cases b (m + 13) <;> cases b (m + 23) <;> cases b (m + 38) <;> cases b (m + 51) <;>
      cases b (m + 62) <;> rfl
  · have := h.2 (i + 1) (by omega)
    rw [lfsrBit] at this
    rw [if_neg (by omega), decide_eq_true (by omega), Bool.true_and,
      show 80 - 1 - i - 1 = 80 - 1 - (i + 1) by omega, this, show m + 1 + i = m + (i + 1) by omega]

theorem window_iter {b : Nat → Bool} (hb : Recurrence b) {m s : Nat} (h : Window b m s) (k : Nat) :
    Window b (m + k) (lfsrRaw^[k] s) := by
  induction k with
  | zero => exact h
  | succ k ih => rw [Function.iterate_succ_apply', ← Nat.add_assoc]; exact window_raw hb ih

/-- The bits pushed so far, the newest in position 0. -/
def Pushed (bs : List Bool) (s : Nat) : Prop :=
  s < 2 ^ 80 ∧ ∀ k, k < 80 → s.testBit k = (bs.reverse[k]?).getD false

theorem pushed_snoc {bs : List Bool} {s : Nat} (h : Pushed bs s) (b : Bool) :
    Pushed (bs ++ [b]) (setNewBit 80 s b) := by
  refine ⟨setNewBit_lt _ _ _, fun k hk => ?_⟩
  rw [setNewBit_testBit, decide_eq_true hk, Bool.true_and, List.reverse_append, List.reverse_singleton,
    List.singleton_append]
  cases k with
  | zero => simp
  | succ k => simpa using h.2 k (by omega)

theorem toBits_succ (n v : Nat) : toBits (n + 1) v = v.testBit n :: toBits n v := by
  simp [toBits, List.range_succ]

theorem pushed_push (n v : Nat) {bs : List Bool} {s : Nat} (h : Pushed bs s) :
    Pushed (bs ++ toBits n v) (lfsrPush n v s) := by
  induction n generalizing bs s with
  | zero => simpa [toBits, lfsrPush] using h
  | succ n ih =>
    rw [toBits_succ, lfsrPush, show bs ++ v.testBit n :: toBits n v = (bs ++ [v.testBit n]) ++ toBits n v by simp]
    refine ih ?_
    have : ((v >>> n) &&& 1 != 0) = v.testBit n := by
      rw [Nat.testBit, Nat.and_comm]
    rw [this]
    exact pushed_snoc h _

theorem pushed_ones (n : Nat) {bs : List Bool} {s : Nat} (h : Pushed bs s) :
    Pushed (bs ++ List.replicate n true) (lfsrPushOnes n s) := by
  induction n generalizing bs s with
  | zero => simpa [lfsrPushOnes] using h
  | succ n ih =>
    rw [List.replicate_succ, lfsrPushOnes,
      show bs ++ true :: List.replicate n true = (bs ++ [true]) ++ List.replicate n true by simp]
    exact ih (pushed_snoc h _)

theorem toBits_length (n v : Nat) : (toBits n v).length = n := by simp [toBits]

theorem initial_length (f s n t RF RP : Nat) : (initial f s n t RF RP).length = 80 := by
  simp [initial, toBits_length]

theorem window_seed (n t RF RP : Nat) : Window (seq (initial 1 1 n t RF RP)) 0 (lfsrSeed n t RF RP) := by
  have h0 : Pushed [] 0 := ⟨by decide, fun k _ => by simp⟩
  have h : Pushed (initial 1 1 n t RF RP) (lfsrSeed n t RF RP) := by
    have := pushed_ones 30 (pushed_push 10 RP (pushed_push 10 RF (pushed_push 12 t (pushed_push 12 n
      (pushed_push 4 1 (pushed_push 2 1 h0))))))
    simpa [initial, lfsrSeed] using this
  refine ⟨h.1, fun i hi => ?_⟩
  have hl := initial_length 1 1 n t RF RP
  rw [lfsrBit, h.2 _ (by omega), Nat.zero_add, seq_init _ i hi, List.getElem?_reverse (by omega)]
  congr 2; omega

theorem window_init (n t RF RP : Nat) : Window (seq (initial 1 1 n t RF RP)) 160 (lfsrInit n t RF RP) := by
  rw [← Nat.zero_add 160]
  exact window_iter (seq_recurrence _) (window_seed n t RF RP) 160

theorem shrunk_succ (b : Nat → Bool) (m N : Nat) :
    shrunk b m (N + 1) = shrunk b m N ++ if b (m + 2 * N) then [b (m + 2 * N + 1)] else [] := by
  rw [shrunk, List.range_succ, List.filterMap_append]
  congr 1
  simp only [List.filterMap_cons, List.filterMap_nil]
  split <;> simp_all

/-- One call of `update_lfsr_state` gives the next bit of the self-shrinking generator. -/
theorem window_update {b : Nat → Bool} (hb : Recurrence b) {m : Nat} (fuel : Nat) {N s s' : Nat}
    (h : Window b (m + 2 * N) s) (e : lfsrUpdate fuel s = some s') :
    ∃ N', Window b (m + 2 * N') s' ∧ shrunk b (m + 80) N' = shrunk b (m + 80) N ++ [lfsrBit s' 79] := by
  induction fuel generalizing N s with
  | zero => simp [lfsrUpdate] at e
  | succ fuel ih =>
    have h1 := window_raw hb h
    have h2 := window_raw hb h1
    have hbit : lfsrBit (lfsrRaw s) 79 = b (m + 80 + 2 * N) := by
      rw [h1.2 79 (by omega)]; congr 1; omega
    rw [lfsrUpdate] at e
    rw [show m + 2 * N + 1 + 1 = m + 2 * (N + 1) by omega] at h2
    split at e
    · rename_i hif
      have hb1 : b (m + 80 + 2 * N) = true := by rw [← hbit]; exact hif
      have he : lfsrRaw (lfsrRaw s) = s' := Option.some.inj e
      subst he
      refine ⟨N + 1, h2, ?_⟩
      rw [shrunk_succ, if_pos hb1, h2.2 79 (by omega)]
      congr 3; omega
    · rename_i hif
      have hb0 : b (m + 80 + 2 * N) = false := by rw [← hbit]; simpa using hif
      obtain ⟨N', w', e'⟩ := ih h2 e
      refine ⟨N', w', ?_⟩
      rw [e', shrunk_succ, hb0]; simp

theorem fromBits_snoc (bs : List Bool) (b : Bool) : fromBits (bs ++ [b]) = 2 * fromBits bs + b.toNat := by
  simp [fromBits]

theorem fromBits_lt (bs : List Bool) : fromBits bs < 2 ^ bs.length := by
  induction bs using List.reverseRecOn with
  | nil => simp [fromBits]
  | append_singleton bs b ih =>
    rw [fromBits_snoc, List.length_append, List.length_singleton, Nat.pow_succ]
    have := Bool.toNat_le b
    omega

theorem setNewBit_fromBits (w : Nat) (bs : List Bool) (b : Bool) (h : bs.length < w) :
    setNewBit w (fromBits bs) b = fromBits (bs ++ [b]) := by
  have h1 := fromBits_lt (bs ++ [b])
  have h2 : fromBits bs <<< 1 ||| (if b = true then 1 else 0) = fromBits (bs ++ [b]) := by
    rw [fromBits_snoc, Nat.shiftLeft_eq, Nat.pow_one, Nat.mul_comm]
    cases b
    · simp
    · rw [if_pos rfl, Bool.toNat_true]
      exact (Nat.two_pow_add_eq_or_of_lt (i := 1) (by decide) (fromBits bs)).symm
  rw [setNewBit, h2, Nat.mod_eq_of_lt]
  refine lt_of_lt_of_le h1 (Nat.pow_le_pow_right (by decide) ?_)
  simpa using h

theorem window_word {b : Nat → Bool} (hb : Recurrence b) {m : Nat} (fuel width : Nat) (j : Nat) {N s c s' : Nat}
    (bs : List Bool) (hw : bs.length + j = width) (h : Window b (m + 2 * N) s)
    (e : lfsrWord fuel width j (fromBits bs) s = some (c, s')) :
    ∃ (N' : Nat) (bs' : List Bool), Window b (m + 2 * N') s' ∧ bs'.length = j ∧
      shrunk b (m + 80) N' = shrunk b (m + 80) N ++ bs' ∧ c = fromBits (bs ++ bs') := by
  induction j generalizing N s bs with
  | zero =>
    rw [lfsrWord] at e
    obtain ⟨rfl, rfl⟩ := Prod.mk.inj (Option.some.inj e)
    exact ⟨N, [], h, rfl, by simp, by simp⟩
  | succ j ih =>
    rw [lfsrWord] at e
    obtain ⟨s1, e1, e2⟩ := Option.bind_eq_some_iff.1 e
    obtain ⟨N1, w1, f1⟩ := window_update hb fuel h e1
    rw [setNewBit_fromBits _ _ _ (by omega)] at e2
    obtain ⟨N', bs', w', l', f', c'⟩ := ih (bs ++ [lfsrBit s1 (80 - 1)])
      (by rw [List.length_append, List.length_singleton]; omega) w1 e2
    refine ⟨N', lfsrBit s1 (80 - 1) :: bs', w', by simp [l'], ?_, ?_⟩
    · rw [f', f1]; simp
    · rw [c']; simp

theorem window_constant {b : Nat → Bool} (hb : Recurrence b) {m : Nat} (bitFuel n p : Nat) (fuel : Nat)
    {N s c s' : Nat} (h : Window b (m + 2 * N) s) (e : lfsrConstant bitFuel n p fuel s = some (c, s')) :
    ∃ (N' : Nat) (words : List (List Bool)), Window b (m + 2 * N') s' ∧ (∀ w ∈ words, w.length = n) ∧
      shrunk b (m + 80) N' = shrunk b (m + 80) N ++ words.flatten ∧
      (words.map fromBits).filter (· < p) = [c] ∧ ∃ w, words.getLast? = some w ∧ fromBits w < p := by
  induction fuel generalizing N s with
  | zero => simp [lfsrConstant] at e
  | succ fuel ih =>
    rw [lfsrConstant] at e
    obtain ⟨⟨c1, s1⟩, e1, e2⟩ := Option.bind_eq_some_iff.1 e
    obtain ⟨N1, bs, w1, l1, f1, rfl⟩ := window_word hb bitFuel n n [] (by simp) h e1
    rw [List.nil_append] at e2
    simp only at e2
    split at e2
    · rename_i hlt
      obtain ⟨rfl, rfl⟩ := Prod.mk.inj (Option.some.inj e2)
      exact ⟨N1, [bs], w1, by simp [l1], by simpa using f1, by simp [hlt], bs, by simp, hlt⟩
    · rename_i hge
      obtain ⟨N', words, w', l', f', c', w, g1, g2⟩ := ih w1 e2
      refine ⟨N', bs :: words, w', ?_, ?_, ?_, w, ?_, g2⟩
      · intro x hx
        rcases List.mem_cons.1 hx with rfl | hx
        · exact l1
        · exact l' x hx
      · rw [f', f1]; simp
      · simpa [hge] using c'
      · cases words with
        | nil => simp at g1
        | cons a words => simpa using g1

theorem window_row {b : Nat → Bool} (hb : Recurrence b) {m : Nat} (bitFuel n p fuel : Nat) (i : Nat)
    {N s s' : Nat} {cs : List Nat} (h : Window b (m + 2 * N) s)
    (e : lfsrRow bitFuel n p fuel i s = some (cs, s')) :
    ∃ (N' : Nat) (words : List (List Bool)), Window b (m + 2 * N') s' ∧ (∀ w ∈ words, w.length = n) ∧
      shrunk b (m + 80) N' = shrunk b (m + 80) N ++ words.flatten ∧
      (words.map fromBits).filter (· < p) = cs ∧ cs.length = i ∧
      ∀ w, words.getLast? = some w → fromBits w < p := by
  induction i generalizing N s cs with
  | zero =>
    rw [lfsrRow] at e
    obtain ⟨rfl, rfl⟩ := Prod.mk.inj (Option.some.inj e)
    exact ⟨N, [], h, by simp, by simp, by simp, rfl, by simp⟩
  | succ i ih =>
    rw [lfsrRow] at e
    obtain ⟨⟨c1, s1⟩, e1, e2⟩ := Option.bind_eq_some_iff.1 e
    obtain ⟨⟨cs2, s2⟩, e3, e4⟩ := Option.bind_eq_some_iff.1 e2
    obtain ⟨rfl, rfl⟩ := Prod.mk.inj (Option.some.inj e4)
    obtain ⟨N1, words1, w1, l1, f1, c1', w, g1, g2⟩ := window_constant hb bitFuel n p fuel h e1
    obtain ⟨N2, words2, w2, l2, f2, c2', n2, g3⟩ := ih w1 e3
    refine ⟨N2, words1 ++ words2, w2, ?_, ?_, ?_, by simp [n2], ?_⟩
    · intro x hx
      rcases List.mem_append.1 hx with hx | hx
      · exact l1 x hx
      · exact l2 x hx
    · rw [f2, f1]; simp
    · rw [List.map_append, List.filter_append, c1', c2']; rfl
    · intro x hx
      cases words2 with
      | nil => rw [List.append_nil, g1] at hx; rw [← Option.some.inj hx]; exact g2
      | cons a l =>
        rw [List.getLast?_append] at hx
        apply g3
        rw [List.getLast?_eq_some_getLast (by simp)] at hx ⊢
        simpa using hx

theorem window_rows {b : Nat → Bool} (hb : Recurrence b) {m : Nat} (bitFuel n p fuel t : Nat) (r : Nat)
    {N s : Nat} {rows : List (List Nat)} (h : Window b (m + 2 * N) s)
    (e : lfsrRows bitFuel n p fuel t r s = some rows) :
    ∃ (N' : Nat) (words : List (List Bool)), (∀ w ∈ words, w.length = n) ∧
      shrunk b (m + 80) N' = shrunk b (m + 80) N ++ words.flatten ∧
      (words.map fromBits).filter (· < p) = rows.flatten ∧ rows.length = r ∧ (∀ row ∈ rows, row.length = t) ∧
      ∀ w, words.getLast? = some w → fromBits w < p := by
  induction r generalizing N s rows with
  | zero =>
    rw [lfsrRows] at e
    rw [← Option.some.inj e]
    exact ⟨N, [], by simp, by simp, by simp, rfl, by simp, by simp⟩
  | succ r ih =>
    rw [lfsrRows] at e
    obtain ⟨⟨row, s1⟩, e1, e2⟩ := Option.bind_eq_some_iff.1 e
    obtain ⟨rows2, e3, e4⟩ := Option.bind_eq_some_iff.1 e2
    rw [← Option.some.inj e4]
    obtain ⟨N1, words1, w1, l1, f1, c1', n1, g1⟩ := window_row hb bitFuel n p fuel t h e1
    obtain ⟨N2, words2, l2, f2, c2', n2, r2, g3⟩ := ih w1 e3
    refine ⟨N2, words1 ++ words2, ?_, ?_, ?_, by simp [n2], ?_, ?_⟩
    · intro x hx
      rcases List.mem_append.1 hx with hx | hx
      · exact l1 x hx
      · exact l2 x hx
    · rw [f2, f1]; simp
    · rw [List.map_append, List.filter_append, c1', c2']; rfl
    · intro x hx
      rcases List.mem_cons.1 hx with rfl | hx
      · exact n1
      · exact r2 x hx
    · intro x hx
      cases words2 with
      | nil => rw [List.append_nil] at hx; exact g1 x hx
      | cons a l =>
        rw [List.getLast?_append] at hx
        apply g3
        rw [List.getLast?_eq_some_getLast (by simp)] at hx ⊢
        simpa using hx

end Verif
