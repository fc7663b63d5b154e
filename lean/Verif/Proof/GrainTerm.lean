import Mathlib.Data.ZMod.Basic
import Mathlib.Tactic.LinearCombination
import Verif.Proof.CompRing
import Verif.Proof.Grain
/-
The self-shrinking loop ends: an LFSR sequence whose bits at even distances are all zero is zero.
-/
namespace Verif

/-- A polynomial in the shift operator, applied to a sequence; coefficients lowest first. -/
def act : List Nat → (Nat → ZMod 2) → Nat → ZMod 2
  | [], _, _ => 0
  | c :: cs, o, j => (c : ZMod 2) * o j + act cs o (j + 1)

theorem act_add : ∀ (as bs : List Nat) (o : Nat → ZMod 2) (j : Nat),
    act ((natOps 2).polyAdd as bs) o j = act as o j + act bs o j
  | [], bs, o, j => by simp [CompOps.polyAdd, act]
  | a :: as, [], o, j => by simp [CompOps.polyAdd, act]
  | a :: as, b :: bs, o, j => by
    have := act_add as bs o (j + 1)
    simp only [act, CompOps.polyAdd, natOps] at this ⊢
    rw [this, natCast_mod 2 (by decide)]; push_cast; ring

theorem act_scale (c : Nat) (as : List Nat) (o : Nat → ZMod 2) (j : Nat) :
    act ((natOps 2).polyScale c as) o j = c * act as o j := by
  induction as generalizing j with
  | nil => simp [CompOps.polyScale, act]
  | cons a as ih =>
    simp only [CompOps.polyScale, List.map_cons, act, natOps] at ih ⊢
    rw [ih, natCast_mod 2 (by decide)]; push_cast; ring

theorem act_mul : ∀ (as bs : List Nat) (o : Nat → ZMod 2) (j : Nat),
    act ((natOps 2).polyMul as bs) o j = act as (act bs o) j
  | [], bs, o, j => by simp [CompOps.polyMul, act]
  | a :: as, bs, o, j => by
    rw [CompOps.polyMul, act_add, act_scale, act, act, act_mul as bs o (j + 1)]
    simp [natOps]

theorem act_zero (as : List Nat) (o : Nat → ZMod 2) (h : ∀ j, o j = 0) (j : Nat) : act as o j = 0 := by
  induction as generalizing j with
  | nil => rfl
  | cons a as ih => rw [act, ih, h]; simp

theorem act_replicate (n : Nat) (cs : List Nat) (o : Nat → ZMod 2) (j : Nat) :
    act (List.replicate n 0 ++ cs) o j = act cs o (j + n) := by
  induction n generalizing j with
  | zero => rfl
  | succ n ih => rw [List.replicate_succ, List.cons_append, act, ih]; simp [Nat.add_assoc, Nat.add_comm 1 n]

/-- `x^80 + x^62 + x^51 + x^38 + x^23 + x^13 + 1`. -/
def grainPoly : List Nat :=
  1 :: (List.replicate 12 0 ++ (1 :: (List.replicate 9 0 ++ (1 :: (List.replicate 14 0 ++ (1 ::
    (List.replicate 12 0 ++ (1 :: (List.replicate 10 0 ++ (1 :: (List.replicate 17 0 ++ [1])))))))))))

/-- `x^25 + x^11 + x^6`, the odd part. -/
def grainOdd : List Nat := List.replicate 6 0 ++ (1 :: (List.replicate 4 0 ++ (1 :: (List.replicate 13 0 ++ [1]))))

def bezoutA : List Nat := [1, 0, 0, 0, 0, 0, 1, 0, 1, 1, 1, 1, 1, 1, 0, 1, 0, 1, 1, 0, 1, 0, 1, 0, 1]
def bezoutB : List Nat :=
  [1, 0, 1, 1, 1, 0, 1, 1, 1, 0, 0, 0, 0, 0, 1, 1, 0, 0, 0, 1, 0, 1, 0, 0, 0, 1, 1, 1, 1, 0, 0, 0, 1, 0, 0, 1, 0, 0, 0,
   1, 1, 0, 1, 1, 1, 0, 1, 1, 1, 0, 1, 1, 0, 0, 1, 0, 0, 1, 0, 0, 1, 1, 0, 0, 1, 0, 1, 1, 1, 0, 1, 0, 1, 1, 0, 1, 0, 1,
   0, 1]

/-- The two polynomials are coprime. -/
theorem grain_bezout : (natOps 2).polyAdd ((natOps 2).polyMul bezoutA grainPoly) ((natOps 2).polyMul bezoutB grainOdd)
    = 1 :: List.replicate 104 0 := by decide +kernel

theorem act_grainPoly (o : Nat → ZMod 2) (j : Nat) : act grainPoly o j
    = o j + o (j + 13) + o (j + 23) + o (j + 38) + o (j + 51) + o (j + 62) + o (j + 80) := by
  simp only [grainPoly, act, act_replicate, Nat.add_assoc]
  push_cast
  ring

theorem act_grainOdd (o : Nat → ZMod 2) (j : Nat) : act grainOdd o j = o (j + 6) + o (j + 11) + o (j + 25) := by
  simp only [grainOdd, act, act_replicate, Nat.add_assoc]
  push_cast
  ring

theorem act_bezout (o : Nat → ZMod 2) (h1 : ∀ j, act grainPoly o j = 0) (h2 : ∀ j, act grainOdd o j = 0) (j : Nat) :
    o j = 0 := by
  have h := act_add ((natOps 2).polyMul bezoutA grainPoly) ((natOps 2).polyMul bezoutB grainOdd) o j
  rw [grain_bezout, act_mul, act_mul, act_zero _ _ h1, act_zero _ _ h2, add_zero,
    show (1 :: List.replicate 104 0) = (1 :: (List.replicate 104 0 ++ [])) by simp, act, act_replicate, act] at h
  simpa using h

theorem char_two (x : ZMod 2) : x + x = 0 := by revert x; decide

/-- A sequence with the recurrence of the LFSR, over the field with two elements. -/
def LinRec (q : Nat → ZMod 2) : Prop :=
  ∀ i, q (i + 80) = q i + q (i + 13) + q (i + 23) + q (i + 38) + q (i + 51) + q (i + 62)

/-- The square of the recurrence: the subsequences at distance two satisfy it as well. -/
theorem LinRec.double {q : Nat → ZMod 2} (h : LinRec q) (i : Nat) :
    q (i + 160) = q i + q (i + 26) + q (i + 46) + q (i + 76) + q (i + 102) + q (i + 124) := by
  have e0 := h (i + 80)
  have e1 := h i
  have e2 := h (i + 13)
  have e3 := h (i + 23)
  have e4 := h (i + 38)
  have e5 := h (i + 51)
  have e6 := h (i + 62)
  simp only [Nat.add_assoc, Nat.reduceAdd] at e0 e1 e2 e3 e4 e5 e6
  linear_combination e0 + e1 + e2 + e3 + e4 + e5 + e6 + char_two (q (i + 13)) + char_two (q (i + 23)) +
    char_two (q (i + 38)) + char_two (q (i + 51)) + char_two (q (i + 62)) + char_two (q (i + 36)) +
    char_two (q (i + 51)) + char_two (q (i + 64)) + char_two (q (i + 75)) + char_two (q (i + 61)) +
    char_two (q (i + 74)) + char_two (q (i + 85)) + char_two (q (i + 89)) + char_two (q (i + 100)) +
    char_two (q (i + 113))

/-- If every second bit is zero from some point on, the sequence is zero. -/
theorem LinRec.zero {q : Nat → ZMod 2} (h : LinRec q) (m : Nat) (h0 : ∀ k, q (m + 2 * k) = 0) (n : Nat) : q n = 0 := by
  have hodd : ∀ j, q (m + 2 * j + 1) = 0 := by
    refine act_bezout (fun j => q (m + 2 * j + 1)) (fun j => ?_) (fun j => ?_)
    · rw [act_grainPoly]
      have := h.double (m + 2 * j + 1)
      rw [show m + 2 * (j + 13) + 1 = m + 2 * j + 1 + 26 by omega, show m + 2 * (j + 23) + 1 = m + 2 * j + 1 + 46 by omega,
        show m + 2 * (j + 38) + 1 = m + 2 * j + 1 + 76 by omega, show m + 2 * (j + 51) + 1 = m + 2 * j + 1 + 102 by omega,
        show m + 2 * (j + 62) + 1 = m + 2 * j + 1 + 124 by omega, show m + 2 * (j + 80) + 1 = m + 2 * j + 1 + 160 by omega,
        this]
      exact char_two _
    · rw [act_grainOdd]
      have := h (m + 2 * j)
      rw [show m + 2 * j + 80 = m + 2 * (j + 40) by omega, show m + 2 * j + 38 = m + 2 * (j + 19) by omega,
        show m + 2 * j + 62 = m + 2 * (j + 31) by omega, h0, h0, h0, h0] at this
      rw [show m + 2 * (j + 6) + 1 = m + 2 * j + 13 by omega, show m + 2 * (j + 11) + 1 = m + 2 * j + 23 by omega,
        show m + 2 * (j + 25) + 1 = m + 2 * j + 51 by omega]
      linear_combination -this
  have hlate : ∀ n, m ≤ n → q n = 0 := by
    intro n hn
    rcases Nat.even_or_odd' (n - m) with ⟨k, hk | hk⟩
    · rw [show n = m + 2 * k by omega]; exact h0 k
    · rw [show n = m + 2 * k + 1 by omega]; exact hodd k
  have hdown : ∀ d n, m ≤ n + d → q n = 0 := by
    intro d
    induction d with
    | zero => intro n hn; exact hlate n hn
    | succ d ih =>
      intro n hn
      have := h n
      rw [ih (n + 80) (by omega), ih (n + 13) (by omega), ih (n + 23) (by omega), ih (n + 38) (by omega),
        ih (n + 51) (by omega), ih (n + 62) (by omega)] at this
      simpa using this.symm
  exact hdown m n (by omega)

theorem linRec_of_recurrence {b : Nat → Bool} (h : Recurrence b) : LinRec (fun n => if b n then 1 else 0) := by
  intro i
  simp only [h i]
  cases b i <;> cases b (i + 13) <;> cases b (i + 23) <;> cases b (i + 38) <;> cases b (i + 51) <;>
    cases b (i + 62) <;> decide

/-- Every state is a window of some sequence with the recurrence. -/
theorem exists_window (s : Nat) (hs : s < 2 ^ 80) : ∃ b, Recurrence b ∧ Window b 0 s := by
  refine ⟨Spec.Grain.seq ((List.range 80).map (lfsrBit s)), seq_recurrence _, hs, fun i hi => ?_⟩
  rw [Nat.zero_add, seq_init _ i hi, List.getElem?_map, List.getElem?_range hi]
  rfl

theorem window_nonzero {b : Nat → Bool} {m s : Nat} (h : Window b m s) : s = 0 ↔ ∀ i, i < 80 → b (m + i) = false := by
  constructor
  · rintro rfl i hi
    rw [← h.2 i hi]; simp [lfsrBit]
  · intro h0
    apply Nat.eq_of_testBit_eq
    intro k
    rw [Nat.zero_testBit]
    by_cases hk : k < 80
    · have := h.2 (79 - k) (by omega)
      rw [h0 _ (by omega), lfsrBit, show 80 - 1 - (79 - k) = k by omega] at this
      exact this
    · exact Nat.testBit_lt_two_pow (lt_of_lt_of_le h.1 (Nat.pow_le_pow_right (by decide) (by omega)))

theorem recurrence_zero {b : Nat → Bool} (h : Recurrence b) (m : Nat) (h0 : ∀ k, b (m + 2 * k) = false) (n : Nat) :
    b n = false := by
  have := (linRec_of_recurrence h).zero m (fun k => by simp [h0 k]) n
  cases hb : b n with
  | false => rfl
  | true => rw [hb] at this; exact absurd this (by decide)

/-- A zero window makes the whole sequence zero. -/
theorem recurrence_window_zero {b : Nat → Bool} (h : Recurrence b) (m : Nat) (h0 : ∀ i, i < 80 → b (m + i) = false)
    (n : Nat) : b n = false := by
  refine recurrence_zero h m (fun k => ?_) n
  have up : ∀ i, b (m + i) = false := by
    intro i
    induction i using Nat.strongRecOn with
    | ind i ih =>
      by_cases hi : i < 80
      · exact h0 i hi
      · obtain ⟨j, rfl⟩ : ∃ j, i = j + 80 := ⟨i - 80, by omega⟩
        rw [← Nat.add_assoc, h (m + j)]
        simp only [Nat.add_assoc]
        rw [ih (j + 62) (by omega), ih (j + 51) (by omega), ih (j + 38) (by omega), ih (j + 23) (by omega),
          ih (j + 13) (by omega), ih j (by omega)]
        rfl
  exact up _

/-- The loop of `update_lfsr_state` ends. -/
theorem lfsrUpdate_ends (s : Nat) (hs : s < 2 ^ 80) (h0 : s ≠ 0) : ∃ fuel, lfsrUpdate fuel s ≠ none := by
  obtain ⟨b, hb, hw⟩ := exists_window s hs
  by_contra hnone
  push Not at hnone
  apply h0
  rw [window_nonzero hw]
  intro i _
  refine recurrence_zero hb 80 (fun k => ?_) _
  have key : ∀ k s m, Window b m s → (∀ fuel, lfsrUpdate fuel s = none) → b (m + 80 + 2 * k) = false := by
    intro k
    induction k with
    | zero =>
      intro s m hw hn
      have h1 := hn 1
      rw [lfsrUpdate] at h1
      have hbit := (window_raw hb hw).2 79 (by omega)
      split at h1
      · exact absurd h1 (by simp)
      · rename_i hif
        rw [show m + 80 + 2 * 0 = m + 1 + 79 by omega, ← hbit]
        simpa using hif
    | succ k ih =>
      intro s m hw hn
      have hw2 := window_raw hb (window_raw hb hw)
      rw [show m + 80 + 2 * (k + 1) = m + 1 + 1 + 80 + 2 * k by omega]
      refine ih _ _ hw2 fun fuel => ?_
      have h1 := hn (fuel + 1)
      rw [lfsrUpdate] at h1
      split at h1
      · exact absurd h1 (by simp)
      · exact h1
  have := key k s 0 hw hnone
  rwa [Nat.zero_add] at this

end Verif
