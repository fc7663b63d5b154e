import Verif.Proof.OracleChange
import Verif.Spec.OracleFinder
/-
Collisions and preimages of a random function, for programs that see its values through a simulator of a hash function.
-/
namespace Verif.Oracle
open Spec.Oracle Spec.Ideal Verif.Ideal

namespace Asker
variable {M : Type} {V : M → Type}

/-- The program asks for the value of `m`. -/
def Asked (F : (m : M) → V m) (m : M) : Asker M V → Prop
  | done _ => False
  | ask m' next => m = m' ∨ (next (F m')).Asked F m

open Classical in
theorem asked_fix (m : M) (v : V m) (F : (m : M) → V m) (k : M) (T : Asker M V) (h : T.Asked (Function.update F m v) k) :
    k = m ∨ (T.fix m v).Asked F k := by
  induction T with
  | done b => exact h.elim
  | ask m' next ih =>
    unfold fix
    rcases h with h | h
    · split
      · rename_i hm
        exact Or.inl (h.trans hm)
      · exact Or.inr (Or.inl h)
    · split
      · rename_i hm
        subst hm
        rw [Function.update_self] at h
        exact ih _ h
      · rename_i hm
        rw [Function.update_of_ne hm] at h
        rcases ih _ h with h | h
        · exact Or.inl h
        · exact Or.inr (Or.inr h)

end Asker

section
variable {M : Type} [Fintype M] {V : M → Type} [∀ m, Fintype (V m)] [∀ m, Nonempty (V m)] {A : Type}

open Classical in
/-- One answer first. -/
theorem chance_ask (m : M) (next : V m → Asker M V) :
    (chance fun F : (m : M) → V m => (Asker.ask m next).eval F = true) =
      chance fun x : ((k : M) → V k) × V m => ((next x.2).fix m x.2).eval x.1 = true := by
  rw [← chance_first m fun a w => ((next a).fix m a).eval w = true]
  · congr 1
    funext w
    rw [Asker.eval_fix, Function.update_eq_self]
    rfl
  · intro a w w' hw hp
    rw [Asker.eval_fix] at hp ⊢
    rw [← hp]
    congr 1
    funext k
    by_cases hk : k = m
    · subst hk
      rw [Function.update_self, Function.update_self]
    · rw [Function.update_of_ne hk, Function.update_of_ne hk, hw k hk]

theorem chance_none {Ω : Type} [Fintype Ω] {p : Ω → Prop} (h : ∀ w, ¬ p w) : chance p = 0 := by
  classical
  unfold chance
  rw [Finset.filter_eq_empty_iff.2 fun w _ => h w]
  simp

/-- An event is unlikely when, except for few values of the second outcome, it is unlikely for the first. -/
theorem chance_le_except {Ω Ω' : Type} [Fintype Ω] [Fintype Ω'] [Nonempty Ω] [Nonempty Ω'] (p : Ω × Ω' → Prop) (bad : Ω' → Prop) {β γ : ℚ}
    (hγ : 0 ≤ γ) (hb : chance bad ≤ β) (h : ∀ b, ¬ bad b → (chance fun a => p (a, b)) ≤ γ) : chance p ≤ β + γ := by
  classical
  refine le_trans (chance_le_add (q := fun x => bad x.2) (r := fun x => ¬ bad x.2 ∧ p x) fun x hx => ?_) (add_le_add ?_ ?_)
  · by_cases hbx : bad x.2
    · exact Or.inl hbx
    · exact Or.inr ⟨hbx, hx⟩
  · rw [chance_dummy (Ω := Ω) (Ω' := Ω') bad]
    exact hb
  · refine chance_le_of_snd fun b => ?_
    by_cases hbb : bad b
    · refine le_trans (le_of_eq ?_) hγ
      exact chance_none fun a ha => ha.1 hbb
    · exact le_trans (chance_mono fun a ha => ha.2) (h b hbb)

open Classical in
/-- The function with some values replaced. -/
noncomputable def over (S : Finset M) (a F : (m : M) → V m) : (m : M) → V m := fun m => if m ∈ S then a m else F m

/-- The values at the places in `S` contain one of few. -/
theorem chance_hits (g : (m : M) → V m → A) {δ : ℚ} (hδ : ∀ m t, (chance fun v : V m => g m v = t) ≤ δ) (m : M) (S : Finset M)
    (t : M → A) : (chance fun v : V m => ∃ i ∈ S, g m v = t i) ≤ S.card * δ := by
  classical
  induction S using Finset.induction_on with
  | empty => rw [chance_none (by simp)]; simp
  | insert i S hi ih =>
    rw [Finset.card_insert_of_notMem hi]
    refine le_trans (chance_le_add (q := fun v => ∃ i ∈ S, g m v = t i) (r := fun v => g m v = t i) fun v hv => ?_) ?_
    · obtain ⟨k, hk, h⟩ := hv
      rcases Finset.mem_insert.1 hk with rfl | hk
      · exact Or.inr h
      · exact Or.inl ⟨k, hk, h⟩
    · refine le_trans (add_le_add ih (hδ m (t i))) (le_of_eq ?_)
      push_cast
      ring

open Classical in
/-- A program that asks at most `n` values of a random function finds two that go to the same element of `A` with probability at most
`n(n-1)/2 · δ`; `S` and `a` are the values it knows before. -/
theorem ask_collision (g : (m : M) → V m → A) {δ : ℚ} (h0 : 0 ≤ δ) (hδ : ∀ m t, (chance fun v : V m => g m v = t) ≤ δ) :
    ∀ (n : Nat) (T : Asker M V) (S : Finset M) (a : (m : M) → V m), T.AtMost n →
      (∀ i ∈ S, ∀ j ∈ S, i ≠ j → g i (a i) ≠ g j (a j)) →
      (∀ F, T.eval F = true → ∃ i j, (i ∈ S ∨ T.Asked F i) ∧ (j ∈ S ∨ T.Asked F j) ∧ i ≠ j ∧ g i (over S a F i) = g j (over S a F j)) →
      (chance fun F : (m : M) → V m => T.eval F = true) ≤ (n * S.card + n * (n - 1) / 2) * δ := by
  have hdone : ∀ (b : Bool) (S : Finset M) (a : (m : M) → V m), (∀ i ∈ S, ∀ j ∈ S, i ≠ j → g i (a i) ≠ g j (a j)) →
      (∀ F, (Asker.done b : Asker M V).eval F = true → ∃ i j, (i ∈ S ∨ (Asker.done b : Asker M V).Asked F i) ∧
        (j ∈ S ∨ (Asker.done b : Asker M V).Asked F j) ∧ i ≠ j ∧ g i (over S a F i) = g j (over S a F j)) →
      (chance fun F : (m : M) → V m => (Asker.done b : Asker M V).eval F = true) = 0 := by
    intro b S a hfree hsound
    refine chance_none fun F hF => ?_
    obtain ⟨i, j, hi, hj, hne, he⟩ := hsound F hF
    have hi : i ∈ S := hi.resolve_right fun h => h
    have hj : j ∈ S := hj.resolve_right fun h => h
    unfold over at he
    rw [if_pos hi, if_pos hj] at he
    exact hfree i hi j hj hne he
  intro n
  induction n with
  | zero =>
    intro T S a hT hfree hsound
    cases T with
    | ask m next => exact hT.elim
    | done b => rw [hdone b S a hfree hsound]; simp
  | succ n ih =>
    intro T S a hT hfree hsound
    have hn : (0 : ℚ) ≤ n * (n - 1) / 2 := by
      cases n with
      | zero => simp
      | succ n => push_cast; rw [add_sub_cancel_right]; positivity
    have hpos : (0 : ℚ) ≤ ((n + 1 : Nat) * S.card + (n + 1 : Nat) * ((n + 1 : Nat) - 1) / 2) * δ := by
      refine mul_nonneg ?_ h0
      push_cast
      rw [add_sub_cancel_right]
      positivity
    cases T with
    | done b => rw [hdone b S a hfree hsound]; exact hpos
    | ask m next =>
      refine le_trans (le_of_eq (chance_ask m next)) ?_
      have hstep : ∀ F v, ((next v).fix m v).eval F = (Asker.ask m next).eval (Function.update F m v) := by
        intro F v
        rw [Asker.eval_fix]
        show _ = (next (Function.update F m v m)).eval _
        rw [Function.update_self]
      have hask : ∀ F v k, (Asker.ask m next).Asked (Function.update F m v) k → k = m ∨ ((next v).fix m v).Asked F k := by
        intro F v k h
        rcases h with h | h
        · exact Or.inl h
        · rw [Function.update_self] at h
          exact Asker.asked_fix m v F k _ h
      by_cases hm : m ∈ S
      · have h3 : ∀ v, (chance fun F : (m : M) → V m => ((next v).fix m v).eval F = true) ≤ (n * S.card + n * (n - 1) / 2) * δ := by
          intro v
          refine ih _ S a (Asker.atMost_fix _ _ _ _ (hT v)) hfree fun F hF => ?_
          rw [hstep] at hF
          obtain ⟨i, j, hi, hj, hne, he⟩ := hsound _ hF
          have ho : over S a (Function.update F m v) = over S a F := by
            funext k
            unfold over
            by_cases hk : k ∈ S
            · rw [if_pos hk, if_pos hk]
            · rw [if_neg hk, if_neg hk, Function.update_of_ne fun e : k = m => hk (e ▸ hm)]
          rw [ho] at he
          have hin : ∀ k, k ∈ S ∨ (Asker.ask m next).Asked (Function.update F m v) k → k ∈ S ∨ ((next v).fix m v).Asked F k := by
            rintro k (hk | hk)
            · exact Or.inl hk
            · rcases hask F v k hk with rfl | hk
              · exact Or.inl hm
              · exact Or.inr hk
          exact ⟨i, j, hin i hi, hin j hj, hne, he⟩
        · refine le_trans (chance_le_of_snd (p := fun x : ((k : M) → V k) × V m => ((next x.2).fix m x.2).eval x.1 = true) h3) ?_
          refine mul_le_mul_of_nonneg_right ?_ h0
          push_cast
          rw [add_sub_cancel_right]
          have : (0 : ℚ) ≤ S.card := Nat.cast_nonneg _
          have : (0 : ℚ) ≤ n := Nat.cast_nonneg _
          nlinarith
      · have hb := chance_hits g hδ m S fun i => g i (a i)
        suffices h3 : ∀ v, (¬ ∃ i ∈ S, g m v = g i (a i)) →
            (chance fun F : (m : M) → V m => ((next v).fix m v).eval F = true) ≤ (n * (S.card + 1) + n * (n - 1) / 2) * δ by
          refine le_trans (chance_le_except (fun x : ((k : M) → V k) × V m => ((next x.2).fix m x.2).eval x.1 = true) _
            (mul_nonneg (by positivity) h0) hb h3) (le_of_eq ?_)
          push_cast
          ring
        intro v hv
        have h := ih ((next v).fix m v) (insert m S) (Function.update a m v) (Asker.atMost_fix _ _ _ _ (hT v)) ?_ ?_
        · rw [Finset.card_insert_of_notMem hm] at h
          push_cast at h
          exact h
        · have hne : ∀ i ∈ S, i ≠ m := fun i hi e => hm (e ▸ hi)
          intro i hi j hj hij he
          rcases Finset.mem_insert.1 hi with rfl | hi' <;> rcases Finset.mem_insert.1 hj with rfl | hj'
          · exact hij rfl
          · rw [Function.update_self, Function.update_of_ne (hne j hj')] at he
            exact hv ⟨j, hj', he⟩
          · rw [Function.update_self, Function.update_of_ne (hne i hi')] at he
            exact hv ⟨i, hi', he.symm⟩
          · rw [Function.update_of_ne (hne i hi'), Function.update_of_ne (hne j hj')] at he
            exact hfree i hi' j hj' hij he
        · intro F hF
          rw [hstep] at hF
          obtain ⟨i, j, hi, hj, hne, he⟩ := hsound _ hF
          have ho : over S a (Function.update F m v) = over (insert m S) (Function.update a m v) F := by
            funext k
            unfold over
            by_cases hkm : k = m
            · subst hkm
              rw [if_neg hm, if_pos (Finset.mem_insert_self _ _), Function.update_self, Function.update_self]
            · by_cases hk : k ∈ S
              · rw [if_pos hk, if_pos (Finset.mem_insert_of_mem hk), Function.update_of_ne hkm]
              · rw [if_neg hk, if_neg (fun h => (Finset.mem_insert.1 h).elim hkm hk), Function.update_of_ne hkm]
          rw [ho] at he
          have hin : ∀ k, k ∈ S ∨ (Asker.ask m next).Asked (Function.update F m v) k →
              k ∈ insert m S ∨ ((next v).fix m v).Asked F k := by
            rintro k (hk | hk)
            · exact Or.inl (Finset.mem_insert_of_mem hk)
            · rcases hask F v k hk with rfl | hk
              · exact Or.inl (Finset.mem_insert_self _ _)
              · exact Or.inr hk
          exact ⟨i, j, hin i hi, hin j hj, hne, he⟩

open Classical in
/-- It finds one that goes to a given element with probability at most `n · δ`. -/
theorem ask_preimage (g : (m : M) → V m → A) (t : A) {δ : ℚ} (h0 : 0 ≤ δ) (hδ : ∀ m, (chance fun v : V m => g m v = t) ≤ δ) :
    ∀ (n : Nat) (T : Asker M V), T.AtMost n → (∀ F, T.eval F = true → ∃ i, T.Asked F i ∧ g i (F i) = t) →
      (chance fun F : (m : M) → V m => T.eval F = true) ≤ n * δ := by
  intro n
  -- with some values replaced by others that do not go to `t`
  suffices H : ∀ (T : Asker M V) (S : Finset M) (a : (m : M) → V m), T.AtMost n → (∀ i ∈ S, g i (a i) ≠ t) →
      (∀ F, T.eval F = true → ∃ i, (i ∈ S ∨ T.Asked F i) ∧ g i (over S a F i) = t) →
      (chance fun F : (m : M) → V m => T.eval F = true) ≤ n * δ by
    intro T hT hs
    refine H T ∅ (fun m => Classical.arbitrary _) hT (by simp) fun F hF => ?_
    obtain ⟨i, hi, he⟩ := hs F hF
    exact ⟨i, Or.inr hi, by simpa [over] using he⟩
  have hdone : ∀ (b : Bool) (S : Finset M) (a : (m : M) → V m), (∀ i ∈ S, g i (a i) ≠ t) →
      (∀ F, (Asker.done b : Asker M V).eval F = true → ∃ i, (i ∈ S ∨ (Asker.done b : Asker M V).Asked F i) ∧ g i (over S a F i) = t) →
      (chance fun F : (m : M) → V m => (Asker.done b : Asker M V).eval F = true) = 0 := by
    intro b S a hfree hsound
    refine chance_none fun F hF => ?_
    obtain ⟨i, hi, he⟩ := hsound F hF
    have hi : i ∈ S := hi.resolve_right fun h => h
    unfold over at he
    rw [if_pos hi] at he
    exact hfree i hi he
  induction n with
  | zero =>
    intro T S a hT hfree hsound
    cases T with
    | ask m next => exact hT.elim
    | done b => rw [hdone b S a hfree hsound]; simp
  | succ n ih =>
    intro T S a hT hfree hsound
    cases T with
    | done b => rw [hdone b S a hfree hsound]; positivity
    | ask m next =>
      refine le_trans (le_of_eq (chance_ask m next)) ?_
      have hstep : ∀ F v, ((next v).fix m v).eval F = (Asker.ask m next).eval (Function.update F m v) := by
        intro F v
        rw [Asker.eval_fix]
        show _ = (next (Function.update F m v m)).eval _
        rw [Function.update_self]
      have hask : ∀ F v k, (Asker.ask m next).Asked (Function.update F m v) k → k = m ∨ ((next v).fix m v).Asked F k := by
        intro F v k h
        rcases h with h | h
        · exact Or.inl h
        · rw [Function.update_self] at h
          exact Asker.asked_fix m v F k _ h
      suffices h3 : ∀ v, ¬ g m v = t → (chance fun F : (m : M) → V m => ((next v).fix m v).eval F = true) ≤ n * δ by
        refine le_trans (chance_le_except (fun x : ((k : M) → V k) × V m => ((next x.2).fix m x.2).eval x.1 = true) _ (by positivity) (hδ m) h3)
          (le_of_eq ?_)
        push_cast
        ring
      intro v hv
      by_cases hm : m ∈ S
      · refine ih _ S a (Asker.atMost_fix _ _ _ _ (hT v)) hfree fun F hF => ?_
        rw [hstep] at hF
        obtain ⟨i, hi, he⟩ := hsound _ hF
        have ho : over S a (Function.update F m v) = over S a F := by
          funext k
          unfold over
          by_cases hk : k ∈ S
          · rw [if_pos hk, if_pos hk]
          · rw [if_neg hk, if_neg hk, Function.update_of_ne fun e : k = m => hk (e ▸ hm)]
        rw [ho] at he
        refine ⟨i, ?_, he⟩
        rcases hi with hi | hi
        · exact Or.inl hi
        · rcases hask F v i hi with rfl | hi
          · exact Or.inl hm
          · exact Or.inr hi
      · refine ih _ (insert m S) (Function.update a m v) (Asker.atMost_fix _ _ _ _ (hT v)) ?_ fun F hF => ?_
        · intro i hi
          rcases Finset.mem_insert.1 hi with rfl | hi
          · rw [Function.update_self]
            exact hv
          · rw [Function.update_of_ne fun e : i = m => hm (e ▸ hi)]
            exact hfree i hi
        · rw [hstep] at hF
          obtain ⟨i, hi, he⟩ := hsound _ hF
          have ho : over S a (Function.update F m v) = over (insert m S) (Function.update a m v) F := by
            funext k
            unfold over
            by_cases hkm : k = m
            · subst hkm
              rw [if_neg hm, if_pos (Finset.mem_insert_self _ _), Function.update_self, Function.update_self]
            · by_cases hk : k ∈ S
              · rw [if_pos hk, if_pos (Finset.mem_insert_of_mem hk), Function.update_of_ne hkm]
              · rw [if_neg hk, if_neg (fun h => (Finset.mem_insert.1 h).elim hkm hk), Function.update_of_ne hkm]
          rw [ho] at he
          refine ⟨i, ?_, he⟩
          rcases hi with hi | hi
          · exact Or.inl (Finset.mem_insert_of_mem hi)
          · rcases hask F v i hi with rfl | hi
            · exact Or.inl (Finset.mem_insert_self _ _)
            · exact Or.inr hi

open Classical in
/-- It finds one that goes to the same element as the value at `m` with probability at most `n · δ`. -/
theorem ask_second (g : (m : M) → V m → A) {δ : ℚ} (h0 : 0 ≤ δ) (hδ : ∀ m t, (chance fun v : V m => g m v = t) ≤ δ) (n : Nat) (m : M)
    (next : V m → Asker M V) (hn : ∀ v, (next v).AtMost n)
    (hs : ∀ v F, (next v).eval F = true → ∃ i, (next v).Asked F i ∧ i ≠ m ∧ g i (F i) = g m v) :
    (chance fun F : (m : M) → V m => (Asker.ask m next).eval F = true) ≤ n * δ := by
  refine le_trans (le_of_eq (chance_ask m next)) ?_
  have h3 : ∀ v, (chance fun F : (m : M) → V m => ((next v).fix m v).eval F = true) ≤ n * δ := by
    intro v
    refine ask_preimage (fun i w => i ≠ m ∧ g i w = g m v) True h0
      (fun i => le_trans (chance_mono fun w hw => (of_eq_true hw).2) (hδ i (g m v))) n _ (Asker.atMost_fix _ _ _ _ (hn v)) fun F hF => ?_
    rw [Asker.eval_fix] at hF
    obtain ⟨i, hi, hne, he⟩ := hs v _ hF
    rw [Function.update_of_ne hne] at he
    exact ⟨i, (Asker.asked_fix m v F i _ hi).resolve_left hne, eq_true ⟨hne, he⟩⟩
  exact chance_le_of_snd (p := fun x : ((k : M) → V k) × V m => ((next x.2).fix m x.2).eval x.1 = true) h3
end

/-! ### Programs that call the hash function -/

/-- The same program with another result. -/
def mapResult {I D : Type} {R R' : Type*} (f : R → R') : Finder I D R → Finder I D R'
  | .done r => .done (f r)
  | .hash x next => .hash x fun d => mapResult f (next d)

theorem result_mapResult {I D : Type} {R R' : Type*} (f : R → R') (H : I → D) (P : Finder I D R) : (mapResult f P).result H = f (P.result H) := by
  induction P with
  | done r => rfl
  | hash x next ih => exact ih _

theorem atMost_mapResult {I D : Type} {R R' : Type*} (f : R → R') (P : Finder I D R) : ∀ n, P.AtMost n → (mapResult f P).AtMost n := by
  induction P with
  | done r => exact fun _ _ => trivial
  | hash x next ih =>
    intro n h
    cases n with
    | zero => exact h.elim
    | succ n => exact fun d => ih d n (h d)

section
variable {I D A Q : Type} {R : Type*}

/-- A program for the two worlds: it calls the hash function, and then the construction. -/
def finish (k : R → Caller Q A I D) : Finder I D R → Caller Q A I D
  | .done r => k r
  | .hash x next => .hash x fun d => finish k (next d)

theorem real_finish (k : R → Caller Q A I D) (h : Q → A) (H : I → D) (P : Finder I D R) :
    (finish k P).real h H = (k (P.result H)).real h H := by
  induction P with
  | done r => rfl
  | hash x next ih => exact ih _

theorem atMost_finish (k : R → Caller Q A I D) (c : Nat) (hk : ∀ r n, c ≤ n → (k r).AtMost n) (P : Finder I D R) :
    ∀ n, P.AtMost n → (finish k P).AtMost (n + c) := by
  induction P with
  | done r => intro n _; exact hk r _ (Nat.le_add_left _ _)
  | hash x next ih =>
    intro n h
    cases n with
    | zero => exact h.elim
    | succ n =>
      rw [Nat.add_right_comm]
      exact fun d => ih d n (h d)

theorem ideal_finish {M : Type} {V : M → Type} (k : R → Caller Q A I D) (msg : Q → M) (wrap : (q : Q) → V (msg q) → A)
    (S : HashSimulator M V I D) (F : (m : M) → V m) (c : S.Coins) (ok : (M → Prop) → Prop)
    (hmono : ∀ p q : M → Prop, (∀ m, p m → q m) → ok p → ok q)
    (hk : ∀ r s, (asker msg S wrap c (k r) s).eval F = true → ok fun m => (asker msg S wrap c (k r) s).Asked F m) (P : Finder I D R) :
    ∀ s, (asker msg S wrap c (finish k P) s).eval F = true → ok fun m => (asker msg S wrap c (finish k P) s).Asked F m := by
  induction P with
  | done r => exact fun s => hk r s
  | hash x next ih =>
    intro s h
    unfold finish asker at h ⊢
    cases hw : S.wants c s x with
    | none =>
      simp only [hw] at h ⊢
      exact ih _ _ h
    | some m =>
      simp only [hw] at h ⊢
      exact hmono _ _ (fun m' hm' => Or.inr hm') (ih _ _ h)

end
end Verif.Oracle
