import Mathlib.Logic.Equiv.Prod
import Verif.Proof.ChainIndiff
/-
The distance between the two worlds of `ChainIndiff`.
-/
namespace Verif.Oracle
open Spec.Oracle Spec.Ideal Verif.Ideal

section
variable {Ω : Type} [Fintype Ω]

theorem chance_le_of_injOn {p q : Ω → Prop} (f : Ω → Ω) (h : ∀ a, p a → q (f a)) (hf : ∀ a b, p a → p b → f a = f b → a = b) :
    chance p ≤ chance q := by
  classical
  refine div_le_div_of_nonneg_right (Nat.cast_le.2 (Finset.card_le_card_of_injOn f (fun a ha => ?_) fun a ha b hb e => ?_))
    (Nat.cast_nonneg _)
  · rw [Finset.mem_coe, Finset.mem_filter] at ha ⊢
    exact ⟨Finset.mem_univ _, h a ha.2⟩
  · rw [Finset.mem_coe, Finset.mem_filter] at ha hb
    exact hf a b ha.2 hb.2 e

theorem chance_false [Nonempty Ω] (f : Ω → Bool) : (chance fun a => f a = false) = 1 - chance fun a => f a = true := by
  classical
  have h := Finset.card_filter_add_card_filter_not (s := (Finset.univ : Finset Ω)) fun a => f a = true
  have h0 : (Fintype.card Ω : ℚ) ≠ 0 := Nat.cast_ne_zero.2 Fintype.card_ne_zero
  unfold chance
  rw [eq_sub_iff_add_eq, ← add_div, div_eq_one_iff_eq h0, ← Nat.cast_add]
  rw [Finset.card_univ] at h
  rw [← h, Nat.add_comm]
  simp only [Bool.not_eq_true]
  congr!

end

namespace Chain
variable {I D M : Type} {C : Chain I D M} [Inhabited D] {Q : Type*} {A : Type} (msg : Q → M) (wrap : (q : Q) → (Fin (C.ell (msg q)) → D) → A)
variable (P : Caller Q A I D) (F : (m : M) → Fin (C.ell m) → D) (H : I → D)

/-- What is hashed for block `i` of a message. -/
def pt (m : M) (i : Nat) : I := C.point m (F m) (H (C.first m)) i

theorem entry_point {st : C.St} (hr : Right F H st) {e : C.Entry} (he : e ∈ st.K) (i : Nat) : e.point i = pt F H e.m i := by
  unfold Entry.point pt
  rw [(hr e he).1, (hr e he).2]

theorem pt_separate {st : C.St} (hw : Wf F H st) (hb : ¬ BadEnd F H st) {m m' : M} (hm : st.Touched m) (hm' : st.Touched m')
    (hne : m ≠ m') {i i' : Nat} (hi : i < C.ell m) (hi' : i' < C.ell m') : pt F H m i ≠ pt F H m' i' := by
  intro h
  rcases hm with hm | ⟨e, he, rfl⟩
  · rcases hm' with hm' | ⟨e', he', rfl⟩
    · exact hb ⟨m, hm, Or.inr ⟨m', hm', Ne.symm hne, i, hi, i', hi', h⟩⟩
    · exact hb ⟨m, hm, Or.inl ⟨i, hi, Or.inr ⟨e', he', i', hi', h.trans (entry_point F H hw.right he' i').symm⟩⟩⟩
  · rcases hm' with hm' | ⟨e', he', rfl⟩
    · exact hb ⟨m', hm', Or.inl ⟨i', hi', Or.inr ⟨e, he, i, hi, h.symm.trans (entry_point F H hw.right he i).symm⟩⟩⟩
    · exact hw.separate e he e' he' hne i hi i' hi' (by rw [entry_point F H hw.right he, entry_point F H hw.right he', h])

theorem pt_apart {st : C.St} (hw : Wf F H st) (hb : ¬ BadEnd F H st) {m : M} (hm : st.Touched m) {i : Nat} (hi : i < C.ell m) :
    pt F H m i ∉ st.X := by
  intro h
  rcases hm with hm | ⟨e, he, rfl⟩
  · exact hb ⟨m, hm, Or.inl ⟨i, hi, Or.inl h⟩⟩
  · exact hw.apart e he i hi (by rw [entry_point F H hw.right he]; exact h)

open Classical in
/-- The hash function with the answers of the run. -/
noncomputable def patched (st : C.St) (x : I) : D :=
  if h : ∃ t : M × Nat, st.Touched t.1 ∧ t.2 < C.ell t.1 ∧ pt F H t.1 t.2 = x then C.blk h.choose.1 (F h.choose.1) h.choose.2 else H x

open Classical in
/-- The digests that are not used in the run. -/
noncomputable def unused (st : C.St) (m : M) : Fin (C.ell m) → D := if st.Touched m then fun i => H (pt F H m i) else F m

theorem patched_fits {st : C.St} (hw : Wf F H st) (hb : ¬ BadEnd F H st) : Fits F H (patched F H st) st := by
  refine ⟨fun m hm => ?_, fun m hm i hi => ?_, fun x hx => ?_⟩
  · unfold patched
    rw [dif_neg]
    rintro ⟨t, ht, hi, h⟩
    exact C.first_ne_point m t.1 _ _ hi h.symm
  · have h : ∃ t : M × Nat, st.Touched t.1 ∧ t.2 < C.ell t.1 ∧ pt F H t.1 t.2 = pt F H m i := ⟨(m, i), hm, hi, rfl⟩
    have e : h.choose = (m, i) := by
      obtain ⟨h1, h2, h3⟩ := h.choose_spec
      have hm' : h.choose.1 = m := by
        by_contra hne
        exact pt_separate F H hw hb h1 hm hne h2 hi h3
      refine Prod.ext hm' ?_
      exact C.point_index h2 hi h3
    show patched F H st (pt F H m i) = _
    unfold patched
    rw [dif_pos h, e]
  · unfold patched
    rw [dif_neg]
    rintro ⟨t, ht, hi, rfl⟩
    exact pt_apart F H hw hb ht hi hx

/-- The end of the run. -/
noncomputable def fin : C.St := (run F H msg wrap P ⟨[], [], []⟩).1

open Classical in
/-- The way back. -/
noncomputable def back (w : ((m : M) → Fin (C.ell m) → D) × (I → D)) : ((m : M) → Fin (C.ell m) → D) × (I → D) :=
  (fun m => if m ∈ realTouched msg wrap w.2 P then C.realOut w.2 m else w.1 m,
   fun x => if h : ∃ t : M × Nat, t.1 ∈ realTouched msg wrap w.2 P ∧ t.2 < C.ell t.1 ∧
      C.point t.1 (C.realOut w.2 t.1) (w.2 (C.first t.1)) t.2 = x then C.blk h.choose.1 (w.1 h.choose.1) h.choose.2 else w.2 x)

variable {F H}

theorem wf_start : Wf F H (⟨[], [], []⟩ : C.St) :=
  ⟨fun _ h => absurd h List.not_mem_nil, fun _ h => absurd h List.not_mem_nil, fun _ h => absurd h List.not_mem_nil,
    fun _ h => absurd h List.not_mem_nil⟩

theorem touched_start (m : M) : ¬ (⟨[], [], []⟩ : C.St).Touched m := by
  rintro (h | ⟨e, h, -⟩) <;> exact absurd h List.not_mem_nil

theorem fin_fits (hb : ¬ Bad F H msg wrap P ⟨[], [], []⟩) : Fits F H (patched F H (fin msg wrap P F H)) (fin msg wrap P F H) := by
  obtain ⟨h1, h2⟩ := wf_run msg wrap P _ wf_start hb
  exact patched_fits F H h1 h2

open Classical in
theorem back_patched (hb : ¬ Bad F H msg wrap P ⟨[], [], []⟩) :
    back msg wrap P (unused F H (fin msg wrap P F H), patched F H (fin msg wrap P F H)) = (F, H) := by
  have hf := fin_fits msg wrap P hb
  have ht : ∀ m, (fin msg wrap P F H).Touched m ↔ m ∈ realTouched msg wrap (patched F H (fin msg wrap P F H)) P := by
    intro m
    have := (real_run msg wrap _ P _ wf_start.right hf).2 m
    exact ⟨fun h => (this.1 h).elim (fun h => absurd h (touched_start m)) id, fun h => this.2 (Or.inr h)⟩
  refine Prod.ext ?_ ?_
  · funext m
    show (if m ∈ realTouched msg wrap (patched F H (fin msg wrap P F H)) P then _ else _) = F m
    split
    · rename_i h
      exact hf.out ((ht m).2 h)
    · rename_i h
      exact if_neg fun h' => h ((ht m).1 h')
  · funext x
    have hp : ∀ t : M × Nat, (t.1 ∈ realTouched msg wrap (patched F H (fin msg wrap P F H)) P ∧ t.2 < C.ell t.1 ∧
        C.point t.1 (C.realOut (patched F H (fin msg wrap P F H)) t.1) (patched F H (fin msg wrap P F H) (C.first t.1)) t.2 = x) ↔
        ((fin msg wrap P F H).Touched t.1 ∧ t.2 < C.ell t.1 ∧ pt F H t.1 t.2 = x) := by
      intro t
      rw [← ht]
      constructor
      · rintro ⟨h1, h2, h3⟩
        rw [hf.out h1, hf.first _ h1] at h3
        exact ⟨h1, h2, h3⟩
      · rintro ⟨h1, h2, h3⟩
        rw [hf.out h1, hf.first _ h1]
        exact ⟨h1, h2, h3⟩
    show (if h : ∃ t : M × Nat, _ then _ else _) = H x
    split
    · rename_i h
      obtain ⟨h1, h2, h3⟩ := (hp _).1 h.choose_spec
      show C.blk _ (unused F H _ h.choose.1) h.choose.2 = H x
      rw [C.blk_lt _ _ h2]
      unfold unused
      rw [if_pos h1]
      exact congrArg H h3
    · rename_i h
      show patched F H _ x = H x
      unfold patched
      rw [dif_neg]
      rintro ⟨t, h'⟩
      exact h ⟨t, (hp t).2 h'⟩

variable [Fintype I] [Fintype D] [Fintype M]

open Classical in
/-- Runs in which nothing meets are as likely in the real world. -/
theorem chance_good (b : Bool) :
    (chance fun w : ((m : M) → Fin (C.ell m) → D) × (I → D) =>
      (run w.1 w.2 msg wrap P ⟨[], [], []⟩).2 = b ∧ ¬ Bad w.1 w.2 msg wrap P ⟨[], [], []⟩) ≤
      chance fun G : I → D => P.real (fun q => wrap q (C.realOut G (msg q))) G = b := by
  refine le_trans ?_ (chance_dummy (Ω := (m : M) → Fin (C.ell m) → D) (Ω' := I → D)
    fun G => P.real (fun q => wrap q (C.realOut G (msg q))) G = b).le
  refine chance_le_of_injOn (fun w => (unused w.1 w.2 (fin msg wrap P w.1 w.2), patched w.1 w.2 (fin msg wrap P w.1 w.2))) ?_ ?_
  · rintro w ⟨h1, h2⟩
    exact ((real_run msg wrap _ P _ wf_start.right (fin_fits msg wrap P h2)).1).trans h1
  · rintro w w' ⟨-, h⟩ ⟨-, h'⟩ e
    have := congrArg (back msg wrap P) e
    rw [back_patched msg wrap P h, back_patched msg wrap P h'] at this
    exact this

open Classical in
/-- The worlds differ by at most the probability that something meets. -/
theorem close_of_bad :
    |(chance fun G : I → D => P.real (fun q => wrap q (C.realOut G (msg q))) G = true) - P.idealChance msg wrap C.simulator| ≤
      chance fun w : ((m : M) → Fin (C.ell m) → D) × (I → D) => Bad w.1 w.2 msg wrap P ⟨[], [], []⟩ := by
  have hi : P.idealChance msg wrap C.simulator =
      chance fun w : ((m : M) → Fin (C.ell m) → D) × (I → D) => (run w.1 w.2 msg wrap P ⟨[], [], []⟩).2 = true := by
    simp only [← ideal_run]
    rfl
  have h : ∀ b, (chance fun w : ((m : M) → Fin (C.ell m) → D) × (I → D) => (run w.1 w.2 msg wrap P ⟨[], [], []⟩).2 = b) ≤
      (chance fun G : I → D => P.real (fun q => wrap q (C.realOut G (msg q))) G = b) +
        chance fun w : ((m : M) → Fin (C.ell m) → D) × (I → D) => Bad w.1 w.2 msg wrap P ⟨[], [], []⟩ := by
    intro b
    refine le_trans (chance_le_add (q := fun w : ((m : M) → Fin (C.ell m) → D) × (I → D) =>
      (run w.1 w.2 msg wrap P ⟨[], [], []⟩).2 = b ∧ ¬ Bad w.1 w.2 msg wrap P ⟨[], [], []⟩) fun w hw => ?_)
      (add_le_add (chance_good msg wrap P b) le_rfl)
    by_cases hb : Bad w.1 w.2 msg wrap P ⟨[], [], []⟩
    · exact Or.inr hb
    · exact Or.inl ⟨hw, hb⟩
  have h1 := h true
  have h2 := h false
  rw [chance_false, chance_false] at h2
  rw [hi, abs_le]
  constructor <;> linarith

end Chain

end Verif.Oracle
