import Verif.Proof.Prf
import Verif.Spec.OracleIndiff
/-
A construction that hashes the message once and then chains blocks: `β = H (first m)`, output block `0` is `H (next m 0 β)` and
output block `i + 1` is `H (next m (i + 1) (mix β (block i)))`.  Indifferentiable from a random function when `H` is random.
-/
namespace Verif.Oracle
open Spec.Oracle Spec.Ideal Verif.Ideal

/-- The construction. -/
structure Chain (I D M : Type) where
  ell : M → Nat
  first : M → I
  next : M → Nat → D → I
  mix : D → D → D
  first_injective : Function.Injective first
  mix_injective : ∀ e, Function.Injective fun d => mix d e
  first_ne : ∀ m m' i d, i < ell m' → first m ≠ next m' i d
  next_inj : ∀ m m' i i' d d', i < ell m → i' < ell m' → next m i d = next m' i' d' → i = i' ∧ d = d'

namespace Chain
variable {I D M : Type} (C : Chain I D M) [Inhabited D]

/-- Block `i` of an output. -/
def blk (m : M) (v : Fin (C.ell m) → D) (i : Nat) : D := if h : i < C.ell m then v ⟨i, h⟩ else default

/-- What is hashed for block `i`, when the first digest is `β` and the output is `v`. -/
def point (m : M) (v : Fin (C.ell m) → D) (β : D) : Nat → I
  | 0 => C.next m 0 β
  | i + 1 => C.next m (i + 1) (C.mix β (C.blk m v i))

/-- Block `i` of the output in the real world. -/
def realBlk (H : I → D) (m : M) : Nat → D
  | 0 => H (C.next m 0 (H (C.first m)))
  | i + 1 => H (C.next m (i + 1) (C.mix (H (C.first m)) (realBlk H m i)))

/-- The output in the real world. -/
def realOut (H : I → D) (m : M) : Fin (C.ell m) → D := fun i => C.realBlk H m i

theorem blk_lt (m : M) (v : Fin (C.ell m) → D) {i : Nat} (h : i < C.ell m) : C.blk m v i = v ⟨i, h⟩ := dif_pos h

theorem realBlk_point (H : I → D) (m : M) {i : Nat} (h : i < C.ell m) :
    H (C.point m (C.realOut H m) (H (C.first m)) i) = C.realBlk H m i := by
  cases i with
  | zero => rfl
  | succ i =>
    show H (C.next m (i + 1) (C.mix _ (C.blk m (C.realOut H m) i))) = _
    rw [C.blk_lt m _ (show i < C.ell m by omega)]
    rfl

theorem realBlk_of (H : I → D) (m : M) (v : Fin (C.ell m) → D)
    (h : ∀ i < C.ell m, H (C.point m v (H (C.first m)) i) = C.blk m v i) : ∀ i < C.ell m, C.realBlk H m i = C.blk m v i := by
  intro i
  induction i with
  | zero => exact fun hi => h 0 hi
  | succ i ih =>
    intro hi
    rw [← h _ hi]
    show H (C.next m (i + 1) (C.mix _ (C.realBlk H m i))) = _
    rw [ih (by omega)]
    rfl

theorem realOut_of (H : I → D) (m : M) (v : Fin (C.ell m) → D)
    (h : ∀ i < C.ell m, H (C.point m v (H (C.first m)) i) = C.blk m v i) : C.realOut H m = v := by
  funext i
  show C.realBlk H m i.1 = v i
  rw [C.realBlk_of H m v h i.1 i.2, C.blk_lt m v i.2]

theorem point_inj (m : M) (v : Fin (C.ell m) → D) (β : D) {i i' : Nat} (hi : i < C.ell m) (hi' : i' < C.ell m)
    (h : C.point m v β i = C.point m v β i') : i = i' := by
  cases i <;> cases i' <;> exact (C.next_inj _ _ _ _ _ _ hi hi' h).1

theorem first_ne_point (m m' : M) (v : Fin (C.ell m') → D) (β : D) {i : Nat} (hi : i < C.ell m') :
    C.first m ≠ C.point m' v β i := by
  cases i <;> exact C.first_ne _ _ _ _ hi

/-- The place of two points that agree is the same. -/
theorem point_index {m m' : M} {v : Fin (C.ell m) → D} {v' : Fin (C.ell m') → D} {β β' : D} {i i' : Nat} (hi : i < C.ell m)
    (hi' : i' < C.ell m') (h : C.point m v β i = C.point m' v' β' i') : i = i' := by
  cases i <;> cases i' <;> exact (C.next_inj _ _ _ _ _ _ hi hi' h).1

theorem point_beta {m : M} {v : Fin (C.ell m) → D} {β β' : D} {i : Nat} (hi : i < C.ell m)
    (h : C.point m v β i = C.point m v β' i) : β = β' := by
  cases i with
  | zero => exact (C.next_inj _ _ _ _ _ _ hi hi h).2
  | succ i => exact C.mix_injective _ (C.next_inj _ _ _ _ _ _ hi hi h).2

/-! ### The simulator -/

/-- What the simulator knows about a message. -/
structure Entry where
  m : M
  β : D
  v : Fin (C.ell m) → D

variable {C}

/-- What is hashed for block `i` of a message that the simulator knows. -/
def Entry.point (e : C.Entry) (i : Nat) : I := C.point e.m e.v e.β i

variable (C)

open Classical in
/-- The message that a query belongs to. -/
noncomputable def msgOf (x : I) : Option M := if h : ∃ m, C.first m = x then some h.choose else none

omit [Inhabited D] in
theorem msgOf_some {x : I} {m : M} : C.msgOf x = some m ↔ C.first m = x := by
  unfold msgOf
  split
  · rename_i h
    constructor
    · intro e
      rw [← Option.some.inj e]
      exact h.choose_spec
    · intro e
      exact congrArg some (C.first_injective (h.choose_spec.trans e.symm))
  · rename_i h
    constructor
    · intro e; cases e
    · intro e; exact absurd ⟨m, e⟩ h

open Classical in
/-- The first digest of a message that the simulator knows. -/
noncomputable def look (K : List C.Entry) (m : M) : Option D := (K.find? fun e => decide (e.m = m)).map Entry.β

open Classical in
omit [Inhabited D] in
theorem look_some {K : List C.Entry} {m : M} {β : D} (h : C.look K m = some β) : ∃ e ∈ K, e.m = m ∧ e.β = β := by
  unfold look at h
  obtain ⟨e, he, hβ⟩ := Option.map_eq_some_iff.1 h
  exact ⟨e, List.mem_of_find?_eq_some he, of_decide_eq_true (List.find?_some (p := fun e : C.Entry => decide (e.m = m)) he), hβ⟩

omit [Inhabited D] in
theorem look_none {K : List C.Entry} {m : M} : C.look K m = none ↔ ∀ e ∈ K, e.m ≠ m := by
  unfold look
  rw [Option.map_eq_none_iff, List.find?_eq_none]
  simp

open Classical in
/-- The answer to a query that belongs to a block of a message that the simulator knows. -/
noncomputable def hit (K : List C.Entry) (x : I) : Option D :=
  if h : ∃ t : C.Entry × Nat, t.1 ∈ K ∧ t.2 < C.ell t.1.m ∧ t.1.point t.2 = x then some (C.blk _ h.choose.1.v h.choose.2) else none

theorem hit_some {K : List C.Entry} {x : I} {d : D} (h : C.hit K x = some d) :
    ∃ e ∈ K, ∃ i < C.ell e.m, e.point i = x ∧ C.blk e.m e.v i = d := by
  unfold hit at h
  split at h
  · rename_i hx
    exact ⟨_, hx.choose_spec.1, _, hx.choose_spec.2.1, hx.choose_spec.2.2, Option.some.inj h⟩
  · cases h

theorem hit_none {K : List C.Entry} {x : I} (h : C.hit K x = none) : ∀ e ∈ K, ∀ i < C.ell e.m, e.point i ≠ x := by
  intro e he i hi hx
  unfold hit at h
  rw [dif_pos ⟨(e, i), he, hi, hx⟩] at h
  cases h

open Classical in
/-- The simulator: the first digest of a message is drawn at random, and then the blocks are those of the random function. -/
noncomputable def simulator [Fintype I] [Fintype D] : HashSimulator M (fun m => Fin (C.ell m) → D) I D where
  State := List C.Entry
  start := []
  Coins := I → D
  fintype := inferInstance
  wants _ _ x := C.msgOf x
  reply c K x o :=
    match o with
    | some ⟨m, v⟩ =>
      match C.look K m with
      | some β => (K, β)
      | none => (⟨m, c x, v⟩ :: K, c x)
    | none =>
      match C.hit K x with
      | some d => (K, d)
      | none => (K, c x)

/-! ### Runs -/

/-- What has happened: messages known to the simulator, messages called for but not known to it, other queries. -/
structure St where
  K : List C.Entry
  E : List M
  X : List I

variable {C}
variable (F : (m : M) → Fin (C.ell m) → D) (H : I → D)

open Classical in
/-- A query. -/
noncomputable def stepHash (st : C.St) (x : I) : C.St × D :=
  match C.msgOf x with
  | some m =>
    match C.look st.K m with
    | some β => (st, β)
    | none => (⟨⟨m, H x, F m⟩ :: st.K, st.E.filter fun m' => decide (m' ≠ m), st.X⟩, H x)
  | none =>
    match C.hit st.K x with
    | some d => (st, d)
    | none => (⟨st.K, st.E, x :: st.X⟩, H x)

/-- The message has been called for or is known to the simulator. -/
def St.Touched (st : C.St) (m : M) : Prop := m ∈ st.E ∨ ∃ e ∈ st.K, e.m = m

open Classical in
/-- A call. -/
noncomputable def stepCall (st : C.St) (m : M) : C.St := if st.Touched m then st else ⟨st.K, m :: st.E, st.X⟩

variable {Q : Type*} {A : Type} (msg : Q → M) (wrap : (q : Q) → (Fin (C.ell (msg q)) → D) → A)

/-- The run of a distinguisher in the ideal world. -/
noncomputable def run : Caller Q A I D → C.St → C.St × Bool
  | .done b, st => (st, b)
  | .call q next, st => run (next (wrap q (F (msg q)))) (stepCall st (msg q))
  | .hash x next, st => run (next (stepHash F H st x).2) (stepHash F H st x).1

theorem ideal_run [Fintype I] [Fintype D] (P : Caller Q A I D) : ∀ st : C.St,
    P.ideal (fun q => wrap q (F (msg q))) C.simulator F H st.K = (run F H msg wrap P st).2 := by
  induction P with
  | done b => exact fun _ => rfl
  | call q next ih =>
    intro st
    have : (stepCall st (msg q)).K = st.K := by unfold stepCall; split <;> rfl
    show (next _).ideal _ C.simulator _ _ st.K = (run F H msg wrap (next _) (stepCall st (msg q))).2
    rw [← ih, this]
  | hash x next ih =>
    intro st
    show (next _).ideal _ C.simulator _ _ _ = (run F H msg wrap (next (stepHash F H st x).2) (stepHash F H st x).1).2
    rw [← ih]
    unfold stepHash
    show (next (C.simulator.reply H st.K x ((C.msgOf x).map fun m => ⟨m, F m⟩)).2).ideal _ C.simulator _ _
      (C.simulator.reply H st.K x ((C.msgOf x).map fun m => ⟨m, F m⟩)).1 = _
    cases hm : C.msgOf x with
    | some m =>
      show (next (match C.look st.K m with | some β => (st.K, β) | none => (⟨m, H x, F m⟩ :: st.K, H x)).2).ideal _ C.simulator _ _
        (match C.look st.K m with | some β => (st.K, β) | none => (⟨m, H x, F m⟩ :: st.K, H x)).1 = _
      cases hl : C.look st.K m <;> simp only [hl]
    | none =>
      show (next (match C.hit st.K x with | some d => (st.K, d) | none => (st.K, H x)).2).ideal _ C.simulator _ _
        (match C.hit st.K x with | some d => (st.K, d) | none => (st.K, H x)).1 = _
      cases hh : C.hit st.K x <;> simp only [hh]

/-- A message with these digests meets something earlier. -/
def Collide (m : M) (v : Fin (C.ell m) → D) (β : D) (st : C.St) : Prop :=
  ∃ i < C.ell m, C.point m v β i ∈ st.X ∨ ∃ e ∈ st.K, ∃ i' < C.ell e.m, C.point m v β i = e.point i'

/-- Two messages meet. -/
def Meet (m m' : M) : Prop :=
  ∃ i < C.ell m, ∃ i' < C.ell m', C.point m (F m) (H (C.first m)) i = C.point m' (F m') (H (C.first m')) i'

/-- At the end some message called for meets something. -/
def BadEnd (st : C.St) : Prop :=
  ∃ m ∈ st.E, Collide m (F m) (H (C.first m)) st ∨ ∃ m' ∈ st.E, m' ≠ m ∧ Meet F H m m'

/-- In the run something meets something. -/
def Bad : Caller Q A I D → C.St → Prop
  | .done _, st => BadEnd F H st
  | .call q next, st => Bad (next (wrap q (F (msg q)))) (stepCall st (msg q))
  | .hash x next, st => (∃ m, C.msgOf x = some m ∧ C.look st.K m = none ∧ Collide m (F m) (H x) st) ∨
      Bad (next (stepHash F H st x).2) (stepHash F H st x).1

/-! ### What holds during a run -/

/-- The entries of the simulator are right. -/
def Right (st : C.St) : Prop := ∀ e ∈ st.K, e.β = H (C.first e.m) ∧ e.v = F e.m

/-- Nothing has met so far. -/
structure Wf (st : C.St) : Prop where
  right : Right F H st
  other : ∀ x ∈ st.X, C.msgOf x = none
  apart : ∀ e ∈ st.K, ∀ i < C.ell e.m, e.point i ∉ st.X
  separate : ∀ e ∈ st.K, ∀ e' ∈ st.K, e.m ≠ e'.m → ∀ i < C.ell e.m, ∀ i' < C.ell e'.m, e.point i ≠ e'.point i'

variable {F H}

omit [Inhabited D] in
theorem right_stepCall {st : C.St} (h : Right F H st) (m : M) : Right F H (stepCall st m) := by
  unfold stepCall
  split <;> exact h

theorem right_stepHash {st : C.St} (h : Right F H st) (x : I) : Right F H (stepHash F H st x).1 := by
  unfold stepHash
  split
  · rename_i m hm
    split
    · exact h
    · intro e he
      rcases List.mem_cons.1 he with rfl | he
      · exact ⟨congrArg H (C.msgOf_some.1 hm).symm, rfl⟩
      · exact h e he
  · split <;> exact h

theorem touched_stepCall {st : C.St} {m m' : M} : (stepCall st m).Touched m' ↔ st.Touched m' ∨ m' = m := by
  unfold stepCall
  split
  · rename_i h
    constructor
    · exact Or.inl
    · rintro (h' | rfl)
      · exact h'
      · exact h
  · show (m' ∈ m :: st.E ∨ ∃ e ∈ st.K, e.m = m') ↔ (m' ∈ st.E ∨ ∃ e ∈ st.K, e.m = m') ∨ _
    rw [List.mem_cons]
    constructor
    · rintro ((h | h) | h)
      · exact Or.inr h
      · exact Or.inl (Or.inl h)
      · exact Or.inl (Or.inr h)
    · rintro ((h | h) | h)
      · exact Or.inl (Or.inr h)
      · exact Or.inr h
      · exact Or.inl (Or.inl h)

open Classical in
theorem touched_stepHash {st : C.St} {x : I} {m' : M} : (stepHash F H st x).1.Touched m' ↔ st.Touched m' ∨ C.msgOf x = some m' := by
  unfold stepHash
  split
  · rename_i m hm
    split
    · rename_i β hβ
      constructor
      · exact Or.inl
      · rintro (h | h)
        · exact h
        · obtain ⟨e, he, h1, -⟩ := C.look_some hβ
          exact Or.inr ⟨e, he, h1.trans (Option.some.inj (hm.symm.trans h))⟩
    · show (m' ∈ st.E.filter _ ∨ ∃ e ∈ _ :: st.K, e.m = m') ↔ (m' ∈ st.E ∨ _) ∨ _
      rw [List.mem_filter]
      constructor
      · rintro (⟨h, -⟩ | ⟨e, he, rfl⟩)
        · exact Or.inl (Or.inl h)
        · rcases List.mem_cons.1 he with rfl | he
          · exact Or.inr hm
          · exact Or.inl (Or.inr ⟨e, he, rfl⟩)
      · rintro ((h | ⟨e, he, rfl⟩) | h)
        · by_cases hmm : m' = m
          · exact Or.inr ⟨_, List.mem_cons_self, hmm.symm⟩
          · exact Or.inl ⟨h, decide_eq_true hmm⟩
        · exact Or.inr ⟨e, List.mem_cons_of_mem _ he, rfl⟩
        · exact Or.inr ⟨_, List.mem_cons_self, Option.some.inj (hm.symm.trans h)⟩
  · rename_i hm
    split
    · constructor
      · exact Or.inl
      · rintro (h | h)
        · exact h
        · cases hm.symm.trans h
    · constructor
      · exact Or.inl
      · rintro (h | h)
        · exact h
        · cases hm.symm.trans h

theorem stepHash_X {st : C.St} {x y : I} (h : y ∈ st.X) : y ∈ (stepHash F H st x).1.X := by
  unfold stepHash
  split
  · split <;> exact h
  · split
    · exact h
    · exact List.mem_cons_of_mem _ h

theorem stepCall_X (st : C.St) (m : M) : (stepCall st m).X = st.X := by
  unfold stepCall
  split <;> rfl

theorem touched_run (P : Caller Q A I D) : ∀ st : C.St, ∀ m, st.Touched m → (run F H msg wrap P st).1.Touched m := by
  induction P with
  | done b => exact fun _ _ h => h
  | call q next ih => exact fun st m h => ih _ _ _ (touched_stepCall.2 (Or.inl h))
  | hash x next ih => exact fun st m h => ih _ _ _ (touched_stepHash.2 (Or.inl h))

theorem run_X (P : Caller Q A I D) : ∀ st : C.St, ∀ y, y ∈ st.X → y ∈ (run F H msg wrap P st).1.X := by
  induction P with
  | done b => exact fun _ _ h => h
  | call q next ih => exact fun st y h => ih _ _ _ (by rw [stepCall_X]; exact h)
  | hash x next ih => exact fun st y h => ih _ _ _ (stepHash_X h)

theorem right_run (P : Caller Q A I D) : ∀ st : C.St, Right F H st → Right F H (run F H msg wrap P st).1 := by
  induction P with
  | done b => exact fun _ h => h
  | call q next ih => exact fun st h => ih _ _ (right_stepCall h _)
  | hash x next ih => exact fun st h => ih _ _ (right_stepHash h _)

theorem wf_stepHash {st : C.St} (h : Wf F H st) {x : I}
    (hb : ¬ ∃ m, C.msgOf x = some m ∧ C.look st.K m = none ∧ Collide m (F m) (H x) st) : Wf F H (stepHash F H st x).1 := by
  unfold stepHash
  split
  · rename_i m hm
    split
    · exact h
    · rename_i hl
      have hr : Right F H ⟨⟨m, H x, F m⟩ :: st.K, st.E, st.X⟩ := by
        intro e he
        rcases List.mem_cons.1 he with rfl | he
        · exact ⟨congrArg H (C.msgOf_some.1 hm).symm, rfl⟩
        · exact h.right e he
      refine ⟨hr, h.other, fun e he i hi hx => ?_, fun e he e' he' hne i hi i' hi' hp => ?_⟩
      · rcases List.mem_cons.1 he with rfl | he
        · exact hb ⟨m, hm, hl, i, hi, Or.inl hx⟩
        · exact h.apart e he i hi hx
      · rcases List.mem_cons.1 he with rfl | he
        · rcases List.mem_cons.1 he' with rfl | he'
          · exact hne rfl
          · exact hb ⟨m, hm, hl, i, hi, Or.inr ⟨e', he', i', hi', hp⟩⟩
        · rcases List.mem_cons.1 he' with rfl | he'
          · exact hb ⟨m, hm, hl, i', hi', Or.inr ⟨e, he, i, hi, hp.symm⟩⟩
          · exact h.separate e he e' he' hne i hi i' hi' hp
  · rename_i hm
    split
    · exact h
    · rename_i hh
      refine ⟨h.right, fun y hy => ?_, fun e he i hi hx => ?_, h.separate⟩
      · rcases List.mem_cons.1 hy with rfl | hy
        · exact hm
        · exact h.other y hy
      · rcases List.mem_cons.1 hx with hx | hx
        · exact C.hit_none hh e he i hi hx
        · exact h.apart e he i hi hx

theorem wf_stepCall {st : C.St} (h : Wf F H st) (m : M) : Wf F H (stepCall st m) := by
  unfold stepCall
  split
  · exact h
  · exact ⟨h.right, h.other, h.apart, h.separate⟩

theorem wf_run (P : Caller Q A I D) : ∀ st : C.St, Wf F H st → ¬ Bad F H msg wrap P st →
    Wf F H (run F H msg wrap P st).1 ∧ ¬ BadEnd F H (run F H msg wrap P st).1 := by
  induction P with
  | done b => exact fun _ h hb => ⟨h, hb⟩
  | call q next ih => exact fun st h hb => ih _ _ (wf_stepCall h _) hb
  | hash x next ih => exact fun st h hb => ih _ _ (wf_stepHash h fun hc => hb (Or.inl hc)) fun hc => hb (Or.inr hc)

/-! ### The real world -/

/-- The messages that the distinguisher calls for, or whose first digest it asks for, in the real world. -/
noncomputable def realTouched (H : I → D) : Caller Q A I D → List M
  | .done _ => []
  | .call q next => msg q :: realTouched H (next (wrap q (C.realOut H (msg q))))
  | .hash x next => (C.msgOf x).toList ++ realTouched H (next (H x))

variable (F H)

/-- `G` gives the answers of the run that ended in `st`. -/
structure Fits (G : I → D) (st : C.St) : Prop where
  first : ∀ m, st.Touched m → G (C.first m) = H (C.first m)
  block : ∀ m, st.Touched m → ∀ i < C.ell m, G (C.point m (F m) (H (C.first m)) i) = C.blk m (F m) i
  other : ∀ x ∈ st.X, G x = H x

variable {F H}

theorem Fits.out {G : I → D} {st : C.St} (h : Fits F H G st) {m : M} (hm : st.Touched m) : C.realOut G m = F m :=
  C.realOut_of G m (F m) (by rw [h.first m hm]; exact h.block m hm)

/-- The answer to a query is what `G` says. -/
theorem stepHash_fits {G : I → D} {st st' : C.St} (hr : Right F H st) {x : I} (hf : Fits F H G st')
    (ht : ∀ m, (stepHash F H st x).1.Touched m → st'.Touched m) (hX : ∀ y ∈ (stepHash F H st x).1.X, y ∈ st'.X) :
    (stepHash F H st x).2 = G x := by
  have key : ∀ m, st.Touched m ∨ C.msgOf x = some m → st'.Touched m := fun m hm => ht m (touched_stepHash.2 hm)
  unfold stepHash at hX ⊢
  cases hm : C.msgOf x with
  | some m =>
    have hx := C.msgOf_some.1 hm
    have h1 : G x = H x := by rw [← hx]; exact hf.first m (key m (Or.inr hm))
    simp only
    cases hl : C.look st.K m with
    | some β =>
      obtain ⟨e, he, hem, hβ⟩ := C.look_some hl
      show β = G x
      rw [h1, ← hβ, (hr e he).1, hem, hx]
    | none => exact h1.symm
  | none =>
    rw [hm] at hX
    simp only at hX ⊢
    cases hh : C.hit st.K x with
    | some d =>
      obtain ⟨e, he, i, hi, hp, hd⟩ := C.hit_some hh
      show d = G x
      have hb := hf.block e.m (key e.m (Or.inl (Or.inr ⟨e, he, rfl⟩))) i hi
      unfold Entry.point at hp
      rw [(hr e he).1, (hr e he).2] at hp
      rw [hp] at hb
      rw [hb, ← hd, (hr e he).2]
    | none =>
      rw [hh] at hX
      exact (hf.other x (hX x List.mem_cons_self)).symm

theorem real_run (G : I → D) (P : Caller Q A I D) : ∀ st : C.St, Right F H st → Fits F H G (run F H msg wrap P st).1 →
    P.real (fun q => wrap q (C.realOut G (msg q))) G = (run F H msg wrap P st).2 ∧
      ∀ m, (run F H msg wrap P st).1.Touched m ↔ st.Touched m ∨ m ∈ realTouched msg wrap G P := by
  induction P with
  | done b =>
    exact fun st _ _ => ⟨rfl, fun m => ⟨Or.inl, fun h => h.elim id fun h => absurd h List.not_mem_nil⟩⟩
  | call q next ih =>
    intro st hr hf
    have hm : (run F H msg wrap (.call q next) st).1.Touched (msg q) :=
      touched_run msg wrap (next _) _ _ (touched_stepCall.2 (Or.inr rfl))
    have ho := hf.out hm
    obtain ⟨h1, h2⟩ := ih _ _ (right_stepCall hr (msg q)) hf
    constructor
    · show (next (wrap q (C.realOut G (msg q)))).real _ G = _
      rw [ho]
      exact h1
    · intro m
      show (run F H msg wrap (next _) _).1.Touched m ↔ _
      rw [h2 m, touched_stepCall]
      show _ ↔ _ ∨ m ∈ msg q :: realTouched msg wrap G (next (wrap q (C.realOut G (msg q))))
      rw [ho, List.mem_cons]
      tauto
  | hash x next ih =>
    intro st hr hf
    have ha : (stepHash F H st x).2 = G x := stepHash_fits hr hf
      (fun m hm => touched_run msg wrap (next _) _ _ hm) fun y hy => run_X msg wrap (next _) _ _ hy
    obtain ⟨h1, h2⟩ := ih _ _ (right_stepHash hr x) hf
    constructor
    · show (next (G x)).real _ G = _
      rw [← ha]
      exact h1
    · intro m
      show (run F H msg wrap (next _) _).1.Touched m ↔ _
      rw [h2 m, touched_stepHash]
      show _ ↔ _ ∨ m ∈ (C.msgOf x).toList ++ realTouched msg wrap G (next (G x))
      rw [← ha, List.mem_append, Option.mem_toList]
      exact or_assoc

end Chain

end Verif.Oracle
