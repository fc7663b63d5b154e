import Mathlib.Logic.Equiv.Prod
import Verif.Proof.Prf
import Verif.Spec.OracleIndiff
/-
From a random function to one with other values: if the values `h v` of uniform `v` are nearly uniform, a simulator that knows `v` can be
replaced by one that knows only `h v` and draws a preimage.
-/
namespace Verif.Oracle
open Spec.Oracle Spec.Ideal Verif.Ideal

/-! ### Programs that ask a function -/

/-- A program that asks a function for values. -/
inductive Asker (M : Type) (V : M → Type)
  | done (b : Bool)
  | ask (m : M) (next : V m → Asker M V)

namespace Asker
variable {M : Type} {V : M → Type}

/-- At most so many questions. -/
def AtMost : Asker M V → Nat → Prop
  | done _, _ => True
  | ask _ _, 0 => False
  | ask _ next, n + 1 => ∀ v, (next v).AtMost n

/-- The result. -/
def eval (F : (m : M) → V m) : Asker M V → Bool
  | done b => b
  | ask m next => (next (F m)).eval F

open Classical in
/-- The program with one answer fixed. -/
noncomputable def fix (m : M) (v : V m) : Asker M V → Asker M V
  | done b => done b
  | ask m' next => if h : m' = m then fix m v (next (h ▸ v)) else ask m' fun u => fix m v (next u)

open Classical in
theorem eval_fix (m : M) (v : V m) (F : (m : M) → V m) (T : Asker M V) : (T.fix m v).eval F = T.eval (Function.update F m v) := by
  induction T with
  | done b => rfl
  | ask m' next ih =>
    unfold fix
    split
    · rename_i h
      subst h
      rw [ih]
      show _ = (next (Function.update F m' v m')).eval _
      rw [Function.update_self]
    · rename_i h
      show ((next (F m')).fix m v).eval F = (next (Function.update F m v m')).eval _
      rw [ih, Function.update_of_ne h]

theorem atMost_succ (T : Asker M V) : ∀ n, T.AtMost n → T.AtMost (n + 1) := by
  induction T with
  | done b => intro n _; trivial
  | ask m next ih =>
    intro n h
    cases n with
    | zero => exact h.elim
    | succ n => exact fun v => ih v n (h v)

theorem atMost_fix (m : M) (v : V m) (T : Asker M V) : ∀ n, T.AtMost n → (T.fix m v).AtMost n := by
  induction T with
  | done b => intro n _; trivial
  | ask m' next ih =>
    intro n h
    cases n with
    | zero => exact h.elim
    | succ n =>
      unfold fix
      split
      · exact atMost_succ _ _ (ih _ _ (h _))
      · exact fun u => ih u n (h u)

end Asker

/-! ### Independent values -/

open Classical in
/-- One of several independent outcomes first. -/
theorem chance_first {M : Type} [Fintype M] {Ω : M → Type} [∀ m, Fintype (Ω m)] [∀ m, Nonempty (Ω m)] (m : M)
    (p : Ω m → ((k : M) → Ω k) → Prop) (hp : ∀ a w w', (∀ k, k ≠ m → w k = w' k) → p a w → p a w') :
    (chance fun w : (k : M) → Ω k => p (w m) w) = chance fun x : ((k : M) → Ω k) × Ω m => p x.2 x.1 := by
  have hx : ∀ w, (Equiv.piSplitAt m Ω).symm w m = w.1 := fun w => by simp [Equiv.piSplitAt]
  have hy : ∀ w y, (hy : y ≠ m) → (Equiv.piSplitAt m Ω).symm w y = w.2 ⟨y, hy⟩ := fun w y hy => by
    simp [Equiv.piSplitAt, hy]
  have h1 := chance_equiv (Equiv.piSplitAt m Ω).symm fun w => p (w m) w
  have h2 := chance_equiv (Equiv.prodComm (Ω m) ((k : M) → Ω k)) fun x => p x.2 x.1
  rw [← h1, ← h2, chance_prod, chance_prod]
  congr 1
  refine Finset.sum_congr rfl fun a _ => ?_
  show _ = chance fun w => p a w
  have h3 := chance_equiv (Equiv.piSplitAt m Ω).symm fun w => p a w
  rw [← h3]
  have h4 := chance_dummy (Ω := Ω m) (Ω' := (k : { k // k ≠ m }) → Ω k) fun r => p a ((Equiv.piSplitAt m Ω).symm (a, r))
  have h5 : ∀ r, p ((Equiv.piSplitAt m Ω).symm (a, r) m) ((Equiv.piSplitAt m Ω).symm (a, r)) ↔
      p a ((Equiv.piSplitAt m Ω).symm (a, r)) := fun r => by rw [hx]
  simp only [h5]
  rw [← h4]
  refine le_antisymm (chance_mono fun w h => ?_) (chance_mono fun w h => ?_)
  · exact hp _ _ _ (fun k hk => by rw [hy _ _ hk, hy _ _ hk]) h
  · exact hp _ _ _ (fun k hk => by rw [hy _ _ hk, hy _ _ hk]) h

/-- Averages over the second of two outcomes. -/
theorem chance_close_snd {Ω Ω' Ω'' : Type} [Fintype Ω] [Fintype Ω'] [Fintype Ω''] [Nonempty Ω''] (p : Ω × Ω'' → Prop) (q : Ω' × Ω'' → Prop)
    {ε : ℚ} (h : ∀ b, |(chance fun a => p (a, b)) - chance fun a => q (a, b)| ≤ ε) : |chance p - chance q| ≤ ε := by
  rw [← chance_equiv (Equiv.prodComm Ω'' Ω) p, ← chance_equiv (Equiv.prodComm Ω'' Ω') q, chance_prod, chance_prod]
  exact average_close h

/-- Averages over the first of two outcomes. -/
theorem chance_close_fst {Ω Ω' Ω'' : Type} [Fintype Ω] [Fintype Ω'] [Fintype Ω''] [Nonempty Ω''] (p : Ω'' × Ω → Prop) (q : Ω'' × Ω' → Prop)
    {ε : ℚ} (h : ∀ b, |(chance fun a => p (b, a)) - chance fun a => q (b, a)| ≤ ε) : |chance p - chance q| ≤ ε := by
  rw [chance_prod, chance_prod]
  exact average_close h

open Classical in
/-- A program that asks at most `n` values cannot tell two functions with independent values apart when it cannot tell one value. -/
theorem ask_close {M : Type} [Fintype M] {V Ω Ω' : M → Type} [∀ m, Fintype (Ω m)] [∀ m, Fintype (Ω' m)] [∀ m, Nonempty (Ω m)]
    [∀ m, Nonempty (Ω' m)] (f : (m : M) → Ω m → V m) (g : (m : M) → Ω' m → V m) {δ : ℚ} (h0 : 0 ≤ δ)
    (h : ∀ m (p : V m → Prop), |(chance fun a => p (f m a)) - chance fun a => p (g m a)| ≤ δ) (T : Asker M V) :
    ∀ n, T.AtMost n → |(chance fun w : (m : M) → Ω m => T.eval (fun m => f m (w m)) = true) -
      chance fun w : (m : M) → Ω' m => T.eval (fun m => g m (w m)) = true| ≤ n * δ := by
  intro n
  induction n generalizing T with
  | zero =>
    intro hT
    cases T with
    | ask m next => exact hT.elim
    | done b =>
      have h1 : ∀ (Ω : Type) [Fintype Ω] [Nonempty Ω], (chance fun _ : Ω => b = true) = chance fun _ : Unit => b = true := fun Ω _ _ =>
        (chance_equiv (Equiv.prodPUnit Ω) fun _ => b = true).symm.trans (chance_dummy (Ω := Ω) (Ω' := Unit) fun _ => b = true)
      simp only [Asker.eval]
      rw [h1 ((m : M) → Ω m), h1 ((m : M) → Ω' m)]
      simp
  | succ n ih =>
    intro hT
    cases T with
    | done b =>
      refine le_trans (ih (.done b) trivial) ?_
      push_cast
      linarith
    | ask m next =>
      have hf : (chance fun w : (m : M) → Ω m => (Asker.ask m next).eval (fun m => f m (w m)) = true) =
          chance fun x : ((k : M) → Ω k) × Ω m => ((next (f m x.2)).fix m (f m x.2)).eval (fun k => f k (x.1 k)) = true := by
        rw [← chance_first m fun a w => ((next (f m a)).fix m (f m a)).eval (fun k => f k (w k)) = true]
        · congr 1
          funext w
          rw [Asker.eval_fix, Function.update_eq_self]
          rfl
        · intro a w w' hw hp
          rw [Asker.eval_fix] at hp ⊢
          rw [← hp]
          congr 1
          funext k
          by_cases hk : k = m
          · subst hk
            rw [Function.update_self, Function.update_self]
          · rw [Function.update_of_ne hk, Function.update_of_ne hk, hw k hk]
      have hg : (chance fun w : (m : M) → Ω' m => (Asker.ask m next).eval (fun m => g m (w m)) = true) =
          chance fun x : ((k : M) → Ω' k) × Ω' m => ((next (g m x.2)).fix m (g m x.2)).eval (fun k => g k (x.1 k)) = true := by
        rw [← chance_first m fun a w => ((next (g m a)).fix m (g m a)).eval (fun k => g k (w k)) = true]
        · congr 1
          funext w
          rw [Asker.eval_fix, Function.update_eq_self]
          rfl
        · intro a w w' hw hp
          rw [Asker.eval_fix] at hp ⊢
          rw [← hp]
          congr 1
          funext k
          by_cases hk : k = m
          · subst hk
            rw [Function.update_self, Function.update_self]
          · rw [Function.update_of_ne hk, Function.update_of_ne hk, hw k hk]
      rw [hf, hg]
      have h3 : ∀ b, |(chance fun w : (m : M) → Ω m => ((next (f m b)).fix m (f m b)).eval (fun k => f k (w k)) = true) -
          chance fun w : (m : M) → Ω' m => ((next (f m b)).fix m (f m b)).eval (fun k => g k (w k)) = true| ≤ n * δ :=
        fun b => ih _ (Asker.atMost_fix _ _ _ _ (hT (f m b)))
      have h1 := chance_close_snd
        (fun x : ((k : M) → Ω k) × Ω m => ((next (f m x.2)).fix m (f m x.2)).eval (fun k => f k (x.1 k)) = true)
        (fun x : ((k : M) → Ω' k) × Ω m => ((next (f m x.2)).fix m (f m x.2)).eval (fun k => g k (x.1 k)) = true)
        h3
      have h2 := chance_close_fst
        (fun x : ((k : M) → Ω' k) × Ω m => ((next (f m x.2)).fix m (f m x.2)).eval (fun k => g k (x.1 k)) = true)
        (fun x : ((k : M) → Ω' k) × Ω' m => ((next (g m x.2)).fix m (g m x.2)).eval (fun k => g k (x.1 k)) = true)
        fun b => h m fun v => ((next v).fix m v).eval (fun k => g k (b k)) = true
      refine le_trans (abs_sub_le _ _ _) (le_trans (add_le_add h1 h2) ?_)
      push_cast
      linarith

/-! ### Preimages drawn at random -/

section
variable {V W : Type} [Fintype V] [Fintype W] (h : V → W)

/-- A choice of preimages. -/
abbrev Choice := (u : W) → { v // h v = u }

open Classical in
/-- Drawing another value with the same image. -/
noncomputable def redrawn (x : V × Choice h) : V × Choice h := ((x.2 (h x.1)).1, Function.update x.2 (h x.1) ⟨x.1, rfl⟩)

omit [Fintype V] [Fintype W] in
theorem redrawn_redrawn (x : V × Choice h) : redrawn h (redrawn h x) = x := by
  classical
  obtain ⟨v, σ⟩ := x
  have h1 : h (σ (h v)).1 = h v := (σ (h v)).2
  have h2 : ∀ u, u = h v → (Function.update σ (h v) (⟨v, rfl⟩ : { v' // h v' = h v }) u).1 = v := by
    rintro u rfl
    rw [Function.update_self]
  unfold redrawn
  refine Prod.ext ?_ ?_
  · show (Function.update σ (h v) _ (h (σ (h v)).1)).1 = v
    convert h2 _ h1
  · funext u
    apply Subtype.ext
    show (Function.update (Function.update σ (h v) _) (h (σ (h v)).1) _ u).1 = (σ u).1
    by_cases hu : u = h v
    · subst hu
      have h3 : ∀ (w : W) (τ : Choice h) (x : { v' // h v' = w }), h v = w → (Function.update τ w x (h v)).1 = x.1 := by
        rintro w τ x rfl
        rw [Function.update_self]
      convert h3 _ _ ⟨(σ (h v)).1, rfl⟩ h1.symm
    · rw [Function.update_of_ne (by rw [h1]; exact hu)]
      rw [Function.update_of_ne hu]

/-- Drawing another value with the same image. -/
noncomputable def redraw : V × Choice h ≃ V × Choice h := ⟨redrawn h, redrawn h, redrawn_redrawn h, redrawn_redrawn h⟩

end

/-! ### The other random function -/

theorem idealChance_inst {M I D : Type} {V : M → Type} {Q : Type*} {A : Type} [Fintype M] (i i' : ∀ m, Fintype (V m)) (msg : Q → M)
    (wrap : (q : Q) → V (msg q) → A) (S : HashSimulator M V I D) (P : Caller Q A I D) :
    @Caller.idealChance _ _ _ _ _ _ _ i msg wrap S P = @Caller.idealChance _ _ _ _ _ _ _ i' msg wrap S P := by
  rw [Subsingleton.elim i i']

section
variable {M I D : Type} {V W : M → Type} (h : (m : M) → V m → W m)

open Classical in
/-- The simulator that draws preimages. -/
noncomputable def through [Fintype M] [∀ m, Fintype (V m)] [∀ m, Fintype (W m)] (S : HashSimulator M V I D) : HashSimulator M W I D where
  State := S.State
  start := S.start
  Coins := ((m : M) → Choice (h m)) × S.Coins
  fintype := haveI := S.fintype; inferInstance
  wants c s x := S.wants c.2 s x
  reply c s x u := S.reply c.2 s x (u.map fun e => ⟨e.1, (c.1 e.1 e.2).1⟩)

variable {Q : Type*} {A : Type} (msg : Q → M) (wrap : (q : Q) → W (msg q) → A)

theorem ideal_through [Fintype M] [∀ m, Fintype (V m)] [∀ m, Fintype (W m)] (S : HashSimulator M V I D) (g : Q → A) (F : (m : M) → W m)
    (σ : (m : M) → Choice (h m)) (c : S.Coins) (P : Caller Q A I D) : ∀ s,
    P.ideal g (through h S) F (σ, c) s = P.ideal g S (fun m => (σ m (F m)).1) c s := by
  induction P with
  | done b => intro s; rfl
  | call q next ih => intro s; exact ih _ s
  | hash x next ih =>
    intro s
    have e : (through h S).reply (σ, c) s x (((through h S).wants (σ, c) s x).map fun m => ⟨m, F m⟩) =
        S.reply c s x ((S.wants c s x).map fun m => ⟨m, (σ m (F m)).1⟩) := by
      show S.reply c s x (((S.wants c s x).map fun m => (⟨m, F m⟩ : Σ m, W m)).map _) = _
      rw [Option.map_map]
      rfl
    show (next ((through h S).reply (σ, c) s x (((through h S).wants (σ, c) s x).map fun m => ⟨m, F m⟩)).2).ideal g (through h S) F (σ, c)
      ((through h S).reply (σ, c) s x (((through h S).wants (σ, c) s x).map fun m => ⟨m, F m⟩)).1 = _
    rw [e]
    exact ih _ _

/-- The ideal world as a program that asks the random function. -/
def asker (S : HashSimulator M V I D) (wrap : (q : Q) → V (msg q) → A) (c : S.Coins) : Caller Q A I D → S.State → Asker M V
  | .done b, _ => .done b
  | .call q next, s => .ask (msg q) fun v => asker S wrap c (next (wrap q v)) s
  | .hash x next, s =>
    match S.wants c s x with
    | none => asker S wrap c (next (S.reply c s x none).2) (S.reply c s x none).1
    | some m => .ask m fun v => asker S wrap c (next (S.reply c s x (some ⟨m, v⟩)).2) (S.reply c s x (some ⟨m, v⟩)).1

theorem eval_asker (S : HashSimulator M V I D) (wrap : (q : Q) → V (msg q) → A) (F : (m : M) → V m) (c : S.Coins) (P : Caller Q A I D) :
    ∀ s, (asker msg S wrap c P s).eval F = P.ideal (fun q => wrap q (F (msg q))) S F c s := by
  induction P with
  | done b => intro s; rfl
  | call q next ih => intro s; exact ih _ s
  | hash x next ih =>
    intro s
    unfold asker Caller.ideal
    cases hw : S.wants c s x with
    | none => simp only [hw]; exact ih _ _
    | some m => simp only [hw]; exact ih _ _

theorem atMost_asker (S : HashSimulator M V I D) (wrap : (q : Q) → V (msg q) → A) (c : S.Coins) (P : Caller Q A I D) :
    ∀ s n, P.AtMost n → (asker msg S wrap c P s).AtMost n := by
  induction P with
  | done b => intro s n _; trivial
  | call q next ih =>
    intro s n hn
    cases n with
    | zero => exact hn.elim
    | succ n => exact fun v => ih _ s n (hn _)
  | hash x next ih =>
    intro s n hn
    cases n with
    | zero => exact hn.elim
    | succ n =>
      unfold asker
      cases hw : S.wants c s x with
      | none => exact Asker.atMost_succ _ _ (ih _ _ n (hn _))
      | some m => exact fun v => ih _ _ n (hn _)

/-- Pairs of functions. -/
def splitPi {M : Type} (V W : M → Type) : ((m : M) → V m × W m) ≃ ((m : M) → V m) × ((m : M) → W m) :=
  ⟨fun w => (fun m => (w m).1, fun m => (w m).2), fun w m => (w.1 m, w.2 m), fun _ => rfl, fun _ => rfl⟩

open Classical in
/-- The other random function is as good. -/
theorem change [Fintype M] [∀ m, Fintype (V m)] [∀ m, Fintype (W m)] [∀ m, Nonempty (V m)] (hs : ∀ m, Function.Surjective (h m)) {δ : ℚ}
    (h0 : 0 ≤ δ) (hδ : ∀ m (p : W m → Prop), |(chance fun v => p (h m v)) - chance p| ≤ δ) (S : HashSimulator M V I D) (hS : Nonempty S.Coins)
    (P : Caller Q A I D) (N : Nat) (hP : P.AtMost N) :
    |P.idealChance msg (fun q v => wrap q (h _ v)) S - P.idealChance msg wrap (through h S)| ≤ N * δ := by
  letI := S.fintype
  haveI : ∀ m, Nonempty (W m) := fun m => ⟨h m (Classical.arbitrary _)⟩
  haveI hch : ∀ m, Nonempty (Choice (h m)) := fun m => ⟨fun u => ⟨(hs m u).choose, (hs m u).choose_spec⟩⟩
  let T : S.Coins → Asker M V := fun c => asker msg S (fun q v => wrap q (h _ v)) c P S.start
  have hT : ∀ c, (T c).AtMost N := fun c => atMost_asker msg S _ c P _ N hP
  have h1 : ∀ m (p : V m → Prop), |(chance fun a : V m × Choice (h m) => p (a.2 (h m a.1)).1) -
      chance fun a : W m × Choice (h m) => p (a.2 a.1).1| ≤ δ := by
    intro m p
    exact chance_close_snd (fun a : V m × Choice (h m) => p (a.2 (h m a.1)).1) (fun a : W m × Choice (h m) => p (a.2 a.1).1)
      fun σ => hδ m fun u => p (σ u).1
  have h2 := fun c => ask_close (fun m (a : V m × Choice (h m)) => (a.2 (h m a.1)).1) (fun m (a : W m × Choice (h m)) => (a.2 a.1).1)
    h0 h1 (T c) N (hT c)
  have e1 : ∀ c, (chance fun F : (m : M) → V m => (T c).eval F = true) =
      chance fun w : (m : M) → V m × Choice (h m) => (T c).eval (fun m => ((w m).2 (h m (w m).1)).1) = true := by
    intro c
    have h3 := chance_equiv (Equiv.piCongrRight fun m => redraw (h m)) fun w => (T c).eval (fun m => (w m).1) = true
    have h4 := chance_equiv (splitPi V fun m => Choice (h m)) fun w => (T c).eval w.1 = true
    have h5 := chance_equiv (Equiv.prodComm ((m : M) → Choice (h m)) ((m : M) → V m)) fun w => (T c).eval w.1 = true
    have h6 := chance_dummy (Ω := (m : M) → Choice (h m)) (Ω' := (m : M) → V m) fun w => (T c).eval w = true
    exact h6.symm.trans (h5.trans (h4.symm.trans h3.symm))
  have e2 : ∀ c, (chance fun w : ((m : M) → W m) × ((m : M) → Choice (h m)) => (T c).eval (fun m => (w.2 m (w.1 m)).1) = true) =
      chance fun w : (m : M) → W m × Choice (h m) => (T c).eval (fun m => ((w m).2 (w m).1).1) = true := by
    intro c
    exact (chance_equiv (splitPi W fun m => Choice (h m)) fun w => (T c).eval (fun m => (w.2 m (w.1 m)).1) = true).symm
  have e3 : P.idealChance msg (fun q v => wrap q (h _ v)) S =
      chance fun w : ((m : M) → V m) × S.Coins => (T w.2).eval w.1 = true := by
    unfold Caller.idealChance
    congr 1
    funext w
    rw [eval_asker]
  have e4 : P.idealChance msg wrap (through h S) =
      chance fun w : (((m : M) → W m) × ((m : M) → Choice (h m))) × S.Coins => (T w.2).eval (fun m => (w.1.2 m (w.1.1 m)).1) = true := by
    refine Eq.trans ?_ (chance_equiv (Equiv.prodAssoc ((m : M) → W m) ((m : M) → Choice (h m)) S.Coins).symm fun w =>
      (T w.2).eval (fun m => (w.1.2 m (w.1.1 m)).1) = true)
    unfold Caller.idealChance
    have e5 : ∀ w : ((m : M) → W m) × ((m : M) → Choice (h m)) × S.Coins,
        P.ideal (fun q => wrap q (w.1 (msg q))) (through h S) w.1 w.2 (through h S).start =
          (T w.2.2).eval fun m => (w.2.1 m (w.1 m)).1 := by
      intro w
      rw [eval_asker]
      refine (ideal_through h S _ w.1 w.2.1 w.2.2 P S.start).trans ?_
      congr 1
      funext q
      rw [(w.2.1 (msg q) (w.1 (msg q))).2]
    refine Eq.trans (b := chance fun w : ((m : M) → W m) × ((m : M) → Choice (h m)) × S.Coins =>
      P.ideal (fun q => wrap q (w.1 (msg q))) (through h S) w.1 w.2 (through h S).start = true) rfl ?_
    congr 1
    funext w
    rw [e5]
    rfl
  rw [e3, e4]
  refine chance_close_snd _ _ fun c => ?_
  show |(chance fun F : (m : M) → V m => (T c).eval F = true) -
    chance fun w : ((m : M) → W m) × ((m : M) → Choice (h m)) => (T c).eval (fun m => (w.2 m (w.1 m)).1) = true| ≤ _
  rw [e1, e2]
  exact h2 c

end

end Verif.Oracle
