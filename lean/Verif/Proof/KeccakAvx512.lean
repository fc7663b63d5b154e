import Verif.Model.KeccakAvx512
import Verif.Proof.AsmSym
/-
The AVX-512 version: what the result cannot depend on, and that with the masks and the layout the algorithm
needs each half of the loop body is one round.
-/
namespace Verif.Avx512
open Verif.Sym

/-! ### Elements 0-4 never depend on elements 5-7 -/

section Low

/-- Vectors of the same length that agree in the first `n` elements. -/
def Low (n : Nat) (v w : List (BitVec 64)) : Prop := v.length = w.length ∧ ∀ i < n, v[i]? = w[i]?

theorem Low.refl (n : Nat) (v : List (BitVec 64)) : Low n v v := ⟨rfl, fun _ _ => rfl⟩

theorem Low.cons {n : Nat} {a b : BitVec 64} {v w : List (BitVec 64)} (h : Low (n + 1) (a :: v) (b :: w)) :
    a = b ∧ Low n v w := by
  have h0 := h.2 0 (by omega)
  simp only [List.getElem?_cons_zero, Option.some.injEq] at h0
  refine ⟨h0, by simpa using h.1, fun i hi => ?_⟩
  simpa using h.2 (i + 1) (by omega)

theorem Low.tail {n : Nat} {a b : BitVec 64} {v w : List (BitVec 64)} (h : Low n (a :: v) (b :: w)) :
    Low (n - 1) v w := by
  refine ⟨by simpa using h.1, fun i hi => ?_⟩
  simpa using h.2 (i + 1) (by omega)

theorem Low.mk' {n : Nat} {a b : BitVec 64} {v w : List (BitVec 64)} (e : 0 < n → a = b) (h : Low (n - 1) v w) :
    Low n (a :: v) (b :: w) := by
  refine ⟨by simpa using h.1, fun i hi => ?_⟩
  match i with
  | 0 => simp [e (by omega)]
  | i + 1 => simpa using h.2 i (by omega)

theorem Low.head {n : Nat} {a b : BitVec 64} {v w : List (BitVec 64)} (h : Low n (a :: v) (b :: w))
    (hn : 0 < n) : a = b := by
  have h0 := h.2 0 hn
  simpa using h0

theorem Low.map {n : Nat} {v w : List (BitVec 64)} (h : Low n v w) (f : BitVec 64 → BitVec 64) :
    Low n (v.map f) (w.map f) := by
  refine ⟨by simpa using h.1, fun i hi => ?_⟩
  simp only [List.getElem?_map, h.2 i hi]

theorem Low.zipWith {n : Nat} {v w : List (BitVec 64)} (h : Low n v w) (f : Nat → BitVec 64 → BitVec 64)
    (t : List Nat) : Low n (List.zipWith f t v) (List.zipWith f t w) := by
  refine ⟨by simp [h.1], fun i hi => ?_⟩
  simp only [List.getElem?_zipWith, h.2 i hi]

theorem Low.zip3 {f : BitVec 64 → BitVec 64 → BitVec 64 → BitVec 64} :
    ∀ {n : Nat} {a a' b b' c c' : List (BitVec 64)}, Low n a a' → Low n b b' → Low n c c' →
      Low n (zip3 f a b c) (zip3 f a' b' c')
  | n, [], [], _, _, _, _, _, _, _ => by unfold Avx512.zip3; exact Low.refl _ _
  | n, [], _ :: _, _, _, _, _, h, _, _ => absurd h.1 (by simp)
  | n, _ :: _, [], _, _, _, _, h, _, _ => absurd h.1 (by simp)
  | n, _ :: _, _ :: _, [], [], _, _, _, _, _ => by unfold Avx512.zip3; exact Low.refl _ _
  | n, _ :: _, _ :: _, [], _ :: _, _, _, _, h, _ => absurd h.1 (by simp)
  | n, _ :: _, _ :: _, _ :: _, [], _, _, _, h, _ => absurd h.1 (by simp)
  | n, _ :: _, _ :: _, _ :: _, _ :: _, [], [], _, _, _ => by unfold Avx512.zip3; exact Low.refl _ _
  | n, _ :: _, _ :: _, _ :: _, _ :: _, [], _ :: _, _, _, h => absurd h.1 (by simp)
  | n, _ :: _, _ :: _, _ :: _, _ :: _, _ :: _, [], _, _, h => absurd h.1 (by simp)
  | n, _ :: _, _ :: _, _ :: _, _ :: _, _ :: _, _ :: _, ha, hb, hc => by
    unfold Avx512.zip3
    refine Low.mk' (fun hn => ?_) (Low.zip3 ha.tail hb.tail hc.tail)
    rw [ha.head hn, hb.head hn, hc.head hn]

theorem Low.blend : ∀ {k : List Bool} {n : Nat} {a a' b b' : List (BitVec 64)}, Low n a a' → Low n b b' →
      Low n (blend8.zip3' k a b) (blend8.zip3' k a' b')
  | [], n, _, _, _, _, _, _ => by unfold blend8.zip3'; exact Low.refl _ _
  | _ :: _, n, [], [], _, _, _, _ => by unfold blend8.zip3'; exact Low.refl _ _
  | _ :: _, n, [], _ :: _, _, _, h, _ => absurd h.1 (by simp)
  | _ :: _, n, _ :: _, [], _, _, h, _ => absurd h.1 (by simp)
  | _ :: _, n, _ :: _, _ :: _, [], [], _, _ => by unfold blend8.zip3'; exact Low.refl _ _
  | _ :: _, n, _ :: _, _ :: _, [], _ :: _, _, h => absurd h.1 (by simp)
  | _ :: _, n, _ :: _, _ :: _, _ :: _, [], _, h => absurd h.1 (by simp)
  | k :: ks, n, _ :: _, _ :: _, _ :: _, _ :: _, ha, hb => by
    unfold blend8.zip3'
    refine Low.mk' (fun hn => ?_) (Low.blend ha.tail hb.tail)
    rw [ha.head hn, hb.head hn]

/-- Both absent, or both present and related. -/
def ORel {X : Type} (R : X → X → Prop) : Option X → Option X → Prop
  | none, none => True
  | some a, some b => R a b
  | _, _ => False

theorem ORel.bind {X Y : Type} {R : X → X → Prop} {S : Y → Y → Prop} {a b : Option X} (h : ORel R a b)
    {f g : X → Option Y} (hfg : ∀ x y, R x y → ORel S (f x) (g y)) : ORel S (a.bind f) (b.bind g) := by
  match a, b, h with
  | none, none, _ => exact trivial
  | some a, some b, h => exact hfg a b h

theorem ORel.of_eq {X : Type} (a : Option X) : ORel (· = ·) a a := by cases a <;> trivial

theorem Low.xor8 (consts : List (BitVec 64)) : ∀ {k : List Bool} {n off : Nat} {a a' b b' : List (BitVec 64)},
    Low n a a' → Low n b b' → ORel (Low n) (xor8 consts off k a b) (xor8 consts off k a' b')
  | [], n, _, _, _, _, _, _, _ => by unfold Avx512.xor8; exact Low.refl _ _
  | _ :: _, n, _, [], [], _, _, _, _ => by unfold Avx512.xor8; exact Low.refl _ _
  | _ :: _, n, _, [], _ :: _, _, _, h, _ => absurd h.1 (by simp)
  | _ :: _, n, _, _ :: _, [], _, _, h, _ => absurd h.1 (by simp)
  | _ :: _, n, _, _ :: _, _ :: _, [], [], _, _ => by unfold Avx512.xor8; exact Low.refl _ _
  | _ :: _, n, _, _ :: _, _ :: _, [], _ :: _, _, h => absurd h.1 (by simp)
  | _ :: _, n, _, _ :: _, _ :: _, _ :: _, [], _, h => absurd h.1 (by simp)
  | k :: ks, n, off, x :: _, x' :: _, y :: _, y' :: _, ha, hb => by
    unfold Avx512.xor8
    refine ORel.bind (R := fun p q => 0 < n → p = q) ?_ ?_
    · cases k
      · exact hb.head
      · simp only [if_true]
        cases (if off % 8 = 0 then consts[off / 8]? else none) with
        | none => exact trivial
        | some c => exact fun hn => congrArg (fun z => Word.xor z c) (ha.head hn)
    · intro p q hpq
      have := Low.xor8 consts (k := ks) (off := off + 8) ha.tail hb.tail
      revert this
      match Avx512.xor8 consts (off + 8) ks _ _, Avx512.xor8 consts (off + 8) ks _ _ with
      | none, none => exact fun _ => trivial
      | some _, some _ => exact fun h => Low.mk' hpq h
      | none, some _ => exact fun h => h
      | some _, none => exact fun h => h

/-- A table of permutation indices whose first five entries stay among the first five. -/
def lowTable (t : List Nat) : Prop := ∀ i ∈ t.take 5, i % 8 < 5

theorem Low.permute {v w : List (BitVec 64)} (h : Low 5 v w) {t : List Nat} (ht : lowTable t) :
    Low 5 (permute8 t v) (permute8 t w) := by
  refine ⟨by simp [permute8], fun i hi => ?_⟩
  unfold permute8
  rw [List.getElem?_map, List.getElem?_map]
  cases hx : t[i]? with
  | none => rfl
  | some x =>
    have : x ∈ t.take 5 := by
      have : (t.take 5)[i]? = some x := by rw [List.getElem?_take_of_lt hi]; exact hx
      exact List.mem_of_getElem? this
    have := h.2 (x % 8) (ht x this)
    simp only [Option.map_some, List.getD_eq_getElem?_getD, this]

/-- The permutations used keep the first five elements among themselves. -/
def Instr.lowPerm : Instr → Bool
  | .perm _ t _ => match table t with
    | some t => t.take 5 |>.all fun i => decide (i % 8 < 5)
    | none => true
  | _ => true

/-- Machines that agree in elements 0-4 of all registers. -/
structure MLow (m m' : Machine (BitVec 64)) : Prop where
  zmm : List.Forall₂ (Low 5) m.zmm m'.zmm
  consts : m.consts = m'.consts
  pos : m.pos = m'.pos

theorem forall₂_get {R : List (BitVec 64) → List (BitVec 64) → Prop} {l l' : List (List (BitVec 64))}
    (h : List.Forall₂ R l l') (i : Nat) : ORel R l[i]? l'[i]? := by
  induction h generalizing i with
  | nil => simp [ORel]
  | cons h1 _ ih =>
    match i with
    | 0 => simpa [ORel] using h1
    | i + 1 => simpa using ih i

theorem forall₂_set {X Y : Type} {R : X → Y → Prop} {l : List X} {l' : List Y}
    (h : List.Forall₂ R l l') (i : Nat) {x : X} {y : Y} (hx : R x y) :
    List.Forall₂ R (l.set i x) (l'.set i y) := by
  induction h generalizing i with
  | nil => exact .nil
  | cons h1 t ih =>
    match i with
    | 0 => exact .cons hx t
    | i + 1 => exact .cons h1 (ih i)

theorem set_low {m m' : Machine (BitVec 64)} (h : MLow m m') (d : Nat) {v w : List (BitVec 64)}
    (hv : Low 5 v w) : ORel MLow (m.set d v) (m'.set d w) := by
  unfold Machine.set
  rw [h.zmm.length_eq]
  split
  · exact ⟨forall₂_set h.zmm d hv, h.consts, h.pos⟩
  · trivial

theorem step_low (k : Nat → List Bool) {m m' : Machine (BitVec 64)} (h : MLow m m') (i : Instr)
    (hi : i.lowPerm = true) : ORel MLow (step k m i) (step k m' i) := by
  match i, hi with
  | .mov s d, _ => exact (forall₂_get h.zmm s).bind fun x y hx => set_low h d hx
  | .tern imm c b d, _ =>
    refine (ORel.of_eq (tern imm)).bind fun f g e => ?_
    subst e
    exact (forall₂_get h.zmm c).bind fun _ _ hz => (forall₂_get h.zmm b).bind fun _ _ hy =>
      (forall₂_get h.zmm d).bind fun _ _ hx => set_low h d (hx.zip3 hy hz)
  | .rolImm n s d, _ => exact (forall₂_get h.zmm s).bind fun x y hx => set_low h d (hx.map _)
  | .perm s t d, hi =>
    unfold step
    simp only
    unfold Instr.lowPerm at hi
    cases ht : table t with
    | none => trivial
    | some l =>
      simp only [ht] at hi
      exact (forall₂_get h.zmm s).bind fun x y hx => set_low h d (hx.permute fun i hm => by
        have := List.all_eq_true.1 hi i hm
        simpa using this)
  | .rolV t s d, _ =>
    refine (ORel.of_eq (table t)).bind fun f g e => ?_
    subst e
    exact (forall₂_get h.zmm s).bind fun x y hx => set_low h d (hx.zipWith _ _)
  | .blend i a b d, _ =>
    exact (forall₂_get h.zmm a).bind fun x x' hx => (forall₂_get h.zmm b).bind fun y y' hy =>
      set_low h d (hx.blend hy)
  | .xorC i back s d, _ =>
    refine (forall₂_get h.zmm s).bind fun x x' hx => (forall₂_get h.zmm d).bind fun y y' hy => ?_
    rw [h.consts, h.pos]
    refine ORel.bind (R := Low 5) ?_ fun v w hv => set_low h d hv
    split
    · exact hx.xor8 _ hy
    · trivial
  | .lea n, _ => exact ⟨h.zmm, h.consts, by rw [h.pos]⟩

theorem exec_low (k : Nat → List Bool) (p : List Instr) (hp : ∀ i ∈ p, i.lowPerm = true)
    {m m' : Machine (BitVec 64)} (h : MLow m m') : ORel MLow (exec k p m) (exec k p m') := by
  induction p generalizing m m' with
  | nil => exact h
  | cons i p ih =>
    exact (step_low k h i (hp i List.mem_cons_self)).bind fun x y hx =>
      ih (fun j hj => hp j (List.mem_cons_of_mem _ hj)) hx

theorem body_lowPerm : ∀ i ∈ body, i.lowPerm = true := by decide +kernel

theorem loop_low (k : Nat → List Bool) (fuel : Nat) (eax : BitVec 32) {m m' : Machine (BitVec 64)}
    (h : MLow m m') : ORel MLow (loop k fuel eax m) (loop k fuel eax m') := by
  induction fuel generalizing eax m m' with
  | zero => trivial
  | succ fuel ih =>
    refine (exec_low k body body_lowPerm h).bind fun x y hx => ?_
    split
    · exact hx
    · exact ih _ hx

theorem mapM_congr' {X Y : Type} (f g : X → Option Y) (l : List X) (h : ∀ x ∈ l, f x = g x) :
    l.mapM f = l.mapM g := by
  induction l with
  | nil => rfl
  | cons x l ih =>
    rw [List.mapM_cons, List.mapM_cons, h x List.mem_cons_self, ih fun y hy => h y (List.mem_cons_of_mem _ hy)]

theorem finish_low (k : Nat → List Bool) (fuel : Nat) {z z' : List (List (BitVec 64))}
    (h : List.Forall₂ (Low 5) z z') : finish k fuel z = finish k fuel z' := by
  unfold finish
  have := loop_low k fuel 12 (m := ⟨z, constants, 0⟩) (m' := ⟨z', constants, 0⟩) ⟨h, rfl, rfl⟩
  revert this
  match loop k fuel 12 ⟨z, constants, 0⟩, loop k fuel 12 ⟨z', constants, 0⟩ with
  | none, none => exact fun _ => rfl
  | none, some _ => exact fun h => absurd h id
  | some _, none => exact fun h => absurd h id
  | some m, some m' =>
    intro hm
    refine mapM_congr' _ _ _ fun i _ => ?_
    have := forall₂_get hm.zmm (i / 5)
    revert this
    match m.zmm[i / 5]?, m'.zmm[i / 5]? with
    | none, none => exact fun _ => rfl
    | none, some _ => exact fun h => absurd h id
    | some _, none => exact fun h => absurd h id
    | some v, some w => exact fun hv => hv.2 (i % 5) (Nat.mod_lt _ (by omega))

/-- Whatever the masks: the result is a function of the ten lanes with `x < 2`. -/
theorem run_low (k : Nat → List Bool) (fuel : Nat) (rest : List (List (BitVec 64))) (A A' : Lanes)
    (h : ∀ i (hi : i < 25), i % 5 < 2 → A[i] = A'[i]) : run k fuel rest A = run k fuel rest A' := by
  unfold run
  refine finish_low k fuel (List.rel_append ?_ (List.forall₂_same.2 fun _ _ => Low.refl _ _))
  have e : ∀ i (hi : i < 25), i % 5 < 2 → A.toList.getD i 0 = A'.toList.getD i 0 := by
    intro i hi h5
    have := h i hi h5
    simp [List.getD_eq_getElem?_getD, hi, this]
  have row : ∀ (x0 x1 x2 x3 x4 y0 y1 y2 y3 y4 : BitVec 64), x0 = y0 → x1 = y1 →
      Low 5 [Word.ofNat 0, Word.ofNat 0, Word.ofNat 0, x0, x1, x2, x3, x4]
        [Word.ofNat 0, Word.ofNat 0, Word.ofNat 0, y0, y1, y2, y3, y4] := by
    intro x0 x1 x2 x3 x4 y0 y1 y2 y3 y4 h0 h1
    subst h0 h1
    refine ⟨rfl, fun i hi => ?_⟩
    match i, hi with
    | 0, _ => rfl
    | 1, _ => rfl
    | 2, _ => rfl
    | 3, _ => rfl
    | 4, _ => rfl
  unfold pack
  repeat first
    | exact .nil
    | refine .cons (row _ _ _ _ _ _ _ _ _ _ (e _ (by decide) (by decide)) (e _ (by decide) (by decide))) ?_

end Low

/-! ### With the layout and the masks that the algorithm needs -/

variable {ρ : Nat → BitVec 64}

/-- A symbolic machine that agrees with a machine whose pointer is `base` bytes further. -/
structure RelM (ρ : Nat → BitVec 64) (base : Nat) (s : Machine Sym) (m : Machine (BitVec 64)) : Prop where
  zmm : List.Forall₂ (RelList ρ) s.zmm m.zmm
  pos : m.pos = base + s.pos
  consts : ∀ i x, s.consts[i]? = some x → ∃ w, m.consts[base / 8 + i]? = some w ∧ Rel ρ x w

theorem get_rel {s : List (List Sym)} {m : List (List (BitVec 64))} (h : List.Forall₂ (RelList ρ) s m) (i : Nat)
    (x : List Sym) (hx : s[i]? = some x) : ∃ w, m[i]? = some w ∧ RelList ρ x w := by
  induction h generalizing i with
  | nil => simp at hx
  | @cons a b l xs h1 _ ih =>
    match i with
    | 0 =>
      simp only [List.getElem?_cons_zero, Option.some.injEq] at hx
      exact ⟨b, by simp, hx ▸ h1⟩
    | i + 1 =>
      simp only [List.getElem?_cons_succ] at hx
      obtain ⟨w, e, hw⟩ := ih i hx
      exact ⟨w, by simpa using e, hw⟩

theorem set_rel {base : Nat} {s : Machine Sym} {m : Machine (BitVec 64)} (h : RelM ρ base s m) {d : Nat}
    {x : List Sym} {w : List (BitVec 64)} (hw : RelList ρ x w) {s' : Machine Sym} (hs : s.set d x = some s') :
    ∃ m', m.set d w = some m' ∧ RelM ρ base s' m' := by
  unfold Machine.set at hs ⊢
  rw [h.zmm.length_eq] at hs
  by_cases c : d < m.zmm.length
  · rw [if_pos c] at hs ⊢
    cases hs
    exact ⟨_, rfl, forall₂_set h.zmm _ hw, h.pos, h.consts⟩
  · rw [if_neg c] at hs
    cases hs

theorem map_rel {f : Sym → Sym} {g : BitVec 64 → BitVec 64} (hf : ∀ {x a}, Rel ρ x a → Rel ρ (f x) (g a))
    {l : List Sym} {v : List (BitVec 64)} (h : RelList ρ l v) : RelList ρ (l.map f) (v.map g) := by
  induction h with
  | nil => exact .nil
  | cons h1 _ ih => exact .cons (hf h1) ih

theorem zipWith_rel {f : Nat → Sym → Sym} {g : Nat → BitVec 64 → BitVec 64}
    (hf : ∀ k {x a}, Rel ρ x a → Rel ρ (f k x) (g k a))
    {l : List Sym} {v : List (BitVec 64)} (h : RelList ρ l v) (t : List Nat) :
    RelList ρ (List.zipWith f t l) (List.zipWith g t v) := by
  induction h generalizing t with
  | nil => cases t <;> exact .nil
  | cons h1 _ ih =>
    cases t with
    | nil => exact .nil
    | cons k t => exact .cons (hf k h1) (ih t)

theorem zip3_rel {f : Sym → Sym → Sym → Sym} {g : BitVec 64 → BitVec 64 → BitVec 64 → BitVec 64}
    (hf : ∀ {x y z a b c}, Rel ρ x a → Rel ρ y b → Rel ρ z c → Rel ρ (f x y z) (g a b c))
    {l : List Sym} {v : List (BitVec 64)} (h : RelList ρ l v) :
    ∀ {l2 : List Sym} {v2 : List (BitVec 64)} {l3 : List Sym} {v3 : List (BitVec 64)}, RelList ρ l2 v2 →
      RelList ρ l3 v3 → RelList ρ (zip3 f l l2 l3) (zip3 g v v2 v3) := by
  induction h with
  | nil => intro _ _ _ _ _ _; unfold zip3; exact .nil
  | cons h1 _ ih =>
    intro _ _ _ _ h2 h3
    cases h2 with
    | nil => unfold zip3; exact .nil
    | cons h2 t2 =>
      cases h3 with
      | nil => unfold zip3; exact .nil
      | cons h3 t3 => exact .cons (hf h1 h2 h3) (ih t2 t3)

theorem permute_rel {l : List Sym} {v : List (BitVec 64)} (h : RelList ρ l v) (t : List Nat) :
    RelList ρ (permute8 t l) (permute8 t v) := by
  unfold permute8
  induction t with
  | nil => exact .nil
  | cons i t ih =>
    refine .cons ?_ ih
    simp only
    rw [List.getD_eq_getElem?_getD, List.getD_eq_getElem?_getD]
    cases hx : l[i % 8]? with
    | none => exact Rel.ofNat _ _
    | some x =>
      obtain ⟨w, e, hw⟩ := h.get _ _ hx
      rw [e]
      exact hw

theorem blend_rel (k : List Bool) {l : List Sym} {v : List (BitVec 64)} (h : RelList ρ l v) :
    ∀ {l2 : List Sym} {v2 : List (BitVec 64)}, RelList ρ l2 v2 → RelList ρ (blend8 k l l2) (blend8 k v v2) := by
  unfold blend8
  induction h generalizing k with
  | nil => intro _ _ _; cases k <;> (unfold blend8.zip3'; exact .nil)
  | cons h1 _ ih =>
    intro _ _ h2
    cases k with
    | nil => unfold blend8.zip3'; exact .nil
    | cons b k =>
      cases h2 with
      | nil => unfold blend8.zip3'; exact .nil
      | cons h2 t2 =>
        unfold blend8.zip3'
        refine .cons ?_ (ih k t2)
        cases b
        · exact h2
        · exact h1

theorem xor8_rel {base : Nat} (hb : base % 8 = 0) {cs : List Sym} {cv : List (BitVec 64)}
    (hc : ∀ i x, cs[i]? = some x → ∃ w, cv[base / 8 + i]? = some w ∧ Rel ρ x w) (k : List Bool)
    {l : List Sym} {v : List (BitVec 64)} (h : RelList ρ l v) :
    ∀ {off : Nat} {l2 : List Sym} {v2 : List (BitVec 64)}, RelList ρ l2 v2 → ∀ {r : List Sym},
      xor8 cs off k l l2 = some r → ∃ w, xor8 cv (base + off) k v v2 = some w ∧ RelList ρ r w := by
  induction h generalizing k with
  | nil =>
    intro off l2 _ _ r hr
    have : xor8 cs off k [] l2 = some [] := by cases k <;> (unfold xor8; rfl)
    rw [this] at hr
    cases hr
    exact ⟨[], by cases k <;> (unfold xor8; rfl), .nil⟩
  | @cons a b l v h1 _ ih =>
    intro off l2 v2 h2 r hr
    cases k with
    | nil =>
      unfold xor8 at hr
      cases hr
      exact ⟨[], by unfold xor8; rfl, .nil⟩
    | cons q k =>
      cases h2 with
      | nil =>
        unfold xor8 at hr
        cases hr
        exact ⟨[], by unfold xor8; rfl, .nil⟩
      | @cons c d l2 v2 h2 t2 =>
        unfold xor8 at hr ⊢
        obtain ⟨x, ex, hr⟩ := Option.bind_eq_some_iff.1 hr
        obtain ⟨r', er, rfl⟩ := Option.map_eq_some_iff.1 hr
        obtain ⟨w', ew, hw⟩ := ih k t2 er
        rw [← Nat.add_assoc] at ew
        cases q with
        | false =>
          cases ex
          exact ⟨d :: w', by simp only [Bool.false_eq_true, if_false, Option.bind_some, ew, Option.map_some],
            .cons h2 hw⟩
        | true =>
          simp only [if_true] at ex ⊢
          split at ex
          · rename_i h8
            obtain ⟨y, ey, rfl⟩ := Option.map_eq_some_iff.1 ex
            obtain ⟨z, ez, hz⟩ := hc _ _ ey
            have e : (base + off) / 8 = base / 8 + off / 8 := by omega
            rw [if_pos (by omega), e, ez]
            exact ⟨Word.xor b z :: w', by simp only [Option.map_some, Option.bind_some, ew],
              .cons (h1.xor hz) hw⟩
          · cases ex

theorem tern_rel {imm : Nat} {f : Sym → Sym → Sym → Sym} (h : tern imm = some f) :
    ∃ g : BitVec 64 → BitVec 64 → BitVec 64 → BitVec 64, tern imm = some g ∧
      ∀ {x y z a b c}, Rel ρ x a → Rel ρ y b → Rel ρ z c → Rel ρ (f x y z) (g a b c) := by
  unfold tern at h ⊢
  by_cases c1 : imm = 0x96
  · rw [if_pos c1] at h ⊢
    cases h
    exact ⟨_, rfl, fun hx hy hz => (hx.xor hy).xor hz⟩
  · rw [if_neg c1] at h ⊢
    by_cases c2 : imm = 0xD2
    · rw [if_pos c2] at h ⊢
      cases h
      exact ⟨_, rfl, fun hx hy hz => hx.xor (hy.not.and hz)⟩
    · rw [if_neg c2] at h
      cases h

theorem step_rel (k : Nat → List Bool) {base : Nat} (hb : base % 8 = 0) {s : Machine Sym}
    {m : Machine (BitVec 64)} (h : RelM ρ base s m) (i : Instr)
    {s' : Machine Sym} (hs : step k s i = some s') : ∃ m', step k m i = some m' ∧ RelM ρ base s' m' := by
  match i, hs with
  | .mov a d, hs =>
    obtain ⟨x, e, hs⟩ := Option.bind_eq_some_iff.1 hs
    obtain ⟨w, ew, hw⟩ := get_rel h.zmm _ _ e
    obtain ⟨m', em, hm⟩ := set_rel h hw hs
    exact ⟨m', by unfold step; simp only [ew, Option.bind_some, em], hm⟩
  | .tern imm c b d, hs =>
    obtain ⟨f, ef, hs⟩ := Option.bind_eq_some_iff.1 hs
    obtain ⟨g, eg, hfg⟩ := tern_rel (ρ := ρ) ef
    obtain ⟨z, e, hs⟩ := Option.bind_eq_some_iff.1 hs
    obtain ⟨wz, ez, hz⟩ := get_rel h.zmm _ _ e
    obtain ⟨y, e, hs⟩ := Option.bind_eq_some_iff.1 hs
    obtain ⟨wy, ey, hy⟩ := get_rel h.zmm _ _ e
    obtain ⟨x, e, hs⟩ := Option.bind_eq_some_iff.1 hs
    obtain ⟨wx, ex, hx⟩ := get_rel h.zmm _ _ e
    obtain ⟨m', em, hm⟩ := set_rel h (zip3_rel hfg hx hy hz) hs
    exact ⟨m', by unfold step; simp only [eg, ez, ey, ex, Option.bind_some, em], hm⟩
  | .rolImm n a d, hs =>
    obtain ⟨x, e, hs⟩ := Option.bind_eq_some_iff.1 hs
    obtain ⟨w, ew, hw⟩ := get_rel h.zmm _ _ e
    obtain ⟨m', em, hm⟩ := set_rel h (map_rel (fun hx => hx.rol n) hw) hs
    exact ⟨m', by unfold step; simp only [ew, Option.bind_some, em], hm⟩
  | .perm a t d, hs =>
    obtain ⟨t, et, hs⟩ := Option.bind_eq_some_iff.1 hs
    obtain ⟨x, e, hs⟩ := Option.bind_eq_some_iff.1 hs
    obtain ⟨w, ew, hw⟩ := get_rel h.zmm _ _ e
    obtain ⟨m', em, hm⟩ := set_rel h (permute_rel hw t) hs
    exact ⟨m', by unfold step; simp only [et, ew, Option.bind_some, em], hm⟩
  | .rolV t a d, hs =>
    obtain ⟨t, et, hs⟩ := Option.bind_eq_some_iff.1 hs
    obtain ⟨x, e, hs⟩ := Option.bind_eq_some_iff.1 hs
    obtain ⟨w, ew, hw⟩ := get_rel h.zmm _ _ e
    obtain ⟨m', em, hm⟩ := set_rel h (zipWith_rel (fun k _ _ hx => hx.rol k) hw t) hs
    exact ⟨m', by unfold step; simp only [et, ew, Option.bind_some, em], hm⟩
  | .blend q a b d, hs =>
    obtain ⟨x, e, hs⟩ := Option.bind_eq_some_iff.1 hs
    obtain ⟨wx, ex, hx⟩ := get_rel h.zmm _ _ e
    obtain ⟨y, e, hs⟩ := Option.bind_eq_some_iff.1 hs
    obtain ⟨wy, ey, hy⟩ := get_rel h.zmm _ _ e
    obtain ⟨m', em, hm⟩ := set_rel h (blend_rel (k q) hx hy) hs
    exact ⟨m', by unfold step; simp only [ex, ey, Option.bind_some, em], hm⟩
  | .xorC q back a d, hs =>
    obtain ⟨x, e, hs⟩ := Option.bind_eq_some_iff.1 hs
    obtain ⟨wx, ex, hx⟩ := get_rel h.zmm _ _ e
    obtain ⟨y, e, hs⟩ := Option.bind_eq_some_iff.1 hs
    obtain ⟨wy, ey, hy⟩ := get_rel h.zmm _ _ e
    obtain ⟨r, er, hs⟩ := Option.bind_eq_some_iff.1 hs
    split at er
    · rename_i hp
      obtain ⟨w, ew, hw⟩ := xor8_rel hb h.consts (k q) hx hy er
      obtain ⟨m', em, hm⟩ := set_rel h hw hs
      have e1 : base + (s.pos - back) = m.pos - back := by rw [h.pos]; omega
      rw [e1] at ew
      have hp' : back ≤ m.pos := by rw [h.pos]; omega
      exact ⟨m', by unfold step; simp only [ex, ey, Option.bind_some, if_pos hp', ew, em], hm⟩
    · cases er
  | .lea n, hs =>
    cases hs
    exact ⟨{ m with pos := m.pos + n }, rfl, h.zmm, by
      show m.pos + n = base + (s.pos + n)
      rw [h.pos]; omega, h.consts⟩

theorem exec_rel (k : Nat → List Bool) {base : Nat} (hb : base % 8 = 0) {s : Machine Sym}
    {m : Machine (BitVec 64)} (h : RelM ρ base s m) (p : List Instr)
    {s' : Machine Sym} (hs : exec k p s = some s') : ∃ m', exec k p m = some m' ∧ RelM ρ base s' m' := by
  induction p generalizing s m with
  | nil => cases hs; exact ⟨m, rfl, h⟩
  | cons i p ih =>
    obtain ⟨s1, e, hs⟩ := Option.bind_eq_some_iff.1 hs
    obtain ⟨m1, em, hm⟩ := step_rel k hb h i e
    obtain ⟨m', em', hm'⟩ := ih hm hs
    exact ⟨m', by unfold exec; simp only [em, Option.bind_some, em'], hm'⟩

theorem exec_append {W : Type} [Word W] (k : Nat → List Bool) (p q : List Instr) (m : Machine W) :
    exec k (p ++ q) m = (exec k p m).bind (exec k q) := by
  induction p generalizing m with
  | nil => rfl
  | cons i p ih =>
    rw [List.cons_append]
    unfold exec
    cases step k m i with
    | none => rfl
    | some m1 => exact ih m1

theorem set_consts {W : Type} [Word W] {m m' : Machine W} {d : Nat} {v : List W} (h : m.set d v = some m') :
    m'.consts = m.consts := by
  unfold Machine.set at h
  split at h
  · cases h; rfl
  · cases h

theorem step_consts {W : Type} [Word W] (k : Nat → List Bool) {m m' : Machine W} {i : Instr}
    (h : step k m i = some m') : m'.consts = m.consts := by
  match i, h with
  | .mov a d, h =>
    obtain ⟨_, _, h⟩ := Option.bind_eq_some_iff.1 h
    exact set_consts h
  | .tern imm c b d, h =>
    obtain ⟨_, _, h⟩ := Option.bind_eq_some_iff.1 h
    obtain ⟨_, _, h⟩ := Option.bind_eq_some_iff.1 h
    obtain ⟨_, _, h⟩ := Option.bind_eq_some_iff.1 h
    obtain ⟨_, _, h⟩ := Option.bind_eq_some_iff.1 h
    exact set_consts h
  | .rolImm n a d, h =>
    obtain ⟨_, _, h⟩ := Option.bind_eq_some_iff.1 h
    exact set_consts h
  | .perm a t d, h =>
    obtain ⟨_, _, h⟩ := Option.bind_eq_some_iff.1 h
    obtain ⟨_, _, h⟩ := Option.bind_eq_some_iff.1 h
    exact set_consts h
  | .rolV t a d, h =>
    obtain ⟨_, _, h⟩ := Option.bind_eq_some_iff.1 h
    obtain ⟨_, _, h⟩ := Option.bind_eq_some_iff.1 h
    exact set_consts h
  | .blend q a b d, h =>
    obtain ⟨_, _, h⟩ := Option.bind_eq_some_iff.1 h
    obtain ⟨_, _, h⟩ := Option.bind_eq_some_iff.1 h
    exact set_consts h
  | .xorC q back a d, h =>
    obtain ⟨_, _, h⟩ := Option.bind_eq_some_iff.1 h
    obtain ⟨_, _, h⟩ := Option.bind_eq_some_iff.1 h
    obtain ⟨_, _, h⟩ := Option.bind_eq_some_iff.1 h
    exact set_consts h
  | .lea n, h => cases h; rfl

theorem exec_consts {W : Type} [Word W] (k : Nat → List Bool) (p : List Instr) {m m' : Machine W}
    (h : exec k p m = some m') : m'.consts = m.consts := by
  induction p generalizing m with
  | nil => cases h; rfl
  | cons i p ih =>
    obtain ⟨m1, e, h⟩ := Option.bind_eq_some_iff.1 h
    exact (ih h).trans (step_consts k e)

/-- Five rows of five lanes, lane `at y x` of `a` in element `x` of row `y`. -/
def rows {W : Type} (at_ : Nat → Nat → Nat) (a : Nat → W) : List (List W) :=
  (List.range 5).map fun y => (List.range 5).map fun x => a (at_ y x)

/-- The layout at the start of the loop body and at its end. -/
def straight (y x : Nat) : Nat := 5 * y + x

/-- The layout between the two rounds. -/
def crossed (y x : Nat) : Nat := y + 5 * x

def symStart (at_ : Nat → Nat → Nat) (consts : List Sym) (pos : Nat) : Machine Sym :=
  ⟨(rows at_ var).map (· ++ [.bad, .bad, .bad]) ++ List.replicate 8 (List.replicate 8 .bad), consts, pos⟩

def good (l : List (List Sym)) : Bool := l.all fun v => v.all fun x => decide (x ≠ .bad)

/-- What the symbolic run of one round must give. -/
def symCheck (p : List Instr) (src dst : Nat → Nat → Nat) (consts : List Sym) (pos pos' : Nat) : Bool :=
  match exec masksRight p (symStart src consts pos) with
  | none => false
  | some s => decide ((s.zmm.take 5).map (List.take 5) = rows dst fun i => (wordRound var (var 25)).getD i .bad) &&
      decide (s.zmm.map List.length = List.replicate 13 8) && good ((s.zmm.take 5).map (List.take 5)) &&
      decide (s.pos = pos')

theorem symCheck_first : symCheck (round0 ++ iota0) straight crossed [var 25] 0 16 = true := by decide +kernel

theorem symCheck_second : symCheck (shuffle ++ round1) crossed straight [.bad, var 25] 16 16 = true := by
  decide +kernel

/-- The values of the variables. -/
def env (A : Lanes) (c : BitVec 64) (i : Nat) : BitVec 64 := if i < 25 then A.toList.getD i 0 else c

/-- The lanes of `A` in elements 0-4 of `zmm0`..`zmm4`; thirteen registers of eight elements. -/
structure Shape (at_ : Nat → Nat → Nat) (A : Lanes) (zmm : List (List (BitVec 64))) : Prop where
  lanes : (zmm.take 5).map (List.take 5) = rows at_ fun i => A.toList.getD i 0
  size : zmm.map List.length = List.replicate 13 8

theorem bad_rel : ∀ (v : List (BitVec 64)), RelList ρ (List.replicate v.length .bad) v
  | [] => .nil
  | w :: v => .cons (Rel.bad w) (bad_rel v)

theorem rows_rel {at_ : Nat → Nat → Nat} (hat : ∀ y < 5, ∀ x < 5, at_ y x < 25) {a : Nat → Sym} {b : Nat → BitVec 64}
    (h : ∀ i < 25, Rel ρ (a i) (b i)) : List.Forall₂ (RelList ρ) (rows at_ a) (rows at_ b) := by
  unfold rows
  rw [List.forall₂_map_left_iff, List.forall₂_map_right_iff, List.forall₂_same]
  intro y hy
  show List.Forall₂ _ _ _
  rw [List.forall₂_map_left_iff, List.forall₂_map_right_iff, List.forall₂_same]
  intro x hx
  exact h _ (hat y (List.mem_range.1 hy) x (List.mem_range.1 hx))

theorem pad_rel : ∀ {S : List (List Sym)} {L : List (List (BitVec 64))},
    List.Forall₂ (RelList ρ) S (L.map (List.take 5)) → (∀ v ∈ L, v.length = 8) →
    List.Forall₂ (RelList ρ) (S.map (· ++ [.bad, .bad, .bad])) L
  | [], [], _, _ => .nil
  | [], _ :: _, h, _ => nomatch h
  | _ :: _, [], h, _ => nomatch h
  | s :: S, v :: L, h, hl => by
    cases h with
    | cons h1 t =>
      refine .cons ?_ (pad_rel t fun w hw => hl w (List.mem_cons_of_mem _ hw))
      have h8 := hl v List.mem_cons_self
      have hd : RelList ρ [.bad, .bad, .bad] (v.drop 5) := by
        have := bad_rel (ρ := ρ) (v.drop 5)
        rw [List.length_drop, h8] at this
        exact this
      have := List.rel_append h1 hd
      simp only [List.take_append_drop] at this
      exact this

theorem size_drop {zmm : List (List (BitVec 64))} (h : zmm.map List.length = List.replicate 13 8) :
    zmm.length = 13 ∧ ∀ v ∈ zmm, v.length = 8 := by
  refine ⟨by simpa using congrArg List.length h, fun v hv => ?_⟩
  have : v.length ∈ zmm.map List.length := List.mem_map_of_mem hv
  rw [h] at this
  exact (List.mem_replicate.1 this).2

theorem rest_rel : ∀ (L : List (List (BitVec 64))), (∀ v ∈ L, v.length = 8) →
    List.Forall₂ (RelList ρ) (List.replicate L.length (List.replicate 8 .bad)) L
  | [], _ => .nil
  | v :: L, h => by
    refine .cons ?_ (rest_rel L fun w hw => h w (List.mem_cons_of_mem _ hw))
    have := bad_rel (ρ := ρ) v
    rw [h v List.mem_cons_self] at this
    exact this

theorem map_length_rel {s : List (List Sym)} {m : List (List (BitVec 64))} (h : List.Forall₂ (RelList ρ) s m) :
    s.map List.length = m.map List.length := by
  induction h with
  | nil => rfl
  | cons h1 _ ih => rw [List.map_cons, List.map_cons, ih, h1.length]

theorem unique_rows {l : List (List Sym)} {xs ys : List (List (BitVec 64))} (hx : List.Forall₂ (RelList ρ) l xs)
    (hy : List.Forall₂ (RelList ρ) l ys) (hb : good l = true) : xs = ys := by
  induction hx generalizing ys with
  | nil => cases hy; rfl
  | @cons s v l xs h1 t ih =>
    cases hy with
    | @cons _ w _ ys h2 t' =>
      unfold good at hb
      rw [List.all_cons, Bool.and_eq_true] at hb
      rw [ih t' hb.2, h1.unique h2 fun x hx => by simpa using List.all_eq_true.1 hb.1 x hx]

theorem take5_rel {s : List (List Sym)} {m : List (List (BitVec 64))} (h : List.Forall₂ (RelList ρ) s m) :
    List.Forall₂ (RelList ρ) (s.map (List.take 5)) (m.map (List.take 5)) := by
  induction h with
  | nil => exact .nil
  | cons h1 _ ih => exact .cons (List.forall₂_take 5 h1) ih

/-- Half of the body is one round. -/
theorem exec_half {p : List Instr} {src dst : Nat → Nat → Nat} {consts : List Sym} {pos pos' : Nat}
    (hcheck : symCheck p src dst consts pos pos' = true) (hsrc : ∀ y < 5, ∀ x < 5, src y x < 25)
    (hdst : ∀ y < 5, ∀ x < 5, dst y x < 25) {base : Nat} (hb : base % 8 = 0)
    (m : Machine (BitVec 64)) (A : Lanes) (c : BitVec 64) (hm : Shape src A m.zmm) (hpos : m.pos = base + pos)
    (hc : ∀ i x, consts[i]? = some x → ∃ w, m.consts[base / 8 + i]? = some w ∧ Rel (env A c) x w) :
    ∃ m', exec masksRight p m = some m' ∧ Shape dst (keccakRound A c) m'.zmm ∧ m'.pos = base + pos' ∧
      m'.consts = m.consts := by
  have hstart : RelM (env A c) base (symStart src consts pos) m := by
    refine ⟨?_, hpos, hc⟩
    obtain ⟨h13, h8⟩ := size_drop hm.size
    have hl : List.Forall₂ (RelList (env A c)) ((rows src var).map (· ++ [.bad, .bad, .bad])) (m.zmm.take 5) := by
      refine pad_rel ?_ fun v hv => h8 v (List.mem_of_mem_take hv)
      rw [hm.lanes]
      refine rows_rel hsrc fun i hi => ?_
      have : env A c i = A.toList.getD i 0 := by unfold env; rw [if_pos hi]
      exact this ▸ Rel.var _
    have hr := rest_rel (ρ := env A c) (m.zmm.drop 5) fun v hv => h8 v (List.mem_of_mem_drop hv)
    rw [List.length_drop, h13] at hr
    have := List.rel_append hl hr
    simp only [List.take_append_drop] at this
    exact this
  unfold symCheck at hcheck
  cases hs : exec masksRight p (symStart src consts pos) with
  | none => rw [hs] at hcheck; cases hcheck
  | some s =>
    rw [hs] at hcheck
    simp only [Bool.and_eq_true, decide_eq_true_eq] at hcheck
    obtain ⟨⟨⟨cA, cl⟩, cb⟩, cp⟩ := hcheck
    obtain ⟨m1, e1, h1⟩ := exec_rel masksRight hb hstart p hs
    have hround : RelList (env A c) (wordRound var (var 25)) (keccakRound A c).toList := by
      rw [← wordRound_bitVec A c (env A c) (by
        intro i hi
        unfold env
        rw [if_pos hi]
        simp [List.getD_eq_getElem?_getD, hi])]
      exact wordRound_rel (fun i _ => Rel.var i) (Rel.var (ρ := env A c) 25)
    have hlen : (wordRound var (var 25) : List Sym).length = 25 := by
      rw [hround.length, Vector.length_toList]
    refine ⟨m1, e1, ⟨?_, ?_⟩, by rw [h1.pos, cp], exec_consts _ _ e1⟩
    · refine unique_rows (ρ := env A c) (take5_rel (List.forall₂_take 5 h1.zmm)) ?_ cb
      rw [cA]
      refine rows_rel hdst fun i hi => ?_
      have hi' : i < (wordRound var (var 25) : List Sym).length := by omega
      obtain ⟨x, ex, hx⟩ := hround.get i _ (List.getElem?_eq_getElem hi')
      rw [List.getD_eq_getElem?_getD, List.getD_eq_getElem?_getD, ex, List.getElem?_eq_getElem hi']
      exact hx
    · rw [← map_length_rel h1.zmm, cl]

/-- The body is two rounds. -/
theorem exec_body (m : Machine (BitVec 64)) (A : Lanes) (c d : BitVec 64) (k : Nat)
    (hm : Shape straight A m.zmm) (hpos : m.pos = 16 * k) (hc : m.consts[2 * k]? = some c)
    (hd : m.consts[2 * k + 1]? = some d) :
    ∃ m', exec masksRight body m = some m' ∧ Shape straight (keccakRound (keccakRound A c) d) m'.zmm ∧
      m'.pos = 16 * (k + 1) ∧ m'.consts = m.consts := by
  have hs : ∀ y < 5, ∀ x < 5, straight y x < 25 := by decide
  have hx : ∀ y < 5, ∀ x < 5, crossed y x < 25 := by decide
  have hb : 16 * k % 8 = 0 := by omega
  have ek : 16 * k / 8 = 2 * k := by omega
  obtain ⟨m1, e1, s1, p1, c1⟩ := exec_half symCheck_first hs hx hb m A c hm (by omega) (by
    intro i x hi
    rw [ek]
    match i with
    | 0 => cases hi; exact ⟨c, hc, Rel.var (ρ := env A c) 25⟩
    | i + 1 => cases hi)
  obtain ⟨m2, e2, s2, p2, c2⟩ := exec_half symCheck_second hx hs hb m1 (keccakRound A c) d s1 (by omega) (by
    intro i x hi
    rw [ek, c1]
    match i with
    | 0 =>
      cases hi
      exact ⟨c, hc, Rel.bad _⟩
    | 1 => cases hi; exact ⟨d, hd, Rel.var (ρ := env (keccakRound A c) d) 25⟩
    | i + 2 => cases hi)
  refine ⟨m2, ?_, s2, by omega, c2.trans c1⟩
  have eb : body = (round0 ++ iota0) ++ (shuffle ++ round1) := by
    unfold body
    rw [List.append_assoc]
  rw [eb, exec_append, e1, Option.bind_some, e2]

/-- The loop with `n + 1` iterations to go. -/
theorem loop_eq (cs : List (BitVec 64)) (n : Nat) : ∀ (fuel k : Nat) (m : Machine (BitVec 64)) (A : Lanes),
    n < fuel → n < 2 ^ 32 - 1 → 2 * (k + n + 1) = cs.length → m.consts = cs → m.pos = 16 * k →
    Shape straight A m.zmm →
    ∃ m', loop masksRight fuel (BitVec.ofNat 32 (n + 1)) m = some m' ∧
      Shape straight ((cs.drop (2 * k)).foldl keccakRound A) m'.zmm := by
  induction n with
  | zero =>
    intro fuel k m A hf _ hk hcs hpos hm
    obtain ⟨fuel, rfl⟩ : ∃ f, fuel = f + 1 := ⟨fuel - 1, by omega⟩
    have h0 : 2 * k < cs.length := by omega
    have h1 : 2 * k + 1 < cs.length := by omega
    obtain ⟨m', e, s', p', c'⟩ := exec_body m A cs[2 * k] cs[2 * k + 1] k hm hpos
      (by rw [hcs, List.getElem?_eq_getElem h0]) (by rw [hcs, List.getElem?_eq_getElem h1])
    refine ⟨m', ?_, ?_⟩
    · unfold loop
      rw [e, Option.bind_some, if_pos (by decide)]
    · rw [List.drop_eq_getElem_cons h0, List.drop_eq_getElem_cons h1, List.drop_eq_nil_of_le (by omega)]
      exact s'
  | succ n ih =>
    intro fuel k m A hf hn hk hcs hpos hm
    obtain ⟨fuel, rfl⟩ : ∃ f, fuel = f + 1 := ⟨fuel - 1, by omega⟩
    have h0 : 2 * k < cs.length := by omega
    have h1 : 2 * k + 1 < cs.length := by omega
    obtain ⟨m', e, s', p', c'⟩ := exec_body m A cs[2 * k] cs[2 * k + 1] k hm hpos
      (by rw [hcs, List.getElem?_eq_getElem h0]) (by rw [hcs, List.getElem?_eq_getElem h1])
    have hsub : BitVec.ofNat 32 (n + 1 + 1) - 1 = BitVec.ofNat 32 (n + 1) := by
      apply BitVec.eq_of_toNat_eq
      have h1 : (1 : BitVec 32).toNat = 1 := rfl
      simp only [BitVec.toNat_sub, BitVec.toNat_ofNat, h1]
      omega
    have hne : BitVec.ofNat 32 (n + 1) ≠ 0 := by
      intro h
      have := congrArg BitVec.toNat h
      have h0 : (0 : BitVec 32).toNat = 0 := rfl
      simp only [BitVec.toNat_ofNat, h0] at this
      omega
    obtain ⟨m2, e2, s2⟩ := ih fuel (k + 1) m' _ (by omega) (by omega) (by omega) (c'.trans hcs) p' s'
    refine ⟨m2, ?_, ?_⟩
    · unfold loop
      rw [e, Option.bind_some, hsub, if_neg hne, e2]
    · rw [List.drop_eq_getElem_cons h0, List.drop_eq_getElem_cons h1]
      exact s2

theorem constants_eq : constants = keccakConstants := rfl

theorem shape_get {A : Lanes} {zmm : List (List (BitVec 64))} (h : Shape straight A zmm) (i : Nat) (hi : i < 25) :
    ((zmm[i / 5]?).bind fun v => v[i % 5]?) = some A[i] := by
  have h1 : ((zmm.take 5).map (List.take 5))[i / 5]? =
      (rows straight fun i => A.toList.getD i 0)[i / 5]? := by rw [h.lanes]
  unfold rows at h1
  have h5 : i / 5 < 5 := by omega
  have h5' : i % 5 < 5 := by omega
  rw [List.getElem?_map, List.getElem?_map, List.getElem?_range h5, List.getElem?_take_of_lt h5] at h1
  cases hz : zmm[i / 5]? with
  | none => rw [hz] at h1; cases h1
  | some v =>
    rw [hz] at h1
    simp only [Option.map_some, Option.some.injEq] at h1
    have h2 : (v.take 5)[i % 5]? = some (A.toList.getD (straight (i / 5) (i % 5)) 0) := by
      rw [h1, List.getElem?_map, List.getElem?_range h5', Option.map_some]
    rw [List.getElem?_take_of_lt h5'] at h2
    rw [Option.bind_some, h2]
    have : straight (i / 5) (i % 5) = i := by unfold straight; omega
    rw [this]
    simp [List.getD_eq_getElem?_getD, hi]

theorem mapM_some' {X Y : Type} (f : X → Option Y) (g : X → Y) (l : List X) (h : ∀ x ∈ l, f x = some (g x)) :
    l.mapM f = some (l.map g) := by
  induction l with
  | nil => rfl
  | cons x l ih =>
    rw [List.mapM_cons, h x List.mem_cons_self, ih fun y hy => h y (List.mem_cons_of_mem _ hy)]
    rfl

theorem shape_packRight (A : Lanes) (top : List (BitVec 64)) (ht : top.length = 3)
    (rest : List (List (BitVec 64))) (hr : rest.map List.length = List.replicate 8 8) :
    Shape straight A (packRight (fun i => A.toList.getD i 0) top ++ rest) := by
  have key : ∀ a : Nat → BitVec 64,
      ((packRight a top ++ rest).take 5).map (List.take 5) = rows straight a ∧
      (packRight a top ++ rest).map List.length = List.replicate 13 8 := by
    intro a
    match top, ht with
    | [x, y, z], _ =>
      refine ⟨rfl, ?_⟩
      rw [List.map_append, hr]
      rfl
  exact ⟨(key _).1, (key _).2⟩

/-- With the masks that the algorithm needs the result is Keccak-f of what elements 0-4 hold. -/
theorem finish_shape (fuel : Nat) (hf : 12 ≤ fuel) (A : Lanes) (zmm : List (List (BitVec 64)))
    (hz : Shape straight A zmm) : finish masksRight fuel zmm = some (keccakPermute A).toList := by
  obtain ⟨m', e, s⟩ := loop_eq constants 11 fuel 0
    ⟨zmm, constants, 0⟩ A (by omega) (by omega) (by decide) rfl rfl hz
  rw [constants_eq, Nat.mul_zero, List.drop_zero,
    show keccakConstants.foldl keccakRound A = keccakPermute A from rfl] at s
  generalize keccakPermute A = R at s ⊢
  unfold finish
  rw [show (12 : BitVec 32) = BitVec.ofNat 32 (11 + 1) from rfl, e, Option.bind_some,
    mapM_some' _ (fun i => R.toList.getD i 0) _ fun i hi => by
      have h := List.mem_range.1 hi
      rw [shape_get s i h]
      simp [List.getD_eq_getElem?_getD, h]]
  refine congrArg some (List.ext_getElem ?_ ?_)
  · simp
  · intro i h1 h2
    rw [List.getElem_map, List.getElem_range, List.getD_eq_getElem?_getD, List.getElem?_eq_getElem h2]
    rfl

/-- With the layout and the masks that the algorithm needs the result is Keccak-f. -/
theorem finish_right (fuel : Nat) (hf : 12 ≤ fuel) (A : Lanes) (top : List (BitVec 64)) (ht : top.length = 3)
    (rest : List (List (BitVec 64))) (hr : rest.map List.length = List.replicate 8 8) :
    finish masksRight fuel (packRight (fun i => A.toList.getD i 0) top ++ rest) =
      some (keccakPermute A).toList :=
  finish_shape fuel hf A _ (shape_packRight A top ht rest hr)

/-- The state that elements 0-4 of the registers hold with the layout of the code. -/
def loaded (A : Lanes) : Lanes := Vector.ofFn fun i : Fin 25 =>
  if i.val % 5 < 3 then 0 else A[i.val - 3]'(by omega)

theorem shape_pack (A : Lanes) (rest : List (List (BitVec 64)))
    (hr : rest.map List.length = List.replicate 8 8) :
    Shape straight (loaded A) (pack (fun i => A.toList.getD i 0) ++ rest) := by
  have key : ∀ a : Nat → BitVec 64,
      ((pack a ++ rest).take 5).map (List.take 5) =
        rows straight (fun i => if i % 5 < 3 then 0 else a (i - 3)) ∧
      (pack a ++ rest).map List.length = List.replicate 13 8 := by
    intro a
    refine ⟨rfl, ?_⟩
    rw [List.map_append, hr]
    rfl
  refine ⟨?_, (key _).2⟩
  rw [(key _).1]
  unfold rows
  apply List.map_congr_left
  intro y hy
  apply List.map_congr_left
  intro x hx
  have hx := List.mem_range.1 hx
  have hy := List.mem_range.1 hy
  have hi : straight y x < 25 := by unfold straight; omega
  have hj : straight y x - 3 < 25 := by omega
  simp [loaded, List.getD_eq_getElem?_getD, hi, hj]

end Verif.Avx512
