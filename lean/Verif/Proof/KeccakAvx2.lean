import Verif.Model.KeccakAvx2
import Verif.Proof.AsmSym
/-
The loop body of the AVX2 version, run on symbolic words, gives the normal forms of one round.
-/
namespace Verif.Avx2
open Verif.Sym

variable {ρ : Nat → BitVec 64}

/-- Vectors that agree element by element. -/
structure RelV (ρ : Nat → BitVec 64) (s : V4 Sym) (v : V4 (BitVec 64)) : Prop where
  e0 : Rel ρ s.e0 v.e0
  e1 : Rel ρ s.e1 v.e1
  e2 : Rel ρ s.e2 v.e2
  e3 : Rel ρ s.e3 v.e3

theorem RelV.get {s : V4 Sym} {v : V4 (BitVec 64)} (h : RelV ρ s v) (i : Nat) : Rel ρ (s.get i) (v.get i) := by
  unfold V4.get
  match i % 4 with
  | 0 => exact h.e0
  | 1 => exact h.e1
  | 2 => exact h.e2
  | _ + 3 => exact h.e3

theorem RelV.perm {s : V4 Sym} {v : V4 (BitVec 64)} (h : RelV ρ s v) (imm : Nat) :
    RelV ρ (s.perm imm) (v.perm imm) := ⟨h.get _, h.get _, h.get _, h.get _⟩

theorem RelV.shufd {s s' : V4 Sym} {v : V4 (BitVec 64)} (h : RelV ρ s v) (imm : Nat)
    (hs : s.shufd imm = some s') : ∃ v', v.shufd imm = some v' ∧ RelV ρ s' v' := by
  unfold V4.shufd at hs ⊢
  split at hs
  · cases hs
    rename_i c
    rw [if_pos c]
    exact ⟨_, rfl, h.e1, h.e0, h.e3, h.e2⟩
  · cases hs

theorem blend1_rel {bits : Nat} {x y z : Sym} {a b : BitVec 64} (hx : Rel ρ x a) (hy : Rel ρ y b)
    (h : V4.blend1 bits x y = some z) : ∃ c, V4.blend1 bits a b = some c ∧ Rel ρ z c := by
  unfold V4.blend1 at h ⊢
  by_cases c1 : bits % 4 = 3
  · rw [if_pos c1] at h ⊢
    cases h
    exact ⟨_, rfl, hx⟩
  · rw [if_neg c1] at h ⊢
    by_cases c2 : bits % 4 = 0
    · rw [if_pos c2] at h ⊢
      cases h
      exact ⟨_, rfl, hy⟩
    · rw [if_neg c2] at h
      cases h

theorem RelV.blend {s t u : V4 Sym} {v w : V4 (BitVec 64)} (hs : RelV ρ s v) (ht : RelV ρ t w) (imm : Nat)
    (h : V4.blend imm s t = some u) : ∃ v', V4.blend imm v w = some v' ∧ RelV ρ u v' := by
  obtain ⟨a, ea, h⟩ := Option.bind_eq_some_iff.1 h
  obtain ⟨b, eb, h⟩ := Option.bind_eq_some_iff.1 h
  obtain ⟨c, ec, h⟩ := Option.bind_eq_some_iff.1 h
  obtain ⟨d, ed, rfl⟩ := Option.map_eq_some_iff.1 h
  obtain ⟨a', ea', ha⟩ := blend1_rel hs.e0 ht.e0 ea
  obtain ⟨b', eb', hb⟩ := blend1_rel hs.e1 ht.e1 eb
  obtain ⟨c', ec', hc⟩ := blend1_rel hs.e2 ht.e2 ec
  obtain ⟨d', ed', hd⟩ := blend1_rel hs.e3 ht.e3 ed
  exact ⟨⟨a', b', c', d'⟩, by
    unfold V4.blend
    simp only [ea', eb', ec', ed', Option.bind_some, Option.map_some], ha, hb, hc, hd⟩

theorem RelV.zip {s t : V4 Sym} {v w : V4 (BitVec 64)} (hs : RelV ρ s v) (ht : RelV ρ t w)
    {f : Sym → Sym → Sym} {g : BitVec 64 → BitVec 64 → BitVec 64}
    (hf : ∀ {x y a b}, Rel ρ x a → Rel ρ y b → Rel ρ (f x y) (g a b)) :
    RelV ρ (V4.zip f s t) (V4.zip g v w) :=
  ⟨hf hs.e0 ht.e0, hf hs.e1 ht.e1, hf hs.e2 ht.e2, hf hs.e3 ht.e3⟩

theorem RelV.shift {s : V4 Sym} {v : V4 (BitVec 64)} (hs : RelV ρ s v) (n : V4 Nat)
    {f : Nat → Sym → Sym} {g : Nat → BitVec 64 → BitVec 64}
    (hf : ∀ k {x a}, Rel ρ x a → Rel ρ (f k x) (g k a)) : RelV ρ (V4.zip f n s) (V4.zip g n v) :=
  ⟨hf _ hs.e0, hf _ hs.e1, hf _ hs.e2, hf _ hs.e3⟩

abbrev RelVs (ρ : Nat → BitVec 64) := List.Forall₂ (RelV ρ)

theorem RelVs.get {l : List (V4 Sym)} {xs : List (V4 (BitVec 64))} (h : RelVs ρ l xs) (i : Nat)
    (s : V4 Sym) (hs : l[i]? = some s) : ∃ x, xs[i]? = some x ∧ RelV ρ s x := by
  induction h generalizing i with
  | nil => simp at hs
  | @cons a b l xs h1 _ ih =>
    match i with
    | 0 =>
      simp only [List.getElem?_cons_zero, Option.some.injEq] at hs
      exact ⟨b, by simp, hs ▸ h1⟩
    | i + 1 =>
      simp only [List.getElem?_cons_succ] at hs
      obtain ⟨x, e, hx⟩ := ih i hs
      exact ⟨x, by simpa using e, hx⟩

theorem RelVs.set {l : List (V4 Sym)} {xs : List (V4 (BitVec 64))} (h : RelVs ρ l xs) (i : Nat) {s : V4 Sym}
    {x : V4 (BitVec 64)} (hs : RelV ρ s x) : RelVs ρ (l.set i s) (xs.set i x) := by
  induction h generalizing i with
  | nil => exact .nil
  | cons h1 t ih =>
    match i with
    | 0 => exact .cons hs t
    | i + 1 => exact .cons h1 (ih i)

/-- A symbolic machine that agrees with a machine. -/
structure RelM (ρ : Nat → BitVec 64) (s : Machine Sym) (m : Machine (BitVec 64)) : Prop where
  ymm : RelVs ρ s.ymm m.ymm
  consts : ∀ off x, load s.consts (s.pos + off) = some x →
    ∃ w, load m.consts (m.pos + off) = some w ∧ RelV ρ x w

theorem set_rel {s : Machine Sym} {m : Machine (BitVec 64)} (h : RelM ρ s m) {d : Nat} {x : V4 Sym}
    {w : V4 (BitVec 64)} (hw : RelV ρ x w) {s' : Machine Sym} (hs : s.set d x = some s') :
    ∃ m', m.set d w = some m' ∧ RelM ρ s' m' := by
  unfold Machine.set at hs ⊢
  rw [h.ymm.length_eq] at hs
  by_cases c : d < m.ymm.length
  · rw [if_pos c] at hs ⊢
    cases hs
    exact ⟨_, rfl, h.ymm.set _ hw, h.consts⟩
  · rw [if_neg c] at hs
    cases hs

theorem bin_rel {s : Machine Sym} {m : Machine (BitVec 64)} (h : RelM ρ s m)
    {f : Sym → Sym → Sym} {g : BitVec 64 → BitVec 64 → BitVec 64}
    (hf : ∀ {x y a b}, Rel ρ x a → Rel ρ y b → Rel ρ (f x y) (g a b)) (a b d : Nat) {s' : Machine Sym}
    (hs : s.bin f a b d = some s') : ∃ m', m.bin g a b d = some m' ∧ RelM ρ s' m' := by
  obtain ⟨x, e, hs⟩ := Option.bind_eq_some_iff.1 hs
  obtain ⟨w, ew, hw⟩ := h.ymm.get _ _ e
  obtain ⟨y, e, hs⟩ := Option.bind_eq_some_iff.1 hs
  obtain ⟨v, ev, hv⟩ := h.ymm.get _ _ e
  obtain ⟨m', em, hm⟩ := set_rel h (hw.zip hv hf) hs
  exact ⟨m', by unfold Machine.bin; simp only [ew, ev, Option.bind_some, em], hm⟩

theorem step_rel {s : Machine Sym} {m : Machine (BitVec 64)} (h : RelM ρ s m) (i : Instr)
    {s' : Machine Sym} (hs : step s i = some s') : ∃ m', step m i = some m' ∧ RelM ρ s' m' := by
  match i, hs with
  | .vpxor a b d, hs => exact bin_rel h (fun hx hy => hy.xor hx) a b d hs
  | .vpor a b d, hs => exact bin_rel h (fun hx hy => hy.or hx) a b d hs
  | .vpaddq a b d, hs => exact bin_rel h (fun hx hy => hy.add hx) a b d hs
  | .vpandn a b d, hs => exact bin_rel h (fun hx hy => hy.not.and hx) a b d hs
  | .vpshufd imm a d, hs =>
    obtain ⟨x, e, hs⟩ := Option.bind_eq_some_iff.1 hs
    obtain ⟨w, ew, hw⟩ := h.ymm.get _ _ e
    obtain ⟨y, e, hs⟩ := Option.bind_eq_some_iff.1 hs
    obtain ⟨v, ev, hv⟩ := hw.shufd imm e
    obtain ⟨m', em, hm⟩ := set_rel h hv hs
    exact ⟨m', by unfold step; simp only [ew, ev, Option.bind_some, em], hm⟩
  | .vpermq imm a d, hs =>
    obtain ⟨x, e, hs⟩ := Option.bind_eq_some_iff.1 hs
    obtain ⟨w, ew, hw⟩ := h.ymm.get _ _ e
    obtain ⟨m', em, hm⟩ := set_rel h (hw.perm imm) hs
    exact ⟨m', by unfold step; simp only [ew, Option.bind_some, em], hm⟩
  | .vpblendd imm a b d, hs =>
    obtain ⟨x, e, hs⟩ := Option.bind_eq_some_iff.1 hs
    obtain ⟨w, ew, hw⟩ := h.ymm.get _ _ e
    obtain ⟨y, e, hs⟩ := Option.bind_eq_some_iff.1 hs
    obtain ⟨v, ev, hv⟩ := h.ymm.get _ _ e
    obtain ⟨z, e, hs⟩ := Option.bind_eq_some_iff.1 hs
    obtain ⟨u, eu, hu⟩ := hw.blend hv imm e
    obtain ⟨m', em, hm⟩ := set_rel h hu hs
    exact ⟨m', by unfold step; simp only [ew, ev, eu, Option.bind_some, em], hm⟩
  | .vpsrlq k a d, hs =>
    obtain ⟨x, e, hs⟩ := Option.bind_eq_some_iff.1 hs
    obtain ⟨w, ew, hw⟩ := h.ymm.get _ _ e
    have hk : RelV ρ (x.map (Word.shr k)) (w.map (Word.shr k)) :=
      ⟨hw.e0.shr k, hw.e1.shr k, hw.e2.shr k, hw.e3.shr k⟩
    obtain ⟨m', em, hm⟩ := set_rel h hk hs
    exact ⟨m', by unfold step; simp only [ew, Option.bind_some, em], hm⟩
  | .vpsrldq k a d, hs =>
    unfold step at hs ⊢
    simp only at hs ⊢
    by_cases c : k = 8
    · rw [if_pos c] at hs ⊢
      obtain ⟨x, e, hs⟩ := Option.bind_eq_some_iff.1 hs
      obtain ⟨w, ew, hw⟩ := h.ymm.get _ _ e
      have hk : RelV ρ ⟨x.e1, Word.ofNat 0, x.e3, Word.ofNat 0⟩ ⟨w.e1, Word.ofNat 0, w.e3, Word.ofNat 0⟩ :=
        ⟨hw.e1, Rel.ofNat _ _, hw.e3, Rel.ofNat _ _⟩
      obtain ⟨m', em, hm⟩ := set_rel h hk hs
      exact ⟨m', by simp only [ew, Option.bind_some, em], hm⟩
    · rw [if_neg c] at hs
      cases hs
  | .vpsllvq off a d, hs =>
    obtain ⟨n, en, hs⟩ := Option.bind_eq_some_iff.1 hs
    obtain ⟨x, e, hs⟩ := Option.bind_eq_some_iff.1 hs
    obtain ⟨w, ew, hw⟩ := h.ymm.get _ _ e
    obtain ⟨m', em, hm⟩ := set_rel h (hw.shift n fun k _ _ hx => hx.shl k) hs
    exact ⟨m', by unfold step; simp only [en, ew, Option.bind_some, em], hm⟩
  | .vpsrlvq off a d, hs =>
    obtain ⟨n, en, hs⟩ := Option.bind_eq_some_iff.1 hs
    obtain ⟨x, e, hs⟩ := Option.bind_eq_some_iff.1 hs
    obtain ⟨w, ew, hw⟩ := h.ymm.get _ _ e
    obtain ⟨m', em, hm⟩ := set_rel h (hw.shift n fun k _ _ hx => hx.shr k) hs
    exact ⟨m', by unfold step; simp only [en, ew, Option.bind_some, em], hm⟩
  | .vpxorC a d, hs =>
    obtain ⟨c, ec, hs⟩ := Option.bind_eq_some_iff.1 hs
    obtain ⟨v, ev, hv⟩ := h.consts 0 c ec
    rw [Nat.add_zero] at ev
    obtain ⟨x, e, hs⟩ := Option.bind_eq_some_iff.1 hs
    obtain ⟨w, ew, hw⟩ := h.ymm.get _ _ e
    obtain ⟨m', em, hm⟩ := set_rel h (hw.zip hv fun hx hy => hx.xor hy) hs
    exact ⟨m', by unfold step; simp only [ev, ew, Option.bind_some, em], hm⟩
  | .lea n, hs =>
    cases hs
    refine ⟨{ m with pos := m.pos + n }, rfl, h.ymm, ?_⟩
    intro o x hx
    have := h.consts (n + o) x (by rw [← Nat.add_assoc]; exact hx)
    rw [← Nat.add_assoc] at this
    exact this

theorem exec_rel {s : Machine Sym} {m : Machine (BitVec 64)} (h : RelM ρ s m) (p : List Instr)
    {s' : Machine Sym} (hs : exec p s = some s') : ∃ m', exec p m = some m' ∧ RelM ρ s' m' := by
  induction p generalizing s m with
  | nil => cases hs; exact ⟨m, rfl, h⟩
  | cons i p ih =>
    obtain ⟨s1, e, hs⟩ := Option.bind_eq_some_iff.1 hs
    obtain ⟨m1, em, hm⟩ := step_rel h i e
    obtain ⟨m', em', hm'⟩ := ih hm hs
    exact ⟨m', by unfold exec; simp only [em, Option.bind_some, em'], hm'⟩

/-- How far an instruction moves the pointer to the constants. -/
def Instr.moves : Instr → Nat
  | .lea n => n
  | _ => 0

theorem set_frame {W : Type} [Word W] {m m' : Machine W} {d : Nat} {v : V4 W} (h : m.set d v = some m') :
    m'.consts = m.consts ∧ m'.pos = m.pos := by
  unfold Machine.set at h
  split at h
  · cases h; exact ⟨rfl, rfl⟩
  · cases h

theorem step_frame {W : Type} [Word W] {m m' : Machine W} {i : Instr} (h : step m i = some m') :
    m'.consts = m.consts ∧ m'.pos = m.pos + i.moves := by
  have key : ∀ {v : V4 W} {d : Nat}, m.set d v = some m' → m'.consts = m.consts ∧ m'.pos = m.pos := set_frame
  have keyb : ∀ {f : W → W → W} {a b d : Nat}, m.bin f a b d = some m' →
      m'.consts = m.consts ∧ m'.pos = m.pos := by
    intro f a b d h
    obtain ⟨x, _, h⟩ := Option.bind_eq_some_iff.1 h
    obtain ⟨y, _, h⟩ := Option.bind_eq_some_iff.1 h
    exact key h
  match i, h with
  | .vpxor a b d, h => exact keyb h
  | .vpor a b d, h => exact keyb h
  | .vpaddq a b d, h => exact keyb h
  | .vpandn a b d, h => exact keyb h
  | .vpshufd imm a d, h =>
    obtain ⟨x, _, h⟩ := Option.bind_eq_some_iff.1 h
    obtain ⟨y, _, h⟩ := Option.bind_eq_some_iff.1 h
    exact key h
  | .vpermq imm a d, h =>
    obtain ⟨x, _, h⟩ := Option.bind_eq_some_iff.1 h
    exact key h
  | .vpblendd imm a b d, h =>
    obtain ⟨x, _, h⟩ := Option.bind_eq_some_iff.1 h
    obtain ⟨y, _, h⟩ := Option.bind_eq_some_iff.1 h
    obtain ⟨z, _, h⟩ := Option.bind_eq_some_iff.1 h
    exact key h
  | .vpsrlq k a d, h =>
    obtain ⟨x, _, h⟩ := Option.bind_eq_some_iff.1 h
    exact key h
  | .vpsrldq k a d, h =>
    unfold step at h
    simp only at h
    split at h
    · obtain ⟨x, _, h⟩ := Option.bind_eq_some_iff.1 h
      exact key h
    · cases h
  | .vpsllvq off a d, h =>
    obtain ⟨n, _, h⟩ := Option.bind_eq_some_iff.1 h
    obtain ⟨x, _, h⟩ := Option.bind_eq_some_iff.1 h
    exact key h
  | .vpsrlvq off a d, h =>
    obtain ⟨n, _, h⟩ := Option.bind_eq_some_iff.1 h
    obtain ⟨x, _, h⟩ := Option.bind_eq_some_iff.1 h
    exact key h
  | .vpxorC a d, h =>
    obtain ⟨n, _, h⟩ := Option.bind_eq_some_iff.1 h
    obtain ⟨x, _, h⟩ := Option.bind_eq_some_iff.1 h
    exact key h
  | .lea n, h => cases h; exact ⟨rfl, rfl⟩

theorem exec_frame {W : Type} [Word W] (p : List Instr) {m m' : Machine W} (h : exec p m = some m') :
    m'.consts = m.consts ∧ m'.pos = m.pos + (p.map Instr.moves).sum := by
  induction p generalizing m with
  | nil => cases h; exact ⟨rfl, rfl⟩
  | cons i p ih =>
    obtain ⟨m1, e, h⟩ := Option.bind_eq_some_iff.1 h
    obtain ⟨a, b⟩ := step_frame e
    obtain ⟨a', b'⟩ := ih h
    refine ⟨a'.trans a, ?_⟩
    rw [b', b, List.map_cons, List.sum_cons, Nat.add_assoc]

/-- Variables 0-24: the lanes; 25: the round constant; 26 and on: the other registers. -/
def symStart : Machine Sym :=
  ⟨pack var ++ (List.range' 26 9).map (fun n => ⟨var (4 * n), var (4 * n + 1), var (4 * n + 2), var (4 * n + 3)⟩),
    [⟨var 25, var 25, var 25, var 25⟩], 0⟩

def V4.all {W : Type} (p : W → Bool) (v : V4 W) : Bool := p v.e0 && p v.e1 && p v.e2 && p v.e3

/-- What the symbolic run must give. -/
def symCheck : Bool :=
  match exec body symStart with
  | none => false
  | some s => decide (s.ymm.take 7 = pack fun i => (wordRound var (var 25)).getD i .bad) &&
      decide (s.ymm.length = 16) && (s.ymm.take 7).all fun v => v.all fun x => decide (x ≠ .bad)

theorem symCheck_true : symCheck = true := by decide +kernel

/-- Vectors of known elements that agree with the same symbolic vectors are equal. -/
theorem RelVs.unique {l : List (V4 Sym)} {xs ys : List (V4 (BitVec 64))} (hx : RelVs ρ l xs)
    (hy : RelVs ρ l ys) (hb : ∀ v ∈ l, v.all (fun x => decide (x ≠ .bad)) = true) : xs = ys := by
  induction hx generalizing ys with
  | nil => cases hy; rfl
  | @cons s v l xs h1 t ih =>
    cases hy with
    | @cons _ w _ ys h2 t' =>
      have h := hb s (List.mem_cons_self)
      unfold V4.all at h
      simp only [Bool.and_eq_true, decide_eq_true_eq] at h
      obtain ⟨⟨⟨b0, b1⟩, b2⟩, b3⟩ := h
      have e : v = w := by
        cases v
        cases w
        congr
        · exact (h1.e0 b0).symm.trans (h2.e0 b0)
        · exact (h1.e1 b1).symm.trans (h2.e1 b1)
        · exact (h1.e2 b2).symm.trans (h2.e2 b2)
        · exact (h1.e3 b3).symm.trans (h2.e3 b3)
      rw [e, ih t' fun v hv => hb v (List.mem_cons_of_mem _ hv)]

theorem pack_rel {a : Nat → Sym} {b : Nat → BitVec 64} (h : ∀ i < 25, Rel ρ (a i) (b i)) :
    RelVs ρ (pack a) (pack b) := by
  unfold pack
  repeat first
    | exact .nil
    | refine .cons ⟨h _ (by decide), h _ (by decide), h _ (by decide), h _ (by decide)⟩ ?_

/-- The values of the variables. -/
def env (a : Nat → BitVec 64) (c : BitVec 64) (rest : List (V4 (BitVec 64))) (i : Nat) : BitVec 64 :=
  if i < 25 then a i else if i = 25 then c else (rest.getD ((i - 104) / 4) ⟨0, 0, 0, 0⟩).get i

theorem get_add {W : Type} (v : V4 W) (x j : Nat) : v.get (4 * x + j) = v.get j := by
  unfold V4.get
  rw [show (4 * x + j) % 4 = j % 4 by omega]

theorem rest_rel (a : Nat → BitVec 64) (c : BitVec 64) (rest : List (V4 (BitVec 64))) (hr : rest.length = 9) :
    RelVs (env a c rest) ((List.range' 26 9).map (fun n =>
      ⟨var (4 * n), var (4 * n + 1), var (4 * n + 2), var (4 * n + 3)⟩)) rest := by
  have key : ∀ (k : Nat) (l : List (V4 (BitVec 64))), rest.drop k = l → k + l.length = 9 →
      RelVs (env a c rest) ((List.range' (26 + k) l.length).map (fun n =>
        ⟨var (4 * n), var (4 * n + 1), var (4 * n + 2), var (4 * n + 3)⟩)) l := by
    intro k l
    induction l generalizing k with
    | nil => intro _ _; exact .nil
    | cons v l ih =>
      intro hd hk
      have hk' : k < rest.length := by rw [List.length_cons] at hk; omega
      have hv : rest.getD k ⟨0, 0, 0, 0⟩ = v := by
        rw [List.drop_eq_getElem_cons hk'] at hd
        rw [List.getD_eq_getElem?_getD, List.getElem?_eq_getElem hk']
        exact (List.cons.inj hd).1
      have htail : rest.drop (k + 1) = l := by
        rw [List.drop_eq_getElem_cons hk'] at hd
        exact (List.cons.inj hd).2
      have at_ : ∀ j < 4, env a c rest (4 * (26 + k) + j) = v.get (4 * (26 + k) + j) := by
        intro j hj
        unfold env
        rw [if_neg (by omega), if_neg (by omega), show (4 * (26 + k) + j - 104) / 4 = k by omega, hv]
      rw [List.length_cons, List.range'_succ, List.map_cons]
      refine .cons ⟨?_, ?_, ?_, ?_⟩ (ih (k + 1) htail (by rw [List.length_cons] at hk; omega))
      · have := at_ 0 (by omega)
        rw [show v.get (4 * (26 + k) + 0) = v.e0 from get_add v (26 + k) 0] at this
        exact this ▸ Rel.var _
      · have := at_ 1 (by omega)
        rw [show v.get (4 * (26 + k) + 1) = v.e1 from get_add v (26 + k) 1] at this
        exact this ▸ Rel.var _
      · have := at_ 2 (by omega)
        rw [show v.get (4 * (26 + k) + 2) = v.e2 from get_add v (26 + k) 2] at this
        exact this ▸ Rel.var _
      · have := at_ 3 (by omega)
        rw [show v.get (4 * (26 + k) + 3) = v.e3 from get_add v (26 + k) 3] at this
        exact this ▸ Rel.var _
  have := key 0 rest rfl (by omega)
  rw [hr] at this
  exact this

/-- One pass through the body is one round. -/
theorem exec_body (m : Machine (BitVec 64)) (A : Lanes) (c : BitVec 64) (rest : List (V4 (BitVec 64)))
    (hr : rest.length = 9) (hm : m.ymm = pack (fun i => A.toList.getD i 0) ++ rest)
    (hc : load m.consts m.pos = some ⟨c, c, c, c⟩) :
    ∃ m' rest', exec body m = some m' ∧ rest'.length = 9 ∧
      m'.ymm = pack (fun i => (keccakRound A c).toList.getD i 0) ++ rest' ∧ m'.consts = m.consts ∧
      m'.pos = m.pos + 32 := by
  have hstart : RelM (env (fun i => A.toList.getD i 0) c rest) symStart m := by
    refine ⟨?_, ?_⟩
    · rw [hm]
      refine List.rel_append (pack_rel fun i hi => ?_) (rest_rel _ c rest hr)
      have : env (fun i => A.toList.getD i 0) c rest i = A.toList.getD i 0 := by unfold env; rw [if_pos hi]
      exact this ▸ Rel.var _
    · intro off x hx
      have h0 : off = 0 ∧ x = ⟨var 25, var 25, var 25, var 25⟩ := by
        unfold load symStart at hx
        simp only [Nat.zero_add] at hx
        split at hx
        · rename_i h8
          by_cases h : off / 32 = 0
          · rw [h] at hx
            cases hx
            exact ⟨by omega, rfl⟩
          · rw [List.getElem?_eq_none (by simp; omega)] at hx
            cases hx
        · cases hx
      obtain ⟨rfl, rfl⟩ := h0
      have hv := Rel.var (ρ := env (fun i => A.toList.getD i 0) c rest) 25
      exact ⟨_, hc, hv, hv, hv, hv⟩
  have hcheck := symCheck_true
  unfold symCheck at hcheck
  cases hs : exec body symStart with
  | none => rw [hs] at hcheck; cases hcheck
  | some s =>
    rw [hs] at hcheck
    simp only [Bool.and_eq_true, decide_eq_true_eq] at hcheck
    obtain ⟨⟨cA, cl⟩, cb⟩ := hcheck
    obtain ⟨m1, e1, h1⟩ := exec_rel hstart body hs
    have hround : Sym.RelList (env (fun i => A.toList.getD i 0) c rest) (wordRound var (var 25))
        (keccakRound A c).toList := by
      rw [← wordRound_bitVec A c (env (fun i => A.toList.getD i 0) c rest) (by
        intro i hi
        unfold env
        rw [if_pos hi]
        simp [List.getD_eq_getElem?_getD, hi])]
      exact wordRound_rel (fun i _ => Rel.var i) (Rel.var (ρ := env (fun i => A.toList.getD i 0) c rest) 25)
    have hlen : (wordRound var (var 25) : List Sym).length = 25 := by
      rw [hround.length, Vector.length_toList]
    have hpack : RelVs (env (fun i => A.toList.getD i 0) c rest) (s.ymm.take 7)
        (pack fun i => (keccakRound A c).toList.getD i 0) := by
      rw [cA]
      refine pack_rel fun i hi => ?_
      have hi' : i < (wordRound var (var 25) : List Sym).length := by omega
      obtain ⟨x, ex, hx⟩ := hround.get i _ (List.getElem?_eq_getElem hi')
      rw [List.getD_eq_getElem?_getD, List.getD_eq_getElem?_getD, ex, List.getElem?_eq_getElem hi']
      exact hx
    have htake : RelVs (env (fun i => A.toList.getD i 0) c rest) (s.ymm.take 7) (m1.ymm.take 7) :=
      List.forall₂_take 7 h1.ymm
    have e7 : m1.ymm.take 7 = pack fun i => (keccakRound A c).toList.getD i 0 :=
      htake.unique hpack fun v hv => List.all_eq_true.1 cb v hv
    have hlen1 : m1.ymm.length = 16 := by rw [← h1.ymm.length_eq, cl]
    obtain ⟨fc, fp⟩ := exec_frame body e1
    refine ⟨m1, m1.ymm.drop 7, e1, by simp [hlen1], ?_, fc, ?_⟩
    · rw [← e7, List.take_append_drop]
    · rw [fp, show (body.map Instr.moves).sum = 32 by decide +kernel]

theorem load_consts (l : List (BitVec 64)) (k : Nat) (h : k < l.length) :
    load (l.map fun c => (⟨c, c, c, c⟩ : V4 (BitVec 64))) (32 * k) = some ⟨l[k], l[k], l[k], l[k]⟩ := by
  unfold load
  rw [if_pos (by omega), show 32 * k / 32 = k by omega, List.getElem?_map, List.getElem?_eq_getElem h]
  rfl

/-- The loop with `n + 1` iterations to go. -/
theorem loop_eq (cs : List (BitVec 64)) (n : Nat) : ∀ (fuel k : Nat) (m : Machine (BitVec 64)) (A : Lanes)
    (rest : List (V4 (BitVec 64))),
    n < fuel → n < 2 ^ 64 - 1 → k + n + 1 ≤ cs.length → m.consts = cs.map (fun c => ⟨c, c, c, c⟩) →
    m.pos = 32 * k → rest.length = 9 → m.ymm = pack (fun i => A.toList.getD i 0) ++ rest →
    ∃ m' rest', loop fuel (BitVec.ofNat 64 (n + 1)) m = some m' ∧ rest'.length = 9 ∧
      m'.ymm = pack (fun i => (((cs.drop k).take (n + 1)).foldl keccakRound A).toList.getD i 0) ++ rest' := by
  induction n with
  | zero =>
    intro fuel k m A rest hf _ hk hcs hpos hr hm
    obtain ⟨fuel, rfl⟩ : ∃ f, fuel = f + 1 := ⟨fuel - 1, by omega⟩
    have hk' : k < cs.length := by omega
    obtain ⟨m', rest', e, r', h', _, _⟩ := exec_body m A cs[k] rest hr hm
      (by rw [hcs, hpos]; exact load_consts cs k hk')
    refine ⟨m', rest', ?_, r', ?_⟩
    · unfold loop
      rw [e, Option.bind_some, if_pos (by decide)]
    · rw [h', List.drop_eq_getElem_cons hk']
      rfl
  | succ n ih =>
    intro fuel k m A rest hf hn hk hcs hpos hr hm
    obtain ⟨fuel, rfl⟩ : ∃ f, fuel = f + 1 := ⟨fuel - 1, by omega⟩
    have hk' : k < cs.length := by omega
    obtain ⟨m', rest', e, r', h', c', p'⟩ := exec_body m A cs[k] rest hr hm
      (by rw [hcs, hpos]; exact load_consts cs k hk')
    have hsub : BitVec.ofNat 64 (n + 1 + 1) - 1 = BitVec.ofNat 64 (n + 1) := by
      apply BitVec.eq_of_toNat_eq
      have h1 : (1 : BitVec 64).toNat = 1 := rfl
      simp only [BitVec.toNat_sub, BitVec.toNat_ofNat, h1]
      omega
    have hne : BitVec.ofNat 64 (n + 1) ≠ 0 := by
      intro h
      have := congrArg BitVec.toNat h
      have h0 : (0 : BitVec 64).toNat = 0 := rfl
      simp only [BitVec.toNat_ofNat, h0] at this
      omega
    obtain ⟨m2, rest2, e2, r2, h2⟩ := ih fuel (k + 1) m' (keccakRound A cs[k]) rest' (by omega) (by omega)
      (by omega) (c'.trans hcs) (by omega) r' h'
    refine ⟨m2, rest2, ?_, r2, ?_⟩
    · unfold loop
      rw [e, Option.bind_some, hsub, if_neg hne, e2]
    · rw [h2, List.drop_eq_getElem_cons hk']
      rfl

/-- A loop counter beyond the number of constants left: the loop reads past the end of the table. -/
theorem loop_past (cs : List (BitVec 64)) (n : Nat) : ∀ (k : Nat), k + n = cs.length → ∀ (fuel : Nat)
    (x : BitVec 64) (m : Machine (BitVec 64)), n < x.toNat →
    m.consts = cs.map (fun c => ⟨c, c, c, c⟩) → m.pos = 32 * k → loop fuel x m = none := by
  have noload : ∀ (m : Machine (BitVec 64)), m.consts = cs.map (fun c => ⟨c, c, c, c⟩) →
      m.pos = 32 * cs.length → exec body m = none := by
    intro m hc hp
    cases h : exec body m with
    | none => rfl
    | some m' =>
      exfalso
      have e : body = (theta ++ rho ++ piChi) ++ iota := rfl
      have happ : ∀ (p q : List Instr) (m : Machine (BitVec 64)),
          exec (p ++ q) m = (exec p m).bind (exec q) := by
        intro p q
        induction p with
        | nil => intro m; rfl
        | cons i p ih =>
          intro m
          rw [List.cons_append]
          unfold exec
          cases step m i with
          | none => rfl
          | some m1 => exact ih m1
      rw [e, happ] at h
      obtain ⟨m1, e1, h⟩ := Option.bind_eq_some_iff.1 h
      obtain ⟨fc, fp⟩ := exec_frame _ e1
      rw [show ((theta ++ rho ++ piChi).map Instr.moves).sum = 0 by decide +kernel, Nat.add_zero] at fp
      obtain ⟨m2, e2, _⟩ := Option.bind_eq_some_iff.1 h
      obtain ⟨v, ev, _⟩ := Option.bind_eq_some_iff.1 e2
      rw [fc, fp, hc, hp] at ev
      unfold load at ev
      rw [if_pos (by omega), show 32 * cs.length / 32 = cs.length by omega,
        List.getElem?_eq_none (by simp)] at ev
      cases ev
  induction n with
  | zero =>
    intro k hk fuel x m _ hc hp
    match fuel with
    | 0 => rfl
    | fuel + 1 =>
      unfold loop
      rw [noload m hc (by rw [hp, ← hk, Nat.add_zero])]
      rfl
  | succ n ih =>
    intro k hk fuel x m hx hc hp
    match fuel with
    | 0 => rfl
    | fuel + 1 =>
      unfold loop
      cases h : exec body m with
      | none => rfl
      | some m' =>
        obtain ⟨fc, fp⟩ := exec_frame _ h
        rw [show (body.map Instr.moves).sum = 32 by decide +kernel] at fp
        rw [Option.bind_some]
        have h1 : (1 : BitVec 64).toNat = 1 := rfl
        have h0 : (0 : BitVec 64).toNat = 0 := rfl
        have hn : (x - 1).toNat = (2 ^ 64 - 1 + x.toNat) % 2 ^ 64 := by
          rw [BitVec.toNat_sub, h1]
        have hlt := x.isLt
        have hcs : k + n + 1 = cs.length := hk
        have hne : x - 1 ≠ 0 := by
          intro h
          have := congrArg BitVec.toNat h
          rw [hn, h0] at this
          omega
        rw [if_neg hne]
        exact ih (k + 1) (by omega) fuel _ m' (by omega) (fc.trans hc) (by omega)

theorem constants_eq : constants = keccakConstants := rfl

theorem outputs_pack (a : Nat → BitVec 64) (rest : List (V4 (BitVec 64))) :
    (outputs.mapM fun o => ((pack a ++ rest)[o.1]?).map fun v => v.get o.2) = some ((List.range 25).map a) := rfl

/-- `permute`. -/
theorem run_eq (fuel : Nat) (hf : 24 ≤ fuel) (rest : List (V4 (BitVec 64))) (hr : rest.length = 9) (A : Lanes) :
    run fuel rest A = some (keccakPermute A).toList := by
  obtain ⟨m', rest', e, _, h⟩ := loop_eq constants 23 fuel 0
    ⟨pack (fun i => A.toList.getD i 0) ++ rest, constantsV, 0⟩ A rest (by omega) (by omega) (by decide) rfl rfl hr rfl
  have ec : (constants.drop 0).take (23 + 1) = keccakConstants := by rw [constants_eq]; rfl
  rw [ec, show keccakConstants.foldl keccakRound A = keccakPermute A from rfl] at h
  generalize keccakPermute A = R at h ⊢
  unfold run
  rw [show (24 : BitVec 64) = BitVec.ofNat 64 (23 + 1) from rfl, e, Option.bind_some, h, outputs_pack]
  refine congrArg some (List.ext_getElem ?_ ?_)
  · simp
  · intro i h1 h2
    rw [List.getElem_map, List.getElem_range, List.getD_eq_getElem?_getD, List.getElem?_eq_getElem h2]
    rfl

end Verif.Avx2
