import Verif.Model.KeccakX86
import Verif.Proof.AsmSym
/-
The loop body of the x86-64 version, run on symbolic words, gives the normal forms of one round.
-/
namespace Verif.X86
open Verif.Sym

variable {ρ : Nat → BitVec 64}

theorem exec_append {W : Type} [Word W] (p q : List Instr) (m : Machine W) :
    exec (p ++ q) m = (exec p m).bind (exec q) := by
  induction p generalizing m with
  | nil => rfl
  | cons i p ih =>
    show (step m i).bind (exec (p ++ q)) = ((step m i).bind (exec p)).bind (exec q)
    cases step m i with
    | none => rfl
    | some m' => exact ih m'

/-- A symbolic machine that agrees with a machine. Of the constants only those at and after the pointer
matter. -/
structure RelM (ρ : Nat → BitVec 64) (s : Machine Sym) (m : Machine (BitVec 64)) : Prop where
  regs : RelList ρ s.regs m.regs
  A : RelList ρ s.A m.A
  B : RelList ρ s.B m.B
  C : RelList ρ s.C m.C
  consts : ∀ off x, load s.consts (s.pos + off) = some x →
    ∃ w, load m.consts (m.pos + off) = some w ∧ Rel ρ x w

theorem load_rel {l : List Sym} {xs : List (BitVec 64)} (h : RelList ρ l xs) {off : Nat} {x : Sym}
    (hx : load l off = some x) : ∃ w, load xs off = some w ∧ Rel ρ x w := by
  unfold load at hx ⊢
  by_cases c : off % 8 = 0
  · rw [if_pos c] at hx ⊢
    exact h.get _ _ hx
  · rw [if_neg c] at hx
    cases hx

theorem store_rel {l : List Sym} {xs : List (BitVec 64)} (h : RelList ρ l xs) {off : Nat} {x : Sym}
    {w : BitVec 64} (hw : Rel ρ x w) {l' : List Sym} (hx : store l off x = some l') :
    ∃ ys, store xs off w = some ys ∧ RelList ρ l' ys := by
  unfold store at hx ⊢
  rw [h.length] at hx
  by_cases c : off % 8 = 0 ∧ off / 8 < xs.length
  · rw [if_pos c] at hx ⊢
    cases hx
    exact ⟨_, rfl, h.set _ hw⟩
  · rw [if_neg c] at hx
    cases hx

theorem read_rel {s : Machine Sym} {m : Machine (BitVec 64)} (h : RelM ρ s m) {o : Operand} {x : Sym}
    (hx : s.read o = some x) : ∃ w, m.read o = some w ∧ Rel ρ x w := by
  match o, hx with
  | .reg n, hx => exact h.regs.get _ _ hx
  | .mem .A off, hx => exact load_rel h.A hx
  | .mem .B off, hx => exact load_rel h.B hx
  | .mem .C off, hx => exact load_rel h.C hx
  | .mem .c off, hx => exact h.consts _ _ hx

theorem write_rel {s : Machine Sym} {m : Machine (BitVec 64)} (h : RelM ρ s m) {o : Operand} {x : Sym}
    {w : BitVec 64} (hw : Rel ρ x w) {s' : Machine Sym} (hs : s.write x o = some s') :
    ∃ m', m.write w o = some m' ∧ RelM ρ s' m' := by
  match o, hs with
  | .reg n, hs =>
    unfold Machine.write at hs ⊢
    simp only at hs ⊢
    rw [h.regs.length] at hs
    by_cases c : n < m.regs.length
    · rw [if_pos c] at hs ⊢
      cases hs
      exact ⟨_, rfl, h.regs.set _ hw, h.A, h.B, h.C, h.consts⟩
    · rw [if_neg c] at hs
      cases hs
  | .mem .A off, hs =>
    obtain ⟨l', e, rfl⟩ := Option.map_eq_some_iff.1 hs
    obtain ⟨ys, e', hr⟩ := store_rel h.A hw e
    exact ⟨{ m with A := ys }, by unfold Machine.write; simp only [e', Option.map_some], h.regs, hr, h.B, h.C, h.consts⟩
  | .mem .B off, hs =>
    obtain ⟨l', e, rfl⟩ := Option.map_eq_some_iff.1 hs
    obtain ⟨ys, e', hr⟩ := store_rel h.B hw e
    exact ⟨{ m with B := ys }, by unfold Machine.write; simp only [e', Option.map_some], h.regs, h.A, hr, h.C, h.consts⟩
  | .mem .C off, hs =>
    obtain ⟨l', e, rfl⟩ := Option.map_eq_some_iff.1 hs
    obtain ⟨ys, e', hr⟩ := store_rel h.C hw e
    exact ⟨{ m with C := ys }, by unfold Machine.write; simp only [e', Option.map_some], h.regs, h.A, h.B, hr, h.consts⟩
  | .mem .c off, hs => cases hs

theorem step_rel {s : Machine Sym} {m : Machine (BitVec 64)} (h : RelM ρ s m) (i : Instr)
    {s' : Machine Sym} (hs : step s i = some s') : ∃ m', step m i = some m' ∧ RelM ρ s' m' := by
  match i, hs with
  | .movImm imm d, hs => exact write_rel h (Rel.ofNat _ _) hs
  | .mov a d, hs =>
    obtain ⟨x, e, hs⟩ := Option.bind_eq_some_iff.1 hs
    obtain ⟨w, ew, hw⟩ := read_rel h e
    obtain ⟨m', em, hm⟩ := write_rel h hw hs
    exact ⟨m', by unfold step; simp only [ew, Option.bind_some, em], hm⟩
  | .xor a d, hs =>
    obtain ⟨x, e, hs⟩ := Option.bind_eq_some_iff.1 hs
    obtain ⟨w, ew, hw⟩ := read_rel h e
    obtain ⟨y, e, hs⟩ := Option.bind_eq_some_iff.1 hs
    obtain ⟨v, ev, hv⟩ := read_rel h e
    obtain ⟨m', em, hm⟩ := write_rel h (hv.xor hw) hs
    exact ⟨m', by unfold step; simp only [ew, ev, Option.bind_some, em], hm⟩
  | .and a d, hs =>
    obtain ⟨x, e, hs⟩ := Option.bind_eq_some_iff.1 hs
    obtain ⟨w, ew, hw⟩ := read_rel h e
    obtain ⟨y, e, hs⟩ := Option.bind_eq_some_iff.1 hs
    obtain ⟨v, ev, hv⟩ := read_rel h e
    obtain ⟨m', em, hm⟩ := write_rel h (hv.and hw) hs
    exact ⟨m', by unfold step; simp only [ew, ev, Option.bind_some, em], hm⟩
  | .not d, hs =>
    obtain ⟨y, e, hs⟩ := Option.bind_eq_some_iff.1 hs
    obtain ⟨v, ev, hv⟩ := read_rel h e
    obtain ⟨m', em, hm⟩ := write_rel h hv.not hs
    exact ⟨m', by unfold step; simp only [ev, Option.bind_some, em], hm⟩
  | .rol k d, hs =>
    obtain ⟨y, e, hs⟩ := Option.bind_eq_some_iff.1 hs
    obtain ⟨v, ev, hv⟩ := read_rel h e
    obtain ⟨m', em, hm⟩ := write_rel h (hv.rol k) hs
    exact ⟨m', by unfold step; simp only [ev, Option.bind_some, em], hm⟩
  | .dec d, hs =>
    obtain ⟨y, e, hs⟩ := Option.bind_eq_some_iff.1 hs
    obtain ⟨v, ev, hv⟩ := read_rel h e
    obtain ⟨m', em, hm⟩ := write_rel h (w := Word.sub v (Word.ofNat 1)) (Rel.sub _) hs
    exact ⟨m', by unfold step; simp only [ev, Option.bind_some, em], hm⟩
  | .lea off, hs =>
    cases hs
    refine ⟨{ m with pos := m.pos + off }, rfl, h.regs, h.A, h.B, h.C, ?_⟩
    intro o x hx
    have := h.consts (off + o) x (by rw [← Nat.add_assoc]; exact hx)
    rw [← Nat.add_assoc] at this
    exact this

theorem exec_rel {s : Machine Sym} {m : Machine (BitVec 64)} (h : RelM ρ s m) (p : List Instr)
    {s' : Machine Sym} (hs : exec p s = some s') : ∃ m', exec p m = some m' ∧ RelM ρ s' m' := by
  induction p generalizing s m with
  | nil => cases hs; exact ⟨m, rfl, h⟩
  | cons i p ih =>
    obtain ⟨s1, e, hs⟩ := Option.bind_eq_some_iff.1 hs
    obtain ⟨m1, em, hm⟩ := step_rel h i e
    obtain ⟨m', em', hm'⟩ := ih hm hs
    exact ⟨m', by unfold exec; simp only [em, Option.bind_some, em'], hm'⟩

/-- The part of the body before `lea` and `dec`. -/
def core : List Instr := columns ++ dWords ++ rhoPi ++ chi

/-- Variables 0-24: the state; 25: the round constant; 26-41: the registers; 42-66: `B`; 67-76: `C`. -/
def symStart : Machine Sym :=
  ⟨(List.range' 26 16).map var, (List.range' 0 25).map var, (List.range' 42 25).map var,
    (List.range' 67 10).map var, [var 25], 0⟩

/-- What the symbolic run must give: the round on `A`, counter and pointer unchanged. -/
def symCheck : Bool :=
  match exec core symStart with
  | none => false
  | some s => decide (s.A = wordRound var (var 25)) && decide (s.regs[13]? = some (var 39)) &&
      decide (s.regs.length = 16 ∧ s.B.length = 25 ∧ s.C.length = 10) &&
      s.A.all fun x => decide (x ≠ .bad)

theorem symCheck_true : symCheck = true := by decide +kernel

/-- The operand an instruction writes. -/
def Instr.dest : Instr → Option Operand
  | .movImm _ d | .mov _ d | .xor _ d | .and _ d | .not d | .rol _ d | .dec d => some d
  | .lea _ => none

/-- How far an instruction moves the pointer to the constants. -/
def Instr.moves : Instr → Nat
  | .lea off => off
  | _ => 0

/-- What an instruction leaves alone. -/
structure Frame {W : Type} (p : List Instr) (m m' : Machine W) : Prop where
  consts : m'.consts = m.consts
  pos : m'.pos = m.pos + (p.map Instr.moves).sum
  regs : ∀ n, (∀ i ∈ p, i.dest ≠ some (.reg n)) → m'.regs[n]? = m.regs[n]?

theorem write_frame {W : Type} [Word W] {m m' : Machine W} {w : W} {d : Operand}
    (h : m.write w d = some m') : m'.consts = m.consts ∧ m'.pos = m.pos ∧
      ∀ n, d ≠ .reg n → m'.regs[n]? = m.regs[n]? := by
  match d, h with
  | .reg k, h =>
    unfold Machine.write at h
    simp only at h
    split at h
    · cases h
      refine ⟨rfl, rfl, fun n hn => ?_⟩
      have : k ≠ n := fun e => hn (by rw [e])
      exact List.getElem?_set_ne this
    · cases h
  | .mem .A off, h =>
    obtain ⟨l', e, rfl⟩ := Option.map_eq_some_iff.1 h
    exact ⟨rfl, rfl, fun _ _ => rfl⟩
  | .mem .B off, h =>
    obtain ⟨l', e, rfl⟩ := Option.map_eq_some_iff.1 h
    exact ⟨rfl, rfl, fun _ _ => rfl⟩
  | .mem .C off, h =>
    obtain ⟨l', e, rfl⟩ := Option.map_eq_some_iff.1 h
    exact ⟨rfl, rfl, fun _ _ => rfl⟩
  | .mem .c off, h => cases h

theorem step_frame {W : Type} [Word W] {m m' : Machine W} {i : Instr} (h : step m i = some m') :
    m'.consts = m.consts ∧ m'.pos = m.pos + i.moves ∧
      ∀ n, i.dest ≠ some (.reg n) → m'.regs[n]? = m.regs[n]? := by
  have key : ∀ {w : W} {d : Operand}, m.write w d = some m' → m'.consts = m.consts ∧ m'.pos = m.pos ∧
      ∀ n, some d ≠ some (.reg n) → m'.regs[n]? = m.regs[n]? := by
    intro w d hw
    obtain ⟨a, b, c⟩ := write_frame hw
    exact ⟨a, b, fun n hn => c n fun e => hn (by rw [e])⟩
  match i, h with
  | .movImm imm d, h => exact key h
  | .mov a d, h =>
    obtain ⟨x, _, h⟩ := Option.bind_eq_some_iff.1 h
    exact key h
  | .xor a d, h =>
    obtain ⟨x, _, h⟩ := Option.bind_eq_some_iff.1 h
    obtain ⟨y, _, h⟩ := Option.bind_eq_some_iff.1 h
    exact key h
  | .and a d, h =>
    obtain ⟨x, _, h⟩ := Option.bind_eq_some_iff.1 h
    obtain ⟨y, _, h⟩ := Option.bind_eq_some_iff.1 h
    exact key h
  | .not d, h =>
    obtain ⟨y, _, h⟩ := Option.bind_eq_some_iff.1 h
    exact key h
  | .rol k d, h =>
    obtain ⟨y, _, h⟩ := Option.bind_eq_some_iff.1 h
    exact key h
  | .dec d, h =>
    obtain ⟨y, _, h⟩ := Option.bind_eq_some_iff.1 h
    exact key h
  | .lea off, h =>
    cases h
    exact ⟨rfl, rfl, fun _ _ => rfl⟩

theorem exec_frame {W : Type} [Word W] (p : List Instr) {m m' : Machine W} (h : exec p m = some m') :
    Frame p m m' := by
  induction p generalizing m with
  | nil => cases h; exact ⟨rfl, rfl, fun _ _ => rfl⟩
  | cons i p ih =>
    obtain ⟨m1, e, h⟩ := Option.bind_eq_some_iff.1 h
    obtain ⟨a, b, c⟩ := step_frame e
    obtain ⟨a', b', c'⟩ := ih h
    refine ⟨a'.trans a, ?_, fun n hn => ?_⟩
    · rw [b', b, List.map_cons, List.sum_cons, Nat.add_assoc]
    · rw [c' n fun j hj => hn j (List.mem_cons_of_mem _ hj), c n (hn i (List.mem_cons_self ..))]

/-- The values of the variables. -/
def env (A : Lanes) (c : BitVec 64) (regs B C : List (BitVec 64)) (i : Nat) : BitVec 64 :=
  if i < 25 then A.toList.getD i 0 else if i < 26 then c else if i < 42 then regs.getD (i - 26) 0
  else if i < 67 then B.getD (i - 42) 0 else C.getD (i - 67) 0

/-- One iteration of the loop is one round; the counter goes down, the pointer goes on. -/
theorem exec_body (m : Machine (BitVec 64)) (A : Lanes) (c : BitVec 64) (hr : m.regs.length = 16)
    (hA : m.A = A.toList) (hB : m.B.length = 25) (hC : m.C.length = 10)
    (hc : load m.consts m.pos = some c) (r : BitVec 64) (h13 : m.regs[13]? = some r) :
    ∃ m', exec body m = some m' ∧ m'.regs.length = 16 ∧ m'.A = (keccakRound A c).toList ∧
      m'.B.length = 25 ∧ m'.C.length = 10 ∧ m'.consts = m.consts ∧ m'.pos = m.pos + 8 ∧
      m'.regs[13]? = some (r - 1) := by
  have hstart : RelM (env A c m.regs m.B m.C) symStart m := by
    refine ⟨?_, ?_, ?_, ?_, ?_⟩
    · have := RelList.vars (ρ := env A c m.regs m.B m.C) m.regs 26 (by
        intro i hi
        rw [hr] at hi
        have e : 26 + i - 26 = i := by omega
        unfold env
        rw [if_neg (by omega), if_neg (by omega), if_pos (by omega), e]
        simp [List.getD_eq_getElem?_getD, hr, hi])
      rw [hr] at this
      exact this
    · have := RelList.vars (ρ := env A c m.regs m.B m.C) m.A 0 (by
        intro i hi
        have hi' : i < 25 := by simpa [hA] using hi
        unfold env
        rw [Nat.zero_add, if_pos hi']
        simp [List.getD_eq_getElem?_getD, hA, hi'])
      rw [hA, Vector.length_toList] at this
      rw [hA]
      exact this
    · have := RelList.vars (ρ := env A c m.regs m.B m.C) m.B 42 (by
        intro i hi
        rw [hB] at hi
        have e : 42 + i - 42 = i := by omega
        unfold env
        rw [if_neg (by omega), if_neg (by omega), if_neg (by omega), if_pos (by omega), e]
        simp [List.getD_eq_getElem?_getD, hB, hi])
      rw [hB] at this
      exact this
    · have := RelList.vars (ρ := env A c m.regs m.B m.C) m.C 67 (by
        intro i hi
        rw [hC] at hi
        have e : 67 + i - 67 = i := by omega
        unfold env
        rw [if_neg (by omega), if_neg (by omega), if_neg (by omega), if_neg (by omega), e]
        simp [List.getD_eq_getElem?_getD, hC, hi])
      rw [hC] at this
      exact this
    · intro off x hx
      have h0 : off = 0 ∧ x = var 25 := by
        unfold load symStart at hx
        simp only [Nat.zero_add] at hx
        split at hx
        · rename_i h8
          by_cases h : off / 8 = 0
          · rw [h] at hx
            cases hx
            exact ⟨by omega, rfl⟩
          · rw [List.getElem?_eq_none (by simp; omega)] at hx
            cases hx
        · cases hx
      obtain ⟨rfl, rfl⟩ := h0
      exact ⟨c, hc, Rel.var (ρ := env A c m.regs m.B m.C) 25⟩
  have hcheck := symCheck_true
  unfold symCheck at hcheck
  cases hs : exec core symStart with
  | none => rw [hs] at hcheck; cases hcheck
  | some s =>
    rw [hs] at hcheck
    simp only [Bool.and_eq_true, decide_eq_true_eq] at hcheck
    obtain ⟨⟨⟨cA, c13⟩, cl1, cl2, cl3⟩, cb⟩ := hcheck
    obtain ⟨m1, e1, h1⟩ := exec_rel hstart core hs
    have hround : RelList (env A c m.regs m.B m.C) (wordRound var (var 25)) (keccakRound A c).toList := by
      rw [← wordRound_bitVec A c (env A c m.regs m.B m.C) (by
        intro i hi
        unfold env
        rw [if_pos hi]
        simp [List.getD_eq_getElem?_getD, hi])]
      exact wordRound_rel (fun i _ => Rel.var i) (Rel.var (ρ := env A c m.regs m.B m.C) 25)
    have hA1 : m1.A = (keccakRound A c).toList := by
      refine RelList.unique h1.A ?_ ?_
      · rw [cA]; exact hround
      · intro x hx
        have := List.all_eq_true.1 cb x hx
        simpa using this
    have f1 := exec_frame core e1
    have hregs1 : m1.regs.length = 16 := by rw [← h1.regs.length, cl1]
    have h13' : m1.regs[13]? = some r := by
      obtain ⟨w, ew, hw⟩ := h1.regs.get 13 _ c13
      rw [f1.regs 13 (by decide +kernel)] at ew
      rw [f1.regs 13 (by decide +kernel), h13]
    have ebody : exec body m = (exec core m).bind (exec next) := exec_append core next m
    have hpos : m1.pos = m.pos := by
      have := f1.pos
      rw [show (core.map Instr.moves).sum = 0 by decide +kernel] at this
      exact this
    rw [ebody, e1]
    have hread : ({ m1 with pos := m1.pos + 8 } : Machine (BitVec 64)).read (.reg 13) = some r := h13'
    refine ⟨{ m1 with pos := m1.pos + 8, regs := m1.regs.set 13 (r - 1) }, ?_, ?_, hA1, ?_, ?_, f1.consts,
      ?_, ?_⟩
    · show (step m1 (.lea 8)).bind (exec [.dec (.reg 13)]) = _
      show (step { m1 with pos := m1.pos + 8 } (.dec (.reg 13))).bind (exec []) = _
      unfold step
      simp only [hread, Option.bind_some]
      unfold Machine.write
      simp only [hregs1]
      rfl
    · simp [hregs1]
    · rw [← cl2]; exact h1.B.length.symm
    · rw [← cl3]; exact h1.C.length.symm
    · show m1.pos + 8 = _
      rw [hpos]
    · simp [List.getElem?_set, hregs1]

theorem load_consts (l : List (BitVec 64)) (k : Nat) (h : k < l.length) :
    load l (8 * k) = some l[k] := by
  unfold load
  rw [if_pos (by omega), show 8 * k / 8 = k by omega, List.getElem?_eq_getElem h]

/-- The loop with `n + 1` iterations to go. -/
theorem loop_eq (cs : List (BitVec 64)) (n : Nat) : ∀ (fuel k : Nat) (m : Machine (BitVec 64)) (A : Lanes),
    n < fuel → n < 2 ^ 64 - 1 → k + n + 1 = cs.length → m.consts = cs → m.pos = 8 * k →
    m.regs.length = 16 → m.A = A.toList → m.B.length = 25 → m.C.length = 10 →
    m.regs[13]? = some (BitVec.ofNat 64 (n + 1)) →
    ∃ m', loop fuel m = some m' ∧ m'.A = ((cs.drop k).foldl keccakRound A).toList ∧
      m'.B.length = 25 ∧ m'.C.length = 10 ∧ m'.pos = 8 * cs.length ∧ m'.regs.length = 16 ∧
      m'.consts = cs := by
  induction n with
  | zero =>
    intro fuel k m A hf _ hk hcs hpos hr hA hB hC h13
    obtain ⟨fuel, rfl⟩ : ∃ f, fuel = f + 1 := ⟨fuel - 1, by omega⟩
    have hk' : k < cs.length := by omega
    obtain ⟨m', e, r', A', B', C', c', p', r13⟩ := exec_body m A cs[k] hr hA hB hC
      (by rw [hcs, hpos]; exact load_consts cs k hk') _ h13
    have h0 : m'.read (.reg 13) = some 0 := r13
    refine ⟨m', ?_, ?_, B', C', ?_, r', c'.trans hcs⟩
    · unfold loop
      simp only [e, Option.bind_some, h0, if_true]
    · rw [A', List.drop_eq_getElem_cons hk', List.drop_eq_nil_of_le (by omega)]
      rfl
    · omega
  | succ n ih =>
    intro fuel k m A hf hn hk hcs hpos hr hA hB hC h13
    obtain ⟨fuel, rfl⟩ : ∃ f, fuel = f + 1 := ⟨fuel - 1, by omega⟩
    have hk' : k < cs.length := by omega
    obtain ⟨m', e, r', A', B', C', c', p', r13⟩ := exec_body m A cs[k] hr hA hB hC
      (by rw [hcs, hpos]; exact load_consts cs k hk') _ h13
    have hsub : BitVec.ofNat 64 (n + 1 + 1) - 1 = BitVec.ofNat 64 (n + 1) := by
      apply BitVec.eq_of_toNat_eq
      have h1 : (1 : BitVec 64).toNat = 1 := rfl
      simp only [BitVec.toNat_sub, BitVec.toNat_ofNat, h1]
      omega
    rw [hsub] at r13
    have hne : BitVec.ofNat 64 (n + 1) ≠ 0 := by
      intro h
      have := congrArg BitVec.toNat h
      have h0 : (0 : BitVec 64).toNat = 0 := rfl
      simp only [BitVec.toNat_ofNat, h0] at this
      omega
    obtain ⟨m2, e2, A2, B2, C2, p2, r2, c2⟩ := ih fuel (k + 1) m' (keccakRound A cs[k]) (by omega) (by omega)
      (by omega) (c'.trans hcs) (by omega) r' A' B' C' r13
    have h0 : m'.read (.reg 13) = some (BitVec.ofNat 64 (n + 1)) := r13
    refine ⟨m2, ?_, ?_, B2, C2, p2, r2, c2⟩
    · unfold loop
      simp only [e, Option.bind_some, h0, if_neg hne, e2]
    · rw [A2, List.drop_eq_getElem_cons hk']
      rfl

theorem constants_eq : constants = keccakConstants := rfl

/-- `permute` on the machine. -/
theorem run_eq (fuel : Nat) (hf : 24 ≤ fuel) (regs B C : List (BitVec 64)) (hr : regs.length = 16)
    (hB : B.length = 25) (hC : C.length = 10) (A : Lanes) :
    ∃ m, run fuel regs B C A = some m ∧ m.A = (keccakPermute A).toList ∧ m.B.length = 25 ∧
      m.C.length = 10 ∧ m.pos = 8 * 24 ∧ m.regs.length = 16 ∧ m.consts = constants := by
  have h13 : (13 : Nat) < regs.length := by omega
  have e : step (⟨regs, A.toList, B, C, constants, 0⟩ : Machine (BitVec 64)) (.movImm 24 (.reg 13)) =
      some ⟨regs.set 13 24, A.toList, B, C, constants, 0⟩ := by
    unfold step Machine.write
    simp only [h13, if_true]
    rfl
  obtain ⟨m, e', h⟩ := loop_eq constants 23 fuel 0 ⟨regs.set 13 24, A.toList, B, C, constants, 0⟩ A (by omega)
    (by omega) (by decide) rfl rfl (by simp [hr]) rfl hB hC (by simp [List.getElem?_set, hr])
  refine ⟨m, ?_, h⟩
  unfold run
  rw [e]
  exact e'

/-- A register that no instruction writes keeps its value. -/
theorem loop_regs (n : Nat) (hn : ∀ i ∈ body, i.dest ≠ some (.reg n)) (fuel : Nat)
    (m m' : Machine (BitVec 64)) (h : loop fuel m = some m') : m'.regs[n]? = m.regs[n]? := by
  induction fuel generalizing m with
  | zero => cases h
  | succ fuel ih =>
    obtain ⟨m1, e1, h⟩ := Option.bind_eq_some_iff.1 h
    obtain ⟨r, _, h⟩ := Option.bind_eq_some_iff.1 h
    have f := (exec_frame body e1).regs n hn
    split at h
    · cases h; exact f
    · exact (ih m1 h).trans f

end Verif.X86
