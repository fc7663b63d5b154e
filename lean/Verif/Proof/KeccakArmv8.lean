import Verif.Model.KeccakArmv8
import Verif.Proof.AsmSym
/-
The macro step of the ARMv8 version, run on symbolic words, gives the normal forms of one round.
-/
namespace Verif.Armv8
open Verif.Sym

variable {ρ : Nat → BitVec 64}

theorem exec_append {W : Type} [Word W] (p q : List Instr) (m : Machine W) :
    exec (p ++ q) m = (exec p m).bind (exec q) := by
  induction p generalizing m with
  | nil => rfl
  | cons i p ih =>
    show (step m i).bind (exec (p ++ q)) = ((step m i).bind (exec p)).bind (exec q)
    cases step m i with
    | none => rfl
    | some m' => exact ih m'

/-- A symbolic machine that agrees with a machine. -/
structure RelM (ρ : Nat → BitVec 64) (s : Machine Sym) (m : Machine (BitVec 64)) : Prop where
  regs : RelList ρ s.regs m.regs
  A : RelList ρ s.A m.A
  stack : RelList ρ s.stack m.stack
  sp : s.sp = m.sp

theorem load_rel {l : List Sym} {xs : List (BitVec 64)} (h : RelList ρ l xs) {off : Nat} {x : Sym}
    (hx : load l off = some x) : ∃ w, load xs off = some w ∧ Rel ρ x w := by
  unfold load at hx ⊢
  by_cases c : off % 8 = 0
  · rw [if_pos c] at hx ⊢
    exact h.get _ _ hx
  · rw [if_neg c] at hx
    cases hx

theorem store_rel {l : List Sym} {xs : List (BitVec 64)} (h : RelList ρ l xs) {off : Nat} {x : Sym}
    {w : BitVec 64} (hw : Rel ρ x w) {l' : List Sym} (hx : store l off x = some l') :
    ∃ ys, store xs off w = some ys ∧ RelList ρ l' ys := by
  unfold store at hx ⊢
  rw [h.length] at hx
  by_cases c : off % 8 = 0 ∧ off / 8 < xs.length
  · rw [if_pos c] at hx ⊢
    cases hx
    exact ⟨_, rfl, h.set _ hw⟩
  · rw [if_neg c] at hx
    cases hx

theorem setReg_rel {s : Machine Sym} {m : Machine (BitVec 64)} (h : RelM ρ s m) {d : Nat} {x : Sym}
    {w : BitVec 64} (hw : Rel ρ x w) {s' : Machine Sym} (hs : s.setReg d x = some s') :
    ∃ m', m.setReg d w = some m' ∧ RelM ρ s' m' := by
  unfold Machine.setReg at hs ⊢
  rw [h.regs.length] at hs
  by_cases c : d < m.regs.length
  · rw [if_pos c] at hs ⊢
    cases hs
    exact ⟨_, rfl, h.regs.set _ hw, h.A, h.stack, h.sp⟩
  · rw [if_neg c] at hs
    cases hs

theorem slot_rel {s : Machine Sym} {m : Machine (BitVec 64)} (h : RelM ρ s m) (off : Nat) :
    s.slot off = m.slot off := by
  unfold Machine.slot
  rw [h.sp]

theorem loadS_rel {s : Machine Sym} {m : Machine (BitVec 64)} (h : RelM ρ s m) {off : Nat} {x : Sym}
    (hx : s.loadS off = some x) : ∃ w, m.loadS off = some w ∧ Rel ρ x w := by
  obtain ⟨o, eo, hx⟩ := Option.bind_eq_some_iff.1 hx
  obtain ⟨w, ew, hw⟩ := load_rel h.stack hx
  rw [slot_rel h] at eo
  exact ⟨w, by unfold Machine.loadS; simp only [eo, Option.bind_some, ew], hw⟩

theorem storeS_rel {s : Machine Sym} {m : Machine (BitVec 64)} (h : RelM ρ s m) {off : Nat} {x : Sym}
    {w : BitVec 64} (hw : Rel ρ x w) {s' : Machine Sym} (hs : s.storeS off x = some s') :
    ∃ m', m.storeS off w = some m' ∧ RelM ρ s' m' := by
  obtain ⟨o, eo, hs⟩ := Option.bind_eq_some_iff.1 hs
  obtain ⟨l, el, rfl⟩ := Option.map_eq_some_iff.1 hs
  obtain ⟨ys, ey, hy⟩ := store_rel h.stack hw el
  rw [slot_rel h] at eo
  exact ⟨{ m with stack := ys }, by unfold Machine.storeS; simp only [eo, Option.bind_some, ey, Option.map_some],
    h.regs, h.A, hy, h.sp⟩

theorem step_rel {s : Machine Sym} {m : Machine (BitVec 64)} (h : RelM ρ s m) (i : Instr)
    {s' : Machine Sym} (hs : step s i = some s') : ∃ m', step m i = some m' ∧ RelM ρ s' m' := by
  match i, hs with
  | .ldrA d off, hs =>
    obtain ⟨x, e, hs⟩ := Option.bind_eq_some_iff.1 hs
    obtain ⟨w, ew, hw⟩ := load_rel h.A e
    obtain ⟨m', em, hm⟩ := setReg_rel h hw hs
    exact ⟨m', by unfold step; simp only [ew, Option.bind_some, em], hm⟩
  | .strA a off, hs =>
    obtain ⟨x, e, hs⟩ := Option.bind_eq_some_iff.1 hs
    obtain ⟨w, ew, hw⟩ := h.regs.get _ _ e
    obtain ⟨l, el, rfl⟩ := Option.map_eq_some_iff.1 hs
    obtain ⟨ys, ey, hy⟩ := store_rel h.A hw el
    exact ⟨{ m with A := ys }, by unfold step; simp only [ew, Option.bind_some, ey, Option.map_some],
      h.regs, hy, h.stack, h.sp⟩
  | .ldrS d off, hs =>
    obtain ⟨x, e, hs⟩ := Option.bind_eq_some_iff.1 hs
    obtain ⟨w, ew, hw⟩ := loadS_rel h e
    obtain ⟨m', em, hm⟩ := setReg_rel h hw hs
    exact ⟨m', by unfold step; simp only [ew, Option.bind_some, em], hm⟩
  | .strS a off, hs =>
    obtain ⟨x, e, hs⟩ := Option.bind_eq_some_iff.1 hs
    obtain ⟨w, ew, hw⟩ := h.regs.get _ _ e
    obtain ⟨m', em, hm⟩ := storeS_rel h hw hs
    exact ⟨m', by unfold step; simp only [ew, Option.bind_some, em], hm⟩
  | .ldpS d1 d2 off, hs =>
    obtain ⟨x, e, hs⟩ := Option.bind_eq_some_iff.1 hs
    obtain ⟨w, ew, hw⟩ := loadS_rel h e
    obtain ⟨y, e, hs⟩ := Option.bind_eq_some_iff.1 hs
    obtain ⟨v, ev, hv⟩ := loadS_rel h e
    obtain ⟨s1, e, hs⟩ := Option.bind_eq_some_iff.1 hs
    obtain ⟨m1, em1, hm1⟩ := setReg_rel h hw e
    obtain ⟨m', em, hm⟩ := setReg_rel hm1 hv hs
    exact ⟨m', by unfold step; simp only [ew, ev, em1, Option.bind_some, em], hm⟩
  | .stpS a b off, hs =>
    obtain ⟨x, e, hs⟩ := Option.bind_eq_some_iff.1 hs
    obtain ⟨w, ew, hw⟩ := h.regs.get _ _ e
    obtain ⟨y, e, hs⟩ := Option.bind_eq_some_iff.1 hs
    obtain ⟨v, ev, hv⟩ := h.regs.get _ _ e
    obtain ⟨s1, e, hs⟩ := Option.bind_eq_some_iff.1 hs
    obtain ⟨m1, em1, hm1⟩ := storeS_rel h hw e
    obtain ⟨m', em, hm⟩ := storeS_rel hm1 hv hs
    exact ⟨m', by unfold step; simp only [ew, ev, em1, Option.bind_some, em], hm⟩
  | .eor d a b, hs =>
    obtain ⟨x, e, hs⟩ := Option.bind_eq_some_iff.1 hs
    obtain ⟨w, ew, hw⟩ := h.regs.get _ _ e
    obtain ⟨y, e, hs⟩ := Option.bind_eq_some_iff.1 hs
    obtain ⟨v, ev, hv⟩ := h.regs.get _ _ e
    obtain ⟨m', em, hm⟩ := setReg_rel h (hw.xor hv) hs
    exact ⟨m', by unfold step; simp only [ew, ev, Option.bind_some, em], hm⟩
  | .eorRor d a b k, hs =>
    obtain ⟨x, e, hs⟩ := Option.bind_eq_some_iff.1 hs
    obtain ⟨w, ew, hw⟩ := h.regs.get _ _ e
    obtain ⟨y, e, hs⟩ := Option.bind_eq_some_iff.1 hs
    obtain ⟨v, ev, hv⟩ := h.regs.get _ _ e
    obtain ⟨m', em, hm⟩ := setReg_rel h (hw.xor (hv.ror k)) hs
    exact ⟨m', by unfold step; simp only [ew, ev, Option.bind_some, em], hm⟩
  | .ror d a k, hs =>
    obtain ⟨x, e, hs⟩ := Option.bind_eq_some_iff.1 hs
    obtain ⟨w, ew, hw⟩ := h.regs.get _ _ e
    obtain ⟨m', em, hm⟩ := setReg_rel h (hw.ror k) hs
    exact ⟨m', by unfold step; simp only [ew, Option.bind_some, em], hm⟩
  | .bic d a b, hs =>
    obtain ⟨x, e, hs⟩ := Option.bind_eq_some_iff.1 hs
    obtain ⟨w, ew, hw⟩ := h.regs.get _ _ e
    obtain ⟨y, e, hs⟩ := Option.bind_eq_some_iff.1 hs
    obtain ⟨v, ev, hv⟩ := h.regs.get _ _ e
    obtain ⟨m', em, hm⟩ := setReg_rel h (hw.and hv.not) hs
    exact ⟨m', by unfold step; simp only [ew, ev, Option.bind_some, em], hm⟩
  | .mov d a, hs =>
    obtain ⟨x, e, hs⟩ := Option.bind_eq_some_iff.1 hs
    obtain ⟨w, ew, hw⟩ := h.regs.get _ _ e
    obtain ⟨m', em, hm⟩ := setReg_rel h hw hs
    exact ⟨m', by unfold step; simp only [ew, Option.bind_some, em], hm⟩
  | .movz d imm, hs => exact setReg_rel h (Rel.ofNat _ _) hs
  | .movk d imm sh, hs =>
    obtain ⟨x, e, hs⟩ := Option.bind_eq_some_iff.1 hs
    obtain ⟨w, ew, hw⟩ := h.regs.get _ _ e
    obtain ⟨m', em, hm⟩ := setReg_rel h ((hw.and (Rel.ofNat (0xFFFF * 2 ^ sh) _).not).or
      (Rel.ofNat (imm * 2 ^ sh) _)) hs
    exact ⟨m', by unfold step; simp only [ew, Option.bind_some]; exact em, hm⟩
  | .subSp n, hs =>
    cases hs
    exact ⟨{ m with sp := m.sp + n }, rfl, h.regs, h.A, h.stack, by show s.sp + n = _; rw [h.sp]⟩
  | .addSp n, hs =>
    unfold step at hs ⊢
    simp only at hs ⊢
    rw [h.sp] at hs
    by_cases c : n ≤ m.sp
    · rw [if_pos c] at hs ⊢
      cases hs
      exact ⟨_, rfl, h.regs, h.A, h.stack, rfl⟩
    · rw [if_neg c] at hs
      cases hs

theorem exec_rel {s : Machine Sym} {m : Machine (BitVec 64)} (h : RelM ρ s m) (p : List Instr)
    {s' : Machine Sym} (hs : exec p s = some s') : ∃ m', exec p m = some m' ∧ RelM ρ s' m' := by
  induction p generalizing s m with
  | nil => cases hs; exact ⟨m, rfl, h⟩
  | cons i p ih =>
    obtain ⟨s1, e, hs⟩ := Option.bind_eq_some_iff.1 hs
    obtain ⟨m1, em, hm⟩ := step_rel h i e
    obtain ⟨m', em', hm'⟩ := ih hm hs
    exact ⟨m', by unfold exec; simp only [em, Option.bind_some, em'], hm'⟩

/-- Where a lane is while the steps run. -/
inductive Loc
  | reg (n : Nat)
  | mem (i : Nat)
  deriving DecidableEq

def Machine.read {W : Type} (m : Machine W) : Loc → Option W
  | .reg n => m.regs[n]?
  | .mem i => m.A[i]?

/-- Lane 1 is in memory, lane 18 in `x30`, lane `i` in `xi` otherwise. -/
def locs : List Loc :=
  [.reg 0, .mem 1, .reg 2, .reg 3, .reg 4, .reg 5, .reg 6, .reg 7, .reg 8, .reg 9, .reg 10, .reg 11,
   .reg 12, .reg 13, .reg 14, .reg 15, .reg 16, .reg 17, .reg 30, .reg 19, .reg 20, .reg 21, .reg 22,
   .reg 23, .reg 24]

/-- The variable of a lane in `symStart`. -/
def laneVar : Nat → Nat
  | 1 => 32
  | 18 => 30
  | i => i

/-- Variables 0-30: the registers; 31-55: the state array; 56-59: the stack. -/
def symStart : Machine Sym :=
  ⟨(List.range' 0 31).map var, (List.range' 31 25).map var, (List.range' 56 4).map var, 0⟩

/-- The symbolic zero. -/
def zero : Sym := .val false [] []

theorem zero_rel : Rel ρ zero 0 := fun _ => BitVec.xor_self (x := (0 : BitVec 64))

/-- A symbolic run and what it must leave. -/
def symCheck (p : List Instr) (P : Machine Sym → Bool) : Bool :=
  match exec p symStart with
  | none => false
  | some s => P s && decide (s.regs.length = 31 ∧ s.A.length = 25 ∧ s.stack.length = 4)

theorem symRound_true : symCheck (theta ++ rhoPi ++ chi) (fun s =>
    decide (locs.map s.read = (wordRound (fun i => var (laneVar i)) zero).map some) && decide (s.sp = 32))
    = true := by decide +kernel

theorem symRound_ok : (wordRound (fun i => var (laneVar i)) zero).all (fun x => decide (x ≠ .bad)) = true := by
  decide +kernel

theorem symLoads_true : symCheck loads (fun s =>
    decide (locs.map s.read = ((List.range' 31 25).map var).map some) && decide (s.sp = 0)) = true := by
  decide +kernel

theorem symStores_true : symCheck stores (fun s =>
    decide (s.A = (List.range 25).map fun i => var (laneVar i)) && decide (s.sp = 0)) = true := by
  decide +kernel

/-- The values of the variables. -/
def env (m : Machine (BitVec 64)) (i : Nat) : BitVec 64 :=
  if i < 31 then m.regs.getD i 0 else if i < 56 then m.A.getD (i - 31) 0 else m.stack.getD (i - 56) 0

structure Shape (m : Machine (BitVec 64)) : Prop where
  regs : m.regs.length = 31
  A : m.A.length = 25
  stack : m.stack.length = 4

theorem start_rel (m : Machine (BitVec 64)) (h : Shape m) (hsp : m.sp = 0) : RelM (env m) symStart m := by
  refine ⟨?_, ?_, ?_, hsp.symm⟩
  · have := RelList.vars (ρ := env m) m.regs 0 (by
      intro i hi
      have hi' : i < 31 := by rw [← h.regs]; exact hi
      unfold env
      rw [Nat.zero_add, if_pos hi']
      simp [List.getD_eq_getElem?_getD, hi])
    rw [h.regs] at this
    exact this
  · have := RelList.vars (ρ := env m) m.A 31 (by
      intro i hi
      have hi' : i < 25 := by rw [← h.A]; exact hi
      have e : 31 + i - 31 = i := by omega
      unfold env
      rw [if_neg (by omega), if_pos (by omega), e]
      simp [List.getD_eq_getElem?_getD, hi])
    rw [h.A] at this
    exact this
  · have := RelList.vars (ρ := env m) m.stack 56 (by
      intro i hi
      have hi' : i < 4 := by rw [← h.stack]; exact hi
      have e : 56 + i - 56 = i := by omega
      unfold env
      rw [if_neg (by omega), if_neg (by omega), e]
      simp [List.getD_eq_getElem?_getD, hi])
    rw [h.stack] at this
    exact this

theorem symCheck_run {p : List Instr} {P : Machine Sym → Bool} (hc : symCheck p P = true)
    (m : Machine (BitVec 64)) (h : Shape m) (hsp : m.sp = 0) :
    ∃ s m', exec p m = some m' ∧ P s = true ∧ RelM (env m) s m' ∧ Shape m' := by
  unfold symCheck at hc
  cases hs : exec p symStart with
  | none => rw [hs] at hc; cases hc
  | some s =>
    rw [hs] at hc
    simp only [Bool.and_eq_true, decide_eq_true_eq] at hc
    obtain ⟨m', e, hm⟩ := exec_rel (start_rel m h hsp) p hs
    exact ⟨s, m', e, hc.1, hm, by rw [← hm.regs.length]; exact hc.2.1,
      by rw [← hm.A.length]; exact hc.2.2.1, by rw [← hm.stack.length]; exact hc.2.2.2⟩

theorem read_rel {s : Machine Sym} {m : Machine (BitVec 64)} (h : RelM ρ s m) (o : Loc) {x : Sym}
    (hx : s.read o = some x) : ∃ w, m.read o = some w ∧ Rel ρ x w := by
  match o, hx with
  | .reg n, hx => exact h.regs.get _ _ hx
  | .mem i, hx => exact h.A.get _ _ hx

/-- Reading known symbolic words gives the words they stand for. -/
theorem reads {s : Machine Sym} {m : Machine (BitVec 64)} (h : RelM ρ s m) : ∀ (os : List Loc)
    (l : List Sym) (xs : List (BitVec 64)), os.map s.read = l.map some → RelList ρ l xs →
    (∀ x ∈ l, x ≠ .bad) → os.map m.read = xs.map some
  | [], [], xs, _, hx, _ => by cases hx; rfl
  | [], _ :: _, _, e, _, _ => by simp at e
  | _ :: _, [], _, e, _, _ => by simp at e
  | o :: os, x :: l, _, e, .cons hx ht, hb => by
    simp only [List.map_cons, List.cons.injEq] at e ⊢
    obtain ⟨w, ew, hw⟩ := read_rel h o e.1
    have hbx := hb x (List.mem_cons_self ..)
    refine ⟨?_, reads h os l _ e.2 ht fun y hy => hb y (List.mem_cons_of_mem _ hy)⟩
    rw [ew, ← hw hbx, hx hbx]

/-- The registers (and the word in memory) hold the state. -/
structure Holds (m : Machine (BitVec 64)) (A : Lanes) : Prop where
  shape : Shape m
  sp : m.sp = 0
  lanes : locs.map m.read = A.toList.map some

theorem Holds.get {m : Machine (BitVec 64)} {A : Lanes} (h : Holds m A) (i : Nat) (hi : i < 25) :
    (locs.map m.read)[i]? = some (some A[i]) := by
  rw [h.lanes]
  simp [hi]

/-- The variable of a lane has the value of the lane. -/
theorem env_lane {m : Machine (BitVec 64)} {A : Lanes} (h : Holds m A) (i : Nat) (hi : i < 25) :
    env m (laneVar i) = A[i] := by
  have hg := h.get i hi
  have hl : ∀ j : Fin 25, locs[j.1]? = some (if j.1 = 1 then .mem 1 else .reg (laneVar j.1)) := by
    decide
  have := hl ⟨i, hi⟩
  rw [List.getElem?_map, this, Option.map_some, Option.some.injEq] at hg
  have this := hg.symm
  by_cases h1 : i = 1
  · subst h1
    simp only [if_true] at this
    show env m 32 = _
    unfold env
    rw [if_neg (by omega), if_pos (by omega)]
    have e : m.A[1]? = some A[1] := this.symm
    simp [List.getD_eq_getElem?_getD, e]
  · rw [if_neg h1] at this
    have hv : laneVar i < 31 := by
      have : ∀ j : Fin 25, j.1 ≠ 1 → laneVar j.1 < 31 := by decide
      exact this ⟨i, hi⟩ h1
    unfold env
    rw [if_pos hv]
    have e : m.regs[laneVar i]? = some A[i] := this.symm
    simp [List.getD_eq_getElem?_getD, e]

/-- What the four instructions of `MOVQ` compute. -/
def movqVal (c : Nat) : BitVec 64 :=
  let k (x : BitVec 64) (imm sh : Nat) : BitVec 64 :=
    (x &&& ~~~BitVec.ofNat 64 (0xFFFF * 2 ^ sh)) ||| BitVec.ofNat 64 (imm * 2 ^ sh)
  k (k (k (BitVec.ofNat 64 (c % 0x10000)) (c / 2 ^ 16 % 0x10000) 16) (c / 2 ^ 32 % 0x10000) 32)
    (c / 2 ^ 48 % 0x10000) 48

theorem setReg_eq (m : Machine (BitVec 64)) (d : Nat) (h : d < m.regs.length) (w : BitVec 64) :
    m.setReg d w = some { m with regs := m.regs.set d w } := by
  unfold Machine.setReg
  rw [if_pos h]

theorem step_movk (m : Machine (BitVec 64)) (d imm sh : Nat) (h : d < m.regs.length) (x : BitVec 64) :
    step { m with regs := m.regs.set d x } (.movk d imm sh) = some { m with
      regs := m.regs.set d ((x &&& ~~~BitVec.ofNat 64 (0xFFFF * 2 ^ sh)) ||| BitVec.ofNat 64 (imm * 2 ^ sh)) } := by
  unfold step
  have e : (m.regs.set d x)[d]? = some x := by simp [h]
  simp only [e, Option.bind_some]
  rw [setReg_eq _ _ (by simpa using h)]
  simp only [List.set_set]
  rfl

theorem exec_movq (m : Machine (BitVec 64)) (d c : Nat) (h : d < m.regs.length) :
    exec (movq d c) m = some { m with regs := m.regs.set d (movqVal c) } := by
  unfold movq
  have e : step m (.movz d (c % 0x10000)) =
      some { m with regs := m.regs.set d (BitVec.ofNat 64 (c % 0x10000)) } := setReg_eq m d h _
  simp only [exec, e, Option.bind_some, step_movk m d _ _ h]
  rfl

theorem movq_constants : constants.map movqVal = keccakConstants := by decide +kernel

theorem keccakRound_head (A : Lanes) :
    ∃ (x : BitVec 64) (l : List (BitVec 64)), ∀ c, (keccakRound A c).toList = (x ^^^ c) :: l :=
  ⟨_, _, fun _ => rfl⟩

theorem keccakRound_zero (A : Lanes) (c : BitVec 64) :
    (keccakRound A c).toList = ((keccakRound A 0).toList).set 0 ((keccakRound A 0)[0] ^^^ c) := by
  obtain ⟨x, l, h⟩ := keccakRound_head A
  have h0 : (keccakRound A 0)[0] = x := by
    have : (keccakRound A 0).toList[0]? = some x := by
      rw [h 0, xor_zero']
      rfl
    simpa using this
  rw [h c, h 0, h0]
  rfl

/-- One macro step is one round. -/
theorem exec_round (m : Machine (BitVec 64)) (A : Lanes) (h : Holds m A) (c : Nat) :
    ∃ m', exec (round c) m = some m' ∧ Holds m' (keccakRound A (movqVal c)) := by
  obtain ⟨s, m1, e1, hP, h1, sh1⟩ := symCheck_run symRound_true m h.shape h.sp
  simp only [Bool.and_eq_true, decide_eq_true_eq] at hP
  have hr : RelList (env m) (wordRound (fun i => var (laneVar i)) zero) (keccakRound A 0).toList := by
    rw [← wordRound_bitVec A 0 (fun i => env m (laneVar i)) (fun i hi => env_lane h i hi)]
    exact wordRound_rel (fun i _ => Rel.var _) zero_rel
  have hl := reads h1 locs _ _ hP.1 hr (fun x hx => by simpa using List.all_eq_true.1 symRound_ok x hx)
  have hsp : m1.sp = 32 := by rw [← h1.sp]; exact hP.2
  have h25 : 25 < m1.regs.length := by rw [sh1.regs]; omega
  have h0 : m1.regs[0]? = some (keccakRound A 0)[0] := by
    have := congrArg (fun l => l[0]?) hl
    simpa [locs, Machine.read] using this
  have er : exec (round c) m = (exec (movq 25 c) m1).bind (exec iota) := by
    unfold round
    rw [exec_append, exec_append, e1]
    rfl
  have ei : exec iota { m1 with regs := m1.regs.set 25 (movqVal c) } = some
      { m1 with regs := (m1.regs.set 25 (movqVal c)).set 0 ((keccakRound A 0)[0] ^^^ movqVal c), sp := 0 } := by
    have a0 : (m1.regs.set 25 (movqVal c))[0]? = some (keccakRound A 0)[0] := by
      rw [List.getElem?_set_ne (by omega), h0]
    have a25 : (m1.regs.set 25 (movqVal c))[25]? = some (movqVal c) := by simp [h25]
    show (step { m1 with regs := m1.regs.set 25 (movqVal c) } (.eor 0 0 25)).bind (exec [.addSp 32]) = _
    unfold step
    simp only [a0, a25, Option.bind_some]
    rw [setReg_eq _ _ (by simp [sh1.regs])]
    simp only [Option.bind_some, exec, step, hsp, Nat.le_refl, if_true, Nat.sub_self]
    rfl
  rw [er, exec_movq m1 25 c h25]
  refine ⟨_, ei, ⟨by simp [sh1.regs], sh1.A, sh1.stack⟩, rfl, ?_⟩
  rw [keccakRound_zero]
  have hl' : locs.map (Machine.read { m1 with
      regs := (m1.regs.set 25 (movqVal c)).set 0 ((keccakRound A 0)[0] ^^^ movqVal c), sp := 0 }) =
      (locs.map m1.read).set 0 (some ((keccakRound A 0)[0] ^^^ movqVal c)) := by
    have hb : ∀ o ∈ locs.tail, o ≠ .reg 0 ∧ o ≠ .reg 25 := by decide
    have : locs = .reg 0 :: locs.tail := rfl
    rw [this, List.map_cons, List.map_cons, List.set_cons_zero]
    congr 1
    · simp [Machine.read, sh1.regs]
    · apply List.map_congr_left
      intro o ho
      match o, hb o ho with
      | .mem i, _ => rfl
      | .reg n, hn =>
        have hn0 : 0 ≠ n := fun e => hn.1 (by rw [e])
        have hn25 : 25 ≠ n := fun e => hn.2 (by rw [e])
        show ((m1.regs.set 25 (movqVal c)).set 0 _)[n]? = m1.regs[n]?
        rw [List.getElem?_set_ne hn0, List.getElem?_set_ne hn25]
  rw [hl', hl, List.map_set]

theorem exec_rounds (cs : List Nat) (m : Machine (BitVec 64)) (A : Lanes) (h : Holds m A) :
    ∃ m', exec (cs.flatMap round) m = some m' ∧ Holds m' ((cs.map movqVal).foldl keccakRound A) := by
  induction cs generalizing m A with
  | nil => exact ⟨m, rfl, h⟩
  | cons c cs ih =>
    obtain ⟨m1, e1, h1⟩ := exec_round m A h c
    obtain ⟨m2, e2, h2⟩ := ih m1 _ h1
    refine ⟨m2, ?_, h2⟩
    rw [List.flatMap_cons, exec_append, e1]
    exact e2

theorem exec_loads (regs stack : List (BitVec 64)) (hr : regs.length = 31) (hs : stack.length = 4)
    (A : Lanes) : ∃ m, exec loads ⟨regs, A.toList, stack, 0⟩ = some m ∧ Holds m A := by
  have sh : Shape ⟨regs, A.toList, stack, 0⟩ := ⟨hr, by simp, hs⟩
  obtain ⟨s, m1, e1, hP, h1, sh1⟩ := symCheck_run symLoads_true _ sh rfl
  simp only [Bool.and_eq_true, decide_eq_true_eq] at hP
  have hA := (start_rel _ sh rfl).A
  refine ⟨m1, e1, sh1, by rw [← h1.sp]; exact hP.2, ?_⟩
  refine reads h1 locs _ _ hP.1 hA ?_
  intro x hx
  obtain ⟨i, _, rfl⟩ := List.mem_map.1 hx
  simp [var]

theorem exec_stores (m : Machine (BitVec 64)) (A : Lanes) (h : Holds m A) :
    ∃ m', exec stores m = some m' ∧ m'.A = A.toList ∧ Shape m' ∧ m'.sp = 0 := by
  obtain ⟨s, m1, e1, hP, h1, sh1⟩ := symCheck_run symStores_true m h.shape h.sp
  simp only [Bool.and_eq_true, decide_eq_true_eq] at hP
  refine ⟨m1, e1, ?_, sh1, by rw [← h1.sp]; exact hP.2⟩
  have hA := h1.A
  rw [hP.1] at hA
  refine RelList.unique hA ?_ ?_
  · have e : A.toList = (List.range 25).map fun i => env m (laneVar i) := by
      apply List.ext_getElem
      · simp
      · intro i h1 h2
        have hi : i < 25 := by simpa using h1
        simp [env_lane h i hi]
    rw [e]
    generalize List.range 25 = l
    induction l with
    | nil => exact .nil
    | cons a l ih => exact .cons (Rel.var _) ih
  · intro x hx
    obtain ⟨i, _, rfl⟩ := List.mem_map.1 hx
    simp [var]

/-- `permute` on the machine. -/
theorem run_eq (regs stack : List (BitVec 64)) (hr : regs.length = 31) (hs : stack.length = 4) (A : Lanes) :
    ∃ m, run regs stack A = some m ∧ m.A = (keccakPermute A).toList ∧ m.sp = 0 ∧ m.regs.length = 31 ∧
      m.stack.length = 4 := by
  obtain ⟨m1, e1, h1⟩ := exec_loads regs stack hr hs A
  obtain ⟨m2, e2, h2⟩ := exec_rounds constants m1 A h1
  rw [movq_constants] at h2
  obtain ⟨m3, e3, h3, sh, sp⟩ := exec_stores m2 _ h2
  refine ⟨m3, ?_, h3, sp, sh.regs, sh.stack⟩
  unfold run program
  rw [exec_append, exec_append, e1, Option.bind_some, e2, Option.bind_some, e3]

/-- The registers an instruction writes. -/
def Instr.dests : Instr → List Nat
  | .ldrA d _ | .ldrS d _ | .eor d _ _ | .eorRor d _ _ _ | .ror d _ _ | .bic d _ _ | .mov d _ | .movz d _
  | .movk d _ _ => [d]
  | .ldpS d1 d2 _ => [d1, d2]
  | .strA _ _ | .strS _ _ | .stpS _ _ _ | .subSp _ | .addSp _ => []

theorem setReg_frame {W : Type} [Word W] {m m' : Machine W} {d : Nat} {w : W} (h : m.setReg d w = some m')
    (n : Nat) (hn : n ∉ [d]) : m'.regs[n]? = m.regs[n]? := by
  unfold Machine.setReg at h
  split at h
  · cases h
    exact List.getElem?_set_ne fun e => hn (by simp [e])
  · cases h

theorem storeS_frame {W : Type} [Word W] {m m' : Machine W} {off : Nat} {w : W}
    (h : m.storeS off w = some m') : m'.regs = m.regs := by
  obtain ⟨o, _, h⟩ := Option.bind_eq_some_iff.1 h
  obtain ⟨l, _, rfl⟩ := Option.map_eq_some_iff.1 h
  rfl

theorem step_frame {W : Type} [Word W] {m m' : Machine W} {i : Instr} (h : step m i = some m') (n : Nat)
    (hn : n ∉ i.dests) : m'.regs[n]? = m.regs[n]? := by
  match i, h, hn with
  | .ldrA d off, h, hn =>
    obtain ⟨x, _, h⟩ := Option.bind_eq_some_iff.1 h
    exact setReg_frame h n hn
  | .strA a off, h, hn =>
    obtain ⟨x, _, h⟩ := Option.bind_eq_some_iff.1 h
    obtain ⟨l, _, rfl⟩ := Option.map_eq_some_iff.1 h
    rfl
  | .ldrS d off, h, hn =>
    obtain ⟨x, _, h⟩ := Option.bind_eq_some_iff.1 h
    exact setReg_frame h n hn
  | .strS a off, h, hn =>
    obtain ⟨x, _, h⟩ := Option.bind_eq_some_iff.1 h
    rw [storeS_frame h]
  | .ldpS d1 d2 off, h, hn =>
    obtain ⟨x, _, h⟩ := Option.bind_eq_some_iff.1 h
    obtain ⟨y, _, h⟩ := Option.bind_eq_some_iff.1 h
    obtain ⟨m1, e, h⟩ := Option.bind_eq_some_iff.1 h
    have hn : n ∉ [d1, d2] := hn
    simp only [List.mem_cons, List.not_mem_nil, or_false, not_or] at hn
    rw [setReg_frame h n (by simpa using hn.2), setReg_frame e n (by simpa using hn.1)]
  | .stpS a b off, h, hn =>
    obtain ⟨x, _, h⟩ := Option.bind_eq_some_iff.1 h
    obtain ⟨y, _, h⟩ := Option.bind_eq_some_iff.1 h
    obtain ⟨m1, e, h⟩ := Option.bind_eq_some_iff.1 h
    rw [storeS_frame h, storeS_frame e]
  | .eor d a b, h, hn =>
    obtain ⟨x, _, h⟩ := Option.bind_eq_some_iff.1 h
    obtain ⟨y, _, h⟩ := Option.bind_eq_some_iff.1 h
    exact setReg_frame h n hn
  | .eorRor d a b k, h, hn =>
    obtain ⟨x, _, h⟩ := Option.bind_eq_some_iff.1 h
    obtain ⟨y, _, h⟩ := Option.bind_eq_some_iff.1 h
    exact setReg_frame h n hn
  | .ror d a k, h, hn =>
    obtain ⟨x, _, h⟩ := Option.bind_eq_some_iff.1 h
    exact setReg_frame h n hn
  | .bic d a b, h, hn =>
    obtain ⟨x, _, h⟩ := Option.bind_eq_some_iff.1 h
    obtain ⟨y, _, h⟩ := Option.bind_eq_some_iff.1 h
    exact setReg_frame h n hn
  | .mov d a, h, hn =>
    obtain ⟨x, _, h⟩ := Option.bind_eq_some_iff.1 h
    exact setReg_frame h n hn
  | .movz d imm, h, hn => exact setReg_frame h n hn
  | .movk d imm sh, h, hn =>
    obtain ⟨x, _, h⟩ := Option.bind_eq_some_iff.1 h
    exact setReg_frame h n hn
  | .subSp k, h, hn => cases h; rfl
  | .addSp k, h, hn =>
    unfold step at h
    simp only at h
    split at h
    · cases h; rfl
    · cases h

theorem exec_frame {W : Type} [Word W] (p : List Instr) {m m' : Machine W} (h : exec p m = some m')
    (n : Nat) (hn : ∀ i ∈ p, n ∉ i.dests) : m'.regs[n]? = m.regs[n]? := by
  induction p generalizing m with
  | nil => cases h; rfl
  | cons i p ih =>
    obtain ⟨m1, e, h⟩ := Option.bind_eq_some_iff.1 h
    rw [ih h fun j hj => hn j (List.mem_cons_of_mem _ hj), step_frame e n (hn i (List.mem_cons_self ..))]

theorem program_dests : program.all (fun i => i.dests.all fun n => clobbers.contains n) = true := by
  decide +kernel

end Verif.Armv8
