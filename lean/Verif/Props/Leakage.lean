import Verif.Spec.Leakage
import Verif.Props.IsaScalar
import Mathlib.Data.BitVec
import Mathlib.Tactic.Ring
/-
C101: the assembly versions of Keccak-f are constant time in the usual model (Spec/Leakage.lean). The addresses they access and
the jumps they take are the same for every content of the state.
-/
namespace Verif.Props
open Verif.Isa

section
variable {M I Addr : Type} {step : M → I → M} {leak : M → I → List (Event Addr)} {zf : M → Bool}

theorem trace_append (a b : List I) (m : M) :
    trace step leak (a ++ b) m = trace step leak a m ++ trace step leak b (a.foldl step m) := by
  induction a generalizing m with
  | nil => rfl
  | cons i is ih => simp only [List.cons_append, trace, ih, List.foldl_cons, List.append_assoc]

theorem _root_.Verif.Isa.LoopTrace.unique {body : List I} {n k : Nat} {m a b : M} {s t : List (Event Addr)}
    (h : LoopTrace step leak zf body n m a s) (h' : LoopTrace step leak zf body k m b t) : n = k ∧ a = b ∧ s = t := by
  induction h generalizing k b t with
  | done m hz =>
    cases h' with
    | done _ _ => exact ⟨rfl, rfl, rfl⟩
    | again _ _ _ _ hz' _ => rw [hz] at hz'; cases hz'
  | again n m a s hz h ih =>
    cases h' with
    | done _ hz' => rw [hz] at hz'; cases hz'
    | again _ _ _ _ _ h' =>
      obtain ⟨rfl, rfl, rfl⟩ := ih h'
      exact ⟨rfl, rfl, rfl⟩

/-- A loop whose body counts down: if `Q r` holds before run `r` of `n`, and gives events `T r`, the loop ends after `n` runs. -/
theorem _root_.Verif.Isa.LoopTrace.count {body : List I} (Q : Nat → M → Prop) (T : Nat → List (Event Addr)) (n : Nat)
    (h : ∀ r m, r < n → Q r m → Q (r + 1) (body.foldl step m) ∧ zf (body.foldl step m) = decide (r + 1 = n) ∧
      trace step leak body m = T r) (r : Nat) (hr : r < n) (m : M) (q : Q r m) :
    ∃ m', LoopTrace step leak zf body (n - r) m m'
      (((List.range (n - r)).map fun j => T (r + j) ++ [.branch (decide (r + j + 1 ≠ n))]).flatten) := by
  induction hk : n - r generalizing r m with
  | zero => omega
  | succ k ih =>
    obtain ⟨q', hz, ht⟩ := h r m hr q
    rw [List.range_succ_eq_map, List.map_cons, List.flatten_cons, List.map_map]
    by_cases hl : r + 1 = n
    · obtain rfl : k = 0 := by omega
      refine ⟨body.foldl step m, ?_⟩
      have := LoopTrace.done (step := step) (leak := leak) (zf := zf) (body := body) m (by rw [hz]; exact decide_eq_true hl)
      rw [ht] at this
      simpa [hl] using this
    · obtain ⟨m', ih⟩ := ih (r + 1) (by omega) _ q' (by omega)
      refine ⟨m', ?_⟩
      have := LoopTrace.again (step := step) (leak := leak) (zf := zf) (body := body) k m m' _
        (by rw [hz]; exact decide_eq_false hl) ih
      rw [ht] at this
      have e : (List.map ((fun j => T (r + j) ++ [Event.branch (decide (r + j + 1 ≠ n))]) ∘ Nat.succ) (List.range k)) =
          (List.range k).map fun j => T (r + 1 + j) ++ [.branch (decide (r + 1 + j + 1 ≠ n))] := by
        refine List.map_congr_left fun j _ => ?_
        simp only [Function.comp, Nat.succ_eq_add_one, show r + (j + 1) = r + 1 + j by omega]
      rw [e, Nat.add_zero, decide_eq_true hl, List.append_assoc]
      exact this

end

/-! ### x86-64 -/

/-- Instructions that leave the pointers and `r13` alone. -/
def quiet : X86.Instr → Bool
  | .movImm _ d | .mov _ d | .xor _ d | .and _ d | .not d | .rol _ d | .dec d => d ≠ .reg 13
  | .lea _ => false

theorem put_ptr (m : X64) (w : BitVec 64) (d : X86.Operand) : (m.put w d).ptr = m.ptr := by cases d <;> rfl

theorem put_r13 (m : X64) (w : BitVec 64) (d : X86.Operand) (h : d ≠ .reg 13) : (m.put w d).regs 13 = m.regs 13 := by
  cases d with
  | mem b off => rfl
  | reg n => exact if_neg fun e => h (by rw [e])

theorem quiet_step (m : X64) (i : X86.Instr) (h : quiet i = true) :
    (m.step i).ptr = m.ptr ∧ (m.step i).regs 13 = m.regs 13 := by
  cases i <;> simp only [quiet, decide_eq_true_eq, Bool.false_eq_true] at h <;>
    exact ⟨put_ptr m _ _, put_r13 m _ _ h⟩

theorem leak_ptr (m m' : X64) (h : m.ptr = m'.ptr) (i : X86.Instr) : m.leak i = m'.leak i := by
  have : ∀ s d, m.use s d = m'.use s d := by
    intro s d
    cases d with
    | reg n => rfl
    | mem b off => simp only [X64.use, h]
  cases i <;> simp only [X64.leak, this]

theorem quiet_run (p : List X86.Instr) (h : p.all quiet = true) (m : X64) :
    (p.foldl X64.step m).ptr = m.ptr ∧ (p.foldl X64.step m).regs 13 = m.regs 13 ∧
      trace X64.step X64.leak p m = p.flatMap m.leak := by
  induction p generalizing m with
  | nil => exact ⟨rfl, rfl, rfl⟩
  | cons i is ih =>
    rw [List.all_cons, Bool.and_eq_true] at h
    obtain ⟨h1, h2⟩ := quiet_step m i h.1
    obtain ⟨i1, i2, i3⟩ := ih h.2 (m.step i)
    refine ⟨i1.trans h1, i2.trans h2, ?_⟩
    rw [trace, i3, List.flatMap_cons]
    congr 2
    exact funext fun j => leak_ptr _ _ h1 j

/-- The body up to the two instructions at its end. -/
theorem body_split : X86.body = (X86.columns ++ X86.dWords ++ X86.rhoPi ++ X86.chi) ++ [.lea 8, .dec (.reg 13)] := rfl

/-- The pointers before run `r`: the pointer to the constants has moved by `r` quadwords. -/
def ptrAt (p : X86.Base → BitVec 64) (r : Nat) (b : X86.Base) : BitVec 64 :=
  if b = .c then p b + BitVec.ofNat 64 (8 * r) else p b

theorem ptrAt_zero (p : X86.Base → BitVec 64) : ptrAt p 0 = p := by
  funext b
  unfold ptrAt
  split
  · exact BitVec.add_zero _
  · rfl

/-- The events of run `r`. -/
def eventsX (p : X86.Base → BitVec 64) (r : Nat) : List (Event (BitVec 64)) :=
  (X86.columns ++ X86.dWords ++ X86.rhoPi ++ X86.chi).flatMap (X64.leak ⟨fun _ => 0, ptrAt p r, fun _ => 0, false⟩)

theorem run_body (p : X86.Base → BitVec 64) (r : Nat) (m : X64) (hr : r < 24)
    (q : m.ptr = ptrAt p r ∧ m.regs 13 = BitVec.ofNat 64 (24 - r)) :
    ((X86.body.foldl X64.step m).ptr = ptrAt p (r + 1) ∧
      (X86.body.foldl X64.step m).regs 13 = BitVec.ofNat 64 (24 - (r + 1))) ∧
      (X86.body.foldl X64.step m).zf = decide (r + 1 = 24) ∧ trace X64.step X64.leak X86.body m = eventsX p r := by
  obtain ⟨h1, h2, h3⟩ := quiet_run (X86.columns ++ X86.dWords ++ X86.rhoPi ++ X86.chi) (by decide +kernel) m
  rw [body_split, List.foldl_append, trace_append]
  rw [eventsX]
  generalize X86.columns ++ X86.dWords ++ X86.rhoPi ++ X86.chi = init at h1 h2 h3 ⊢
  have ht : trace X64.step X64.leak [.lea 8, .dec (.reg 13)] (init.foldl X64.step m) = [] := rfl
  rw [ht, List.append_nil]
  refine ⟨⟨?_, ?_⟩, ?_, ?_⟩
  · show (X64.put _ _ _).ptr = _
    rw [put_ptr]
    funext b
    show (if b = .c then (init.foldl X64.step m).ptr .c + BitVec.ofNat 64 8 else (init.foldl X64.step m).ptr b) = _
    rw [h1, q.1]
    unfold ptrAt
    by_cases hb : b = .c
    · rw [if_pos hb, if_pos hb, if_pos rfl, hb, BitVec.add_assoc, ← BitVec.ofNat_add]
      rfl
    · rw [if_neg hb, if_neg hb]
      exact (if_neg hb).symm
  · show (init.foldl X64.step m).regs 13 - 1 = _
    rw [h2, q.2]
    have : ∀ r : Fin 24, BitVec.ofNat 64 (24 - r.1) - 1 = BitVec.ofNat 64 (24 - (r.1 + 1)) := by decide +kernel
    exact this ⟨r, hr⟩
  · show decide ((init.foldl X64.step m).regs 13 - 1 = 0) = _
    rw [h2, q.2]
    have : ∀ r : Fin 24, decide (BitVec.ofNat 64 (24 - r.1) - 1 = 0) = decide (r.1 + 1 = 24) := by decide +kernel
    exact this ⟨r, hr⟩
  · rw [h3]
    congr 1
    exact funext fun i => leak_ptr _ _ q.1 i

/-- Operands inside the arrays; the constants are only read, and only the current one. -/
def insideX (store : Bool) : X86.Operand → Bool
  | .reg _ => true
  | .mem .c off => off = 0 ∧ store = false
  | .mem b off => off + 8 ≤ X64.size b

def insideInstr : X86.Instr → Bool
  | .movImm _ d | .not d | .rol _ d | .dec d => insideX true d
  | .mov s d | .xor s d | .and s d => insideX false s && insideX true d
  | .lea _ => true

theorem eventsX_inside (p : X86.Base → BitVec 64) (r : Nat) (hr : r < 24) (e : Event (BitVec 64)) (he : e ∈ eventsX p r) :
    ∃ s b off, e = .access s (p b + BitVec.ofNat 64 off) ∧ off + 8 ≤ X64.size b ∧ (s = true → b ≠ .c) := by
  obtain ⟨i, hi, he⟩ := List.mem_flatMap.1 he
  have hall : (X86.columns ++ X86.dWords ++ X86.rhoPi ++ X86.chi).all insideInstr = true := by decide +kernel
  have ok := List.all_eq_true.1 hall i hi
  have key : ∀ s t d, insideX s d = true → (t = true → s = true) →
      e ∈ X64.use ⟨fun _ => 0, ptrAt p r, fun _ => 0, false⟩ t d →
      ∃ s b off, e = .access s (p b + BitVec.ofNat 64 off) ∧ off + 8 ≤ X64.size b ∧ (s = true → b ≠ .c) := by
    intro s t d hd hst he
    cases d with
    | reg n => cases he
    | mem b off =>
      obtain rfl := List.mem_singleton.1 he
      by_cases hb : b = .c
      · subst hb
        have hd : decide (off = 0 ∧ s = false) = true := hd
        obtain ⟨rfl, rfl⟩ := of_decide_eq_true hd
        refine ⟨t, .c, 8 * r, ?_, show 8 * r + 8 ≤ 192 by omega, fun h => by cases hst h⟩
        show Event.access t (ptrAt p r .c + BitVec.ofNat 64 0) = _
        rw [ptrAt, if_pos rfl]
        simp
      · refine ⟨t, b, off, ?_, ?_, fun _ => hb⟩
        · show Event.access t (ptrAt p r b + _) = _
          rw [ptrAt, if_neg hb]
        · cases b <;> first | exact absurd rfl hb | exact of_decide_eq_true hd
  have two : ∀ d, insideX true d = true → e ∈ X64.use ⟨fun _ => 0, ptrAt p r, fun _ => 0, false⟩ false d ++
      X64.use ⟨fun _ => 0, ptrAt p r, fun _ => 0, false⟩ true d →
      ∃ s b off, e = .access s (p b + BitVec.ofNat 64 off) ∧ off + 8 ≤ X64.size b ∧ (s = true → b ≠ .c) := by
    intro d hd he
    rcases List.mem_append.1 he with he | he
    · exact key true false d hd (fun h => by cases h) he
    · exact key true true d hd (fun _ => rfl) he
  cases i with
  | movImm imm d => exact key true true d ok (fun _ => rfl) he
  | not d => exact two d ok he
  | rol k d => exact two d ok he
  | dec d => exact two d ok he
  | lea off => cases he
  | mov s d =>
    obtain ⟨h1, h2⟩ := Bool.and_eq_true_iff.1 ok
    rcases List.mem_append.1 he with he | he
    · exact key false false s h1 id he
    · exact key true true d h2 id he
  | xor s d =>
    obtain ⟨h1, h2⟩ := Bool.and_eq_true_iff.1 ok
    rw [X64.leak, List.append_assoc] at he
    rcases List.mem_append.1 he with he | he
    · exact key false false s h1 id he
    · exact two d h2 he
  | and s d =>
    obtain ⟨h1, h2⟩ := Bool.and_eq_true_iff.1 ok
    rw [X64.leak, List.append_assoc] at he
    rcases List.mem_append.1 he with he | he
    · exact key false false s h1 id he
    · exact two d h2 he

/-- The events of a loop of `n` runs. -/
def loopEvents {Addr : Type} (T : Nat → List (Event Addr)) (n : Nat) : List (Event Addr) :=
  ((List.range n).map fun j => T j ++ [.branch (decide (j + 1 ≠ n))]).flatten

theorem mem_loopEvents {Addr : Type} {T : Nat → List (Event Addr)} {n : Nat} {s : Bool} {a : Addr}
    (h : .access s a ∈ loopEvents T n) : ∃ j < n, .access s a ∈ T j := by
  obtain ⟨l, hl, h⟩ := List.mem_flatten.1 h
  obtain ⟨j, hj, rfl⟩ := List.mem_map.1 hl
  rcases List.mem_append.1 h with h | h
  · exact ⟨j, List.mem_range.1 hj, h⟩
  · cases List.mem_singleton.1 h

theorem loopEvents_mem {Addr : Type} {T : Nat → List (Event Addr)} {n j : Nat} (hj : j < n) {e : Event Addr} (h : e ∈ T j) :
    e ∈ loopEvents T n :=
  List.mem_flatten.2 ⟨_, List.mem_map.2 ⟨j, List.mem_range.2 hj, rfl⟩, List.mem_append_left _ h⟩

/-- The instruction reads (or writes) the operand in memory. -/
def usesX (store : Bool) (b : X86.Base) (off : Nat) : X86.Instr → Bool
  | .mov s d => (!store && s == .mem b off) || (store && d == .mem b off)
  | .xor s d | .and s d => (!store && s == .mem b off) || d == .mem b off
  | .movImm _ d => store && d == .mem b off
  | .not d | .rol _ d | .dec d => d == .mem b off
  | .lea _ => false

theorem usesX_mem {m : X64} {store : Bool} {b : X86.Base} {off : Nat} {i : X86.Instr} (h : usesX store b off i = true) :
    .access store (m.ptr b + BitVec.ofNat 64 off) ∈ X64.leak m i := by
  cases i <;> cases store <;>
    simp only [usesX, Bool.not_true, Bool.not_false, Bool.true_and, Bool.false_and, Bool.false_or, Bool.or_false, Bool.or_eq_true,
      beq_iff_eq, Bool.false_eq_true, or_false] at h <;>
    first
    | (subst h; simp [X64.leak, X64.use])
    | (rcases h with rfl | rfl <;> simp [X64.leak, X64.use])

theorem eventsX_uses (p : X86.Base → BitVec 64) (r : Nat) (store : Bool) (b : X86.Base) (off : Nat)
    (h : (X86.columns ++ X86.dWords ++ X86.rhoPi ++ X86.chi).any (usesX store b off) = true) :
    .access store (ptrAt p r b + BitVec.ofNat 64 off) ∈ eventsX p r := by
  obtain ⟨i, hi, hu⟩ := List.any_eq_true.1 h
  exact List.mem_flatMap.2 ⟨i, hi, usesX_mem (m := ⟨fun _ => 0, ptrAt p r, fun _ => 0, false⟩) hu⟩

/-- C101, x86-64. For every placement `p` of the four arrays, even an overlapping one, there is one sequence of events that
every run has, whatever the state, the scratch arrays, the registers and the rest of the memory hold: the body is run exactly
24 times, and the accesses are those of the sequence. All of them are inside the arrays, and no store goes to the constants.
Every word of the state is read and written, and every constant is read. -/
theorem C101_x86_64 (p : X86.Base → BitVec 64) :
    ∃ t : List (Event (BitVec 64)),
      (∀ s a, .access s a ∈ t → ∃ b off, a = p b + BitVec.ofNat 64 off ∧ off + 8 ≤ X64.size b ∧ (s = true → b ≠ .c)) ∧
      (∀ s, ∀ i < 25, .access s (p .A + BitVec.ofNat 64 (8 * i)) ∈ t) ∧ (∀ i < 24, .access false (p .c + BitVec.ofNat 64 (8 * i)) ∈ t) ∧
      ∀ m : X64, m.ptr = p →
        (∃ m', LoopTrace X64.step X64.leak X64.zf X86.body 24 (m.step (.movImm 24 (.reg 13))) m' t) ∧
        ∀ n m' t', LoopTrace X64.step X64.leak X64.zf X86.body n (m.step (.movImm 24 (.reg 13))) m' t' →
          n = 24 ∧ t' = t := by
  refine ⟨loopEvents (eventsX p) 24, fun s a h => ?_, fun s i hi => loopEvents_mem (j := 0) (by omega) ?_,
    fun i hi => loopEvents_mem hi ?_, fun m hm => ?_⟩
  · obtain ⟨r, hr, h⟩ := mem_loopEvents h
    obtain ⟨s', b, off, e, h1, h2⟩ := eventsX_inside p r hr _ h
    obtain ⟨rfl, rfl⟩ := Event.access.inj e
    exact ⟨b, off, rfl, h1, h2⟩
  · have h : ∀ (s : Bool) (i : Fin 25), (X86.columns ++ X86.dWords ++ X86.rhoPi ++ X86.chi).any (usesX s .A (8 * i.1)) = true := by
      decide +kernel
    exact eventsX_uses p 0 s .A (8 * i) (h s ⟨i, hi⟩)
  · have h := eventsX_uses p i false .c 0 (by decide +kernel)
    rw [ptrAt, if_pos rfl] at h
    simpa using h
  · have q : (m.step (.movImm 24 (.reg 13))).ptr = ptrAt p 0 ∧
        (m.step (.movImm 24 (.reg 13))).regs 13 = BitVec.ofNat 64 (24 - 0) := by
      refine ⟨?_, rfl⟩
      rw [ptrAt_zero]
      exact hm
    obtain ⟨m', h⟩ := LoopTrace.count (zf := X64.zf)
      (fun r m => m.ptr = ptrAt p r ∧ m.regs 13 = BitVec.ofNat 64 (24 - r)) (eventsX p) 24 (run_body p) 0 (by omega) _ q
    simp only [Nat.zero_add] at h
    refine ⟨⟨m', h⟩, fun n m'' t' h' => ?_⟩
    obtain ⟨h1, -, h2⟩ := h'.unique h
    exact ⟨h1, h2⟩

/-- Two runs from different states, with `A` and `B` at the same address: the same 24 runs of the body, the same events. -/
example (m : X64) (v w : Mem) (h : m.ptr .A = m.ptr .B) (n k : Nat) (a b : X64) (s t : List (Event (BitVec 64)))
    (h1 : LoopTrace X64.step X64.leak X64.zf X86.body n ({ m with mem := v }.step (.movImm 24 (.reg 13))) a s)
    (h2 : LoopTrace X64.step X64.leak X64.zf X86.body k ({ m with mem := w }.step (.movImm 24 (.reg 13))) b t) :
    n = k ∧ s = t := by
  obtain ⟨u, -, -, -, hu⟩ := C101_x86_64 m.ptr
  obtain ⟨rfl, rfl⟩ := (hu { m with mem := v } rfl).2 _ _ _ h1
  obtain ⟨rfl, rfl⟩ := (hu { m with mem := w } rfl).2 _ _ _ h2
  exact ⟨rfl, rfl⟩

/-- The events tell programs apart: `mov (A), r15; mov r15, (B)` reads `A` and writes `B`. -/
example (m : X64) : trace X64.step X64.leak [.mov (.mem .A 0) (.reg 15), .mov (.reg 15) (.mem .B 0)] m =
    [.access false (m.ptr .A + 0), .access true (m.ptr .B + 0)] := rfl

/-! ### ARMv8 -/

/-- How far `sp` is below its value at entry after an instruction. -/
def depth (d : Nat) : Armv8.Instr → Nat
  | .subSp n => d + n
  | .addSp n => d - n
  | _ => d

/-- The events of a program that starts `d` bytes below the stack pointer at entry. -/
def eventsA (A sp : BitVec 64) : Nat → List Armv8.Instr → List (Event (BitVec 64))
  | _, [] => []
  | d, i :: is =>
    A64.leak ⟨fun _ => 0, sp - BitVec.ofNat 64 d, A, fun _ => 0⟩ i ++
      eventsA A sp (depth d i) is

/-- Accesses relative to `sp` are between `sp` and its value at entry, at most 32 bytes; those relative to `A` in the state. -/
def insideA : Nat → List Armv8.Instr → Bool
  | _, [] => true
  | d, i :: is =>
    match i with
    | .ldrA _ off | .strA _ off => off + 8 ≤ 200 && insideA d is
    | .ldrS _ off | .strS _ off => off + 8 ≤ d && insideA d is
    | .ldpS _ _ off | .stpS _ _ off => off + 16 ≤ d && insideA d is
    | .subSp n => d + n ≤ 32 && insideA (d + n) is
    | .addSp n => n ≤ d && insideA (d - n) is
    | _ => insideA d is

theorem trace_armv8 (A sp : BitVec 64) (p : List Armv8.Instr) (d : Nat) (h : insideA d p = true) (m : A64) (hA : m.A = A)
    (hs : m.sp = sp - BitVec.ofNat 64 d) : trace A64.step A64.leak p m = eventsA A sp d p := by
  induction p generalizing d m with
  | nil => rfl
  | cons i is ih =>
    show _ ++ _ = A64.leak ⟨fun _ => 0, sp - BitVec.ofNat 64 d, A, fun _ => 0⟩ i ++ eventsA A sp (depth d i) is
    congr 1
    · cases i <;> simp only [A64.leak, hA, hs]
    · cases i <;> simp only [insideA, Bool.and_eq_true, decide_eq_true_eq] at h <;>
        first
        | exact ih _ h _ hA hs
        | exact ih _ h.2 _ hA hs
        | skip
      · refine ih _ h.2 _ hA ?_
        show m.sp - _ = _
        rw [hs, BitVec.ofNat_add]
        ring
      · refine ih _ h.2 _ hA ?_
        show m.sp + _ = _
        rename_i n
        rw [hs]
        obtain ⟨c, rfl⟩ := Nat.exists_eq_add_of_le h.1
        rw [Nat.add_sub_cancel_left, BitVec.ofNat_add]
        ring

theorem eventsA_inside (A sp : BitVec 64) (p : List Armv8.Instr) (d : Nat) (hd : d ≤ 32) (h : insideA d p = true)
    (e : Event (BitVec 64)) (he : e ∈ eventsA A sp d p) :
    ∃ s a, e = .access s a ∧ ((∃ off, a = A + BitVec.ofNat 64 off ∧ off + 8 ≤ 200) ∨
      ∃ off, a = sp - 32 + BitVec.ofNat 64 off ∧ off + 8 ≤ 32) := by
  have stk : ∀ d off, d ≤ 32 → off + 8 ≤ d → ∃ off', sp - BitVec.ofNat 64 d + BitVec.ofNat 64 off =
      sp - 32 + BitVec.ofNat 64 off' ∧ off' + 8 ≤ 32 := by
    intro d off hd ho
    obtain ⟨c, hc⟩ := Nat.exists_eq_add_of_le hd
    refine ⟨c + off, ?_, by omega⟩
    have : (32 : BitVec 64) = BitVec.ofNat 64 d + BitVec.ofNat 64 c := by
      rw [← BitVec.ofNat_add, ← hc]
      rfl
    rw [this, BitVec.ofNat_add]
    ring
  induction p generalizing d with
  | nil => cases he
  | cons i is ih =>
    rw [eventsA] at he
    cases i <;> simp only [insideA, Bool.and_eq_true, decide_eq_true_eq] at h <;>
      rcases List.mem_append.1 he with he | he <;>
      first
      | exact ih _ hd h he
      | exact ih _ hd h.2 he
      | exact ih _ h.1 h.2 he
      | exact ih _ (by omega) h.2 he
      | (cases he; done)
      | (obtain rfl := List.mem_singleton.1 he
         exact ⟨_, _, rfl, .inl ⟨_, rfl, h.1⟩⟩)
      | (obtain rfl := List.mem_singleton.1 he
         exact ⟨_, _, rfl, .inr (stk d _ hd h.1)⟩)
      | (simp only [A64.leak, List.mem_cons, List.not_mem_nil, or_false] at he
         rcases he with rfl | rfl
         · exact ⟨_, _, rfl, .inr (stk d _ hd (by omega))⟩
         · exact ⟨_, _, rfl, .inr (stk d _ hd (by omega))⟩)

/-- The instruction reads (or writes) the word of the state. -/
def usesA (store : Bool) (off : Nat) : Armv8.Instr → Bool
  | .ldrA _ o => !store && o == off
  | .strA _ o => store && o == off
  | _ => false

theorem eventsA_uses (A sp : BitVec 64) (store : Bool) (off : Nat) (p : List Armv8.Instr) (d : Nat) (h : p.any (usesA store off) = true) :
    .access store (A + BitVec.ofNat 64 off) ∈ eventsA A sp d p := by
  induction p generalizing d with
  | nil => cases h
  | cons i is ih =>
    rw [List.any_cons, Bool.or_eq_true] at h
    rw [eventsA]
    rcases h with h | h
    · refine List.mem_append_left _ ?_
      cases i <;> cases store <;>
        simp only [usesA, Bool.not_true, Bool.not_false, Bool.true_and, Bool.false_and, beq_iff_eq, Bool.false_eq_true] at h <;>
        (subst h; exact List.mem_singleton.2 rfl)
    · exact List.mem_append_right _ (ih _ h)

/-- C101, ARMv8: straight-line code. For every address of the state and every stack pointer there is one sequence of accesses
that every run has, whatever the registers and the memory hold. All of them are inside the state and the 32 bytes below the
stack pointer; every word of the state is read and written. -/
theorem C101_armv8 (A sp : BitVec 64) :
    ∃ t : List (Event (BitVec 64)),
      (∀ s a, .access s a ∈ t → (∃ off, a = A + BitVec.ofNat 64 off ∧ off + 8 ≤ 200) ∨
        ∃ off, a = sp - 32 + BitVec.ofNat 64 off ∧ off + 8 ≤ 32) ∧
      (∀ s, ∀ i < 25, .access s (A + BitVec.ofNat 64 (8 * i)) ∈ t) ∧
      ∀ m : A64, m.A = A → m.sp = sp → trace A64.step A64.leak Armv8.program m = t := by
  have h : insideA 0 Armv8.program = true := by decide +kernel
  refine ⟨eventsA A sp 0 Armv8.program, fun s a ha => ?_, fun s i hi => ?_, fun m hA hs => trace_armv8 A sp _ 0 h m hA ?_⟩
  · obtain ⟨s', a', e, h⟩ := eventsA_inside A sp _ 0 (by omega) h _ ha
    obtain ⟨rfl, rfl⟩ := Event.access.inj e
    exact h
  · have h : ∀ (s : Bool) (i : Fin 25), Armv8.program.any (usesA s (8 * i.1)) = true := by decide +kernel
    exact eventsA_uses A sp s (8 * i) _ 0 (h s ⟨i, hi⟩)
  · rw [hs]
    exact (BitVec.sub_zero _).symm

/-- Two states and two register files. -/
example (m m' : A64) (hA : m.A = m'.A) (hs : m.sp = m'.sp) :
    trace A64.step A64.leak Armv8.program m = trace A64.step A64.leak Armv8.program m' := by
  obtain ⟨t, -, -, h⟩ := C101_armv8 m'.A m'.sp
  rw [h m hA hs, h m' rfl rfl]

/-! ### AVX2 and AVX-512 -/

section
variable {M I Addr : Type} {w : Nat} {step : M → I → M} {leak : M → I → List (Event Addr)}

theorem counted_run (p : List I) (m : Counted w M) :
    (p.map some).foldl (Counted.step step) m = ⟨m.counter, p.foldl step m.vec⟩ ∧
      trace (Counted.step step) (Counted.leak leak) (p.map some) m = trace step leak p m.vec := by
  induction p generalizing m with
  | nil => exact ⟨rfl, rfl⟩
  | cons i is ih =>
    obtain ⟨h1, h2⟩ := ih (Counted.step step m (some i))
    exact ⟨h1, congrArg (leak m.vec i ++ ·) h2⟩

/-- A counted loop whose body has fixed events. -/
theorem counted_loop (body : List I) (Q : Nat → M → Prop) (T : Nat → List (Event Addr)) (n : Nat) (hn : 0 < n)
    (hw : n < 2 ^ w) (h : ∀ r m, r < n → Q r m → Q (r + 1) (body.foldl step m) ∧ trace step leak body m = T r)
    (m : Counted w M) (hc : m.counter = BitVec.ofNat w n) (q : Q 0 m.vec) :
    (∃ m', LoopTrace (Counted.step step) (Counted.leak leak) Counted.zf (body.map some ++ [none]) n m m' (loopEvents T n)) ∧
    ∀ k m' t', LoopTrace (Counted.step step) (Counted.leak leak) Counted.zf (body.map some ++ [none]) k m m' t' →
      k = n ∧ t' = loopEvents T n := by
  have key : ∀ r (m : Counted w M), r < n → (m.counter = BitVec.ofNat w (n - r) ∧ Q r m.vec) →
      ((((body.map some ++ [none]).foldl (Counted.step step) m).counter = BitVec.ofNat w (n - (r + 1)) ∧
        Q (r + 1) ((body.map some ++ [none]).foldl (Counted.step step) m).vec) ∧
      Counted.zf ((body.map some ++ [none]).foldl (Counted.step step) m) = decide (r + 1 = n) ∧
      trace (Counted.step step) (Counted.leak leak) (body.map some ++ [none]) m = T r) := by
    intro r m hr ⟨hc, q⟩
    obtain ⟨h1, h2⟩ := counted_run (step := step) (leak := leak) body m
    obtain ⟨q', ht⟩ := h r m.vec hr q
    have hc' : m.counter - 1 = BitVec.ofNat w (n - (r + 1)) := by
      rw [hc, show n - r = n - (r + 1) + 1 by omega, BitVec.ofNat_add]
      exact BitVec.add_sub_cancel _ _
    rw [List.foldl_append, trace_append, h1, h2, ht]
    refine ⟨⟨hc', q'⟩, ?_, List.append_nil _⟩
    show decide (m.counter - 1 = 0) = _
    rw [hc']
    refine decide_eq_decide.2 ⟨fun e => ?_, fun e => ?_⟩
    · have := congrArg BitVec.toNat e
      rw [BitVec.toNat_ofNat, Nat.mod_eq_of_lt (by omega)] at this
      simp at this
      omega
    · rw [e, Nat.sub_self]
      rfl
  obtain ⟨m', h⟩ := LoopTrace.count (fun r (m : Counted w M) => m.counter = BitVec.ofNat w (n - r) ∧ Q r m.vec) T n key 0 hn m
    ⟨hc, q⟩
  simp only [Nat.zero_add] at h
  refine ⟨⟨m', h⟩, fun k m'' t' h' => ?_⟩
  obtain ⟨h1, -, h2⟩ := h'.unique h
  exact ⟨h1, h2⟩

end

/-- The movement of `r10`. -/
def moved (pos : Nat) : Avx2.Instr → Nat
  | .lea n => pos + n
  | _ => pos

/-- The events and the movement of `r10` of AVX2 code. -/
def eventsY : Nat → List Avx2.Instr → List (Event (Nat × Nat)) × Nat
  | pos, [] => ([], pos)
  | pos, i :: is =>
    let tq := eventsY (moved pos i) is
    (Ymm.leak ⟨fun _ => 0, fun _ => 0, fun _ => 0, fun _ => 0, pos⟩ i ++ tq.1, tq.2)

theorem trace_avx2 (p : List Avx2.Instr) (m : Ymm) :
    (trace Ymm.step Ymm.leak p m, (p.foldl Ymm.step m).pos) = eventsY m.pos p := by
  induction p generalizing m with
  | nil => rfl
  | cons i is ih =>
    have h := ih (m.step i)
    have h1 := congrArg Prod.fst h
    have h2 := congrArg Prod.snd h
    cases i <;> exact Prod.ext (congrArg (Ymm.leak m _ ++ ·) h1) h2

/-- C101, AVX2. Every run takes the loop 24 times and reads the same places in the same order: all vectors of 32 bytes of the
tables of rotations behind `r8` and `r9` and the 24 vectors of round constants behind `r10`, and nothing else. -/
theorem C101_avx2 : ∃ t : List (Event (Nat × Nat)),
    (∀ s r off, .access s (r, off) ∈ t ↔ s = false ∧ 32 ∣ off ∧ (((r = 8 ∨ r = 9) ∧ off + 32 ≤ 32 * Avx2.rhoL.length) ∨
      (r = 10 ∧ off + 32 ≤ 32 * Avx2.constantsV.length))) ∧
    ∀ m : Counted 64 Ymm, m.counter = 24 → m.vec.pos = 0 →
      (∃ m', LoopTrace (Counted.step Ymm.step) (Counted.leak Ymm.leak) Counted.zf (Avx2.body.map some ++ [none]) 24 m m' t) ∧
      ∀ n m' t', LoopTrace (Counted.step Ymm.step) (Counted.leak Ymm.leak) Counted.zf (Avx2.body.map some ++ [none]) n m m' t' →
        n = 24 ∧ t' = t := by
  refine ⟨loopEvents (fun r => (eventsY (32 * r) Avx2.body).1) 24, fun s r off => ⟨fun h => ?_, fun h => ?_⟩, fun m hc hp => ?_⟩
  · obtain ⟨j, hj, h⟩ := mem_loopEvents h
    have : ∀ j : Fin 24, (eventsY (32 * j.1) Avx2.body).1.all (fun e => match e with
      | .access s (r, off) => s = false ∧ 32 ∣ off ∧ (((r = 8 ∨ r = 9) ∧ off + 32 ≤ 32 * Avx2.rhoL.length) ∨
        (r = 10 ∧ off + 32 ≤ 32 * Avx2.constantsV.length))
      | .branch _ => true) = true := by decide +kernel
    exact of_decide_eq_true (List.all_eq_true.1 (this ⟨j, hj⟩) _ h)
  · obtain ⟨rfl, ⟨i, rfl⟩, h⟩ := h
    have h8 : ∀ i : Fin 6, .access false (8, 32 * i.1) ∈ (eventsY (32 * 0) Avx2.body).1 ∧
      .access false (9, 32 * i.1) ∈ (eventsY (32 * 0) Avx2.body).1 := by decide +kernel
    have h10 : ∀ j : Fin 24, .access false (10, 32 * j.1) ∈ (eventsY (32 * j.1) Avx2.body).1 := by decide +kernel
    rcases h with ⟨rfl | rfl, h⟩ | ⟨rfl, h⟩
    · have h : 32 * i + 32 ≤ 32 * 6 := h
      exact loopEvents_mem (j := 0) (by omega) (h8 ⟨i, by omega⟩).1
    · have h : 32 * i + 32 ≤ 32 * 6 := h
      exact loopEvents_mem (j := 0) (by omega) (h8 ⟨i, by omega⟩).2
    · have h : 32 * i + 32 ≤ 32 * 24 := h
      exact loopEvents_mem (by omega) (h10 ⟨i, by omega⟩)
  · refine counted_loop Avx2.body (fun r m => m.pos = 32 * r) _ 24 (by omega) (by omega) (fun r m _ q => ?_) m hc hp
    have h := trace_avx2 Avx2.body m
    rw [q] at h
    refine ⟨?_, congrArg Prod.fst h⟩
    exact congrArg Prod.snd h

/-- Two contents of the registers. -/
example (m m' : Ymm) (h : m.pos = 0) (h' : m'.pos = 0) (n k : Nat) (a b : Counted 64 Ymm) (s t : List (Event (Nat × Nat)))
    (h1 : LoopTrace (Counted.step Ymm.step) (Counted.leak Ymm.leak) Counted.zf (Avx2.body.map some ++ [none]) n ⟨24, m⟩ a s)
    (h2 : LoopTrace (Counted.step Ymm.step) (Counted.leak Ymm.leak) Counted.zf (Avx2.body.map some ++ [none]) k ⟨24, m'⟩ b t) :
    n = k ∧ s = t := by
  obtain ⟨u, -, hu⟩ := C101_avx2
  obtain ⟨rfl, rfl⟩ := (hu ⟨24, m⟩ rfl h).2 _ _ _ h1
  obtain ⟨rfl, rfl⟩ := (hu ⟨24, m'⟩ rfl h').2 _ _ _ h2
  exact ⟨rfl, rfl⟩

/-- The movement of `r10`. -/
def movedZ (pos : Nat) : Avx512.Instr → Nat
  | .lea n => pos + n
  | _ => pos

/-- The events and the movement of `r10` of AVX-512 code with given masks. -/
def eventsZ (k : Nat → Nat → Bool) : Nat → List Avx512.Instr → List (Event Int) × Nat
  | pos, [] => ([], pos)
  | pos, i :: is =>
    let tq := eventsZ k (movedZ pos i) is
    (Zmm.leak ⟨fun _ => 0, k, fun _ => 0, pos⟩ i ++ tq.1, tq.2)

theorem trace_avx512 (p : List Avx512.Instr) (m : Zmm) :
    (trace Zmm.step Zmm.leak p m, (p.foldl Zmm.step m).pos) = eventsZ m.k m.pos p ∧ (p.foldl Zmm.step m).k = m.k := by
  induction p generalizing m with
  | nil => exact ⟨rfl, rfl⟩
  | cons i is ih =>
    obtain ⟨h, h'⟩ := ih (m.step i)
    have h1 := congrArg Prod.fst h
    have h2 := congrArg Prod.snd h
    cases i <;> exact ⟨Prod.ext (congrArg (Zmm.leak m _ ++ ·) h1) h2, h'⟩

/-- The two accesses of a run of the body. -/
theorem eventsZ_body (k : Nat → Nat → Bool) (pos : Nat) : eventsZ k pos Avx512.body =
    (((List.range 8).filter (k 1)).map (fun e : Nat => .access false ((pos : Int) - (0 : Nat) + 8 * (e : Int))) ++
      ((List.range 8).filter (k 1)).map (fun e : Nat => .access false (((pos + 16 : Nat) : Int) - (8 : Nat) + 8 * (e : Int))),
      pos + 16) := by
  refine Prod.ext ?_ rfl
  exact congrArg (List.map _ _ ++ ·) (List.append_nil (List.map _ _))

/-- C101, AVX-512. Given the mask registers (which the code never sets), every run takes the loop 12 times and reads the same
places in the same order. With a mask `k1` that selects nothing but the first quadword they are inside the round constants, and all of them are
read. -/
theorem C101_avx512 (k : Nat → Nat → Bool) : ∃ t : List (Event Int),
    (∀ (s : Bool) (a : Int), .access s a ∈ t → s = false ∧
      ((∀ e < 8, k 1 e = true → e = 0) → 0 ≤ a ∧ a + 8 ≤ 8 * Avx512.constants.length)) ∧
    (k 1 0 = true → ∀ i < Avx512.constants.length, .access false (8 * (i : Int)) ∈ t) ∧
    ∀ m : Counted 32 Zmm, m.counter = 12 → m.vec.pos = 0 → m.vec.k = k →
      (∃ m', LoopTrace (Counted.step Zmm.step) (Counted.leak Zmm.leak) Counted.zf (Avx512.body.map some ++ [none]) 12 m m' t) ∧
      ∀ n m' t', LoopTrace (Counted.step Zmm.step) (Counted.leak Zmm.leak) Counted.zf (Avx512.body.map some ++ [none]) n m m' t' →
        n = 12 ∧ t' = t := by
  refine ⟨loopEvents (fun r => (eventsZ k (16 * r) Avx512.body).1) 12, fun s a h => ?_, fun hk i hi => ?_, fun m hc hp hk => ?_⟩
  · obtain ⟨j, hj, h⟩ := mem_loopEvents h
    rw [eventsZ_body] at h
    have hl : Avx512.constants.length = 24 := rfl
    rcases List.mem_append.1 h with h | h <;> obtain ⟨e, he, h⟩ := List.mem_map.1 h <;>
      obtain ⟨rfl, rfl⟩ := Event.access.inj h <;> refine ⟨rfl, fun hm => ?_⟩ <;>
      obtain ⟨he, hk⟩ := List.mem_filter.1 he <;> obtain rfl := hm e (List.mem_range.1 he) hk <;> rw [hl] <;>
      push_cast <;> omega
  · have hl : i < 24 := hi
    have h0 : 0 ∈ (List.range 8).filter (k 1) := List.mem_filter.2 ⟨List.mem_range.2 (by omega), hk⟩
    refine loopEvents_mem (j := i / 2) (by omega) ?_
    rw [eventsZ_body]
    rcases Nat.mod_two_eq_zero_or_one i with h | h
    · refine List.mem_append_left _ (List.mem_map.2 ⟨0, h0, ?_⟩)
      congr 1
      push_cast
      omega
    · refine List.mem_append_right _ (List.mem_map.2 ⟨0, h0, ?_⟩)
      congr 1
      push_cast
      omega
  · refine counted_loop Avx512.body (fun r m => m.pos = 16 * r ∧ m.k = k) _ 12 (by omega) (by omega) (fun r m _ q => ?_) m hc
      ⟨hp, hk⟩
    obtain ⟨h, h'⟩ := trace_avx512 Avx512.body m
    rw [q.1, q.2] at h
    refine ⟨⟨?_, h'.trans q.2⟩, ?_⟩
    · rw [eventsZ_body] at h
      exact (Prod.mk.inj h).2
    · rw [← h]

/-- Two contents of the registers and of the memory. -/
example (m m' : Zmm) (h : m.pos = 0) (h' : m'.pos = 0) (hk : m.k = m'.k) (n j : Nat) (a b : Counted 32 Zmm)
    (s t : List (Event Int))
    (h1 : LoopTrace (Counted.step Zmm.step) (Counted.leak Zmm.leak) Counted.zf (Avx512.body.map some ++ [none]) n ⟨12, m⟩ a s)
    (h2 : LoopTrace (Counted.step Zmm.step) (Counted.leak Zmm.leak) Counted.zf (Avx512.body.map some ++ [none]) j ⟨12, m'⟩ b t) :
    n = j ∧ s = t := by
  obtain ⟨u, -, -, hu⟩ := C101_avx512 m'.k
  obtain ⟨rfl, rfl⟩ := (hu ⟨12, m⟩ rfl h hk).2 _ _ _ h1
  obtain ⟨rfl, rfl⟩ := (hu ⟨12, m'⟩ rfl h' rfl).2 _ _ _ h2
  exact ⟨rfl, rfl⟩

end Verif.Props
