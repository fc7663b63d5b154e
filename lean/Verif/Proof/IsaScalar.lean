import Verif.Proof.Isa
import Verif.Proof.KeccakX86
import Verif.Proof.KeccakArmv8
/-
The x86-64 and ARMv8 machines of the model against those of the manuals, with flat memory.
-/
namespace Verif.Isa

theorem Mem.read_write_self (m : Mem) (a v : BitVec 64) : (m.write a v).read a = v := by
  refine (glue_congr (by decide) fun i hi => ?_).trans (glue_elem (w := 8) (by omega) v)
  have e : (a + BitVec.ofNat 64 i - a).toNat = i := by
    rw [BitVec.add_comm, BitVec.add_sub_cancel, BitVec.toNat_ofNat]
    omega
  unfold Mem.write
  simp only [e]
  rw [if_pos hi]

theorem Mem.write_other (m : Mem) (a v x : BitVec 64) (h : ∀ j < 8, x ≠ a + BitVec.ofNat 64 j) : m.write a v x = m x := by
  unfold Mem.write
  rw [if_neg]
  intro hlt
  refine h _ hlt ?_
  rw [BitVec.ofNat_toNat, BitVec.setWidth_eq, BitVec.add_comm, BitVec.sub_add_cancel]

theorem Mem.read_write_other (m : Mem) (a b v : BitVec 64)
    (h : ∀ i < 8, ∀ j < 8, b + BitVec.ofNat 64 i ≠ a + BitVec.ofNat 64 j) : (m.write a v).read b = m.read b :=
  glue_congr (by decide) fun i hi => m.write_other a v _ (h i hi)

theorem ofNat_add64 (a b : Nat) : BitVec.ofNat 64 (a + b) = BitVec.ofNat 64 a + BitVec.ofNat 64 b := BitVec.ofNat_add a b

/-- The arrays `arr` lie in memory from the addresses `addr` on; their bytes have different addresses, and outside those of
the arrays in `wr` the memory is `mem0`. -/
structure MemSim {ι : Type} (addr : ι → BitVec 64) (wr : ι → Prop) (mem0 : Mem) (arr : ι → List (BitVec 64)) (mem : Mem) :
    Prop where
  inj : ∀ b b' i j, i < 8 * (arr b).length → j < 8 * (arr b').length →
    addr b + BitVec.ofNat 64 i = addr b' + BitVec.ofNat 64 j → b = b' ∧ i = j
  val : ∀ (b : ι) (k : Nat) (v : BitVec 64), (arr b)[k]? = some v → mem.read (addr b + BitVec.ofNat 64 (8 * k)) = v
  frame : ∀ x, (∀ b, wr b → ∀ j < 8 * (arr b).length, x ≠ addr b + BitVec.ofNat 64 j) → mem x = mem0 x

theorem MemSim.write {ι : Type} {addr : ι → BitVec 64} {wr : ι → Prop} {mem0 : Mem} {arr arr' : ι → List (BitVec 64)}
    {mem : Mem} (s : MemSim addr wr mem0 arr mem) {b : ι} (hw : wr b) {k : Nat} (hk : k < (arr b).length) (w : BitVec 64)
    (hb : arr' b = (arr b).set k w) (hne : ∀ b', b' ≠ b → arr' b' = arr b') :
    MemSim addr wr mem0 arr' (mem.write (addr b + BitVec.ofNat 64 (8 * k)) w) := by
  have hl : ∀ b', (arr' b').length = (arr b').length := by
    intro b'
    by_cases e : b' = b
    · rw [e, hb, List.length_set]
    · rw [hne b' e]
  refine ⟨fun b1 b2 i j hi hj => s.inj b1 b2 i j (by rw [← hl]; exact hi) (by rw [← hl]; exact hj),
    fun b' k' v hv => ?_, fun x hx => ?_⟩
  · by_cases e : b' = b
    · subst e
      rw [hb] at hv
      by_cases ek : k = k'
      · subst ek
        rw [List.getElem?_set_self hk] at hv
        rw [Mem.read_write_self, Option.some.inj hv]
      · rw [List.getElem?_set_ne ek] at hv
        have hk' := (List.getElem?_eq_some_iff.1 hv).1
        rw [Mem.read_write_other, s.val b' k' v hv]
        intro i hi j hj he
        rw [BitVec.add_assoc, BitVec.add_assoc, ← ofNat_add64, ← ofNat_add64] at he
        have := (s.inj b' b' _ _ (by omega) (by omega) he).2
        omega
    · rw [hne b' e] at hv
      have hk' := (List.getElem?_eq_some_iff.1 hv).1
      rw [Mem.read_write_other, s.val b' k' v hv]
      intro i hi j hj he
      rw [BitVec.add_assoc, BitVec.add_assoc, ← ofNat_add64, ← ofNat_add64] at he
      exact e (s.inj b' b _ _ (by omega) (by omega) he).1
  · rw [Mem.write_other]
    · exact s.frame x fun b' hb' j hj => hx b' hb' j (by rw [hl]; exact hj)
    · intro j hj he
      rw [BitVec.add_assoc, ← ofNat_add64] at he
      exact hx b hw _ (by rw [hl]; omega) he

theorem put_get {regs : List (BitVec 64)} {r : Nat → BitVec 64} {n : Nat} {w : BitVec 64}
    (h : ∀ (i : Nat) (v : BitVec 64), regs[i]? = some v → r i = v) (hn : n < regs.length) :
    ∀ (i : Nat) (v : BitVec 64), (regs.set n w)[i]? = some v → put r n w i = v := by
  intro i v hv
  unfold put
  by_cases e : i = n
  · subst e
    rw [List.getElem?_set_self hn] at hv
    rw [if_pos rfl, Option.some.inj hv]
  · rw [List.getElem?_set_ne (fun h => e h.symm)] at hv
    rw [if_neg e]
    exact h i v hv

theorem ror64_eq (x : BitVec 64) (n : Nat) : ror64 x n = x.rotateRight n := by
  apply BitVec.eq_of_getLsbD_eq
  intro i hi
  unfold ror64
  rw [BitVec.getLsbD_ofFnLE, dif_pos hi, BitVec.getLsbD_rotateRight]
  simp only
  by_cases h : i < 64 - n % 64
  · simp only [h, decide_true, cond_true]
    congr 1; omega
  · simp only [h, decide_false, cond_false, hi, decide_true, Bool.true_and]
    congr 1; omega

/-! ### x86-64 -/

section
open X86

def arr (m : X86.Machine (BitVec 64)) : Base → List (BitVec 64)
  | .A => m.A
  | .B => m.B
  | .C => m.C
  | .c => m.consts

/-- The machine of the manual holds what the machine of the model holds. -/
structure SimX (addr : Base → BitVec 64) (mem0 : Mem) (m : X86.Machine (BitVec 64)) (M : X64) : Prop where
  regs : ∀ (i : Nat) (v : BitVec 64), m.regs[i]? = some v → M.regs i = v
  mem : MemSim addr (· ≠ .c) mem0 (arr m) M.mem
  ptr : ∀ b, b ≠ .c → M.ptr b = addr b
  ptrc : M.ptr .c = addr .c + BitVec.ofNat 64 m.pos

theorem load_some {l : List (BitVec 64)} {off : Nat} {v : BitVec 64} (h : X86.load l off = some v) :
    8 * (off / 8) = off ∧ l[off / 8]? = some v := by
  unfold X86.load at h
  by_cases h0 : off % 8 = 0
  · rw [if_pos h0] at h; exact ⟨by omega, h⟩
  · rw [if_neg h0] at h; exact absurd h (by simp)

theorem store_some {l l' : List (BitVec 64)} {off : Nat} {v : BitVec 64} (h : X86.store l off v = some l') :
    8 * (off / 8) = off ∧ off / 8 < l.length ∧ l' = l.set (off / 8) v := by
  unfold X86.store at h
  by_cases h0 : off % 8 = 0 ∧ off / 8 < l.length
  · rw [if_pos h0] at h; exact ⟨by omega, h0.2, (Option.some.inj h).symm⟩
  · rw [if_neg h0] at h; exact absurd h (by simp)

theorem SimX.read {addr : Base → BitVec 64} {mem0 : Mem} {m : X86.Machine (BitVec 64)} {M : X64} (s : SimX addr mem0 m M) {o : Operand}
    {v : BitVec 64} (h : m.read o = some v) : M.get o = v := by
  have key : ∀ b off, X86.load (arr m b) off = some v → M.mem.read (addr b + BitVec.ofNat 64 off) = v := by
    intro b off h
    obtain ⟨e, h⟩ := load_some h
    have := s.mem.val b _ v h
    rwa [e] at this
  cases o with
  | reg n => exact s.regs n v h
  | mem b off =>
    unfold X64.get
    simp only
    cases b with
    | A => rw [s.ptr .A (by decide)]; exact key .A off h
    | B => rw [s.ptr .B (by decide)]; exact key .B off h
    | C => rw [s.ptr .C (by decide)]; exact key .C off h
    | c => rw [s.ptrc, BitVec.add_assoc, ← ofNat_add64]; exact key .c _ h

theorem SimX.write {addr : Base → BitVec 64} {mem0 : Mem} {m m' : X86.Machine (BitVec 64)} {M : X64} (s : SimX addr mem0 m M) {o : Operand}
    {v w : BitVec 64} (hv : w = v) (h : m.write v o = some m') : SimX addr mem0 m' (M.put w o) := by
  subst hv
  have key : ∀ b off l, b ≠ .c → X86.store (arr m b) off w = some l → arr m' b = l →
      (∀ b', b' ≠ b → arr m' b' = arr m b') →
      MemSim addr (· ≠ .c) mem0 (arr m') (M.mem.write (M.ptr b + BitVec.ofNat 64 off) w) := by
    intro b off l hb h hl hne
    obtain ⟨e, hk, h⟩ := store_some h
    have := s.mem.write hb hk w (hl.trans h) hne
    rwa [e, ← s.ptr b hb] at this
  cases o with
  | reg n =>
    unfold Machine.write at h
    simp only at h
    by_cases hn : n < m.regs.length
    · rw [if_pos hn] at h
      rw [← Option.some.inj h]
      exact ⟨put_get s.regs hn, s.mem, s.ptr, s.ptrc⟩
    · rw [if_neg hn] at h; exact absurd h (by simp)
  | mem b off =>
    cases b with
    | A =>
      obtain ⟨l, hl, h⟩ := Option.map_eq_some_iff.1 h
      subst h
      exact ⟨s.regs, key .A off l (by decide) hl rfl (by intro b' hb'; cases b' <;> first | rfl | exact absurd rfl hb'), s.ptr,
        s.ptrc⟩
    | B =>
      obtain ⟨l, hl, h⟩ := Option.map_eq_some_iff.1 h
      subst h
      exact ⟨s.regs, key .B off l (by decide) hl rfl (by intro b' hb'; cases b' <;> first | rfl | exact absurd rfl hb'), s.ptr,
        s.ptrc⟩
    | C =>
      obtain ⟨l, hl, h⟩ := Option.map_eq_some_iff.1 h
      subst h
      exact ⟨s.regs, key .C off l (by decide) hl rfl (by intro b' hb'; cases b' <;> first | rfl | exact absurd rfl hb'), s.ptr,
        s.ptrc⟩
    | c => exact absurd h (by simp [Machine.write])

theorem SimX.zf {addr : Base → BitVec 64} {mem0 : Mem} {m : X86.Machine (BitVec 64)} {M : X64} (s : SimX addr mem0 m M) (z : Bool) :
    SimX addr mem0 m { M with zf := z } := ⟨s.regs, s.mem, s.ptr, s.ptrc⟩

/-- One instruction. -/
theorem SimX.step {addr : Base → BitVec 64} {mem0 : Mem} {m m' : X86.Machine (BitVec 64)} {M : X64} (s : SimX addr mem0 m M) (i : Instr)
    (h : X86.step m i = some m') : SimX addr mem0 m' (M.step i) := by
  cases i with
  | movImm imm d => exact s.write rfl h
  | mov a d =>
    obtain ⟨x, hx, h⟩ := Option.bind_eq_some_iff.1 h
    exact s.write (s.read hx) h
  | xor a d =>
    obtain ⟨x, hx, h⟩ := Option.bind_eq_some_iff.1 h
    obtain ⟨y, hy, h⟩ := Option.bind_eq_some_iff.1 h
    exact (s.write (by rw [s.read hx, s.read hy]; rfl) h).zf _
  | and a d =>
    obtain ⟨x, hx, h⟩ := Option.bind_eq_some_iff.1 h
    obtain ⟨y, hy, h⟩ := Option.bind_eq_some_iff.1 h
    exact (s.write (by rw [s.read hx, s.read hy]; rfl) h).zf _
  | not d =>
    obtain ⟨y, hy, h⟩ := Option.bind_eq_some_iff.1 h
    exact s.write (by rw [s.read hy]; rfl) h
  | rol k d =>
    obtain ⟨y, hy, h⟩ := Option.bind_eq_some_iff.1 h
    exact s.write (by rw [s.read hy, rol64_eq]; rfl) h
  | dec d =>
    obtain ⟨y, hy, h⟩ := Option.bind_eq_some_iff.1 h
    exact (s.write (by rw [s.read hy]; rfl) h).zf _
  | lea off =>
    rw [← Option.some.inj h]
    refine ⟨s.regs, s.mem, fun b hb => ?_, ?_⟩
    · show (if b = .c then M.ptr .c + BitVec.ofNat 64 off else M.ptr b) = _
      rw [if_neg hb, s.ptr b hb]
    · show (if Base.c = .c then M.ptr .c + BitVec.ofNat 64 off else M.ptr .c) = _
      rw [if_pos rfl, s.ptrc, BitVec.add_assoc, ← ofNat_add64]

theorem SimX.exec {addr : Base → BitVec 64} {mem0 : Mem} {m m' : X86.Machine (BitVec 64)} {M : X64} (s : SimX addr mem0 m M)
    (p : List Instr) (h : X86.exec p m = some m') : SimX addr mem0 m' (p.foldl X64.step M) := by
  induction p generalizing m M with
  | nil => rw [← Option.some.inj h]; exact s
  | cons i p ih =>
    obtain ⟨m1, h1, h⟩ := Option.bind_eq_some_iff.1 h
    exact ih (s.step i h1) h

theorem zf_dec (p : List Instr) (n : Nat) (M : X64) : ((p ++ [Instr.dec (.reg n)]).foldl X64.step M).zf =
    decide (((p ++ [Instr.dec (.reg n)]).foldl X64.step M).regs n = 0) := by
  rw [List.foldl_append]
  generalize p.foldl X64.step M = N
  show decide (N.get (.reg n) - 1 = 0) = decide (Isa.put N.regs n (N.get (.reg n) - 1) n = 0)
  rw [show Isa.put N.regs n (N.get (.reg n) - 1) n = N.get (.reg n) - 1 from if_pos rfl]

theorem body_dec : body = (columns ++ dWords ++ rhoPi ++ chi ++ [Instr.lea 8]) ++ [Instr.dec (.reg 13)] := by
  rw [List.append_assoc (columns ++ dWords ++ rhoPi ++ chi)]
  rfl

/-- `dec` of the counter is the last instruction of the body. -/
theorem zf_body (M : X64) : (body.foldl X64.step M).zf = decide ((body.foldl X64.step M).regs 13 = 0) := by
  have h := zf_dec (columns ++ dWords ++ rhoPi ++ chi ++ [Instr.lea 8]) 13 M
  rw [← body_dec] at h
  exact h

/-- How far the instructions move the pointer to the constants. -/
def moves : List Instr → Nat
  | [] => 0
  | .lea off :: p => off + moves p
  | _ :: p => moves p

theorem ptr_put (M : X64) (w : BitVec 64) (d : Operand) : (M.put w d).ptr = M.ptr := by
  cases d <;> rfl

theorem ptr_exec (p : List Instr) (M : X64) : (p.foldl X64.step M).ptr .c = M.ptr .c + BitVec.ofNat 64 (moves p) := by
  induction p generalizing M with
  | nil => exact (BitVec.add_zero _).symm
  | cons i p ih =>
    rw [List.foldl_cons, ih]
    cases i with
    | lea off =>
      show (if Base.c = .c then M.ptr .c + BitVec.ofNat 64 off else M.ptr .c) + _ = _ + BitVec.ofNat 64 (off + moves p)
      rw [if_pos rfl, BitVec.add_assoc, ← ofNat_add64]
    | _ => exact congrArg (· .c + BitVec.ofNat 64 (moves p)) (ptr_put _ _ _)

theorem ptr_loop {p : List Instr} {n : Nat} {M M' : X64} (h : X64.Loop p n M M') :
    M'.ptr .c = M.ptr .c + BitVec.ofNat 64 (moves p * n) := by
  induction h with
  | done M _ => rw [ptr_exec, Nat.mul_one]
  | again n M M' _ _ ih =>
    rw [ih, ptr_exec, BitVec.add_assoc, ← ofNat_add64, Nat.mul_succ, Nat.add_comm (moves p * n)]

theorem moves_body : moves body = 8 := by decide +kernel

theorem SimX.loop {addr : Base → BitVec 64} {mem0 : Mem} {m m' : X86.Machine (BitVec 64)} {M : X64} (s : SimX addr mem0 m M) (fuel : Nat)
    (h : X86.loop fuel m = some m') : ∃ n M', n ≤ fuel ∧ X64.Loop body n M M' ∧ SimX addr mem0 m' M' := by
  induction fuel generalizing m M with
  | zero => exact absurd h (by simp [X86.loop])
  | succ fuel ih =>
    obtain ⟨m1, h1, h⟩ := Option.bind_eq_some_iff.1 h
    obtain ⟨r, hr, h⟩ := Option.bind_eq_some_iff.1 h
    have s1 := s.exec body h1
    have hz := zf_body M
    have hd := X64.Loop.done (body := body) M
    have ha := X64.Loop.again (body := body) (m := M)
    generalize body.foldl X64.step M = N at s1 hz hd ha
    have er : N.regs 13 = r := s1.read hr
    by_cases h0 : r = 0
    · rw [if_pos h0] at h
      rw [← Option.some.inj h]
      exact ⟨1, _, by omega, hd (by rw [hz, er]; exact decide_eq_true h0), s1⟩
    · rw [if_neg h0] at h
      obtain ⟨n, M', hn, hl, s2⟩ := ih s1 h
      exact ⟨n + 1, M', by omega, ha n M' (by rw [hz, er]; exact decide_eq_false h0) hl, s2⟩

/-- The loop has one result. -/
theorem X64.Loop.unique {body : List Instr} {n k : Nat} {M M1 M2 : X64} (h1 : X64.Loop body n M M1)
    (h2 : X64.Loop body k M M2) : n = k ∧ M1 = M2 := by
  induction h1 generalizing k M2 with
  | done M hz =>
    cases h2 with
    | done _ _ => exact ⟨rfl, rfl⟩
    | again _ _ _ hz' _ => rw [hz] at hz'; exact absurd hz' (by simp)
  | again n M M1 hz hl ih =>
    cases h2 with
    | done _ hz' => rw [hz] at hz'; exact absurd hz' (by simp)
    | again _ _ _ _ hl' =>
      obtain ⟨a, b⟩ := ih hl'
      exact ⟨by omega, b⟩

end

/-! ### ARMv8 -/

section
open Armv8

def arrA (m : Armv8.Machine (BitVec 64)) : Bool → List (BitVec 64)
  | true => m.A
  | false => m.stack

/-- The machine of the manual holds what the machine of the model holds; `addr false` is 32 bytes below the stack pointer at
entry. -/
structure SimA (addr : Bool → BitVec 64) (mem0 : Mem) (m : Armv8.Machine (BitVec 64)) (M : A64) : Prop where
  regs : ∀ (i : Nat) (v : BitVec 64), m.regs[i]? = some v → M.regs i = v
  mem : MemSim addr (fun _ => True) mem0 (arrA m) M.mem
  A : M.A = addr true
  sp : M.sp + BitVec.ofNat 64 m.sp = addr false + BitVec.ofNat 64 32

/-- The immediates that fit into an instruction. -/
def Encodable : Instr → Prop
  | .movz _ imm => imm < 2 ^ 16
  | .movk _ imm sh => imm < 2 ^ 16 ∧ sh + 16 ≤ 64
  | _ => True

theorem aload_some {l : List (BitVec 64)} {off : Nat} {v : BitVec 64} (h : Armv8.load l off = some v) :
    8 * (off / 8) = off ∧ l[off / 8]? = some v := load_some h

theorem astore_some {l l' : List (BitVec 64)} {off : Nat} {v : BitVec 64} (h : Armv8.store l off v = some l') :
    8 * (off / 8) = off ∧ off / 8 < l.length ∧ l' = l.set (off / 8) v := store_some h

theorem SimA.readAt {addr : Bool → BitVec 64} {mem0 : Mem} {m : Armv8.Machine (BitVec 64)} {M : A64} (s : SimA addr mem0 m M) {b : Bool}
    {off : Nat} {v : BitVec 64} (h : Armv8.load (arrA m b) off = some v) :
    M.mem.read (addr b + BitVec.ofNat 64 off) = v := by
  obtain ⟨e, h⟩ := aload_some h
  have := s.mem.val b _ v h
  rwa [e] at this

theorem slot_some {m : Armv8.Machine (BitVec 64)} {off o : Nat} (h : m.slot off = some o) :
    m.sp ≤ 32 ∧ o = 32 - m.sp + off := by
  unfold Machine.slot at h
  by_cases h0 : off + 8 ≤ m.sp ∧ m.sp ≤ 32
  · rw [if_pos h0] at h; exact ⟨h0.2, (Option.some.inj h).symm⟩
  · rw [if_neg h0] at h; exact absurd h (by simp)

theorem SimA.slot {addr : Bool → BitVec 64} {mem0 : Mem} {m : Armv8.Machine (BitVec 64)} {M : A64} (s : SimA addr mem0 m M) {off o : Nat}
    (h : m.slot off = some o) : M.sp + BitVec.ofNat 64 off = addr false + BitVec.ofNat 64 o := by
  obtain ⟨h1, rfl⟩ := slot_some h
  have e : BitVec.ofNat 64 32 = BitVec.ofNat 64 (32 - m.sp) + BitVec.ofNat 64 m.sp := by
    rw [← ofNat_add64]; congr 1; omega
  have h2 : M.sp = addr false + BitVec.ofNat 64 (32 - m.sp) := by
    have := s.sp
    rw [e, ← BitVec.add_assoc] at this
    exact (BitVec.add_left_inj (BitVec.ofNat 64 m.sp)).1 this
  rw [h2, BitVec.add_assoc, ← ofNat_add64]

theorem SimA.loadS {addr : Bool → BitVec 64} {mem0 : Mem} {m : Armv8.Machine (BitVec 64)} {M : A64} (s : SimA addr mem0 m M) {off : Nat}
    {v : BitVec 64} (h : m.loadS off = some v) : M.mem.read (M.sp + BitVec.ofNat 64 off) = v := by
  obtain ⟨o, ho, h⟩ := Option.bind_eq_some_iff.1 h
  rw [s.slot ho]
  exact s.readAt (b := false) h

theorem SimA.storeS {addr : Bool → BitVec 64} {mem0 : Mem} {m m' : Armv8.Machine (BitVec 64)} {M : A64} (s : SimA addr mem0 m M) {off : Nat}
    {v : BitVec 64} (h : m.storeS off v = some m') :
    SimA addr mem0 m' { M with mem := M.mem.write (M.sp + BitVec.ofNat 64 off) v } := by
  obtain ⟨o, ho, h⟩ := Option.bind_eq_some_iff.1 h
  obtain ⟨l, hl, h⟩ := Option.map_eq_some_iff.1 h
  subst h
  obtain ⟨e, hk, hl⟩ := astore_some hl
  refine ⟨s.regs, ?_, s.A, s.sp⟩
  have := s.mem.write (b := false) (arr' := arrA { m with stack := l }) trivial hk v hl
    (by intro b' hb'; cases b' with | true => rfl | false => exact absurd rfl hb')
  rw [e] at this
  show MemSim addr _ mem0 _ (M.mem.write (M.sp + BitVec.ofNat 64 off) v)
  rw [s.slot ho]
  exact this

theorem SimA.setReg {addr : Bool → BitVec 64} {mem0 : Mem} {m m' : Armv8.Machine (BitVec 64)} {M : A64} (s : SimA addr mem0 m M) {d : Nat}
    {v w : BitVec 64} (hv : w = v) (h : m.setReg d v = some m') : SimA addr mem0 m' { M with regs := put M.regs d w } := by
  subst hv
  unfold Machine.setReg at h
  by_cases hd : d < m.regs.length
  · rw [if_pos hd] at h
    rw [← Option.some.inj h]
    exact ⟨put_get s.regs hd, s.mem, s.A, s.sp⟩
  · rw [if_neg hd] at h; exact absurd h (by simp)

theorem movk_manual (x : BitVec 64) (imm sh : Nat) (hi : imm < 2 ^ 16) :
    (BitVec.ofFnLE fun i : Fin 64 => if sh ≤ i.1 ∧ i.1 < sh + 16 then imm.testBit (i.1 - sh) else x.getLsbD i) =
      Word.or (Word.and x (Word.not (Word.ofNat (0xFFFF * 2 ^ sh)))) (Word.ofNat (imm * 2 ^ sh) : BitVec 64) := by
  apply BitVec.eq_of_getLsbD_eq
  intro i hi64
  rw [BitVec.getLsbD_ofFnLE, dif_pos hi64]
  simp only [Word.or, Word.and, Word.not, Word.ofNat, BitVec.getLsbD_or, BitVec.getLsbD_and, BitVec.getLsbD_not,
    BitVec.getLsbD_ofNat, hi64, decide_true, Bool.true_and]
  rw [Nat.testBit_mul_two_pow, Nat.testBit_mul_two_pow, show 0xFFFF = 2 ^ 16 - 1 from rfl, Nat.testBit_two_pow_sub_one]
  by_cases h1 : sh ≤ i
  · by_cases h2 : i < sh + 16
    · rw [if_pos ⟨h1, h2⟩]
      have : i - sh < 16 := by omega
      simp [h1, this]
    · rw [if_neg (fun h => h2 h.2)]
      have h3 : ¬ i - sh < 16 := by omega
      have h4 : imm.testBit (i - sh) = false := Nat.testBit_lt_two_pow
        (Nat.lt_of_lt_of_le hi (Nat.pow_le_pow_right (by omega) (by omega)))
      simp [h3, h4]
  · rw [if_neg (fun h => h1 h.1)]
    simp [h1]

/-- One instruction. -/
theorem SimA.step {addr : Bool → BitVec 64} {mem0 : Mem} {m m' : Armv8.Machine (BitVec 64)} {M : A64} (s : SimA addr mem0 m M) (i : Instr)
    (hi : Encodable i) (h : Armv8.step m i = some m') : SimA addr mem0 m' (M.step i) := by
  cases i with
  | ldrA d off =>
    obtain ⟨x, hx, h⟩ := Option.bind_eq_some_iff.1 h
    exact s.setReg (by rw [s.A]; exact s.readAt (b := true) hx) h
  | strA a off =>
    obtain ⟨x, hx, h⟩ := Option.bind_eq_some_iff.1 h
    obtain ⟨l, hl, h⟩ := Option.map_eq_some_iff.1 h
    subst h
    obtain ⟨e, hk, hl⟩ := astore_some hl
    refine ⟨s.regs, ?_, s.A, s.sp⟩
    have := s.mem.write (b := true) (arr' := arrA { m with A := l }) trivial hk x hl
      (by intro b' hb'; cases b' with | true => exact absurd rfl hb' | false => rfl)
    rw [e] at this
    show MemSim addr _ mem0 _ (M.mem.write (M.A + BitVec.ofNat 64 off) (M.regs a))
    rw [s.A, s.regs a x hx]
    exact this
  | ldrS d off =>
    obtain ⟨x, hx, h⟩ := Option.bind_eq_some_iff.1 h
    exact s.setReg (s.loadS hx) h
  | strS a off =>
    obtain ⟨x, hx, h⟩ := Option.bind_eq_some_iff.1 h
    have := s.storeS h
    rwa [← s.regs a x hx] at this
  | ldpS d1 d2 off =>
    obtain ⟨x, hx, h⟩ := Option.bind_eq_some_iff.1 h
    obtain ⟨y, hy, h⟩ := Option.bind_eq_some_iff.1 h
    obtain ⟨m1, h1, h⟩ := Option.bind_eq_some_iff.1 h
    exact (s.setReg (s.loadS hx) h1).setReg (s.loadS hy) h
  | stpS s1 s2 off =>
    obtain ⟨x, hx, h⟩ := Option.bind_eq_some_iff.1 h
    obtain ⟨y, hy, h⟩ := Option.bind_eq_some_iff.1 h
    obtain ⟨m1, h1, h⟩ := Option.bind_eq_some_iff.1 h
    have := (s.storeS h1).storeS h
    rwa [← s.regs s1 x hx, ← s.regs s2 y hy] at this
  | eor d a b =>
    obtain ⟨x, hx, h⟩ := Option.bind_eq_some_iff.1 h
    obtain ⟨y, hy, h⟩ := Option.bind_eq_some_iff.1 h
    exact s.setReg (by rw [s.regs a x hx, s.regs b y hy]; rfl) h
  | eorRor d a b k =>
    obtain ⟨x, hx, h⟩ := Option.bind_eq_some_iff.1 h
    obtain ⟨y, hy, h⟩ := Option.bind_eq_some_iff.1 h
    exact s.setReg (by rw [s.regs a x hx, s.regs b y hy, ror64_eq]; rfl) h
  | ror d a k =>
    obtain ⟨x, hx, h⟩ := Option.bind_eq_some_iff.1 h
    exact s.setReg (by rw [s.regs a x hx, ror64_eq]; rfl) h
  | bic d a b =>
    obtain ⟨x, hx, h⟩ := Option.bind_eq_some_iff.1 h
    obtain ⟨y, hy, h⟩ := Option.bind_eq_some_iff.1 h
    exact s.setReg (by rw [s.regs a x hx, s.regs b y hy]; rfl) h
  | mov d a =>
    obtain ⟨x, hx, h⟩ := Option.bind_eq_some_iff.1 h
    exact s.setReg (s.regs a x hx) h
  | movz d imm => exact s.setReg rfl h
  | movk d imm sh =>
    obtain ⟨x, hx, h⟩ := Option.bind_eq_some_iff.1 h
    refine s.setReg ?_ h
    rw [s.regs d x hx]
    exact movk_manual x imm sh hi.1
  | subSp n =>
    rw [← Option.some.inj h]
    refine ⟨s.regs, s.mem, s.A, ?_⟩
    show M.sp - BitVec.ofNat 64 n + BitVec.ofNat 64 (m.sp + n) = _
    rw [ofNat_add64, BitVec.add_comm (BitVec.ofNat 64 m.sp), ← BitVec.add_assoc, BitVec.sub_add_cancel, s.sp]
  | addSp n =>
    unfold Armv8.step at h
    simp only at h
    by_cases hn : n ≤ m.sp
    · rw [if_pos hn] at h
      rw [← Option.some.inj h]
      refine ⟨s.regs, s.mem, s.A, ?_⟩
      show M.sp + BitVec.ofNat 64 n + BitVec.ofNat 64 (m.sp - n) = _
      rw [BitVec.add_assoc, ← ofNat_add64, show n + (m.sp - n) = m.sp by omega, s.sp]
    · rw [if_neg hn] at h; exact absurd h (by simp)

theorem SimA.exec {addr : Bool → BitVec 64} {mem0 : Mem} {m m' : Armv8.Machine (BitVec 64)} {M : A64} (s : SimA addr mem0 m M)
    (p : List Instr) (hp : ∀ i ∈ p, Encodable i) (h : Armv8.exec p m = some m') : SimA addr mem0 m' (p.foldl A64.step M) := by
  induction p generalizing m M with
  | nil => rw [← Option.some.inj h]; exact s
  | cons i p ih =>
    obtain ⟨m1, h1, h⟩ := Option.bind_eq_some_iff.1 h
    exact ih (s.step i (hp i List.mem_cons_self) h1) (fun j hj => hp j (List.mem_cons_of_mem _ hj)) h

end

end Verif.Isa
