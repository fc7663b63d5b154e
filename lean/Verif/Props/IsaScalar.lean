import Verif.Proof.IsaScalar
import Verif.Props.KeccakAsm
/-
C70, C71 with the instructions as the processor manuals define them (Spec/Isa.lean): one memory of bytes with 64-bit addresses,
the zero flag, the stack below the stack pointer.
-/
namespace Verif.Props

open Spec Isa

theorem map_range_get {f : Nat → BitVec 64} {n i : Nat} {v : BitVec 64} (h : ((List.range n).map f)[i]? = some v) :
    i < n ∧ f i = v := by
  rw [List.getElem?_map] at h
  obtain ⟨j, hj, h⟩ := Option.map_eq_some_iff.1 h
  obtain ⟨h1, h2⟩ := List.getElem?_eq_some_iff.1 hj
  rw [List.getElem_range] at h2
  subst h2
  exact ⟨by simpa using h1, h⟩

theorem map_range_some (f : Nat → BitVec 64) {n i : Nat} (h : i < n) : ((List.range n).map f)[i]? = some (f i) := by
  simp [h]

/-- C70, the instructions: as long as the model does not fault, every instruction does what the manual says. -/
theorem C70_x86_64_instructions (addr : X86.Base → BitVec 64) (mem0 : Mem) (m m' : X86.Machine (BitVec 64)) (M : X64)
    (s : SimX addr mem0 m M) (i : X86.Instr) (h : X86.step m i = some m') : SimX addr mem0 m' (M.step i) := s.step i h

/-- C70 on the machine of the manual. Let the four arrays be anywhere in memory, without overlap and without two bytes at
the same address, `A` holding the lanes and the last one the round constants; everything else is arbitrary. Then `jnz` leaves
the loop after 24 runs of its body, `A` holds KECCAK-p[1600, 24] of FIPS 202, the registers outside the clobber list have their
old values, and so has the memory outside `A`, `B`, `C`. -/
theorem C70_x86_64_manual (M : X64) (A : Lanes)
    (hinj : ∀ b b' i j, i < X64.size b → j < X64.size b' →
      M.ptr b + BitVec.ofNat 64 i = M.ptr b' + BitVec.ofNat 64 j → b = b' ∧ i = j)
    (hA : ∀ k, (h : k < 25) → M.mem.read (M.ptr .A + BitVec.ofNat 64 (8 * k)) = A[k])
    (hc : ∀ (k : Nat) (v : BitVec 64), X86.constants[k]? = some v → M.mem.read (M.ptr .c + BitVec.ofNat 64 (8 * k)) = v) :
    ∃ (M' : X64) (R : Lanes), X64.Loop X86.body 24 (M.step (.movImm 24 (.reg 13))) M' ∧
      R.array = Keccak.permutation A.array ∧
      (∀ k, (h : k < 25) → M'.mem.read (M.ptr .A + BitVec.ofNat 64 (8 * k)) = R[k]) ∧
      (∀ n < 16, n ∉ X86.clobbers → M'.regs n = M.regs n) ∧
      ∀ x, (∀ b, b ≠ .c → ∀ j < X64.size b, x ≠ M.ptr b + BitVec.ofNat 64 j) → M'.mem x = M.mem x := by
  let word (b : X86.Base) (k : Nat) := M.mem.read (M.ptr b + BitVec.ofNat 64 (8 * k))
  let regs := (List.range 16).map M.regs
  let B := (List.range 25).map (word .B)
  let C := (List.range 10).map (word .C)
  have hr : regs.length = 16 := by simp [regs]
  have hB : B.length = 25 := by simp [B]
  have hC : C.length = 10 := by simp [C]
  obtain ⟨m, e, hm, hmB, hmC, hpos, hmr, hmc⟩ := X86.run_eq 24 (Nat.le_refl _) regs B C hr hB hC A
  have hregs := C74_x86_64_registers_partial 24 regs B C A m e
  obtain ⟨m1, e1, e⟩ := Option.bind_eq_some_iff.1 e
  have s : SimX M.ptr M.mem ⟨regs, A.toList, B, C, X86.constants, 0⟩ M := by
    refine ⟨fun i v hv => (map_range_get hv).2, ⟨?_, ?_, fun _ _ => rfl⟩, fun _ _ => rfl, (BitVec.add_zero _).symm⟩
    · have hs : ∀ b, 8 * (arr (⟨regs, A.toList, B, C, X86.constants, 0⟩ : X86.Machine (BitVec 64)) b).length = X64.size b := by
        intro b
        cases b with
        | A => show 8 * A.toList.length = 200; rw [Vector.length_toList]
        | B => show 8 * B.length = 200; rw [hB]
        | C => show 8 * C.length = 80; rw [hC]
        | c => rfl
      intro b b' i j hi hj
      rw [hs] at hi hj
      exact hinj b b' i j hi hj
    · intro b k v hv
      cases b with
      | A =>
        obtain ⟨h1, h2⟩ := List.getElem?_eq_some_iff.1 (show A.toList[k]? = some v from hv)
        rw [Vector.length_toList] at h1
        rw [hA k h1, ← h2, Vector.getElem_toList]
      | B => exact (map_range_get (f := word .B) hv).2
      | C => exact (map_range_get (f := word .C) hv).2
      | c => exact hc k v hv
  obtain ⟨n, M', hn, hl, s'⟩ := (s.step _ e1).loop 24 e
  have hp := ptr_loop hl
  have hp0 : (M.step (.movImm 24 (.reg 13))).ptr .c = M.ptr .c := rfl
  rw [s'.ptrc, hp0, hpos, moves_body] at hp
  have h24 : n = 24 := by
    have h := congrArg BitVec.toNat ((BitVec.add_right_inj (M.ptr .c)).1 hp)
    rw [BitVec.toNat_ofNat, BitVec.toNat_ofNat] at h
    omega
  subst h24
  refine ⟨M', keccakPermute A, hl, C21_permutation_is_fips202 A, fun k hk => ?_, fun n hn hcl => ?_, fun x hx => ?_⟩
  · refine s'.mem.val .A k _ ?_
    show m.A[k]? = _
    rw [hm, List.getElem?_eq_getElem (by rw [Vector.length_toList]; exact hk), Vector.getElem_toList]
  · refine s'.regs n _ ?_
    rw [hregs n hcl]
    exact map_range_some M.regs hn
  · refine s'.mem.frame x fun b hb j hj => hx b hb j (Nat.lt_of_lt_of_le hj (Nat.le_of_eq ?_))
    cases b with
    | A => show 8 * m.A.length = 200; rw [hm, Vector.length_toList]
    | B => show 8 * m.B.length = 200; rw [hmB]
    | C => show 8 * m.C.length = 80; rw [hmC]
    | c => exact absurd rfl hb

/-- A machine whose arrays lie next to each other on the stack, the constants elsewhere; the state is zero. -/
def startX : X64 where
  regs n := BitVec.ofNat 64 (0xDEAD0 + n)
  ptr
    | .A => 0x7FFFFFFFE100#64
    | .B => 0x7FFFFFFFE1C8#64
    | .C => 0x7FFFFFFFE290#64
    | .c => 0x404020#64
  mem x := if 0x404020 ≤ x.toNat ∧ x.toNat < 0x404020 + 192 then
      elem 8 (X86.constants.getD ((x.toNat - 0x404020) / 8) 0) ((x.toNat - 0x404020) % 8)
    else if 0x7FFFFFFFE1C8 ≤ x.toNat then 0xA5 else 0
  zf := true

theorem startX_loop : ∃ M', X64.Loop X86.body 24 (startX.step (.movImm 24 (.reg 13))) M' ∧
    M'.mem.read 0x7FFFFFFFE100 = 0xF1258F7940E1DDE7 ∧ M'.regs 14 = 0xDEADE ∧ M'.mem 0x404022#64 = startX.mem 0x404022#64 := by
  obtain ⟨M', R, h, hR, hA, hr, hm⟩ := C70_x86_64_manual startX (Vector.replicate 25 0)
    (by
      intro b b' i j hi hj h
      have h := congrArg BitVec.toNat h
      cases b <;> cases b' <;> simp only [X64.size] at hi hj <;>
        simp only [startX, BitVec.toNat_add, BitVec.toNat_ofNat] at h <;>
        first | exact ⟨rfl, by omega⟩ | exact absurd h (by omega))
    (by
      intro k hk
      rw [show (Vector.replicate 25 (0 : BitVec 64))[k] = 0 by simp]
      have : ∀ k : Fin 25, startX.mem.read (startX.ptr .A + BitVec.ofNat 64 (8 * k.1)) = 0 := by decide +kernel
      exact this ⟨k, hk⟩)
    (by
      intro k v hv
      have : ∀ k : Fin 24, some (startX.mem.read (startX.ptr .c + BitVec.ofNat 64 (8 * k.1))) = X86.constants[k.1]? := by
        decide +kernel
      have hk := (List.getElem?_eq_some_iff.1 hv).1
      have := this ⟨k, hk⟩
      rw [hv] at this
      exact Option.some.inj this)
  refine ⟨M', h, ?_, hr 14 (by omega) (by decide), hm _ ?_⟩
  · have h0 := hA 0 (by omega)
    rw [show R = keccakPermute (Vector.replicate 25 0) from
      array_injective (hR.trans (C21_permutation_is_fips202 _).symm)] at h0
    exact h0.trans (by decide +kernel)
  · intro b hb j hj h
    have h := congrArg BitVec.toNat h
    cases b <;> simp only [X64.size] at hj <;> simp only [startX, BitVec.toNat_add, BitVec.toNat_ofNat] at h <;>
      first | exact absurd rfl hb | omega

/-- The number of runs and the result are determined. -/
theorem C70_x86_64_deterministic (p : List X86.Instr) (n k : Nat) (M M1 M2 : X64) (h1 : X64.Loop p n M M1)
    (h2 : X64.Loop p k M M2) : n = k ∧ M1 = M2 := h1.unique h2

/-- Every run of the loop from `startX` leaves it after 24 rounds with the same memory. -/
example (k : Nat) (M2 : X64) (h : X64.Loop X86.body k (startX.step (.movImm 24 (.reg 13))) M2) :
    k = 24 ∧ M2.mem.read 0x7FFFFFFFE100 = 0xF1258F7940E1DDE7 := by
  obtain ⟨M', h', e, -⟩ := startX_loop
  obtain ⟨e1, e2⟩ := C70_x86_64_deterministic _ _ _ _ _ _ h h'
  exact ⟨e1, e2 ▸ e⟩

/-- `xor (A), r0` on a machine with one register and one lane. -/
example (M : X64) (r a : BitVec 64) (hr : M.regs 0 = r) (ha : M.mem.read (M.ptr .A) = a) :
    SimX M.ptr M.mem ⟨[r ^^^ a], [a], [], [], [], 0⟩ (M.step (.xor (.mem .A 0) (.reg 0))) := by
  have h : X86.step (W := BitVec 64) ⟨[r], [a], [], [], [], 0⟩ (.xor (.mem .A 0) (.reg 0)) =
    some ⟨[r ^^^ a], [a], [], [], [], 0⟩ := rfl
  refine C70_x86_64_instructions _ _ _ _ M ⟨fun i v hv => ?_, ⟨?_, ?_, fun _ _ => rfl⟩, fun _ _ => rfl,
    (BitVec.add_zero _).symm⟩ _ h
  · cases i with
    | zero => rw [hr]; simpa using hv
    | succ i => simp at hv
  · intro b b' i j hi hj he
    cases b <;> cases b' <;> simp [arr] at hi hj
    refine ⟨rfl, ?_⟩
    have := congrArg BitVec.toNat ((BitVec.add_right_inj _).1 he)
    simp only [BitVec.toNat_ofNat] at this
    omega
  · intro b k v hv
    cases b with
    | A =>
      cases k with
      | zero =>
        rw [show M.ptr .A + BitVec.ofNat 64 (8 * 0) = M.ptr .A from BitVec.add_zero _, ha]
        simpa [arr] using hv
      | succ k => simp [arr] at hv
    | B => simp [arr] at hv
    | C => simp [arr] at hv
    | c => simp [arr] at hv

/-- C71, the instructions: as long as the model does not fault, every encodable instruction does what the manual says. -/
theorem C71_armv8_instructions (addr : Bool → BitVec 64) (mem0 : Mem) (m m' : Armv8.Machine (BitVec 64)) (M : A64)
    (s : SimA addr mem0 m M) (i : Armv8.Instr) (hi : Encodable i) (h : Armv8.step m i = some m') :
    SimA addr mem0 m' (M.step i) := s.step i hi h

/-- `bic x0, x1, x0` on a machine with two registers. -/
example (M : A64) (a b : BitVec 64) (ha : M.regs 0 = a) (hb : M.regs 1 = b) :
    SimA (fun t => if t then M.A else M.sp) M.mem ⟨[b &&& ~~~a, b], [], [], 32⟩ (M.step (.bic 0 1 0)) := by
  have h : Armv8.step (W := BitVec 64) ⟨[a, b], [], [], 32⟩ (.bic 0 1 0) = some ⟨[b &&& ~~~a, b], [], [], 32⟩ := rfl
  refine C71_armv8_instructions _ _ _ _ M ⟨fun i v hv => ?_, ⟨?_, ?_, fun _ _ => rfl⟩, rfl, rfl⟩ _ trivial h
  · match i, hv with
    | 0, hv => rw [ha]; exact Option.some.inj hv
    | 1, hv => rw [hb]; exact Option.some.inj hv
    | i + 2, hv => simp at hv
  · intro b b' i j hi hj he
    cases b <;> simp [arrA] at hi
  · intro b k v hv
    cases b <;> simp [arrA] at hv

/-- C71 on the machine of the manual. Let the state be anywhere in memory but not in the 32 bytes below the stack pointer;
everything else is arbitrary. Then the program leaves KECCAK-p[1600, 24] of FIPS 202 in the state, the stack pointer and the
registers outside the clobber list have their old values, and so has the memory outside the state and those 32 bytes. -/
theorem C71_armv8_manual (M : A64) (A : Lanes)
    (hinj : ∀ i < 200, ∀ j < 32, M.A + BitVec.ofNat 64 i ≠ M.sp - 32 + BitVec.ofNat 64 j)
    (hA : ∀ k, (h : k < 25) → M.mem.read (M.A + BitVec.ofNat 64 (8 * k)) = A[k]) :
    ∃ R : Lanes, R.array = Keccak.permutation A.array ∧
      (∀ k, (h : k < 25) → (Armv8.program.foldl A64.step M).mem.read (M.A + BitVec.ofNat 64 (8 * k)) = R[k]) ∧
      (Armv8.program.foldl A64.step M).sp = M.sp ∧
      (∀ n < 31, n ∉ Armv8.clobbers → (Armv8.program.foldl A64.step M).regs n = M.regs n) ∧
      ∀ x, (∀ j < 200, x ≠ M.A + BitVec.ofNat 64 j) → (∀ j < 32, x ≠ M.sp - 32 + BitVec.ofNat 64 j) →
        (Armv8.program.foldl A64.step M).mem x = M.mem x := by
  let addr : Bool → BitVec 64 := fun b => if b then M.A else M.sp - 32
  let regs := (List.range 31).map M.regs
  let stack := (List.range 4).map fun k => M.mem.read (M.sp - 32 + BitVec.ofNat 64 (8 * k))
  have hr : regs.length = 31 := by simp [regs]
  have hst : stack.length = 4 := by simp [stack]
  obtain ⟨m, e, hm, hsp, hmr, hms⟩ := Armv8.run_eq regs stack hr hst A
  have hregs := C74_armv8_registers regs stack hr hst A m e
  have small : ∀ (a : BitVec 64) (i j : Nat), i < 200 → j < 200 → a + BitVec.ofNat 64 i = a + BitVec.ofNat 64 j → i = j := by
    intro a i j hi hj h
    have h := congrArg BitVec.toNat ((BitVec.add_right_inj a).1 h)
    rw [BitVec.toNat_ofNat, BitVec.toNat_ofNat] at h
    omega
  have s : SimA addr M.mem ⟨regs, A.toList, stack, 0⟩ M := by
    refine ⟨fun i v hv => (map_range_get hv).2, ⟨?_, ?_, fun _ _ => rfl⟩, rfl, ?_⟩
    · have hs : ∀ b, 8 * (arrA (⟨regs, A.toList, stack, 0⟩ : Armv8.Machine (BitVec 64)) b).length = if b then 200 else 32 := by
        intro b
        cases b with
        | true => show 8 * A.toList.length = 200; rw [Vector.length_toList]
        | false => show 8 * stack.length = 32; rw [hst]
      intro b b' i j hi hj h
      rw [hs] at hi hj
      cases b <;> cases b' <;> simp only [addr, if_true, Bool.false_eq_true, if_false] at hi hj h
      · exact ⟨rfl, small _ i j (by omega) (by omega) h⟩
      · exact absurd h.symm (hinj j hj i hi)
      · exact absurd h (hinj i hi j hj)
      · exact ⟨rfl, small _ i j hi hj h⟩
    · intro b k v hv
      cases b with
      | true =>
        obtain ⟨h1, h2⟩ := List.getElem?_eq_some_iff.1 (show A.toList[k]? = some v from hv)
        rw [Vector.length_toList] at h1
        rw [show addr true = M.A from rfl, hA k h1, ← h2, Vector.getElem_toList]
      | false => exact (map_range_get (f := fun k => M.mem.read (M.sp - 32 + BitVec.ofNat 64 (8 * k))) hv).2
    · show M.sp + 0#64 = M.sp - 32#64 + 32#64
      rw [BitVec.add_zero, BitVec.sub_add_cancel]
  have henc : ∀ i ∈ Armv8.program, Encodable i := by
    have : Armv8.program.all (fun i => match i with
      | .movz _ imm => decide (imm < 2 ^ 16)
      | .movk _ imm sh => decide (imm < 2 ^ 16) && decide (sh + 16 ≤ 64)
      | _ => true) = true := by decide +kernel
    intro i hi
    have h := List.all_eq_true.1 this i hi
    cases i with
    | movz d imm => exact of_decide_eq_true (p := imm < 2 ^ 16) h
    | movk d imm sh =>
      rw [Bool.and_eq_true] at h
      exact ⟨of_decide_eq_true h.1, of_decide_eq_true h.2⟩
    | _ => trivial
  have s' := s.exec Armv8.program henc e
  generalize Armv8.program.foldl A64.step M = M' at s' ⊢
  refine ⟨keccakPermute A, C21_permutation_is_fips202 A, fun k hk => ?_, ?_, fun n hn hcl => ?_, fun x hx1 hx2 => ?_⟩
  · refine s'.mem.val true k _ ?_
    show m.A[k]? = _
    rw [hm, List.getElem?_eq_getElem (by rw [Vector.length_toList]; exact hk), Vector.getElem_toList]
  · have := s'.sp
    rw [hsp] at this
    have h2 : M'.sp + 0#64 = M.sp - 32#64 + 32#64 := this
    rwa [BitVec.add_zero, BitVec.sub_add_cancel] at h2
  · refine s'.regs n _ ?_
    rw [(hregs n hcl).1]
    exact map_range_some M.regs hn
  · refine s'.mem.frame x fun b _ j hj => ?_
    cases b with
    | true => exact hx1 j (by rw [show 8 * (arrA m true).length = 200 by show 8 * m.A.length = 200; rw [hm, Vector.length_toList]] at hj; exact hj)
    | false => exact hx2 j (by rw [show 8 * (arrA m false).length = 32 by show 8 * m.stack.length = 32; rw [hms]] at hj; exact hj)

/-- The state right above the stack pointer. -/
def startA : A64 where
  regs n := BitVec.ofNat 64 (0xDEAD0 + n)
  sp := 0x7FFFFFFFE100
  A := 0x7FFFFFFFE100
  mem x := if 0x7FFFFFFFE100 ≤ x.toNat then 0 else 0xA5

example : (Armv8.program.foldl A64.step startA).mem.read 0x7FFFFFFFE100 = 0xF1258F7940E1DDE7 ∧
    (Armv8.program.foldl A64.step startA).sp = 0x7FFFFFFFE100 := by
  obtain ⟨R, hR, hA, hsp, _⟩ := C71_armv8_manual startA (Vector.replicate 25 0)
    (by
      intro i hi j hj h
      have h := congrArg BitVec.toNat h
      rw [show startA.sp - 32 = 0x7FFFFFFFE0E0#64 from rfl, show startA.A = 0x7FFFFFFFE100#64 from rfl] at h
      simp only [BitVec.toNat_add, BitVec.toNat_ofNat] at h
      omega)
    (by
      intro k hk
      rw [show (Vector.replicate 25 (0 : BitVec 64))[k] = 0 by simp]
      have : ∀ k : Fin 25, startA.mem.read (startA.A + BitVec.ofNat 64 (8 * k.1)) = 0 := by decide +kernel
      exact this ⟨k, hk⟩)
  refine ⟨?_, hsp⟩
  have h0 := hA 0 (by omega)
  rw [show R = keccakPermute (Vector.replicate 25 0) from
    array_injective (hR.trans (C21_permutation_is_fips202 _).symm)] at h0
  exact h0.trans (by decide +kernel)

end Verif.Props
