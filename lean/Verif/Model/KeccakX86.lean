import Verif.Model.AsmWord
import Verif.Model.Keccak
/-
The x86-64 assembly version of the Keccak-f[1600] permutation, detail/keccak/keccak_x86_64_impl.hpp. It is
the version that a 64-bit x86 build uses unless `CRYPTO3_HAS_AVX2` or `CRYPTO3_HAS_AVX512` is defined
(detail/keccak/keccak_functions.hpp:59-73).
The operands `%[A]`, `%[B]`, `%[C]`, `%[c]` point at four distinct arrays of 64-bit words. An access
outside an array, or at an offset that is not a multiple of eight, is a fault (`none`).
The flags are not part of the state: the only instruction that reads them is `jnz`, directly after `dec`.
-/
namespace Verif.X86

/-- The array an address is relative to. -/
inductive Base | A | B | C | c
  deriving DecidableEq, Repr

/-- An operand: a register `r8`..`r15` by number, or `off(base)`. -/
inductive Operand
  | reg (n : Nat)
  | mem (b : Base) (off : Nat)
  deriving DecidableEq, Repr

/-- The instructions used, source operand first (AT&T order). -/
inductive Instr
  | movImm (imm : Nat) (d : Operand)
  | mov (s d : Operand)
  | xor (s d : Operand)
  | and (s d : Operand)
  | not (d : Operand)
  | rol (k : Nat) (d : Operand)
  | dec (d : Operand)
  /-- `lea off(%[c]), %[c]`. -/
  | lea (off : Nat)
  deriving DecidableEq, Repr

/-- The machine: sixteen registers, the state array `A`, the local arrays `B` and `C`
(keccak_x86_64_impl.hpp:58-59), the table of round constants and the offset in bytes of `%[c]` from the
start of that table. -/
structure Machine (W : Type) where
  regs : List W
  A : List W
  B : List W
  C : List W
  consts : List W
  pos : Nat

variable {W : Type} [Word W]

/-- Element of an array at a byte offset. -/
def load (l : List W) (off : Nat) : Option W := if off % 8 = 0 then l[off / 8]? else none

/-- Replace the element of an array at a byte offset. -/
def store (l : List W) (off : Nat) (w : W) : Option (List W) :=
  if off % 8 = 0 ∧ off / 8 < l.length then some (l.set (off / 8) w) else none

def Machine.read (m : Machine W) : Operand → Option W
  | .reg n => m.regs[n]?
  | .mem .A off => load m.A off
  | .mem .B off => load m.B off
  | .mem .C off => load m.C off
  | .mem .c off => load m.consts (m.pos + off)

/-- The table of constants is read only. -/
def Machine.write (m : Machine W) (w : W) : Operand → Option (Machine W)
  | .reg n => if n < m.regs.length then some { m with regs := m.regs.set n w } else none
  | .mem .A off => (store m.A off w).map fun l => { m with A := l }
  | .mem .B off => (store m.B off w).map fun l => { m with B := l }
  | .mem .C off => (store m.C off w).map fun l => { m with C := l }
  | .mem .c _ => none

/-- One instruction. -/
def step (m : Machine W) : Instr → Option (Machine W)
  | .movImm imm d => m.write (Word.ofNat imm) d
  | .mov s d => (m.read s).bind fun x => m.write x d
  | .xor s d => (m.read s).bind fun x => (m.read d).bind fun y => m.write (Word.xor y x) d
  | .and s d => (m.read s).bind fun x => (m.read d).bind fun y => m.write (Word.and y x) d
  | .not d => (m.read d).bind fun y => m.write (Word.not y) d
  | .rol k d => (m.read d).bind fun y => m.write (Word.rol k y) d
  | .dec d => (m.read d).bind fun y => m.write (Word.sub y (Word.ofNat 1)) d
  | .lea off => some { m with pos := m.pos + off }

/-- Straight-line code. -/
def exec : List Instr → Machine W → Option (Machine W)
  | [], m => some m
  | i :: is, m => (step m i).bind (exec is)

/-- The column parities, keccak_x86_64_impl.hpp:64-102. -/
def columns : List Instr := [
  .mov (.mem .A 0) (.reg 15), .xor (.mem .A 40) (.reg 15), .xor (.mem .A 80) (.reg 15),
  .xor (.mem .A 120) (.reg 15), .xor (.mem .A 160) (.reg 15), .mov (.reg 15) (.mem .C 0),
  .mov (.reg 15) (.reg 8), .mov (.mem .A 8) (.reg 15), .xor (.mem .A 48) (.reg 15),
  .xor (.mem .A 88) (.reg 15), .xor (.mem .A 128) (.reg 15), .xor (.mem .A 168) (.reg 15),
  .mov (.reg 15) (.mem .C 8), .mov (.reg 15) (.reg 9), .mov (.mem .A 16) (.reg 15),
  .xor (.mem .A 56) (.reg 15), .xor (.mem .A 96) (.reg 15), .xor (.mem .A 136) (.reg 15),
  .xor (.mem .A 176) (.reg 15), .mov (.reg 15) (.mem .C 16), .mov (.reg 15) (.reg 10),
  .mov (.mem .A 24) (.reg 15), .xor (.mem .A 64) (.reg 15), .xor (.mem .A 104) (.reg 15),
  .xor (.mem .A 144) (.reg 15), .xor (.mem .A 184) (.reg 15), .mov (.reg 15) (.mem .C 24),
  .mov (.reg 15) (.reg 11), .mov (.mem .A 32) (.reg 15), .xor (.mem .A 72) (.reg 15),
  .xor (.mem .A 112) (.reg 15), .xor (.mem .A 152) (.reg 15), .xor (.mem .A 192) (.reg 15),
  .mov (.reg 15) (.mem .C 32), .mov (.reg 15) (.reg 12)]

/-- The words `D`, keccak_x86_64_impl.hpp:104-113. -/
def dWords : List Instr := [
  .rol 1 (.reg 8), .xor (.mem .C 24) (.reg 8), .rol 1 (.reg 9), .xor (.mem .C 32) (.reg 9), .rol 1 (.reg 10),
  .xor (.mem .C 0) (.reg 10), .rol 1 (.reg 11), .xor (.mem .C 8) (.reg 11), .rol 1 (.reg 12),
  .xor (.mem .C 16) (.reg 12)]

/-- Theta, rho and pi into `B`, keccak_x86_64_impl.hpp:115-242. -/
def rhoPi : List Instr := [
  .mov (.mem .A 0) (.reg 15), .xor (.reg 9) (.reg 15), .rol 0 (.reg 15), .mov (.reg 15) (.mem .B 0),
  .mov (.mem .A 8) (.reg 15), .xor (.reg 10) (.reg 15), .rol 1 (.reg 15), .mov (.reg 15) (.mem .B 80),
  .mov (.mem .A 16) (.reg 15), .xor (.reg 11) (.reg 15), .rol 62 (.reg 15), .mov (.reg 15) (.mem .B 160),
  .mov (.mem .A 24) (.reg 15), .xor (.reg 12) (.reg 15), .rol 28 (.reg 15), .mov (.reg 15) (.mem .B 40),
  .mov (.mem .A 32) (.reg 15), .xor (.reg 8) (.reg 15), .rol 27 (.reg 15), .mov (.reg 15) (.mem .B 120),
  .mov (.mem .A 40) (.reg 15), .xor (.reg 9) (.reg 15), .rol 36 (.reg 15), .mov (.reg 15) (.mem .B 128),
  .mov (.mem .A 48) (.reg 15), .xor (.reg 10) (.reg 15), .rol 44 (.reg 15), .mov (.reg 15) (.mem .B 8),
  .mov (.mem .A 56) (.reg 15), .xor (.reg 11) (.reg 15), .rol 6 (.reg 15), .mov (.reg 15) (.mem .B 88),
  .mov (.mem .A 64) (.reg 15), .xor (.reg 12) (.reg 15), .rol 55 (.reg 15), .mov (.reg 15) (.mem .B 168),
  .mov (.mem .A 72) (.reg 15), .xor (.reg 8) (.reg 15), .rol 20 (.reg 15), .mov (.reg 15) (.mem .B 48),
  .mov (.mem .A 80) (.reg 15), .xor (.reg 9) (.reg 15), .rol 3 (.reg 15), .mov (.reg 15) (.mem .B 56),
  .mov (.mem .A 88) (.reg 15), .xor (.reg 10) (.reg 15), .rol 10 (.reg 15), .mov (.reg 15) (.mem .B 136),
  .mov (.mem .A 96) (.reg 15), .xor (.reg 11) (.reg 15), .rol 43 (.reg 15), .mov (.reg 15) (.mem .B 16),
  .mov (.mem .A 104) (.reg 15), .xor (.reg 12) (.reg 15), .rol 25 (.reg 15), .mov (.reg 15) (.mem .B 96),
  .mov (.mem .A 112) (.reg 15), .xor (.reg 8) (.reg 15), .rol 39 (.reg 15), .mov (.reg 15) (.mem .B 176),
  .mov (.mem .A 120) (.reg 15), .xor (.reg 9) (.reg 15), .rol 41 (.reg 15), .mov (.reg 15) (.mem .B 184),
  .mov (.mem .A 128) (.reg 15), .xor (.reg 10) (.reg 15), .rol 45 (.reg 15), .mov (.reg 15) (.mem .B 64),
  .mov (.mem .A 136) (.reg 15), .xor (.reg 11) (.reg 15), .rol 15 (.reg 15), .mov (.reg 15) (.mem .B 144),
  .mov (.mem .A 144) (.reg 15), .xor (.reg 12) (.reg 15), .rol 21 (.reg 15), .mov (.reg 15) (.mem .B 24),
  .mov (.mem .A 152) (.reg 15), .xor (.reg 8) (.reg 15), .rol 8 (.reg 15), .mov (.reg 15) (.mem .B 104),
  .mov (.mem .A 160) (.reg 15), .xor (.reg 9) (.reg 15), .rol 18 (.reg 15), .mov (.reg 15) (.mem .B 112),
  .mov (.mem .A 168) (.reg 15), .xor (.reg 10) (.reg 15), .rol 2 (.reg 15), .mov (.reg 15) (.mem .B 192),
  .mov (.mem .A 176) (.reg 15), .xor (.reg 11) (.reg 15), .rol 61 (.reg 15), .mov (.reg 15) (.mem .B 72),
  .mov (.mem .A 184) (.reg 15), .xor (.reg 12) (.reg 15), .rol 56 (.reg 15), .mov (.reg 15) (.mem .B 152),
  .mov (.mem .A 192) (.reg 15), .xor (.reg 8) (.reg 15), .rol 14 (.reg 15), .mov (.reg 15) (.mem .B 32)]

/-- Chi and iota, back into `A`, keccak_x86_64_impl.hpp:245-394. -/
def chi : List Instr := [
  .mov (.mem .B 8) (.reg 15), .not (.reg 15), .and (.mem .B 16) (.reg 15), .xor (.mem .B 0) (.reg 15),
  .xor (.mem .c 0) (.reg 15), .mov (.reg 15) (.mem .A 0), .mov (.mem .B 16) (.reg 15), .not (.reg 15),
  .and (.mem .B 24) (.reg 15), .xor (.mem .B 8) (.reg 15), .mov (.reg 15) (.mem .A 8),
  .mov (.mem .B 24) (.reg 15), .not (.reg 15), .and (.mem .B 32) (.reg 15), .xor (.mem .B 16) (.reg 15),
  .mov (.reg 15) (.mem .A 16), .mov (.mem .B 32) (.reg 15), .not (.reg 15), .and (.mem .B 0) (.reg 15),
  .xor (.mem .B 24) (.reg 15), .mov (.reg 15) (.mem .A 24), .mov (.mem .B 0) (.reg 15), .not (.reg 15),
  .and (.mem .B 8) (.reg 15), .xor (.mem .B 32) (.reg 15), .mov (.reg 15) (.mem .A 32),
  .mov (.mem .B 48) (.reg 15), .not (.reg 15), .and (.mem .B 56) (.reg 15), .xor (.mem .B 40) (.reg 15),
  .mov (.reg 15) (.mem .A 40), .mov (.mem .B 56) (.reg 15), .not (.reg 15), .and (.mem .B 64) (.reg 15),
  .xor (.mem .B 48) (.reg 15), .mov (.reg 15) (.mem .A 48), .mov (.mem .B 64) (.reg 15), .not (.reg 15),
  .and (.mem .B 72) (.reg 15), .xor (.mem .B 56) (.reg 15), .mov (.reg 15) (.mem .A 56),
  .mov (.mem .B 72) (.reg 15), .not (.reg 15), .and (.mem .B 40) (.reg 15), .xor (.mem .B 64) (.reg 15),
  .mov (.reg 15) (.mem .A 64), .mov (.mem .B 40) (.reg 15), .not (.reg 15), .and (.mem .B 48) (.reg 15),
  .xor (.mem .B 72) (.reg 15), .mov (.reg 15) (.mem .A 72), .mov (.mem .B 88) (.reg 15), .not (.reg 15),
  .and (.mem .B 96) (.reg 15), .xor (.mem .B 80) (.reg 15), .mov (.reg 15) (.mem .A 80),
  .mov (.mem .B 96) (.reg 15), .not (.reg 15), .and (.mem .B 104) (.reg 15), .xor (.mem .B 88) (.reg 15),
  .mov (.reg 15) (.mem .A 88), .mov (.mem .B 104) (.reg 15), .not (.reg 15), .and (.mem .B 112) (.reg 15),
  .xor (.mem .B 96) (.reg 15), .mov (.reg 15) (.mem .A 96), .mov (.mem .B 112) (.reg 15), .not (.reg 15),
  .and (.mem .B 80) (.reg 15), .xor (.mem .B 104) (.reg 15), .mov (.reg 15) (.mem .A 104),
  .mov (.mem .B 80) (.reg 15), .not (.reg 15), .and (.mem .B 88) (.reg 15), .xor (.mem .B 112) (.reg 15),
  .mov (.reg 15) (.mem .A 112), .mov (.mem .B 128) (.reg 15), .not (.reg 15), .and (.mem .B 136) (.reg 15),
  .xor (.mem .B 120) (.reg 15), .mov (.reg 15) (.mem .A 120), .mov (.mem .B 136) (.reg 15), .not (.reg 15),
  .and (.mem .B 144) (.reg 15), .xor (.mem .B 128) (.reg 15), .mov (.reg 15) (.mem .A 128),
  .mov (.mem .B 144) (.reg 15), .not (.reg 15), .and (.mem .B 152) (.reg 15), .xor (.mem .B 136) (.reg 15),
  .mov (.reg 15) (.mem .A 136), .mov (.mem .B 152) (.reg 15), .not (.reg 15), .and (.mem .B 120) (.reg 15),
  .xor (.mem .B 144) (.reg 15), .mov (.reg 15) (.mem .A 144), .mov (.mem .B 120) (.reg 15), .not (.reg 15),
  .and (.mem .B 128) (.reg 15), .xor (.mem .B 152) (.reg 15), .mov (.reg 15) (.mem .A 152),
  .mov (.mem .B 168) (.reg 15), .not (.reg 15), .and (.mem .B 176) (.reg 15), .xor (.mem .B 160) (.reg 15),
  .mov (.reg 15) (.mem .A 160), .mov (.mem .B 176) (.reg 15), .not (.reg 15), .and (.mem .B 184) (.reg 15),
  .xor (.mem .B 168) (.reg 15), .mov (.reg 15) (.mem .A 168), .mov (.mem .B 184) (.reg 15), .not (.reg 15),
  .and (.mem .B 192) (.reg 15), .xor (.mem .B 176) (.reg 15), .mov (.reg 15) (.mem .A 176),
  .mov (.mem .B 192) (.reg 15), .not (.reg 15), .and (.mem .B 160) (.reg 15), .xor (.mem .B 184) (.reg 15),
  .mov (.reg 15) (.mem .A 184), .mov (.mem .B 160) (.reg 15), .not (.reg 15), .and (.mem .B 168) (.reg 15),
  .xor (.mem .B 192) (.reg 15), .mov (.reg 15) (.mem .A 192)]

/-- The end of the loop body, keccak_x86_64_impl.hpp:397-398. -/
def next : List Instr := [
  .lea 8, .dec (.reg 13)]

/-- The body of the loop from the label `1:` to `dec`, keccak_x86_64_impl.hpp:62-398. -/
def body : List Instr := columns ++ dWords ++ rhoPi ++ chi ++ next

/-- The loop: the body, then `jnz 1b` jumps back unless `dec` produced zero
(keccak_x86_64_impl.hpp:398-399). Running out of fuel is `none`. -/
def loop : Nat → Machine (BitVec 64) → Option (Machine (BitVec 64))
  | 0, _ => none
  | fuel + 1, m =>
    (exec body m).bind fun m => (m.read (.reg 13)).bind fun r => if r = 0 then some m else loop fuel m

/-- `round_constants`, keccak_x86_64_impl.hpp:46-55. -/
def constants : List (BitVec 64) := [
  0x0000000000000001, 0x0000000000008082, 0x800000000000808a, 0x8000000080008000, 0x000000000000808b,
  0x0000000080000001, 0x8000000080008081, 0x8000000000008009, 0x000000000000008a, 0x0000000000000088,
  0x0000000080008009, 0x000000008000000a, 0x000000008000808b, 0x800000000000008b, 0x8000000000008089,
  0x8000000000008003, 0x8000000000008002, 0x8000000000000080, 0x000000000000800a, 0x800000008000000a,
  0x8000000080008081, 0x8000000000008080, 0x0000000080000001, 0x8000000080008008]

/-- `permute`, keccak_x86_64_impl.hpp:57-408: `mov $24, %%r13` and the loop. `B`, `C` and the registers hold
whatever they held before; `%[c]` starts at the beginning of `round_constants`. -/
def run (fuel : Nat) (regs B C : List (BitVec 64)) (A : Lanes) : Option (Machine (BitVec 64)) :=
  (step ⟨regs, A.toList, B, C, constants, 0⟩ (.movImm 24 (.reg 13))).bind (loop fuel)

/-- The numbers of the registers of the clobber list, keccak_x86_64_impl.hpp:403-405. -/
def clobbers : List Nat := [8, 9, 10, 11, 12, 13, 15]

end Verif.X86
