import Verif.Model.AsmWord
import Verif.Model.Keccak
/-
The ARMv8 assembly version of the Keccak-f[1600] permutation, detail/keccak/keccak_armv8_impl.hpp.
Lane 1 stays in memory at `[A, #8]`, the other lanes are in registers. The operand `%[A]` points at the
state array; 32 bytes below the stack pointer are used as scratch. An access outside the state array or
outside the part of the stack that was taken by `sub sp, sp, #n`, or at an offset that is not a multiple of
eight, is a fault (`none`). No instruction reads or writes the flags.
-/
namespace Verif.Armv8

/-- The instructions used, destination first. `A` is an access relative to `%[A]`, `S` one relative to
`sp`. Registers are `x0`..`x30` by number. -/
inductive Instr
  | ldrA (d off : Nat)
  | strA (s off : Nat)
  | ldrS (d off : Nat)
  | strS (s off : Nat)
  | ldpS (d1 d2 off : Nat)
  | stpS (s1 s2 off : Nat)
  | eor (d a b : Nat)
  /-- `eor d, a, b, ror #k`. -/
  | eorRor (d a b k : Nat)
  | ror (d s k : Nat)
  /-- `bic d, a, b`: `a` and not `b`. -/
  | bic (d a b : Nat)
  | mov (d s : Nat)
  | movz (d imm : Nat)
  /-- `movk d, imm, lsl sh`: replace sixteen bits. -/
  | movk (d imm sh : Nat)
  | subSp (n : Nat)
  | addSp (n : Nat)
  deriving DecidableEq, Repr

/-- The machine: the registers, the state array, the four words below the stack pointer at entry (lowest
address first) and how many bytes the stack pointer is below its value at entry. -/
structure Machine (W : Type) where
  regs : List W
  A : List W
  stack : List W
  sp : Nat

variable {W : Type} [Word W]

def Machine.setReg (m : Machine W) (d : Nat) (w : W) : Option (Machine W) :=
  if d < m.regs.length then some { m with regs := m.regs.set d w } else none

/-- Element of an array at a byte offset. -/
def load (l : List W) (off : Nat) : Option W := if off % 8 = 0 then l[off / 8]? else none

/-- Replace the element of an array at a byte offset. -/
def store (l : List W) (off : Nat) (w : W) : Option (List W) :=
  if off % 8 = 0 ∧ off / 8 < l.length then some (l.set (off / 8) w) else none

/-- The offset of `[sp, #off]` in `stack`; only what is between the stack pointer and its value at entry may
be accessed. -/
def Machine.slot (m : Machine W) (off : Nat) : Option Nat :=
  if off + 8 ≤ m.sp ∧ m.sp ≤ 32 then some (32 - m.sp + off) else none

def Machine.loadS (m : Machine W) (off : Nat) : Option W := (m.slot off).bind fun o => load m.stack o

def Machine.storeS (m : Machine W) (off : Nat) (w : W) : Option (Machine W) :=
  (m.slot off).bind fun o => (store m.stack o w).map fun l => { m with stack := l }

/-- One instruction. -/
def step (m : Machine W) : Instr → Option (Machine W)
  | .ldrA d off => (load m.A off).bind fun x => m.setReg d x
  | .strA s off => (m.regs[s]?).bind fun x => (store m.A off x).map fun l => { m with A := l }
  | .ldrS d off => (m.loadS off).bind fun x => m.setReg d x
  | .strS s off => (m.regs[s]?).bind fun x => m.storeS off x
  | .ldpS d1 d2 off => (m.loadS off).bind fun x => (m.loadS (off + 8)).bind fun y =>
      (m.setReg d1 x).bind fun m => m.setReg d2 y
  | .stpS s1 s2 off => (m.regs[s1]?).bind fun x => (m.regs[s2]?).bind fun y =>
      (m.storeS off x).bind fun m => m.storeS (off + 8) y
  | .eor d a b => (m.regs[a]?).bind fun x => (m.regs[b]?).bind fun y => m.setReg d (Word.xor x y)
  | .eorRor d a b k => (m.regs[a]?).bind fun x => (m.regs[b]?).bind fun y =>
      m.setReg d (Word.xor x (Word.ror k y))
  | .ror d s k => (m.regs[s]?).bind fun x => m.setReg d (Word.ror k x)
  | .bic d a b => (m.regs[a]?).bind fun x => (m.regs[b]?).bind fun y =>
      m.setReg d (Word.and x (Word.not y))
  | .mov d s => (m.regs[s]?).bind fun x => m.setReg d x
  | .movz d imm => m.setReg d (Word.ofNat imm)
  | .movk d imm sh => (m.regs[d]?).bind fun x =>
      m.setReg d (Word.or (Word.and x (Word.not (Word.ofNat (0xFFFF * 2 ^ sh)))) (Word.ofNat (imm * 2 ^ sh)))
  | .subSp n => some { m with sp := m.sp + n }
  | .addSp n => if n ≤ m.sp then some { m with sp := m.sp - n } else none

/-- Straight-line code. -/
def exec : List Instr → Machine W → Option (Machine W)
  | [], m => some m
  | i :: is, m => (step m i).bind (exec is)

/-- The macro `MOVQ(Xn, imm)`, keccak_armv8_impl.hpp:32-36. -/
def movq (d c : Nat) : List Instr :=
  [.movz d (c % 0x10000), .movk d (c / 2 ^ 16 % 0x10000) 16, .movk d (c / 2 ^ 32 % 0x10000) 32,
    .movk d (c / 2 ^ 48 % 0x10000) 48]

/-- Theta, keccak_armv8_impl.hpp:39-107. -/
def theta : List Instr := [
  .subSp 32, .eor 25 0 5, .stpS 4 9 0, .strS 0 16, .ldrA 0 8, .eor 26 0 6, .eor 27 2 7, .eor 28 3 8,
  .eor 4 4 9, .eor 25 25 10, .eor 26 26 11, .eor 27 27 12, .eor 28 28 13, .eor 4 4 14, .eor 25 25 15,
  .eor 26 26 16, .eor 27 27 17, .eor 28 28 30, .eor 4 4 19, .eor 25 25 20, .eor 27 27 22, .eor 26 26 21,
  .eor 28 28 23, .eor 4 4 24, .eorRor 9 25 27 63, .eor 0 0 9, .strA 0 8, .ldrS 0 16, .eor 6 6 9,
  .eor 11 11 9, .eor 16 16 9, .eor 21 21 9, .eorRor 9 26 28 63, .eorRor 27 27 4 63, .eorRor 28 28 25 63,
  .eorRor 4 4 26 63, .eor 26 2 9, .eor 7 7 9, .eor 12 12 9, .eor 17 17 9, .eor 22 22 9, .eor 0 0 4,
  .eor 5 5 4, .eor 10 10 4, .eor 15 15 4, .eor 20 20 4, .ldpS 4 9 0, .eor 25 3 27, .eor 8 8 27,
  .eor 13 13 27, .eor 30 30 27, .eor 23 23 27, .eor 27 4 28, .eor 9 9 28, .eor 14 14 28, .eor 19 19 28,
  .eor 24 24 28, .strS 0 16, .ldrA 0 8]

/-- Rho and pi, keccak_armv8_impl.hpp:108-137. -/
def rhoPi : List Instr := [
  .mov 28 0, .ror 0 6 20, .ror 2 12 21, .ror 3 30 43, .ror 4 24 50, .ror 6 9 44, .ror 12 13 39,
  .ror 30 17 49, .ror 24 21 62, .ror 9 22 3, .ror 13 19 56, .ror 17 11 54, .ror 21 8 9, .ror 22 14 25,
  .ror 19 23 8, .ror 11 7 58, .ror 8 16 19, .ror 14 20 46, .ror 23 15 23, .ror 7 10 61, .ror 16 5 28,
  .ror 5 25 36, .ror 10 28 63, .ror 15 27 37, .ror 20 26 2]

/-- Chi, keccak_armv8_impl.hpp:139-201. -/
def chi : List Instr := [
  .bic 25 2 0, .strA 0 8, .ldrS 0 16, .bic 26 3 2, .strS 2 16, .ldrA 2 8, .bic 27 0 4, .bic 28 2 0,
  .eor 0 0 25, .bic 25 4 3, .eor 2 2 26, .strA 2 8, .ldrS 2 16, .eor 3 3 27, .eor 4 4 28, .eor 2 2 25,
  .bic 25 7 6, .bic 26 8 7, .bic 27 5 9, .bic 28 6 5, .eor 5 5 25, .bic 25 9 8, .eor 6 6 26, .eor 8 8 27,
  .eor 9 9 28, .eor 7 7 25, .bic 25 12 11, .bic 26 13 12, .bic 27 10 14, .bic 28 11 10, .eor 10 10 25,
  .bic 25 14 13, .eor 11 11 26, .eor 13 13 27, .eor 14 14 28, .eor 12 12 25, .bic 25 17 16, .bic 26 30 17,
  .bic 27 15 19, .bic 28 16 15, .eor 15 15 25, .bic 25 19 30, .eor 16 16 26, .eor 30 30 27, .eor 19 19 28,
  .eor 17 17 25, .bic 25 22 21, .bic 26 23 22, .bic 27 20 24, .bic 28 21 20, .eor 20 20 25, .bic 25 24 23,
  .eor 21 21 26, .eor 23 23 27, .eor 24 24 28, .eor 22 22 25]

/-- Iota, after `MOVQ(x25, c)`, and the release of the stack, keccak_armv8_impl.hpp:204-205. -/
def iota : List Instr := [.eor 0 0 25, .addSp 32]

/-- The macro `keccak_1600_armv8_step(c)`, keccak_armv8_impl.hpp:38-205. -/
def round (c : Nat) : List Instr := theta ++ rhoPi ++ chi ++ movq 25 c ++ iota

/-- The loads, keccak_armv8_impl.hpp:234-258. -/
def loads : List Instr := [
  .ldrA 0 0, .ldrA 2 16, .ldrA 3 24, .ldrA 4 32, .ldrA 5 40, .ldrA 6 48, .ldrA 7 56, .ldrA 8 64, .ldrA 9 72,
  .ldrA 10 80, .ldrA 11 88, .ldrA 12 96, .ldrA 13 104, .ldrA 14 112, .ldrA 15 120, .ldrA 16 128,
  .ldrA 17 136, .ldrA 30 144, .ldrA 19 152, .ldrA 20 160, .ldrA 21 168, .ldrA 22 176, .ldrA 23 184,
  .ldrA 24 192]

/-- The stores, keccak_armv8_impl.hpp:285-309. -/
def stores : List Instr := [
  .strA 0 0, .strA 2 16, .strA 3 24, .strA 4 32, .strA 5 40, .strA 6 48, .strA 7 56, .strA 8 64, .strA 9 72,
  .strA 10 80, .strA 11 88, .strA 12 96, .strA 13 104, .strA 14 112, .strA 15 120, .strA 16 128,
  .strA 17 136, .strA 30 144, .strA 19 152, .strA 20 160, .strA 21 168, .strA 22 176, .strA 23 184,
  .strA 24 192]

/-- The arguments of the 24 uses of the macro, keccak_armv8_impl.hpp:260-283. -/
def constants : List Nat := [
  0x0000000000000001, 0x0000000000008082, 0x800000000000808a, 0x8000000080008000, 0x000000000000808b,
  0x0000000080000001, 0x8000000080008081, 0x8000000000008009, 0x000000000000008a, 0x0000000000000088,
  0x0000000080008009, 0x000000008000000a, 0x000000008000808b, 0x800000000000008b, 0x8000000000008089,
  0x8000000000008003, 0x8000000000008002, 0x8000000000000080, 0x000000000000800a, 0x800000008000000a,
  0x8000000080008081, 0x8000000000008080, 0x0000000080000001, 0x8000000080008008]

/-- `permute`, keccak_armv8_impl.hpp:232-316. -/
def program : List Instr := loads ++ constants.flatMap round ++ stores

/-- The run of the program. The registers and the words below the stack pointer hold whatever they held
before. -/
def run (regs stack : List (BitVec 64)) (A : Lanes) : Option (Machine (BitVec 64)) :=
  exec program ⟨regs, A.toList, stack, 0⟩

/-- The numbers of the registers of the clobber list, keccak_armv8_impl.hpp:312-315. -/
def clobbers : List Nat := [
  25, 26, 27, 28, 0, 2, 3, 4, 5, 6, 7, 8, 9, 10, 11, 12, 13, 14, 15, 16, 17, 30, 19, 20, 21, 22, 23, 24]

end Verif.Armv8
