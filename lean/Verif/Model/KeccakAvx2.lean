import Verif.Model.AsmWord
import Verif.Model.Keccak
/-
The AVX2 assembly version of the Keccak-f[1600] permutation, detail/keccak/keccak_avx2_impl.hpp, used when
`CRYPTO3_HAS_AVX2` is defined. A 256-bit register is four 64-bit elements. The instructions on 32-bit
elements (`vpshufd`, `vpblendd`) and the byte shift (`vpsrldq`) are modelled for the immediate operands that
move whole 64-bit elements; for another immediate the model faults (`none`).
The flags are not part of the state: the only instruction that reads them is `jnz`, directly after `dec`.
-/
namespace Verif.Avx2

/-- The four elements of a register, lowest first. -/
structure V4 (W : Type) where
  e0 : W
  e1 : W
  e2 : W
  e3 : W
  deriving DecidableEq, Repr

namespace V4
variable {W V U : Type}

def zip (f : W → V → U) (a : V4 W) (b : V4 V) : V4 U := ⟨f a.e0 b.e0, f a.e1 b.e1, f a.e2 b.e2, f a.e3 b.e3⟩

def map (f : W → V) (a : V4 W) : V4 V := ⟨f a.e0, f a.e1, f a.e2, f a.e3⟩

/-- Element number `i % 4`. -/
def get (a : V4 W) (i : Nat) : W :=
  match i % 4 with
  | 0 => a.e0
  | 1 => a.e1
  | 2 => a.e2
  | _ => a.e3

/-- `vpermq`: element `i` of the result is selected by bits `2i`, `2i + 1` of the immediate. -/
def perm (imm : Nat) (a : V4 W) : V4 W := ⟨a.get imm, a.get (imm / 4), a.get (imm / 16), a.get (imm / 64)⟩

/-- `vpshufd` permutes the 32-bit elements of each half; with immediate `01001110` it swaps the two 64-bit
elements of each half. -/
def shufd (imm : Nat) (a : V4 W) : Option (V4 W) :=
  if imm = 0b01001110 then some ⟨a.e1, a.e0, a.e3, a.e2⟩ else none

/-- One element of `vpblendd`: the two bits of the immediate for its 32-bit halves must agree. -/
def blend1 (bits : Nat) (x y : W) : Option W :=
  if bits % 4 = 3 then some x else if bits % 4 = 0 then some y else none

/-- `vpblendd`: `x` where the bit of the immediate is set, otherwise `y`. -/
def blend (imm : Nat) (x y : V4 W) : Option (V4 W) :=
  (blend1 imm x.e0 y.e0).bind fun a => (blend1 (imm / 4) x.e1 y.e1).bind fun b =>
    (blend1 (imm / 16) x.e2 y.e2).bind fun c => (blend1 (imm / 64) x.e3 y.e3).map fun d => ⟨a, b, c, d⟩

end V4

/-- The instructions used, source operands first (AT&T order). Registers are `ymm0`..`ymm15` by number. -/
inductive Instr
  | vpxor (a b d : Nat)
  | vpor (a b d : Nat)
  | vpaddq (a b d : Nat)
  /-- `vpandn a, b, d`: not `b`, and `a`. -/
  | vpandn (a b d : Nat)
  | vpshufd (imm s d : Nat)
  | vpermq (imm s d : Nat)
  /-- `vpblendd imm, a, b, d`: `a` where the bit is set. -/
  | vpblendd (imm a b d : Nat)
  | vpsrlq (k s d : Nat)
  /-- Shift each half right by `k` bytes. -/
  | vpsrldq (k s d : Nat)
  /-- `vpsllvq off(%r8), s, d`: shift element by element; `r8` holds the address of `rho_l`. -/
  | vpsllvq (off s d : Nat)
  /-- `vpsrlvq off(%r9), s, d`; `r9` holds the address of `rho_r`. -/
  | vpsrlvq (off s d : Nat)
  /-- `vpxor (%r10), s, d`. -/
  | vpxorC (s d : Nat)
  /-- `lea n(%r10), %r10`. -/
  | lea (n : Nat)
  deriving DecidableEq, Repr

/-- `rho_l`, keccak_avx2_impl.hpp:109-114. -/
def rhoL : List (V4 Nat) := [
  ⟨3, 18, 36, 41⟩, ⟨1, 62, 28, 27⟩, ⟨45, 6, 56, 39⟩, ⟨10, 61, 55, 8⟩, ⟨2, 15, 25, 20⟩, ⟨44, 43, 21, 14⟩]

/-- `rho_r`, keccak_avx2_impl.hpp:116-122 (`word_bits` is 64). -/
def rhoR : List (V4 Nat) := [
  ⟨64 - 3, 64 - 18, 64 - 36, 64 - 41⟩, ⟨64 - 1, 64 - 62, 64 - 28, 64 - 27⟩,
  ⟨64 - 45, 64 - 6, 64 - 56, 64 - 39⟩, ⟨64 - 10, 64 - 61, 64 - 55, 64 - 8⟩,
  ⟨64 - 2, 64 - 15, 64 - 25, 64 - 20⟩, ⟨64 - 44, 64 - 43, 64 - 21, 64 - 14⟩]

/-- The machine: the registers, the table of vectors of constants and the offset in bytes of `r10` from its
start. -/
structure Machine (W : Type) where
  ymm : List (V4 W)
  consts : List (V4 W)
  pos : Nat

/-- Element of an array of vectors at a byte offset. -/
def load {X : Type} (l : List X) (off : Nat) : Option X := if off % 32 = 0 then l[off / 32]? else none

variable {W : Type} [Word W]

def Machine.set (m : Machine W) (d : Nat) (v : V4 W) : Option (Machine W) :=
  if d < m.ymm.length then some { m with ymm := m.ymm.set d v } else none

/-- An instruction with two register operands. -/
def Machine.bin (m : Machine W) (f : W → W → W) (a b d : Nat) : Option (Machine W) :=
  (m.ymm[a]?).bind fun x => (m.ymm[b]?).bind fun y => m.set d (V4.zip f x y)

/-- One instruction. -/
def step (m : Machine W) : Instr → Option (Machine W)
  | .vpxor a b d => m.bin (fun x y => Word.xor y x) a b d
  | .vpor a b d => m.bin (fun x y => Word.or y x) a b d
  | .vpaddq a b d => m.bin (fun x y => Word.add y x) a b d
  | .vpandn a b d => m.bin (fun x y => Word.and (Word.not y) x) a b d
  | .vpshufd imm s d => (m.ymm[s]?).bind fun x => (x.shufd imm).bind fun v => m.set d v
  | .vpermq imm s d => (m.ymm[s]?).bind fun x => m.set d (x.perm imm)
  | .vpblendd imm a b d => (m.ymm[a]?).bind fun x => (m.ymm[b]?).bind fun y =>
      (V4.blend imm x y).bind fun v => m.set d v
  | .vpsrlq k s d => (m.ymm[s]?).bind fun x => m.set d (x.map (Word.shr k))
  | .vpsrldq k s d => if k = 8 then (m.ymm[s]?).bind fun x =>
      m.set d ⟨x.e1, Word.ofNat 0, x.e3, Word.ofNat 0⟩ else none
  | .vpsllvq off s d => (load rhoL off).bind fun n => (m.ymm[s]?).bind fun x =>
      m.set d (V4.zip Word.shl n x)
  | .vpsrlvq off s d => (load rhoR off).bind fun n => (m.ymm[s]?).bind fun x =>
      m.set d (V4.zip Word.shr n x)
  | .vpxorC s d => (load m.consts m.pos).bind fun c => (m.ymm[s]?).bind fun x =>
      m.set d (V4.zip Word.xor x c)
  | .lea n => some { m with pos := m.pos + n }

/-- Straight-line code. -/
def exec : List Instr → Machine W → Option (Machine W)
  | [], m => some m
  | i :: is, m => (step m i).bind (exec is)

/-- Theta, keccak_avx2_impl.hpp:142-183. -/
def theta : List Instr := [
  .vpshufd 0b01001110 2 13, .vpxor 3 5 12, .vpxor 6 4 9, .vpxor 1 12 12, .vpxor 9 12 12,
  .vpermq 0b10010011 12 11, .vpxor 2 13 13, .vpermq 0b01001110 13 7, .vpsrlq 63 12 8, .vpaddq 12 12 9,
  .vpor 9 8 8, .vpermq 0b00111001 8 15, .vpxor 11 8 14, .vpermq 0b00000000 14 14, .vpxor 0 13 13,
  .vpxor 7 13 13, .vpsrlq 63 13 7, .vpaddq 13 13 8, .vpor 7 8 8, .vpblendd 0b11000000 8 15 15,
  .vpblendd 0b00000011 13 11 11, .vpxor 11 15 15, .vpxor 14 0 0, .vpxor 15 1 1, .vpxor 14 2 2, .vpxor 15 3 3,
  .vpxor 15 4 4, .vpxor 15 5 5, .vpxor 15 6 6]

/-- Rho, keccak_avx2_impl.hpp:186-208. -/
def rho : List Instr := [
  .vpsllvq 0 2 10, .vpsrlvq 0 2 2, .vpor 10 2 2, .vpsllvq 32 1 10, .vpsrlvq 32 1 9, .vpor 10 9 9,
  .vpsllvq 64 3 10, .vpsrlvq 64 3 3, .vpor 10 3 3, .vpsllvq 96 4 10, .vpsrlvq 96 4 4, .vpor 10 4 4,
  .vpsllvq 128 5 10, .vpsrlvq 128 5 5, .vpor 10 5 5, .vpsllvq 160 6 10, .vpsrlvq 160 6 8, .vpor 10 8 8]

/-- Pi and chi, keccak_avx2_impl.hpp:211-286. -/
def piChi : List Instr := [
  .vpermq 0b10001101 2 10, .vpermq 0b10001101 3 11, .vpermq 0b00011011 4 12, .vpermq 0b01110010 5 13,
  .vpsrldq 8 8 14, .vpandn 14 8 7, .vpblendd 0b00001100 9 11 15, .vpblendd 0b00110000 12 15 15,
  .vpblendd 0b11000000 13 15 15, .vpblendd 0b00001100 10 9 14, .vpblendd 0b00110000 13 14 14,
  .vpblendd 0b11000000 11 14 14, .vpblendd 0b00001100 13 9 3, .vpblendd 0b00110000 11 3 3,
  .vpblendd 0b11000000 12 3 3, .vpblendd 0b00001100 11 10 5, .vpblendd 0b00110000 9 5 5,
  .vpblendd 0b11000000 13 5 5, .vpandn 14 5 5, .vpandn 15 3 3, .vpblendd 0b00001100 9 12 6,
  .vpblendd 0b00110000 10 6 6, .vpblendd 0b11000000 11 6 6, .vpblendd 0b00001100 12 10 15,
  .vpblendd 0b00110000 11 15 15, .vpblendd 0b11000000 9 15 15, .vpandn 15 6 6, .vpxor 13 6 6,
  .vpermq 0b00011110 8 4, .vpblendd 0b00110000 0 4 15, .vpermq 0b00111001 8 1, .vpblendd 0b11000000 0 1 1,
  .vpandn 15 1 1, .vpblendd 0b00001100 12 11 2, .vpblendd 0b00110000 13 2 2, .vpblendd 0b11000000 10 2 2,
  .vpblendd 0b00001100 11 13 14, .vpblendd 0b00110000 10 14 14, .vpblendd 0b11000000 12 14 14,
  .vpandn 14 2 2, .vpblendd 0b00001100 10 13 4, .vpblendd 0b00110000 12 4 4, .vpblendd 0b11000000 9 4 4,
  .vpblendd 0b00001100 13 12 14, .vpblendd 0b00110000 9 14 14, .vpblendd 0b11000000 10 14 14, .vpandn 14 4 4,
  .vpxor 9 2 2, .vpxor 10 3 3, .vpxor 12 5 5, .vpermq 0b00000000 7 7, .vpermq 0b00011011 3 3,
  .vpermq 0b10001101 5 5, .vpermq 0b01110010 6 6, .vpxor 7 0 0, .vpxor 8 1 1, .vpxor 11 4 4]

/-- Iota and the pointer to the constants, keccak_avx2_impl.hpp:289-290. -/
def iota : List Instr := [
  .vpxorC 0 0, .lea 32]

/-- The body of the loop from the label `1:` up to `dec`, keccak_avx2_impl.hpp:140-290. -/
def body : List Instr := theta ++ rho ++ piChi ++ iota

/-- The loop: the body, `dec %%rbx`, and `jnz 1b` jumps back unless `dec` produced zero
(keccak_avx2_impl.hpp:292-293). Running out of fuel is `none`. -/
def loop : Nat → BitVec 64 → Machine (BitVec 64) → Option (Machine (BitVec 64))
  | 0, _, _ => none
  | fuel + 1, rbx, m =>
    (exec body m).bind fun m => if rbx - 1 = 0 then some m else loop fuel (rbx - 1) m

/-- `round_constants`, keccak_avx2_impl.hpp:49-57. -/
def constants : List (BitVec 64) := [
  0x0000000000000001, 0x0000000000008082, 0x800000000000808a, 0x8000000080008000, 0x000000000000808b,
  0x0000000080000001, 0x8000000080008081, 0x8000000000008009, 0x000000000000008a, 0x0000000000000088,
  0x0000000080008009, 0x000000008000000a, 0x000000008000808b, 0x800000000000008b, 0x8000000000008089,
  0x8000000000008003, 0x8000000000008002, 0x8000000000000080, 0x000000000000800a, 0x800000008000000a,
  0x8000000080008081, 0x8000000000008080, 0x0000000080000001, 0x8000000080008008]

/-- `round_constants_v`: each constant four times, keccak_avx2_impl.hpp:59-107. -/
def constantsV : List (V4 (BitVec 64)) := constants.map fun c => ⟨c, c, c, c⟩

/-- The registers `ymm0`..`ymm6` filled with `_mm256_set_epi64x` (whose first argument is element 3),
keccak_avx2_impl.hpp:126-132. -/
def pack (a : Nat → W) : List (V4 W) :=
  [⟨a 0, a 0, a 0, a 0⟩,
   ⟨a 1, a 2, a 3, a 4⟩,
   ⟨a 10, a 20, a 5, a 15⟩,
   ⟨a 16, a 7, a 23, a 14⟩,
   ⟨a 11, a 22, a 8, a 19⟩,
   ⟨a 21, a 17, a 13, a 9⟩,
   ⟨a 6, a 12, a 18, a 24⟩]

/-- The assignments after the assembly, keccak_avx2_impl.hpp:305-329: register and element of each lane. -/
def outputs : List (Nat × Nat) := [
  (0, 0), (1, 0), (1, 1), (1, 2), (1, 3), (2, 2), (6, 0), (3, 1), (4, 2), (5, 3), (2, 0), (4, 0), (6, 1),
  (5, 2), (3, 3), (2, 3), (3, 0), (5, 1), (6, 2), (4, 3), (2, 1), (5, 0), (4, 1), (3, 2), (6, 3)]

/-- `permute`, keccak_avx2_impl.hpp:124-330. The registers `ymm7`..`ymm15` hold whatever they held before. -/
def run (fuel : Nat) (rest : List (V4 (BitVec 64))) (A : Lanes) : Option (List (BitVec 64)) :=
  (loop fuel 24 ⟨pack (fun i => A.toList.getD i 0) ++ rest, constantsV, 0⟩).bind fun m =>
    outputs.mapM fun o => (m.ymm[o.1]?).map fun v => v.get o.2

/-- The four instructions before the loop, keccak_avx2_impl.hpp:135-138, on the
general-purpose registers by number (`rbx` is 3): `lea %[rho_l], %%r8`, `lea %[rho_r], %%r9`,
`lea %[c], %%r10`, `movq %[rounds], %%rbx`. `rounds` is the register that the compiler chose for the input
operand `[rounds]`, which it has loaded with 24. -/
def prologue (rounds : Nat) (rhoL rhoR c : BitVec 64) (g : Nat → BitVec 64) : Nat → BitVec 64 :=
  let g8 : Nat → BitVec 64 := fun n => if n = 8 then rhoL else g n
  let g9 : Nat → BitVec 64 := fun n => if n = 9 then rhoR else g8 n
  let g10 : Nat → BitVec 64 := fun n => if n = 10 then c else g9 n
  fun n => if n = 3 then g10 rounds else g10 n

/-- The general-purpose registers of the clobber list, keccak_avx2_impl.hpp:299-302: `rbx` only. -/
def gprClobbers : List Nat := [3]

end Verif.Avx2
