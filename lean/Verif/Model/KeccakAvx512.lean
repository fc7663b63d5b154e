import Verif.Model.AsmWord
import Verif.Model.Keccak
/-
The AVX-512 assembly version of the Keccak-f[1600] permutation, detail/keccak/keccak_avx512_impl.hpp.
It is used when `CRYPTO3_HAS_AVX512` is defined. The text does not assemble as it stands: in an `asm` statement with operands a
register needs two percent signs, but `%eax` and `%r10` have one (keccak_avx512_impl.hpp:115,
150-151, 199, 217); the string of line 150 has no newline, so that
the next instruction continues it; and line 179 has a stray `$`. The model takes the evident
meaning at these places.
The mask registers `k1`..`k5` are read but never written, nor are they operands: their values are parameters
here. A 512-bit register is a list of eight 64-bit elements, lowest first.
-/
namespace Verif.Avx512

/-- The instructions used, source operands first (AT&T order). Registers are `zmm0`..`zmm31` by number. -/
inductive Instr
  | mov (s d : Nat)
  /-- `vpternlogq imm, c, b, d`. -/
  | tern (imm c b d : Nat)
  | rolImm (n s d : Nat)
  /-- `vpermq s, t, d`: the elements of `s` selected by the table in register `t`. -/
  | perm (s t d : Nat)
  /-- `vprolvq t, s, d`: rotate the elements of `s` by the table in register `t`. -/
  | rolV (t s d : Nat)
  /-- `vpblendmq a, b, d{k}`: `a` where the mask bit is set, otherwise `b`. -/
  | blend (k a b d : Nat)
  /-- `vpxorq -back(%r10), s, d{k}`: elements with a clear mask bit keep their value. -/
  | xorC (k back s d : Nat)
  /-- `lea n(%r10), %r10`. -/
  | lea (n : Nat)
  deriving DecidableEq, Repr

/-- `rho_0`, keccak_avx512_impl.hpp:58-62. -/
def rho0 : List (List Nat) := [
  [0, 1, 62, 28, 27, 0, 0, 0], [36, 44, 6, 55, 20, 0, 0, 0], [3, 10, 43, 25, 39, 0, 0, 0],
  [41, 45, 15, 21, 8, 0, 0, 0], [18, 2, 61, 56, 14, 0, 0, 0]]

/-- `rho_1`, keccak_avx512_impl.hpp:64-68. -/
def rho1 : List (List Nat) := [
  [0, 44, 43, 21, 14, 0, 0, 0], [18, 1, 6, 25, 8, 0, 0, 0], [41, 2, 62, 55, 39, 0, 0, 0],
  [3, 45, 61, 28, 20, 0, 0, 0], [36, 10, 15, 56, 27, 0, 0, 0]]

/-- `pi0_perm`, keccak_avx512_impl.hpp:70-74. -/
def pi0Perm : List (List Nat) := [
  [0, 3, 1, 4, 2, 5, 6, 7], [1, 4, 2, 0, 3, 5, 6, 7], [2, 0, 3, 1, 4, 5, 6, 7], [3, 1, 4, 2, 0, 5, 6, 7],
  [4, 2, 0, 3, 1, 5, 6, 7]]

/-- `theta_perm`, keccak_avx512_impl.hpp:76-80. -/
def thetaPerm : List (List Nat) := [
  [0, 1, 2, 3, 4, 5, 6, 7], [4, 0, 1, 2, 3, 5, 6, 7], [3, 4, 0, 1, 2, 5, 6, 7], [2, 3, 4, 0, 1, 5, 6, 7],
  [1, 2, 3, 4, 0, 5, 6, 7]]

/-- The registers that hold tables, keccak_avx512_impl.hpp:90-111. -/
def table : Nat → Option (List Nat)
  | 13 => thetaPerm[1]?
  | 14 => thetaPerm[2]?
  | 15 => thetaPerm[3]?
  | 16 => thetaPerm[4]?
  | 17 => pi0Perm[0]?
  | 18 => pi0Perm[1]?
  | 19 => pi0Perm[2]?
  | 20 => pi0Perm[3]?
  | 21 => pi0Perm[4]?
  | 22 => rho0[0]?
  | 23 => rho0[1]?
  | 24 => rho0[2]?
  | 25 => rho0[3]?
  | 26 => rho0[4]?
  | 27 => rho1[0]?
  | 28 => rho1[1]?
  | 29 => rho1[2]?
  | 30 => rho1[3]?
  | 31 => rho1[4]?
  | _ => none

/-- The machine: the registers `zmm0`..`zmm12`, the constants and the offset in bytes of `r10` from their
start. -/
structure Machine (W : Type) where
  zmm : List (List W)
  consts : List W
  pos : Nat

variable {W : Type} [Word W]

/-- `vpternlogq` for the two immediates used: bit `4a + 2b + c` of the immediate is the result for the bits
`a` of the destination, `b` of the second and `c` of the third operand. `0x96` is the exclusive or of the
three, `0xD2` is `a ^ (~b & c)`. -/
def tern (imm : Nat) : Option (W → W → W → W) :=
  if imm = 0x96 then some fun a b c => Word.xor (Word.xor a b) c
  else if imm = 0xD2 then some fun a b c => Word.xor a (Word.and (Word.not b) c)
  else none

def zip3 (f : W → W → W → W) : List W → List W → List W → List W
  | a :: as, b :: bs, c :: cs => f a b c :: zip3 f as bs cs
  | _, _, _ => []

def permute8 (t : List Nat) (v : List W) : List W := t.map fun i => v.getD (i % 8) (Word.ofNat 0)

def blend8 (k : List Bool) (a b : List W) : List W :=
  zip3' k a b
where
  zip3' : List Bool → List W → List W → List W
  | k :: ks, a :: as, b :: bs => (if k then a else b) :: zip3' ks as bs
  | _, _, _ => []

/-- The masked exclusive or with the words at byte offset `off` of the constants: an element whose mask bit
is set needs its word. -/
def xor8 (consts : List W) (off : Nat) : List Bool → List W → List W → Option (List W)
  | k :: ks, s :: ss, d :: ds =>
    (if k then (if off % 8 = 0 then consts[off / 8]? else none).map (Word.xor s) else some d).bind fun x =>
      (xor8 consts (off + 8) ks ss ds).map (x :: ·)
  | _, _, _ => some []

def Machine.set (m : Machine W) (d : Nat) (v : List W) : Option (Machine W) :=
  if d < m.zmm.length then some { m with zmm := m.zmm.set d v } else none

/-- One instruction; `k` is the contents of the mask registers. -/
def step (k : Nat → List Bool) (m : Machine W) : Instr → Option (Machine W)
  | .mov s d => (m.zmm[s]?).bind fun x => m.set d x
  | .tern imm c b d => (tern imm).bind fun f => (m.zmm[c]?).bind fun z => (m.zmm[b]?).bind fun y =>
      (m.zmm[d]?).bind fun x => m.set d (zip3 f x y z)
  | .rolImm n s d => (m.zmm[s]?).bind fun x => m.set d (x.map (Word.rol n))
  | .perm s t d => (table t).bind fun t => (m.zmm[s]?).bind fun x => m.set d (permute8 t x)
  | .rolV t s d => (table t).bind fun t => (m.zmm[s]?).bind fun x => m.set d (List.zipWith Word.rol t x)
  | .blend i a b d => (m.zmm[a]?).bind fun x => (m.zmm[b]?).bind fun y => m.set d (blend8 (k i) x y)
  | .xorC i back s d => (m.zmm[s]?).bind fun x => (m.zmm[d]?).bind fun y =>
      (if back ≤ m.pos then xor8 m.consts (m.pos - back) (k i) x y else none).bind fun v => m.set d v
  | .lea n => some { m with pos := m.pos + n }

/-- Straight-line code. -/
def exec (k : Nat → List Bool) : List Instr → Machine W → Option (Machine W)
  | [], m => some m
  | i :: is, m => (step k m i).bind (exec k is)

/-- The first round up to the constant, keccak_avx512_impl.hpp:118-148. -/
def round0 : List Instr := [
  .mov 0 5, .tern 0x96 2 1 0, .tern 0x96 4 3 0, .rolImm 1 0 6, .perm 0 13 0, .perm 6 16 6,
  .tern 0x96 0 6 5, .tern 0x96 0 6 1, .tern 0x96 0 6 2, .tern 0x96 0 6 3, .tern 0x96 0 6 4, .rolV 22 5 0,
  .rolV 23 1 1, .rolV 24 2 2, .rolV 25 3 3, .rolV 26 4 4, .perm 0 17 0, .perm 1 18 1, .perm 2 19 2,
  .perm 3 20 3, .perm 4 21 4, .mov 0 5, .mov 1 6, .tern 0xD2 2 1 0, .tern 0xD2 3 2 1, .tern 0xD2 4 3 2,
  .tern 0xD2 5 4 3, .tern 0xD2 6 5 4]

/-- The first constant, keccak_avx512_impl.hpp:150-151. -/
def iota0 : List Instr := [
  .xorC 1 0 0 0, .lea 16]

/-- The change of layout between the rounds, keccak_avx512_impl.hpp:153-177. -/
def shuffle : List Instr := [
  .blend 2 2 1 6, .blend 2 3 2 7, .blend 2 4 3 8, .blend 2 1 0 5, .blend 2 0 4 9, .blend 3 3 6 6,
  .blend 3 4 7 7, .blend 3 2 5 5, .blend 3 0 8 8, .blend 3 1 9 9, .blend 4 4 6 6, .blend 4 3 5 5,
  .blend 4 0 7 7, .blend 4 1 8 8, .blend 4 2 9 9, .blend 5 4 5 5, .blend 5 0 6 6, .blend 5 1 7 7,
  .blend 5 2 8 8, .blend 5 3 9 9, .perm 6 13 1, .perm 7 14 2, .perm 8 15 3, .perm 9 16 4]

/-- The second round, keccak_avx512_impl.hpp:179-216. -/
def round1 : List Instr := [
  .mov 5 0, .tern 0x96 2 1 5, .tern 0x96 4 3 5, .rolImm 1 5 6, .perm 5 13 5, .perm 6 16 6,
  .tern 0x96 5 6 0, .tern 0x96 5 6 3, .tern 0x96 5 6 1, .tern 0x96 5 6 4, .tern 0x96 5 6 2, .rolV 27 0 0,
  .rolV 30 3 6, .rolV 28 1 7, .rolV 31 4 8, .rolV 29 2 9, .perm 0 16 10, .perm 0 15 11, .xorC 1 8 0 0,
  .perm 6 14 1, .perm 7 16 2, .perm 8 13 3, .perm 9 15 4, .tern 0xD2 11 10 0, .perm 6 13 12,
  .tern 0xD2 6 12 1, .perm 7 15 5, .perm 7 14 7, .tern 0xD2 7 5 2, .perm 8 16 6, .tern 0xD2 6 8 3,
  .perm 9 14 5, .perm 9 13 9, .tern 0xD2 9 5 4]

/-- The body of the loop from the label `1:` up to `dec`, keccak_avx512_impl.hpp:116-216. -/
def body : List Instr := round0 ++ iota0 ++ shuffle ++ round1

/-- The loop: the body, `dec %eax`, and `jnz 1b` jumps back unless `dec` produced zero (keccak_avx512_impl.hpp:217-218).
Running out of fuel is `none`. -/
def loop (k : Nat → List Bool) : Nat → BitVec 32 → Machine (BitVec 64) → Option (Machine (BitVec 64))
  | 0, _, _ => none
  | fuel + 1, eax, m =>
    (exec k body m).bind fun m => if eax - 1 = 0 then some m else loop k fuel (eax - 1) m

/-- `round_constants`, keccak_avx512_impl.hpp:48-56. -/
def constants : List (BitVec 64) := [
  0x0000000000000001, 0x0000000000008082, 0x800000000000808a, 0x8000000080008000, 0x000000000000808b,
  0x0000000080000001, 0x8000000080008081, 0x8000000000008009, 0x000000000000008a, 0x0000000000000088,
  0x0000000080008009, 0x000000008000000a, 0x000000008000808b, 0x800000000000008b, 0x8000000000008089,
  0x8000000000008003, 0x8000000000008002, 0x8000000000000080, 0x000000000000800a, 0x800000008000000a,
  0x8000000080008081, 0x8000000000008080, 0x0000000080000001, 0x8000000080008008]

/-- The registers `zmm0`..`zmm4` filled with `_mm512_set_epi64` (whose first argument is element 7),
keccak_avx512_impl.hpp:84-88. -/
def pack (a : Nat → W) : List (List W) := [
   [Word.ofNat 0, Word.ofNat 0, Word.ofNat 0, a 0, a 1, a 2, a 3, a 4],
   [Word.ofNat 0, Word.ofNat 0, Word.ofNat 0, a 5, a 6, a 7, a 8, a 9],
   [Word.ofNat 0, Word.ofNat 0, Word.ofNat 0, a 10, a 11, a 12, a 13, a 14],
   [Word.ofNat 0, Word.ofNat 0, Word.ofNat 0, a 15, a 16, a 17, a 18, a 19],
   [Word.ofNat 0, Word.ofNat 0, Word.ofNat 0, a 20, a 21, a 22, a 23, a 24]]

/-- The loop with the counter that `mov $12, %eax` sets and the assignments after the assembly
(keccak_avx512_impl.hpp:115, 230-254): lane `5y + x` is element `x` of register `y`. -/
def finish (k : Nat → List Bool) (fuel : Nat) (zmm : List (List (BitVec 64))) : Option (List (BitVec 64)) :=
  (loop k fuel 12 ⟨zmm, constants, 0⟩).bind fun m =>
    (List.range 25).mapM fun i => (m.zmm[i / 5]?).bind fun v => v[i % 5]?

/-- `permute`, keccak_avx512_impl.hpp:82-255. The registers `zmm5`..`zmm12` hold whatever they held before. -/
def run (k : Nat → List Bool) (fuel : Nat) (rest : List (List (BitVec 64))) (A : Lanes) :
    Option (List (BitVec 64)) :=
  finish k fuel (pack (fun i => A.toList.getD i 0) ++ rest)

/-- NOT the code: the registers filled the way the rest of the function reads them, lane `5y + x` in
element `x` of register `y`. -/
def packRight (a : Nat → W) (top : List W) : List (List W) :=
  (List.range 5).map fun y => (List.range 5).map (fun x => a (5 * y + x)) ++ top

/-- NOT in the code: the masks that the algorithm needs, `k1` = 1, `k2` = 2, `k3` = 4, `k4` = 8,
`k5` = 16. -/
def masksRight (i : Nat) : List Bool := (List.range 8).map fun e => decide (e + 1 = i)

end Verif.Avx512
