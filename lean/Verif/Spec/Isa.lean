import Batteries.Data.BitVec.Lemmas
import Verif.Model.KeccakAvx2
import Verif.Model.KeccakAvx512
import Verif.Model.KeccakX86
import Verif.Model.KeccakArmv8
/-
The instructions of the assembly versions of Keccak-f as the processor manuals define them (Intel SDM, volume 2;
Arm ARM, C6.2): for every immediate operand, the vector instructions on registers of 256 or 512 bits, memory of bytes.
Only the instruction names (`X86.Instr`, `Armv8.Instr`, `Avx2.Instr`, `Avx512.Instr`) are shared with the model.
-/
namespace Verif.Isa

/-- The `n`-bit value whose elements of `w` bits are `f 0`, `f 1`, … from the low end. -/
def glue (n w : Nat) (f : Nat → BitVec w) : BitVec n := BitVec.ofFnLE fun b : Fin n => (f (b.1 / w)).getLsbD (b.1 % w)

/-- Element number `i` of `w` bits. -/
def elem {n : Nat} (w : Nat) (x : BitVec n) (i : Nat) : BitVec w := x.extractLsb' (w * i) w

/-- `n` bits from memory, low byte first. -/
def read (n : Nat) (mem : Nat → BitVec 8) (off : Nat) : BitVec n := glue n 8 fun i => mem (off + i)

/-- Registers with register `d` replaced. -/
def put {α : Type} (r : Nat → α) (d : Nat) (v : α) : Nat → α := fun n => if n = d then v else r n

/-! ### AVX2 -/

/-- `VPSHUFD`: within each half of 128 bits, doubleword `i` is selected by bits `2i`, `2i + 1` of the immediate. -/
def vpshufd (imm : Nat) (s : BitVec 256) : BitVec 256 :=
  glue 256 32 fun i => elem 32 s (4 * (i / 4) + (imm >>> (2 * (i % 4))) % 4)

/-- `VPERMQ`: quadword `i` is selected by bits `2i`, `2i + 1` of the immediate. -/
def vpermq (imm : Nat) (s : BitVec 256) : BitVec 256 := glue 256 64 fun i => elem 64 s ((imm >>> (2 * i)) % 4)

/-- `VPBLENDD`: doubleword `i` from `a` (the third operand in Intel order) if bit `i` of the immediate is set. -/
def vpblendd (imm : Nat) (a b : BitVec 256) : BitVec 256 :=
  glue 256 32 fun i => if imm.testBit i then elem 32 a i else elem 32 b i

/-- `VPSRLDQ`: each half of 128 bits is shifted right by `k` bytes. -/
def vpsrldq (k : Nat) (s : BitVec 256) : BitVec 256 := glue 256 128 fun i => elem 128 s i >>> (8 * k)

/-- `VPSRLQ`: each quadword is shifted right by `k` bits. -/
def vpsrlq (k : Nat) (s : BitVec 256) : BitVec 256 := glue 256 64 fun i => elem 64 s i >>> k

/-- `VPSLLVQ`, `VPSRLVQ`: each quadword is shifted by the value of its counterpart; 64 and more give zero. -/
def vpsllvq (s counts : BitVec 256) : BitVec 256 := glue 256 64 fun i => elem 64 s i <<< (elem 64 counts i).toNat
def vpsrlvq (s counts : BitVec 256) : BitVec 256 := glue 256 64 fun i => elem 64 s i >>> (elem 64 counts i).toNat

/-- `VPADDQ`. -/
def vpaddq (a b : BitVec 256) : BitVec 256 := glue 256 64 fun i => elem 64 a i + elem 64 b i

/-- The registers, the memory behind `r8`, `r9` and behind the value of `r10` at the start of the loop, and how far `r10`
has moved. -/
structure Ymm where
  ymm : Nat → BitVec 256
  r8 : Nat → BitVec 8
  r9 : Nat → BitVec 8
  r10 : Nat → BitVec 8
  pos : Nat

/-- One instruction. In AT&T order the operand after the immediate is the last source of the manual. -/
def Ymm.step (m : Ymm) : Avx2.Instr → Ymm
  | .vpxor a b d => { m with ymm := put m.ymm d (m.ymm b ^^^ m.ymm a) }
  | .vpor a b d => { m with ymm := put m.ymm d (m.ymm b ||| m.ymm a) }
  | .vpaddq a b d => { m with ymm := put m.ymm d (vpaddq (m.ymm b) (m.ymm a)) }
  | .vpandn a b d => { m with ymm := put m.ymm d (~~~(m.ymm b) &&& m.ymm a) }
  | .vpshufd imm s d => { m with ymm := put m.ymm d (vpshufd imm (m.ymm s)) }
  | .vpermq imm s d => { m with ymm := put m.ymm d (vpermq imm (m.ymm s)) }
  | .vpblendd imm a b d => { m with ymm := put m.ymm d (vpblendd imm (m.ymm a) (m.ymm b)) }
  | .vpsrlq k s d => { m with ymm := put m.ymm d (vpsrlq k (m.ymm s)) }
  | .vpsrldq k s d => { m with ymm := put m.ymm d (vpsrldq k (m.ymm s)) }
  | .vpsllvq off s d => { m with ymm := put m.ymm d (vpsllvq (m.ymm s) (read 256 m.r8 off)) }
  | .vpsrlvq off s d => { m with ymm := put m.ymm d (vpsrlvq (m.ymm s) (read 256 m.r9 off)) }
  | .vpxorC s d => { m with ymm := put m.ymm d (m.ymm s ^^^ read 256 m.r10 m.pos) }
  | .lea n => { m with pos := m.pos + n }

/-! ### AVX-512 -/

/-- `VPTERNLOGQ`: bit `4a + 2b + c` of the immediate for the bits of the destination and the two sources. -/
def vpternlogq (imm : Nat) (a b c : BitVec 512) : BitVec 512 :=
  BitVec.ofFnLE fun i : Fin 512 => imm.testBit (4 * (a.getLsbD i).toNat + 2 * (b.getLsbD i).toNat + (c.getLsbD i).toNat)

/-- `VPROLQ`, `VPROLVQ`: rotation of each quadword to the left, the count modulo 64. -/
def rol64 (x : BitVec 64) (n : Nat) : BitVec 64 := BitVec.ofFnLE fun i : Fin 64 => x.getLsbD ((i.1 + (64 - n % 64)) % 64)
def vprolq (n : Nat) (s : BitVec 512) : BitVec 512 := glue 512 64 fun i => rol64 (elem 64 s i) n
def vprolvq (s counts : BitVec 512) : BitVec 512 := glue 512 64 fun i => rol64 (elem 64 s i) (elem 64 counts i).toNat

/-- `VPERMQ` with the indices in a register: the low three bits of each quadword. -/
def vpermqV (s idx : BitVec 512) : BitVec 512 := glue 512 64 fun i => elem 64 s ((elem 64 idx i).toNat % 8)

/-- `VPBLENDMQ`. -/
def vpblendmq (k : Nat → Bool) (a b : BitVec 512) : BitVec 512 :=
  glue 512 64 fun i => if k i then elem 64 a i else elem 64 b i

/-- `VPXORQ` with a mask, merging; elements whose mask bit is clear keep the destination and are not read. -/
def vpxorqK (k : Nat → Bool) (s m d : BitVec 512) : BitVec 512 :=
  glue 512 64 fun i => if k i then elem 64 s i ^^^ elem 64 m i else elem 64 d i

/-- The registers `zmm0`..`zmm31`, the mask registers, the memory behind `r10` and how far `r10` has moved. -/
structure Zmm where
  zmm : Nat → BitVec 512
  k : Nat → Nat → Bool
  r10 : Int → BitVec 8
  pos : Nat

/-- `512` bits from memory at a signed offset. -/
def readZ (mem : Int → BitVec 8) (off : Int) : BitVec 512 := glue 512 8 fun i => mem (off + i)

/-- One instruction. -/
def Zmm.step (m : Zmm) : Avx512.Instr → Zmm
  | .mov s d => { m with zmm := put m.zmm d (m.zmm s) }
  | .tern imm c b d => { m with zmm := put m.zmm d (vpternlogq imm (m.zmm d) (m.zmm b) (m.zmm c)) }
  | .rolImm n s d => { m with zmm := put m.zmm d (vprolq n (m.zmm s)) }
  | .perm s t d => { m with zmm := put m.zmm d (vpermqV (m.zmm s) (m.zmm t)) }
  | .rolV t s d => { m with zmm := put m.zmm d (vprolvq (m.zmm s) (m.zmm t)) }
  | .blend i a b d => { m with zmm := put m.zmm d (vpblendmq (m.k i) (m.zmm a) (m.zmm b)) }
  | .xorC i back s d =>
    { m with zmm := put m.zmm d (vpxorqK (m.k i) (m.zmm s) (readZ m.r10 ((m.pos : Int) - back)) (m.zmm d)) }
  | .lea n => { m with pos := m.pos + n }

/-! ### Flat memory -/

/-- Memory: a byte for every address. -/
abbrev Mem := BitVec 64 → BitVec 8

/-- The quadword at an address, low byte first. -/
def Mem.read (m : Mem) (a : BitVec 64) : BitVec 64 := glue 64 8 fun i => m (a + BitVec.ofNat 64 i)

/-- Store a quadword. -/
def Mem.write (m : Mem) (a v : BitVec 64) : Mem := fun x => if (x - a).toNat < 8 then elem 8 v (x - a).toNat else m x

/-! ### x86-64 -/

/-- The registers `r8`..`r15` by number, the registers the compiler chose for the four operands, the memory and the zero
flag. -/
structure X64 where
  regs : Nat → BitVec 64
  ptr : X86.Base → BitVec 64
  mem : Mem
  zf : Bool

def X64.get (m : X64) : X86.Operand → BitVec 64
  | .reg n => m.regs n
  | .mem b off => m.mem.read (m.ptr b + BitVec.ofNat 64 off)

def X64.put (m : X64) (w : BitVec 64) : X86.Operand → X64
  | .reg n => { m with regs := Isa.put m.regs n w }
  | .mem b off => { m with mem := m.mem.write (m.ptr b + BitVec.ofNat 64 off) w }

/-- The result of an arithmetic instruction sets the zero flag. -/
def X64.putZ (m : X64) (w : BitVec 64) (d : X86.Operand) : X64 := { m.put w d with zf := w = 0 }

/-- One instruction. `MOV`, `NOT` and `LEA` leave the flags alone, the rotations the zero flag; the rotation count is masked to
six bits. -/
def X64.step (m : X64) : X86.Instr → X64
  | .movImm imm d => m.put (BitVec.ofNat 64 imm) d
  | .mov s d => m.put (m.get s) d
  | .xor s d => m.putZ (m.get d ^^^ m.get s) d
  | .and s d => m.putZ (m.get d &&& m.get s) d
  | .not d => m.put (~~~(m.get d)) d
  | .rol k d => m.put (rol64 (m.get d) k) d
  | .dec d => m.putZ (m.get d - 1) d
  | .lea off => { m with ptr := fun b => if b = .c then m.ptr .c + BitVec.ofNat 64 off else m.ptr b }

/-- `jnz`: run the body, again and again until it leaves the zero flag set. `n` is the number of runs. -/
inductive X64.Loop (body : List X86.Instr) : Nat → X64 → X64 → Prop
  | done (m : X64) : (body.foldl X64.step m).zf = true → Loop body 1 m (body.foldl X64.step m)
  | again (n : Nat) (m m' : X64) : (body.foldl X64.step m).zf = false → Loop body n (body.foldl X64.step m) m' →
      Loop body (n + 1) m m'

/-- The sizes in bytes of the arrays behind the pointer operands: `A`, the local arrays `B` and `C`, the round constants. -/
def X64.size : X86.Base → Nat
  | .A => 200
  | .B => 200
  | .C => 80
  | .c => 192

/-! ### ARMv8 -/

/-- The registers `x0`..`x30`, the stack pointer, the register of the operand `%[A]` and the memory. -/
structure A64 where
  regs : Nat → BitVec 64
  sp : BitVec 64
  A : BitVec 64
  mem : Mem

/-- Rotation to the right. -/
def ror64 (x : BitVec 64) (n : Nat) : BitVec 64 := BitVec.ofFnLE fun i : Fin 64 => x.getLsbD ((i.1 + n) % 64)

/-- One instruction. `MOVK` replaces bits `sh`..`sh + 15`. -/
def A64.step (m : A64) : Armv8.Instr → A64
  | .ldrA d off => { m with regs := put m.regs d (m.mem.read (m.A + BitVec.ofNat 64 off)) }
  | .strA s off => { m with mem := m.mem.write (m.A + BitVec.ofNat 64 off) (m.regs s) }
  | .ldrS d off => { m with regs := put m.regs d (m.mem.read (m.sp + BitVec.ofNat 64 off)) }
  | .strS s off => { m with mem := m.mem.write (m.sp + BitVec.ofNat 64 off) (m.regs s) }
  | .ldpS d1 d2 off =>
    let x := m.mem.read (m.sp + BitVec.ofNat 64 off)
    let y := m.mem.read (m.sp + BitVec.ofNat 64 (off + 8))
    { m with regs := put (put m.regs d1 x) d2 y }
  | .stpS s1 s2 off =>
    let mem := m.mem.write (m.sp + BitVec.ofNat 64 off) (m.regs s1)
    { m with mem := mem.write (m.sp + BitVec.ofNat 64 (off + 8)) (m.regs s2) }
  | .eor d a b => { m with regs := put m.regs d (m.regs a ^^^ m.regs b) }
  | .eorRor d a b k => { m with regs := put m.regs d (m.regs a ^^^ ror64 (m.regs b) k) }
  | .ror d s k => { m with regs := put m.regs d (ror64 (m.regs s) k) }
  | .bic d a b => { m with regs := put m.regs d (m.regs a &&& (~~~(m.regs b))) }
  | .mov d s => { m with regs := put m.regs d (m.regs s) }
  | .movz d imm => { m with regs := put m.regs d (BitVec.ofNat 64 imm) }
  | .movk d imm sh =>
    let v : BitVec 64 := BitVec.ofFnLE fun i : Fin 64 =>
      if sh ≤ i.1 ∧ i.1 < sh + 16 then imm.testBit (i.1 - sh) else (m.regs d).getLsbD i
    { m with regs := put m.regs d v }
  | .subSp n => { m with sp := m.sp - BitVec.ofNat 64 n }
  | .addSp n => { m with sp := m.sp + BitVec.ofNat 64 n }

end Verif.Isa
