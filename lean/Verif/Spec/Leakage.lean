import Verif.Spec.Isa
/-
What an observer of the caches and of the branch predictor sees of a run of the assembly versions of Keccak-f: the address
of every memory access, in order, and the outcome of every conditional jump. On straight-line code between the jumps the
sequence of instructions is fixed, so this also determines which instructions are executed. The machines are those of
Spec/Isa.lean.
-/
namespace Verif.Isa

/-- An access to the memory at an address (`store` or load), or a conditional jump that is taken or not. -/
inductive Event (Addr : Type)
  | access (store : Bool) (a : Addr)
  | branch (taken : Bool)
  deriving DecidableEq, Repr

section
variable {M I Addr : Type}

/-- The events of straight-line code. -/
def trace (step : M → I → M) (leak : M → I → List (Event Addr)) : List I → M → List (Event Addr)
  | [], _ => []
  | i :: is, m => leak m i ++ trace step leak is (step m i)

/-- The runs of a loop `1: body; jnz 1b`: the number of runs of the body, first and last machine, the events. -/
inductive LoopTrace (step : M → I → M) (leak : M → I → List (Event Addr)) (zf : M → Bool) (body : List I) :
    Nat → M → M → List (Event Addr) → Prop
  | done (m : M) : zf (body.foldl step m) = true →
      LoopTrace step leak zf body 1 m (body.foldl step m) (trace step leak body m ++ [.branch false])
  | again (n : Nat) (m m' : M) (t : List (Event Addr)) : zf (body.foldl step m) = false →
      LoopTrace step leak zf body n (body.foldl step m) m' t →
      LoopTrace step leak zf body (n + 1) m m' (trace step leak body m ++ .branch true :: t)

end

/-! ### x86-64: the addresses are those of quadwords -/

/-- Using an operand. -/
def X64.use (m : X64) (store : Bool) : X86.Operand → List (Event (BitVec 64))
  | .reg _ => []
  | .mem b off => [.access store (m.ptr b + BitVec.ofNat 64 off)]

def X64.leak (m : X64) : X86.Instr → List (Event (BitVec 64))
  | .movImm _ d => m.use true d
  | .mov s d => m.use false s ++ m.use true d
  | .xor s d | .and s d => m.use false s ++ m.use false d ++ m.use true d
  | .not d | .rol _ d | .dec d => m.use false d ++ m.use true d
  | .lea _ => []

/-! ### ARMv8: the addresses are those of quadwords -/

def A64.leak (m : A64) : Armv8.Instr → List (Event (BitVec 64))
  | .ldrA _ off => [.access false (m.A + BitVec.ofNat 64 off)]
  | .strA _ off => [.access true (m.A + BitVec.ofNat 64 off)]
  | .ldrS _ off => [.access false (m.sp + BitVec.ofNat 64 off)]
  | .strS _ off => [.access true (m.sp + BitVec.ofNat 64 off)]
  | .ldpS _ _ off => [.access false (m.sp + BitVec.ofNat 64 off), .access false (m.sp + BitVec.ofNat 64 (off + 8))]
  | .stpS _ _ off => [.access true (m.sp + BitVec.ofNat 64 off), .access true (m.sp + BitVec.ofNat 64 (off + 8))]
  | _ => []

/-! ### The vector versions: addresses are offsets from the three pointers, which are registers set once before the loop.
The loop counter is a register of its own, which only the `dec` at the end of the body touches. -/

/-- A counter of `w` bits beside the vector machine. -/
structure Counted (w : Nat) (M : Type) where
  counter : BitVec w
  vec : M

/-- An instruction of the vector unit, or `dec` of the counter. -/
def Counted.step {w : Nat} {M I : Type} (step : M → I → M) (m : Counted w M) : Option I → Counted w M
  | some i => { m with vec := step m.vec i }
  | none => { m with counter := m.counter - 1 }

/-- The zero flag after `dec`: the vector instructions and `lea` leave the flags alone. -/
def Counted.zf {w : Nat} {M : Type} (m : Counted w M) : Bool := m.counter = 0

def Counted.leak {w : Nat} {M I Addr : Type} (leak : M → I → List (Event Addr)) (m : Counted w M) :
    Option I → List (Event Addr)
  | some i => leak m.vec i
  | none => []

/-- AVX2: 32 bytes at an offset from `r8`, from `r9` and from the value of `r10` at the start. -/
def Ymm.leak (m : Ymm) : Avx2.Instr → List (Event (Nat × Nat))
  | .vpsllvq off _ _ => [.access false (8, off)]
  | .vpsrlvq off _ _ => [.access false (9, off)]
  | .vpxorC _ _ => [.access false (10, m.pos)]
  | _ => []

/-- AVX-512: the quadwords that the mask selects, at an offset from the value of `r10` at the start. -/
def Zmm.leak (m : Zmm) : Avx512.Instr → List (Event Int)
  | .xorC i back _ _ =>
    ((List.range 8).filter (m.k i)).map fun e : Nat => .access false ((m.pos : Int) - back + 8 * (e : Int))
  | _ => []

end Verif.Isa
