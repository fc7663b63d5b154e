import Verif.Model.KeccakX86
import Verif.Model.KeccakArmv8
import Verif.Model.KeccakAvx2
import Verif.Model.KeccakAvx512
import Verif.Model.Sponge
/-
Which version of the Keccak-f[1600] permutation a build uses, detail/keccak/keccak_functions.hpp:33-76.
-/
namespace Verif.KeccakSelect

/-- The architecture as the Boost.Predef macros report it: `BOOST_ARCH_X86_64`, `BOOST_ARCH_ARM` with its
major version, or neither. -/
inductive Arch
  | x86_64
  | arm (major : Nat)
  | other
  deriving DecidableEq, Repr

/-- The architecture and whether `CRYPTO3_HAS_AVX512` and `CRYPTO3_HAS_AVX2` are defined. -/
structure Build where
  arch : Arch
  avx512 : Bool
  avx2 : Bool
  deriving DecidableEq, Repr

/-- The classes `keccak_1600_impl`, `keccak_1600_x86_64_impl`, `keccak_1600_armv8_impl`,
`keccak_1600_avx2_impl`, `keccak_1600_avx512_impl`. -/
inductive Impl | portable | x86_64 | armv8 | avx2 | avx512
  deriving DecidableEq, Repr

/-- `impl_type`, keccak_functions.hpp:60-76 (`word_bits` is 64). -/
def implType (b : Build) : Impl :=
  match b.arch with
  | .x86_64 => if b.avx512 then .avx512 else if b.avx2 then .avx2 else .x86_64
  | .arm v => if 8 ≤ v then .armv8 else .portable
  | .other => .portable

/-- `const_impl_type`, keccak_functions.hpp:78. -/
def constImplType (_ : Build) : Impl := .portable

/-- What the machine holds when `permute` starts, apart from the state: registers, the local arrays, the
words below the stack pointer and the mask registers. -/
structure Junk where
  regs16 : List (BitVec 64)
  B : List (BitVec 64)
  C : List (BitVec 64)
  regs31 : List (BitVec 64)
  stack : List (BitVec 64)
  ymm : List (Avx2.V4 (BitVec 64))
  zmm : List (List (BitVec 64))
  masks : Nat → List Bool

/-- There are as many of everything as the machine and the declarations say. -/
structure Junk.Valid (j : Junk) : Prop where
  regs16 : j.regs16.length = 16
  B : j.B.length = 25
  C : j.C.length = 10
  regs31 : j.regs31.length = 31
  stack : j.stack.length = 4
  ymm : j.ymm.length = 9
  zmm : j.zmm.map List.length = List.replicate 8 8

/-- `permute` of each class: the contents of the state array afterwards. The loops get 24 iterations. -/
def permute (j : Junk) (A : Lanes) : Impl → Option (List (BitVec 64))
  | .portable => some (keccakPermute A).toList
  | .x86_64 => (X86.run 24 j.regs16 j.B j.C A).map (·.A)
  | .armv8 => (Armv8.run j.regs31 j.stack A).map (·.A)
  | .avx2 => Avx2.run 24 j.ymm A
  | .avx512 => Avx512.run j.masks 24 j.zmm A

/-- `keccak_1600_compressor::process_block`, keccak.hpp:62-77, with the test whether the
evaluation happens at compile time. (`sha3_compressor` has its own copy of the portable permutation and no
choice, sha3.hpp:59-70, detail/sha3/sha3_functions.hpp:64.) -/
def processBlock (b : Build) (constEvaluated : Bool) (j : Junk) (blockBits : Nat) (state : Lanes)
    (block : Bits) : Option Lanes :=
  let state := Vector.ofFn fun i : Fin 25 =>
    if i.1 < blockBits / 64 then state[i] ^^^ bigOctetBigBit.word 64 block i.1 else state[i]
  let state := state.map byteSwap64
  (permute j state (if constEvaluated then constImplType b else implType b)).bind fun l =>
    if h : l.length = 25 then some ((⟨l.toArray, by simpa using h⟩ : Lanes).map byteSwap64) else none

end Verif.KeccakSelect
