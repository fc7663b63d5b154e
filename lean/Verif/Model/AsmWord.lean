/-
The operations on 64-bit machine words used by the assembly versions of the permutation. The programs are
modelled over an arbitrary type of words, so that the same program can be run on words and on symbolic
expressions; what the processor does is the instance for `BitVec 64`.
-/
namespace Verif

/-- The operations of the arithmetic unit. -/
class Word (W : Type) where
  xor : W → W → W
  and : W → W → W
  or : W → W → W
  add : W → W → W
  sub : W → W → W
  not : W → W
  /-- Rotation to the left. -/
  rol : Nat → W → W
  /-- Rotation to the right. -/
  ror : Nat → W → W
  /-- Logical shifts. -/
  shl : Nat → W → W
  shr : Nat → W → W
  ofNat : Nat → W

/-- 64-bit words. Rotation counts are taken modulo 64 (`BitVec.rotateLeft`); a shift by 64 or more gives
zero, as for the vector shifts. -/
instance : Word (BitVec 64) where
  xor a b := a ^^^ b
  and a b := a &&& b
  or a b := a ||| b
  add a b := a + b
  sub a b := a - b
  not a := ~~~a
  rol k a := a.rotateLeft k
  ror k a := a.rotateRight k
  shl k a := a <<< k
  shr k a := a >>> k
  ofNat n := BitVec.ofNat 64 n

end Verif
