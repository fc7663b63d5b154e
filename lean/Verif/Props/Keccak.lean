import Verif.Proof.KeccakBijective
import Verif.Proof.SpongeBytes
/- C21, C22: the permutation. -/
namespace Verif.Props

open Spec

/-- C21: the unrolled permutation of the code equals KECCAK-p[1600, 24] of FIPS 202 on every state. -/
theorem C21_permutation_is_fips202 (A : Lanes) :
    (keccakPermute A).array = Keccak.permutation A.array := keccakPermute_array A

/-- C21, on strings: conversion to lanes, the code's permutation and conversion back is the function
`KECCAK-f[1600]` on strings of FIPS 202 sections 3.1, 3.3, 3.4. -/
theorem C21_on_strings (S : Bits) : laneString (keccakPermute (stringLanes S)) =
    Keccak.toBits (Keccak.permutation (Keccak.ofBits S)) := congrFun onStrings_keccakPermute S

/-- The first lane of the permuted zero state (the published test vector). -/
example : (keccakPermute (Vector.replicate 25 0))[0] = 0xF1258F7940E1DDE7#64 := by decide +kernel

/-- C22: the permutation is a bijection. -/
theorem C22_permutation_bijective : Function.Bijective keccakPermute := keccakPermute_bijective

theorem byteSwap64_involutive (A : Lanes) : (A.map byteSwap64).map byteSwap64 = A := byteSwap_twice A

/-- C22: for a fixed block, absorbing it is injective (and hence, on the finite set of states,
bijective) in the state. -/
theorem C22_absorb_bijective (B : Nat) (block : Bits) :
    Function.Bijective (fun st => spongeCompress keccakPermute B st block) := by
  apply Finite.injective_iff_bijective.1
  intro s t h
  unfold spongeCompress at h
  simp only at h
  have h1 := congrArg (fun v : Lanes => v.map byteSwap64) h
  simp only [byteSwap_twice] at h1
  have h2 := congrArg (fun v : Lanes => v.map byteSwap64) (keccakPermute_injective h1)
  simp only [byteSwap_twice] at h2
  apply Vector.ext
  intro i hi
  have h3 := congrArg (fun v : Lanes => v[i]) h2
  simp only [Vector.getElem_ofFn, Fin.getElem_fin] at h3
  by_cases hc : i < B / 64
  · rw [if_pos hc, if_pos hc] at h3
    exact BitVec.xor_left_inj _ |>.1 h3
  · rw [if_neg hc, if_neg hc] at h3
    exact h3

/-- Two states that differ in one bit are absorbed to different states. -/
example (block : Bits) : spongeCompress keccakPermute 1088 (Vector.replicate 25 0) block ≠
    spongeCompress keccakPermute 1088 ((Vector.replicate 25 0).set 3 1) block := by
  intro h
  have := (C22_absorb_bijective 1088 block).1 h
  revert this
  decide

end Verif.Props
