import Verif.Model.Haifa
/-
Model of BLAKE2b (blake2b.hpp, detail/blake2b/*).
-/
namespace Verif

/-- `state_type` (detail/blake2b/blake2b_policy.hpp:40-42). -/
abbrev BlakeState := Vector (BitVec 64) 8

/-- `std::array<word_type, state_words * 2>`. -/
abbrev BlakeWork := Vector (BitVec 64) 16

/-- `iv_generator`, detail/blake2b/blake2b_policy.hpp:57-65. -/
def blakeIV : BlakeState :=
  #v[0x6a09e667f3bcc908, 0xbb67ae8584caa73b, 0x3c6ef372fe94f82b, 0xa54ff53a5f1d36f1,
     0x510e527fade682d1, 0x9b05688c2b3e6c1f, 0x1f83d9abfb41bd6b, 0x5be0cd19137e2179]

/-- `g`, detail/blake2b/blake2b_functions.hpp:47-57; the four references are elements of `v` with
different indices. -/
def blakeG (v : BlakeWork) (ia ib ic id : Fin 16) (m0 m1 : BitVec 64) : BlakeWork :=
  let a := v[ia]
  let b := v[ib]
  let c := v[ic]
  let d := v[id]
  let a := a + b + m0
  let d := (d ^^^ a).rotateRight 32
  let c := c + d
  let b := (b ^^^ c).rotateRight 24
  let a := a + b + m1
  let d := (d ^^^ a).rotateRight 16
  let c := c + d
  let b := (b ^^^ c).rotateRight 63
  (((v.set ia a).set ib b).set ic c).set id d

/-- `round<i0, …, iF>`, detail/blake2b/blake2b_functions.hpp:59-71. -/
def blakeRound (M : Nat → BitVec 64) (v : BlakeWork)
    (i0 i1 i2 i3 i4 i5 i6 i7 i8 i9 iA iB iC iD iE iF : Nat) : BlakeWork :=
  let v := blakeG v 0 4 8 12 (M i0) (M i1)
  let v := blakeG v 1 5 9 13 (M i2) (M i3)
  let v := blakeG v 2 6 10 14 (M i4) (M i5)
  let v := blakeG v 3 7 11 15 (M i6) (M i7)
  let v := blakeG v 0 5 10 15 (M i8) (M i9)
  let v := blakeG v 1 6 11 12 (M iA) (M iB)
  let v := blakeG v 2 7 8 13 (M iC) (M iD)
  blakeG v 3 4 9 14 (M iE) (M iF)

/-- The twelve rounds, blake2b.hpp:83-94. -/
def blakeRounds (M : Nat → BitVec 64) (v : BlakeWork) : BlakeWork :=
  let v := blakeRound M v 0 1 2 3 4 5 6 7 8 9 10 11 12 13 14 15
  let v := blakeRound M v 14 10 4 8 9 15 13 6 1 12 0 2 11 7 5 3
  let v := blakeRound M v 11 8 12 0 5 2 15 13 10 14 3 6 7 1 9 4
  let v := blakeRound M v 7 9 3 1 13 12 11 14 2 6 5 10 4 0 15 8
  let v := blakeRound M v 9 0 5 7 2 4 10 15 14 1 11 12 6 8 3 13
  let v := blakeRound M v 2 12 6 10 0 11 8 3 4 13 7 5 15 14 1 9
  let v := blakeRound M v 12 5 1 15 14 13 4 10 0 7 6 3 9 2 8 11
  let v := blakeRound M v 13 11 7 14 12 1 3 9 5 0 15 4 8 6 2 10
  let v := blakeRound M v 6 15 14 9 11 3 0 8 12 2 13 7 1 4 10 5
  let v := blakeRound M v 10 2 8 4 7 6 1 5 15 11 9 14 3 12 13 0
  let v := blakeRound M v 0 1 2 3 4 5 6 7 8 9 10 11 12 13 14 15
  blakeRound M v 14 10 4 8 9 15 13 6 1 12 0 2 11 7 5 3

/-- `v` before the rounds, blake2b.hpp:66-80; `s0` is the byte counter, `fin` the finalizator. -/
def blakeStart (st : BlakeState) (s0 fin : BitVec 64) : BlakeWork :=
  let v : BlakeWork := #v[st[0], st[1], st[2], st[3], st[4], st[5], st[6], st[7],
    blakeIV[0], blakeIV[1], blakeIV[2], blakeIV[3], blakeIV[4], blakeIV[5], blakeIV[6], blakeIV[7]]
  let v := v.set 12 (v[12] ^^^ s0)
  let v := v.set 13 (v[13] ^^^ 0)
  let v := v.set 14 (v[14] ^^^ fin)
  v.set 15 (v[15] ^^^ 0)

/-- The loop after the rounds, blake2b.hpp:96-98. -/
def blakeFinish (st : BlakeState) (v : BlakeWork) : BlakeState :=
  #v[st[0] ^^^ (v[0] ^^^ v[8]), st[1] ^^^ (v[1] ^^^ v[9]), st[2] ^^^ (v[2] ^^^ v[10]),
     st[3] ^^^ (v[3] ^^^ v[11]), st[4] ^^^ (v[4] ^^^ v[12]), st[5] ^^^ (v[5] ^^^ v[13]),
     st[6] ^^^ (v[6] ^^^ v[14]), st[7] ^^^ (v[7] ^^^ v[15])]

/-- The byte counter, blake2b.hpp:71-72, from a 64-bit number of bits. -/
def blakeBytes (seen : BitVec 64) : BitVec 64 := seen / 8 + (if seen % 8 ≠ 0 then 1 else 0)

/-- `blake2b_compressor::process_block` on the words of the block, blake2b.hpp:64-100.  `seen` is a
64-bit number of bits, `fin` is 0 or `salt_value`. -/
def blakeCompressWords (st : BlakeState) (M : Nat → BitVec 64) (seen fin : BitVec 64) : BlakeState :=
  blakeFinish st (blakeRounds M (blakeStart st (blakeBytes seen) fin))

/-- The same on the stream view of the block (`little_octet_big_bit`,
detail/blake2b/blake2b_policy.hpp:50); `salt_value` is all ones (lines 67-69). -/
def blakeCompress (st : BlakeState) (block : Bits) (seen : Nat) (final : Bool) : BlakeState :=
  blakeCompressWords st (littleOctetBigBit.word 64 block) (BitVec.ofNat 64 seen)
    (if final then 0xFFFFFFFFFFFFFFFF else 0)

/-- Lines 120-129 of `haifa_construction::digest`: no finalizer, pack the whole state into octets, copy
`digest_bytes` of them. -/
def blakeOutput (digestBits : Nat) (st : BlakeState) : Except Fault Bits :=
  let v := littleOctetBigBit.arrayView st
  if digestBits / 8 * 8 ≤ v.length then .ok (v.take (digestBits / 8 * 8)) else .error .outOfRange

/-- `reset()`, detail/haifa_construction.hpp:136-144. -/
def blakeInit (digestBits : Nat) : BlakeState :=
  blakeIV.set 0 (blakeIV[0] ^^^ (0x01010000 ^^^ BitVec.ofNat 64 (digestBits / 8)))

/-- `blake2b<DigestBits>::construction::type`, blake2b.hpp:126-137. -/
def blake2bConstruction (digestBits : Nat) (J : Injector) : Construction BlakeState Bits :=
  haifaConstruction 1024 64 (blakeInit digestBits) blakeCompress (blakeOutput digestBits) J

end Verif
