/-
The Keccak-f[1600] permutation of the repository.
`word_type` is a 64-bit unsigned integer; `^`, `&`, `~` are bitwise, `rotl<n>` is rotation.
-/
namespace Verif

/-- `state_type`: `std::array<word_type, 25>` (detail/keccak/keccak_policy.hpp:41-43). -/
abbrev Lanes := Vector (BitVec 64) 25

/-- detail/keccak/keccak_impl.hpp:48-56 (the same table is in detail/sha3/sha3_functions.hpp:54-62). -/
def keccakConstants : List (BitVec 64) := [
  0x0000000000000001, 0x0000000000008082, 0x800000000000808a,
  0x8000000080008000, 0x000000000000808b, 0x0000000080000001,
  0x8000000080008081, 0x8000000000008009, 0x000000000000008a,
  0x0000000000000088, 0x0000000080008009, 0x000000008000000a,
  0x000000008000808b, 0x800000000000008b, 0x8000000000008089,
  0x8000000000008003, 0x8000000000008002, 0x8000000000000080,
  0x000000000000800a, 0x800000008000000a, 0x8000000080008081,
  0x8000000000008080, 0x0000000080000001, 0x8000000080008008]

/-- The body of the loop in `permute`, detail/keccak/keccak_impl.hpp:59-124 (the same text is in
detail/sha3/sha3_functions.hpp:65-131). -/
def keccakRound (A : Lanes) (c : BitVec 64) : Lanes :=
  let C0 := A[0] ^^^ A[5] ^^^ A[10] ^^^ A[15] ^^^ A[20]
  let C1 := A[1] ^^^ A[6] ^^^ A[11] ^^^ A[16] ^^^ A[21]
  let C2 := A[2] ^^^ A[7] ^^^ A[12] ^^^ A[17] ^^^ A[22]
  let C3 := A[3] ^^^ A[8] ^^^ A[13] ^^^ A[18] ^^^ A[23]
  let C4 := A[4] ^^^ A[9] ^^^ A[14] ^^^ A[19] ^^^ A[24]
  let D0 := C0.rotateLeft 1 ^^^ C3
  let D1 := C1.rotateLeft 1 ^^^ C4
  let D2 := C2.rotateLeft 1 ^^^ C0
  let D3 := C3.rotateLeft 1 ^^^ C1
  let D4 := C4.rotateLeft 1 ^^^ C2
  let B00 := A[0] ^^^ D1
  let B10 := (A[1] ^^^ D2).rotateLeft 1
  let B20 := (A[2] ^^^ D3).rotateLeft 62
  let B05 := (A[3] ^^^ D4).rotateLeft 28
  let B15 := (A[4] ^^^ D0).rotateLeft 27
  let B16 := (A[5] ^^^ D1).rotateLeft 36
  let B01 := (A[6] ^^^ D2).rotateLeft 44
  let B11 := (A[7] ^^^ D3).rotateLeft 6
  let B21 := (A[8] ^^^ D4).rotateLeft 55
  let B06 := (A[9] ^^^ D0).rotateLeft 20
  let B07 := (A[10] ^^^ D1).rotateLeft 3
  let B17 := (A[11] ^^^ D2).rotateLeft 10
  let B02 := (A[12] ^^^ D3).rotateLeft 43
  let B12 := (A[13] ^^^ D4).rotateLeft 25
  let B22 := (A[14] ^^^ D0).rotateLeft 39
  let B23 := (A[15] ^^^ D1).rotateLeft 41
  let B08 := (A[16] ^^^ D2).rotateLeft 45
  let B18 := (A[17] ^^^ D3).rotateLeft 15
  let B03 := (A[18] ^^^ D4).rotateLeft 21
  let B13 := (A[19] ^^^ D0).rotateLeft 8
  let B14 := (A[20] ^^^ D1).rotateLeft 18
  let B24 := (A[21] ^^^ D2).rotateLeft 2
  let B09 := (A[22] ^^^ D3).rotateLeft 61
  let B19 := (A[23] ^^^ D4).rotateLeft 56
  let B04 := (A[24] ^^^ D0).rotateLeft 14
  #v[B00 ^^^ (~~~B01 &&& B02) ^^^ c,
     B01 ^^^ (~~~B02 &&& B03),
     B02 ^^^ (~~~B03 &&& B04),
     B03 ^^^ (~~~B04 &&& B00),
     B04 ^^^ (~~~B00 &&& B01),
     B05 ^^^ (~~~B06 &&& B07),
     B06 ^^^ (~~~B07 &&& B08),
     B07 ^^^ (~~~B08 &&& B09),
     B08 ^^^ (~~~B09 &&& B05),
     B09 ^^^ (~~~B05 &&& B06),
     B10 ^^^ (~~~B11 &&& B12),
     B11 ^^^ (~~~B12 &&& B13),
     B12 ^^^ (~~~B13 &&& B14),
     B13 ^^^ (~~~B14 &&& B10),
     B14 ^^^ (~~~B10 &&& B11),
     B15 ^^^ (~~~B16 &&& B17),
     B16 ^^^ (~~~B17 &&& B18),
     B17 ^^^ (~~~B18 &&& B19),
     B18 ^^^ (~~~B19 &&& B15),
     B19 ^^^ (~~~B15 &&& B16),
     B20 ^^^ (~~~B21 &&& B22),
     B21 ^^^ (~~~B22 &&& B23),
     B22 ^^^ (~~~B23 &&& B24),
     B23 ^^^ (~~~B24 &&& B20),
     B24 ^^^ (~~~B20 &&& B21)]

/-- `permute`, detail/keccak/keccak_impl.hpp:58-126, detail/sha3/sha3_functions.hpp:64-132. -/
def keccakPermute (A : Lanes) : Lanes := keccakConstants.foldl keccakRound A

end Verif
