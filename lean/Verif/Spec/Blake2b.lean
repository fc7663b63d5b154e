/-
BLAKE2b without key, written from RFC 7693 sections 2 and 3.
-/
namespace Verif.Spec.Blake2b

/-- A vector of words `v[0], v[1], …`. -/
abbrev Words := List (BitVec 64)

/-- `v[i]`. -/
def get (v : Words) (i : Nat) : BitVec 64 := v.getD i 0

/-- Assignment `v[i] := x`. -/
def put (v : Words) (i : Nat) (x : BitVec 64) : Words := v.set i x

/-- Section 2.6. -/
def IV : Words := [0x6a09e667f3bcc908, 0xbb67ae8584caa73b, 0x3c6ef372fe94f82b,
  0xa54ff53a5f1d36f1, 0x510e527fade682d1, 0x9b05688c2b3e6c1f, 0x1f83d9abfb41bd6b,
  0x5be0cd19137e2179]

/-- Section 2.7. -/
def SIGMA : List (List Nat) := [
  [ 0,  1,  2,  3,  4,  5,  6,  7,  8,  9, 10, 11, 12, 13, 14, 15],
  [14, 10,  4,  8,  9, 15, 13,  6,  1, 12,  0,  2, 11,  7,  5,  3],
  [11,  8, 12,  0,  5,  2, 15, 13, 10, 14,  3,  6,  7,  1,  9,  4],
  [ 7,  9,  3,  1, 13, 12, 11, 14,  2,  6,  5, 10,  4,  0, 15,  8],
  [ 9,  0,  5,  7,  2,  4, 10, 15, 14,  1, 11, 12,  6,  8,  3, 13],
  [ 2, 12,  6, 10,  0, 11,  8,  3,  4, 13,  7,  5, 15, 14,  1,  9],
  [12,  5,  1, 15, 14, 13,  4, 10,  0,  7,  6,  3,  9,  2,  8, 11],
  [13, 11,  7, 14, 12,  1,  3,  9,  5,  0, 15,  4,  8,  6,  2, 10],
  [ 6, 15, 14,  9, 11,  3,  0,  8, 12,  2, 13,  7,  1,  4, 10,  5],
  [10,  2,  8,  4,  7,  6,  1,  5, 15, 11,  9, 14,  3, 12, 13,  0]]

/-- `x >>> n` of section 2.3: rotation to the right. -/
def ror (x : BitVec 64) (n : Nat) : BitVec 64 := (x >>> n) ||| (x <<< (64 - n))

/-- Section 3.1, with `R1 .. R4 = 32, 24, 16, 63`. -/
def G (v : Words) (a b c d : Nat) (x y : BitVec 64) : Words :=
  let v := put v a (get v a + get v b + x)
  let v := put v d (ror (get v d ^^^ get v a) 32)
  let v := put v c (get v c + get v d)
  let v := put v b (ror (get v b ^^^ get v c) 24)
  let v := put v a (get v a + get v b + y)
  let v := put v d (ror (get v d ^^^ get v a) 16)
  let v := put v c (get v c + get v d)
  put v b (ror (get v b ^^^ get v c) 63)

/-- One round of section 3.2. -/
def round (m : Words) (v : Words) (i : Nat) : Words :=
  let s := (SIGMA.getD (i % 10) [])
  let v := G v 0 4 8 12 (get m (s.getD 0 0)) (get m (s.getD 1 0))
  let v := G v 1 5 9 13 (get m (s.getD 2 0)) (get m (s.getD 3 0))
  let v := G v 2 6 10 14 (get m (s.getD 4 0)) (get m (s.getD 5 0))
  let v := G v 3 7 11 15 (get m (s.getD 6 0)) (get m (s.getD 7 0))
  let v := G v 0 5 10 15 (get m (s.getD 8 0)) (get m (s.getD 9 0))
  let v := G v 1 6 11 12 (get m (s.getD 10 0)) (get m (s.getD 11 0))
  let v := G v 2 7 8 13 (get m (s.getD 12 0)) (get m (s.getD 13 0))
  G v 3 4 9 14 (get m (s.getD 14 0)) (get m (s.getD 15 0))

/-- Section 3.2: the compression function; `t` is the 128-bit offset counter. -/
def F (h : Words) (m : Words) (t : Nat) (f : Bool) : Words :=
  let v : Words := h ++ IV
  let v := put v 12 (get v 12 ^^^ BitVec.ofNat 64 (t % 2 ^ 64))
  let v := put v 13 (get v 13 ^^^ BitVec.ofNat 64 (t / 2 ^ 64))
  let v := if f then put v 14 (get v 14 ^^^ 0xFFFFFFFFFFFFFFFF) else v
  let v := (List.range 12).foldl (round m) v
  (List.range 8).map fun i => get h i ^^^ get v i ^^^ get v (i + 8)

/-- A little-endian word (section 2.4). -/
def leWord (bytes : List Nat) (i : Nat) : BitVec 64 :=
  BitVec.ofNat 64 ((List.range 8).foldl (fun n k => n + bytes.getD (8 * i + k) 0 * 256 ^ k) 0)

/-- Number of blocks of an `ll`-byte message: at least one. -/
def blockCount (ll : Nat) : Nat := if ll = 0 then 1 else (ll + 127) / 128

/-- Block `i` of the zero-padded message as words. -/
def blockWords (bytes : List Nat) (i : Nat) : Words :=
  (List.range 16).map (leWord ((bytes.drop (128 * i)).take 128))

/-- Section 3.3 without key: the final state for hash length `nn`. -/
def finalState (nn : Nat) (bytes : List Nat) : Words :=
  let dd := blockCount bytes.length
  let h := put IV 0 (get IV 0 ^^^ 0x01010000 ^^^ BitVec.ofNat 64 nn)
  let h := (List.range (dd - 1)).foldl (fun h i => F h (blockWords bytes i) ((i + 1) * 128) false) h
  F h (blockWords bytes (dd - 1)) bytes.length true

/-- Section 3.3: the first `nn` bytes of the little-endian word array. -/
def blake2b (nn : Nat) (bytes : List Nat) : List Nat :=
  let h := finalState nn bytes
  ((List.range 64).map fun k => (get h (k / 8)).toNat / 256 ^ (k % 8) % 256).take nn

end Verif.Spec.Blake2b
