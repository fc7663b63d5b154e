import Verif.Model.Words
/-
Model of the RIPEMD compressors (ripemd.hpp, detail/ripemd/*).
-/
namespace Verif.Ripemd

/-- `word_type`. -/
abbrev W := BitVec 32

/-- `f1` … `f5`, detail/ripemd/ripemd_functions.hpp:41-69. -/
def f1 (x y z : W) : W := x ^^^ y ^^^ z
def f2 (x y z : W) : W := (x &&& y) ||| (~~~x &&& z)
def f3 (x y z : W) : W := (x ||| ~~~y) ^^^ z
def f4 (x y z : W) : W := (x &&& z) ||| (y &&& ~~~z)
def f5 (x y z : W) : W := x ^^^ (y ||| ~~~z)

/-- `transform` with four references, detail/ripemd/ripemd_functions.hpp:71-79. -/
def transform4 (F : W → W → W → W) (v : W × W × W × W) (x k : W) (s : Nat) : W × W × W × W :=
  let (a, b, c, d) := v
  let T := (a + F b c d + x + k).rotateLeft s
  let a := d
  let d := c
  let c := b
  let b := T
  (a, b, c, d)

/-- `transform` with five references, detail/ripemd/ripemd_functions.hpp:81-90. -/
def transform5 (F : W → W → W → W) (v : W × W × W × W × W) (x k : W) (s : Nat) :
    W × W × W × W × W :=
  let (a, b, c, d, e) := v
  let T := (a + F b c d + x + k).rotateLeft s + e
  let a := e
  let e := d
  let d := c.rotateLeft 10
  let c := b
  let b := T
  (a, b, c, d, e)

/-- Tables, detail/ripemd/ripemd_policy.hpp:64-88. -/
def r1 : List Nat :=
  [0, 1, 2, 3, 4, 5, 6, 7, 8, 9, 10, 11, 12, 13, 14, 15,
   7, 4, 13, 1, 10, 6, 15, 3, 12, 0, 9, 5, 2, 14, 11, 8,
   3, 10, 14, 4, 9, 15, 8, 1, 2, 7, 0, 6, 13, 11, 5, 12,
   1, 9, 11, 10, 0, 8, 12, 4, 13, 3, 7, 15, 14, 5, 6, 2,
   4, 0, 5, 9, 7, 12, 2, 10, 14, 1, 3, 8, 11, 6, 15, 13]

def r2 : List Nat :=
  [5, 14, 7, 0, 9, 2, 11, 4, 13, 6, 15, 8, 1, 10, 3, 12,
   6, 11, 3, 7, 0, 13, 5, 10, 14, 15, 8, 12, 4, 9, 1, 2,
   15, 5, 1, 3, 7, 14, 6, 9, 11, 8, 12, 2, 10, 0, 4, 13,
   8, 6, 4, 1, 3, 11, 15, 0, 5, 12, 2, 13, 9, 7, 10, 14,
   12, 15, 10, 4, 1, 5, 8, 7, 6, 2, 13, 14, 0, 3, 9, 11]

def s1 : List Nat :=
  [11, 14, 15, 12, 5, 8, 7, 9, 11, 13, 14, 15, 6, 7, 9, 8,
   7, 6, 8, 13, 11, 9, 7, 15, 7, 12, 15, 9, 11, 7, 13, 12,
   11, 13, 6, 7, 14, 9, 13, 15, 14, 8, 13, 6, 5, 12, 7, 5,
   11, 12, 14, 15, 14, 15, 9, 8, 9, 14, 5, 6, 8, 6, 5, 12,
   9, 15, 5, 11, 6, 8, 13, 12, 5, 12, 13, 14, 11, 8, 5, 6]

def s2 : List Nat :=
  [8, 9, 9, 11, 13, 15, 15, 5, 7, 7, 8, 11, 14, 14, 12, 6,
   9, 13, 15, 7, 12, 8, 9, 11, 7, 7, 12, 7, 6, 15, 13, 11,
   9, 7, 15, 11, 8, 6, 6, 14, 12, 13, 5, 14, 13, 13, 7, 5,
   15, 5, 8, 11, 14, 14, 6, 14, 6, 9, 12, 9, 12, 5, 15, 8,
   8, 5, 12, 9, 12, 5, 14, 6, 8, 13, 6, 5, 15, 13, 11, 11]

/-- `table[j]`. -/
def tab (t : List Nat) (j : Nat) : Nat := t.getD j 0

/-- The loop of one round (`for (int j = start; j < start + 16; ++j)`) over both lines of four words. -/
def round4 (X : Nat → W) (start : Nat) (F1 : W → W → W → W) (k1 : W) (F2 : W → W → W → W) (k2 : W)
    (p : (W × W × W × W) × (W × W × W × W)) : (W × W × W × W) × (W × W × W × W) :=
  (List.range' start 16).foldl (fun p j =>
    (transform4 F1 p.1 (X (tab r1 j)) k1 (tab s1 j), transform4 F2 p.2 (X (tab r2 j)) k2 (tab s2 j))) p

/-- The same over both lines of five words. -/
def round5 (X : Nat → W) (start : Nat) (F1 : W → W → W → W) (k1 : W) (F2 : W → W → W → W) (k2 : W)
    (p : (W × W × W × W × W) × (W × W × W × W × W)) :
    (W × W × W × W × W) × (W × W × W × W × W) :=
  (List.range' start 16).foldl (fun p j =>
    (transform5 F1 p.1 (X (tab r1 j)) k1 (tab s1 j), transform5 F2 p.2 (X (tab r2 j)) k2 (tab s2 j))) p

/-- The end of `ripemd_compressor<128>::process_block`, ripemd.hpp:100-105. -/
def feed128 (st : Vector W 4) : (W × W × W × W) × (W × W × W × W) → Vector W 4
  | ((A1, B1, C1, D1), (A2, B2, C2, D2)) =>
    let T := st[1] + C1 + D2
    let st := st.set 1 (st[2] + D1 + A2)
    let st := st.set 2 (st[3] + A1 + B2)
    let st := st.set 3 (st[0] + B1 + C2)
    st.set 0 T

/-- `ripemd_compressor<128>::process_block`, ripemd.hpp:60-107. -/
def compress128 (st : Vector W 4) (X : Nat → W) : Vector W 4 :=
  let l := (st[0], st[1], st[2], st[3])
  let p := (l, l)
  let p := round4 X 0 f1 0x00000000 f4 0x50a28be6 p
  let p := round4 X 16 f2 0x5a827999 f3 0x5c4dd124 p
  let p := round4 X 32 f3 0x6ed9eba1 f2 0x6d703ef3 p
  let p := round4 X 48 f4 0x8f1bbcdc f1 0x00000000 p
  feed128 st p

/-- The end of `ripemd_compressor<160>::process_block`, ripemd.hpp:155-161. -/
def feed160 (st : Vector W 5) : (W × W × W × W × W) × (W × W × W × W × W) → Vector W 5
  | ((A1, B1, C1, D1, E1), (A2, B2, C2, D2, E2)) =>
    let T := st[1] + C1 + D2
    let st := st.set 1 (st[2] + D1 + E2)
    let st := st.set 2 (st[3] + E1 + A2)
    let st := st.set 3 (st[4] + A1 + B2)
    let st := st.set 4 (st[0] + B1 + C2)
    st.set 0 T

/-- `ripemd_compressor<160>::process_block`, ripemd.hpp:109-163. -/
def compress160 (st : Vector W 5) (X : Nat → W) : Vector W 5 :=
  let l := (st[0], st[1], st[2], st[3], st[4])
  let p := (l, l)
  let p := round5 X 0 f1 0x00000000 f5 0x50a28be6 p
  let p := round5 X 16 f2 0x5a827999 f4 0x5c4dd124 p
  let p := round5 X 32 f3 0x6ed9eba1 f3 0x6d703ef3 p
  let p := round5 X 48 f4 0x8f1bbcdc f2 0x7a6d76e9 p
  let p := round5 X 64 f5 0xa953fd4e f1 0x00000000 p
  feed160 st p

/-- `std::swap(Y[i], Y[j])`. -/
def swap {n : Nat} (Y : Vector W n) (i j : Nat) (hi : i < n := by decide) (hj : j < n := by decide) :
    Vector W n := (Y.set i Y[j]).set j Y[i]

/-- One round on `Y[0..3]` and `Y[4..7]`. -/
def round256 (X : Nat → W) (start : Nat) (F1 : W → W → W → W) (k1 : W) (F2 : W → W → W → W) (k2 : W)
    (Y : Vector W 8) : Vector W 8 :=
  let ((a, b, c, d), (a', b', c', d')) :=
    round4 X start F1 k1 F2 k2 ((Y[0], Y[1], Y[2], Y[3]), (Y[4], Y[5], Y[6], Y[7]))
  #v[a, b, c, d, a', b', c', d']

/-- One round on `Y[0..4]` and `Y[5..9]`. -/
def round320 (X : Nat → W) (start : Nat) (F1 : W → W → W → W) (k1 : W) (F2 : W → W → W → W) (k2 : W)
    (Y : Vector W 10) : Vector W 10 :=
  let ((a, b, c, d, e), (a', b', c', d', e')) :=
    round5 X start F1 k1 F2 k2 ((Y[0], Y[1], Y[2], Y[3], Y[4]), (Y[5], Y[6], Y[7], Y[8], Y[9]))
  #v[a, b, c, d, e, a', b', c', d', e']

/-- `ripemd_compressor<256>::process_block`, ripemd.hpp:165-212. -/
def compress256 (st : Vector W 8) (X : Nat → W) : Vector W 8 :=
  let Y := st
  let Y := round256 X 0 f1 0x00000000 f4 0x50a28be6 Y
  let Y := swap Y 0 4
  let Y := round256 X 16 f2 0x5a827999 f3 0x5c4dd124 Y
  let Y := swap Y 1 5
  let Y := round256 X 32 f3 0x6ed9eba1 f2 0x6d703ef3 Y
  let Y := swap Y 2 6
  let Y := round256 X 48 f4 0x8f1bbcdc f1 0x00000000 Y
  let Y := swap Y 3 7
  st.zipWith (· + ·) Y

/-- `ripemd_compressor<320>::process_block`, ripemd.hpp:214-270. -/
def compress320 (st : Vector W 10) (X : Nat → W) : Vector W 10 :=
  let Y := st
  let Y := round320 X 0 f1 0x00000000 f5 0x50a28be6 Y
  let Y := swap Y 1 6
  let Y := round320 X 16 f2 0x5a827999 f4 0x5c4dd124 Y
  let Y := swap Y 3 8
  let Y := round320 X 32 f3 0x6ed9eba1 f3 0x6d703ef3 Y
  let Y := swap Y 0 5
  let Y := round320 X 48 f4 0x8f1bbcdc f2 0x7a6d76e9 Y
  let Y := swap Y 2 7
  let Y := round320 X 64 f5 0xa953fd4e f1 0x00000000 Y
  let Y := swap Y 4 9
  st.zipWith (· + ·) Y

/-- `iv_generator`, detail/ripemd/ripemd_policy.hpp:125-130, 144-149, 163-169, 183-189. -/
def iv128 : Vector W 4 := #v[0x67452301, 0xefcdab89, 0x98badcfe, 0x10325476]
def iv160 : Vector W 5 := #v[0x67452301, 0xefcdab89, 0x98badcfe, 0x10325476, 0xc3d2e1f0]
def iv256 : Vector W 8 := #v[0x67452301, 0xefcdab89, 0x98badcfe, 0x10325476, 0x76543210, 0xfedcba98,
  0x89abcdef, 0x01234567]
def iv320 : Vector W 10 := #v[0x67452301, 0xefcdab89, 0x98badcfe, 0x10325476, 0xc3d2e1f0, 0x76543210,
  0xfedcba98, 0x89abcdef, 0x01234567, 0x3c2d1e0f]

end Verif.Ripemd
