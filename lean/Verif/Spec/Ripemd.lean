import Verif.Spec.ByteMD
/-
RIPEMD-128/160/256/320 compression functions, from "RIPEMD-160: A Strengthened Version of RIPEMD"
(Dobbertin, Bosselaers, Preneel, 1996), appendix A and B and section 5.
-/
namespace Verif.Spec.Ripemd

abbrev W := BitVec 32

/-- Four or five chaining variables. -/
abbrev W4 := W × W × W × W
abbrev W5 := W × W × W × W × W

/-- Cyclic left shift. -/
def rol (x : W) (s : Nat) : W := (x <<< s) ||| (x >>> (32 - s))

/-- The nonlinear functions at bit level: `f(j, x, y, z)`. -/
def f (j : Nat) (x y z : W) : W :=
  match j / 16 with
  | 0 => x ^^^ y ^^^ z
  | 1 => (x &&& y) ||| (~~~x &&& z)
  | 2 => (x ||| ~~~y) ^^^ z
  | 3 => (x &&& z) ||| (y &&& ~~~z)
  | _ => x ^^^ (y ||| ~~~z)

/-- Added constants of the left line: integer parts of `2^30` times the square roots of 2, 3, 5, 7. -/
def K (j : Nat) : W := [0x00000000, 0x5a827999, 0x6ed9eba1, 0x8f1bbcdc, 0xa953fd4e].getD (j / 16) 0

/-- Added constants of the right line of RIPEMD-160 and RIPEMD-320: integer parts of `2^30` times the cube
roots of 2, 3, 5, 7. -/
def K5' (j : Nat) : W := [0x50a28be6, 0x5c4dd124, 0x6d703ef3, 0x7a6d76e9, 0x00000000].getD (j / 16) 0

/-- Added constants of the right line of RIPEMD-128 and RIPEMD-256. -/
def K4' (j : Nat) : W := [0x50a28be6, 0x5c4dd124, 0x6d703ef3, 0x00000000].getD (j / 16) 0

/-- The permutation `ρ` of the message words. -/
def rho (i : Nat) : Nat := [7, 4, 13, 1, 10, 6, 15, 3, 12, 0, 9, 5, 2, 14, 11, 8].getD i 0

/-- The permutation `π(i) = 9i + 5 (mod 16)`. -/
def pi (i : Nat) : Nat := (9 * i + 5) % 16

/-- Selection of message word: identity, `ρ`, `ρ²`, `ρ³`, `ρ⁴` on the left, `π`, `ρπ`, … on the right. -/
def r (j : Nat) : Nat := Nat.repeat rho (j / 16) (j % 16)
def r' (j : Nat) : Nat := Nat.repeat rho (j / 16) (pi (j % 16))

/-- Amount of the shift for message word `X_i` in each round. -/
def shifts : List (List Nat) := [
  [11, 14, 15, 12, 5, 8, 7, 9, 11, 13, 14, 15, 6, 7, 9, 8],
  [12, 13, 11, 15, 6, 9, 9, 7, 12, 15, 11, 13, 7, 8, 7, 7],
  [13, 15, 14, 11, 7, 7, 6, 8, 13, 14, 13, 12, 5, 5, 6, 9],
  [14, 11, 12, 14, 8, 6, 5, 5, 15, 12, 15, 14, 9, 9, 8, 6],
  [15, 12, 13, 13, 9, 5, 8, 6, 14, 11, 12, 11, 8, 6, 5, 5]]

def s (j : Nat) : Nat := (shifts.getD (j / 16) []).getD (r j) 0
def s' (j : Nat) : Nat := (shifts.getD (j / 16) []).getD (r' j) 0

/-- One step with four chaining variables. -/
def step4 (g : W → W → W → W) (x k : W) (n : Nat) : W4 → W4
  | (A, B, C, D) => (D, rol (A + g B C D + x + k) n, B, C)

/-- One step with five chaining variables. -/
def step5 (g : W → W → W → W) (x k : W) (n : Nat) : W5 → W5
  | (A, B, C, D, E) => (E, rol (A + g B C D + x + k) n + E, B, rol C 10, D)

/-- Steps `from, …, from + n - 1` of the two lines with four variables (64 steps in all). -/
def left4 (X : Nat → W) (start n : Nat) (l : W4) : W4 :=
  (List.range' start n).foldl (fun l j => step4 (f j) (X (r j)) (K j) (s j) l) l
def right4 (X : Nat → W) (start n : Nat) (l : W4) : W4 :=
  (List.range' start n).foldl (fun l j => step4 (f (63 - j)) (X (r' j)) (K4' j) (s' j) l) l

/-- Steps of the two lines with five variables (80 steps in all). -/
def left5 (X : Nat → W) (start n : Nat) (l : W5) : W5 :=
  (List.range' start n).foldl (fun l j => step5 (f j) (X (r j)) (K j) (s j) l) l
def right5 (X : Nat → W) (start n : Nat) (l : W5) : W5 :=
  (List.range' start n).foldl (fun l j => step5 (f (79 - j)) (X (r' j)) (K5' j) (s' j) l) l

/-- The feed-forward: chaining value and the results of both lines are added crosswise. -/
def combine4 : W4 → W4 → W4 → W4
  | (h0, h1, h2, h3), (A, B, C, D), (A', B', C', D') =>
    (h1 + C + D', h2 + D + A', h3 + A + B', h0 + B + C')
def combine5 : W5 → W5 → W5 → W5
  | (h0, h1, h2, h3, h4), (A, B, C, D, E), (A', B', C', D', E') =>
    (h1 + C + D', h2 + D + E', h3 + E + A', h4 + A + B', h0 + B + C')

def compress128 (X : Nat → W) (h : W4) : W4 := combine4 h (left4 X 0 64 h) (right4 X 0 64 h)
def compress160 (X : Nat → W) (h : W5) : W5 := combine5 h (left5 X 0 80 h) (right5 X 0 80 h)

/-- Exchange one of the four variables of the two lines. -/
def exchA : W4 × W4 → W4 × W4
  | ((A, B, C, D), (A', B', C', D')) => ((A', B, C, D), (A, B', C', D'))
def exchB : W4 × W4 → W4 × W4
  | ((A, B, C, D), (A', B', C', D')) => ((A, B', C, D), (A', B, C', D'))
def exchC : W4 × W4 → W4 × W4
  | ((A, B, C, D), (A', B', C', D')) => ((A, B, C', D), (A', B', C, D'))
def exchD : W4 × W4 → W4 × W4
  | ((A, B, C, D), (A', B', C', D')) => ((A, B, C, D'), (A', B', C', D))

def add4 (a b : W4) : W4 :=
  (a.1 + b.1, a.2.1 + b.2.1, a.2.2.1 + b.2.2.1, a.2.2.2 + b.2.2.2)

/-- RIPEMD-256: both lines run in parallel on separate variables; the exchanges after rounds 1 to 4
are A, B, C, D. -/
def compress256 (X : Nat → W) (h : W4 × W4) : W4 × W4 :=
  let p := exchA (left4 X 0 16 h.1, right4 X 0 16 h.2)
  let p := exchB (left4 X 16 16 p.1, right4 X 16 16 p.2)
  let p := exchC (left4 X 32 16 p.1, right4 X 32 16 p.2)
  let p := exchD (left4 X 48 16 p.1, right4 X 48 16 p.2)
  (add4 h.1 p.1, add4 h.2 p.2)

/-- Exchange one of the five variables of the two lines. -/
def swapA : W5 × W5 → W5 × W5
  | ((A, B, C, D, E), (A', B', C', D', E')) => ((A', B, C, D, E), (A, B', C', D', E'))
def swapB : W5 × W5 → W5 × W5
  | ((A, B, C, D, E), (A', B', C', D', E')) => ((A, B', C, D, E), (A', B, C', D', E'))
def swapC : W5 × W5 → W5 × W5
  | ((A, B, C, D, E), (A', B', C', D', E')) => ((A, B, C', D, E), (A', B', C, D', E'))
def swapD : W5 × W5 → W5 × W5
  | ((A, B, C, D, E), (A', B', C', D', E')) => ((A, B, C, D', E), (A', B', C', D, E'))
def swapE : W5 × W5 → W5 × W5
  | ((A, B, C, D, E), (A', B', C', D', E')) => ((A, B, C, D, E'), (A', B', C', D', E))

def add5 (a b : W5) : W5 :=
  (a.1 + b.1, a.2.1 + b.2.1, a.2.2.1 + b.2.2.1, a.2.2.2.1 + b.2.2.2.1, a.2.2.2.2 + b.2.2.2.2)

/-- RIPEMD-320: the exchanges after rounds 1 to 5 are B, D, A, C, E. -/
def compress320 (X : Nat → W) (h : W5 × W5) : W5 × W5 :=
  let p := swapB (left5 X 0 16 h.1, right5 X 0 16 h.2)
  let p := swapD (left5 X 16 16 p.1, right5 X 16 16 p.2)
  let p := swapA (left5 X 32 16 p.1, right5 X 32 16 p.2)
  let p := swapC (left5 X 48 16 p.1, right5 X 48 16 p.2)
  let p := swapE (left5 X 64 16 p.1, right5 X 64 16 p.2)
  (add5 h.1 p.1, add5 h.2 p.2)

/-- Initial values. -/
def iv4 : W4 := (0x67452301, 0xefcdab89, 0x98badcfe, 0x10325476)
def iv5 : W5 := (0x67452301, 0xefcdab89, 0x98badcfe, 0x10325476, 0xc3d2e1f0)
def iv4' : W4 := (0x76543210, 0xfedcba98, 0x89abcdef, 0x01234567)
def iv5' : W5 := (0x76543210, 0xfedcba98, 0x89abcdef, 0x01234567, 0x3c2d1e0f)

/-- Chaining variables in output order. -/
def list4 : W4 → List W
  | (a, b, c, d) => [a, b, c, d]
def list5 : W5 → List W
  | (a, b, c, d, e) => [a, b, c, d, e]

/-- The hash functions on byte strings: 64-octet blocks, marker 0x80, 64-bit little-endian length,
little-endian words. -/
def ripemd128 (bytes : List Nat) : List Nat := ByteMD.leDigest 4 0x80 iv4 compress128 list4 bytes
def ripemd160 (bytes : List Nat) : List Nat := ByteMD.leDigest 4 0x80 iv5 compress160 list5 bytes
def ripemd256 (bytes : List Nat) : List Nat :=
  ByteMD.leDigest 4 0x80 (iv4, iv4') compress256 (fun p => list4 p.1 ++ list4 p.2) bytes
def ripemd320 (bytes : List Nat) : List Nat :=
  ByteMD.leDigest 4 0x80 (iv5, iv5') compress320 (fun p => list5 p.1 ++ list5 p.2) bytes

end Verif.Spec.Ripemd
