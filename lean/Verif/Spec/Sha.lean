import Verif.Spec.ByteMD
/-
SHA-0/1/2 (FIPS 180, FIPS 180-4), MD4 (RFC 1320) and MD5 (RFC 1321) on byte strings.
Written without reference to the model.
-/
namespace Verif.Spec.Sha

/-! ### Byte order -/

/-- Word `i` of a block: `w` octets, most significant first. -/
def beWord (w : Nat) (block : List Nat) (i : Nat) : BitVec (8 * w) :=
  BitVec.ofNat (8 * w) ((List.range w).foldl (fun n k => n * 256 + block.getD (w * i + k) 0) 0)

/-- The octets of a list of words, most significant octet of each word first. -/
def beOctets (w : Nat) (words : List (BitVec (8 * w))) : List Nat :=
  words.flatMap fun x => (List.range w).map fun k => x.toNat / 256 ^ (w - 1 - k) % 256

/-- Word-wise addition modulo `2^w`: `H_j = x + H_j` at the end of a block. -/
def plus {w n : Nat} (a b : Vector (BitVec w) n) : Vector (BitVec w) n :=
  Vector.ofFn fun i => BitVec.ofNat w ((a[i].toNat + b[i].toNat) % 2 ^ w)

/-- Digest of a big-endian hash: `B` octets in a block, `L` octets for the length, `D` octets out. -/
def beDigest {n : Nat} (w B L D : Nat) (iv : Vector (BitVec (8 * w)) n)
    (rounds : (Nat → BitVec (8 * w)) → Vector (BitVec (8 * w)) n → Vector (BitVec (8 * w)) n)
    (bytes : List Nat) : List Nat :=
  (beOctets w ((ByteMD.blocks B (ByteMD.pad B L 0x80 true bytes)).foldl
    (fun H block => plus H (rounds (beWord w block) H)) iv).toList).take D

/-! ### Derivation of the constants (FIPS 180-4 sections 4.2.2, 4.2.3, 5.3) -/

def primes : List Nat :=
  (List.range' 2 408).filter fun p => (List.range' 2 19).all fun d => p % d != 0 || d == p

/-- The largest `x < 2^bits` with `x^e ≤ n`. -/
def root (e n : Nat) : Nat → Nat
  | bits => (List.range bits).reverse.foldl (fun x b => if (x + 2 ^ b) ^ e ≤ n then x + 2 ^ b else x) 0

/-- The first `w` bits of the fractional part of the `e`-th root of `p`. -/
def frac (w e p : Nat) : BitVec w := BitVec.ofNat w (root e (p * 2 ^ (e * w)) (w + 5))

/-- `K` of SHA-224/256 (`w = 32`, 64 words) and SHA-384/512 (`w = 64`, 80 words). -/
def K (w n : Nat) : List (BitVec w) := (primes.take n).map (frac w 3)

/-! ### SHA-2 -/

/-- The six functions of section 4.1. -/
structure Sha2 (w : Nat) where
  rounds : Nat
  Sigma0 : BitVec w → BitVec w
  Sigma1 : BitVec w → BitVec w
  sigma0 : BitVec w → BitVec w
  sigma1 : BitVec w → BitVec w

def ch {w : Nat} (x y z : BitVec w) : BitVec w := (x &&& y) ^^^ (~~~x &&& z)
def maj {w : Nat} (x y z : BitVec w) : BitVec w := (x &&& y) ^^^ (x &&& z) ^^^ (y &&& z)
def parity {w : Nat} (x y z : BitVec w) : BitVec w := x ^^^ y ^^^ z

def sha256fns : Sha2 32 where
  rounds := 64
  Sigma0 x := x.rotateRight 2 ^^^ x.rotateRight 13 ^^^ x.rotateRight 22
  Sigma1 x := x.rotateRight 6 ^^^ x.rotateRight 11 ^^^ x.rotateRight 25
  sigma0 x := x.rotateRight 7 ^^^ x.rotateRight 18 ^^^ (x >>> 3)
  sigma1 x := x.rotateRight 17 ^^^ x.rotateRight 19 ^^^ (x >>> 10)

def sha512fns : Sha2 64 where
  rounds := 80
  Sigma0 x := x.rotateRight 28 ^^^ x.rotateRight 34 ^^^ x.rotateRight 39
  Sigma1 x := x.rotateRight 14 ^^^ x.rotateRight 18 ^^^ x.rotateRight 41
  sigma0 x := x.rotateRight 1 ^^^ x.rotateRight 8 ^^^ (x >>> 7)
  sigma1 x := x.rotateRight 19 ^^^ x.rotateRight 61 ^^^ (x >>> 6)

/-- Message schedule, sections 6.2.2 and 6.4.2, step 1. -/
def Sha2.schedule {w : Nat} (F : Sha2 w) (M : Nat → BitVec w) : List (BitVec w) :=
  (List.range (F.rounds - 16)).foldl (fun W k =>
    W ++ [F.sigma1 (W.getD (k + 14) 0) + W.getD (k + 9) 0 + F.sigma0 (W.getD (k + 1) 0) + W.getD k 0])
    ((List.range 16).map M)

/-- Step 3 for one `t`. -/
def Sha2.step {w : Nat} (F : Sha2 w) (v : Vector (BitVec w) 8) (kw : BitVec w × BitVec w) :
    Vector (BitVec w) 8 :=
  let a := v[0]; let b := v[1]; let c := v[2]; let d := v[3]
  let e := v[4]; let f := v[5]; let g := v[6]; let h := v[7]
  let T1 := h + F.Sigma1 e + ch e f g + kw.1 + kw.2
  let T2 := F.Sigma0 a + maj a b c
  #v[T1 + T2, a, b, c, d + T1, e, f, g]

/-- Steps 1–3. -/
def Sha2.run {w : Nat} (F : Sha2 w) (M : Nat → BitVec w) (H : Vector (BitVec w) 8) :
    Vector (BitVec w) 8 :=
  ((K w F.rounds).zip (F.schedule M)).foldl F.step H

/-- Initial hash values: SHA-256 and SHA-512 from the first eight primes, SHA-384 from the ninth to
sixteenth, SHA-224 the second 32 bits of the latter. -/
def iv256 : Vector (BitVec 32) 8 := Vector.ofFn fun i => frac 32 2 (primes.getD i.1 0)
def iv512 : Vector (BitVec 64) 8 := Vector.ofFn fun i => frac 64 2 (primes.getD i.1 0)
def iv384 : Vector (BitVec 64) 8 := Vector.ofFn fun i => frac 64 2 (primes.getD (i.1 + 8) 0)
def iv224 : Vector (BitVec 32) 8 := Vector.ofFn fun i => (frac 64 2 (primes.getD (i.1 + 8) 0)).truncate 32

def sha224 (bytes : List Nat) : List Nat := beDigest 4 64 8 28 iv224 sha256fns.run bytes
def sha256 (bytes : List Nat) : List Nat := beDigest 4 64 8 32 iv256 sha256fns.run bytes
def sha384 (bytes : List Nat) : List Nat := beDigest 8 128 16 48 iv384 sha512fns.run bytes
def sha512 (bytes : List Nat) : List Nat := beDigest 8 128 16 64 iv512 sha512fns.run bytes

/-! ### SHA-0 and SHA-1 -/

/-- Message schedule; SHA-0 (FIPS 180) has no rotation. -/
def sha1Schedule (rot : Nat) (M : Nat → BitVec 32) : List (BitVec 32) :=
  (List.range 64).foldl (fun W k =>
    W ++ [(W.getD (k + 13) 0 ^^^ W.getD (k + 8) 0 ^^^ W.getD (k + 2) 0 ^^^ W.getD k 0).rotateLeft rot])
    ((List.range 16).map M)

def sha1Step (v : Vector (BitVec 32) 5) (tw : Nat × BitVec 32) : Vector (BitVec 32) 5 :=
  let a := v[0]; let b := v[1]; let c := v[2]; let d := v[3]; let e := v[4]
  let (f, k) := if tw.1 < 20 then (ch b c d, 0x5a827999#32) else if tw.1 < 40 then
    (parity b c d, 0x6ed9eba1#32) else if tw.1 < 60 then (maj b c d, 0x8f1bbcdc#32) else
    (parity b c d, 0xca62c1d6#32)
  #v[a.rotateLeft 5 + f + e + k + tw.2, a, b.rotateLeft 30, c, d]

def sha1Run (rot : Nat) (M : Nat → BitVec 32) (H : Vector (BitVec 32) 5) : Vector (BitVec 32) 5 :=
  ((List.range 80).zip (sha1Schedule rot M)).foldl sha1Step H

/-- The word whose octets, in the given order, count nibbles up and then down: `01 23 45 67 89 ab cd ef
fe dc ba 98 76 54 32 10`, least significant octet first (RFC 1320 section 3.3); SHA-1 continues with
`f0 e1 d2 c3`. -/
def nibbles : List Nat := [0x01, 0x23, 0x45, 0x67, 0x89, 0xab, 0xcd, 0xef, 0xfe, 0xdc, 0xba, 0x98,
  0x76, 0x54, 0x32, 0x10, 0xf0, 0xe1, 0xd2, 0xc3]

def mdIV : Vector (BitVec 32) 4 := Vector.ofFn fun i => ByteMD.leWord 4 nibbles i.1
def shaIV : Vector (BitVec 32) 5 := Vector.ofFn fun i => ByteMD.leWord 4 nibbles i.1

def sha0 (bytes : List Nat) : List Nat := beDigest 4 64 8 20 shaIV (sha1Run 0) bytes
def sha1 (bytes : List Nat) : List Nat := beDigest 4 64 8 20 shaIV (sha1Run 1) bytes

/-! ### MD4 and MD5 -/

/-- Digest of a little-endian hash with four 32-bit words. -/
def mdDigest (rounds : (Nat → BitVec 32) → Vector (BitVec 32) 4 → Vector (BitVec 32) 4)
    (bytes : List Nat) : List Nat :=
  ByteMD.leDigest 4 0x80 mdIV (fun X H => plus H (rounds X H)) Vector.toList bytes

/-- One step `a = (a + F(b,c,d) + X[k] + K) <<< s` of MD4, with the roles of `a b c d` rotated
afterwards. -/
def md4Step (X : Nat → BitVec 32) (v : Vector (BitVec 32) 4) (i : Nat) : Vector (BitVec 32) 4 :=
  let a := v[0]; let b := v[1]; let c := v[2]; let d := v[3]
  let j := i % 16
  let (f, k, x, s) :=
    if i < 16 then (ch b c d, 0#32, j, [3, 7, 11, 19].getD (i % 4) 0)
    else if i < 32 then (maj b c d, 0x5a827999#32, 4 * (j % 4) + j / 4, [3, 5, 9, 13].getD (i % 4) 0)
    else (parity b c d, 0x6ed9eba1#32, [0, 8, 4, 12, 2, 10, 6, 14, 1, 9, 5, 13, 3, 11, 7, 15].getD j 0,
      [3, 9, 11, 15].getD (i % 4) 0)
  #v[d, (a + f + X x + k).rotateLeft s, b, c]

def md4Run (X : Nat → BitVec 32) (H : Vector (BitVec 32) 4) : Vector (BitVec 32) 4 :=
  (List.range 48).foldl (md4Step X) H

/-- `T[i] = ⌊2^32 |sin i|⌋`, RFC 1321 section 3.4 (as tabulated there). -/
def md5T : List (BitVec 32) := [
  0xd76aa478, 0xe8c7b756, 0x242070db, 0xc1bdceee, 0xf57c0faf, 0x4787c62a, 0xa8304613, 0xfd469501,
  0x698098d8, 0x8b44f7af, 0xffff5bb1, 0x895cd7be, 0x6b901122, 0xfd987193, 0xa679438e, 0x49b40821,
  0xf61e2562, 0xc040b340, 0x265e5a51, 0xe9b6c7aa, 0xd62f105d, 0x02441453, 0xd8a1e681, 0xe7d3fbc8,
  0x21e1cde6, 0xc33707d6, 0xf4d50d87, 0x455a14ed, 0xa9e3e905, 0xfcefa3f8, 0x676f02d9, 0x8d2a4c8a,
  0xfffa3942, 0x8771f681, 0x6d9d6122, 0xfde5380c, 0xa4beea44, 0x4bdecfa9, 0xf6bb4b60, 0xbebfbc70,
  0x289b7ec6, 0xeaa127fa, 0xd4ef3085, 0x04881d05, 0xd9d4d039, 0xe6db99e5, 0x1fa27cf8, 0xc4ac5665,
  0xf4292244, 0x432aff97, 0xab9423a7, 0xfc93a039, 0x655b59c3, 0x8f0ccc92, 0xffeff47d, 0x85845dd1,
  0x6fa87e4f, 0xfe2ce6e0, 0xa3014314, 0x4e0811a1, 0xf7537e82, 0xbd3af235, 0x2ad7d2bb, 0xeb86d391]

def md5Step (X : Nat → BitVec 32) (v : Vector (BitVec 32) 4) (i : Nat) : Vector (BitVec 32) 4 :=
  let a := v[0]; let b := v[1]; let c := v[2]; let d := v[3]
  let (f, x, s) :=
    if i < 16 then (ch b c d, i, [7, 12, 17, 22].getD (i % 4) 0)
    else if i < 32 then (ch d b c, (5 * i + 1) % 16, [5, 9, 14, 20].getD (i % 4) 0)
    else if i < 48 then (parity b c d, (3 * i + 5) % 16, [4, 11, 16, 23].getD (i % 4) 0)
    else (c ^^^ (b ||| ~~~d), 7 * i % 16, [6, 10, 15, 21].getD (i % 4) 0)
  #v[d, b + (a + f + X x + md5T.getD i 0).rotateLeft s, b, c]

def md5Run (X : Nat → BitVec 32) (H : Vector (BitVec 32) 4) : Vector (BitVec 32) 4 :=
  (List.range 64).foldl (md5Step X) H

def md4 (bytes : List Nat) : List Nat := mdDigest md4Run bytes
def md5 (bytes : List Nat) : List Nat := mdDigest md5Run bytes

end Verif.Spec.Sha
