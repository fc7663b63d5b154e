import Verif.Spec.ByteMD
/-
Tiger (R. Anderson, E. Biham, "Tiger: A Fast New Hash Function", FSE 1996), with words as integers
modulo 2^64.  The S-boxes are specified by the generator program published with the reference
implementation (gen.c), not by a table.
Written without reference to the model.
-/
namespace Verif.Spec.Tiger

def M : Nat := 0x10000000000000000
def add (a b : Nat) : Nat := (a + b) % M
def sub (a b : Nat) : Nat := (a + M - b) % M
def mul (a b : Nat) : Nat := a * b % M
def not (a : Nat) : Nat := M - 1 - a
def shl (a n : Nat) : Nat := (a <<< n) % M

/-- Octet `i` of a word, the least significant one first. -/
def octet (c i : Nat) : Nat := (c >>> (8 * i)) % 256

/-- The four S-boxes `t1 … t4` in one array of 4·256·8 octets, here a number. -/
abbrev Tables := Nat
/-- Entry `i` of S-box `t + 1`. -/
def entry (T : Tables) (t i : Nat) : Nat := (T >>> (64 * (256 * t + i))) % M

/-- `round(a,b,c,x,mul)`. -/
def round (T : Tables) (x m : Nat) : Nat × Nat × Nat → Nat × Nat × Nat
  | (a, b, c) =>
    let c := c ^^^ x
    let a := sub a (entry T 0 (octet c 0) ^^^ entry T 1 (octet c 2) ^^^ entry T 2 (octet c 4) ^^^
      entry T 3 (octet c 6))
    let b := add b (entry T 3 (octet c 1) ^^^ entry T 2 (octet c 3) ^^^ entry T 1 (octet c 5) ^^^
      entry T 0 (octet c 7))
    (a, mul b m, c)

/-- A round after which the variables change roles: `b, c, a` become the next round's `a, b, c`. -/
def turn (T : Tables) (x m : Nat) (v : Nat × Nat × Nat) : Nat × Nat × Nat :=
  match round T x m v with
  | (a, b, c) => (b, c, a)

abbrev Words := List Nat
def word (X : Words) (i : Nat) : Nat := X.getD i 0

/-- `pass(a,b,c,mul)`: eight rounds.  The variables end up shifted by eight places, that is as
`c, a, b`, which is the order in which the next pass takes them. -/
def pass (T : Tables) (X : Words) (m : Nat) (v : Nat × Nat × Nat) : Nat × Nat × Nat :=
  X.foldl (fun v x => turn T x m v) v

/-- `key_schedule`. -/
def schedule (X : Words) : Words :=
  let X := X.set 0 (sub (word X 0) (word X 7 ^^^ 0xA5A5A5A5A5A5A5A5))
  let X := X.set 1 (word X 1 ^^^ word X 0)
  let X := X.set 2 (add (word X 2) (word X 1))
  let X := X.set 3 (sub (word X 3) (word X 2 ^^^ shl (not (word X 1)) 19))
  let X := X.set 4 (word X 4 ^^^ word X 3)
  let X := X.set 5 (add (word X 5) (word X 4))
  let X := X.set 6 (sub (word X 6) (word X 5 ^^^ (not (word X 4) >>> 23)))
  let X := X.set 7 (word X 7 ^^^ word X 6)
  let X := X.set 0 (add (word X 0) (word X 7))
  let X := X.set 1 (sub (word X 1) (word X 0 ^^^ shl (not (word X 7)) 19))
  let X := X.set 2 (word X 2 ^^^ word X 1)
  let X := X.set 3 (add (word X 3) (word X 2))
  let X := X.set 4 (sub (word X 4) (word X 3 ^^^ (not (word X 2) >>> 23)))
  let X := X.set 5 (word X 5 ^^^ word X 4)
  let X := X.set 6 (add (word X 6) (word X 5))
  X.set 7 (sub (word X 7) (word X 6 ^^^ 0x0123456789ABCDEF))

/-- The multiplier of pass `j`: 5, 7, then 9. -/
def multiplier (j : Nat) : Nat := if j = 0 then 5 else if j = 1 then 7 else 9

/-- Passes `j, j + 1, …, j + n`, the key schedule between any two of them. -/
def passes (T : Tables) : Nat → Nat → Words → Nat × Nat × Nat → Nat × Nat × Nat
  | 0, j, X, v => pass T X (multiplier j) v
  | n + 1, j, X, v => passes T n (j + 1) (schedule X) (pass T X (multiplier j) v)

/-- The compression function with `P ≥ 1` passes, with feed-forward. -/
def compress (T : Tables) (P : Nat) (X : Words) (h : Nat × Nat × Nat) : Nat × Nat × Nat :=
  match h, passes T (P - 1) 0 X h with
  | (a0, b0, c0), (a, b, c) => (a ^^^ a0, sub b b0, add c c0)

/-- The initial value. -/
def iv : Nat × Nat × Nat := (0x0123456789ABCDEF, 0xFEDCBA9876543210, 0xF096A5B4C3B2E187)

/-! The generator of the S-boxes. -/

/-- Exchange octets `i` and `j` of an array of octets. -/
def exchange (T i j : Nat) : Nat :=
  let d := octet T i ^^^ octet T j
  T ^^^ (d <<< (8 * i)) ^^^ (d <<< (8 * j))

/-- For each of the eight columns, exchange row `i` of S-box `t + 1` with the row that the
corresponding octet of `w` names. -/
def shuffle (T : Tables) (t i w : Nat) : Tables :=
  (List.range 8).foldl (fun T col =>
    exchange T (8 * (256 * t + i) + col) (8 * (256 * t + octet w col) + col)) T

/-- Step `n` of the generator: it treats row `n / 4 % 256` of S-box `n % 4 + 1` with state word
`n % 3`; before every third step the state is compressed once more, with the tables as they are. -/
def genStep (X : Words) (s : Tables × (Nat × Nat × Nat)) (n : Nat) : Tables × (Nat × Nat × Nat) :=
  let h := if n % 3 = 0 then compress s.1 3 X s.2 else s.2
  let w := if n % 3 = 0 then h.1 else if n % 3 = 1 then h.2.1 else h.2.2
  (shuffle s.1 (n % 4) (n / 4 % 256) w, h)

/-- Every octet of row `i` is `i`. -/
def genStart : Tables :=
  (List.range 1024).foldl (fun T i => T + ((i % 256) * 0x0101010101010101) <<< (64 * i)) 0

/-- `"Tiger - A Fast New Hash Function, by Ross Anderson and Eli Biham"` as eight little-endian
words. -/
def genText : Words :=
  let s := "Tiger - A Fast New Hash Function, by Ross Anderson and Eli Biham".toList.map Char.toNat
  (List.range 8).map fun i => (List.range 8).foldl (fun n k => n + s.getD (8 * i + k) 0 * 256 ^ k) 0

/-- The S-boxes: five passes of the generator. -/
def sboxes : Tables :=
  ((List.range (5 * 1024)).foldl (genStep genText) (genStart, iv)).1

/-- The hash of a byte string with `P` passes: 64-octet blocks, marker 0x01, 64-bit little-endian
length, little-endian words. -/
def toWords : Nat × Nat × Nat → List (BitVec 64)
  | (a, b, c) => [BitVec.ofNat 64 a, BitVec.ofNat 64 b, BitVec.ofNat 64 c]
def compressWords (P : Nat) (X : Nat → BitVec 64) (h : Nat × Nat × Nat) : Nat × Nat × Nat :=
  compress sboxes P ((List.range 8).map fun i => (X i).toNat) h
def tiger (P : Nat) (bytes : List Nat) : List Nat :=
  ByteMD.leDigest 8 0x01 iv (compressWords P) toWords bytes

end Verif.Spec.Tiger
