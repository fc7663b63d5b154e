import Verif.Validation.Basic
import Verif.Model.GroupHash
import Verif.Model.Pedersen
import Verif.Model.PoseidonInst
/-
Tests, not proofs: test/find_group_hash.cpp and test/pedersen.cpp on the Jubjub curve.  The curve arithmetic
below stands for the algebra library; nothing is proved about it.
-/
namespace Verif.Validation

open Spec Verif.Props

def jq : Nat := bls12Scalar

def powMod (q a e : Nat) : Nat :=
  if e = 0 then 1 % q else
    let h := powMod q (a * a % q) (e / 2)
    if e % 2 = 1 then a * h % q else h
termination_by e
decreasing_by omega

def jinv (a : Nat) : Nat := powMod jq a (jq - 2)
def jneg (a : Nat) : Nat := (jq - a % jq) % jq
/-- `d = -10240/10241`. -/
def jd : Nat := jneg (10240 * jinv 10241 % jq)

/-- An affine point of `-x² + y² = 1 + d x² y²`. -/
structure Jub where
  x : Nat
  y : Nat
  deriving DecidableEq, Inhabited

def Jub.add (p q : Jub) : Jub :=
  let t := jd * p.x % jq * q.x % jq * p.y % jq * q.y % jq
  ⟨(p.x * q.y + p.y * q.x) % jq * jinv (1 + t) % jq, (p.y * q.y + p.x * q.x) % jq * jinv (1 + (jq - t)) % jq⟩

def Jub.smul (n : Nat) (p : Jub) : Jub := if n = 0 then ⟨0, 1⟩ else
  let h := Jub.smul (n / 2) p
  let h := h.add h
  if n % 2 = 1 then h.add p else h
termination_by n
decreasing_by omega

instance : Zero Jub := ⟨⟨0, 1⟩⟩
instance : Add Jub := ⟨Jub.add⟩
instance : SMul ℕ Jub := ⟨Jub.smul⟩

/-- Square root by Tonelli and Shanks (two-adicity 32, non-residue 7). -/
def jsqrt (n : Nat) : Option Nat := Id.run do
  if n % jq = 0 then return some 0
  if powMod jq n ((jq - 1) / 2) ≠ 1 then return none
  let s := (jq - 1) / 2 ^ 32
  let mut m := 32
  let mut c := powMod jq 7 s
  let mut t := powMod jq n s
  let mut r := powMod jq n ((s + 1) / 2)
  for _ in [0:33] do
    if t = 1 then break
    let mut i := 0
    let mut tt := t
    for _ in [0:33] do
      if tt = 1 then break
      tt := tt * tt % jq
      i := i + 1
    let b := powMod jq c (2 ^ (m - i - 1))
    m := i
    c := b * b % jq
    t := t * c % jq
    r := r * b % jq
  return some r

def digestOctets (b : Bits) : List Nat := (List.range (b.length / 8)).map fun i =>
  ((b.drop (8 * i)).take 8).foldl (fun a x => 2 * a + x.toNat) 0

/-- Point decoding of the marshalling library: little-endian `y`, sign of `x` in the top bit. -/
def jdecode (b : Bits) : Option Jub := do
  let v := (digestOctets b).reverse.foldl (fun a x => 256 * a + x) 0
  let sgn := v / 2 ^ 255
  let y := v % 2 ^ 255
  if y ≥ jq then none
  let x ← jsqrt ((y * y + jq - 1) % jq * jinv (1 + jd * (y * y % jq)) % jq)
  if x = 0 ∧ sgn = 1 then none
  return ⟨if x % 2 = sgn then x else jneg x, y⟩

def groupHashP : GroupHashParams sha256S.σ Bits Jub :=
  ⟨sha256S.C, spliceInjector, bigOctetBigBit, List.replicate 64 0, groupHashDst, jdecode, 8⟩

/-- `hash<find_group_hash<>>(input)`. -/
def groupHash (input : List Nat) : Option Jub :=
  match (do
    let a ← groupHashP.init (List.replicate 512 true)
    let a ← a.feed groupHashP.C groupHashP.J (wordElem bigOctetBigBit 8) .container groupHashP.cache0 input
    groupHashP.process a 300 : Except Fault (Option Jub)) with
  | .ok r => r
  | .error _ => none

-- test/find_group_hash.cpp:101
#guard groupHash [0, 0, 0, 0] == some ⟨14821992026951101352906249207585330645531160601076441869339940926000353872705,
  52287259411977570791304693313354699485314647509298698724706688571292689216990⟩
#guard groupHash [1, 0, 0, 0] == some ⟨1463691854240270278606818648002136194121833583821877204193209581327298182344,
  29819841443135548958808950484163239058878703816702478211299889017771131589670⟩
#guard groupHash [2, 0, 0, 0] == some ⟨40291265060939609650944463710328312785099355084223308258183327547022417006973,
  52192102488968215278324791125420866252464543397675384723668566547038588479994⟩
#guard groupHash [3, 0, 0, 0] == some ⟨9727827140824687394408632390964265750934762150332666686367551954377952599690,
  19724757542882122580209648860907766139392382704367414563715710526666657068129⟩

def jr : Nat := 6554484396890773809930967563523245729705921265872317281365359162392183254199

def pedersenBases : Array Jub := (Array.range 21).map fun i => (groupHash [i, 0, 0, 0]).getD default

def pedersenP : PedersenParams Jub := ⟨jr, 63, 252, fun i => pedersenBases[i]!⟩

def bitsOf (s : String) : List Bool := s.toList.map (· == '1')

/-- `pedersen_to_point` and the 255 bits of the first coordinate (`pedersen`). -/
def pedersenTest (input : List Bool) (x y : Nat) (bits : String) : Bool :=
  match pedersenHash pedersenP 3 input with
  | some p => p == ⟨x, y⟩ && (List.range 255).map p.x.testBit == bitsOf bits
  | none => false

/-- The bits alone. -/
def pedersenBits (input : List Bool) (bits : String) : Bool :=
  match pedersenHash pedersenP 3 input with
  | some p => (List.range 255).map p.x.testBit == bitsOf bits
  | none => false

-- test/pedersen.cpp:85
#guard pedersenTest (bitsOf ("000111"))
  3669431847238482802904025485408296241776002230868041345055738963615665974946
  27924821127213629235056488929093463445821551452792195607066067950495472725010
  ("010001010111011010001011010101001101101110001000010000010100110100110101010010000000101001000001" ++
    "100111011101111000001010000100101001110111000011000010010001000111110000110001110100100101011110" ++
    "001011110101001101100111101000111110010011001011001110000001000")
#guard pedersenTest (bitsOf ("00011"))
  36263379031273262448220672699212876513597479199804632409115456999776988098218
  31510484483269042758896724536623472863781228578271767290815193389100113348921
  ("010101010111011101011010100011110000001000101100111011011111011100111000110011100010000110001101" ++
    "111010000101000101110011111001011001000000000110001000011110001111101000001110101001110101011100" ++
    "001110000000011101111001100111101011101000011010001101000000101")
#guard pedersenTest (bitsOf ("001"))
  37613883148175089126541491300600635192159391899451195953263717773938227311808
  52287259411977570791304693313354699485314647509298698724706688571292689216990
  ("000000110010111001110110101110111010011100010110111110100111111010001001111010001000001101111101" ++
    "001101100000001100111101011111101001011011111000111100010101100110111001001011101100101110000000" ++
    "100100111100011101101001011111001100100000101101000101001100101")
#guard pedersenTest (bitsOf ("001001001001001001001001001001001001001001001001001001001001001001001001001001001001001001001001" ++
    "001001001001001001001001001001001001001001001001001001001001001001001001001001001001001001001"))
  42176130776060636907007595971304534904965322197894055434176666599102076910022
  41298132615767455442973386625334423316246314118050839847545855695501416927077
  ("011000111001111011000111101000011110110000010001011101101000110100000100011111101101100000100100" ++
    "001100110010010100111111111101001001110010101110011001010000011101000110010001010111110001101111" ++
    "101011101101001111011000011110110010100000011011011111001011101")
#guard pedersenBits (bitsOf ("000011101001000000010010101011001100011101001011111110100001111010111100110101100000101100011110" ++
    "001110101111010010101001000111010101110101010010100000110100001000011000111010001001110101111111"))
  ("101100100110010100101100010101001001001111111001001100011101101111011101110111111000111010111011" ++
    "011001100011100101110010101001101110100111111101110011100000101111010101111000101101001101110010" ++
    "110001010001100001111010101001001110000101011111001010110000010")
#guard pedersenTest ((List.replicate (63 * 20) [false, false, true]).flatten)
  16831926627213193043296678235139527332739870606672735560230973395062624230202
  29758113761493087483326459667018939508613372210858382541334106957041082715241
  ("010111001101100001110101011010000001110111111001001011011100001101101101000100101110111110100110" ++
    "000101001110011101011011001111110111110001011000110101000101110110010101001001000011101100101011" ++
    "110010111000111000111010001111011001011000010001011011001010010")

end Verif.Validation
