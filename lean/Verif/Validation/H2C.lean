import Verif.Validation.H2F
import Verif.Props.H2CG2
/-
Tests, not proofs: the samples of test/h2c.cpp.  Square roots and curve arithmetic below stand for the algebra
library; nothing is proved about them.
-/
namespace Verif.Validation

open Spec Verif.Props

section
variable {F : Type} [Field F] [DecidableEq F]

def powF (a : F) (e : Nat) : F :=
  if e = 0 then 1 else
    let h := powF (a * a) (e / 2)
    if e % 2 = 1 then a * h else h
termination_by e
decreasing_by omega

/-- Affine points of a curve `y² = x³ + B`; `none` is the point at infinity. -/
structure Aff (F : Type) where
  pt : Option (F × F)

def Aff.add : Aff F → Aff F → Aff F
  | ⟨none⟩, q => q
  | p, ⟨none⟩ => p
  | ⟨some (x1, y1)⟩, ⟨some (x2, y2)⟩ =>
    if x1 = x2 ∧ y1 + y2 = 0 then ⟨none⟩ else
      let l := if x1 = x2 then 3 * x1 * x1 / (2 * y1) else (y2 - y1) / (x2 - x1)
      let x := l * l - x1 - x2
      ⟨some (x, l * (x1 - x) - y1)⟩

def Aff.smul (n : Nat) (p : Aff F) : Aff F := if n = 0 then ⟨none⟩ else
  let h := Aff.smul (n / 2) p
  let h := h.add h
  if n % 2 = 1 then h.add p else h
termination_by n
decreasing_by omega

instance : Add (Aff F) := ⟨Aff.add⟩
instance : SMul ℕ (Aff F) := ⟨Aff.smul⟩
end

/-- `p ≡ 3 mod 4`. -/
def opsFp : FieldOps Fp where
  isSquare a := powF a ((bls12381P - 1) / 2) != -1
  sqrt a := powF a ((bls12381P + 1) / 4)
  sgn0 := sgn0Fp

/-- Square root in the quadratic extension by the complex method. -/
def opsFp2 : FieldOps Fp2 where
  isSquare a := opsFp.isSquare (a.re * a.re + a.im * a.im)
  sqrt a :=
    if a.im = 0 then (if opsFp.isSquare a.re then ⟨opsFp.sqrt a.re, 0⟩ else ⟨0, opsFp.sqrt (-a.re)⟩) else
      let n := opsFp.sqrt (a.re * a.re + a.im * a.im)
      let d := (a.re + n) / 2
      let d := if opsFp.isSquare d then d else (a.re - n) / 2
      let x := opsFp.sqrt d
      ⟨x, a.im / (2 * x)⟩
  sgn0 := fun y => sgn0Fp2 y

/-- `hash<h2c<group>>(message)`. -/
def h2c {F : Type} [Field F] [DecidableEq F] (S : H2fSuite) (T : H2cSuite F) (O : FieldOps F) (toField : List Nat → F)
    (one : F × F) (pieces : List (List Nat)) : Option (F × F) :=
  match (do
    let P : XmdParams sha256S.σ Bits := ⟨sha256S.C, clearingInjector, bigOctetBigBit, List.replicate 64 9, octetsOf,
      S.digestBits / 8, S.lenInBytes .uniform⟩
    let g := fun i : Nat => List.replicate 512 (i % 2 == 0)
    let a ← P.init (g 0)
    let (_, r) ← P.run g (List.replicate P.len 0) (S.defaultDst .uniform)
      (h2cProcess (G := Aff F) S.m S.L blsP toField O T one (fun p => ⟨some p⟩)) a []
      (pieces.map (.update (wordElem bigOctetBigBit 8) .container (List.replicate 64 9)) ++ [.extract])
    return r : Except Fault (List (Aff F))) with
  | .ok [r] => r.pt
  | _ => none

/-- A message in one piece and in two pieces. -/
def h2cG1 (msg : String) (x y : Nat) : Bool :=
  let m := msg.toUTF8.toList.map (·.toNat)
  [[m], [m.take (m.length / 3), m.drop (m.length / 3)]].all fun pieces =>
    h2c h2fG1 (g1Suite Fp) opsFp (fun l => (l.getD 0 0 : Fp)) (0, 0) pieces == some ((x : Fp), (y : Fp))

def h2cG2 (msg : String) (x0 x1 y0 y1 : Nat) : Bool :=
  let m := msg.toUTF8.toList.map (·.toNat)
  [[m], [m.take (m.length / 3), m.drop (m.length / 3)]].all fun pieces =>
    h2c h2fG2 (g2Suite im2) opsFp2 toFp2 (0, 0) pieces == some ((⟨x0, x1⟩ : Fp2), (⟨y0, y1⟩ : Fp2))

-- test/h2c.cpp:127
#guard h2cG1 ""
  794311575721400831362957049303781044852006323422624111893352859557450008308620925451441746926395141598720928151969
  1343412193624222137939591894701031123123641958980729764240763391191550653712890272928110356903136085217047453540965
#guard h2cG1 "abc"
  513738460217615943921285247703448567647875874745567372796164155472383127756567780059136521508428662765965997467907
  1786897908129645780825838873875416513994655004408749907941296449131605892957529391590865627492442562626458913769565
#guard h2cG1 "abcdef0123456789"
  2751628761372137084683207295437105268166375184027748372156952770986741873369176463286511518644061904904607431667096
  563036982304416203921640398061260377444881693369806087719971277317609936727208012968659302318886963927918562170633
#guard h2cG1 "q128_qqqqqqqqqqqqqqqqqqqqqqqqqqqqqqqqqqqqqqqqqqqqqqqqqqqqqqqqqqqqqqqqqqqqqqqqqqqqqqqqqqqqqqqqqqqqqqqqqqqqqqqqqqqqqqqqqqqqqqqqqqqqqqqq"
  3380432694887674439773082418192083720584748080704959172978586229921475315220434165460350679208315690319508336723080
  3698526739072864408749571082270628561764415577445404115596990919801523793138348254443092179877354467167123794222392
#guard h2cG1 "a512_aaaaaaaaaaaaaaaaaaaaaaaaaaaaaaaaaaaaaaaaaaaaaaaaaaaaaaaaaaaaaaaaaaaaaaaaaaaaaaaaaaaaaaaaaaaaaaaaaaaaaaaaaaaaaaaaaaaaaaaaaaaaaaaaaaaaaaaaaaaaaaaaaaaaaaaaaaaaaaaaaaaaaaaaaaaaaaaaaaaaaaaaaaaaaaaaaaaaaaaaaaaaaaaaaaaaaaaaaaaaaaaaaaaaaaaaaaaaaaaaaaaaaaaaaaaaaaaaaaaaaaaaaaaaaaaaaaaaaaaaaaaaaaaaaaaaaaaaaaaaaaaaaaaaaaaaaaaaaaaaaaaaaaaaaaaaaaaaaaaaaaaaaaaaaaaaaaaaaaaaaaaaaaaaaaaaaaaaaaaaaaaaaaaaaaaaaaaaaaaaaaaaaaaaaaaaaaaaaaaaaaaaaaaaaaaaaaaaaaaaaaaaaaaaaaaaaaaaaaaaaaaaaaaaaaaaaaaaaaaaaaaaaaaaaaaaaaaaaaaaaaaaaaaaaaaa"
  1256967425542823069694513550918025689490036478501181600525944653952846100887848729514132077573887342346961531624702
  880372082403694543476959909256504267215588055450016885103797700856746532134585942561958795215862304181527267736264
-- test/h2c.cpp:188
#guard h2cG2 ""
  193548053368451749411421515628510806626565736652086807419354395577367693778571452628423727082668900187036482254730
  891930009643099423308102777951250899694559203647724988361022851024990473423938537113948850338098230396747396259901
  771717272055834152378281705972671257005357145478800908373659404991537354153455452961747174765859335819766715637138
  2810310118582126634041133454180705304393079139103252956502404531123692847658283858246402311867775854528543237781718
#guard h2cG2 "abc"
  424958340463073975547762735517193206833255107941790909009827635556634414746056077714431786321247871628515967727334
  3018679803970127877262826393814472528557413504329194740495363852840690589001358162447917674089074634504498585239512
  3621308185128395459888995526527127556614768604472132176060423302734876099689739385100475320409412954617897892887112
  102447784096837908713257069727879782642075240724579670654226801345708452018676587771714457671432122751958633012502
#guard h2cG2 "abcdef0123456789"
  2785790728239146617702443308248535381016035748520698399690132325213972292102741627498014391457605127656937478044880
  3855709393631831880910167818276435187147963371126198799654803099743427431977934703201153169947378798970358200024876
  821938378705205565995357931232097952117504537366318395539093959918654729488074273868834599496909844419980823111624
  1802420335575779950982935580421454302087567926385222707947527353462942499437987207287862072369052390195154530059198
#guard h2cG2 "q128_qqqqqqqqqqqqqqqqqqqqqqqqqqqqqqqqqqqqqqqqqqqqqqqqqqqqqqqqqqqqqqqqqqqqqqqqqqqqqqqqqqqqqqqqqqqqqqqqqqqqqqqqqqqqqqqqqqqqqqqqqqqqqqqq"
  3949041098513688455491231180749724794697192943196730030853285011755806989731870696216017360514887069032515603535834
  1416893694506131976809002935212216317132941942570763849323065381335907430566747765697423320407614734575486820936593
  3227453710863835032992962605851449401391399355135442728893790186263669279022343042444878900124369614767241382891922
  1498738834073759871886466122933996764471889514532827927202777922460876335493588931070034160657995151627624577390178
#guard h2cG2 "a512_aaaaaaaaaaaaaaaaaaaaaaaaaaaaaaaaaaaaaaaaaaaaaaaaaaaaaaaaaaaaaaaaaaaaaaaaaaaaaaaaaaaaaaaaaaaaaaaaaaaaaaaaaaaaaaaaaaaaaaaaaaaaaaaaaaaaaaaaaaaaaaaaaaaaaaaaaaaaaaaaaaaaaaaaaaaaaaaaaaaaaaaaaaaaaaaaaaaaaaaaaaaaaaaaaaaaaaaaaaaaaaaaaaaaaaaaaaaaaaaaaaaaaaaaaaaaaaaaaaaaaaaaaaaaaaaaaaaaaaaaaaaaaaaaaaaaaaaaaaaaaaaaaaaaaaaaaaaaaaaaaaaaaaaaaaaaaaaaaaaaaaaaaaaaaaaaaaaaaaaaaaaaaaaaaaaaaaaaaaaaaaaaaaaaaaaaaaaaaaaaaaaaaaaaaaaaaaaaaaaaaaaaaaaaaaaaaaaaaaaaaaaaaaaaaaaaaaaaaaaaaaaaaaaaaaaaaaaaaaaaaaaaaaaaaaaaaaaaaaaaaaaaaaaaaaaa"
  254155017921606149907129844368549510385368618440139550318910532874259603395336903946742408725761795820224536519988
  2768431459296730426779166218544149791601585986233130583011501727704972362141149700714785450629498506208393873593705
  1755339344744337457318565116062025669984750617937721245220711425551575490663761638802010265668157125441634554205566
  560643043433789571968941329642646582974304556331567393300563909451776257854214387388500126524984624222885267024722

end Verif.Validation
