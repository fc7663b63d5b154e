import Verif.Validation.Basic
import Verif.Model.H2F
import Verif.Model.H2fSuites
/-
Tests, not proofs: the samples of test/h2f.cpp (default parameters of `h2f`: sha2<256>, two elements, the tag
"QUUX-V01-CS02-with-" and the suite).
-/
namespace Verif.Validation

open Spec Verif.Props

/-- Octets of a digest. -/
def octetsOf (d : Bits) : List Nat := (List.range (d.length / 8)).map fun i =>
  ((d.drop (8 * i)).take 8).foldl (fun a x => 2 * a + x.toNat) 0

/-- `hash<h2f<field>>(message)`: a new accumulator, one update, one extraction. -/
def h2f (S : H2fSuite) (p : Nat) (msg : String) : Except Fault (List (List Nat)) := do
  let P : XmdParams _ Bits := ⟨sha256S.C, clearingInjector, bigOctetBigBit, List.replicate 64 9, octetsOf, S.digestBits / 8,
    S.lenInBytes .uniform⟩
  let g := fun i : Nat => List.replicate 512 (i % 2 == 0)
  let a ← P.init (g 0)
  let (_, r) ← P.run g (List.replicate P.len 0) (S.defaultDst .uniform) (h2fProcess 2 S.m S.L p) a []
    [.update (wordElem bigOctetBigBit 8) .container (List.replicate 64 9) (msg.toUTF8.toList.map (·.toNat)), .extract]
  return r.flatten

/-- The modulus of the base field of BLS12-381. -/
def blsP : Nat := 0x1a0111ea397fe69a4b1ba7b6434bacd764774b84f38512bf6730d2a0f6b0f6241eabfffeb153ffffb9feffffffffaaab

def h2fAll (S : H2fSuite) (v : List (String × List (List Nat))) : Bool := v.all fun (m, u) =>
  match h2f S blsP m with
  | .ok r => r == u
  | .error _ => false

-- test/h2f.cpp:99
#guard h2fAll h2fG1 [
  ("",
   [[1790030616568561980207134218344899338736900885118493183248255875682123737756800213955590674957414534085508415116879],
    [247470258331762152370823329280394074170045058453263356372873997375166908584899100434893060702108665825589810322121]]),
  ("abc",
   [[2088728490498894818688784437928579501848367107744050576780266498473771518428420173373487118890161663886009635645777],
    [32138924938310862093169606408734331410171587925844216752733293543601988453843327878077294514665889481436558332217]]),
  ("abcdef0123456789",
   [[950597030816464821778971015673486129641410344078861474750527508537804549386058612983484048401731236595379325781716],
    [1979385000937648348925653198641340374887185657649818450486460034420643425685140133042050299078521896600910613745210]]),
  ("q128_qqqqqqqqqqqqqqqqqqqqqqqqqqqqqqqqqqqqqqqqqqqqqqqqqqqqqqqqqqqqqqqqqqqqqqqqqqqqqqqqqqqqqqqqqqqqqqqqqqqqqqqqqqqqqqqqqqqqqqqqqqqqqqqq",
   [[156598384884054652954707150757138355079410210785113857376825014810441188545548595465313883035731540725116276838022],
    [1709027689043323463259398100486189187238532958310276339146988040422594808842792053521671901476006506290292962489454]]),
  ("a512_aaaaaaaaaaaaaaaaaaaaaaaaaaaaaaaaaaaaaaaaaaaaaaaaaaaaaaaaaaaaaaaaaaaaaaaaaaaaaaaaaaaaaaaaaaaaaaaaaaaaaaaaaaaaaaaaaaaaaaaaaaaaaaaaaaaaaaaaaaaaaaaaaaaaaaaaaaaaaaaaaaaaaaaaaaaaaaaaaaaaaaaaaaaaaaaaaaaaaaaaaaaaaaaaaaaaaaaaaaaaaaaaaaaaaaaaaaaaaaaaaaaaaaaaaaaaaaaaaaaaaaaaaaaaaaaaaaaaaaaaaaaaaaaaaaaaaaaaaaaaaaaaaaaaaaaaaaaaaaaaaaaaaaaaaaaaaaaaaaaaaaaaaaaaaaaaaaaaaaaaaaaaaaaaaaaaaaaaaaaaaaaaaaaaaaaaaaaaaaaaaaaaaaaaaaaaaaaaaaaaaaaaaaaaaaaaaaaaaaaaaaaaaaaaaaaaaaaaaaaaaaaaaaaaaaaaaaaaaaaaaaaaaaaaaaaaaaaaaaaaaaaaaaaaaaaa",
   [[1625704516324785166230868561544190006281306318060308039760768255839116494270087378351796462565313509233883467016390],
    [897347619044039892426123073051050824113615337090860431730602102178645855045832565883684732229117125155988066429111]])]

-- test/h2f.cpp:159
#guard h2fAll h2fG2 [
  ("",
   [[593868448310005448561172252387029516360409945786457439875974315031640021389835649561235021338510064922970633805048,
     867375309489067512797459860887365951877054038763818448057326190302701649888849997836339069389536967202878289851290],
    [457889704519948843474026022562641969443315715595459159112874498082953431971323809145630315884223143822925947137684,
     3132697209754082586339430915081913810572071485832539443682634025529375380328136128542015469873094481703191673087029]]),
  ("abc",
   [[3381151350286428005095780827831774583653641216459357823974407145557165174365389989442078766443621078367363453769585,
     274174695370444263853418070745339731640467919355184108253716879519695397069963034977795744692362177212201505728989],
    [3761918608077574755256083960277010506684793456226386707192711779006489497410866269311252402421709839991039401264868,
     1342131492846344403298252211066711749849099599627623100864413228392326132610002371925674088601653350525231531947366]]),
  ("abcdef0123456789",
   [[473675666561824532624430085786519186022432661190411421300774903722488254154373895989233527517731907580580706354657,
     952054055741569191636251086712730713168379169215995952659453378797733761324494587640793580119096894387397115436943],
    [3574336717567028224405133950386477048284620456829914449302272757384276784667241972055005113408837488328262928878231,
     236560234570779724493776347038280372672357707388331177592141885473069234541795826215789679703490403053611203549557]]),
  ("q128_qqqqqqqqqqqqqqqqqqqqqqqqqqqqqqqqqqqqqqqqqqqqqqqqqqqqqqqqqqqqqqqqqqqqqqqqqqqqqqqqqqqqqqqqqqqqqqqqqqqqqqqqqqqqqqqqqqqqqqqqqqqqqqqq",
   [[360813192967721750300518886199139144998048338798825614283933488104229200738975219634991234987258997592645316502099,
     500990438531178609604960653858613389740198594452593804998108691726565882501777715476408413735192405455364595747963],
    [1414201600433038156752401103621159164529164806638579329495300394501933973057103319123042671630779248244072674138005,
     2580989994757912640015815541704972436791025324967858519264081257257405036397177981572950833626047365407639272235247]]),
  ("a512_aaaaaaaaaaaaaaaaaaaaaaaaaaaaaaaaaaaaaaaaaaaaaaaaaaaaaaaaaaaaaaaaaaaaaaaaaaaaaaaaaaaaaaaaaaaaaaaaaaaaaaaaaaaaaaaaaaaaaaaaaaaaaaaaaaaaaaaaaaaaaaaaaaaaaaaaaaaaaaaaaaaaaaaaaaaaaaaaaaaaaaaaaaaaaaaaaaaaaaaaaaaaaaaaaaaaaaaaaaaaaaaaaaaaaaaaaaaaaaaaaaaaaaaaaaaaaaaaaaaaaaaaaaaaaaaaaaaaaaaaaaaaaaaaaaaaaaaaaaaaaaaaaaaaaaaaaaaaaaaaaaaaaaaaaaaaaaaaaaaaaaaaaaaaaaaaaaaaaaaaaaaaaaaaaaaaaaaaaaaaaaaaaaaaaaaaaaaaaaaaaaaaaaaaaaaaaaaaaaaaaaaaaaaaaaaaaaaaaaaaaaaaaaaaaaaaaaaaaaaaaaaaaaaaaaaaaaaaaaaaaaaaaaaaaaaaaaaaaaaaaaaaaaaaaaaa",
   [[3854656460966118202185202795415969034444473478700041637108073179423449626727403291696647010132509133525205314259253,
     2873494353363126311409085895530381085174075451844000378947122252646711114869905923958066527312260237781765269081913],
    [2218682278840147973132952196327912255143646871258838127959845658885016361690895544274403462155614933990666846598837,
     2692054640040186323570630735219910885988179020142391687801930252786130591827501100656577702624784849458500251540952]])]

end Verif.Validation
