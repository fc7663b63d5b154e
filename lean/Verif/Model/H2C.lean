import Mathlib.Algebra.Field.Defs
import Mathlib.Algebra.QuadraticAlgebra.Basic
import Mathlib.Data.ZMod.Basic
import Verif.Model.Core
import Verif.Model.H2F
/-
Model of `hash_to_curve` for BLS12-381: simplified SWU, isogeny maps, `ep_map`
(detail/h2c/h2c_functions.hpp, detail/h2c/h2c_suites.hpp, h2c.hpp:114-116).
-/
namespace Verif

/-- The operations of the algebra library that the map uses, besides field arithmetic (`+`, `*`, `-`, `/`, `pow`,
`inversed`; contract: `inversed` of zero is zero): `is_square`, `sqrt` and the sign of an element. -/
structure FieldOps (F : Type) where
  isSquare : F → Bool
  sqrt : F → F
  sgn0 : F → Bool

/-- `sgn0(element_fp)`, detail/h2c/h2c_functions.hpp:46-54 (contract: `e.data % two` is the remainder of the
canonical representative). -/
def sgn0Fp {p : Nat} (e : ZMod p) : Bool := e.val % 2 != 0

/-- `sgn0(element_fp2)`, detail/h2c/h2c_functions.hpp:56-67. -/
def sgn0Fp2 {p : Nat} {a b : ZMod p} (e : QuadraticAlgebra (ZMod p) a b) : Bool :=
  let sign0 := e.re.val % 2
  let zero0 := e.re.val == 0
  let sign1 := e.im.val % 2
  sign0 != 0 || (zero0 && sign1 != 0)

section
variable {F : Type} [Field F] [DecidableEq F]

/-- `x1` before the exceptional case, and the exceptional case, detail/h2c/h2c_functions.hpp:291-295. -/
def sswuX1 (A B Z u : F) : F :=
  let tv1 := (Z ^ 2 * u ^ 4 + Z * u ^ 2)⁻¹
  if tv1 = 0 then B / (Z * A) else (-B / A) * (1 + tv1)

/-- `gx1`, `gx2`, lines 296 and 298. -/
def sswuG (A B x : F) : F := x ^ 3 + A * x + B

/-- `m2c_simple_swu::process`, detail/h2c/h2c_functions.hpp:280-310: affine coordinates of the result. -/
def sswu (O : FieldOps F) (A B Z u : F) : F × F :=
  let x1 := sswuX1 A B Z u
  let gx1 := sswuG A B x1
  let x2 := Z * u ^ 2 * x1
  let gx2 := sswuG A B x2
  let (x, y) := if O.isSquare gx1 then (x1, O.sqrt gx1) else (x2, O.sqrt gx2)
  let y := if O.sgn0 u != O.sgn0 y then -y else y
  (x, y)

/-- `xi_powers`, lines 152-158 and 239-245: `n` multiplications after the leading one. -/
def xiPowers (x : F) : Nat → List F
  | 0 => [1]
  | n + 1 => xiPowers x n ++ [(xiPowers x n).getLastD 1 * x]

/-- `for (i = 0; i < k.size(); i++) acc += k[i] * xi_powers[i]`; a read past the end of `xi_powers` is a
fault. -/
def polyLoop (powers : List F) : List F → Nat → F → Except Fault F
  | [], _, acc => .ok acc
  | c :: cs, i, acc =>
    match powers[i]? with
    | some xi => polyLoop powers cs (i + 1) (acc + c * xi)
    | none => .error .outOfRange

/-- The loop followed by `den += xi_powers[k.size()]`. -/
def monicLoop (powers : List F) (cs : List F) : Except Fault F := do
  let acc ← polyLoop powers cs 0 0
  match powers[cs.length]? with
  | some xi => return acc + xi
  | none => .error .outOfRange

/-- `iso_map::process`, lines 146-183 (`n = 15`) and 233-270 (`n = 3`); `one` is `group_value_type::one()`. -/
def isoMap (one : F × F) (n : Nat) (xNum xDen yNum yDen : List F) (ci : F × F) : Except Fault (F × F) := do
  let powers := xiPowers ci.1 n
  let x_den ← monicLoop powers xDen
  let y_den ← monicLoop powers yDen
  if x_den = 0 ∨ y_den = 0 then return one
  let x_num ← polyLoop powers xNum 0 0
  let y_num ← polyLoop powers yNum 0 0
  return (x_num / x_den, ci.2 * y_num / y_den)

/-- Constants of a suite, detail/h2c/h2c_suites.hpp:44-79, and of its isogeny. -/
structure H2cSuite (F : Type) where
  A : F
  B : F
  Z : F
  powers : Nat
  xNum : List F
  xDen : List F
  yNum : List F
  yDen : List F
  hEff : Nat

/-- `map_to_curve::process` = `m2c_simple_swu_zeroAB::process`, lines 314-336. -/
def mapToCurve (O : FieldOps F) (S : H2cSuite F) (one : F × F) (u : F) : Except Fault (F × F) :=
  isoMap one S.powers S.xNum S.xDen S.yNum S.yDen (sswu O S.A S.B S.Z u)

/-- `ep_map` (lines 343-351), with `clear_cofactor` (lines 338-341).  `G` is the group of the algebra library and
`point` the constructor from affine coordinates. -/
def epMap {G : Type} [Add G] [SMul ℕ G] (O : FieldOps F) (S : H2cSuite F) (one : F × F) (point : F × F → G)
    (u : List F) : Except Fault G := do
  match u with
  | [u0, u1] =>
    let q0 ← mapToCurve O S one u0
    let q1 ← mapToCurve O S one u1
    return S.hEff • (point q0 + point q1)
  | _ => .error .outOfRange

/-- `h2c::process`, h2c.hpp:114-116, after the octets of `expand_message_xmd`: `hash_type::process` (h2f.hpp), then
`ep_map`.  `toField` builds a field element from its coordinates. -/
def h2cProcess {G : Type} [Add G] [SMul ℕ G] (m L p : Nat) (toField : List Nat → F) (O : FieldOps F) (S : H2cSuite F)
    (one : F × F) (point : F × F → G) (bytes : List Nat) : Except Fault G := do
  let us ← h2fProcess 2 m L p bytes
  epMap O S one point (us.map toField)
end

/-- `k_x_num` of `iso_map<g1_type>`, detail/h2c/h2c_functions.hpp:84-96. -/
def g1XNum : List Nat := [
    0x11a05f2b1e833340b809101dd99815856b303e88a2d7005ff2627b56cdb4e2c85610c2d5f2e62d6eaeac1662734649b7,
    0x17294ed3e943ab2f0588bab22147a81c7c17e75b2f6a8417f565e33c70d1e86b4838f2a6f318c356e834eef1b3cb83bb,
    0xd54005db97678ec1d1048c5d10a9a1bce032473295983e56878e501ec68e25c958c3e3d2a09729fe0179f9dac9edcb0,
    0x1778e7166fcc6db74e0609d307e55412d7f5e4656a8dbf25f1b33289f1b330835336e25ce3107193c5b388641d9b6861,
    0xe99726a3199f4436642b4b3e4118e5499db995a1257fb3f086eeb65982fac18985a286f301e77c451154ce9ac8895d9,
    0x1630c3250d7313ff01d1201bf7a74ab5db3cb17dd952799b9ed3ab9097e68f90a0870d2dcae73d19cd13c1c66f652983,
    0xd6ed6553fe44d296a3726c38ae652bfb11586264f0f8ce19008e218f9c86b2a8da25128c1052ecaddd7f225a139ed84,
    0x17b81e7701abdbe2e8743884d1117e53356de5ab275b4db1a682c62ef0f2753339b7c8f8c8f475af9ccb5618e3f0c88e,
    0x80d3cf1f9a78fc47b90b33563be990dc43b756ce79f5574a2c596c928c5d1de4fa295f296b74e956d71986a8497e317,
    0x169b1f8e1bcfa7c42e0c37515d138f22dd2ecb803a0c5c99676314baf4bb1b7fa3190b2edc0327797f241067be390c9e,
    0x10321da079ce07e272d8ec09d2565b0dfa7dccdde6787f96d50af36003b14866f69b771f8c285decca67df3f1605fb7b,
    0x6e08c248e260e70bd1e962381edee3d31d79d7e22c837bc23c0bf1bc24c6b68c24b1b80b64d391fa9c8ba2e8ba2d229]

/-- `k_x_den` of `iso_map<g1_type>`, detail/h2c/h2c_functions.hpp:98-108. -/
def g1XDen : List Nat := [
    0x8ca8d548cff19ae18b2e62f4bd3fa6f01d5ef4ba35b48ba9c9588617fc8ac62b558d681be343df8993cf9fa40d21b1c,
    0x12561a5deb559c4348b4711298e536367041e8ca0cf0800c0126c2588c48bf5713daa8846cb026e9e5c8276ec82b3bff,
    0xb2962fe57a3225e8137e629bff2991f6f89416f5a718cd1fca64e00b11aceacd6a3d0967c94fedcfcc239ba5cb83e19,
    0x3425581a58ae2fec83aafef7c40eb545b08243f16b1655154cca8abc28d6fd04976d5243eecf5c4130de8938dc62cd8,
    0x13a8e162022914a80a6f1d5f43e7a07dffdfc759a12062bb8d6b44e833b306da9bd29ba81f35781d539d395b3532a21e,
    0xe7355f8e4e667b955390f7f0506c6e9395735e9ce9cad4d0a43bcef24b8982f7400d24bc4228f11c02df9a29f6304a5,
    0x772caacf16936190f3e0c63e0596721570f5799af53a1894e2e073062aede9cea73b3538f0de06cec2574496ee84a3a,
    0x14a7ac2a9d64a8b230b3f5b074cf01996e7f63c21bca68a81996e1cdf9822c580fa5b9489d11e2d311f7d99bbdcc5a5e,
    0xa10ecf6ada54f825e920b3dafc7a3cce07f8d1d7161366b74100da67f39883503826692abba43704776ec3a79a1d641,
    0x95fc13ab9e92ad4476d6e3eb3a56680f682b4ee96f7d03776df533978f31c1593174e4b4b7865002d6384d168ecdd0a]

/-- `k_y_num` of `iso_map<g1_type>`, detail/h2c/h2c_functions.hpp:110-126. -/
def g1YNum : List Nat := [
    0x90d97c81ba24ee0259d1f094980dcfa11ad138e48a869522b52af6c956543d3cd0c7aee9b3ba3c2be9845719707bb33,
    0x134996a104ee5811d51036d776fb46831223e96c254f383d0f906343eb67ad34d6c56711962fa8bfe097e75a2e41c696,
    0xcc786baa966e66f4a384c86a3b49942552e2d658a31ce2c344be4b91400da7d26d521628b00523b8dfe240c72de1f6,
    0x1f86376e8981c217898751ad8746757d42aa7b90eeb791c09e4a3ec03251cf9de405aba9ec61deca6355c77b0e5f4cb,
    0x8cc03fdefe0ff135caf4fe2a21529c4195536fbe3ce50b879833fd221351adc2ee7f8dc099040a841b6daecf2e8fedb,
    0x16603fca40634b6a2211e11db8f0a6a074a7d0d4afadb7bd76505c3d3ad5544e203f6326c95a807299b23ab13633a5f0,
    0x4ab0b9bcfac1bbcb2c977d027796b3ce75bb8ca2be184cb5231413c4d634f3747a87ac2460f415ec961f8855fe9d6f2,
    0x987c8d5333ab86fde9926bd2ca6c674170a05bfe3bdd81ffd038da6c26c842642f64550fedfe935a15e4ca31870fb29,
    0x9fc4018bd96684be88c9e221e4da1bb8f3abd16679dc26c1e8b6e6a1f20cabe69d65201c78607a360370e577bdba587,
    0xe1bba7a1186bdb5223abde7ada14a23c42a0ca7915af6fe06985e7ed1e4d43b9b3f7055dd4eba6f2bafaaebca731c30,
    0x19713e47937cd1be0dfd0b8f1d43fb93cd2fcbcb6caf493fd1183e416389e61031bf3a5cce3fbafce813711ad011c132,
    0x18b46a908f36f6deb918c143fed2edcc523559b8aaf0c2462e6bfe7f911f643249d9cdf41b44d606ce07c8a4d0074d8e,
    0xb182cac101b9399d155096004f53f447aa7b12a3426b08ec02710e807b4633f06c851c1919211f20d4c04f00b971ef8,
    0x245a394ad1eca9b72fc00ae7be315dc757b3b080d4c158013e6632d3c40659cc6cf90ad1c232a6442d9d3f5db980133,
    0x5c129645e44cf1102a159f748c4a3fc5e673d81d7e86568d9ab0f5d396a7ce46ba1049b6579afb7866b1e715475224b,
    0x15e6be4e990f03ce4ea50b3b42df2eb5cb181d8f84965a3957add4fa95af01b2b665027efec01c7704b456be69c8b604]

/-- `k_y_den` of `iso_map<g1_type>`, detail/h2c/h2c_functions.hpp:128-143. -/
def g1YDen : List Nat := [
    0x16112c4c3a9c98b252181140fad0eae9601a6de578980be6eec3232b5be72e7a07f3688ef60c206d01479253b03663c1,
    0x1962d75c2381201e1a0cbd6c43c348b885c84ff731c4d59ca4a10356f453e01f78a4260763529e3532f6102c2e49a03d,
    0x58df3306640da276faaae7d6e8eb15778c4855551ae7f310c35a5dd279cd2eca6757cd636f96f891e2538b53dbf67f2,
    0x16b7d288798e5395f20d23bf89edb4d1d115c5dbddbcd30e123da489e726af41727364f2c28297ada8d26d98445f5416,
    0xbe0e079545f43e4b00cc912f8228ddcc6d19c9f0f69bbb0542eda0fc9dec916a20b15dc0fd2ededda39142311a5001d,
    0x8d9e5297186db2d9fb266eaac783182b70152c65550d881c5ecd87b6f0f5a6449f38db9dfa9cce202c6477faaf9b7ac,
    0x166007c08a99db2fc3ba8734ace9824b5eecfdfa8d0cf8ef5dd365bc400a0051d5fa9c01a58b1fb93d1a1399126a775c,
    0x16a3ef08be3ea7ea03bcddfabba6ff6ee5a4375efa1f4fd7feb34fd206357132b920f5b00801dee460ee415a15812ed9,
    0x1866c8ed336c61231a1be54fd1d74cc4f9fb0ce4c6af5920abc5750c4bf39b4852cfe2f7bb9248836b233d9d55535d4a,
    0x167a55cda70a6e1cea820597d94a84903216f763e13d87bb5308592e7ea7d4fbc7385ea3d529b35e346ef48bb8913f55,
    0x4d2f259eea405bd48f010a01ad2911d9c6dd039bb61a6290e591b36e636a5c871a5c29f4f83060400f8b49cba8f6aa8,
    0xaccbb67481d033ff5852c1e48c50c477f94ff8aefce42d28c0f9a88cea7913516f968986f7ebbea9684b529e2561092,
    0xad6b9514c767fe3c3613144b45f1496543346d98adf02267d5ceef9a00d9b8693000763e3b90ac11e99b138573345cc,
    0x2660400eb2e4f3b628bdd0d53cd76f2bf565b94e72927c1cb748df27942480e420517bd8714cc80d1fadc1326ed06f7,
    0xe0fa1d816ddc03e6b24255e0d7819c171c40f65e273b853324efcd6356caa205ca2f570f13497804415473a1d634b8f]

/-- `k_x_num` of `iso_map<g2_type>`, detail/h2c/h2c_functions.hpp:198-206. -/
def g2XNum : List (Nat × Nat) := [
    (0x5c759507e8e333ebb5b7a9a47d7ed8532c52d39fd3a042a88b58423c50ae15d5c2638e343d9c71c6238aaaaaaaa97d6,
     0x5c759507e8e333ebb5b7a9a47d7ed8532c52d39fd3a042a88b58423c50ae15d5c2638e343d9c71c6238aaaaaaaa97d6),
    (0x0,
     0x11560bf17baa99bc32126fced787c88f984f87adf7ae0c7f9a208c6b4f20a4181472aaa9cb8d555526a9ffffffffc71a),
    (0x11560bf17baa99bc32126fced787c88f984f87adf7ae0c7f9a208c6b4f20a4181472aaa9cb8d555526a9ffffffffc71e,
     0x8ab05f8bdd54cde190937e76bc3e447cc27c3d6fbd7063fcd104635a790520c0a395554e5c6aaaa9354ffffffffe38d),
    (0x171d6541fa38ccfaed6dea691f5fb614cb14b4e7f4e810aa22d6108f142b85757098e38d0f671c7188e2aaaaaaaa5ed1,
     0x0)]

/-- `k_x_den` of `iso_map<g2_type>`, detail/h2c/h2c_functions.hpp:208-212. -/
def g2XDen : List (Nat × Nat) := [
    (0x0,
     0x1a0111ea397fe69a4b1ba7b6434bacd764774b84f38512bf6730d2a0f6b0f6241eabfffeb153ffffb9feffffffffaa63),
    (0xc,
     0x1a0111ea397fe69a4b1ba7b6434bacd764774b84f38512bf6730d2a0f6b0f6241eabfffeb153ffffb9feffffffffaa9f)]

/-- `k_y_num` of `iso_map<g2_type>`, detail/h2c/h2c_functions.hpp:214-222. -/
def g2YNum : List (Nat × Nat) := [
    (0x1530477c7ab4113b59a4c18b076d11930f7da5d4a07f649bf54439d87d27e500fc8c25ebf8c92f6812cfc71c71c6d706,
     0x1530477c7ab4113b59a4c18b076d11930f7da5d4a07f649bf54439d87d27e500fc8c25ebf8c92f6812cfc71c71c6d706),
    (0x0,
     0x5c759507e8e333ebb5b7a9a47d7ed8532c52d39fd3a042a88b58423c50ae15d5c2638e343d9c71c6238aaaaaaaa97be),
    (0x11560bf17baa99bc32126fced787c88f984f87adf7ae0c7f9a208c6b4f20a4181472aaa9cb8d555526a9ffffffffc71c,
     0x8ab05f8bdd54cde190937e76bc3e447cc27c3d6fbd7063fcd104635a790520c0a395554e5c6aaaa9354ffffffffe38f),
    (0x124c9ad43b6cf79bfbf7043de3811ad0761b0f37a1e26286b0e977c69aa274524e79097a56dc4bd9e1b371c71c718b10,
     0x0)]

/-- `k_y_den` of `iso_map<g2_type>`, detail/h2c/h2c_functions.hpp:224-230. -/
def g2YDen : List (Nat × Nat) := [
    (0x1a0111ea397fe69a4b1ba7b6434bacd764774b84f38512bf6730d2a0f6b0f6241eabfffeb153ffffb9feffffffffa8fb,
     0x1a0111ea397fe69a4b1ba7b6434bacd764774b84f38512bf6730d2a0f6b0f6241eabfffeb153ffffb9feffffffffa8fb),
    (0x0,
     0x1a0111ea397fe69a4b1ba7b6434bacd764774b84f38512bf6730d2a0f6b0f6241eabfffeb153ffffb9feffffffffa9d3),
    (0x12,
     0x1a0111ea397fe69a4b1ba7b6434bacd764774b84f38512bf6730d2a0f6b0f6241eabfffeb153ffffb9feffffffffaa99)]

/-- `h2c_suite<g1_type>`, detail/h2c/h2c_suites.hpp:44-61. -/
def g1Suite (F : Type) [Field F] : H2cSuite F where
  A := ((0x144698a3b8e9433d693a02c96d4982b0ea985383ee66a8d8e8981aefd881ac98936f8da0e0f97f5cf428082d584c1d : Nat) : F)
  B := ((0x12e2908d11688030018b12e8753eee3b2016c1f0f24f4070a0b9c14fcef35ef55a23215a316ceaa5d1cc48e98e172be0 : Nat) : F)
  Z := ((11 : Nat) : F)
  powers := 15
  xNum := g1XNum.map Nat.cast
  xDen := g1XDen.map Nat.cast
  yNum := g1YNum.map Nat.cast
  yDen := g1YDen.map Nat.cast
  hEff := 0xd201000000010001

/-- `field_value_type(a, b)` of the quadratic extension; `i` is its imaginary unit. -/
def fp2 {F : Type} [Field F] (i : F) (c : Nat × Nat) : F := c.1 + c.2 * i

/-- `h2c_suite<g2_type>`, detail/h2c/h2c_suites.hpp:63-79. -/
def g2Suite {F : Type} [Field F] (i : F) : H2cSuite F where
  A := fp2 i (0, 240)
  B := fp2 i (1012, 1012)
  Z := -fp2 i (2, 1)
  powers := 3
  xNum := g2XNum.map (fp2 i)
  xDen := g2XDen.map (fp2 i)
  yNum := g2YNum.map (fp2 i)
  yDen := g2YDen.map (fp2 i)
  hEff := 0xbc69f08f2ee75b3584c6a0ea91b352888e2a8e9145ad7689986ff031508ffe1329c2f178731db956d82bf015d1212b02ec0ec69d7477c1ae954cbc06689f6a359894c0adebbf6b4e8020005aaa95551

end Verif
