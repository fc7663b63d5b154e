import Verif.Model.PoseidonInst
import Verif.Proof.GrainCheck
import Verif.Proof.Primes
/-
Evaluations of the tables of the library by the kernel.
-/
namespace Verif.GrainTables
open GrainCheck Spec.Grain

/-- The numbers from which the matrix `altBn128R2Mds` is made. -/
def altBn128R2XY : List Nat := [
  0x18a47b402eefb6d4d8543c9250e213f55ab0a1258c5f1640a8649e5d6a125d11,
  0x1ac8f0bc73bd1cb5d6bdb2587660e743a46a700cf79dbcf793f27cb04a732061,
  0x2fcc393b544bc8957613d0ac933ad21ea82070df842f7347585077a41c42e914,
  0x25c38acdf2ca148e54c4adf0836e59e0f466200fcc8479d9c03f59fbf8750bc9,
  0x3cef76b5a7bb5fb0837a80a0cc756aedaef29d1556c9c3ac905e346f5af11c63,
  0x1d660053722ca750a566e73233a0d6e61b31635b817de1930fa1e25771900ef]

/-- The numbers from which the matrix `altBn128R4Mds` is made. -/
def altBn128R4XY : List Nat := [
  0xcb503c379024de57deaf6bb962270b4d51b4cfc067f24715419cbc39cbc80d2,
  0x261f3a82c19ac95d0a100f58b18315bdfea190f1164bd061a9e678da5d648445,
  0x1079330041a36c77ef4f1d49b754bc64d366d7fcba4ab877de65569efe4f1bfd,
  0xf76e2abc14a1753040d57d0987851f59612c032f3d559c3ce786b94fc5ef45d,
  0x17f625128e4ab975d910e8d9ee75dcf56a01a445ef08c879df2dfc3579e582e5,
  0x2029a549adc0be910c2e885de907415780776ae2c732f0547ffafd669a8b9308,
  0xd1e2181e8772387d3bfa0abd749b24412beb1563e5d6059103e7c16ddd1425e,
  0x66e3c7f3a4af1d86f9da46532fecd6a1a0368350309831ebde052966e56950d,
  0x9f244a3d6991208aa83fbcab9fa462efd584edfa0e72e8cc4084ea1e2f91583,
  0x1979794e97c6de7333922c42733b3027b5fedef68322b75e10f7afbb92ae1c2f]

/-- The numbers from which the matrix `bls12R2Mds` is made. -/
def bls12R2XY : List Nat := [
  0x358ac928badd1ef73660bd435a53725fb5339a8478995fee4252db4ab66c359e,
  0x467775be1af25a92a9a92a30fb681234b9453a73b0a407434ba2c553892d9af7,
  0x1bfdbf64e67ff5975d3e36292443f39e2cf11aec4192113d129a4315f0ab7826,
  0xe5626898ad3536a442d03704f69a11758d2662f328832396f37d5b0e8cf6a13,
  0x4f152629febdb816f25b68eef5f9381d6287102cc3d0cb40dd652169047a78cd,
  0x77fd78dded15f32aed258c198ffcc5249cfb14475d059c61ba8c791434e851ae]

/-- The numbers from which the matrix `bls12R4Mds` is made. -/
def bls12R4XY : List Nat := [
  0x6bcd980038022d7aa6f3eb01760d516ec9c9a59bb3c2cad2190b06dd0d04f79f,
  0x1cccc7dd916392537a4416ec6b365d51a9bd6b904853d5ef4e5c836a50c33e9d,
  0x59a19f285201f95985fe26395c37e79f5d2ed39b638d43603f01491899718937,
  0x471b51cf29836d72e7e35ea10fda8b8d28a17b5c401147b1b00ba995cf2adf1d,
  0xde87e0a4652468d09dd66bc878ef46fe4d6a895414e3883d7be4e02a2a7796e,
  0x401fcbad45d3f48bd9c39ae7ec025e78452db9b923dd9d8a1779086a1e105795,
  0x241fc8920bb373ab732428dff7c908cea3e1f432d0f2b1cf4168d33e0fba662a,
  0x5bed0e06232088b96b878e9f5be0c8d2bb72ae99606ece9800cedecb80236961,
  0x513cd78487cc3640ad8236841d759bab5124dcfdded305dc6d9c351400b885db,
  0x1dcf981ae333b921bffcc29eafa138f89fcfb88496f8899478abbcf965f396b0]

/-- The numbers from which the matrix `pallasMds` is made. -/
def pallasXY : List Nat := [
  0x19d15adddbb24006ea06f3f354307ecec780ce9debf7e1a1b945c1b8b99b2a4f,
  0x3c486af4bd453b672652b30058744fbf613760f3997b08956aafb2afcebbbbc1,
  0x331e2c9952cfd75c581010264153bec3f6ac62e5d982caa68da7c783e1dacfe7,
  0x40000000000000000000000000000000224698fc094cf91b992d30ed00000000,
  0x2c15fde13fd8f638162a83499c26a7d5118fdaeb3ceba53f04a180f512e850c7,
  0x169fb8ddeba9bd6af71253f4258c0913b8834913151fcdcec5ca41fdb9626fa3]

/-- The numbers from which the matrix `vestaMds` is made. -/
def vestaXY : List Nat := [
  0x37b40dfc2a36206e43a6020f3edea730f6d87f6a457a186224e94965f4a62c8f,
  0x2b1f7e12ebadb091caa5cda691182fde7f13c7c4cd82bf61acec3da6ebfad276,
  0x3e888a6f04cbc60b3e0ff38958156a28b49f7261bd0d5f9077b49d57d482c10c,
  0x40000000000000000000000000000000224698fc0994a8dd8c46eb2100000000,
  0x11279b9fa41e7e5ebd90e0891000f8975f5aef0d2892d7bdc4d94090dc4dcf3a,
  0x31300521a8ffa90c51681822b7c5644e60aeefba964966072fe3eda2daad56e5]

set_option maxRecDepth 100000

theorem altBn128R2_all : GeneratesAll (seq (initial 1 0 254 3 8 57)) 254 altBn128Scalar
    PoseidonTables.altBn128R2Rc.flatten altBn128R2XY :=
  checkFrom_right 0 254 3 8 57 altBn128Scalar 60000 (by decide) _ _ (by decide +kernel)

theorem altBn128R2_other : GeneratesAll (seq (initial 1 1 254 3 8 57)) 254 altBn128Scalar
    [19485865621859867388605409984627977505075532994336668359662950672418001465501]
    [22958679688532279978799041358337179022102005151460415046829481976009694695595] :=
  checkFrom_right 1 254 3 8 57 altBn128Scalar 200 (by decide) _ _ (by decide +kernel)

theorem altBn128R4_all : GeneratesAll (seq (initial 1 0 254 5 8 60)) 254 altBn128Scalar
    PoseidonTables.altBn128R4Rc.flatten altBn128R4XY :=
  checkFrom_right 0 254 5 8 60 altBn128Scalar 60000 (by decide) _ _ (by decide +kernel)

theorem altBn128R4_other : GeneratesAll (seq (initial 1 1 254 5 8 60)) 254 altBn128Scalar
    [11363770179252464435423180691872109382590620068910755907558274633129732507708]
    [1664099632204583722939847867923895519405697583018652731485640023349361215928] :=
  checkFrom_right 1 254 5 8 60 altBn128Scalar 200 (by decide) _ _ (by decide +kernel)

theorem bls12R2_all : GeneratesAll (seq (initial 1 0 255 3 8 57)) 255 bls12Scalar
    PoseidonTables.bls12R2Rc.flatten bls12R2XY :=
  checkFrom_right 0 255 3 8 57 bls12Scalar 60000 (by decide) _ _ (by decide +kernel)

theorem bls12R2_other : GeneratesAll (seq (initial 1 1 255 3 8 57)) 255 bls12Scalar
    [31784805430556150359654733794921779843446480465175525613859870145402618383092]
    [17274086218098657997053810692698331898771192059962716821030477519310870607052] :=
  checkFrom_right 1 255 3 8 57 bls12Scalar 200 (by decide) _ _ (by decide +kernel)

theorem bls12R4_all : GeneratesAll (seq (initial 1 0 255 5 8 60)) 255 bls12Scalar
    PoseidonTables.bls12R4Rc.flatten bls12R4XY :=
  checkFrom_right 0 255 5 8 60 bls12Scalar 60000 (by decide) _ _ (by decide +kernel)

theorem bls12R4_other : GeneratesAll (seq (initial 1 1 255 5 8 60)) 255 bls12Scalar
    [35657293005074155017720340734395011787896701991001795811840797921611048719923]
    [4486274367464254520054228444461859251802215891691820990470874834923609012861] :=
  checkFrom_right 1 255 5 8 60 bls12Scalar 200 (by decide) _ _ (by decide +kernel)

theorem altBn128R2_cauchy : CauchyOf altBn128Scalar 3 altBn128R2XY PoseidonTables.altBn128R2Mds := by
  refine ⟨by decide +kernel, by decide +kernel, by decide +kernel, by decide +kernel, by decide +kernel⟩

theorem altBn128R2_shape : PoseidonTables.altBn128R2Rc.length = 65 ∧ (∀ row ∈ PoseidonTables.altBn128R2Rc, row.length = 3) ∧
    (∀ row ∈ PoseidonTables.altBn128R2Rc, ∀ c ∈ row, c < altBn128Scalar) ∧
    (∀ row ∈ PoseidonTables.altBn128R2Mds, ∀ c ∈ row, c < altBn128Scalar) := by
  refine ⟨by decide +kernel, by decide +kernel, by decide +kernel, by decide +kernel⟩

theorem altBn128R4_cauchy : CauchyOf altBn128Scalar 5 altBn128R4XY PoseidonTables.altBn128R4Mds := by
  refine ⟨by decide +kernel, by decide +kernel, by decide +kernel, by decide +kernel, by decide +kernel⟩

theorem altBn128R4_shape : PoseidonTables.altBn128R4Rc.length = 68 ∧ (∀ row ∈ PoseidonTables.altBn128R4Rc, row.length = 5) ∧
    (∀ row ∈ PoseidonTables.altBn128R4Rc, ∀ c ∈ row, c < altBn128Scalar) ∧
    (∀ row ∈ PoseidonTables.altBn128R4Mds, ∀ c ∈ row, c < altBn128Scalar) := by
  refine ⟨by decide +kernel, by decide +kernel, by decide +kernel, by decide +kernel⟩

theorem bls12R2_cauchy : CauchyOf bls12Scalar 3 bls12R2XY PoseidonTables.bls12R2Mds := by
  refine ⟨by decide +kernel, by decide +kernel, by decide +kernel, by decide +kernel, by decide +kernel⟩

theorem bls12R2_shape : PoseidonTables.bls12R2Rc.length = 65 ∧ (∀ row ∈ PoseidonTables.bls12R2Rc, row.length = 3) ∧
    (∀ row ∈ PoseidonTables.bls12R2Rc, ∀ c ∈ row, c < bls12Scalar) ∧
    (∀ row ∈ PoseidonTables.bls12R2Mds, ∀ c ∈ row, c < bls12Scalar) := by
  refine ⟨by decide +kernel, by decide +kernel, by decide +kernel, by decide +kernel⟩

theorem bls12R4_cauchy : CauchyOf bls12Scalar 5 bls12R4XY PoseidonTables.bls12R4Mds := by
  refine ⟨by decide +kernel, by decide +kernel, by decide +kernel, by decide +kernel, by decide +kernel⟩

theorem bls12R4_shape : PoseidonTables.bls12R4Rc.length = 68 ∧ (∀ row ∈ PoseidonTables.bls12R4Rc, row.length = 5) ∧
    (∀ row ∈ PoseidonTables.bls12R4Rc, ∀ c ∈ row, c < bls12Scalar) ∧
    (∀ row ∈ PoseidonTables.bls12R4Mds, ∀ c ∈ row, c < bls12Scalar) := by
  refine ⟨by decide +kernel, by decide +kernel, by decide +kernel, by decide +kernel⟩

theorem pallas_cauchy : CauchyOf pallasBase 3 pallasXY PoseidonTables.pallasMds := by
  refine ⟨by decide +kernel, by decide +kernel, by decide +kernel, by decide +kernel, by decide +kernel⟩

theorem pallas_shape : PoseidonTables.pallasRc.length = 55 ∧ (∀ row ∈ PoseidonTables.pallasRc, row.length = 3) ∧
    (∀ row ∈ PoseidonTables.pallasRc, ∀ c ∈ row, c < pallasBase) ∧
    (∀ row ∈ PoseidonTables.pallasMds, ∀ c ∈ row, c < pallasBase) := by
  refine ⟨by decide +kernel, by decide +kernel, by decide +kernel, by decide +kernel⟩

theorem vesta_cauchy : CauchyOf vestaBase 3 vestaXY PoseidonTables.vestaMds := by
  refine ⟨by decide +kernel, by decide +kernel, by decide +kernel, by decide +kernel, by decide +kernel⟩

theorem vesta_shape : PoseidonTables.vestaRc.length = 55 ∧ (∀ row ∈ PoseidonTables.vestaRc, row.length = 3) ∧
    (∀ row ∈ PoseidonTables.vestaRc, ∀ c ∈ row, c < vestaBase) ∧
    (∀ row ∈ PoseidonTables.vestaMds, ∀ c ∈ row, c < vestaBase) := by
  refine ⟨by decide +kernel, by decide +kernel, by decide +kernel, by decide +kernel⟩

end Verif.GrainTables
