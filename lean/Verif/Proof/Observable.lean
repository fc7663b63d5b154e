import Mathlib.LinearAlgebra.Matrix.Notation
import Verif.Model.PoseidonInst
/-
Word 0 of the images of a state under the powers of a Poseidon matrix determines the state.  A certificate, the inverse of the
matrix of the first rows of the powers, is checked for each table.
-/
namespace Verif

/-- No nonzero vector keeps word 0 at zero for `t` applications of the matrix. -/
def Observable {F : Type} [CommRing F] {t : Nat} [NeZero t] (M : Matrix (Fin t) (Fin t) F) : Prop :=
  ∀ v : Fin t → F, (∀ i < t, (M ^ i).mulVec v 0 = 0) → v = 0

/-- Row 0 of power `i` of the matrix, modulo `p`. -/
def obsRow (p t : Nat) (M : List (List Nat)) : Nat → List Nat
  | 0 => (List.range t).map fun j => if j = 0 then 1 else 0
  | i + 1 => (List.range t).map fun j =>
      (∑ k ∈ Finset.range t, (obsRow p t M i).getD k 0 * (M.getD k []).getD j 0) % p

/-- `K` is a left inverse of the matrix with the rows `obsRow`. -/
def ObsCert (p t : Nat) (M K : List (List Nat)) : Prop :=
  ∀ a < t, ∀ j < t, (∑ i ∈ Finset.range t, (K.getD a []).getD i 0 * (obsRow p t M i).getD j 0) % p = (if a = j then 1 else 0) % p

instance (p t : Nat) (M K : List (List Nat)) : Decidable (ObsCert p t M K) := by unfold ObsCert; infer_instance

theorem getD_map_range (f : Nat → Nat) {t j : Nat} (hj : j < t) : ((List.range t).map f).getD j 0 = f j := by
  simp [List.getD_eq_getElem?_getD, hj]

theorem obsRow_cast (p t : Nat) [NeZero t] (M : List (List Nat)) (rc : List (List Nat)) (i : Nat) (j : Fin t) :
    (((obsRow p t M i).getD j 0 : Nat) : ZMod p) = ((Matrix.of (tableData p t M rc).mds) ^ i) 0 j := by
  induction i generalizing j with
  | zero =>
    rw [obsRow, getD_map_range _ j.2, pow_zero, Matrix.one_apply]
    have : (0 = j) ↔ (j.val = 0) := by rw [Fin.ext_iff, eq_comm]; rfl
    simp only [this]
    split <;> simp
  | succ i ih =>
    rw [obsRow, getD_map_range _ j.2, ZMod.natCast_mod, pow_succ, Matrix.mul_apply, Nat.cast_sum, ← Fin.sum_univ_eq_sum_range
      (fun k => (((obsRow p t M i).getD k 0 * (M.getD k []).getD j 0 : Nat) : ZMod p))]
    refine Finset.sum_congr rfl fun k _ => ?_
    rw [Nat.cast_mul, ih k]
    rfl

theorem observable_of_cert {p t : Nat} [NeZero t] {M K : List (List Nat)} (rc : List (List Nat)) (h : ObsCert p t M K) :
    Observable (Matrix.of (tableData p t M rc).mds) := by
  intro v hv
  funext a
  have h1 : ∀ j : Fin t, ∑ i : Fin t, ((((K.getD a []).getD i 0 : Nat)) : ZMod p) * ((Matrix.of (tableData p t M rc).mds) ^ i.val) 0 j =
      if a = j then 1 else 0 := by
    intro j
    have := (ZMod.natCast_eq_natCast_iff' _ _ _).2 (h a a.2 j j.2)
    rw [Nat.cast_sum, ← Fin.sum_univ_eq_sum_range
      (fun i => (((K.getD a []).getD i 0 * (obsRow p t M i).getD j 0 : Nat) : ZMod p))] at this
    simp only [Nat.cast_mul, obsRow_cast p t M rc] at this
    rw [this]
    simp only [Fin.ext_iff]
    split <;> simp
  have h2 : v a = ∑ j, (∑ i : Fin t, ((((K.getD a []).getD i 0 : Nat)) : ZMod p) *
      ((Matrix.of (tableData p t M rc).mds) ^ i.val) 0 j) * v j := by
    simp only [h1, ite_mul, one_mul, zero_mul, Finset.sum_ite_eq, Finset.mem_univ, if_true]
  rw [h2]
  simp only [Finset.sum_mul]
  rw [Finset.sum_comm]
  refine Finset.sum_eq_zero fun i _ => ?_
  simp only [mul_assoc]
  rw [← Finset.mul_sum]
  have := hv i i.2
  rw [Matrix.mulVec, dotProduct] at this
  rw [this, mul_zero]

/-- The inverse of the matrix of the rows of `obsRow`. -/
def altBn128R2Obs : List (List Nat) := [
  [0x1,
   0x0,
   0x0],
  [0x2f973fa3f96e672e7aa46626b1b2bbc2f7a73c3ce0ac7d9e04f80267fe06e4b1,
   0x24bf85c42382bcbc104787c7964ed7c8eba71b6643c62c583ca8a1b3328cc890,
   0x159e5d13fac8fb081c0faaeab0cfecd9a9189636a208aca7689e10da39d6bc43],
  [0x1f6e9cc14a17902de5b5d6b0c29052e1d6c993800a64491a631aaccd01837c6f,
   0x145a3ccb39898d69cea2eaec2cf8269c0d11d602675e09555246375f2efcc6ce,
   0xa65426ae6ea9ccea8213ebd60dc03a434281bd90caff5d5468e72bfe7e7306a]]

/-- The inverse of the matrix of the rows of `obsRow`. -/
def altBn128R4Obs : List (List Nat) := [
  [0x1,
   0x0,
   0x0,
   0x0,
   0x0],
  [0x19f61f1009d53351c7d823bf07ffa480d1c93105ac8e2b168af8e7e375058961,
   0x1809198f83db80d2bf3e206039a9d2b9b9d819bb270c050cdc9165169b5f1372,
   0x265aa71f16c8f3b7079a4abbd5df8ecaf92632ade60dcc4e0b4d0becf49e479f,
   0x8aa63ac00faa4c7f2dec962b13c5a68925ed6126270db430cef57c45f700578,
   0x1f12303e4dd8134c80e541b3ee376b473431d852d368476d62ae591eb50c1fb4],
  [0x6a54d6dba388d97a1f0f91808c578e45932377b5cfb6b4c30642ce9b10245bd,
   0x25cde50fcbcb2f4c2ec701be211e74c567e19c85a66b87d9eae3f4e8e6635034,
   0x578d41fff76d937e41cd15be6ffaf0f3f33c87377be5a4f0b07574c43ec434a,
   0x269e87cc2750bbcd83ff5d67e53d0949bbb088ae69148a774a56aea29ca4bf4f,
   0xfc40f22a7b7a774910c71bf287ff5b975a731ec30832d7591467e660b5cd588],
  [0x73a3a155a85c2f67cd5a4c5a6202fb608076e25a702f88f8de1a8128ddbeb22,
   0x185c83ed132ce5d6930855442d7f342d9f591a4a56358004eddd0f97bac25881,
   0x29c52910ae95a71dfd08f29ec5c1b0f6a02eeaebb90c0580b8ab3c73298909a3,
   0xf5b04dacd8107212123a10b546022271f57ed21dc1c3ddbd119fee489993140,
   0x2bd6d392fb461e926f841d5530a743db2dd62b3b756ce1684f4b36bd79976ee5],
  [0x7857f5036b498acea703a6caac4406af64fc82fd88ba1ad5924c5c300556322,
   0x20f1d51661c746c3a2f3a8f0740ad1aa54ede09f728f4ae0e6412f3e335c4650,
   0x3f7d0ae7bb133de4170227cb328a927cf6e315cf5d45acc9865fb26c5ab492a,
   0x1cf814acbd85cecf6551ea9cb59157c483b37d8e448e10b97f63ae4c2c40f67e,
   0x269911f3cc7a4c7fe1a845decaed9552c83d692017c3e50d04a870cd5afb4e13]]

/-- The inverse of the matrix of the rows of `obsRow`. -/
def bls12R2Obs : List (List Nat) := [
  [0x1,
   0x0,
   0x0],
  [0x2366b70fd858d530e3d9356f5341a8ec69bceb931e3623ef6cd07e935590adf2,
   0xbae746418e0992d9b9261899f70b6932ac452dcec1a8591699d80105e02eeb3,
   0x60b1a23d9b4a29ba2044d373b76b793cd4b9ea97c85713d057a2337d1880fa99],
  [0x58ee9e9d61c81c67514bc671c84835acc54a564e5b59c81d0eedaf21d20425ea,
   0x5c6f7a1a04915603bdfdec791e7875b1ea1880a13b72beb8d46a1b95f45065bb,
   0x5adba4a7513903cb9f047be2e124aea7f993013b7d8c6dec592b44a2741ca4bd]]

/-- The inverse of the matrix of the rows of `obsRow`. -/
def bls12R4Obs : List (List Nat) := [
  [0x1,
   0x0,
   0x0,
   0x0,
   0x0],
  [0x707ec37b1e17623d43f246dc8eedead16264af42af39c6a5738deef3fbf2f80d,
   0x6856e7c9390814404f674224c17a98560afbcf1ccc49ec22c2857e28187be845,
   0x1bd1a53b65563c1f2c1200df70aa679d5d186e47a01bb409dd6ab2e0883e82b,
   0x2f1b4d0948505e65e1a4ca75269f762918e09419b6577cc9e03219194fd00883,
   0x4f16ae9cfcf779b93ac8222ca6d713e28a7dcf5a4e392a06b6dbd624032a6903],
  [0x5cfdf9c0392b9a5bd9d771eac4bd7b0e210019e42ebe39957e4b27bca678dd33,
   0x4a478161a56b1921e6d85324f795a0a9fe0c7e3a9076916c1c0fe4a6843adb94,
   0x3d24d6af0262cc4a47f579f353323addab8ecb7e45f452bc6bf215a22c1ee2a8,
   0x16839c1c340a89ad024d93d18abbfb23146992656eb6dcace9dee69da0c98623,
   0xd03283d44490c9f8a0b78789253f3221dd7b5944ffc831984b7da97afa6e572],
  [0x4869c56670b92ba96295d275f4315ff7e7f35cba0ab9b3b3ee9abb9858ca4f7c,
   0x649eba9b87fc2d4a0cda3ef1611c66017a07c089044e6ded3eac0d91871fb823,
   0x5636b5d7dc7a23586cd49ea56a6b67da553515e4d5c6cf75f967871bdb52b9a8,
   0x2e70502a8ee02dc03728191987f548027aaf7c8ff15055cb2ac576147ca88cd0,
   0x12c579e39ee259dd7df340f1eda9d58e58beeeba71feec0fcb88ff0a7ab42eda],
  [0x5316840d4855fc79904ed96d35ce7020023bc03eaa41a26ce536f84a2f1cf1b8,
   0xa928efcbe3929b0d5020a8bb3e2c40695ee6871b2bee89326a0c28f28141eed,
   0x571b56f374a4615ff5291f323a7389be31a5ea67abff998156ccdcb0f647b249,
   0x1086c132f5dba991fbb02e270af671710b4587b0c7761459b110ac7a45620a8a,
   0x2ffdcf5bd36671f5b775a93459bfc058ac30c48b05dd30b1bbde14e263070329]]

/-- The inverse of the matrix of the rows of `obsRow`. -/
def pallasObs : List (List Nat) := [
  [0x1,
   0x0,
   0x0],
  [0x2aa2173b7a6d4ad175390ef50c60605dd1c79ba372a1678f8dcfbc28dd4d745c,
   0x8c2abd77b67c97cf63b80de9831cd29b68a7b21d442679ea01c55fd662a8355,
   0x3adfdc1c9e36a2f57174c2310979ab7277f3657175d63e9612ed7d28b3a4f0],
  [0x2d41b758b55ff87e88a52ea0400d17e8a09b74f7e90ce849a50c1aff9567b6c1,
   0x7f9493ea323f84cbd9bc739c073ec79b398a6dfa0ccbfdb06d1409e93e963b3,
   0x1a42b0880ad94fbc9e803ffc01a4756d5f5147c3b1fccbbe2562112342b2ee90]]

/-- The inverse of the matrix of the rows of `obsRow`. -/
def vestaObs : List (List Nat) := [
  [0x1,
   0x0,
   0x0],
  [0x4ba25cab1766a91160a441a2fe394bd3ad86b82f35316d9b73f0c0138855fd1,
   0x232d57cf3c437514f49ed2e8dd8bf133c1b039e4bf7834ddbd911d8a9dadbbbd,
   0x21261a229c6881e862d41df68eb6f667ec02ec2d67faf8f738202f05b7c0f4b3],
  [0x1c52d68d75a75d8283392f3c3f018c9468811ab3ed5bf72e08fdc1d5e071eb6,
   0x3c925530acf4a99d8154c4fed369cfad5c4b4f19b22f133f6169665307190a46,
   0x2e3953ed5407857231c2790c934446bb3ea4aae2b3cf62cfd55de237b7eb0835]]

theorem altBn128R2_obs : ObsCert altBn128Scalar 3 PoseidonTables.altBn128R2Mds altBn128R2Obs := by decide +kernel
theorem altBn128R4_obs : ObsCert altBn128Scalar 5 PoseidonTables.altBn128R4Mds altBn128R4Obs := by decide +kernel
theorem bls12R2_obs : ObsCert bls12Scalar 3 PoseidonTables.bls12R2Mds bls12R2Obs := by decide +kernel
theorem bls12R4_obs : ObsCert bls12Scalar 5 PoseidonTables.bls12R4Mds bls12R4Obs := by decide +kernel
theorem pallas_obs : ObsCert pallasBase 3 PoseidonTables.pallasMds pallasObs := by decide +kernel
theorem vesta_obs : ObsCert vestaBase 3 PoseidonTables.vestaMds vestaObs := by decide +kernel

end Verif
