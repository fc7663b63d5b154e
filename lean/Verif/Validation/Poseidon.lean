import Verif.Model.PoseidonInst
/-
Tests, not proofs: the vectors of test/poseidon.cpp.  The Kimchi vectors are commented out in the repository
because its sponge starts at word 1 and returns the last word; they are applied here to the permutation
(words 0 and 1 absorbed, word 0 returned).
-/
namespace Verif.Validation

def permuteNat (I : PoseidonInst) (t : Nat) [NeZero t] (l : List Nat) : List Nat :=
  match I.permute t (fun i => (l.getD i 0 : ZMod I.modulus)) with
  | .ok A => (List.finRange t).map fun i => (A i).val
  | .error _ => []

/-- The Kimchi sponge: pairs of elements added to words 0 and 1, a permutation before each further pair. -/
def kimchiAbsorb (I : PoseidonInst) : Nat → List Nat → List Nat → List Nat
  | _, st, [] => st
  | 2, st, l => kimchiAbsorb I 0 (permuteNat I 3 st) l
  | k + 1, st, x :: l => kimchiAbsorb I (k + 2) (st.set (k + 1) ((st.getD (k + 1) 0 + x) % I.modulus)) l
  | 0, st, x :: l => kimchiAbsorb I 1 (st.set 0 ((st.getD 0 0 + x) % I.modulus)) l
termination_by k _ l => (l.length, k)
decreasing_by all_goals simp_wf; omega

-- test/poseidon.cpp:203
#guard permuteNat instBn2 3 [0, 1, 2] == [
  0x115cc0f5e7d690413df64c6b9662e9cf2a3617f2743245519e19607a4417189a,
  0x0fca49b798923ab0239de1c9e7a4a9a2210312b6a2f616d18b5a87f9b628ae29,
  0x0e7ae82e40091e63cbd4f16a6d16310b3729d4b6e138fcf54110e2867045a30c]
-- test/poseidon.cpp:216
#guard permuteNat instBn4 5 [0, 1, 2, 3, 4] == [
  0x299c867db6c1fdd79dcefa40e4510b9837e60ebb1ce0663dbaa525df65250465,
  0x1148aaef609aa338b27dafd89bb98862d8bb2b429aceac47d86206154ffe053d,
  0x24febb87fed7462e23f6665ff9a0111f4044c38ee1672c1ac6b0637d34f24907,
  0x0eb08f6d809668a981c186beaf6110060707059576406b248e5d9cf6e78b3d3e,
  0x07748bc6877c9b82c8b98666ee9d0626ec7f5be4205f79ee8528ef1c4a376fc7]
-- test/poseidon.cpp:233
#guard permuteNat instBls2 3 [0, 1, 2] == [
  0x28ce19420fc246a05553ad1e8c98f5c9d67166be2c18e9e4cb4b4e317dd2a78a,
  0x51f3e312c95343a896cfd8945ea82ba956c1118ce9b9859b6ea56637b4b1ddc4,
  0x3b2b69139b235626a0bfb56c9527ae66a7bf486ad8c11c14d1da0c69bbe0f79a]
-- test/poseidon.cpp:246
#guard permuteNat instBls4 5 [0, 1, 2, 3, 4] == [
  0x2a918b9c9f9bd7bb509331c81e297b5707f6fc7393dcee1b13901a0b22202e18,
  0x65ebf8671739eeb11fb217f2d5c5bf4a0c3f210e3f3cd3b08b5db75675d797f7,
  0x2cc176fc26bc70737a696a9dfd1b636ce360ee76926d182390cdb7459cf585ce,
  0x4dc4e29d283afd2a491fe6aef122b9a968e74eff05341f3cc23fda1781dcb566,
  0x03ff622da276830b9451b88b85e6184fd6ae15c8ab3ee25a5667be8592cce3b1]
-- test/poseidon.cpp:106
#guard (permuteNat instPallas 3 (kimchiAbsorb instPallas 0 [0, 0, 0] [
  ])).head? ==
  some 0x2FADBE2852044D028597455BC2ABBD1BC873AF205DFABB8A304600F3E09EEBA8
-- test/poseidon.cpp:111
#guard (permuteNat instPallas 3 (kimchiAbsorb instPallas 0 [0, 0, 0] [
  0x36FB00AD544E073B92B4E700D9C49DE6FC93536CAE0C612C18FBE5F6D8E8EEF2])).head? ==
  some 0x3D4F050775295C04619E72176746AD1290D391D73FF4955933F9075CF69259FB
-- test/poseidon.cpp:118
#guard (permuteNat instPallas 3 (kimchiAbsorb instPallas 0 [0, 0, 0] [
  0x3793E30AC691700012BAF26BB813D6D70BD379BEED8050A1DEEE3C188F1C3FBD,
  0x2FC4C98E50E0B1AAE6ECB468E28C0B7D80A7E0EEC7136DB0BA0677B84AF0E465])).head? ==
  some 0x336C73D08AD408CEB7D1264867096F0817A1D0558B313312A1207602F23624FE
-- test/poseidon.cpp:126
#guard (permuteNat instPallas 3 (kimchiAbsorb instPallas 0 [0, 0, 0] [
  0x0024FB5773CAC987CF3A17DDD6134BA12D3E1CA4F6C43D3695347747CE61EAF5,
  0x18E0ED2B46ED1EC258DF721A1D3145B0AA6ABDD02EE851A14B8B659CF47385F2,
  0x1A842A688E600F012637FE181292F70C4347B5AE0D9EA9CE7CF18592C345CF73])).head? ==
  some 0x3F4B0EABB64E025F920457AF8D090A9F6472CAE11F3D62A749AF544A44941B9B
-- test/poseidon.cpp:134
#guard (permuteNat instPallas 3 (kimchiAbsorb instPallas 0 [0, 0, 0] [
  0x2059462D60621F70620EA697FA1382EC5553A3DADB3CF9072201E09871B8284C,
  0x2747337D1C4F9894747074C771E8EC7F570640E5D0CAF30FDDC446C00FA48707,
  0x2DD5047C3EEEF37930E8FA4AD9691B27CF86D3ED39D4DEC4FC6D4E8EE4FF0415,
  0x12C387C69BDD436F65AB607A4ED7C62714872EDBF800518B58E76F5106650B29])).head? ==
  some 0x165A8CECF6660C6E0054CB9B4DBA9D68047166D7F3CED2F8DC86ED2EBFD3EC47
-- test/poseidon.cpp:143
#guard (permuteNat instPallas 3 (kimchiAbsorb instPallas 0 [0, 0, 0] [
  0x3CF70C3A89749A45DB5236B8DE167A37762526C45270138A9FCDF2352B1899DA,
  0x1BDF55BC84C1A0E0F7F6834949FCF90279B9D21C17DBC9928202C49039570598,
  0x09441E95A82199EFC390152C5039C0D0566A90B7F6D1AA5813B2DAB90110FF90,
  0x375B4A9785503C24531723DB1F31B50B79C3D1EC9F95DB7645A3EDA03862B588,
  0x12688FE351ED01F3BB2EB6B0FA2A70FB232654F32B08990DC3A411E527776A89])).head? ==
  some 0x0CA2C3342C2959D7CD94B5C9D4DC55900F5F60B345F714827C8B907752D5A209
-- test/poseidon.cpp:174
#guard kimchiAbsorb instPallas 0 [0, 0, 0] [
  0x3CF70C3A89749A45DB5236B8DE167A37762526C45270138A9FCDF2352B1899DA,
  0x1BDF55BC84C1A0E0F7F6834949FCF90279B9D21C17DBC9928202C49039570598,
  0x09441E95A82199EFC390152C5039C0D0566A90B7F6D1AA5813B2DAB90110FF90,
  0x375B4A9785503C24531723DB1F31B50B79C3D1EC9F95DB7645A3EDA03862B588,
  0x12688FE351ED01F3BB2EB6B0FA2A70FB232654F32B08990DC3A411E527776A89] == [
  0x2437F72484D8C5483D75F898376BC3EE29EDF2F7EF5305A3C61B937654954000,
  0x16F954CD8F2B73D797170C5124F31A65160A3FCA92B77709E564075C2405BF80,
  0x3696E4E8F08273FFEFDAD72C5002D103E9B8976F6579A010D6CC2A75B276851F]

end Verif.Validation
