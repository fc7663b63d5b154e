/-
The groups of BLS12-381: the prime order of the subgroups and the cofactors, from the parameter of the curve.
-/
namespace Verif.Spec

/-- `r = z⁴ - z² + 1`, the order of the subgroups G1 and G2 (`z = -0xd201000000010000`). -/
def blsR : Nat := 0x73eda753299d7d483339d80809a1d80553bda402fffe5bfeffffffff00000001

/-- Cofactor of G1, `(z - 1)² / 3`. -/
def blsH1 : Nat := 0x396c8c005555e1568c00aaab0000aaab

/-- Cofactor of G2, `(z⁸ - 4z⁷ + 5z⁶ - 4z⁴ + 6z³ - 4z² - 4z + 13) / 9`. -/
def blsH2 : Nat := 0x5d543a95414e7f1091d50792876a202cd91de4547085abaa68a205b2e5a7ddfa628f1cb4d9e82ef21537e293a6691ae1616ec6e786f0c70cf1c38e31c7238e5

end Verif.Spec
