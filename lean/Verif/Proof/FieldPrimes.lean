import Verif.Model.PoseidonInst
import Verif.Proof.Primes
/-
The moduli of the Poseidon and Reinforced Concrete fields are prime.
-/
namespace Verif

instance : Fact (Nat.Prime altBn128Scalar) := ⟨prime_altbn128_r⟩
instance : Fact (Nat.Prime bls12Scalar) := ⟨prime_bls12381_r⟩
instance : Fact (Nat.Prime pallasBase) := ⟨prime_pallas_p⟩
instance : Fact (Nat.Prime vestaBase) := ⟨prime_vesta_p⟩

end Verif
