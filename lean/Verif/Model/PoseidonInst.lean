import Mathlib.Data.ZMod.Basic
import Verif.Model.Poseidon
import Verif.Model.PoseidonTables
/-
The Poseidon permutations for which the library has constants: four in detail/poseidon/original_constants.hpp, two in
detail/poseidon/kimchi_constants.hpp.  The moduli are those of the fields of the algebra library that the constants
files name; they do not occur in /repo.
-/
namespace Verif

/-- `alt_bn128_scalar_field<254>::modulus` (algebra library). -/
def altBn128Scalar : Nat := 21888242871839275222246405745257275088548364400416034343698204186575808495617
/-- `bls12_scalar_field<381>::modulus` (algebra library). -/
def bls12Scalar : Nat := 52435875175126190479447740508185965837690552500527637822603658699938581184513
/-- `pallas_base_field::modulus` (algebra library). -/
def pallasBase : Nat := 28948022309329048855892746252171976963363056481941560715954676764349967630337
/-- `vesta_base_field::modulus` (algebra library). -/
def vestaBase : Nat := 28948022309329048855892746252171976963363056481941647379679742748393362948097

/-- The tables as elements of the field with `p` elements. -/
def tableData (p t : Nat) (mds rc : List (List Nat)) : PoseidonData (ZMod p) t :=
  ⟨fun i j => ((mds.getD i []).getD j 0 : Nat), rc.length, fun r i => ((rc.getD r []).getD i 0 : Nat)⟩

/-- A table of the library together with the policy that selects it. -/
structure PoseidonInst where
  modulus : Nat
  /-- `field_type::modulus_bits`. -/
  bits : Nat
  policy : PoseidonPolicy
  mds : List (List Nat)
  rc : List (List Nat)

/-- The permutation of an instance; `poseidon_constants` selects the tables by the field and the policy,
detail/poseidon/poseidon_constants.hpp:48-50. -/
def PoseidonInst.permute (I : PoseidonInst) (t : Nat) [NeZero t] (A : Fin t → ZMod I.modulus) :
    Except Fault (Fin t → ZMod I.modulus) :=
  poseidonPermute I.policy (tableData I.modulus t I.mds I.rc) A

/-- detail/poseidon/original_constants.hpp:31-386. -/
def instBn2 : PoseidonInst := ⟨altBn128Scalar, 254, ⟨2, 1, 5, 8, 57, false⟩, PoseidonTables.altBn128R2Mds, PoseidonTables.altBn128R2Rc⟩
/-- detail/poseidon/original_constants.hpp:389-915. -/
def instBn4 : PoseidonInst := ⟨altBn128Scalar, 254, ⟨4, 1, 5, 8, 60, false⟩, PoseidonTables.altBn128R4Mds, PoseidonTables.altBn128R4Rc⟩
/-- detail/poseidon/original_constants.hpp:918-1273. -/
def instBls2 : PoseidonInst := ⟨bls12Scalar, 255, ⟨2, 1, 5, 8, 57, false⟩, PoseidonTables.bls12R2Mds, PoseidonTables.bls12R2Rc⟩
/-- detail/poseidon/original_constants.hpp:1276-1802. -/
def instBls4 : PoseidonInst := ⟨bls12Scalar, 255, ⟨4, 1, 5, 8, 60, false⟩, PoseidonTables.bls12R4Mds, PoseidonTables.bls12R4Rc⟩
/-- detail/poseidon/kimchi_constants.hpp:31-335. -/
def instPallas : PoseidonInst := ⟨pallasBase, 255, minaPoseidonPolicy, PoseidonTables.pallasMds, PoseidonTables.pallasRc⟩
/-- detail/poseidon/kimchi_constants.hpp:338-642. -/
def instVesta : PoseidonInst := ⟨vestaBase, 255, minaPoseidonPolicy, PoseidonTables.vestaMds, PoseidonTables.vestaRc⟩

end Verif
