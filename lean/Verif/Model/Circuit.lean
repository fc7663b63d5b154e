import Mathlib.Data.Fin.VecNotation
import Verif.Model.PoseidonInst
/-
The circuit build (macro `__ZKLLVM__`): `hash<hashes::poseidon>(block0, block1)`.  The compiler builtin is a parameter.
-/
namespace Verif

/-- The permutation of `mina_poseidon_policy<pallas base field>` in the ordinary build, `instPallas.permute`. -/
def pallasPermute : (Fin 3 → ZMod pallasBase) → Except Fault (Fin 3 → ZMod pallasBase) := instPallas.permute 3

/-- `poseidon::process::operator()`, poseidon.hpp:30-34: word 2 of what the builtin
`__builtin_assigner_poseidon_pallas_base` makes of `{0, first_input_block, second_input_block}`. -/
def circuitProcess {F : Type} [Zero F] (builtin : (Fin 3 → F) → Fin 3 → F) (first second : F) : F :=
  builtin ![0, first, second] 2

/-- `hash<HashType>(block0, block1)`, algorithm/hash.hpp:44-49. -/
def circuitHash {F : Type} [Zero F] (builtin : (Fin 3 → F) → Fin 3 → F) (block0 block1 : F) : F :=
  circuitProcess builtin block0 block1

end Verif
