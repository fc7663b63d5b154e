/-
Model of the suites of `h2f` and `h2c` and of their default parameters (detail/h2f/h2f_suites.hpp,
detail/h2c/h2c_policy.hpp, h2f.hpp:39-57, h2c.hpp:41-57).
-/
namespace Verif

/-- `UniformityCount`, detail/h2c/h2c_policy.hpp:32. -/
inductive UniformityCount where
  | nonuniform
  | uniform
  deriving DecidableEq

/-- The value of the enumerator, detail/h2c/h2c_policy.hpp:32; `count` of h2f.hpp:83. -/
def UniformityCount.count : UniformityCount → Nat
  | .nonuniform => 1
  | .uniform => 2

/-- `h2f_suite`: `suite_id`, `m`, `k` and `L`; `digestBits` and `blockBits` are those of `hash_type`. -/
structure H2fSuite where
  suiteId : List Nat
  m : Nat
  k : Nat
  L : Nat
  digestBits : Nat
  blockBits : Nat

/-- `h2f_suite<bls12_381::base_field_type, sha2<256>, 128>`, detail/h2f/h2f_suites.hpp:41-57 (`field_type::arity` is 1;
sha2<256>: detail/sha2/sha2_policy.hpp). -/
def h2fG1 : H2fSuite where
  suiteId := [66, 76, 83, 49, 50, 51, 56, 49, 71, 49, 95,
              88, 77, 68, 58, 83, 72, 65, 45, 50, 53, 54,
              95, 83, 83, 87, 85, 95, 82, 79, 95]
  m := 1
  k := 128
  L := 64
  digestBits := 256
  blockBits := 512

/-- `h2f_suite<fp2<bls12_381::base_field_type>, sha2<256>, 128>`, detail/h2f/h2f_suites.hpp:59-76 (`field_type::arity`
is 2). -/
def h2fG2 : H2fSuite where
  suiteId := [0x42, 0x4c, 0x53, 0x31, 0x32, 0x33, 0x38, 0x31, 0x47, 0x32, 0x5f, 0x58, 0x4d, 0x44, 0x3a, 0x53,
              0x48, 0x41, 0x2d, 0x32, 0x35, 0x36, 0x5f, 0x53, 0x53, 0x57, 0x55, 0x5f, 0x52, 0x4f, 0x5f]
  m := 2
  k := 128
  L := 64
  digestBits := 256
  blockBits := 512

/-- The literal "QUUX-V01-CS02-with-", h2f.hpp:52 and h2c.hpp:52. -/
def defaultTag : List Nat :=
  [0x51, 0x55, 0x55, 0x58, 0x2d, 0x56, 0x30, 0x31, 0x2d, 0x43, 0x53, 0x30, 0x32, 0x2d, 0x77, 0x69, 0x74, 0x68, 0x2d]

/-- `h2f_default_params::dst` (h2f.hpp:50-56) and `h2c_default_params::dst` (h2c.hpp:50-56): the literal, then the suite id.
The uniformity count is a parameter of the class that the initialiser does not look at. -/
def H2fSuite.defaultDst (S : H2fSuite) (_ : UniformityCount) : List Nat := defaultTag ++ S.suiteId

/-- `len_in_bytes`, h2f.hpp:87. -/
def H2fSuite.lenInBytes (S : H2fSuite) (u : UniformityCount) : Nat := u.count * S.m * S.L

/-- The assertions of `expand_message_xmd`, detail/h2f/h2f_functions.hpp:62-65, 76: octet sizes, collision resistance,
`len_in_bytes < 0x10000`, `ell <= 255`; the checks fail the compilation. -/
def H2fSuite.staticAsserts (S : H2fSuite) (u : UniformityCount) : Bool :=
  let b := S.digestBits / 8
  let len := S.lenInBytes u
  let ell := len / b + (if len % b ≠ 0 then 1 else 0)
  S.blockBits % 8 == 0 && S.digestBits % 8 == 0 && decide (S.digestBits ≥ 2 * S.k) && decide (len < 0x10000) &&
    decide (ell ≤ 255)

end Verif
