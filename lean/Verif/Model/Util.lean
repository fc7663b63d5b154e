import Verif.Model.Core
/- Helpers under /repo/include/nil/crypto3/detail and the `pkcs_id` tables of the policies. -/
namespace Verif

/-- The loop of `detail::pow`, detail/static_pow.hpp:33-43, for any multiplication; `none` is a
multiplication outside the type.  `n` may be negative when `U` is signed. -/
def staticPowLoop {T : Type} (mul : T → T → Option T) (result x : T) (n : Int) : Option T :=
  if 0 < n then
    if n % 2 = 0 then
      (mul x x).bind fun x => staticPowLoop mul result x (n / 2)
    else
      (mul result x).bind fun result => staticPowLoop mul result x (n - 1)
  else some result
termination_by n.toNat

/-- `detail::pow`, detail/static_pow.hpp:31-46. -/
def staticPow {T : Type} (mul : T → T → Option T) (one x : T) (n : Int) : Option T :=
  staticPowLoop mul one x n

/-- How often the loop of `detail::pow` runs (same control flow). -/
def staticPowIterations (n : Int) : Nat :=
  if 0 < n then
    if n % 2 = 0 then staticPowIterations (n / 2) + 1 else staticPowIterations (n - 1) + 1
  else 0
termination_by n.toNat

/-- The loop of `strxor`, detail/strxor.hpp:55-57, in one memory of cells: `first1`, `first2` and `out`
are addresses and may alias; `n` is the number of iterations left. -/
def strxorLoop {w : Nat} : Nat → (Nat → BitVec w) → Nat → Nat → Nat → (Nat → BitVec w) × Nat
  | 0, mem, _, _, out => (mem, out)
  | n + 1, mem, p1, p2, out =>
    strxorLoop n (fun a => if a = out then mem p1 ^^^ mem p2 else mem a) (p1 + 1) (p2 + 1) (out + 1)

/-- `strxor(first1, last1, first2, last2, out)`, detail/strxor.hpp:38-60, on ranges of `n1` and `n2`
cells.  `ndebug`: the assertion is compiled out and the loop stops at the end of the shorter range.
The result is the memory and the returned iterator. -/
def strxor {w : Nat} (ndebug : Bool) (mem : Nat → BitVec w) (p1 n1 p2 n2 out : Nat) :
    Except Fault ((Nat → BitVec w) × Nat) :=
  if ndebug = false ∧ n1 ≠ n2 then .error .assertion
  else .ok (strxorLoop (min n1 n2) mem p1 p2 out)

/-- `md5_policy::pkcs_id`, hash/detail/md5/md5_policy.hpp:63-65. -/
def md5PkcsId : List Nat := [0x30, 0x20, 0x30, 0x0C, 0x06, 0x08, 0x2A, 0x86, 0x48, 0x86, 0xF7, 0x0D,
  0x02, 0x05, 0x05, 0x00, 0x04, 0x10]

/-- `sha1_policy::pkcs_id`, hash/detail/sha1/sha1_policy.hpp:61-62. -/
def sha1PkcsId : List Nat := [0x30, 0x21, 0x30, 0x09, 0x06, 0x05, 0x2B, 0x0E, 0x03, 0x02, 0x1A, 0x05,
  0x00, 0x04, 0x14]

/-- `sha_policy::pkcs_id` (SHA-0), hash/detail/sha/sha_policy.hpp:61-62. -/
def sha0PkcsId : List Nat := [0x30, 0x21, 0x30, 0x09, 0x06, 0x05, 0x2B, 0x0E, 0x03, 0x02, 0x1A, 0x05,
  0x00, 0x04, 0x14]

/-- `basic_ripemd_policy<DigestSize>::pkcs_id`, hash/detail/ripemd/ripemd_policy.hpp:58-59, for every
digest size. -/
def ripemdPkcsId : List Nat := [0x30, 0x21, 0x30, 0x09, 0x06, 0x05, 0x2B, 0x24, 0x03, 0x02, 0x01, 0x05,
  0x00, 0x04, 0x14]

/-- `sha2_policy<256>::pkcs_id`, hash/detail/sha2/sha2_policy.hpp:102-104. -/
def sha256PkcsId : List Nat := [0x30, 0x2D, 0x30, 0x0D, 0x06, 0x09, 0x60, 0x86, 0x48, 0x01, 0x65, 0x03,
  0x04, 0x02, 0x04, 0x05, 0x00, 0x04, 0x20]

/-- `sha2_policy<512>::pkcs_id`, hash/detail/sha2/sha2_policy.hpp:151-153. -/
def sha512PkcsId : List Nat := [0x30, 0x2D, 0x30, 0x0D, 0x06, 0x09, 0x60, 0x86, 0x48, 0x01, 0x65, 0x03,
  0x04, 0x02, 0x04, 0x05, 0x00, 0x04, 0x40]

/-- `sha2_policy<224>::pkcs_id`, hash/detail/sha2/sha2_policy.hpp:73-77: an array of no octets. -/
def sha224PkcsId : List Nat := []

/-- `sha2_policy<384>::pkcs_id`, hash/detail/sha2/sha2_policy.hpp:121-125: an array of no octets. -/
def sha384PkcsId : List Nat := []

/-- `basic_sha3_policy<224>::pkcs_id`, hash/detail/sha3/sha3_policy.hpp:63-65. -/
def sha3_224PkcsId : List Nat := [0x30, 0x2D, 0x30, 0x0D, 0x06, 0x09, 0x60, 0x86, 0x48, 0x01, 0x65,
  0x03, 0x04, 0x02, 0x07, 0x05, 0x00, 0x04, 0x1C]

/-- `basic_sha3_policy<256>::pkcs_id`, hash/detail/sha3/sha3_policy.hpp:79-81. -/
def sha3_256PkcsId : List Nat := [0x30, 0x31, 0x30, 0x0D, 0x06, 0x09, 0x60, 0x86, 0x48, 0x01, 0x65,
  0x03, 0x04, 0x02, 0x08, 0x05, 0x00, 0x04, 0x20]

/-- `basic_sha3_policy<384>::pkcs_id`, hash/detail/sha3/sha3_policy.hpp:95-97. -/
def sha3_384PkcsId : List Nat := [0x30, 0x41, 0x30, 0x0D, 0x06, 0x09, 0x60, 0x86, 0x48, 0x01, 0x65,
  0x03, 0x04, 0x02, 0x09, 0x05, 0x00, 0x04, 0x30]

/-- `basic_sha3_policy<512>::pkcs_id`, hash/detail/sha3/sha3_policy.hpp:111-113. -/
def sha3_512PkcsId : List Nat := [0x30, 0x51, 0x30, 0x0D, 0x06, 0x09, 0x60, 0x86, 0x48, 0x01, 0x65,
  0x03, 0x04, 0x02, 0x0A, 0x05, 0x00, 0x04, 0x40]

/-- `tiger_policy::pkcs_id`, hash/detail/tiger/tiger_policy.hpp:89-91. -/
def tigerPkcsId : List Nat := [0x30, 0x29, 0x30, 0x0D, 0x06, 0x09, 0x2B, 0x06, 0x01, 0x04, 0x01, 0xDA,
  0x47, 0x0C, 0x02, 0x05, 0x00, 0x04, 0x18]

end Verif
