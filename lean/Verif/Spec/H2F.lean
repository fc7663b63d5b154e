import Mathlib.Data.Nat.Digits.Defs
/-
RFC 9380: expand_message_xmd (section 5.3.1) and hash_to_field (section 5.2), on octet strings.
-/
namespace Verif.Spec

/-- `I2OSP(x, n)`. -/
def i2osp (x : Nat) : Nat → List Nat
  | 0 => []
  | n + 1 => i2osp (x / 256) n ++ [x % 256]

/-- `OS2IP(s)`. -/
def os2ip (s : List Nat) : Nat := Nat.ofDigits 256 s.reverse

/-- `DST_prime`. -/
def dstPrime (dst : List Nat) : List Nat := dst ++ i2osp dst.length 1

/-- `msg_prime` for a hash with input blocks of `s` octets. -/
def msgPrime (s : Nat) (msg dst : List Nat) (len : Nat) : List Nat :=
  i2osp 0 s ++ msg ++ i2osp len 2 ++ i2osp 0 1 ++ dstPrime dst

/-- `b_i`, from `b_0`; `b_0` itself for `i = 0`. -/
def xmdBlock (H : List Nat → List Nat) (dst b0 : List Nat) : Nat → List Nat
  | 0 => b0
  | 1 => H (b0 ++ i2osp 1 1 ++ dstPrime dst)
  | i + 1 => H (List.zipWith (· ^^^ ·) b0 (xmdBlock H dst b0 i) ++ i2osp (i + 1) 1 ++ dstPrime dst)

/-- `expand_message_xmd(msg, DST, len)` for a hash with digests of `b` and blocks of `s` octets. -/
def expandMessageXmd (H : List Nat → List Nat) (b s : Nat) (msg dst : List Nat) (len : Nat) : List Nat :=
  let ell := (len + b - 1) / b
  let b0 := H (msgPrime s msg dst len)
  (((List.range ell).map fun i => xmdBlock H dst b0 (i + 1)).flatten).take len

/-- `hash_to_field` applied to the expanded octets: `count` elements of `m` coordinates from `L` octets
each. -/
def hashToField (count m L p : Nat) (uniform : List Nat) : List (List Nat) :=
  (List.range count).map fun i => (List.range m).map fun j =>
    os2ip ((uniform.drop (L * (j + i * m))).take L) % p

end Verif.Spec
