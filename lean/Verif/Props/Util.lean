import Mathlib.Algebra.Group.Basic
import Mathlib.Tactic.Ring
import Mathlib.Algebra.Order.Ring.Nat
import Mathlib.Algebra.Order.Monoid.Unbundled.Pow
import Verif.Model.Util
import Verif.Spec.Der
/- C50 (compile-time power), C51 (strxor), C55 (DigestInfo prefixes). -/
namespace Verif.Props

open Spec

/-! ### C50 -/

theorem staticPowLoop_eq {T : Type} [Monoid T] (n : Nat) : ∀ result x : T, Commute result x →
    staticPowLoop (fun a b => some (a * b)) result x (n : Int) = some (result * x ^ n) := by
  induction n using Nat.strongRecOn with
  | _ n ih =>
    intro result x hc
    rw [staticPowLoop]
    by_cases h0 : n = 0
    · subst h0; simp
    · rw [if_pos (by omega)]
      by_cases h2 : n % 2 = 0
      · rw [if_pos (by omega), Option.bind_some, show ((n : Int) / 2) = ((n / 2 : Nat) : Int) by omega,
          ih (n / 2) (by omega) _ _ (hc.mul_right hc), ← pow_two, ← pow_mul]
        congr 3; omega
      · rw [if_neg (by omega), Option.bind_some, show ((n : Int) - 1) = ((n - 1 : Nat) : Int) by omega,
          ih (n - 1) (by omega) _ _ (hc.mul_left (Commute.refl x)), mul_assoc, ← pow_succ']
        congr 3; omega

/-- C50: `detail::pow(x, n)` is the `n`-th power in every monoid, commutative or not. -/
theorem C50_pow {T : Type} [Monoid T] (x : T) (n : Nat) :
    staticPow (fun a b => some (a * b)) 1 x n = some (x ^ n) := by
  unfold staticPow
  rw [staticPowLoop_eq n 1 x (Commute.one_left x), one_mul]

example : staticPow (fun a b => some (a * b)) 1 (3 : Nat) 13 = some 1594323 := by
  rw [show (13 : Int) = ((13 : Nat) : Int) by rfl, C50_pow]; decide

/-- C50: a negative exponent (signed `U`) gives one. -/
theorem C50_negative {T : Type} (mul : T → T → Option T) (one x : T) (n : Int) (hn : n ≤ 0) :
    staticPow mul one x n = some one := by
  unfold staticPow
  rw [staticPowLoop, if_neg (by omega)]

example : staticPow (fun a b => some (a * b)) 1 (3 : Nat) (-2) = some 1 := C50_negative _ _ _ _ (by omega)

theorem iterations_bound (k : Nat) : ∀ n : Nat, 0 < n → n < 2 ^ k → staticPowIterations n ≤ 2 * k := by
  induction k with
  | zero => intro n h1 h2; simp at h2; omega
  | succ k ih =>
    intro n h1 h2
    rw [Nat.pow_succ] at h2
    have even : ∀ m : Nat, 0 < m → m < 2 ^ k * 2 → m % 2 = 0 → staticPowIterations m ≤ 2 * k + 1 := by
      intro m h1 h2 h3
      rw [staticPowIterations, if_pos (by omega), if_pos (by omega),
        show ((m : Int) / 2) = ((m / 2 : Nat) : Int) by omega]
      have := ih (m / 2) (by omega) (by omega)
      omega
    by_cases h3 : n % 2 = 0
    · have := even n h1 h2 h3; omega
    · rw [staticPowIterations, if_pos (by omega), if_neg (by omega),
        show ((n : Int) - 1) = ((n - 1 : Nat) : Int) by omega]
      by_cases h4 : n = 1
      · subst h4; rw [staticPowIterations]; simp; omega
      · have := even (n - 1) (by omega) (by omega) (by omega)
        omega

/-- C50: the loop ends, after at most two iterations per binary digit of the exponent. -/
theorem C50_iterations (n : Nat) (hn : 0 < n) : staticPowIterations n ≤ 2 * (n.log2 + 1) :=
  iterations_bound (n.log2 + 1) n hn Nat.lt_log2_self

example : staticPowIterations ((13 : Nat) : Int) ≤ 8 :=
  Nat.le_trans (C50_iterations 13 (by omega)) (by decide +kernel)

/-- Multiplication in an integer type with largest value `bound`: a larger product is an overflow. -/
def boundedMul (bound a b : Nat) : Option Nat := if a * b ≤ bound then some (a * b) else none

theorem boundedLoop (bound n : Nat) : ∀ result x : Nat, 1 ≤ result → 1 ≤ x →
    result * x ^ n ≤ bound → staticPowLoop (boundedMul bound) result x (n : Int) = some (result * x ^ n) := by
  induction n using Nat.strongRecOn with
  | _ n ih =>
    intro result x hr hx hb
    rw [staticPowLoop]
    by_cases h0 : n = 0
    · subst h0; simp
    · rw [if_pos (by omega)]
      by_cases h2 : n % 2 = 0
      · have e : (x * x) ^ (n / 2) = x ^ n := by
          rw [← pow_two, ← pow_mul]; congr 1; omega
        have hsq : x * x ≤ x ^ n := by
          rw [← pow_two]; exact Nat.pow_le_pow_right hx (by omega)
        have hle : x * x ≤ bound := by
          calc x * x ≤ x ^ n := hsq
            _ ≤ result * x ^ n := Nat.le_mul_of_pos_left _ hr
            _ ≤ bound := hb
        rw [if_pos (by omega), boundedMul, if_pos hle, Option.bind_some,
          show ((n : Int) / 2) = ((n / 2 : Nat) : Int) by omega,
          ih (n / 2) (by omega) _ _ hr (Nat.mul_pos hx hx) (by rw [e]; exact hb), e]
      · have e : result * x * x ^ (n - 1) = result * x ^ n := by
          rw [mul_assoc, ← pow_succ']; congr 2; omega
        have hle : result * x ≤ bound := by
          calc result * x = result * x * 1 := (Nat.mul_one _).symm
            _ ≤ result * x * x ^ (n - 1) := Nat.mul_le_mul_left _ (Nat.one_le_pow _ _ hx)
            _ = result * x ^ n := e
            _ ≤ bound := hb
        rw [if_neg (by omega), boundedMul, if_pos hle, Option.bind_some,
          show ((n : Int) - 1) = ((n - 1 : Nat) : Int) by omega,
          ih (n - 1) (by omega) _ _ (Nat.mul_pos hr hx) hx (by rw [e]; exact hb), e]

/-- C50: no intermediate product overflows unless the result itself does. -/
theorem C50_no_overflow (bound x n : Nat) (hx : 1 ≤ x) (h : x ^ n ≤ bound) :
    staticPow (boundedMul bound) 1 x n = some (x ^ n) := by
  unfold staticPow
  have := boundedLoop bound n 1 x (Nat.le_refl 1) hx (by rwa [Nat.one_mul])
  rwa [Nat.one_mul] at this

example : staticPow (boundedMul (2 ^ 32 - 1)) 1 15 ((8 : Nat) : Int) = some (15 ^ 8) :=
  C50_no_overflow _ 15 8 (by omega) (by decide)

/-! ### C51 -/

variable {w : Nat}

theorem strxorLoop_frame (n : Nat) (mem : Nat → BitVec w) (p1 p2 out a : Nat)
    (ha : a < out ∨ out + n ≤ a) : (strxorLoop n mem p1 p2 out).1 a = mem a := by
  induction n generalizing mem p1 p2 out with
  | zero => rfl
  | succ n ih =>
    rw [strxorLoop, ih _ _ _ _ (by omega), if_neg (by omega)]

theorem strxorLoop_out (n : Nat) (mem : Nat → BitVec w) (p1 p2 out : Nat) :
    (strxorLoop n mem p1 p2 out).2 = out + n := by
  induction n generalizing mem p1 p2 out with
  | zero => rfl
  | succ n ih => rw [strxorLoop, ih]; omega

theorem strxorLoop_xor (n : Nat) (mem : Nat → BitVec w) (p1 p2 out : Nat)
    (h1 : out ≤ p1 ∨ p1 + n ≤ out) (h2 : out ≤ p2 ∨ p2 + n ≤ out) (k : Nat) (hk : k < n) :
    (strxorLoop n mem p1 p2 out).1 (out + k) = mem (p1 + k) ^^^ mem (p2 + k) := by
  induction n generalizing mem p1 p2 out k with
  | zero => omega
  | succ n ih =>
    rw [strxorLoop]
    cases k with
    | zero => rw [strxorLoop_frame _ _ _ _ _ _ (by omega)]; simp
    | succ k =>
      rw [show out + (k + 1) = out + 1 + k by omega, ih _ _ _ _ (by omega) (by omega) k (by omega)]
      rw [if_neg (by omega), if_neg (by omega)]
      congr 2 <;> omega

/-- C51: on equally long ranges `strxor` writes the exclusive or of the two inputs to `out`, changes
nothing else and returns the end of what it wrote.  The output may be one of the inputs, or start
before it; it may not start inside it. -/
theorem C51_strxor (ndebug : Bool) (mem : Nat → BitVec w) (p1 p2 out n : Nat)
    (h1 : out ≤ p1 ∨ p1 + n ≤ out) (h2 : out ≤ p2 ∨ p2 + n ≤ out) :
    ∃ mem', strxor ndebug mem p1 n p2 n out = .ok (mem', out + n) ∧
      (∀ k, k < n → mem' (out + k) = mem (p1 + k) ^^^ mem (p2 + k)) ∧
      ∀ a, (a < out ∨ out + n ≤ a) → mem' a = mem a := by
  refine ⟨(strxorLoop n mem p1 p2 out).1, ?_, strxorLoop_xor n mem p1 p2 out h1 h2,
    fun a => strxorLoop_frame n mem p1 p2 out a⟩
  unfold strxor
  rw [if_neg (by simp), Nat.min_self, ← strxorLoop_out n mem p1 p2 out]

example : ((strxor false (fun a => BitVec.ofNat 8 (a * 3)) 0 4 4 4 0).map fun r =>
    ((List.range 5).map r.1, r.2)) = .ok ([12#8, 12, 20, 28, 12], 4) := by decide +kernel

/-- C51: applying it twice with the same second argument restores the first. -/
theorem C51_involution (ndebug : Bool) (mem : Nat → BitVec w) (p1 p2 out n : Nat)
    (h1 : out ≤ p1 ∨ p1 + n ≤ out) (h2 : out + n ≤ p2 ∨ p2 + n ≤ out) :
    ∃ mem' mem'', strxor ndebug mem p1 n p2 n out = .ok (mem', out + n) ∧
      strxor ndebug mem' out n p2 n out = .ok (mem'', out + n) ∧
      (∀ k, k < n → mem'' (out + k) = mem (p1 + k)) ∧
      ∀ a, (a < out ∨ out + n ≤ a) → mem'' a = mem a := by
  obtain ⟨mem', e, hx, hf⟩ := C51_strxor ndebug mem p1 p2 out n h1 (by omega)
  obtain ⟨mem'', e', hx', hf'⟩ := C51_strxor ndebug mem' out p2 out n (by omega) (by omega)
  refine ⟨mem', mem'', e, e', fun k hk => ?_, fun a ha => by rw [hf' a ha, hf a ha]⟩
  rw [hx' k hk, hx k hk, hf (p2 + k) (by omega), BitVec.xor_assoc, BitVec.xor_self, BitVec.xor_zero]

/-- C51: symmetric in the two inputs. -/
theorem C51_commutative (ndebug : Bool) (mem : Nat → BitVec w) (p1 n1 p2 n2 out : Nat) :
    strxor ndebug mem p1 n1 p2 n2 out = strxor ndebug mem p2 n2 p1 n1 out := by
  have : ∀ n (mem : Nat → BitVec w) p1 p2 out, strxorLoop n mem p1 p2 out = strxorLoop n mem p2 p1 out := by
    intro n
    induction n with
    | zero => intros; rfl
    | succ n ih => intro mem p1 p2 out; rw [strxorLoop, strxorLoop, BitVec.xor_comm, ih]
  unfold strxor
  rw [this, Nat.min_comm]
  by_cases h : n1 = n2
  · subst h; rfl
  · simp [h, Ne.symm h]

/-- C51: ranges of different lengths trip the assertion; without assertions the common prefix is
combined and nothing behind it is touched. -/
theorem C51_unequal (mem : Nat → BitVec w) (p1 n1 p2 n2 out : Nat) (h : n1 ≠ n2) :
    strxor false mem p1 n1 p2 n2 out = .error .assertion ∧
    strxor true mem p1 n1 p2 n2 out = strxor true mem p1 (min n1 n2) p2 (min n1 n2) out := by
  constructor
  · unfold strxor; rw [if_pos ⟨rfl, h⟩]
  · unfold strxor; simp

example : strxor false (fun _ => 0#8) 0 2 2 3 0 = .error .assertion :=
  (C51_unequal (fun _ => 0#8) 0 2 2 3 0 (by decide)).1

/-- The aliasing condition of C51 is needed: an output that starts inside the first input reads cells
it has already overwritten. -/
theorem C51_overlap_false : ¬ ∀ (mem : Nat → BitVec 8) (p1 p2 out n : Nat),
    ∃ mem', strxor false mem p1 n p2 n out = .ok (mem', out + n) ∧
      ∀ k, k < n → mem' (out + k) = mem (p1 + k) ^^^ mem (p2 + k) := by
  intro h
  obtain ⟨mem', e, hx⟩ := h (fun a => BitVec.ofNat 8 a) 5 100 6 2
  have hx := hx 1 (by omega)
  unfold strxor at e
  rw [if_neg (by simp)] at e
  simp only [Except.ok.injEq, Prod.mk.injEq] at e
  have e1 := congrArg Prod.fst e
  simp only at e1
  rw [← e1] at hx
  revert hx
  decide +kernel

/-! ### C55 -/

open Der

theorem length_tlv (tag : Nat) (c : List Nat) : (tlv tag c).length = c.length + 2 := rfl

theorem isPrefix_of {pre arcs : List Nat} {d L : Nat}
    (h : pre = 0x30 :: L :: (tlv 0x30 (oid arcs ++ tlv 0x05 []) ++ [0x04, d]))
    (hL : L = (tlv 0x30 (oid arcs ++ tlv 0x05 [])).length + 2 + d) : IsPrefixFor pre arcs d := by
  intro digest hd
  subst h hL
  unfold digestInfo tlv
  simp [hd]
  omega

/-- C55, the prefixes that are right. -/
theorem C55_digest_info_partial :
    IsPrefixFor md5PkcsId [1, 2, 840, 113549, 2, 5] 16 ∧
    IsPrefixFor sha1PkcsId [1, 3, 14, 3, 2, 26] 20 ∧
    IsPrefixFor ripemdPkcsId [1, 3, 36, 3, 2, 1] 20 ∧
    IsPrefixFor sha3_224PkcsId [2, 16, 840, 1, 101, 3, 4, 2, 7] 28 ∧
    IsPrefixFor sha3_256PkcsId [2, 16, 840, 1, 101, 3, 4, 2, 8] 32 ∧
    IsPrefixFor sha3_384PkcsId [2, 16, 840, 1, 101, 3, 4, 2, 9] 48 ∧
    IsPrefixFor sha3_512PkcsId [2, 16, 840, 1, 101, 3, 4, 2, 10] 64 ∧
    IsPrefixFor tigerPkcsId [1, 3, 6, 1, 4, 1, 11591, 12, 2] 24 :=
  ⟨isPrefix_of (L := 0x20) (by decide) (by decide), isPrefix_of (L := 0x21) (by decide) (by decide),
    isPrefix_of (L := 0x21) (by decide) (by decide), isPrefix_of (L := 0x2D) (by decide) (by decide),
    isPrefix_of (L := 0x31) (by decide) (by decide), isPrefix_of (L := 0x41) (by decide) (by decide),
    isPrefix_of (L := 0x51) (by decide) (by decide), isPrefix_of (L := 0x29) (by decide) (by decide)⟩

/-- C55 is false for SHA-256 and SHA-512: the outer length and the last arc of the object identifier
are those of SHA-224, whatever the digest is. -/
theorem C55_sha2_false (digest : List Nat) :
    (digest.length = 32 → sha256PkcsId ++ digest ≠ digestInfo [2, 16, 840, 1, 101, 3, 4, 2, 1] digest) ∧
    (digest.length = 64 → sha512PkcsId ++ digest ≠ digestInfo [2, 16, 840, 1, 101, 3, 4, 2, 3] digest) := by
  constructor
  · intro h e
    have := congrArg (fun l => l[1]?) e
    simp [sha256PkcsId, digestInfo, tlv, h] at this
    revert this; decide
  · intro h e
    have := congrArg (fun l => l[1]?) e
    simp [sha512PkcsId, digestInfo, tlv, h] at this

/-- C55: these two prefixes fit no object identifier at all: with a digest of the length they announce,
the outer length is wrong. -/
theorem C55_sha2_malformed (arcs digest : List Nat) :
    (digest.length = 32 → sha256PkcsId ++ digest ≠ digestInfo arcs digest) ∧
    (digest.length = 64 → sha512PkcsId ++ digest ≠ digestInfo arcs digest) := by
  constructor
  · intro h e
    have h1 := congrArg (fun l => l[1]?) e
    have h2 := congrArg List.length e
    simp [sha256PkcsId, digestInfo, tlv, h] at h1 h2
    omega
  · intro h e
    have h1 := congrArg (fun l => l[1]?) e
    have h2 := congrArg List.length e
    simp [sha512PkcsId, digestInfo, tlv, h] at h1 h2

/-- C55, exactly what is wrong with them: the outer length (octet 1) and the last arc (octet 14), and
nothing else. -/
theorem C55_sha2_exact :
    sha256PkcsId[1]? = some 0x2D ∧ sha256PkcsId[14]? = some 4 ∧
    IsPrefixFor ((sha256PkcsId.set 1 0x31).set 14 1) [2, 16, 840, 1, 101, 3, 4, 2, 1] 32 ∧
    sha512PkcsId[1]? = some 0x2D ∧ sha512PkcsId[14]? = some 4 ∧
    IsPrefixFor ((sha512PkcsId.set 1 0x51).set 14 3) [2, 16, 840, 1, 101, 3, 4, 2, 3] 64 := by
  refine ⟨rfl, rfl, ?_, rfl, rfl, ?_⟩ <;> (intro d hd; simp [digestInfo, tlv, hd]; rfl)

/-- C55 is false for the other RIPEMD sizes, which share the prefix of RIPEMD-160. -/
theorem C55_ripemd_false (digest : List Nat) :
    (digest.length = 16 → ripemdPkcsId ++ digest ≠ digestInfo [1, 3, 36, 3, 2, 2] digest) ∧
    (digest.length = 32 → ripemdPkcsId ++ digest ≠ digestInfo [1, 3, 36, 3, 2, 3] digest) := by
  constructor
  · intro h e
    have := congrArg (fun l => l[1]?) e
    simp [ripemdPkcsId, digestInfo, tlv, h] at this
    revert this; decide
  · intro h e
    have := congrArg (fun l => l[1]?) e
    simp [ripemdPkcsId, digestInfo, tlv, h] at this

/-- C55 is false for SHA-224 and SHA-384, which have an empty prefix: a digest alone is not a DigestInfo of any
algorithm. -/
theorem C55_sha2_empty_false (arcs digest : List Nat) :
    sha224PkcsId ++ digest = digest ∧ sha384PkcsId ++ digest = digest ∧
    sha224PkcsId ++ digest ≠ digestInfo arcs digest ∧ sha384PkcsId ++ digest ≠ digestInfo arcs digest := by
  refine ⟨rfl, rfl, ?_, ?_⟩ <;>
  · intro e
    have := congrArg List.length e
    simp [sha224PkcsId, sha384PkcsId, digestInfo, tlv] at this
    omega

/-- C55 is false for SHA-0, whose object identifier is 1.3.14.3.2.18: its prefix is the one of SHA-1. -/
theorem C55_sha0_false : IsPrefixFor sha0PkcsId [1, 3, 14, 3, 2, 26] 20 ∧
    ∀ digest : List Nat, digest.length = 20 → sha0PkcsId ++ digest ≠ digestInfo [1, 3, 14, 3, 2, 18] digest := by
  refine ⟨isPrefix_of (L := 0x21) (by decide) (by decide), ?_⟩
  intro digest h e
  have := congrArg (fun l => l[10]?) e
  simp [sha0PkcsId, digestInfo, tlv, h, show oid [1, 3, 14, 3, 2, 18] = [6, 5, 0x2B, 14, 3, 2, 18] by decide] at this

example : digestInfo [1, 3, 14, 3, 2, 26] (List.replicate 20 7) = [0x30, 0x21, 0x30, 0x09, 0x06, 0x05,
    0x2B, 0x0E, 0x03, 0x02, 0x1A, 0x05, 0x00, 0x04, 0x14] ++ List.replicate 20 7 := by decide

/-- In place: the result is written over the first argument. -/
example (mem : Nat → BitVec 8) := C51_involution false mem 100 200 100 16 (Or.inl (le_refl _)) (Or.inl (by decide))

end Verif.Props
