import Verif.Props.ReinforcedConcrete
/-
C49: the buckets of Reinforced Concrete and the order in which the code takes them.
-/
namespace Verif.Props
open Spec.ReinforcedConcrete

section
variable {p' : Nat} [Fact p'.Prime]

theorem digitBox_lt {x s : Nat} (hs : p' ≤ s) (hx : x < s) : sbox p' x < s := by
  unfold sbox
  split
  · exact lt_of_lt_of_le (ZMod.val_lt _) hs
  · exact hx

/-- The S-box of the paper is an involution. -/
theorem digitBox_twice (x : Nat) : sbox p' (sbox p' x) = x := by
  by_cases h : x < p'
  · have h1 : sbox p' x = ((x : ZMod p')⁻¹).val := if_pos h
    rw [h1]
    unfold sbox
    rw [if_pos (ZMod.val_lt _), ZMod.natCast_zmod_val, inv_inv, ZMod.val_natCast_of_lt h]
  · have h1 : sbox p' x = x := if_neg h
    rw [h1, h1]

theorem digitBox_injective : Function.Injective (sbox p') := fun x y h => by rw [← digitBox_twice (p' := p') x, h, digitBox_twice]

/-- Below a number whose digits are all at least `p'`, the S-box on every digit does not lead out. -/
theorem value_sbox_lt (ss : List Nat) (hs : ∀ s ∈ ss, p' ≤ s) (N : Nat) (hN : N < ss.prod) (hd : ∀ d ∈ digits ss N, p' ≤ d) :
    value ss ((digits ss N).map (sbox p')) = N ∧ ∀ n, n < N → value ss ((digits ss n).map (sbox p')) < N := by
  induction ss generalizing N with
  | nil =>
    have : N = 0 := by simpa using hN
    subst this
    exact ⟨rfl, fun n h => by omega⟩
  | cons s ss ih =>
    have h0 : 0 < s := lt_of_lt_of_le (Fact.out : p'.Prime).pos (hs s (by simp))
    rw [digits] at hd
    obtain ⟨ih1, ih2⟩ := ih (fun t ht => hs t (by simp [ht])) (N / s)
      (by rw [List.prod_cons] at hN; exact Nat.div_lt_of_lt_mul hN) (fun d hd' => hd d (by simp [hd']))
    have hdN : p' ≤ N % s := hd _ (by simp)
    constructor
    · rw [digits, List.map_cons, value, ih1, show sbox p' (N % s) = N % s from if_neg (by omega)]
      exact Nat.mod_add_div N s
    · intro n hn
      rw [digits, List.map_cons, value]
      have hle : n / s ≤ N / s := Nat.div_le_div_right hn.le
      have e := Nat.mod_add_div N s
      have e' := Nat.mod_add_div n s
      rcases Nat.lt_or_eq_of_le hle with hlt | heq
      · have h1 := ih2 _ hlt
        have h2 := digitBox_lt (hs s (by simp)) (Nat.mod_lt n h0)
        have h3 : s * (value ss ((digits ss (n / s)).map (sbox p')) + 1) ≤ s * (N / s) := Nat.mul_le_mul_left s h1
        rw [Nat.mul_add] at h3
        omega
      · rw [heq, ih1]
        rw [heq] at e'
        have h2 : n % s < N % s := by omega
        have h3 : sbox p' (n % s) < N % s := digitBox_lt hdN h2
        omega
end

section
variable {p p' : Nat} [Fact p.Prime] [Fact p'.Prime]

theorem bar_cast (ss : List Nat) (x : ZMod p) : bar ss (fun n => (sbox p' n : ZMod p)) x =
    ((value ss ((digits ss x.val).map (sbox p')) : Nat) : ZMod p) := by
  rw [bar, ← fieldValue_combine, ← fieldValue_cast, List.map_map]
  rfl

/-- Bar with the S-box of the paper permutes the field when all digits of `p - 1` are at least `p'`. -/
theorem C49_bar (ss : List Nat) (hs : ∀ s ∈ ss, p' ≤ s) (hp : p ≤ ss.prod) (hd : ∀ d ∈ digits ss (p - 1), p' ≤ d) :
    Function.Bijective (bar ss fun n => (sbox p' n : ZMod p)) := by
  have h1 : 0 < p := (Fact.out : p.Prime).pos
  haveI : NeZero p := ⟨h1.ne'⟩
  have hs0 : ∀ s ∈ ss, 0 < s := fun s h => lt_of_lt_of_le (Fact.out : p'.Prime).pos (hs s h)
  have hlt : ∀ x : ZMod p, value ss ((digits ss x.val).map (sbox p')) < p := by
    intro x
    obtain ⟨k1, k2⟩ := value_sbox_lt ss hs (p - 1) (by omega) hd
    have hx := ZMod.val_lt x
    rcases Nat.lt_or_eq_of_le (Nat.le_sub_one_of_lt hx) with h | h
    · exact lt_trans (k2 _ h) (by omega)
    · rw [h, k1]; omega
  refine Function.Injective.bijective_of_finite fun x y h => ?_
  rw [bar_cast, bar_cast] at h
  have h2 := congrArg ZMod.val h
  rw [ZMod.val_natCast_of_lt (hlt x), ZMod.val_natCast_of_lt (hlt y)] at h2
  have hr : ∀ n, List.Forall₂ (fun d s => d < s) ((digits ss n).map (sbox p')) ss := by
    intro n
    rw [List.forall₂_map_left_iff]
    have := digits_lt ss hs0 n
    clear h h2 hlt hd hp
    induction ss generalizing n with
    | nil => exact .nil
    | cons s ss ih =>
      rw [digits] at this ⊢
      cases this with
      | cons a b => exact .cons (digitBox_lt (hs s (by simp)) a) (ih (fun t ht => hs t (by simp [ht])) (fun t ht => hs0 t (by simp [ht])) _ b)
  have h3 := congrArg (digits ss) h2
  rw [digits_value _ _ (hr _), digits_value _ _ (hr _)] at h3
  have h4 := List.map_injective_iff.2 digitBox_injective h3
  have h5 := congrArg (value ss) h4
  rw [value_digits, value_digits, Nat.mod_eq_of_lt (lt_of_lt_of_le (ZMod.val_lt x) hp),
    Nat.mod_eq_of_lt (lt_of_lt_of_le (ZMod.val_lt y) hp)] at h5
  exact ZMod.val_injective p h5

/-- The digits of the code and the S-box of the paper. -/
theorem rcBar_intended (P : RcPolicy) (hs : ∀ s ∈ P.bucket, 0 < s ∧ s < p) (x : ZMod p) :
    rcCompose P ((rcDecompose P x).map fun d => (sbox p' d.val : ZMod p)) =
      bar P.bucket.reverse (fun n => (sbox p' n : ZMod p)) x := by
  haveI : NeZero p := ⟨(Fact.out : p.Prime).ne_zero⟩
  have hd := C49_decompose P hs x
  have e : (rcDecompose P x).map (fun d => (sbox p' d.val : ZMod p)) =
      ((rcDecompose P x).map ZMod.val).map fun n => (sbox p' n : ZMod p) := by rw [List.map_map]; rfl
  rw [e, hd, compose_eq _ _ (by rw [List.length_map, List.length_reverse, digits_length, List.length_reverse]),
    ← List.map_reverse, List.reverse_reverse, fieldValue_combine]
  rfl
end

section
local instance : Fact (Nat.Prime 659) := ⟨by norm_num⟩

/-- **C49, the buckets.** All digits of `p - 1` are at least `p_min` when the first bucket is the least significant one, and
`p_min` is the largest prime with this property: with the S-box of the paper the table of the library, read from the first
bucket on, gives a permutation of the field. -/
theorem C49_buckets : (∀ d ∈ digits rcBls12.bucket (bls12Scalar - 1), rcBls12.pMin ≤ d) ∧
    (∀ q : Nat, q.Prime → (∀ d ∈ digits rcBls12.bucket (bls12Scalar - 1), q ≤ d) → q ≤ rcBls12.pMin) ∧
    Function.Bijective fun x : Fr =>
      rcCompose { rcBls12 with bucket := rcBls12.bucket.reverse }
        ((rcDecompose { rcBls12 with bucket := rcBls12.bucket.reverse } x).map fun d => (sbox rcBls12.pMin d.val : Fr)) := by
  have h1 : ∀ d ∈ digits rcBls12.bucket (bls12Scalar - 1), 659 ≤ d := by decide +kernel
  refine ⟨h1, ?_, ?_⟩
  · intro q hq h
    have h660 : q ≤ 660 := h 660 (by decide +kernel)
    rcases Nat.lt_or_eq_of_le h660 with h2 | h2
    · exact Nat.le_of_lt_succ h2
    · rw [h2] at hq
      exact absurd hq (by norm_num)
  · have e := rcBar_intended (p := bls12Scalar) (p' := 659) { rcBls12 with bucket := rcBls12.bucket.reverse }
      (fun s hs => rcBls12_bucket s (List.mem_reverse.1 hs))
    have hb := C49_bar (p := bls12Scalar) (p' := 659) rcBls12.bucket (by decide +kernel) (by decide +kernel) h1
    have : (fun x : Fr => rcCompose { rcBls12 with bucket := rcBls12.bucket.reverse }
        ((rcDecompose { rcBls12 with bucket := rcBls12.bucket.reverse } x).map fun d => (sbox rcBls12.pMin d.val : Fr))) =
        bar rcBls12.bucket fun n => (sbox 659 n : Fr) := by
      funext x
      rw [show rcBls12.pMin = 659 from rfl, e x]
      exact congrArg (fun l => bar l _ x) (List.reverse_reverse _)
    rw [this]
    exact hb

/-- Two elements with the same image under Bar as the code orders the buckets, even with the S-box of the paper. -/
def rcLeft : Nat := 0x73ed9c6f839e8c1b6bf449286fb20bc782c05917b6e8c38537bcfb6365ac0000
def rcRight : Nat := 0x969d78f7d8ef94edb1cd9f6af23a06bbb0e885ee54f466f59b663c7d884

/-- **C49, the order of the buckets is wrong.** `decompose` and `compose` take the last bucket as the least significant one.
In this order the digits of `p - 1` are not at least `p_min`, and Bar would not be injective even with the S-box of the paper. -/
theorem C49_order_false : ¬ Function.Injective fun x : Fr =>
    rcCompose rcBls12 ((rcDecompose rcBls12 x).map fun d => (sbox rcBls12.pMin d.val : Fr)) := by
  intro h
  have hl : rcLeft < bls12Scalar := by decide +kernel
  have hr : rcRight < bls12Scalar := by decide +kernel
  have key : (rcLeft : Fr) = (rcRight : Fr) := by
    apply h
    show rcCompose rcBls12 ((rcDecompose rcBls12 (rcLeft : Fr)).map fun d => (sbox 659 d.val : Fr)) =
      rcCompose rcBls12 ((rcDecompose rcBls12 (rcRight : Fr)).map fun d => (sbox 659 d.val : Fr))
    rw [rcBar_intended _ rcBls12_bucket, rcBar_intended _ rcBls12_bucket, bar_cast, bar_cast, ZMod.val_natCast_of_lt hl,
      ZMod.val_natCast_of_lt hr]
    rw [ZMod.natCast_eq_natCast_iff]
    decide +kernel
  have := congrArg ZMod.val key
  rw [ZMod.val_natCast_of_lt hl, ZMod.val_natCast_of_lt hr] at this
  exact absurd this (by decide +kernel)
end

section
local instance : Fact (Nat.Prime 41) := ⟨by norm_num⟩
local instance : Fact (Nat.Prime 5) := ⟨by decide⟩

/-- The digits of 40 for the radices 7 and 6 are 5 and 5. -/
example : Function.Bijective (bar [7, 6] fun n => (sbox 5 n : ZMod 41)) := C49_bar [7, 6] (by decide) (by decide) (by decide)

example : rcLeft < bls12Scalar ∧ rcRight < bls12Scalar ∧ rcLeft ≠ rcRight := by decide +kernel
end

end Verif.Props
