import Mathlib.Algebra.BigOperators.Group.Finset.Piecewise
import Mathlib.Algebra.BigOperators.Field
import Mathlib.Data.Nat.Choose.Basic
import Mathlib.Order.Interval.Finset.Fin
import Mathlib.Tactic.Linarith
import Mathlib.Tactic.FieldSimp
import Mathlib.Tactic.Ring
import Verif.Spec.RandomOracle
import Verif.Props.H2fSuites
/-
Counting hash functions with prescribed digests, and the distance of a distribution from the uniform one.
-/
namespace Verif.Oracle
open Spec Spec.Oracle

/-! ### Functions with prescribed values -/

theorem card_prescribed {I S O : Type} [Fintype I] [Fintype S] [DecidableEq S] [Fintype O] [DecidableEq O] (x : I → S)
    (hx : Function.Injective x) (w : I → O) :
    (Finset.univ.filter fun H : S → O => ∀ i, H (x i) = w i).card * Fintype.card O ^ Fintype.card I =
      Fintype.card O ^ Fintype.card S := by
  classical
  have e : (Finset.univ.filter fun H : S → O => ∀ i, H (x i) = w i) =
      Fintype.piFinset fun s => if h : ∃ i, x i = s then {w h.choose} else Finset.univ := by
    ext H
    rw [Finset.mem_filter, Fintype.mem_piFinset]
    constructor
    · rintro ⟨-, h⟩ s
      split
      · rename_i hs
        rw [Finset.mem_singleton, ← h, hs.choose_spec]
      · exact Finset.mem_univ _
    · intro h
      refine ⟨Finset.mem_univ _, fun i => ?_⟩
      have hi : ∃ j, x j = x i := ⟨i, rfl⟩
      have := h (x i)
      rw [dif_pos hi, Finset.mem_singleton, hx hi.choose_spec] at this
      exact this
  have hc : ∀ s, (if h : ∃ i, x i = s then {w h.choose} else Finset.univ : Finset O).card =
      if ∃ i, x i = s then 1 else Fintype.card O := by
    intro s
    by_cases h : ∃ i, x i = s
    · rw [dif_pos h, if_pos h, Finset.card_singleton]
    · rw [dif_neg h, if_neg h, Finset.card_univ]
  rw [e, Fintype.card_piFinset, Finset.prod_congr rfl fun s _ => hc s, Finset.prod_ite, Finset.prod_const_one, one_mul,
    Finset.prod_const, ← pow_add]
  congr 1
  have him : (Finset.univ.filter fun s => ∃ i, x i = s) = Finset.univ.image x := by
    ext s
    simp
  have := Finset.card_filter_add_card_filter_not (s := (Finset.univ : Finset S)) (fun s => ∃ i, x i = s)
  rw [him, Finset.card_image_of_injective _ hx, Finset.card_univ, Finset.card_univ] at this
  omega

/-! ### Distance from the uniform distribution -/

section
variable {Ω V : Type} [Fintype Ω] [Fintype V]

theorem prob_nonneg (p : Ω → Prop) : 0 ≤ prob p := div_nonneg (Nat.cast_nonneg _) (Nat.cast_nonneg _)

theorem prob_mono {p r : Ω → Prop} (h : ∀ x, p x → r x) : prob p ≤ prob r := by
  classical
  refine div_le_div_of_nonneg_right (Nat.cast_le.2 (Finset.card_le_card fun x hx => ?_)) (Nat.cast_nonneg _)
  simp only [Finset.mem_filter, Finset.mem_univ, true_and] at hx ⊢
  exact h x hx

theorem prob_congr {p r : Ω → Prop} (h : ∀ x, p x ↔ r x) : prob p = prob r :=
  le_antisymm (prob_mono fun x => (h x).1) (prob_mono fun x => (h x).2)

theorem prob_not [Nonempty Ω] (p : Ω → Prop) : prob (fun x => ¬ p x) = 1 - prob p := by
  classical
  have h := Finset.card_filter_add_card_filter_not (s := (Finset.univ : Finset Ω)) p
  have h0 : (Fintype.card Ω : ℚ) ≠ 0 := Nat.cast_ne_zero.2 Fintype.card_ne_zero
  unfold prob
  rw [eq_sub_iff_add_eq, ← add_div, div_eq_one_iff_eq h0, ← Nat.cast_add]
  rw [Finset.card_univ] at h
  rw [← h, Nat.add_comm]
  congr!

theorem prob_sum (f : Ω → V) (p : V → Prop) [DecidableEq V] [DecidablePred p] :
    prob (fun x => p (f x)) = ∑ v ∈ Finset.univ.filter p, prob fun x => f x = v := by
  classical
  unfold prob
  rw [← Finset.sum_div, ← Nat.cast_sum, ← Finset.card_biUnion]
  · congr 2
    congr 1
    ext x
    simp
  · intro v _ w _ hvw
    refine Finset.disjoint_left.2 fun x hx hy => hvw ?_
    simp only [Finset.mem_filter, Finset.mem_univ, true_and] at hx hy
    exact hx.symm.trans hy

/-- If every value has at least `1 - ε` times its share, every event has its share up to `ε`. -/
theorem event_distance [Nonempty Ω] [Nonempty V] (f : Ω → V) {ε : ℚ} (hε : 0 ≤ ε)
    (h : ∀ v, (1 - ε) / Fintype.card V ≤ prob fun x => f x = v) (p : V → Prop) :
    |prob (fun x => p (f x)) - prob p| ≤ ε := by
  classical
  have key : ∀ p : V → Prop, prob p - ε ≤ prob fun x => p (f x) := by
    intro p
    rw [prob_sum f p]
    refine le_trans ?_ (Finset.sum_le_sum fun v _ => h v)
    rw [Finset.sum_const, nsmul_eq_mul, ← mul_div_assoc, mul_comm, mul_div_assoc]
    have h1 : (((Finset.univ.filter p).card : ℚ) / Fintype.card V) = prob p := by unfold prob; congr!
    rw [h1, sub_mul, one_mul]
    have : prob p ≤ 1 := by
      have := prob_not p
      have := prob_nonneg fun v => ¬ p v
      linarith
    nlinarith
  rw [abs_le]
  have h1 := key p
  have h2 := key fun v => ¬ p v
  rw [prob_not, prob_not] at h2
  constructor <;> linarith

end

/-! ### Digests -/

theorem length_octets {b : Nat} (d : Digest b) : (octets d).length = b := List.length_ofFn

theorem octets_injective {b : Nat} : Function.Injective (octets : Digest b → List Nat) := by
  intro d e h
  have := List.ofFn_injective h
  funext i
  exact Fin.ext (congrFun this i)

theorem octets_lt {b : Nat} (d : Digest b) : ∀ x ∈ octets d, x < 256 := by
  intro x hx
  rw [octets, List.mem_ofFn] at hx
  obtain ⟨i, rfl⟩ := hx
  exact (d i).2

/-- The exclusive or of two digests. -/
def dxor {b : Nat} (d e : Digest b) : Digest b := fun i => ⟨(d i).1 ^^^ (e i).1, Nat.xor_lt_two_pow (n := 8) (d i).2 (e i).2⟩

theorem octets_dxor {b : Nat} (d e : Digest b) : octets (dxor d e) = List.zipWith (· ^^^ ·) (octets d) (octets e) := by
  refine List.ext_getElem (by simp [length_octets]) fun i h1 h2 => ?_
  simp [octets, dxor]

theorem dxor_right_injective {b : Nat} (e : Digest b) : Function.Injective fun d => dxor d e := by
  intro d d' h
  funext i
  have := congrArg Fin.val (congrFun h i)
  have this : (d i).1 ^^^ (e i).1 ^^^ (e i).1 = (d' i).1 ^^^ (e i).1 ^^^ (e i).1 := congrArg (· ^^^ (e i).1) this
  rw [Nat.xor_assoc, Nat.xor_assoc, Nat.xor_self, Nat.xor_zero, Nat.xor_zero] at this
  exact Fin.ext this

theorem card_digest (b : Nat) : Fintype.card (Digest b) = 256 ^ b := by
  rw [Fintype.card_fun, Fintype.card_fin, Fintype.card_fin]

/-! ### The strings of several calls -/

section
variable {b s q : Nat} (c : Fin q → XmdCall)

/-- The outputs of the calls: `ell` digests each. -/
abbrev Outputs (b : Nat) (c : Fin q → XmdCall) := (j : Fin q) → Fin (c j).ell → Digest b

/-- Output block `i`, zero when there are fewer. -/
def outBlock (v : Outputs b c) (j : Fin q) (i : Nat) : Digest b := if h : i < (c j).ell then v j ⟨i, h⟩ else fun _ => 0

/-- The octets hashed for output block `i`, without index and tag. -/
def chained (v : Outputs b c) (β : Fin q → Digest b) (j : Fin q) : Nat → Digest b
  | 0 => β j
  | i + 1 => dxor (β j) (outBlock c v j i)

/-- The strings that are hashed when the first digests are `β` and the outputs are `v`. -/
def asked (b s : Nat) (c : Fin q → XmdCall) (v : Outputs b c) (β : Fin q → Digest b) : (Σ j : Fin q, Fin ((c j).ell + 1)) → List Nat
  | ⟨j, ⟨0, _⟩⟩ => msgPrime s (c j).msg (c j).dst (b * (c j).ell)
  | ⟨j, ⟨i + 1, _⟩⟩ => octets (chained c v β j i) ++ i2osp (i + 1) 1 ++ dstPrime (c j).dst

/-- The answers. -/
def answers (v : Outputs b c) (β : Fin q → Digest b) : (Σ j : Fin q, Fin ((c j).ell + 1)) → Digest b
  | ⟨j, ⟨0, _⟩⟩ => β j
  | ⟨j, ⟨i + 1, _⟩⟩ => outBlock c v j i

/-- No two calls hash the same string for the same block. -/
def Separate (L : Nat) (v : Outputs b c) (β : Fin q → Digest b) : Prop :=
  ∀ j j' : Fin q, j < j' → ∀ i < L, chained c v β j i ≠ chained c v β j' i

variable {c}

theorem asked_injective (hc : Function.Injective c) (ha : ∀ j, Allowed b (c j)) {L : Nat} (hL : ∀ j, (c j).ell ≤ L) (hb : 0 < b)
    (v : Outputs b c) (β : Fin q → Digest b) (hs : Separate c L v β) : Function.Injective (asked b s c v β) := by
  have zero : ∀ (j j' : Fin q) (i : Nat) (hi : i < (c j').ell),
      msgPrime s (c j).msg (c j).dst (b * (c j).ell) ≠ octets (chained c v β j' i) ++ i2osp (i + 1) 1 ++ dstPrime (c j').dst := by
    intro j j' i hi h
    have h255 := (ha j').2.1
    obtain ⟨h1, -⟩ := Props.append_dstPrime_inj (ha j).1 (ha j').1 h
    rw [Props.i2osp_octet (by omega), Props.i2osp_octet (by omega)] at h1
    have := (List.append_inj' h1 rfl).2
    simp at this
  rintro ⟨j, ⟨i, hi⟩⟩ ⟨j', ⟨i', hi'⟩⟩ h
  rcases i with _ | i <;> rcases i' with _ | i'
  · obtain ⟨h1, h2, h3⟩ := Props.C79_msg_prime_injective s (ha j).1 (ha j').1 (ha j).2.2 (ha j').2.2 h
    have h3 := Nat.eq_of_mul_eq_mul_left hb h3
    have : c j = c j' := by
      cases hj : c j
      cases hj' : c j'
      simp only [hj, hj'] at h1 h2 h3
      rw [h1, h2, h3]
    obtain rfl := hc this
    rfl
  · exact absurd h (zero j j' i' (by omega))
  · exact absurd h.symm (zero j' j i (by omega))
  · have h255 := (ha j).2.1
    have h255' := (ha j').2.1
    obtain ⟨h1, -⟩ := Props.append_dstPrime_inj (ha j).1 (ha j').1 h
    rw [Props.i2osp_octet (by omega), Props.i2osp_octet (by omega)] at h1
    obtain ⟨h2, h3⟩ := List.append_inj' h1 rfl
    have h3 : i = i' := by simpa using h3
    subst h3
    have h2 := octets_injective h2
    have hLj := hL j
    rcases lt_trichotomy j j' with hj | rfl | hj
    · exact absurd h2 (hs j j' hj i (by omega))
    · rfl
    · exact absurd h2.symm (hs j' j hj i (by omega))

/-- With these digests the calls return these outputs. -/
theorem outputs_of_answers {S : Finset (List Nat)} (hS : ∀ j, Covers S b s (c j)) (hb : 0 < b) (v : Outputs b c) (β : Fin q → Digest b)
    (H : Hash S b) (hH : ∀ k, H.apply (asked b s c v β k) = octets (answers c v β k)) (j : Fin q) :
    expandMessageXmd H.apply b s (c j).msg (c j).dst (b * (c j).ell) = (List.ofFn fun i => octets (v j i)).flatten := by
  have h0 : H.apply (msgPrime s (c j).msg (c j).dst (b * (c j).ell)) = octets (β j) := hH ⟨j, ⟨0, by omega⟩⟩
  have hi : ∀ i, i < (c j).ell → xmdBlock H.apply (c j).dst (octets (β j)) (i + 1) = octets (outBlock c v j i) := by
    intro i
    induction i with
    | zero =>
      intro h
      have := hH ⟨j, ⟨0 + 1, by omega⟩⟩
      rw [asked, chained, answers] at this
      rw [← this]
      rfl
    | succ i ih =>
      intro h
      show H.apply (List.zipWith (· ^^^ ·) (octets (β j)) (xmdBlock H.apply (c j).dst (octets (β j)) (i + 1)) ++ _ ++ _) = _
      rw [ih (by omega), ← octets_dxor]
      exact hH ⟨j, ⟨i + 1 + 1, by omega⟩⟩
  have hell : (b * (c j).ell + b - 1) / b = (c j).ell := by
    rw [Nat.add_sub_assoc hb, Nat.mul_add_div hb, Nat.div_eq_of_lt (by omega), Nat.add_zero]
  unfold expandMessageXmd
  simp only
  rw [hell, h0]
  have e : ((List.range (c j).ell).map fun i => xmdBlock H.apply (c j).dst (octets (β j)) (i + 1)) =
      List.ofFn fun i => octets (v j i) := by
    refine List.ext_getElem (by simp) fun i h1 h2 => ?_
    simp only [List.length_map, List.length_range] at h1
    rw [List.getElem_map, List.getElem_range, List.getElem_ofFn, hi i h1, outBlock, dif_pos h1]
  rw [e, List.take_of_length_le]
  rw [List.length_flatten, List.map_ofFn]
  rw [show (List.length ∘ fun i => octets (v j i)) = fun _ => b from funext fun i => length_octets _, List.ofFn_const,
    List.sum_replicate, smul_eq_mul, Nat.mul_comm]

/-! ### Counting the first digests -/

theorem card_equal (v : Outputs b c) (j j' : Fin q) (hj : j < j') (i : Nat) :
    (Finset.univ.filter fun β : Fin q → Digest b => chained c v β j i = chained c v β j' i).card ≤ (256 ^ b) ^ (q - 1) := by
  classical
  have hcard : Fintype.card ({k // k ≠ j'} → Digest b) = (256 ^ b) ^ (q - 1) := by
    rw [Fintype.card_fun, card_digest, Fintype.card_subtype_compl, Fintype.card_fin, Fintype.card_subtype_eq]
  rw [← hcard, ← Finset.card_univ]
  refine Finset.card_le_card_of_injOn (fun β k => β k.1) (fun β _ => Finset.mem_coe.2 (Finset.mem_univ _)) ?_
  intro β hβ γ hγ h
  have hβ := (Finset.mem_filter.1 (Finset.mem_coe.1 hβ)).2
  have hγ := (Finset.mem_filter.1 (Finset.mem_coe.1 hγ)).2
  have hk : ∀ k, k ≠ j' → β k = γ k := fun k hk => congrFun h ⟨k, hk⟩
  funext k
  by_cases hkj : k = j'
  · subst hkj
    have h1 : chained c v β j i = chained c v γ j i := by
      cases i <;> simp only [chained, hk j hj.ne]
    rw [hβ, hγ] at h1
    cases i with
    | zero => exact h1
    | succ i => exact dxor_right_injective _ h1
  · exact hk k hkj

theorem gauss (q : Nat) : ((∑ i ∈ Finset.range q, i : Nat) : ℚ) = q * (q - 1) / 2 := by
  induction q with
  | zero => simp
  | succ q ih => rw [Finset.sum_range_succ, Nat.cast_add, ih]; push_cast; ring

theorem card_separate (L : Nat) (v : Outputs b c) [DecidablePred (Separate c L v)] :
    ((256 ^ b) ^ q : ℚ) - (q * (q - 1) / 2 : ℚ) * L * (256 ^ b) ^ (q - 1) ≤ (Finset.univ.filter (Separate c L v)).card := by
  classical
  have hsub : (Finset.univ.filter fun β => ¬ Separate c L v β) ⊆ Finset.univ.biUnion fun j' : Fin q => (Finset.Iio j').biUnion fun j =>
      (Finset.range L).biUnion fun i => Finset.univ.filter fun β => chained c v β j i = chained c v β j' i := by
    intro β hβ
    have hβ := (Finset.mem_filter.1 hβ).2
    unfold Separate at hβ
    push Not at hβ
    obtain ⟨j, j', hj, i, hi, h⟩ := hβ
    simp only [Finset.mem_biUnion, Finset.mem_univ, true_and, Finset.mem_Iio, Finset.mem_range, Finset.mem_filter]
    exact ⟨j', j, hj, i, hi, h⟩
  have hbad : (Finset.univ.filter fun β => ¬ Separate c L v β).card ≤ ∑ j' : Fin q, j'.1 * (L * (256 ^ b) ^ (q - 1)) := by
    refine le_trans (Finset.card_le_card hsub) (le_trans Finset.card_biUnion_le (Finset.sum_le_sum fun j' _ => ?_))
    refine le_trans Finset.card_biUnion_le (le_trans (Finset.sum_le_card_nsmul _ _ (L * (256 ^ b) ^ (q - 1)) fun j hj => ?_) ?_)
    · refine le_trans Finset.card_biUnion_le (le_trans (Finset.sum_le_card_nsmul _ _ ((256 ^ b) ^ (q - 1)) fun i hi => ?_) ?_)
      · exact card_equal v j j' (Finset.mem_Iio.1 hj) i
      · rw [Finset.card_range, smul_eq_mul]
    · rw [Fin.card_Iio, smul_eq_mul]
  have hsum : ((∑ j' : Fin q, j'.1 * (L * (256 ^ b) ^ (q - 1)) : Nat) : ℚ) = (q * (q - 1) / 2 : ℚ) * L * (256 ^ b) ^ (q - 1) := by
    rw [← Finset.sum_mul, Fin.sum_univ_eq_sum_range (fun i => i) q, Nat.cast_mul, Nat.cast_mul, Nat.cast_pow, Nat.cast_pow]
    rw [gauss]
    push_cast
    ring
  have htot := Finset.card_filter_add_card_filter_not (s := (Finset.univ : Finset (Fin q → Digest b))) (Separate c L v)
  rw [Finset.card_univ, Fintype.card_fun, card_digest, Fintype.card_fin] at htot
  have h1 : ((Finset.univ.filter (Separate c L v)).card : ℚ) + (Finset.univ.filter fun β => ¬ Separate c L v β).card =
      (256 ^ b) ^ q := by
    rw [← Nat.cast_add, htot]
    push_cast
    rfl
  have h2 : ((Finset.univ.filter fun β => ¬ Separate c L v β).card : ℚ) ≤ _ := le_trans (Nat.cast_le.2 hbad) (le_of_eq hsum)
  linarith

/-- Every combination of outputs has at least its share, up to the probability that two calls meet. -/
theorem outputs_share (hc : Function.Injective c) (ha : ∀ j, Allowed b (c j)) {L : Nat} (hL : ∀ j, (c j).ell ≤ L) (hb : 0 < b)
    {S : Finset (List Nat)} (hS : ∀ j, Covers S b s (c j)) (v : Outputs b c) :
    (1 - (q * (q - 1) / 2 : ℚ) * L / 256 ^ b) / Fintype.card (Outputs b c) ≤
      prob fun H : Hash S b => ∀ j, expandMessageXmd H.apply b s (c j).msg (c j).dst (b * (c j).ell) =
        (List.ofFn fun i => octets (v j i)).flatten := by
  classical
  have hmem : ∀ β k, asked b s c v β k ∈ S := by
    rintro β ⟨j, ⟨i, hi⟩⟩
    cases i with
    | zero => exact (hS j).1
    | succ i => exact (hS j).2 _ _ (by omega) (by omega)
  let F : (Fin q → Digest b) → Finset (Hash S b) := fun β =>
    Finset.univ.filter fun H => ∀ k, H ⟨asked b s c v β k, hmem β k⟩ = answers c v β k
  have hF : ∀ β, Separate c L v β → (F β).card * (256 ^ b) ^ (q + ∑ j, (c j).ell) = (256 ^ b) ^ S.card := by
    intro β hβ
    have := card_prescribed (fun k => (⟨asked b s c v β k, hmem β k⟩ : S))
      (fun k k' h => asked_injective hc ha hL hb v β hβ (congrArg Subtype.val h)) (answers c v β)
    rw [card_digest, Fintype.card_coe, Fintype.card_sigma] at this
    rw [← this]
    congr 2
    simp only [Fintype.card_fin, Finset.sum_add_distrib, Finset.sum_const, Finset.card_univ, smul_eq_mul, mul_one]
    omega
  have hdisj : ∀ β ∈ Finset.univ.filter (Separate c L v), ∀ γ ∈ Finset.univ.filter (Separate c L v), β ≠ γ → Disjoint (F β) (F γ) := by
    intro β _ γ _ hne
    refine Finset.disjoint_left.2 fun H h1 h2 => hne ?_
    funext j
    have h1 := (Finset.mem_filter.1 h1).2 ⟨j, ⟨0, by omega⟩⟩
    have h2 := (Finset.mem_filter.1 h2).2 ⟨j, ⟨0, by omega⟩⟩
    exact h1.symm.trans h2
  have hsub : (Finset.univ.filter (Separate c L v)).biUnion F ⊆ Finset.univ.filter fun H : Hash S b =>
      ∀ j, expandMessageXmd H.apply b s (c j).msg (c j).dst (b * (c j).ell) = (List.ofFn fun i => octets (v j i)).flatten := by
    intro H hH
    obtain ⟨β, -, hβ⟩ := Finset.mem_biUnion.1 hH
    have hβ := (Finset.mem_filter.1 hβ).2
    refine Finset.mem_filter.2 ⟨Finset.mem_univ _, outputs_of_answers hS hb v β H fun k => ?_⟩
    rw [Hash.apply, dif_pos (hmem β k), hβ k]
  have hcard := Finset.card_le_card hsub
  rw [Finset.card_biUnion hdisj] at hcard
  have hN : (0 : ℚ) < 256 ^ b := by positivity
  have hFq : ∀ β ∈ Finset.univ.filter (Separate c L v), ((F β).card : ℚ) = (256 ^ b) ^ S.card / (256 ^ b) ^ (q + ∑ j, (c j).ell) := by
    intro β hβ
    rw [eq_div_iff (by positivity)]
    exact_mod_cast hF β (Finset.mem_filter.1 hβ).2
  have hout : (Fintype.card (Outputs b c) : ℚ) = (256 ^ b) ^ (∑ j, (c j).ell) := by
    rw [Fintype.card_pi]
    simp only [Fintype.card_fun, card_digest, Fintype.card_fin]
    rw [Finset.prod_pow_eq_pow_sum]
    push_cast
    rfl
  have hall : (Fintype.card (Hash S b) : ℚ) = (256 ^ b) ^ S.card := by
    rw [Fintype.card_fun, card_digest, Fintype.card_coe]
    push_cast
    rfl
  have hq : ((∑ β ∈ Finset.univ.filter (Separate c L v), (F β).card : Nat) : ℚ) =
      (Finset.univ.filter (Separate c L v)).card * ((256 ^ b) ^ S.card / (256 ^ b) ^ (q + ∑ j, (c j).ell)) := by
    rw [Nat.cast_sum, Finset.sum_congr rfl hFq, Finset.sum_const, nsmul_eq_mul]
  have h1 : ((256 ^ b) ^ q - (q * (q - 1) / 2 : ℚ) * L * (256 ^ b) ^ (q - 1)) *
      ((256 ^ b) ^ S.card / (256 ^ b) ^ (q + ∑ j, (c j).ell)) ≤ _ :=
    le_trans (mul_le_mul_of_nonneg_right (card_separate L v) (by positivity)) (le_trans (le_of_eq hq.symm) (Nat.cast_le.2 hcard))
  unfold prob
  rw [hall, hout, le_div_iff₀ (by positivity)]
  refine le_trans (le_of_eq ?_) (le_trans h1 (le_of_eq (by congr!)))
  rw [pow_add]
  rcases Nat.eq_zero_or_pos q with rfl | hq0
  · simp
  · obtain ⟨r, rfl⟩ : ∃ r, q = r + 1 := ⟨q - 1, by omega⟩
    rw [Nat.add_sub_cancel, pow_succ]
    field_simp

theorem eq_octets {n : Nat} (w : List Nat) (hl : w.length = n) (hw : ∀ x ∈ w, x < 256) : ∃ d : Digest n, octets d = w := by
  subst hl
  exact ⟨fun i => ⟨w[i], hw _ (List.getElem_mem _)⟩, List.ofFn_getElem⟩

theorem octets_mul {b n : Nat} (d : Digest (b * n)) : ∃ v : Fin n → Digest b, octets d = (List.ofFn fun i => octets (v i)).flatten :=
  ⟨_, List.ofFn_mul' fun i => (d i).1⟩

/-- The same for the outputs as strings of octets. -/
theorem outputs_share_list (hc : Function.Injective c) (ha : ∀ j, Allowed b (c j)) {L : Nat} (hL : ∀ j, (c j).ell ≤ L) (hb : 0 < b)
    {S : Finset (List Nat)} (hS : ∀ j, Covers S b s (c j)) (w : Fin q → List Nat)
    (hw : ∀ j, (w j).length = b * (c j).ell ∧ ∀ x ∈ w j, x < 256) :
    (1 - (q * (q - 1) / 2 : ℚ) * L / 256 ^ b) / 256 ^ (∑ j, b * (c j).ell) ≤
      prob fun H : Hash S b => ∀ j, expandMessageXmd H.apply b s (c j).msg (c j).dst (b * (c j).ell) = w j := by
  have hv : ∀ j, ∃ v : Fin (c j).ell → Digest b, w j = (List.ofFn fun i => octets (v i)).flatten := by
    intro j
    obtain ⟨d, hd⟩ := eq_octets (w j) (hw j).1 (hw j).2
    rw [← hd]
    exact octets_mul d
  choose v hv using hv
  have h := outputs_share hc ha hL hb hS v
  have e : Fintype.card (Outputs b c) = 256 ^ (∑ j, b * (c j).ell) := by
    rw [Fintype.card_pi]
    simp only [Fintype.card_fun, card_digest, Fintype.card_fin, ← pow_mul]
    rw [Finset.prod_pow_eq_pow_sum]
  rw [e] at h
  push_cast at h
  refine le_trans h (prob_mono fun H hH j => ?_)
  rw [hH j, hv j]

theorem apply_octets {S : Finset (List Nat)} (H : Hash S b) (x : List Nat) : (H.apply x).length = b ∧ ∀ y ∈ H.apply x, y < 256 := by
  unfold Hash.apply
  split
  · exact ⟨length_octets _, octets_lt _⟩
  · refine ⟨List.length_replicate, fun y hy => ?_⟩
    rw [List.eq_of_mem_replicate hy]
    omega

theorem xmdBlock_octets {S : Finset (List Nat)} (H : Hash S b) (dst x : List Nat) (i : Nat) :
    ∃ y, xmdBlock H.apply dst (H.apply x) i = H.apply y := by
  match i with
  | 0 => exact ⟨_, rfl⟩
  | 1 => exact ⟨_, rfl⟩
  | i + 2 => exact ⟨_, rfl⟩

/-- The output consists of octets and has the requested length. -/
theorem expand_octets {S : Finset (List Nat)} (H : Hash S b) (hb : 0 < b) (s : Nat) (msg dst : List Nat) (n : Nat) :
    (expandMessageXmd H.apply b s msg dst (b * n)).length = b * n ∧ ∀ y ∈ expandMessageXmd H.apply b s msg dst (b * n), y < 256 := by
  have hell : (b * n + b - 1) / b = n := by
    rw [Nat.add_sub_assoc hb, Nat.mul_add_div hb, Nat.div_eq_of_lt (by omega), Nat.add_zero]
  unfold expandMessageXmd
  simp only
  rw [hell]
  constructor
  · rw [List.length_take, List.length_flatten, List.map_map]
    rw [show (List.map (List.length ∘ fun i => xmdBlock H.apply dst (H.apply (msgPrime s msg dst (b * n))) (i + 1)) (List.range n)) =
        List.replicate n b from ?_]
    · rw [List.sum_replicate, smul_eq_mul, Nat.mul_comm n b, min_self]
    · rw [List.eq_replicate_iff]
      refine ⟨by simp, fun l hl => ?_⟩
      obtain ⟨i, -, rfl⟩ := List.mem_map.1 hl
      obtain ⟨y, hy⟩ := xmdBlock_octets H dst (msgPrime s msg dst (b * n)) (i + 1)
      rw [Function.comp_apply, hy]
      exact (apply_octets H y).1
  · intro y hy
    obtain ⟨l, hl, hy⟩ := List.mem_flatten.1 (List.mem_of_mem_take hy)
    obtain ⟨i, -, rfl⟩ := List.mem_map.1 hl
    obtain ⟨x, hx⟩ := xmdBlock_octets H dst (msgPrime s msg dst (b * n)) (i + 1)
    rw [hx] at hy
    exact (apply_octets H x).2 y hy

/-- Another hash with the same digests gives the same output. -/
theorem expand_congr {S : Finset (List Nat)} (H : Hash S b) (hb : 0 < b) (c : XmdCall) (hS : Covers S b s c) (Hb : List Nat → List Nat)
    (h : ∀ x ∈ S, Hb x = H.apply x) :
    expandMessageXmd Hb b s c.msg c.dst (b * c.ell) = expandMessageXmd H.apply b s c.msg c.dst (b * c.ell) := by
  have hell : (b * c.ell + b - 1) / b = c.ell := by
    rw [Nat.add_sub_assoc hb, Nat.mul_add_div hb, Nat.div_eq_of_lt (by omega), Nat.add_zero]
  unfold expandMessageXmd
  simp only
  rw [hell, h _ hS.1]
  obtain ⟨d, hd⟩ := eq_octets (H.apply (msgPrime s c.msg c.dst (b * c.ell))) (apply_octets H _).1 (apply_octets H _).2
  rw [← hd]
  congr 2
  refine List.map_congr_left fun i hi => ?_
  have hi := List.mem_range.1 hi
  have key : ∀ i, i < c.ell → xmdBlock Hb c.dst (octets d) (i + 1) = xmdBlock H.apply c.dst (octets d) (i + 1) ∧
      ∃ e : Digest b, xmdBlock H.apply c.dst (octets d) (i + 1) = octets e := by
    intro i
    have ho : ∀ x, ∃ e : Digest b, H.apply x = octets e := by
      intro x
      obtain ⟨e, he⟩ := eq_octets (H.apply x) (apply_octets H _).1 (apply_octets H _).2
      exact ⟨e, he.symm⟩
    induction i with
    | zero =>
      intro h0
      exact ⟨h _ (hS.2 d 1 (by omega) (by omega)), ho _⟩
    | succ i ih =>
      intro h1
      obtain ⟨e1, e, e2⟩ := ih (by omega)
      refine ⟨?_, ho _⟩
      show Hb (List.zipWith (· ^^^ ·) (octets d) (xmdBlock Hb c.dst (octets d) (i + 1)) ++ _ ++ _) =
        H.apply (List.zipWith (· ^^^ ·) (octets d) (xmdBlock H.apply c.dst (octets d) (i + 1)) ++ _ ++ _)
      rw [e1, e2, ← octets_dxor]
      exact h _ (hS.2 _ _ (by omega) (by omega))
  exact (key i hi).1

end

end Verif.Oracle
