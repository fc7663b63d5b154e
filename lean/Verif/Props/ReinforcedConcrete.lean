import Mathlib.LinearAlgebra.Matrix.Determinant.Basic
import Mathlib.Tactic.FinCases
import Verif.Props.Poseidon
import Verif.Proof.FieldPrimes
import Mathlib.Tactic.FieldSimp
import Verif.Props.Grain
import Verif.Proof.ReinforcedConcrete
/-
C49 (the layers of Reinforced Concrete), C68 (the permutation), C69 (the matrix), and the Reinforced Concrete part of
C48.
-/
namespace Verif.Props
open Spec.ReinforcedConcrete Spec.Grain

section
variable {p : Nat} [Fact p.Prime]

/-- The Concrete layer with the constants of a round. -/
theorem rcConcrete_ok (constants : List (ZMod p)) (A : Fin 3 → ZMod p) (round : Nat)
    (h : 3 * round + 3 ≤ constants.length) :
    rcConcrete constants A round
      = .ok ((Matrix.of rcMds).mulVec A + fun i : Fin 3 => constants.getD (3 * round + i.val) 0) := by
  have g : ∀ k, k < 3 → constants[round * 3 + k]? = some (constants.getD (3 * round + k) 0) := by
    intro k hk
    rw [List.getD_eq_getElem?_getD, show round * 3 + k = 3 * round + k by omega,
      List.getElem?_eq_getElem (show 3 * round + k < constants.length by omega)]
    rfl
  have hl : List.finRange 3 = [0, 1, 2] := by decide
  unfold rcConcrete
  rw [hl]
  simp only [List.foldlM_cons, List.foldlM_nil]
  rw [show ((0 : Fin 3)).val = 0 from rfl, show ((1 : Fin 3)).val = 1 from rfl, show ((2 : Fin 3)).val = 2 from rfl,
    g 0 (by decide), g 1 (by decide), g 2 (by decide)]
  show Except.ok _ = Except.ok _
  congr 1
  funext i
  fin_cases i <;> simp [Function.update]

theorem rcMds_det : (Matrix.of (rcMds (p := p))).det = -4 := by
  rw [Matrix.det_fin_three]
  simp [rcMds, Matrix.of_apply, Fin.ofNat]
  ring

/-- **C49, Concrete.** In a field of odd characteristic the layer is a bijection on states: the matrix times the state
plus the constants of the round, which are inside the table. -/
theorem C49_concrete (hp : p ≠ 2) (constants : List (ZMod p)) (round : Nat)
    (h : 3 * round + 3 ≤ constants.length) :
    ∃ f : (Fin 3 → ZMod p) → (Fin 3 → ZMod p), Function.Bijective f ∧ ∀ A, rcConcrete constants A round = .ok (f A) := by
  refine ⟨_, ?_, fun A => rcConcrete_ok constants A round h⟩
  refine Function.Injective.bijective_of_finite fun A B e => ?_
  refine mulVec_injective _ ?_ (add_right_cancel e)
  rw [rcMds_det, Ne, neg_eq_zero]
  have : ((4 : Nat) : ZMod p) ≠ 0 := by
    rw [Ne, ZMod.natCast_eq_zero_iff]
    intro hd
    have h2 : p ∣ 2 := (Fact.out : p.Prime).dvd_of_dvd_pow (show p ∣ 2 ^ 2 from hd)
    exact hp ((Nat.prime_dvd_prime_iff_eq Fact.out Nat.prime_two).1 h2)
  exact_mod_cast this

/-- **C49, Bricks, the function.** -/
theorem C49_bricks_spec (P : RcPolicy) (A : Fin 3 → ZMod p) :
    rcBricks P A = bricks P.d (fun i => (P.alphas i : ZMod p)) (fun i => (P.betas i : ZMod p)) A := by
  funext i
  fin_cases i
  · simp [rcBricks, bricks, Function.update]
  · simp [rcBricks, bricks, Function.update, pow_two]
  · simp [rcBricks, bricks, Function.update, pow_two]

/-- **C49, Bricks.** A bijection when the exponent is coprime to `p - 1` and the two quadratics have no root. -/
theorem C49_bricks (P : RcPolicy) (hd : 0 < P.d) (hc : Nat.Coprime P.d (p - 1))
    (hq : ∀ (k : Fin 2) (x : ZMod p), x ^ 2 + (P.alphas k : ZMod p) * x + (P.betas k : ZMod p) ≠ 0) :
    Function.Bijective (rcBricks (p := p) P) := by
  refine Function.Injective.bijective_of_finite fun A B e => ?_
  rw [C49_bricks_spec, C49_bricks_spec] at e
  have e0 := congrFun e 0
  have e1 := congrFun e 1
  have e2 := congrFun e 2
  simp only [bricks, Matrix.cons_val_zero, Matrix.cons_val_one, Matrix.cons_val] at e0 e1 e2
  have h0 : A 0 = B 0 := (pow_bijective P.d hd (by rw [ZMod.card]; exact hc)).1 e0
  rw [h0] at e1
  have h1 : A 1 = B 1 := mul_right_cancel₀ (hq 0 (B 0)) e1
  rw [h1] at e2
  have h2 : A 2 = B 2 := mul_right_cancel₀ (hq 1 (B 1)) e2
  funext i
  fin_cases i
  · exact h0
  · exact h1
  · exact h2

/-- **C49, decompose.** The digits are the mixed radix digits of the canonical representative, for every field and
every list of buckets below the modulus. -/
theorem C49_decompose (P : RcPolicy) (hs : ∀ s ∈ P.bucket, 0 < s ∧ s < p) (e : ZMod p) :
    (rcDecompose P e).map ZMod.val = (digits P.bucket.reverse e.val).reverse := by
  haveI : NeZero p := ⟨(Fact.out : p.Prime).ne_zero⟩
  rw [decompose_eq P hs, List.map_reverse, List.map_map]
  congr 1
  have hlt : ∀ d ∈ digits P.bucket.reverse e.val, d < p := by
    intro d hd
    have h2 := digits_lt P.bucket.reverse (fun s h => (hs s (by simpa using h)).1) e.val
    obtain ⟨s, hsm, hds⟩ : ∃ s ∈ P.bucket.reverse, d < s := by
      obtain ⟨i, hi, rfl⟩ := List.getElem_of_mem hd
      exact ⟨_, List.getElem_mem (by rw [← h2.length_eq]; exact hi), (List.forall₂_iff_get.1 h2).2 i hi _⟩
    exact hds.trans (hs s (by simpa using hsm)).2
  conv_rhs => rw [← List.map_id (digits P.bucket.reverse e.val)]
  refine List.map_congr_left fun d hd => ?_
  simp only [Function.comp_apply, id_eq]
  exact ZMod.val_natCast_of_lt (hlt d hd)

/-- **C49, compose after decompose.** The identity on the field when the product of the buckets is at least `p`. -/
theorem C49_compose_decompose (P : RcPolicy) (hs : ∀ s ∈ P.bucket, 0 < s ∧ s < p) (hp : p ≤ P.bucket.prod)
    (e : ZMod p) : rcCompose P (rcDecompose P e) = e := by
  haveI : NeZero p := ⟨(Fact.out : p.Prime).ne_zero⟩
  rw [compose_eq P _ (by rw [decompose_eq P hs]; simp [digits_length]), decompose_eq P hs, List.reverse_reverse,
    fieldValue_cast, value_digits, List.prod_reverse, Nat.mod_eq_of_lt (lt_of_lt_of_le (ZMod.val_lt e) hp),
    ZMod.natCast_zmod_val]

/-- **C49, decompose after compose.** Digits in range (least significant last, as the code has them) that stand for a
number below `p` are recovered. -/
theorem C49_decompose_compose (P : RcPolicy) (hs : ∀ s ∈ P.bucket, 0 < s ∧ s < p) (ds : List Nat)
    (hd : List.Forall₂ (fun d s => d < s) ds P.bucket) (hv : value P.bucket.reverse ds.reverse < p) :
    rcDecompose P (rcCompose P (ds.map fun n : Nat => (n : ZMod p))) = ds.map fun n : Nat => (n : ZMod p) := by
  have hl : ds.length = P.bucket.length := hd.length_eq
  rw [compose_eq P _ (by simpa using hl), ← List.map_reverse, fieldValue_cast, decompose_eq P hs,
    ZMod.val_natCast_of_lt hv, digits_value]
  · simp
  · exact List.rel_reverse hd

/-- **C49, small S-box, what holds.** Zero, one and the digits from `p_min` on are left as they are. -/
theorem C49_S_partial (P : RcPolicy) (hp : P.pMin < p) (x : ZMod p) (h : x = 0 ∨ x = 1 ∨ P.pMin ≤ x.val) :
    rcS P x = x := by
  unfold rcS rcF
  rw [ZMod.val_natCast_of_lt hp]
  rcases h with rfl | rfl | h
  · simp
  · simp
  · rw [if_neg (by omega)]

/-- **C49 is false for the small S-box.** It inverts in the large field instead of modulo `p_min`: every digit from 2
to `p_min - 1` is taken to an element at least `(p - 1) / p_min`, far outside of every digit range. -/
theorem C49_S_false (P : RcPolicy) (hp : P.pMin < p) (a : Nat) (h2 : 2 ≤ a) (ha : a < P.pMin) :
    (p - 1) / P.pMin ≤ (rcS P (a : ZMod p)).val := by
  haveI : NeZero p := ⟨(Fact.out : p.Prime).ne_zero⟩
  have hap : a < p := by omega
  have ha0 : (a : ZMod p) ≠ 0 := by
    rw [Ne, ZMod.natCast_eq_zero_iff]
    exact Nat.not_dvd_of_pos_of_lt (by omega) hap
  have e : rcS P (a : ZMod p) = (a : ZMod p)⁻¹ := by
    unfold rcS rcF
    rw [ZMod.val_natCast_of_lt hp, ZMod.val_natCast_of_lt hap, if_pos ha, if_neg ha0]
  rw [e]
  have h1 : ((a * ((a : ZMod p)⁻¹).val : Nat) : ZMod p) = ((1 : Nat) : ZMod p) := by
    push_cast
    rw [ZMod.natCast_zmod_val, mul_inv_cancel₀ ha0]
  have hge : p ≤ a * ((a : ZMod p)⁻¹).val := by
    by_contra hlt
    have hmod := (ZMod.natCast_eq_natCast_iff' _ _ _).1 h1
    rw [Nat.mod_eq_of_lt (by omega), Nat.mod_eq_of_lt (Fact.out : p.Prime).one_lt] at hmod
    have := Nat.eq_one_of_mul_eq_one_right hmod
    omega
  refine Nat.div_le_of_le_mul ?_
  have : a * ((a : ZMod p)⁻¹).val ≤ P.pMin * ((a : ZMod p)⁻¹).val := Nat.mul_le_mul_right _ ha.le
  omega

/-- **C69 is false.** The matrix is not `circ(2, 1, 1)` (in a field of any characteristic). -/
theorem C69_false : Matrix.of (rcMds (p := p)) ≠ circ := by
  intro h
  have := congrFun (congrFun h 1) 1
  simp [rcMds, circ, Fin.ofNat] at this
  exact absurd this (by
    intro e
    have h1 : (1 : ZMod p) = 0 := by linear_combination -e
    exact one_ne_zero h1)

/-- **C69, what holds.** It is `circ(2, 1, 1)` with the second and the third row exchanged. -/
theorem C69_partial (i j : Fin 3) : rcMds (p := p) i j = circ (Equiv.swap 1 2 i) j := by
  fin_cases i <;> fin_cases j <;> simp [rcMds, circ, Fin.ofNat, Equiv.swap_apply_def]

end

section
variable {p : Nat} [Fact p.Prime]

/-- A list of rounds (Bricks, Concrete) is a bijection. -/
theorem rcRounds_bijective (hp : p ≠ 2) (P : RcPolicy) (hb : Function.Bijective (rcBricks (p := p) P))
    (constants : List (ZMod p)) (rounds : List Nat) (h : ∀ r ∈ rounds, 3 * r + 3 ≤ constants.length) :
    ∃ f : (Fin 3 → ZMod p) → (Fin 3 → ZMod p), Function.Bijective f ∧
      ∀ A, rcRounds P constants A rounds = .ok (f A) := by
  induction rounds with
  | nil => exact ⟨id, Function.bijective_id, fun A => rfl⟩
  | cons r rounds ih =>
    obtain ⟨g, hg, eg⟩ := ih (fun r hr => h r (by simp [hr]))
    obtain ⟨c, hc, ec⟩ := C49_concrete hp constants r (h r (by simp))
    refine ⟨g ∘ c ∘ rcBricks P, hg.comp (hc.comp hb), fun A => ?_⟩
    unfold rcRounds at eg ⊢
    rw [List.foldlM_cons, ec]
    exact eg _

/-- The permutation without its Bars layer: two bijections, before and after it. -/
theorem rcPermute_halves (hp : p ≠ 2) (P : RcPolicy) (hb : Function.Bijective (rcBricks (p := p) P))
    (constants : List (ZMod p)) (h : 3 * (2 * (P.partRounds + 1)) ≤ constants.length) :
    ∃ f g : (Fin 3 → ZMod p) → (Fin 3 → ZMod p), Function.Bijective f ∧ Function.Bijective g ∧
      ∀ A, rcPermute P constants A = .ok (g (rcBars P (f A))) := by
  obtain ⟨c0, hc0, ec0⟩ := C49_concrete hp constants 0 (by omega)
  obtain ⟨f1, hf1, ef1⟩ := rcRounds_bijective hp P hb constants (List.range' 1 P.partRounds) (by
    intro r hr
    rw [List.mem_range'_1] at hr
    omega)
  obtain ⟨c1, hc1, ec1⟩ := C49_concrete hp constants (P.partRounds + 1) (by omega)
  obtain ⟨f2, hf2, ef2⟩ := rcRounds_bijective hp P hb constants (List.range' (P.partRounds + 2) P.partRounds) (by
    intro r hr
    rw [List.mem_range'_1] at hr
    omega)
  refine ⟨f1 ∘ c0, f2 ∘ c1, hf1.comp hc0, hf2.comp hc1, fun A => ?_⟩
  unfold rcPermute
  rw [ec0]
  show (rcRounds P constants (c0 A) (List.range' 1 P.partRounds) >>= fun A =>
    rcConcrete constants (rcBars P A) (P.partRounds + 1) >>= fun A =>
      rcRounds P constants A (List.range' (P.partRounds + 2) P.partRounds)) = _
  rw [ef1]
  show (rcConcrete constants (rcBars P (f1 (c0 A))) (P.partRounds + 1) >>= fun A =>
      rcRounds P constants A (List.range' (P.partRounds + 2) P.partRounds)) = _
  rw [ec1]
  show rcRounds P constants (c1 (rcBars P (f1 (c0 A)))) (List.range' (P.partRounds + 2) P.partRounds) = _
  rw [ef2]
  rfl

theorem rcBars_apply (P : RcPolicy) (A : Fin 3 → ZMod p) : rcBars P A = fun i => rcBar P (A i) := by
  have hl : List.finRange 3 = [0, 1, 2] := by decide
  unfold rcBars
  rw [hl]
  funext i
  fin_cases i <;> simp [Function.update]

theorem fieldValue_combine (ss : List Nat) (ds : List (ZMod p)) : fieldValue ss ds = combine ss ds := by
  induction ss generalizing ds with
  | nil => rfl
  | cons s ss ih =>
    cases ds with
    | nil => rfl
    | cons d ds => rw [fieldValue, combine, ih]

theorem rcConcrete_spec (constants : List (ZMod p)) (A : Fin 3 → ZMod p) (round : Nat)
    (h : 3 * round + 3 ≤ constants.length) :
    rcConcrete constants A round = .ok (fun i => circ.mulVec A (Equiv.swap 1 2 i) + constants.getD (3 * round + i.val) 0) := by
  rw [rcConcrete_ok constants A round h]
  congr 1
  funext i
  rw [Pi.add_apply]
  congr 1
  simp only [Matrix.mulVec, dotProduct, Matrix.of_apply, C69_partial]

theorem rcRounds_spec (P : RcPolicy) (constants : List (ZMod p)) (first n : Nat) (A : Fin 3 → ZMod p)
    (h : 3 * (first + n) ≤ constants.length) :
    rcRounds P constants A (List.range' first n) = .ok ((List.range n).foldl (fun x k =>
      fun i => circ.mulVec (bricks P.d (fun i => (P.alphas i : ZMod p)) (fun i => (P.betas i : ZMod p)) x)
        (Equiv.swap 1 2 i) + constants.getD (3 * (first + k) + i.val) 0) A) := by
  induction n with
  | zero => rfl
  | succ n ih =>
    have ih := ih (by omega)
    unfold rcRounds at ih ⊢
    rw [List.range'_concat, List.foldlM_append, ih, List.range_succ, List.foldl_append, Nat.one_mul]
    show (rcConcrete constants (rcBricks P _) (first + n) >>= fun A => pure A) = _
    rw [rcConcrete_spec _ _ _ (by omega), C49_bricks_spec]
    rfl

/-- **C68, the function.** For every field and policy: the composition of the paper, with rows two and three of the
matrix exchanged (C69) and the S-box that inverts in the field (C49). -/
theorem C68_spec (P : RcPolicy) (hs : ∀ s ∈ P.bucket, 0 < s ∧ s < p) (hm : P.pMin < p) (constants : List (ZMod p))
    (h : 3 * (2 * (P.partRounds + 1)) ≤ constants.length) (A : Fin 3 → ZMod p) :
    rcPermute P constants A = .ok (permutation P.partRounds
      (fun r x i => circ.mulVec x (Equiv.swap 1 2 i) + constants.getD (3 * r + i.val) 0)
      (bricks P.d (fun i => (P.alphas i : ZMod p)) (fun i => (P.betas i : ZMod p)))
      (fun x i => bar P.bucket.reverse
        (fun n => if (n : ZMod p).val < P.pMin then (n : ZMod p)⁻¹ else (n : ZMod p)) (x i)) A) := by
  have hbar : rcBars P = fun (x : Fin 3 → ZMod p) i => bar P.bucket.reverse
        (fun n => if (n : ZMod p).val < P.pMin then (n : ZMod p)⁻¹ else (n : ZMod p)) (x i) := by
    funext x i
    rw [rcBars_apply]
    show rcBar P (x i) = _
    rw [bar_eq P hs, fieldValue_combine, bar]
    congr 2
    funext n
    rw [rcS, rcF, ZMod.val_natCast_of_lt hm]
    by_cases h0 : (n : ZMod p) = 0
    · rw [if_pos h0, h0, inv_zero]
    · rw [if_neg h0]
  unfold rcPermute permutation
  rw [rcConcrete_spec _ _ _ (by omega)]
  show (rcRounds P constants _ (List.range' 1 P.partRounds) >>= fun A =>
    rcConcrete constants (rcBars P A) (P.partRounds + 1) >>= fun A =>
      rcRounds P constants A (List.range' (P.partRounds + 2) P.partRounds)) = _
  rw [rcRounds_spec _ _ _ _ _ (by omega)]
  show (rcConcrete constants (rcBars P _) (P.partRounds + 1) >>= fun A =>
      rcRounds P constants A (List.range' (P.partRounds + 2) P.partRounds)) = _
  rw [rcConcrete_spec _ _ _ (by omega), hbar]
  show rcRounds P constants _ (List.range' (P.partRounds + 2) P.partRounds) = _
  rw [rcRounds_spec _ _ _ _ _ (by omega)]

/-- **C68, what holds.** The permutation reads only constants of its table, and is a bijection if and only if the
digit-wise layer is one on single elements. -/
theorem C68_partial (hp : p ≠ 2) (P : RcPolicy) (hb : Function.Bijective (rcBricks (p := p) P))
    (constants : List (ZMod p)) (h : 3 * (2 * (P.partRounds + 1)) ≤ constants.length) :
    ∃ f : (Fin 3 → ZMod p) → (Fin 3 → ZMod p), (∀ A, rcPermute P constants A = .ok (f A)) ∧
      (Function.Bijective f ↔ Function.Bijective (rcBar (p := p) P)) := by
  obtain ⟨f, g, hf, hg, e⟩ := rcPermute_halves hp P hb constants h
  refine ⟨g ∘ rcBars P ∘ f, e, ?_⟩
  constructor
  · intro hbij
    refine Function.Injective.bijective_of_finite fun x y hxy => ?_
    obtain ⟨A, hA⟩ := hf.2 (fun _ => x)
    obtain ⟨B, hB⟩ := hf.2 (fun _ => y)
    have : A = B := by
      apply hbij.1
      simp only [Function.comp_apply, hA, hB, rcBars_apply, hxy]
    have h0 : (fun _ : Fin 3 => x) = fun _ => y := by rw [← hA, ← hB, this]
    exact congrFun h0 0
  · intro hbar
    refine hg.comp (Function.Bijective.comp ?_ hf)
    refine Function.Injective.bijective_of_finite fun A B hAB => ?_
    funext i
    rw [rcBars_apply, rcBars_apply] at hAB
    exact hbar.1 (congrFun hAB i)

end

section
/-- The field of the only policy of the library. -/
abbrev Fr := ZMod bls12Scalar

theorem fr_two : bls12Scalar ≠ 2 := by decide

theorem rcBls12_bucket : ∀ s ∈ rcBls12.bucket, 0 < s ∧ s < bls12Scalar := by decide

/-- The discriminant -7 of both quadratics is not a square. -/
theorem fr_seven (y : Fr) : y ^ 2 ≠ -7 := by
  intro h
  have hpow := powMod_cast (R := Fr) bls12Scalar (ZMod.natCast_self _) 256 (bls12Scalar - 7) ((bls12Scalar - 1) / 2)
    (by decide +kernel)
  have h7 : ((bls12Scalar - 7 : Nat) : Fr) = -7 := by
    rw [Nat.cast_sub (by decide), ZMod.natCast_self]; simp
  have he : powMod bls12Scalar 256 (bls12Scalar - 7) ((bls12Scalar - 1) / 2) = bls12Scalar - 1 := by decide +kernel
  rw [he, h7, ← h, ← pow_mul, show 2 * ((bls12Scalar - 1) / 2) = bls12Scalar - 1 by decide +kernel] at hpow
  have hy : y ≠ 0 := by
    rintro rfl
    rw [zero_pow (by decide)] at h
    have : ((7 : Nat) : Fr) = 0 := by push_cast; linear_combination h
    rw [ZMod.natCast_eq_zero_iff] at this
    exact absurd this (by decide +kernel)
  rw [ZMod.pow_card_sub_one_eq_one hy, Nat.cast_sub (by decide), ZMod.natCast_self] at hpow
  have h2 : ((2 : Nat) : Fr) = 0 := by push_cast; push_cast at hpow; linear_combination -hpow
  rw [ZMod.natCast_eq_zero_iff] at h2
  exact absurd h2 (by decide +kernel)

/-- **C49, Bricks, the parameters of the library.** -/
theorem C49_bricks_library : Function.Bijective (rcBricks (p := bls12Scalar) rcBls12) := by
  refine C49_bricks rcBls12 (by decide) (by decide +kernel) ?_
  intro k x h
  fin_cases k
  · simp [rcBls12] at h
    exact fr_seven (2 * x + 1) (by linear_combination 4 * h)
  · simp [rcBls12] at h
    exact fr_seven (2 * x + 3) (by linear_combination 4 * h)

/-- **C49, the conversions, the parameters of the library.** -/
theorem C49_library (e : Fr) : rcCompose rcBls12 (rcDecompose rcBls12 e) = e :=
  C49_compose_decompose rcBls12 rcBls12_bucket (by decide +kernel) e

/-- Digits in range that stand for a number from `p` on are not recovered: those of `p` itself are composed to zero. -/
theorem C49_decompose_compose_false : ¬ ∀ ds : List Nat, List.Forall₂ (fun d s => d < s) ds rcBls12.bucket →
    rcDecompose rcBls12 (rcCompose rcBls12 (ds.map fun n : Nat => (n : Fr))) = ds.map fun n : Nat => (n : Fr) := by
  intro h
  have hr : List.Forall₂ (fun d s => d < s) (digits rcBls12.bucket.reverse bls12Scalar).reverse rcBls12.bucket := by
    have := List.rel_reverse (digits_lt rcBls12.bucket.reverse
      (fun s hs => (rcBls12_bucket s (by simpa using hs)).1) bls12Scalar)
    simpa using this
  have h1 := h _ hr
  have hl := hr.length_eq
  rw [compose_eq _ _ (by simpa using hl), ← List.map_reverse, List.reverse_reverse, fieldValue_cast, value_digits,
    show bls12Scalar % rcBls12.bucket.reverse.prod = bls12Scalar by decide +kernel, ZMod.natCast_self,
    decompose_eq _ rcBls12_bucket, ZMod.val_zero, ← List.map_reverse] at h1
  have h2 := congrArg (List.map ZMod.val) h1
  simp only [List.map_map] at h2
  have key : ∀ l : List Nat, (∀ d ∈ l, d < bls12Scalar) →
      l.map (ZMod.val ∘ fun n : Nat => (n : Fr)) = l := by
    intro l hl
    conv_rhs => rw [← List.map_id l]
    exact List.map_congr_left fun d hd => ZMod.val_natCast_of_lt (hl d hd)
  rw [key _ (by decide +kernel), key _ (by decide +kernel)] at h2
  exact absurd h2 (by decide +kernel)

theorem rcS_small (a : Nat) (h0 : a ≠ 0) (h : a < 659) : rcS rcBls12 (a : Fr) = (a : Fr)⁻¹ := by
  have hp : a < bls12Scalar := lt_trans h (by decide)
  unfold rcS rcF
  rw [ZMod.val_natCast_of_lt hp, show rcBls12.pMin = 659 from rfl, ZMod.val_natCast_of_lt (by decide), if_pos h,
    if_neg]
  rw [ZMod.natCast_eq_zero_iff]
  exact Nat.not_dvd_of_pos_of_lt (by omega) hp

/-- **C68 is false.** The Bars layer is not injective: an element with the last digits 1, 6 and the element with the
last digits 42, 663 and otherwise the same digits are taken to the same element. -/
theorem C68_bars_false (e : Fr) (h : e.val % 477337 = 685) (hlt : e.val + 28496 < bls12Scalar) :
    e ≠ e + 28496 ∧ rcBar rcBls12 e = rcBar rcBls12 (e + 28496) := by
  have hv : (e + 28496 : Fr).val = e.val + 28496 := by
    have : (e + 28496 : Fr) = ((e.val + 28496 : Nat) : Fr) := by push_cast; rw [ZMod.natCast_zmod_val]
    rw [this, ZMod.val_natCast_of_lt hlt]
  refine ⟨fun he => ?_, ?_⟩
  · have := congrArg ZMod.val he
    rw [hv] at this
    omega
  rw [bar_eq _ rcBls12_bucket, bar_eq _ rcBls12_bucket, hv]
  obtain ⟨rest, hrest⟩ : ∃ rest, rcBls12.bucket.reverse = 679 :: 703 :: rest := ⟨_, rfl⟩
  rw [hrest]
  simp only [digits, List.map_cons, fieldValue]
  rw [show e.val % 679 = 6 by omega, show e.val / 679 % 703 = 1 by omega, show (e.val + 28496) % 679 = 663 by omega,
    show (e.val + 28496) / 679 % 703 = 42 by omega, show (e.val + 28496) / 679 / 703 = e.val / 679 / 703 by omega,
    rcS_small 6 (by decide) (by decide), rcS_small 42 (by decide) (by decide), rcS_small 1 (by decide) (by decide),
    C49_S_partial rcBls12 (by decide) ((663 : Nat) : Fr) (Or.inr (Or.inr (by
      rw [ZMod.val_natCast_of_lt (by decide)]; decide)))]
  have h6 : ((6 : Nat) : Fr) ≠ 0 := by rw [Ne, ZMod.natCast_eq_zero_iff]; decide +kernel
  have h42 : ((42 : Nat) : Fr) ≠ 0 := by rw [Ne, ZMod.natCast_eq_zero_iff]; decide +kernel
  push_cast at h6 h42 ⊢
  have key : (6 : Fr)⁻¹ + 679 = 663 + 679 * 42⁻¹ := by
    field_simp
    norm_num
  rw [inv_one]
  linear_combination key

/-- **C68 is false, the whole permutation.** Whatever the round constants, two different states are permuted to the
same state. -/
theorem C68_false (constants : List Fr) (h : 24 ≤ constants.length) :
    ∃ A B : Fin 3 → Fr, A ≠ B ∧ rcPermute rcBls12 constants A = rcPermute rcBls12 constants B := by
  obtain ⟨f, g, hf, hg, e⟩ := rcPermute_halves fr_two rcBls12 C49_bricks_library constants h
  have hv : ((685 : Nat) : Fr).val = 685 := ZMod.val_natCast_of_lt (by decide)
  obtain ⟨hne, hbar⟩ := C68_bars_false ((685 : Nat) : Fr) (by rw [hv]) (by rw [hv]; decide)
  obtain ⟨A, hA⟩ := hf.2 (fun _ => ((685 : Nat) : Fr))
  obtain ⟨B, hB⟩ := hf.2 (fun _ => ((685 : Nat) : Fr) + 28496)
  refine ⟨A, B, ?_, ?_⟩
  · rintro rfl
    rw [hA] at hB
    exact hne (congrFun hB 0)
  · rw [e, e, hA, hB, rcBars_apply, rcBars_apply, hbar]

end

/-- **C48, Reinforced Concrete.** Whenever the generator returns, there are `2 (part_rounds + 1) state_words` constants,
all below the modulus, and they are those of the specified procedure. -/
theorem C48_reinforced_concrete (bitFuel fuel n p t RP : Nat) (cs : List Nat)
    (h : rcConstants bitFuel fuel n p t RP = some cs) :
    cs.length = 2 * (RP + 1) * t ∧ (∀ c ∈ cs, c < p) ∧
      Generates (seq (initial 1 1 n t (2 * (RP + 1)) RP)) n p cs := by
  unfold rcConstants at h
  obtain ⟨⟨cs', s'⟩, hr, rfl⟩ := Option.map_eq_some_iff.1 h
  obtain ⟨N, words, _, l, f, c, len, g⟩ := window_row (m := 160) (N := 0) (seq_recurrence _) bitFuel n p fuel
    (2 * (RP + 1) * t) (window_init n t (2 * (RP + 1)) RP) hr
  refine ⟨len, ?_, N, words, l, by simpa [shrunk] using f, c, g⟩
  intro x hx
  rw [← c] at hx
  simpa using (List.mem_filter.1 hx).2

/-- **C68, the compressor.** `process_block` adds the two words of the block to the first two words of the state with the
`^=` of the elements, keeps the third one, and permutes. -/
theorem C68_process_block {F : Type} (xorF : F → F → F) (perm : (Fin 3 → F) → Except Fault (Fin 3 → F))
    (state : Fin 3 → F) (block : Fin 2 → F) :
    rcProcessBlock xorF perm state block =
      perm ![xorF (state 0) (block 0), xorF (state 1) (block 1), state 2] := by
  unfold rcProcessBlock
  congr 1
  funext i
  fin_cases i <;> simp [List.finRange_succ, Function.update_apply]

/-- **C68, what reaches the permutation.** If `^=` cancels, the state handed to the permutation tells apart different blocks
(for one state) and different states (for one block). -/
theorem C68_process_block_inputs {F : Type} (xorF : F → F → F) (hl : ∀ a, Function.Injective (xorF a))
    (hr : ∀ b, Function.Injective fun a => xorF a b) (state state' : Fin 3 → F) (block block' : Fin 2 → F)
    (h : rcProcessBlock xorF Except.ok state block = rcProcessBlock xorF Except.ok state' block') :
    state = state' ↔ block = block' := by
  simp only [C68_process_block, Except.ok.injEq] at h
  have h0 := congrFun h 0
  have h1 := congrFun h 1
  have h2 := congrFun h 2
  simp at h0 h1 h2
  have hs : block = block' → state = state' := by
    rintro rfl
    funext i
    fin_cases i
    · exact hr _ h0
    · exact hr _ h1
    · exact h2
  have hb : state = state' → block = block' := by
    rintro rfl
    funext i
    fin_cases i
    · exact hl _ h0
    · exact hl _ h1
  exact ⟨hb, hs⟩

section
local instance : Fact (Nat.Prime 13) := ⟨by decide⟩

/-- A small policy: the field with 13 elements. -/
def rcToy : RcPolicy := ⟨[3, 5], ![1, 3], ![2, 4], 5, 2, 1⟩

example := C49_concrete (p := 13) (by decide) [1, 2, 3, 4, 5, 6] 1 (by simp)

example := C49_bricks (p := 13) ⟨[3, 5], ![1, 1], ![4, 4], 5, 2, 1⟩ (by decide) (by decide) (by decide)

example : (rcDecompose rcToy (11 : ZMod 13)).map ZMod.val = [2, 1] := by
  rw [C49_decompose rcToy (by decide)]; decide

example : rcCompose rcToy (rcDecompose rcToy (11 : ZMod 13)) = 11 :=
  C49_compose_decompose rcToy (by decide) (by decide) 11

example : rcDecompose rcToy (rcCompose rcToy [2, 1]) = [(2 : ZMod 13), 1] :=
  C49_decompose_compose rcToy (by decide) [2, 1] (by simp [rcToy]) (by decide)

example : rcS rcBls12 (700 : Fr) = 700 :=
  C49_S_partial rcBls12 (by decide) 700 (Or.inr (Or.inr (by decide)))

example := C49_S_false (p := bls12Scalar) rcBls12 (by decide) 2 (by decide) (by decide)

example := C68_bars_false (685 : Fr) (by decide) (by decide)

example (A : Fin 3 → Fr) := C68_spec rcBls12 rcBls12_bucket (by decide) (List.replicate 24 (1 : Fr)) (by decide) A

example := C68_partial fr_two rcBls12 C49_bricks_library (List.replicate 24 (1 : Fr)) (by decide)

example := C68_false (List.replicate 24 (1 : Fr)) (by decide)

example : rcProcessBlock (fun a b : ZMod 13 => a + b) Except.ok ![1, 2, 3] ![10, 20] = .ok ![11, 9, 3] := by
  rw [C68_process_block]; decide

example := C68_process_block_inputs (fun a b : ZMod 13 => a + b) (fun a => add_right_injective a)
  (fun b => add_left_injective b)

example : rcConstants 40 40 4 13 3 0 ≠ none := by decide +kernel
end

end Verif.Props
