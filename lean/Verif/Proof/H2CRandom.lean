import Verif.Proof.H2CFibre
import Verif.Props.XmdIndifferentiable
/-
The distribution of hash_to_field and hash_to_curve when the expanded octets are uniform.
-/
namespace Verif.Curve
open Spec Spec.H2C Spec.Oracle Spec.Ideal Verif.Ideal Verif.Oracle Verif.Props

theorem card_filter_inst {U : Type} [Fintype U] (q : U → Prop) (i i' : DecidablePred q) :
    (@Finset.filter _ q i Finset.univ).card = (@Finset.filter _ q i' Finset.univ).card := by
  congr

/-- The number of strings with a given residue, from above. -/
theorem preimages_le (L P : Nat) (hP : 0 < P) (r : Fin P) : (preimages L P r.1 : ℚ) ≤ (1 + P / 256 ^ L) / P * 256 ^ L := by
  have hPq : (0 : ℚ) < P := by exact_mod_cast hP
  have hN : (0 : ℚ) < 256 ^ L := by positivity
  have h1 : preimages L P r.1 ≤ 256 ^ L / P + 1 := by
    rcases C58_balanced L P r.1 hP r.2 with h | h <;> omega
  have h2 : ((256 ^ L / P : Nat) : ℚ) ≤ 256 ^ L / P := by
    rw [le_div_iff₀ hPq]
    exact_mod_cast Nat.div_mul_le_self (256 ^ L) P
  calc (preimages L P r.1 : ℚ) ≤ ((256 ^ L / P + 1 : Nat) : ℚ) := by exact_mod_cast h1
    _ ≤ 256 ^ L / P + 1 := by push_cast; linarith
    _ = _ := by field_simp

open Classical in
/-- Field elements of a uniform string: no combination is much likelier than its share. -/
theorem chance_field_le {n count m L P : Nat} (hn : n = count * m * L) (hP : 0 < P) (q : (Fin count → Fin m → Fin P) → Prop) :
    (chance fun d : OctetString n => q (fieldOf count m L P hP d)) ≤
      (Finset.univ.filter q).card * ((1 + P / 256 ^ L : ℚ) / P) ^ (count * m) := by
  subst hn
  let res : (Fin count → Fin m → OctetString L) → Fin count → Fin m → Fin P := fun w i k =>
    ⟨os2ip (octets (w i k)) % P, Nat.mod_lt _ hP⟩
  -- strings and their pieces
  choose join hjoin using fun w : Fin count → Fin m → OctetString L => exists_slices w
  have hinj : Function.Injective join := by
    intro w w' h
    funext i k
    apply octets_injective
    rw [hjoin w i k, hjoin w' i k, h]
  have hcard : Fintype.card (Fin count → Fin m → OctetString L) = Fintype.card (Digest (count * m * L)) := by
    simp only [Fintype.card_fun, Fintype.card_fin]
    rw [← pow_mul, ← pow_mul]
    congr 1
    ring
  have hbij : Function.Bijective join := (Fintype.bijective_iff_injective_and_card join).2 ⟨hinj, hcard⟩
  have hres : ∀ w, fieldOf count m L P hP (join w) = res w := by
    intro w
    funext i k
    apply Fin.ext
    show os2ip (((octets (join w)).drop (L * (k + i * m))).take L) % P = _
    rw [← hjoin]
  have h1 := chance_equiv (Equiv.ofBijective join hbij) fun d => q (fieldOf count m L P hP d)
  rw [← h1]
  simp only [Equiv.coe_ofBijective, hres]
  unfold chance
  have hcount : ∀ r : Fin count → Fin m → Fin P,
      ((Finset.univ.filter fun w => res w = r).card : ℚ) ≤ ((1 + P / 256 ^ L : ℚ) / P * 256 ^ L) ^ (count * m) := by
    intro r
    have e : (Finset.univ.filter fun v => res v = r) = Fintype.piFinset fun i => Fintype.piFinset fun k =>
        Finset.univ.filter fun x : OctetString L => packModular P x.toList = (r i k).1 := by
      ext v
      simp only [Finset.mem_filter, Finset.mem_univ, true_and, Fintype.mem_piFinset, packModular_eq]
      constructor
      · rintro rfl i k
        rfl
      · intro h
        funext i k
        exact Fin.ext (h i k)
    rw [e, Fintype.card_piFinset]
    simp only [Fintype.card_piFinset]
    push_cast
    have h0 : (0 : ℚ) ≤ (1 + P / 256 ^ L : ℚ) / P * 256 ^ L := by positivity
    calc _ ≤ ∏ _i : Fin count, ∏ _k : Fin m, ((1 + P / 256 ^ L : ℚ) / P * 256 ^ L) :=
          Finset.prod_le_prod (fun _ _ => Finset.prod_nonneg fun _ _ => Nat.cast_nonneg _) fun i _ =>
            Finset.prod_le_prod (fun _ _ => Nat.cast_nonneg _) fun k _ => preimages_le L P hP (r i k)
      _ = _ := by
          simp only [Finset.prod_const, Finset.card_univ, Fintype.card_fin]
          rw [← pow_mul, Nat.mul_comm]
  have hsum : ((Finset.univ.filter fun w => q (res w)).card : ℚ) ≤
      (Finset.univ.filter q).card * ((1 + P / 256 ^ L : ℚ) / P * 256 ^ L) ^ (count * m) := by
    rw [Finset.card_eq_sum_card_fiberwise (f := res) (t := Finset.univ.filter q)
      (fun w hw => by
        have := (Finset.mem_filter.1 hw).2
        exact Finset.mem_coe.2 (Finset.mem_filter.2 ⟨Finset.mem_univ _, this⟩)), Nat.cast_sum, ← nsmul_eq_mul]
    refine Finset.sum_le_card_nsmul _ _ _ fun r _ => le_trans ?_ (hcount r)
    refine Nat.cast_le.2 (Finset.card_le_card fun w hw => ?_)
    rw [Finset.mem_filter] at hw ⊢
    exact ⟨Finset.mem_univ _, hw.2⟩
  have hc : (Fintype.card (Fin count → Fin m → OctetString L) : ℚ) = (256 ^ L) ^ (count * m) := by
    simp only [Fintype.card_fun, Fintype.card_fin]
    push_cast
    rw [← pow_mul, ← pow_mul, ← pow_mul]
    congr 1
    ring
  rw [hc, div_le_iff₀ (by positivity)]
  refine le_trans (le_of_eq ?_) (le_trans hsum (le_of_eq ?_))
  · congr 2
  · rw [mul_pow]
    ring

section
variable {F A : Type} [AddCommGroup A]

/-- What hash_to_curve computes from the expanded octets, when `f` maps a field element to the curve. -/
def curveOf (m L p : Nat) (toField : List Nat → F) (f : F → A) (k : Nat) (bytes : List Nat) : A :=
  k • (f (toField ((hashToField 2 m L p bytes).getD 0 [])) + f (toField ((hashToField 2 m L p bytes).getD 1 [])))

open Classical in
/-- No point is much likelier than its share. -/
theorem chance_curve_le [Finite A] [Fintype F] {m L p : Nat} (hp : 0 < p) (toField : List Nat → F)
    (hinj : Function.Injective fun x : Fin m → Fin p => toField (List.ofFn fun i => (x i).1)) (hcard : Fintype.card F = p ^ m) (f : F → A)
    {c h k : Nat} (hf : ∀ S, (Finset.univ.filter fun u => f u = S).card ≤ c) (hk : ∀ R : A, Nat.card {P : A // k • P = R} ≤ h) {n : Nat}
    (hn : n = 2 * m * L) (R : A) :
    (chance fun d : OctetString n => curveOf m L p toField f k d.toList = R) ≤ (h * c : ℚ) * (1 + p / 256 ^ L) ^ (2 * m) / p ^ m := by
  let g : (Fin m → Fin p) → F := fun x => toField (List.ofFn fun i => (x i).1)
  let q : (Fin 2 → Fin m → Fin p) → Prop := fun u => k • (f (g (u 0)) + f (g (u 1))) = R
  have e : ∀ d : OctetString n, (curveOf m L p toField f k d.toList = R) = q (fieldOf 2 m L p hp d) := by
    intro d
    unfold curveOf
    rw [← elements_fieldOf 2 m L p hp]
    rfl
  simp only [e]
  have hpq : (0 : ℚ) < p := by exact_mod_cast hp
  have hq : (Finset.univ.filter q).card ≤ p ^ m * (h * c) := by
    rw [← hcard]
    refine le_trans ?_ (pair_fibre f hf hk R)
    refine Finset.card_le_card_of_injOn (fun u => (g (u 0), g (u 1))) (fun u hu => ?_) fun u _ u' _ h => ?_
    · exact Finset.mem_coe.2 (Finset.mem_filter.2 ⟨Finset.mem_univ _, (Finset.mem_filter.1 (Finset.mem_coe.1 hu)).2⟩)
    · have h0 := hinj (Prod.ext_iff.1 h).1
      have h1 := hinj (Prod.ext_iff.1 h).2
      funext i
      match i with
      | 0 => exact h0
      | 1 => exact h1
  refine le_trans (chance_field_le hn hp q) ?_
  calc _ ≤ ((p ^ m * (h * c) : Nat) : ℚ) * ((1 + p / 256 ^ L : ℚ) / p) ^ (2 * m) :=
        mul_le_mul_of_nonneg_right (by exact_mod_cast hq) (by positivity)
    _ = _ := by
        push_cast
        rw [div_pow, show (p : ℚ) ^ (2 * m) = p ^ m * p ^ m by rw [← pow_add]; congr 1; ring]
        field_simp
end

open Classical in
/-- Few of the two field elements are in a small set. -/
theorem chance_in_le {F : Type} [Fintype F] {m L p : Nat} (hp : 0 < p) (toField : List Nat → F)
    (hinj : Function.Injective fun x : Fin m → Fin p => toField (List.ofFn fun i => (x i).1)) (hcard : Fintype.card F = p ^ m) (E : Finset F)
    {n : Nat} (hn : n = 2 * m * L) :
    (chance fun d : OctetString n => ∃ i < 2, toField ((hashToField 2 m L p d.toList).getD i []) ∈ E) ≤
      (2 * E.card : ℚ) * (1 + p / 256 ^ L) ^ (2 * m) / p ^ m := by
  let g : (Fin m → Fin p) → F := fun x => toField (List.ofFn fun i => (x i).1)
  let q : (Fin 2 → Fin m → Fin p) → Prop := fun u => ∃ i : Fin 2, g (u i) ∈ E
  have e : ∀ d : OctetString n, (∃ i < 2, toField ((hashToField 2 m L p d.toList).getD i []) ∈ E) = q (fieldOf 2 m L p hp d) := by
    intro d
    rw [← elements_fieldOf 2 m L p hp]
    refine propext ⟨?_, ?_⟩
    · rintro ⟨i, hi, h⟩
      match i, hi with
      | 0, _ => exact ⟨0, h⟩
      | 1, _ => exact ⟨1, h⟩
    · rintro ⟨i, h⟩
      match i with
      | 0 => exact ⟨0, by decide, h⟩
      | 1 => exact ⟨1, by decide, h⟩
  simp only [e]
  have hpq : (0 : ℚ) < p := by exact_mod_cast hp
  have hq : (Finset.univ.filter q).card ≤ p ^ m * (2 * E.card) := by
    have hsub : ((Finset.univ.filter q).image fun u => (g (u 0), g (u 1))) ⊆ E ×ˢ Finset.univ ∪ Finset.univ ×ˢ E := by
      intro x hx
      obtain ⟨u, hu, rfl⟩ := Finset.mem_image.1 hx
      obtain ⟨i, hm⟩ := (Finset.mem_filter.1 hu).2
      rw [Finset.mem_union, Finset.mem_product, Finset.mem_product]
      match i with
      | 0 => exact Or.inl ⟨hm, Finset.mem_univ _⟩
      | 1 => exact Or.inr ⟨Finset.mem_univ _, hm⟩
    have hin : Function.Injective fun u : Fin 2 → Fin m → Fin p => (g (u 0), g (u 1)) := by
      intro u u' h
      have h0 := hinj (Prod.ext_iff.1 h).1
      have h1 := hinj (Prod.ext_iff.1 h).2
      funext i
      match i with
      | 0 => exact h0
      | 1 => exact h1
    rw [← Finset.card_image_of_injective _ hin]
    refine (Finset.card_le_card hsub).trans ((Finset.card_union_le _ _).trans (le_of_eq ?_))
    rw [Finset.card_product, Finset.card_product, Finset.card_univ, hcard]
    ring
  have hq := le_of_eq_of_le (card_filter_inst q (fun a => Classical.propDecidable (q a)) _) hq
  refine le_trans (chance_field_le hn hp q) ?_
  calc _ ≤ ((p ^ m * (2 * E.card) : Nat) : ℚ) * ((1 + p / 256 ^ L : ℚ) / p) ^ (2 * m) :=
        mul_le_mul_of_nonneg_right (by exact_mod_cast hq) (by positivity)
    _ = _ := by
        push_cast
        rw [div_pow, show (p : ℚ) ^ (2 * m) = p ^ m * p ^ m by rw [← pow_add]; congr 1; ring]
        field_simp

theorem toFp_injective : Function.Injective fun x : Fin 1 → Fin bls12381P => toFp (List.ofFn fun i => (x i).1) := by
  intro x y h
  have h : ((x 0).1 : Fp) = ((y 0).1 : Fp) := h
  have := (ZMod.natCast_eq_natCast_iff' _ _ _).1 h
  rw [Nat.mod_eq_of_lt (x 0).2, Nat.mod_eq_of_lt (y 0).2] at this
  funext i
  obtain rfl : i = 0 := Subsingleton.elim _ _
  exact Fin.ext this

theorem toFp2_injective : Function.Injective fun x : Fin 2 → Fin bls12381P => toFp2 (List.ofFn fun i => (x i).1) := by
  intro x y h
  have key : ∀ i, (((x i).1 : Nat) : Fp) = (((y i).1 : Nat) : Fp) → x i = y i := by
    intro i h
    have := (ZMod.natCast_eq_natCast_iff' _ _ _).1 h
    rw [Nat.mod_eq_of_lt (x i).2, Nat.mod_eq_of_lt (y i).2] at this
    exact Fin.ext this
  have h0 : (((x 0).1 : Nat) : Fp) = (((y 0).1 : Nat) : Fp) := congrArg QuadraticAlgebra.re h
  have h1 : (((x 1).1 : Nat) : Fp) = (((y 1).1 : Nat) : Fp) := congrArg QuadraticAlgebra.im h
  funext i
  match i with
  | 0 => exact key 0 h0
  | 1 => exact key 1 h1

/-- The post-processing of the accumulator computes it. -/
theorem h2cProcess_eq {F A : Type} [Field F] [DecidableEq F] [AddCommGroup A] {m L p : Nat} {toField : List Nat → F} {O : FieldOps F}
    {S : H2cSuite F} {one : F × F} (point : F × F → A) (h : ∀ u, ∃ Q, mapToCurve O S one u = .ok Q) {bytes : List Nat}
    (hl : bytes.length = 2 * m * L) :
    h2cProcess m L p toField O S one point bytes = .ok (curveOf m L p toField (fun u => point (mapped O S one u)) S.hEff bytes) := by
  obtain ⟨c0, c1, hc⟩ := hashToField_two m L p bytes
  obtain ⟨Q0, h0⟩ := h (toField c0)
  obtain ⟨Q1, h1⟩ := h (toField c1)
  unfold h2cProcess curveOf
  rw [C40_hash_to_field 2 m L p bytes hl, hc]
  simp only [bind, Except.bind, List.map_cons, List.map_nil, epMap, h0, h1, List.getD_cons_zero, List.getD_cons_succ, mapped_eq h0, mapped_eq h1]
  rfl

/-- G1. -/
theorem chance_g1 (O : FieldOps Fp) (hO : FieldOps.Correct O) (hs : O.sgn0 = sgn0Fp) (one : Fp × Fp) (h1 : OnCurve 0 4 one) {n : Nat}
    (hn : n = 128) (R : (shortCurve (4 : Fp)).Point) :
    (chance fun d : OctetString n => curveOf 1 64 bls12381P toFp (fun u => curvePoint 4 (mapped O (g1Suite Fp) one u)) (g1Suite Fp).hEff d.toList = R) ≤
      1 / 2 ^ 248 := by
  haveI : Finite (shortCurve (4 : Fp)).Point := Nat.finite_of_card_ne_zero (by rw [card_g1]; decide)
  refine le_trans (chance_curve_le (m := 1) (L := 64) (p := bls12381P) (by decide) toFp toFp_injective (by rw [ZMod.card, pow_one])
    (fun u => curvePoint 4 (mapped O (g1Suite Fp) one u)) (fun S => le_of_eq_of_le (card_filter_inst _ _ _) (g1_fibre O hO hs one h1 S)) clear_fibre_g1 hn R) ?_
  rw [div_le_div_iff₀ (by unfold bls12381P; norm_num) (by positivity)]
  unfold blsH1 bls12381P
  norm_num

/-- G2. -/
theorem chance_g2 (O : FieldOps Fp2) (hO : FieldOps.Correct O) (hs : O.sgn0 = fun y => sgn0Fp2 y) (one : Fp2 × Fp2) {n : Nat}
    (hn : n = 256) (R : (shortCurve (4 * (1 + im2))).Point) :
    (chance fun d : OctetString n =>
      curveOf 2 64 bls12381P toFp2 (fun u => curvePoint (4 * (1 + im2)) (mapped O (g2Suite im2) one u)) (g2Suite im2).hEff d.toList = R) ≤
      1 / 2 ^ 250 := by
  haveI : Finite (shortCurve (4 * (1 + im2))).Point := Nat.finite_of_card_ne_zero (by rw [card_g2]; decide)
  refine le_trans (chance_curve_le (m := 2) (L := 64) (p := bls12381P) (by decide) toFp2 toFp2_injective card_fp2
    (fun u => curvePoint (4 * (1 + im2)) (mapped O (g2Suite im2) one u)) (fun S => le_of_eq_of_le (card_filter_inst _ _ _) (g2_fibre O hO hs one S)) clear_fibre_g2 hn R) ?_
  rw [div_le_div_iff₀ (by unfold bls12381P; norm_num) (by positivity)]
  unfold blsH2 bls12381P
  norm_num
end Verif.Curve
