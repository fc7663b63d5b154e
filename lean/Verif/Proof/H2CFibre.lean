import Mathlib.Algebra.Polynomial.Roots
import Mathlib.Data.List.GetD
import Verif.Props.H2CSubgroup
/-
How many field elements `map_to_curve` sends to the same point, and how many pairs of field elements `hash_to_curve` does.
-/
namespace Verif.Curve
open Verif Verif.Props Verif.Spec Verif.Spec.H2C Verif.Curve WeierstrassCurve

section
variable {F : Type} [Field F] [DecidableEq F]

/-! ### Polynomials given by lists -/

/-- The polynomial with coefficients `c_0, c_1, …`. -/
noncomputable def listPoly : List F → Polynomial F
  | [] => 0
  | c :: cs => Polynomial.C c + Polynomial.X * listPoly cs

omit [DecidableEq F] in
theorem eval_listPoly (cs : List F) (x : F) : (listPoly cs).eval x = poly cs x := by
  induction cs with
  | nil => simp [listPoly, poly]
  | cons c cs ih => rw [listPoly, poly_cons, Polynomial.eval_add, Polynomial.eval_C, Polynomial.eval_mul, Polynomial.eval_X, ih]

omit [DecidableEq F] in
theorem coeff_listPoly (cs : List F) (i : Nat) : (listPoly cs).coeff i = cs.getD i 0 := by
  induction cs generalizing i with
  | nil => simp [listPoly]
  | cons c cs ih =>
    rw [listPoly, Polynomial.coeff_add]
    cases i with
    | zero => simp
    | succ i => rw [Polynomial.coeff_C_succ, Polynomial.coeff_X_mul, ih, zero_add]; simp

omit [DecidableEq F] in
theorem poly_append_one (cs : List F) (x : F) : poly (cs ++ [1]) x = poly cs x + x ^ cs.length := by
  induction cs with
  | nil => simp [poly]
  | cons c cs ih => rw [List.cons_append, poly_cons, poly_cons, ih, List.length_cons, pow_succ]; ring

/-- A polynomial of degree `d` has at most `d` roots. -/
theorem card_roots_list [Fintype F] (P : Polynomial F) (d : Nat) (hd : ∀ i, d < i → P.coeff i = 0) (h0 : P ≠ 0) :
    (Finset.univ.filter fun x : F => P.eval x = 0).card ≤ d := by
  have hdeg : P.natDegree ≤ d := Polynomial.natDegree_le_iff_coeff_eq_zero.2 hd
  have hsub : (Finset.univ.filter fun x : F => P.eval x = 0) ⊆ P.roots.toFinset := by
    intro x hx
    rw [Multiset.mem_toFinset, Polynomial.mem_roots h0]
    exact (Finset.mem_filter.1 hx).2
  exact (Finset.card_le_card hsub).trans ((Multiset.toFinset_card_le _).trans ((Polynomial.card_roots' P).trans hdeg))

/-- At most two solutions of an equation of degree two. -/
theorem card_quad [Fintype F] (a b c : F) (h : a ≠ 0 ∨ c ≠ 0) :
    (Finset.univ.filter fun w : F => a * w ^ 2 + b * w + c = 0).card ≤ 2 := by
  have e : ∀ w, (listPoly [c, b, a]).eval w = a * w ^ 2 + b * w + c := by
    intro w
    simp only [listPoly, Polynomial.eval_add, Polynomial.eval_mul, Polynomial.eval_C, Polynomial.eval_X, Polynomial.eval_zero]
    ring
  have h0 : listPoly [c, b, a] ≠ 0 := by
    intro h0
    have h2 : (listPoly [c, b, a]).coeff 2 = 0 := by rw [h0, Polynomial.coeff_zero]
    have h1 : (listPoly [c, b, a]).coeff 0 = 0 := by rw [h0, Polynomial.coeff_zero]
    rw [coeff_listPoly] at h1 h2
    rcases h with h | h
    · exact h h2
    · exact h h1
  have := card_roots_list (listPoly [c, b, a]) 2 (fun i hi => by
    rw [coeff_listPoly]
    exact List.getD_eq_default _ _ (by simp only [List.length_cons, List.length_nil]; omega)) h0
  simpa only [e] using this

/-! ### The simplified SWU map -/

open Classical in
/-- At most six field elements go to the same point. -/
theorem swu_fibre [Fintype F] {sgn : F → Nat} (hflip : ∀ y : F, y ≠ 0 → sgn (-y) ≠ sgn y) {A B Z : F} (ha : SwuAdmissible A B Z)
    (P : F × F) : (Finset.univ.filter fun u : F => SimpleSwu sgn A B Z u P).card ≤ 6 := by
  have hinj : Set.InjOn (fun u : F => u ^ 2) (Finset.univ.filter fun u : F => SimpleSwu sgn A B Z u P) := by
    intro u hu v hv h
    have hu := (Finset.mem_filter.1 hu).2.sign
    have hv := (Finset.mem_filter.1 hv).2.sign
    rcases sq_eq_sq_iff_eq_or_eq_neg.1 h with h | h
    · exact h
    · by_cases h0 : v = 0
      · rw [h, h0, neg_zero]
      · exact absurd (by rw [← h, ← hu, hv]) (hflip v h0)
  rw [← Finset.card_image_of_injOn hinj]
  refine (Finset.card_le_card (t := (Finset.univ.filter fun w : F => Z ^ 2 * w ^ 2 + Z * w + 0 = 0) ∪
    ((Finset.univ.filter fun w : F => (P.1 * A + B) * Z ^ 2 * w ^ 2 + (P.1 * A + B) * Z * w + B = 0) ∪
     (Finset.univ.filter fun w : F => B * Z ^ 2 * w ^ 2 + (P.1 * A + B) * Z * w + (P.1 * A + B) = 0))) ?_).trans ?_
  · intro w hw
    obtain ⟨u, hu, rfl⟩ := Finset.mem_image.1 hw
    have h := (Finset.mem_filter.1 hu).2
    simp only [Finset.mem_union, Finset.mem_filter, Finset.mem_univ, true_and]
    by_cases hT : Z ^ 2 * u ^ 4 + Z * u ^ 2 = 0
    · left
      linear_combination hT
    · right
      obtain ⟨x1, h1, h2, h3, h4, _⟩ := h.steps
      have e : x1 * A * (Z ^ 2 * u ^ 4 + Z * u ^ 2) = -B * (Z ^ 2 * u ^ 4 + Z * u ^ 2 + 1) := by
        rw [h1 hT]
        have hi := div_mul_cancel₀ (1 : F) hT
        have hq := div_mul_cancel₀ (-B) ha.hA
        linear_combination (1 + 1 / (Z ^ 2 * u ^ 4 + Z * u ^ 2)) * (Z ^ 2 * u ^ 4 + Z * u ^ 2) * hq - B * hi
      by_cases hs : IsSquare (x1 ^ 3 + A * x1 + B)
      · left
        rw [h3 hs]
        linear_combination e
      · right
        rw [h4 hs]
        linear_combination e
  · have hz : Z ^ 2 ≠ 0 := pow_ne_zero 2 ha.hZ0
    have c1 := card_quad (Z ^ 2) Z 0 (Or.inl hz)
    have c2 := card_quad ((P.1 * A + B) * Z ^ 2) ((P.1 * A + B) * Z) B (Or.inr ha.hB)
    have c3 := card_quad (B * Z ^ 2) ((P.1 * A + B) * Z) (P.1 * A + B) (Or.inl (mul_ne_zero ha.hB hz))
    have u1 := Finset.card_union_le (Finset.univ.filter fun w : F => Z ^ 2 * w ^ 2 + Z * w + 0 = 0)
      ((Finset.univ.filter fun w : F => (P.1 * A + B) * Z ^ 2 * w ^ 2 + (P.1 * A + B) * Z * w + B = 0) ∪
        (Finset.univ.filter fun w : F => B * Z ^ 2 * w ^ 2 + (P.1 * A + B) * Z * w + (P.1 * A + B) = 0))
    have u2 := Finset.card_union_le (Finset.univ.filter fun w : F => (P.1 * A + B) * Z ^ 2 * w ^ 2 + (P.1 * A + B) * Z * w + B = 0)
      (Finset.univ.filter fun w : F => B * Z ^ 2 * w ^ 2 + (P.1 * A + B) * Z * w + (P.1 * A + B) = 0)
    omega

/-! ### The isogeny -/

/-- At most `d` points go to the same point with `Y ≠ 0` when the numerator has degree `d` and the denominator a smaller one. -/
theorem iso_fibre [Fintype F] (xNum xDen yNum yDen : List F) (d : Nat) (hn : xNum.length = d + 1) (hlast : xNum.getD d 0 ≠ 0)
    (hd : xDen.length < d) (Q : F × F) (hQ : Q.2 ≠ 0) :
    (Finset.univ.filter fun P : F × F => Spec.H2C.isoMap xNum xDen yNum yDen P = some Q).card ≤ d := by
  have key : ∀ P : F × F, Spec.H2C.isoMap xNum xDen yNum yDen P = some Q →
      poly yDen P.1 + P.1 ^ yDen.length ≠ 0 ∧ poly xNum P.1 = Q.1 * (poly xDen P.1 + P.1 ^ xDen.length) ∧
      P.2 * poly yNum P.1 = Q.2 * (poly yDen P.1 + P.1 ^ yDen.length) := by
    intro P h
    unfold Spec.H2C.isoMap at h
    simp only at h
    split at h
    · cases h
    · rename_i hne
      rw [not_or] at hne
      have h := Option.some.inj h
      rw [← h]
      exact ⟨hne.2, (div_mul_cancel₀ _ hne.1).symm, (div_mul_cancel₀ _ hne.2).symm⟩
  have hinj : Set.InjOn (fun P : F × F => P.1) (Finset.univ.filter fun P : F × F => Spec.H2C.isoMap xNum xDen yNum yDen P = some Q) := by
    intro P hP P' hP' h
    obtain ⟨k1, k2, k3⟩ := key P (Finset.mem_filter.1 hP).2
    obtain ⟨k1', k2', k3'⟩ := key P' (Finset.mem_filter.1 hP').2
    simp only at h
    rw [← h] at k3'
    have hy : poly yNum P.1 ≠ 0 := by
      intro h0
      rw [h0, mul_zero] at k3
      exact mul_ne_zero hQ k1 k3.symm
    exact Prod.ext h (mul_right_cancel₀ hy (k3.trans k3'.symm))
  rw [← Finset.card_image_of_injOn hinj]
  have hc : ∀ i, (listPoly xNum - Polynomial.C Q.1 * listPoly (xDen ++ [1])).coeff i = xNum.getD i 0 - Q.1 * (xDen ++ [1]).getD i 0 := by
    intro i
    rw [Polynomial.coeff_sub, Polynomial.coeff_C_mul, coeff_listPoly, coeff_listPoly]
  refine (Finset.card_le_card ?_).trans (card_roots_list (listPoly xNum - Polynomial.C Q.1 * listPoly (xDen ++ [1])) d ?_ ?_)
  · intro x hx
    obtain ⟨P, hP, rfl⟩ := Finset.mem_image.1 hx
    obtain ⟨_, k2, _⟩ := key P (Finset.mem_filter.1 hP).2
    rw [Finset.mem_filter, Polynomial.eval_sub, Polynomial.eval_mul, Polynomial.eval_C, eval_listPoly, eval_listPoly, poly_append_one, k2]
    exact ⟨Finset.mem_univ _, sub_self _⟩
  · intro i hi
    rw [hc, List.getD_eq_default _ _ (by omega), List.getD_eq_default _ _ (by rw [List.length_append, List.length_singleton]; omega)]
    ring
  · intro h0
    have := hc d
    rw [h0, Polynomial.coeff_zero, List.getD_eq_default (xDen ++ [1]) _ (by rw [List.length_append, List.length_singleton]; omega),
      mul_zero, sub_zero] at this
    exact hlast this.symm

open Classical in
/-- At most `6 d` field elements are mapped to the same affine point with `Y ≠ 0`. -/
theorem map_fibre [Fintype F] {sgn : F → Nat} (hflip : ∀ y : F, y ≠ 0 → sgn (-y) ≠ sgn y) {A B Z : F} (ha : SwuAdmissible A B Z)
    (xNum xDen yNum yDen : List F) (d : Nat) (hn : xNum.length = d + 1) (hlast : xNum.getD d 0 ≠ 0) (hd : xDen.length < d) (Q : F × F)
    (hQ : Q.2 ≠ 0) :
    (Finset.univ.filter fun u : F => MapToCurve sgn A B Z xNum xDen yNum yDen u (some Q)).card ≤ d * 6 := by
  refine (Finset.card_le_card ?_).trans ((Finset.card_biUnion_le_card_mul
    (Finset.univ.filter fun P : F × F => Spec.H2C.isoMap xNum xDen yNum yDen P = some Q)
    (fun P => Finset.univ.filter fun u : F => SimpleSwu sgn A B Z u P) 6 fun P _ => swu_fibre hflip ha P).trans
    (Nat.mul_le_mul_right 6 (iso_fibre xNum xDen yNum yDen d hn hlast hd Q hQ)))
  intro u hu
  obtain ⟨P, hP, e⟩ := (Finset.mem_filter.1 hu).2
  exact Finset.mem_biUnion.2 ⟨P, Finset.mem_filter.2 ⟨Finset.mem_univ _, e.symm⟩, Finset.mem_filter.2 ⟨Finset.mem_univ _, hP⟩⟩

/-- A curve with an odd number of points has none with `Y = 0`. -/
theorem y_ne_zero {b : F} (h2 : (2 : F) ≠ 0) (h3 : (3 : F) ≠ 0) (hb : b ≠ 0) (hodd : ¬ 2 ∣ Nat.card (shortCurve b).Point) (Q : F × F)
    (hQ : OnCurve 0 b Q) : Q.2 ≠ 0 := by
  intro h0
  have n := shortCurve_nonsingular h2 h3 hb Q hQ
  refine hodd (dvd_card_of_nsmul Nat.prime_two (Q := .some Q.1 Q.2 n) ?_ (by simp))
  rw [two_nsmul]
  refine Affine.Point.add_of_Y_eq rfl ?_
  rw [Affine.negY, h0]
  simp [shortCurve]

end

/-! ### Multiples of points -/

section
variable {A : Type} [AddCommGroup A]

/-- In a group of order `h r`, with `r` elements killed by the prime `r`, multiplication by a number prime to `r` sends at most `h`
elements to the same one. -/
theorem nsmul_fibre [Finite A] {h r k : Nat} (hr : r.Prime) (hcard : Nat.card A = h * r) (ht : Nat.card {P : A // r • P = 0} = r)
    (hk : ¬ r ∣ k) (R : A) : Nat.card {P : A // k • P = R} ≤ h := by
  have hcop : Nat.Coprime k r := (Nat.Coprime.symm ((Nat.Prime.coprime_iff_not_dvd hr).2 hk))
  have hinj : Function.Injective fun x : {P : A // k • P = R} × {P : A // r • P = 0} => x.1.1 + x.2.1 := by
    rintro ⟨⟨P, hP⟩, ⟨T, hT⟩⟩ ⟨⟨P', hP'⟩, ⟨T', hT'⟩⟩ e
    simp only at e
    have hd : P - P' = T' - T := by
      have e' : P = P' + T' - T := eq_sub_of_add_eq e
      rw [e']; abel
    have h1 : k • (P - P') = 0 := by rw [nsmul_sub, hP, hP', sub_self]
    have h2 : r • (P - P') = 0 := by rw [hd, nsmul_sub, hT, hT', sub_self]
    have h3 : addOrderOf (P - P') ∣ Nat.gcd k r :=
      Nat.dvd_gcd (addOrderOf_dvd_iff_nsmul_eq_zero.2 h1) (addOrderOf_dvd_iff_nsmul_eq_zero.2 h2)
    rw [hcop, Nat.dvd_one, AddMonoid.addOrderOf_eq_one_iff] at h3
    have hPP : P = P' := sub_eq_zero.1 h3
    have hTT : T = T' := by
      rw [hPP] at e
      exact add_left_cancel e
    subst hPP hTT
    rfl
  have := Nat.card_le_card_of_injective _ hinj
  rw [Nat.card_prod, ht, hcard] at this
  exact Nat.le_of_mul_le_mul_right this hr.pos

open Classical in
/-- Two field elements, the second with all but few values excluded: the pairs that give the same multiple of the sum. -/
theorem pair_fibre [Finite A] {U : Type} [Fintype U] (f : U → A) {c h k : Nat} (hf : ∀ S, (Finset.univ.filter fun u => f u = S).card ≤ c)
    (hk : ∀ R : A, Nat.card {P : A // k • P = R} ≤ h) (R : A) :
    (Finset.univ.filter fun u : U × U => k • (f u.1 + f u.2) = R).card ≤ Fintype.card U * (h * c) := by
  haveI := Fintype.ofFinite A
  have hcols : ∀ u0 : U, (Finset.univ.filter fun u1 : U => k • (f u0 + f u1) = R).card ≤ h * c := by
    intro u0
    refine (Finset.card_le_card ?_).trans ((Finset.card_biUnion_le_card_mul (Finset.univ.filter fun S : A => k • S = R)
      (fun S => Finset.univ.filter fun u1 : U => f u1 = S - f u0) c fun S _ => hf _).trans (Nat.mul_le_mul_right c ?_))
    · intro u1 hu
      refine Finset.mem_biUnion.2 ⟨f u0 + f u1, Finset.mem_filter.2 ⟨Finset.mem_univ _, (Finset.mem_filter.1 hu).2⟩,
        Finset.mem_filter.2 ⟨Finset.mem_univ _, ?_⟩⟩
      abel
    · have := hk R
      rwa [Nat.card_eq_fintype_card, Fintype.card_subtype] at this
  refine (Finset.card_le_card ?_).trans ((Finset.card_biUnion_le_card_mul (Finset.univ : Finset U)
    (fun u0 => (Finset.univ.filter fun u1 : U => k • (f u0 + f u1) = R).map ⟨fun u1 => (u0, u1), fun _ _ e => (Prod.mk.inj e).2⟩) (h * c)
    fun u0 _ => by rw [Finset.card_map]; exact hcols u0).trans (le_of_eq ?_))
  · rintro ⟨u0, u1⟩ hu
    exact Finset.mem_biUnion.2 ⟨u0, Finset.mem_univ _, Finset.mem_map.2 ⟨u1, Finset.mem_filter.2 ⟨Finset.mem_univ _,
      (Finset.mem_filter.1 hu).2⟩, rfl⟩⟩
  · rw [Finset.card_univ]

end

/-! ### BLS12-381 -/

theorem curvePoint_injOn {F : Type} [Field F] [DecidableEq F] {b : F} {P Q : F × F} (hP : (shortCurve b).Nonsingular P.1 P.2)
    (hQ : (shortCurve b).Nonsingular Q.1 Q.2) (h : curvePoint b P = curvePoint b Q) : P = Q := by
  rw [curvePoint_eq hP, curvePoint_eq hQ] at h
  injection h with e1 e2
  exact Prod.ext e1 e2

theorem odd_g1 : ¬ 2 ∣ Nat.card (shortCurve (4 : Fp)).Point := by rw [card_g1]; decide +kernel

theorem odd_g2 : ¬ 2 ∣ Nat.card (shortCurve (4 * (1 + im2))).Point := by rw [card_g2]; decide +kernel

/-- The result of `map_to_curve`; it never faults (C59). -/
noncomputable def mapped {F : Type} [Field F] [DecidableEq F] (O : FieldOps F) (S : H2cSuite F) (one : F × F) (u : F) : F × F :=
  match mapToCurve O S one u with
  | .ok Q => Q
  | .error _ => one

theorem mapped_eq {F : Type} [Field F] [DecidableEq F] {O : FieldOps F} {S : H2cSuite F} {one : F × F} {u : F} {Q : F × F}
    (h : mapToCurve O S one u = .ok Q) : mapped O S one u = Q := by
  unfold mapped
  rw [h]

theorem getD_map_cast {K F : Type} [Zero F] (f : K → F) (l : List K) (i : Nat) (h : i < l.length) : (l.map f).getD i 0 = f l[i] := by
  rw [List.getD_eq_getElem _ _ (by rwa [List.length_map]), List.getElem_map]

theorem g1_lead : (g1Suite Fp).xNum.getD 11 0 ≠ 0 := by
  rw [show (g1Suite Fp).xNum.getD 11 0 = ((g1XNum[11] : Nat) : Fp) from getD_map_cast _ g1XNum 11 (by decide)]
  exact fp_ne_zero _ (by decide +kernel)

theorem g2_lead : (g2Suite im2).xNum.getD 3 0 ≠ 0 := by
  rw [show (g2Suite im2).xNum.getD 3 0 = fp2 im2 g2XNum[3] from getD_map_cast _ g2XNum 3 (by decide)]
  exact fp2_ne_zero _ (by decide +kernel)

open Classical in
/-- G1: at most `82 = 11 · 6 + 16` field elements are mapped to the same point. -/
theorem g1_fibre (O : FieldOps Fp) (hO : FieldOps.Correct O) (hs : O.sgn0 = sgn0Fp) (one : Fp × Fp) (h1 : OnCurve 0 4 one)
    (S : (shortCurve (4 : Fp)).Point) :
    (Finset.univ.filter fun u : Fp => curvePoint 4 (mapped O (g1Suite Fp) one u) = S).card ≤ 82 := by
  by_cases hS : ∃ u : Fp, curvePoint 4 (mapped O (g1Suite Fp) one u) = S
  · obtain ⟨v, hv⟩ := hS
    obtain ⟨Q, hQ, hc, -⟩ := C59_g1_iff O hO hs one h1 v
    have n := shortCurve_nonsingular fp_two fp_three fp_four Q hc
    rw [mapped_eq hQ] at hv
    have hsub : (Finset.univ.filter fun u : Fp => curvePoint 4 (mapped O (g1Suite Fp) one u) = S) ⊆
        (Finset.univ.filter fun u : Fp => MapToCurve (fun x : Fp => Spec.H2C.sgn0 [x.val]) (g1Suite Fp).A (g1Suite Fp).B (g1Suite Fp).Z
          (g1Suite Fp).xNum (g1Suite Fp).xDen (g1Suite Fp).yNum (g1Suite Fp).yDen u (some Q)) ∪
        (g1Exceptional.map fun n : Nat => (n : Fp)).toFinset := by
      intro u hu
      have hu := (Finset.mem_filter.1 hu).2
      obtain ⟨Q', hQ', hc', hm⟩ := C59_g1_iff O hO hs one h1 u
      have n' := shortCurve_nonsingular fp_two fp_three fp_four Q' hc'
      rw [mapped_eq hQ', ← hv] at hu
      have e : Q' = Q := curvePoint_injOn n' n hu
      rw [Finset.mem_union]
      by_cases hex : ∀ n ∈ g1Exceptional, u ≠ (n : Fp)
      · rw [e] at hm
        exact Or.inl (Finset.mem_filter.2 ⟨Finset.mem_univ _, hm.2 hex⟩)
      · right
        simp only [ne_eq, not_forall, not_not] at hex
        obtain ⟨n, hn, rfl⟩ := hex
        exact List.mem_toFinset.2 (List.mem_map.2 ⟨n, hn, rfl⟩)
    refine (Finset.card_le_card hsub).trans ((Finset.card_union_le _ _).trans (Nat.add_le_add (b := 66) (d := 16) ?_ ?_))
    · exact map_fibre sgn_flip_fp g1_admissible _ _ _ _ 11 (List.length_map _) g1_lead (lt_of_eq_of_lt (List.length_map _) (by decide)) Q (y_ne_zero fp_two fp_three fp_four odd_g1 Q hc)
    · refine (List.toFinset_card_le _).trans (le_of_eq ?_)
      rw [List.length_map]
      exact g1Exceptional_nodup.2.1
  · rw [Finset.card_eq_zero.2 (Finset.filter_eq_empty_iff.2 fun u _ h => hS ⟨u, h⟩)]
    exact Nat.zero_le _

open Classical in
/-- G2: at most `18 = 3 · 6` field elements are mapped to the same point. -/
theorem g2_fibre (O : FieldOps Fp2) (hO : FieldOps.Correct O) (hs : O.sgn0 = fun y => sgn0Fp2 y) (one : Fp2 × Fp2)
    (S : (shortCurve (4 * (1 + im2))).Point) :
    (Finset.univ.filter fun u : Fp2 => curvePoint (4 * (1 + im2)) (mapped O (g2Suite im2) one u) = S).card ≤ 18 := by
  by_cases hS : ∃ u : Fp2, curvePoint (4 * (1 + im2)) (mapped O (g2Suite im2) one u) = S
  · obtain ⟨v, hv⟩ := hS
    obtain ⟨Q, hQ, hc, -⟩ := C59_g2 O hO hs one v
    have n := shortCurve_nonsingular fp2_two fp2_three fp2_b Q hc
    rw [mapped_eq hQ] at hv
    have hsub : (Finset.univ.filter fun u : Fp2 => curvePoint (4 * (1 + im2)) (mapped O (g2Suite im2) one u) = S) ⊆
        (Finset.univ.filter fun u : Fp2 => MapToCurve (fun x : Fp2 => Spec.H2C.sgn0 [x.re.val, x.im.val]) (g2Suite im2).A
          (g2Suite im2).B (g2Suite im2).Z
          (g2Suite im2).xNum (g2Suite im2).xDen (g2Suite im2).yNum (g2Suite im2).yDen u (some Q)) := by
      refine Finset.monotone_filter_right _ fun u _ hu => ?_
      obtain ⟨Q', hQ', hc', hm⟩ := C59_g2 O hO hs one u
      have n' := shortCurve_nonsingular fp2_two fp2_three fp2_b Q' hc'
      rw [mapped_eq hQ', ← hv] at hu
      have e : Q' = Q := curvePoint_injOn n' n hu
      rw [e] at hm
      exact hm
    refine (Finset.card_le_card hsub).trans ?_
    exact map_fibre sgn_flip_fp2 g2_admissible _ _ _ _ 3 (List.length_map _) g2_lead (lt_of_eq_of_lt (List.length_map _) (by decide)) Q (y_ne_zero fp2_two fp2_three fp2_b odd_g2 Q hc)
  · rw [Finset.card_eq_zero.2 (Finset.filter_eq_empty_iff.2 fun u _ h => hS ⟨u, h⟩)]
    exact Nat.zero_le _

theorem clear_fibre_g1 (R : (shortCurve (4 : Fp)).Point) : Nat.card {P : (shortCurve (4 : Fp)).Point // (g1Suite Fp).hEff • P = R} ≤ blsH1 := by
  haveI : Finite (shortCurve (4 : Fp)).Point := Nat.finite_of_card_ne_zero (by rw [card_g1]; decide)
  exact nsmul_fibre prime_blsR card_g1 C89_group_orders.2.2.1 (by change ¬ blsR ∣ 0xd201000000010001; decide +kernel) R

theorem clear_fibre_g2 (R : (shortCurve (4 * (1 + im2))).Point) :
    Nat.card {P : (shortCurve (4 * (1 + im2))).Point // (g2Suite im2).hEff • P = R} ≤ blsH2 := by
  haveI : Finite (shortCurve (4 * (1 + im2))).Point := Nat.finite_of_card_ne_zero (by rw [card_g2]; decide)
  exact nsmul_fibre prime_blsR card_g2 C89_group_orders.2.2.2.2 (by unfold g2Suite; decide +kernel) R

end Verif.Curve
