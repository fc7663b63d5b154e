import Verif.Proof.IndiffCount
import Mathlib.Algebra.Order.Group.Abs
/- Indifferentiability: the two worlds. -/
namespace Verif.Ideal
open Spec.Ideal

variable {K X V B C D W M Z : Type} {Q : Type*}

theorem card_filter_eq {Ω : Type} {p : Ω → Prop} (i i' : Fintype Ω) (d d' : DecidablePred p) :
    (@Finset.filter Ω p d (@Finset.univ Ω i)).card = (@Finset.filter Ω p d' (@Finset.univ Ω i')).card := by
  congr!

theorem card_eq {Ω : Type} (i i' : Fintype Ω) : @Fintype.card Ω i = @Fintype.card Ω i' := by
  congr!

namespace Shape
variable {S : Shape K X V B C D W M}

section
variable (S) (msg : Q → M) (wrap : D → Z) (P : Distinguisher Q Z K X)

/-- The run in the ideal world, with the evaluation of the messages at the end. -/
noncomputable def idealRun (w : (M → D) × (Dir × K × X → X)) : (Bool × List Q) × Tab K X :=
  simRun (S.ans w.1 w.2) (full S.key S.add S.out S.s0 (fun q => S.pad (msg q)) (fun q => wrap (w.1 (msg q))) P []) []

/-- The digests of the real world. -/
noncomputable def realDigest (E : Cipher K X) (q : Q) : Z := wrap (S.digest (S.absorbed E (S.pad (msg q))))

/-- The run in the real world. -/
noncomputable def realRun (E : Cipher K X) : (Bool × List Q) × Tab K X :=
  simRun (permAns E) (full S.key S.add S.out S.s0 (fun q => S.pad (msg q)) (S.realDigest msg wrap E) P []) []
end

variable {msg : Q → M} {wrap : D → Z} {P : Distinguisher Q Z K X}

theorem realRun_bit (E : Cipher K X) : (S.realRun msg wrap P E).1.1 = P.real (S.realDigest msg wrap E) E := by
  unfold realRun
  rw [simRun_perm E _ [] (fun e he => by cases he), result_full]

/-- A permutation that agrees with a good table of the ideal world has the same run. -/
theorem realRun_eq {w : (M → D) × (Dir × K × X → X)} (hg : S.Good (S.idealRun msg wrap P w).2) {E : Cipher K X}
    (hE : Agrees E (S.idealRun msg wrap P w).2) : S.realRun msg wrap P E = S.idealRun msg wrap P w := by
  have h1 : simRun (permAns E) (full S.key S.add S.out S.s0 (fun q => S.pad (msg q)) (fun q => wrap (w.1 (msg q))) P []) [] =
    S.idealRun msg wrap P w := simRun_determined _ E _ _ hE
  rw [← h1]
  unfold realRun
  refine (simRun_full_congr _ _ _ P [] [] ?_).symm
  rw [h1]
  intro q hq
  obtain ⟨s', hs'⟩ := (simRun_full (S.ans w.1 w.2) (fun q => wrap (w.1 (msg q))) P [] []).2 q hq
  unfold realDigest
  rw [digest_eq hg (agr_run w.1 w.2 _ [] trivial) hE hs']

variable [Fintype K] [DecidableEq K] [Fintype X] [DecidableEq X] [Fintype M] [Fintype D]

open Classical in
/-- Good runs with the output `b` are at least as likely in the real world. -/
theorem card_good (b : Bool) :
    (Finset.univ.filter fun w => S.Good (S.idealRun msg wrap P w).2 ∧ (S.idealRun msg wrap P w).1.1 = b).card *
        Fintype.card (Cipher K X) ≤
      (Finset.univ.filter fun E : Cipher K X => P.real (S.realDigest msg wrap E) E = b).card *
        Fintype.card ((M → D) × (Dir × K × X → X)) := by
  let G : Finset ((M → D) × (Dir × K × X → X)) :=
    Finset.univ.filter fun w => S.Good (S.idealRun msg wrap P w).2 ∧ (S.idealRun msg wrap P w).1.1 = b
  let Rb : Finset (Cipher K X) := Finset.univ.filter fun E => P.real (S.realDigest msg wrap E) E = b
  let 𝒯 : Finset (Tab K X) := G.image fun w => (S.idealRun msg wrap P w).2
  have hG : G.card = ∑ T ∈ 𝒯, (G.filter fun w => (S.idealRun msg wrap P w).2 = T).card :=
    Finset.card_eq_sum_card_fiberwise (fun w hw => Finset.mem_coe.2 (Finset.mem_image_of_mem _ hw))
  have hR : ∑ T ∈ 𝒯, (Rb.filter fun E => (S.realRun msg wrap P E).2 = T).card ≤ Rb.card := by
    have := Finset.card_biUnion (s := 𝒯) (t := fun T => Rb.filter fun E => (S.realRun msg wrap P E).2 = T) (by
      intro T _ T' _ hne
      refine Finset.disjoint_filter.2 fun E _ h h' => hne (h.symm.trans h'))
    rw [← this]
    refine Finset.card_le_card fun E hE => ?_
    obtain ⟨T, _, hT⟩ := Finset.mem_biUnion.1 hE
    exact (Finset.mem_filter.1 hT).1
  show G.card * _ ≤ Rb.card * _
  refine le_trans ?_ (Nat.mul_le_mul_right _ hR)
  rw [hG, Finset.sum_mul, Finset.sum_mul]
  refine Finset.sum_le_sum fun T hT => ?_
  obtain ⟨w0, hw0, rfl⟩ := Finset.mem_image.1 hT
  have hg := (Finset.mem_filter.1 hw0).2.1
  have hb := (Finset.mem_filter.1 hw0).2.2
  have h1 : (G.filter fun w => (S.idealRun msg wrap P w).2 = (S.idealRun msg wrap P w0).2) ⊆
      S.agreeSet (S.idealRun msg wrap P w0).2 := by
    intro w hw
    refine Finset.mem_filter.2 ⟨Finset.mem_univ _, ?_⟩
    rw [← (Finset.mem_filter.1 hw).2]
    exact agr_run w.1 w.2 _ [] trivial
  have h2 : agreeing (S.idealRun msg wrap P w0).2 ⊆ Rb.filter fun E => (S.realRun msg wrap P E).2 = (S.idealRun msg wrap P w0).2 := by
    intro E hE
    have he := realRun_eq hg (Finset.mem_filter.1 hE).2
    refine Finset.mem_filter.2 ⟨Finset.mem_filter.2 ⟨Finset.mem_univ _, ?_⟩, by rw [he]⟩
    rw [← realRun_bit, he, hb]
  refine le_trans (Nat.mul_le_mul_right _ (Finset.card_le_card h1)) (le_trans ?_ (Nat.mul_le_mul_right _ (Finset.card_le_card h2)))
  refine le_trans (Nat.mul_le_mul_left _ (card_agreeing hg)) ?_
  rw [mul_comm (agreeing _).card, ← mul_assoc, mul_comm (agreeing _).card]
  exact Nat.mul_le_mul_right _ (card_agreeSet hg)

open Classical in
/-- Runs with a bad table. -/
theorem card_not_good {w : Nat → Nat} (hw : ∀ (T : Tab K X) (d : Dir) (k : K) (v : X) (o : Option D), (o ≠ none → d = .enc ∧ S.Ends k v) → ¬ Known T d k v →
      (Finset.univ.filter fun a => S.BadAns T d k v (S.patch k v o a)).card ≤ w T.length)
    {N : Nat} (hP : P.AtMost (fun q => (S.pad (msg q)).length) N) :
    (Finset.univ.filter fun w => ¬ S.Good (S.idealRun msg wrap P w).2).card * Fintype.card X ≤
      Fintype.card ((M → D) × (Dir × K × X → X)) * weight w 0 N := by
  have hfib := Finset.card_eq_sum_card_fiberwise (s := Finset.univ.filter fun w => ¬ S.Good (S.idealRun msg wrap P w).2)
    (t := Finset.univ) (f := fun w : (M → D) × (Dir × K × X → X) => w.1) (fun _ _ => Finset.mem_coe.2 (Finset.mem_univ _))
  rw [hfib, Finset.sum_mul, Fintype.card_prod, mul_assoc]
  have hone : ∀ F ∈ (Finset.univ : Finset (M → D)),
      ((Finset.univ.filter fun w => ¬ S.Good (S.idealRun msg wrap P w).2).filter fun w => w.1 = F).card * Fintype.card X ≤
        Fintype.card (Dir × K × X → X) * weight w 0 N := by
    intro F _
    have hb := card_bad hw F (full S.key S.add S.out S.s0 (fun q => S.pad (msg q)) (fun q => wrap (F (msg q))) P []) [] [] N
      (atMost_full _ P N [] hP) trivial (fun t ht => by cases ht)
    rw [List.length_nil] at hb
    have hu : coinSet ([] : List ((Dir × K × X) × X)) = Finset.univ := by
      unfold coinSet
      rw [Finset.filter_true_of_mem]
      intro c _ t ht
      cases ht
    rw [hu, Finset.card_univ] at hb
    refine le_trans (Nat.mul_le_mul_right _ ?_) hb
    refine Finset.card_le_card_of_injOn (fun w => w.2) ?_ ?_
    · intro w hw
      obtain ⟨h1, rfl⟩ := Finset.mem_filter.1 (Finset.mem_coe.1 hw)
      exact Finset.mem_coe.2 (Finset.mem_filter.2 ⟨Finset.mem_univ _, (Finset.mem_filter.1 h1).2⟩)
    · intro w hw w' hw' h
      have h1 := (Finset.mem_filter.1 (Finset.mem_coe.1 hw)).2
      have h2 := (Finset.mem_filter.1 (Finset.mem_coe.1 hw')).2
      exact Prod.ext (h1.trans h2.symm) h
  refine le_trans (Finset.sum_le_sum hone) ?_
  rw [Finset.sum_const, nsmul_eq_mul, Finset.card_univ, Nat.cast_id]

/-- **Indifferentiability.** Whatever the distinguisher, with cost at most `N`: its outputs in the two worlds differ in
probability by at most the sum of the probabilities of bad answers. -/
theorem indifferentiable {w : Nat → Nat} (hw : ∀ (T : Tab K X) (d : Dir) (k : K) (v : X) (o : Option D), (o ≠ none → d = .enc ∧ S.Ends k v) →
      ¬ Known T d k v → by classical exact (Finset.univ.filter fun a => S.BadAns T d k v (S.patch k v o a)).card ≤ w T.length)
    {N : Nat} (hP : P.AtMost (fun q => (S.pad (msg q)).length) N) [Nonempty X] [Nonempty D] :
    |prob (fun E => P.real (S.realDigest msg wrap E) E = true) - P.idealChance msg wrap S.simulator| ≤
      (weight w 0 N : ℚ) / Fintype.card X := by
  classical
  let O := Fintype.card ((M → D) × (Dir × K × X → X))
  let L := Fintype.card (Cipher K X)
  have hO : (0 : ℚ) < O := Nat.cast_pos.2 Fintype.card_pos
  have hK : (0 : ℚ) < L := Nat.cast_pos.2 Fintype.card_pos
  have hX : (0 : ℚ) < Fintype.card X := Nat.cast_pos.2 Fintype.card_pos
  let g : Bool → Nat := fun b => (Finset.univ.filter fun w =>
    S.Good (S.idealRun msg wrap P w).2 ∧ (S.idealRun msg wrap P w).1.1 = b).card
  let rr : Bool → Nat := fun b => (Finset.univ.filter fun E : Cipher K X => P.real (S.realDigest msg wrap E) E = b).card
  let ii : Bool → Nat := fun b => (Finset.univ.filter fun w => (S.idealRun msg wrap P w).1.1 = b).card
  let bad : Nat := (Finset.univ.filter fun w => ¬ S.Good (S.idealRun msg wrap P w).2).card
  have hreal : prob (fun E => P.real (S.realDigest msg wrap E) E = true) = (rr true : ℚ) / L := by
    unfold prob
    congr!
  have hideal : P.idealChance msg wrap S.simulator = (ii true : ℚ) / O := by
    unfold Distinguisher.idealChance chance
    have e : ∀ w : (M → D) × (Dir × K × X → X), P.ideal (fun q => wrap (w.1 (msg q))) S.simulator w.1 w.2 S.simulator.start =
        (S.idealRun msg wrap P w).1.1 := fun w => ideal_full _ w.1 w.2 _ P [] []
    have h1 : (Finset.univ.filter fun w : (M → D) × (Dir × K × X → X) =>
        P.ideal (fun q => wrap (w.1 (msg q))) S.simulator w.1 w.2 S.simulator.start = true).card = ii true := by
      simp only [e]
      rfl
    rw [← h1]
    refine congrArg₂ (fun a b : Nat => (a : ℚ) / b) ?_ ?_
    · exact card_filter_eq _ _ _ _
    · exact card_eq _ _
  have hgr : ∀ b, (g b : ℚ) / O ≤ (rr b : ℚ) / L := by
    intro b
    rw [div_le_div_iff₀ hO hK]
    exact_mod_cast card_good (S := S) (msg := msg) (wrap := wrap) (P := P) b
  have hgi : ∀ b, (g b : ℚ) / O ≤ (ii b : ℚ) / O := by
    intro b
    refine div_le_div_of_nonneg_right (Nat.cast_le.2 (Finset.card_le_card fun w hw => ?_)) hO.le
    simp only [Finset.mem_filter, Finset.mem_univ, true_and] at hw ⊢
    exact hw.2
  have hrr : (rr true : ℚ) / L + (rr false : ℚ) / L = 1 := by
    rw [← add_div, div_eq_one_iff_eq hK.ne', ← Nat.cast_add]
    congr 1
    have := Finset.card_filter_add_card_filter_not (s := (Finset.univ : Finset (Cipher K X)))
      (fun E => P.real (S.realDigest msg wrap E) E = true)
    rw [Finset.card_univ] at this
    simp only [Bool.not_eq_true] at this
    exact this
  have hii : (ii true : ℚ) / O + (ii false : ℚ) / O = 1 := by
    rw [← add_div, div_eq_one_iff_eq hO.ne', ← Nat.cast_add]
    congr 1
    have := Finset.card_filter_add_card_filter_not (s := (Finset.univ : Finset ((M → D) × (Dir × K × X → X))))
      (fun w => (S.idealRun msg wrap P w).1.1 = true)
    rw [Finset.card_univ] at this
    simp only [Bool.not_eq_true] at this
    exact this
  have hsum : 1 ≤ (g true : ℚ) / O + (g false : ℚ) / O + (bad : ℚ) / O := by
    rw [← add_div, ← add_div, one_le_div hO, ← Nat.cast_add, ← Nat.cast_add, Nat.cast_le]
    show Fintype.card _ ≤ _
    rw [← Finset.card_univ]
    refine le_trans (Finset.card_le_card (t := ((Finset.univ.filter fun w =>
      S.Good (S.idealRun msg wrap P w).2 ∧ (S.idealRun msg wrap P w).1.1 = true) ∪ (Finset.univ.filter fun w =>
      S.Good (S.idealRun msg wrap P w).2 ∧ (S.idealRun msg wrap P w).1.1 = false)) ∪
      (Finset.univ.filter fun w => ¬ S.Good (S.idealRun msg wrap P w).2)) fun w _ => ?_)
      (le_trans (Finset.card_union_le _ _) (Nat.add_le_add_right (Finset.card_union_le _ _) _))
    simp only [Finset.mem_union, Finset.mem_filter, Finset.mem_univ, true_and]
    by_cases hg : S.Good (S.idealRun msg wrap P w).2
    · cases (S.idealRun msg wrap P w).1.1 <;> simp [hg]
    · exact Or.inr hg
  have hbad : (bad : ℚ) / O ≤ (weight w 0 N : ℚ) / Fintype.card X := by
    rw [div_le_div_iff₀ hO hX]
    have := card_not_good (S := S) (msg := msg) (wrap := wrap) (P := P) (w := w) (fun T d k v o ho hk => by convert hw T d k v o ho hk) hP
    rw [mul_comm (weight w 0 N : ℚ)]
    exact_mod_cast this
  rw [hreal, hideal, abs_le]
  have a1 := hgr true
  have a2 := hgr false
  have b1 := hgi true
  have b2 := hgi false
  constructor <;> linarith

end Shape

end Verif.Ideal
