import Verif.Proof.IdealCipher
import Verif.Proof.Sha
import Mathlib.Data.BitVec
import Mathlib.Logic.Equiv.Fintype
/-
Bounds for collisions and preimages in the ideal cipher model, and the number of arrays of words.
-/
namespace Verif.Ideal
open Spec.Ideal

universe u
variable {K X D : Type} {R : Type u} [Fintype K] [DecidableEq K] [Fintype X] [DecidableEq X] [DecidableEq D]

theorem bound_linear {N q m : Nat} (h : q < N) :
    bound N (fun i => i * m) 0 q ≤ (q * (q - 1) / 2 * m : ℚ) / ((N : ℚ) - q) := by
  have hN : (0 : ℚ) < (N : ℚ) - q := sub_pos.2 (Nat.cast_lt.2 h)
  have h1 : bound N (fun i => i * m) 0 q ≤ ∑ i ∈ Finset.range q, ((i : ℚ) * m) / ((N : ℚ) - q) := by
    unfold bound
    refine Finset.sum_le_sum fun i hi => ?_
    rw [Nat.zero_add, Nat.cast_mul]
    refine div_le_div_of_nonneg_left (by positivity) hN ?_
    have : (i : ℚ) ≤ q := Nat.cast_le.2 (Finset.mem_range.1 hi).le
    linarith
  refine le_trans h1 (le_of_eq ?_)
  rw [← Finset.sum_div, ← Finset.sum_mul]
  congr 2
  induction q with
  | zero => simp
  | succ q ih =>
    rw [Finset.sum_range_succ, ih (by omega) (sub_pos.2 (Nat.cast_lt.2 (by omega)))
      (by
        unfold bound
        refine Finset.sum_le_sum fun i hi => ?_
        rw [Nat.zero_add, Nat.cast_mul]
        refine div_le_div_of_nonneg_left (by positivity) (sub_pos.2 (Nat.cast_lt.2 (by omega))) ?_
        have : (i : ℚ) ≤ q := Nat.cast_le.2 (Finset.mem_range.1 hi).le
        linarith)]
    push_cast
    ring

theorem bound_const {N q m : Nat} (h : q < N) : bound N (fun _ => m) 0 q ≤ (q * m : ℚ) / ((N : ℚ) - q) := by
  have hN : (0 : ℚ) < (N : ℚ) - q := sub_pos.2 (Nat.cast_lt.2 h)
  have h1 : bound N (fun _ => m) 0 q ≤ ∑ _i ∈ Finset.range q, (m : ℚ) / ((N : ℚ) - q) := by
    unfold bound
    refine Finset.sum_le_sum fun i hi => ?_
    rw [Nat.zero_add]
    refine div_le_div_of_nonneg_left (by positivity) hN ?_
    have : (i : ℚ) ≤ q := Nat.cast_le.2 (Finset.mem_range.1 hi).le
    linarith
  refine le_trans h1 (le_of_eq ?_)
  rw [Finset.sum_const, Finset.card_range, nsmul_eq_mul, mul_div_assoc]

/-- Of the values of a query's output, at most `m` belong to any one result. -/
structure Fibers (val : K → X → X → D) (m : Nat) : Prop where
  enc : ∀ k x t, (Finset.univ.filter fun y => val k x y = t).card ≤ m
  dec : ∀ k y t, (Finset.univ.filter fun x => val k x y = t).card ≤ m

/-- The value of an entry. -/
def value (val : K → X → X → D) (e : Entry K X) : D := val e.key e.x e.y

omit [Fintype K] [DecidableEq K] [DecidableEq X] in
theorem fibers_entry {val : K → X → X → D} {m : Nat} (H : Fibers val m) (d : Dir) (k : K) (v : X) (t : D) :
    (Finset.univ.filter fun a => value val (entry d k v a) = t).card ≤ m := by
  cases d
  · exact H.enc k v t
  · exact H.dec k v t

omit [Fintype K] [DecidableEq K] in
theorem fibers_list {val : K → X → X → D} {m : Nat} (H : Fibers val m) (d : Dir) (k : K) (v : X) (L : List D) :
    (Finset.univ.filter fun a => value val (entry d k v a) ∈ L).card ≤ L.length * m := by
  induction L with
  | nil => simp
  | cons t L ih =>
    have : (Finset.univ.filter fun a => value val (entry d k v a) ∈ t :: L) ⊆
        (Finset.univ.filter fun a => value val (entry d k v a) = t) ∪
          (Finset.univ.filter fun a => value val (entry d k v a) ∈ L) := by
      intro a ha
      simp only [Finset.mem_union, Finset.mem_filter, Finset.mem_univ, true_and, List.mem_cons] at ha ⊢
      exact ha
    refine le_trans (Finset.card_le_card this) (le_trans (Finset.card_union_le _ _) ?_)
    rw [List.length_cons, Nat.succ_mul, Nat.add_comm]
    exact Nat.add_le_add ih (fibers_entry H d k v t)

/-- Two different inputs known to the attacker have the same value with probability at most `q (q - 1) / 2` times `m / (N - q)`. -/
theorem collision_bound {val : K → X → X → D} {m : Nat} (H : Fibers val m) (A : Attacker K X R) (q : Nat) (hA : A.AtMost q)
    (hq : q < Fintype.card X) (p : Cipher K X → Prop)
    (hp : ∀ E, p E → ∃ s ∈ A.learns E, ∃ t ∈ A.learns E, (s.1, s.2.1) ≠ (t.1, t.2.1) ∧
      val s.1 s.2.1 s.2.2 = val t.1 t.2.1 t.2.2) :
    prob p ≤ (q * (q - 1) / 2 * m : ℚ) / ((Fintype.card X : ℚ) - q) := by
  refine le_trans (prob_le (fun e T => value val e ∈ T.map (value val)) (fun i => i * m) ?_ A q hA hq.le p ?_) (bound_linear hq)
  · intro T d k v _
    have := fibers_list H d k v (T.map (value val))
    rwa [List.length_map] at this
  · intro E hc hpE
    obtain ⟨s, hs, t, ht, hne, hv⟩ := hp E hpE
    have hAg : Agrees E ([] : List (Entry K X)) := by intro e he; cases he
    obtain ⟨e, he, rfl⟩ := learns_table E A [] hAg s hs
    obtain ⟨e', he', rfl⟩ := learns_table E A [] hAg t ht
    have hne' : e ≠ e' := by rintro rfl; exact hne rfl
    have key : ∀ T : List (Entry K X), Clean (fun e T => value val e ∈ T.map (value val)) T → ∀ e ∈ T, ∀ e' ∈ T, e ≠ e' →
        value val e ≠ value val e' := by
      intro T
      induction T with
      | nil => intro _ e he; cases he
      | cons f T ih =>
        rintro ⟨h1, h2, _⟩ e he e' he' hn hv
        rcases List.mem_cons.1 he with h3 | h3 <;> rcases List.mem_cons.1 he' with h4 | h4
        · exact hn (h3.trans h4.symm)
        · exact h2 (List.mem_map.2 ⟨e', h4, by rw [← h3]; exact hv.symm⟩)
        · exact h2 (List.mem_map.2 ⟨e, h3, by rw [← h4]; exact hv⟩)
        · exact ih h1 e h3 e' h4 hn hv
    exact key _ hc e he e' he' hne' hv

/-- An input with a given value is found with probability at most `q m / (N - q)`. -/
theorem preimage_bound {val : K → X → X → D} {m : Nat} (H : Fibers val m) (A : Attacker K X R) (q : Nat) (hA : A.AtMost q)
    (hq : q < Fintype.card X) (target : D) (p : Cipher K X → Prop)
    (hp : ∀ E, p E → ∃ s ∈ A.learns E, val s.1 s.2.1 s.2.2 = target) :
    prob p ≤ (q * m : ℚ) / ((Fintype.card X : ℚ) - q) := by
  refine le_trans (prob_le (fun e _ => value val e = target) (fun _ => m) ?_ A q hA hq.le p ?_) (bound_const hq)
  · intro T d k v _
    exact fibers_entry H d k v target
  · intro E hc hpE
    obtain ⟨s, hs, hv⟩ := hp E hpE
    have hAg : Agrees E ([] : List (Entry K X)) := by intro e he; cases he
    obtain ⟨e, he, rfl⟩ := learns_table E A [] hAg s hs
    have key : ∀ T : List (Entry K X), Clean (fun e _ => value val e = target) T → ∀ e ∈ T, value val e ≠ target := by
      intro T
      induction T with
      | nil => intro _ e he; cases he
      | cons f T ih =>
        rintro ⟨h1, h2, _⟩ e he
        rcases List.mem_cons.1 he with rfl | he
        · exact h2
        · exact ih h1 e he
    exact key _ hc e he hv

end Verif.Ideal

namespace Verif

/-- Arrays as functions. -/
def vectorEquiv (α : Type) (n : Nat) : Vector α n ≃ (Fin n → α) where
  toFun v i := v[i]
  invFun f := Vector.ofFn f
  left_inv v := by ext i hi; simp
  right_inv f := by funext i; simp

instance (w : Nat) : Fintype (BitVec w) := Fintype.ofEquiv _ BitVec.equivFin.toEquiv.symm

instance (w n : Nat) : Fintype (Vector (BitVec w) n) := Fintype.ofEquiv _ (vectorEquiv (BitVec w) n).symm

theorem card_words (w n : Nat) : Fintype.card (Vector (BitVec w) n) = 2 ^ (n * w) := by
  rw [Fintype.card_congr (vectorEquiv (BitVec w) n), Fintype.card_fun, Fintype.card_fin,
    Fintype.card_congr BitVec.equivFin.toEquiv, Fintype.card_fin, ← pow_mul, Nat.mul_comm]

end Verif
