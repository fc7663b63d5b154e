import Verif.Spec.SpongeSecurity
import Verif.Proof.SpongeWords
/- Equal states of a sponge over an injective function. -/
namespace Verif
open Spec

variable {b r : Nat} {f : List Bool → List Bool}

theorem absorbBlocks_snoc (p : List (List Bool)) (x : List Bool) : absorbBlocks b r f (p ++ [x]) =
    f (xorBits (absorbBlocks b r f p) (x ++ List.replicate (b - r) false)) := by
  unfold absorbBlocks
  rw [List.foldl_append]; rfl

theorem length_absorbBlocks (hf : ∀ S, (f S).length = b) (p : List (List Bool)) :
    (absorbBlocks b r f p).length = b := by
  rcases List.eq_nil_or_concat p with rfl | ⟨p, x, rfl⟩
  · exact List.length_replicate
  · rw [List.concat_eq_append, absorbBlocks_snoc]; exact hf _

theorem xorBits_take (S T : List Bool) (n : Nat) : (xorBits S T).take n = xorBits (S.take n) (T.take n) :=
  List.take_zipWith

theorem xorBits_drop (S T : List Bool) (n : Nat) : (xorBits S T).drop n = xorBits (S.drop n) (T.drop n) :=
  List.drop_zipWith

theorem xorBits_zeros (S : List Bool) : xorBits S (List.replicate S.length false) = S := by
  induction S with
  | nil => rfl
  | cons a S ih =>
    simp only [List.length_cons, List.replicate_succ, xorBits, List.zipWith_cons_cons, Bool.xor_false] at ih ⊢
    rw [ih]

theorem xorBits_cancel : ∀ (S x y : List Bool), x.length = S.length → y.length = S.length →
    xorBits S x = xorBits S y → x = y
  | [], x, y, hx, hy, _ => by
    rw [List.eq_nil_of_length_eq_zero hx, List.eq_nil_of_length_eq_zero hy]
  | a :: S, x :: xs, y :: ys, hx, hy, h => by
    simp only [xorBits, List.zipWith_cons_cons, List.cons.injEq] at h
    have h1 : x = y := by
      have := h.1
      revert this; cases a <;> cases x <;> cases y <;> decide
    rw [h1, xorBits_cancel S xs ys (by simpa using hx) (by simpa using hy) h.2]

/-- Two block sequences with the same final state: equal, or an inner collision, or a way back to the
initial state. -/
theorem absorb_collision (hr : r ≤ b) (hf : ∀ S, (f S).length = b)
    (hinj : ∀ S T : List Bool, S.length = b → T.length = b → f S = f T → S = T) :
    ∀ (n : Nat) (Ps Qs : List (List Bool)), Ps.length = n → (∀ x ∈ Ps, x.length = r) →
      (∀ x ∈ Qs, x.length = r) → Ps ≠ Qs → absorbBlocks b r f Ps = absorbBlocks b r f Qs →
      InnerCollision b r f Ps Qs ∨ ReturnsToZero b r f Ps ∨ ReturnsToZero b r f Qs := by
  intro n
  induction n with
  | zero =>
    intro Ps Qs hn _ _ hne h
    have hP := List.eq_nil_of_length_eq_zero hn
    subst hP
    exact Or.inr (Or.inr ⟨Qs, List.prefix_rfl, fun e => hne e.symm, h.symm⟩)
  | succ n ih =>
    intro Ps Qs hn hP hQ hne h
    rcases List.eq_nil_or_concat Ps with rfl | ⟨P, x, rfl⟩
    · simp at hn
    rcases List.eq_nil_or_concat Qs with rfl | ⟨Q, y, rfl⟩
    · exact Or.inr (Or.inl ⟨_, List.prefix_rfl, by simp, h⟩)
    rw [List.concat_eq_append] at *
    rw [List.concat_eq_append] at *
    have hx : x.length = r := hP x (by simp)
    have hy : y.length = r := hQ y (by simp)
    have lP := length_absorbBlocks (r := r) hf P
    have lQ := length_absorbBlocks (r := r) hf Q
    rw [absorbBlocks_snoc, absorbBlocks_snoc] at h
    have hz : ∀ (S z : List Bool), S.length = b → z.length = r →
        (xorBits S (z ++ List.replicate (b - r) false)).length = b := by
      intro S z hS hz
      unfold xorBits
      rw [List.length_zipWith, List.length_append, List.length_replicate]; omega
    have e := hinj _ _ (hz _ x lP hx) (hz _ y lQ hy) h
    have ed := congrArg (List.drop r) e
    have hd : ∀ z : List Bool, z.length = r → (z ++ List.replicate (b - r) false).drop r =
        List.replicate (b - r) false := by
      intro z hz
      rw [← hz, List.drop_left]
    rw [xorBits_drop, xorBits_drop, hd x hx, hd y hy] at ed
    have hzero : ∀ S : List Bool, S.length = b → xorBits (S.drop r) (List.replicate (b - r) false) = S.drop r := by
      intro S hS
      have := xorBits_zeros (S.drop r)
      rwa [List.length_drop, hS] at this
    rw [hzero _ lP, hzero _ lQ] at ed
    by_cases ht : (absorbBlocks b r f P).take r = (absorbBlocks b r f Q).take r
    · have hS : absorbBlocks b r f P = absorbBlocks b r f Q := by
        rw [← List.take_append_drop r (absorbBlocks b r f P), ht, ed, List.take_append_drop]
      have hxy : x = y := by
        rw [← hS] at e
        have := xorBits_cancel _ _ _ (by simp; omega) (by simp; omega) e
        exact List.append_cancel_right this
      have hPQ : P ≠ Q := by rintro rfl; exact hne (by rw [hxy])
      have ih' := ih P Q (by simpa using hn) (fun z hz => hP z (by simp [hz])) (fun z hz => hQ z (by simp [hz]))
        hPQ hS
      have pP : P <+: P ++ [x] := List.prefix_append _ _
      have pQ : Q <+: Q ++ [y] := List.prefix_append _ _
      rcases ih' with ⟨p, q, h1, h2, h3⟩ | ⟨p, h1, h2⟩ | ⟨p, h1, h2⟩
      · exact Or.inl ⟨p, q, h1.trans pP, h2.trans pQ, h3⟩
      · exact Or.inr (Or.inl ⟨p, h1.trans pP, h2⟩)
      · exact Or.inr (Or.inr ⟨p, h1.trans pQ, h2⟩)
    · exact Or.inl ⟨P, Q, List.prefix_append _ _, List.prefix_append _ _, ed, ht⟩

theorem laneString_stringLanes (S : List Bool) (h : S.length = 1600) : laneString (stringLanes S) = S := by
  apply List.ext_getElem?
  intro k
  by_cases hk : k < 1600
  · rw [getElem?_laneString _ _ hk]
    unfold stringLanes
    rw [Vector.getElem_ofFn, BitVec.getLsbD_ofFnLE, dif_pos (by omega), List.getD_eq_getElem?_getD]
    show some (S[64 * (k / 64) + k % 64]?.getD false) = _
    rw [show 64 * (k / 64) + k % 64 = k by omega, List.getElem?_eq_getElem (by omega)]
    rfl
  · rw [List.getElem?_eq_none (by rw [length_laneString]; omega), List.getElem?_eq_none (by omega)]

theorem onStrings_injective {permute : Lanes → Lanes} (h : Function.Injective permute) (S T : List Bool)
    (hS : S.length = 1600) (hT : T.length = 1600) (e : onStrings permute S = onStrings permute T) : S = T := by
  have e1 := congrArg stringLanes e
  unfold onStrings at e1
  rw [stringLanes_laneString, stringLanes_laneString] at e1
  rw [← laneString_stringLanes S hS, h e1, laneString_stringLanes T hT]

end Verif
