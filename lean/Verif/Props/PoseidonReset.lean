import Mathlib.Data.ZMod.Basic
import Verif.Model.Poseidon
import Verif.Spec.Poseidon
import Verif.Props.PoseidonSponge
/-
C67: `reset` of the Poseidon sponge.
-/
namespace Verif.Props
open Spec.Poseidon

/-- The digest of what is absorbed after a `reset`. -/
def digestAfterReset {F : Type} [CommRing F] {t : Nat} [NeZero t] (perm : (Fin t → F) → Except Fault (Fin t → F))
    (s : Sponge F t) (l : List F) : Except Fault F := do
  let s ← s.reset.absorbAll perm l
  let r ← s.squeeze perm
  pure r.2

/-- **C67, what holds.** A sponge that was reset is a fresh one after absorbing one zero: the first element after a
`reset` takes the place of the chaining value. -/
theorem C67_partial {F : Type} [CommRing F] {t : Nat} [NeZero t] (perm : (Fin t → F) → Except Fault (Fin t → F))
    (s : Sponge F t) (l : List F) : digestAfterReset perm s (0 :: l) = poseidonHash perm l := by
  have h0 : s.reset.absorb perm 0 = .ok (Sponge.init F t) := by
    have ht : (0 : Nat) ≠ t := (NeZero.ne t).symm
    unfold Sponge.absorb
    rw [if_neg (show ¬ s.reset.count = t from ht)]
    show (setWord (fun _ => (0 : F)) 0 0 >>= fun A => pure ⟨A, 0 + 1⟩ : Except Fault (Sponge F t)) = _
    rw [setWord, dif_pos (Nat.pos_of_ne_zero (NeZero.ne t))]
    show Except.ok _ = Except.ok _
    congr 1
    unfold Sponge.init
    congr 1
    exact Function.update_eq_self _ _
  unfold digestAfterReset poseidonHash Sponge.absorbAll
  rw [List.foldlM_cons, h0]
  rfl

/-- **C67 is false.** A sponge that was reset does not hash like a fresh one: with the identity as permutation
the digest of the list `[1]` is 0 after a `reset` and 1 without. -/
theorem C67_false : ¬ ∀ (perm : (Fin 2 → ZMod 13) → Except Fault (Fin 2 → ZMod 13)) (s : Sponge (ZMod 13) 2)
    (l : List (ZMod 13)), digestAfterReset perm s l = poseidonHash perm l := by
  intro h
  have := h (fun A => .ok A) (Sponge.init _ _) [1]
  have e1 : digestAfterReset (fun A => .ok A) (Sponge.init (ZMod 13) 2) [1] = .ok 0 := by decide +kernel
  have e2 : poseidonHash (fun A => .ok A) ([1] : List (ZMod 13)) (t := 2) = .ok 1 := by decide +kernel
  rw [e1, e2] at this
  exact absurd (Except.ok.inj this) (by decide)

/-- **C67, exactly.** After a `reset` the first element of a list is the chaining value from which the rest is hashed; the
empty list is hashed as by a fresh sponge. -/
theorem C67_exact {F : Type} [CommRing F] {n : Nat} (hn : 0 < n) (P : (Fin (n + 1) → F) → Fin (n + 1) → F)
    (s : Sponge F (n + 1)) :
    (∀ x l, digestAfterReset (fun A => .ok (P A)) s (x :: l) = .ok ((blocks n l).foldl (compress P) x)) ∧
    digestAfterReset (fun A => .ok (P A)) s [] = .ok (digest P []) := by
  constructor
  · intro x l
    have r0 : SpongeRep x [] (⟨Function.update (fun _ => (0 : F)) ⟨0, Nat.succ_pos n⟩ x, 1⟩ : Sponge F (n + 1)) := by
      refine ⟨rfl, by simp, ?_⟩
      funext i
      refine Fin.cases ?_ (fun i => ?_) i
      · simp [input, Function.update]
      · simp [input, Function.update]
    have e0 : s.reset.absorb (fun A => .ok (P A)) x =
        .ok (⟨Function.update (fun _ => (0 : F)) ⟨0, Nat.succ_pos n⟩ x, 1⟩ : Sponge F (n + 1)) := by
      unfold Sponge.absorb
      rw [if_neg (show ¬ s.reset.count = n + 1 from Nat.noConfusion)]
      show (setWord (fun _ => (0 : F)) 0 x >>= fun A => pure ⟨A, 0 + 1⟩ : Except Fault (Sponge F (n + 1))) = _
      rw [setWord, dif_pos (Nat.succ_pos n)]
      rfl
    obtain ⟨s1, h1, buf1, e1, r1, c1⟩ := rep_absorbAll hn P l r0
    obtain ⟨s2, e2, -⟩ := rep_squeeze P r1
    unfold digestAfterReset
    rw [absorbAll_cons, e0, ok_bind, e1, ok_bind, e2, ok_bind, c1]
    rfl
  · have hlast : (Fin.ofNat (n + 1) (n + 1 - 1)) = Fin.last n := by
      apply Fin.ext; simp [Fin.ofNat]
    have h0 : (fun _ => 0 : Fin (n + 1) → F) = input 0 [] := by
      funext i
      refine Fin.cases ?_ (fun i => ?_) i <;> simp [input]
    unfold digestAfterReset digest
    rw [absorbAll_nil, blocks_short _ (Nat.zero_le n)]
    show Except.ok _ = Except.ok _
    congr 1
    simp only [Sponge.reset, List.foldl_cons, List.foldl_nil, compress, ← h0]
    simp

/-- **C67, collisions.** So after a `reset` collisions can be written down for every permutation: a block may be replaced
by the value it leads to. -/
theorem C67_collision {F : Type} [CommRing F] {n : Nat} (hn : 0 < n) (P : (Fin (n + 1) → F) → Fin (n + 1) → F)
    (s s' : Sponge F (n + 1)) (x : F) (b l : List F) (hb : b.length = n) (hl : l ≠ []) :
    digestAfterReset (fun A => .ok (P A)) s (x :: (b ++ l)) =
      digestAfterReset (fun A => .ok (P A)) s' (compress P x b :: l) := by
  rw [(C67_exact hn P s).1, (C67_exact hn P s').1, blocks_long hn b l hb hl]
  rfl

/-- Rate two: the lists `[3, 1, 2, 4]` and `[y, 4]` where `y` is the last word of the permutation of `(3, 1, 2)`. -/
example (P : (Fin 3 → ZMod 13) → Fin 3 → ZMod 13) (s : Sponge (ZMod 13) 3) :
    digestAfterReset (fun A => .ok (P A)) s [3, 1, 2, 4] =
      digestAfterReset (fun A => .ok (P A)) s [P (input 3 [1, 2]) 2, 4] :=
  C67_collision (n := 2) (by decide) P s s 3 [1, 2] [4] rfl (by decide)

/-- The two lists `[]` and `[0]` get one digest, one through a fresh sponge and the other after a `reset`. -/
example : digestAfterReset (F := ZMod 13) (t := 2) (fun A => .ok fun i => A i + 1) ⟨fun _ => 5, 2⟩ [0]
    = poseidonHash (F := ZMod 13) (t := 2) (fun A => .ok fun i => A i + 1) [] := C67_partial _ _ _

end Verif.Props
