import Verif.Proof.Prf
import Verif.Props.PoseidonExtension
/-
C110: the Poseidon hash of a secret key followed by the message is no authentication code.
-/
namespace Verif.Props

open Spec.Poseidon Spec.Ideal Verif.Ideal

section
variable {F : Type} [CommRing F] {n : Nat}

/-- The code of `l` with the key `key`: the digest of both, for the permutation `P` of the states. -/
def poseidonTag (P : (Fin (n + 1) → F) → Fin (n + 1) → F) (key l : List F) : Except Fault F :=
  poseidonHash (fun S => .ok (P S)) (key ++ l)

/-- The zeros that fill `k` elements up to whole blocks of `n`, at least one. -/
def zerosAfter (F : Type) [CommRing F] (n k : Nat) : List F := List.replicate ((if k = 0 then 1 else (k + n - 1) / n) * n - k) 0

theorem zeroPad_zerosAfter (n : Nat) (l : List F) : zeroPad n l = l ++ zerosAfter F n l.length := by
  unfold zeroPad zerosAfter
  cases l <;> rfl

/-- Ask for the code of `l` and continue it by `m` with one query, behind `κ` elements of key. -/
def poseidonProlong (n κ : Nat) (l m : List F) : Forger (List F) (Except Fault F) Unit (Fin (n + 1) → F) :=
  .tag l fun a =>
    match a with
    | .error f => .forge l (.error f)
    | .ok d => .ask .enc () (input d m) fun y => .forge (l ++ zerosAfter F n (κ + l.length) ++ m) (.ok (y (Fin.last n)))

/-- **C110.** With the code of one list, whatever it is, and one query to the permutation the code of a longer one is found, with any
elements of choice at its end, for every key of the known length and every permutation. -/
theorem C110_forgery (hn : 0 < n) (κ : Nat) (l m : List F) (hm : m ≠ []) (hm' : m.length ≤ n) :
    ∃ A : Forger (List F) (Except Fault F) Unit (Fin (n + 1) → F), A.AtMost (fun _ => 1) 3 ∧
      ∀ (key : List F), key.length = κ → ∀ E : Cipher Unit (Fin (n + 1) → F),
        A.Wins id (poseidonTag (fun S => E () S) key) E ∧
        (A.outcome id (poseidonTag (fun S => E () S) key) E []).2.1 = l ++ zerosAfter F n (κ + l.length) ++ m := by
  refine ⟨poseidonProlong n κ l m, ⟨show 1 ≤ 3 by omega, fun a => ?_⟩, fun key hk E => ?_⟩
  · cases a with
    | error f => exact Nat.le_succ 1
    | ok d => exact fun y => Nat.le_refl 1
  obtain ⟨d, e1, e2⟩ := C104_extension hn (fun S => E () S) (key ++ l) m hm
  rw [zeroPad_zerosAfter, List.length_append, hk, blocks_short _ hm', List.append_assoc, List.append_assoc] at e2
  have e1' : poseidonTag (fun S => E () S) key l = .ok d := e1
  have hrun : (poseidonProlong n κ l m).outcome id (poseidonTag (fun S => E () S) key) E [] =
      ([l], l ++ zerosAfter F n (κ + l.length) ++ m, .ok (E () (input d m) (Fin.last n))) := by
    unfold poseidonProlong
    rw [Forger.outcome, e1']
    rfl
  unfold Forger.Wins
  rw [hrun]
  refine ⟨⟨?_, ?_⟩, rfl⟩
  · intro h
    have := congrArg List.length (List.mem_singleton.1 h)
    rw [id_eq, List.length_append, List.length_append] at this
    have := List.length_pos_iff.2 hm
    omega
  · show poseidonHash _ (key ++ (l ++ zerosAfter F n (κ + l.length) ++ m)) = _
    rw [List.append_assoc]
    exact e2

theorem zeroPad_snoc (hn : 0 < n) (l : List F) (hl : ¬ n ∣ l.length) : zeroPad n (l ++ [0]) = zeroPad n l := by
  have h0 : l ≠ [] := by
    rintro rfl
    exact hl (Dvd.intro 0 rfl)
  have hm : 0 < l.length % n := Nat.pos_of_ne_zero fun h => hl (Nat.dvd_of_mod_eq_zero h)
  have hlt := Nat.mod_lt l.length hn
  have hdm := Nat.div_add_mod l.length n
  have h1 : (l.length + n - 1) / n = l.length / n + 1 := by
    rw [Nat.div_eq_iff hn, Nat.add_mul, Nat.mul_comm]
    omega
  have h2 : (l.length + 1 + n - 1) / n = l.length / n + 1 := by
    rw [Nat.div_eq_iff hn, Nat.add_mul, Nat.mul_comm]
    omega
  unfold zeroPad
  rw [if_neg h0, if_neg (by simp), List.length_append, List.length_singleton, h1, h2, List.append_assoc]
  refine congrArg (l ++ ·) ?_
  rw [← List.replicate_one, List.replicate_append_replicate]
  congr 1
  rw [Nat.add_mul, Nat.mul_comm (l.length / n)]
  omega

/-- Use the code of `l` for `l` with a zero behind. -/
def addZero (n : Nat) (l : List F) : Forger (List F) (Except Fault F) Unit (Fin (n + 1) → F) := .tag l fun a => .forge (l ++ [0]) a

/-- **C110, without a query.** Unless key and list fill whole blocks, the code of the list is that of the list with a zero behind. -/
theorem C110_zero (hn : 0 < n) (l : List F) (key : List F) (hl : ¬ n ∣ key.length + l.length) (E : Cipher Unit (Fin (n + 1) → F)) :
    (addZero n l).Wins id (poseidonTag (fun S => E () S) key) E := by
  refine ⟨?_, ?_⟩
  · intro h
    have := congrArg List.length (List.mem_singleton.1 h)
    rw [id_eq, addZero, Forger.outcome, Forger.outcome, List.length_append] at this
    simp at this
  · show poseidonHash _ (key ++ (l ++ [0])) = poseidonHash _ (key ++ l)
    rw [C44_digest hn, C44_digest hn, ← List.append_assoc]
    refine congrArg Except.ok (C45_same_digest _ _ _ ((C45_exact hn _ _ _).2 ?_))
    rw [zeroPad_snoc hn _ (by rwa [List.length_append])]

end

/-! ### Examples -/

/-- With the key `[1]`, the list `[2, 3]` and rate 2: the code is 8 for the permutation `mix3` (three elements, so a zero is added),
and the forger outputs 12 for `[2, 3, 0, 4]`. -/
example : poseidonTag (n := 2) mix3 [1] [2, 3] = .ok 8 ∧
    (poseidonProlong 2 1 [2, 3] [4]).outcome id (poseidonTag (n := 2) mix3 [1]) (fun _ => mix3) [] = ([[2, 3]], [2, 3, 0, 4], .ok 12) := by
  refine ⟨mix3_123, ?_⟩
  unfold poseidonProlong
  rw [Forger.outcome, show poseidonTag (n := 2) (⇑mix3) [1] [2, 3] = .ok 8 from mix3_123]
  decide +kernel

example := C110_forgery (F := ZMod 13) (n := 2) (by decide) 1 [2, 3] [4] (by simp) (by decide)

/-- The same code is good for `[2, 3, 0]`. -/
example : (addZero 2 [2, 3]).Wins id (poseidonTag (n := 2) mix3 [1]) (fun _ => mix3) :=
  C110_zero (F := ZMod 13) (n := 2) (by decide) [2, 3] [1] (by decide) fun _ => mix3

end Verif.Props
