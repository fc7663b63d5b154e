import Mathlib.Algebra.BigOperators.Fin
import Verif.Model.Circuit
import Verif.Props.PoseidonSponge
import Verif.Props.PoseidonTables
/-
C88: the two-argument Poseidon hash of the circuit build and of the ordinary build.
-/
namespace Verif.Props
open Spec.Poseidon

/-- One round of the Mina order on natural numbers below `p`, for the kernel to compute with. -/
def roundNat (p α : Nat) (M : List (List Nat)) (row x : List Nat) : List Nat :=
  let y := x.map fun v => v ^ α % p
  (List.range 3).map fun i =>
    (((M.getD i []).getD 0 0) * y.getD 0 0 + ((M.getD i []).getD 1 0) * y.getD 1 0 +
      ((M.getD i []).getD 2 0) * y.getD 2 0 + row.getD i 0) % p

/-- Three natural numbers as a state. -/
def vecOf (p : Nat) (x : List Nat) : Fin 3 → ZMod p := fun i => ((x.getD i 0 : Nat) : ZMod p)

theorem roundNat_cast (p α : Nat) (hα : 0 < α) (M rc : List (List Nat)) (r : Nat) (x : List Nat) :
    vecOf p (roundNat p α M (rc.getD r []) x)
      = roundMina α (Matrix.of (tableData p 3 M rc).mds) (tableData p 3 M rc).rc true r (vecOf p x) := by
  have hy : ∀ k : Nat, (((x.map fun v => v ^ α % p).getD k 0 : Nat) : ZMod p) = ((x.getD k 0 : Nat) : ZMod p) ^ α := by
    intro k
    rw [List.getD_eq_getElem?_getD, List.getD_eq_getElem?_getD, List.getElem?_map]
    cases x[k]? with
    | none => simp [hα.ne']
    | some v => simp
  funext i
  simp only [vecOf, roundMina, Pi.add_apply, Matrix.mulVec, dotProduct, Fin.sum_univ_three, sbox, Bool.true_or, if_true,
    Matrix.of_apply, tableData]
  have hi : (roundNat p α M (rc.getD r []) x).getD i 0
      = (((M.getD i []).getD 0 0) * (x.map fun v => v ^ α % p).getD 0 0
        + ((M.getD i []).getD 1 0) * (x.map fun v => v ^ α % p).getD 1 0
        + ((M.getD i []).getD 2 0) * (x.map fun v => v ^ α % p).getD 2 0 + (rc.getD r []).getD i 0) % p := by
    simp only [roundNat]
    rw [List.getD_eq_getElem?_getD, List.getElem?_map, List.getElem?_range i.2]
    rfl
  rw [hi, ZMod.natCast_mod]
  push_cast
  rw [hy, hy, hy]
  rfl

theorem permNat_cast (p α : Nat) (hα : 0 < α) (M rc : List (List Nat)) (l : List Nat) (x : List Nat) :
    l.foldl (fun A r => roundMina α (Matrix.of (tableData p 3 M rc).mds) (tableData p 3 M rc).rc true r A) (vecOf p x)
      = vecOf p (l.foldl (fun x r => roundNat p α M (rc.getD r []) x) x) := by
  induction l generalizing x with
  | nil => rfl
  | cons r l ih => rw [List.foldl_cons, List.foldl_cons, ← roundNat_cast p α hα, ih]

/-- The permutation of the Pallas base field as the specification gives it. -/
def pallasPerm : (Fin 3 → ZMod pallasBase) → Fin 3 → ZMod pallasBase :=
  perm (roundMina 7 (Matrix.of (tableData pallasBase 3 PoseidonTables.pallasMds PoseidonTables.pallasRc).mds)
    (tableData pallasBase 3 PoseidonTables.pallasMds PoseidonTables.pallasRc).rc) 55 0

theorem pallas_permute : pallasPermute = fun A => .ok (pallasPerm A) := by
  funext A
  exact C43_permutation instPallas.policy (tableData instPallas.modulus 3 instPallas.mds instPallas.rc)
    (le_of_eq GrainTables.pallas_shape.1.symm) A

theorem pallasPerm_nat (x : List Nat) : pallasPerm (vecOf pallasBase x)
    = vecOf pallasBase ((List.range 55).foldl
        (fun x r => roundNat pallasBase 7 PoseidonTables.pallasMds (PoseidonTables.pallasRc.getD r []) x) x) := by
  rw [← permNat_cast _ _ (by decide)]
  unfold pallasPerm perm
  refine List.foldl_ext _ _ _ fun A r hr => ?_
  have : r < 55 := List.mem_range.1 hr
  rw [decide_eq_true (by omega)]

theorem digest_pair {F : Type} [Zero F] (P : (Fin 3 → F) → Fin 3 → F) (a b : F) : digest P [a, b] = P ![0, a, b] 2 := by
  have : input (n := 2) (0 : F) [a, b] = ![0, a, b] := by
    funext i
    fin_cases i <;> rfl
  unfold digest
  rw [blocks, dif_pos (Or.inl (by simp))]
  simp only [List.foldl_cons, List.foldl_nil, compress, this]
  rfl

/-- **C88, what holds.** When the builtin of the compiler computes the Pallas permutation of the library, the circuit
hash of two elements is the ordinary hash of the list of them, in that order, by every overload: the container, the
container of the second with the first as initial element, and the two-argument overload *with the arguments
exchanged*; none of them fails. -/
theorem C88_partial (builtin : (Fin 3 → ZMod pallasBase) → Fin 3 → ZMod pallasBase)
    (hb : ∀ A, pallasPermute A = .ok (builtin A)) (a b : ZMod pallasBase) :
    poseidonHash pallasPermute [a, b] = .ok (circuitHash builtin a b) ∧
    poseidonHashInitial pallasPermute [b] a = .ok (circuitHash builtin a b) ∧
    poseidonHashPair pallasPermute b a = .ok (circuitHash builtin a b) ∧
    ∀ w : List (ZMod pallasBase),
      poseidonHashOut pallasPermute [a, b] w = .ok (w ++ [circuitHash builtin a b]) := by
  have e : pallasPermute = fun A => .ok (builtin A) := funext hb
  have h := C44_overloads (n := 2) (by decide) builtin
  have d : digest builtin [a, b] = circuitHash builtin a b := digest_pair builtin a b
  rw [e, ← d]
  exact ⟨C44_digest (by decide) builtin [a, b], h.2.1 [b] a, h.2.2.1 a b, h.1 [a, b]⟩

/-- **C88 is false.** The same call `hash<poseidon>(a, b)` has another value in the ordinary build than in the circuit
build: the ordinary one absorbs its second argument first.  Witness: the elements 0 and 1. -/
theorem C88_false : ¬ ∀ builtin : (Fin 3 → ZMod pallasBase) → Fin 3 → ZMod pallasBase,
    (∀ A, pallasPermute A = .ok (builtin A)) → ∀ a b,
      poseidonHashPair pallasPermute a b = .ok (circuitHash builtin a b) := by
  intro h
  have h1 := h pallasPerm (fun A => congrFun pallas_permute A) 0 1
  have h2 := (C88_partial pallasPerm (fun A => congrFun pallas_permute A) 1 0).2.2.1
  have h3 := Except.ok.inj (h2.symm.trans h1)
  have e1 : (![0, 1, 0] : Fin 3 → ZMod pallasBase) = vecOf pallasBase [0, 1, 0] := by
    funext i; fin_cases i <;> simp [vecOf]
  have e2 : (![0, 0, 1] : Fin 3 → ZMod pallasBase) = vecOf pallasBase [0, 0, 1] := by
    funext i; fin_cases i <;> simp [vecOf]
  unfold circuitHash circuitProcess at h3
  rw [e1, e2, pallasPerm_nat, pallasPerm_nat] at h3
  have h4 := (ZMod.natCast_eq_natCast_iff' _ _ _).1 h3
  exact absurd h4 (by decide +kernel)

/-- **C88, how it fails.** For all arguments the ordinary call gives what the circuit gives for the exchanged pair. -/
theorem C88_exchanged (builtin : (Fin 3 → ZMod pallasBase) → Fin 3 → ZMod pallasBase)
    (hb : ∀ A, pallasPermute A = .ok (builtin A)) (a b : ZMod pallasBase) :
    poseidonHashPair pallasPermute a b = .ok (circuitHash builtin b a) :=
  (C88_partial builtin hb b a).2.2.1

/-- The permutation of the library meets the hypothesis. -/
example (a b : ZMod pallasBase) :
    poseidonHash pallasPermute [a, b] = .ok (circuitHash pallasPerm a b) :=
  (C88_partial pallasPerm (fun A => congrFun pallas_permute A) a b).1

end Verif.Props
