import Verif.Proof.Isa
import Verif.Props.KeccakAsm
/-
C72, C73 with the vector instructions as the processor manual defines them (Spec/Isa.lean): registers of 256 and 512 bits,
memory of bytes, every immediate.
-/
namespace Verif.Props

open Spec Isa

theorem mapM_some {α β : Type} {f : α → Option β} : ∀ {l : List α} {r : List β}, l.mapM f = some r →
    r.length = l.length ∧ ∀ (i : Nat) (x : α), l[i]? = some x → f x = r[i]?
  | [], r => by
    intro h
    rw [List.mapM_nil] at h
    rw [← Option.some.inj h]
    simp
  | a :: l, r => by
    intro h
    rw [List.mapM_cons] at h
    obtain ⟨y, hy, h⟩ := Option.bind_eq_some_iff.1 h
    obtain ⟨t, ht, h⟩ := Option.bind_eq_some_iff.1 h
    rw [← Option.some.inj h]
    obtain ⟨hl, ih⟩ := mapM_some ht
    refine ⟨by simp [hl], fun i x hx => ?_⟩
    cases i with
    | zero =>
      rw [List.getElem?_cons_zero] at hx ⊢
      rw [← Option.some.inj hx, hy]
    | succ i =>
      rw [List.getElem?_cons_succ] at hx ⊢
      exact ih i x hx

/-- C72, the instructions: as long as the model does not fault, every instruction does what the manual says. -/
theorem C72_avx2_instructions (m m' : Avx2.Machine (BitVec 64)) (M : Ymm) (s : SimY m M) (i : Avx2.Instr)
    (h : Avx2.step m i = some m') : SimY m' (M.step i) := s.step i h

/-- C72 on the machine of the manual: let `ymm0`..`ymm6` hold the lanes as `_mm256_set_epi64x` puts them and the tables be in
memory; then after 24 runs of the loop body the elements that the code reads back are the lanes of KECCAK-p[1600, 24] of FIPS 202. -/
theorem C72_avx2_manual (M : Ymm) (A : Lanes)
    (hin : ∀ (i : Nat) (v : Avx2.V4 (BitVec 64)), (Avx2.pack fun j => A.toList.getD j 0)[i]? = some v → M.ymm i = ofV4 v)
    (h8 : ∀ i < 192, M.r8 i = bytesV (counts Avx2.rhoL) i) (h9 : ∀ i < 192, M.r9 i = bytesV (counts Avx2.rhoR) i)
    (h10 : ∀ i < 768, M.r10 i = bytesV Avx2.constantsV i) (hp : M.pos = 0) :
    ∃ R : Lanes, R.array = Keccak.permutation A.array ∧ ∀ (j : Nat) (o : Nat × Nat), Avx2.outputs[j]? = some o →
      some (elem 64 (((fun M => Avx2.body.foldl Ymm.step M)^[24] M).ymm o.1) o.2) = R.toList[j]? := by
  refine ⟨keccakPermute A, C21_permutation_is_fips202 A, ?_⟩
  have e := Avx2.run_eq 24 (by omega) ((List.range 9).map fun i => toV4 (M.ymm (7 + i))) (by simp) A
  obtain ⟨m, hm, ho⟩ := Option.bind_eq_some_iff.1 e
  have s : SimY ⟨(Avx2.pack fun j => A.toList.getD j 0) ++ ((List.range 9).map fun i => toV4 (M.ymm (7 + i))),
      Avx2.constantsV, 0⟩ M := by
    refine ⟨fun i v hv => ?_, h8, h9, fun i hi => h10 i (by simpa [Avx2.constantsV, Avx2.constants] using hi), hp⟩
    by_cases hi : i < 7
    · rw [List.getElem?_append_left (by simpa [Avx2.pack] using hi)] at hv
      exact hin i v hv
    · rw [List.getElem?_append_right (by simp [Avx2.pack]; omega), List.getElem?_map] at hv
      have hl : (Avx2.pack fun j => A.toList.getD j 0).length = 7 := rfl
      rw [hl] at hv
      obtain ⟨j, hj, hv⟩ := Option.map_eq_some_iff.1 hv
      clear hm ho e
      obtain ⟨hj1, hj2⟩ := List.getElem?_eq_some_iff.1 hj
      rw [List.getElem_range] at hj2
      rw [← hv, ofV4_toV4]
      exact congrArg M.ymm (by omega)
  rw [show (24 : BitVec 64) = BitVec.ofNat 64 (23 + 1) from rfl] at hm
  have s' := s.loop 23 (by omega) 24 hm
  intro j o hj
  obtain ⟨hl, hr⟩ := mapM_some ho
  rw [← hr j o hj]
  have h2 : o.2 < 4 := by
    have : ∀ o ∈ Avx2.outputs, o.2 < 4 := by decide
    exact this o (List.mem_of_getElem? hj)
  have hj' : j < (keccakPermute A).toList.length := by
    have := (List.getElem?_eq_some_iff.1 hj).1
    omega
  have h3 := hr j o hj
  rw [List.getElem?_eq_getElem hj'] at h3
  obtain ⟨v, hv, h3⟩ := Option.map_eq_some_iff.1 h3
  rw [hv, s'.ymm _ v hv, elem_ofV4 _ h2]
  rfl

/-- A machine with the zero state and ones in the other registers. -/
def startY : Ymm where
  ymm i := if i < 7 then 0 else BitVec.allOnes 256
  r8 := bytesV (counts Avx2.rhoL)
  r9 := bytesV (counts Avx2.rhoR)
  r10 := bytesV Avx2.constantsV
  pos := 0

example : ∃ R : Lanes, R.array = Keccak.permutation (Lanes.array (Vector.replicate 25 0)) ∧
    ∀ (j : Nat) (o : Nat × Nat), Avx2.outputs[j]? = some o →
      some (elem 64 (((fun M => Avx2.body.foldl Ymm.step M)^[24] startY).ymm o.1) o.2) = R.toList[j]? :=
  C72_avx2_manual startY (Vector.replicate 25 0)
    (by
      intro i v hv
      have hz : (Avx2.pack fun j => (Vector.replicate 25 0 : Lanes).toList.getD j 0) =
          List.replicate 7 ⟨0, 0, 0, 0⟩ := by decide
      rw [hz, List.getElem?_replicate] at hv
      by_cases hi : i < 7
      · rw [if_pos hi] at hv
        rw [← Option.some.inj hv]
        show (if i < 7 then 0 else _) = _
        rw [if_pos hi]
        decide +kernel
      · rw [if_neg hi] at hv; exact absurd hv (by simp))
    (fun _ _ => rfl) (fun _ _ => rfl) (fun _ _ => rfl) rfl

/-- `vpaddq ymm0, ymm1, ymm0` on a machine with two registers. -/
example (a b : Avx2.V4 (BitVec 64)) (M : Ymm) (h0 : M.ymm 0 = ofV4 a) (h1 : M.ymm 1 = ofV4 b) (h8 : M.r8 = startY.r8)
    (h9 : M.r9 = startY.r9) (hp : M.pos = 0) :
    SimY ⟨[⟨b.e0 + a.e0, b.e1 + a.e1, b.e2 + a.e2, b.e3 + a.e3⟩, b], [], 0⟩ (M.step (.vpaddq 0 1 0)) := by
  refine C72_avx2_instructions ⟨[a, b], [], 0⟩ _ _
    ⟨fun i v hv => ?_, fun _ _ => by rw [h8]; rfl, fun _ _ => by rw [h9]; rfl, fun i hi => absurd hi (by simp), hp⟩ _ rfl
  match i, hv with
  | 0, hv => rw [h0, Option.some.inj hv]
  | 1, hv => rw [h1, Option.some.inj hv]
  | i + 2, hv => simp at hv

/-- C73, the instructions of the AVX-512 version: as long as the model does not fault, every instruction does what the manual
says. -/
theorem C73_avx512_instructions (k : Nat → List Bool) (m m' : Avx512.Machine (BitVec 64)) (M : Zmm) (s : SimZ k m M)
    (i : Avx512.Instr) (h : Avx512.step k m i = some m') : SimZ k m' (M.step i) := s.step i h

/-- C73 on the machine of the manual, with the registers and masks that the algorithm needs (not those of the code, see
`C73_avx512_false`): after 12 runs of the loop body lane `5y + x` of KECCAK-p[1600, 24] is element `x` of `zmm y`. -/
theorem C73_avx512_manual_partial (M : Zmm) (A : Lanes)
    (hin : ∀ y < 5, ∀ x < 5, elem 64 (M.zmm y) x = A.toList.getD (5 * y + x) 0)
    (ht : ∀ t l, Avx512.table t = some l → M.zmm t = ofL (l.map (BitVec.ofNat 64)))
    (hk : ∀ i, ∀ j < 8, M.k i j = decide (j + 1 = i))
    (h10 : ∀ i < 192, M.r10 (i : Nat) = bytesQ Avx512.constants i) (hp : M.pos = 0) :
    ∃ R : Lanes, R.array = Keccak.permutation A.array ∧ ∀ y < 5, ∀ x < 5,
      some (elem 64 (((fun M => Avx512.body.foldl Zmm.step M)^[12] M).zmm y) x) = R.toList[5 * y + x]? := by
  refine ⟨keccakPermute A, C21_permutation_is_fips202 A, ?_⟩
  let q : BitVec 512 → List (BitVec 64) := fun v => (List.range 8).map (elem 64 v)
  have hq : ∀ v, ofL (q v) = v := by
    intro v
    refine (glue_congr (by decide) fun i hi => ?_).trans (glue_elem (w := 64) (by omega) v)
    simp [q, List.getD_eq_getElem?_getD, List.getElem?_map, List.getElem?_range hi]
  let zs := (List.range 13).map fun i => q (M.zmm i)
  have hz : ∀ (i : Nat) (v : List (BitVec 64)), zs[i]? = some v → v = q (M.zmm i) := by
    intro i v hv
    rw [List.getElem?_map] at hv
    obtain ⟨j, hj, hv⟩ := Option.map_eq_some_iff.1 hv
    obtain ⟨hj1, hj2⟩ := List.getElem?_eq_some_iff.1 hj
    rw [List.getElem_range] at hj2
    rw [← hv, hj2]
  have shape : Avx512.Shape Avx512.straight A zs := by
    constructor
    · have h5 : ∀ y < 5, ∀ x < 5, A.toList.getD (5 * y + x) 0 = elem 64 (M.zmm y) x := fun y hy x hx =>
        (hin y hy x hx).symm
      unfold Avx512.rows Avx512.straight
      simp only [zs, ← List.map_take, List.map_map, List.take_range]
      apply List.map_congr_left
      intro y hy
      simp only [Function.comp_apply, q, ← List.map_take, List.take_range]
      apply List.map_congr_left
      intro x hx
      exact (h5 y (List.mem_range.1 hy) x (List.mem_range.1 hx)).symm
    · simp only [zs, q, List.map_map]
      rw [List.eq_replicate_iff]
      simp
  have s : SimZ Avx512.masksRight ⟨zs, Avx512.constants, 0⟩ M := by
    refine ⟨by simp [zs], fun i v hv => ?_, ht, fun i => by simp [Avx512.masksRight], fun i j hj => ?_, ?_, hp⟩
    · rw [hz i v hv, hq]
      exact ⟨by simp [q], rfl⟩
    · rw [hk i j hj]
      simp [Avx512.masksRight, List.getD_eq_getElem?_getD, List.getElem?_map, List.getElem?_range hj]
    · intro i hi
      exact h10 i (by simpa [Avx512.constants] using hi)
  obtain ⟨m, hm, sh⟩ := Avx512.loop_eq Avx512.constants 11 12 0 ⟨zs, Avx512.constants, 0⟩ A (by omega) (by omega) (by decide)
    rfl rfl shape
  rw [Avx512.constants_eq, Nat.mul_zero, List.drop_zero,
    show keccakConstants.foldl keccakRound A = keccakPermute A from rfl] at sh
  have s' := s.loop 11 (by omega) 12 hm
  intro y hy x hx
  have hi : 5 * y + x < 25 := by omega
  have h3 := Avx512.shape_get sh (5 * y + x) hi
  rw [show (5 * y + x) / 5 = y by omega, show (5 * y + x) % 5 = x by omega] at h3
  obtain ⟨v, hv, h3⟩ := Option.bind_eq_some_iff.1 h3
  rw [(s'.zmm y v hv).2, elem_ofL _ (by omega), List.getD_eq_getElem?_getD, h3]
  simp [hi]

/-- A machine with the zero state, the tables and the masks. -/
def startZ : Zmm where
  zmm t := match Avx512.table t with
    | some l => ofL (l.map (BitVec.ofNat 64))
    | none => 0
  k i j := decide (j + 1 = i)
  r10 i := bytesQ Avx512.constants i.toNat
  pos := 0

example : ∃ R : Lanes, R.array = Keccak.permutation (Lanes.array (Vector.replicate 25 0)) ∧ ∀ y < 5, ∀ x < 5,
    some (elem 64 (((fun M => Avx512.body.foldl Zmm.step M)^[12] startZ).zmm y) x) = R.toList[5 * y + x]? :=
  C73_avx512_manual_partial startZ (Vector.replicate 25 0)
    (by decide +kernel)
    (by
      intro t l h
      show (match Avx512.table t with | some l => ofL (l.map (BitVec.ofNat 64)) | none => 0) = _
      rw [h])
    (fun _ _ _ => rfl) (fun _ _ => rfl) rfl

/-- `vprolq 1, zmm0, zmm0` on a machine with one register. -/
example (v : List (BitVec 64)) (h8 : v.length = 8) (M : Zmm) (h0 : M.zmm 0 = ofL v) (ht : ∀ t, 13 ≤ t → M.zmm t = startZ.zmm t)
    (hk : M.k = startZ.k) (hp : M.pos = 0) :
    SimZ Avx512.masksRight ⟨[v.map fun x => x.rotateLeft 1], [], 0⟩ (M.step (.rolImm 1 0 0)) := by
  refine C73_avx512_instructions Avx512.masksRight ⟨[v], [], 0⟩ _ _ ⟨by simp, fun i w hv => ?_, fun t l h => ?_,
    fun i => by simp [Avx512.masksRight], fun i j hj => ?_, fun i hi => absurd hi (by simp), hp⟩ _ rfl
  · match i, hv with
    | 0, hv =>
      obtain rfl : v = w := Option.some.inj hv
      exact ⟨h8, h0⟩
    | i + 1, hv => simp at hv
  · rw [ht t (table_large t l h).1]
    show (match Avx512.table t with | some l => ofL (l.map (BitVec.ofNat 64)) | none => 0) = _
    rw [h]
  · rw [hk]
    show decide (j + 1 = i) = _
    simp [Avx512.masksRight, List.getD_eq_getElem?_getD, List.getElem?_map, List.getElem?_range hj]

end Verif.Props
