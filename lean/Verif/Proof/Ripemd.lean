import Mathlib.Logic.Function.Basic
import Verif.Model.Ripemd
import Verif.Spec.Ripemd
/- The RIPEMD compressors follow the published definition. -/
namespace Verif.Ripemd

open Spec

theorem rol_eq (x : W) (n : Nat) (h : n < 32) : x.rotateLeft n = Ripemd.rol x n := by
  unfold Spec.Ripemd.rol
  rw [BitVec.rotateLeft_def, Nat.mod_eq_of_lt h]

/-- The tables of the code are the published ones. -/
theorem tables : ∀ j, j < 80 → tab r1 j = Spec.Ripemd.r j ∧ tab r2 j = Spec.Ripemd.r' j ∧
    tab s1 j = Spec.Ripemd.s j ∧ tab s2 j = Spec.Ripemd.s' j ∧ tab s1 j < 32 ∧ tab s2 j < 32 ∧
    tab r1 j < 16 ∧ tab r2 j < 16 := by
  have h : ∀ j : Fin 80, tab r1 j = Spec.Ripemd.r j ∧ tab r2 j = Spec.Ripemd.r' j ∧
      tab s1 j = Spec.Ripemd.s j ∧ tab s2 j = Spec.Ripemd.s' j ∧ tab s1 j < 32 ∧ tab s2 j < 32 ∧
      tab r1 j < 16 ∧ tab r2 j < 16 := by
    decide +kernel
  exact fun j hj => h ⟨j, hj⟩

theorem transform4_eq (F : W → W → W → W) (v : W × W × W × W) (x k : W) (s : Nat) (h : s < 32) :
    transform4 F v x k s = Spec.Ripemd.step4 F x k s v := by
  obtain ⟨a, b, c, d⟩ := v
  simp only [transform4, Spec.Ripemd.step4, rol_eq _ s h]

theorem transform5_eq (F : W → W → W → W) (v : W × W × W × W × W) (x k : W) (s : Nat) (h : s < 32) :
    transform5 F v x k s = Spec.Ripemd.step5 F x k s v := by
  obtain ⟨a, b, c, d, e⟩ := v
  simp only [transform5, Spec.Ripemd.step5, rol_eq _ s h, rol_eq _ 10 (by omega)]

theorem foldl_pair {α β γ : Type} (f f' : α → γ → α) (g g' : β → γ → β) (l : List γ)
    (hf : ∀ j ∈ l, ∀ a, f a j = f' a j) (hg : ∀ j ∈ l, ∀ b, g b j = g' b j) :
    ∀ p : α × β, l.foldl (fun p j => (f p.1 j, g p.2 j)) p = (l.foldl f' p.1, l.foldl g' p.2) := by
  induction l with
  | nil => intro p; rfl
  | cons j l ih =>
    intro p
    simp only [List.foldl_cons]
    rw [ih (fun j hj => hf j (List.mem_cons_of_mem _ hj)) (fun j hj => hg j (List.mem_cons_of_mem _ hj)),
      hf j List.mem_cons_self, hg j List.mem_cons_self]

theorem round4_eq (X : Nat → W) (start : Nat) (F1 : W → W → W → W) (k1 : W) (F2 : W → W → W → W)
    (k2 : W) (h : ∀ j, start ≤ j → j < start + 16 → j < 80 ∧ Spec.Ripemd.f j = F1 ∧
      Spec.Ripemd.K j = k1 ∧ Spec.Ripemd.f (63 - j) = F2 ∧ Spec.Ripemd.K4' j = k2)
    (p : (W × W × W × W) × (W × W × W × W)) :
    round4 X start F1 k1 F2 k2 p =
      (Spec.Ripemd.left4 X start 16 p.1, Spec.Ripemd.right4 X start 16 p.2) := by
  unfold round4 Spec.Ripemd.left4 Spec.Ripemd.right4
  apply foldl_pair (f := fun v j => transform4 F1 v (X (tab r1 j)) k1 (tab s1 j))
    (g := fun v j => transform4 F2 v (X (tab r2 j)) k2 (tab s2 j))
  · intro j hj a
    rw [List.mem_range'_1] at hj
    obtain ⟨h1, h2, h3, h4, h5⟩ := h j hj.1 hj.2
    obtain ⟨t1, t2, t3, t4, t5, t6, _, _⟩ := tables j h1
    rw [transform4_eq _ _ _ _ _ t5, h2, h3, t1, t3]
  · intro j hj a
    rw [List.mem_range'_1] at hj
    obtain ⟨h1, h2, h3, h4, h5⟩ := h j hj.1 hj.2
    obtain ⟨t1, t2, t3, t4, t5, t6, _, _⟩ := tables j h1
    rw [transform4_eq _ _ _ _ _ t6, h4, h5, t2, t4]

theorem round5_eq (X : Nat → W) (start : Nat) (F1 : W → W → W → W) (k1 : W) (F2 : W → W → W → W)
    (k2 : W) (h : ∀ j, start ≤ j → j < start + 16 → j < 80 ∧ Spec.Ripemd.f j = F1 ∧
      Spec.Ripemd.K j = k1 ∧ Spec.Ripemd.f (79 - j) = F2 ∧ Spec.Ripemd.K5' j = k2)
    (p : (W × W × W × W × W) × (W × W × W × W × W)) :
    round5 X start F1 k1 F2 k2 p =
      (Spec.Ripemd.left5 X start 16 p.1, Spec.Ripemd.right5 X start 16 p.2) := by
  unfold round5 Spec.Ripemd.left5 Spec.Ripemd.right5
  apply foldl_pair (f := fun v j => transform5 F1 v (X (tab r1 j)) k1 (tab s1 j))
    (g := fun v j => transform5 F2 v (X (tab r2 j)) k2 (tab s2 j))
  · intro j hj a
    rw [List.mem_range'_1] at hj
    obtain ⟨h1, h2, h3, h4, h5⟩ := h j hj.1 hj.2
    obtain ⟨t1, t2, t3, t4, t5, t6, _, _⟩ := tables j h1
    rw [transform5_eq _ _ _ _ _ t5, h2, h3, t1, t3]
  · intro j hj a
    rw [List.mem_range'_1] at hj
    obtain ⟨h1, h2, h3, h4, h5⟩ := h j hj.1 hj.2
    obtain ⟨t1, t2, t3, t4, t5, t6, _, _⟩ := tables j h1
    rw [transform5_eq _ _ _ _ _ t6, h4, h5, t2, t4]

theorem fRound0 {j : Nat} (h : j / 16 = 0) : Spec.Ripemd.f j = f1 := by
  funext x y z; unfold Spec.Ripemd.f; rw [h]; rfl
theorem fRound1 {j : Nat} (h : j / 16 = 1) : Spec.Ripemd.f j = f2 := by
  funext x y z; unfold Spec.Ripemd.f; rw [h]; rfl
theorem fRound2 {j : Nat} (h : j / 16 = 2) : Spec.Ripemd.f j = f3 := by
  funext x y z; unfold Spec.Ripemd.f; rw [h]; rfl
theorem fRound3 {j : Nat} (h : j / 16 = 3) : Spec.Ripemd.f j = f4 := by
  funext x y z; unfold Spec.Ripemd.f; rw [h]; rfl
theorem fRound4 {j : Nat} (h : j / 16 = 4) : Spec.Ripemd.f j = f5 := by
  funext x y z; unfold Spec.Ripemd.f; rw [h]; rfl

section
variable (X : Nat → W)

theorem round4_0 (p) : round4 X 0 f1 0x00000000 f4 0x50a28be6 p =
    (Spec.Ripemd.left4 X 0 16 p.1, Spec.Ripemd.right4 X 0 16 p.2) := by
  apply round4_eq
  intro j h1 h2
  have e : j / 16 = 0 := by omega
  exact ⟨by omega, fRound0 e, by unfold Spec.Ripemd.K; rw [e]; rfl, fRound3 (by omega),
    by unfold Spec.Ripemd.K4'; rw [e]; rfl⟩

theorem round4_1 (p) : round4 X 16 f2 0x5a827999 f3 0x5c4dd124 p =
    (Spec.Ripemd.left4 X 16 16 p.1, Spec.Ripemd.right4 X 16 16 p.2) := by
  apply round4_eq
  intro j h1 h2
  have e : j / 16 = 1 := by omega
  exact ⟨by omega, fRound1 e, by unfold Spec.Ripemd.K; rw [e]; rfl, fRound2 (by omega),
    by unfold Spec.Ripemd.K4'; rw [e]; rfl⟩

theorem round4_2 (p) : round4 X 32 f3 0x6ed9eba1 f2 0x6d703ef3 p =
    (Spec.Ripemd.left4 X 32 16 p.1, Spec.Ripemd.right4 X 32 16 p.2) := by
  apply round4_eq
  intro j h1 h2
  have e : j / 16 = 2 := by omega
  exact ⟨by omega, fRound2 e, by unfold Spec.Ripemd.K; rw [e]; rfl, fRound1 (by omega),
    by unfold Spec.Ripemd.K4'; rw [e]; rfl⟩

theorem round4_3 (p) : round4 X 48 f4 0x8f1bbcdc f1 0x00000000 p =
    (Spec.Ripemd.left4 X 48 16 p.1, Spec.Ripemd.right4 X 48 16 p.2) := by
  apply round4_eq
  intro j h1 h2
  have e : j / 16 = 3 := by omega
  exact ⟨by omega, fRound3 e, by unfold Spec.Ripemd.K; rw [e]; rfl, fRound0 (by omega),
    by unfold Spec.Ripemd.K4'; rw [e]; rfl⟩

theorem round5_0 (p) : round5 X 0 f1 0x00000000 f5 0x50a28be6 p =
    (Spec.Ripemd.left5 X 0 16 p.1, Spec.Ripemd.right5 X 0 16 p.2) := by
  apply round5_eq
  intro j h1 h2
  have e : j / 16 = 0 := by omega
  exact ⟨by omega, fRound0 e, by unfold Spec.Ripemd.K; rw [e]; rfl, fRound4 (by omega),
    by unfold Spec.Ripemd.K5'; rw [e]; rfl⟩

theorem round5_1 (p) : round5 X 16 f2 0x5a827999 f4 0x5c4dd124 p =
    (Spec.Ripemd.left5 X 16 16 p.1, Spec.Ripemd.right5 X 16 16 p.2) := by
  apply round5_eq
  intro j h1 h2
  have e : j / 16 = 1 := by omega
  exact ⟨by omega, fRound1 e, by unfold Spec.Ripemd.K; rw [e]; rfl, fRound3 (by omega),
    by unfold Spec.Ripemd.K5'; rw [e]; rfl⟩

theorem round5_2 (p) : round5 X 32 f3 0x6ed9eba1 f3 0x6d703ef3 p =
    (Spec.Ripemd.left5 X 32 16 p.1, Spec.Ripemd.right5 X 32 16 p.2) := by
  apply round5_eq
  intro j h1 h2
  have e : j / 16 = 2 := by omega
  exact ⟨by omega, fRound2 e, by unfold Spec.Ripemd.K; rw [e]; rfl, fRound2 (by omega),
    by unfold Spec.Ripemd.K5'; rw [e]; rfl⟩

theorem round5_3 (p) : round5 X 48 f4 0x8f1bbcdc f2 0x7a6d76e9 p =
    (Spec.Ripemd.left5 X 48 16 p.1, Spec.Ripemd.right5 X 48 16 p.2) := by
  apply round5_eq
  intro j h1 h2
  have e : j / 16 = 3 := by omega
  exact ⟨by omega, fRound3 e, by unfold Spec.Ripemd.K; rw [e]; rfl, fRound1 (by omega),
    by unfold Spec.Ripemd.K5'; rw [e]; rfl⟩

theorem round5_4 (p) : round5 X 64 f5 0xa953fd4e f1 0x00000000 p =
    (Spec.Ripemd.left5 X 64 16 p.1, Spec.Ripemd.right5 X 64 16 p.2) := by
  apply round5_eq
  intro j h1 h2
  have e : j / 16 = 4 := by omega
  exact ⟨by omega, fRound4 e, by unfold Spec.Ripemd.K; rw [e]; rfl, fRound0 (by omega),
    by unfold Spec.Ripemd.K5'; rw [e]; rfl⟩

theorem left4_split (l) : Spec.Ripemd.left4 X 0 64 l = Spec.Ripemd.left4 X 48 16 (Spec.Ripemd.left4 X 32 16
    (Spec.Ripemd.left4 X 16 16 (Spec.Ripemd.left4 X 0 16 l))) := by
  unfold Spec.Ripemd.left4
  rw [← List.foldl_append, ← List.foldl_append, ← List.foldl_append]
  rfl

theorem right4_split (l) : Spec.Ripemd.right4 X 0 64 l = Spec.Ripemd.right4 X 48 16
    (Spec.Ripemd.right4 X 32 16 (Spec.Ripemd.right4 X 16 16 (Spec.Ripemd.right4 X 0 16 l))) := by
  unfold Spec.Ripemd.right4
  rw [← List.foldl_append, ← List.foldl_append, ← List.foldl_append]
  rfl

theorem left5_split (l) : Spec.Ripemd.left5 X 0 80 l = Spec.Ripemd.left5 X 64 16 (Spec.Ripemd.left5 X 48 16
    (Spec.Ripemd.left5 X 32 16 (Spec.Ripemd.left5 X 16 16 (Spec.Ripemd.left5 X 0 16 l)))) := by
  unfold Spec.Ripemd.left5
  rw [← List.foldl_append, ← List.foldl_append, ← List.foldl_append, ← List.foldl_append]
  rfl

theorem right5_split (l) : Spec.Ripemd.right5 X 0 80 l = Spec.Ripemd.right5 X 64 16
    (Spec.Ripemd.right5 X 48 16 (Spec.Ripemd.right5 X 32 16 (Spec.Ripemd.right5 X 16 16
      (Spec.Ripemd.right5 X 0 16 l)))) := by
  unfold Spec.Ripemd.right5
  rw [← List.foldl_append, ← List.foldl_append, ← List.foldl_append, ← List.foldl_append]
  rfl

/-- A state as chaining variables. -/
def vars4 (v : Vector W 4) : Spec.Ripemd.W4 := (v[0], v[1], v[2], v[3])
def vars5 (v : Vector W 5) : Spec.Ripemd.W5 := (v[0], v[1], v[2], v[3], v[4])
def vars8 (v : Vector W 8) : Spec.Ripemd.W4 × Spec.Ripemd.W4 :=
  ((v[0], v[1], v[2], v[3]), (v[4], v[5], v[6], v[7]))
def vars10 (v : Vector W 10) : Spec.Ripemd.W5 × Spec.Ripemd.W5 :=
  ((v[0], v[1], v[2], v[3], v[4]), (v[5], v[6], v[7], v[8], v[9]))

theorem vars4_feed (st : Vector W 4) (p) :
    vars4 (feed128 st p) = Spec.Ripemd.combine4 (vars4 st) p.1 p.2 := by
  obtain ⟨⟨a, b, c, d⟩, ⟨a', b', c', d'⟩⟩ := p
  simp [vars4, feed128, Spec.Ripemd.combine4]

theorem vars5_feed (st : Vector W 5) (p) :
    vars5 (feed160 st p) = Spec.Ripemd.combine5 (vars5 st) p.1 p.2 := by
  obtain ⟨⟨a, b, c, d, e⟩, ⟨a', b', c', d', e'⟩⟩ := p
  simp [vars5, feed160, Spec.Ripemd.combine5]

theorem compress128_eq (st : Vector W 4) :
    vars4 (compress128 st X) = Spec.Ripemd.compress128 X (vars4 st) := by
  unfold compress128 Spec.Ripemd.compress128
  simp only [vars4_feed, round4_0, round4_1, round4_2, round4_3]
  rw [left4_split, right4_split]
  rfl

theorem compress160_eq (st : Vector W 5) :
    vars5 (compress160 st X) = Spec.Ripemd.compress160 X (vars5 st) := by
  unfold compress160 Spec.Ripemd.compress160
  simp only [vars5_feed, round5_0, round5_1, round5_2, round5_3, round5_4]
  rw [left5_split, right5_split]
  rfl

theorem vars8_round (start F1 k1 F2 k2) (Y : Vector W 8) :
    vars8 (round256 X start F1 k1 F2 k2 Y) = round4 X start F1 k1 F2 k2 (vars8 Y) := by
  unfold round256 vars8
  generalize round4 X start F1 k1 F2 k2 _ = p
  obtain ⟨⟨a, b, c, d⟩, ⟨a', b', c', d'⟩⟩ := p
  simp

theorem vars10_round (start F1 k1 F2 k2) (Y : Vector W 10) :
    vars10 (round320 X start F1 k1 F2 k2 Y) = round5 X start F1 k1 F2 k2 (vars10 Y) := by
  unfold round320 vars10
  generalize round5 X start F1 k1 F2 k2 _ = p
  obtain ⟨⟨a, b, c, d, e⟩, ⟨a', b', c', d', e'⟩⟩ := p
  simp

theorem vars8_swapA (Y : Vector W 8) : vars8 (swap Y 0 4) = Spec.Ripemd.exchA (vars8 Y) := by
  simp [vars8, swap, Spec.Ripemd.exchA]
theorem vars8_swapB (Y : Vector W 8) : vars8 (swap Y 1 5) = Spec.Ripemd.exchB (vars8 Y) := by
  simp [vars8, swap, Spec.Ripemd.exchB]
theorem vars8_swapC (Y : Vector W 8) : vars8 (swap Y 2 6) = Spec.Ripemd.exchC (vars8 Y) := by
  simp [vars8, swap, Spec.Ripemd.exchC]
theorem vars8_swapD (Y : Vector W 8) : vars8 (swap Y 3 7) = Spec.Ripemd.exchD (vars8 Y) := by
  simp [vars8, swap, Spec.Ripemd.exchD]

theorem vars10_swapA (Y : Vector W 10) : vars10 (swap Y 0 5) = Spec.Ripemd.swapA (vars10 Y) := by
  simp [vars10, swap, Spec.Ripemd.swapA]
theorem vars10_swapB (Y : Vector W 10) : vars10 (swap Y 1 6) = Spec.Ripemd.swapB (vars10 Y) := by
  simp [vars10, swap, Spec.Ripemd.swapB]
theorem vars10_swapC (Y : Vector W 10) : vars10 (swap Y 2 7) = Spec.Ripemd.swapC (vars10 Y) := by
  simp [vars10, swap, Spec.Ripemd.swapC]
theorem vars10_swapD (Y : Vector W 10) : vars10 (swap Y 3 8) = Spec.Ripemd.swapD (vars10 Y) := by
  simp [vars10, swap, Spec.Ripemd.swapD]
theorem vars10_swapE (Y : Vector W 10) : vars10 (swap Y 4 9) = Spec.Ripemd.swapE (vars10 Y) := by
  simp [vars10, swap, Spec.Ripemd.swapE]

theorem vars8_add (st Y : Vector W 8) : vars8 (st.zipWith (· + ·) Y) =
    (Spec.Ripemd.add4 (vars8 st).1 (vars8 Y).1, Spec.Ripemd.add4 (vars8 st).2 (vars8 Y).2) := by
  simp [vars8, Spec.Ripemd.add4]
theorem vars10_add (st Y : Vector W 10) : vars10 (st.zipWith (· + ·) Y) =
    (Spec.Ripemd.add5 (vars10 st).1 (vars10 Y).1, Spec.Ripemd.add5 (vars10 st).2 (vars10 Y).2) := by
  simp [vars10, Spec.Ripemd.add5]

theorem compress256_eq (st : Vector W 8) :
    vars8 (compress256 st X) = Spec.Ripemd.compress256 X (vars8 st) := by
  unfold compress256 Spec.Ripemd.compress256
  simp only [vars8_add, vars8_swapD, vars8_swapC, vars8_swapB, vars8_swapA, vars8_round,
    round4_0, round4_1, round4_2, round4_3]

theorem compress320_eq (st : Vector W 10) :
    vars10 (compress320 st X) = Spec.Ripemd.compress320 X (vars10 st) := by
  unfold compress320 Spec.Ripemd.compress320
  simp only [vars10_add, vars10_swapE, vars10_swapD, vars10_swapC, vars10_swapB, vars10_swapA,
    vars10_round, round5_0, round5_1, round5_2, round5_3, round5_4]

end

/- Every line is a permutation of the chaining variables, whatever the block. -/

theorem rotr32_rotl (x : W) (n : Nat) (h : n < 32) : (Spec.Ripemd.rol x n).rotateRight n = x := by
  rw [← rol_eq x n h]
  apply BitVec.eq_of_getLsbD_eq
  intro i hi
  rw [BitVec.getLsbD_rotateRight, BitVec.getLsbD_rotateLeft, BitVec.getLsbD_rotateLeft,
    Nat.mod_eq_of_lt h]
  by_cases h1 : i < 32 - n <;> by_cases h2 : n + i < n <;>
    by_cases h3 : i - (32 - n) < n <;> simp [h1, h2, h3] <;> first | omega | (congr 1; omega) | skip
  all_goals (rw [decide_eq_true hi, Bool.true_and]; congr 1; omega)

theorem rotl32_rotr (x : W) (n : Nat) (h : n < 32) : Spec.Ripemd.rol (x.rotateRight n) n = x := by
  rw [← rol_eq _ n h]
  apply BitVec.eq_of_getLsbD_eq
  intro i hi
  rw [BitVec.getLsbD_rotateLeft, BitVec.getLsbD_rotateRight, BitVec.getLsbD_rotateRight,
    Nat.mod_eq_of_lt h]
  by_cases h1 : i < n <;> by_cases h2 : 32 - n + i < 32 - n <;>
    by_cases h3 : i - n < 32 - n <;> simp [h1, h2, h3] <;> first | omega | (congr 1; omega) | skip
  all_goals (rw [decide_eq_true hi, Bool.true_and]; congr 1; omega)

theorem step4_bijective (g : W → W → W → W) (x k : W) (n : Nat) (h : n < 32) :
    Function.Bijective (Spec.Ripemd.step4 g x k n) := by
  constructor
  · rintro ⟨a, b, c, d⟩ ⟨a', b', c', d'⟩ e
    simp only [Spec.Ripemd.step4, Prod.mk.injEq] at e
    obtain ⟨rfl, e2, rfl, rfl⟩ := e
    have := congrArg (·.rotateRight n) e2
    simp only [rotr32_rotl _ n h] at this
    rw [BitVec.add_left_inj, BitVec.add_left_inj, BitVec.add_left_inj] at this
    rw [this]
  · rintro ⟨a, b, c, d⟩
    refine ⟨(b.rotateRight n - k - x - g c d a, c, d, a), ?_⟩
    simp only [Spec.Ripemd.step4, BitVec.sub_add_cancel, rotl32_rotr _ n h]

theorem step5_bijective (g : W → W → W → W) (x k : W) (n : Nat) (h : n < 32) :
    Function.Bijective (Spec.Ripemd.step5 g x k n) := by
  constructor
  · rintro ⟨a, b, c, d, e⟩ ⟨a', b', c', d', e'⟩ he
    simp only [Spec.Ripemd.step5, Prod.mk.injEq] at he
    obtain ⟨rfl, e2, rfl, e3, rfl⟩ := he
    have e3 := congrArg (·.rotateRight 10) e3
    simp only [rotr32_rotl _ 10 (by omega)] at e3
    subst e3
    rw [BitVec.add_left_inj] at e2
    have := congrArg (·.rotateRight n) e2
    simp only [rotr32_rotl _ n h] at this
    rw [BitVec.add_left_inj, BitVec.add_left_inj, BitVec.add_left_inj] at this
    rw [this]
  · rintro ⟨a, b, c, d, e⟩
    refine ⟨((b - a).rotateRight n - k - x - g c (d.rotateRight 10) e, c, d.rotateRight 10, e, a), ?_⟩
    simp only [Spec.Ripemd.step5, BitVec.sub_add_cancel, rotl32_rotr _ n h, rotl32_rotr _ 10 (by omega)]

theorem foldl_bijective {α γ : Type} (f : α → γ → α) (l : List γ)
    (h : ∀ j ∈ l, Function.Bijective (fun a => f a j)) : Function.Bijective (fun a => l.foldl f a) := by
  induction l with
  | nil => exact Function.bijective_id
  | cons j l ih =>
    exact (ih fun j hj => h j (List.mem_cons_of_mem _ hj)).comp (h j List.mem_cons_self)

theorem shift_lt (j : Nat) (h : j < 80) : Spec.Ripemd.s j < 32 ∧ Spec.Ripemd.s' j < 32 := by
  obtain ⟨_, _, h1, h2, h3, h4, _, _⟩ := tables j h
  exact ⟨h1 ▸ h3, h2 ▸ h4⟩

section
variable (X : Nat → W) (start n : Nat) (h : start + n ≤ 80)
include h

theorem left4_bijective : Function.Bijective (Spec.Ripemd.left4 X start n) := by
  apply foldl_bijective
  intro j hj
  rw [List.mem_range'_1] at hj
  exact step4_bijective _ _ _ _ (shift_lt j (by omega)).1

theorem right4_bijective : Function.Bijective (Spec.Ripemd.right4 X start n) := by
  apply foldl_bijective
  intro j hj
  rw [List.mem_range'_1] at hj
  exact step4_bijective _ _ _ _ (shift_lt j (by omega)).2

theorem left5_bijective : Function.Bijective (Spec.Ripemd.left5 X start n) := by
  apply foldl_bijective
  intro j hj
  rw [List.mem_range'_1] at hj
  exact step5_bijective _ _ _ _ (shift_lt j (by omega)).1

theorem right5_bijective : Function.Bijective (Spec.Ripemd.right5 X start n) := by
  apply foldl_bijective
  intro j hj
  rw [List.mem_range'_1] at hj
  exact step5_bijective _ _ _ _ (shift_lt j (by omega)).2
end

end Verif.Ripemd
