import Mathlib.Algebra.Order.Ring.GeomSum
import Mathlib.Algebra.Order.Ring.Abs
import Mathlib.Algebra.Order.Ring.Int
import Mathlib.Tactic.Linarith
import Verif.Proof.Pedersen
import Verif.Props.Util
/- C31-C35, C57: the Pedersen hash. -/
namespace Verif.Props

open Spec

variable {G : Type} [AddCommGroup G]

/-! Concrete parameters for the examples: the Jubjub sizes with a toy group, and small ones. -/

/-- Order of the Jubjub prime-order subgroup. -/
def jubjubOrder : Nat := 6554484396890773809930967563523245729705921265872317281365359162392183254199

/-- Jubjub sizes (63 chunks per segment, 252-bit integers) over `ZMod r` as the group. -/
def jubjubToy : PedersenParams (ZMod jubjubOrder) := ⟨jubjubOrder, 63, 252, fun i => 3 * i + 1⟩

theorem jubjubToy_valid : jubjubToy.Valid where
  r := by decide
  c := by decide
  width := by decide
  order i := by
    show jubjubOrder • _ = _
    rw [nsmul_eq_mul, ZMod.natCast_self, zero_mul]

/-- A small instance: order 1009, two chunks per segment. -/
def smallToy : PedersenParams (ZMod 1009) := ⟨1009, 2, 8, fun i => 3 * i + 1⟩

theorem smallToy_valid : smallToy.Valid where
  r := by decide
  c := by decide
  width := by decide
  order i := by
    show 1009 • _ = _
    rw [nsmul_eq_mul, show ((1009 : Nat) : ZMod 1009) = 0 from ZMod.natCast_self 1009, zero_mul]

/-! ### C31, C32 -/

theorem pedersen_padded (c : Nat) (base : Nat → G) (m : List Bool) (h : m ≠ []) :
    Spec.pedersen c base (padded m) = Spec.pedersen c base m := by
  unfold Spec.pedersen
  rw [padded_padded]
  unfold padded
  rw [if_neg h]

/-- C31: the digest of a non-empty bit string is the Zcash Pedersen hash to a point; the padding loop ends
within three iterations. -/
theorem C31_zcash (P : PedersenParams G) (V : P.Valid) (m : List Bool) (hm : m ≠ [])
    (h64 : m.length + 3 < 2 ^ 64) (hseg : m.length + 3 ≤ 3 * (P.c * 2 ^ 32)) (fuel : Nat) (hf : 3 ≤ fuel) :
    pedersenHash P fuel m = some (Spec.pedersen P.c P.base m) := by
  have h := (PedersenRep.init P V).feed V m (by simp; omega) (Or.inl (by simp; omega))
  obtain ⟨a, e, -⟩ := h.process V (by simpa using h64) (Or.inl (by simpa using hseg)) fuel hf
  unfold pedersenHash
  rw [e, List.nil_append, pedersen_padded _ _ _ hm]
  simp

/-- C31: the empty bit string is hashed like three zero bits. -/
theorem C31_empty (P : PedersenParams G) (V : P.Valid) (fuel : Nat) (hf : 3 ≤ fuel) :
    pedersenHash P fuel [] = some (Spec.pedersen P.c P.base [false, false, false]) := by
  have hc := V.c
  obtain ⟨a, e, -⟩ := (PedersenRep.init P V).process V (by simp) (Or.inl (by simp; omega)) fuel hf
  unfold pedersenHash
  rw [List.foldl_nil, e]
  simp [padded]

/-- C31 for all Jubjub sizes up to the largest input with distinct base points. -/
example (m : List Bool) (hm : m ≠ []) (h : m.length ≤ 3 * 63 * 2 ^ 32 - 3) :
    pedersenHash jubjubToy 3 m = some (Spec.pedersen 63 jubjubToy.base m) := by
  have hc : jubjubToy.c = 63 := rfl
  exact C31_zcash jubjubToy jubjubToy_valid m hm (by omega) (by rw [hc]; omega) 3 (by omega)

/-- Three chunks in two segments: `(2 + 16 * 4) * 1 + (-1) * 4`. -/
example : pedersenHash smallToy 3 [true, false, false, true, true, false, false, false, true] = some 62 := by
  decide +kernel

/-- The bits a call feeds. -/
def pedersenBits : PedersenOp → List Bool
  | .range x => x
  | .iterators x => x
  | .extract => []

theorem outputs_feed (c : Nat) (base : Nat → G) (ops : List PedersenOp) (hne : PedersenOp.extract ∉ ops)
    (tail : List PedersenOp) : ∀ (m : List Bool) (extra : G), pedersenOutputs c base m extra (ops ++ tail) =
      pedersenOutputs c base (m ++ ops.flatMap pedersenBits) extra tail := by
  induction ops with
  | nil => intro m extra; simp
  | cons op ops ih =>
    intro m extra
    have ih := ih (fun h => hne (List.mem_cons_of_mem _ h))
    cases op with
    | range x => simp [pedersenOutputs, ih, pedersenBits]
    | iterators x => simp [pedersenOutputs, ih, pedersenBits]
    | extract => exact absurd List.mem_cons_self hne

/-- C32: feeding the bits in any pieces, through ranges or iterators, and extracting gives the digest of the
concatenation. -/
theorem C32_incremental (P : PedersenParams G) (V : P.Valid) (fuel : Nat) (hf : 3 ≤ fuel)
    (ops : List PedersenOp) (hne : PedersenOp.extract ∉ ops) (hm : ops.flatMap pedersenBits ≠ [])
    (h64 : (ops.map PedersenOp.cost).sum + 3 < 2 ^ 64)
    (hseg : (ops.map PedersenOp.cost).sum + 3 ≤ 3 * (P.c * 2 ^ 32)) :
    ∃ a, (PedersenAcc.init P).run P fuel [] (ops ++ [.extract]) =
      some (a, [Spec.pedersen P.c P.base (ops.flatMap pedersenBits)]) := by
  obtain ⟨a, e⟩ := (PedersenRep.init P V).run V fuel hf (ops ++ [.extract]) []
    (by simpa [PedersenOp.cost] using h64) (Or.inl (by simpa [PedersenOp.cost] using hseg))
  refine ⟨a, ?_⟩
  rw [e, outputs_feed _ _ _ hne]
  simp only [pedersenOutputs, List.nil_append, add_zero]
  rw [pedersen_padded _ _ _ hm]

example : ((PedersenAcc.init smallToy).run smallToy 3 [] [.range [true], .iterators [false, false, true],
    .range [], .range [true, false, false, false, true], .extract]).map Prod.snd = some [62] := by
  decide +kernel

/-! ### C34 -/

/-- A chunk list as the hash sees it. -/
def Chunks (seg : List (List Bool)) : Prop := ∀ x ∈ seg, x.length = 3

instance (seg : List (List Bool)) : Decidable (Chunks seg) :=
  inferInstanceAs (Decidable (∀ x ∈ seg, x.length = 3))

theorem scalar_cons (x : List Bool) (seg : List (List Bool)) :
    segmentScalar (x :: seg) = enc x + 16 * segmentScalar seg := by
  unfold segmentScalar
  rw [List.length_cons, List.range_succ_eq_map, List.map_cons, List.sum_cons, List.map_map,
    ← List.sum_map_mul_left]
  congr 1
  · simp
  · congr 1
    apply List.map_congr_left
    intro j _
    simp only [Function.comp, List.getD_cons_succ]
    rw [show 4 * (j + 1) = 4 * j + 4 by ring, pow_add]
    ring

theorem enc_facts (x : List Bool) (h : x.length = 3) : enc x ≠ 0 ∧ -4 ≤ enc x ∧ enc x ≤ 4 := by
  match x, h with
  | [a, b, c], _ => revert a b c; decide

theorem enc_injective (x y : List Bool) (hx : x.length = 3) (hy : y.length = 3) (h : enc x = enc y) : x = y := by
  match x, hx, y, hy with
  | [a, b, c], _, [d, e, f], _ => revert a b c d e f; decide

theorem scalar_injective (seg : List (List Bool)) : ∀ seg', Chunks seg → Chunks seg' →
    segmentScalar seg = segmentScalar seg' → seg = seg' := by
  induction seg with
  | nil =>
    intro seg' _ h' e
    cases seg' with
    | nil => rfl
    | cons y ys =>
      rw [scalar_cons] at e
      have := enc_facts y (h' y List.mem_cons_self)
      simp only [segmentScalar, List.length_nil, List.range_zero, List.map_nil, List.sum_nil] at e
      omega
  | cons x xs ih =>
    intro seg' h h' e
    have hx := enc_facts x (h x List.mem_cons_self)
    cases seg' with
    | nil =>
      rw [scalar_cons] at e
      simp only [segmentScalar, List.length_nil, List.range_zero, List.map_nil, List.sum_nil] at e
      omega
    | cons y ys =>
      rw [scalar_cons, scalar_cons] at e
      have hy := enc_facts y (h' y List.mem_cons_self)
      have e1 : enc x = enc y := by omega
      rw [enc_injective x y (h x List.mem_cons_self) (h' y List.mem_cons_self) e1,
        ih ys (fun z hz => h z (List.mem_cons_of_mem _ hz)) (fun z hz => h' z (List.mem_cons_of_mem _ hz))
          (by omega)]

theorem scalar_bound (seg : List (List Bool)) (h : Chunks seg) :
    15 * |segmentScalar seg| ≤ 4 * (16 ^ seg.length - 1) := by
  induction seg with
  | nil => simp [segmentScalar]
  | cons x xs ih =>
    have hx := enc_facts x (h x List.mem_cons_self)
    have ih := ih fun z hz => h z (List.mem_cons_of_mem _ hz)
    rw [scalar_cons, List.length_cons, pow_succ]
    have h1 : |enc x + 16 * segmentScalar xs| ≤ 4 + 16 * |segmentScalar xs| := by
      refine (abs_add_le _ _).trans ?_
      rw [abs_mul]
      have : |enc x| ≤ 4 := abs_le.2 ⟨hx.2.1, hx.2.2⟩
      have h16 : |(16 : Int)| = 16 := rfl
      rw [h16]; omega
    omega

/-- The bound of the Zcash specification: `4 * (2^(4 c) - 1) / 15 <= (r - 1) / 2`. -/
def Admissible (r c : Nat) : Prop := 4 * ((2 ^ (4 * c) - 1) / 15) ≤ (r - 1) / 2

instance (r c : Nat) : Decidable (Admissible r c) :=
  inferInstanceAs (Decidable (4 * ((2 ^ (4 * c) - 1) / 15) ≤ (r - 1) / 2))

theorem scalar_small {r c : Nat} (hr : 0 < r) (hc : Admissible r c) (seg : List (List Bool)) (h : Chunks seg)
    (hl : seg.length ≤ c) : 2 * |segmentScalar seg| < r := by
  have hb := scalar_bound seg h
  have hmono : (16 : Int) ^ seg.length ≤ 16 ^ c := pow_le_pow_right₀ (by norm_num) hl
  unfold Admissible at hc
  have h15 : 15 ∣ 2 ^ (4 * c) - 1 := by
    rw [pow_mul]
    simpa using Nat.sub_dvd_pow_sub_pow 16 1 c
  obtain ⟨k, hk⟩ := h15
  rw [hk, Nat.mul_div_cancel_left _ (by omega)] at hc
  have hpos : 1 ≤ 2 ^ (4 * c) := Nat.one_le_two_pow
  have hk' : (16 : Int) ^ c = 15 * k + 1 := by
    have : (2 ^ (4 * c) : Nat) = 15 * k + 1 := by omega
    have h2 : ((2 ^ (4 * c) : Nat) : Int) = 16 ^ c := by
      push_cast; rw [pow_mul]; norm_num
    rw [← h2, this]; push_cast; rfl
  omega

/-- C34: chunk sequences of at most `c` chunks with equal scalars modulo the group order are equal. -/
theorem C34_encoding_injective {r c : Nat} (hr : 0 < r) (hc : Admissible r c) (seg seg' : List (List Bool))
    (h : Chunks seg) (h' : Chunks seg') (hl : seg.length ≤ c) (hl' : seg'.length ≤ c)
    (e : (segmentScalar seg : ZMod r) = (segmentScalar seg' : ZMod r)) : seg = seg' := by
  apply scalar_injective seg seg' h h'
  obtain ⟨k, hk⟩ := (ZMod.intCast_eq_intCast_iff_dvd_sub _ _ _).1 e
  have h1 := abs_le.1 (le_refl |segmentScalar seg|)
  have h2 := abs_le.1 (le_refl |segmentScalar seg'|)
  have s1 := scalar_small hr hc seg h hl
  have s2 := scalar_small hr hc seg' h' hl'
  have hk0 : k = 0 := by
    by_contra hne
    rcases lt_or_gt_of_ne hne with hneg | hpos
    · have : (r : Int) * k ≤ r * (-1) := Int.mul_le_mul_of_nonneg_left (by omega) (by omega)
      omega
    · have : (r : Int) * 1 ≤ r * k := Int.mul_le_mul_of_nonneg_left (by omega) (by omega)
      omega
  rw [hk0, mul_zero] at hk
  omega

/-- C34: no scalar of a non-empty segment vanishes modulo the group order. -/
theorem C34_nonzero {r c : Nat} (hr : 0 < r) (hc : Admissible r c) (seg : List (List Bool)) (h : Chunks seg)
    (hl : seg.length ≤ c) (hne : seg ≠ []) : (segmentScalar seg : ZMod r) ≠ 0 := by
  intro e
  apply hne
  apply C34_encoding_injective hr hc seg [] h (by intro x hx; cases hx) hl (by simp)
  rw [e]; simp [segmentScalar]

theorem jubjub_admissible : Admissible jubjubOrder 63 := by decide +kernel

example : (segmentScalar [[true, false, true], [false, false, false]] : ZMod jubjubOrder) ≠
    segmentScalar [[true, false, true]] := fun e =>
  absurd (C34_encoding_injective (by decide) jubjub_admissible _ _ (by decide) (by decide) (by decide)
    (by decide) e) (by decide)

/-! ### C33 -/

theorem length_of_mem_blocks {m x : List Bool} (h : x ∈ blocks 3 m) : x.length = 3 := by
  unfold blocks at h
  obtain ⟨i, hi, rfl⟩ := List.mem_map.1 h
  have hi : i < m.length / 3 := List.mem_range.1 hi
  unfold block
  rw [List.length_take, List.length_drop]; omega

theorem segment_facts (c : Nat) (m : List Bool) (i : Nat) :
    Chunks (segment c (blocks 3 m) i) ∧ (segment c (blocks 3 m) i).length ≤ c := by
  constructor
  · intro x hx
    exact length_of_mem_blocks (List.mem_of_mem_drop (List.mem_of_mem_take hx))
  · unfold segment; rw [List.length_take]; omega

theorem last_nonempty (c : Nat) (hc : 0 < c) (m : List Bool) :
    segment c (blocks 3 (padded m)) (segmentCount c (blocks 3 (padded m)) - 1) ≠ [] := by
  obtain ⟨h3, h0, -⟩ := length_padded m
  intro e
  have hl := congrArg List.length e
  unfold segment segmentCount at hl
  rw [List.length_take, List.length_drop, length_blocks, List.length_nil] at hl
  have h1 : 0 < (padded m).length / 3 := by omega
  rw [show (padded m).length / 3 + c - 1 = (padded m).length / 3 - 1 + c by omega, Nat.add_div_right _ hc,
    Nat.add_sub_cancel] at hl
  have := Nat.div_mul_le_self ((padded m).length / 3 - 1) c
  omega

/-- C33, the true part: the first extraction after any updates returns the digest; the second one returns
it with the term of the last segment added once more, the third with that term added twice, and so on. -/
theorem C33_repeat_partial (P : PedersenParams G) (V : P.Valid) (fuel : Nat) (hf : 3 ≤ fuel) (m : List Bool)
    (hm : m ≠ []) (n : Nat) (h64 : m.length + 3 * n < 2 ^ 64)
    (hseg : m.length + 3 * n ≤ 3 * (P.c * 2 ^ 32)) :
    ∃ a, (PedersenAcc.init P).run P fuel [] (.range m :: List.replicate n .extract) =
      some (a, (List.range n).map fun i => Spec.pedersen P.c P.base m + i • lastTerm P.c P.base m) := by
  have hcost : ((List.replicate n PedersenOp.extract).map PedersenOp.cost).sum = 3 * n := by
    simp [PedersenOp.cost, Nat.mul_comm]
  obtain ⟨a, e⟩ := (PedersenRep.init P V).run V fuel hf (.range m :: List.replicate n .extract) []
    (by rw [List.map_cons, List.sum_cons, hcost]; simp [PedersenOp.cost]; omega)
    (Or.inl (by rw [List.map_cons, List.sum_cons, hcost]; simp [PedersenOp.cost]; omega))
  refine ⟨a, ?_⟩
  rw [e]
  simp only [pedersenOutputs, List.nil_append]
  have key : ∀ (n : Nat) (m' : List Bool) (extra : G), padded m' = padded m →
      pedersenOutputs P.c P.base m' extra (List.replicate n .extract) =
        (List.range n).map fun i => Spec.pedersen P.c P.base m + (extra + i • lastTerm P.c P.base m) := by
    intro n
    induction n with
    | zero => intro m' extra _; rfl
    | succ n ih =>
      intro m' extra hm'
      have hp : padded (padded m') = padded m' := by
        have h0 : padded m' ≠ [] := List.length_pos_iff.1 (length_padded m').2.1
        rw [show padded (padded m') = pedersenPad (padded m') from if_neg h0, padded_padded]
      have hlast : lastTerm P.c P.base m' = lastTerm P.c P.base m := by unfold lastTerm; rw [hm']
      rw [List.replicate_succ, pedersenOutputs, ih _ _ (hp.trans hm'), List.range_succ_eq_map, List.map_cons,
        List.map_map, hm', pedersen_padded _ _ _ hm, hlast]
      congr 1
      · simp
      · apply List.map_congr_left
        intro i _
        simp only [Function.comp, succ_nsmul]
        abel
  rw [key n m 0 rfl]
  simp

/-- C33, exact form: the outputs of every history.  Each extraction returns the Pedersen hash of everything
supplied so far plus everything earlier extractions added twice, and leaves its own padding in the input. -/
theorem C33_history (P : PedersenParams G) (V : P.Valid) (fuel : Nat) (hf : 3 ≤ fuel) (ops : List PedersenOp)
    (h64 : (ops.map PedersenOp.cost).sum < 2 ^ 64)
    (hseg : (ops.map PedersenOp.cost).sum ≤ 3 * (P.c * 2 ^ 32)) :
    ∃ a, (PedersenAcc.init P).run P fuel [] ops = some (a, pedersenOutputs P.c P.base [] 0 ops) := by
  obtain ⟨a, e⟩ := (PedersenRep.init P V).run V fuel hf ops [] (by simpa using h64) (Or.inl (by simpa using hseg))
  exact ⟨a, by simpa using e⟩

/-- C33 is false, always: if the base points have order exactly `r` (nothing smaller kills them), the second
extraction differs from the first one for every message. -/
theorem C33_repeat_false (P : PedersenParams G) (V : P.Valid) (hadm : Admissible P.r P.c)
    (hord : ∀ i (n : Nat), n • P.base i = 0 → P.r ∣ n) (fuel : Nat) (hf : 3 ≤ fuel) (m : List Bool)
    (hm : m ≠ []) (h64 : m.length + 6 < 2 ^ 64) (hseg : m.length + 6 ≤ 3 * (P.c * 2 ^ 32)) :
    ∃ a g g', (PedersenAcc.init P).run P fuel [] [.range m, .extract, .extract] = some (a, [g, g']) ∧
      g ≠ g' := by
  obtain ⟨a, e⟩ := C33_repeat_partial P V fuel hf m hm 2 (by omega) (by omega)
  refine ⟨a, _, _, e, ?_⟩
  intro heq
  simp only [Nat.cast_ofNat, zero_nsmul, add_zero, one_nsmul] at heq
  have hz : lastTerm P.c P.base m = 0 := by
    have := add_left_cancel (a := Spec.pedersen P.c P.base m) (b := 0) (c := lastTerm P.c P.base m)
      (by rw [add_zero]; exact heq)
    exact this.symm
  have hc := V.c
  obtain ⟨f1, f2⟩ := segment_facts P.c (padded m) (segmentCount P.c (blocks 3 (padded m)) - 1)
  have hnz := C34_nonzero V.r hadm _ f1 f2 (last_nonempty P.c (by omega) m)
  unfold lastTerm at hz
  rw [← val_smul V.r (V.order _) (segmentScalar _ : ZMod P.r) _ rfl] at hz
  obtain hdvd := hord _ _ hz
  haveI : NeZero P.r := ⟨by have := V.r; omega⟩
  have hlt := ZMod.val_lt (segmentScalar (segment P.c (blocks 3 (padded m))
    (segmentCount P.c (blocks 3 (padded m)) - 1)) : ZMod P.r)
  have h0 := Nat.eq_zero_of_dvd_of_lt hdvd hlt
  exact hnz ((ZMod.val_eq_zero _).1 h0)

example : ((PedersenAcc.init smallToy).run smallToy 3 [] [.range [true, false, false, true, true, false,
    false, false, true], .extract, .extract]).map Prod.snd = some [62, 58] := by decide +kernel

/-! ### C35 -/

/-- The left side of the bound: `k` times the geometric sum with ratio `2^k` (`k = chunk_bits + 1`). -/
def boundValue (k c : Nat) : Nat := k * ∑ j ∈ Finset.range c, 2 ^ (k * j)

theorem geom_value (k c : Nat) (hk : 1 ≤ k) :
    (2 ^ (c * k) - 1) / (2 ^ k - 1) = ∑ j ∈ Finset.range c, 2 ^ (k * j) := by
  have h2 : 2 ≤ 2 ^ k := by
    calc 2 = 2 ^ 1 := rfl
      _ ≤ 2 ^ k := Nat.pow_le_pow_right (by omega) hk
  rw [Nat.mul_comm c k, pow_mul, ← Nat.geomSum_eq h2]
  simp only [pow_mul]

theorem geom_mul (k c : Nat) (hk : 1 ≤ k) :
    (2 ^ k - 1) * ∑ j ∈ Finset.range c, 2 ^ (k * j) = 2 ^ (c * k) - 1 := by
  have := Nat.geomSum_eq (m := 2 ^ k) (by
    calc 2 = 2 ^ 1 := rfl
      _ ≤ 2 ^ k := Nat.pow_le_pow_right (by omega) hk) c
  simp only [← pow_mul] at this
  rw [this, Nat.mul_comm c k]
  apply Nat.mul_div_cancel'
  rw [pow_mul]
  simpa using Nat.sub_dvd_pow_sub_pow (2 ^ k) 1 c

theorem testValue_eq (bound k c : Nat) (hk : 1 ≤ k) (hb : 2 ^ (c * k) ≤ bound) (hb' : 2 ^ k ≤ bound) :
    pedersenTestValue bound k c = some (boundValue k c) := by
  have p1 := C50_no_overflow bound 2 (c * k) (by omega) hb
  have p2 := C50_no_overflow bound 2 k (by omega) hb'
  unfold boundedMul at p1 p2
  unfold pedersenTestValue
  rw [p1, p2]
  have hv : boundValue k c ≤ bound := by
    unfold boundValue
    have h1 : k ≤ 2 ^ k - 1 := by have := Nat.lt_two_pow_self (n := k); omega
    have h2 := Nat.mul_le_mul_right (∑ j ∈ Finset.range c, 2 ^ (k * j)) h1
    rw [geom_mul k c hk] at h2
    omega
  show (if k * ((2 ^ (c * k) - 1) / (2 ^ k - 1)) ≤ bound then some (k * ((2 ^ (c * k) - 1) / (2 ^ k - 1)))
    else none) = _
  rw [geom_value k c hk]
  exact if_pos hv

theorem boundValue_lt (k c : Nat) (hk : 1 ≤ k) : boundValue k c < boundValue k (c + 1) := by
  unfold boundValue
  rw [Finset.sum_range_succ, Nat.mul_add]
  have : 0 < k * 2 ^ (k * c) := Nat.mul_pos hk (Nat.two_pow_pos _)
  omega

theorem boundValue_mono (k : Nat) (hk : 1 ≤ k) {c c' : Nat} (h : c ≤ c') : boundValue k c ≤ boundValue k c' := by
  induction h with
  | refl => exact Nat.le_refl _
  | step _ ih => exact Nat.le_trans ih (Nat.le_of_lt (boundValue_lt k _ hk))

theorem boundValue_ge (k c : Nat) (hk : 1 ≤ k) : c ≤ boundValue k c := by
  induction c with
  | zero => omega
  | succ c ih => have := boundValue_lt k c hk; omega

/-- C35: for every modulus and chunk width, in an integer type that holds `modulus * 4^(chunk_bits + 1)`, no
intermediate value overflows, the loop ends, and the result is the largest `c` that satisfies the bound. -/
theorem C35_largest (bound modulus chunkBits : Nat) (hm : 0 < modulus)
    (hb : modulus * 4 ^ (chunkBits + 1) ≤ bound) :
    ∃ c, (∀ fuel, c ≤ fuel → chunksPerBasePoint bound modulus chunkBits fuel = some (some c)) ∧
      boundValue (chunkBits + 1) c ≤ (modulus - 1) / 2 ∧
      ∀ c', boundValue (chunkBits + 1) c' ≤ (modulus - 1) / 2 → c' ≤ c := by
  generalize hk : chunkBits + 1 = k at *
  have hk1 : 1 ≤ k := by omega
  generalize hU : (modulus - 1) / 2 = U
  have hUm : U < modulus := by omega
  -- the largest c
  obtain ⟨c, hc1, hc2⟩ : ∃ c, boundValue k c ≤ U ∧ U < boundValue k (c + 1) := by
    have hex : ∃ n, U < boundValue k (n + 1) := ⟨U, by
      have := boundValue_ge k (U + 1) hk1; omega⟩
    classical
    refine ⟨Nat.find hex, ?_, Nat.find_spec hex⟩
    rcases Nat.eq_zero_or_pos (Nat.find hex) with h0 | h0
    · rw [h0]; simp [boundValue]
    · have := Nat.find_min hex (show Nat.find hex - 1 < Nat.find hex by omega)
      rw [show Nat.find hex - 1 + 1 = Nat.find hex by omega] at this
      omega
  have h4 : (4 : Nat) ^ k = 2 ^ k * 2 ^ k := by
    rw [show (4 : Nat) = 2 * 2 by rfl, Nat.mul_pow]
  have hpow2 : 1 ≤ 2 ^ k := Nat.one_le_two_pow
  have hkb : 2 ^ k ≤ bound := by
    have h1 : 2 ^ k * 1 ≤ 2 ^ k * 2 ^ k := Nat.mul_le_mul_left _ hpow2
    have h2 : 1 * 4 ^ k ≤ modulus * 4 ^ k := Nat.mul_le_mul_right _ hm
    omega
  have hpow : ∀ i, i ≤ c + 1 → 2 ^ (i * k) ≤ bound := by
    intro i hi
    refine Nat.le_trans (Nat.pow_le_pow_right (by omega) (Nat.mul_le_mul_right k hi)) ?_
    rcases Nat.eq_zero_or_pos c with h0 | h0
    · rw [h0]; simpa using hkb
    · obtain ⟨d, rfl⟩ : ∃ d, c = d + 1 := ⟨c - 1, by omega⟩
      have hd : 2 ^ (k * d) ≤ modulus := by
        have : 1 * 2 ^ (k * d) ≤ boundValue k (d + 1) := by
          unfold boundValue
          rw [Finset.sum_range_succ, Nat.mul_add]
          have := Nat.mul_le_mul_right (2 ^ (k * d)) hk1
          omega
        omega
      calc 2 ^ ((d + 1 + 1) * k) = 2 ^ (k * d) * (2 ^ k * 2 ^ k) := by
            rw [← Nat.pow_add, ← Nat.pow_add]; congr 1; ring
        _ ≤ modulus * (2 ^ k * 2 ^ k) := Nat.mul_le_mul_right _ hd
        _ ≤ bound := by rw [← h4]; exact hb
  refine ⟨c, ?_, hc1, ?_⟩
  · intro fuel hf
    unfold chunksPerBasePoint
    rw [hk, hU]
    have loop : ∀ (fuel i : Nat), 1 ≤ i → i ≤ c + 1 → c + 1 ≤ i + fuel →
        chunksLoop bound k U fuel i (i - 1) = some (some c) := by
      intro fuel
      induction fuel with
      | zero =>
        intro i h1 h2 h3
        have hi : i = c + 1 := by omega
        subst hi
        unfold chunksLoop
        rw [testValue_eq bound k (c + 1) hk1 (hpow _ (by omega)) hkb]
        show (if boundValue k (c + 1) ≤ U then some none else some (some (c + 1 - 1))) = _
        rw [if_neg (by omega), Nat.add_sub_cancel]
      | succ fuel ih =>
        intro i h1 h2 h3
        unfold chunksLoop
        rw [testValue_eq bound k i hk1 (hpow _ h2) hkb]
        show (if boundValue k i ≤ U then chunksLoop bound k U fuel (i + 1) i else some (some (i - 1))) = _
        by_cases hi : i = c + 1
        · subst hi
          rw [if_neg (by omega), Nat.add_sub_cancel]
        · have := boundValue_mono k hk1 (show i ≤ c by omega)
          rw [if_pos (by omega)]
          exact ih (i + 1) (by omega) (by omega) (by omega)
    exact loop fuel 1 (by omega) (by omega) (by omega)
  · intro c' h'
    by_contra hlt
    have := boundValue_mono k hk1 (show c + 1 ≤ c' by omega)
    omega

/-- For chunks of three bits the bound is the one of the specification (`Admissible`). -/
theorem C35_zcash_bound (r c : Nat) : boundValue 4 c ≤ (r - 1) / 2 ↔ Admissible r c := by
  unfold Admissible boundValue
  rw [← geom_value 4 c (by omega), Nat.mul_comm c 4]
  rfl

/-- C35 for Jubjub: 63 chunks (integers of 504 bits). -/
theorem C35_jubjub (fuel : Nat) (hf : 63 ≤ fuel) :
    chunksPerBasePoint (2 ^ 504 - 1) jubjubOrder 3 fuel = some (some 63) := by
  obtain ⟨c, h1, h2, h3⟩ := C35_largest (2 ^ 504 - 1) jubjubOrder 3 (by decide) (by decide +kernel)
  have hlow : 63 ≤ c := h3 63 ((C35_zcash_bound _ _).2 jubjub_admissible)
  have hhigh : c < 64 := by
    by_contra hge
    have := boundValue_mono 4 (by omega) (show 64 ≤ c by omega)
    have h64 : ¬ Admissible jubjubOrder 64 := by decide +kernel
    exact h64 ((C35_zcash_bound _ _).1 (Nat.le_trans this h2))
  have hc : c = 63 := by omega
  subst hc
  exact h1 fuel hf

/-! ### C57 -/

theorem blocks_flatten (m : List Bool) (h : 3 ∣ m.length) : (blocks 3 m).flatten = m := by
  obtain ⟨k, hk⟩ := h
  induction k generalizing m with
  | zero =>
    have : m = [] := List.length_eq_zero_iff.1 (by omega)
    subst this; rfl
  | succ k ih =>
    have h1 : m = m.take 3 ++ m.drop 3 := (List.take_append_drop 3 m).symm
    have h2 : (m.take 3).length = 3 := by rw [List.length_take]; omega
    have h3 : blocks 3 m = blocks 3 (m.take 3) ++ blocks 3 (m.drop 3) := by
      rw [← blocks_append (by omega) ⟨1, by omega⟩, ← h1]
    rw [h3, blocks_single (by omega) h2, List.flatten_append,
      ih (m.drop 3) (by rw [List.length_drop]; omega)]
    simp

theorem segments_determine (c : Nat) (hc : 0 < c) (l l' : List (List Bool))
    (h : ∀ i, segment c l i = segment c l' i) : l = l' := by
  apply List.ext_getElem?
  intro n
  have hdiv := Nat.div_add_mod n c
  have hm := Nat.mod_lt n hc
  have := congrArg (fun s => s[n % c]?) (h (n / c))
  simp only [segment, List.getElem?_take, if_pos hm, List.getElem?_drop] at this
  rw [Nat.mul_comm, hdiv] at this
  exact this

theorem segment_beyond (c : Nat) (hc : 0 < c) (l : List (List Bool)) (i : Nat) (hi : segmentCount c l ≤ i) :
    segment c l i = [] := by
  unfold segment
  rw [List.drop_of_length_le, List.take_nil]
  unfold segmentCount at hi
  have h1 := Nat.lt_div_mul_add (a := l.length + c - 1) hc
  have h2 : (l.length + c - 1) / c * c ≤ i * c := Nat.mul_le_mul_right _ hi
  omega

/-- C57: a collision between two inputs whose paddings differ gives a non-trivial relation
`a_0 I_0 + … + a_(n-1) I_(n-1) = 0` between the base points: the coefficients are the differences of the segment
scalars of the two inputs, and not all of them are divisible by the group order. -/
theorem C57_collision_relation (P : PedersenParams G) (V : P.Valid) (hadm : Admissible P.r P.c)
    (fuel : Nat) (hf : 3 ≤ fuel) (m m' : List Bool) (hm : m ≠ []) (hm' : m' ≠ [])
    (h64 : m.length + 3 < 2 ^ 64) (hseg : m.length + 3 ≤ 3 * (P.c * 2 ^ 32))
    (h64' : m'.length + 3 < 2 ^ 64) (hseg' : m'.length + 3 ≤ 3 * (P.c * 2 ^ 32))
    (hne : pedersenPad m ≠ pedersenPad m') (e : pedersenHash P fuel m = pedersenHash P fuel m') :
    let l := blocks 3 (pedersenPad m)
    let l' := blocks 3 (pedersenPad m')
    let n := max (segmentCount P.c l) (segmentCount P.c l')
    let a : Nat → Int := fun i => segmentScalar (segment P.c l i) - segmentScalar (segment P.c l' i)
    (∃ i < n, ¬ (P.r : Int) ∣ a i) ∧ ∑ i ∈ Finset.range n, a i • P.base i = 0 := by
  intro l l' n a
  rw [C31_zcash P V m hm h64 hseg fuel hf, C31_zcash P V m' hm' h64' hseg' fuel hf] at e
  have e := Option.some.inj e
  have hc := V.c
  unfold Spec.pedersen at e
  have hl : blocks 3 (pedersenPad m) = l := rfl
  have hl' : blocks 3 (pedersenPad m') = l' := rfl
  rw [hl, hl'] at e
  have hll : l ≠ l' := by
    intro h
    have hp : padded m = pedersenPad m := if_neg hm
    have hp' : padded m' = pedersenPad m' := if_neg hm'
    apply hne
    rw [← blocks_flatten (pedersenPad m) (hp ▸ (length_padded m).1),
      ← blocks_flatten (pedersenPad m') (hp' ▸ (length_padded m').1), hl, hl', h]
  have extend : ∀ (l : List (List Bool)) (n : Nat), segmentCount P.c l ≤ n →
      ∑ i ∈ Finset.range (segmentCount P.c l), segmentScalar (segment P.c l i) • P.base i =
        ∑ i ∈ Finset.range n, segmentScalar (segment P.c l i) • P.base i := by
    intro l n hn
    apply Finset.sum_subset (Finset.range_mono hn)
    intro i _ hi
    have hi : segmentCount P.c l ≤ i := by
      by_contra hlt
      exact hi (Finset.mem_range.2 (by omega))
    rw [segment_beyond P.c (by omega) l i hi]
    simp [segmentScalar]
  refine ⟨?_, ?_⟩
  · by_contra hall
    push Not at hall
    apply hll
    apply segments_determine P.c (by omega)
    intro i
    by_cases hi : i < max (segmentCount P.c l) (segmentCount P.c l')
    · obtain ⟨f1, f2⟩ := segment_facts P.c (pedersenPad m) i
      obtain ⟨f1', f2'⟩ := segment_facts P.c (pedersenPad m') i
      rw [hl] at f1 f2
      rw [hl'] at f1' f2'
      apply C34_encoding_injective V.r hadm _ _ f1 f1' f2 f2'
      apply ((ZMod.intCast_eq_intCast_iff_dvd_sub _ _ _).2 ?_).symm
      exact hall i hi
    · rw [segment_beyond P.c (by omega) l i (by omega), segment_beyond P.c (by omega) l' i (by omega)]
  · show ∑ i ∈ Finset.range (max (segmentCount P.c l) (segmentCount P.c l')),
      (segmentScalar (segment P.c l i) - segmentScalar (segment P.c l' i)) • P.base i = 0
    simp only [sub_smul]
    rw [Finset.sum_sub_distrib, ← extend l _ (Nat.le_max_left _ _), ← extend l' _ (Nat.le_max_right _ _), e,
      sub_self]

/-- Messages that differ only in trailing zeros up to the chunk border do collide. -/
example : pedersenHash smallToy 3 [true] = pedersenHash smallToy 3 [true, false] := by decide +kernel

/-- A collision of the small instance (whose base points are multiples of each other) that meets the
hypotheses of C57: `(3 + 16) * 1 + 1 * 4 = (-1 + 16) * 1 + 2 * 4`. -/
example : Admissible smallToy.r smallToy.c ∧
    pedersenPad [false, true, false, false, false, false, false, false] ≠
      pedersenPad [false, false, true, false, false, false, true] ∧
    pedersenHash smallToy 3 [false, true, false, false, false, false, false, false] =
      pedersenHash smallToy 3 [false, false, true, false, false, false, true] := by decide +kernel

example := C33_repeat_partial smallToy smallToy_valid 3 (by decide) [true, false, false, true] (by decide) 5
  (by decide) (by decide)

example := C33_history smallToy smallToy_valid 3 (by decide)
  [.range [true], .extract, .iterators [false, false, true], .extract, .extract] (by decide) (by decide)

example : (segmentScalar [[true, false, true], [false, false, false]] : ZMod jubjubOrder) ≠ 0 :=
  C34_nonzero (by decide) jubjub_admissible _ (by decide) (by decide) (by decide)

/-- A modulus of 1009: two chunks. -/
example : chunksPerBasePoint 258304 1009 3 7 = some (some 2) := by
  obtain ⟨c, h, h1, h2⟩ := C35_largest 258304 1009 3 (by decide) (by decide)
  have : 2 ≤ c := h2 2 (by decide)
  have : c < 3 := by
    by_contra hc
    have : boundValue 4 3 ≤ boundValue 4 c := Nat.mul_le_mul_left _
      (Finset.sum_le_sum_of_subset (Finset.range_mono (by omega)))
    exact absurd (le_trans this h1) (by decide)
  obtain rfl : c = 2 := by omega
  exact h 7 (by decide)

end Verif.Props
