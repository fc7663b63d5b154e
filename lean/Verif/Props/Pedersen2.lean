import Verif.Props.Pedersen
/- C87: Pedersen inputs of more than 2^32 segments. -/
namespace Verif.Props

open Spec

variable {G : Type} [AddCommGroup G]

/-- The parameters with the base points the code uses: the segment index is a `uint32_t`. -/
def wrappedBase (P : PedersenParams G) : PedersenParams G :=
  { P with base := fun i => P.base (i % 2 ^ 32) }

theorem wrappedBase_valid (P : PedersenParams G) (V : P.Valid) : (wrappedBase P).Valid :=
  ⟨V.r, V.c, V.width, fun i => V.order (i % 2 ^ 32)⟩

theorem wrappedBase_bound (P : PedersenParams G) (n : Nat) : SegBound (wrappedBase P) n := by
  right
  intro i
  show P.base (i % 2 ^ 32 % 2 ^ 32) = P.base (i % 2 ^ 32)
  rw [Nat.mod_mod]

theorem wrappedBase_update (P : PedersenParams G) (a : PedersenAcc G P.r) (b : Bool) :
    PedersenAcc.update (wrappedBase P) a b = PedersenAcc.update P a b := by
  unfold PedersenAcc.update PedersenAcc.newSegment PedersenAcc.updateNewSegment PedersenAcc.updateResult
    PedersenAcc.updateCurrentSegment wrappedBase
  simp only [Nat.mod_mod]

theorem wrappedBase_padLoop (P : PedersenParams G) (fuel : Nat) : ∀ a : PedersenAcc G P.r,
    PedersenAcc.padLoop (wrappedBase P) fuel a = a.padLoop P fuel := by
  induction fuel with
  | zero => intro a; unfold PedersenAcc.padLoop; rfl
  | succ f ih =>
    intro a
    have e : PedersenAcc.padLoop (wrappedBase P) f (PedersenAcc.update (wrappedBase P) a false) =
        (a.update P false).padLoop P f :=
      (congrArg (fun x => PedersenAcc.padLoop (wrappedBase P) f x) (wrappedBase_update P a false)).trans (ih _)
    have e1 := PedersenAcc.padLoop.eq_def (wrappedBase P) (f + 1) a
    have e2 := PedersenAcc.padLoop.eq_def P (f + 1) a
    by_cases h : a.cached ≠ [] ∨ a.bitsSupplied = 0
    · exact (e1.trans (if_pos h)).trans (e.trans (e2.trans (if_pos h)).symm)
    · exact (e1.trans (if_neg h)).trans (e2.trans (if_neg h)).symm

theorem wrappedBase_process (P : PedersenParams G) (fuel : Nat) (a : PedersenAcc G P.r) :
    PedersenAcc.process (wrappedBase P) fuel a = a.process P fuel :=
  congrArg (fun x : Option (PedersenAcc G P.r) => (x.map fun a : PedersenAcc G P.r => a.updateResult P).map
    fun a : PedersenAcc G P.r => (a, a.result)) (wrappedBase_padLoop P fuel a)

theorem wrappedBase_run (P : PedersenParams G) (fuel : Nat) (ops : List PedersenOp) :
    ∀ (a : PedersenAcc G P.r) (out : List G),
      PedersenAcc.run (wrappedBase P) fuel a out ops = a.run P fuel out ops := by
  have hf : (PedersenAcc.update (wrappedBase P)) = (PedersenAcc.update P) :=
    funext fun a => funext fun b => wrappedBase_update P a b
  induction ops with
  | nil => intro a out; rfl
  | cons op ops ih =>
    intro a out
    cases op with
    | range x => simp only [PedersenAcc.run, PedersenAcc.call, Option.bind_some, hf]; exact ih _ _
    | iterators x => simp only [PedersenAcc.run, PedersenAcc.call, Option.bind_some, hf]; exact ih _ _
    | extract =>
      simp only [PedersenAcc.run, PedersenAcc.call]
      rw [wrappedBase_process]
      cases a.process P fuel with
      | none => rfl
      | some r => exact ih _ _

/-- C87, exact form: the outputs of every history of fewer than `2^64` bits, any number of segments: segment `i`
uses the base point of `i` modulo `2^32`. -/
theorem C87_history (P : PedersenParams G) (V : P.Valid) (fuel : Nat) (hf : 3 ≤ fuel) (ops : List PedersenOp)
    (h64 : (ops.map PedersenOp.cost).sum < 2 ^ 64) :
    ∃ a, (PedersenAcc.init P).run P fuel [] ops =
      some (a, pedersenOutputs P.c (fun i => P.base (i % 2 ^ 32)) [] 0 ops) := by
  obtain ⟨a, e⟩ := (PedersenRep.init (wrappedBase P) (wrappedBase_valid P V)).run (wrappedBase_valid P V) fuel hf
    ops [] (by simpa using h64) (wrappedBase_bound P _)
  exact ⟨a, (wrappedBase_run P fuel ops (PedersenAcc.init P) []).symm.trans e⟩

/-- C87: the digest of a non-empty bit string with any number of segments. -/
theorem C87_index_wraps (P : PedersenParams G) (V : P.Valid) (m : List Bool) (hm : m ≠ [])
    (h64 : m.length + 3 < 2 ^ 64) (fuel : Nat) (hf : 3 ≤ fuel) :
    pedersenHash P fuel m = some (Spec.pedersen P.c (fun i => P.base (i % 2 ^ 32)) m) := by
  have V' := wrappedBase_valid P V
  have h := (PedersenRep.init (wrappedBase P) V').feed V' m (by simp; omega) (wrappedBase_bound P _)
  obtain ⟨a, e, -⟩ := h.process V' (by simpa using h64) (wrappedBase_bound P _) fuel hf
  have hfun : (PedersenAcc.update (wrappedBase P)) = (PedersenAcc.update P) :=
    funext fun a => funext fun b => wrappedBase_update P a b
  have e' : PedersenAcc.process P fuel (m.foldl (PedersenAcc.update P) (PedersenAcc.init P)) =
      some ((a : PedersenAcc G P.r), Spec.pedersen P.c (fun i => P.base (i % 2 ^ 32)) (padded ([] ++ m)) + 0) :=
    ((wrappedBase_process P fuel _).symm.trans
      (congrArg (fun f => PedersenAcc.process (wrappedBase P) fuel (m.foldl f (PedersenAcc.init P)))
        hfun.symm)).trans e
  unfold pedersenHash
  exact (congrArg (Option.map Prod.snd) e').trans (congrArg some (show
    Spec.pedersen P.c (fun i => P.base (i % 2 ^ 32)) (padded ([] ++ m)) + 0 = _ by
      rw [List.nil_append, pedersen_padded _ _ _ hm, add_zero]))

/-- Segment `i` of the chunks of a bit string are the chunks of its `i`-th piece of `3 c` bits. -/
theorem segment_blocks (c : Nat) (m : List Bool) (i : Nat) (h : (i + 1) * (3 * c) ≤ m.length) :
    segment c (blocks 3 m) i = blocks 3 ((m.drop (i * (3 * c))).take (3 * c)) := by
  rw [Nat.add_mul, Nat.one_mul] at h
  have e : m = m.take (i * (3 * c)) ++ ((m.drop (i * (3 * c))).take (3 * c) ++
      (m.drop (i * (3 * c))).drop (3 * c)) := by simp
  have l1 : (m.take (i * (3 * c))).length = i * (3 * c) := by rw [List.length_take]; omega
  have l2 : ((m.drop (i * (3 * c))).take (3 * c)).length = 3 * c := by
    rw [List.length_take, List.length_drop]; omega
  generalize m.take (i * (3 * c)) = x at *
  generalize (m.drop (i * (3 * c))).take (3 * c) = y at *
  generalize (m.drop (i * (3 * c))).drop (3 * c) = z at *
  rw [e]
  unfold segment
  have hx : (blocks 3 x).length = i * c := by
    rw [length_blocks, l1, show i * (3 * c) = 3 * (i * c) by ring, Nat.mul_div_cancel_left _ (by omega)]
  have hy : (blocks 3 y).length = c := by rw [length_blocks, l2, Nat.mul_div_cancel_left _ (by omega)]
  rw [blocks_append (by omega) (l1 ▸ ⟨i * c, by ring⟩), blocks_append (by omega) (l2 ▸ ⟨c, rfl⟩), ← hx,
    List.drop_left]
  conv_lhs => rw [← hy]
  rw [List.take_left]

/-- The point of a segment, `k` segments and a segment. -/
theorem pedersen_ends (c : Nat) (hc : 0 < c) (base : Nat → G) (k : Nat) (x y mid : List Bool)
    (hx : x.length = 3 * c) (hy : y.length = 3 * c) (hmid' : mid.length = k * (3 * c)) :
    Spec.pedersen c base (x ++ mid ++ y) = segmentScalar (blocks 3 x) • base 0 +
      segmentScalar (blocks 3 y) • base (k + 1) + ∑ i ∈ Finset.range k,
        segmentScalar (blocks 3 ((mid.drop (i * (3 * c))).take (3 * c))) • base (i + 1) := by
  have hl : (x ++ mid ++ y).length = (k + 2) * (3 * c) := by
    rw [List.length_append, List.length_append, hx, hy, hmid']; ring
  have hp : pedersenPad (x ++ mid ++ y) = x ++ mid ++ y := by
    unfold pedersenPad fillTo
    rw [hl, show (k + 2) * (3 * c) = 3 * ((k + 2) * c) by ring, Nat.mul_mod_right]
    simp
  have hcount : segmentCount c (blocks 3 (x ++ mid ++ y)) = k + 2 := by
    unfold segmentCount
    rw [length_blocks, hl, show (k + 2) * (3 * c) = 3 * ((k + 2) * c) by ring,
      Nat.mul_div_cancel_left _ (by omega), Nat.add_sub_assoc (by omega), Nat.mul_comm, Nat.mul_add_div hc,
      Nat.div_eq_of_lt (by omega), Nat.add_zero]
  have hseg : ∀ i, i < k + 2 → segment c (blocks 3 (x ++ mid ++ y)) i =
      blocks 3 (((x ++ mid ++ y).drop (i * (3 * c))).take (3 * c)) := by
    intro i hi
    exact segment_blocks c _ i (by rw [hl]; exact Nat.mul_le_mul_right _ hi)
  unfold Spec.pedersen
  rw [hp, hcount, Finset.sum_range_succ, Finset.sum_range_succ', hseg 0 (by omega), hseg (k + 1) (by omega)]
  have h0 : ((x ++ mid ++ y).drop (0 * (3 * c))).take (3 * c) = x := by
    rw [Nat.zero_mul, List.drop_zero, List.append_assoc, ← hx, List.take_left]
  have h1 : ((x ++ mid ++ y).drop ((k + 1) * (3 * c))).take (3 * c) = y := by
    rw [show (k + 1) * (3 * c) = (x ++ mid).length by rw [List.length_append, hx, hmid']; ring, List.drop_left,
      ← hy, List.take_length]
  rw [h0, h1]
  have h2 : ∀ i ∈ Finset.range k, segmentScalar (segment c (blocks 3 (x ++ mid ++ y)) (i + 1)) • base (i + 1) =
      segmentScalar (blocks 3 ((mid.drop (i * (3 * c))).take (3 * c))) • base (i + 1) := by
    intro i hi
    have hi := Finset.mem_range.1 hi
    rw [hseg (i + 1) (by omega), show (i + 1) * (3 * c) = x.length + i * (3 * c) by rw [hx]; ring,
      List.append_assoc, ← List.drop_drop, List.drop_left, List.drop_append_of_le_length (by
          rw [hmid']; exact Nat.mul_le_mul_right _ (by omega)), List.take_append_of_le_length]
    have := Nat.mul_le_mul_right (3 * c) (show i + 1 ≤ k from hi)
    rw [Nat.add_mul] at this
    rw [List.length_drop, hmid']
    omega
  rw [Finset.sum_congr rfl h2]
  abel

/-- Exchanging them keeps the point exactly when the difference of the base points, times the difference of the
segment scalars, vanishes. -/
theorem pedersen_exchange (c : Nat) (hc : 0 < c) (base : Nat → G) (k : Nat) (x y mid : List Bool)
    (hx : x.length = 3 * c) (hy : y.length = 3 * c) (hmid : mid.length = k * (3 * c)) :
    Spec.pedersen c base (x ++ mid ++ y) = Spec.pedersen c base (y ++ mid ++ x) ↔
      (segmentScalar (blocks 3 x) - segmentScalar (blocks 3 y)) • (base 0 - base (k + 1)) = 0 := by
  rw [pedersen_ends c hc base k x y mid hx hy hmid, pedersen_ends c hc base k y x mid hy hx hmid, ← sub_eq_zero,
    smul_sub, sub_smul, sub_smul]
  generalize (∑ i ∈ Finset.range k,
    segmentScalar (blocks 3 ((mid.drop (i * (3 * c))).take (3 * c))) • base (i + 1)) = z
  constructor <;> intro h <;> rw [← h] <;> abel

theorem ends_ne_nil {c : Nat} (hc : 0 < c) {x mid y : List Bool} (hx : x.length = 3 * c) : x ++ mid ++ y ≠ [] := by
  intro h
  have := congrArg List.length h
  simp only [List.length_append, List.length_nil] at this
  omega

/-- C87 is false: exchange the first segment with the one `2^32` segments later; the digest stays the same,
whatever the group and the base points. -/
theorem C87_collision (P : PedersenParams G) (V : P.Valid) (x y mid : List Bool) (hx : x.length = 3 * P.c)
    (hy : y.length = 3 * P.c) (hmid : mid.length = (2 ^ 32 - 1) * (3 * P.c))
    (h64 : (2 ^ 32 + 1) * (3 * P.c) + 3 < 2 ^ 64) (fuel : Nat) (hf : 3 ≤ fuel) :
    pedersenHash P fuel (x ++ mid ++ y) = pedersenHash P fuel (y ++ mid ++ x) := by
  have hc := V.c
  rw [C87_index_wraps P V _ (ends_ne_nil (by omega) hx) (by simp only [List.length_append]; omega) fuel hf,
    C87_index_wraps P V _ (ends_ne_nil (by omega) hy) (by simp only [List.length_append]; omega) fuel hf,
    Option.some.injEq, pedersen_exchange P.c (by omega) _ (2 ^ 32 - 1) x y mid hx hy hmid]
  show _ • (P.base (0 % 2 ^ 32) - P.base ((2 ^ 32 - 1 + 1) % 2 ^ 32)) = 0
  rw [show (2 ^ 32 - 1 + 1) % 2 ^ 32 = 0 from rfl, Nat.zero_mod, sub_self, smul_zero]

/-- Jubjub sizes. -/
example (n : Nat) (hn : n = (2 ^ 32 - 1) * 189) :
    pedersenHash jubjubToy 3 (List.replicate 189 false ++ List.replicate n true ++ List.replicate 189 true) =
    pedersenHash jubjubToy 3 (List.replicate 189 true ++ List.replicate n true ++ List.replicate 189 false) :=
  C87_collision jubjubToy jubjubToy_valid _ _ _ List.length_replicate List.length_replicate
    (by rw [List.length_replicate]; exact hn) (by decide) 3 (by omega)

/-- C87, the true part (missing: inputs of more than `2^32` segments, see `C87_collision`): up to there the first
and the last segment can be exchanged only if their scalars or their base points satisfy a relation: the
difference of the scalars kills the difference of the base points of indices zero and `k + 1`. -/
theorem C87_partial (P : PedersenParams G) (V : P.Valid) (k : Nat) (hk : k + 2 ≤ 2 ^ 32) (x y mid : List Bool)
    (hx : x.length = 3 * P.c) (hy : y.length = 3 * P.c) (hmid : mid.length = k * (3 * P.c))
    (h64 : (k + 2) * (3 * P.c) + 3 < 2 ^ 64) (fuel : Nat) (hf : 3 ≤ fuel) :
    pedersenHash P fuel (x ++ mid ++ y) = pedersenHash P fuel (y ++ mid ++ x) ↔
      (segmentScalar (blocks 3 x) - segmentScalar (blocks 3 y)) • (P.base 0 - P.base (k + 1)) = 0 := by
  have hc := V.c
  rw [Nat.add_mul] at h64
  rw [C87_index_wraps P V _ (ends_ne_nil (by omega) hx) (by simp only [List.length_append]; omega) fuel hf,
    C87_index_wraps P V _ (ends_ne_nil (by omega) hy) (by simp only [List.length_append]; omega) fuel hf,
    Option.some.injEq, pedersen_exchange P.c (by omega) _ k x y mid hx hy hmid]
  show _ • (P.base (0 % 2 ^ 32) - P.base ((k + 1) % 2 ^ 32)) = 0 ↔ _
  rw [Nat.mod_eq_of_lt (show k + 1 < 2 ^ 32 by omega), Nat.zero_mod]

/-- Two different segments next to each other. -/
example : pedersenHash smallToy 3 [true, false, false, true, true, false, false, false, true, true, true, true] ≠
    pedersenHash smallToy 3 [false, false, true, true, true, true, true, false, false, true, true, false] := by
  intro h
  have := (C87_partial smallToy smallToy_valid 0 (by decide) [true, false, false, true, true, false]
    [false, false, true, true, true, true] [] rfl rfl rfl (by decide) 3 (by decide)).1 h
  exact absurd this (by decide +kernel)

example := C87_index_wraps smallToy smallToy_valid [true, false, false, true] (by decide) (by decide) 3 (by decide)

example := C87_history smallToy smallToy_valid 3 (by decide)
  [.range [true], .extract, .iterators [false, false, true], .extract, .extract] (by decide)

end Verif.Props
