import Mathlib.GroupTheory.OrderOfElement
import Mathlib.Data.Int.GCD
import Mathlib.Order.Interval.Finset.Fin
import Verif.Proof.JubjubPrime
import Verif.Props.Pedersen
import Verif.Props.GroupHashRandom
/-
C99: the Pedersen hash over a random hash function: the base points come from `find_group_hash`, and messages chosen before the hash
function collide, or meet a given point, with probability at most 1 / (order of the group).
-/
namespace Verif.Props
open Verif Verif.Spec Verif.Spec.Oracle Verif.Oracle

section
variable {G : Type} [AddCommGroup G]

theorem prob_exists_le {V I : Type} [Fintype V] (s : Finset I) (p : I → V → Prop) :
    prob (fun v => ∃ i ∈ s, p i v) ≤ ∑ i ∈ s, prob (p i) := by
  classical
  unfold prob
  rw [← Finset.sum_div, ← Nat.cast_sum]
  refine div_le_div_of_nonneg_right (Nat.cast_le.2 ?_) (Nat.cast_nonneg _)
  refine le_trans (Finset.card_le_card fun v hv => ?_) (Finset.card_biUnion_le (s := s) (t := fun i => Finset.univ.filter (p i)))
  simp only [Finset.mem_filter, Finset.mem_univ, true_and, Finset.mem_biUnion] at hv ⊢
  exact hv

/-- A number that the order of a point does not divide can be cancelled. -/
theorem smul_cancel {l : Nat} (hp : l.Prime) {a : Int} (ha : ¬ (l : Int) ∣ a) {x : G} (hx : l • x = 0) (h : a • x = 0) : x = 0 := by
  have hc : IsCoprime a (l : Int) := by
    rw [isCoprime_comm]
    exact (Nat.prime_iff_prime_int.1 hp).coprime_iff_not_dvd.2 ha
  obtain ⟨u, v, e⟩ := hc
  have : (u * a + v * l) • x = 0 := by
    rw [add_smul, mul_smul, mul_smul, h, smul_zero, natCast_zsmul, hx, smul_zero, add_zero]
  rwa [e, one_smul] at this

variable [Fintype G] [DecidableEq G]

/-- If the multiples of the cofactor are as many as a number `l`, `l` times each of them is zero. -/
theorem multiple_order {cofactor l : Nat} (hM : (Finset.univ.image fun p : G => cofactor • p).card = l) (p : G) :
    l • cofactor • p = 0 := by
  let K := (nsmulAddMonoidHom (α := G) cofactor).range
  have hK : Nat.card K = l := by
    rw [← hM, ← Nat.card_eq_finsetCard]
    refine Nat.card_congr (Equiv.subtypeEquivRight fun x => ?_)
    simp only [K, AddMonoidHom.mem_range, nsmulAddMonoidHom_apply, Finset.mem_image, Finset.mem_univ, true_and]
  have := card_nsmul_eq_zero' (x := (⟨cofactor • p, p, rfl⟩ : K))
  rw [hK] at this
  exact congrArg Subtype.val this

/-- The tuples of multiples with a prescribed linear combination. -/
theorem card_relation {cofactor l n : Nat} (hp : l.Prime) (hM : (Finset.univ.image fun p : G => cofactor • p).card = l)
    (a : Fin n → Int) (k : Fin n) (hk : ¬ (l : Int) ∣ a k) (v : G) (s : Finset (Fin n → G))
    (hs : ∀ Q ∈ s, (∀ j, ∃ p : G, cofactor • p = Q j) ∧ ∑ j, a j • Q j = v) : s.card ≤ l ^ (n - 1) := by
  classical
  let M := Finset.univ.image fun p : G => cofactor • p
  have hle : s.card ≤ (Fintype.piFinset fun _ : {j : Fin n // j ≠ k} => M).card := by
    refine Finset.card_le_card_of_injOn (fun Q j => Q j.1) ?_ ?_
    · intro Q hQ
      refine Fintype.mem_piFinset.2 fun j => ?_
      obtain ⟨p, e⟩ := (hs Q hQ).1 j.1
      exact Finset.mem_image.2 ⟨p, Finset.mem_univ _, e⟩
    · intro Q hQ Q' hQ' e
      have e1 : ∀ j, j ≠ k → Q j = Q' j := fun j hj => congrFun e ⟨j, hj⟩
      have e2 : ∑ j, a j • (Q j - Q' j) = 0 := by
        simp only [smul_sub, Finset.sum_sub_distrib]
        rw [(hs Q hQ).2, (hs Q' hQ').2, sub_self]
      rw [Finset.sum_eq_single k (fun j _ hj => by rw [e1 j hj, sub_self, smul_zero]) (fun h => absurd (Finset.mem_univ _) h)] at e2
      obtain ⟨p, hp1⟩ := (hs Q hQ).1 k
      obtain ⟨p', hp2⟩ := (hs Q' hQ').1 k
      have h0 := smul_cancel hp hk (x := Q k - Q' k) (by
        rw [← hp1, ← hp2, ← smul_sub]; exact multiple_order hM _) e2
      funext j
      by_cases hj : j = k
      · rw [hj]; exact sub_eq_zero.1 h0
      · exact e1 j hj
  rw [Fintype.card_piFinset, Finset.prod_const] at hle
  have hc : (Finset.univ : Finset {j : Fin n // j ≠ k}).card = n - 1 := by
    rw [Finset.card_univ, Fintype.card_subtype_compl, Fintype.card_fin, Fintype.card_subtype_eq]
  rwa [hc, hM] at hle

/-- The base points `Q 0, …, Q (n - 1)` as a function of the index; no others are used. -/
def table {n : Nat} (Q : Fin n → G) (i : Nat) : G := if h : i < n then Q ⟨i, h⟩ else 0

variable {dec : List Nat → Option G} {cofactor b t : Nat} {S : Finset (List Nat)} {dst : List Nat} {n : Nat} (hn : n ≤ 2 ^ 32)
  (ht : ∀ p : G, (Finset.univ.filter fun d : Digest b => dec (octets d) = some p).card = t) (h0 : 0 < t)
  {σ δ : Type} {B limit : Nat} (hB : 32 ∣ B) {P : Hash S b → GroupHashParams σ δ G} {Good : Hash S b → Bits → Prop}
  {F : Hash S b → Bits → δ} (R : RandomGroupHash S b B limit dst dec cofactor P Good F)
  (hS : ∀ j < n, ∀ i < 256, candidate dst (indexOctets j) i ∈ S) (garbage : Bits) (hgb : garbage.length = B)
  (hl : dst.length + 69 ≤ limit) (fuel : Nat) (hf : 256 ≤ fuel)
  {l : Nat} (hp : l.Prime) (hM : (Finset.univ.image fun p : G => cofactor • p).card = l)

/-- The calls for the first `n` base points return `Q`. -/
def BasePoints {σ δ : Type} (P : GroupHashParams σ δ G) (garbage : Bits) (fuel B : Nat) (Q : Fin n → G) : Prop :=
  ∀ j : Fin n, groupHashOnce P garbage fuel (baseOps B j) = .ok [some (Q j)]

include hS R hB hgb hl hf in
theorem basePoints_multiples (H : Hash S b) (Q : Fin n → G) (h : BasePoints (P H) garbage fuel B Q) (j : Fin n) :
    (∃ p : G, cofactor • p = Q j) ∧ Q j ≠ 0 := by
  have e := h j
  rw [groupHashOnce_outcome dec cofactor R (hS j j.2) H garbage hgb (baseOps B j) [indexOctets j]
    (.cons ⟨⟨by show 0 < 32; decide, hB, by rw [List.length_replicate]; rfl⟩, view_index _⟩ .nil) (by simp) hl fuel hf] at e
  generalize hx : firstPoint dec cofactor _ = x at e
  cases x with
  | none => simp [outcomeResult, Except.map] at e
  | some q =>
    rw [outcomeResult] at e
    by_cases hz : q = 0
    · simp [hz, Except.map] at e
    · simp only [hz, if_false, Except.map, Except.ok.injEq, List.cons.injEq, Option.some.injEq, and_true] at e
      rw [← e]
      refine ⟨?_, hz⟩
      unfold firstPoint at hx
      obtain ⟨p, -, hp⟩ := Option.map_eq_some_iff.1 hx
      exact ⟨p, hp⟩

include hn ht h0 hB R hS hgb hl hf hp hM

/-- A linear combination of the base points, not all of whose coefficients vanish modulo the order, meets a given point with
probability at most `1/l`. -/
theorem prob_relation (a : Fin n → Int) (k : Fin n) (hk : ¬ (l : Int) ∣ a k) (v : G) :
    prob (fun H : Hash S b => ∃ Q : Fin n → G, BasePoints (P H) garbage fuel B Q ∧ ∑ j, a j • Q j = v) ≤ 1 / l := by
  classical
  let s : Finset (Fin n → G) := Finset.univ.filter fun Q => (∀ j, (∃ p : G, cofactor • p = Q j) ∧ Q j ≠ 0) ∧ ∑ j, a j • Q j = v
  have hs : s.card ≤ l ^ (n - 1) := by
    refine card_relation hp hM a k hk v s fun Q hQ => ?_
    have := (Finset.mem_filter.1 hQ).2
    exact ⟨fun j => (this.1 j).1, this.2⟩
  have h1 : prob (fun H : Hash S b => ∃ Q : Fin n → G, BasePoints (P H) garbage fuel B Q ∧ ∑ j, a j • Q j = v) ≤
      ∑ Q ∈ s, prob fun H : Hash S b => BasePoints (P H) garbage fuel B Q := by
    refine le_trans (prob_mono fun H => ?_) (prob_exists_le s _)
    rintro ⟨Q, h, e⟩
    exact ⟨Q, Finset.mem_filter.2 ⟨Finset.mem_univ _, basePoints_multiples hB R hS garbage hgb hl fuel hf H Q h, e⟩, h⟩
  have hl0 : (0 : ℚ) < l := Nat.cast_pos.2 hp.pos
  have h2 : ∀ Q ∈ s, prob (fun H : Hash S b => BasePoints (P H) garbage fuel B Q) ≤ (1 / l) ^ n := by
    intro Q hQ
    have hq := (Finset.mem_filter.1 hQ).2.1
    have := C98_base_points (fun j : Fin n => j.1) Fin.val_injective (fun j => lt_of_lt_of_le j.2 hn) ht h0 hB R
      (fun j => hS j j.2) garbage hgb hl fuel hf Q (fun j => (hq j).1) fun j => (hq j).2
    unfold BasePoints
    rw [this, hM]
    have hu := undecodable_eq ht
    have hu0 : 0 ≤ undecodable dec b := by
      unfold undecodable
      exact prob_nonneg _
    have hu1 : undecodable dec b ≤ 1 := by
      rw [hu]
      have : (0 : ℚ) ≤ t * Fintype.card G / 256 ^ b := by positivity
      linarith
    rw [← hu]
    refine pow_le_pow_left₀ (div_nonneg ?_ hl0.le) (div_le_div_of_nonneg_right ?_ hl0.le) n
    · have := pow_le_one₀ (n := 256) hu0 hu1
      linarith
    · have := pow_nonneg hu0 256
      linarith
  refine le_trans h1 (le_trans (Finset.sum_le_sum h2) ?_)
  rw [Finset.sum_const, nsmul_eq_mul]
  have hcard : (s.card : ℚ) ≤ (l : ℚ) ^ (n - 1) := by exact_mod_cast hs
  refine le_trans (mul_le_mul_of_nonneg_right hcard (by positivity)) (le_of_eq ?_)
  have hn0 : n = n - 1 + 1 := by have := k.2; omega
  rw [one_div, inv_pow]
  conv_lhs => rw [hn0]
  rw [Nat.add_sub_cancel, pow_succ, mul_inv, ← mul_assoc, mul_inv_cancel₀ (by positivity), one_mul]

omit hn ht h0 hB R hS hgb hl hf hp [Fintype G] [DecidableEq G] hM in
theorem table_sum (a : Nat → Int) (Q : Fin n → G) (k : Nat) (hk : k ≤ n) (ha : ∀ i, k ≤ i → a i = 0) :
    ∑ i ∈ Finset.range k, a i • table Q i = ∑ j : Fin n, a j • Q j := by
  rw [Finset.sum_subset (Finset.range_mono hk) fun i _ hi => by
    rw [ha i (by simpa using hi), zero_smul], Finset.sum_range]
  refine Finset.sum_congr rfl fun j _ => ?_
  rw [table, dif_pos j.2]

omit hn ht h0 hB R hS hgb hl hf hp [Fintype G] [DecidableEq G] hM in
theorem segmentCount_le {c : Nat} (hc : 2 ≤ c) (m : List Bool) (h : m.length + 3 ≤ 3 * (c * n)) :
    segmentCount c (blocks 3 (pedersenPad m)) ≤ n := by
  unfold segmentCount
  rw [length_blocks]
  have hlen : (pedersenPad m).length / 3 ≤ c * n := by
    unfold pedersenPad
    rw [List.length_append, List.length_replicate]
    have : fillTo 3 m.length < 3 := Nat.mod_lt _ (by omega)
    omega
  rw [← Nat.lt_succ_iff, Nat.div_lt_iff_lt_mul (by omega)]
  have : n.succ * c = c * n + c := by rw [Nat.succ_mul, Nat.mul_comm]
  omega

/-- The parameters of the code with given base points. -/
def withBase (l c width : Nat) (Q : Fin n → G) : PedersenParams G := ⟨l, c, width, table Q⟩

omit hn ht h0 hp in
theorem withBase_valid {c width : Nat} (hl0 : 0 < l) (hc : 2 ≤ c) (hw : 4 * (c - 1) < width) (H : Hash S b) (Q : Fin n → G)
    (h : BasePoints (P H) garbage fuel B Q) : (withBase l c width Q).Valid where
  r := hl0
  c := hc
  width := hw
  order i := by
    show l • table Q i = 0
    unfold table
    split
    · obtain ⟨⟨p, e⟩, -⟩ := basePoints_multiples hB R hS garbage hgb hl fuel hf H Q h ⟨i, by assumption⟩
      rw [← e]
      exact multiple_order hM p
    · exact smul_zero _

variable {c width : Nat} (hc : 2 ≤ c) (hw : 4 * (c - 1) < width) (hadm : Admissible l c) (pf : Nat) (hpf : 3 ≤ pf)
include hc hw hadm hpf

/-- C99: two messages with different paddings, chosen before the hash function, have the same digest with probability at most
`1/l`. -/
theorem C99_collision (m m' : List Bool) (hm : m ≠ []) (hm' : m' ≠ []) (h64 : m.length + 3 < 2 ^ 64) (h64' : m'.length + 3 < 2 ^ 64)
    (hseg : m.length + 3 ≤ 3 * (c * n)) (hseg' : m'.length + 3 ≤ 3 * (c * n)) (hne : pedersenPad m ≠ pedersenPad m') :
    prob (fun H : Hash S b => ∃ Q : Fin n → G, BasePoints (P H) garbage fuel B Q ∧
      pedersenHash (withBase l c width Q) pf m = pedersenHash (withBase l c width Q) pf m') ≤ 1 / l := by
  classical
  let a : Nat → Int := fun i => segmentScalar (segment c (blocks 3 (pedersenPad m)) i) -
    segmentScalar (segment c (blocks 3 (pedersenPad m')) i)
  by_cases hex : ∃ k : Fin n, ¬ (l : Int) ∣ a k
  · obtain ⟨k, hk⟩ := hex
    refine le_trans (prob_mono fun H => ?_)
      (prob_relation hn ht h0 hB R hS garbage hgb hl fuel hf hp hM (fun j => a j) k hk 0)
    rintro ⟨Q, h, e⟩
    refine ⟨Q, h, ?_⟩
    have V := withBase_valid hB R hS garbage hgb hl fuel hf hM hp.pos hc hw H Q h
    have hb32 : 3 * (c * n) ≤ 3 * (c * 2 ^ 32) := Nat.mul_le_mul_left _ (Nat.mul_le_mul_left _ hn)
    have hr := (C57_collision_relation (withBase l c width Q) V hadm pf hpf m m' hm hm' h64 (le_trans hseg hb32) h64'
      (le_trans hseg' hb32) hne e).2
    rw [← hr]
    symm
    refine table_sum a Q _ (max_le (segmentCount_le hc m hseg) (segmentCount_le hc m' hseg')) fun i hi => ?_
    have h1 := segment_beyond c (by omega) _ i (le_trans (le_max_left _ _) hi)
    have h2 := segment_beyond c (by omega) _ i (le_trans (le_max_right _ _) hi)
    show segmentScalar (segment c _ i) - segmentScalar (segment c _ i) = 0
    rw [h1, h2, sub_self]
  · push Not at hex
    refine le_trans (le_of_eq ?_) (show (0 : ℚ) ≤ 1 / l by positivity)
    rw [← prob_false (V := Hash S b)]
    refine prob_congr fun H => iff_false_intro ?_
    rintro ⟨Q, h, e⟩
    have V := withBase_valid hB R hS garbage hgb hl fuel hf hM hp.pos hc hw H Q h
    have hb32 : 3 * (c * n) ≤ 3 * (c * 2 ^ 32) := Nat.mul_le_mul_left _ (Nat.mul_le_mul_left _ hn)
    obtain ⟨i, hi, hd⟩ := (C57_collision_relation (withBase l c width Q) V hadm pf hpf m m' hm hm' h64 (le_trans hseg hb32) h64'
      (le_trans hseg' hb32) hne e).1
    exact hd (hex ⟨i, lt_of_lt_of_le hi (max_le (segmentCount_le hc m hseg) (segmentCount_le hc m' hseg'))⟩)

/-- C99: the digest of a message chosen before the hash function is a given point with probability at most `1/l`. -/
theorem C99_preimage (m : List Bool) (hm : m ≠ []) (h64 : m.length + 3 < 2 ^ 64) (hseg : m.length + 3 ≤ 3 * (c * n)) (v : G) :
    prob (fun H : Hash S b => ∃ Q : Fin n → G, BasePoints (P H) garbage fuel B Q ∧
      pedersenHash (withBase l c width Q) pf m = some v) ≤ 1 / l := by
  have hpad : padded m = pedersenPad m := if_neg hm
  have hcount := segmentCount_le hc m hseg
  have hne := last_nonempty c (by omega) m
  rw [hpad] at hne
  have hpos : segmentCount c (blocks 3 (pedersenPad m)) - 1 < n := by
    obtain ⟨h3, h0', -⟩ := length_padded m
    have : 0 < n := by
      rcases Nat.eq_zero_or_pos n with h | h
      · rw [h] at hseg; omega
      · exact h
    omega
  obtain ⟨f1, f2⟩ := segment_facts c (pedersenPad m) (segmentCount c (blocks 3 (pedersenPad m)) - 1)
  have hk : ¬ (l : Int) ∣ segmentScalar (segment c (blocks 3 (pedersenPad m)) (segmentCount c (blocks 3 (pedersenPad m)) - 1)) := by
    rw [← ZMod.intCast_zmod_eq_zero_iff_dvd]
    exact C34_nonzero hp.pos hadm _ f1 f2 hne
  refine le_trans (prob_mono fun H => ?_) (prob_relation hn ht h0 hB R hS garbage hgb hl fuel hf hp hM
    (fun j => segmentScalar (segment c (blocks 3 (pedersenPad m)) j)) ⟨_, hpos⟩ hk v)
  rintro ⟨Q, h, e⟩
  refine ⟨Q, h, ?_⟩
  have V := withBase_valid hB R hS garbage hgb hl fuel hf hM hp.pos hc hw H Q h
  rw [C31_zcash (withBase l c width Q) V m hm h64
    (le_trans hseg (Nat.mul_le_mul_left _ (Nat.mul_le_mul_left _ hn))) pf hpf] at e
  rw [← Option.some.inj e]
  symm
  refine table_sum (fun i => segmentScalar (segment c (blocks 3 (pedersenPad m)) i)) Q _ hcount fun i hi => ?_
  simp only [segment_beyond c (by omega) _ i hi]
  rfl

/-- C99: among `N` messages with different paddings, chosen before the hash function, two have the same digest with probability at
most `N (N - 1) / (2 l)`. -/
theorem C99_messages {N : Nat} (m : Fin N → List Bool) (hm : ∀ i, m i ≠ []) (h64 : ∀ i, (m i).length + 3 < 2 ^ 64)
    (hseg : ∀ i, (m i).length + 3 ≤ 3 * (c * n)) (hne : ∀ i j, i ≠ j → pedersenPad (m i) ≠ pedersenPad (m j)) :
    prob (fun H : Hash S b => ∃ Q : Fin n → G, BasePoints (P H) garbage fuel B Q ∧ ∃ i j, i ≠ j ∧
      pedersenHash (withBase l c width Q) pf (m i) = pedersenHash (withBase l c width Q) pf (m j)) ≤ N * (N - 1) / 2 / l := by
  let s : Finset (Fin N × Fin N) := Finset.univ.filter fun p => p.1 < p.2
  have hcard : (s.card : ℚ) = N * (N - 1) / 2 := by
    rw [← gauss N, Finset.sum_range]
    congr 1
    have : s = Finset.univ.biUnion fun j : Fin N => (Finset.univ.filter fun i : Fin N => i < j).image fun i => (i, j) := by
      ext p
      simp only [s, Finset.mem_filter, Finset.mem_univ, true_and, Finset.mem_biUnion, Finset.mem_image]
      exact ⟨fun h => ⟨p.2, p.1, h, rfl⟩, fun ⟨j, i, h, e⟩ => e ▸ h⟩
    rw [this, Finset.card_biUnion]
    · refine Finset.sum_congr rfl fun j _ => ?_
      rw [Finset.card_image_of_injective _ fun x y h => (Prod.mk.inj h).1, Finset.filter_gt_eq_Iio, Fin.card_Iio]
    · intro j _ j' _ hj
      refine Finset.disjoint_left.2 fun p h1 h2 => hj ?_
      obtain ⟨i, -, e⟩ := Finset.mem_image.1 h1
      obtain ⟨i', -, e'⟩ := Finset.mem_image.1 h2
      rw [← e] at e'
      exact (Prod.mk.inj e').2.symm
  refine le_trans (prob_mono (r := fun H => ∃ p ∈ s, ∃ Q : Fin n → G, BasePoints (P H) garbage fuel B Q ∧
    pedersenHash (withBase l c width Q) pf (m p.1) = pedersenHash (withBase l c width Q) pf (m p.2)) fun H => ?_)
    (le_trans (prob_exists_le s _) (le_trans (Finset.sum_le_sum fun p hp' => C99_collision hn ht h0 hB R hS garbage hgb hl fuel hf hp hM
      hc hw hadm pf hpf (m p.1) (m p.2) (hm _) (hm _) (h64 _) (h64 _) (hseg _) (hseg _)
      (hne _ _ (ne_of_lt (Finset.mem_filter.1 hp').2))) ?_))
  · rintro ⟨Q, h, i, j, hij, e⟩
    rcases lt_or_gt_of_ne hij with hlt | hlt
    · exact ⟨(i, j), Finset.mem_filter.2 ⟨Finset.mem_univ _, hlt⟩, Q, h, e⟩
    · exact ⟨(j, i), Finset.mem_filter.2 ⟨Finset.mem_univ _, hlt⟩, Q, h, e.symm⟩
  · rw [Finset.sum_const, nsmul_eq_mul, hcard, mul_one_div]

end

/-! ### Examples: the sizes of Jubjub, 63 chunks per segment, SHA-256 around a random function -/

theorem jubjubOrder_prime : Nat.Prime jubjubOrder := prime_jubjub

/-- Two messages of one and three segments. -/
example : prob (fun H : Hash (baseStrings 3) 32 => ∃ Q : Fin 3 → JubjubSized,
    BasePoints (collectingGroup (numbered jubjubNumbers) 8 H) (List.replicate 512 false) 256 512 Q ∧
      pedersenHash (withBase jubjubOrder 63 252 Q) 3 [true] = pedersenHash (withBase jubjubOrder 63 252 Q) 3 (List.replicate 400 false)) ≤
    1 / jubjubOrder :=
  C99_collision (by norm_num) (numbered_encodings (b := 32) jubjubNumbers (by rw [jubjubOrder]; norm_num)) Nat.one_pos (B := 512)
    ⟨16, rfl⟩ (collectingGroup_random (baseStrings_octets 3) (numbered jubjubNumbers) 8)
    (fun j hj i hi => mem_candidateStrings _ (fun j : Fin 3 => indexOctets j) ⟨j, hj⟩ i hi) (List.replicate 512 false)
    List.length_replicate (by show 8 + 69 ≤ 2 ^ 60; norm_num) 256 le_rfl jubjubOrder_prime (multiples_eight jubjub_odd) (by norm_num)
    (by norm_num) jubjub_admissible 3 le_rfl [true] (List.replicate 400 false) (by simp) (by decide) (by simp)
    (by rw [List.length_replicate]; norm_num) (by simp) (by rw [List.length_replicate]; norm_num) (by decide)

/-- The digest of one bit is a given point. -/
example (v : JubjubSized) : prob (fun H : Hash (baseStrings 1) 32 => ∃ Q : Fin 1 → JubjubSized,
    BasePoints (collectingGroup (numbered jubjubNumbers) 8 H) (List.replicate 512 false) 256 512 Q ∧
      pedersenHash (withBase jubjubOrder 63 252 Q) 3 [true] = some v) ≤ 1 / jubjubOrder :=
  C99_preimage (by norm_num) (numbered_encodings (b := 32) jubjubNumbers (by rw [jubjubOrder]; norm_num)) Nat.one_pos (B := 512)
    ⟨16, rfl⟩ (collectingGroup_random (baseStrings_octets 1) (numbered jubjubNumbers) 8)
    (fun j hj i hi => mem_candidateStrings _ (fun j : Fin 1 => indexOctets j) ⟨j, hj⟩ i hi) (List.replicate 512 false)
    List.length_replicate (by show 8 + 69 ≤ 2 ^ 60; norm_num) 256 le_rfl jubjubOrder_prime (multiples_eight jubjub_odd) (by norm_num)
    (by norm_num) jubjub_admissible 3 le_rfl [true] (by simp) (by simp) (by simp) v

/-- The eight messages of three bits. -/
def threeBits (i : Fin 8) : List Bool := [i.1.testBit 0, i.1.testBit 1, i.1.testBit 2]

example : prob (fun H : Hash (baseStrings 1) 32 => ∃ Q : Fin 1 → JubjubSized,
    BasePoints (collectingGroup (numbered jubjubNumbers) 8 H) (List.replicate 512 false) 256 512 Q ∧ ∃ i j, i ≠ j ∧
      pedersenHash (withBase jubjubOrder 63 252 Q) 3 (threeBits i) = pedersenHash (withBase jubjubOrder 63 252 Q) 3 (threeBits j)) ≤
    28 / jubjubOrder := by
  refine le_trans (C99_messages (by norm_num) (numbered_encodings (b := 32) jubjubNumbers (by rw [jubjubOrder]; norm_num)) Nat.one_pos
    (B := 512) ⟨16, rfl⟩ (collectingGroup_random (baseStrings_octets 1) (numbered jubjubNumbers) 8)
    (fun j hj i hi => mem_candidateStrings _ (fun j : Fin 1 => indexOctets j) ⟨j, hj⟩ i hi) (List.replicate 512 false)
    List.length_replicate (by show 8 + 69 ≤ 2 ^ 60; norm_num) 256 le_rfl jubjubOrder_prime (multiples_eight jubjub_odd) (by norm_num)
    (by norm_num) jubjub_admissible 3 le_rfl threeBits (by decide) (fun i => by simp [threeBits]) (fun i => by simp [threeBits])
    (by decide)) (le_of_eq ?_)
  norm_num

end Verif.Props
