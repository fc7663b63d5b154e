import Verif.Proof.SpongeBound
import Verif.Props.IdealCipher
import Verif.Props.Reductions
/-
C92: collisions and preimages of the sponge hashes of the library when the permutation is random.
-/
namespace Verif.Props

open Spec Spec.Ideal Verif.Ideal

/-! ### Counting -/

theorem laneString_injective : Function.Injective (laneString : Lanes → Bits) := by
  intro A B h
  rw [← stringLanes_laneString A, ← stringLanes_laneString B, h]

theorem card_out_le (d : Nat) (t : Bits) : (Finset.univ.filter fun x : Lanes => (laneString x).take d = t).card ≤ 2 ^ (1600 - d) :=
  card_take_le _ laneString_injective length_laneString t

/-- Strings of `L` bits with given last bits. -/
theorem card_drop_le {X : Type} [Fintype X] [DecidableEq X] (f : X → Bits) (hf : Function.Injective f) {L r : Nat}
    (hL : ∀ x, (f x).length = L) (hr : r ≤ L) (t : Bits) : (Finset.univ.filter fun x => (f x).drop r = t).card ≤ 2 ^ r := by
  have h := card_take_le (fun x => (f x).reverse) (fun A B h => hf (List.reverse_injective h)) (d := L - r)
    (fun x => (List.length_reverse ..).trans (hL x)) t.reverse
  rw [Nat.sub_sub_self hr] at h
  refine le_trans (Finset.card_le_card ?_) h
  intro x hx
  simp only [Finset.mem_filter, Finset.mem_univ, true_and] at hx ⊢
  rw [← hx, List.reverse_drop, hL]

theorem card_cap_le {r : Nat} (hr : r ≤ 1600) (t : Bits) :
    (Finset.univ.filter fun x : Lanes => (laneString x).drop r = t).card ≤ 2 ^ r :=
  card_drop_le _ laneString_injective length_laneString hr t

/-! ### The states of a message -/

/-- The input of the permutation for the block `b` in the state `S`. -/
def spongeQuery (r : Nat) (S b : Bits) : Lanes := stringLanes (xorBits S (b ++ List.replicate (1600 - r) false))

/-- All calls of the permutation for absorbing the blocks `P` are among the triples `L`. -/
def SpongeEvaluated (r : Nat) (E : Cipher Unit Lanes) (L : List (Unit × Lanes × Lanes)) (P : List Bits) : Prop :=
  ∀ i b, P[i]? = some b →
    ((), spongeQuery r (absorbBlocks 1600 r (onStrings (E ())) (P.take i)) b,
      E () (spongeQuery r (absorbBlocks 1600 r (onStrings (E ())) (P.take i)) b)) ∈ L

/-- The inner part of a state. -/
def innerPart (r : Nat) (x : Lanes) : Bits := (laneString x).drop r

theorem innerPart_query {r : Nat} (hr : r ≤ 1600) {S b : Bits} (hS : S.length = 1600) (hb : b.length = r) :
    innerPart r (spongeQuery r S b) = S.drop r := by
  unfold innerPart spongeQuery
  rw [laneString_stringLanes _ (by simp [xorBits, hS, hb]; omega), xorBits_drop, List.drop_left' hb]
  have := xorBits_zeros (S.drop r)
  rwa [List.length_drop, hS] at this

theorem reach_block {r : Nat} (hr : r ≤ 1600) (E : Cipher Unit Lanes) {T : List (Entry Unit Lanes)} {L : List (Unit × Lanes × Lanes)}
    (hT : ∀ t ∈ L, ∃ e ∈ T, (e.key, e.x, e.y) = t) {P : List Bits} (hP : ∀ b ∈ P, b.length = r) (hL : SpongeEvaluated r E L P) :
    ∀ i b, P[i]? = some b → ∃ e, Reach (innerPart r) (innerPart r) (List.replicate (1600 - r) false) T e ∧
      laneString e.y = absorbBlocks 1600 r (onStrings (E ())) (P.take (i + 1)) := by
  intro i
  induction i with
  | zero =>
    intro b hb
    obtain ⟨e, he, het⟩ := hT _ (hL 0 b hb)
    have hx := (Prod.mk.inj (Prod.mk.inj het).2).1
    have hy := (Prod.mk.inj (Prod.mk.inj het).2).2
    refine ⟨e, .first he ?_, ?_⟩
    · rw [hx, innerPart_query hr (length_absorbBlocks (length_onStrings _) _) (hP b (List.mem_of_getElem? hb))]
      show List.drop r (List.replicate 1600 false) = _
      rw [List.drop_replicate]
    · rw [hy, List.take_add_one, hb, Option.toList_some, absorbBlocks_snoc]
      rfl
  | succ i ih =>
    intro b hb
    have hi : i < P.length := by
      have := (List.getElem?_eq_some_iff.1 hb).1
      omega
    obtain ⟨e', hr', hs'⟩ := ih _ (List.getElem?_eq_getElem hi)
    obtain ⟨e, he, het⟩ := hT _ (hL (i + 1) b hb)
    have hx := (Prod.mk.inj (Prod.mk.inj het).2).1
    have hy := (Prod.mk.inj (Prod.mk.inj het).2).2
    refine ⟨e, .next hr' he ?_, ?_⟩
    · rw [hx, innerPart_query hr (length_absorbBlocks (length_onStrings _) _) (hP b (List.mem_of_getElem? hb))]
      unfold innerPart
      rw [hs']
    · rw [hy, List.take_add_one (i := i + 1), hb, Option.toList_some, absorbBlocks_snoc]
      rfl

theorem reach_prefix {r : Nat} (hr : r ≤ 1600) (E : Cipher Unit Lanes) {T : List (Entry Unit Lanes)} {L : List (Unit × Lanes × Lanes)}
    (hT : ∀ t ∈ L, ∃ e ∈ T, (e.key, e.x, e.y) = t) {P : List Bits} (hP : ∀ b ∈ P, b.length = r) (hL : SpongeEvaluated r E L P)
    {p : List Bits} (hp : p <+: P) (h0 : p ≠ []) : ∃ e, Reach (innerPart r) (innerPart r) (List.replicate (1600 - r) false) T e ∧
      laneString e.y = absorbBlocks 1600 r (onStrings (E ())) p := by
  have hl : 0 < p.length := List.length_pos_iff.2 h0
  have hlen := hp.length_le
  obtain ⟨e, h1, h2⟩ := reach_block hr E hT hP hL (p.length - 1) _ (List.getElem?_eq_getElem (by omega))
  refine ⟨e, h1, ?_⟩
  rw [h2, show p.length - 1 + 1 = p.length by omega, ← List.prefix_iff_eq_take.1 hp]

/-- Squeezing no more than the rate. -/
theorem squeeze_take {r d : Nat} (hd : d ≤ r) (hr : 0 < r) (f : Bits → Bits) (S : Bits) (hS : S.length = 1600) (hr' : r ≤ 1600) :
    squeeze r f S d = S.take d := by
  unfold squeeze
  rw [List.range_succ_eq_map, List.flatMap_cons]
  have : (Nat.repeat f 0 S).take r = S.take r := rfl
  rw [this, List.take_append_of_le_length (by rw [List.length_take, hS]; omega), List.take_take, Nat.min_eq_left hd]

theorem spongeInput_ne_nil {r : Nat} (hr : 0 < r) (k : SpongeKind) (m : Bits) : spongeInput k r m ≠ [] := by
  intro h
  have := congrArg List.flatten h
  unfold spongeInput at this
  obtain ⟨n, hn⟩ := length_padded hr (flipOctets m ++ k.suffix)
  rw [flatten_blocks hr n _ (by rw [hn, Nat.mul_comm])] at this
  have h2 := congrArg List.length this
  simp [pad101] at h2

/-! ### C92 -/

/-- Two programs of calls, for the Keccak or SHA-3 hashes with `d` bits, that feed different messages and obtain the same
digest. -/
structure SpongeColliding (permute : Lanes → Lanes) (d : Nat) (JP J : Injector) (k k' : SpongeKind) (ops ops' : List Op) : Prop where
  wellTyped : ∀ op ∈ ops ++ ops', op.WellTyped (spongeBlockBits d)
  extracts : GoodExtracts (spongeBlockBits d) SpongeGood [] ops ∧ GoodExtracts (spongeBlockBits d) SpongeGood [] ops'
  good : SpongeGood (streamOf (spongeBlockBits d) ops) ∧ SpongeGood (streamOf (spongeBlockBits d) ops')
  different : (k, streamOf (spongeBlockBits d) ops) ≠ (k', streamOf (spongeBlockBits d) ops')
  digest : ∃ garbage garbage' : Bits, garbage.length = spongeBlockBits d ∧ garbage'.length = spongeBlockBits d ∧
    (do let (a, _) ← runOps (spongeConstruction k permute d JP) J (Acc.init (spongeConstruction k permute d JP) garbage) [] ops
        a.result (spongeConstruction k permute d JP)) =
    (do let (a, _) ← runOps (spongeConstruction k' permute d JP) J (Acc.init (spongeConstruction k' permute d JP) garbage') [] ops'
        a.result (spongeConstruction k' permute d JP))

theorem card_lanes : Fintype.card Lanes = 2 ^ 1600 := card_words 64 25

/-- If no inner part occurs twice, equal digests for different messages are equal outputs of different calls of the
permutation. -/
theorem sponge_colliding_entries {d : Nat} (S : SpongeSize d) (h3 : 3 * d ≤ 1600) {JP J : Injector} {k k' : SpongeKind}
    {ops ops' : List Op} {E : Cipher Unit Lanes} {F : List (Entry Unit Lanes) → List Bits} {T : List (Entry Unit Lanes)}
    {L L' : List (Unit × Lanes × Lanes)} (hT : ∀ t ∈ L, ∃ e ∈ T, (e.key, e.x, e.y) = t) (hT' : ∀ t ∈ L', ∃ e ∈ T, (e.key, e.x, e.y) = t)
    (hc : Clean (SpongeBad (innerPart (spongeBlockBits d)) (innerPart (spongeBlockBits d)) (fun x => (laneString x).take d)
      (List.replicate (1600 - spongeBlockBits d) false) F) T)
    (hC : SpongeColliding (E ()) d JP J k k' ops ops')
    (hE : SpongeEvaluated (spongeBlockBits d) E L (spongeInput k (spongeBlockBits d) (streamOf (spongeBlockBits d) ops)))
    (hE' : SpongeEvaluated (spongeBlockBits d) E L' (spongeInput k' (spongeBlockBits d) (streamOf (spongeBlockBits d) ops'))) :
    ∃ e e', Reach (innerPart (spongeBlockBits d)) (innerPart (spongeBlockBits d)) (List.replicate (1600 - spongeBlockBits d) false) T e ∧
      Reach (innerPart (spongeBlockBits d)) (innerPart (spongeBlockBits d)) (List.replicate (1600 - spongeBlockBits d) false) T e' ∧
      laneString e.y = absorbBlocks 1600 (spongeBlockBits d) (onStrings (E ()))
        (spongeInput k (spongeBlockBits d) (streamOf (spongeBlockBits d) ops)) ∧
      e ≠ e' ∧ (laneString e.y).take d = (laneString e'.y).take d := by
  have hF := S.facts
  have hr : spongeBlockBits d ≤ 1600 := hF.2.2.1
  have hdr : d ≤ spongeBlockBits d := by unfold spongeBlockBits; omega
  obtain ⟨g, g', hg, hg', hdig⟩ := hC.digest
  have hlen : ∀ (k : SpongeKind) (m : Bits), ∀ x ∈ spongeInput k (spongeBlockBits d) m,
    x.length = spongeBlockBits d := fun k m x hx => length_of_mem_blocks hx
  have R1 := fun {p} (hp : p <+: _) h0 => reach_prefix hr E hT (hlen _ _) hE (p := p) hp h0
  have R2 := fun {p} (hp : p <+: _) h0 => reach_prefix hr E hT' (hlen _ _) hE' (p := p) hp h0
  have hzero : ∀ {e : Entry Unit Lanes}, Reach (innerPart (spongeBlockBits d)) (innerPart (spongeBlockBits d)) (List.replicate (1600 - spongeBlockBits d) false)
      T e → (laneString e.y).drop (spongeBlockBits d) ≠ (List.replicate 1600 false).drop (spongeBlockBits d) := by
    intro e he h
    rw [List.drop_replicate] at h
    exact reach_zero hc he h
  rcases C76_sponge_collision _ _ (E ()) (E ()).injective S JP J g g' hg hg' _ _
    (fun op ho => hC.wellTyped op (List.mem_append_left _ ho)) (fun op ho => hC.wellTyped op (List.mem_append_right _ ho))
    hC.extracts.1 hC.extracts.2
    hC.good.1 hC.good.2 hC.different hdig with hcol | hcol | hcol | hcol
  · obtain ⟨e, h1, h2⟩ := R1 (List.prefix_refl _) (spongeInput_ne_nil hF.1 _ _)
    obtain ⟨e', h1', h2'⟩ := R2 (List.prefix_refl _) (spongeInput_ne_nil hF.1 _ _)
    obtain ⟨hne, hs⟩ := hcol
    change squeeze (spongeBlockBits d) _ _ d = squeeze (spongeBlockBits d) _ _ d at hs
    rw [squeeze_take hdr hF.1 _ _ (length_absorbBlocks (length_onStrings _) _) hr,
      squeeze_take hdr hF.1 _ _ (length_absorbBlocks (length_onStrings _) _) hr] at hs
    change (absorbBlocks 1600 (spongeBlockBits d) _ _).take d = (absorbBlocks 1600 (spongeBlockBits d) _ _).take d at hs
    refine ⟨e, e', h1, h1', h2, fun this => hne ?_, by rw [h2, h2']; exact hs⟩
    change absorbBlocks 1600 (spongeBlockBits d) _ _ = absorbBlocks 1600 (spongeBlockBits d) _ _
    exact (h2.symm.trans (by rw [this])).trans h2'
  · exfalso
    obtain ⟨p, p', hp, hp', hcap, hrate⟩ := hcol
    change (absorbBlocks 1600 (spongeBlockBits d) _ _).drop (spongeBlockBits d) =
      (absorbBlocks 1600 (spongeBlockBits d) _ _).drop (spongeBlockBits d) at hcap
    by_cases h0 : p = [] <;> by_cases h0' : p' = []
    · rw [h0, h0'] at hrate
      exact hrate rfl
    · obtain ⟨e, h1, h2⟩ := R2 hp' h0'
      apply hzero h1
      rw [h2, ← hcap, h0]
      rfl
    · obtain ⟨e, h1, h2⟩ := R1 hp h0
      apply hzero h1
      rw [h2, hcap, h0']
      rfl
    · obtain ⟨e, h1, h2⟩ := R1 hp h0
      obtain ⟨e', h1', h2'⟩ := R2 hp' h0'
      have := reach_inner hc h1 h1' (by unfold innerPart; rw [h2, h2']; exact hcap)
      apply hrate
      change (absorbBlocks 1600 (spongeBlockBits d) _ _).take _ = (absorbBlocks 1600 (spongeBlockBits d) _ _).take _
      rw [← h2, ← h2', this]
  · exfalso
    obtain ⟨p, hp, h0, hz⟩ := hcol
    obtain ⟨e, h1, h2⟩ := R1 hp h0
    apply hzero h1
    rw [h2]
    exact congrArg (List.drop _) hz
  · exfalso
    obtain ⟨p, hp, h0, hz⟩ := hcol
    obtain ⟨e, h1, h2⟩ := R2 hp h0
    apply hzero h1
    rw [h2]
    exact congrArg (List.drop _) hz

/-- **C92.** For the Keccak and SHA-3 hashes as the library builds them: an attacker that asks at most `q` queries to a random
permutation and its inverse, those for its own two messages included, makes the library return the same digest for different
messages, or for the same message in the two families, with probability at most `q (q - 1) / 2` times `2^-d` plus `q^2` times
`2^-2d`, up to the factor `2^1600 / (2^1600 - q)`. -/
theorem C92_collision {d : Nat} (S : SpongeSize d) (h3 : 3 * d ≤ 1600) (JP J : Injector)
    (A : Attacker Unit Lanes ((SpongeKind × List Op) × (SpongeKind × List Op))) (q : Nat) (hA : A.AtMost q) (hq : q < 2 ^ 1600) :
    prob (fun E =>
      let a := (A.result E).1
      let b := (A.result E).2
      SpongeColliding (E ()) d JP J a.1 b.1 a.2 b.2 ∧
      SpongeEvaluated (spongeBlockBits d) E (A.learns E) (spongeInput a.1 (spongeBlockBits d) (streamOf (spongeBlockBits d) a.2)) ∧
      SpongeEvaluated (spongeBlockBits d) E (A.learns E) (spongeInput b.1 (spongeBlockBits d) (streamOf (spongeBlockBits d) b.2))) ≤
      ((q : ℚ) ^ 2 * 2 ^ (1600 - 2 * d) + q * (q - 1) / 2 * 2 ^ (1600 - d)) / (2 ^ 1600 - q) := by
  have hr : spongeBlockBits d ≤ 1600 := S.facts.2.2.1
  refine le_trans (sponge_collision_bound (cin := innerPart (spongeBlockBits d)) (cout := innerPart (spongeBlockBits d)) (out := fun x => (laneString x).take d)
    (List.replicate (1600 - spongeBlockBits d) false) (card_cap_le hr) (card_cap_le hr) (card_out_le d) A q hA (by rw [card_lanes]; exact hq) _ ?_)
    (le_of_eq (by rw [card_lanes]; push_cast; rfl))
  rintro E hc ⟨hC, hE, hE'⟩
  have hAg : Agrees E ([] : List (Entry Unit Lanes)) := by intro e he; cases he
  have hT := learns_table E A [] hAg
  obtain ⟨e, e', h1, h1', -, hne, ho⟩ := sponge_colliding_entries S h3 hT hT hc hC hE hE'
  exact hne (clean_output hc h1 h1' ho)

/-- **C92, preimages.** The probability that the library returns a given digest for the message of the attacker. -/
theorem C92_preimage {d : Nat} (S : SpongeSize d) (h3 : 3 * d ≤ 1600) (JP J : Injector) (k : SpongeKind)
    (A : Attacker Unit Lanes (List Op)) (q : Nat) (hA : A.AtMost q) (hq : q < 2 ^ 1600) (target garbage : Bits)
    (hgb : garbage.length = spongeBlockBits d) :
    prob (fun E => (∀ op ∈ A.result E, op.WellTyped (spongeBlockBits d)) ∧ GoodExtracts (spongeBlockBits d) SpongeGood [] (A.result E) ∧
      SpongeGood (streamOf (spongeBlockBits d) (A.result E)) ∧
      (do let (a, _) ← runOps (spongeConstruction k (E ()) d JP) J (Acc.init (spongeConstruction k (E ()) d JP) garbage) []
            (A.result E)
          a.result (spongeConstruction k (E ()) d JP)) = .ok target ∧
      SpongeEvaluated (spongeBlockBits d) E (A.learns E)
        (spongeInput k (spongeBlockBits d) (streamOf (spongeBlockBits d) (A.result E)))) ≤
      ((q : ℚ) ^ 2 * 2 ^ (1600 - 2 * d) + q * 2 ^ (1600 - d)) / (2 ^ 1600 - q) := by
  have hF := S.facts
  have hr : spongeBlockBits d ≤ 1600 := hF.2.2.1
  have hdr : d ≤ spongeBlockBits d := by unfold spongeBlockBits; omega
  refine le_trans (sponge_preimage_bound (cin := innerPart (spongeBlockBits d)) (cout := innerPart (spongeBlockBits d)) (out := fun x => (laneString x).take d)
    (List.replicate (1600 - spongeBlockBits d) false) (card_cap_le hr) (card_cap_le hr) (card_out_le d) A q hA (by rw [card_lanes]; exact hq)
    (flipOctets target) _ ?_) (le_of_eq (by rw [card_lanes]; push_cast; rfl))
  rintro E hc ⟨hwt, hx, hg, hres, hE⟩
  have hAg : Agrees E ([] : List (Entry Unit Lanes)) := by intro e he; cases he
  obtain ⟨a, e, r⟩ := (sponge_verified k (E ()) JP S).extraction J garbage hgb _ hwt
    (Or.inl hg.2) hx hg
  rw [e] at hres
  replace hres : a.result (spongeConstruction k (E ()) d JP) = .ok target := hres
  rw [r] at hres
  have h1 := congrArg flipOctets (Except.ok.inj hres)
  unfold spongeSpec at h1
  rw [flipOctets_flipOctets _ (by rw [length_sponge _ S]; exact hF.2.2.2.1)] at h1
  obtain ⟨x, hx, hs⟩ := reach_prefix hr E (learns_table E A [] hAg) (fun x hx => length_of_mem_blocks hx) hE
    (List.prefix_refl _) (spongeInput_ne_nil hF.1 _ _)
  refine clean_target hc hx ?_
  rw [← h1, hs]
  exact (squeeze_take hdr hF.1 _ _ (length_absorbBlocks (length_onStrings _) _) hr).symm

/-! ### Attackers that do not hash their own messages -/

/-- The attacker that absorbs the blocks `P` and returns `x`. -/
def absorbing {R : Type _} (r : Nat) (P : List Bits) (x : R) : Attacker Unit Lanes R :=
  walk (fun _ => ()) (fun v b => spongeQuery r (laneString v) b) (fun _ y => y) x P (stringLanes (List.replicate 1600 false))

theorem chain_absorb (r : Nat) (E : Cipher Unit Lanes) (P : List Bits) :
    laneString (chain E (fun _ => ()) (fun v b => spongeQuery r (laneString v) b) (fun _ y => y) P
      (stringLanes (List.replicate 1600 false))) = absorbBlocks 1600 r (onStrings (E ())) P := by
  induction P using List.reverseRecOn with
  | nil => exact laneString_stringLanes _ List.length_replicate
  | append_singleton P b ih =>
    rw [absorbBlocks_snoc, ← ih]
    unfold chain
    rw [List.foldl_append]
    rfl

theorem evaluated_absorbing {R : Type _} (r : Nat) (P : List Bits) (x : R) (E : Cipher Unit Lanes) :
    SpongeEvaluated r E ((absorbing r P x).learns E) P := by
  intro i b hi
  have := learns_walk (fun _ => ()) (fun v b => spongeQuery r (laneString v) b) (fun _ y => y) E x P
    (stringLanes (List.replicate 1600 false)) hi
  rw [chain_absorb] at this
  exact this

/-- **C92, any attacker.** The blocks of the two messages, at most `l`, are counted as queries. -/
theorem C92_collision_any {d : Nat} (S : SpongeSize d) (h3 : 3 * d ≤ 1600) (JP J : Injector)
    (A : Attacker Unit Lanes ((SpongeKind × List Op) × (SpongeKind × List Op))) (q l : Nat) (hA : A.AtMost q) (hq : q + l < 2 ^ 1600) :
    prob (fun E =>
      let a := (A.result E).1
      let b := (A.result E).2
      SpongeColliding (E ()) d JP J a.1 b.1 a.2 b.2 ∧
      (spongeInput a.1 (spongeBlockBits d) (streamOf (spongeBlockBits d) a.2)).length +
        (spongeInput b.1 (spongeBlockBits d) (streamOf (spongeBlockBits d) b.2)).length ≤ l) ≤
      ((q + l : ℚ) ^ 2 * 2 ^ (1600 - 2 * d) + (q + l) * (q + l - 1) / 2 * 2 ^ (1600 - d)) / (2 ^ 1600 - (q + l)) := by
  let P : SpongeKind × List Op → List Bits := fun a => spongeInput a.1 (spongeBlockBits d) (streamOf (spongeBlockBits d) a.2)
  let f : (SpongeKind × List Op) × (SpongeKind × List Op) → Attacker Unit Lanes ((SpongeKind × List Op) × (SpongeKind × List Op)) :=
    fun r => if (P r.1).length + (P r.2).length ≤ l then
      andThen (absorbing (spongeBlockBits d) (P r.1) r) fun _ => absorbing (spongeBlockBits d) (P r.2) r
    else .done r
  have hf : ∀ r, (f r).AtMost l := by
    intro r
    show (ite _ _ _ : Attacker _ _ _).AtMost l
    split
    · rename_i hl
      refine atMost_mono (q := (P r.1).length + (P r.2).length) ?_ hl
      exact atMost_andThen (atMost_walk _ _ _ _ _ _) fun _ => atMost_walk _ _ _ _ _ _
    · trivial
  have hr : ∀ E r, (f r).result E = r := by
    intro E r
    show (ite _ _ _ : Attacker _ _ _).result E = r
    split
    · rw [result_andThen, absorbing, result_walk]
    · rfl
  have hres : ∀ E, (andThen A f).result E = A.result E := fun E => by rw [result_andThen, hr]
  have key := C92_collision S h3 JP J (andThen A f) (q + l) (atMost_andThen hA hf) hq
  simp only [hres] at key
  refine le_trans (prob_mono fun E hE => ⟨hE.1, ?_, ?_⟩) (le_trans key (le_of_eq (by push_cast; rfl)))
  · intro i b hi
    rw [learns_andThen]
    refine List.mem_append_right _ ?_
    show _ ∈ (ite _ _ _ : Attacker _ _ _).learns E
    rw [if_pos hE.2, learns_andThen]
    exact List.mem_append_left _ (evaluated_absorbing _ _ _ E i b hi)
  · intro i b hi
    rw [learns_andThen]
    refine List.mem_append_right _ ?_
    show _ ∈ (ite _ _ _ : Attacker _ _ _).learns E
    rw [if_pos hE.2, learns_andThen]
    exact List.mem_append_right _ (evaluated_absorbing _ _ _ E i b hi)

/-- **C92, preimages, any attacker.** -/
theorem C92_preimage_any {d : Nat} (S : SpongeSize d) (h3 : 3 * d ≤ 1600) (JP J : Injector) (k : SpongeKind)
    (A : Attacker Unit Lanes (List Op)) (q l : Nat) (hA : A.AtMost q) (hq : q + l < 2 ^ 1600) (target garbage : Bits)
    (hgb : garbage.length = spongeBlockBits d) :
    prob (fun E => (∀ op ∈ A.result E, op.WellTyped (spongeBlockBits d)) ∧ GoodExtracts (spongeBlockBits d) SpongeGood [] (A.result E) ∧
      SpongeGood (streamOf (spongeBlockBits d) (A.result E)) ∧
      (do let (a, _) ← runOps (spongeConstruction k (E ()) d JP) J (Acc.init (spongeConstruction k (E ()) d JP) garbage) []
            (A.result E)
          a.result (spongeConstruction k (E ()) d JP)) = .ok target ∧
      (spongeInput k (spongeBlockBits d) (streamOf (spongeBlockBits d) (A.result E))).length ≤ l) ≤
      ((q + l : ℚ) ^ 2 * 2 ^ (1600 - 2 * d) + (q + l) * 2 ^ (1600 - d)) / (2 ^ 1600 - (q + l)) := by
  let P : List Op → List Bits := fun a => spongeInput k (spongeBlockBits d) (streamOf (spongeBlockBits d) a)
  let f : List Op → Attacker Unit Lanes (List Op) := fun r =>
    if (P r).length ≤ l then absorbing (spongeBlockBits d) (P r) r else .done r
  have hf : ∀ r, (f r).AtMost l := by
    intro r
    show (ite _ _ _ : Attacker _ _ _).AtMost l
    split
    · rename_i hl
      exact atMost_mono (atMost_walk _ _ _ _ _ _) hl
    · trivial
  have hr : ∀ E r, (f r).result E = r := by
    intro E r
    show (ite _ _ _ : Attacker _ _ _).result E = r
    split
    · rw [absorbing, result_walk]
    · rfl
  have hres : ∀ E, (andThen A f).result E = A.result E := fun E => by rw [result_andThen, hr]
  have key := C92_preimage S h3 JP J k (andThen A f) (q + l) (atMost_andThen hA hf) hq target garbage hgb
  simp only [hres] at key
  refine le_trans (prob_mono fun E hE => ⟨hE.1, hE.2.1, hE.2.2.1, hE.2.2.2.1, ?_⟩) (le_trans key (le_of_eq (by push_cast; rfl)))
  intro i b hi
  rw [learns_andThen]
  refine List.mem_append_right _ ?_
  show _ ∈ (ite _ _ _ : Attacker _ _ _).learns E
  rw [if_pos hE.2.2.2.2]
  exact evaluated_absorbing _ _ _ E i b hi

/-- The sizes of the library. -/
theorem C92_sizes : ∀ d ∈ [224, 256, 384, 512], SpongeSize d ∧ 3 * d ≤ 1600 := by
  intro d hd
  simp only [List.mem_cons, List.not_mem_nil, or_false] at hd
  rcases hd with rfl | rfl | rfl | rfl
  exacts [⟨sizes.1, by omega⟩, ⟨sizes.2.1, by omega⟩, ⟨sizes.2.2.1, by omega⟩, ⟨sizes.2.2.2, by omega⟩]

/-- A message of 40 bytes: 39 zeros and `x`. -/
def forty (x : Nat) : List Op := [spongeBytes 256 (List.replicate 39 0 ++ [x])]

theorem forty_good (x : Nat) : SpongeGood (streamOf 1088 (forty x)) := by
  have h : ∀ bs : List Nat, bs.length = 40 → (streamOf 1088 [spongeBytes 256 bs]).length = 320 := by
    intro bs hb
    simp [streamOf, spongeBytes, Op.stream, wordElem, Endian.view, hb, List.map_const']
  have := h (List.replicate 39 0 ++ [x]) (by rw [List.length_append, List.length_replicate]; rfl)
  rw [show [spongeBytes 256 (List.replicate 39 0 ++ [x])] = forty x from rfl] at this
  exact ⟨by rw [this]; decide, by rw [this]; decide⟩

theorem forty_wellTyped (x : Nat) : ∀ op ∈ forty x, op.WellTyped 1088 := by
  intro op hop
  rw [List.mem_singleton.1 hop]; exact spongeBytes_wellTyped sizes.2.1 _

theorem forty_blocks : (spongeInput .sha3 1088 (streamOf 1088 (forty 0))).length = 1 ∧
    (spongeInput .sha3 1088 (streamOf 1088 (forty 1))).length = 1 := by decide +kernel

theorem atMost_absorbing {R : Type _} (r : Nat) (P : List Bits) (x : R) {q : Nat} (h : P.length = q) :
    (absorbing r P x).AtMost q := h ▸ atMost_walk _ _ _ _ _ _

theorem two_lt : 2 < 2 ^ 1600 := lt_of_lt_of_le (by norm_num : 2 < 2 ^ 2) (Nat.pow_le_pow_right (by norm_num) (by norm_num))

/-- The event is not empty: with the identity as permutation two messages collide. -/
example : SpongeColliding (Equiv.refl Lanes) 256 spliceInjector spliceInjector .sha3 .sha3 (forty 0) (forty 1) where
  wellTyped := by
    intro op ho
    rcases List.mem_append.1 ho with ho | ho
    · exact forty_wellTyped 0 op ho
    · exact forty_wellTyped 1 op ho
  extracts := ⟨trivial, trivial⟩
  good := ⟨forty_good 0, forty_good 1⟩
  different := by decide +kernel
  digest := by
    obtain ⟨a, e, r⟩ := (sponge_verified .sha3 (Equiv.refl Lanes) spliceInjector sizes.2.1).extraction spliceInjector
      (List.replicate 1088 true) List.length_replicate (forty 0) (forty_wellTyped 0)
      (Or.inl (forty_good 0).2) trivial (forty_good 0)
    obtain ⟨a', e', r'⟩ := (sponge_verified .sha3 (Equiv.refl Lanes) spliceInjector sizes.2.1).extraction spliceInjector
      (List.replicate 1088 false) List.length_replicate (forty 1) (forty_wellTyped 1)
      (Or.inl (forty_good 1).2) trivial (forty_good 1)
    refine ⟨List.replicate 1088 true, List.replicate 1088 false, List.length_replicate, List.length_replicate, ?_⟩
    rw [e, e']
    show a.result (spongeConstruction .sha3 (Equiv.refl Lanes) 256 spliceInjector) =
      a'.result (spongeConstruction .sha3 (Equiv.refl Lanes) 256 spliceInjector)
    rw [r, r']
    exact congrArg Except.ok (by decide +kernel)

/-- Two fixed messages of SHA3-256 collide for a fraction of about `2^-256` of all permutations. -/
example : prob (fun E : Cipher Unit Lanes =>
      SpongeColliding (E ()) 256 spliceInjector spliceInjector .sha3 .sha3 (forty 0) (forty 1)) ≤
    ((2 : ℚ) ^ 2 * 2 ^ 1088 + 2 ^ 1344) / (2 ^ 1600 - 2) := by
  have := C92_collision_any sizes.2.1 (by omega) spliceInjector spliceInjector (.done ((.sha3, forty 0), (.sha3, forty 1))) 0 2 trivial
    (by rw [Nat.zero_add]; exact two_lt)
  refine le_trans (prob_mono fun E hE => ⟨hE, ?_⟩) (le_trans this (le_of_eq ?_))
  · rw [show 1600 - 2 * 256 = 1088 from rfl, show 1600 - 256 = 1344 from rfl]
    push_cast
    rw [zero_add, show (2 : ℚ) * (2 - 1) / 2 = 1 by norm_num, one_mul]
  · exact le_of_eq (congrArg₂ (· + ·) forty_blocks.1 forty_blocks.2)

attribute [local irreducible] Attacker.AtMost

/-- The attacker that hashes the two messages. -/
def fortyTwice : Attacker Unit Lanes ((SpongeKind × List Op) × (SpongeKind × List Op)) :=
  andThen (absorbing 1088 (spongeInput .sha3 1088 (streamOf 1088 (forty 0))) ()) fun _ =>
    absorbing 1088 (spongeInput .sha3 1088 (streamOf 1088 (forty 1))) ((SpongeKind.sha3, forty 0), (SpongeKind.sha3, forty 1))

theorem fortyTwice_atMost : fortyTwice.AtMost 2 := by
  have h : fortyTwice.AtMost (1 + 1) := by
    unfold fortyTwice
    exact atMost_andThen (atMost_absorbing _ _ _ forty_blocks.1) fun _ => atMost_absorbing _ _ _ forty_blocks.2
  exact h

theorem fortyTwice_run (E : Cipher Unit Lanes) : fortyTwice.result E = ((.sha3, forty 0), (.sha3, forty 1)) ∧
    SpongeEvaluated 1088 E (fortyTwice.learns E) (spongeInput .sha3 1088 (streamOf 1088 (forty 0))) ∧
    SpongeEvaluated 1088 E (fortyTwice.learns E) (spongeInput .sha3 1088 (streamOf 1088 (forty 1))) := by
  unfold fortyTwice
  rw [result_andThen, learns_andThen]
  exact ⟨result_walk _ _ _ _ _ _ _, fun i b hi => List.mem_append_left _ (evaluated_absorbing _ _ _ E i b hi),
    fun i b hi => List.mem_append_right _ (evaluated_absorbing _ _ _ E i b hi)⟩

/-- The same from the bound for attackers that hash their messages. -/
example : prob (fun E : Cipher Unit Lanes =>
      SpongeColliding (E ()) 256 spliceInjector spliceInjector .sha3 .sha3 (forty 0) (forty 1)) ≤
    ((2 : ℚ) ^ 2 * 2 ^ 1088 + 2 ^ 1344) / (2 ^ 1600 - 2) := by
  have := C92_collision sizes.2.1 (by omega) spliceInjector spliceInjector fortyTwice 2 fortyTwice_atMost two_lt
  refine le_trans (prob_mono fun E hE => ?_) (le_trans this (le_of_eq ?_))
  · rw [(fortyTwice_run E).1]
    exact ⟨hE, (fortyTwice_run E).2⟩
  · rw [show 1600 - 2 * 256 = 1088 from rfl, show 1600 - 256 = 1344 from rfl, Nat.cast_ofNat,
      show (2 : ℚ) * (2 - 1) / 2 = 1 by norm_num, one_mul]

/-- A fixed message has a given digest for a fraction of about `2^-256` of all permutations. -/
example (target : Bits) : prob (fun E : Cipher Unit Lanes =>
      (do let (a, _) ← runOps (spongeConstruction .sha3 (E ()) 256 spliceInjector) spliceInjector
            (Acc.init (spongeConstruction .sha3 (E ()) 256 spliceInjector) (List.replicate 1088 true)) [] (forty 1)
          a.result (spongeConstruction .sha3 (E ()) 256 spliceInjector)) = .ok target) ≤
    ((2 : ℚ) ^ 1088 + 2 ^ 1344) / (2 ^ 1600 - 1) := by
  have := C92_preimage_any sizes.2.1 (by omega) spliceInjector spliceInjector .sha3 (.done (forty 1)) 0 1 (by unfold Attacker.AtMost; trivial)
    (lt_trans (by norm_num) two_lt) target (List.replicate 1088 true) List.length_replicate
  refine le_trans (prob_mono fun E hE => ⟨forty_wellTyped 1, trivial, forty_good 1, hE,
    le_of_eq forty_blocks.2⟩) (le_trans this (le_of_eq ?_))
  rw [show 1600 - 2 * 256 = 1088 from rfl, show 1600 - 256 = 1344 from rfl]
  push_cast
  rw [zero_add, one_pow, one_mul, one_mul]

example (target : Bits) : prob (fun E : Cipher Unit Lanes =>
      (do let (a, _) ← runOps (spongeConstruction .sha3 (E ()) 256 spliceInjector) spliceInjector
            (Acc.init (spongeConstruction .sha3 (E ()) 256 spliceInjector) (List.replicate 1088 true)) [] (forty 1)
          a.result (spongeConstruction .sha3 (E ()) 256 spliceInjector)) = .ok target) ≤
    ((2 : ℚ) ^ 1088 + 2 ^ 1344) / (2 ^ 1600 - 1) := by
  have hA : (absorbing 1088 (spongeInput .sha3 1088 (streamOf 1088 (forty 1))) (forty 1)).AtMost 1 :=
    atMost_absorbing 1088 (spongeInput .sha3 1088 (streamOf 1088 (forty 1))) (forty 1) (q := 1) forty_blocks.2
  have := C92_preimage sizes.2.1 (by omega) spliceInjector spliceInjector .sha3
    (absorbing 1088 (spongeInput .sha3 1088 (streamOf 1088 (forty 1))) (forty 1)) 1 hA
    (lt_trans (by norm_num) two_lt) target (List.replicate 1088 true) List.length_replicate
  refine le_trans (prob_mono fun E hE => ?_) (le_trans this (le_of_eq ?_))
  · have hr : (absorbing 1088 (spongeInput .sha3 1088 (streamOf 1088 (forty 1))) (forty 1)).result E = forty 1 :=
      result_walk _ _ _ _ _ _ _
    rw [hr]
    exact ⟨forty_wellTyped 1, trivial, forty_good 1, hE, evaluated_absorbing _ _ _ E⟩
  rw [show 1600 - 2 * 256 = 1088 from rfl, show 1600 - 256 = 1344 from rfl]
  push_cast
  rw [one_pow, one_mul, one_mul]

end Verif.Props
