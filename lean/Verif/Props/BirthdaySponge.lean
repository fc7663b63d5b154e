import Verif.Proof.PermLaw
import Verif.Props.Birthday
/-
C119: the bounds of C92 and C93 are attained: birthday attack and exhaustive search against the sponge hashes over a random
permutation and against BLAKE2b over a random cipher.
-/
namespace Verif.Props

open Spec Spec.Ideal Verif.Ideal

variable {q d : Nat}

/-! ### Sponge hashes -/

/-- The state before the only call of the permutation. -/
def oneState (c : SpongeCall d) : Lanes :=
  spongeQuery (spongeBlockBits d) (laneString (stringLanes (List.replicate 1600 false)))
    ((spongeInput c.kind (spongeBlockBits d) (streamOf (spongeBlockBits d) c.ops)).headD [])

/-- The digest of a state. -/
def stateDigest (S : SpongeSize d) (y : Lanes) : Fin d → Bool := (librarySponge S).digest y

theorem spongeInput_single {c : SpongeCall d} (h1 : c.cost = 1) :
    spongeInput c.kind (spongeBlockBits d) (streamOf (spongeBlockBits d) c.ops) =
      [(spongeInput c.kind (spongeBlockBits d) (streamOf (spongeBlockBits d) c.ops)).headD []] := by
  obtain ⟨b, hb⟩ := List.length_eq_one_iff.1 (show (spongeInput c.kind (spongeBlockBits d) (streamOf (spongeBlockBits d) c.ops)).length = 1 from h1)
  rw [hb]
  rfl

theorem sponge_single (S : SpongeSize d) (h3 : 3 * d ≤ 1600) (JP J : Injector) (E : Cipher Unit Lanes) {c : SpongeCall d}
    (h1 : c.cost = 1) : c.digest (E ()) JP J = .ok (List.ofFn (stateDigest S (E () (oneState c)))) := by
  rw [digest_library S h3, pad_library, spongeInput_single h1]
  rfl

theorem oneState_injective (S : SpongeSize d) (c : Fin q → SpongeCall d) (h1 : ∀ i, (c i).cost = 1)
    (hne : Function.Injective fun i => (c i).message.1) : Function.Injective fun i => oneState (c i) := by
  intro i j e
  apply hne
  have hm : ∀ i, (spongeInput (c i).kind (spongeBlockBits d) (streamOf (spongeBlockBits d) (c i).ops)).headD [] ∈
      (librarySponge S).pad (c i).message := fun i => by
    rw [pad_library, spongeInput_single (h1 i)]
    exact List.mem_singleton_self _
  have e1 := (librarySponge S).diff_add (librarySponge S).s0 _ _ (hm i)
  have e2 := (librarySponge S).diff_add (librarySponge S).s0 _ _ (hm j)
  have e : (librarySponge S).add (librarySponge S).s0 ((spongeInput (c i).kind (spongeBlockBits d)
      (streamOf (spongeBlockBits d) (c i).ops)).headD []) = (librarySponge S).add (librarySponge S).s0
      ((spongeInput (c j).kind (spongeBlockBits d) (streamOf (spongeBlockBits d) (c j).ops)).headD []) := e
  rw [e] at e1
  have e3 := e1.symm.trans e2
  have e4 : spongeInput (c i).kind (spongeBlockBits d) (streamOf (spongeBlockBits d) (c i).ops) =
      spongeInput (c j).kind (spongeBlockBits d) (streamOf (spongeBlockBits d) (c j).ops) := by
    rw [spongeInput_single (h1 i), spongeInput_single (h1 j), e3]
  obtain ⟨h1, h2⟩ := spongeInput_injective S.facts.1 (c i).good.1 (c j).good.1 e4
  exact Prod.ext h1 h2

theorem digest_le_lanes (S : SpongeSize d) : d ≤ 1600 := by have := S.lt; omega

theorem family_pos (S : SpongeSize d) (c : Fin q → SpongeCall d) (h1 : ∀ i, (c i).cost = 1)
    (hne : Function.Injective fun i => (c i).message.1) : ((Fintype.card Lanes).descFactorial q : ℚ) ≠ 0 := by
  have hq := Fintype.card_le_of_injective _ (oneState_injective S c h1 hne)
  rw [Fintype.card_fin] at hq
  exact Nat.cast_ne_zero.2 fun h => by
    rw [Nat.descFactorial_eq_zero_iff_lt] at h
    exact absurd hq (not_le.2 h)

open Classical in
/-- **C119, sponges, birthday attack.** The probability that two of `q` different messages of one block have the same digest. -/
theorem C119_sponge_birthday (S : SpongeSize d) (h3 : 3 * d ≤ 1600) (JP J : Injector) (c : Fin q → SpongeCall d)
    (h1 : ∀ i, (c i).cost = 1) (hne : Function.Injective fun i => (c i).message.1) :
    prob (fun E => ∃ i j, i ≠ j ∧ (c i).digest (E ()) JP J = (c j).digest (E ()) JP J) =
      1 - ((2 ^ d).descFactorial q * (2 ^ (1600 - d)) ^ q : ℚ) / (2 ^ 1600).descFactorial q := by
  have hd := digest_le_lanes S
  have key := prob_family ⟨fun i => oneState (c i), oneState_injective S c h1 hne⟩
    fun y : Fin q → Lanes => ¬ Function.Injective fun i => stateDigest S (y i)
  have e1 : (fun E : Cipher Unit Lanes => ∃ i j, i ≠ j ∧ (c i).digest (E ()) JP J = (c j).digest (E ()) JP J) =
      fun E => ¬ Function.Injective fun i => stateDigest S (E () (oneState (c i))) := by
    funext E
    apply propext
    simp only [sponge_single S h3 JP J E (h1 _)]
    constructor
    · rintro ⟨i, j, hij, e⟩ hi
      exact hij (hi (List.ofFn_injective (Except.ok.inj e)))
    · intro hi
      rw [Function.Injective] at hi
      push Not at hi
      obtain ⟨i, j, e, hij⟩ := hi
      exact ⟨i, j, hij, by rw [e]⟩
  rw [e1]
  refine key.trans ?_
  have e2 := card_family_injective (q := q) (digestSplit S.facts.2.2.2.1 hd)
  rw [card_strings, card_strings] at e2
  have e3 := Finset.card_filter_add_card_filter_not (s := Finset.univ)
    (fun y : Fin q ↪ Lanes => Function.Injective fun i => stateDigest S (y i))
  rw [Finset.card_univ, Fintype.card_embedding_eq, Fintype.card_fin] at e3
  have e4 : (Finset.univ.filter fun y : Fin q ↪ Lanes => Function.Injective fun i => stateDigest S (y i)).card =
      (2 ^ d).descFactorial q * (2 ^ (1600 - d)) ^ q := by
    rw [← e2]
    congr!
  have hpos := family_pos S c h1 hne
  rw [e4] at e3
  rw [← card_lanes, eq_sub_iff_add_eq, ← add_div, div_eq_one_iff_eq hpos, add_comm]
  exact_mod_cast e3

open Classical in
/-- **C119, sponges, exhaustive search.** The probability that one of `q` different messages of one block has a given digest. -/
theorem C119_sponge_search (S : SpongeSize d) (h3 : 3 * d ≤ 1600) (JP J : Injector) (c : Fin q → SpongeCall d)
    (h1 : ∀ i, (c i).cost = 1) (hne : Function.Injective fun i => (c i).message.1) (target : Bits) (ht : target.length = d) :
    prob (fun E => ∃ i, (c i).digest (E ()) JP J = .ok target) =
      1 - ((2 ^ 1600 - 2 ^ (1600 - d)).descFactorial q : ℚ) / (2 ^ 1600).descFactorial q := by
  have hd := digest_le_lanes S
  obtain ⟨u, rfl⟩ : ∃ u : Fin d → Bool, List.ofFn u = target :=
    ⟨bitsAt target 0 _, by rw [ofFn_bitsAt (by omega), List.drop_zero, ← ht, List.take_length]⟩
  have key := prob_family ⟨fun i => oneState (c i), oneState_injective S c h1 hne⟩
    fun y : Fin q → Lanes => ¬ ∀ i, stateDigest S (y i) ≠ u
  have e1 : (fun E : Cipher Unit Lanes => ∃ i, (c i).digest (E ()) JP J = .ok (List.ofFn u)) =
      fun E => ¬ ∀ i, stateDigest S (E () (oneState (c i))) ≠ u := by
    funext E
    apply propext
    simp only [sponge_single S h3 JP J E (h1 _)]
    push Not
    exact ⟨fun ⟨i, e⟩ => ⟨i, List.ofFn_injective (Except.ok.inj e)⟩, fun ⟨i, e⟩ => ⟨i, by rw [e]⟩⟩
  rw [e1]
  refine key.trans ?_
  have e2 := card_family_avoid (q := q) (digestSplit S.facts.2.2.2.1 hd) u
  rw [card_strings, card_lanes] at e2
  have e3 := Finset.card_filter_add_card_filter_not (s := Finset.univ) (fun y : Fin q ↪ Lanes => ∀ i, stateDigest S (y i) ≠ u)
  rw [Finset.card_univ, Fintype.card_embedding_eq, Fintype.card_fin] at e3
  have e4 : (Finset.univ.filter fun y : Fin q ↪ Lanes => ∀ i, stateDigest S (y i) ≠ u).card =
      (2 ^ 1600 - 2 ^ (1600 - d)).descFactorial q := by
    rw [← e2]
    congr!
  have hpos := family_pos S c h1 hne
  rw [e4] at e3
  rw [← card_lanes, eq_sub_iff_add_eq, ← add_div, div_eq_one_iff_eq hpos, add_comm, card_lanes]
  rw [card_lanes] at e3
  exact_mod_cast e3

theorem cut_birthday_lower {d w : Nat} (hd : d ≤ w) (q : Nat) :
    (q * (q - 1) * (2 ^ (w - d) - 1) / (q * (q - 1) * (2 ^ (w - d) - 1) + 2 * 2 ^ w) : ℚ) ≤
      1 - ((2 ^ d).descFactorial q * (2 ^ (w - d)) ^ q : ℚ) / (2 ^ w).descFactorial q := by
  have hM : (1 : ℚ) ≤ 2 ^ (w - d) := one_le_pow₀ (by norm_num)
  have hqq : (0 : ℚ) ≤ q * (q - 1) := by
    rcases Nat.eq_zero_or_pos q with rfl | hq
    · simp
    · have : (1 : ℚ) ≤ q := by exact_mod_cast hq
      exact mul_nonneg (by linarith) (by linarith)
  have hqm : (0 : ℚ) ≤ q * (q - 1) * (2 ^ (w - d) - 1) := mul_nonneg hqq (by linarith)
  have hX : (0 : ℚ) < 2 ^ w := by positivity
  have := cut_birthday_le (N := 2 ^ d) (M := 2 ^ (w - d)) (Nat.two_pow_pos _) (Nat.two_pow_pos _) q
  rw [show 2 ^ d * 2 ^ (w - d) = 2 ^ w by rw [← pow_add]; congr 1; omega] at this
  rw [show ((2 ^ d : Nat) : ℚ) * ((2 ^ (w - d) : Nat) : ℚ) = 2 ^ w by
    push_cast; rw [← pow_add]; congr 1; omega] at this
  push_cast at this
  rw [← le_div_iff₀ (by linarith)] at this
  rw [le_sub_comm]
  refine le_trans (le_of_eq ?_) (le_trans this (le_of_eq ?_))
  · norm_cast
  · rw [eq_sub_iff_add_eq, ← add_div, add_comm, div_self (by linarith)]

theorem cut_search_lower {d w : Nat} (hd : d ≤ w) (q : Nat) :
    (q / (q + 2 ^ d) : ℚ) ≤ 1 - ((2 ^ w - 2 ^ (w - d)).descFactorial q : ℚ) / (2 ^ w).descFactorial q := by
  have hN : (0 : ℚ) < 2 ^ d := by positivity
  have hq : (0 : ℚ) ≤ q := Nat.cast_nonneg _
  have := cut_search_le (N := 2 ^ d) (M := 2 ^ (w - d)) (Nat.two_pow_pos _) (Nat.two_pow_pos _) q
  rw [show 2 ^ d * 2 ^ (w - d) = 2 ^ w by rw [← pow_add]; congr 1; omega] at this
  rw [← le_div_iff₀ (by push_cast; linarith)] at this
  rw [le_sub_comm]
  refine le_trans this (le_of_eq ?_)
  push_cast
  rw [eq_sub_iff_add_eq, ← add_div, add_comm, div_self (by linarith)]

/-- Hash all the messages and look for two equal digests. -/
def spongeBirthday (S : SpongeSize d) (c : Fin q → SpongeCall d) :
    Attacker Unit Lanes ((SpongeKind × List Op) × (SpongeKind × List Op)) :=
  askFamily (fun _ => ()) (fun i => oneState (c i)) (fun _ => stateDigest S)
    (pickPair (fun i => ((c i).kind, (c i).ops)) ((.keccak, []), (.keccak, [])))

/-- Hash all the messages and look for the digest. -/
def spongeSearch (S : SpongeSize d) (c : Fin q → SpongeCall d) (u : Fin d → Bool) : Attacker Unit Lanes (List Op) :=
  askFamily (fun _ => ()) (fun i => oneState (c i)) (fun _ => stateDigest S) (pickOne (fun i => (c i).ops) [] u)

/-- **C119, sponges, collisions.** The attacker that hashes `q` different messages of one block asks `q` queries and wins the
game of `C92_collision_any` with at least this probability. -/
theorem C119_sponge_collision (S : SpongeSize d) (h3 : 3 * d ≤ 1600) (JP J : Injector) (c : Fin q → SpongeCall d)
    (h1 : ∀ i, (c i).cost = 1) (hne : Function.Injective fun i => (c i).message.1) :
    (spongeBirthday S c).AtMost q ∧
    (q * (q - 1) * (2 ^ (1600 - d) - 1) / (q * (q - 1) * (2 ^ (1600 - d) - 1) + 2 * 2 ^ 1600) : ℚ) ≤
      prob (fun E =>
        let a := ((spongeBirthday S c).result E).1
        let b := ((spongeBirthday S c).result E).2
        SpongeColliding (E ()) d JP J a.1 b.1 a.2 b.2 ∧
        (spongeInput a.1 (spongeBlockBits d) (streamOf (spongeBlockBits d) a.2)).length +
          (spongeInput b.1 (spongeBlockBits d) (streamOf (spongeBlockBits d) b.2)).length ≤ 2) := by
  have hd := digest_le_lanes S
  refine ⟨atMost_askFamily _ _ _ _, ?_⟩
  refine le_trans ?_ (le_trans (le_of_eq (C119_sponge_birthday S h3 JP J c h1 hne).symm) (prob_mono fun E hE => ?_))
  · exact cut_birthday_lower hd q
  · have hr := result_askFamily E (fun _ : Fin q => ()) (fun i => oneState (c i)) (fun _ => stateDigest S)
      (pickPair (fun i => ((c i).kind, (c i).ops)) ((.keccak, []), (.keccak, [])))
    change (spongeBirthday S c).result E = _ at hr
    obtain ⟨i, j, hij, he⟩ := hE
    rw [sponge_single S h3 JP J E (h1 i), sponge_single S h3 JP J E (h1 j)] at he
    obtain ⟨i, j, hij, e, hp⟩ := pickPair_spec (fun i => ((c i).kind, (c i).ops)) ((.keccak, []), (.keccak, []))
      (fun i => stateDigest S (E () (oneState (c i)))) ⟨i, j, hij, List.ofFn_injective (Except.ok.inj he)⟩
    rw [hr, hp]
    refine ⟨⟨?_, ?_, ⟨(c i).good, (c j).good⟩, fun e => hij (hne e),
      ⟨(c i).garbage, (c j).garbage, (c i).length_garbage, (c j).length_garbage, ?_⟩⟩, le_of_eq (congrArg₂ (· + ·) (h1 i) (h1 j))⟩
    · intro op ho
      exact (List.mem_append.1 ho).elim ((c i).wellTyped op) ((c j).wellTyped op)
    · exact ⟨(c i).extracts, (c j).extracts⟩
    · refine (sponge_single S h3 JP J E (h1 i)).trans (Eq.trans ?_ (sponge_single S h3 JP J E (h1 j)).symm)
      rw [show stateDigest S (E () (oneState (c i))) = stateDigest S (E () (oneState (c j))) from e]

/-- **C119, sponges, preimages.** The attacker that hashes `q` different messages of one block in one family asks `q` queries
and wins the game of `C92_preimage_any` with at least this probability. -/
theorem C119_sponge_preimage (S : SpongeSize d) (h3 : 3 * d ≤ 1600) (JP J : Injector) (k : SpongeKind) (c : Fin q → SpongeCall d)
    (hk : ∀ i, (c i).kind = k) (h1 : ∀ i, (c i).cost = 1) (hne : Function.Injective fun i => (c i).message.1) (u : Fin d → Bool)
    (garbage : Bits) (hgb : garbage.length = spongeBlockBits d) :
    (spongeSearch S c u).AtMost q ∧
    (q / (q + 2 ^ d) : ℚ) ≤
      prob (fun E => (∀ op ∈ (spongeSearch S c u).result E, op.WellTyped (spongeBlockBits d)) ∧
        GoodExtracts (spongeBlockBits d) SpongeGood [] ((spongeSearch S c u).result E) ∧
        SpongeGood (streamOf (spongeBlockBits d) ((spongeSearch S c u).result E)) ∧
        (do let (a, _) ← runOps (spongeConstruction k (E ()) d JP) J (Acc.init (spongeConstruction k (E ()) d JP) garbage) []
              ((spongeSearch S c u).result E)
            a.result (spongeConstruction k (E ()) d JP)) = .ok (List.ofFn u) ∧
        (spongeInput k (spongeBlockBits d) (streamOf (spongeBlockBits d) ((spongeSearch S c u).result E))).length ≤ 1) := by
  have hd := digest_le_lanes S
  refine ⟨atMost_askFamily _ _ _ _, ?_⟩
  refine le_trans ?_ (le_trans (le_of_eq (C119_sponge_search S h3 JP J c h1 hne (List.ofFn u) List.length_ofFn).symm)
    (prob_mono fun E hE => ?_))
  · exact cut_search_lower hd q
  · have hr := result_askFamily E (fun _ : Fin q => ()) (fun i => oneState (c i)) (fun _ => stateDigest S)
      (pickOne (fun i => (c i).ops) [] u)
    change (spongeSearch S c u).result E = _ at hr
    obtain ⟨i, he⟩ := hE
    rw [sponge_single S h3 JP J E (h1 i)] at he
    obtain ⟨j, hj, hp⟩ := pickOne_spec (fun i => (c i).ops) [] u (fun i => stateDigest S (E () (oneState (c i))))
      ⟨i, List.ofFn_injective (Except.ok.inj he)⟩
    rw [hr, hp]
    have hkj := hk j
    subst hkj
    refine ⟨(c j).wellTyped, (c j).extracts, (c j).good, ?_, le_of_eq (h1 j)⟩
    have := sponge_single S h3 JP J E (c := { c j with garbage := garbage, length_garbage := hgb }) (h1 j)
    refine Eq.trans this ?_
    rw [← hj]
    rfl

/-! ### Enough messages of one block -/

/-- The number `i` as a message of 512 bits. -/
def bits512 (i : Nat) : Bits := List.ofFn fun j : Fin 512 => i.testBit j

theorem length_bits512 (i : Nat) : (bits512 i).length = 512 := List.length_ofFn

theorem bits512_injective {i j : Nat} (hi : i < 2 ^ 512) (hj : j < 2 ^ 512) (e : bits512 i = bits512 j) : i = j := by
  have e2 := List.ofFn_injective e
  refine Nat.eq_of_testBit_eq fun k => ?_
  by_cases hk : k < 512
  · exact congrFun e2 ⟨k, hk⟩
  · have hp : 2 ^ 512 ≤ 2 ^ k := Nat.pow_le_pow_right (by omega) (by omega)
    rw [Nat.testBit_lt_two_pow (lt_of_lt_of_le hi hp), Nat.testBit_lt_two_pow (lt_of_lt_of_le hj hp)]

set_option maxRecDepth 4000 in
theorem stream512 (B i : Nat) : streamOf B [Op.block (bits512 i ++ List.replicate (B - 512) false) 512] = bits512 i := by
  unfold streamOf
  rw [List.flatMap_cons, List.flatMap_nil, List.append_nil]
  exact List.take_left' (length_bits512 i)

theorem wellTyped512 {B : Nat} (hB : 512 ≤ B) (i : Nat) :
    ∀ op ∈ [Op.block (bits512 i ++ List.replicate (B - 512) false) 512], op.WellTyped B := by
  intro op ho
  rw [List.mem_singleton.1 ho]
  refine ⟨?_, by omega⟩
  rw [List.length_append, length_bits512, List.length_replicate]
  omega

/-- The call for the number `i`. -/
def spongeNumber (k : SpongeKind) (h3 : 3 * d ≤ 1600) (i : Nat) : SpongeCall d where
  kind := k
  garbage := List.replicate (spongeBlockBits d) false
  ops := [.block (bits512 i ++ List.replicate (spongeBlockBits d - 512) false) 512]
  length_garbage := List.length_replicate
  wellTyped := wellTyped512 (by unfold spongeBlockBits; omega) i
  extracts := trivial
  good := by
    rw [stream512]
    refine ⟨?_, ?_⟩ <;> rw [length_bits512] <;> decide

theorem spongeNumber_cost (k : SpongeKind) (h3 : 3 * d ≤ 1600) (i : Nat) : (spongeNumber k h3 i).cost = 1 := by
  show (spongeInput k (spongeBlockBits d) (streamOf (spongeBlockBits d)
    [Op.block (bits512 i ++ List.replicate (spongeBlockBits d - 512) false) 512])).length = 1
  rw [stream512]
  unfold spongeInput
  have hB : 534 ≤ spongeBlockBits d := by unfold spongeBlockBits; omega
  have hs : k.suffix.length ≤ 2 := by cases k <;> decide
  have hl : (flipOctets (bits512 i) ++ k.suffix).length = 512 + k.suffix.length := by
    rw [List.length_append, length_flipOctets, length_bits512]
  rw [blocks_one (by omega)]
  · rfl
  · rw [List.length_append, hl]
    unfold pad101
    rw [List.length_cons, List.length_append, List.length_replicate, List.length_singleton]
    have := fillTo_within (B := spongeBlockBits d) (n := 512 + k.suffix.length + 2) (by omega) (by omega)
    omega

theorem spongeNumber_injective (k : SpongeKind) (h3 : 3 * d ≤ 1600) (hq : q ≤ 2 ^ 512) :
    Function.Injective fun i : Fin q => (spongeNumber k h3 i).message.1 := by
  intro i j e
  have e1 := (Prod.mk.inj e).2
  have e2 : streamOf (spongeBlockBits d) [Op.block (bits512 i ++ List.replicate (spongeBlockBits d - 512) false) 512] =
    streamOf (spongeBlockBits d) [Op.block (bits512 j ++ List.replicate (spongeBlockBits d - 512) false) 512] := e1
  rw [stream512, stream512] at e2
  exact Fin.ext (bits512_injective (lt_of_lt_of_le i.2 hq) (lt_of_lt_of_le j.2 hq) e2)

/-- **C119, sponges, tightness.** For every number `q` of queries up to `2^512` the best attacker of `C92_collision_any` and
`C92_preimage_any` wins at least this often. -/
theorem C119_sponge_tight (S : SpongeSize d) (h3 : 3 * d ≤ 1600) (JP J : Injector) (k : SpongeKind) (q : Nat) (hq : q ≤ 2 ^ 512)
    (target garbage : Bits) (ht : target.length = d) (hgb : garbage.length = spongeBlockBits d) :
    (∃ A : Attacker Unit Lanes ((SpongeKind × List Op) × (SpongeKind × List Op)), A.AtMost q ∧
      (q * (q - 1) * (2 ^ (1600 - d) - 1) / (q * (q - 1) * (2 ^ (1600 - d) - 1) + 2 * 2 ^ 1600) : ℚ) ≤
        prob (fun E =>
          let a := (A.result E).1
          let b := (A.result E).2
          SpongeColliding (E ()) d JP J a.1 b.1 a.2 b.2 ∧
          (spongeInput a.1 (spongeBlockBits d) (streamOf (spongeBlockBits d) a.2)).length +
            (spongeInput b.1 (spongeBlockBits d) (streamOf (spongeBlockBits d) b.2)).length ≤ 2)) ∧
    ∃ A : Attacker Unit Lanes (List Op), A.AtMost q ∧
      (q / (q + 2 ^ d) : ℚ) ≤
        prob (fun E => (∀ op ∈ A.result E, op.WellTyped (spongeBlockBits d)) ∧ GoodExtracts (spongeBlockBits d) SpongeGood [] (A.result E) ∧
          SpongeGood (streamOf (spongeBlockBits d) (A.result E)) ∧
          (do let (a, _) ← runOps (spongeConstruction k (E ()) d JP) J (Acc.init (spongeConstruction k (E ()) d JP) garbage) []
                (A.result E)
              a.result (spongeConstruction k (E ()) d JP)) = .ok target ∧
          (spongeInput k (spongeBlockBits d) (streamOf (spongeBlockBits d) (A.result E))).length ≤ 1) := by
  refine ⟨⟨_, C119_sponge_collision S h3 JP J (fun i : Fin q => spongeNumber k h3 i) (fun i => spongeNumber_cost k h3 i)
    (spongeNumber_injective k h3 hq)⟩, ?_⟩
  obtain ⟨u, rfl⟩ : ∃ u : Fin d → Bool, List.ofFn u = target :=
    ⟨bitsAt target 0 _, by rw [ofFn_bitsAt (by omega), List.drop_zero, ← ht, List.take_length]⟩
  exact ⟨_, C119_sponge_preimage S h3 JP J k (fun i : Fin q => spongeNumber k h3 i) (fun _ => rfl) (fun i => spongeNumber_cost k h3 i)
    (spongeNumber_injective k h3 hq) u garbage hgb⟩

/-! ### BLAKE2b -/

/-- The block of the only call. -/
def blakeOnly (c : BlakeCall) : Bits := ((haifaInput 1024 (streamOf 1024 c.ops)).headD ([], 0, true)).1

theorem haifaInput_single {c : BlakeCall} (h1 : c.cost = 1) :
    haifaInput 1024 (streamOf 1024 c.ops) = [(blakeOnly c, (streamOf 1024 c.ops).length, true)] := by
  have h1 : (haifaInput 1024 (streamOf 1024 c.ops)).length = 1 := h1
  unfold blakeOnly
  unfold haifaInput at h1 ⊢
  rw [List.length_append, List.length_map, List.length_range, List.length_singleton] at h1
  have h0 : (streamOf 1024 c.ops).length / 1024 = 0 := by omega
  simp only [h0, List.range_zero, List.map_nil, List.nil_append, List.headD_cons]

theorem length_blakeOnly {c : BlakeCall} (h1 : c.cost = 1) : (blakeOnly c).length = 1024 :=
  (haifaInput_call c.octets c.short (by rw [haifaInput_single h1]; exact List.mem_singleton_self _) :
    ((blakeOnly c, (streamOf 1024 c.ops).length, true) : Bits × Nat × Bool).1.length = 1024 ∧ _).1

/-- The input of the only call. -/
def blakePoint (nn len : Nat) : BlakeWork := blakeInputOf (blakeInit (8 * nn)) len true

/-- The digest for the output of the cipher. -/
noncomputable def workDigest {nn : Nat} (hnn : nn ≤ 64) (len : Nat) (y : BlakeWork) : Fin (8 * nn) → Bool :=
  (blakeSplit hnn (blakePoint nn len) y).1

theorem blake_single {nn : Nat} (hnn : nn ≤ 64) (JP J : Injector) (E : Cipher BlakeKey BlakeWork) {c : BlakeCall} (h1 : c.cost = 1)
    {len : Nat} (hl : (streamOf 1024 c.ops).length = len) :
    c.digest (fun k => E k) nn JP J = .ok (List.ofFn (workDigest hnn len (E (blakeKey (blakeOnly c)) (blakePoint nn len)))) := by
  unfold BlakeCall.digest workDigest
  rw [blakeOf_result _ hnn JP J c.garbage c.length_garbage c.ops c.wellTyped c.extracts c.short, haifaInput_single h1, hl,
    blakeSplit_fst, ofFn_bitsAt (by rw [length_view8]; omega), List.drop_zero]
  unfold blakePoint
  rw [lowHalf_input]
  rfl

theorem blakeOnly_injective (c : Fin q → BlakeCall) (h1 : ∀ i, (c i).cost = 1) {len : Nat}
    (hl : ∀ i, (streamOf 1024 (c i).ops).length = len) (hne : Function.Injective fun i => (c i).message.1) :
    Function.Injective fun i => blakeKey (blakeOnly (c i)) := by
  intro i j e
  apply hne
  have e1 := blakeKey_injective (length_blakeOnly (h1 i)) (length_blakeOnly (h1 j)) e
  have e2 : (haifaInput 1024 (streamOf 1024 (c i).ops)).map blakeBlock = (haifaInput 1024 (streamOf 1024 (c j).ops)).map blakeBlock := by
    rw [haifaInput_single (h1 i), haifaInput_single (h1 j), e1, hl, hl]
  exact blakeBlock_injective (c i).octets (c i).short (c j).octets (c j).short e2

theorem card_first {X D R : Type} [Fintype X] [Fintype R] [DecidableEq D] (s : X ≃ D × R) (t : D) :
    (Finset.univ.filter fun y => (s y).1 = t).card = Fintype.card R := by
  rw [← Finset.card_univ]
  refine Finset.card_bij' (fun y _ => (s y).2) (fun r _ => s.symm (t, r)) ?_ ?_ ?_ ?_
  · intro y _
    exact Finset.mem_univ _
  · intro r _
    rw [Finset.mem_filter, Equiv.apply_symm_apply]
    exact ⟨Finset.mem_univ _, rfl⟩
  · intro y hy
    rw [← (Finset.mem_filter.1 hy).2]
    exact Equiv.symm_apply_apply _ _
  · intro r _
    rw [Equiv.apply_symm_apply]

theorem card_workDigest {nn : Nat} (hnn : nn ≤ 64) (len : Nat) (t : Fin (8 * nn) → Bool) :
    (Finset.univ.filter fun y => workDigest hnn len y = t).card = 2 ^ (1024 - 8 * nn) :=
  (card_first (blakeSplit hnn (blakePoint nn len)) t).trans (card_strings _)

open Classical in
/-- **C119, BLAKE2b, distribution.** Over a random cipher the digests of `q` different messages of one block and one length are
independent and uniform. -/
theorem C119_blake_law {nn : Nat} (hnn : nn ≤ 64) (JP J : Injector) (c : Fin q → BlakeCall) (h1 : ∀ i, (c i).cost = 1) {len : Nat}
    (hl : ∀ i, (streamOf 1024 (c i).ops).length = len) (hne : Function.Injective fun i => (c i).message.1)
    (P : (Fin q → Except Fault Bits) → Prop) :
    prob (fun E => P fun i => (c i).digest (fun k => E k) nn JP J) =
      (Finset.univ.filter fun t : Fin q → Fin (8 * nn) → Bool => P fun i => .ok (List.ofFn (t i))).card / (2 : ℚ) ^ (8 * nn * q) := by
  have key := prob_values (fun i => blakeKey (blakeOnly (c i))) (blakeOnly_injective c h1 hl hne) (fun _ => blakePoint nn len)
    (fun _ y => workDigest hnn len y) _ (fun _ t => card_workDigest hnn len t)
    (fun t : Fin q → Fin (8 * nn) → Bool => P fun i => .ok (List.ofFn (t i)))
  rw [card_strings] at key
  push_cast at key
  rw [← pow_mul] at key
  rw [← key]
  congr 1
  funext E
  have : (fun i => (c i).digest (fun k => E k) nn JP J) =
      fun i => .ok (List.ofFn (workDigest hnn len (E (blakeKey (blakeOnly (c i))) (blakePoint nn len)))) :=
    funext fun i => blake_single hnn JP J E (h1 i) (hl i)
  rw [this]

open Classical in
/-- **C119, BLAKE2b, birthday attack.** -/
theorem C119_blake_birthday {nn : Nat} (hnn : nn ≤ 64) (JP J : Injector) (c : Fin q → BlakeCall) (h1 : ∀ i, (c i).cost = 1) {len : Nat}
    (hl : ∀ i, (streamOf 1024 (c i).ops).length = len) (hne : Function.Injective fun i => (c i).message.1) :
    prob (fun E => ∃ i j, i ≠ j ∧ (c i).digest (fun k => E k) nn JP J = (c j).digest (fun k => E k) nn JP J) =
      1 - ((2 ^ (8 * nn)).descFactorial q : ℚ) / 2 ^ (8 * nn * q) := by
  have key := C119_blake_law hnn JP J c h1 hl hne fun t => ∃ i j, i ≠ j ∧ t i = t j
  rw [key]
  refine Eq.trans ?_ (card_collide (8 * nn) q)
  congr!

open Classical in
/-- **C119, BLAKE2b, exhaustive search.** -/
theorem C119_blake_search {nn : Nat} (hnn : nn ≤ 64) (JP J : Injector) (c : Fin q → BlakeCall) (h1 : ∀ i, (c i).cost = 1) {len : Nat}
    (hl : ∀ i, (streamOf 1024 (c i).ops).length = len) (hne : Function.Injective fun i => (c i).message.1)
    (target : Bits) (ht : target.length = 8 * nn) :
    prob (fun E => ∃ i, (c i).digest (fun k => E k) nn JP J = .ok target) =
      1 - (((2 : ℚ) ^ (8 * nn) - 1) / 2 ^ (8 * nn)) ^ q := by
  have key := C119_blake_law hnn JP J c h1 hl hne fun t => ∃ i, t i = .ok target
  rw [key]
  obtain ⟨u, rfl⟩ : ∃ u : Fin (8 * nn) → Bool, List.ofFn u = target :=
    ⟨bitsAt target 0 _, by rw [ofFn_bitsAt (by omega), List.drop_zero, ← ht, List.take_length]⟩
  refine Eq.trans ?_ (card_hit (8 * nn) q u)
  congr!

/-- Hash all the messages and look for two equal digests. -/
noncomputable def blakeBirthday {nn : Nat} (hnn : nn ≤ 64) (len : Nat) (c : Fin q → BlakeCall) :
    Attacker BlakeKey BlakeWork (List Op × List Op) :=
  askFamily (fun i => blakeKey (blakeOnly (c i))) (fun _ => blakePoint nn len) (fun _ => workDigest hnn len)
    (pickPair (fun i => (c i).ops) ([], []))

/-- Hash all the messages and look for the digest. -/
noncomputable def blakeSearch {nn : Nat} (hnn : nn ≤ 64) (len : Nat) (c : Fin q → BlakeCall) (u : Fin (8 * nn) → Bool) :
    Attacker BlakeKey BlakeWork (List Op) :=
  askFamily (fun i => blakeKey (blakeOnly (c i))) (fun _ => blakePoint nn len) (fun _ => workDigest hnn len)
    (pickOne (fun i => (c i).ops) [] u)

/-- **C119, BLAKE2b, collisions.** The game is that of `C93_collision_any`. -/
theorem C119_blake_collision {nn : Nat} (hnn : nn ≤ 64) (JP J : Injector) (c : Fin q → BlakeCall) (h1 : ∀ i, (c i).cost = 1) {len : Nat}
    (hl : ∀ i, (streamOf 1024 (c i).ops).length = len) (hne : Function.Injective fun i => (c i).message.1) :
    (blakeBirthday hnn len c).AtMost q ∧
    (q * (q - 1) / (q * (q - 1) + 2 * 2 ^ (8 * nn)) : ℚ) ≤
      prob (fun E => BlakeColliding (fun k => E k) nn JP J ((blakeBirthday hnn len c).result E).1
          ((blakeBirthday hnn len c).result E).2 ∧
        (haifaInput 1024 (streamOf 1024 ((blakeBirthday hnn len c).result E).1)).length +
          (haifaInput 1024 (streamOf 1024 ((blakeBirthday hnn len c).result E).2)).length ≤ 2) := by
  refine ⟨atMost_askFamily _ _ _ _, ?_⟩
  refine le_trans (birthday_lower _ _) (le_trans (le_of_eq (C119_blake_birthday hnn JP J c h1 hl hne).symm) (prob_mono fun E hE => ?_))
  have hr := result_askFamily E (fun i => blakeKey (blakeOnly (c i))) (fun _ => blakePoint nn len) (fun _ => workDigest hnn len)
    (pickPair (fun i => (c i).ops) ([], []))
  change (blakeBirthday hnn len c).result E = _ at hr
  obtain ⟨i, j, hij, he⟩ := hE
  rw [blake_single hnn JP J E (h1 i) (hl i), blake_single hnn JP J E (h1 j) (hl j)] at he
  obtain ⟨i, j, hij, e, hp⟩ := pickPair_spec (fun i => (c i).ops) ([], [])
    (fun i => workDigest hnn len (E (blakeKey (blakeOnly (c i))) (blakePoint nn len))) ⟨i, j, hij, List.ofFn_injective (Except.ok.inj he)⟩
  rw [hr, hp]
  refine ⟨⟨?_, ?_, ⟨(c i).short, (c j).short⟩, ⟨(c i).octets, (c j).octets⟩, fun e => hij (hne e),
    ⟨(c i).garbage, (c j).garbage, (c i).length_garbage, (c j).length_garbage, ?_⟩⟩, le_of_eq (congrArg₂ (· + ·) (h1 i) (h1 j))⟩
  · intro op ho
    exact (List.mem_append.1 ho).elim ((c i).wellTyped op) ((c j).wellTyped op)
  · exact ⟨(c i).extracts, (c j).extracts⟩
  · refine (blake_single hnn JP J E (h1 i) (hl i)).trans (Eq.trans ?_ (blake_single hnn JP J E (h1 j) (hl j)).symm)
    rw [show workDigest hnn len (E (blakeKey (blakeOnly (c i))) (blakePoint nn len)) =
      workDigest hnn len (E (blakeKey (blakeOnly (c j))) (blakePoint nn len)) from e]

/-- **C119, BLAKE2b, preimages.** The game is that of `C93_preimage_any`. -/
theorem C119_blake_preimage {nn : Nat} (hnn : nn ≤ 64) (JP J : Injector) (c : Fin q → BlakeCall) (h1 : ∀ i, (c i).cost = 1) {len : Nat}
    (hl : ∀ i, (streamOf 1024 (c i).ops).length = len) (hne : Function.Injective fun i => (c i).message.1)
    (u : Fin (8 * nn) → Bool) (garbage : Bits) (hgb : garbage.length = 1024) :
    (blakeSearch hnn len c u).AtMost q ∧
    (q / (q + 2 ^ (8 * nn)) : ℚ) ≤
      prob (fun E => (∀ op ∈ (blakeSearch hnn len c u).result E, op.WellTyped 1024) ∧ GoodExtracts 1024 HaifaGood [] ((blakeSearch hnn len c u).result E) ∧
        (streamOf 1024 ((blakeSearch hnn len c u).result E)).length < 2 ^ 64 ∧
        (do let (a, _) ← runOps (blakeConstructionOf (fun k => E k) (8 * nn) JP) J
              (Acc.init (blakeConstructionOf (fun k => E k) (8 * nn) JP) garbage) [] ((blakeSearch hnn len c u).result E)
            a.result (blakeConstructionOf (fun k => E k) (8 * nn) JP)) = .ok (List.ofFn u) ∧
        (haifaInput 1024 (streamOf 1024 ((blakeSearch hnn len c u).result E))).length ≤ 1) := by
  refine ⟨atMost_askFamily _ _ _ _, ?_⟩
  refine le_trans (search_lower _ _) (le_trans (le_of_eq (C119_blake_search hnn JP J c h1 hl hne (List.ofFn u) List.length_ofFn).symm)
    (prob_mono fun E hE => ?_))
  have hr := result_askFamily E (fun i => blakeKey (blakeOnly (c i))) (fun _ => blakePoint nn len) (fun _ => workDigest hnn len)
    (pickOne (fun i => (c i).ops) [] u)
  change (blakeSearch hnn len c u).result E = _ at hr
  obtain ⟨i, he⟩ := hE
  rw [blake_single hnn JP J E (h1 i) (hl i)] at he
  obtain ⟨j, hj, hp⟩ := pickOne_spec (fun i => (c i).ops) [] u
    (fun i => workDigest hnn len (E (blakeKey (blakeOnly (c i))) (blakePoint nn len))) ⟨i, List.ofFn_injective (Except.ok.inj he)⟩
  rw [hr, hp]
  refine ⟨(c j).wellTyped, (c j).extracts, (c j).short, ?_, le_of_eq (h1 j)⟩
  have := blake_single hnn JP J E (c := { c j with garbage := garbage, length_garbage := hgb }) (h1 j) (hl j)
  refine Eq.trans this ?_
  rw [← hj]
  rfl

/-- The call for the number `i`. -/
def blakeNumber (i : Nat) : BlakeCall where
  garbage := List.replicate 1024 false
  ops := [.block (bits512 i ++ List.replicate (1024 - 512) false) 512]
  length_garbage := List.length_replicate
  wellTyped := wellTyped512 (by omega) i
  extracts := trivial
  octets := by
    rw [stream512, length_bits512]
    decide
  short := by
    rw [stream512, length_bits512]
    decide

theorem blakeNumber_stream (i : Nat) : streamOf 1024 (blakeNumber i).ops = bits512 i := stream512 1024 i

theorem blakeNumber_cost (i : Nat) : (blakeNumber i).cost = 1 := by
  unfold BlakeCall.cost haifaInput
  rw [blakeNumber_stream, length_bits512]
  rfl

set_option maxRecDepth 4000 in
theorem blakeNumber_injective (hq : q ≤ 2 ^ 512) : Function.Injective fun i : Fin q => (blakeNumber i).message.1 := by
  intro i j e
  have e1 : bits512 i = bits512 j := by
    change streamOf 1024 (blakeNumber i).ops = streamOf 1024 (blakeNumber j).ops at e
    rwa [blakeNumber_stream, blakeNumber_stream] at e
  exact Fin.ext (bits512_injective (lt_of_lt_of_le i.2 hq) (lt_of_lt_of_le j.2 hq) e1)

/-- **C119, BLAKE2b, tightness.** For every number `q` of queries up to `2^512` the best attacker of `C93_collision_any` and
`C93_preimage_any` wins at least this often. -/
theorem C119_blake_tight {nn : Nat} (hnn : nn ≤ 64) (JP J : Injector) (q : Nat) (hq : q ≤ 2 ^ 512)
    (target garbage : Bits) (ht : target.length = 8 * nn) (hgb : garbage.length = 1024) :
    (∃ A : Attacker BlakeKey BlakeWork (List Op × List Op), A.AtMost q ∧
      (q * (q - 1) / (q * (q - 1) + 2 * 2 ^ (8 * nn)) : ℚ) ≤
        prob (fun E => BlakeColliding (fun k => E k) nn JP J (A.result E).1 (A.result E).2 ∧
          (haifaInput 1024 (streamOf 1024 (A.result E).1)).length + (haifaInput 1024 (streamOf 1024 (A.result E).2)).length ≤ 2)) ∧
    ∃ A : Attacker BlakeKey BlakeWork (List Op), A.AtMost q ∧
      (q / (q + 2 ^ (8 * nn)) : ℚ) ≤
        prob (fun E => (∀ op ∈ A.result E, op.WellTyped 1024) ∧ GoodExtracts 1024 HaifaGood [] (A.result E) ∧
          (streamOf 1024 (A.result E)).length < 2 ^ 64 ∧
          (do let (a, _) ← runOps (blakeConstructionOf (fun k => E k) (8 * nn) JP) J
                (Acc.init (blakeConstructionOf (fun k => E k) (8 * nn) JP) garbage) [] (A.result E)
              a.result (blakeConstructionOf (fun k => E k) (8 * nn) JP)) = .ok target ∧
          (haifaInput 1024 (streamOf 1024 (A.result E))).length ≤ 1) := by
  have hl : ∀ i : Fin q, (streamOf 1024 (blakeNumber i).ops).length = 512 := fun i => by rw [blakeNumber_stream, length_bits512]
  refine ⟨⟨_, C119_blake_collision hnn JP J (fun i : Fin q => blakeNumber i) (fun i => blakeNumber_cost i) hl
    (blakeNumber_injective hq)⟩, ?_⟩
  obtain ⟨u, rfl⟩ : ∃ u : Fin (8 * nn) → Bool, List.ofFn u = target :=
    ⟨bitsAt target 0 _, by rw [ofFn_bitsAt (by omega), List.drop_zero, ← ht, List.take_length]⟩
  exact ⟨_, C119_blake_preimage hnn JP J (fun i : Fin q => blakeNumber i) (fun i => blakeNumber_cost i) hl
    (blakeNumber_injective hq) u garbage hgb⟩

/-! ### Examples -/

theorem three256 : 3 * 256 ≤ 1600 := by decide

theorem sponge256 : SpongeSize 256 := (C92_sizes 256 (by decide)).1

set_option exponentiation.threshold 1700 in
/-- SHA3-256 over a random permutation: `2^128` queries find a collision with probability above one quarter. -/
example : ∃ A : Attacker Unit Lanes ((SpongeKind × List Op) × (SpongeKind × List Op)), A.AtMost (2 ^ 128) ∧
    (1 / 4 : ℚ) ≤ prob (fun E => SpongeColliding (E ()) 256 spliceInjector spliceInjector (A.result E).1.1 (A.result E).2.1
      (A.result E).1.2 (A.result E).2.2) := by
  obtain ⟨A, h1, h2⟩ := (C119_sponge_tight sponge256 three256 spliceInjector spliceInjector .sha3 (2 ^ 128)
    (Nat.pow_le_pow_right (by decide) (by decide)) (List.replicate 256 true) (List.replicate (spongeBlockBits 256) true) List.length_replicate
    List.length_replicate).1
  refine ⟨A, h1, le_trans ?_ (le_trans h2 (prob_mono fun E hE => hE.1))⟩
  norm_num

/-- `2^256` queries find a message with a given digest with probability at least one half. -/
example (target : Bits) (ht : target.length = 256) : ∃ A : Attacker Unit Lanes (List Op), A.AtMost (2 ^ 256) ∧
    (1 / 2 : ℚ) ≤ prob (fun E =>
      (do let (a, _) ← runOps (spongeConstruction .sha3 (E ()) 256 spliceInjector) spliceInjector
            (Acc.init (spongeConstruction .sha3 (E ()) 256 spliceInjector) (List.replicate (spongeBlockBits 256) true)) [] (A.result E)
          a.result (spongeConstruction .sha3 (E ()) 256 spliceInjector)) = .ok target) := by
  obtain ⟨A, h1, h2⟩ := (C119_sponge_tight sponge256 three256 spliceInjector spliceInjector .sha3 (2 ^ 256)
    (Nat.pow_le_pow_right (by decide) (by decide)) target (List.replicate (spongeBlockBits 256) true) ht List.length_replicate).2
  refine ⟨A, h1, le_trans ?_ (le_trans h2 (prob_mono fun E hE => hE.2.2.2.1))⟩
  norm_num

set_option exponentiation.threshold 3300 in
/-- Two messages: less often than for a random function, where it is `2^-256`. -/
example : prob (fun E => ∃ i j : Fin 2, i ≠ j ∧
      (spongeNumber (d := 256) .sha3 three256 i).digest (E ()) spliceInjector spliceInjector =
      (spongeNumber (d := 256) .sha3 three256 j).digest (E ()) spliceInjector spliceInjector) =
    ((2 : ℚ) ^ 1344 - 1) / (2 ^ 1600 - 1) := by
  rw [C119_sponge_birthday sponge256 three256 spliceInjector spliceInjector
    (fun i : Fin 2 => spongeNumber (d := 256) .sha3 three256 i) (fun i => spongeNumber_cost _ _ _)
    (spongeNumber_injective _ _ (by decide))]
  rw [Nat.descFactorial_succ, Nat.descFactorial_one, Nat.descFactorial_succ, Nat.descFactorial_one]
  norm_num

set_option exponentiation.threshold 3300 in
/-- Two messages and a digest. -/
example (target : Bits) (ht : target.length = 256) : prob (fun E => ∃ i : Fin 2,
      (spongeNumber (d := 256) .keccak three256 i).digest (E ()) spliceInjector spliceInjector = .ok target) =
    1 - (1 - 1 / (2 : ℚ) ^ 256) * (1 - 2 ^ 1344 / (2 ^ 1600 - 1)) := by
  rw [C119_sponge_search sponge256 three256 spliceInjector spliceInjector
    (fun i : Fin 2 => spongeNumber (d := 256) .keccak three256 i) (fun i => spongeNumber_cost _ _ _)
    (spongeNumber_injective _ _ (by decide)) target ht]
  rw [Nat.descFactorial_succ, Nat.descFactorial_one, Nat.descFactorial_succ, Nat.descFactorial_one]
  norm_num

set_option exponentiation.threshold 600 in
/-- BLAKE2b-512 over a random cipher: `2^256` queries find a collision with probability above one quarter. -/
example : ∃ A : Attacker BlakeKey BlakeWork (List Op × List Op), A.AtMost (2 ^ 256) ∧
    (1 / 4 : ℚ) ≤ prob (fun E => BlakeColliding (fun k => E k) 64 spliceInjector spliceInjector (A.result E).1 (A.result E).2) := by
  obtain ⟨A, h1, h2⟩ := (C119_blake_tight (nn := 64) le_rfl spliceInjector spliceInjector (2 ^ 256)
    (Nat.pow_le_pow_right (by decide) (by decide)) (List.replicate 512 true) (List.replicate 1024 true) List.length_replicate
    List.length_replicate).1
  refine ⟨A, h1, le_trans ?_ (le_trans h2 (prob_mono fun E hE => hE.1))⟩
  norm_num

/-- BLAKE2b-512: `2^512` queries find a message with a given digest with probability at least one half. -/
example (target : Bits) (ht : target.length = 512) : ∃ A : Attacker BlakeKey BlakeWork (List Op), A.AtMost (2 ^ 512) ∧
    (1 / 2 : ℚ) ≤ prob (fun E =>
      (do let (a, _) ← runOps (blakeConstructionOf (fun k => E k) (8 * 64) spliceInjector) spliceInjector
            (Acc.init (blakeConstructionOf (fun k => E k) (8 * 64) spliceInjector) (List.replicate 1024 true)) [] (A.result E)
          a.result (blakeConstructionOf (fun k => E k) (8 * 64) spliceInjector)) = .ok target) := by
  obtain ⟨A, h1, h2⟩ := (C119_blake_tight (nn := 64) le_rfl spliceInjector spliceInjector (2 ^ 512) le_rfl target
    (List.replicate 1024 true) ht List.length_replicate).2
  refine ⟨A, h1, le_trans ?_ (le_trans h2 (prob_mono fun E hE => hE.2.2.2.1))⟩
  rw [Nat.cast_pow, Nat.cast_ofNat, show 8 * 64 = 512 from rfl, le_div_iff₀ (by positivity)]
  linarith

set_option exponentiation.threshold 3300 in
/-- Three messages under BLAKE2b-512: the exact probability of a collision. -/
example : prob (fun E => ∃ i j : Fin 3, i ≠ j ∧ (blakeNumber i).digest (fun k => E k) 64 spliceInjector spliceInjector =
      (blakeNumber j).digest (fun k => E k) 64 spliceInjector spliceInjector) =
    1 - (1 - 1 / (2 : ℚ) ^ 512) * (1 - 2 / (2 : ℚ) ^ 512) := by
  rw [C119_blake_birthday (nn := 64) le_rfl spliceInjector spliceInjector (fun i : Fin 3 => blakeNumber i) (fun i => blakeNumber_cost i)
    (len := 512) (fun i => by rw [blakeNumber_stream, length_bits512]) (blakeNumber_injective (by decide))]
  rw [Nat.descFactorial_succ, Nat.descFactorial_succ, Nat.descFactorial_one]
  norm_num

end Verif.Props
