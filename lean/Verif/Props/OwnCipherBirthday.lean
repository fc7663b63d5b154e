import Verif.Proof.PairLaw
import Verif.Props.Birthday
import Verif.Props.OwnCipher
/-
C124: the bounds of C122 are attained.  Over random ciphers in place of the passes of Tiger and of the lines of RIPEMD the digests of
different messages of one block are independent and uniform.
-/
namespace Verif.Props

open Spec Spec.Ideal Verif.Ideal

variable {w n q : Nat} {h : MDHash} {K : Type}

namespace Feed

/-- The digest of a message of the one block `b`. -/
def blockDigest (F : Feed h K w n) (E : K → Vector (BitVec w) n → Vector (BitVec w) n) (b : Bits) : Fin (standard h).digest → Bool :=
  bitsAt (h.policy.endian.arrayView (F.step E F.iv b)) 0 (standard h).digest

/-- The digests of different blocks are independent and uniform. -/
def Uniform [Fintype K] [DecidableEq K] (F : Feed h K w n) : Prop :=
  ∀ (q : Nat) (b : Fin q → Bits), Function.Injective b → (∀ i, (b i).length = (standard h).block) →
    ∀ (P : (Fin q → Fin (standard h).digest → Bool) → Prop) [DecidablePred P],
      prob (fun E => P fun i => F.blockDigest (fun k => E k) (b i)) = (Finset.univ.filter P).card / (2 : ℚ) ^ ((standard h).digest * q)

theorem view_bijective (h8 : 8 ∣ w) (hfull : (standard h).digest = n * w) :
    Function.Bijective fun v : Vector (BitVec w) n => bitsAt (h.policy.endian.arrayView v) 0 (standard h).digest := by
  rw [Fintype.bijective_iff_injective_and_card]
  constructor
  · intro v v' e
    have e1 := congrArg List.ofFn e
    simp only [] at e1
    rw [ofFn_bitsAt (by rw [length_arrayView']; omega), ofFn_bitsAt (by rw [length_arrayView']; omega), List.drop_zero, List.drop_zero,
      List.take_of_length_le (by rw [length_arrayView']; omega), List.take_of_length_le (by rw [length_arrayView']; omega)] at e1
    exact arrayView_injective _ h8 e1
  · rw [card_words, card_strings, hfull]

theorem bijective_of_injective {X : Type} [Finite X] {f : X → X} (hf : Function.Injective f) : Function.Bijective f :=
  Finite.injective_iff_bijective.1 hf

theorem card_fibre {X D : Type} [Fintype X] [DecidableEq D] {f : X → D} (hf : Function.Bijective f) (d : D) :
    (Finset.univ.filter fun y => f y = d).card = 1 := by
  obtain ⟨y, hy⟩ := hf.2 d
  refine Finset.card_eq_one.2 ⟨y, ?_⟩
  ext z
  rw [Finset.mem_filter, Finset.mem_singleton]
  exact ⟨fun e => hf.1 (e.2.trans hy.symm), fun e => ⟨Finset.mem_univ _, e ▸ hy⟩⟩

section uniform
variable [Fintype K] [DecidableEq K] (h8 : 8 ∣ w) (hfull : (standard h).digest = n * w)
include h8 hfull

theorem One.uniform {F : Feed h K w n} {key : Bits → K} {ff : Vector (BitVec w) n → Vector (BitVec w) n → Vector (BitVec w) n}
    (O : F.One key ff) : F.Uniform := by
  intro q b hb hl P _
  have hk : Function.Injective fun i => key (b i) := fun i j e => hb (O.key_injective _ _ (hl i) (hl j) e)
  have hbij : Function.Bijective fun y => bitsAt (h.policy.endian.arrayView (ff F.iv y)) 0 (standard h).digest :=
    (view_bijective h8 hfull).comp (bijective_of_injective (O.right F.iv))
  have := prob_values _ hk (fun _ => F.iv) (fun _ y => bitsAt (h.policy.endian.arrayView (ff F.iv y)) 0 (standard h).digest) 1
    (fun _ d => card_fibre hbij d) P
  rw [card_strings] at this
  push_cast at this
  rw [← pow_mul] at this
  rw [← this]
  congr 1
  funext E
  congr 1
  funext i
  simp only [blockDigest, step, O.keys, List.map_cons, List.map_nil, O.join]

theorem Two.uniform {F : Feed h (K × Bool) w n} {key : Bits → K}
    {ff : Vector (BitVec w) n → Vector (BitVec w) n → Vector (BitVec w) n → Vector (BitVec w) n} (O : F.Two key ff) : F.Uniform := by
  intro q b hb hl P _
  have hk : Function.Injective fun i => key (b i) := fun i j e => hb (O.key_injective _ _ (hl i) (hl j) e)
  have hbij : ∀ z, Function.Bijective fun y => bitsAt (h.policy.endian.arrayView (ff F.iv y z)) 0 (standard h).digest := fun z =>
    (view_bijective h8 hfull).comp (bijective_of_injective (O.injective.left F.iv z))
  have := prob_values_pair _ hk (fun _ => F.iv) (fun _ y z => bitsAt (h.policy.endian.arrayView (ff F.iv y z)) 0 (standard h).digest)
    (fun _ z => hbij z) P
  rw [card_strings] at this
  push_cast at this
  rw [← pow_mul] at this
  rw [← this]
  congr 1
  funext E
  congr 1
  funext i
  simp only [blockDigest, step, O.keys, List.map_cons, List.map_nil, O.join]

end uniform

/-! ### The attackers -/

/-- Hash the messages of one block `bs`, then decide from the chaining values. -/
def gather {R : Type _} (F : Feed h K w n) : List Bits → (List (Vector (BitVec w) n) → R) → Attacker K (Vector (BitVec w) n) R
  | [], r => .done (r [])
  | b :: bs, r => Feed.askAll F.iv (F.keys b) fun ys => gather F bs fun l => r (F.join F.iv ys :: l)

theorem atMost_gather {R : Type _} (F : Feed h K w n) {c : Nat} (hc : ∀ b, (F.keys b).length = c) (bs : List Bits)
    (r : List (Vector (BitVec w) n) → R) : (F.gather bs r).AtMost (c * bs.length) := by
  induction bs generalizing r with
  | nil => trivial
  | cons b bs ih =>
    rw [List.length_cons, Nat.mul_succ, Nat.add_comm, ← hc b]
    refine Feed.atMost_askAll _ _ _ fun ys => ?_
    rw [hc b]
    exact ih _

theorem result_gather {R : Type _} (F : Feed h K w n) (E : Cipher K (Vector (BitVec w) n)) (bs : List Bits)
    (r : List (Vector (BitVec w) n) → R) : (F.gather bs r).result E = r (bs.map (F.step (fun k => E k) F.iv)) := by
  induction bs generalizing r with
  | nil => rfl
  | cons b bs ih =>
    rw [gather, Feed.result_askAll]
    exact ih _

/-- Hash the messages `c` and decide from the digests. -/
def gatherDigests {R : Type _} (F : Feed h K w n) (c : Fin q → MDCall h) (r : (Fin q → Fin (standard h).digest → Bool) → R) :
    Attacker K (Vector (BitVec w) n) R :=
  F.gather (List.ofFn fun i => paddedMessage h (streamOf h.policy.blockBits (c i).ops)) fun l => r fun i =>
    bitsAt (h.policy.endian.arrayView (l.getD i F.iv)) 0 (standard h).digest

theorem atMost_gatherDigests {R : Type _} (F : Feed h K w n) {k : Nat} (hk : ∀ b, (F.keys b).length = k) (c : Fin q → MDCall h)
    (r : (Fin q → Fin (standard h).digest → Bool) → R) : (F.gatherDigests c r).AtMost (k * q) := by
  have := F.atMost_gather hk (List.ofFn fun i => paddedMessage h (streamOf h.policy.blockBits (c i).ops)) fun l => r fun i =>
    bitsAt (h.policy.endian.arrayView (l.getD i F.iv)) 0 (standard h).digest
  rwa [List.length_ofFn] at this

theorem result_gatherDigests {R : Type _} (F : Feed h K w n) (E : Cipher K (Vector (BitVec w) n)) (c : Fin q → MDCall h)
    (r : (Fin q → Fin (standard h).digest → Bool) → R) : (F.gatherDigests c r).result E =
      r fun i => F.blockDigest (fun k => E k) (paddedMessage h (streamOf h.policy.blockBits (c i).ops)) := by
  unfold gatherDigests
  rw [result_gather]
  congr 1
  funext i
  rw [List.getD_eq_getElem?_getD, List.getElem?_map, List.getElem?_ofFn]
  simp [blockDigest]

/-! ### The law -/

section law
variable (F : Feed h K w n) (hw : h.policy.stateBits = n * w) (d0 : Bits) (hd : d0.length = h.policy.digestBits) (J : Injector)

theorem digest_single (E : K → Vector (BitVec w) n → Vector (BitVec w) n) {c : MDCall h} (h1 : c.cost = 1) :
    c.digest (F.hash hw E d0 hd) J = .ok (List.ofFn (F.blockDigest E (paddedMessage h (streamOf h.policy.blockBits c.ops)))) := by
  have hl := digest_le_state h hw
  rw [MDCall.digest_eq, mdDigest, blocks_single h1, blockDigest, ofFn_bitsAt (by rw [length_arrayView']; omega), List.drop_zero]
  rfl

theorem calls_single {k : Nat} (hk : ∀ b, (F.keys b).length = k) {c : MDCall h} (h1 : c.cost = 1) :
    F.calls (streamOf h.policy.blockBits c.ops) = k := by
  unfold calls
  rw [blocks_single h1]
  simp [hk]

theorem padded_injective (c : Fin q → MDCall h) (hne : Function.Injective fun i => (c i).message.1) :
    Function.Injective fun i => paddedMessage h (streamOf h.policy.blockBits (c i).ops) := fun i j e =>
  hne (paddedMessage_injective h (c i).short (c j).short e)

theorem padded_length {c : MDCall h} (h1 : c.cost = 1) :
    (paddedMessage h (streamOf h.policy.blockBits c.ops)).length = (standard h).block := by
  have hl := length_padded_blocks h (streamOf h.policy.blockBits c.ops)
  rwa [blocks_single h1, List.length_singleton, Nat.one_mul] at hl

variable [Fintype K] [DecidableEq K] (U : F.Uniform)
include U

/-- **C124, law.** The joint distribution of what the library returns for different messages of one block is that of independent
uniform strings. -/
theorem law (c : Fin q → MDCall h) (h1 : ∀ i, (c i).cost = 1) (hne : Function.Injective fun i => (c i).message.1)
    (P : (Fin q → Except Fault Bits) → Prop) [DecidablePred P] :
    prob (fun E => P fun i => (c i).digest (F.hash hw (fun k => E k) d0 hd) J) =
      (Finset.univ.filter fun t : Fin q → Fin (standard h).digest → Bool => P fun i => .ok (List.ofFn (t i))).card /
        (2 : ℚ) ^ ((standard h).digest * q) := by
  rw [← U q _ (padded_injective c hne) (fun i => padded_length (h1 i)) fun t => P fun i => .ok (List.ofFn (t i))]
  congr 1
  funext E
  congr 1
  funext i
  exact F.digest_single hw d0 hd J _ (h1 i)

open Classical in
theorem birthday (c : Fin q → MDCall h) (h1 : ∀ i, (c i).cost = 1) (hne : Function.Injective fun i => (c i).message.1) :
    prob (fun E => ∃ i j, i ≠ j ∧ (c i).digest (F.hash hw (fun k => E k) d0 hd) J = (c j).digest (F.hash hw (fun k => E k) d0 hd) J) =
      1 - ((2 ^ (standard h).digest).descFactorial q : ℚ) / 2 ^ ((standard h).digest * q) := by
  have key := F.law hw d0 hd J U c h1 hne fun t => ∃ i j, i ≠ j ∧ t i = t j
  rw [key]
  exact card_collide _ _

open Classical in
theorem search (c : Fin q → MDCall h) (h1 : ∀ i, (c i).cost = 1) (hne : Function.Injective fun i => (c i).message.1)
    (u : Fin (standard h).digest → Bool) :
    prob (fun E => ∃ i, (c i).digest (F.hash hw (fun k => E k) d0 hd) J = .ok (List.ofFn u)) =
      1 - (((2 : ℚ) ^ (standard h).digest - 1) / 2 ^ (standard h).digest) ^ q := by
  have key := F.law hw d0 hd J U c h1 hne fun t => ∃ i, t i = .ok (List.ofFn u)
  rw [key]
  exact card_hit _ _ u

/-- **C124, collisions.** -/
theorem attack_collision {k : Nat} (hk : ∀ b, (F.keys b).length = k) (c : Fin q → MDCall h) (h1 : ∀ i, (c i).cost = 1)
    (hne : Function.Injective fun i => (c i).message.1) :
    ∃ A : Attacker K (Vector (BitVec w) n) (List Op × List Op), A.AtMost (k * q) ∧
      (q * (q - 1) / (q * (q - 1) + 2 * 2 ^ (standard h).digest) : ℚ) ≤
        prob (fun E => Colliding (F.hash hw (fun k => E k) d0 hd) J (A.result E).1 (A.result E).2 ∧
          F.calls (streamOf h.policy.blockBits (A.result E).1) + F.calls (streamOf h.policy.blockBits (A.result E).2) ≤ 2 * k) := by
  refine ⟨F.gatherDigests c (pickPair (fun i => (c i).ops) ([], [])), F.atMost_gatherDigests hk c _,
    le_trans (birthday_lower _ _) (le_trans (le_of_eq (F.birthday hw d0 hd J U c h1 hne).symm) (prob_mono fun E hE => ?_))⟩
  rw [F.result_gatherDigests]
  obtain ⟨i, j, hij, he⟩ := hE
  rw [F.digest_single hw d0 hd J _ (h1 i), F.digest_single hw d0 hd J _ (h1 j)] at he
  obtain ⟨i, j, hij, e, hp⟩ := pickPair_spec (fun i => (c i).ops) ([], [])
    (fun i => F.blockDigest (fun k => E k) (paddedMessage h (streamOf h.policy.blockBits (c i).ops)))
    ⟨i, j, hij, List.ofFn_injective (Except.ok.inj he)⟩
  rw [hp]
  refine ⟨⟨?_, ?_, ⟨(c i).good, (c j).good⟩, ⟨(c i).short, (c j).short⟩, fun e => hij (hne e),
    ⟨(c i).garbage, (c j).garbage, (c i).length_garbage, (c j).length_garbage, ?_⟩⟩, ?_⟩
  · intro op ho
    exact (List.mem_append.1 ho).elim ((c i).wellTyped op) ((c j).wellTyped op)
  · exact ⟨(c i).extracts, (c j).extracts⟩
  · refine (F.digest_single hw d0 hd J _ (h1 i)).trans (Eq.trans ?_ (F.digest_single hw d0 hd J _ (h1 j)).symm)
    rw [e]
  · rw [F.calls_single hk (h1 i), F.calls_single hk (h1 j)]
    omega

/-- **C124, preimages.** -/
theorem attack_preimage {k : Nat} (hk : ∀ b, (F.keys b).length = k) (c : Fin q → MDCall h) (h1 : ∀ i, (c i).cost = 1)
    (hne : Function.Injective fun i => (c i).message.1) (target : Bits) (ht : target.length = (standard h).digest) :
    ∃ A : Attacker K (Vector (BitVec w) n) (List Op), A.AtMost (k * q) ∧
      (q / (q + 2 ^ (standard h).digest) : ℚ) ≤
        prob (fun E => Reaching (F.hash hw (fun k => E k) d0 hd) J target (A.result E) ∧
          F.calls (streamOf h.policy.blockBits (A.result E)) ≤ k) := by
  obtain ⟨u, rfl⟩ : ∃ u : Fin (standard h).digest → Bool, List.ofFn u = target :=
    ⟨bitsAt target 0 _, by rw [ofFn_bitsAt (by omega), List.drop_zero, ← ht, List.take_length]⟩
  refine ⟨F.gatherDigests c (pickOne (fun i => (c i).ops) [] u), F.atMost_gatherDigests hk c _,
    le_trans (search_lower _ _) (le_trans (le_of_eq (F.search hw d0 hd J U c h1 hne u).symm) (prob_mono fun E hE => ?_))⟩
  rw [F.result_gatherDigests]
  obtain ⟨i, he⟩ := hE
  rw [F.digest_single hw d0 hd J _ (h1 i)] at he
  obtain ⟨j, hj, hp⟩ := pickOne_spec (fun i => (c i).ops) [] u
    (fun i => F.blockDigest (fun k => E k) (paddedMessage h (streamOf h.policy.blockBits (c i).ops)))
    ⟨i, List.ofFn_injective (Except.ok.inj he)⟩
  rw [hp]
  refine ⟨⟨(c j).wellTyped, (c j).extracts, (c j).good, (c j).garbage, (c j).length_garbage, ?_⟩, le_of_eq (F.calls_single hk (h1 j))⟩
  refine (F.digest_single hw d0 hd J _ (h1 j)).trans ?_
  rw [hj]

end law

end Feed

open Classical in
theorem card_all_zero (d q : Nat) : (Finset.univ.filter fun t : Fin q → Fin d → Bool =>
    ∀ i, (Except.ok (List.ofFn (t i)) : Except Fault Bits) = .ok (List.ofFn fun _ : Fin d => false)).card = 1 := by
  refine Finset.card_eq_one.2 ⟨fun _ _ => false, ?_⟩
  ext t
  simp only [Finset.mem_filter, Finset.mem_univ, true_and, Finset.mem_singleton]
  constructor
  · intro e
    funext i
    exact List.ofFn_injective (Except.ok.inj (e i))
  · rintro rfl i
    rfl

/-! ### The five hashes -/

theorem tiger_uniform : tigerFeed.Uniform := Feed.One.uniform (by decide) rfl tigerFeed_one

theorem tiger_calls (m : Bits) : tigerFeed.calls m = callsFor .tiger192 m := by
  unfold Feed.calls callsFor
  simp [tigerFeed]

/-- **C124, Tiger, law.** Over a random cipher in place of the passes every property `P` of the
digests of `q` different messages of one block has the probability that it has for independent uniform strings of 192 bits. -/
theorem C124_tiger_law (d0 : Bits) (hd : d0.length = 192) (J : Injector) (c : Fin q → MDCall .tiger192) (h1 : ∀ i, (c i).cost = 1)
    (hne : Function.Injective fun i => (c i).message.1) (P : (Fin q → Except Fault Bits) → Prop) [DecidablePred P] :
    prob (fun E => P fun i => (c i).digest (tigerFeed.hash rfl (fun k => E k) d0 hd) J) =
      (Finset.univ.filter fun t : Fin q → Fin 192 → Bool => P fun i => .ok (List.ofFn (t i))).card / (2 : ℚ) ^ (192 * q) :=
  tigerFeed.law rfl d0 hd J tiger_uniform c h1 hne P

/-- **C124, Tiger, collisions.** The game is that of `C122_tiger_collision`. -/
theorem C124_tiger_collision (d0 : Bits) (hd : d0.length = 192) (J : Injector) (q : Nat) (hq : q ≤ 2 ^ 256) :
    ∃ A : Attacker (Vector Tiger.W 8) (Vector Tiger.W 3) (List Op × List Op), A.AtMost (q) ∧
      (q * (q - 1) / (q * (q - 1) + 2 * 2 ^ 192) : ℚ) ≤
        prob (fun E => Colliding (tigerFeed.hash rfl (fun k => E k) d0 hd) J (A.result E).1 (A.result E).2 ∧
          callsFor .tiger192 (streamOf 512 (A.result E).1) + callsFor .tiger192 (streamOf 512 (A.result E).2) ≤ 2) := by
  obtain ⟨A, h1, h2⟩ := tigerFeed.attack_collision (k := 1) rfl d0 hd J tiger_uniform (fun _ => rfl) (numberedCall .tiger192 q)
    (numberedCall_cost _ q) (numberedCall_injective _ hq)
  simp only [tiger_calls, Nat.one_mul] at h1 h2
  exact ⟨A, h1, h2⟩

/-- **C124, Tiger, preimages.** The game is that of `C122_tiger_preimage`. -/
theorem C124_tiger_preimage (d0 : Bits) (hd : d0.length = 192) (J : Injector) (q : Nat) (hq : q ≤ 2 ^ 256) (target : Bits)
    (ht : target.length = 192) :
    ∃ A : Attacker (Vector Tiger.W 8) (Vector Tiger.W 3) (List Op), A.AtMost (q) ∧ (q / (q + 2 ^ 192) : ℚ) ≤
      prob (fun E => Reaching (tigerFeed.hash rfl (fun k => E k) d0 hd) J target (A.result E) ∧
        callsFor .tiger192 (streamOf 512 (A.result E)) ≤ 1) := by
  obtain ⟨A, h1, h2⟩ := tigerFeed.attack_preimage (k := 1) rfl d0 hd J tiger_uniform (fun _ => rfl) (numberedCall .tiger192 q)
    (numberedCall_cost _ q) (numberedCall_injective _ hq) target ht
  simp only [tiger_calls, Nat.one_mul] at h1 h2
  exact ⟨A, h1, h2⟩

theorem ripemd256_uniform : ripemd256Feed.Uniform := Feed.One.uniform (by decide) rfl ripemd256Feed_one

theorem ripemd256_calls (m : Bits) : ripemd256Feed.calls m = callsFor .ripemd256 m := by
  unfold Feed.calls callsFor
  simp [ripemd256Feed]

/-- **C124, RIPEMD-256, law.** Over a random cipher in place of the lines every property `P` of the
digests of `q` different messages of one block has the probability that it has for independent uniform strings of 256 bits. -/
theorem C124_ripemd256_law (d0 : Bits) (hd : d0.length = 256) (J : Injector) (c : Fin q → MDCall .ripemd256) (h1 : ∀ i, (c i).cost = 1)
    (hne : Function.Injective fun i => (c i).message.1) (P : (Fin q → Except Fault Bits) → Prop) [DecidablePred P] :
    prob (fun E => P fun i => (c i).digest (ripemd256Feed.hash rfl (fun k => E k) d0 hd) J) =
      (Finset.univ.filter fun t : Fin q → Fin 256 → Bool => P fun i => .ok (List.ofFn (t i))).card / (2 : ℚ) ^ (256 * q) :=
  ripemd256Feed.law rfl d0 hd J ripemd256_uniform c h1 hne P

/-- **C124, RIPEMD-256, collisions.** The game is that of `C122_ripemd256_collision`. -/
theorem C124_ripemd256_collision (d0 : Bits) (hd : d0.length = 256) (J : Injector) (q : Nat) (hq : q ≤ 2 ^ 256) :
    ∃ A : Attacker (Vector Ripemd.W 16) (Vector Ripemd.W 8) (List Op × List Op), A.AtMost (q) ∧
      (q * (q - 1) / (q * (q - 1) + 2 * 2 ^ 256) : ℚ) ≤
        prob (fun E => Colliding (ripemd256Feed.hash rfl (fun k => E k) d0 hd) J (A.result E).1 (A.result E).2 ∧
          callsFor .ripemd256 (streamOf 512 (A.result E).1) + callsFor .ripemd256 (streamOf 512 (A.result E).2) ≤ 2) := by
  obtain ⟨A, h1, h2⟩ := ripemd256Feed.attack_collision (k := 1) rfl d0 hd J ripemd256_uniform (fun _ => rfl) (numberedCall .ripemd256 q)
    (numberedCall_cost _ q) (numberedCall_injective _ hq)
  simp only [ripemd256_calls, Nat.one_mul] at h1 h2
  exact ⟨A, h1, h2⟩

/-- **C124, RIPEMD-256, preimages.** The game is that of `C122_ripemd256_preimage`. -/
theorem C124_ripemd256_preimage (d0 : Bits) (hd : d0.length = 256) (J : Injector) (q : Nat) (hq : q ≤ 2 ^ 256) (target : Bits)
    (ht : target.length = 256) :
    ∃ A : Attacker (Vector Ripemd.W 16) (Vector Ripemd.W 8) (List Op), A.AtMost (q) ∧ (q / (q + 2 ^ 256) : ℚ) ≤
      prob (fun E => Reaching (ripemd256Feed.hash rfl (fun k => E k) d0 hd) J target (A.result E) ∧
        callsFor .ripemd256 (streamOf 512 (A.result E)) ≤ 1) := by
  obtain ⟨A, h1, h2⟩ := ripemd256Feed.attack_preimage (k := 1) rfl d0 hd J ripemd256_uniform (fun _ => rfl) (numberedCall .ripemd256 q)
    (numberedCall_cost _ q) (numberedCall_injective _ hq) target ht
  simp only [ripemd256_calls, Nat.one_mul] at h1 h2
  exact ⟨A, h1, h2⟩

theorem ripemd320_uniform : ripemd320Feed.Uniform := Feed.One.uniform (by decide) rfl ripemd320Feed_one

theorem ripemd320_calls (m : Bits) : ripemd320Feed.calls m = callsFor .ripemd320 m := by
  unfold Feed.calls callsFor
  simp [ripemd320Feed]

/-- **C124, RIPEMD-320, law.** Over a random cipher in place of the lines every property `P` of the
digests of `q` different messages of one block has the probability that it has for independent uniform strings of 320 bits. -/
theorem C124_ripemd320_law (d0 : Bits) (hd : d0.length = 320) (J : Injector) (c : Fin q → MDCall .ripemd320) (h1 : ∀ i, (c i).cost = 1)
    (hne : Function.Injective fun i => (c i).message.1) (P : (Fin q → Except Fault Bits) → Prop) [DecidablePred P] :
    prob (fun E => P fun i => (c i).digest (ripemd320Feed.hash rfl (fun k => E k) d0 hd) J) =
      (Finset.univ.filter fun t : Fin q → Fin 320 → Bool => P fun i => .ok (List.ofFn (t i))).card / (2 : ℚ) ^ (320 * q) :=
  ripemd320Feed.law rfl d0 hd J ripemd320_uniform c h1 hne P

/-- **C124, RIPEMD-320, collisions.** The game is that of `C122_ripemd320_collision`. -/
theorem C124_ripemd320_collision (d0 : Bits) (hd : d0.length = 320) (J : Injector) (q : Nat) (hq : q ≤ 2 ^ 256) :
    ∃ A : Attacker (Vector Ripemd.W 16) (Vector Ripemd.W 10) (List Op × List Op), A.AtMost (q) ∧
      (q * (q - 1) / (q * (q - 1) + 2 * 2 ^ 320) : ℚ) ≤
        prob (fun E => Colliding (ripemd320Feed.hash rfl (fun k => E k) d0 hd) J (A.result E).1 (A.result E).2 ∧
          callsFor .ripemd320 (streamOf 512 (A.result E).1) + callsFor .ripemd320 (streamOf 512 (A.result E).2) ≤ 2) := by
  obtain ⟨A, h1, h2⟩ := ripemd320Feed.attack_collision (k := 1) rfl d0 hd J ripemd320_uniform (fun _ => rfl) (numberedCall .ripemd320 q)
    (numberedCall_cost _ q) (numberedCall_injective _ hq)
  simp only [ripemd320_calls, Nat.one_mul] at h1 h2
  exact ⟨A, h1, h2⟩

/-- **C124, RIPEMD-320, preimages.** The game is that of `C122_ripemd320_preimage`. -/
theorem C124_ripemd320_preimage (d0 : Bits) (hd : d0.length = 320) (J : Injector) (q : Nat) (hq : q ≤ 2 ^ 256) (target : Bits)
    (ht : target.length = 320) :
    ∃ A : Attacker (Vector Ripemd.W 16) (Vector Ripemd.W 10) (List Op), A.AtMost (q) ∧ (q / (q + 2 ^ 320) : ℚ) ≤
      prob (fun E => Reaching (ripemd320Feed.hash rfl (fun k => E k) d0 hd) J target (A.result E) ∧
        callsFor .ripemd320 (streamOf 512 (A.result E)) ≤ 1) := by
  obtain ⟨A, h1, h2⟩ := ripemd320Feed.attack_preimage (k := 1) rfl d0 hd J ripemd320_uniform (fun _ => rfl) (numberedCall .ripemd320 q)
    (numberedCall_cost _ q) (numberedCall_injective _ hq) target ht
  simp only [ripemd320_calls, Nat.one_mul] at h1 h2
  exact ⟨A, h1, h2⟩

theorem ripemd128_uniform : ripemd128Feed.Uniform := Feed.Two.uniform (by decide) rfl ripemd128Feed_two

theorem ripemd128_calls (m : Bits) : ripemd128Feed.calls m = 2 * callsFor .ripemd128 m := by
  unfold Feed.calls callsFor
  simp [ripemd128Feed, Nat.mul_comm]

/-- **C124, RIPEMD-128, law.** Over two random ciphers in place of the lines every property `P` of the
digests of `q` different messages of one block has the probability that it has for independent uniform strings of 128 bits. -/
theorem C124_ripemd128_law (d0 : Bits) (hd : d0.length = 128) (J : Injector) (c : Fin q → MDCall .ripemd128) (h1 : ∀ i, (c i).cost = 1)
    (hne : Function.Injective fun i => (c i).message.1) (P : (Fin q → Except Fault Bits) → Prop) [DecidablePred P] :
    prob (fun E => P fun i => (c i).digest (ripemd128Feed.hash rfl (fun k => E k) d0 hd) J) =
      (Finset.univ.filter fun t : Fin q → Fin 128 → Bool => P fun i => .ok (List.ofFn (t i))).card / (2 : ℚ) ^ (128 * q) :=
  ripemd128Feed.law rfl d0 hd J ripemd128_uniform c h1 hne P

/-- **C124, RIPEMD-128, collisions.** The game is that of `C122_ripemd128_collision`; a message of one block costs two queries. -/
theorem C124_ripemd128_collision (d0 : Bits) (hd : d0.length = 128) (J : Injector) (q : Nat) (hq : q ≤ 2 ^ 256) :
    ∃ A : Attacker (Vector Ripemd.W 16 × Bool) (Vector Ripemd.W 4) (List Op × List Op), A.AtMost (2 * q) ∧
      (q * (q - 1) / (q * (q - 1) + 2 * 2 ^ 128) : ℚ) ≤
        prob (fun E => Colliding (ripemd128Feed.hash rfl (fun k => E k) d0 hd) J (A.result E).1 (A.result E).2 ∧
          2 * callsFor .ripemd128 (streamOf 512 (A.result E).1) + 2 * callsFor .ripemd128 (streamOf 512 (A.result E).2) ≤ 4) := by
  obtain ⟨A, h1, h2⟩ := ripemd128Feed.attack_collision (k := 2) rfl d0 hd J ripemd128_uniform (fun _ => rfl) (numberedCall .ripemd128 q)
    (numberedCall_cost _ q) (numberedCall_injective _ hq)
  simp only [ripemd128_calls] at h1 h2
  exact ⟨A, h1, h2⟩

/-- **C124, RIPEMD-128, preimages.** The game is that of `C122_ripemd128_preimage`. -/
theorem C124_ripemd128_preimage (d0 : Bits) (hd : d0.length = 128) (J : Injector) (q : Nat) (hq : q ≤ 2 ^ 256) (target : Bits)
    (ht : target.length = 128) :
    ∃ A : Attacker (Vector Ripemd.W 16 × Bool) (Vector Ripemd.W 4) (List Op), A.AtMost (2 * q) ∧ (q / (q + 2 ^ 128) : ℚ) ≤
      prob (fun E => Reaching (ripemd128Feed.hash rfl (fun k => E k) d0 hd) J target (A.result E) ∧
        2 * callsFor .ripemd128 (streamOf 512 (A.result E)) ≤ 2) := by
  obtain ⟨A, h1, h2⟩ := ripemd128Feed.attack_preimage (k := 2) rfl d0 hd J ripemd128_uniform (fun _ => rfl) (numberedCall .ripemd128 q)
    (numberedCall_cost _ q) (numberedCall_injective _ hq) target ht
  simp only [ripemd128_calls] at h1 h2
  exact ⟨A, h1, h2⟩

theorem ripemd160_uniform : ripemd160Feed.Uniform := Feed.Two.uniform (by decide) rfl ripemd160Feed_two

theorem ripemd160_calls (m : Bits) : ripemd160Feed.calls m = 2 * callsFor .ripemd160 m := by
  unfold Feed.calls callsFor
  simp [ripemd160Feed, Nat.mul_comm]

/-- **C124, RIPEMD-160, law.** Over two random ciphers in place of the lines every property `P` of the
digests of `q` different messages of one block has the probability that it has for independent uniform strings of 160 bits. -/
theorem C124_ripemd160_law (d0 : Bits) (hd : d0.length = 160) (J : Injector) (c : Fin q → MDCall .ripemd160) (h1 : ∀ i, (c i).cost = 1)
    (hne : Function.Injective fun i => (c i).message.1) (P : (Fin q → Except Fault Bits) → Prop) [DecidablePred P] :
    prob (fun E => P fun i => (c i).digest (ripemd160Feed.hash rfl (fun k => E k) d0 hd) J) =
      (Finset.univ.filter fun t : Fin q → Fin 160 → Bool => P fun i => .ok (List.ofFn (t i))).card / (2 : ℚ) ^ (160 * q) :=
  ripemd160Feed.law rfl d0 hd J ripemd160_uniform c h1 hne P

/-- **C124, RIPEMD-160, collisions.** The game is that of `C122_ripemd160_collision`; a message of one block costs two queries. -/
theorem C124_ripemd160_collision (d0 : Bits) (hd : d0.length = 160) (J : Injector) (q : Nat) (hq : q ≤ 2 ^ 256) :
    ∃ A : Attacker (Vector Ripemd.W 16 × Bool) (Vector Ripemd.W 5) (List Op × List Op), A.AtMost (2 * q) ∧
      (q * (q - 1) / (q * (q - 1) + 2 * 2 ^ 160) : ℚ) ≤
        prob (fun E => Colliding (ripemd160Feed.hash rfl (fun k => E k) d0 hd) J (A.result E).1 (A.result E).2 ∧
          2 * callsFor .ripemd160 (streamOf 512 (A.result E).1) + 2 * callsFor .ripemd160 (streamOf 512 (A.result E).2) ≤ 4) := by
  obtain ⟨A, h1, h2⟩ := ripemd160Feed.attack_collision (k := 2) rfl d0 hd J ripemd160_uniform (fun _ => rfl) (numberedCall .ripemd160 q)
    (numberedCall_cost _ q) (numberedCall_injective _ hq)
  simp only [ripemd160_calls] at h1 h2
  exact ⟨A, h1, h2⟩

/-- **C124, RIPEMD-160, preimages.** The game is that of `C122_ripemd160_preimage`. -/
theorem C124_ripemd160_preimage (d0 : Bits) (hd : d0.length = 160) (J : Injector) (q : Nat) (hq : q ≤ 2 ^ 256) (target : Bits)
    (ht : target.length = 160) :
    ∃ A : Attacker (Vector Ripemd.W 16 × Bool) (Vector Ripemd.W 5) (List Op), A.AtMost (2 * q) ∧ (q / (q + 2 ^ 160) : ℚ) ≤
      prob (fun E => Reaching (ripemd160Feed.hash rfl (fun k => E k) d0 hd) J target (A.result E) ∧
        2 * callsFor .ripemd160 (streamOf 512 (A.result E)) ≤ 2) := by
  obtain ⟨A, h1, h2⟩ := ripemd160Feed.attack_preimage (k := 2) rfl d0 hd J ripemd160_uniform (fun _ => rfl) (numberedCall .ripemd160 q)
    (numberedCall_cost _ q) (numberedCall_injective _ hq) target ht
  simp only [ripemd160_calls] at h1 h2
  exact ⟨A, h1, h2⟩

/-! ### Examples -/

/-- Tiger: `2^96` queries find a collision with probability above one quarter. -/
example (J : Injector) : ∃ A : Attacker (Vector Tiger.W 8) (Vector Tiger.W 3) (List Op × List Op), A.AtMost (2 ^ 96) ∧
    (1 / 4 : ℚ) ≤ prob (fun E => Colliding (tigerFeed.hash rfl (fun k => E k) (List.replicate 192 true) List.length_replicate) J
      (A.result E).1 (A.result E).2) := by
  obtain ⟨A, h1, h2⟩ := C124_tiger_collision (List.replicate 192 true) List.length_replicate J (2 ^ 96) (by decide)
  refine ⟨A, h1, le_trans ?_ (le_trans h2 (prob_mono fun E hE => hE.1))⟩
  norm_num

/-- `2^192` queries find a preimage with probability at least one half. -/
example (J : Injector) (target : Bits) (ht : target.length = 192) : ∃ A : Attacker (Vector Tiger.W 8) (Vector Tiger.W 3) (List Op),
    A.AtMost (2 ^ 192) ∧ (1 / 2 : ℚ) ≤ prob (fun E =>
      Reaching (tigerFeed.hash rfl (fun k => E k) (List.replicate 192 true) List.length_replicate) J target (A.result E)) := by
  obtain ⟨A, h1, h2⟩ := C124_tiger_preimage (List.replicate 192 true) List.length_replicate J (2 ^ 192) (by decide) target ht
  refine ⟨A, h1, le_trans ?_ (le_trans h2 (prob_mono fun E hE => hE.1))⟩
  norm_num

/-- The digests of two messages are both zero with probability `2^-384`. -/
example (J : Injector) : prob (fun E => ∀ i : Fin 2, (numberedCall .tiger192 2 i).digest
      (tigerFeed.hash rfl (fun k => E k) (List.replicate 192 true) List.length_replicate) J = .ok (List.ofFn fun _ : Fin 192 => false)) =
    1 / (2 : ℚ) ^ (192 * 2) := by
  classical
  rw [C124_tiger_law (List.replicate 192 true) List.length_replicate J (numberedCall .tiger192 2) (numberedCall_cost _ _)
    (numberedCall_injective _ (by decide)) fun t => ∀ i, t i = .ok (List.ofFn fun _ : Fin 192 => false)]
  exact congrArg (· / _) (Nat.cast_eq_one.2 (card_all_zero _ _))

/-- RIPEMD-256: `2^128` queries find a collision with probability above one quarter. -/
example (J : Injector) : ∃ A : Attacker (Vector Ripemd.W 16) (Vector Ripemd.W 8) (List Op × List Op), A.AtMost (2 ^ 128) ∧
    (1 / 4 : ℚ) ≤ prob (fun E => Colliding (ripemd256Feed.hash rfl (fun k => E k) (List.replicate 256 true) List.length_replicate) J
      (A.result E).1 (A.result E).2) := by
  obtain ⟨A, h1, h2⟩ := C124_ripemd256_collision (List.replicate 256 true) List.length_replicate J (2 ^ 128) (by decide)
  refine ⟨A, h1, le_trans ?_ (le_trans h2 (prob_mono fun E hE => hE.1))⟩
  norm_num

/-- `2^256` queries find a preimage with probability at least one half. -/
example (J : Injector) (target : Bits) (ht : target.length = 256) : ∃ A : Attacker (Vector Ripemd.W 16) (Vector Ripemd.W 8) (List Op),
    A.AtMost (2 ^ 256) ∧ (1 / 2 : ℚ) ≤ prob (fun E =>
      Reaching (ripemd256Feed.hash rfl (fun k => E k) (List.replicate 256 true) List.length_replicate) J target (A.result E)) := by
  obtain ⟨A, h1, h2⟩ := C124_ripemd256_preimage (List.replicate 256 true) List.length_replicate J (2 ^ 256) (by decide) target ht
  refine ⟨A, h1, le_trans ?_ (le_trans h2 (prob_mono fun E hE => hE.1))⟩
  norm_num

/-- The digests of two messages are both zero with probability `2^-512`. -/
example (J : Injector) : prob (fun E => ∀ i : Fin 2, (numberedCall .ripemd256 2 i).digest
      (ripemd256Feed.hash rfl (fun k => E k) (List.replicate 256 true) List.length_replicate) J = .ok (List.ofFn fun _ : Fin 256 => false)) =
    1 / (2 : ℚ) ^ (256 * 2) := by
  classical
  rw [C124_ripemd256_law (List.replicate 256 true) List.length_replicate J (numberedCall .ripemd256 2) (numberedCall_cost _ _)
    (numberedCall_injective _ (by decide)) fun t => ∀ i, t i = .ok (List.ofFn fun _ : Fin 256 => false)]
  exact congrArg (· / _) (Nat.cast_eq_one.2 (card_all_zero _ _))

set_option exponentiation.threshold 600 in
/-- RIPEMD-320: `2^160` queries find a collision with probability above one quarter. -/
example (J : Injector) : ∃ A : Attacker (Vector Ripemd.W 16) (Vector Ripemd.W 10) (List Op × List Op), A.AtMost (2 ^ 160) ∧
    (1 / 4 : ℚ) ≤ prob (fun E => Colliding (ripemd320Feed.hash rfl (fun k => E k) (List.replicate 320 true) List.length_replicate) J
      (A.result E).1 (A.result E).2) := by
  obtain ⟨A, h1, h2⟩ := C124_ripemd320_collision (List.replicate 320 true) List.length_replicate J (2 ^ 160) (by decide)
  refine ⟨A, h1, le_trans ?_ (le_trans h2 (prob_mono fun E hE => hE.1))⟩
  norm_num

set_option exponentiation.threshold 600 in
/-- `2^256` queries find a preimage with probability at least `2^-65`. -/
example (J : Injector) (target : Bits) (ht : target.length = 320) : ∃ A : Attacker (Vector Ripemd.W 16) (Vector Ripemd.W 10) (List Op),
    A.AtMost (2 ^ 256) ∧ (1 / 2 ^ 65 : ℚ) ≤ prob (fun E =>
      Reaching (ripemd320Feed.hash rfl (fun k => E k) (List.replicate 320 true) List.length_replicate) J target (A.result E)) := by
  obtain ⟨A, h1, h2⟩ := C124_ripemd320_preimage (List.replicate 320 true) List.length_replicate J (2 ^ 256) (le_refl _) target ht
  refine ⟨A, h1, le_trans ?_ (le_trans h2 (prob_mono fun E hE => hE.1))⟩
  norm_num

set_option exponentiation.threshold 600 in
/-- The digests of two messages are both zero with probability `2^-640`. -/
example (J : Injector) : prob (fun E => ∀ i : Fin 2, (numberedCall .ripemd320 2 i).digest
      (ripemd320Feed.hash rfl (fun k => E k) (List.replicate 320 true) List.length_replicate) J = .ok (List.ofFn fun _ : Fin 320 => false)) =
    1 / (2 : ℚ) ^ (320 * 2) := by
  classical
  rw [C124_ripemd320_law (List.replicate 320 true) List.length_replicate J (numberedCall .ripemd320 2) (numberedCall_cost _ _)
    (numberedCall_injective _ (by decide)) fun t => ∀ i, t i = .ok (List.ofFn fun _ : Fin 320 => false)]
  exact congrArg (· / _) (Nat.cast_eq_one.2 (card_all_zero _ _))

/-- RIPEMD-128: `2^65` queries find a collision with probability above one quarter. -/
example (J : Injector) : ∃ A : Attacker (Vector Ripemd.W 16 × Bool) (Vector Ripemd.W 4) (List Op × List Op), A.AtMost (2 * 2 ^ 64) ∧
    (1 / 4 : ℚ) ≤ prob (fun E => Colliding (ripemd128Feed.hash rfl (fun k => E k) (List.replicate 128 true) List.length_replicate) J
      (A.result E).1 (A.result E).2) := by
  obtain ⟨A, h1, h2⟩ := C124_ripemd128_collision (List.replicate 128 true) List.length_replicate J (2 ^ 64) (by decide)
  refine ⟨A, h1, le_trans ?_ (le_trans h2 (prob_mono fun E hE => hE.1))⟩
  norm_num

/-- `2^129` queries find a preimage with probability at least one half. -/
example (J : Injector) (target : Bits) (ht : target.length = 128) : ∃ A : Attacker (Vector Ripemd.W 16 × Bool) (Vector Ripemd.W 4) (List Op),
    A.AtMost (2 * 2 ^ 128) ∧ (1 / 2 : ℚ) ≤ prob (fun E =>
      Reaching (ripemd128Feed.hash rfl (fun k => E k) (List.replicate 128 true) List.length_replicate) J target (A.result E)) := by
  obtain ⟨A, h1, h2⟩ := C124_ripemd128_preimage (List.replicate 128 true) List.length_replicate J (2 ^ 128) (by decide) target ht
  refine ⟨A, h1, le_trans ?_ (le_trans h2 (prob_mono fun E hE => hE.1))⟩
  norm_num

/-- The digests of two messages are both zero with probability `2^-256`. -/
example (J : Injector) : prob (fun E => ∀ i : Fin 2, (numberedCall .ripemd128 2 i).digest
      (ripemd128Feed.hash rfl (fun k => E k) (List.replicate 128 true) List.length_replicate) J = .ok (List.ofFn fun _ : Fin 128 => false)) =
    1 / (2 : ℚ) ^ (128 * 2) := by
  classical
  rw [C124_ripemd128_law (List.replicate 128 true) List.length_replicate J (numberedCall .ripemd128 2) (numberedCall_cost _ _)
    (numberedCall_injective _ (by decide)) fun t => ∀ i, t i = .ok (List.ofFn fun _ : Fin 128 => false)]
  exact congrArg (· / _) (Nat.cast_eq_one.2 (card_all_zero _ _))

/-- RIPEMD-160: `2^81` queries find a collision with probability above one quarter. -/
example (J : Injector) : ∃ A : Attacker (Vector Ripemd.W 16 × Bool) (Vector Ripemd.W 5) (List Op × List Op), A.AtMost (2 * 2 ^ 80) ∧
    (1 / 4 : ℚ) ≤ prob (fun E => Colliding (ripemd160Feed.hash rfl (fun k => E k) (List.replicate 160 true) List.length_replicate) J
      (A.result E).1 (A.result E).2) := by
  obtain ⟨A, h1, h2⟩ := C124_ripemd160_collision (List.replicate 160 true) List.length_replicate J (2 ^ 80) (by decide)
  refine ⟨A, h1, le_trans ?_ (le_trans h2 (prob_mono fun E hE => hE.1))⟩
  norm_num

/-- `2^161` queries find a preimage with probability at least one half. -/
example (J : Injector) (target : Bits) (ht : target.length = 160) : ∃ A : Attacker (Vector Ripemd.W 16 × Bool) (Vector Ripemd.W 5) (List Op),
    A.AtMost (2 * 2 ^ 160) ∧ (1 / 2 : ℚ) ≤ prob (fun E =>
      Reaching (ripemd160Feed.hash rfl (fun k => E k) (List.replicate 160 true) List.length_replicate) J target (A.result E)) := by
  obtain ⟨A, h1, h2⟩ := C124_ripemd160_preimage (List.replicate 160 true) List.length_replicate J (2 ^ 160) (by decide) target ht
  refine ⟨A, h1, le_trans ?_ (le_trans h2 (prob_mono fun E hE => hE.1))⟩
  norm_num

/-- The digests of two messages are both zero with probability `2^-320`. -/
example (J : Injector) : prob (fun E => ∀ i : Fin 2, (numberedCall .ripemd160 2 i).digest
      (ripemd160Feed.hash rfl (fun k => E k) (List.replicate 160 true) List.length_replicate) J = .ok (List.ofFn fun _ : Fin 160 => false)) =
    1 / (2 : ℚ) ^ (160 * 2) := by
  classical
  rw [C124_ripemd160_law (List.replicate 160 true) List.length_replicate J (numberedCall .ripemd160 2) (numberedCall_cost _ _)
    (numberedCall_injective _ (by decide)) fun t => ∀ i, t i = .ok (List.ofFn fun _ : Fin 160 => false)]
  exact congrArg (· / _) (Nat.cast_eq_one.2 (card_all_zero _ _))

end Verif.Props
