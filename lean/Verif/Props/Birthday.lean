import Verif.Proof.CipherLaw
import Verif.Props.ChopIndifferentiable
import Mathlib.Tactic.NormNum.Prime
/-
C118: the bounds of C91 are attained.  Over a random cipher the digests of different messages of one block are independent and
uniform, so that the birthday attack and the exhaustive search succeed as often as they do against a random function.
-/
namespace Verif.Props

open Spec Spec.Ideal Verif.Ideal

variable {w n q : Nat}

/-! ### Attackers with a fixed list of queries -/

/-- Encrypt every point of the list under its key, then decide. -/
def askAll {K X : Type} {R : Type _} : List (K × X) → (List X → R) → Attacker K X R
  | [], r => .done (r [])
  | p :: ps, r => .ask .enc p.1 p.2 fun a => askAll ps fun l => r (a :: l)

theorem atMost_askAll {K X : Type} {R : Type _} (ps : List (K × X)) (r : List X → R) : (askAll ps r).AtMost ps.length := by
  induction ps generalizing r with
  | nil => trivial
  | cons k ks ih => exact fun a => ih _

theorem result_askAll {K X : Type} {R : Type _} (E : Cipher K X) (ps : List (K × X)) (r : List X → R) :
    (askAll ps r).result E = r (ps.map fun p => E p.1 p.2) := by
  induction ps generalizing r with
  | nil => rfl
  | cons k ks ih => exact ih _

/-- Ask the queries `k i`, `x i`; then decide from the family of the values `f i` of the answers. -/
def askFamily {K X D : Type} {R : Type _} (k : Fin q → K) (x : Fin q → X) (f : Fin q → X → D) (r : (Fin q → D) → R) : Attacker K X R :=
  askAll (List.ofFn fun i => (k i, x i)) fun l => r fun i => f i (l.getD i (x i))

theorem atMost_askFamily {K X D : Type} {R : Type _} (k : Fin q → K) (x : Fin q → X) (f : Fin q → X → D) (r : (Fin q → D) → R) :
    (askFamily k x f r).AtMost q := by
  have := atMost_askAll (List.ofFn fun i => (k i, x i)) fun l => r fun i => f i (l.getD i (x i))
  rwa [List.length_ofFn] at this

theorem result_askFamily {K X D : Type} {R : Type _} (E : Cipher K X) (k : Fin q → K) (x : Fin q → X) (f : Fin q → X → D)
    (r : (Fin q → D) → R) : (askFamily k x f r).result E = r fun i => f i (E (k i) (x i)) := by
  unfold askFamily
  rw [result_askAll]
  congr 1
  funext i
  congr 1
  rw [List.getD_eq_getElem?_getD, List.getElem?_map, List.getElem?_ofFn]
  simp

/-- Two members of the family `c` with the same value, if there are such. -/
def pickPair {D : Type} [DecidableEq D] {R : Type _} (c : Fin q → R) (none : R × R) (t : Fin q → D) : R × R :=
  match (List.finRange q ×ˢ List.finRange q).find? fun p => decide (p.1 ≠ p.2) && decide (t p.1 = t p.2) with
  | some p => (c p.1, c p.2)
  | .none => none

theorem pickPair_spec {D : Type} [DecidableEq D] {R : Type _} (c : Fin q → R) (none : R × R) (t : Fin q → D)
    (he : ∃ i j, i ≠ j ∧ t i = t j) : ∃ i j, i ≠ j ∧ t i = t j ∧ pickPair c none t = (c i, c j) := by
  unfold pickPair
  cases hf : (List.finRange q ×ˢ List.finRange q).find? fun p => decide (p.1 ≠ p.2) && decide (t p.1 = t p.2) with
  | some p =>
    have := List.find?_some hf
    rw [Bool.and_eq_true, decide_eq_true_eq, decide_eq_true_eq] at this
    exact ⟨p.1, p.2, this.1, this.2, rfl⟩
  | none =>
    obtain ⟨i, j, hij, e⟩ := he
    have := List.find?_eq_none.1 hf (i, j) (by
      rw [List.mem_product]
      exact ⟨List.mem_finRange i, List.mem_finRange j⟩)
    simp [hij, e] at this

/-- A member of the family with the value `u`, if there is one. -/
def pickOne {D : Type} [DecidableEq D] {R : Type _} (c : Fin q → R) (none : R) (u : D) (t : Fin q → D) : R :=
  match (List.finRange q).find? fun i => decide (t i = u) with
  | some i => c i
  | .none => none

theorem pickOne_spec {D : Type} [DecidableEq D] {R : Type _} (c : Fin q → R) (none : R) (u : D) (t : Fin q → D) (he : ∃ i, t i = u) :
    ∃ i, t i = u ∧ pickOne c none u t = c i := by
  unfold pickOne
  cases hf : (List.finRange q).find? fun i => decide (t i = u) with
  | some j =>
    have := List.find?_some hf
    exact ⟨j, of_decide_eq_true this, rfl⟩
  | none =>
    obtain ⟨i, he⟩ := he
    have := List.find?_eq_none.1 hf i (List.mem_finRange i)
    exact absurd (decide_eq_true he) this

/-! ### Two inequalities -/

theorem birthday_le {N : Nat} (hN : 0 < N) (q : Nat) :
    (N.descFactorial q : ℚ) / N ^ q * (q * (q - 1) + 2 * N) ≤ 2 * N := by
  have hN' : (0 : ℚ) < N := Nat.cast_pos.2 hN
  induction q with
  | zero => simp
  | succ q ih =>
    rcases Nat.lt_or_ge N (q + 1) with hq | hq
    · rw [Nat.descFactorial_eq_zero_iff_lt.2 hq, Nat.cast_zero, zero_div, zero_mul]
      positivity
    · rw [Nat.descFactorial_succ, Nat.cast_mul, Nat.cast_sub (by omega)]
      have hq0 : (0 : ℚ) ≤ q := Nat.cast_nonneg _
      have hqN : (q : ℚ) ≤ N := Nat.cast_le.2 (by omega)
      have e : ((N : ℚ) - q) * (N.descFactorial q) / N ^ (q + 1) * (((q + 1 : Nat) : ℚ) * (((q + 1 : Nat) : ℚ) - 1) + 2 * N) =
          (N.descFactorial q : ℚ) / N ^ q * (((N : ℚ) - q) * ((q + 1) * q + 2 * N) / N) := by
        rw [pow_succ]
        push_cast
        field_simp
        ring
      rw [e]
      refine le_trans (mul_le_mul_of_nonneg_left ?_ (by positivity)) ih
      rw [div_le_iff₀ hN']
      rcases Nat.eq_zero_or_pos q with rfl | h0
      · push_cast
        nlinarith
      · have h1 : (1 : ℚ) ≤ q := by exact_mod_cast h0
        nlinarith [mul_nonneg hq0 (mul_nonneg hq0 (by linarith : (0 : ℚ) ≤ q + 1))]

theorem search_le {N : Nat} (hN : 0 < N) (q : Nat) : (((N : ℚ) - 1) / N) ^ q * (q + N) ≤ N := by
  have hN' : (1 : ℚ) ≤ N := by exact_mod_cast hN
  have h0 : (0 : ℚ) ≤ ((N : ℚ) - 1) / N := div_nonneg (by linarith) (by linarith)
  induction q with
  | zero => simp
  | succ q ih =>
    refine le_trans ?_ ih
    rw [pow_succ, mul_assoc]
    refine mul_le_mul_of_nonneg_left ?_ (pow_nonneg h0 _)
    rw [div_mul_eq_mul_div, div_le_iff₀ (by linarith)]
    push_cast
    have hq0 : (0 : ℚ) ≤ q := Nat.cast_nonneg _
    nlinarith

/-! ### Families of random strings -/

theorem card_strings (d : Nat) : Fintype.card (Fin d → Bool) = 2 ^ d := by
  rw [Fintype.card_fun, Fintype.card_bool, Fintype.card_fin]

open Classical in
/-- Two of `q` random strings of `d` bits are equal. -/
theorem card_collide (d q : Nat) :
    ((Finset.univ.filter fun t : Fin q → Fin d → Bool =>
      ∃ i j, i ≠ j ∧ (Except.ok (List.ofFn (t i)) : Except Fault Bits) = .ok (List.ofFn (t j))).card : ℚ) / 2 ^ (d * q) =
      1 - ((2 ^ d).descFactorial q : ℚ) / 2 ^ (d * q) := by
  have e : (Finset.univ.filter fun t : Fin q → Fin d → Bool =>
      ∃ i j, i ≠ j ∧ (Except.ok (List.ofFn (t i)) : Except Fault Bits) = .ok (List.ofFn (t j))) =
      Finset.univ.filter fun t => ¬ Function.Injective t := by
    ext t
    simp only [Finset.mem_filter, Finset.mem_univ, true_and]
    constructor
    · rintro ⟨i, j, hij, e⟩ hi
      exact hij (hi (List.ofFn_injective (Except.ok.inj e)))
    · intro hi
      rw [Function.Injective] at hi
      push Not at hi
      obtain ⟨i, j, e, hij⟩ := hi
      exact ⟨i, j, hij, by rw [e]⟩
  have e2 : (Finset.univ.filter fun t : Fin q → Fin d → Bool => Function.Injective t).card = (2 ^ d).descFactorial q := by
    rw [← Fintype.card_subtype, Fintype.card_congr (Equiv.subtypeInjectiveEquivEmbedding _ _), Fintype.card_embedding_eq, card_strings,
      Fintype.card_fin]
  have e3 := Finset.card_filter_add_card_filter_not (s := Finset.univ) (fun t : Fin q → Fin d → Bool => Function.Injective t)
  rw [Finset.card_univ, Fintype.card_fun, card_strings, Fintype.card_fin, e2, ← pow_mul] at e3
  rw [e, eq_sub_iff_add_eq, ← add_div, div_eq_one_iff_eq (by positivity), add_comm]
  exact_mod_cast e3

open Classical in
/-- One of `q` random strings of `d` bits is the given one. -/
theorem card_hit (d q : Nat) (u : Fin d → Bool) :
    ((Finset.univ.filter fun t : Fin q → Fin d → Bool =>
      ∃ i, (Except.ok (List.ofFn (t i)) : Except Fault Bits) = .ok (List.ofFn u)).card : ℚ) / 2 ^ (d * q) =
      1 - (((2 : ℚ) ^ d - 1) / 2 ^ d) ^ q := by
  have e : (Finset.univ.filter fun t : Fin q → Fin d → Bool =>
      ∃ i, (Except.ok (List.ofFn (t i)) : Except Fault Bits) = .ok (List.ofFn u)) =
      Finset.univ.filter fun t => ¬ ∀ i, t i ≠ u := by
    ext t
    simp only [Finset.mem_filter, Finset.mem_univ, true_and]
    push Not
    exact ⟨fun ⟨i, e⟩ => ⟨i, List.ofFn_injective (Except.ok.inj e)⟩, fun ⟨i, e⟩ => ⟨i, by rw [e]⟩⟩
  have e2 : (Finset.univ.filter fun t : Fin q → Fin d → Bool => ∀ i, t i ≠ u).card = (2 ^ d - 1) ^ q := by
    have : (Finset.univ.filter fun t : Fin q → Fin d → Bool => ∀ i, t i ≠ u) =
        Fintype.piFinset fun _ : Fin q => Finset.univ.erase u := by
      ext t
      simp [Fintype.mem_piFinset]
    rw [this, Fintype.card_piFinset, Finset.prod_const, Finset.card_erase_of_mem (Finset.mem_univ _), Finset.card_univ, card_strings,
      Finset.card_univ, Fintype.card_fin]
  have e3 := Finset.card_filter_add_card_filter_not (s := Finset.univ) (fun t : Fin q → Fin d → Bool => ∀ i, t i ≠ u)
  rw [Finset.card_univ, Fintype.card_fun, card_strings, Fintype.card_fin, e2, ← pow_mul] at e3
  have e4 : ((2 ^ d - 1 : Nat) : ℚ) = (2 : ℚ) ^ d - 1 := by
    rw [Nat.cast_sub Nat.one_le_two_pow]
    push_cast
    rfl
  rw [e, div_pow, ← pow_mul, eq_sub_iff_add_eq, ← add_div, div_eq_one_iff_eq (by positivity), add_comm, ← e4]
  exact_mod_cast e3

theorem birthday_lower (d q : Nat) : (q * (q - 1) / (q * (q - 1) + 2 * 2 ^ d) : ℚ) ≤ 1 - ((2 ^ d).descFactorial q : ℚ) / 2 ^ (d * q) := by
  have hN : (0 : ℚ) < 2 ^ d := by positivity
  have hqq : (0 : ℚ) ≤ q * (q - 1) := by
    rcases Nat.eq_zero_or_pos q with rfl | hq
    · simp
    · have : (1 : ℚ) ≤ q := by exact_mod_cast hq
      exact mul_nonneg (by linarith) (by linarith)
  have := birthday_le (N := 2 ^ d) (Nat.two_pow_pos _) q
  push_cast at this
  rw [← pow_mul, ← le_div_iff₀ (by linarith)] at this
  rw [le_sub_comm]
  refine le_trans this (le_of_eq ?_)
  rw [eq_sub_iff_add_eq, ← add_div, add_comm, div_self (by linarith)]

theorem search_lower (d q : Nat) : (q / (q + 2 ^ d) : ℚ) ≤ 1 - (((2 : ℚ) ^ d - 1) / 2 ^ d) ^ q := by
  have hN : (0 : ℚ) < 2 ^ d := by positivity
  have hq : (0 : ℚ) ≤ q := Nat.cast_nonneg _
  have := search_le (N := 2 ^ d) (Nat.two_pow_pos _) q
  push_cast at this
  rw [← le_div_iff₀ (by linarith)] at this
  rw [le_sub_comm]
  refine le_trans this (le_of_eq ?_)
  rw [eq_sub_iff_add_eq, ← add_div, add_comm, div_self (by linarith)]

/-! ### Digests of one block -/

/-- The digest of one block as function of the answer of the cipher. -/
def oneDigest (h : MDHash) (iv y : Vector (BitVec w) n) : Fin (standard h).digest → Bool :=
  bitsAt (h.policy.endian.arrayView (stateAdder iv y)) 0 (standard h).digest

/-- The key of the only cipher call. -/
def oneKey (h : MDHash) (w : Nat) (c : MDCall h) : Vector (BitVec w) 16 :=
  keyOf h w (paddedMessage h (streamOf h.policy.blockBits c.ops))

theorem blocks_single {h : MDHash} {c : MDCall h} (h1 : c.cost = 1) :
    blocks (standard h).block (paddedMessage h (streamOf h.policy.blockBits c.ops)) =
      [paddedMessage h (streamOf h.policy.blockBits c.ops)] := by
  have hl := length_padded_blocks h (streamOf h.policy.blockBits c.ops)
  have h1 : (blocks (standard h).block (paddedMessage h (streamOf h.policy.blockBits c.ops))).length = 1 := h1
  rw [h1, Nat.one_mul] at hl
  exact blocks_one (by have := md_sizes h; omega) hl

theorem digest_single {h : MDHash} (hw : h.policy.stateBits = n * w) (hd : (standard h).digest ≤ n * w) (iv : Vector (BitVec w) n)
    (d0 : Bits) (hd0 : d0.length = h.policy.digestBits) (J : Injector) (E : Cipher (Vector (BitVec w) 16) (Vector (BitVec w) n))
    {c : MDCall h} (h1 : c.cost = 1) :
    c.digest (cipherHash h hw iv (fun k => E k) d0 hd0) J = .ok (List.ofFn (oneDigest h iv (E (oneKey h w c) iv))) := by
  rw [MDCall.digest_eq, mdDigest, blocks_single h1, oneDigest, ofFn_bitsAt (by rw [length_arrayView']; omega), List.drop_zero]
  rfl

theorem oneKey_injective {h : MDHash} (h8 : 8 ∣ w) (hb : (standard h).block = 16 * w) (c : Fin q → MDCall h)
    (h1 : ∀ i, (c i).cost = 1) (hne : Function.Injective fun i => (c i).message.1) :
    Function.Injective fun i => oneKey h w (c i) := by
  intro i j e
  apply hne
  have hl : ∀ i, (paddedMessage h (streamOf h.policy.blockBits (c i).ops)).length = 16 * w := fun i => by
    have hl := length_padded_blocks h (streamOf h.policy.blockBits (c i).ops)
    rw [blocks_single (h1 i), List.length_singleton, Nat.one_mul] at hl
    rw [hl, hb]
  exact paddedMessage_injective h (c i).short (c j).short (keyOf_injective h h8 (hl i) (hl j) e)

theorem card_oneDigest (h : MDHash) (h8 : 8 ∣ w) (hd : (standard h).digest ≤ n * w) (iv : Vector (BitVec w) n)
    (t : Fin (standard h).digest → Bool) :
    (Finset.univ.filter fun y => oneDigest h iv y = t).card = 2 ^ (n * w - (standard h).digest) := by
  have e : (Finset.univ.filter fun y => oneDigest h iv y = t) =
      (Finset.univ.filter fun p : (Fin (standard h).digest → Bool) × (Fin (n * w - (standard h).digest) → Bool) => p.1 = t).map
        (chopSplit h.policy.endian h8 hd iv).symm.toEmbedding := by
    ext y
    rw [Finset.mem_filter, Finset.mem_map_equiv, Finset.mem_filter, Equiv.symm_symm]
    simp only [Finset.mem_univ, true_and]
    rfl
  have e2 : (Finset.univ.filter fun p : (Fin (standard h).digest → Bool) × (Fin (n * w - (standard h).digest) → Bool) => p.1 = t) =
      ({t} : Finset _) ×ˢ Finset.univ := by
    ext p
    rw [Finset.mem_filter, Finset.mem_product, Finset.mem_singleton]
    simp
  rw [e, Finset.card_map, e2, Finset.card_product, Finset.card_singleton, Finset.card_univ, Fintype.card_fun, Fintype.card_bool,
    Fintype.card_fin, Nat.one_mul]

theorem card_digests (h : MDHash) : Fintype.card (Fin (standard h).digest → Bool) = 2 ^ (standard h).digest := by
  rw [Fintype.card_fun, Fintype.card_bool, Fintype.card_fin]

section law
variable (h : MDHash) (h8 : 8 ∣ w) (hw : h.policy.stateBits = n * w) (hb : (standard h).block = 16 * w)
  (iv : Vector (BitVec w) n) (d0 : Bits) (hd0 : d0.length = h.policy.digestBits) (J : Injector)

theorem digest_le_state (hw : h.policy.stateBits = n * w) : (standard h).digest ≤ n * w := by
  rw [← hw]
  cases h <;> decide

include h8 hb in
/-- The joint distribution of the digests of different messages of one block is that of independent uniform strings: every
property `P` of the family has the same probability. -/
theorem C118_law (c : Fin q → MDCall h) (h1 : ∀ i, (c i).cost = 1) (hne : Function.Injective fun i => (c i).message.1)
    (P : (Fin q → Except Fault Bits) → Prop) [DecidablePred P] :
    prob (fun E => P fun i => (c i).digest (cipherHash h hw iv (fun k => E k) d0 hd0) J) =
      (Finset.univ.filter fun t : Fin q → Fin (standard h).digest → Bool => P fun i => .ok (List.ofFn (t i))).card /
        (2 : ℚ) ^ ((standard h).digest * q) := by
  have hd := digest_le_state h hw
  have key := prob_values (fun i => oneKey h w (c i)) (oneKey_injective h8 hb c h1 hne) (fun _ => iv)
    (fun _ y => oneDigest h iv y) _ (fun _ t => card_oneDigest h h8 hd iv t)
    (fun t : Fin q → Fin (standard h).digest → Bool => P fun i => .ok (List.ofFn (t i)))
  rw [card_digests] at key
  push_cast at key
  rw [← pow_mul] at key
  rw [← key]
  congr 1
  funext E
  have : (fun i => (c i).digest (cipherHash h hw iv (fun k => E k) d0 hd0) J) =
      fun i => .ok (List.ofFn (oneDigest h iv (E (oneKey h w (c i)) iv))) := funext fun i => digest_single hw hd iv d0 hd0 J E (h1 i)
  rw [this]


open Classical in
include h8 hb in
/-- **C118, birthday attack.** The probability that two of `q` different messages of one block have the same digest. -/
theorem C118_birthday (c : Fin q → MDCall h) (h1 : ∀ i, (c i).cost = 1) (hne : Function.Injective fun i => (c i).message.1) :
    prob (fun E => ∃ i j, i ≠ j ∧ (c i).digest (cipherHash h hw iv (fun k => E k) d0 hd0) J =
      (c j).digest (cipherHash h hw iv (fun k => E k) d0 hd0) J) =
      1 - ((2 ^ (standard h).digest).descFactorial q : ℚ) / 2 ^ ((standard h).digest * q) := by
  have key := C118_law h h8 hw hb iv d0 hd0 J c h1 hne fun t => ∃ i j, i ≠ j ∧ t i = t j
  rw [key]
  exact card_collide _ _

open Classical in
include h8 hb in
/-- **C118, exhaustive search.** The probability that one of `q` different messages of one block has a given digest. -/
theorem C118_search (c : Fin q → MDCall h) (h1 : ∀ i, (c i).cost = 1) (hne : Function.Injective fun i => (c i).message.1)
    (target : Bits) (ht : target.length = (standard h).digest) :
    prob (fun E => ∃ i, (c i).digest (cipherHash h hw iv (fun k => E k) d0 hd0) J = .ok target) =
      1 - (((2 : ℚ) ^ (standard h).digest - 1) / 2 ^ (standard h).digest) ^ q := by
  have key := C118_law h h8 hw hb iv d0 hd0 J c h1 hne fun t => ∃ i, t i = .ok target
  rw [key]
  obtain ⟨u, rfl⟩ : ∃ u : Fin (standard h).digest → Bool, List.ofFn u = target :=
    ⟨bitsAt target 0 _, by rw [ofFn_bitsAt (by omega), List.drop_zero, ← ht, List.take_length]⟩
  exact card_hit _ _ u

/-! ### The attackers -/

/-- Hash all the messages and look for two equal digests. -/
def birthdayAttack (c : Fin q → MDCall h) : Attacker (Vector (BitVec w) 16) (Vector (BitVec w) n) (List Op × List Op) :=
  askFamily (fun i => oneKey h w (c i)) (fun _ => iv) (fun _ => oneDigest h iv) (pickPair (fun i => (c i).ops) ([], []))

/-- Hash all the messages and look for the digest. -/
def searchAttack (c : Fin q → MDCall h) (u : Fin (standard h).digest → Bool) :
    Attacker (Vector (BitVec w) 16) (Vector (BitVec w) n) (List Op) :=
  askFamily (fun i => oneKey h w (c i)) (fun _ => iv) (fun _ => oneDigest h iv) (pickOne (fun i => (c i).ops) [] u)

include h8 hb in
/-- **C118, collisions.** The attacker that hashes `q` different messages of one block asks `q` queries and makes the library
return the same digest for two of them with probability at least `q (q - 1) / (q (q - 1) + 2 · 2^digest)`; the game is that of
`C91_collision_any`. -/
theorem C118_collision (c : Fin q → MDCall h) (h1 : ∀ i, (c i).cost = 1) (hne : Function.Injective fun i => (c i).message.1) :
    (birthdayAttack h iv c).AtMost q ∧
    (q * (q - 1) / (q * (q - 1) + 2 * 2 ^ (standard h).digest) : ℚ) ≤
      prob (fun E => Colliding (cipherHash h hw iv (fun k => E k) d0 hd0) J ((birthdayAttack h iv c).result E).1
          ((birthdayAttack h iv c).result E).2 ∧
        callsFor h (streamOf h.policy.blockBits ((birthdayAttack h iv c).result E).1) +
          callsFor h (streamOf h.policy.blockBits ((birthdayAttack h iv c).result E).2) ≤ 2) := by
  have hd := digest_le_state h hw
  constructor
  · exact atMost_askFamily _ _ _ _
  · refine le_trans (birthday_lower _ _) (le_trans (le_of_eq (C118_birthday h h8 hw hb iv d0 hd0 J c h1 hne).symm) (prob_mono fun E hE => ?_))
    · have hr := result_askFamily E (fun i => oneKey h w (c i)) (fun _ => iv) (fun _ => oneDigest h iv)
        (pickPair (fun i => (c i).ops) ([], []))
      change (birthdayAttack h iv c).result E = _ at hr
      obtain ⟨i, j, hij, he⟩ := hE
      rw [digest_single hw hd iv d0 hd0 J E (h1 i), digest_single hw hd iv d0 hd0 J E (h1 j)] at he
      obtain ⟨i, j, hij, e, hp⟩ := pickPair_spec (fun i => (c i).ops) ([], []) (fun i => oneDigest h iv (E (oneKey h w (c i)) iv))
        ⟨i, j, hij, List.ofFn_injective (Except.ok.inj he)⟩
      rw [hr, hp]
      refine ⟨⟨?_, ?_, ⟨(c i).good, (c j).good⟩, ⟨(c i).short, (c j).short⟩, fun e => hij (hne e),
        ⟨(c i).garbage, (c j).garbage, (c i).length_garbage, (c j).length_garbage, ?_⟩⟩, le_of_eq (congrArg₂ (· + ·) (h1 i) (h1 j))⟩
      · intro op ho
        exact (List.mem_append.1 ho).elim ((c i).wellTyped op) ((c j).wellTyped op)
      · exact ⟨(c i).extracts, (c j).extracts⟩
      · refine (digest_single hw hd iv d0 hd0 J E (h1 i)).trans (Eq.trans ?_ (digest_single hw hd iv d0 hd0 J E (h1 j)).symm)
        rw [show oneDigest h iv (E (oneKey h w (c i)) iv) = oneDigest h iv (E (oneKey h w (c j)) iv) from e]

include h8 hb in
/-- **C118, preimages.** The attacker that hashes `q` different messages of one block asks `q` queries and finds a message with
the digest `u` with probability at least `q / (q + 2^digest)`; the game is that of `C91_preimage_any`. -/
theorem C118_preimage (c : Fin q → MDCall h) (h1 : ∀ i, (c i).cost = 1) (hne : Function.Injective fun i => (c i).message.1)
    (u : Fin (standard h).digest → Bool) (garbage : Bits) (hgb : garbage.length = h.policy.blockBits) :
    (searchAttack h iv c u).AtMost q ∧
    (q / (q + 2 ^ (standard h).digest) : ℚ) ≤
      prob (fun E => (∀ op ∈ (searchAttack h iv c u).result E, op.WellTyped h.policy.blockBits) ∧
        GoodExtracts h.policy.blockBits (GoodMsg h) [] ((searchAttack h iv c u).result E) ∧
        GoodMsg h (streamOf h.policy.blockBits ((searchAttack h iv c u).result E)) ∧
        (do let (a, _) ← runOps ((cipherHash h hw iv (fun k => E k) d0 hd0).C J) J
              (Acc.init ((cipherHash h hw iv (fun k => E k) d0 hd0).C J) garbage) [] ((searchAttack h iv c u).result E)
            a.result ((cipherHash h hw iv (fun k => E k) d0 hd0).C J)) = .ok (List.ofFn u) ∧
        callsFor h (streamOf h.policy.blockBits ((searchAttack h iv c u).result E)) ≤ 1) := by
  have hd := digest_le_state h hw
  constructor
  · exact atMost_askFamily _ _ _ _
  · refine le_trans (search_lower _ _) (le_trans
      (le_of_eq (C118_search h h8 hw hb iv d0 hd0 J c h1 hne (List.ofFn u) List.length_ofFn).symm) (prob_mono fun E hE => ?_))
    · have hr := result_askFamily E (fun i => oneKey h w (c i)) (fun _ => iv) (fun _ => oneDigest h iv)
        (pickOne (fun i => (c i).ops) [] u)
      change (searchAttack h iv c u).result E = _ at hr
      obtain ⟨i, he⟩ := hE
      rw [digest_single hw hd iv d0 hd0 J E (h1 i)] at he
      have he := List.ofFn_injective (Except.ok.inj he)
      obtain ⟨j, hj, hp⟩ := pickOne_spec (fun i => (c i).ops) [] u (fun i => oneDigest h iv (E (oneKey h w (c i)) iv)) ⟨i, he⟩
      rw [hr, hp]
      refine ⟨(c j).wellTyped, (c j).extracts, (c j).good, ?_, le_of_eq (h1 j)⟩
      have := digest_single hw hd iv d0 hd0 J E (c := { c j with garbage := garbage, length_garbage := hgb }) (h1 j)
      refine Eq.trans this ?_
      rw [← hj]
      rfl

/-! ### Enough messages of one block -/

/-- The numbers below `2^256` as messages of 256 bits. -/
def numberedCall (q : Nat) (i : Fin q) : MDCall h := firstCall h fun j => i.val.testBit j

theorem numberedCall_cost (q : Nat) (i : Fin q) : (numberedCall h q i).cost = 1 := firstCall_cost h _

theorem numberedCall_injective {q : Nat} (hq : q ≤ 2 ^ 256) : Function.Injective fun i => (numberedCall h q i).message.1 := by
  intro i j e
  have e1 : List.ofFn (fun k : Fin 256 => i.val.testBit k) = List.ofFn fun k : Fin 256 => j.val.testBit k :=
    (firstCall_stream h fun k : Fin 256 => i.val.testBit k).symm.trans
      (Eq.trans e (firstCall_stream h fun k : Fin 256 => j.val.testBit k))
  have e2 := List.ofFn_injective e1
  refine Fin.ext (Nat.eq_of_testBit_eq fun k => ?_)
  by_cases hk : k < 256
  · exact congrFun e2 ⟨k, hk⟩
  · have hp : 2 ^ 256 ≤ 2 ^ k := Nat.pow_le_pow_right (by omega) (by omega)
    rw [Nat.testBit_lt_two_pow (lt_of_lt_of_le i.2 (le_trans hq hp)), Nat.testBit_lt_two_pow (lt_of_lt_of_le j.2 (le_trans hq hp))]

include h8 hb in
/-- **C118, tightness.** For every number `q` of queries up to `2^256` the best attacker of `C91_collision_any` and
`C91_preimage_any` wins at least this often. -/
theorem C118_tight (q : Nat) (hq : q ≤ 2 ^ 256) (target garbage : Bits) (ht : target.length = (standard h).digest)
    (hgb : garbage.length = h.policy.blockBits) :
    (∃ A : Attacker (Vector (BitVec w) 16) (Vector (BitVec w) n) (List Op × List Op), A.AtMost q ∧
      (q * (q - 1) / (q * (q - 1) + 2 * 2 ^ (standard h).digest) : ℚ) ≤
        prob (fun E => Colliding (cipherHash h hw iv (fun k => E k) d0 hd0) J (A.result E).1 (A.result E).2 ∧
          callsFor h (streamOf h.policy.blockBits (A.result E).1) +
            callsFor h (streamOf h.policy.blockBits (A.result E).2) ≤ 2)) ∧
    ∃ A : Attacker (Vector (BitVec w) 16) (Vector (BitVec w) n) (List Op), A.AtMost q ∧
      (q / (q + 2 ^ (standard h).digest) : ℚ) ≤
        prob (fun E => (∀ op ∈ A.result E, op.WellTyped h.policy.blockBits) ∧ GoodExtracts h.policy.blockBits (GoodMsg h) [] (A.result E) ∧
          GoodMsg h (streamOf h.policy.blockBits (A.result E)) ∧
          (do let (a, _) ← runOps ((cipherHash h hw iv (fun k => E k) d0 hd0).C J) J
                (Acc.init ((cipherHash h hw iv (fun k => E k) d0 hd0).C J) garbage) [] (A.result E)
              a.result ((cipherHash h hw iv (fun k => E k) d0 hd0).C J)) = .ok target ∧
          callsFor h (streamOf h.policy.blockBits (A.result E)) ≤ 1) := by
  refine ⟨⟨_, C118_collision h h8 hw hb iv d0 hd0 J (numberedCall h q) (numberedCall_cost h q) (numberedCall_injective h hq)⟩, ?_⟩
  obtain ⟨u, rfl⟩ : ∃ u : Fin (standard h).digest → Bool, List.ofFn u = target :=
    ⟨bitsAt target 0 _, by rw [ofFn_bitsAt (by omega), List.drop_zero, ← ht, List.take_length]⟩
  exact ⟨_, C118_preimage h h8 hw hb iv d0 hd0 J (numberedCall h q) (numberedCall_cost h q) (numberedCall_injective h hq) u garbage hgb⟩

end law

/-! ### Examples -/

/-- SHA-256 over a random cipher: `2^128` queries find a collision with probability above one quarter. -/
example : ∃ A : Attacker (Vector (BitVec 32) 16) (Vector (BitVec 32) 8) (List Op × List Op), A.AtMost (2 ^ 128) ∧
    (1 / 4 : ℚ) ≤ prob (fun E => Colliding (cipherHash .sha256 rfl sha256IV (fun k => E k) (List.replicate 256 true)
      List.length_replicate) spliceInjector (A.result E).1 (A.result E).2) := by
  obtain ⟨A, h1, h2⟩ := (C118_tight (w := 32) (n := 8) .sha256 (by decide) rfl rfl sha256IV (List.replicate 256 true)
    List.length_replicate spliceInjector (2 ^ 128) (by decide) (List.replicate 256 true) (List.replicate 512 true)
    List.length_replicate List.length_replicate).1
  refine ⟨A, h1, le_trans ?_ (le_trans h2 (prob_mono fun E hE => hE.1))⟩
  rw [show (standard .sha256).digest = 256 from rfl]
  norm_num

/-- `2^256` queries find a message with a given digest with probability at least one half. -/
example (target : Bits) (ht : target.length = 256) : ∃ A : Attacker (Vector (BitVec 32) 16) (Vector (BitVec 32) 8) (List Op),
    A.AtMost (2 ^ 256) ∧ (1 / 2 : ℚ) ≤ prob (fun E =>
      (do let (a, _) ← runOps ((cipherHash .sha256 rfl sha256IV (fun k => E k) (List.replicate 256 true) List.length_replicate).C
              spliceInjector) spliceInjector (Acc.init ((cipherHash .sha256 rfl sha256IV (fun k => E k) (List.replicate 256 true)
              List.length_replicate).C spliceInjector) (List.replicate 512 true)) [] (A.result E)
          a.result ((cipherHash .sha256 rfl sha256IV (fun k => E k) (List.replicate 256 true) List.length_replicate).C
              spliceInjector)) = .ok target) := by
  obtain ⟨A, h1, h2⟩ := (C118_tight (w := 32) (n := 8) .sha256 (by decide) rfl rfl sha256IV (List.replicate 256 true)
    List.length_replicate spliceInjector (2 ^ 256) (le_refl _) target (List.replicate 512 true) ht List.length_replicate).2
  refine ⟨A, h1, le_trans ?_ (le_trans h2 (prob_mono fun E hE => hE.2.2.2.1))⟩
  rw [show (standard .sha256).digest = 256 from rfl]
  norm_num

/-- Three messages: the exact probability of a collision. -/
example : prob (fun E => ∃ i j : Fin 3, i ≠ j ∧
      (numberedCall .sha256 3 i).digest (cipherHash .sha256 rfl sha256IV (fun k => E k) (List.replicate 256 true) List.length_replicate)
        spliceInjector =
      (numberedCall .sha256 3 j).digest (cipherHash .sha256 rfl sha256IV (fun k => E k) (List.replicate 256 true) List.length_replicate)
        spliceInjector) = 1 - (1 - 1 / (2 : ℚ) ^ 256) * (1 - 2 / (2 : ℚ) ^ 256) := by
  rw [C118_birthday (w := 32) (n := 8) .sha256 (by decide) rfl rfl sha256IV (List.replicate 256 true) List.length_replicate
    spliceInjector (numberedCall .sha256 3) (numberedCall_cost _ _) (numberedCall_injective _ (by decide))]
  rw [show (standard .sha256).digest = 256 from rfl]
  congr 1
  rw [Nat.descFactorial_succ, Nat.descFactorial_succ, Nat.descFactorial_one, pow_mul]
  norm_num

/-- The digests of two messages are both zero with probability `2^-512`. -/
example : prob (fun E => ∀ i : Fin 2,
      (numberedCall .sha256 2 i).digest (cipherHash .sha256 rfl sha256IV (fun k => E k) (List.replicate 256 true) List.length_replicate)
        spliceInjector = .ok (List.replicate 256 false)) = 1 / (2 : ℚ) ^ 512 := by
  classical
  rw [C118_law (w := 32) (n := 8) .sha256 (by decide) rfl rfl sha256IV (List.replicate 256 true) List.length_replicate
    spliceInjector (numberedCall .sha256 2) (numberedCall_cost _ _) (numberedCall_injective _ (by decide))
    (fun t => ∀ i, t i = .ok (List.replicate 256 false))]
  refine congrArg (· / _) (Nat.cast_eq_one.2 (Finset.card_eq_one.2 ⟨fun _ _ => false, ?_⟩))
  ext t
  simp only [Finset.mem_filter, Finset.mem_univ, true_and, Finset.mem_singleton]
  have hz : List.ofFn (fun _ : Fin (standard .sha256).digest => false) = List.replicate 256 false := List.ofFn_const _ _
  constructor
  · intro e
    funext i
    exact List.ofFn_injective ((Except.ok.inj (e i)).trans hz.symm)
  · rintro rfl i
    exact congrArg Except.ok hz

end Verif.Props
