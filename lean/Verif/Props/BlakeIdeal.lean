import Verif.Props.IdealCipher
import Verif.Props.Reductions
/-
C93: collisions and preimages of BLAKE2b as the library computes it when the rounds are a random block cipher with the message
block as key.
-/
namespace Verif.Props

open Spec Spec.Ideal Verif.Ideal

/-- The sixteen words of a block. -/
abbrev BlakeKey := Vector (BitVec 64) 16

/-- The words of a block as key. -/
def blakeKey (b : Bits) : BlakeKey := Vector.ofFn fun i : Fin 16 => littleOctetBigBit.word 64 b i

/-- The working state before the rounds, for a number of bits and a flag. -/
def blakeInputOf (st : BlakeState) (seen : Nat) (final : Bool) : BlakeWork :=
  blakeStart st (blakeBytes (BitVec.ofNat 64 seen)) (if final then 0xFFFFFFFFFFFFFFFF else 0)

/-- `blakeCompress` with the cipher `E` in place of the twelve rounds. -/
def blakeCompressOf (E : BlakeKey → BlakeWork → BlakeWork) (st : BlakeState) (b : Bits) (seen : Nat) (final : Bool) : BlakeState :=
  blakeFinish st (E (blakeKey b) (blakeInputOf st seen final))

/-- `blake2bConstruction` with the cipher `E` in place of the twelve rounds. -/
def blakeConstructionOf (E : BlakeKey → BlakeWork → BlakeWork) (digestBits : Nat) (J : Injector) : Construction BlakeState Bits :=
  haifaConstruction 1024 64 (blakeInit digestBits) (blakeCompressOf E) (blakeOutput digestBits) J

/-- The twelve rounds as a cipher. -/
noncomputable def blakeCipher : Cipher BlakeKey BlakeWork := fun k =>
  Equiv.ofBijective (blakeRounds fun i => k[i]?.getD 0) (C24_rounds_bijective _)

/-- **C93.** With the rounds of the library as cipher this is the library's BLAKE2b. -/
theorem C93_library (digestBits : Nat) (J : Injector) :
    blakeConstructionOf (fun k => blakeCipher k) digestBits J = blake2bConstruction digestBits J := by
  have : blakeCompressOf (fun k => blakeCipher k) = blakeCompress := by
    funext st b seen final
    have hE : ∀ k v, blakeCipher k v = blakeRounds (fun i => k[i]?.getD 0) v := fun _ _ => Equiv.ofBijective_apply ..
    unfold blakeCompressOf blakeCompress blakeCompressWords
    beta_reduce
    rw [hE]
    refine congrArg (blakeFinish st) (blakeRounds_congr (fun i hi => ?_) _)
    rw [blakeKey, Vector.getElem?_eq_getElem hi, Vector.getElem_ofFn, Option.getD_some]
  rw [blakeConstructionOf, this, blake2bConstruction]

/-! ### Counting -/

/-- The first eight words. -/
def lowHalf (x : BlakeWork) : BlakeState := #v[x[0], x[1], x[2], x[3], x[4], x[5], x[6], x[7]]

/-- The last eight words. -/
def highHalf (x : BlakeWork) : BlakeState := #v[x[8], x[9], x[10], x[11], x[12], x[13], x[14], x[15]]

theorem halves_injective {x x' : BlakeWork} (h : lowHalf x = lowHalf x') (h' : highHalf x = highHalf x') : x = x' := by
  apply Vector.ext
  intro i hi
  have e := fun (j : Nat) (hj : j < 8) => congrArg (fun v : BlakeState => v[j]) h
  have e' := fun (j : Nat) (hj : j < 8) => congrArg (fun v : BlakeState => v[j]) h'
  rcases (show i = 0 ∨ i = 1 ∨ i = 2 ∨ i = 3 ∨ i = 4 ∨ i = 5 ∨ i = 6 ∨ i = 7 ∨ i = 8 ∨ i = 9 ∨ i = 10 ∨ i = 11 ∨ i = 12 ∨
    i = 13 ∨ i = 14 ∨ i = 15 by omega) with rfl | rfl | rfl | rfl | rfl | rfl | rfl | rfl | rfl | rfl | rfl | rfl | rfl | rfl |
      rfl | rfl
  exacts [e 0 (by omega), e 1 (by omega), e 2 (by omega), e 3 (by omega), e 4 (by omega), e 5 (by omega), e 6 (by omega),
    e 7 (by omega), e' 0 (by omega), e' 1 (by omega), e' 2 (by omega), e' 3 (by omega), e' 4 (by omega), e' 5 (by omega),
    e' 6 (by omega), e' 7 (by omega)]

theorem lowHalf_input (st : BlakeState) (seen : Nat) (final : Bool) : lowHalf (blakeInputOf st seen final) = st := by
  apply Vector.ext
  intro i hi
  rcases (show i = 0 ∨ i = 1 ∨ i = 2 ∨ i = 3 ∨ i = 4 ∨ i = 5 ∨ i = 6 ∨ i = 7 by omega) with
    rfl | rfl | rfl | rfl | rfl | rfl | rfl | rfl <;> rfl

theorem blakeBytes_toNat {n : Nat} (h : n < 2 ^ 64) (h8 : 8 ∣ n) : (blakeBytes (BitVec.ofNat 64 n)).toNat = n / 8 := by
  have hm : BitVec.ofNat 64 n % 8 = 0 := by
    apply BitVec.eq_of_toNat_eq
    rw [BitVec.toNat_umod, BitVec.toNat_ofNat, Nat.mod_eq_of_lt h]
    show n % 8 = 0
    omega
  unfold blakeBytes
  rw [if_neg (by rw [hm]; simp), show BitVec.ofNat 64 n / 8 + 0 = BitVec.ofNat 64 n / 8 from BitVec.add_zero _, BitVec.toNat_udiv, BitVec.toNat_ofNat, Nat.mod_eq_of_lt h]
  rfl

theorem blakeInputOf_injective {st st' : BlakeState} {n n' : Nat} {f f' : Bool} (h : n < 2 ^ 64) (h' : n' < 2 ^ 64) (h8 : 8 ∣ n)
    (h8' : 8 ∣ n') (e : blakeInputOf st n f = blakeInputOf st' n' f') : st = st' ∧ n = n' ∧ f = f' := by
  refine ⟨?_, ?_, ?_⟩
  · rw [← lowHalf_input st n f, e, lowHalf_input]
  · have h1 := congrArg (fun v : BlakeWork => v[12]) e
    have h2 : blakeIV[4] ^^^ blakeBytes (BitVec.ofNat 64 n) = blakeIV[4] ^^^ blakeBytes (BitVec.ofNat 64 n') := h1
    have h3 := congrArg BitVec.toNat ((BitVec.xor_right_inj _).1 h2)
    rw [blakeBytes_toNat h h8, blakeBytes_toNat h' h8'] at h3
    omega
  · have h1 := congrArg (fun v : BlakeWork => v[14]) e
    have h2 : blakeIV[6] ^^^ (if f then 0xFFFFFFFFFFFFFFFF else 0 : BitVec 64) =
      blakeIV[6] ^^^ (if f' then 0xFFFFFFFFFFFFFFFF else 0 : BitVec 64) := h1
    have h3 := (BitVec.xor_right_inj _).1 h2
    cases f <;> cases f' <;> first | rfl | exact absurd h3 (by decide)

theorem blakeFinish_get (st : BlakeState) (v : BlakeWork) (i : Nat) (hi : i < 8) :
    (blakeFinish st v)[i] = st[i] ^^^ ((lowHalf v)[i] ^^^ (highHalf v)[i]) := by
  rcases (show i = 0 ∨ i = 1 ∨ i = 2 ∨ i = 3 ∨ i = 4 ∨ i = 5 ∨ i = 6 ∨ i = 7 by omega) with
    rfl | rfl | rfl | rfl | rfl | rfl | rfl | rfl <;> rfl

/-- The digest that a cipher call would give. -/
def blakeValue (nn : Nat) (_ : BlakeKey) (x y : BlakeWork) : Bits :=
  (littleOctetBigBit.arrayView (blakeFinish (lowHalf x) y)).take (8 * nn)

theorem length_view8 (st : BlakeState) : (littleOctetBigBit.arrayView st).length = 512 := length_arrayView' _ _

theorem view8_injective {st st' : BlakeState} (h : littleOctetBigBit.arrayView st = littleOctetBigBit.arrayView st') : st = st' :=
  arrayView_injective littleOctetBigBit (by omega) h

theorem blake_fibers {nn : Nat} (hnn : nn ≤ 64) : Fibers (blakeValue nn) (2 ^ (1024 - 8 * nn)) := by
  have cut : ∀ a b : BlakeState, (littleOctetBigBit.arrayView a ++ littleOctetBigBit.arrayView b).take (8 * nn) =
      (littleOctetBigBit.arrayView a).take (8 * nn) := fun a b => List.take_append_of_le_length (by rw [length_view8]; omega)
  have split : ∀ {a b a' b' : BlakeState}, littleOctetBigBit.arrayView a ++ littleOctetBigBit.arrayView b =
      littleOctetBigBit.arrayView a' ++ littleOctetBigBit.arrayView b' → a = a' ∧ b = b' := by
    intro a b a' b' h
    have := List.append_inj h (by rw [length_view8, length_view8])
    exact ⟨view8_injective this.1, view8_injective this.2⟩
  constructor
  · intro k x t
    have := card_take_le (fun y : BlakeWork => littleOctetBigBit.arrayView (blakeFinish (lowHalf x) y) ++
      littleOctetBigBit.arrayView (highHalf y)) (fun y y' h => ?_) (L := 1024) (d := 8 * nn)
      (fun y => by rw [List.length_append, length_view8, length_view8]) t
    · simp only [cut] at this
      exact this
    · obtain ⟨h1, h2⟩ := split h
      refine halves_injective (Vector.ext fun i hi => ?_) h2
      have h3 := congrArg (fun v : BlakeState => v[i]) h1
      simp only [blakeFinish_get _ _ i hi, h2] at h3
      exact (BitVec.xor_left_inj _).1 ((BitVec.xor_right_inj _).1 h3)
  · intro k y t
    have := card_take_le (fun x : BlakeWork => littleOctetBigBit.arrayView (blakeFinish (lowHalf x) y) ++
      littleOctetBigBit.arrayView (highHalf x)) (fun x x' h => ?_) (L := 1024) (d := 8 * nn)
      (fun y => by rw [List.length_append, length_view8, length_view8]) t
    · simp only [cut] at this
      exact this
    · obtain ⟨h1, h2⟩ := split h
      refine halves_injective (Vector.ext fun i hi => ?_) h2
      have h3 := congrArg (fun v : BlakeState => v[i]) h1
      simp only [blakeFinish_get _ _ i hi] at h3
      exact (BitVec.xor_left_inj _).1 h3

/-! ### The calls for a message -/

/-- A call of the compression function as a step. -/
abbrev blakeStep (E : BlakeKey → BlakeWork → BlakeWork) (s : BlakeState) (c : Bits × Nat × Bool) : BlakeState :=
  blakeCompressOf E s c.1 c.2.1 c.2.2

/-- All cipher calls for hashing `m` are among the triples `L`. -/
def BlakeEvaluated (init : BlakeState) (E : Cipher BlakeKey BlakeWork) (L : List (BlakeKey × BlakeWork × BlakeWork)) (m : Bits) :
    Prop :=
  ∀ i c, (haifaInput 1024 m)[i]? = some c →
    let s := ((haifaInput 1024 m).take i).foldl (blakeStep fun k => E k) init
    (blakeKey c.1, blakeInputOf s c.2.1 c.2.2, E (blakeKey c.1) (blakeInputOf s c.2.1 c.2.2)) ∈ L

theorem haifaInput_call {m : Bits} (h8 : 8 ∣ m.length) (hlt : m.length < 2 ^ 64) {c : Bits × Nat × Bool}
    (h : c ∈ haifaInput 1024 m) : c.1.length = 1024 ∧ 8 ∣ c.2.1 ∧ c.2.1 < 2 ^ 64 := by
  unfold haifaInput at h
  rcases List.mem_append.1 h with h | h
  · obtain ⟨i, hi, rfl⟩ := List.mem_map.1 h
    have hi := List.mem_range.1 hi
    have hle : (i + 1) * 1024 ≤ m.length := by
      exact le_trans (Nat.mul_le_mul_right _ hi) (Nat.div_mul_le_self m.length 1024)
    have hl : (block 1024 m i).length = 1024 := by
      unfold block
      rw [List.length_take, List.length_drop]
      omega
    have h2 : 8 ∣ (i + 1) * 1024 := by omega
    have h3 : (i + 1) * 1024 < 2 ^ 64 := by omega
    exact And.intro hl (And.intro h2 h3)
  · rw [List.mem_singleton.1 h]
    refine ⟨?_, h8, hlt⟩
    show (ite _ _ _ : Bits).length = 1024
    split
    · rw [List.length_drop]
      omega
    · rw [List.length_append, List.length_drop, List.length_replicate]
      omega

theorem blakeKey_injective {b b' : Bits} (hb : b.length = 1024) (hb' : b'.length = 1024) (e : blakeKey b = blakeKey b') : b = b' :=
  keyOf_injective .md5 (w := 64) (by omega) hb hb' e

theorem last_call (m : Bits) : ∃ i c, (haifaInput 1024 m)[i]? = some c ∧
    ∀ {σ : Type} (f : σ → Bits × Nat × Bool → σ) (iv : σ), (haifaInput 1024 m).foldl f iv =
      f (((haifaInput 1024 m).take i).foldl f iv) c := by
  unfold haifaInput
  refine ⟨_, _, List.getElem?_concat_length .., ?_⟩
  intro σ f iv
  rw [List.foldl_append, List.take_left']
  · rfl
  · rfl

/-- The digest as a function of the message. -/
theorem blakeOf_result (E : BlakeKey → BlakeWork → BlakeWork) {nn : Nat} (hnn : nn ≤ 64) (JP J : Injector) (garbage : Bits)
    (hg : garbage.length = 1024) (ops : List Op) (hwt : ∀ op ∈ ops, op.WellTyped 1024) (hx : GoodExtracts 1024 HaifaGood [] ops)
    (hlt : (streamOf 1024 ops).length < 2 ^ 64) :
    (do let (a, _) ← runOps (blakeConstructionOf E (8 * nn) JP) J (Acc.init (blakeConstructionOf E (8 * nn) JP) garbage) [] ops
        a.result (blakeConstructionOf E (8 * nn) JP)) =
      .ok ((littleOctetBigBit.arrayView ((haifaInput 1024 (streamOf 1024 ops)).foldl (blakeStep E) (blakeInit (8 * nn)))).take
        (8 * nn)) := by
  have hout : ∀ s, blakeOutput (8 * nn) s = .ok ((littleOctetBigBit.arrayView s).take (8 * nn)) := by
    intro s
    unfold blakeOutput
    rw [Nat.mul_div_cancel_left _ (by omega : 0 < 8), Nat.mul_comm nn 8]
    exact if_pos (by rw [length_view8]; omega)
  have V := haifa_verified 1024 64 (by omega) (by omega) (by omega) (blakeInit (8 * nn)) (blakeCompressOf E) (blakeOutput (8 * nn)) _
    hout JP
  obtain ⟨a, e, r⟩ := V.extraction J garbage hg ops hwt (Or.inl hlt) hx hlt
  unfold blakeConstructionOf
  rw [e]
  show a.result (haifaConstruction 1024 64 (blakeInit (8 * nn)) (blakeCompressOf E) (blakeOutput (8 * nn)) JP) = _
  rw [r]
  unfold haifaDigestOf haifaInput
  rw [List.foldl_append, ← haifaAbsorbed_foldl]
  rfl

/-! ### C93 -/

/-- Two programs of calls that feed different messages of whole octets, below 2^64 bits, and obtain the same digest. -/
structure BlakeColliding (E : BlakeKey → BlakeWork → BlakeWork) (nn : Nat) (JP J : Injector) (ops ops' : List Op) : Prop where
  wellTyped : ∀ op ∈ ops ++ ops', op.WellTyped 1024
  extracts : GoodExtracts 1024 HaifaGood [] ops ∧ GoodExtracts 1024 HaifaGood [] ops'
  short : (streamOf 1024 ops).length < 2 ^ 64 ∧ (streamOf 1024 ops').length < 2 ^ 64
  octets : 8 ∣ (streamOf 1024 ops).length ∧ 8 ∣ (streamOf 1024 ops').length
  different : streamOf 1024 ops ≠ streamOf 1024 ops'
  digest : ∃ garbage garbage' : Bits, garbage.length = 1024 ∧ garbage'.length = 1024 ∧
    (do let (a, _) ← runOps (blakeConstructionOf E (8 * nn) JP) J (Acc.init (blakeConstructionOf E (8 * nn) JP) garbage) [] ops
        a.result (blakeConstructionOf E (8 * nn) JP)) =
    (do let (a, _) ← runOps (blakeConstructionOf E (8 * nn) JP) J (Acc.init (blakeConstructionOf E (8 * nn) JP) garbage') [] ops'
        a.result (blakeConstructionOf E (8 * nn) JP))

theorem card_work : Fintype.card BlakeWork = 2 ^ 1024 := card_words 64 16

/-- **C93.** BLAKE2b with `nn` octets of output as the library computes it, a random cipher in place of the twelve rounds: an
attacker that asks at most `q` queries in both directions, those for its own two messages included, makes the library return the
same digest for different messages with probability at most `q (q - 1) / 2` times `2^-(8 nn)`, up to the factor
`2^1024 / (2^1024 - q)`. -/
theorem C93_collision {nn : Nat} (hnn : nn ≤ 64) (JP J : Injector) (A : Attacker BlakeKey BlakeWork (List Op × List Op)) (q : Nat)
    (hA : A.AtMost q) (hq : q < 2 ^ 1024) :
    prob (fun E => BlakeColliding (fun k => E k) nn JP J (A.result E).1 (A.result E).2 ∧
      BlakeEvaluated (blakeInit (8 * nn)) E (A.learns E) (streamOf 1024 (A.result E).1) ∧
      BlakeEvaluated (blakeInit (8 * nn)) E (A.learns E) (streamOf 1024 (A.result E).2)) ≤
      (q * (q - 1) / 2 * 2 ^ (1024 - 8 * nn) : ℚ) / (2 ^ 1024 - q) := by
  refine le_trans (collision_bound (blake_fibers hnn) A q hA (by rw [card_work]; exact hq) _ ?_)
    (le_of_eq (by rw [card_work]; push_cast; rfl))
  rintro E ⟨hC, hE, hE'⟩
  obtain ⟨g, g', hg, hg', hdig⟩ := hC.digest
  rw [blakeOf_result _ hnn JP J g hg _ (fun op ho => hC.wellTyped op (List.mem_append_left _ ho))
      hC.extracts.1 hC.short.1,
    blakeOf_result _ hnn JP J g' hg' _ (fun op ho => hC.wellTyped op (List.mem_append_right _ ho))
      hC.extracts.2 hC.short.2] at hdig
  injection hdig with hdig
  by_cases hs : (haifaInput 1024 (streamOf 1024 (A.result E).1)).foldl (blakeStep fun k => E k) (blakeInit (8 * nn)) =
      (haifaInput 1024 (streamOf 1024 (A.result E).2)).foldl (blakeStep fun k => E k) (blakeInit (8 * nn))
  · obtain ⟨i, j, c, c', hi, hj, hne, heq⟩ := haifaInput_collision (by omega) _ _ hC.different hs
    obtain ⟨l1, d1, b1⟩ := haifaInput_call hC.octets.1 hC.short.1 (List.mem_of_getElem? hi)
    obtain ⟨l2, d2, b2⟩ := haifaInput_call hC.octets.2 hC.short.2 (List.mem_of_getElem? hj)
    refine ⟨_, hE i c hi, _, hE' j c' hj, ?_, ?_⟩
    · intro he
      have h1 := blakeKey_injective l1 l2 (Prod.mk.inj he).1
      obtain ⟨h2, h3, h4⟩ := blakeInputOf_injective b1 b2 d1 d2 (Prod.mk.inj he).2
      exact hne (Prod.ext h2 (Prod.ext h1 (Prod.ext h3 h4)))
    · show (littleOctetBigBit.arrayView (blakeFinish (lowHalf _) _)).take _ =
        (littleOctetBigBit.arrayView (blakeFinish (lowHalf _) _)).take _
      rw [lowHalf_input, lowHalf_input]
      exact congrArg (fun v => (littleOctetBigBit.arrayView v).take (8 * nn)) heq
  · obtain ⟨i, c, hi, hf⟩ := last_call (streamOf 1024 (A.result E).1)
    obtain ⟨j, c', hj, hf'⟩ := last_call (streamOf 1024 (A.result E).2)
    rw [hf, hf'] at hs hdig
    refine ⟨_, hE i c hi, _, hE' j c' hj, ?_, ?_⟩
    · intro he
      apply hs
      obtain ⟨l1, d1, b1⟩ := haifaInput_call hC.octets.1 hC.short.1 (List.mem_of_getElem? hi)
      obtain ⟨l2, d2, b2⟩ := haifaInput_call hC.octets.2 hC.short.2 (List.mem_of_getElem? hj)
      have h1 := blakeKey_injective l1 l2 (Prod.mk.inj he).1
      obtain ⟨h2, h3, h4⟩ := blakeInputOf_injective b1 b2 d1 d2 (Prod.mk.inj he).2
      exact congrArg₂ (blakeStep fun k => E k) h2 (Prod.ext h1 (Prod.ext h3 h4))
    · show (littleOctetBigBit.arrayView (blakeFinish (lowHalf _) _)).take _ =
        (littleOctetBigBit.arrayView (blakeFinish (lowHalf _) _)).take _
      rw [lowHalf_input, lowHalf_input]
      exact hdig

/-- **C93, preimages.** -/
theorem C93_preimage {nn : Nat} (hnn : nn ≤ 64) (JP J : Injector) (A : Attacker BlakeKey BlakeWork (List Op)) (q : Nat)
    (hA : A.AtMost q) (hq : q < 2 ^ 1024) (target garbage : Bits) (hgb : garbage.length = 1024) :
    prob (fun E => (∀ op ∈ A.result E, op.WellTyped 1024) ∧ GoodExtracts 1024 HaifaGood [] (A.result E) ∧
      (streamOf 1024 (A.result E)).length < 2 ^ 64 ∧
      (do let (a, _) ← runOps (blakeConstructionOf (fun k => E k) (8 * nn) JP) J
            (Acc.init (blakeConstructionOf (fun k => E k) (8 * nn) JP) garbage) [] (A.result E)
          a.result (blakeConstructionOf (fun k => E k) (8 * nn) JP)) = .ok target ∧
      BlakeEvaluated (blakeInit (8 * nn)) E (A.learns E) (streamOf 1024 (A.result E))) ≤
      (q * 2 ^ (1024 - 8 * nn) : ℚ) / (2 ^ 1024 - q) := by
  refine le_trans (preimage_bound (blake_fibers hnn) A q hA (by rw [card_work]; exact hq) target _ ?_)
    (le_of_eq (by rw [card_work]; push_cast; rfl))
  rintro E ⟨hwt, hx, hlt, hres, hE⟩
  rw [blakeOf_result _ hnn JP J garbage hgb _ hwt hx hlt] at hres
  injection hres with hres
  obtain ⟨i, c, hi, hf⟩ := last_call (streamOf 1024 (A.result E))
  refine ⟨_, hE i c hi, ?_⟩
  show (littleOctetBigBit.arrayView (blakeFinish (lowHalf _) _)).take _ = _
  rw [lowHalf_input, ← hres, hf]
  rfl

/-! ### Attackers that do not hash their own messages -/

/-- The attacker that hashes `m` and returns `r`. -/
def blaking {R : Type _} (init : BlakeState) (m : Bits) (r : R) : Attacker BlakeKey BlakeWork R :=
  walk (fun c : Bits × Nat × Bool => blakeKey c.1) (fun s c => blakeInputOf s c.2.1 c.2.2) blakeFinish r (haifaInput 1024 m) init

theorem evaluated_blaking {R : Type _} (init : BlakeState) (m : Bits) (r : R) (E : Cipher BlakeKey BlakeWork) :
    BlakeEvaluated init E ((blaking init m r).learns E) m := fun _ _ hi =>
  learns_walk (fun c : Bits × Nat × Bool => blakeKey c.1) (fun s c => blakeInputOf s c.2.1 c.2.2) blakeFinish E r _ init hi

/-- **C93, any attacker.** The calls for the two messages, at most `l`, are counted as queries. -/
theorem C93_collision_any {nn : Nat} (hnn : nn ≤ 64) (JP J : Injector) (A : Attacker BlakeKey BlakeWork (List Op × List Op))
    (q l : Nat) (hA : A.AtMost q) (hq : q + l < 2 ^ 1024) :
    prob (fun E => BlakeColliding (fun k => E k) nn JP J (A.result E).1 (A.result E).2 ∧
      (haifaInput 1024 (streamOf 1024 (A.result E).1)).length + (haifaInput 1024 (streamOf 1024 (A.result E).2)).length ≤ l) ≤
      ((q + l) * (q + l - 1) / 2 * 2 ^ (1024 - 8 * nn) : ℚ) / (2 ^ 1024 - (q + l)) := by
  let f : List Op × List Op → Attacker BlakeKey BlakeWork (List Op × List Op) := fun r =>
    if (haifaInput 1024 (streamOf 1024 r.1)).length + (haifaInput 1024 (streamOf 1024 r.2)).length ≤ l then
      andThen (blaking (blakeInit (8 * nn)) (streamOf 1024 r.1) r) fun _ => blaking (blakeInit (8 * nn)) (streamOf 1024 r.2) r
    else .done r
  have hf : ∀ r, (f r).AtMost l := by
    intro r
    show (ite _ _ _ : Attacker _ _ _).AtMost l
    split
    · rename_i hl
      refine atMost_mono (q := (haifaInput 1024 (streamOf 1024 r.1)).length + (haifaInput 1024 (streamOf 1024 r.2)).length) ?_ hl
      exact atMost_andThen (atMost_walk _ _ _ _ _ _) fun _ => atMost_walk _ _ _ _ _ _
    · trivial
  have hr : ∀ E r, (f r).result E = r := by
    intro E r
    show (ite _ _ _ : Attacker _ _ _).result E = r
    split
    · rw [result_andThen, blaking, result_walk]
    · rfl
  have hres : ∀ E, (andThen A f).result E = A.result E := fun E => by rw [result_andThen, hr]
  have key := C93_collision hnn JP J (andThen A f) (q + l) (atMost_andThen hA hf) hq
  simp only [hres] at key
  refine le_trans (prob_mono fun E hE => ⟨hE.1, ?_, ?_⟩) (le_trans key (le_of_eq (by push_cast; rfl)))
  · intro i b hi
    rw [learns_andThen]
    refine List.mem_append_right _ ?_
    show _ ∈ (ite _ _ _ : Attacker _ _ _).learns E
    rw [if_pos hE.2, learns_andThen]
    exact List.mem_append_left _ (evaluated_blaking _ _ _ E i b hi)
  · intro i b hi
    rw [learns_andThen]
    refine List.mem_append_right _ ?_
    show _ ∈ (ite _ _ _ : Attacker _ _ _).learns E
    rw [if_pos hE.2, learns_andThen]
    exact List.mem_append_right _ (evaluated_blaking _ _ _ E i b hi)

/-- **C93, preimages, any attacker.** -/
theorem C93_preimage_any {nn : Nat} (hnn : nn ≤ 64) (JP J : Injector) (A : Attacker BlakeKey BlakeWork (List Op)) (q l : Nat)
    (hA : A.AtMost q) (hq : q + l < 2 ^ 1024) (target garbage : Bits) (hgb : garbage.length = 1024) :
    prob (fun E => (∀ op ∈ A.result E, op.WellTyped 1024) ∧ GoodExtracts 1024 HaifaGood [] (A.result E) ∧
      (streamOf 1024 (A.result E)).length < 2 ^ 64 ∧
      (do let (a, _) ← runOps (blakeConstructionOf (fun k => E k) (8 * nn) JP) J
            (Acc.init (blakeConstructionOf (fun k => E k) (8 * nn) JP) garbage) [] (A.result E)
          a.result (blakeConstructionOf (fun k => E k) (8 * nn) JP)) = .ok target ∧
      (haifaInput 1024 (streamOf 1024 (A.result E))).length ≤ l) ≤
      ((q + l) * 2 ^ (1024 - 8 * nn) : ℚ) / (2 ^ 1024 - (q + l)) := by
  let f : List Op → Attacker BlakeKey BlakeWork (List Op) := fun r =>
    if (haifaInput 1024 (streamOf 1024 r)).length ≤ l then blaking (blakeInit (8 * nn)) (streamOf 1024 r) r else .done r
  have hf : ∀ r, (f r).AtMost l := by
    intro r
    show (ite _ _ _ : Attacker _ _ _).AtMost l
    split
    · rename_i hl
      exact atMost_mono (atMost_walk _ _ _ _ _ _) hl
    · trivial
  have hr : ∀ E r, (f r).result E = r := by
    intro E r
    show (ite _ _ _ : Attacker _ _ _).result E = r
    split
    · rw [blaking, result_walk]
    · rfl
  have hres : ∀ E, (andThen A f).result E = A.result E := fun E => by rw [result_andThen, hr]
  have key := C93_preimage hnn JP J (andThen A f) (q + l) (atMost_andThen hA hf) hq target garbage hgb
  simp only [hres] at key
  refine le_trans (prob_mono fun E hE => ⟨hE.1, hE.2.1, hE.2.2.1, hE.2.2.2.1, ?_⟩) (le_trans key (le_of_eq (by push_cast; rfl)))
  intro i b hi
  rw [learns_andThen]
  refine List.mem_append_right _ ?_
  show _ ∈ (ite _ _ _ : Attacker _ _ _).learns E
  rw [if_pos hE.2.2.2.2]
  exact evaluated_blaking _ _ _ E i b hi

/-! ### Two messages of one octet -/

theorem oneOctet1 : (streamOf 1024 [blakeBytesOp [1]]).length = 8 ∧
    (haifaInput 1024 (streamOf 1024 [blakeBytesOp [1]])).length = 1 ∧
    (haifaInput 1024 (streamOf 1024 [blakeBytesOp [1]])).map (fun c => c.2) = [(8, true)] := by decide +kernel

theorem oneOctet2 : (streamOf 1024 [blakeBytesOp [2]]).length = 8 ∧
    (haifaInput 1024 (streamOf 1024 [blakeBytesOp [2]])).length = 1 ∧
    (haifaInput 1024 (streamOf 1024 [blakeBytesOp [2]])).map (fun c => c.2) = [(8, true)] := by decide +kernel

theorem oneOctet_wellTyped (x : Nat) : ∀ op ∈ [blakeBytesOp [x]], op.WellTyped 1024 := by
  intro op hop
  rw [List.mem_singleton.1 hop]; exact blakeBytesOp_wellTyped _

theorem two_lt' : 2 < 2 ^ 1024 := lt_of_lt_of_le (by norm_num : 2 < 2 ^ 2) (Nat.pow_le_pow_right (by norm_num) (by norm_num))

/-- The event is not empty: with the identity under every key two messages collide. -/
example : BlakeColliding (fun _ => Equiv.refl BlakeWork) 64 spliceInjector spliceInjector [blakeBytesOp [1]] [blakeBytesOp [2]] where
  wellTyped := by
    intro op ho
    rcases List.mem_append.1 ho with ho | ho
    · exact oneOctet_wellTyped 1 op ho
    · exact oneOctet_wellTyped 2 op ho
  extracts := ⟨trivial, trivial⟩
  short := ⟨by rw [oneOctet1.1]; norm_num, by rw [oneOctet2.1]; norm_num⟩
  octets := ⟨by rw [oneOctet1.1], by rw [oneOctet2.1]⟩
  different := by decide +kernel
  digest := by
    refine ⟨List.replicate 1024 true, List.replicate 1024 false, List.length_replicate, List.length_replicate, ?_⟩
    rw [blakeOf_result _ (by omega) _ _ _ List.length_replicate _ (oneOctet_wellTyped 1) trivial
        (by rw [oneOctet1.1]; norm_num),
      blakeOf_result _ (by omega) _ _ _ List.length_replicate _ (oneOctet_wellTyped 2) trivial
        (by rw [oneOctet2.1]; norm_num)]
    have key : ∀ (L : List (Bits × Nat × Bool)) (s : BlakeState), L.map (fun c => c.2) = [(8, true)] →
        L.foldl (blakeStep fun _ => Equiv.refl BlakeWork) s = blakeFinish s (blakeInputOf s 8 true) := by
      intro L s h
      obtain ⟨c, L', rfl, hc, hL⟩ := List.map_eq_cons_iff.1 h
      rw [List.map_eq_nil_iff.1 hL]
      show blakeFinish s (blakeInputOf s c.2.1 c.2.2) = _
      rw [hc]
    rw [key _ _ oneOctet1.2.2, key _ _ oneOctet2.2.2]

/-- Two fixed messages collide for a fraction of about `2^-512` of all ciphers. -/
example : prob (fun E : Cipher BlakeKey BlakeWork =>
      BlakeColliding (fun k => E k) 64 spliceInjector spliceInjector [blakeBytesOp [1]] [blakeBytesOp [2]]) ≤
    (2 : ℚ) ^ 512 / (2 ^ 1024 - 2) := by
  have := C93_collision_any (nn := 64) le_rfl spliceInjector spliceInjector (.done ([blakeBytesOp [1]], [blakeBytesOp [2]])) 0 2 trivial
    (by rw [Nat.zero_add]; exact two_lt')
  refine le_trans (prob_mono fun E hE => ⟨hE, ?_⟩) (le_trans this (le_of_eq ?_))
  · rw [show 1024 - 8 * 64 = 512 from rfl]
    push_cast
    rw [zero_add, show (2 : ℚ) * (2 - 1) / 2 = 1 by norm_num, one_mul]
  · exact le_of_eq (congrArg₂ (· + ·) oneOctet1.2.1 oneOctet2.2.1)

/-- A fixed message has a given digest for a fraction of about `2^-512` of all ciphers. -/
example (target : Bits) : prob (fun E : Cipher BlakeKey BlakeWork =>
      (do let (a, _) ← runOps (blakeConstructionOf (fun k => E k) (8 * 64) spliceInjector) spliceInjector
            (Acc.init (blakeConstructionOf (fun k => E k) (8 * 64) spliceInjector) (List.replicate 1024 true)) [] [blakeBytesOp [1]]
          a.result (blakeConstructionOf (fun k => E k) (8 * 64) spliceInjector)) = .ok target) ≤
    (2 : ℚ) ^ 512 / (2 ^ 1024 - 1) := by
  have := C93_preimage_any (nn := 64) le_rfl spliceInjector spliceInjector (.done [blakeBytesOp [1]]) 0 1 trivial
    (lt_trans (by norm_num) two_lt') target (List.replicate 1024 true) List.length_replicate
  refine le_trans (prob_mono fun E hE => ⟨oneOctet_wellTyped 1, trivial,
    lt_of_le_of_lt (le_of_eq oneOctet1.1) (by norm_num), hE, le_of_eq oneOctet1.2.1⟩) (le_trans this (le_of_eq ?_))
  rw [show 1024 - 8 * 64 = 512 from rfl]
  push_cast
  rw [zero_add, one_mul]

attribute [local irreducible] Attacker.AtMost

/-- The attacker that hashes the message. -/
def octetOnce : Attacker BlakeKey BlakeWork (List Op) := blaking (blakeInit (8 * 64)) (streamOf 1024 [blakeBytesOp [1]]) [blakeBytesOp [1]]

theorem octetOnce_run : octetOnce.AtMost 1 ∧ ∀ E, octetOnce.result E = [blakeBytesOp [1]] ∧
    BlakeEvaluated (blakeInit (8 * 64)) E (octetOnce.learns E) (streamOf 1024 [blakeBytesOp [1]]) :=
  ⟨atMost_mono (atMost_walk _ _ _ _ _ _) (le_of_eq oneOctet1.2.1), fun E => ⟨result_walk _ _ _ _ _ _ _, evaluated_blaking _ _ _ E⟩⟩

example (target : Bits) : prob (fun E : Cipher BlakeKey BlakeWork =>
      (do let (a, _) ← runOps (blakeConstructionOf (fun k => E k) (8 * 64) spliceInjector) spliceInjector
            (Acc.init (blakeConstructionOf (fun k => E k) (8 * 64) spliceInjector) (List.replicate 1024 true)) [] [blakeBytesOp [1]]
          a.result (blakeConstructionOf (fun k => E k) (8 * 64) spliceInjector)) = .ok target) ≤
    (2 : ℚ) ^ 512 / (2 ^ 1024 - 1) := by
  have := C93_preimage (nn := 64) le_rfl spliceInjector spliceInjector octetOnce 1 octetOnce_run.1
    (lt_trans (by norm_num) two_lt') target (List.replicate 1024 true) List.length_replicate
  refine le_trans (prob_mono fun E hE => ?_) (le_trans this (le_of_eq ?_))
  · rw [(octetOnce_run.2 E).1]
    exact ⟨oneOctet_wellTyped 1, trivial, lt_of_le_of_lt (le_of_eq oneOctet1.1) (by norm_num), hE,
      (octetOnce_run.2 E).2⟩
  rw [show 1024 - 8 * 64 = 512 from rfl, Nat.cast_one, one_mul]

/-- The attacker that hashes the two messages. -/
def octetTwice : Attacker BlakeKey BlakeWork (List Op × List Op) := andThen octetOnce fun _ =>
  blaking (blakeInit (8 * 64)) (streamOf 1024 [blakeBytesOp [2]]) ([blakeBytesOp [1]], [blakeBytesOp [2]])

theorem octetTwice_run : octetTwice.AtMost 2 ∧ ∀ E, octetTwice.result E = ([blakeBytesOp [1]], [blakeBytesOp [2]]) ∧
    BlakeEvaluated (blakeInit (8 * 64)) E (octetTwice.learns E) (streamOf 1024 [blakeBytesOp [1]]) ∧
    BlakeEvaluated (blakeInit (8 * 64)) E (octetTwice.learns E) (streamOf 1024 [blakeBytesOp [2]]) := by
  refine ⟨atMost_andThen (q := 1) (l := 1) octetOnce_run.1 fun _ =>
    atMost_mono (atMost_walk _ _ _ _ _ _) (le_of_eq oneOctet2.2.1), fun E => ?_⟩
  unfold octetTwice
  rw [result_andThen, learns_andThen]
  exact ⟨result_walk _ _ _ _ _ _ _, fun i b hi => List.mem_append_left _ ((octetOnce_run.2 E).2 i b hi),
    fun i b hi => List.mem_append_right _ (evaluated_blaking _ _ _ E i b hi)⟩

example : prob (fun E : Cipher BlakeKey BlakeWork =>
      BlakeColliding (fun k => E k) 64 spliceInjector spliceInjector [blakeBytesOp [1]] [blakeBytesOp [2]]) ≤
    (2 : ℚ) ^ 512 / (2 ^ 1024 - 2) := by
  have := C93_collision (nn := 64) le_rfl spliceInjector spliceInjector octetTwice 2 octetTwice_run.1 two_lt'
  refine le_trans (prob_mono fun E hE => ?_) (le_trans this (le_of_eq ?_))
  · rw [(octetTwice_run.2 E).1]
    exact ⟨hE, (octetTwice_run.2 E).2⟩
  · rw [show 1024 - 8 * 64 = 512 from rfl, Nat.cast_ofNat, show (2 : ℚ) * (2 - 1) / 2 = 1 by norm_num, one_mul]

end Verif.Props
