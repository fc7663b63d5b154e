import Verif.Props.Birthday
import Verif.Props.UserDaviesMeyer
/-
C128: the bounds of C127 are attained, for every word size, block size, length field and digest size.
-/
namespace Verif.Props
open Spec Spec.Ideal Verif.Ideal

variable {w n k q : Nat}

/-! ### The padding determines the message -/

theorem one_zeros_injective : ∀ {a b : Nat} {m m' : Bits}, List.replicate a false ++ true :: m = List.replicate b false ++ true :: m' → m = m'
  | 0, 0, m, m', e => by simpa using e
  | 0, b + 1, m, m', e => by simp [List.replicate_succ] at e
  | a + 1, 0, m, m', e => by simp [List.replicate_succ] at e
  | a + 1, b + 1, m, m', e => by
    rw [List.replicate_succ, List.replicate_succ, List.cons_append, List.cons_append] at e
    exact one_zeros_injective (List.cons.inj e).2

theorem oneZeroPad_injective {B L : Nat} {little : Bool} (hL : 8 ∣ L) {m m' : Bits} (hl : L = 0 ∨ m.length < 2 ^ L)
    (hl' : L = 0 ∨ m'.length < 2 ^ L) (e : oneZeroPad B L little m = oneZeroPad B L little m') : m = m' := by
  rcases Nat.eq_zero_or_pos L with rfl | hL0
  · unfold oneZeroPad mdPad at e
    have hz : ∀ x, lengthField little 0 x = [] := fun x => List.eq_nil_of_length_eq_zero (length_lengthField _ _ _)
    rw [hz, hz] at e
    have := congrArg List.reverse e
    simp only [List.append_nil, List.reverse_append, List.reverse_replicate, List.reverse_cons, List.reverse_nil, List.nil_append,
      List.cons_append] at this
    exact List.reverse_injective (one_zeros_injective this)
  · have hd := oneZeroPad_drop B L little m
    rw [e, oneZeroPad_drop] at hd
    have hlen := lengthField_injective hL (hl.resolve_left (by omega)) (hl'.resolve_left (by omega)) hd.symm
    unfold oneZeroPad mdPad at e
    simp only [List.append_assoc] at e
    exact (List.append_inj e hlen).1

/-! ### Messages of one block -/

/-- A program of calls that is correctly typed and feeds a message that, with the marker and the length field, fits one block. -/
structure OneBlock (w k L : Nat) (ops : List Op) : Prop where
  wellTyped : ∀ op ∈ ops, op.WellTyped (k * w)
  extracts : GoodExtracts (k * w) (fun m => m.length < 2 ^ (if L = 0 then w else min L 64)) [] ops
  short : (streamOf (k * w) ops).length < 2 ^ (if L = 0 then w else min L 64)
  fits : (streamOf (k * w) ops).length + 1 + L ≤ k * w

/-- The digest that the library returns at the end of the calls. -/
def libraryDigest {σ : Type} (M : MD σ) (J : Injector) (garbage : Bits) (ops : List Op) : Except Fault Bits := do
  let (a, _) ← runOps (M.constructionU J) J (Acc.init (M.constructionU J) garbage) [] ops
  a.result (M.constructionU J)

theorem oneBlock_length {L : Nat} {little : Bool} {m : Bits} (hB : 0 < k * w) (h : m.length + 1 + L ≤ k * w) :
    (oneZeroPad (k * w) L little m).length = k * w := by
  have h1 : (oneZeroPad (k * w) L little m).length = _ := length_oneZeroPad _ _ _ _
  obtain ⟨c, hc⟩ := fillTo_spec hB (m.length + 1 + L)
  have h2 := fillTo_lt hB (m.length + 1 + L)
  rw [h1, hc]
  have hc1 : c = 1 := by
    have h3 : k * w * c < k * w * 2 := by omega
    have h4 : 0 < k * w * c := by omega
    have := Nat.lt_of_mul_lt_mul_left h3
    have := Nat.pos_of_mul_pos_left h4
    omega
  rw [hc1, Nat.mul_one]

section law
variable {L d : Nat} {e : Endian} {d0 : Bits} (S : CipherSizes w n k L d e d0) (iv : Vector (BitVec w) n) (J : Injector)

/-- The key of the only cipher call. -/
def singleKey (w k L : Nat) (e : Endian) (ops : List Op) : Vector (BitVec w) k :=
  e.words w k (oneZeroPad (k * w) L e.littleOctet (streamOf (k * w) ops))

/-- The digest as function of the answer of the cipher. -/
def singleDigest (d : Nat) (e : Endian) (iv y : Vector (BitVec w) n) : Fin d → Bool := bitsAt (e.arrayView (stateAdder iv y)) 0 d

include S in
theorem libraryDigest_single (E : Cipher (Vector (BitVec w) k) (Vector (BitVec w) n)) {garbage : Bits} (hgb : garbage.length = k * w)
    {ops : List Op} (h1 : OneBlock w k L ops) :
    libraryDigest (daviesMeyerHash (fun k => E k) L d e iv d0) J garbage ops =
      .ok (List.ofFn (singleDigest d e iv (E (singleKey w k L e ops) iv))) := by
  obtain ⟨a, e1, r⟩ := C125_hash (S.args (fun k => E k) iv) J garbage hgb ops h1.wellTyped h1.extracts h1.short
  unfold libraryDigest
  rw [e1]
  change a.result ((daviesMeyerHash (fun k => E k) L d e iv d0).constructionU J) = _
  rw [r]
  refine congrArg Except.ok ?_
  have hB : 0 < k * w := Nat.mul_pos S.block S.word
  have hbl : blocks (k * w) (oneZeroPad (k * w) L e.littleOctet (streamOf (k * w) ops)) =
      [oneZeroPad (k * w) L e.littleOctet (streamOf (k * w) ops)] := blocks_one hB (oneBlock_length hB h1.fits)
  rw [singleDigest, ofFn_bitsAt (by rw [length_arrayView', Nat.zero_add]; exact S.digestFits), List.drop_zero]
  have : (blocks (k * w) (oneZeroPad (k * w) L e.littleOctet (streamOf (k * w) ops))).foldl
      (fun s b => daviesMeyer (fun k => E k) stateAdder s (e.words w k b)) iv = stateAdder iv (E (singleKey w k L e ops) iv) := by
    rw [hbl]
    rfl
  exact congrArg (fun v => (e.arrayView v).take d) this

include S in
theorem singleKey_injective {c : Fin q → List Op} (h1 : ∀ i, OneBlock w k L (c i))
    (hne : Function.Injective fun i => streamOf (k * w) (c i)) : Function.Injective fun i => singleKey w k L e (c i) := by
  intro i j he
  apply hne
  have hB : 0 < k * w := Nat.mul_pos S.block S.word
  have hl : ∀ i, L = 0 ∨ (streamOf (k * w) (c i)).length < 2 ^ L := fun i => by
    rcases Nat.eq_zero_or_pos L with h | h
    · exact Or.inl h
    · right
      have := (h1 i).short
      rw [if_neg (by omega)] at this
      exact lt_of_lt_of_le this (Nat.pow_le_pow_right (by decide) (Nat.min_le_left _ _))
  exact oneZeroPad_injective (Nat.dvd_trans S.word8 S.wordLength) (hl i) (hl j)
    (endianWords_injective e S.word8 (oneBlock_length hB (h1 i).fits) (oneBlock_length hB (h1 j).fits) he)

include S in
theorem card_singleDigest (t : Fin d → Bool) :
    (Finset.univ.filter fun y => singleDigest d e iv y = t).card = 2 ^ (n * w - d) := by
  have e1 : (Finset.univ.filter fun y => singleDigest d e iv y = t) =
      (Finset.univ.filter fun p : (Fin d → Bool) × (Fin (n * w - d) → Bool) => p.1 = t).map
        (chopSplit e S.word8 S.digestFits iv).symm.toEmbedding := by
    ext y
    rw [Finset.mem_filter, Finset.mem_map_equiv, Finset.mem_filter, Equiv.symm_symm]
    simp only [Finset.mem_univ, true_and]
    rfl
  have e2 : (Finset.univ.filter fun p : (Fin d → Bool) × (Fin (n * w - d) → Bool) => p.1 = t) = ({t} : Finset _) ×ˢ Finset.univ := by
    ext p
    rw [Finset.mem_filter, Finset.mem_product, Finset.mem_singleton]
    simp
  rw [e1, Finset.card_map, e2, Finset.card_product, Finset.card_singleton, Finset.card_univ, Fintype.card_fun, Fintype.card_bool,
    Fintype.card_fin, Nat.one_mul]

include S in
/-- **C128, law.** The joint distribution of the digests of different messages of one block is that of independent uniform strings:
every property `P` of the family has the same probability. -/
theorem C128_law (c : Fin q → List Op) (garbage : Fin q → Bits) (hgb : ∀ i, (garbage i).length = k * w) (h1 : ∀ i, OneBlock w k L (c i))
    (hne : Function.Injective fun i => streamOf (k * w) (c i)) (P : (Fin q → Except Fault Bits) → Prop) [DecidablePred P] :
    prob (fun E : Cipher (Vector (BitVec w) k) (Vector (BitVec w) n) => P fun i => libraryDigest (daviesMeyerHash (fun k => E k) L d e iv d0) J (garbage i) (c i)) =
      (Finset.univ.filter fun t : Fin q → Fin d → Bool => P fun i => .ok (List.ofFn (t i))).card / (2 : ℚ) ^ (d * q) := by
  have key := prob_values (fun i => singleKey w k L e (c i)) (singleKey_injective S h1 hne) (fun _ => iv)
    (fun _ y => singleDigest d e iv y) _ (fun _ t => card_singleDigest S iv t)
    (fun t : Fin q → Fin d → Bool => P fun i => .ok (List.ofFn (t i)))
  rw [card_strings] at key
  push_cast at key
  rw [← pow_mul] at key
  rw [← key]
  congr 1
  funext E
  have : (fun i => libraryDigest (daviesMeyerHash (fun k => E k) L d e iv d0) J (garbage i) (c i)) =
      fun i => .ok (List.ofFn (singleDigest d e iv (E (singleKey w k L e (c i)) iv))) :=
    funext fun i => libraryDigest_single S iv J E (hgb i) (h1 i)
  rw [this]

/-- Hash all the messages and look for two equal digests. -/
def userBirthday (d L : Nat) (e : Endian) (iv : Vector (BitVec w) n) (c : Fin q → List Op) :
    Attacker (Vector (BitVec w) k) (Vector (BitVec w) n) (List Op × List Op) :=
  askFamily (fun i => singleKey w k L e (c i)) (fun _ => iv) (fun _ => singleDigest d e iv) (pickPair c ([], []))

/-- Hash all the messages and look for the digest. -/
def userSearch (d L : Nat) (e : Endian) (iv : Vector (BitVec w) n) (c : Fin q → List Op) (u : Fin d → Bool) :
    Attacker (Vector (BitVec w) k) (Vector (BitVec w) n) (List Op) :=
  askFamily (fun i => singleKey w k L e (c i)) (fun _ => iv) (fun _ => singleDigest d e iv) (pickOne c [] u)

theorem dmCalls_one {ops : List Op} (hB : 0 < k * w) (h1 : OneBlock w k L ops) : dmCalls w k L e (streamOf (k * w) ops) = 1 := by
  unfold dmCalls
  rw [blocks_one hB (oneBlock_length hB h1.fits)]
  rfl

include S in
/-- **C128, collisions.** The attacker that hashes `q` different messages of one block asks `q` queries and wins the game of
`C127_collision` with probability at least `q (q - 1) / (q (q - 1) + 2 · 2^digest)`. -/
theorem C128_collision (c : Fin q → List Op) (h1 : ∀ i, OneBlock w k L (c i))
    (hne : Function.Injective fun i => streamOf (k * w) (c i)) :
    ∃ A : Attacker (Vector (BitVec w) k) (Vector (BitVec w) n) (List Op × List Op), A.AtMost q ∧
      (q * (q - 1) / (q * (q - 1) + 2 * 2 ^ d) : ℚ) ≤
        prob (fun E => UserColliding (daviesMeyerHash (fun k => E k) L d e iv d0) J (A.result E).1 (A.result E).2 ∧
          dmCalls w k L e (streamOf (k * w) (A.result E).1) + dmCalls w k L e (streamOf (k * w) (A.result E).2) ≤ 2) := by
  classical
  have hB : 0 < k * w := Nat.mul_pos S.block S.word
  let g : Bits := List.replicate (k * w) false
  have hg : g.length = k * w := List.length_replicate
  refine ⟨userBirthday d L e iv c, atMost_askFamily _ _ _ _, ?_⟩
  have law := C128_law S iv J c (fun _ => g) (fun _ => hg) h1 hne fun t => ∃ i j, i ≠ j ∧ t i = t j
  refine le_trans (birthday_lower d q) (le_trans (le_of_eq ((law.trans ?_).symm)) (prob_mono fun E hE => ?_))
  · exact card_collide d q
  · have hr := result_askFamily E (fun i => singleKey w k L e (c i)) (fun _ => iv) (fun _ => singleDigest d e iv) (pickPair c ([], []))
    change (userBirthday d L e iv c).result E = _ at hr
    obtain ⟨i, j, hij, he⟩ := hE
    beta_reduce at he
    rw [libraryDigest_single S iv J E hg (h1 i), libraryDigest_single S iv J E hg (h1 j)] at he
    obtain ⟨i, j, hij, he, hp⟩ := pickPair_spec c ([], []) (fun i => singleDigest d e iv (E (singleKey w k L e (c i)) iv))
      ⟨i, j, hij, List.ofFn_injective (Except.ok.inj he)⟩
    rw [hr, hp]
    refine ⟨⟨?_, ⟨(h1 i).extracts, (h1 j).extracts⟩, ⟨(h1 i).short, (h1 j).short⟩, fun e => hij (hne e), ⟨g, g, hg, hg, ?_⟩⟩, ?_⟩
    · intro op ho
      exact (List.mem_append.1 ho).elim ((h1 i).wellTyped op) ((h1 j).wellTyped op)
    · refine (libraryDigest_single S iv J E hg (h1 i)).trans (Eq.trans ?_ (libraryDigest_single S iv J E hg (h1 j)).symm)
      rw [show singleDigest d e iv (E (singleKey w k L e (c i)) iv) = singleDigest d e iv (E (singleKey w k L e (c j)) iv) from he]
    · exact le_of_eq (congrArg₂ (· + ·) (dmCalls_one hB (h1 i)) (dmCalls_one hB (h1 j)))

include S in
/-- **C128, preimages.** The attacker that hashes `q` different messages of one block asks `q` queries and wins the game of
`C127_preimage` with probability at least `q / (q + 2^digest)`. -/
theorem C128_preimage (c : Fin q → List Op) (h1 : ∀ i, OneBlock w k L (c i))
    (hne : Function.Injective fun i => streamOf (k * w) (c i)) (target : Bits) (ht : target.length = d) :
    ∃ A : Attacker (Vector (BitVec w) k) (Vector (BitVec w) n) (List Op), A.AtMost q ∧
      (q / (q + 2 ^ d) : ℚ) ≤
        prob (fun E => UserPreimage (daviesMeyerHash (fun k => E k) L d e iv d0) J target (A.result E) ∧
          dmCalls w k L e (streamOf (k * w) (A.result E)) ≤ 1) := by
  classical
  obtain ⟨u, rfl⟩ : ∃ u : Fin d → Bool, List.ofFn u = target :=
    ⟨bitsAt target 0 _, by rw [ofFn_bitsAt (by omega), List.drop_zero, ← ht, List.take_length]⟩
  have hB : 0 < k * w := Nat.mul_pos S.block S.word
  let g : Bits := List.replicate (k * w) false
  have hg : g.length = k * w := List.length_replicate
  refine ⟨userSearch d L e iv c u, atMost_askFamily _ _ _ _, ?_⟩
  have law := C128_law S iv J c (fun _ => g) (fun _ => hg) h1 hne fun t => ∃ i, t i = .ok (List.ofFn u)
  refine le_trans (search_lower d q) (le_trans (le_of_eq ((law.trans ?_).symm)) (prob_mono fun E hE => ?_))
  · exact card_hit d q u
  · have hr := result_askFamily E (fun i => singleKey w k L e (c i)) (fun _ => iv) (fun _ => singleDigest d e iv) (pickOne c [] u)
    change (userSearch d L e iv c u).result E = _ at hr
    obtain ⟨i, he⟩ := hE
    beta_reduce at he
    rw [libraryDigest_single S iv J E hg (h1 i)] at he
    obtain ⟨j, hj, hp⟩ := pickOne_spec c [] u (fun i => singleDigest d e iv (E (singleKey w k L e (c i)) iv))
      ⟨i, List.ofFn_injective (Except.ok.inj he)⟩
    rw [hr, hp]
    refine ⟨⟨(h1 j).wellTyped, (h1 j).extracts, (h1 j).short, ⟨g, hg, ?_⟩⟩, le_of_eq (dmCalls_one hB (h1 j))⟩
    refine (libraryDigest_single S iv J E hg (h1 j)).trans ?_
    rw [← hj]

end law

/-! ### Examples -/

/-- The calls that feed one octet. -/
def oneOctet (i : Fin 256) : List Op := [.feed (wordElem littleOctetBigBit 8) .randomAccess [0, 0, 0, 0] [i.val]]

/-- The 256 messages of one octet, for the hash with blocks of four octets and a length field of one. -/
theorem octet_oneBlock (i : Fin 256) : OneBlock 8 4 8 (oneOctet i) where
  wellTyped op ho := by rw [List.mem_singleton.1 ho]; exact ⟨by simp [wordElem], by simp [wordElem], by simp [wordElem]⟩
  extracts := trivial
  short := by revert i; decide +kernel
  fits := by revert i; decide +kernel

theorem octet_injective : Function.Injective fun i : Fin 256 => streamOf (4 * 8) (oneOctet i) := by
  decide +kernel

/-- Blocks of three octets, keys of four, a digest of two. -/
theorem fourCipherSizes : CipherSizes 8 3 4 8 16 littleOctetBigBit (List.replicate 16 false) where
  word8 := by decide
  word := by decide
  word64 := by decide
  block := by decide
  wordLength := by decide
  lengthFits := by decide
  wordDigest := by decide
  digestFits := by decide
  digest0 := rfl
  endian := Or.inr rfl

/-- 256 queries find a collision of a digest of 16 bits with probability above 33 percent. -/
example (J : Injector) : ∃ A : Attacker (Vector (BitVec 8) 4) (Vector (BitVec 8) 3) (List Op × List Op), A.AtMost 256 ∧
    (33 / 100 : ℚ) ≤ prob (fun E => UserColliding (daviesMeyerHash (fun k => E k) 8 16 littleOctetBigBit #v[1, 2, 3]
      (List.replicate 16 false)) J (A.result E).1 (A.result E).2) := by
  obtain ⟨A, h1, h2⟩ := C128_collision fourCipherSizes #v[1, 2, 3] J _ octet_oneBlock octet_injective
  refine ⟨A, h1, le_trans ?_ (le_trans h2 (prob_mono fun E hE => hE.1))⟩
  norm_num

example (J : Injector) (target : Bits) (ht : target.length = 16) :
    ∃ A : Attacker (Vector (BitVec 8) 4) (Vector (BitVec 8) 3) (List Op), A.AtMost 256 ∧
    (1 / 257 : ℚ) ≤ prob (fun E => UserPreimage (daviesMeyerHash (fun k => E k) 8 16 littleOctetBigBit #v[1, 2, 3]
      (List.replicate 16 false)) J target (A.result E)) := by
  obtain ⟨A, h1, h2⟩ := C128_preimage fourCipherSizes #v[1, 2, 3] J _ octet_oneBlock octet_injective target ht
  refine ⟨A, h1, le_trans ?_ (le_trans h2 (prob_mono fun E hE => hE.1))⟩
  norm_num

open Classical in
example (J : Injector) (P : (Fin 256 → Except Fault Bits) → Prop) := C128_law fourCipherSizes #v[1, 2, 3] J _
  (fun _ => List.replicate 32 true) (fun _ => rfl) octet_oneBlock octet_injective P

end Verif.Props
