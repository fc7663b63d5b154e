import Verif.Proof.SecondPreimage
import Verif.Props.RandomPermutation
import Verif.Props.BlakeIdeal
/-
C113: second preimages of the hashes of the library over a random cipher or permutation.
-/
namespace Verif.Props

open Spec Spec.Ideal Verif.Ideal

/-! ### Merkle-Damgård -/

section md
variable {w n : Nat}

/-- The attacker `A`, then the computation of the hash of its message if that takes at most `l` calls. -/
def thenHash (h : MDHash) (iv : Vector (BitVec w) n) (l : Nat) (A : Attacker (Vector (BitVec w) 16) (Vector (BitVec w) n) (List Op)) :
    Attacker (Vector (BitVec w) 16) (Vector (BitVec w) n) (List Op) :=
  andThen A fun r =>
    if callsFor h (streamOf h.policy.blockBits r) ≤ l then hashing h iv (streamOf h.policy.blockBits r) r else .done r

theorem atMost_thenHash {h : MDHash} {iv : Vector (BitVec w) n} {l q : Nat}
    {A : Attacker (Vector (BitVec w) 16) (Vector (BitVec w) n) (List Op)} (hA : A.AtMost q) : (thenHash h iv l A).AtMost (q + l) := by
  refine atMost_andThen hA fun r => ?_
  split
  · rename_i hl
    exact atMost_mono (atMost_walk _ _ _ _ _ _) hl
  · trivial

theorem evaluated_thenHash {h : MDHash} {iv : Vector (BitVec w) n} {l : Nat}
    {A : Attacker (Vector (BitVec w) 16) (Vector (BitVec w) n) (List Op)} {E : Cipher (Vector (BitVec w) 16) (Vector (BitVec w) n)}
    (hl : callsFor h (streamOf h.policy.blockBits (A.result E)) ≤ l) :
    Evaluated h iv E ((thenHash h iv l A).learns E) (streamOf h.policy.blockBits (A.result E)) := by
  intro i b hi
  unfold thenHash
  rw [learns_andThen, if_pos hl]
  exact List.mem_append_right _ (evaluated_hashing h iv _ _ E i b hi)

/-- **C113, Merkle-Damgård.** For SHA-0, SHA-1, SHA-2, MD4 and MD5 as the library builds them from a block cipher and a message
that takes `L` calls of the cipher: an attacker that asks at most `q` queries to a random cipher finds another message, of at
most `l` calls, for which the library returns the same digest with probability at most `L + q + l` times
`L + 2^(state - digest)`, out of `2^state - (L + q + l)`. -/
theorem C113_merkle_damgard (h : MDHash) (h8 : 8 ∣ w) (hw : h.policy.stateBits = n * w) (hb : (standard h).block = 16 * w)
    (iv : Vector (BitVec w) n) (d0 : Bits) (hd : d0.length = h.policy.digestBits) (J : Injector) (ops : List Op)
    (A : Attacker (Vector (BitVec w) 16) (Vector (BitVec w) n) (List Op)) (q l L : Nat) (hA : A.AtMost q)
    (hL : callsFor h (streamOf h.policy.blockBits ops) = L) (hq : L + (q + l) < 2 ^ (n * w)) :
    prob (fun E => Colliding (cipherHash h hw iv (fun k => E k) d0 hd) J ops (A.result E) ∧
      callsFor h (streamOf h.policy.blockBits (A.result E)) ≤ l) ≤
      ((L + (q + l)) * (L + 2 ^ (n * w - (standard h).digest)) : ℚ) / (2 ^ (n * w) - (L + (q + l))) := by
  subst hL
  have H : Fibers (fun (_ : Vector (BitVec w) 16) (x y : Vector (BitVec w) n) =>
      (h.policy.endian.arrayView (stateAdder x y)).take (standard h).digest) (2 ^ (n * w - (standard h).digest)) :=
    ⟨fun _ x t => card_take_le _ ((arrayView_injective _ h8).comp (stateAdder_right_injective x)) (fun _ => length_arrayView' _ _) t,
      fun _ y t => card_take_le _ ((arrayView_injective _ h8).comp (stateAdder_left_injective y)) (fun _ => length_arrayView' _ _) t⟩
  refine le_trans (second_bound (iv := iv) (step := stateAdder) stateAdder_right_injective stateAdder_left_injective H (keyOf h w)
    (blocks (standard h).block (paddedMessage h (streamOf h.policy.blockBits ops))) () (fun _ => thenHash h iv l A) (q + l)
    (fun _ => atMost_thenHash hA) (by rw [card_words]; exact hq) _ ?_)
    (le_of_eq (by rw [card_words]; push_cast; rfl))
  rintro E ⟨hC, hl⟩
  have hE : Evaluated h iv E ((hashing h iv (streamOf h.policy.blockBits ops) ()).learns E) (streamOf h.policy.blockBits ops) :=
    evaluated_hashing h iv _ _ E
  have hE' : Evaluated h iv E ((andThen (hashing h iv (streamOf h.policy.blockBits ops) ()) fun _ => thenHash h iv l A).learns E)
      (streamOf h.policy.blockBits (A.result E)) := by
    intro i b hi
    rw [learns_andThen]
    exact List.mem_append_right _ (evaluated_thenHash hl i b hi)
  obtain ⟨g, g', hg, hg', hdig⟩ := hC.digest
  rcases C17_truncated (cipherHash h hw iv (fun k => E k) d0 hd) J g g' hg hg' _ _
    (fun op ho => hC.wellTyped op (List.mem_append_left _ ho)) (fun op ho => hC.wellTyped op (List.mem_append_right _ ho))
    hC.extracts.1 hC.extracts.2
    hC.good.1 hC.good.2 hC.short.1 hC.short.2 hC.different hdig with hcol | ⟨hne, htake⟩
  · obtain ⟨i, j, b, b', hi, hj, hne, heq⟩ := hcol
    refine ⟨_, hE i b hi, _, hE' j b' hj, ?_, Or.inl heq⟩
    intro he
    have hbk := keyOf_injective h h8 (by rw [← hb]; exact length_of_mem_blocks (List.mem_of_getElem? hi))
      (by rw [← hb]; exact length_of_mem_blocks (List.mem_of_getElem? hj)) (Prod.mk.inj he).1
    exact hne (Prod.ext (Prod.mk.inj he).2 hbk)
  · obtain ⟨i, b, hi, hf⟩ := last_block h (streamOf h.policy.blockBits ops)
    obtain ⟨j, b', hj, hf'⟩ := last_block h (streamOf h.policy.blockBits (A.result E))
    have hlast := hf (daviesMeyerAdd h.policy.endian fun k => E k) iv
    rw [hf, hf'] at hne htake
    refine ⟨_, hE i b hi, _, hE' j b' hj, ?_, Or.inr ⟨hlast.symm, htake⟩⟩
    intro he
    apply hne
    show stateAdder _ _ = stateAdder _ _
    have h1 : chaining h iv E (streamOf h.policy.blockBits ops) i =
      chaining h iv E (streamOf h.policy.blockBits (A.result E)) j := (Prod.mk.inj he).2
    have h2 := (Prod.mk.inj he).1
    show stateAdder (chaining h iv E _ i) (E (keyOf h w b) (chaining h iv E _ i)) =
      stateAdder (chaining h iv E _ j) (E (keyOf h w b') (chaining h iv E _ j))
    rw [h1]
    congr 2
    exact congrArg E h2

end md

/-! ### Sponges -/

/-- The attacker `A`, then the absorption of its message if that has at most `l` blocks. -/
def thenAbsorb (r l : Nat) (A : Attacker Unit Lanes (SpongeKind × List Op)) : Attacker Unit Lanes (SpongeKind × List Op) :=
  andThen A fun a =>
    if (spongeInput a.1 r (streamOf r a.2)).length ≤ l then absorbing r (spongeInput a.1 r (streamOf r a.2)) a else .done a

theorem atMost_thenAbsorb {r l q : Nat} {A : Attacker Unit Lanes (SpongeKind × List Op)} (hA : A.AtMost q) :
    (thenAbsorb r l A).AtMost (q + l) := by
  refine atMost_andThen hA fun a => ?_
  split
  · rename_i hl
    exact atMost_mono (atMost_walk _ _ _ _ _ _) hl
  · trivial

theorem evaluated_thenAbsorb {r l : Nat} {A : Attacker Unit Lanes (SpongeKind × List Op)} {E : Cipher Unit Lanes}
    (hl : (spongeInput (A.result E).1 r (streamOf r (A.result E).2)).length ≤ l) :
    SpongeEvaluated r E ((thenAbsorb r l A).learns E) (spongeInput (A.result E).1 r (streamOf r (A.result E).2)) := by
  intro i b hi
  unfold thenAbsorb
  rw [learns_andThen, if_pos hl]
  exact List.mem_append_right _ (evaluated_absorbing _ _ _ E i b hi)

/-- **C113, sponges.** For the Keccak and SHA-3 hashes and a message of `L` blocks: an attacker that asks at most `q` queries to a
random permutation finds another message of at most `l` blocks, or a message for the other family, with the same digest with
probability at most `n^2` times `2^-2d` plus `n` times `2^-d`, where `n = L + q + l`, up to the factor `2^1600 / (2^1600 - n)`. -/
theorem C113_sponge {d : Nat} (S : SpongeSize d) (h3 : 3 * d ≤ 1600) (JP J : Injector) (k : SpongeKind) (ops : List Op)
    (A : Attacker Unit Lanes (SpongeKind × List Op)) (q l L : Nat) (hA : A.AtMost q)
    (hL : (spongeInput k (spongeBlockBits d) (streamOf (spongeBlockBits d) ops)).length = L) (hq : L + (q + l) < 2 ^ 1600) :
    prob (fun E => SpongeColliding (E ()) d JP J k (A.result E).1 ops (A.result E).2 ∧
      (spongeInput (A.result E).1 (spongeBlockBits d) (streamOf (spongeBlockBits d) (A.result E).2)).length ≤ l) ≤
      ((L + (q + l) : ℚ) ^ 2 * 2 ^ (1600 - 2 * d) + (L + (q + l)) * 2 ^ (1600 - d)) / (2 ^ 1600 - (L + (q + l))) := by
  have hF := S.facts
  have hr : spongeBlockBits d ≤ 1600 := hF.2.2.1
  subst hL
  refine le_trans (sponge_second_bound (cin := innerPart (spongeBlockBits d)) (cout := innerPart (spongeBlockBits d))
    (out := fun x => (laneString x).take d) (List.replicate (1600 - spongeBlockBits d) false) (card_cap_le hr) (card_cap_le hr)
    (card_out_le d) (fun _ => ()) (fun v b => spongeQuery (spongeBlockBits d) (laneString v) b)
    (spongeInput k (spongeBlockBits d) (streamOf (spongeBlockBits d) ops)) ?_ (stringLanes (List.replicate 1600 false)) ?_ ()
    (fun _ => thenAbsorb (spongeBlockBits d) l A) (q + l) (fun _ => atMost_thenAbsorb hA) (by rw [card_lanes]; exact hq) _ ?_
    (spongeInput_ne_nil hF.1 _ _))
    (le_of_eq (by rw [card_lanes]; push_cast; rfl))
  · intro v b hbm
    exact innerPart_query hr (length_laneString _) (length_of_mem_blocks hbm)
  · show (laneString (stringLanes (List.replicate 1600 false))).drop _ = _
    rw [laneString_stringLanes _ List.length_replicate, List.drop_replicate]
  · rintro E ⟨hC, hl⟩ F T hc
    have hAg : Agrees E ([] : List (Entry Unit Lanes)) := by intro e he; cases he
    have hT := learns_table E (andThen (absorbing (spongeBlockBits d)
      (spongeInput k (spongeBlockBits d) (streamOf (spongeBlockBits d) ops)) ()) fun _ => thenAbsorb (spongeBlockBits d) l A) [] hAg
    obtain ⟨e, e', h1, h1', hy, hne, ho⟩ := sponge_colliding_entries S h3 hT hT hc hC
      (by
        intro i b hi
        rw [learns_andThen]
        exact List.mem_append_left _ (evaluated_absorbing _ _ _ E i b hi))
      (by
        intro i b hi
        rw [learns_andThen]
        exact List.mem_append_right _ (evaluated_thenAbsorb hl i b hi))
    refine ⟨e, e', h1, h1', laneString_injective ?_, hne, ho⟩
    rw [hy, chain_absorb]

/-! ### BLAKE2b -/

/-- Different runs of the same length with the same result differ in a step at the same position. -/
theorem collision_same_index {σ β : Type} (f : σ → β → σ) (iv : σ) :
    ∀ (n : Nat) (xs ys : List β), xs.length = n → ys.length = n → xs ≠ ys → xs.foldl f iv = ys.foldl f iv →
      ∃ (i : Nat) (b b' : β), xs[i]? = some b ∧ ys[i]? = some b' ∧
        ((xs.take i).foldl f iv, b) ≠ ((ys.take i).foldl f iv, b') ∧
        f ((xs.take i).foldl f iv) b = f ((ys.take i).foldl f iv) b' := by
  intro n
  induction n with
  | zero =>
    intro xs ys h1 h2 hne _
    exact absurd ((List.eq_nil_of_length_eq_zero h1).trans (List.eq_nil_of_length_eq_zero h2).symm) hne
  | succ n ih =>
    intro xs ys h1 h2 hne h
    rcases List.eq_nil_or_concat xs with rfl | ⟨xs', x, rfl⟩
    · simp at h1
    rcases List.eq_nil_or_concat ys with rfl | ⟨ys', y, rfl⟩
    · simp at h2
    rw [List.concat_eq_append, List.concat_eq_append] at *
    have l1 : xs'.length = n := by simpa using h1
    have l2 : ys'.length = n := by simpa using h2
    by_cases hlast : (xs'.foldl f iv, x) = (ys'.foldl f iv, y)
    · have h3 := Prod.mk.inj hlast
      obtain ⟨i, b, b', hi, hj, hp, he⟩ := ih xs' ys' l1 l2 (by rintro rfl; exact hne (by rw [h3.2])) h3.1
      have hi' : i < xs'.length := (List.getElem?_eq_some_iff.1 hi).1
      have hj' : i < ys'.length := (List.getElem?_eq_some_iff.1 hj).1
      refine ⟨i, b, b', by rw [List.getElem?_append_left hi', hi], by rw [List.getElem?_append_left hj', hj], ?_, ?_⟩
      · rwa [List.take_append_of_le_length hi'.le, List.take_append_of_le_length hj'.le]
      · rwa [List.take_append_of_le_length hi'.le, List.take_append_of_le_length hj'.le]
    · refine ⟨n, x, y, by rw [← l1]; exact List.getElem?_concat_length .., by rw [← l2]; exact List.getElem?_concat_length .., ?_, ?_⟩
      · rw [List.take_left' l1, List.take_left' l2]
        exact hlast
      · rw [List.take_left' l1, List.take_left' l2]
        rw [List.foldl_append, List.foldl_append] at h
        exact h

/-- What the second half of the working state tells about a call: that it is the last one, or else the counter. -/
def blakeTag (x : BlakeWork) : Option (BitVec 64) := if x[14] = blakeIV[6] ^^^ 0xFFFFFFFFFFFFFFFF then none else some x[12]

/-- The same for a call. -/
def callTag (c : Bits × Nat × Bool) : Option (BitVec 64) :=
  if c.2.2 then none else some (blakeIV[4] ^^^ blakeBytes (BitVec.ofNat 64 c.2.1))

theorem blakeTag_input (s : BlakeState) (c : Bits × Nat × Bool) : blakeTag (blakeInputOf s c.2.1 c.2.2) = callTag c := by
  obtain ⟨b, n, f⟩ := c
  have h14 : (blakeInputOf s n f)[14] = blakeIV[6] ^^^ (if f then 0xFFFFFFFFFFFFFFFF else 0 : BitVec 64) := rfl
  have h12 : (blakeInputOf s n f)[12] = blakeIV[4] ^^^ blakeBytes (BitVec.ofNat 64 n) := rfl
  show (if (blakeInputOf s n f)[14] = blakeIV[6] ^^^ 0xFFFFFFFFFFFFFFFF then none else some (blakeInputOf s n f)[12]) = _
  rw [h14, h12]
  cases f
  · rw [if_neg (fun h => absurd ((BitVec.xor_right_inj _).1 h) (by decide))]
    rfl
  · rw [if_pos rfl]
    rfl

theorem blakeTag_high {x x' : BlakeWork} (h : highHalf x = highHalf x') : blakeTag x = blakeTag x' := by
  have h12 : x[12] = x'[12] := congrArg (fun v : BlakeState => v[4]) h
  have h14 : x[14] = x'[14] := congrArg (fun v : BlakeState => v[6]) h
  unfold blakeTag
  rw [h12, h14]

theorem callTags_nodup {m : Bits} (h8 : 8 ∣ m.length) (hlt : m.length < 2 ^ 64) : ((haifaInput 1024 m).map callTag).Nodup := by
  unfold haifaInput
  rw [List.map_append, List.map_map, List.nodup_append]
  refine ⟨?_, List.nodup_singleton _, ?_⟩
  · refine List.Nodup.map_on ?_ List.nodup_range
    intro i hi j hj hij
    have hi := List.mem_range.1 hi
    have hj := List.mem_range.1 hj
    have hii : (i + 1) * 1024 ≤ m.length := le_trans (Nat.mul_le_mul_right _ hi) (Nat.div_mul_le_self m.length 1024)
    have hjj : (j + 1) * 1024 ≤ m.length := le_trans (Nat.mul_le_mul_right _ hj) (Nat.div_mul_le_self m.length 1024)
    have h1 : some (blakeIV[4] ^^^ blakeBytes (BitVec.ofNat 64 ((i + 1) * 1024))) =
      some (blakeIV[4] ^^^ blakeBytes (BitVec.ofNat 64 ((j + 1) * 1024))) := hij
    have h2 := congrArg BitVec.toNat ((BitVec.xor_right_inj _).1 (Option.some.inj h1))
    rw [blakeBytes_toNat (by omega) (by omega), blakeBytes_toNat (by omega) (by omega)] at h2
    omega
  · intro a ha b hb hab
    obtain ⟨i, -, rfl⟩ := List.mem_map.1 ha
    rw [List.mem_singleton.1 hb] at hab
    cases hab

/-- Strings whose first bits are determined by the others. -/
theorem card_determined_le {X : Type} [Fintype X] [DecidableEq X] (f : X → Bits) (hf : Function.Injective f) {L d : Nat}
    (hL : ∀ x, (f x).length = L) (P : X → Prop) [DecidablePred P]
    (hP : ∀ x x', P x → P x' → (f x).drop d = (f x').drop d → (f x).take d = (f x').take d) :
    (Finset.univ.filter P).card ≤ 2 ^ (L - d) := by
  have hc : Fintype.card (Fin (L - d) → Bool) = 2 ^ (L - d) := by
    rw [Fintype.card_fun, Fintype.card_bool, Fintype.card_fin]
  rw [← hc, ← Finset.card_univ]
  refine Finset.card_le_card_of_injOn (fun x (i : Fin (L - d)) => (f x).getD (d + i) false) (fun _ _ => Finset.mem_coe.2 (Finset.mem_univ _)) ?_
  intro x hx y hy hxy
  rw [Finset.mem_coe, Finset.mem_filter] at hx hy
  have hdrop : (f x).drop d = (f y).drop d := by
    apply List.ext_getElem?
    intro i
    rw [List.getElem?_drop, List.getElem?_drop]
    by_cases hi : i < L - d
    · have := congrFun hxy ⟨i, hi⟩
      simp only [List.getD_eq_getElem?_getD] at this
      rw [List.getElem?_eq_getElem (by rw [hL]; omega), List.getElem?_eq_getElem (by rw [hL]; omega)] at this ⊢
      simpa using this
    · rw [List.getElem?_eq_none (by rw [hL]; omega), List.getElem?_eq_none (by rw [hL]; omega)]
  apply hf
  rw [← List.take_append_drop d (f x), ← List.take_append_drop d (f y), hP x y hx.2 hy.2 hdrop, hdrop]

/-- Backward queries whose answer has the value wanted for its tag. -/
theorem blake_fibers_tag {nn : Nat} (hnn : nn ≤ 64) (k : BlakeKey) (y : BlakeWork) (t : Option (BitVec 64) → Option Bits) :
    (Finset.univ.filter fun x => t (blakeTag x) = some (blakeValue nn k x y)).card ≤ 2 ^ (1024 - 8 * nn) := by
  have cut : ∀ a b : BlakeState, (littleOctetBigBit.arrayView a ++ littleOctetBigBit.arrayView b).take (8 * nn) =
      (littleOctetBigBit.arrayView a).take (8 * nn) := fun a b => List.take_append_of_le_length (by rw [length_view8]; omega)
  refine card_determined_le (fun x : BlakeWork => littleOctetBigBit.arrayView (blakeFinish (lowHalf x) y) ++
      littleOctetBigBit.arrayView (highHalf x)) (fun x x' h => ?_) (L := 1024) (d := 8 * nn)
      (fun y => by rw [List.length_append, length_view8, length_view8]) _ ?_
  · have h0 := List.append_inj h (by rw [length_view8, length_view8])
    have h1 := view8_injective h0.1
    refine halves_injective (Vector.ext fun i hi => ?_) (view8_injective h0.2)
    have h3 := congrArg (fun v : BlakeState => v[i]) h1
    simp only [blakeFinish_get _ _ i hi] at h3
    exact (BitVec.xor_left_inj _).1 h3
  · intro x x' hx hx' hd
    rw [cut, cut]
    have h1 := congrArg (List.drop (512 - 8 * nn)) hd
    rw [List.drop_drop, List.drop_drop, show 8 * nn + (512 - 8 * nn) = 512 by omega, List.drop_left' (length_view8 _),
      List.drop_left' (length_view8 _)] at h1
    rw [blakeTag_high (view8_injective h1)] at hx
    exact Option.some.inj (hx.symm.trans hx')

/-- Equal digests of different messages come from different calls with the same tag. -/
theorem haifa_tagged {nn : Nat} (f : BlakeState → Bits × Nat × Bool → BlakeState) (iv : BlakeState) {m m' : Bits} (hne : m ≠ m')
    (h : (littleOctetBigBit.arrayView ((haifaInput 1024 m).foldl f iv)).take (8 * nn) =
      (littleOctetBigBit.arrayView ((haifaInput 1024 m').foldl f iv)).take (8 * nn)) :
    ∃ i j c c', (haifaInput 1024 m)[i]? = some c ∧ (haifaInput 1024 m')[j]? = some c' ∧ callTag c = callTag c' ∧
      (((haifaInput 1024 m).take i).foldl f iv, c) ≠ (((haifaInput 1024 m').take j).foldl f iv, c') ∧
      (littleOctetBigBit.arrayView (f (((haifaInput 1024 m).take i).foldl f iv) c)).take (8 * nn) =
        (littleOctetBigBit.arrayView (f (((haifaInput 1024 m').take j).foldl f iv) c')).take (8 * nn) := by
  have hlen : ∀ m : Bits, (haifaInput 1024 m).length = m.length / 1024 + 1 := fun m => by simp [haifaInput]
  have hlast : ∀ m : Bits, ∃ b, (haifaInput 1024 m)[m.length / 1024]? = some (b, m.length, true) ∧
      (haifaInput 1024 m).foldl f iv = f (((haifaInput 1024 m).take (m.length / 1024)).foldl f iv) (b, m.length, true) := by
    intro m
    have hl : ((List.range (m.length / 1024)).map fun i => (block 1024 m i, (i + 1) * 1024, false)).length = m.length / 1024 := by
      rw [List.length_map, List.length_range]
    refine ⟨if m.length ≠ 0 ∧ m.length % 1024 = 0 then m.drop (m.length - 1024)
      else m.drop (m.length / 1024 * 1024) ++ List.replicate (1024 - m.length % 1024) false, ?_, ?_⟩
    · exact (List.getElem?_append_right (by rw [hl])).trans (by rw [hl, Nat.sub_self]; rfl)
    · unfold haifaInput
      rw [List.foldl_append, List.take_left' hl]
      rfl
  obtain ⟨b, g1, g2⟩ := hlast m
  obtain ⟨b', g1', g2'⟩ := hlast m'
  by_cases hpair : (((haifaInput 1024 m).take (m.length / 1024)).foldl f iv, (b, m.length, true)) =
      (((haifaInput 1024 m').take (m'.length / 1024)).foldl f iv, (b', m'.length, true))
  · have hl : m.length = m'.length := (Prod.mk.inj (Prod.mk.inj (Prod.mk.inj hpair).2).2).1
    have hfold : (haifaInput 1024 m).foldl f iv = (haifaInput 1024 m').foldl f iv := by
      rw [g2, g2', (Prod.mk.inj hpair).1, (Prod.mk.inj hpair).2]
    obtain ⟨i, c, c', hi, hj, hp, he⟩ := collision_same_index f iv (m.length / 1024 + 1) _ _ (hlen m) (by rw [hlen, hl])
      (fun e => hne (haifaInput_injective (by omega) e)) hfold
    refine ⟨i, i, c, c', hi, hj, ?_, hp, by rw [he]⟩
    have hcc : c.2 = c'.2 := by
      have hil : i < m.length / 1024 + 1 := by
        rw [← hlen m]
        exact (List.getElem?_eq_some_iff.1 hi).1
      by_cases h1 : i < m.length / 1024
      · have e : ∀ m : Bits, i < m.length / 1024 → (haifaInput 1024 m)[i]? = some (block 1024 m i, (i + 1) * 1024, false) := by
          intro m h1
          unfold haifaInput
          rw [List.getElem?_append_left (by rw [List.length_map, List.length_range]; exact h1), List.getElem?_map,
            List.getElem?_range h1]
          rfl
        rw [e m h1] at hi
        rw [e m' (by rw [← hl]; exact h1)] at hj
        rw [← Option.some.inj hi, ← Option.some.inj hj]
      · have h2 : i = m.length / 1024 := by omega
        rw [h2, g1] at hi
        rw [h2, hl, g1'] at hj
        rw [← Option.some.inj hi, ← Option.some.inj hj, hl]
    unfold callTag
    rw [hcc]
  · refine ⟨_, _, _, _, g1, g1', rfl, hpair, ?_⟩
    rw [← g2, ← g2']
    exact h

/-- The attacker `A`, then the computation of the hash of its message if that takes at most `l` calls. -/
def thenBlake (nn l : Nat) (A : Attacker BlakeKey BlakeWork (List Op)) : Attacker BlakeKey BlakeWork (List Op) :=
  andThen A fun r =>
    if (haifaInput 1024 (streamOf 1024 r)).length ≤ l then blaking (blakeInit (8 * nn)) (streamOf 1024 r) r else .done r

theorem atMost_thenBlake {nn l q : Nat} {A : Attacker BlakeKey BlakeWork (List Op)} (hA : A.AtMost q) :
    (thenBlake nn l A).AtMost (q + l) := by
  refine atMost_andThen hA fun a => ?_
  split
  · rename_i hl
    exact atMost_mono (atMost_walk _ _ _ _ _ _) hl
  · trivial

theorem evaluated_thenBlake {nn l : Nat} {A : Attacker BlakeKey BlakeWork (List Op)} {E : Cipher BlakeKey BlakeWork}
    (hl : (haifaInput 1024 (streamOf 1024 (A.result E))).length ≤ l) :
    BlakeEvaluated (blakeInit (8 * nn)) E ((thenBlake nn l A).learns E) (streamOf 1024 (A.result E)) := by
  intro i b hi
  unfold thenBlake
  rw [learns_andThen, if_pos hl]
  exact List.mem_append_right _ (evaluated_blaking _ _ _ E i b hi)

/-- **C113, BLAKE2b.** For BLAKE2b with `nn` octets of output and a message that takes `L` calls: an attacker that asks at most
`q` queries to a random cipher finds another message of at most `l` calls with the same digest with probability at most `q + l`
times `2^-(8 nn)`, up to the factor `2^1024 / (2^1024 - (L + q + l))`.  Unlike the bound for the Merkle-Damgård hashes it does not
grow with the length of the message. -/
theorem C113_blake2b {nn : Nat} (hnn : nn ≤ 64) (JP J : Injector) (ops : List Op) (h8 : 8 ∣ (streamOf 1024 ops).length)
    (hlt : (streamOf 1024 ops).length < 2 ^ 64) (A : Attacker BlakeKey BlakeWork (List Op)) (q l L : Nat) (hA : A.AtMost q)
    (hL : (haifaInput 1024 (streamOf 1024 ops)).length = L) (hq : L + (q + l) < 2 ^ 1024) :
    prob (fun E => BlakeColliding (fun k => E k) nn JP J ops (A.result E) ∧
      (haifaInput 1024 (streamOf 1024 (A.result E))).length ≤ l) ≤
      ((q + l) * 2 ^ (1024 - 8 * nn) : ℚ) / (2 ^ 1024 - (L + (q + l))) := by
  subst hL
  refine le_trans (counter_bound (tag := blakeTag) (val := blakeValue nn) (blake_fibers hnn).enc (blake_fibers_tag hnn)
    (fun c : Bits × Nat × Bool => blakeKey c.1) (fun s c => blakeInputOf s c.2.1 c.2.2) blakeFinish callTag blakeTag_input
    (haifaInput 1024 (streamOf 1024 ops)) (callTags_nodup h8 hlt) (blakeInit (8 * nn)) () (fun _ => thenBlake nn l A) (q + l)
    (fun _ => atMost_thenBlake hA) (by rw [card_work]; exact hq) _ ?_)
    (le_of_eq (by rw [card_work]; push_cast; rfl))
  rintro E ⟨hC, hl⟩
  have hE : BlakeEvaluated (blakeInit (8 * nn)) E ((blaking (blakeInit (8 * nn)) (streamOf 1024 ops) ()).learns E)
      (streamOf 1024 ops) := evaluated_blaking _ _ _ E
  have hE' : BlakeEvaluated (blakeInit (8 * nn)) E
      ((andThen (blaking (blakeInit (8 * nn)) (streamOf 1024 ops) ()) fun _ => thenBlake nn l A).learns E)
      (streamOf 1024 (A.result E)) := by
    intro i b hi
    rw [learns_andThen]
    exact List.mem_append_right _ (evaluated_thenBlake hl i b hi)
  obtain ⟨g, g', hg, hg', hdig⟩ := hC.digest
  rw [blakeOf_result _ hnn JP J g hg _ (fun op ho => hC.wellTyped op (List.mem_append_left _ ho))
      hC.extracts.1 hC.short.1,
    blakeOf_result _ hnn JP J g' hg' _ (fun op ho => hC.wellTyped op (List.mem_append_right _ ho))
      hC.extracts.2 hC.short.2] at hdig
  injection hdig with hdig
  obtain ⟨i, j, c, c', hi, hj, ht, hne, hv⟩ := haifa_tagged (blakeStep fun k => E k) (blakeInit (8 * nn)) hC.different hdig
  obtain ⟨l1, d1, b1⟩ := haifaInput_call hC.octets.1 hC.short.1 (List.mem_of_getElem? hi)
  obtain ⟨l2, d2, b2⟩ := haifaInput_call hC.octets.2 hC.short.2 (List.mem_of_getElem? hj)
  refine ⟨_, hE i c hi, _, hE' j c' hj, ?_, ?_, ?_⟩
  · intro he
    have h1 := blakeKey_injective l1 l2 (Prod.mk.inj he).1
    obtain ⟨h2, h3, h4⟩ := blakeInputOf_injective b1 b2 d1 d2 (Prod.mk.inj he).2
    exact hne (Prod.ext h2 (Prod.ext h1 (Prod.ext h3 h4)))
  · show blakeTag (blakeInputOf _ c.2.1 c.2.2) = blakeTag (blakeInputOf _ c'.2.1 c'.2.2)
    rw [blakeTag_input, blakeTag_input, ht]
  · show (littleOctetBigBit.arrayView (blakeFinish (lowHalf _) _)).take _ =
      (littleOctetBigBit.arrayView (blakeFinish (lowHalf _) _)).take _
    rw [lowHalf_input, lowHalf_input]
    exact hv

/-! ### Examples -/

/-- Given the octet 1, the octet 2 has the same SHA-256 digest for a fraction of at most about `4 / 2^256` of all ciphers. -/
example : prob (fun E => Colliding (cipherHash .sha256 rfl sha256IV (fun k => E k) (List.replicate 256 true) List.length_replicate)
      spliceInjector [feedBytes bigOctetBigBit [1]] [feedBytes bigOctetBigBit [2]]) ≤ 4 / ((2 : ℚ) ^ 256 - 2) := by
  have h1 : ∀ k : Fin 3, callsFor .sha256 (streamOf 512 [feedBytes bigOctetBigBit [k.val]]) = 1 := by
    intro k
    rw [callsFor, (oneBlock k).1, (oneBlock k).2, List.length_singleton]
  have := C113_merkle_damgard (w := 32) (n := 8) .sha256 (by decide) rfl rfl sha256IV (List.replicate 256 true)
    List.length_replicate spliceInjector [feedBytes bigOctetBigBit [1]] (.done [feedBytes bigOctetBigBit [2]]) 0 1 1 trivial
    (h1 1) (by norm_num)
  exact le_trans (prob_mono fun E hE => ⟨hE, le_of_eq (h1 2)⟩) (le_trans this (le_of_eq (by norm_num [standard])))

/-- Given a message, another one has the same SHA3-256 digest for a fraction of at most about `2 / 2^256` of all permutations. -/
example : prob (fun E : Cipher Unit Lanes =>
      SpongeColliding (E ()) 256 spliceInjector spliceInjector .sha3 .sha3 (forty 0) (forty 1)) ≤
    ((2 : ℚ) ^ 2 * 2 ^ 1088 + 2 * 2 ^ 1344) / (2 ^ 1600 - 2) := by
  have := C113_sponge sizes.2.1 (by omega) spliceInjector spliceInjector .sha3 (forty 0) (.done (.sha3, forty 1)) 0 1 1 trivial
    forty_blocks.1 two_lt
  refine le_trans (prob_mono fun E hE => ⟨hE, le_of_eq forty_blocks.2⟩) (le_trans this (le_of_eq ?_))
  rw [show 1600 - 2 * 256 = 1088 from rfl, show 1600 - 256 = 1344 from rfl]
  push_cast
  rw [zero_add, show (1 : ℚ) + 1 = 2 by norm_num]

/-- Given the octet 1, the octet 2 has the same BLAKE2b-512 digest for a fraction of at most about `2^-512` of all ciphers. -/
example : prob (fun E : Cipher BlakeKey BlakeWork =>
      BlakeColliding (fun k => E k) 64 spliceInjector spliceInjector [blakeBytesOp [1]] [blakeBytesOp [2]]) ≤
    (2 : ℚ) ^ 512 / (2 ^ 1024 - 2) := by
  have := C113_blake2b (nn := 64) le_rfl spliceInjector spliceInjector [blakeBytesOp [1]] (by rw [oneOctet1.1])
    (by rw [oneOctet1.1]; norm_num) (.done [blakeBytesOp [2]]) 0 1 1 trivial oneOctet1.2.1 two_lt'
  refine le_trans (prob_mono fun E hE => ⟨hE, le_of_eq oneOctet2.2.1⟩) (le_trans this (le_of_eq ?_))
  rw [show 1024 - 8 * 64 = 512 from rfl]
  push_cast
  rw [zero_add, one_mul, show (1 : ℚ) + 1 = 2 by norm_num]

end Verif.Props
