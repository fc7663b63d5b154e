import Verif.Props.Indifferentiable
import Verif.Props.BlakeIdeal
/-
C105: BLAKE2b as the library computes it, with a random cipher in place of the twelve rounds, is indifferentiable from a random
oracle.
-/
namespace Verif.Props

open Spec Spec.Ideal Verif.Ideal

/-! ### What is asked and what is answered -/

/-- A program of calls that hashes one message of whole octets with BLAKE2b. -/
structure BlakeCall where
  /-- The content of the cache before the first call. -/
  garbage : Bits
  ops : List Op
  length_garbage : garbage.length = 1024
  wellTyped : ∀ op ∈ ops, op.WellTyped 1024
  extracts : GoodExtracts 1024 HaifaGood [] ops
  octets : 8 ∣ (streamOf 1024 ops).length
  short : (streamOf 1024 ops).length < 2 ^ 64

/-- What the library returns, for a digest of `nn` octets and the cipher `E`. -/
def BlakeCall.digest (E : BlakeKey → BlakeWork → BlakeWork) (nn : Nat) (JP J : Injector) (q : BlakeCall) : Except Fault Bits := do
  let (a, _) ← runOps (blakeConstructionOf E (8 * nn) JP) J (Acc.init (blakeConstructionOf E (8 * nn) JP) q.garbage) [] q.ops
  a.result (blakeConstructionOf E (8 * nn) JP)

/-- The inputs of the random oracle: messages of whole octets, shorter than `2^64` bits. -/
def BlakeMessage : Type := { m : Bits // 8 ∣ m.length ∧ m.length < 2 ^ 64 }

/-- The message that is fed. -/
def BlakeCall.message (q : BlakeCall) : BlakeMessage := ⟨streamOf 1024 q.ops, q.octets, q.short⟩

/-- The number of calls of the compression function for a message. -/
def BlakeCall.cost (q : BlakeCall) : Nat := (haifaInput 1024 (streamOf 1024 q.ops)).length

noncomputable instance : Fintype BlakeMessage := by
  have : Finite { b : Bits // b.length < 2 ^ 64 } := (List.finite_length_lt Bool _).to_subtype
  exact @Fintype.ofFinite _ (Finite.of_injective
    (fun m : BlakeMessage => (⟨m.1, m.2.2⟩ : { b : Bits // b.length < 2 ^ 64 }))
    (fun m m' h => Subtype.ext (congrArg (fun x : { b : Bits // b.length < 2 ^ 64 } => x.1) h)))

/-! ### The last words of the input of the rounds -/

/-- The sixteen words from two halves. -/
def joinHalves (a b : BlakeState) : BlakeWork :=
  #v[a[0], a[1], a[2], a[3], a[4], a[5], a[6], a[7], b[0], b[1], b[2], b[3], b[4], b[5], b[6], b[7]]

theorem lowHalf_join (a b : BlakeState) : lowHalf (joinHalves a b) = a := by
  apply Vector.ext
  intro i hi
  rcases (show i = 0 ∨ i = 1 ∨ i = 2 ∨ i = 3 ∨ i = 4 ∨ i = 5 ∨ i = 6 ∨ i = 7 by omega) with
    rfl | rfl | rfl | rfl | rfl | rfl | rfl | rfl <;> rfl

theorem highHalf_join (a b : BlakeState) : highHalf (joinHalves a b) = b := by
  apply Vector.ext
  intro i hi
  rcases (show i = 0 ∨ i = 1 ∨ i = 2 ∨ i = 3 ∨ i = 4 ∨ i = 5 ∨ i = 6 ∨ i = 7 by omega) with
    rfl | rfl | rfl | rfl | rfl | rfl | rfl | rfl <;> rfl

theorem join_halves (x : BlakeWork) : joinHalves (lowHalf x) (highHalf x) = x :=
  halves_injective (lowHalf_join _ _) (highHalf_join _ _)

/-- Counter and flag as the last eight words of the input. -/
def blakeTail (seen : Nat) (final : Bool) : BlakeState := highHalf (blakeInputOf blakeIV seen final)

theorem highHalf_input' (st st' : BlakeState) (seen : Nat) (final : Bool) :
    highHalf (blakeInputOf st seen final) = highHalf (blakeInputOf st' seen final) := by
  apply Vector.ext
  intro i hi
  rcases (show i = 0 ∨ i = 1 ∨ i = 2 ∨ i = 3 ∨ i = 4 ∨ i = 5 ∨ i = 6 ∨ i = 7 by omega) with
    rfl | rfl | rfl | rfl | rfl | rfl | rfl | rfl <;> rfl

theorem highHalf_input (st : BlakeState) (seen : Nat) (final : Bool) : highHalf (blakeInputOf st seen final) = blakeTail seen final :=
  highHalf_input' st blakeIV seen final

theorem join_tail (st : BlakeState) (seen : Nat) (final : Bool) : joinHalves st (blakeTail seen final) = blakeInputOf st seen final := by
  rw [← highHalf_input st]
  conv_lhs => rw [← lowHalf_input st seen final]
  exact join_halves _

/-- The flag of the last call is set. -/
def blakeFinal (x : BlakeWork) : Bool := x[14] == blakeIV[6] ^^^ 0xFFFFFFFFFFFFFFFF

theorem blakeFinal_join (a : BlakeState) (seen : Nat) (final : Bool) : blakeFinal (joinHalves a (blakeTail seen final)) = final := by
  rw [join_tail]
  show (blakeIV[6] ^^^ (if final then 0xFFFFFFFFFFFFFFFF else 0 : BitVec 64) == blakeIV[6] ^^^ 0xFFFFFFFFFFFFFFFF) = final
  cases final <;> decide +kernel

/-! ### BLAKE2b as a `Shape` -/

/-- The bits of the new chaining value and of the last half of the output: they determine the output. -/
def blakeBitsOf (x y : BlakeWork) : Bits :=
  littleOctetBigBit.arrayView (blakeFinish (lowHalf x) y) ++ littleOctetBigBit.arrayView (highHalf y)

theorem length_blakeBitsOf (x y : BlakeWork) : (blakeBitsOf x y).length = 1024 := by
  rw [blakeBitsOf, List.length_append, length_view8, length_view8]

theorem blakeBitsOf_injective (x : BlakeWork) : Function.Injective (blakeBitsOf x) := by
  intro y y' h
  obtain ⟨h1, h2⟩ := List.append_inj h (by rw [length_view8, length_view8])
  have h1 := view8_injective h1
  have h2 := view8_injective h2
  refine halves_injective (Vector.ext fun i hi => ?_) h2
  have h3 := congrArg (fun v : BlakeState => v[i]) h1
  simp only [blakeFinish_get _ _ i hi, h2] at h3
  exact (BitVec.xor_left_inj _).1 ((BitVec.xor_right_inj _).1 h3)

theorem bitsAt_split {d L : Nat} (hd : d ≤ L) {b b' : Bits} (hb : b.length = L) (hb' : b'.length = L)
    (h : bitsAt b 0 d = bitsAt b' 0 d) (h' : bitsAt b d (L - d) = bitsAt b' d (L - d)) : b = b' := by
  have e := congrArg List.ofFn h
  have e' := congrArg List.ofFn h'
  rw [ofFn_bitsAt (by omega), ofFn_bitsAt (by omega), List.drop_zero, List.drop_zero] at e
  rw [ofFn_bitsAt (by omega), ofFn_bitsAt (by omega), List.take_of_length_le (by rw [List.length_drop]; omega),
    List.take_of_length_le (by rw [List.length_drop]; omega)] at e'
  rw [← List.take_append_drop d b, e, e', List.take_append_drop]

/-- The digest that an output gives and the rest. -/
noncomputable def blakeSplit {nn : Nat} (hnn : nn ≤ 64) (x : BlakeWork) :
    BlakeWork ≃ (Fin (8 * nn) → Bool) × (Fin (1024 - 8 * nn) → Bool) :=
  Equiv.ofBijective (fun y => (bitsAt (blakeBitsOf x y) 0 (8 * nn), bitsAt (blakeBitsOf x y) (8 * nn) (1024 - 8 * nn))) <| by
    rw [Fintype.bijective_iff_injective_and_card]
    constructor
    · intro y y' h
      exact blakeBitsOf_injective x (bitsAt_split (by omega) (length_blakeBitsOf x y) (length_blakeBitsOf x y')
        (Prod.mk.inj h).1 (Prod.mk.inj h).2)
    · rw [card_work, Fintype.card_prod, Fintype.card_fun, Fintype.card_fun, Fintype.card_bool, Fintype.card_fin, Fintype.card_fin,
        ← pow_add]
      congr 1
      omega

theorem blakeSplit_fst {nn : Nat} (hnn : nn ≤ 64) (x y : BlakeWork) :
    (blakeSplit hnn x y).1 = bitsAt (littleOctetBigBit.arrayView (blakeFinish (lowHalf x) y)) 0 (8 * nn) := by
  show bitsAt (blakeBitsOf x y) 0 (8 * nn) = _
  funext i
  unfold bitsAt blakeBitsOf
  rw [List.getD_eq_getElem?_getD, List.getElem?_append_left (by rw [length_view8]; have := i.2; omega), List.getD_eq_getElem?_getD]

/-- A call as key and last eight words. -/
def blakeBlock (c : Bits × Nat × Bool) : BlakeKey × BlakeState := (blakeKey c.1, blakeTail c.2.1 c.2.2)

theorem blakeBlock_injective {m m' : Bits} (h8 : 8 ∣ m.length) (hlt : m.length < 2 ^ 64) (h8' : 8 ∣ m'.length)
    (hlt' : m'.length < 2 ^ 64) (h : (haifaInput 1024 m).map blakeBlock = (haifaInput 1024 m').map blakeBlock) : m = m' := by
  refine haifaInput_injective (B := 1024) (by omega) ?_
  have hl : (haifaInput 1024 m).length = (haifaInput 1024 m').length := by
    have := congrArg List.length h
    rwa [List.length_map, List.length_map] at this
  refine List.ext_getElem hl fun i h1 h2 => ?_
  have e : ((haifaInput 1024 m).map blakeBlock)[i]? = ((haifaInput 1024 m').map blakeBlock)[i]? := by rw [h]
  rw [List.getElem?_map, List.getElem?_map, List.getElem?_eq_getElem h1, List.getElem?_eq_getElem h2, Option.map_some,
    Option.map_some] at e
  obtain ⟨e1, e2⟩ := Prod.mk.inj (Option.some.inj e)
  obtain ⟨l1, d1, b1⟩ := haifaInput_call h8 hlt (List.getElem_mem h1)
  obtain ⟨l2, d2, b2⟩ := haifaInput_call h8' hlt' (List.getElem_mem h2)
  have e3 : blakeInputOf blakeIV (haifaInput 1024 m)[i].2.1 (haifaInput 1024 m)[i].2.2 =
      blakeInputOf blakeIV (haifaInput 1024 m')[i].2.1 (haifaInput 1024 m')[i].2.2 := by
    rw [← join_tail, ← join_tail, e2]
  obtain ⟨_, e4, e5⟩ := blakeInputOf_injective b1 b2 d1 d2 e3
  exact Prod.ext (blakeKey_injective l1 l2 e1) (Prod.ext e4 e5)

/-- All calls but the last one are without the flag. -/
theorem haifaInput_dropLast {B : Nat} {m : Bits} {c : Bits × Nat × Bool} (h : c ∈ (haifaInput B m).dropLast) : c.2.2 = false := by
  unfold haifaInput at h
  rw [List.dropLast_concat] at h
  obtain ⟨i, _, rfl⟩ := List.mem_map.1 h
  rfl

theorem haifaInput_getLast (B : Nat) (m : Bits) : ∃ c : Bits × Nat × Bool, (haifaInput B m).getLast? = some c ∧ c.2.2 = true := by
  unfold haifaInput
  exact ⟨_, List.getLast?_concat, rfl⟩

/-- Chaining values, with the query that gave them if it was a last one. -/
abbrev BlakeLink := BlakeState × Option (BlakeKey × BlakeWork)

/-- The part of a chaining value that connects it with the next query. -/
def blakeInner (s : BlakeLink) : BlakeState ⊕ (BlakeKey × BlakeWork) :=
  match s.2 with
  | none => .inl s.1
  | some q => .inr q

/-- BLAKE2b of the library. -/
noncomputable def libraryBlake {nn : Nat} (hnn : nn ≤ 64) :
    Shape BlakeKey BlakeWork BlakeLink (BlakeKey × BlakeState) (BlakeState ⊕ (BlakeKey × BlakeWork))
      (Fin (8 * nn) → Bool) (Fin (1024 - 8 * nn) → Bool) BlakeMessage where
  inner := blakeInner
  cin x := .inl (lowHalf x)
  key b := b.1
  add s b := joinHalves s.1 b.2
  out k x y := (blakeFinish (lowHalf x) y, if blakeFinal x then some (k, x) else none)
  diff _ k x := (k, highHalf x)
  isOpen s := s.2 = none
  s0 := (blakeInit (8 * nn), none)
  digest s := bitsAt (littleOctetBigBit.arrayView s.1) 0 (8 * nn)
  split _ x := blakeSplit hnn x
  pad m := (haifaInput 1024 m.1).map blakeBlock
  add_diff s k x h := by
    obtain ⟨a, o⟩ := s
    cases o with
    | none =>
      have h : lowHalf x = a := Sum.inl.inj h
      show joinHalves a (highHalf x) = x
      rw [← h, join_halves]
    | some q => cases h
  key_diff _ _ _ := rfl
  diff_add s m b _ := by
    show (b.1, highHalf (joinHalves s.1 b.2)) = b
    rw [highHalf_join]
  cin_add s m b _ h := by
    obtain ⟨a, o⟩ := s
    have h : o = none := h
    rw [h]
    show Sum.inl (lowHalf (joinHalves a b.2)) = Sum.inl a
    rw [lowHalf_join]
  open_s0 := rfl
  open_out s m b y hb := by
    rw [← List.map_dropLast] at hb
    obtain ⟨c, hc, rfl⟩ := List.mem_map.1 hb
    show (if blakeFinal (joinHalves s.1 (blakeTail c.2.1 c.2.2)) then _ else none) = none
    rw [blakeFinal_join, haifaInput_dropLast hc]
    rfl
  digest_out k x y := (blakeSplit_fst hnn x y).symm
  pad_injective m m' h := Subtype.ext (blakeBlock_injective m.2.1 m.2.2 m'.2.1 m'.2.2 h)
  pad_ne_nil m h := by
    have := List.map_eq_nil_iff.1 h
    unfold haifaInput at this
    exact List.append_ne_nil_of_right_ne_nil _ (List.cons_ne_nil _ _) this

/-- The queries of last blocks carry the flag. -/
theorem ends_final {nn : Nat} (hnn : nn ≤ 64) {k : BlakeKey} {x : BlakeWork} (h : (libraryBlake hnn).Ends k x) : blakeFinal x = true := by
  obtain ⟨s, m, b, h1, _, h3⟩ := h
  obtain ⟨c, hc, hf⟩ := haifaInput_getLast 1024 m.1
  have h1 : ((haifaInput 1024 m.1).map blakeBlock).getLast? = some b := h1
  rw [List.getLast?_map, hc, Option.map_some] at h1
  rw [← h3, ← Option.some.inj h1]
  show blakeFinal (joinHalves s.1 (blakeTail c.2.1 c.2.2)) = true
  rw [blakeFinal_join, hf]

theorem absorbed_blake {nn : Nat} (hnn : nn ≤ 64) (E : Cipher BlakeKey BlakeWork) (L : List (Bits × Nat × Bool)) : ∀ s : BlakeLink,
    ((L.map blakeBlock).foldl (fun s b => (libraryBlake hnn).out ((libraryBlake hnn).key b) ((libraryBlake hnn).add s b)
      (E ((libraryBlake hnn).key b) ((libraryBlake hnn).add s b))) s).1 = L.foldl (blakeStep fun k => E k) s.1 := by
  induction L with
  | nil => intro s; rfl
  | cons c L ih =>
    intro s
    rw [List.map_cons, List.foldl_cons, List.foldl_cons, ih]
    refine congrArg (fun t => L.foldl (blakeStep fun k => E k) t) ?_
    show blakeFinish (lowHalf (joinHalves s.1 (blakeTail c.2.1 c.2.2))) (E (blakeKey c.1) (joinHalves s.1 (blakeTail c.2.1 c.2.2))) =
      blakeFinish s.1 (E (blakeKey c.1) (blakeInputOf s.1 c.2.1 c.2.2))
    rw [join_tail, lowHalf_input]

theorem digest_blake {nn : Nat} (hnn : nn ≤ 64) (JP J : Injector) (E : Cipher BlakeKey BlakeWork) (q : BlakeCall) :
    q.digest (fun k => E k) nn JP J = .ok (List.ofFn ((libraryBlake hnn).digest ((libraryBlake hnn).absorbed E
      ((libraryBlake hnn).pad q.message)))) := by
  unfold BlakeCall.digest
  rw [blakeOf_result _ hnn JP J q.garbage q.length_garbage q.ops q.wellTyped q.extracts q.short]
  refine congrArg Except.ok ?_
  show _ = List.ofFn (bitsAt (littleOctetBigBit.arrayView ((libraryBlake hnn).absorbed E ((libraryBlake hnn).pad q.message)).1) 0 (8 * nn))
  rw [ofFn_bitsAt (by rw [length_view8]; omega), List.drop_zero]
  exact congrArg (fun s => (littleOctetBigBit.arrayView s).take (8 * nn))
    (absorbed_blake hnn E (haifaInput 1024 (streamOf 1024 q.ops)) (blakeInit (8 * nn), none)).symm

/-! ### Bad answers -/

theorem card_filter_le_of_inj {X Y : Type} [Fintype X] [Fintype Y] {p : X → Prop} {_ : DecidablePred p} (g : X → Y)
    (h : ∀ a b, p a → p b → g a = g b → a = b) : (Finset.univ.filter p).card ≤ Fintype.card Y := by
  classical
  rw [← Finset.card_univ]
  refine Finset.card_le_card_of_injOn g (fun _ _ => Finset.mem_coe.2 (Finset.mem_univ _)) fun a ha b hb hab => ?_
  exact h a b (Finset.mem_filter.1 (Finset.mem_coe.1 ha)).2 (Finset.mem_filter.1 (Finset.mem_coe.1 hb)).2 hab

theorem card_filter_mono {X : Type} [Fintype X] {p q : X → Prop} {_ : DecidablePred p} [DecidablePred q] (h : ∀ a, p a → q a) :
    (Finset.univ.filter p).card ≤ (Finset.univ.filter q).card :=
  Finset.card_le_card (Finset.monotone_filter_right _ fun a _ => h a)

theorem card_filter_or_le {X : Type} [Fintype X] {p q : X → Prop} [DecidablePred p] [DecidablePred q] {_ : DecidablePred fun a => p a ∨ q a} :
    (Finset.univ.filter fun a => p a ∨ q a).card ≤ (Finset.univ.filter p).card + (Finset.univ.filter q).card := by
  classical
  rw [show (Finset.univ.filter fun a => p a ∨ q a) = Finset.univ.filter p ∪ Finset.univ.filter q from by
    ext a; simp]
  exact Finset.card_union_le _ _

theorem card_mem_le' {X D : Type} [Fintype X] (g : X → D) (m : Nat)
    (hg : ∀ t (_ : DecidablePred fun x => g x = t), (Finset.univ.filter fun x => g x = t).card ≤ m) (L : List D)
    {_ : DecidablePred fun x => g x ∈ L} : (Finset.univ.filter fun x => g x ∈ L).card ≤ L.length * m := by
  classical
  exact le_trans (le_of_eq (card_filter_eq _ _ _ _)) (card_mem_le g (fun t => hg t _) L)

theorem card_state8 : Fintype.card BlakeState = 2 ^ 512 := card_words 64 8

open Classical in
theorem card_badBlake {nn : Nat} (hnn : nn ≤ 64) (T : Tab BlakeKey BlakeWork) (d : Dir) (k : BlakeKey) (v : BlakeWork)
    (o : Option (Fin (8 * nn) → Bool)) (ho : o ≠ none → d = .enc ∧ (libraryBlake hnn).Ends k v) (hk : ¬ Known T d k v) :
    (Finset.univ.filter fun a => (libraryBlake hnn).BadAns T d k v ((libraryBlake hnn).patch k v o a)).card ≤
      (2 * T.length + 1) * 2 ^ 512 + T.length := by
  have hseen : ((libraryBlake hnn).seen T).length = 2 * T.length + 1 := Shape.length_seen T
  cases d with
  | dec =>
    have h0 : o = none := by
      by_contra h
      cases (ho h).1
    subst h0
    refine le_trans (card_filter_mono (q := fun a => (libraryBlake hnn).cin a ∈ (libraryBlake hnn).seen T) fun a ha => ?_)
      (le_trans ?_ (Nat.le_add_right _ _))
    · rcases ha with ha | ⟨e, he, _, ha⟩
      · exact ha
      · have ha : e.x = a := ha
        rw [← ha]
        exact Shape.seen_x (S := libraryBlake hnn) he
    · rw [← hseen]
      refine card_mem_le' (fun a => (libraryBlake hnn).cin a) (2 ^ 512) (fun t _ => ?_) _
      rw [← card_state8]
      refine card_filter_le_of_inj highHalf fun a b ha hb hab => ?_
      exact halves_injective (Sum.inl.inj (ha.trans hb.symm)) hab
  | enc =>
    have hk' : ∀ {z : BlakeWork}, Known T (flip .enc) k z → z ∈ T.map fun e => e.y := by
      rintro z ⟨e, he, _, h⟩
      exact List.mem_map.2 ⟨e, he, h⟩
    cases hf : blakeFinal v with
    | true =>
      refine le_trans (card_filter_mono (q := fun a => (libraryBlake hnn).patch k v o a ∈ T.map fun e => e.y) fun a ha => ?_)
        (le_trans (b := (T.map fun e => e.y).length * 2 ^ 512) (card_mem_le' _ _ (fun t _ => ?_) _) ?_)
      · rcases ha with ha | ha
        · exfalso
          have ha : blakeInner (blakeFinish (lowHalf v) ((libraryBlake hnn).patch k v o a), if blakeFinal v then some (k, v) else none) ∈
            (libraryBlake hnn).seen T := ha
          rw [hf] at ha
          rcases Shape.mem_seen ha with h | ⟨e, he, h | h⟩
          · cases h
          · cases h
          · have h : Sum.inr (k, v) = blakeInner (blakeFinish (lowHalf e.x) e.y, if blakeFinal e.x then some (e.key, e.x) else none) := h
            cases hfe : blakeFinal e.x with
            | false => rw [hfe] at h; cases h
            | true =>
              rw [hfe] at h
              have h := Sum.inr.inj h
              exact hk ⟨e, he, (Prod.mk.inj h).1.symm, (Prod.mk.inj h).2.symm⟩
        · exact hk' ha
      · cases o with
        | none =>
          refine le_trans (card_filter_le_of_inj (Y := Unit) (fun _ => ()) fun a b ha hb _ => ?_) Nat.one_le_two_pow
          exact ha.trans hb.symm
        | some u =>
          have hc : Fintype.card (Fin (8 * nn) → Bool) ≤ 2 ^ 512 := by
            rw [Fintype.card_fun, Fintype.card_bool, Fintype.card_fin]
            exact Nat.pow_le_pow_right (by omega) (by omega)
          refine le_trans (card_filter_le_of_inj (fun a => (blakeSplit hnn v a).1) fun a b ha hb hab => ?_) hc
          have ha : (blakeSplit hnn v).symm (u, (blakeSplit hnn v a).2) = t := ha
          have hb : (blakeSplit hnn v).symm (u, (blakeSplit hnn v b).2) = t := hb
          have := (Prod.mk.inj ((blakeSplit hnn v).symm.injective (ha.trans hb.symm))).2
          exact (blakeSplit hnn v).injective (Prod.ext hab this)
      · rw [List.length_map, Nat.add_mul, Nat.mul_assoc]
        have := Nat.zero_le (T.length * 2 ^ 512)
        omega
    | false =>
      have h0 : o = none := by
        by_contra h
        have := ends_final hnn (ho h).2
        rw [hf] at this
        cases this
      subst h0
      refine le_trans (card_filter_mono (q := fun a => (Sum.inl (blakeFinish (lowHalf v) a) : BlakeState ⊕ (BlakeKey × BlakeWork)) ∈
        (libraryBlake hnn).seen T ∨ a ∈ T.map fun e => e.y) fun a ha => ?_) (le_trans card_filter_or_le (Nat.add_le_add ?_ ?_))
      · rcases ha with ha | ha
        · have ha : blakeInner (blakeFinish (lowHalf v) a, if blakeFinal v then some (k, v) else none) ∈
            (libraryBlake hnn).seen T := ha
          rw [hf] at ha
          exact Or.inl ha
        · exact Or.inr (hk' ha)
      · rw [← hseen]
        refine card_mem_le' (fun a => (Sum.inl (blakeFinish (lowHalf v) a) : BlakeState ⊕ (BlakeKey × BlakeWork))) (2 ^ 512) (fun t _ => ?_) _
        rw [← card_state8]
        refine card_filter_le_of_inj highHalf fun a b ha hb hab => blakeBitsOf_injective v ?_
        have := Sum.inl.inj (ha.trans hb.symm)
        unfold blakeBitsOf
        rw [this, hab]
      · refine le_trans (b := (T.map fun e => e.y).length * 1) (card_mem_le' _ _ (fun t _ => ?_) _) (by rw [List.length_map, Nat.mul_one])
        exact card_filter_le_of_inj (Y := Unit) (fun _ => ()) fun a b ha hb _ => ha.trans hb.symm

theorem sum_blake (q : Nat) : ((Shape.weight (fun i => (2 * i + 1) * 2 ^ 512 + i) 0 q : Nat) : ℚ) =
    (q : ℚ) ^ 2 * 2 ^ 512 + q * (q - 1) / 2 := by
  unfold Shape.weight
  induction q with
  | zero => simp
  | succ q ih =>
    rw [Finset.sum_range_succ, Nat.cast_add, ih, Nat.zero_add]
    push_cast
    ring

/-! ### C105 -/

/-- **C105.** For BLAKE2b with `nn` octets of output as the library computes it, over a random cipher in place of the twelve
rounds: there is a simulator, asking the random oracle at most one digest for every query to the cipher, such that a
distinguisher of cost `N` tells the library with the cipher from the random oracle with the simulator with an advantage of at most
`N^2 / 2^512`, up to `N (N - 1) / 2^1025`.  The cost of a digest is the number of calls of the compression function. -/
theorem C105_indifferentiable {nn : Nat} (hnn : nn ≤ 64) (JP J : Injector) :
    ∃ sim : Simulator BlakeMessage (Fin (8 * nn) → Bool) BlakeKey BlakeWork,
      ∀ (P : Distinguisher BlakeCall (Except Fault Bits) BlakeKey BlakeWork) (N : Nat), P.AtMost BlakeCall.cost N →
        |prob (fun E => P.real (fun q => q.digest (fun k => E k) nn JP J) E = true) -
          P.idealChance BlakeCall.message (fun t => .ok (List.ofFn t)) sim| ≤ (N : ℚ) ^ 2 / 2 ^ 512 + N * (N - 1) / 2 ^ 1025 := by
  classical
  refine ⟨(libraryBlake hnn).simulator, fun P N hP => ?_⟩
  have hP' : P.AtMost (fun q => ((libraryBlake hnn).pad q.message).length) N := by
    refine (show (fun q : BlakeCall => ((libraryBlake hnn).pad q.message).length) = BlakeCall.cost from ?_) ▸ hP
    funext q
    exact List.length_map _
  have key := Shape.indifferentiable (S := libraryBlake hnn) (msg := BlakeCall.message) (wrap := fun t => Except.ok (List.ofFn t))
    (P := P) (w := fun i => (2 * i + 1) * 2 ^ 512 + i) (card_badBlake hnn) (N := N) hP'
  have hd : ∀ E : Cipher BlakeKey BlakeWork, (fun q : BlakeCall => q.digest (fun k => E k) nn JP J) =
      (libraryBlake hnn).realDigest BlakeCall.message (fun t => Except.ok (List.ofFn t)) E := by
    intro E
    funext q
    exact digest_blake hnn JP J E q
  simp only [hd]
  refine le_trans key (le_of_eq ?_)
  rw [card_work, sum_blake, add_div]
  push_cast
  congr 1
  · rw [show (1024 : Nat) = 512 + 512 from rfl, pow_add, mul_div_mul_right _ _ (by positivity)]
  · rw [show (1025 : Nat) = 1 + 1024 from rfl, pow_add, div_div, pow_one]

/-- A BLAKE2b digest of one octet. -/
def octetCall : BlakeCall where
  garbage := List.replicate 1024 true
  ops := [blakeBytesOp [1]]
  length_garbage := List.length_replicate
  wellTyped := oneOctet_wellTyped 1
  extracts := trivial
  octets := by rw [oneOctet1.1]
  short := by rw [oneOctet1.1]; norm_num

/-- The only call of the compression function for this message. -/
def octetStep : Bits × Nat × Bool := (haifaInput 1024 (streamOf 1024 [blakeBytesOp [1]])).getD 0 ([], 0, false)

/-- The distinguisher that asks for a digest and computes it with the cipher. -/
noncomputable def recomputeBlake : Distinguisher BlakeCall (Except Fault Bits) BlakeKey BlakeWork :=
  .hash octetCall fun a =>
    .ask .enc (blakeKey octetStep.1) (blakeInputOf (blakeInit (8 * 64)) octetStep.2.1 octetStep.2.2) fun y =>
      .done (decide (a = .ok ((littleOctetBigBit.arrayView (blakeFinish (blakeInit (8 * 64)) y)).take (8 * 64))))

theorem recomputeBlake_atMost : recomputeBlake.AtMost BlakeCall.cost 2 := by
  have h : octetCall.cost = 1 := oneOctet1.2.1
  refine ⟨by rw [h]; omega, fun a => ?_⟩
  rw [h]
  exact fun y => trivial

theorem recomputeBlake_real (JP J : Injector) (E : Cipher BlakeKey BlakeWork) :
    recomputeBlake.real (fun q => q.digest (fun k => E k) 64 JP J) E = true := by
  obtain ⟨c, hc⟩ := List.length_eq_one_iff.1 oneOctet1.2.1
  have hs : octetStep = c := by unfold octetStep; rw [hc]; rfl
  show decide (octetCall.digest (fun k => E k) 64 JP J = .ok ((littleOctetBigBit.arrayView (blakeFinish (blakeInit (8 * 64))
    (E (blakeKey octetStep.1) (blakeInputOf (blakeInit (8 * 64)) octetStep.2.1 octetStep.2.2)))).take (8 * 64))) = true
  rw [decide_eq_true_eq, hs]
  unfold BlakeCall.digest
  rw [blakeOf_result _ le_rfl JP J octetCall.garbage octetCall.length_garbage octetCall.ops octetCall.wellTyped octetCall.extracts
    octetCall.short, show octetCall.ops = [blakeBytesOp [1]] from rfl, hc]
  rfl

/-- The simulator passes this test but for a fraction of less than `2^-509` of the random functions and coins. -/
example : ∃ sim : Simulator BlakeMessage (Fin (8 * 64) → Bool) BlakeKey BlakeWork,
    1 - 1 / 2 ^ 509 ≤ recomputeBlake.idealChance BlakeCall.message (fun t => .ok (List.ofFn t)) sim := by
  obtain ⟨sim, h⟩ := C105_indifferentiable (nn := 64) le_rfl spliceInjector spliceInjector
  have := h recomputeBlake 2 recomputeBlake_atMost
  rw [prob_always (recomputeBlake_real _ _), abs_le] at this
  have e : ((2 : Nat) : ℚ) ^ 2 / 2 ^ 512 + ((2 : Nat) : ℚ) * ((2 : Nat) - 1) / 2 ^ 1025 ≤ 1 / 2 ^ 509 := by
    have h1 : ((2 : Nat) : ℚ) ^ 2 / 2 ^ 512 = 1 / 2 * (1 / 2 ^ 509) := by
      rw [show 512 = 3 + 509 from rfl, pow_add, ← div_div]; norm_num; ring
    have h2 : ((2 : Nat) : ℚ) * ((2 : Nat) - 1) / 2 ^ 1025 ≤ 1 / 2 * (1 / 2 ^ 509) := by
      have : (2 : ℚ) ^ (2 + 509) ≤ 2 ^ 1025 := pow_le_pow_right₀ (by norm_num) (by norm_num)
      refine le_trans (div_le_div_of_nonneg_left (by norm_num) (by positivity) this) (le_of_eq ?_)
      rw [pow_add, ← div_div]; norm_num; ring
    linarith
  exact ⟨sim, by linarith⟩

end Verif.Props
