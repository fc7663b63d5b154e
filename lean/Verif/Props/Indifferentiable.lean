import Verif.Proof.IndiffMain
import Verif.Props.RandomPermutation
import Verif.Props.Multicollision
import Mathlib.Data.Set.Finite.List
/-
C102: the sponge hashes of the library, over a random permutation, are indifferentiable from a random oracle.
-/
namespace Verif.Props

open Spec Spec.Ideal Verif.Ideal

/-! ### What is asked and what is answered -/

/-- A program of calls that hashes one message with the Keccak or SHA-3 hash of `d` bits. -/
structure SpongeCall (d : Nat) where
  kind : SpongeKind
  /-- The content of the cache before the first call. -/
  garbage : Bits
  ops : List Op
  length_garbage : garbage.length = spongeBlockBits d
  wellTyped : ∀ op ∈ ops, op.WellTyped (spongeBlockBits d)
  extracts : GoodExtracts (spongeBlockBits d) SpongeGood [] ops
  good : SpongeGood (streamOf (spongeBlockBits d) ops)

/-- What the library returns. -/
def SpongeCall.digest {d : Nat} (permute : Lanes → Lanes) (JP J : Injector) (q : SpongeCall d) : Except Fault Bits := do
  let (a, _) ← runOps (spongeConstruction q.kind permute d JP) J (Acc.init (spongeConstruction q.kind permute d JP) q.garbage) [] q.ops
  a.result (spongeConstruction q.kind permute d JP)

/-- The inputs of the random oracle: a family and a message of whole octets, shorter than `2^64` bits. -/
def SpongeMessage : Type := { m : SpongeKind × Bits // SpongeGood m.2 }

/-- The message that is fed. -/
def SpongeCall.message {d : Nat} (q : SpongeCall d) : SpongeMessage := ⟨(q.kind, streamOf (spongeBlockBits d) q.ops), q.good⟩

/-- The number of permutation calls for a message. -/
def SpongeCall.cost {d : Nat} (q : SpongeCall d) : Nat :=
  (spongeInput q.kind (spongeBlockBits d) (streamOf (spongeBlockBits d) q.ops)).length

instance : Finite SpongeKind := ⟨⟨fun k => match k with | .keccak => (0 : Fin 2) | .sha3 => 1,
  fun i => if i = 0 then .keccak else .sha3, fun k => by cases k <;> rfl, fun i => by fin_cases i <;> rfl⟩⟩

noncomputable instance : Fintype SpongeMessage := by
  have : Finite { b : Bits // b.length < 2 ^ 64 } := (List.finite_length_lt Bool _).to_subtype
  exact @Fintype.ofFinite _ (Finite.of_injective
    (fun m : SpongeMessage => ((m.1.1, ⟨m.1.2, m.2.2⟩) : SpongeKind × { b : Bits // b.length < 2 ^ 64 }))
    (fun m m' h => Subtype.ext (Prod.ext (Prod.mk.inj h).1 (congrArg Subtype.val (Prod.mk.inj h).2))))

/-! ### The sponge of the library as a `Shape` -/

/-- The `n` bits from `i` on. -/
def bitsAt (b : Bits) (i n : Nat) : Fin n → Bool := fun j => b.getD (i + j) false

theorem ofFn_bitsAt {b : Bits} {i n : Nat} (h : i + n ≤ b.length) : List.ofFn (bitsAt b i n) = (b.drop i).take n := by
  apply List.ext_getElem
  · rw [List.length_ofFn, List.length_take, List.length_drop]; omega
  · intro k h1 h2
    rw [List.length_ofFn] at h1
    rw [List.getElem_ofFn, List.getElem_take, List.getElem_drop]
    unfold bitsAt
    rw [List.getD_eq_getElem?_getD, List.getElem?_eq_getElem (by simp; omega), Option.getD_some]

theorem bitsAt_ofFn {n : Nat} (f : Fin n → Bool) (a b : Bits) (i : Nat) (h : a.length = i) : bitsAt (a ++ (List.ofFn f ++ b)) i n = f := by
  funext j
  unfold bitsAt
  rw [List.getD_eq_getElem?_getD, List.getElem?_append_right (by omega), h, Nat.add_sub_cancel_left,
    List.getElem?_append_left (by rw [List.length_ofFn]; exact j.2), List.getElem?_ofFn]
  simp

/-- The digest and the rest of a state. -/
def digestSplit {d : Nat} (h8 : 8 ∣ d) (hd : d ≤ 1600) : Lanes ≃ (Fin d → Bool) × (Fin (1600 - d) → Bool) where
  toFun x := (bitsAt (flipOctets ((laneString x).take d)) 0 d, bitsAt (laneString x) d (1600 - d))
  invFun t := stringLanes (flipOctets (List.ofFn t.1) ++ List.ofFn t.2)
  left_inv x := by
    have hl := length_laneString x
    have h1 : ((laneString x).take d).length = d := by rw [List.length_take, hl]; omega
    show stringLanes (flipOctets (List.ofFn (bitsAt _ 0 d)) ++ List.ofFn (bitsAt _ d (1600 - d))) = x
    rw [ofFn_bitsAt (by rw [length_flipOctets, h1]; omega), ofFn_bitsAt (by rw [hl]; omega), List.drop_zero,
      List.take_of_length_le (i := d) (l := flipOctets _) (by rw [length_flipOctets, h1]), flipOctets_flipOctets _ (by rw [h1]; exact h8),
      List.take_of_length_le (i := 1600 - d) (by rw [List.length_drop, hl]), List.take_append_drop, stringLanes_laneString]
  right_inv t := by
    have h1 : (flipOctets (List.ofFn t.1)).length = d := by rw [length_flipOctets, List.length_ofFn]
    show (bitsAt (flipOctets ((laneString (stringLanes _)).take d)) 0 d, bitsAt (laneString (stringLanes _)) d (1600 - d)) = t
    rw [laneString_stringLanes _ (by rw [List.length_append, h1, List.length_ofFn]; omega), List.take_left' h1,
      flipOctets_flipOctets _ (by rw [List.length_ofFn]; exact h8)]
    refine Prod.ext ?_ ?_
    · have := bitsAt_ofFn t.1 [] [] 0 rfl
      rwa [List.nil_append, List.append_nil] at this
    · have := bitsAt_ofFn t.2 _ [] d h1
      rwa [List.append_nil] at this

theorem laneString_query {r : Nat} (hr : r ≤ 1600) (s : Lanes) {b : Bits} (hb : b.length = r) :
    laneString (spongeQuery r (laneString s) b) = xorBits (laneString s) (b ++ List.replicate (1600 - r) false) := by
  unfold spongeQuery
  exact laneString_stringLanes _ (by simp [xorBits, length_laneString, hb]; omega)

theorem xorBits_self_left : ∀ a b : Bits, a.length = b.length → xorBits a (xorBits a b) = b
  | [], [], _ => rfl
  | a :: as, b :: bs, h => by
    have ih := xorBits_self_left as bs (by simpa using h)
    simp only [xorBits, List.zipWith_cons_cons, List.cons.injEq] at ih ⊢
    exact ⟨by cases a <;> cases b <;> rfl, ih⟩

theorem xorBits_append (a a' b b' : Bits) (h : a.length = b.length) : xorBits (a ++ a') (b ++ b') = xorBits a b ++ xorBits a' b' :=
  List.zipWith_append h

/-- The sponge of the library. -/
def librarySponge {d : Nat} (S : SpongeSize d) :
    Shape Unit Lanes Lanes Bits Bits (Fin d → Bool) (Fin (1600 - d) → Bool) SpongeMessage where
  inner := innerPart (spongeBlockBits d)
  cin := innerPart (spongeBlockBits d)
  key _ := ()
  out _ _ y := y
  isOpen _ := True
  open_s0 := trivial
  open_out _ _ _ _ _ := trivial
  add s b := spongeQuery (spongeBlockBits d) (laneString s) b
  diff s _ x := xorBits ((laneString s).take (spongeBlockBits d)) ((laneString x).take (spongeBlockBits d))
  s0 := stringLanes (List.replicate 1600 false)
  digest y := (digestSplit S.facts.2.2.2.1 (by have := S.lt; omega) y).1
  split _ _ := digestSplit S.facts.2.2.2.1 (by have := S.lt; omega)
  digest_out _ _ _ := rfl
  key_diff _ _ _ := rfl
  pad m := spongeInput m.1.1 (spongeBlockBits d) m.1.2
  add_diff s _ x h := by
    have hr := S.facts.2.2.1
    have hs := length_laneString s
    have hx := length_laneString x
    have h1 : ((laneString s).take (spongeBlockBits d)).length = spongeBlockBits d := by rw [List.length_take, hs]; omega
    have h2 : ((laneString x).take (spongeBlockBits d)).length = spongeBlockBits d := by rw [List.length_take, hx]; omega
    apply laneString_injective
    rw [laneString_query hr s (by rw [length_xorBits _ _ (h1.trans h2.symm), h1])]
    conv_lhs => rw [← List.take_append_drop (spongeBlockBits d) (laneString s)]
    rw [List.take_left' h1, xorBits_append _ _ _ _ (by rw [length_xorBits _ _ (h1.trans h2.symm)]), xorBits_self_left _ _ (h1.trans h2.symm)]
    have := xorBits_zeros ((laneString s).drop (spongeBlockBits d))
    rw [List.length_drop, hs] at this
    rw [this]
    change (laneString x).drop _ = (laneString s).drop _ at h
    rw [← h, List.take_append_drop]
  diff_add s m b hb := by
    have hr := S.facts.2.2.1
    have hb : b.length = spongeBlockBits d := length_of_mem_blocks hb
    have h1 : ((laneString s).take (spongeBlockBits d)).length = spongeBlockBits d := by
      rw [List.length_take, length_laneString]; omega
    rw [laneString_query hr s hb, xorBits_take, List.take_left' hb, xorBits_self_left _ _ (h1.trans hb.symm)]
  cin_add s m b hb _ := innerPart_query S.facts.2.2.1 (length_laneString _) (length_of_mem_blocks hb)
  pad_injective m m' h := by
    obtain ⟨h1, h2⟩ := spongeInput_injective S.facts.1 m.2.1 m'.2.1 h
    exact Subtype.ext (Prod.ext h1 h2)
  pad_ne_nil m := spongeInput_ne_nil S.facts.1 _ _

theorem pad_library {d : Nat} (S : SpongeSize d) (q : SpongeCall d) : (librarySponge S).pad q.message =
    spongeInput q.kind (spongeBlockBits d) (streamOf (spongeBlockBits d) q.ops) := rfl

theorem absorbed_library {d : Nat} (S : SpongeSize d) (E : Cipher Unit Lanes) (P : List Bits) :
    laneString ((librarySponge S).absorbed E P) = absorbBlocks 1600 (spongeBlockBits d) (onStrings (E ())) P :=
  chain_absorb _ E P

/-- The digest of the library is a part of the state after absorbing. -/
theorem digest_library {d : Nat} (S : SpongeSize d) (h3 : 3 * d ≤ 1600) (JP J : Injector) (E : Cipher Unit Lanes) (q : SpongeCall d) :
    q.digest (E ()) JP J = .ok (List.ofFn ((librarySponge S).digest ((librarySponge S).absorbed E ((librarySponge S).pad q.message)))) := by
  have hF := S.facts
  have hr : spongeBlockBits d ≤ 1600 := hF.2.2.1
  have hdr : d ≤ spongeBlockBits d := by unfold spongeBlockBits; omega
  obtain ⟨a, e, r⟩ := (sponge_verified q.kind (E ()) JP S).extraction J q.garbage q.length_garbage _ q.wellTyped
    (Or.inl q.good.2) q.extracts q.good
  unfold SpongeCall.digest
  rw [e]
  show a.result (spongeConstruction q.kind (E ()) d JP) = _
  rw [r]
  show Except.ok _ = Except.ok (List.ofFn (bitsAt (flipOctets ((laneString _).take d)) 0 d))
  have hl : ((absorbBlocks 1600 (spongeBlockBits d) (onStrings (E ())) ((librarySponge S).pad q.message)).take d).length = d := by
    rw [List.length_take, length_absorbBlocks (length_onStrings _)]; omega
  rw [absorbed_library, ofFn_bitsAt (by rw [length_flipOctets, hl]; omega), List.drop_zero,
    List.take_of_length_le (by rw [length_flipOctets, hl])]
  unfold spongeSpec
  refine congrArg (fun b => Except.ok (flipOctets b)) ?_
  exact squeeze_take hdr hF.1 _ _ (length_absorbBlocks (length_onStrings _) _) hr

theorem inner_patch {d : Nat} (S : SpongeSize d) (h3 : 3 * d ≤ 1600) (x : Lanes) (o : Option (Fin d → Bool)) (v : Lanes) :
    (librarySponge S).inner ((librarySponge S).patch () x o v) = (librarySponge S).inner v := by
  cases o with
  | none => rfl
  | some t =>
    have hdr : d ≤ spongeBlockBits d := by unfold spongeBlockBits; omega
    have hv := length_laneString v
    have h1 : (flipOctets (List.ofFn t)).length = d := by rw [length_flipOctets, List.length_ofFn]
    show (laneString (stringLanes (flipOctets (List.ofFn t) ++ List.ofFn (bitsAt (laneString v) d (1600 - d))))).drop _ =
      (laneString v).drop _
    rw [laneString_stringLanes _ (by rw [List.length_append, h1, List.length_ofFn]; omega), ofFn_bitsAt (by omega),
      List.take_of_length_le (by rw [List.length_drop, hv])]
    obtain ⟨k, hk⟩ := Nat.exists_eq_add_of_le hdr
    rw [hk, ← List.drop_drop, List.drop_left' h1, List.drop_drop]

theorem badAns_library {d : Nat} (S : SpongeSize d) (h3 : 3 * d ≤ 1600) {T : Tab Unit Lanes} {dir : Dir} {x : Lanes}
    {o : Option (Fin d → Bool)} {a : Lanes} (h : (librarySponge S).BadAns T dir () x ((librarySponge S).patch () x o a)) :
    (librarySponge S).inner a ∈ (librarySponge S).seen T := by
  rw [← inner_patch S h3 x o]
  rcases h with h | ⟨e, he, _, h⟩
  · cases dir <;> exact h
  · cases dir
    · rw [← h]; exact Shape.seen_y (S := librarySponge S) he
    · rw [← h]; exact Shape.seen_x (S := librarySponge S) he

theorem sum_odd (mc q : Nat) : Shape.weight (fun i => (2 * i + 1) * mc) 0 q = q ^ 2 * mc := by
  unfold Shape.weight
  induction q with
  | zero => simp
  | succ q ih =>
    rw [Finset.sum_range_succ, ih]
    ring

open Classical in
theorem card_badAns {d : Nat} (S : SpongeSize d) (h3 : 3 * d ≤ 1600) (T : Tab Unit Lanes) (dir : Dir) (k : Unit) (x : Lanes)
    (o : Option (Fin d → Bool)) (_ : o ≠ none → dir = .enc ∧ (librarySponge S).Ends k x) (_ : ¬ Known T dir k x) :
    (Finset.univ.filter fun a => (librarySponge S).BadAns T dir k x ((librarySponge S).patch k x o a)).card ≤
      (2 * T.length + 1) * 2 ^ spongeBlockBits d := by
  refine le_trans (Finset.card_le_card (Finset.monotone_filter_right _
    (q := fun a => (librarySponge S).inner a ∈ (librarySponge S).seen T) fun _ _ => badAns_library S h3)) ?_
  · have h := card_mem_le (fun a => (librarySponge S).inner a) (m := 2 ^ spongeBlockBits d)
      (fun t => by convert card_cap_le S.facts.2.2.1 t; rfl) ((librarySponge S).seen T)
    rw [Shape.length_seen] at h
    exact le_trans (le_of_eq (card_filter_eq _ _ _ _)) h

/-! ### C102 -/

/-- **C102.** For the Keccak and SHA-3 hashes as the library builds them, over a random permutation: there is a simulator,
asking the random oracle at most one digest for every query to the permutation, such that a distinguisher of cost `N` tells the
library with the permutation from the random oracle with the simulator with an advantage of at most `N^2 / 2^2d`.  The cost of a
digest is the number of its blocks. -/
theorem C102_indifferentiable {d : Nat} (S : SpongeSize d) (h3 : 3 * d ≤ 1600) (JP J : Injector) :
    ∃ sim : Simulator SpongeMessage (Fin d → Bool) Unit Lanes,
      ∀ (P : Distinguisher (SpongeCall d) (Except Fault Bits) Unit Lanes) (N : Nat), P.AtMost SpongeCall.cost N →
        |prob (fun E => P.real (fun q => q.digest (E ()) JP J) E = true) -
          P.idealChance SpongeCall.message (fun t => .ok (List.ofFn t)) sim| ≤ (N : ℚ) ^ 2 / 2 ^ (2 * d) := by
  classical
  have hr : spongeBlockBits d ≤ 1600 := S.facts.2.2.1
  refine ⟨(librarySponge S).simulator, fun P N hP => ?_⟩
  have key := Shape.indifferentiable (S := librarySponge S) (msg := SpongeCall.message) (wrap := fun t => Except.ok (List.ofFn t))
    (P := P) (w := fun i => (2 * i + 1) * 2 ^ spongeBlockBits d) (card_badAns S h3) (N := N) hP
  have hd : ∀ E : Cipher Unit Lanes, (fun q : SpongeCall d => q.digest (E ()) JP J) =
      (librarySponge S).realDigest SpongeCall.message (fun t => Except.ok (List.ofFn t)) E := by
    intro E
    funext q
    exact digest_library S h3 JP J E q
  simp only [hd]
  refine le_trans key (le_of_eq ?_)
  rw [card_lanes, sum_odd]
  push_cast
  have h2 : (1600 : Nat) = spongeBlockBits d + 2 * d := by unfold spongeBlockBits; omega
  rw [h2, pow_add, mul_comm ((2 : ℚ) ^ spongeBlockBits d), mul_div_mul_right _ _ (by positivity)]

/-- A SHA3-256 digest of 40 octets. -/
def fortyCall (x : Nat) : SpongeCall 256 where
  kind := .sha3
  garbage := List.replicate 1088 true
  ops := forty x
  length_garbage := List.length_replicate
  wellTyped := forty_wellTyped x
  extracts := trivial
  good := forty_good x

/-- The distinguisher that asks for a digest and computes it with the permutation. -/
noncomputable def recompute : Distinguisher (SpongeCall 256) (Except Fault Bits) Unit Lanes :=
  .hash (fortyCall 1) fun a =>
    .ask .enc () (spongeQuery 1088 (List.replicate 1600 false) ((spongeInput .sha3 1088 (streamOf 1088 (forty 1))).getD 0 [])) fun y =>
      .done (decide (a = .ok (flipOctets ((laneString y).take 256))))

theorem recompute_atMost : recompute.AtMost SpongeCall.cost 2 := by
  have h : (fortyCall 1).cost = 1 := forty_blocks.2
  refine ⟨by rw [h]; omega, fun a => ?_⟩
  rw [h]
  exact fun y => trivial

theorem recompute_real (JP J : Injector) (E : Cipher Unit Lanes) :
    recompute.real (fun q => q.digest (E ()) JP J) E = true := by
  obtain ⟨b, hb⟩ := List.length_eq_one_iff.1 forty_blocks.2
  have h := digest_library sizes.2.1 (by omega) JP J E (fortyCall 1)
  have hp : (librarySponge sizes.2.1).pad (fortyCall 1).message = [b] := by
    rw [pad_library, show (fortyCall 1).kind = .sha3 from rfl, show (fortyCall 1).ops = forty 1 from rfl,
      show spongeBlockBits 256 = 1088 from rfl]
    exact hb
  rw [hp] at h
  show decide ((fortyCall 1).digest (E ()) JP J = .ok (flipOctets ((laneString (E () (spongeQuery 1088 (List.replicate 1600 false)
    ((spongeInput .sha3 1088 (streamOf 1088 (forty 1))).getD 0 [])))).take 256))) = true
  rw [hb, h, decide_eq_true_eq]
  have hl : laneString (stringLanes (List.replicate 1600 false)) = List.replicate 1600 false :=
    laneString_stringLanes _ List.length_replicate
  show Except.ok (List.ofFn (bitsAt (flipOctets ((laneString (E () (spongeQuery 1088
    (laneString (stringLanes (List.replicate 1600 false))) b))).take 256)) 0 256)) = _
  rw [hl, ofFn_bitsAt (by rw [length_flipOctets, List.length_take, length_laneString]; omega), List.drop_zero,
    List.take_of_length_le (by rw [length_flipOctets, List.length_take, length_laneString]; omega)]
  rfl

theorem prob_always {K X : Type} [Fintype K] [DecidableEq K] [Fintype X] [DecidableEq X] {p : Cipher K X → Prop} (h : ∀ E, p E) :
    prob p = 1 := by
  classical
  unfold prob
  rw [Finset.filter_true_of_mem fun E _ => h E, Finset.card_univ, div_self]
  exact Nat.cast_ne_zero.2 Fintype.card_ne_zero

/-- The simulator passes this test but for a fraction of `2^-510` of the random functions and coins. -/
example : ∃ sim : Simulator SpongeMessage (Fin 256 → Bool) Unit Lanes,
    1 - 1 / 2 ^ 510 ≤ recompute.idealChance SpongeCall.message (fun t => .ok (List.ofFn t)) sim := by
  obtain ⟨sim, h⟩ := C102_indifferentiable sizes.2.1 (by omega) spliceInjector spliceInjector
  have := h recompute 2 recompute_atMost
  rw [prob_always (recompute_real _ _), abs_le] at this
  have e : ((2 : Nat) : ℚ) ^ 2 / 2 ^ (2 * 256) = 1 / 2 ^ 510 := by
    rw [show 2 * 256 = 2 + 510 from rfl, pow_add, Nat.cast_ofNat, ← div_div, div_self (by norm_num)]
  rw [e] at this
  exact ⟨sim, by linarith⟩

end Verif.Props
