import Verif.Props.PrefixMac
/-
C108: the Davies–Meyer hashes of the library that return only a part of the chaining value, with a random block cipher, are
indifferentiable from a random oracle; a secret key in front of the message makes an authentication code.
-/
namespace Verif.Props

open Spec Spec.Ideal Verif.Ideal

variable {w n : Nat}

/-! ### The padded message as keys of the cipher -/

/-- The keys of the cipher calls for a message. -/
def cipherKeys (h : MDHash) (w : Nat) (m : Bits) : List (Vector (BitVec w) 16) :=
  (blocks (standard h).block (paddedMessage h m)).map (keyOf h w)

theorem paddedMessage_injective (h : MDHash) {m m' : Bits} (hm : m.length < 2 ^ 64) (hm' : m'.length < 2 ^ 64)
    (e : paddedMessage h m = paddedMessage h m') : m = m' := by
  have h1 : m.length = m'.length := encode_injective h hm hm' (by rw [← paddedMessage_drop, ← paddedMessage_drop, e])
  rw [paddedMessage_tail, paddedMessage_tail, h1] at e
  exact List.append_cancel_right e

theorem length_padded_blocks (h : MDHash) (m : Bits) :
    (paddedMessage h m).length = (blocks (standard h).block (paddedMessage h m)).length * (standard h).block := by
  rw [length_blocks, Nat.div_mul_cancel]
  rw [length_paddedMessage]
  exact fillTo_spec (by have := md_sizes h; omega) _

theorem cipherKeys_injective (h : MDHash) (h8 : 8 ∣ w) (hb : (standard h).block = 16 * w) {m m' : Bits} (hm : m.length < 2 ^ 64)
    (hm' : m'.length < 2 ^ 64) (e : cipherKeys h w m = cipherKeys h w m') : m = m' := by
  have hl : (blocks (standard h).block (paddedMessage h m)).length = (blocks (standard h).block (paddedMessage h m')).length := by
    have := congrArg List.length e
    rwa [cipherKeys, cipherKeys, List.length_map, List.length_map] at this
  refine paddedMessage_injective h hm hm' (blocks_injective (by have := md_sizes h; omega) _ _ _ (length_padded_blocks h m)
    (by rw [hl]; exact length_padded_blocks h m') (List.ext_getElem hl fun i h1 h2 => ?_))
  have e1 : (cipherKeys h w m)[i]? = (cipherKeys h w m')[i]? := by rw [e]
  rw [cipherKeys, cipherKeys, List.getElem?_map, List.getElem?_map, List.getElem?_eq_getElem h1, List.getElem?_eq_getElem h2,
    Option.map_some, Option.map_some] at e1
  exact keyOf_injective h h8 (by rw [← hb]; exact length_of_mem_blocks (List.getElem_mem h1))
    (by rw [← hb]; exact length_of_mem_blocks (List.getElem_mem h2)) (Option.some.inj e1)

/-! ### The hash as a `Shape` -/

/-- The digest that an answer of the cipher gives and the rest of the chaining value. -/
noncomputable def chopSplit (e : Endian) (h8 : 8 ∣ w) {d : Nat} (hd : d ≤ n * w) (x : Vector (BitVec w) n) :
    Vector (BitVec w) n ≃ (Fin d → Bool) × (Fin (n * w - d) → Bool) :=
  Equiv.ofBijective (fun y => (bitsAt (e.arrayView (stateAdder x y)) 0 d, bitsAt (e.arrayView (stateAdder x y)) d (n * w - d))) <| by
    rw [Fintype.bijective_iff_injective_and_card]
    constructor
    · intro y y' h
      exact stateAdder_right_injective x (arrayView_injective e h8 (bitsAt_split hd (length_arrayView' _ _) (length_arrayView' _ _)
        (Prod.mk.inj h).1 (Prod.mk.inj h).2))
    · rw [card_words, Fintype.card_prod, Fintype.card_fun, Fintype.card_fun, Fintype.card_bool, Fintype.card_fin, Fintype.card_fin,
        ← pow_add]
      congr 1
      omega

/-- A Davies–Meyer hash of the library. -/
noncomputable def libraryCipherHash (h : MDHash) (h8 : 8 ∣ w) (hb : (standard h).block = 16 * w)
    (hd : (standard h).digest ≤ n * w) (iv : Vector (BitVec w) n) :
    Shape (Vector (BitVec w) 16) (Vector (BitVec w) n) (Vector (BitVec w) n) (Vector (BitVec w) 16) (Vector (BitVec w) n)
      (Fin (standard h).digest → Bool) (Fin (n * w - (standard h).digest) → Bool) (MDMessage h) where
  inner := id
  cin := id
  key := id
  add s _ := s
  out _ x y := stateAdder x y
  diff _ k _ := k
  isOpen _ := True
  s0 := iv
  digest s := bitsAt (h.policy.endian.arrayView s) 0 (standard h).digest
  split _ x := chopSplit h.policy.endian h8 hd x
  pad m := cipherKeys h w m.1
  add_diff _ _ _ e := e.symm
  key_diff _ _ _ := rfl
  diff_add _ _ _ _ := rfl
  cin_add _ _ _ _ _ := rfl
  open_s0 := trivial
  open_out _ _ _ _ _ := trivial
  digest_out _ _ _ := rfl
  pad_injective m m' e := Subtype.ext (cipherKeys_injective h h8 hb m.2.2 m'.2.2 e)
  pad_ne_nil m e := by
    obtain ⟨i, b, hi, _⟩ := last_block h m.1
    have := List.map_eq_nil_iff.1 e
    rw [this] at hi
    cases hi

theorem absorbed_cipherHash (h : MDHash) (h8 : 8 ∣ w) (hb : (standard h).block = 16 * w) (hd : (standard h).digest ≤ n * w)
    (iv : Vector (BitVec w) n) (E : Cipher (Vector (BitVec w) 16) (Vector (BitVec w) n)) (m : MDMessage h) :
    (libraryCipherHash h h8 hb hd iv).absorbed E ((libraryCipherHash h h8 hb hd iv).pad m) =
      (blocks (standard h).block (paddedMessage h m.1)).foldl (daviesMeyerAdd h.policy.endian fun k => E k) iv := by
  show ((blocks (standard h).block (paddedMessage h m.1)).map (keyOf h w)).foldl (fun s b => stateAdder s (E b s)) iv = _
  rw [List.foldl_map]
  rfl

theorem MDCall.digest_eq {h : MDHash} {σ : Type} (I : MDInst h σ) (J : Injector) (q : MDCall h) :
    q.digest I J = .ok (mdDigest h I.iv I.compress I.view (streamOf h.policy.blockBits q.ops)) := by
  obtain ⟨a, e, r⟩ := I.runOps J q.ops q.wellTyped (I.init J q.garbage q.length_garbage)
    q.extracts []
  unfold MDCall.digest
  rw [e]
  rw [List.nil_append] at r
  exact I.computes J a _ r q.good

theorem digest_cipherHash (h : MDHash) (h8 : 8 ∣ w) (hw : h.policy.stateBits = n * w) (hb : (standard h).block = 16 * w)
    (hd : (standard h).digest ≤ n * w) (iv : Vector (BitVec w) n) (d0 : Bits) (hd0 : d0.length = h.policy.digestBits) (J : Injector)
    (E : Cipher (Vector (BitVec w) 16) (Vector (BitVec w) n)) (q : MDCall h) :
    q.digest (cipherHash h hw iv (fun k => E k) d0 hd0) J = .ok (List.ofFn ((libraryCipherHash h h8 hb hd iv).digest
      ((libraryCipherHash h h8 hb hd iv).absorbed E ((libraryCipherHash h h8 hb hd iv).pad q.message)))) := by
  rw [absorbed_cipherHash, MDCall.digest_eq]
  refine congrArg Except.ok ?_
  show _ = List.ofFn (bitsAt (h.policy.endian.arrayView _) 0 (standard h).digest)
  rw [ofFn_bitsAt (by rw [length_arrayView']; omega), List.drop_zero]
  rfl

/-! ### Bad answers -/

open Classical in
theorem card_badChop (h : MDHash) (h8 : 8 ∣ w) (hb : (standard h).block = 16 * w) (hd : (standard h).digest ≤ n * w)
    (iv : Vector (BitVec w) n) (T : Tab (Vector (BitVec w) 16) (Vector (BitVec w) n)) (d : Dir) (k : Vector (BitVec w) 16)
    (v : Vector (BitVec w) n) (o : Option (Fin (standard h).digest → Bool))
    (ho : o ≠ none → d = .enc ∧ (libraryCipherHash h h8 hb hd iv).Ends k v) (_ : ¬ Known T d k v) :
    (Finset.univ.filter fun a => (libraryCipherHash h h8 hb hd iv).BadAns T d k v
      ((libraryCipherHash h h8 hb hd iv).patch k v o a)).card ≤ (3 * T.length + 1) * 2 ^ (standard h).digest := by
  have hseen : ((libraryCipherHash h h8 hb hd iv).seen T).length = 2 * T.length + 1 := Shape.length_seen T
  cases d with
  | dec =>
    have h0 : o = none := by
      by_contra h
      cases (ho h).1
    subst h0
    refine le_trans (card_filter_mono (q := fun a => a ∈ (libraryCipherHash h h8 hb hd iv).seen T) fun a ha => ?_)
      (le_trans (b := ((libraryCipherHash h h8 hb hd iv).seen T).length * 1) (card_mem_le' (fun a => a) 1 (fun t _ => ?_) _) ?_)
    · rcases ha with ha | ⟨e, he, _, ha⟩
      · exact ha
      · have ha : e.x = a := ha
        rw [← ha]
        exact Shape.seen_x (S := libraryCipherHash h h8 hb hd iv) he
    · exact card_filter_le_of_inj (Y := Unit) (fun _ => ()) fun a b ha hb _ => ha.trans hb.symm
    · rw [hseen]
      exact Nat.mul_le_mul (by omega) Nat.one_le_two_pow
  | enc =>
    have hone : ∀ t (_ : DecidablePred fun a => (libraryCipherHash h h8 hb hd iv).patch k v o a = t),
        (Finset.univ.filter fun a => (libraryCipherHash h h8 hb hd iv).patch k v o a = t).card ≤ 2 ^ (standard h).digest := by
      intro t _
      cases o with
      | none =>
        refine le_trans (card_filter_le_of_inj (Y := Unit) (fun _ => ()) fun a b ha hb _ => ?_) Nat.one_le_two_pow
        exact ha.trans hb.symm
      | some u =>
        have hc : Fintype.card (Fin (standard h).digest → Bool) = 2 ^ (standard h).digest := by
          rw [Fintype.card_fun, Fintype.card_bool, Fintype.card_fin]
        rw [← hc]
        refine card_filter_le_of_inj (fun a => (chopSplit h.policy.endian h8 hd v a).1) fun a b ha hb hab => ?_
        have ha : (chopSplit h.policy.endian h8 hd v).symm (u, (chopSplit h.policy.endian h8 hd v a).2) = t := ha
        have hb : (chopSplit h.policy.endian h8 hd v).symm (u, (chopSplit h.policy.endian h8 hd v b).2) = t := hb
        have := (Prod.mk.inj ((chopSplit h.policy.endian h8 hd v).symm.injective (ha.trans hb.symm))).2
        exact (chopSplit h.policy.endian h8 hd v).injective (Prod.ext hab this)
    rw [show (3 * T.length + 1) * 2 ^ (standard h).digest =
      (2 * T.length + 1) * 2 ^ (standard h).digest + T.length * 2 ^ (standard h).digest by ring]
    refine le_trans (card_filter_mono (q := fun a => stateAdder v ((libraryCipherHash h h8 hb hd iv).patch k v o a) ∈
        (libraryCipherHash h h8 hb hd iv).seen T ∨ (libraryCipherHash h h8 hb hd iv).patch k v o a ∈ T.map fun e => e.y) fun a ha => ?_)
      (le_trans card_filter_or_le (Nat.add_le_add ?_ ?_))
    · rcases ha with ha | ⟨e, he, _, ha⟩
      · exact Or.inl ha
      · exact Or.inr (List.mem_map.2 ⟨e, he, ha⟩)
    · rw [← hseen]
      refine card_mem_le' (fun a => stateAdder v ((libraryCipherHash h h8 hb hd iv).patch k v o a)) _ (fun t _ => ?_) _
      by_cases ht : ∃ y : Vector (BitVec w) n, stateAdder v y = t
      · obtain ⟨y, rfl⟩ := ht
        exact le_trans (card_filter_mono fun a ha => stateAdder_right_injective v ha) (hone y inferInstance)
      · refine le_trans (card_filter_mono (q := fun _ => False) fun a ha => ht ⟨_, ha⟩) ?_
        rw [Finset.filter_false, Finset.card_empty]
        exact Nat.zero_le _
    · refine le_trans (card_mem_le' _ _ hone _) ?_
      rw [List.length_map]

theorem sum_chop (c q : Nat) : ((Shape.weight (fun i => (3 * i + 1) * c) 0 q : Nat) : ℚ) = (3 * (q : ℚ) ^ 2 - q) / 2 * c := by
  unfold Shape.weight
  induction q with
  | zero => simp
  | succ q ih =>
    rw [Finset.sum_range_succ, Nat.cast_add, ih, Nat.zero_add]
    push_cast
    ring

/-! ### C108 -/

/-- **C108.** For a hash of the library in Davies–Meyer mode, over a random cipher: there is a simulator, asking the random oracle
at most one digest for every query to the cipher, such that a distinguisher of cost `N` tells the library with the cipher from the
random oracle with the simulator with an advantage of at most `3/2 N^2 / 2^s`, where `s` is the number of bits of the chaining
value that the digest does not show. -/
theorem C108_indifferentiable (h : MDHash) (h8 : 8 ∣ w) (hw : h.policy.stateBits = n * w) (hb : (standard h).block = 16 * w)
    (hd : (standard h).digest ≤ n * w) (iv : Vector (BitVec w) n) (d0 : Bits) (hd0 : d0.length = h.policy.digestBits) (J : Injector) :
    ∃ sim : Simulator (MDMessage h) (Fin (standard h).digest → Bool) (Vector (BitVec w) 16) (Vector (BitVec w) n),
      ∀ (P : Distinguisher (MDCall h) (Except Fault Bits) (Vector (BitVec w) 16) (Vector (BitVec w) n)) (N : Nat),
        P.AtMost MDCall.cost N →
        |prob (fun E => P.real (fun q => q.digest (cipherHash h hw iv (fun k => E k) d0 hd0) J) E = true) -
          P.idealChance MDCall.message (fun t => .ok (List.ofFn t)) sim| ≤
          (3 * (N : ℚ) ^ 2 - N) / 2 / 2 ^ (h.policy.stateBits - (standard h).digest) := by
  classical
  refine ⟨(libraryCipherHash h h8 hb hd iv).simulator, fun P N hP => ?_⟩
  have hP' : P.AtMost (fun q => ((libraryCipherHash h h8 hb hd iv).pad q.message).length) N := by
    refine (show (fun q : MDCall h => ((libraryCipherHash h h8 hb hd iv).pad q.message).length) = MDCall.cost from ?_) ▸ hP
    funext q
    exact List.length_map _
  have key := Shape.indifferentiable (S := libraryCipherHash h h8 hb hd iv) (msg := MDCall.message)
    (wrap := fun t => Except.ok (List.ofFn t)) (P := P) (w := fun i => (3 * i + 1) * 2 ^ (standard h).digest)
    (card_badChop h h8 hb hd iv) (N := N) hP'
  have he : ∀ E : Cipher (Vector (BitVec w) 16) (Vector (BitVec w) n),
      (fun q : MDCall h => q.digest (cipherHash h hw iv (fun k => E k) d0 hd0) J) =
      (libraryCipherHash h h8 hb hd iv).realDigest MDCall.message (fun t => Except.ok (List.ofFn t)) E := by
    intro E
    funext q
    exact digest_cipherHash h h8 hw hb hd iv d0 hd0 J E q
  simp only [he]
  refine le_trans key (le_of_eq ?_)
  rw [card_words, sum_chop, hw]
  push_cast
  rw [show (2 : ℚ) ^ (n * w) = 2 ^ (n * w - (standard h).digest) * 2 ^ (standard h).digest by rw [← pow_add]; congr 1; omega,
    mul_div_mul_right _ _ (by positivity)]

/-- The hashes of the library to which C108 applies with hidden bits, and how many these are. -/
theorem C108_hashes : ∀ p ∈ [(MDHash.sha224, 32, 8, 32), (.sha384, 64, 8, 128)],
    8 ∣ p.2.1 ∧ p.1.policy.stateBits = p.2.2.1 * p.2.1 ∧ (standard p.1).block = 16 * p.2.1 ∧
      (standard p.1).digest ≤ p.2.2.1 * p.2.1 ∧ p.1.policy.stateBits - (standard p.1).digest = p.2.2.2 := by decide

/-- Hash the message and compute the digest with one cipher call. -/
noncomputable def recomputeMD (h : MDHash) (iv : Vector (BitVec w) n) (m : Fin 256 → Bool) :
    Distinguisher (MDCall h) (Except Fault Bits) (Vector (BitVec w) 16) (Vector (BitVec w) n) :=
  .hash (firstCall h m) fun a =>
    .ask .enc (keyOf h w (paddedMessage h (List.ofFn m))) iv fun y =>
      .done (decide (a = .ok ((h.policy.endian.arrayView (stateAdder iv y)).take (standard h).digest)))

theorem recomputeMD_atMost (h : MDHash) (iv : Vector (BitVec w) n) (m : Fin 256 → Bool) : (recomputeMD h iv m).AtMost MDCall.cost 2 := by
  refine ⟨by rw [firstCall_cost]; omega, fun a => ?_⟩
  rw [firstCall_cost]
  exact fun y => trivial

theorem recomputeMD_real (h : MDHash) (hw : h.policy.stateBits = n * w)
    (iv : Vector (BitVec w) n) (d0 : Bits) (hd0 : d0.length = h.policy.digestBits) (J : Injector) (m : Fin 256 → Bool)
    (E : Cipher (Vector (BitVec w) 16) (Vector (BitVec w) n)) :
    (recomputeMD h iv m).real (fun q => q.digest (cipherHash h hw iv (fun k => E k) d0 hd0) J) E = true := by
  show decide ((firstCall h m).digest (cipherHash h hw iv (fun k => E k) d0 hd0) J = .ok ((h.policy.endian.arrayView (stateAdder iv
    (E (keyOf h w (paddedMessage h (List.ofFn m))) iv))).take (standard h).digest)) = true
  rw [decide_eq_true_eq, MDCall.digest_eq, firstCall_stream]
  unfold mdDigest
  rw [blocks_one (by have := md_sizes h; omega) (length_padded_256 h List.length_ofFn)]
  rfl

/-- For SHA-384 the simulator passes this test but for a fraction of less than `2^-125` of the random functions and coins. -/
example : ∃ sim : Simulator (MDMessage .sha384) (Fin (standard .sha384).digest → Bool) (Vector (BitVec 64) 16) (Vector (BitVec 64) 8),
    1 - 1 / 2 ^ 125 ≤ (recomputeMD .sha384 (Vector.replicate 8 0) fun _ => true).idealChance MDCall.message (fun t => .ok (List.ofFn t)) sim := by
  obtain ⟨sim, h⟩ := C108_indifferentiable .sha384 (w := 64) (n := 8) (by decide) (by decide) (by decide) (by decide)
    (Vector.replicate 8 0) (List.replicate 384 false) (by decide +kernel) spliceInjector
  have := h _ 2 (recomputeMD_atMost .sha384 (Vector.replicate 8 0) fun _ => true)
  rw [prob_always (recomputeMD_real _ _ _ _ _ _ _), abs_le] at this
  refine ⟨sim, ?_⟩
  have e : (3 * ((2 : Nat) : ℚ) ^ 2 - (2 : Nat)) / 2 / 2 ^ (MDHash.sha384.policy.stateBits - (standard .sha384).digest) ≤ 1 / 2 ^ 125 := by
    rw [show MDHash.sha384.policy.stateBits - (standard .sha384).digest = 128 from rfl]
    norm_num
  exact sub_le_comm.1 (le_trans this.2 e)

/-! ### C109: a secret key in front of the message -/

section
variable {h : MDHash} {Key : Type} {F : KeyFeed h.policy.blockBits Key}

/-- The messages to be authenticated. -/
def MDMacMessage (F : KeyFeed h.policy.blockBits Key) : Type := { m : Bits // 8 ∣ m.length ∧ F.bits + m.length < 2 ^ 64 }

def MDMacCall.input (q : MDMacCall F) : MDMacMessage F := ⟨streamOf h.policy.blockBits q.ops, q.octets, q.short⟩

/-- The number of cipher calls for key and message. -/
def MDMacCall.cost (q : MDMacCall F) : Nat := callsFor h (List.replicate F.bits false ++ streamOf h.policy.blockBits q.ops)

noncomputable instance : Fintype (MDMacMessage F) := by
  have : Finite { b : Bits // b.length < 2 ^ 64 } := (List.finite_length_lt Bool _).to_subtype
  exact @Fintype.ofFinite _ (Finite.of_injective
    (fun m : MDMacMessage F => (⟨m.1, by have := m.2.2; omega⟩ : { b : Bits // b.length < 2 ^ 64 }))
    (fun m m' h => Subtype.ext (congrArg (fun x : { b : Bits // b.length < 2 ^ 64 } => x.1) h)))

theorem MDMacCall.cost_withKey (k : Key) (q : MDMacCall F) : (q.withKey k).cost = q.cost := by
  have hc : ∀ m m' : Bits, m.length = m'.length → callsFor h m = callsFor h m' := by
    intro m m' e
    unfold callsFor
    rw [length_blocks, length_blocks, length_paddedMessage, length_paddedMessage, e]
  refine hc _ _ ?_
  show (streamOf _ (F.ops k ++ q.ops)).length = _
  rw [F.length_append, List.length_append, List.length_replicate]

/-- Key and message as message of the hash. -/
def mdJoin (F : KeyFeed h.policy.blockBits Key) (k : Key) (m : MDMacMessage F) : MDMessage h :=
  ⟨streamOf h.policy.blockBits (F.ops k) ++ m.1, by
    have hs := m.2.2
    unfold GoodMsg
    rw [List.length_append, F.length_stream, Nat.mod_eq_of_lt hs]
    exact ⟨⟨(md_marker h).1.trans (Nat.dvd_add F.octets m.2.1), by omega, Or.inr hs⟩, hs⟩⟩

theorem mdJoin_injective (F : KeyFeed h.policy.blockBits Key) (k k' : Key) (m m' : MDMacMessage F)
    (e : mdJoin F k m = mdJoin F k' m') : k = k' ∧ m = m' := by
  obtain ⟨h1, h2⟩ := F.join_injective (congrArg Subtype.val e)
  exact ⟨h1, Subtype.ext h2⟩

theorem mdJoin_message (k : Key) (q : MDMacCall F) : (q.withKey k).message = mdJoin F k q.input :=
  Subtype.ext (streamOf_append _ _ _)

open Classical in
/-- **C109.** The hash of a secret key followed by the message, for the hashes of the library in Davies–Meyer mode over a random
cipher, is told from a random function of the message with an advantage of at most `(3 N^2 - N) / 2^s` and `N` over the number of
keys, where `s` is the number of bits of the chaining value that the digest does not show. -/
theorem C109_random (h8 : 8 ∣ w) (hw : h.policy.stateBits = n * w) (hb : (standard h).block = 16 * w)
    (hd : (standard h).digest ≤ n * w) (iv : Vector (BitVec w) n) (d0 : Bits) (hd0 : d0.length = h.policy.digestBits) (J : Injector)
    [Fintype Key] [Nonempty Key] (F : KeyFeed h.policy.blockBits Key)
    (P : Distinguisher (MDMacCall F) (Except Fault Bits) (Vector (BitVec w) 16) (Vector (BitVec w) n)) (N : Nat)
    (hP : P.AtMost MDMacCall.cost N) :
    |(chance fun v : Key × Cipher (Vector (BitVec w) 16) (Vector (BitVec w) n) =>
        P.real (fun q => q.tag (cipherHash h hw iv (fun k => v.2 k) d0 hd0) J v.1) v.2 = true) -
      (chance fun v : (MDMacMessage F → Fin (standard h).digest → Bool) × Cipher (Vector (BitVec w) 16) (Vector (BitVec w) n) =>
        P.real (fun q => .ok (List.ofFn (v.1 q.input))) v.2 = true)| ≤
      2 * ((3 * (N : ℚ) ^ 2 - N) / 2 / 2 ^ (h.policy.stateBits - (standard h).digest)) + N / Fintype.card Key := by
  obtain ⟨sim, hs⟩ := C108_indifferentiable h h8 hw hb hd iv d0 hd0 J
  letI := sim.fintype
  refine prf_close sim (mdJoin F) (mdJoin_injective F) MDMacCall.input (fun t => Except.ok (List.ofFn t)) P N hP
    (fun k E q => q.tag (cipherHash h hw iv (fun k => E k) d0 hd0) J k) (fun k => ?_) (fun G => ?_)
  · have h1 := hs (onInput (MDMacCall.withKey k) P) N (atMost_onInput _ (MDMacCall.cost_withKey k) P N hP)
    unfold Distinguisher.idealChance at h1
    simp only [real_onInput, ideal_onInput, mdJoin_message] at h1
    exact h1
  · have h2 := hs (fixed (MDCall h) (fun q => Except.ok (List.ofFn (G q.input))) P) N (atMost_fixed _ P N hP)
    unfold Distinguisher.idealChance at h2
    simp only [real_fixed, ideal_fixed] at h2
    exact h2

open Classical in
/-- **C109.** So forging such a code succeeds with probability at most that and `2^-digest`. -/
theorem C109_unforgeable (h8 : 8 ∣ w) (hw : h.policy.stateBits = n * w) (hb : (standard h).block = 16 * w)
    (hd : (standard h).digest ≤ n * w) (iv : Vector (BitVec w) n) (d0 : Bits) (hd0 : d0.length = h.policy.digestBits) (J : Injector)
    [Fintype Key] [Nonempty Key] (F : KeyFeed h.policy.blockBits Key)
    (A : Forger (MDMacCall F) (Except Fault Bits) (Vector (BitVec w) 16) (Vector (BitVec w) n)) (N : Nat)
    (hA : A.AtMost MDMacCall.cost N) :
    (chance fun v : Key × Cipher (Vector (BitVec w) 16) (Vector (BitVec w) n) =>
        A.Wins MDMacCall.input (fun q => q.tag (cipherHash h hw iv (fun k => v.2 k) d0 hd0) J v.1) v.2) ≤
      2 * ((3 * (N : ℚ) ^ 2 - N) / 2 / 2 ^ (h.policy.stateBits - (standard h).digest)) + N / Fintype.card Key +
        1 / 2 ^ (standard h).digest := by
  have hu := unforgeable MDMacCall.input (fun t : Fin (standard h).digest → Bool => (Except.ok (List.ofFn t) : Except Fault Bits))
    (ok_ofFn_injective _) A
    (fun k (E : Cipher (Vector (BitVec w) 16) (Vector (BitVec w) n)) q => q.tag (cipherHash h hw iv (fun k => E k) d0 hd0) J k)
    (C109_random h8 hw hb hd iv d0 hd0 J F (game MDMacCall.input A []) N (game_atMost _ A _ N hA))
  rw [Fintype.card_fun, Fintype.card_bool, Fintype.card_fin] at hu
  push_cast at hu
  exact hu

/-! ### Guessing the hidden bits -/

/-- Ask for the code of one message, guess the hidden bits of the chaining value, and continue with one cipher query. -/
def prolongGuess (h : MDHash) {Key : Type} {F : KeyFeed h.policy.blockBits Key} (w n : Nat) (q : MDMacCall F)
    (hq : F.bits + q.message.length + 2 * (standard h).block ≤ 2 ^ 64) (g : Bits) :
    Forger (MDMacCall F) (Except Fault Bits) (Vector (BitVec w) 16) (Vector (BitVec w) n) :=
  .tag q fun a =>
    match a with
    | .error f => .forge q (.error f)
    | .ok d => .ask .enc (keyOf h w (padTail h (F.bits + q.message.length + (padTail h (F.bits + q.message.length)).length)))
        (readState h w n (d ++ g)) fun y =>
      .forge (q.padded hq) (.ok ((h.policy.endian.arrayView (stateAdder (readState h w n (d ++ g)) y)).take (standard h).digest))

theorem prolongGuess_atMost (q : MDMacCall F) (hq : F.bits + q.message.length + 2 * (standard h).block ≤ 2 ^ 64) (g : Bits) :
    (prolongGuess h w n q hq g).AtMost (fun _ => 1) 3 := by
  refine ⟨show 1 ≤ 3 by omega, fun a => ?_⟩
  cases a with
  | error f => exact Nat.le_succ 1
  | ok d => exact fun y => Nat.le_refl 1

/-- **C109, other side.** For every key and every cipher one of the `2^s` guesses wins. -/
theorem C109_guess (h8 : 8 ∣ w) (hw : h.policy.stateBits = n * w) (hd : (standard h).digest ≤ n * w) (iv : Vector (BitVec w) n)
    (d0 : Bits) (hd0 : d0.length = h.policy.digestBits) (J : Injector) (q : MDMacCall F)
    (hq : F.bits + q.message.length + 2 * (standard h).block ≤ 2 ^ 64) (k : Key)
    (E : Cipher (Vector (BitVec w) 16) (Vector (BitVec w) n)) :
    ∃ g : Fin (h.policy.stateBits - (standard h).digest) → Bool, (prolongGuess h w n q hq (List.ofFn g)).Wins MDMacCall.input
      (fun q => q.tag (cipherHash h hw iv (fun k => E k) d0 hd0) J k) E := by
  have hB : 0 < (standard h).block := by have := md_sizes h; omega
  have hlen : (streamOf h.policy.blockBits (q.withKey k).ops).length = F.bits + q.message.length := F.length_append k q.ops
  have hpad : streamOf h.policy.blockBits ((q.padded hq).withKey k).ops =
      streamOf h.policy.blockBits (q.withKey k).ops ++ padTail h (F.bits + q.message.length) := by
    show streamOf _ (F.ops k ++ (q.padded hq).ops) = streamOf _ (F.ops k ++ q.ops) ++ _
    rw [streamOf_append, streamOf_append, List.append_assoc]
    exact congrArg (_ ++ ·) (q.padded_message hq)
  let st := (blocks (standard h).block (paddedMessage h (streamOf h.policy.blockBits (q.withKey k).ops))).foldl
    (daviesMeyerAdd h.policy.endian fun k => E k) iv
  have e1 : q.tag (cipherHash h hw iv (fun k => E k) d0 hd0) J k = .ok ((h.policy.endian.arrayView st).take (standard h).digest) :=
    MDCall.digest_eq _ J (q.withKey k)
  have e2 : (q.padded hq).tag (cipherHash h hw iv (fun k => E k) d0 hd0) J k = .ok ((h.policy.endian.arrayView (stateAdder st
      (E (keyOf h w (padTail h (F.bits + q.message.length + (padTail h (F.bits + q.message.length)).length))) st))).take
        (standard h).digest) := by
    refine (MDCall.digest_eq _ J ((q.padded hq).withKey k)).trans (congrArg Except.ok ?_)
    have := mdDigest_extension (h := h) iv (daviesMeyerAdd h.policy.endian fun k => E k) h.policy.endian.arrayView
      (streamOf h.policy.blockBits (q.withKey k).ops) []
    rw [hlen, List.append_nil] at this
    rw [hpad]
    refine this.trans ?_
    unfold resume
    rw [List.nil_append, List.length_nil, Nat.add_zero, List.length_append, hlen,
      blocks_one hB (length_padTail_blocks h (length_padTail h _).1)]
    rfl
  have hl : (h.policy.endian.arrayView st).length = n * w := length_arrayView' _ _
  have hr : List.ofFn (bitsAt (h.policy.endian.arrayView st) (standard h).digest (h.policy.stateBits - (standard h).digest)) =
      (h.policy.endian.arrayView st).drop (standard h).digest := by
    rw [ofFn_bitsAt (by rw [hl]; omega), List.take_of_length_le (by rw [List.length_drop, hl, hw])]
  refine ⟨bitsAt (h.policy.endian.arrayView st) (standard h).digest (h.policy.stateBits - (standard h).digest), ?_⟩
  have hst : readState h w n ((h.policy.endian.arrayView st).take (standard h).digest ++
      (h.policy.endian.arrayView st).drop (standard h).digest) = st := by
    rw [List.take_append_drop]
    exact word_arrayView _ h8 st
  rw [hr]
  have hrun : (prolongGuess h w n q hq ((h.policy.endian.arrayView st).drop (standard h).digest)).outcome MDMacCall.input
      (fun q => q.tag (cipherHash h hw iv (fun k => E k) d0 hd0) J k) E [] = ([q.input], q.padded hq,
      .ok ((h.policy.endian.arrayView (stateAdder st
        (E (keyOf h w (padTail h (F.bits + q.message.length + (padTail h (F.bits + q.message.length)).length))) st))).take
          (standard h).digest)) := by
    unfold prolongGuess
    rw [Forger.outcome, e1]
    dsimp only
    rw [hst]
    rfl
  unfold Forger.Wins
  rw [hrun]
  refine ⟨?_, e2⟩
  intro hm
  have := congrArg (fun m : MDMacMessage F => m.1.length) (List.mem_singleton.1 hm)
  have this : (q.padded hq).message.length = q.message.length := this
  rw [q.padded_message hq, List.length_append] at this
  have hp : 0 < (padTail h (F.bits + q.message.length)).length := by
    have := md_sizes h
    unfold padTail
    rw [List.length_append, List.length_append]
    omega
  omega

theorem exists_chance {Ω G : Type} [Fintype Ω] [Fintype G] [Nonempty Ω] {p : G → Ω → Prop} (hp : ∀ v, ∃ g, p g v) :
    ∃ g, 1 / (Fintype.card G : ℚ) ≤ chance (p g) := by
  classical
  by_contra hno
  push_neg at hno
  obtain ⟨g0, _⟩ := hp (Classical.arbitrary Ω)
  haveI : Nonempty G := ⟨g0⟩
  have hG : (0 : ℚ) < Fintype.card G := Nat.cast_pos.2 Fintype.card_pos
  have hΩ : (0 : ℚ) < Fintype.card Ω := Nat.cast_pos.2 Fintype.card_pos
  have h1 : ∑ g, chance (p g) < 1 := by
    calc ∑ g, chance (p g) < ∑ _g : G, 1 / (Fintype.card G : ℚ) :=
          Finset.sum_lt_sum_of_nonempty Finset.univ_nonempty fun g _ => hno g
      _ = 1 := by rw [Finset.sum_const, Finset.card_univ, nsmul_eq_mul, mul_one_div, div_self hG.ne']
  have h2 : (1 : ℚ) ≤ ∑ g, chance (p g) := by
    unfold chance
    rw [← Finset.sum_div, le_div_iff₀ hΩ, one_mul]
    have : (Finset.univ : Finset Ω) ⊆ Finset.univ.biUnion fun g => Finset.univ.filter (p g) := by
      intro v _
      obtain ⟨g, hg⟩ := hp v
      exact Finset.mem_biUnion.2 ⟨g, Finset.mem_univ _, Finset.mem_filter.2 ⟨Finset.mem_univ _, hg⟩⟩
    have := le_trans (Finset.card_le_card this) Finset.card_biUnion_le
    rw [Finset.card_univ] at this
    calc (Fintype.card Ω : ℚ) ≤ ((∑ g, (Finset.univ.filter (p g)).card : Nat) : ℚ) := Nat.cast_le.2 this
      _ = _ := by push_cast; rfl
  linarith

open Classical in
/-- **C109, other side.** So the code of one message and one cipher query are enough to forge with probability `2^-s`. -/
theorem C109_forgery (h8 : 8 ∣ w) (hw : h.policy.stateBits = n * w) (hd : (standard h).digest ≤ n * w) (iv : Vector (BitVec w) n)
    (d0 : Bits) (hd0 : d0.length = h.policy.digestBits) (J : Injector) [Fintype Key] [Nonempty Key]
    (F : KeyFeed h.policy.blockBits Key) (q : MDMacCall F)
    (hq : F.bits + q.message.length + 2 * (standard h).block ≤ 2 ^ 64) :
    ∃ A : Forger (MDMacCall F) (Except Fault Bits) (Vector (BitVec w) 16) (Vector (BitVec w) n), A.AtMost (fun _ => 1) 3 ∧
      1 / 2 ^ (h.policy.stateBits - (standard h).digest) ≤
        (chance fun v : Key × Cipher (Vector (BitVec w) 16) (Vector (BitVec w) n) =>
          A.Wins MDMacCall.input (fun q => q.tag (cipherHash h hw iv (fun k => v.2 k) d0 hd0) J v.1) v.2) := by
  obtain ⟨g, hg⟩ := exists_chance (Ω := Key × Cipher (Vector (BitVec w) 16) (Vector (BitVec w) n))
    (p := fun (g : Fin (h.policy.stateBits - (standard h).digest) → Bool) v =>
      (prolongGuess h w n q hq (List.ofFn g)).Wins MDMacCall.input
        (fun q => q.tag (cipherHash h hw iv (fun k => v.2 k) d0 hd0) J v.1) v.2)
    fun v => C109_guess h8 hw hd iv d0 hd0 J q hq v.1 v.2
  refine ⟨_, prolongGuess_atMost q hq (List.ofFn g), ?_⟩
  rw [Fintype.card_fun, Fintype.card_bool, Fintype.card_fin] at hg
  push_cast at hg
  exact hg

end

/-! ### Examples -/

/-- A key of 32 octets for SHA-384. -/
def sha384Key : KeyFeed MDHash.sha384.policy.blockBits (Fin 32 → Fin 256) := octetKey _ 32 (by decide) bigOctetBigBit

/-- With `2^40` cipher calls no code of SHA-384 with 32 octets of key is forged but with probability `2^-46`. -/
example (A : Forger (MDMacCall sha384Key) (Except Fault Bits) (Vector (BitVec 64) 16) (Vector (BitVec 64) 8))
    (hA : A.AtMost MDMacCall.cost (2 ^ 40)) :
    (chance fun v : (Fin 32 → Fin 256) × Cipher (Vector (BitVec 64) 16) (Vector (BitVec 64) 8) =>
      A.Wins MDMacCall.input (fun q => q.tag (cipherHash .sha384 (by decide) (Vector.replicate 8 0) (fun k => v.2 k)
        (List.replicate 384 false) (by decide +kernel)) spliceInjector v.1) v.2) ≤ 1 / 2 ^ 46 := by
  have h := C109_unforgeable (h := .sha384) (w := 64) (n := 8) (by decide) (by decide) (by decide) (by decide) (Vector.replicate 8 0)
    (List.replicate 384 false) (by decide +kernel) spliceInjector sha384Key A _ hA
  rw [card_octetKey] at h
  refine le_trans h ?_
  rw [show MDHash.sha384.policy.stateBits - (standard .sha384).digest = 128 from rfl, show (standard .sha384).digest = 192 + 192 from rfl,
    pow_add]
  push_cast
  norm_num

/-- A distinguisher of cost 1: the lowest bit of one code. -/
example (q : MDMacCall sha384Key) (hq : q.cost = 1) :
    (Distinguisher.hash q fun a => .done (match a with | .ok d => d.getD 383 false | _ => false) :
      Distinguisher (MDMacCall sha384Key) (Except Fault Bits) (Vector (BitVec 64) 16) (Vector (BitVec 64) 8)).AtMost MDMacCall.cost 1 :=
  ⟨hq.le, fun _ => trivial⟩

/-- A key of 32 octets for SHA-224 and the empty message. -/
def sha224MacCall : MDMacCall (h := .sha224) (octetKey MDHash.sha224.policy.blockBits 32 (by decide) bigOctetBigBit) where
  garbage := List.replicate 512 true
  ops := []
  length_garbage := List.length_replicate
  wellTyped := fun _ h => absurd h List.not_mem_nil
  noExtract := List.not_mem_nil
  octets := by decide
  short := by decide

/-- Keyed SHA-224 is forged with probability `2^-32`, not `2^-224`. -/
example : ∃ A : Forger (MDMacCall (h := .sha224) (octetKey MDHash.sha224.policy.blockBits 32 (by decide) bigOctetBigBit))
    (Except Fault Bits) (Vector (BitVec 32) 16) (Vector (BitVec 32) 8), A.AtMost (fun _ => 1) 3 ∧
    1 / 2 ^ 32 ≤ (chance fun v : (Fin 32 → Fin 256) × Cipher (Vector (BitVec 32) 16) (Vector (BitVec 32) 8) =>
      A.Wins MDMacCall.input (fun q => q.tag (cipherHash .sha224 (by decide) (Vector.replicate 8 0) (fun k => v.2 k)
        (List.replicate 224 false) (by decide +kernel)) spliceInjector v.1) v.2) :=
  C109_forgery (h := .sha224) (w := 32) (n := 8) (by decide) (by decide) (by decide) (Vector.replicate 8 0)
    (List.replicate 224 false) (by decide +kernel) spliceInjector _ sha224MacCall (by decide)

/-- One of the guesses wins for the key of zeros. -/
example (E : Cipher (Vector (BitVec 32) 16) (Vector (BitVec 32) 8)) :=
  C109_guess (h := .sha224) (w := 32) (n := 8) (by decide) (by decide) (by decide) (Vector.replicate 8 0)
    (List.replicate 224 false) (by decide +kernel) spliceInjector sha224MacCall (by decide) (fun _ => 0) E

end Verif.Props
