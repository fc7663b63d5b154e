import Verif.Props.IdealCipher
import Verif.Props.Birthday
import Verif.Props.BirthdaySponge
import Verif.Props.OwnCipherBirthday
import Verif.Props.UserBirthday
import Verif.Props.RandomPermutation
import Verif.Props.BlakeIdeal
import Verif.Props.RandomPoseidon
import Verif.Props.OwnCipher
import Verif.Props.UserDaviesMeyer
/-
C130: several targets.  The attacker wins if the digest of the message is any member of a set of digests that was fixed before the
primitive was drawn: a list of stolen digests, or the digests with a number of leading zeros (proofs of work).
-/
namespace Verif.Props

open Spec Spec.Ideal Verif.Ideal

/-- The union bound, for one event per target. -/
theorem prob_targets {K X β : Type} [Fintype K] [DecidableEq K] [Fintype X] [DecidableEq X] [DecidableEq β] (T : Finset β)
    (p : β → Cipher K X → Prop) (b : ℚ) (hb : ∀ y ∈ T, prob (p y) ≤ b) : prob (fun E => ∃ y ∈ T, p y E) ≤ T.card * b := by
  classical
  induction T using Finset.induction_on with
  | empty =>
    simp [prob]
  | insert a T ha ih =>
    have h1 := hb a (Finset.mem_insert_self _ _)
    have h2 := ih fun y hy => hb y (Finset.mem_insert_of_mem hy)
    have h3 : prob (fun E => ∃ y ∈ insert a T, p y E) ≤ prob (p a) + prob (fun E => ∃ y ∈ T, p y E) := by
      unfold prob
      rw [← add_div, ← Nat.cast_add]
      refine div_le_div_of_nonneg_right (Nat.cast_le.2 ?_) (Nat.cast_nonneg _)
      refine le_trans (Finset.card_le_card fun E hE => ?_) (Finset.card_union_le _ _)
      simp only [Finset.mem_filter, Finset.mem_univ, true_and, Finset.mem_insert, exists_eq_or_imp, Finset.mem_union] at hE ⊢
      exact hE
    rw [Finset.card_insert_of_notMem ha]
    push_cast
    linarith

section
variable {w n : Nat}

/-- **C130, Davies–Meyer hashes of the library** (SHA-0, SHA-1, SHA-2, MD4, MD5 over a random cipher). -/
theorem C130_davies_meyer (h : MDHash) (h8 : 8 ∣ w) (hw : h.policy.stateBits = n * w)
    (iv : Vector (BitVec w) n) (d0 : Bits) (hd : d0.length = h.policy.digestBits) (J : Injector)
    (A : Attacker (Vector (BitVec w) 16) (Vector (BitVec w) n) (List Op)) (q l : Nat) (hA : A.AtMost q)
    (hq : q + l < 2 ^ (n * w)) (T : Finset Bits) (garbage : Bits) (hgb : garbage.length = h.policy.blockBits) :
    prob (fun E => (∀ op ∈ A.result E, op.WellTyped h.policy.blockBits) ∧ GoodExtracts h.policy.blockBits (GoodMsg h) [] (A.result E) ∧
      GoodMsg h (streamOf h.policy.blockBits (A.result E)) ∧
      (∃ y ∈ T, (do let (a, _) ← runOps ((cipherHash h hw iv (fun k => E k) d0 hd).C J) J
                      (Acc.init ((cipherHash h hw iv (fun k => E k) d0 hd).C J) garbage) [] (A.result E)
                    a.result ((cipherHash h hw iv (fun k => E k) d0 hd).C J)) = .ok y) ∧
      callsFor h (streamOf h.policy.blockBits (A.result E)) ≤ l) ≤
      T.card * (((q + l) * 2 ^ (n * w - (standard h).digest) : ℚ) / (2 ^ (n * w) - (q + l))) := by
  refine le_trans (prob_mono ?_) (prob_targets T _ _ fun y _ => C91_preimage_any h h8 hw iv d0 hd J A q l hA hq y garbage hgb)
  rintro E ⟨h1, h2, h3, ⟨y, hy, h4⟩, h5⟩
  exact ⟨y, hy, h1, h2, h3, h4, h5⟩

end

/-- No forward answer on the way of a message has a forbidden output. -/
theorem clean_targets {K X C D : Type} {cin cout : X → C} {out : X → D} {c0 : C} {ts : List D} {T : List (Entry K X)}
    (h : Clean (SpongeBad cin cout out c0 fun _ => ts) T) {e : Entry K X} (he : Reach cin cout c0 T e) : out e.y ∉ ts := by
  have key : ∀ T : List (Entry K X), Clean (SpongeBad cin cout out c0 fun _ => ts) T → ∀ e ∈ T, e.dir = .enc → out e.y ∉ ts := by
    intro T
    induction T with
    | nil => intro _ e he; cases he
    | cons f T ih =>
      intro h e he hd ho
      rcases List.mem_cons.1 he with rfl | he
      · have hb := h.2.1
        unfold SpongeBad at hb
        rw [hd] at hb
        exact hb (Or.inr ho)
      · exact ih h.1 e he hd ho
  exact key T h e he.mem (reach_enc h he)

theorem sum_targets (q mc mo t : Nat) : ((∑ i ∈ Finset.range q, ((2 * i + 1) * mc + t * mo) : Nat) : ℚ) =
    (q : ℚ) ^ 2 * mc + t * (q * mo) := by
  induction q with
  | zero => simp
  | succ q ih =>
    rw [Finset.sum_range_succ, Nat.cast_add, ih]
    push_cast
    ring

/-- An event that needs two equal inner parts or one of the given outputs. -/
theorem sponge_targets_bound {K X C D : Type} [Fintype K] [DecidableEq K] [Fintype X] [DecidableEq X] [DecidableEq C] [DecidableEq D]
    {R : Type _} {cin cout : X → C} {out : X → D} (c0 : C) {mc mo : Nat}
    (hi : ∀ t, (Finset.univ.filter fun x => cin x = t).card ≤ mc)
    (hc : ∀ t, (Finset.univ.filter fun x => cout x = t).card ≤ mc) (ho : ∀ t, (Finset.univ.filter fun x => out x = t).card ≤ mo)
    (A : Attacker K X R) (q : Nat) (hA : A.AtMost q) (hq : q < Fintype.card X) (ts : List D) (p : Cipher K X → Prop)
    (hp : ∀ E, Clean (SpongeBad cin cout out c0 fun _ => ts) (table E A []) → ¬ p E) :
    prob p ≤ ((q : ℚ) ^ 2 * mc + ts.length * (q * mo)) / ((Fintype.card X : ℚ) - q) := by
  rw [← sum_targets]
  refine le_trans (prob_le _ (fun i => (2 * i + 1) * mc + ts.length * mo) ?_ A q hA hq.le p hp) (bound_le_sum _ hq)
  exact fun T d k v _ => card_spongeBad c0 (fun _ => ts) hi hc ho (g := fun _ => ts.length) (fun T => le_refl _) T d k v

/-- **C130, Keccak and SHA-3** over a random permutation; the term for two equal inner parts does not grow with the set. -/
theorem C130_sponge {d : Nat} (S : SpongeSize d) (JP J : Injector) (k : SpongeKind)
    (A : Attacker Unit Lanes (List Op)) (q l : Nat) (hA : A.AtMost q) (hq : q + l < 2 ^ 1600) (T : Finset Bits) (garbage : Bits)
    (h3 : 3 * d ≤ 1600) (hgb : garbage.length = spongeBlockBits d) :
    prob (fun E => (∀ op ∈ A.result E, op.WellTyped (spongeBlockBits d)) ∧ GoodExtracts (spongeBlockBits d) SpongeGood [] (A.result E) ∧
      SpongeGood (streamOf (spongeBlockBits d) (A.result E)) ∧
      (∃ y ∈ T, (do let (a, _) ← runOps (spongeConstruction k (E ()) d JP) J (Acc.init (spongeConstruction k (E ()) d JP) garbage) []
                      (A.result E)
                    a.result (spongeConstruction k (E ()) d JP)) = .ok y) ∧
      (spongeInput k (spongeBlockBits d) (streamOf (spongeBlockBits d) (A.result E))).length ≤ l) ≤
      ((q + l : ℚ) ^ 2 * 2 ^ (1600 - 2 * d) + T.card * ((q + l) * 2 ^ (1600 - d))) / (2 ^ 1600 - (q + l)) := by
  have hF := S.facts
  have hr : spongeBlockBits d ≤ 1600 := hF.2.2.1
  have hdr : d ≤ spongeBlockBits d := by unfold spongeBlockBits; omega
  let P : List Op → List Bits := fun a => spongeInput k (spongeBlockBits d) (streamOf (spongeBlockBits d) a)
  let f : List Op → Attacker Unit Lanes (List Op) := fun r =>
    if (P r).length ≤ l then absorbing (spongeBlockBits d) (P r) r else .done r
  have hf : ∀ r, (f r).AtMost l := by
    intro r
    show (ite _ _ _ : Attacker _ _ _).AtMost l
    split
    · rename_i hl
      exact atMost_mono (atMost_walk _ _ _ _ _ _) hl
    · trivial
  refine le_trans (sponge_targets_bound (cin := innerPart (spongeBlockBits d)) (cout := innerPart (spongeBlockBits d))
    (out := fun x => (laneString x).take d) (List.replicate (1600 - spongeBlockBits d) false) (card_cap_le hr) (card_cap_le hr)
    (card_out_le d) (andThen A f) (q + l) (atMost_andThen hA hf) (by rw [card_lanes]; exact hq) (T.toList.map flipOctets) _ ?_)
    (le_of_eq (by rw [card_lanes, List.length_map, Finset.length_toList]; push_cast; rfl))
  rintro E hc ⟨hwt, hx, hg, ⟨y, hy, hres⟩, hl⟩
  have hE : SpongeEvaluated (spongeBlockBits d) E ((andThen A f).learns E) (P (A.result E)) := by
    intro i b hi
    rw [learns_andThen]
    refine List.mem_append_right _ ?_
    show _ ∈ (ite _ _ _ : Attacker _ _ _).learns E
    rw [if_pos hl]
    exact evaluated_absorbing _ _ _ E i b hi
  have hAg : Agrees E ([] : List (Entry Unit Lanes)) := by intro e he; cases he
  obtain ⟨a, e, r⟩ := (sponge_verified k (E ()) JP S).extraction J garbage hgb _ hwt
    (Or.inl hg.2) hx hg
  rw [e] at hres
  replace hres : a.result (spongeConstruction k (E ()) d JP) = .ok y := hres
  rw [r] at hres
  have h1 := congrArg flipOctets (Except.ok.inj hres)
  unfold spongeSpec at h1
  rw [flipOctets_flipOctets _ (by rw [length_sponge _ S]; exact hF.2.2.2.1)] at h1
  obtain ⟨x, hx, hs⟩ := reach_prefix hr E (learns_table E (andThen A f) [] hAg) (fun x hx => length_of_mem_blocks hx) hE
    (List.prefix_refl _) (spongeInput_ne_nil hF.1 _ _)
  refine clean_targets hc hx (List.mem_map.2 ⟨y, Finset.mem_toList.2 hy, ?_⟩)
  rw [← h1, hs]
  exact squeeze_take hdr hF.1 _ _ (length_absorbBlocks (length_onStrings _) _) hr

/-- **C130, BLAKE2b** over a random cipher for its rounds. -/
theorem C130_blake2b {nn : Nat} (hnn : nn ≤ 64) (JP J : Injector) (A : Attacker BlakeKey BlakeWork (List Op)) (q l : Nat)
    (hA : A.AtMost q) (hq : q + l < 2 ^ 1024) (T : Finset Bits) (garbage : Bits) (hgb : garbage.length = 1024) :
    prob (fun E => (∀ op ∈ A.result E, op.WellTyped 1024) ∧ GoodExtracts 1024 HaifaGood [] (A.result E) ∧
      (streamOf 1024 (A.result E)).length < 2 ^ 64 ∧
      (∃ y ∈ T, (do let (a, _) ← runOps (blakeConstructionOf (fun k => E k) (8 * nn) JP) J
                      (Acc.init (blakeConstructionOf (fun k => E k) (8 * nn) JP) garbage) [] (A.result E)
                    a.result (blakeConstructionOf (fun k => E k) (8 * nn) JP)) = .ok y) ∧
      (haifaInput 1024 (streamOf 1024 (A.result E))).length ≤ l) ≤
      T.card * (((q + l) * 2 ^ (1024 - 8 * nn) : ℚ) / (2 ^ 1024 - (q + l))) := by
  refine le_trans (prob_mono ?_) (prob_targets T _ _ fun y _ => C93_preimage_any hnn JP J A q l hA hq y garbage hgb)
  rintro E ⟨h1, h2, h3, ⟨y, hy, h4⟩, h5⟩
  exact ⟨y, hy, h1, h2, h3, h4, h5⟩

/-- **C130, Poseidon** over a random permutation. -/
theorem C130_poseidon {F : Type} [CommRing F] [Fintype F] [DecidableEq F] {n : Nat} (hn : 0 < n)
    (A : Attacker Unit (Fin (n + 1) → F) (List F)) (q b : Nat) (hA : A.AtMost q)
    (hq : q + b < Fintype.card F ^ (n + 1)) (T : Finset F) :
    prob (fun E => (∃ y ∈ T, poseidonHash (fun S => .ok (E () S)) (A.result E) = .ok y) ∧
        (Spec.Poseidon.blocks n (A.result E)).length ≤ b) ≤
      ((q + b : ℚ) ^ 2 * Fintype.card F ^ n + T.card * ((q + b) * Fintype.card F ^ n)) / (Fintype.card F ^ (n + 1) - (q + b)) := by
  let f : List F → Attacker Unit (Fin (n + 1) → F) (List F) :=
    fun r => if (Spec.Poseidon.blocks n r).length ≤ b then poseidonChaining (Spec.Poseidon.blocks n r) r else .done r
  have hf : ∀ r, (f r).AtMost b := by
    intro r
    show (ite _ _ _ : Attacker _ _ _).AtMost b
    split
    · rename_i hl
      exact atMost_mono (atMost_walk _ _ _ _ _ _) hl
    · trivial
  refine le_trans (sponge_targets_bound (cin := fun x : Fin (n + 1) → F => x 0) (cout := fun y => y (Fin.last n))
    (out := fun y => y (Fin.last n)) 0 (card_word_le 0) (card_word_le (Fin.last n)) (card_word_le (Fin.last n)) (andThen A f) (q + b)
    (atMost_andThen hA hf) (by rw [card_state]; exact hq) T.toList _ ?_)
    (le_of_eq (by rw [card_state, Finset.length_toList]; push_cast; rfl))
  rintro E hc ⟨⟨y, hy, hd⟩, hl⟩
  have h1 : PoseidonEvaluated E ((andThen A f).learns E) (A.result E) := by
    intro x hx
    rw [learns_andThen]
    refine List.mem_append_right _ ?_
    show _ ∈ (ite _ _ _ : Attacker _ _ _).learns E
    rw [if_pos hl]
    exact evaluated_poseidonChaining _ _ E x hx
  have hAg : Agrees E ([] : List (Entry Unit (Fin (n + 1) → F))) := by intro e he; cases he
  have hT := learns_table E (andThen A f) [] hAg
  rw [C44_digest hn] at hd
  obtain ⟨x, hx, hl⟩ := inputsFrom_last (E ()) _ (poseidon_blocks_ne_nil (n := n) (A.result E)) 0
  obtain ⟨e, r, ex, ey⟩ := reach_inputsFrom E _ 0 (Or.inl rfl) (fun x hx => by
    obtain ⟨e, he, het⟩ := hT _ (h1 x hx)
    exact ⟨e, he, (Prod.mk.inj (Prod.mk.inj het).2).1, (Prod.mk.inj (Prod.mk.inj het).2).2⟩) x hx
  refine clean_targets hc r (Finset.mem_toList.2 ?_)
  show e.y _ ∈ T
  rw [ey, ← hl]
  exact Eq.mpr (congrArg (· ∈ T) (Except.ok.inj hd)) hy

/-- **C130, Tiger** over a random cipher for its passes. -/
theorem C130_tiger (d0 : Bits) (hd : d0.length = 192) (J : Injector)
    (A : Attacker (Vector Tiger.W 8) (Vector Tiger.W 3) (List Op)) (q l : Nat) (hA : A.AtMost q) (hq : q + l < 2 ^ 192)
    (T : Finset Bits) :
    prob (fun E => (∃ y ∈ T, Reaching (tigerFeed.hash rfl (fun k => E k) d0 hd) J y (A.result E)) ∧
      callsFor .tiger192 (streamOf 512 (A.result E)) ≤ l) ≤ T.card * (((q + l) : ℚ) / (2 ^ 192 - (q + l))) := by
  refine le_trans (prob_mono ?_) (prob_targets T _ _ fun y _ => C122_tiger_preimage d0 hd J A q l hA hq y)
  rintro E ⟨⟨y, hy, h4⟩, h5⟩
  exact ⟨y, hy, h4, h5⟩

/-- **C130, RIPEMD-160** over random ciphers for its two lines. -/
theorem C130_ripemd160 (J : Injector) (q l : Nat) (d0 : Bits) (hd : d0.length = 160)
    (A : Attacker (Vector Ripemd.W 16 × Bool) (Vector Ripemd.W 5) (List Op)) (hA : A.AtMost q) (hq : q + l < 2 ^ 160)
    (T : Finset Bits) :
    prob (fun E => (∃ y ∈ T, Reaching (ripemd160Feed.hash rfl (fun k => E k) d0 hd) J y (A.result E)) ∧
      2 * callsFor .ripemd160 (streamOf 512 (A.result E)) ≤ l) ≤ T.card * (((q + l) : ℚ) / (2 ^ 160 - (q + l))) := by
  refine le_trans (prob_mono ?_) (prob_targets T _ _ fun y _ => C122_ripemd160_preimage J q l y d0 hd A hA hq)
  rintro E ⟨⟨y, hy, h4⟩, h5⟩
  exact ⟨y, hy, h4, h5⟩

/-- **C130, RIPEMD-128.** -/
theorem C130_ripemd128 (J : Injector) (q l : Nat) (d0 : Bits) (hd : d0.length = 128)
    (A : Attacker (Vector Ripemd.W 16 × Bool) (Vector Ripemd.W 4) (List Op)) (hA : A.AtMost q) (hq : q + l < 2 ^ 128)
    (T : Finset Bits) :
    prob (fun E => (∃ y ∈ T, Reaching (ripemd128Feed.hash rfl (fun k => E k) d0 hd) J y (A.result E)) ∧
      2 * callsFor .ripemd128 (streamOf 512 (A.result E)) ≤ l) ≤ T.card * (((q + l) : ℚ) / (2 ^ 128 - (q + l))) := by
  refine le_trans (prob_mono ?_) (prob_targets T _ _ fun y _ => C122_ripemd128_preimage J q l y d0 hd A hA hq)
  rintro E ⟨⟨y, hy, h4⟩, h5⟩
  exact ⟨y, hy, h4, h5⟩

/-- **C130, RIPEMD-256** over a random cipher for both lines together. -/
theorem C130_ripemd256 (J : Injector) (q l : Nat) (d0 : Bits) (hd : d0.length = 256)
    (A : Attacker (Vector Ripemd.W 16) (Vector Ripemd.W 8) (List Op)) (hA : A.AtMost q) (hq : q + l < 2 ^ 256) (T : Finset Bits) :
    prob (fun E => (∃ y ∈ T, Reaching (ripemd256Feed.hash rfl (fun k => E k) d0 hd) J y (A.result E)) ∧
      callsFor .ripemd256 (streamOf 512 (A.result E)) ≤ l) ≤ T.card * (((q + l) : ℚ) / (2 ^ 256 - (q + l))) := by
  refine le_trans (prob_mono ?_) (prob_targets T _ _ fun y _ => C122_ripemd256_preimage J q l y d0 hd A hA hq)
  rintro E ⟨⟨y, hy, h4⟩, h5⟩
  exact ⟨y, hy, h4, h5⟩

/-- **C130, RIPEMD-320.** -/
theorem C130_ripemd320 (J : Injector) (q l : Nat) (d0 : Bits) (hd : d0.length = 320)
    (A : Attacker (Vector Ripemd.W 16) (Vector Ripemd.W 10) (List Op)) (hA : A.AtMost q) (hq : q + l < 2 ^ 320) (T : Finset Bits) :
    prob (fun E => (∃ y ∈ T, Reaching (ripemd320Feed.hash rfl (fun k => E k) d0 hd) J y (A.result E)) ∧
      callsFor .ripemd320 (streamOf 512 (A.result E)) ≤ l) ≤ T.card * (((q + l) : ℚ) / (2 ^ 320 - (q + l))) := by
  refine le_trans (prob_mono ?_) (prob_targets T _ _ fun y _ => C122_ripemd320_preimage J q l y d0 hd A hA hq)
  rintro E ⟨⟨y, hy, h4⟩, h5⟩
  exact ⟨y, hy, h4, h5⟩

/-- **C130, Davies–Meyer hashes over any cipher.** -/
theorem C130_user {w n k L d : Nat} {e : Endian} {d0 : Bits} (S : CipherSizes w n k L d e d0) (iv : Vector (BitVec w) n) (J : Injector)
    (A : Attacker (Vector (BitVec w) k) (Vector (BitVec w) n) (List Op)) (q l : Nat) (hA : A.AtMost q)
    (hq : q + l < 2 ^ (n * w)) (T : Finset Bits) :
    prob (fun E : Cipher (Vector (BitVec w) k) (Vector (BitVec w) n) =>
      (∃ y ∈ T, UserPreimage (daviesMeyerHash (fun k => E k) L d e iv d0) J y (A.result E)) ∧
      dmCalls w k L e (streamOf (k * w) (A.result E)) ≤ l) ≤
      T.card * (((q + l) * 2 ^ (n * w - d) : ℚ) / (2 ^ (n * w) - (q + l))) := by
  refine le_trans (prob_mono ?_) (prob_targets T _ _ fun y _ => C127_preimage S iv J A q l hA hq y)
  rintro E ⟨⟨y, hy, h4⟩, h5⟩
  exact ⟨y, hy, h4, h5⟩

/-! ### Proofs of work -/

/-- The digests of `d` bits that begin with the bits `p`. -/
def beginningWith (d : Nat) (p : Bits) : Finset Bits :=
  (Finset.univ : Finset (Fin (d - p.length) → Bool)).image fun f => p ++ List.ofFn f

theorem mem_beginningWith {d : Nat} {p : Bits} (hz : p.length ≤ d) (y : Bits) : y ∈ beginningWith d p ↔ y.length = d ∧ p <+: y := by
  unfold beginningWith
  rw [Finset.mem_image]
  constructor
  · rintro ⟨f, -, rfl⟩
    exact ⟨by simp; omega, List.prefix_append _ _⟩
  · rintro ⟨hl, t, rfl⟩
    have ht : t.length = d - p.length := by rw [← hl]; simp
    refine ⟨fun i => t[i.1]'(by rw [ht]; exact i.2), Finset.mem_univ _, ?_⟩
    congr 1
    apply List.ext_getElem
    · simp [ht]
    · intro i h1 h2
      simp

theorem card_beginningWith (d : Nat) (p : Bits) : (beginningWith d p).card = 2 ^ (d - p.length) := by
  unfold beginningWith
  rw [Finset.card_image_of_injective]
  · simp
  · intro f g hfg
    exact List.ofFn_injective (List.append_cancel_left hfg)

/-- The bound for the digests with a given beginning: the length of the digest cancels. -/
theorem prefix_bound {N d z : Nat} (hz : z ≤ d) (hd : d ≤ N) (a b : ℚ) :
    ((2 ^ (d - z) : Nat) : ℚ) * ((a * 2 ^ (N - d)) / b) = (a * 2 ^ (N - z)) / b := by
  have : N - z = (d - z) + (N - d) := by omega
  rw [this, pow_add]
  push_cast
  ring

section
variable {w n : Nat}

/-- **C130, proofs of work.** The digest begins with given bits, for example with zeros, with probability at most `(q + l)` times
two to the minus their number, up to the usual factor. -/
theorem C130_prefix (h : MDHash) (h8 : 8 ∣ w) (hw : h.policy.stateBits = n * w) (hfit : (standard h).digest ≤ n * w)
    (iv : Vector (BitVec w) n) (d0 : Bits) (hd : d0.length = h.policy.digestBits) (J : Injector)
    (A : Attacker (Vector (BitVec w) 16) (Vector (BitVec w) n) (List Op)) (q l : Nat) (hA : A.AtMost q)
    (hq : q + l < 2 ^ (n * w)) (p : Bits) (hp : p.length ≤ (standard h).digest) (garbage : Bits)
    (hgb : garbage.length = h.policy.blockBits) :
    prob (fun E => (∀ op ∈ A.result E, op.WellTyped h.policy.blockBits) ∧ GoodExtracts h.policy.blockBits (GoodMsg h) [] (A.result E) ∧
      GoodMsg h (streamOf h.policy.blockBits (A.result E)) ∧
      (∃ y, p <+: y ∧ (do let (a, _) ← runOps ((cipherHash h hw iv (fun k => E k) d0 hd).C J) J
                            (Acc.init ((cipherHash h hw iv (fun k => E k) d0 hd).C J) garbage) [] (A.result E)
                          a.result ((cipherHash h hw iv (fun k => E k) d0 hd).C J)) = .ok y) ∧
      callsFor h (streamOf h.policy.blockBits (A.result E)) ≤ l) ≤
      ((q + l) * 2 ^ (n * w - p.length) : ℚ) / (2 ^ (n * w) - (q + l)) := by
  refine le_trans (prob_mono ?_) (le_trans (C130_davies_meyer h h8 hw iv d0 hd J A q l hA hq (beginningWith (standard h).digest p)
    garbage hgb) (le_of_eq ?_))
  · rintro E ⟨hwt, hx, hg, ⟨y, hy, hres⟩, hl⟩
    refine ⟨hwt, hx, hg, ⟨y, (mem_beginningWith hp y).2 ⟨?_, hy⟩, hres⟩, hl⟩
    obtain ⟨a, e, r⟩ := (cipherHash h hw iv (fun k => E k) d0 hd).runOps J (A.result E) hwt
      ((cipherHash h hw iv (fun k => E k) d0 hd).init J garbage hgb) hx []
    rw [e] at hres
    change a.result ((cipherHash h hw iv (fun k => E k) d0 hd).C J) = .ok y at hres
    rw [List.nil_append] at r
    rw [(cipherHash h hw iv (fun k => E k) d0 hd).computes J a _ r hg] at hres
    injection hres with hres
    rw [← hres]
    show ((h.policy.endian.arrayView _).take _).length = _
    rw [List.length_take, length_arrayView', Nat.min_eq_left hfit]
  · rw [card_beginningWith, prefix_bound hp hfit]

end

/-- **C130, proofs of work with a hash over any cipher.** -/
theorem C130_user_prefix {w n k L d : Nat} {e : Endian} {d0 : Bits} (S : CipherSizes w n k L d e d0) (iv : Vector (BitVec w) n)
    (J : Injector) (A : Attacker (Vector (BitVec w) k) (Vector (BitVec w) n) (List Op)) (q l : Nat) (hA : A.AtMost q)
    (hq : q + l < 2 ^ (n * w)) (p : Bits) (hp : p.length ≤ d) :
    prob (fun E : Cipher (Vector (BitVec w) k) (Vector (BitVec w) n) =>
      (∃ y, p <+: y ∧ UserPreimage (daviesMeyerHash (fun k => E k) L d e iv d0) J y (A.result E)) ∧
      dmCalls w k L e (streamOf (k * w) (A.result E)) ≤ l) ≤
      ((q + l) * 2 ^ (n * w - p.length) : ℚ) / (2 ^ (n * w) - (q + l)) := by
  refine le_trans (prob_mono ?_) (le_trans (C130_user S iv J A q l hA hq (beginningWith d p)) (le_of_eq ?_))
  · rintro E ⟨⟨y, hy, hP⟩, hl⟩
    refine ⟨⟨y, (mem_beginningWith hp y).2 ⟨?_, hy⟩, hP⟩, hl⟩
    obtain ⟨gb, hgb, hdig⟩ := hP.digest
    obtain ⟨a, e1, r⟩ := C125_hash (S.args (fun k => E k) iv) J gb hgb _ hP.wellTyped hP.extracts hP.short
    rw [e1] at hdig
    change a.result ((daviesMeyerHash (fun k => E k) L d e iv d0).constructionU J) = _ at hdig
    rw [r] at hdig
    injection hdig with hdig
    rw [← hdig]
    show ((e.arrayView _).take d).length = _
    rw [List.length_take, length_arrayView', Nat.min_eq_left S.digestFits]
  · rw [card_beginningWith, prefix_bound hp S.digestFits]

/-- **C130, proofs of work with Keccak and SHA-3.** -/
theorem C130_sponge_prefix {d : Nat} (S : SpongeSize d) (JP J : Injector) (k : SpongeKind)
    (A : Attacker Unit Lanes (List Op)) (q l : Nat) (hA : A.AtMost q) (hq : q + l < 2 ^ 1600) (p : Bits) (hp : p.length ≤ d)
    (garbage : Bits) (h3 : 3 * d ≤ 1600) (hgb : garbage.length = spongeBlockBits d) :
    prob (fun E => (∀ op ∈ A.result E, op.WellTyped (spongeBlockBits d)) ∧ GoodExtracts (spongeBlockBits d) SpongeGood [] (A.result E) ∧
      SpongeGood (streamOf (spongeBlockBits d) (A.result E)) ∧
      (∃ y, p <+: y ∧ (do let (a, _) ← runOps (spongeConstruction k (E ()) d JP) J (Acc.init (spongeConstruction k (E ()) d JP) garbage)
                            [] (A.result E)
                          a.result (spongeConstruction k (E ()) d JP)) = .ok y) ∧
      (spongeInput k (spongeBlockBits d) (streamOf (spongeBlockBits d) (A.result E))).length ≤ l) ≤
      ((q + l : ℚ) ^ 2 * 2 ^ (1600 - 2 * d) + (q + l) * 2 ^ (1600 - p.length)) / (2 ^ 1600 - (q + l)) := by
  have hpow : 1600 - p.length = (d - p.length) + (1600 - d) := by omega
  refine le_trans (prob_mono ?_) (le_trans (C130_sponge S JP J k A q l hA hq (beginningWith d p) garbage h3 hgb) (le_of_eq ?_))
  · rintro E ⟨hwt, hx, hg, ⟨y, hy, hres⟩, hl⟩
    refine ⟨hwt, hx, hg, ⟨y, (mem_beginningWith hp y).2 ⟨?_, hy⟩, hres⟩, hl⟩
    obtain ⟨a, e, r⟩ := (sponge_verified k (E ()) JP S).extraction J garbage hgb _ hwt (Or.inl hg.2) hx hg
    rw [e] at hres
    replace hres : a.result (spongeConstruction k (E ()) d JP) = .ok y := hres
    rw [r] at hres
    rw [← Except.ok.inj hres]
    unfold spongeSpec
    rw [length_flipOctets, length_sponge _ S]
  · rw [card_beginningWith, hpow, pow_add]
    push_cast
    congr 1
    ring

/-- **C130, proofs of work with BLAKE2b.** -/
theorem C130_blake2b_prefix {nn : Nat} (hnn : nn ≤ 64) (JP J : Injector) (A : Attacker BlakeKey BlakeWork (List Op)) (q l : Nat)
    (hA : A.AtMost q) (hq : q + l < 2 ^ 1024) (p : Bits) (hp : p.length ≤ 8 * nn) (garbage : Bits) (hgb : garbage.length = 1024) :
    prob (fun E => (∀ op ∈ A.result E, op.WellTyped 1024) ∧ GoodExtracts 1024 HaifaGood [] (A.result E) ∧
      (streamOf 1024 (A.result E)).length < 2 ^ 64 ∧
      (∃ y, p <+: y ∧ (do let (a, _) ← runOps (blakeConstructionOf (fun k => E k) (8 * nn) JP) J
                            (Acc.init (blakeConstructionOf (fun k => E k) (8 * nn) JP) garbage) [] (A.result E)
                          a.result (blakeConstructionOf (fun k => E k) (8 * nn) JP)) = .ok y) ∧
      (haifaInput 1024 (streamOf 1024 (A.result E))).length ≤ l) ≤
      ((q + l) * 2 ^ (1024 - p.length) : ℚ) / (2 ^ 1024 - (q + l)) := by
  refine le_trans (prob_mono ?_) (le_trans (C130_blake2b hnn JP J A q l hA hq (beginningWith (8 * nn) p) garbage hgb) (le_of_eq ?_))
  · rintro E ⟨hwt, hx, hlt, ⟨y, hy, hres⟩, hl⟩
    refine ⟨hwt, hx, hlt, ⟨y, (mem_beginningWith hp y).2 ⟨?_, hy⟩, hres⟩, hl⟩
    rw [blakeOf_result _ hnn JP J garbage hgb _ hwt hx hlt] at hres
    rw [← Except.ok.inj hres, List.length_take, length_arrayView']
    omega
  · rw [card_beginningWith, prefix_bound hp (by omega)]

/-- A digest that is reached has the length of the digests of the hash. -/
theorem length_of_reaching {h : MDHash} {σ : Type} {I : MDInst h σ} {J : Injector} {y : Bits} {ops : List Op}
    (hfit : (standard h).digest ≤ h.policy.stateBits) (hR : Reaching I J y ops) : y.length = (standard h).digest := by
  obtain ⟨garbage, hgb, hres⟩ := hR.digest
  obtain ⟨a, e, r⟩ := I.runOps J ops hR.wellTyped (I.init J garbage hgb) hR.extracts []
  rw [e] at hres
  change a.result (I.C J) = .ok y at hres
  rw [List.nil_append] at r
  rw [I.computes J a _ r hR.good] at hres
  rw [← Except.ok.inj hres]
  unfold MDInst.spec mdDigest
  rw [List.length_take, I.length_view, Nat.min_eq_left hfit]

theorem prefix_bound_full {d z : Nat} (hz : z ≤ d) (a b : ℚ) : ((2 ^ (d - z) : Nat) : ℚ) * (a / b) = (a * 2 ^ (d - z)) / b := by
  push_cast
  ring

/-- **C130, proofs of work with Tiger.** -/
theorem C130_tiger_prefix (J : Injector) (q l : Nat) (d0 : Bits) (hd : d0.length = 192)
    (A : Attacker (Vector Tiger.W 8) (Vector Tiger.W 3) (List Op)) (hA : A.AtMost q) (hq : q + l < 2 ^ 192)
    (p : Bits) (hp : p.length ≤ 192) :
    prob (fun E => (∃ y, p <+: y ∧ Reaching (tigerFeed.hash rfl (fun k => E k) d0 hd) J y (A.result E)) ∧
      callsFor .tiger192 (streamOf 512 (A.result E)) ≤ l) ≤ ((q + l) * 2 ^ (192 - p.length) : ℚ) / (2 ^ 192 - (q + l)) := by
  refine le_trans (prob_mono ?_) (le_trans (C130_tiger d0 hd J A q l hA hq (beginningWith 192 p)) (le_of_eq ?_))
  · rintro E ⟨⟨y, hy, hR⟩, hl⟩
    exact ⟨⟨y, (mem_beginningWith hp y).2 ⟨length_of_reaching (by decide) hR, hy⟩, hR⟩, hl⟩
  · rw [card_beginningWith, prefix_bound_full hp]

/-- **C130, proofs of work with RIPEMD-128.** -/
theorem C130_ripemd128_prefix (J : Injector) (q l : Nat) (d0 : Bits) (hd : d0.length = 128)
    (A : Attacker (Vector Ripemd.W 16 × Bool) (Vector Ripemd.W 4) (List Op)) (hA : A.AtMost q) (hq : q + l < 2 ^ 128)
    (p : Bits) (hp : p.length ≤ 128) :
    prob (fun E => (∃ y, p <+: y ∧ Reaching (ripemd128Feed.hash rfl (fun k => E k) d0 hd) J y (A.result E)) ∧
      2 * callsFor .ripemd128 (streamOf 512 (A.result E)) ≤ l) ≤ ((q + l) * 2 ^ (128 - p.length) : ℚ) / (2 ^ 128 - (q + l)) := by
  refine le_trans (prob_mono ?_) (le_trans (C130_ripemd128 J q l d0 hd A hA hq (beginningWith 128 p)) (le_of_eq ?_))
  · rintro E ⟨⟨y, hy, hR⟩, hl⟩
    exact ⟨⟨y, (mem_beginningWith hp y).2 ⟨length_of_reaching (by decide) hR, hy⟩, hR⟩, hl⟩
  · rw [card_beginningWith, prefix_bound_full hp]

/-- **C130, proofs of work with RIPEMD-160.** -/
theorem C130_ripemd160_prefix (J : Injector) (q l : Nat) (d0 : Bits) (hd : d0.length = 160)
    (A : Attacker (Vector Ripemd.W 16 × Bool) (Vector Ripemd.W 5) (List Op)) (hA : A.AtMost q) (hq : q + l < 2 ^ 160)
    (p : Bits) (hp : p.length ≤ 160) :
    prob (fun E => (∃ y, p <+: y ∧ Reaching (ripemd160Feed.hash rfl (fun k => E k) d0 hd) J y (A.result E)) ∧
      2 * callsFor .ripemd160 (streamOf 512 (A.result E)) ≤ l) ≤ ((q + l) * 2 ^ (160 - p.length) : ℚ) / (2 ^ 160 - (q + l)) := by
  refine le_trans (prob_mono ?_) (le_trans (C130_ripemd160 J q l d0 hd A hA hq (beginningWith 160 p)) (le_of_eq ?_))
  · rintro E ⟨⟨y, hy, hR⟩, hl⟩
    exact ⟨⟨y, (mem_beginningWith hp y).2 ⟨length_of_reaching (by decide) hR, hy⟩, hR⟩, hl⟩
  · rw [card_beginningWith, prefix_bound_full hp]

/-- **C130, proofs of work with RIPEMD-256.** -/
theorem C130_ripemd256_prefix (J : Injector) (q l : Nat) (d0 : Bits) (hd : d0.length = 256)
    (A : Attacker (Vector Ripemd.W 16) (Vector Ripemd.W 8) (List Op)) (hA : A.AtMost q) (hq : q + l < 2 ^ 256)
    (p : Bits) (hp : p.length ≤ 256) :
    prob (fun E => (∃ y, p <+: y ∧ Reaching (ripemd256Feed.hash rfl (fun k => E k) d0 hd) J y (A.result E)) ∧
      callsFor .ripemd256 (streamOf 512 (A.result E)) ≤ l) ≤ ((q + l) * 2 ^ (256 - p.length) : ℚ) / (2 ^ 256 - (q + l)) := by
  refine le_trans (prob_mono ?_) (le_trans (C130_ripemd256 J q l d0 hd A hA hq (beginningWith 256 p)) (le_of_eq ?_))
  · rintro E ⟨⟨y, hy, hR⟩, hl⟩
    exact ⟨⟨y, (mem_beginningWith hp y).2 ⟨length_of_reaching (by decide) hR, hy⟩, hR⟩, hl⟩
  · rw [card_beginningWith, prefix_bound_full hp]

/-- **C130, proofs of work with RIPEMD-320.** -/
theorem C130_ripemd320_prefix (J : Injector) (q l : Nat) (d0 : Bits) (hd : d0.length = 320)
    (A : Attacker (Vector Ripemd.W 16) (Vector Ripemd.W 10) (List Op)) (hA : A.AtMost q) (hq : q + l < 2 ^ 320)
    (p : Bits) (hp : p.length ≤ 320) :
    prob (fun E => (∃ y, p <+: y ∧ Reaching (ripemd320Feed.hash rfl (fun k => E k) d0 hd) J y (A.result E)) ∧
      callsFor .ripemd320 (streamOf 512 (A.result E)) ≤ l) ≤ ((q + l) * 2 ^ (320 - p.length) : ℚ) / (2 ^ 320 - (q + l)) := by
  refine le_trans (prob_mono ?_) (le_trans (C130_ripemd320 J q l d0 hd A hA hq (beginningWith 320 p)) (le_of_eq ?_))
  · rintro E ⟨⟨y, hy, hR⟩, hl⟩
    exact ⟨⟨y, (mem_beginningWith hp y).2 ⟨length_of_reaching (by decide) hR, hy⟩, hR⟩, hl⟩
  · rw [card_beginningWith, prefix_bound_full hp]

/-! ### Exhaustive search -/

open Classical in
/-- One of `q` random strings of `d` bits is in the set. -/
theorem card_hits (d q : Nat) (T : Finset Bits) (hT : ∀ y ∈ T, y.length = d) :
    ((Finset.univ.filter fun t : Fin q → Fin d → Bool =>
      ∃ i, ∃ y ∈ T, (Except.ok (List.ofFn (t i)) : Except Fault Bits) = .ok y).card : ℚ) / 2 ^ (d * q) =
      1 - (1 - (T.card : ℚ) / 2 ^ d) ^ q := by
  have e : (Finset.univ.filter fun t : Fin q → Fin d → Bool =>
      ∃ i, ∃ y ∈ T, (Except.ok (List.ofFn (t i)) : Except Fault Bits) = .ok y) =
      Finset.univ.filter fun t => ¬ ∀ i, List.ofFn (t i) ∉ T := by
    ext t
    simp only [Finset.mem_filter, Finset.mem_univ, true_and]
    push Not
    exact ⟨fun ⟨i, y, hy, e⟩ => ⟨i, by rw [Except.ok.inj e]; exact hy⟩, fun ⟨i, e⟩ => ⟨i, _, e, rfl⟩⟩
  have hin : (Finset.univ.filter fun u : Fin d → Bool => List.ofFn u ∈ T).card = T.card := by
    refine Finset.card_bij (fun u _ => List.ofFn u) (fun u hu => (Finset.mem_filter.1 hu).2)
      (fun u _ v _ huv => List.ofFn_injective huv) fun y hy => ?_
    have hl := hT y hy
    subst hl
    exact ⟨fun i => y[i.1], Finset.mem_filter.2 ⟨Finset.mem_univ _, by rw [List.ofFn_getElem]; exact hy⟩, List.ofFn_getElem⟩
  have hadd := Finset.card_filter_add_card_filter_not (s := Finset.univ) (fun u : Fin d → Bool => List.ofFn u ∈ T)
  rw [hin, Finset.card_univ, card_strings] at hadd
  have e2 : (Finset.univ.filter fun t : Fin q → Fin d → Bool => ∀ i, List.ofFn (t i) ∉ T).card =
      (Finset.univ.filter fun u : Fin d → Bool => ¬ List.ofFn u ∈ T).card ^ q := by
    have : (Finset.univ.filter fun t : Fin q → Fin d → Bool => ∀ i, List.ofFn (t i) ∉ T) =
        Fintype.piFinset fun _ : Fin q => Finset.univ.filter fun u : Fin d → Bool => ¬ List.ofFn u ∈ T := by
      ext t
      simp [Fintype.mem_piFinset]
    rw [this, Fintype.card_piFinset, Finset.prod_const, Finset.card_univ, Fintype.card_fin]
  have e3 := Finset.card_filter_add_card_filter_not (s := Finset.univ) (fun t : Fin q → Fin d → Bool => ∀ i, List.ofFn (t i) ∉ T)
  rw [Finset.card_univ, Fintype.card_fun, card_strings, Fintype.card_fin, e2, ← pow_mul] at e3
  have e4 : ((Finset.univ.filter fun u : Fin d → Bool => ¬ List.ofFn u ∈ T).card : ℚ) = (2 : ℚ) ^ d - T.card := by
    rw [eq_sub_iff_add_eq, add_comm]
    exact_mod_cast hadd
  have hpos : (2 : ℚ) ^ d ≠ 0 := by positivity
  have e5 : 1 - (T.card : ℚ) / 2 ^ d = ((2 : ℚ) ^ d - T.card) / 2 ^ d := by rw [sub_div, div_self hpos]
  rw [e, e5, div_pow, ← pow_mul, eq_sub_iff_add_eq, ← add_div, div_eq_one_iff_eq (by positivity), add_comm, ← e4]
  exact_mod_cast e3

section
variable {w n q : Nat}

open Classical in
/-- **C130, exhaustive search.** The exact probability that one of `q` different messages of one block has a digest in the set. -/
theorem C130_search (h : MDHash) (h8 : 8 ∣ w) (hw : h.policy.stateBits = n * w) (hb : (standard h).block = 16 * w)
    (iv : Vector (BitVec w) n) (d0 : Bits) (hd0 : d0.length = h.policy.digestBits) (J : Injector)
    (c : Fin q → MDCall h) (h1 : ∀ i, (c i).cost = 1) (hne : Function.Injective fun i => (c i).message.1)
    (T : Finset Bits) (hT : ∀ y ∈ T, y.length = (standard h).digest) :
    prob (fun E => ∃ i, ∃ y ∈ T, (c i).digest (cipherHash h hw iv (fun k => E k) d0 hd0) J = .ok y) =
      1 - (1 - (T.card : ℚ) / 2 ^ (standard h).digest) ^ q := by
  have key := C118_law h h8 hw hb iv d0 hd0 J c h1 hne fun t => ∃ i, ∃ y ∈ T, t i = .ok y
  rw [key]
  exact card_hits _ _ T hT

/-- **C130, the work.** One of `q` different messages of one block has a digest that begins with the bits `p` with probability
exactly `1 - (1 - 2^-z)^q`. -/
theorem C130_work (h : MDHash) (h8 : 8 ∣ w) (hw : h.policy.stateBits = n * w) (hb : (standard h).block = 16 * w)
    (iv : Vector (BitVec w) n) (d0 : Bits) (hd0 : d0.length = h.policy.digestBits) (J : Injector)
    (c : Fin q → MDCall h) (h1 : ∀ i, (c i).cost = 1) (hne : Function.Injective fun i => (c i).message.1)
    (p : Bits) (hp : p.length ≤ (standard h).digest) :
    prob (fun E => ∃ i, ∃ y, p <+: y ∧ (c i).digest (cipherHash h hw iv (fun k => E k) d0 hd0) J = .ok y) =
      1 - (1 - 1 / (2 : ℚ) ^ p.length) ^ q := by
  have hd := digest_le_state h hw
  have key := C130_search h h8 hw hb iv d0 hd0 J c h1 hne (beginningWith (standard h).digest p)
    fun y hy => ((mem_beginningWith hp y).1 hy).1
  have hpow : (2 : ℚ) ^ (standard h).digest = 2 ^ ((standard h).digest - p.length) * 2 ^ p.length := by
    rw [← pow_add]
    congr 1
    omega
  rw [card_beginningWith, hpow] at key
  push_cast at key
  rw [← div_div, div_self (by positivity)] at key
  rw [← key]
  congr 1
  funext E
  refine propext ⟨?_, ?_⟩
  · rintro ⟨i, y, hy, e⟩
    refine ⟨i, y, (mem_beginningWith hp y).2 ⟨?_, hy⟩, e⟩
    have e' := e
    rw [digest_single hw hd iv d0 hd0 J E (h1 i)] at e'
    rw [← Except.ok.inj e', List.length_ofFn]
  · rintro ⟨i, y, hy, e⟩
    exact ⟨i, y, ((mem_beginningWith hp y).1 hy).2, e⟩

end

open Classical in
/-- One of `q` random strings of `d` bits begins with the bits `p`. -/
theorem card_prefix_hits (d q : Nat) (p : Bits) (hp : p.length ≤ d) :
    ((Finset.univ.filter fun t : Fin q → Fin d → Bool =>
      ∃ i, ∃ y, p <+: y ∧ (Except.ok (List.ofFn (t i)) : Except Fault Bits) = .ok y).card : ℚ) / 2 ^ (d * q) =
      1 - (1 - 1 / (2 : ℚ) ^ p.length) ^ q := by
  have key := card_hits d q (beginningWith d p) fun y hy => ((mem_beginningWith hp y).1 hy).1
  have hpow : (2 : ℚ) ^ d = 2 ^ (d - p.length) * 2 ^ p.length := by
    rw [← pow_add]
    congr 1
    omega
  rw [card_beginningWith, hpow] at key
  push_cast at key
  rw [← div_div, div_self (by positivity)] at key
  rw [← key]
  refine congrArg (fun x : Nat => (x : ℚ) / _) (congrArg Finset.card (Finset.filter_congr fun t _ => ?_))
  constructor
  · rintro ⟨i, y, hy, e⟩
    exact ⟨i, y, (mem_beginningWith hp y).2 ⟨by rw [← Except.ok.inj e, List.length_ofFn], hy⟩, e⟩
  · rintro ⟨i, y, hy, e⟩
    exact ⟨i, y, ((mem_beginningWith hp y).1 hy).2, e⟩

section
variable {q : Nat}

open Classical in
/-- **C130, the work with BLAKE2b.** -/
theorem C130_blake2b_work {nn : Nat} (hnn : nn ≤ 64) (JP J : Injector) (c : Fin q → BlakeCall) (h1 : ∀ i, (c i).cost = 1) {len : Nat}
    (hl : ∀ i, (streamOf 1024 (c i).ops).length = len) (hne : Function.Injective fun i => (c i).message.1)
    (p : Bits) (hp : p.length ≤ 8 * nn) :
    prob (fun E => ∃ i, ∃ y, p <+: y ∧ (c i).digest (fun k => E k) nn JP J = .ok y) = 1 - (1 - 1 / (2 : ℚ) ^ p.length) ^ q := by
  have key := C119_blake_law hnn JP J c h1 hl hne fun t => ∃ i, ∃ y, p <+: y ∧ t i = .ok y
  rw [key]
  refine Eq.trans ?_ (card_prefix_hits (8 * nn) q p hp)
  congr!

open Classical in
/-- **C130, the work with a hash over any cipher.** -/
theorem C130_user_work {w n k L d : Nat} {e : Endian} {d0 : Bits} (S : CipherSizes w n k L d e d0) (iv : Vector (BitVec w) n)
    (J : Injector) (c : Fin q → List Op) (garbage : Fin q → Bits) (hgb : ∀ i, (garbage i).length = k * w)
    (h1 : ∀ i, OneBlock w k L (c i)) (hne : Function.Injective fun i => streamOf (k * w) (c i)) (p : Bits) (hp : p.length ≤ d) :
    prob (fun E : Cipher (Vector (BitVec w) k) (Vector (BitVec w) n) =>
      ∃ i, ∃ y, p <+: y ∧ libraryDigest (daviesMeyerHash (fun k => E k) L d e iv d0) J (garbage i) (c i) = .ok y) =
      1 - (1 - 1 / (2 : ℚ) ^ p.length) ^ q := by
  have key := C128_law S iv J c garbage hgb h1 hne fun t => ∃ i, ∃ y, p <+: y ∧ t i = .ok y
  rw [key]
  refine Eq.trans ?_ (card_prefix_hits d q p hp)
  congr!

open Classical in
/-- **C130, the work with Tiger.** -/
theorem C130_tiger_work (d0 : Bits) (hd : d0.length = 192) (J : Injector) (c : Fin q → MDCall .tiger192) (h1 : ∀ i, (c i).cost = 1)
    (hne : Function.Injective fun i => (c i).message.1) (p : Bits) (hp : p.length ≤ 192) :
    prob (fun E => ∃ i, ∃ y, p <+: y ∧ (c i).digest (tigerFeed.hash rfl (fun k => E k) d0 hd) J = .ok y) =
      1 - (1 - 1 / (2 : ℚ) ^ p.length) ^ q := by
  have key := C124_tiger_law d0 hd J c h1 hne fun t => ∃ i, ∃ y, p <+: y ∧ t i = .ok y
  rw [key]
  exact card_prefix_hits 192 q p hp

open Classical in
/-- **C130, the work with RIPEMD-128.** -/
theorem C130_ripemd128_work (d0 : Bits) (hd : d0.length = 128) (J : Injector) (c : Fin q → MDCall .ripemd128) (h1 : ∀ i, (c i).cost = 1)
    (hne : Function.Injective fun i => (c i).message.1) (p : Bits) (hp : p.length ≤ 128) :
    prob (fun E => ∃ i, ∃ y, p <+: y ∧ (c i).digest (ripemd128Feed.hash rfl (fun k => E k) d0 hd) J = .ok y) =
      1 - (1 - 1 / (2 : ℚ) ^ p.length) ^ q := by
  have key := C124_ripemd128_law d0 hd J c h1 hne fun t => ∃ i, ∃ y, p <+: y ∧ t i = .ok y
  rw [key]
  exact card_prefix_hits 128 q p hp

open Classical in
/-- **C130, the work with RIPEMD-160.** -/
theorem C130_ripemd160_work (d0 : Bits) (hd : d0.length = 160) (J : Injector) (c : Fin q → MDCall .ripemd160) (h1 : ∀ i, (c i).cost = 1)
    (hne : Function.Injective fun i => (c i).message.1) (p : Bits) (hp : p.length ≤ 160) :
    prob (fun E => ∃ i, ∃ y, p <+: y ∧ (c i).digest (ripemd160Feed.hash rfl (fun k => E k) d0 hd) J = .ok y) =
      1 - (1 - 1 / (2 : ℚ) ^ p.length) ^ q := by
  have key := C124_ripemd160_law d0 hd J c h1 hne fun t => ∃ i, ∃ y, p <+: y ∧ t i = .ok y
  rw [key]
  exact card_prefix_hits 160 q p hp

open Classical in
/-- **C130, the work with RIPEMD-256.** -/
theorem C130_ripemd256_work (d0 : Bits) (hd : d0.length = 256) (J : Injector) (c : Fin q → MDCall .ripemd256) (h1 : ∀ i, (c i).cost = 1)
    (hne : Function.Injective fun i => (c i).message.1) (p : Bits) (hp : p.length ≤ 256) :
    prob (fun E => ∃ i, ∃ y, p <+: y ∧ (c i).digest (ripemd256Feed.hash rfl (fun k => E k) d0 hd) J = .ok y) =
      1 - (1 - 1 / (2 : ℚ) ^ p.length) ^ q := by
  have key := C124_ripemd256_law d0 hd J c h1 hne fun t => ∃ i, ∃ y, p <+: y ∧ t i = .ok y
  rw [key]
  exact card_prefix_hits 256 q p hp

open Classical in
/-- **C130, the work with RIPEMD-320.** -/
theorem C130_ripemd320_work (d0 : Bits) (hd : d0.length = 320) (J : Injector) (c : Fin q → MDCall .ripemd320) (h1 : ∀ i, (c i).cost = 1)
    (hne : Function.Injective fun i => (c i).message.1) (p : Bits) (hp : p.length ≤ 320) :
    prob (fun E => ∃ i, ∃ y, p <+: y ∧ (c i).digest (ripemd320Feed.hash rfl (fun k => E k) d0 hd) J = .ok y) =
      1 - (1 - 1 / (2 : ℚ) ^ p.length) ^ q := by
  have key := C124_ripemd320_law d0 hd J c h1 hne fun t => ∃ i, ∃ y, p <+: y ∧ t i = .ok y
  rw [key]
  exact card_prefix_hits 320 q p hp

end

/-! ### Examples -/


/-- An attacker without queries that hashes the octet 1 and hopes for twenty zeros. -/
example (J : Injector) : prob (fun E : Cipher (Vector (BitVec 32) 16) (Vector (BitVec 32) 8) =>
      ∃ y, List.replicate 20 false <+: y ∧
        (do let (a, _) ← runOps ((cipherHash .sha256 rfl sha256IV (fun k => E k) (List.replicate 256 true) List.length_replicate).C J) J
              (Acc.init ((cipherHash .sha256 rfl sha256IV (fun k => E k) (List.replicate 256 true) List.length_replicate).C J)
                (List.replicate 512 true)) [] [feedBytes bigOctetBigBit [1]]
            a.result ((cipherHash .sha256 rfl sha256IV (fun k => E k) (List.replicate 256 true) List.length_replicate).C J)) = .ok y) ≤
      2 ^ 236 / ((2 : ℚ) ^ 256 - 1) := by
  have := C130_prefix (w := 32) (n := 8) .sha256 (by decide) rfl (by decide) sha256IV (List.replicate 256 true) List.length_replicate
    J (.done [feedBytes bigOctetBigBit [1]]) 0 1 trivial (by norm_num) (List.replicate 20 false) (by decide) (List.replicate 512 true)
    List.length_replicate
  have hwt : ∀ op ∈ [feedBytes bigOctetBigBit [1]], op.WellTyped 512 := by
    intro op ho
    rw [List.mem_singleton.1 ho]
    exact feedBytes_wellTyped _ _
  have hx : GoodExtracts 512 (GoodMsg .sha256) [] [feedBytes bigOctetBigBit [1]] :=
    goodExtracts_of_no_extract _ _ _ (by simp [feedBytes]) _
  have hl : callsFor .sha256 (streamOf 512 [feedBytes bigOctetBigBit [1]]) ≤ 1 := by
    decide +kernel
  have hv : (((0 : Nat) + (1 : Nat)) * 2 ^ (8 * 32 - (List.replicate 20 false).length) : ℚ) / (2 ^ (8 * 32) - ((0 : Nat) + (1 : Nat))) =
      2 ^ 236 / ((2 : ℚ) ^ 256 - 1) := by
    rw [List.length_replicate]
    norm_num
  exact le_trans (prob_mono fun E hE => ⟨hwt, hx, oneBlock_good 1, hE, hl⟩) (le_trans this (le_of_eq hv))

/-- Two targets, three calls. -/
example (J : Injector) (A : Attacker (Vector Tiger.W 8) (Vector Tiger.W 3) (List Op)) (hA : A.AtMost 2) :
    prob (fun E => (∃ y ∈ ({List.replicate 192 true, List.replicate 192 false} : Finset Bits),
        Reaching (tigerFeed.hash rfl (fun k => E k) (List.replicate 192 true) List.length_replicate) J y (A.result E)) ∧
      callsFor .tiger192 (streamOf 512 (A.result E)) ≤ 1) ≤ 6 / ((2 : ℚ) ^ 192 - 3) := by
  refine le_trans (C130_tiger _ _ J A 2 1 hA (by norm_num) _) (le_of_eq ?_)
  rw [Finset.card_pair (by decide)]
  norm_num

/-- Three targets for the list `[1, 2]`, one call of the permutation. -/
example : prob (fun E : Cipher Unit (Fin 3 → ZMod 13) =>
      ∃ y ∈ ({4, 5, 6} : Finset (ZMod 13)), poseidonHash (fun S => .ok (E () S)) [1, 2] = .ok y) ≤ 676 / 2196 := by
  have := C130_poseidon (n := 2) (F := ZMod 13) (by decide) (.done [1, 2]) 0 1 trivial (by rw [ZMod.card]; decide) {4, 5, 6}
  refine le_trans (prob_mono fun E hE => ⟨hE, le_of_eq (one_block 1 2)⟩) (le_trans this (le_of_eq ?_))
  rw [ZMod.card, show ({4, 5, 6} : Finset (ZMod 13)).card = 3 from by decide]
  norm_num

/-- Sixteen leading zeros of RIPEMD-160, at most ten calls. -/
example (J : Injector) (A : Attacker (Vector Ripemd.W 16 × Bool) (Vector Ripemd.W 5) (List Op)) (hA : A.AtMost 8) :
    prob (fun E => (∃ y, List.replicate 16 false <+: y ∧
        Reaching (ripemd160Feed.hash rfl (fun k => E k) (List.replicate 160 true) List.length_replicate) J y (A.result E)) ∧
      2 * callsFor .ripemd160 (streamOf 512 (A.result E)) ≤ 2) ≤ 10 * 2 ^ 144 / ((2 : ℚ) ^ 160 - 10) := by
  refine le_trans (C130_ripemd160_prefix J 8 2 _ _ A hA (by norm_num) (List.replicate 16 false) (by decide)) (le_of_eq ?_)
  rw [List.length_replicate]
  norm_num

/-- Two messages, one leading zero of SHA-256. -/
example : prob (fun E => ∃ i : Fin 2, ∃ y, [false] <+: y ∧
      (numberedCall .sha256 2 i).digest (cipherHash .sha256 rfl sha256IV (fun k => E k) (List.replicate 256 true) List.length_replicate)
        spliceInjector = .ok y) = 3 / 4 := by
  rw [C130_work (w := 32) (n := 8) .sha256 (by decide) rfl rfl sha256IV (List.replicate 256 true) List.length_replicate
    spliceInjector (numberedCall .sha256 2) (numberedCall_cost _ _) (numberedCall_injective _ (by decide)) [false] (by decide)]
  norm_num

/-- All 256 messages of one octet, a digest of 16 bits that begins with the octet 0. -/
example (J : Injector) : prob (fun E : Cipher (Vector (BitVec 8) 4) (Vector (BitVec 8) 3) => ∃ i, ∃ y, List.replicate 8 false <+: y ∧
      libraryDigest (daviesMeyerHash (fun k => E k) 8 16 littleOctetBigBit #v[1, 2, 3] (List.replicate 16 false)) J
        (List.replicate 32 true) (oneOctet i) = .ok y) = 1 - (255 / 256 : ℚ) ^ 256 := by
  refine (C130_user_work fourCipherSizes #v[1, 2, 3] J _ (fun _ => List.replicate 32 true) (fun _ => rfl) octet_oneBlock
    octet_injective (List.replicate 8 false) (by decide)).trans ?_
  rw [List.length_replicate]
  congr 2
  norm_num

/-- A fixed message has a SHA3-256 digest with thirty leading zeros for at most about one in `2^30` of all permutations. -/
example : prob (fun E : Cipher Unit Lanes =>
      ∃ y, List.replicate 30 false <+: y ∧
        (do let (a, _) ← runOps (spongeConstruction .sha3 (E ()) 256 spliceInjector) spliceInjector
              (Acc.init (spongeConstruction .sha3 (E ()) 256 spliceInjector) (List.replicate 1088 true)) [] (forty 1)
            a.result (spongeConstruction .sha3 (E ()) 256 spliceInjector)) = .ok y) ≤
    ((2 : ℚ) ^ 1088 + 2 ^ 1570) / (2 ^ 1600 - 1) := by
  have := C130_sponge_prefix sizes.2.1 spliceInjector spliceInjector .sha3 (.done (forty 1)) 0 1 (by unfold Attacker.AtMost; trivial)
    (lt_trans (by norm_num) two_lt) (List.replicate 30 false) (by decide) (List.replicate 1088 true) (by omega) List.length_replicate
  refine le_trans (prob_mono fun E hE => ⟨forty_wellTyped 1, trivial, forty_good 1, hE,
    le_of_eq forty_blocks.2⟩) (le_trans this (le_of_eq ?_))
  rw [show 1600 - 2 * 256 = 1088 from rfl, List.length_replicate, show 1600 - 30 = 1570 from rfl]
  push_cast
  rw [zero_add, one_pow, one_mul, one_mul]

/-- The same for BLAKE2b-512 and the octet 1. -/
example : prob (fun E : Cipher BlakeKey BlakeWork =>
      ∃ y, List.replicate 30 false <+: y ∧
        (do let (a, _) ← runOps (blakeConstructionOf (fun k => E k) (8 * 64) spliceInjector) spliceInjector
              (Acc.init (blakeConstructionOf (fun k => E k) (8 * 64) spliceInjector) (List.replicate 1024 true)) [] [blakeBytesOp [1]]
            a.result (blakeConstructionOf (fun k => E k) (8 * 64) spliceInjector)) = .ok y) ≤
    (2 : ℚ) ^ 994 / (2 ^ 1024 - 1) := by
  have := C130_blake2b_prefix (nn := 64) le_rfl spliceInjector spliceInjector (.done [blakeBytesOp [1]]) 0 1 trivial
    (lt_trans (by norm_num) two_lt') (List.replicate 30 false) (by decide) (List.replicate 1024 true) List.length_replicate
  refine le_trans (prob_mono fun E hE => ⟨oneOctet_wellTyped 1, trivial,
    show (streamOf 1024 [blakeBytesOp [1]]).length < 2 ^ 64 by rw [oneOctet1.1]; norm_num, hE, le_of_eq oneOctet1.2.1⟩)
    (le_trans this (le_of_eq ?_))
  rw [List.length_replicate, show 1024 - 30 = 994 from rfl]
  push_cast
  rw [zero_add, one_mul]

end Verif.Props
