import Verif.Proof.ExtensionCount
import Verif.Props.IdealCipher
import Verif.Props.Multicollision
import Mathlib.Data.Set.Finite.List
/-
C103: the Merkle–Damgård hashes whose digest is the whole chaining value are not indifferentiable from a random oracle.
-/
namespace Verif.Props

open Spec Spec.Ideal Verif.Ideal

variable {w n : Nat}

/-- A program of calls that hashes one message with the hash `h`. -/
structure MDCall (h : MDHash) where
  /-- The content of the cache before the first call. -/
  garbage : Bits
  ops : List Op
  length_garbage : garbage.length = h.policy.blockBits
  wellTyped : ∀ op ∈ ops, op.WellTyped h.policy.blockBits
  extracts : GoodExtracts h.policy.blockBits (GoodMsg h) [] ops
  good : GoodMsg h (streamOf h.policy.blockBits ops)
  short : (streamOf h.policy.blockBits ops).length < 2 ^ 64

/-- What the library returns. -/
def MDCall.digest {h : MDHash} {σ : Type} (I : MDInst h σ) (J : Injector) (q : MDCall h) : Except Fault Bits := do
  let (a, _) ← runOps (I.C J) J (Acc.init (I.C J) q.garbage) [] q.ops
  a.result (I.C J)

/-- The inputs of the random oracle: the messages shorter than `2^64` bits for which the library computes the standard. -/
def MDMessage (h : MDHash) : Type := { m : Bits // GoodMsg h m ∧ m.length < 2 ^ 64 }

/-- The message that is fed. -/
def MDCall.message {h : MDHash} (q : MDCall h) : MDMessage h := ⟨streamOf h.policy.blockBits q.ops, q.good, q.short⟩

/-- The number of cipher calls for a message. -/
def MDCall.cost {h : MDHash} (q : MDCall h) : Nat := callsFor h (streamOf h.policy.blockBits q.ops)

noncomputable instance (h : MDHash) : Fintype (MDMessage h) := by
  have : Finite { b : Bits // b.length < 2 ^ 64 } := (List.finite_length_lt Bool _).to_subtype
  exact @Fintype.ofFinite _ (Finite.of_injective
    (fun m : MDMessage h => (⟨m.1, m.2.2⟩ : { b : Bits // b.length < 2 ^ 64 }))
    (fun m m' e => Subtype.ext (congrArg (fun x : { b : Bits // b.length < 2 ^ 64 } => x.1) e)))

/-! ### The two messages -/

theorem md_sizes (h : MDHash) : h.policy.blockBits = (standard h).block ∧ 256 + (standard h).marker.length + (standard h).length ≤ (standard h).block ∧
    (standard h).marker.length + (standard h).length ≤ (standard h).block ∧ 0 < (standard h).marker.length ∧
    (standard h).marker.length ∣ 256 ∧ (standard h).marker.length ∣ (standard h).block ∧ (standard h).block < 2 ^ 11 := by
  cases h <;> decide

theorem fillTo_within {B n : Nat} (hn : 0 < n) (h : n ≤ B) : n + fillTo B n = B := by
  unfold fillTo
  rcases Nat.lt_or_eq_of_le h with h | rfl
  · rw [Nat.mod_eq_of_lt h, Nat.mod_eq_of_lt (by omega)]; omega
  · rw [Nat.mod_self, Nat.sub_zero, Nat.mod_self]; rfl

theorem fillTo_block {B n : Nat} (hB : 0 < B) : fillTo B (B + n) = fillTo B n := by
  unfold fillTo
  rw [Nat.add_mod_left]

/-- A message of 256 bits and its padding are one block. -/
theorem length_padded_256 (h : MDHash) {m : Bits} (hm : m.length = 256) : (paddedMessage h m).length = (standard h).block := by
  obtain ⟨_, h1, _⟩ := md_sizes h
  rw [length_paddedMessage, hm]
  exact fillTo_within (by omega) h1

/-- The padding behind one block is a second one. -/
theorem length_padTail_block (h : MDHash) : (padTail h (standard h).block).length = (standard h).block := by
  obtain ⟨_, _, h1, h2, _⟩ := md_sizes h
  unfold padTail
  simp only [List.length_append, List.length_replicate, length_encode]
  rw [Nat.add_assoc (standard h).block, fillTo_block (by omega)]
  have := fillTo_within (by omega) h1
  omega

theorem blocks_one {B : Nat} (hB : 0 < B) {b : Bits} (h : b.length = B) : blocks B b = [b] := by
  have := blocks_flatten hB [b] (by intro x hx; rw [List.mem_singleton.1 hx]; exact h)
  rwa [List.flatten_singleton] at this

/-- The call for the message `m` of 256 bits: part of a block. -/
def firstCall (h : MDHash) (m : Fin 256 → Bool) : MDCall h :=
  have hs : streamOf h.policy.blockBits [Op.block (List.ofFn m ++ List.replicate (h.policy.blockBits - 256) false) 256] = List.ofFn m := by
    show (List.ofFn m ++ _).take 256 ++ [] = _
    rw [List.append_nil, List.take_left' List.length_ofFn]
  have hz := md_sizes h
  { garbage := List.replicate h.policy.blockBits false
    ops := [.block (List.ofFn m ++ List.replicate (h.policy.blockBits - 256) false) 256]
    length_garbage := List.length_replicate
    wellTyped := by
      intro op ho
      rw [List.mem_singleton.1 ho]
      refine ⟨?_, by omega⟩
      rw [List.length_append, List.length_ofFn, List.length_replicate]; omega
    extracts := trivial
    good := by
      rw [hs]
      refine ⟨by rw [List.length_ofFn]; exact hz.2.2.2.2.1, Or.inr ?_, Or.inr ?_⟩ <;> rw [List.length_ofFn] <;> decide
    short := by rw [hs, List.length_ofFn]; decide }

theorem firstCall_stream (h : MDHash) (m : Fin 256 → Bool) : streamOf h.policy.blockBits (firstCall h m).ops = List.ofFn m := by
  show (List.ofFn m ++ _).take 256 ++ [] = _
  rw [List.append_nil, List.take_left' List.length_ofFn]

/-- The call for `m` with its padding: a whole block. -/
def secondCall (h : MDHash) (m : Fin 256 → Bool) : MDCall h :=
  have hz := md_sizes h
  have hl : (paddedMessage h (List.ofFn m)).length = (standard h).block := length_padded_256 h List.length_ofFn
  have hs : streamOf h.policy.blockBits [Op.block (paddedMessage h (List.ofFn m)) 0] = paddedMessage h (List.ofFn m) := by
    show (paddedMessage h (List.ofFn m)).take h.policy.blockBits ++ [] = _
    rw [List.append_nil, List.take_of_length_le (by omega)]
  { garbage := List.replicate h.policy.blockBits false
    ops := [.block (paddedMessage h (List.ofFn m)) 0]
    length_garbage := List.length_replicate
    wellTyped := by
      intro op ho
      rw [List.mem_singleton.1 ho]
      exact ⟨by rw [hl, hz.1], Nat.zero_le _⟩
    extracts := trivial
    good := by
      rw [hs]
      have hlt : (standard h).block < 2 ^ 64 := lt_trans hz.2.2.2.2.2.2 (by decide)
      refine ⟨by rw [hl]; exact hz.2.2.2.2.2.1, Or.inr ?_, Or.inr ?_⟩ <;> rw [hl]
      · rw [Nat.mod_eq_of_lt hlt]; omega
      · exact hlt
    short := by
      rw [hs, hl]
      exact lt_trans hz.2.2.2.2.2.2 (by decide) }

theorem secondCall_stream (h : MDHash) (m : Fin 256 → Bool) :
    streamOf h.policy.blockBits (secondCall h m).ops = paddedMessage h (List.ofFn m) := by
  have hz := md_sizes h
  show (paddedMessage h (List.ofFn m)).take h.policy.blockBits ++ [] = _
  rw [List.append_nil, List.take_of_length_le (by rw [length_padded_256 h List.length_ofFn, hz.1])]

theorem firstCall_cost (h : MDHash) (m : Fin 256 → Bool) : (firstCall h m).cost = 1 := by
  unfold MDCall.cost callsFor
  have hz := md_sizes h
  rw [firstCall_stream, blocks_one (by omega) (length_padded_256 h List.length_ofFn)]
  rfl

theorem secondCall_cost (h : MDHash) (m : Fin 256 → Bool) : (secondCall h m).cost = 2 := by
  unfold MDCall.cost callsFor
  have hz := md_sizes h
  have hl : (paddedMessage h (List.ofFn m)).length = (standard h).block := length_padded_256 h List.length_ofFn
  rw [secondCall_stream, paddedMessage_tail, blocks_append (by omega) (by rw [hl]), hl, blocks_one (by omega) hl,
    blocks_one (by omega) (length_padTail_block h)]
  rfl

/-! ### C103 -/

/-- The digest as chaining value. -/
def readState (h : MDHash) (w n : Nat) (d : Bits) : Vector (BitVec w) n := Vector.ofFn fun i : Fin n => h.policy.endian.word w d i

/-- Hash the message, continue from the digest with one cipher call, and compare with the digest of the padded message. -/
noncomputable def extender (h : MDHash) (w n : Nat) (m : Fin 256 → Bool) :
    Distinguisher (MDCall h) (Except Fault Bits) (Vector (BitVec w) 16) (Vector (BitVec w) n) :=
  .hash (firstCall h m) fun a =>
    match a with
    | .error _ => .done false
    | .ok d => .ask .enc (keyOf h w (padTail h (standard h).block)) (readState h w n d) fun y =>
      .hash (secondCall h m) fun a' => .done (decide (a' = .ok (h.policy.endian.arrayView (stateAdder (readState h w n d) y))))

theorem extender_atMost (h : MDHash) (m : Fin 256 → Bool) : (extender h w n m).AtMost MDCall.cost 4 := by
  refine ⟨by rw [firstCall_cost]; omega, fun a => ?_⟩
  rw [firstCall_cost]
  cases a with
  | error => trivial
  | ok d => exact fun y => ⟨by rw [secondCall_cost], fun a' => trivial⟩

theorem extender_real (h : MDHash) (h8 : 8 ∣ w) (hw : h.policy.stateBits = n * w) (hfull : (standard h).digest = h.policy.stateBits)
    (iv : Vector (BitVec w) n) (d0 : Bits) (hd : d0.length = h.policy.digestBits) (J : Injector) (m : Fin 256 → Bool)
    (E : Cipher (Vector (BitVec w) 16) (Vector (BitVec w) n)) :
    (extender h w n m).real (fun q => q.digest (cipherHash h hw iv (fun k => E k) d0 hd) J) E = true := by
  have hz := md_sizes h
  have hl : (paddedMessage h (List.ofFn m)).length = (standard h).block := length_padded_256 h List.length_ofFn
  obtain ⟨d, e1, e2⟩ := C85_extension (cipherHash h hw iv (fun k => E k) d0 hd) J hfull (readState h w n)
    (fun st => word_arrayView _ h8 st) (firstCall h m).garbage (secondCall h m).garbage (firstCall h m).length_garbage
    (secondCall h m).length_garbage (firstCall h m).ops (secondCall h m).ops (firstCall h m).wellTyped (secondCall h m).wellTyped
    (firstCall h m).extracts (secondCall h m).extracts (firstCall h m).good (secondCall h m).good 256
    (by rw [firstCall_stream, List.length_ofFn]) [] (by
      rw [firstCall_stream, secondCall_stream, paddedMessage_tail, List.length_ofFn, List.append_nil])
  have hn : 256 + (padTail h 256).length = (standard h).block := by
    rw [← hl, paddedMessage_tail, List.length_append, List.length_ofFn]
  rw [hn] at e2
  have e1' : (firstCall h m).digest (cipherHash h hw iv (fun k => E k) d0 hd) J = .ok d := e1
  have e2' : (secondCall h m).digest (cipherHash h hw iv (fun k => E k) d0 hd) J = .ok (resume h (cipherHash h hw iv (fun k => E k) d0 hd).compress
    (cipherHash h hw iv (fun k => E k) d0 hd).view (readState h w n d) (standard h).block []) := e2
  unfold extender
  rw [Distinguisher.real, e1', Distinguisher.real, Distinguisher.real, e2', Distinguisher.real, decide_eq_true_eq]
  refine congrArg Except.ok ?_
  unfold resume
  rw [List.nil_append, List.length_nil, Nat.add_zero, blocks_one (by omega) (length_padTail_block h)]
  have hlen := (cipherHash h hw iv (fun k => E k) d0 hd).length_view
    ((cipherHash h hw iv (fun k => E k) d0 hd).compress (readState h w n d) (padTail h (standard h).block))
  rw [List.foldl_cons, List.foldl_nil, List.take_of_length_le (by rw [hlen, hfull])]
  rfl

/-- **C103.** For the hashes of the library in Davies–Meyer mode whose digest is the whole chaining value, over a random cipher:
whatever the simulator, there is a distinguisher of cost four (one cipher query, two digests) that always outputs one with the
library and its cipher, and outputs one with the random oracle and the simulator with probability at most
`2^-256 + 2^-digest`. -/
theorem C103_distinguishable (h : MDHash) (h8 : 8 ∣ w) (hw : h.policy.stateBits = n * w)
    (hfull : (standard h).digest = h.policy.stateBits) (iv : Vector (BitVec w) n) (d0 : Bits)
    (hd : d0.length = h.policy.digestBits) (J : Injector)
    (sim : Simulator (MDMessage h) (Vector (BitVec w) n) (Vector (BitVec w) 16) (Vector (BitVec w) n)) :
    ∃ P : Distinguisher (MDCall h) (Except Fault Bits) (Vector (BitVec w) 16) (Vector (BitVec w) n),
      P.AtMost MDCall.cost 4 ∧
      (∀ E, P.real (fun q => q.digest (cipherHash h hw iv (fun k => E k) d0 hd) J) E = true) ∧
      P.idealChance MDCall.message (fun t => .ok (h.policy.endian.arrayView t)) sim ≤ 1 / 2 ^ 256 + 1 / 2 ^ (standard h).digest := by
  classical
  have hz := md_sizes h
  haveI := sim.fintype
  have hcards : 1 / (Fintype.card (Fin 256 → Bool) : ℚ) + 1 / (Fintype.card (Vector (BitVec w) n) : ℚ) =
      1 / 2 ^ 256 + 1 / 2 ^ (standard h).digest := by
    rw [card_words, hfull, hw, Fintype.card_fun, Fintype.card_bool, Fintype.card_fin]
    push_cast
    rfl
  let W : sim.Coins → Vector (BitVec w) n → Option (MDMessage h) := fun c v =>
    sim.wants c sim.start .enc (keyOf h w (padTail h (standard h).block)) v
  let g : sim.Coins → Vector (BitVec w) n → Option (Vector (BitVec w) n) → Vector (BitVec w) n := fun c v o =>
    stateAdder v (sim.reply c sim.start .enc (keyOf h w (padTail h (standard h).block)) v o).2
  have hmsg : ∀ m, (secondCall h m).message.1 = paddedMessage h (List.ofFn m) := secondCall_stream h
  have hmsg1 : ∀ m, (firstCall h m).message.1 = List.ofFn m := firstCall_stream h
  have hext : Function.Injective fun m => (secondCall h m).message := by
    intro m m' e
    have e1 := congrArg Subtype.val e
    simp only [hmsg] at e1
    rw [paddedMessage_tail, paddedMessage_tail, List.length_ofFn, List.length_ofFn] at e1
    exact List.ofFn_injective (List.append_cancel_right e1)
  have hne : ∀ m m', (firstCall h m).message ≠ (secondCall h m').message := by
    intro m m' e
    have e1 := congrArg (fun x => x.1.length) e
    simp only [hmsg, hmsg1, List.length_ofFn] at e1
    rw [length_padded_256 h List.length_ofFn] at e1
    omega
  have hideal : ∀ m (v : (MDMessage h → Vector (BitVec w) n) × sim.Coins),
      (extender h w n m).ideal (fun q => Except.ok (h.policy.endian.arrayView (v.1 q.message))) sim v.1 v.2 sim.start = true ↔
      v.1 (secondCall h m).message = g v.2 (v.1 (firstCall h m).message) ((W v.2 (v.1 (firstCall h m).message)).map v.1) := by
    intro m v
    unfold extender
    rw [Distinguisher.ideal, Distinguisher.ideal, Distinguisher.ideal, Distinguisher.ideal, decide_eq_true_eq]
    have hr : readState h w n (h.policy.endian.arrayView (v.1 (firstCall h m).message)) = v.1 (firstCall h m).message :=
      word_arrayView _ h8 _
    rw [hr]
    constructor
    · intro e
      exact arrayView_injective _ h8 (Except.ok.inj e)
    · intro e
      rw [e]
  obtain ⟨m, hm⟩ : ∃ m, ((Finset.univ.filter fun v : (MDMessage h → Vector (BitVec w) n) × sim.Coins =>
      v.1 (secondCall h m).message = g v.2 (v.1 (firstCall h m).message) ((W v.2 (v.1 (firstCall h m).message)).map v.1)).card : ℚ) /
      Fintype.card ((MDMessage h → Vector (BitVec w) n) × sim.Coins) ≤ 1 / 2 ^ 256 + 1 / 2 ^ (standard h).digest := by
    rw [← hcards]
    rcases isEmpty_or_nonempty sim.Coins with hC | hC
    · refine ⟨fun _ => false, ?_⟩
      rw [Fintype.card_prod, Fintype.card_eq_zero (α := sim.Coins), Nat.mul_zero, Nat.cast_zero, div_zero]
      positivity
    · obtain ⟨m, hm⟩ := exists_guess (fun m => (firstCall h m).message) (fun m => (secondCall h m).message) hext hne W g
      exact ⟨m, by convert hm⟩
  refine ⟨extender h w n m, extender_atMost h m, extender_real h h8 hw hfull iv d0 hd J m, ?_⟩
  refine le_trans (le_of_eq ?_) hm
  unfold Distinguisher.idealChance chance
  simp only [hideal]
  congr!

/-- The hashes to which C103 applies. -/
theorem C103_hashes : ∀ p ∈ [(MDHash.sha0, 32, 5), (.sha1, 32, 5), (.sha256, 32, 8), (.sha512, 64, 8), (.md4, 32, 4), (.md5, 32, 4)],
    8 ∣ p.2.1 ∧ p.1.policy.stateBits = p.2.2 * p.2.1 ∧ (standard p.1).digest = p.1.policy.stateBits := by decide

/-- An example: against every simulator for SHA-256 the advantage is more than `1 - 2^-255`. -/
example (sim : Simulator (MDMessage .sha256) (Vector (BitVec 32) 8) (Vector (BitVec 32) 16) (Vector (BitVec 32) 8)) :
    ∃ P : Distinguisher (MDCall .sha256) (Except Fault Bits) (Vector (BitVec 32) 16) (Vector (BitVec 32) 8),
      P.AtMost MDCall.cost 4 ∧
      P.idealChance MDCall.message (fun t => .ok (MDHash.sha256.policy.endian.arrayView t)) sim ≤ 1 / 2 ^ 255 := by
  obtain ⟨P, h1, _, h3⟩ := C103_distinguishable .sha256 (by decide) (by decide) (by decide) (Vector.replicate 8 0)
    (List.replicate 256 false) (by decide +kernel) spliceInjector sim
  refine ⟨P, h1, le_trans h3 (le_of_eq ?_)⟩
  rw [show (standard .sha256).digest = 256 from rfl, show 256 = 255 + 1 from rfl, pow_succ]
  field_simp
  norm_num

/-- The first message of the example is 256 bits, the second is one block of 512. -/
example (m : Fin 256 → Bool) : (firstCall .sha256 m).message.1.length = 256 ∧ (secondCall .sha256 m).message.1.length = 512 := by
  refine ⟨?_, ?_⟩
  · show (streamOf _ (firstCall .sha256 m).ops).length = _
    rw [firstCall_stream, List.length_ofFn]
  · show (streamOf _ (secondCall .sha256 m).ops).length = _
    rw [secondCall_stream, length_padded_256 _ List.length_ofFn]
    rfl

end Verif.Props
