import Verif.Model.Reset
import Verif.Props.Sponge
import Verif.Props.Blake2b
/- C54: reuse of construction objects after `reset`. -/
namespace Verif.Props

open Spec

variable {σ δ : Type}

/-- The object's `digest` returns what the construction's `digest` returns, and a new object starts like
a new construction. -/
structure Agrees (O : ObjectModel σ δ) : Prop where
  fresh : O.fresh = O.C.init
  digest : ∀ st b n, (O.digest st b n).map Prod.snd = O.C.digest st b n

/-- The calls that hash the bit string `m` with a construction object: all full blocks but the last one
with the number of bits up to their ends, then `digest` with the rest in front of arbitrary bits. -/
def messageOps (B : Nat) (m garbage : Bits) : List (ConsOp σ) :=
  let q := (m.length - 1) / B
  (List.range q).map (fun i => ConsOp.block (block B m i) (wrap64 ((i + 1) * B))) ++
    [.digest (m.drop (q * B) ++ garbage.drop (m.length - q * B)) (wrap64 m.length)]

theorem run_append (O : ObjectModel σ δ) (ops ops' : List (ConsOp σ)) : ∀ (st : σ) (out : List δ),
    O.run st out (ops ++ ops') = (do let (st, out) ← O.run st out ops; O.run st out ops') := by
  induction ops with
  | nil => intro st out; rfl
  | cons op ops ih =>
    intro st out
    simp only [List.cons_append, ObjectModel.run]
    cases h : O.call st out op with
    | error e => rfl
    | ok p => simp only [bind, Except.bind]; exact ih _ _

theorem run_blocks (O : ObjectModel σ δ) (m : Bits) (out : List δ) (q : Nat) :
    O.run O.C.init out ((List.range q).map fun i => ConsOp.block (block O.C.blockBits m i)
      (wrap64 ((i + 1) * O.C.blockBits))) = .ok (absorbed O.C m q, out) := by
  induction q with
  | zero => rfl
  | succ q ih =>
    rw [List.range_succ, List.map_append, run_append, ih]
    rfl

theorem run_message {O : ObjectModel σ δ} (A : Agrees O) {Good : Bits → Prop} {H : Bits → δ}
    (hB : 0 < O.C.blockBits) (hC : Computes O.C Good H) (m garbage : Bits) (out : List δ)
    (hg : garbage.length = O.C.blockBits) (hfit : Fits O.C m.length) (hm : Good m) :
    ∃ st, O.run O.C.init out (messageOps O.C.blockBits m garbage) = .ok (st, out ++ [H m]) := by
  unfold messageOps
  simp only
  generalize hq : (m.length - 1) / O.C.blockBits = q
  have hqle : q * O.C.blockBits ≤ m.length - 1 := by rw [← hq]; exact Nat.div_mul_le_self _ _
  have hqlt : m.length - 1 < q * O.C.blockBits + O.C.blockBits := by
    have := Nat.lt_div_mul_add (a := m.length - 1) hB
    rw [hq] at this; exact this
  rw [run_append, run_blocks]
  simp only [bind, Except.bind, ObjectModel.run, ObjectModel.call]
  have hrep : Rep O.C (Acc.mk (decide (m.length = q * O.C.blockBits + O.C.blockBits)) (wrap64 m.length)
      (m.drop (q * O.C.blockBits) ++ garbage.drop (m.length - q * O.C.blockBits)) (absorbed O.C m q)) m := by
    refine ⟨?_, rfl, hfit, q, by omega, by omega, ?_, by simp, rfl, ?_⟩
    · simp [hg]; omega
    · rcases Nat.eq_zero_or_pos m.length with h | h
      · left
        rw [h] at hq; rw [← hq]; simp
      · right; omega
    · simp only
      rw [List.take_append_of_le_length (by simp), List.take_of_length_le (by simp)]
  have hd := hC _ m hrep hm
  unfold Acc.result at hd
  rw [← A.digest] at hd
  simp only at hd
  revert hd
  cases O.digest (absorbed O.C m q) (m.drop (q * O.C.blockBits) ++ garbage.drop (m.length - q * O.C.blockBits))
      (wrap64 m.length) with
  | error e => intro hd; simp [Except.map] at hd
  | ok p =>
    intro hd
    simp only [Except.map, Except.ok.injEq] at hd
    exact ⟨p.1, by simp only [pure, Except.pure, hd]⟩

/-- After any history, `reset()` and the calls for a message give the digest of that message. -/
theorem reset_message {O : ObjectModel σ δ} (A : Agrees O) {Good : Bits → Prop} {H : Bits → δ}
    (hB : 0 < O.C.blockBits) (hC : Computes O.C Good H) (history : List (ConsOp σ)) (st : σ)
    (outs : List δ) (hh : O.run O.fresh [] history = .ok (st, outs)) (m garbage : Bits)
    (hg : garbage.length = O.C.blockBits) (hfit : Fits O.C m.length) (hm : Good m) :
    ∃ st', O.run O.fresh [] (history ++ .reset :: messageOps O.C.blockBits m garbage) =
      .ok (st', outs ++ [H m]) := by
  obtain ⟨st', e⟩ := run_message A hB hC m garbage outs hg hfit hm
  refine ⟨st', ?_⟩
  rw [run_append, hh]
  simp only [bind, Except.bind, ObjectModel.run, ObjectModel.call]
  rw [show O.load O.iv = O.C.init from A.fresh]
  exact e

theorem md_agrees (M : MD σ) (J : Injector) : Agrees (M.object J) where
  fresh := rfl
  digest st b n := by
    show (M.digestObject J st b n).map Prod.snd = M.digest J st b n
    unfold MD.digestObject MD.digest
    simp only [bind, Except.bind]
    cases M.pad J b (n % M.blockBits) with
    | error e => rfl
    | ok p =>
      simp only
      generalize (if p.2 + M.lengthBits > M.blockBits then _ else _ : σ × Bits) = z
      cases M.appendLength z.2 n with
      | error e => rfl
      | ok c => simp only; split <;> rfl

theorem blake_agrees (d : Nat) (J : Injector) : Agrees (blakeObject d J) where
  fresh := rfl
  digest st b n := by
    show (blakeDigestObject d J st b n).map Prod.snd =
      haifaDigest 1024 64 blakeCompress (blakeOutput d) J st b n
    unfold blakeDigestObject haifaDigest
    simp only [bind, Except.bind]
    cases blake2bPad 1024 64 J b n with
    | error e => rfl
    | ok p =>
      simp only
      generalize blakeCompress (if n ≠ 0 ∧ n % 1024 = 0 then blakeCompress st b n false else st) p n true = s
      cases blakeOutput d s <;> rfl

theorem sponge_agrees (k : SpongeKind) (permute : Lanes → Lanes) (d : Nat) (J : Injector) :
    Agrees (spongeObject k permute d J) where
  fresh := rfl
  digest st b n := by
    show (spongeDigestObject k permute d J st b n).map Prod.snd =
      spongeDigest k (spongeBlockBits d) (spongeCompress permute (spongeBlockBits d))
        (spongeOutput permute d) J st b n
    have out : ∀ s : Lanes, Except.map Prod.snd (do
        let st ← spongeFinalize permute (spongeBlockBits d) d s
        let v := bigOctetBigBit.arrayView st
        if d / 8 * 8 ≤ v.length then pure (st, v.take (d / 8 * 8)) else .error .outOfRange) =
        spongeOutput permute d s := by
      intro s
      unfold spongeOutput
      cases spongeFinalize permute (spongeBlockBits d) d s with
      | error e => rfl
      | ok x => simp only [bind, Except.bind]; split <;> rfl
    unfold spongeDigestObject spongeDigest
    simp only [bind, Except.bind] at out ⊢
    cases k.pad (spongeBlockBits d) J b (n % spongeBlockBits d) with
    | error e => rfl
    | ok p =>
      simp only
      cases p.2 with
      | true => simp only [if_true, pure, Except.pure] at out ⊢; exact out _
      | false =>
        simp only [Bool.false_eq_true, if_false]
        cases k.padLast (spongeBlockBits d) J (List.replicate (spongeBlockBits d) false)
            (n % spongeBlockBits d) with
        | error e => rfl
        | ok c => simp only [pure, Except.pure] at out ⊢; exact out _

/-! ### C54 -/

variable {h : MDHash}

/-- C54, Merkle–Damgård hashes: whatever was done with the object before (blocks, digests, resets to any
state), after `reset()` the object gives the textbook digest of the new message only. -/
theorem C54_merkle_damgard (I : MDInst h σ) (J : Injector) (history : List (ConsOp σ)) (st : σ)
    (outs : List Bits) (m garbage : Bits) (hg : garbage.length = h.policy.blockBits) (hm : GoodMsg h m)
    (hh : ((h.policy.md I.iv I.compress I.view I.digest0).object J).run I.iv [] history =
      .ok (st, outs)) :
    ∃ st', ((h.policy.md I.iv I.compress I.view I.digest0).object J).run I.iv []
        (history ++ .reset :: messageOps h.policy.blockBits m garbage) =
      .ok (st', outs ++ [mdDigest h I.iv I.compress I.view m]) :=
  reset_message (O := (h.policy.md I.iv I.compress I.view I.digest0).object J) (md_agrees _ J)
    (policy_sizes h).1 (I.computes J) history st outs hh m garbage hg (I.fits J _) hm

/-- C54, BLAKE2b (all lengths below `2^64` bits; `blakeOf` is described in C08). -/
theorem C54_blake2b (nn : Nat) (hnn : nn ≤ 64) (J : Injector) (history : List (ConsOp BlakeState))
    (st : BlakeState) (outs : List Bits) (m garbage : Bits) (hg : garbage.length = 1024)
    (hm : HaifaGood m) (hh : (blakeObject (8 * nn) J).run (blakeInit (8 * nn)) [] history = .ok (st, outs)) :
    ∃ st', (blakeObject (8 * nn) J).run (blakeInit (8 * nn)) []
        (history ++ .reset :: messageOps 1024 m garbage) = .ok (st', outs ++ [blakeOf nn m]) :=
  reset_message (O := blakeObject (8 * nn) J) (blake_agrees _ J) (show 0 < 1024 by omega)
    (blake_verified nn hnn J).computes history st outs hh m garbage hg (Or.inl hm) hm

/-- C54, Keccak and SHA-3. -/
theorem C54_sponge (k : SpongeKind) (permute : Lanes → Lanes) {d : Nat} (S : SpongeSize d) (J : Injector)
    (history : List (ConsOp Lanes)) (st : Lanes) (outs : List Bits) (m garbage : Bits)
    (hg : garbage.length = spongeBlockBits d) (hm : SpongeGood m)
    (hh : (spongeObject k permute d J).run (Vector.replicate 25 0) [] history = .ok (st, outs)) :
    ∃ st', (spongeObject k permute d J).run (Vector.replicate 25 0) []
        (history ++ .reset :: messageOps (spongeBlockBits d) m garbage) =
      .ok (st', outs ++ [spongeSpec k permute d m]) :=
  reset_message (O := spongeObject k permute d J) (sponge_agrees _ _ _ J) S.facts.1
    (sponge_verified k permute J S).computes history st outs hh m garbage hg (Or.inl hm.2) hm

/-- The history of the example: a block, an extraction, a reset to some other state, another block. -/
def toyHistory : List (ConsOp Nat) :=
  [.block (List.replicate 512 true) 512, .digest (List.replicate 512 false) 520, .resetTo 77,
    .block (List.replicate 512 false) 512]

/-- The hypotheses of C54 hold for this history and a two-block message. -/
example : ∃ st' outs, ((MDHash.policy .sha1).md (toy .sha1).iv (toy .sha1).compress (toy .sha1).view
      (toy .sha1).digest0 |>.object spliceInjector).run (toy .sha1).iv []
        (toyHistory ++ .reset :: messageOps 512 (List.replicate 600 true) (List.replicate 512 true)) =
      .ok (st', outs ++ [mdDigest .sha1 (toy .sha1).iv (toy .sha1).compress (toy .sha1).view
        (List.replicate 600 true)]) := by
  obtain ⟨st, outs, e⟩ : ∃ st outs, ((MDHash.policy .sha1).md (toy .sha1).iv (toy .sha1).compress
      (toy .sha1).view (toy .sha1).digest0 |>.object spliceInjector).run (toy .sha1).iv [] toyHistory =
      .ok (st, outs) := by
    have : (((MDHash.policy .sha1).md (toy .sha1).iv (toy .sha1).compress (toy .sha1).view
      (toy .sha1).digest0 |>.object spliceInjector).run (toy .sha1).iv [] toyHistory).toOption.isSome = true := by
      decide +kernel
    revert this
    cases ((MDHash.policy .sha1).md (toy .sha1).iv (toy .sha1).compress (toy .sha1).view
      (toy .sha1).digest0 |>.object spliceInjector).run (toy .sha1).iv [] toyHistory with
    | error e => intro h; cases h
    | ok p => intro _; exact ⟨p.1, p.2, rfl⟩
  obtain ⟨st', e'⟩ := C54_merkle_damgard (toy .sha1) spliceInjector toyHistory st outs
    (List.replicate 600 true) (List.replicate 512 true) List.length_replicate
    (goodMsg_of_bytes _ (by rw [List.length_replicate]; omega) (by rw [List.length_replicate]; omega)) e
  exact ⟨st', outs, e'⟩

/-- BLAKE2b and SHA3-256 after some other block. -/
example : ∃ st' outs, (blakeObject 512 spliceInjector).run (blakeInit 512) []
      ([.block (List.replicate 1024 true) 1024, .resetTo (blakeInit 256)] ++
        .reset :: messageOps 1024 (List.replicate 1100 true) (List.replicate 1024 true)) =
    .ok (st', outs ++ [blakeOf 64 (List.replicate 1100 true)]) := by
  obtain ⟨st', e⟩ := C54_blake2b 64 (by omega) spliceInjector
    [.block (List.replicate 1024 true) 1024, .resetTo (blakeInit 256)] _ [] (List.replicate 1100 true)
    (List.replicate 1024 true) List.length_replicate
    (show (List.replicate 1100 true).length < 2 ^ 64 by rw [List.length_replicate]; omega) rfl
  exact ⟨st', [], e⟩

example : ∃ st' outs, (spongeObject .sha3 keccakPermute 256 spliceInjector).run (Vector.replicate 25 0) []
      ([.block (List.replicate 1088 true) 1088] ++
        .reset :: messageOps 1088 (List.replicate 1104 true) (List.replicate 1088 true)) =
    .ok (st', outs ++ [spongeSpec .sha3 keccakPermute 256 (List.replicate 1104 true)]) := by
  obtain ⟨st', e⟩ := C54_sponge .sha3 keccakPermute sizes.2.1 spliceInjector
    [.block (List.replicate 1088 true) 1088] _ [] (List.replicate 1104 true)
    (List.replicate 1088 true) List.length_replicate
    ⟨by rw [List.length_replicate]; omega, by rw [List.length_replicate]; omega⟩ rfl
  exact ⟨st', [], e⟩

/-- Without `reset()` the next message is hashed on top of the finished one: `digest` alone does not
end a message.  Witness: hashing the empty message twice gives two different digests. -/
theorem C54_without_reset_false : (((((MDHash.policy .sha1).md (toy .sha1).iv (toy .sha1).compress
    (toy .sha1).view (toy .sha1).digest0).object spliceInjector).run (toy .sha1).iv []
      (messageOps 512 [] (List.replicate 512 true) ++ messageOps 512 [] (List.replicate 512 true))).map
        fun p => p.2.length = 2 ∧ p.2[0]? ≠ p.2[1]?) = .ok True := by
  have : (((((MDHash.policy .sha1).md (toy .sha1).iv (toy .sha1).compress
    (toy .sha1).view (toy .sha1).digest0).object spliceInjector).run (toy .sha1).iv []
      (messageOps 512 [] (List.replicate 512 true) ++ messageOps 512 [] (List.replicate 512 true))).map
        fun p => decide (p.2.length = 2 ∧ p.2[0]? ≠ p.2[1]?)) = .ok true := by decide +kernel
  revert this
  generalize ((((MDHash.policy .sha1).md (toy .sha1).iv (toy .sha1).compress
    (toy .sha1).view (toy .sha1).digest0).object spliceInjector).run (toy .sha1).iv []
      (messageOps 512 [] (List.replicate 512 true) ++ messageOps 512 [] (List.replicate 512 true))) = r
  cases r with
  | error e => intro h; cases h
  | ok p =>
    intro h
    simp only [Except.map, Except.ok.injEq, decide_eq_true_eq] at h ⊢
    exact eq_true h

/-- `haifa_construction::reset(s)` is not an assignment: for every state `s` it stores something else,
so `reset(state())` never restores a saved state. -/
theorem C54_haifa_reset_state (nn : Nat) (hnn : nn ≤ 64) (J : Injector) (s : BlakeState) :
    (blakeObject (8 * nn) J).load s ≠ s := by
  intro h
  have h0 := congrArg (fun v : BlakeState => v[0]) h
  simp only [blakeObject, Vector.getElem_set_self] at h0
  have hz : (0x01010000 ^^^ BitVec.ofNat 64 (8 * nn / 8) : BitVec 64) = 0 := by
    have := congrArg (s[0] ^^^ ·) h0
    simpa [← BitVec.xor_assoc] using this
  rw [show 8 * nn / 8 = nn by omega] at hz
  have hall : ∀ n : Fin 65, (0x01010000 ^^^ BitVec.ofNat 64 n.1 : BitVec 64) ≠ 0 := by decide +kernel
  exact hall ⟨nn, by omega⟩ hz

example (s : BlakeState) : (blakeObject 512 spliceInjector).load s ≠ s := C54_haifa_reset_state 64 (by decide) _ s

/-- In contrast, the other constructions store the given state. -/
theorem C54_reset_state (M : MD σ) (k : SpongeKind) (permute : Lanes → Lanes) (d : Nat) (J : Injector)
    (s : σ) (l : Lanes) : (M.object J).load s = s ∧ (spongeObject k permute d J).load l = l := ⟨rfl, rfl⟩

end Verif.Props
