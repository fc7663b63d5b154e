import Verif.Model.BitsCount
import Verif.Proof.Collision
import Verif.Proof.Faults
import Verif.Proof.Words
import Verif.Props.MerkleDamgard
/-
C13, C14, C17, C19, C20 for the Merkle–Damgård hashes.  Conventions as in Props/MerkleDamgard.lean.
-/
namespace Verif.Props

open Spec

variable {σ : Type} {h : MDHash}

/-! ### C13 -/

/-- C13: no program faults: every read, write and bit injection stays within the buffers.  No bound on
the message; the only condition is that extractions happen at whole marker units (bits; bytes for
Tiger). -/
theorem C13_no_out_of_range (I : MDInst h σ) (J : Injector)
    (garbage : Bits) (hgb : garbage.length = h.policy.blockBits)
    (ops : List Op) (hwt : ∀ op ∈ ops, op.WellTyped h.policy.blockBits)
    (hg : GoodExtracts h.policy.blockBits (fun m => (standard h).marker.length ∣ m.length) [] ops) :
    ∃ r, runOps (I.C J) J (Acc.init (I.C J) garbage) [] ops = .ok r := by
  obtain ⟨h1, h2, h3, _⟩ := policy_sizes h
  obtain ⟨a, out, e, _⟩ := runOps_ok (C := I.C J) (J := J) (out := []) h1 h2 h3
    (fun a m hr hm => I.result_ok J hr hm) ops (I.init J garbage hgb) hwt (I.fits J _) hg
  exact ⟨_, e⟩

/-- 200 bits and an extraction, five more bits and an extraction. -/
example : ∃ r, runOps ((toy .sha256).C spliceInjector) spliceInjector
      (Acc.init ((toy .sha256).C spliceInjector) (List.replicate 512 true)) []
      [.block (List.replicate 512 true) 200, .extract, .block (List.replicate 512 true) 5, .extract] = .ok r :=
  C13_no_out_of_range (toy .sha256) spliceInjector _ List.length_replicate _
    (by
      intro op hop
      simp only [List.mem_cons, List.not_mem_nil, or_false] at hop
      rcases hop with rfl | rfl | rfl | rfl <;> first | exact ⟨List.length_replicate, by decide⟩ | trivial)
    ⟨by decide +kernel, by decide +kernel, trivial⟩

theorem goodExtracts_of_streams (B t : Nat) (ops : List Op) :
    ∀ (m : Bits), t ∣ m.length → (∀ op ∈ ops, t ∣ (op.stream B).length) →
      GoodExtracts B (fun m => t ∣ m.length) m ops := by
  induction ops with
  | nil => intro m _ _; trivial
  | cons op ops ih =>
    intro m hm hs
    have hs' : ∀ o ∈ ops, t ∣ (o.stream B).length := fun o ho => hs o (by simp [ho])
    have hm' : t ∣ (m ++ op.stream B).length := by
      rw [List.length_append]; exact Nat.dvd_add hm (hs op (by simp))
    cases op with
    | extract => exact ⟨hm, ih m hm hs'⟩
    | feed => exact ih _ hm' hs'
    | block => exact ih _ hm' hs'

/-- C13 for byte-sized data: programs whose elements have a whole number of bytes never fault,
whichever hash, however long the message, wherever extractions occur. -/
theorem C13_byte_data (I : MDInst h σ) (J : Injector)
    (garbage : Bits) (hgb : garbage.length = h.policy.blockBits)
    (ops : List Op) (hwt : ∀ op ∈ ops, op.WellTyped h.policy.blockBits)
    (h8 : ∀ op ∈ ops, 8 ∣ (op.stream h.policy.blockBits).length) :
    ∃ r, runOps (I.C J) J (Acc.init (I.C J) garbage) [] ops = .ok r :=
  C13_no_out_of_range I J garbage hgb ops hwt (goodExtracts_of_streams _ _ ops [] (by simp)
    fun op ho => Nat.dvd_trans (policy_sizes h).2.2.2.2.2 (h8 op ho))

example : ∃ r, runOps ((toy .tiger192).C spliceInjector) spliceInjector
      (Acc.init ((toy .tiger192).C spliceInjector) (List.replicate 512 true)) []
      [feedBytes littleOctetBigBit (List.range 63), .extract,
        feedBytes littleOctetBigBit [7, 8], .extract] = .ok r :=
  C13_byte_data (toy .tiger192) spliceInjector _ List.length_replicate _
    (by
      intro op hop
      simp only [List.mem_cons, List.not_mem_nil, or_false] at hop
      rcases hop with rfl | rfl | rfl | rfl <;> first | trivial | exact feedBytes_wellTyped _ _)
    (by
      intro op hop
      simp only [List.mem_cons, List.not_mem_nil, or_false] at hop
      rcases hop with rfl | rfl | rfl | rfl
      · exact ⟨63, by decide +kernel⟩
      · exact ⟨0, rfl⟩
      · exact ⟨2, by decide +kernel⟩
      · exact ⟨0, rfl⟩)

theorem runOps_push_extract_fault {δ : Type} {C : Construction σ δ} {J : Injector} {a b : Acc σ}
    {value : Bits} {bits : Nat} {e : Fault} (h1 : a.pushBlock C J value bits = .ok b)
    (h2 : b.result C = .error e) :
    runOps C J a [] [.block value bits, .extract] = .error e := by
  simp [runOps, Op.run, h1, h2, bind, Except.bind, pure, Except.pure]

/-- The byte condition is needed for Tiger: with 511 bits pushed by `acc(block, bits = 511)` the
padding injects past the end of the block. -/
theorem C13_tiger_bits_fault (I : MDInst .tiger192 σ) (J : Injector)
    (garbage value : Bits) (hgb : garbage.length = 512) (hv : value.length = 512) :
    runOps (I.C J) J (Acc.init (I.C J) garbage) [] [.block value 511, .extract] =
      .error .outOfRange := by
  have hB : (I.C J).blockBits = 512 := rfl
  have hW : (I.C J).wordBits = 64 := rfl
  have h1 : (Acc.init (I.C J) garbage).pushBlock (I.C J) J value 511 =
      .ok { filled := false, total := 511, cache := value, st := I.iv } := by
    unfold Acc.pushBlock Acc.processBlockValue
    simp only [Acc.flush, Acc.init, hB, hW]
    simp [hv, hgb, wrap64, List.take_of_length_le (Nat.le_of_eq hv), List.drop_of_length_le]
    rfl
  have h2 : ({ filled := false, total := 511, cache := value, st := I.iv } : Acc σ).result (I.C J) =
      .error .outOfRange := by
    show MD.digest _ J I.iv value 511 = _
    have hb : (MDHash.tiger192.policy.md I.iv I.compress I.view I.digest0).blockBits = 512 := rfl
    have hmb : (MDHash.tiger192.policy.md I.iv I.compress I.view I.digest0).markBits = 8 := rfl
    unfold MD.digest MD.pad
    simp only [hb, hmb]
    rw [J.run_ok (by omega) (by rw [List.length_replicate]; omega)]
    have hl := J.length_inject (List.replicate 512 false) 1 value 511 0 (by omega)
      (by rw [List.length_replicate]; omega)
    simp only [bind, Except.bind]
    unfold Injector.run
    rw [if_neg]
    intro hc
    have h1 := hc.1
    change 511 + 8 ≤ (J.inject (List.replicate 512 false) 1 value 511 0).length at h1
    rw [hl] at h1
    omega
  exact runOps_push_extract_fault h1 h2

example : runOps ((toy .tiger192).C spliceInjector) spliceInjector
      (Acc.init ((toy .tiger192).C spliceInjector) (List.replicate 512 true)) []
      [.block (List.replicate 512 false) 511, .extract] = .error .outOfRange :=
  C13_tiger_bits_fault (toy .tiger192) spliceInjector _ _ List.length_replicate List.length_replicate

/-! ### C14 -/

/-- C14, the part that holds: pushing words with `acc(word)` after any program appends them, provided
no push except the last one completes a block while the fill level is word-aligned.
Missing: histories in which a word-aligned push completes a block and more data follows; there the
completed block is lost, see `C14_completed_block_is_lost`. -/
theorem C14_word_pushes_partial (I : MDInst h σ) (J : Injector)
    (garbage : Bits) (hgb : garbage.length = h.policy.blockBits)
    (pre : List Op) (hwt : ∀ op ∈ pre, op.WellTyped h.policy.blockBits) (hne : Op.extract ∉ pre)
    (ws : List Bits) (hws : ∀ v ∈ ws, v.length = h.policy.wordBits)
    (hno : ∀ k, k + 1 < ws.length →
      ¬ ((streamOf h.policy.blockBits pre).length % h.policy.wordBits = 0 ∧
        ((streamOf h.policy.blockBits pre).length + (k + 1) * h.policy.wordBits) %
          h.policy.blockBits = 0))
    (hg : GoodMsg h (streamOf h.policy.blockBits pre ++ ws.flatten)) :
    (do let (a, _) ← runOps (I.C J) J (Acc.init (I.C J) garbage) [] pre
        let a ← a.pushWords (I.C J) J ws
        a.result (I.C J)) = .ok (I.spec (streamOf h.policy.blockBits pre ++ ws.flatten)) := by
  obtain ⟨h1, h2, h3, _⟩ := policy_sizes h
  obtain ⟨a, e, r⟩ := I.runOps J pre hwt (I.init J garbage hgb)
    (goodExtracts_of_no_extract _ _ pre hne _) []
  obtain ⟨a1, e1, r1⟩ := r.pushWords (J := J) h1 h2 h3 ws hws hno (I.fits J _)
  obtain ⟨a2, r2, e2⟩ := r1.result
  rw [e]
  show (a.pushWords (I.C J) J ws >>= fun a => a.result (I.C J)) = _
  rw [e1]
  show a1.result (I.C J) = _
  rw [e2]
  exact I.computes J a2 _ r2 hg

/-- Three words on a fresh accumulator. -/
example : (do
      let (a, _) ← runOps ((toy .sha256).C spliceInjector) spliceInjector
        (Acc.init ((toy .sha256).C spliceInjector) (List.replicate 512 true)) [] []
      let a ← a.pushWords ((toy .sha256).C spliceInjector) spliceInjector
        [bigEndian 32 1, bigEndian 32 2, bigEndian 32 3]
      a.result ((toy .sha256).C spliceInjector)) =
    .ok ((toy .sha256).spec (streamOf 512 [] ++
      [bigEndian 32 1, bigEndian 32 2, bigEndian 32 3].flatten)) :=
  C14_word_pushes_partial (toy .sha256) spliceInjector _ List.length_replicate [] (by simp) (by simp)
    _ (by simp [bigEndian, MDHash.policy])
    (by
      intro k hk
      have hk : k + 1 < 3 := hk
      have : k = 0 ∨ k = 1 := by omega
      rcases this with rfl | rfl <;> decide)
    (goodMsg_of_bytes _ (by decide) (by decide))

/-- C14 is false in general: on a fresh accumulator, push the words of one whole block and then one
more word `x`.  The digest is a function of `x` alone: the padded block `x ‖ marker ‖ zeros ‖ length`
with the length of the whole message, compressed into the initial value.  The first block never
reaches the compression function. -/
theorem C14_completed_block_is_lost (I : MDInst h σ) (J : Injector)
    (garbage : Bits) (hgb : garbage.length = h.policy.blockBits)
    (ws : List Bits) (x : Bits) (hws : ∀ v ∈ ws, v.length = h.policy.wordBits)
    (hx : x.length = h.policy.wordBits)
    (hfull : ws.length * h.policy.wordBits = h.policy.blockBits) :
    (do let a ← (Acc.init (I.C J) garbage).pushWords (I.C J) J (ws ++ [x])
        a.result (I.C J)) =
      .ok ((I.view (I.compress I.iv (x ++ (standard h).marker ++
        List.replicate ((standard h).block - h.policy.wordBits - (standard h).marker.length -
          (standard h).length) false ++
        (standard h).encode ((standard h).block + h.policy.wordBits)))).take (standard h).digest) := by
  obtain ⟨h1, h2, h3, h4, _⟩ := policy_sizes h
  have hroom : h.policy.wordBits + (standard h).marker.length + (standard h).length ≤
    h.policy.blockBits := by cases h <;> decide
  have hlt : h.policy.wordBits < h.policy.blockBits := by cases h <;> decide
  have hsmall : h.policy.blockBits + h.policy.wordBits < 2 ^ 64 := by cases h <;> decide
  -- pushing aligned words: the construction state and the flag are never touched
  have key : ∀ (ws : List Bits) (a : Acc σ), (∀ v ∈ ws, v.length = h.policy.wordBits) →
      a.filled = false → a.cache.length = h.policy.blockBits →
      (∃ k, a.total = k * h.policy.wordBits) →
      a.total + ws.length * h.policy.wordBits ≤ h.policy.blockBits →
      ∃ c : Bits, c.length = h.policy.blockBits ∧ a.pushWords (I.C J) J ws =
        .ok { a with cache := c, total := a.total + ws.length * h.policy.wordBits } := by
    intro ws
    induction ws with
    | nil => intro a _ _ hc _ _; exact ⟨a.cache, hc, by simp [Acc.pushWords]⟩
    | cons v ws ih =>
      intro a hv hf hc hk hle
      obtain ⟨k, hk⟩ := hk
      have hvl := hv v (by simp)
      have hlt : a.total < h.policy.blockBits := by
        rw [List.length_cons, Nat.add_mul] at hle; omega
      have hle1 : a.total + h.policy.wordBits ≤ h.policy.blockBits := by
        rw [List.length_cons, Nat.add_mul] at hle; omega
      have e1 : a.pushWord (I.C J) J v 0 = .ok { a with
          cache := a.cache.take a.total ++ v ++ a.cache.drop (a.total + v.length)
          total := a.total + h.policy.wordBits } := by
        unfold Acc.pushWord Acc.processWordValue
        have hCB : (I.C J).blockBits = h.policy.blockBits := rfl
        have hCW : (I.C J).wordBits = h.policy.wordBits := rfl
        have hflush : a.flush (I.C J) = a := by unfold Acc.flush; rw [hf]; rfl
        simp only [hflush, hCB, hCW, if_true, Nat.mod_eq_of_lt hlt]
        rw [hk, Nat.mul_mod_left, if_neg (by simp), Nat.mul_div_cancel _ h2, ← hk,
          if_pos (by omega)]
        simp only [wrap64, Nat.mod_eq_of_lt (show a.total + h.policy.wordBits < 2 ^ 64 by omega)]
      obtain ⟨c, hcl, e2⟩ := ih { a with
          cache := a.cache.take a.total ++ v ++ a.cache.drop (a.total + v.length)
          total := a.total + h.policy.wordBits } (fun y hy => hv y (by simp [hy])) hf
        (by simp; omega) ⟨k + 1, by simp only; rw [hk, Nat.add_mul]; omega⟩
        (by simp only; rw [List.length_cons, Nat.add_mul] at hle; omega)
      refine ⟨c, hcl, ?_⟩
      simp only [Acc.pushWords]
      rw [e1]
      refine e2.trans ?_
      simp only
      rw [List.length_cons, Nat.add_mul]
      congr 2
      omega
  obtain ⟨c, hcl, e⟩ := key ws (Acc.init (I.C J) garbage) hws rfl hgb ⟨0, by simp [Acc.init]⟩
    (by simp [Acc.init, hfull])
  have happ : ∀ (ys zs : List Bits) (a : Acc σ), a.pushWords (I.C J) J (ys ++ zs) =
      (a.pushWords (I.C J) J ys >>= fun a => a.pushWords (I.C J) J zs) := by
    intro ys
    induction ys with
    | nil => intro zs a; rfl
    | cons y ys ih =>
      intro zs a
      simp only [List.cons_append, Acc.pushWords]
      cases a.pushWord (I.C J) J y 0 with
      | error e => rfl
      | ok a' => exact ih zs a'
  have e2 : Acc.pushWords (I.C J) J { Acc.init (I.C J) garbage with
      cache := c, total := (Acc.init (I.C J) garbage).total + ws.length * h.policy.wordBits } [x] =
      .ok { filled := false, total := h.policy.blockBits + h.policy.wordBits,
            cache := x ++ c.drop h.policy.wordBits, st := I.iv } := by
    simp only [Acc.pushWords, Acc.init, Nat.zero_add, hfull]
    unfold Acc.pushWord Acc.processWordValue
    have hCB : (I.C J).blockBits = h.policy.blockBits := rfl
    have hCW : (I.C J).wordBits = h.policy.wordBits := rfl
    simp only [Acc.flush, hCB, hCW, if_true, Nat.mod_self, Nat.zero_mod]
    simp only [Bool.false_eq_true, if_false, ne_eq, not_true_eq_false, Nat.zero_div, Nat.zero_mul,
      Nat.zero_add, List.take_zero, List.nil_append, hx]
    have hcond : h.policy.wordBits ≤ c.length := by omega
    simp [hcond, wrap64, Nat.mod_eq_of_lt hsmall]
    rfl
  rw [happ, e]
  show (Acc.pushWords (I.C J) J _ [x] >>= _) = _
  rw [e2]
  have V := policy_valid h I.iv I.compress I.view I.digest0
  have hmark := policy_mark h I.iv I.compress I.view I.digest0
  have hml := MD.length_mark _ V
  have hwL : h.policy.wordBits ∣ h.policy.lengthBits := by cases h <;> decide
  have hdig : h.policy.digestBits / h.policy.wordBits * h.policy.wordBits = h.policy.digestBits := by
    cases h <;> decide
  have hle : h.policy.digestBits ≤ h.policy.stateBits := by cases h <;> decide
  have hb : h.policy.blockBits = (standard h).block := by cases h <;> rfl
  have hl : h.policy.lengthBits = (standard h).length := by cases h <;> rfl
  have hd : h.policy.digestBits = (standard h).digest := by cases h <;> rfl
  have hmb : (standard h).marker.length = h.policy.markBits := by rw [← hmark, hml]; rfl
  have hmod : (h.policy.blockBits + h.policy.wordBits) % h.policy.blockBits = h.policy.wordBits := by
    rw [Nat.add_mod_left, Nat.mod_eq_of_lt hlt]
  have hLp : 0 < h.policy.lengthBits := by cases h <;> decide
  show MD.digest (h.policy.md I.iv I.compress I.view I.digest0) J I.iv
    (x ++ c.drop h.policy.wordBits) (h.policy.blockBits + h.policy.wordBits) = _
  rw [MD.digest_tail (h.policy.md I.iv I.compress I.view I.digest0) V hwL J (rest := x)
    (st' := I.iv)
    (by intro s; show h.policy.digestBits / h.policy.wordBits * h.policy.wordBits ≤ (I.view s).length
        rw [hdig, I.length_view]; exact hle)
    (by show h.policy.digestBits / h.policy.wordBits * h.policy.wordBits ≤ I.digest0.length
        rw [hdig, I.length_digest0]; exact Nat.le_refl _)
    (by show _ = h.policy.blockBits; simp [hx, hcl]; omega)
    (by show List.take ((h.policy.blockBits + h.policy.wordBits) % h.policy.blockBits) _ = _
        rw [hmod, ← hx, List.take_left])
    (by show _ = (h.policy.blockBits + h.policy.wordBits) % h.policy.blockBits; rw [hmod, hx])
    (by
      show (if h.policy.blockBits + h.policy.wordBits ≠ 0 ∧
        (h.policy.blockBits + h.policy.wordBits) % h.policy.blockBits = 0 then _ else _) = _
      rw [hmod, if_neg (by omega)])
    (by show (h.policy.blockBits + h.policy.wordBits) % h.policy.blockBits + h.policy.markBits ≤
          h.policy.blockBits
        rw [hmod]; omega)]
  congr 1
  unfold MD.output
  show (I.view _).take (h.policy.digestBits / h.policy.wordBits * h.policy.wordBits) ++
    I.digest0.drop (h.policy.digestBits / h.policy.wordBits * h.policy.wordBits) = _
  rw [hdig, List.drop_of_length_le (Nat.le_of_eq I.length_digest0), List.append_nil, hd, hmark,
    ← Nat.mod_eq_of_lt hsmall, policy_enc h _ _ _ _ _ (Or.inr hsmall)]
  congr 2
  show (blocks h.policy.blockBits (x ++ (standard h).marker ++ List.replicate
    (fillTo h.policy.blockBits (x.length + h.policy.markBits + h.policy.lengthBits)) false ++
    (standard h).encode (h.policy.blockBits + h.policy.wordBits))).foldl I.compress I.iv = _
  rw [← hmb, fillTo_of_le (by omega) (by omega), hx, ← hb, ← hl,
    show h.policy.blockBits - (h.policy.wordBits + (standard h).marker.length + h.policy.lengthBits) =
      h.policy.blockBits - h.policy.wordBits - (standard h).marker.length - h.policy.lengthBits by omega,
    blocks_single h1]
  · rfl
  · simp [length_encode, hx]; omega

/-- Sixteen words and a seventeenth, SHA-256. -/
example : (do
      let a ← (Acc.init ((toy .sha256).C spliceInjector) (List.replicate 512 true)).pushWords
        ((toy .sha256).C spliceInjector) spliceInjector
        (((List.range 16).map (bigEndian 32)) ++ [bigEndian 32 99])
      a.result ((toy .sha256).C spliceInjector)) =
    .ok (((toy .sha256).view ((toy .sha256).compress (toy .sha256).iv (bigEndian 32 99 ++ [true] ++
      List.replicate 415 false ++ bigEndian 64 544))).take 256) :=
  C14_completed_block_is_lost (toy .sha256) spliceInjector _ List.length_replicate _ _
    (by simp [bigEndian, MDHash.policy]) (by simp [bigEndian, MDHash.policy]) (by decide)

/-- C14 as claimed is false: there are word sequences whose digest is not the digest of their
concatenation (and different word sequences that collide). -/
theorem C14_false : ¬ ∀ (I : MDInst .sha256 Nat) (J : Injector) (garbage : Bits) (ws : List Bits),
    garbage.length = 512 → (∀ v ∈ ws, v.length = 32) → GoodMsg .sha256 ws.flatten →
    (do let a ← (Acc.init (I.C J) garbage).pushWords (I.C J) J ws
        a.result (I.C J)) = .ok (I.spec ws.flatten) := by
  intro hall
  have e1 := C14_completed_block_is_lost (toy .sha256) spliceInjector (List.replicate 512 false)
    List.length_replicate (List.replicate 16 (bigEndian 32 0)) (bigEndian 32 7)
    (by intro v hv; rw [List.eq_of_mem_replicate hv]; rfl) rfl rfl
  have e2 := hall (toy .sha256) spliceInjector (List.replicate 512 false)
    (List.replicate 16 (bigEndian 32 0) ++ [bigEndian 32 7]) List.length_replicate
    (by
      intro v hv
      rcases List.mem_append.1 hv with hv | hv
      · rw [List.eq_of_mem_replicate hv]; rfl
      · rw [List.mem_singleton.1 hv]; rfl)
    ⟨by decide +kernel, by decide +kernel, by decide +kernel⟩
  rw [e1] at e2
  injection e2 with e2
  revert e2
  decide +kernel

/-! ### C17 -/

/-- C17: two programs that feed different messages (below 2^64 bits) and obtain the same full-state
digest exhibit, among the compression calls prescribed for the two messages, two different inputs with
the same output.  `hfull`, `hinj`: the digest is the whole chaining value. -/
theorem C17_collision_reduction (I : MDInst h σ) (J : Injector)
    (hfull : (standard h).digest = h.policy.stateBits) (hinj : Function.Injective I.view)
    (garbage garbage' : Bits) (hgb : garbage.length = h.policy.blockBits)
    (hgb' : garbage'.length = h.policy.blockBits)
    (ops ops' : List Op) (hwt : ∀ op ∈ ops, op.WellTyped h.policy.blockBits)
    (hwt' : ∀ op ∈ ops', op.WellTyped h.policy.blockBits)
    (hx : GoodExtracts h.policy.blockBits (GoodMsg h) [] ops) (hx' : GoodExtracts h.policy.blockBits (GoodMsg h) [] ops')
    (hg : GoodMsg h (streamOf h.policy.blockBits ops))
    (hg' : GoodMsg h (streamOf h.policy.blockBits ops'))
    (hl : (streamOf h.policy.blockBits ops).length < 2 ^ 64)
    (hl' : (streamOf h.policy.blockBits ops').length < 2 ^ 64)
    (hdiff : streamOf h.policy.blockBits ops ≠ streamOf h.policy.blockBits ops')
    (hcoll : (do let (a, _) ← runOps (I.C J) J (Acc.init (I.C J) garbage) [] ops
                 a.result (I.C J)) =
      (do let (a, _) ← runOps (I.C J) J (Acc.init (I.C J) garbage') [] ops'
          a.result (I.C J))) :
    CollisionInRuns I.compress I.iv
      (blocks (standard h).block (paddedMessage h (streamOf h.policy.blockBits ops)))
      (blocks (standard h).block (paddedMessage h (streamOf h.policy.blockBits ops'))) := by
  obtain ⟨a, e, r⟩ := I.runOps J ops hwt (I.init J garbage hgb)
    hx []
  obtain ⟨a', e', r'⟩ := I.runOps J ops' hwt' (I.init J garbage' hgb')
    hx' []
  rw [e, e'] at hcoll
  change a.result (I.C J) = a'.result (I.C J) at hcoll
  rw [List.nil_append] at r r'
  rw [I.computes J a _ r hg, I.computes J a' _ r' hg'] at hcoll
  injection hcoll with hcoll
  unfold MDInst.spec mdDigest at hcoll
  rw [List.take_of_length_le (by rw [I.length_view, hfull]; exact Nat.le_refl _),
    List.take_of_length_le (by rw [I.length_view, hfull]; exact Nat.le_refl _)] at hcoll
  exact md_collision h I.compress I.iv hdiff hl hl' (hinj hcoll)

/-- The hypotheses on the hash hold for all hashes but SHA-224 and SHA-384. -/
theorem C17_full_state (h : MDHash) :
    (standard h).digest = h.policy.stateBits ↔ h ≠ .sha224 ∧ h ≠ .sha384 := by
  cases h <;> decide

example : (standard .sha256).digest = MDHash.sha256.policy.stateBits ∧ (standard .sha384).digest ≠ MDHash.sha384.policy.stateBits :=
  ⟨(C17_full_state .sha256).2 (by decide), fun h => ((C17_full_state .sha384).1 h).2 rfl⟩

/-- C17 for every hash, in particular for the truncated digests of SHA-224 and SHA-384: two different messages with
the same digest give a collision of the compression function, or the two final chaining values differ and agree in the
bits that the digest shows. -/
theorem C17_truncated (I : MDInst h σ) (J : Injector)
    (garbage garbage' : Bits) (hgb : garbage.length = h.policy.blockBits)
    (hgb' : garbage'.length = h.policy.blockBits)
    (ops ops' : List Op) (hwt : ∀ op ∈ ops, op.WellTyped h.policy.blockBits)
    (hwt' : ∀ op ∈ ops', op.WellTyped h.policy.blockBits)
    (hx : GoodExtracts h.policy.blockBits (GoodMsg h) [] ops) (hx' : GoodExtracts h.policy.blockBits (GoodMsg h) [] ops')
    (hg : GoodMsg h (streamOf h.policy.blockBits ops))
    (hg' : GoodMsg h (streamOf h.policy.blockBits ops'))
    (hl : (streamOf h.policy.blockBits ops).length < 2 ^ 64)
    (hl' : (streamOf h.policy.blockBits ops').length < 2 ^ 64)
    (hdiff : streamOf h.policy.blockBits ops ≠ streamOf h.policy.blockBits ops')
    (hcoll : (do let (a, _) ← runOps (I.C J) J (Acc.init (I.C J) garbage) [] ops
                 a.result (I.C J)) =
      (do let (a, _) ← runOps (I.C J) J (Acc.init (I.C J) garbage') [] ops'
          a.result (I.C J))) :
    let A := blocks (standard h).block (paddedMessage h (streamOf h.policy.blockBits ops))
    let B := blocks (standard h).block (paddedMessage h (streamOf h.policy.blockBits ops'))
    CollisionInRuns I.compress I.iv A B ∨
      (A.foldl I.compress I.iv ≠ B.foldl I.compress I.iv ∧
        (I.view (A.foldl I.compress I.iv)).take (standard h).digest =
          (I.view (B.foldl I.compress I.iv)).take (standard h).digest) := by
  obtain ⟨a, e, r⟩ := I.runOps J ops hwt (I.init J garbage hgb)
    hx []
  obtain ⟨a', e', r'⟩ := I.runOps J ops' hwt' (I.init J garbage' hgb')
    hx' []
  rw [e, e'] at hcoll
  change a.result (I.C J) = a'.result (I.C J) at hcoll
  rw [List.nil_append] at r r'
  rw [I.computes J a _ r hg, I.computes J a' _ r' hg'] at hcoll
  injection hcoll with hcoll
  intro A B
  by_cases hs : A.foldl I.compress I.iv = B.foldl I.compress I.iv
  · exact Or.inl (md_collision h I.compress I.iv hdiff hl hl' hs)
  · exact Or.inr ⟨hs, hcoll⟩

/-- A weak compression function (constant) with an injective view: the reduction applies. -/
def weak : MDInst .sha256 (Fin 256) where
  iv := 3
  compress _ _ := 7
  view x := (List.range 256).map (fun i => x.val.testBit i)
  length_view := by simp [MDHash.policy]
  digest0 := List.replicate 256 false
  length_digest0 := List.length_replicate

example : CollisionInRuns weak.compress weak.iv
    (blocks 512 (paddedMessage .sha256 (streamOf 512 [feedBytes bigOctetBigBit [1]])))
    (blocks 512 (paddedMessage .sha256 (streamOf 512 [feedBytes bigOctetBigBit [2]]))) :=
  have wt : ∀ (n : Nat) (op : Op), op ∈ [feedBytes bigOctetBigBit [n]] → op.WellTyped 512 := by
    intro n op hop
    rw [List.mem_singleton.1 hop]; exact feedBytes_wellTyped _ _
  have good : ∀ n : Nat, GoodMsg .sha256 (streamOf 512 [feedBytes bigOctetBigBit [n]]) := fun n =>
    goodMsg_of_bytes _ (by simp [streamOf, feedBytes, Op.stream, wordElem, Endian.view])
      (by simp [streamOf, feedBytes, Op.stream, wordElem, Endian.view])
  C17_collision_reduction weak spliceInjector rfl
    (by
      intro x y hxy
      apply Fin.eq_of_val_eq
      apply Nat.eq_of_testBit_eq
      intro i
      by_cases hi : i < 256
      · exact List.map_inj_left.1 hxy i (List.mem_range.2 hi)
      · have hp : (256 : Nat) ≤ 2 ^ i :=
          Nat.le_trans (by decide : 256 ≤ 2 ^ 256) (Nat.pow_le_pow_right (by omega) (by omega))
        rw [Nat.testBit_lt_two_pow (Nat.lt_of_lt_of_le x.isLt hp),
          Nat.testBit_lt_two_pow (Nat.lt_of_lt_of_le y.isLt hp)])
    (List.replicate 512 true) (List.replicate 512 true) List.length_replicate List.length_replicate
    [feedBytes bigOctetBigBit [1]] [feedBytes bigOctetBigBit [2]] (wt 1) (wt 2)
    trivial trivial (good 1) (good 2) (by decide) (by decide) (by decide)
    (by
      obtain ⟨a, e, r⟩ := weak.runOps spliceInjector [feedBytes bigOctetBigBit [1]] (wt 1)
        (weak.init spliceInjector (List.replicate 512 true) List.length_replicate)
        (goodExtracts_of_no_extract _ _ _ (by simp [feedBytes]) _) []
      obtain ⟨a', e', r'⟩ := weak.runOps spliceInjector [feedBytes bigOctetBigBit [2]] (wt 2)
        (weak.init spliceInjector (List.replicate 512 true) List.length_replicate)
        (goodExtracts_of_no_extract _ _ _ (by simp [feedBytes]) _) []
      rw [e, e']
      show a.result (weak.C spliceInjector) = a'.result (weak.C spliceInjector)
      rw [weak.computes spliceInjector a _ r (good 1), weak.computes spliceInjector a' _ r' (good 2)]
      exact congrArg Except.ok (by decide +kernel))

/-- A truncated digest that shows nothing of the chaining value. -/
def blind : MDInst .sha224 Nat where
  iv := 3
  compress := toyCompress
  view x := List.replicate 224 false ++ (List.range 32).map x.testBit
  length_view x := by rw [List.length_append, List.length_replicate, List.length_map, List.length_range]; rfl
  digest0 := List.replicate 224 false
  length_digest0 := List.length_replicate

example : let A := blocks 512 (paddedMessage .sha224 (streamOf 512 [feedBytes bigOctetBigBit [1]]))
    let B := blocks 512 (paddedMessage .sha224 (streamOf 512 [feedBytes bigOctetBigBit [2]]))
    CollisionInRuns toyCompress 3 A B ∨ (A.foldl toyCompress 3 ≠ B.foldl toyCompress 3 ∧
      (blind.view (A.foldl toyCompress 3)).take 224 = (blind.view (B.foldl toyCompress 3)).take 224) :=
  have wt : ∀ (n : Nat) (op : Op), op ∈ [feedBytes bigOctetBigBit [n]] → op.WellTyped 512 := by
    intro n op hop
    rw [List.mem_singleton.1 hop]; exact feedBytes_wellTyped _ _
  have good : ∀ n : Nat, GoodMsg .sha224 (streamOf 512 [feedBytes bigOctetBigBit [n]]) := fun n =>
    goodMsg_of_bytes _ (by simp [streamOf, feedBytes, Op.stream, wordElem, Endian.view])
      (by simp [streamOf, feedBytes, Op.stream, wordElem, Endian.view])
  C17_truncated blind spliceInjector
    (List.replicate 512 true) (List.replicate 512 true) List.length_replicate List.length_replicate
    [feedBytes bigOctetBigBit [1]] [feedBytes bigOctetBigBit [2]] (wt 1) (wt 2)
    trivial trivial (good 1) (good 2) (by decide) (by decide) (by decide)
    (by
      obtain ⟨a, e, r⟩ := blind.runOps spliceInjector [feedBytes bigOctetBigBit [1]] (wt 1)
        (blind.init spliceInjector (List.replicate 512 true) List.length_replicate)
        (goodExtracts_of_no_extract _ _ _ (by simp [feedBytes]) _) []
      obtain ⟨a', e', r'⟩ := blind.runOps spliceInjector [feedBytes bigOctetBigBit [2]] (wt 2)
        (blind.init spliceInjector (List.replicate 512 true) List.length_replicate)
        (goodExtracts_of_no_extract _ _ _ (by simp [feedBytes]) _) []
      rw [e, e']
      show a.result (blind.C spliceInjector) = a'.result (blind.C spliceInjector)
      rw [blind.computes spliceInjector a _ r (good 1), blind.computes spliceInjector a' _ r' (good 2)]
      exact congrArg Except.ok (by decide +kernel))

/-! ### C19 -/

/-- The instantiation whose chaining value is the list of the blocks compressed so far; `view` is an
arbitrary function of that list, so the digest shows the complete list of compression calls. -/
def tracing (h : MDHash) (view : List Bits → Bits) (hv : ∀ s, (view s).length = h.policy.stateBits)
    (d0 : Bits) (hd0 : d0.length = h.policy.digestBits) : MDInst h (List Bits) where
  iv := []
  compress t b := t ++ [b]
  view := view
  length_view := hv
  digest0 := d0
  length_digest0 := hd0

theorem foldl_trace (xs t : List Bits) : xs.foldl (fun t b => t ++ [b]) t = t ++ xs := by
  induction xs generalizing t with
  | nil => simp
  | cons x xs ih => simp [ih]

/-- C19: however the message is fed (and whatever was extracted in between), the compression calls
behind an extracted digest are exactly one per block of the padded message, in order: nothing is
compressed twice, dropped or reordered. -/
theorem C19_compression_calls (view : List Bits → Bits)
    (hv : ∀ s, (view s).length = h.policy.stateBits) (d0 : Bits)
    (hd0 : d0.length = h.policy.digestBits) (J : Injector)
    (garbage : Bits) (hgb : garbage.length = h.policy.blockBits)
    (ops : List Op) (hwt : ∀ op ∈ ops, op.WellTyped h.policy.blockBits)
    (hg : GoodExtracts h.policy.blockBits (GoodMsg h) [] ops)
    (hgf : GoodMsg h (streamOf h.policy.blockBits ops)) :
    (do let (a, _) ← runOps ((tracing h view hv d0 hd0).C J) J
          (Acc.init ((tracing h view hv d0 hd0).C J) garbage) [] ops
        a.result ((tracing h view hv d0 hd0).C J)) =
      .ok ((view (blocks (standard h).block
        (paddedMessage h (streamOf h.policy.blockBits ops)))).take (standard h).digest) := by
  obtain ⟨a, e, r⟩ := (tracing h view hv d0 hd0).runOps J ops hwt
    ((tracing h view hv d0 hd0).init J garbage hgb) hg []
  rw [e]
  show a.result ((tracing h view hv d0 hd0).C J) = _
  rw [(tracing h view hv d0 hd0).computes J a _ r (by simpa using hgf)]
  congr 1
  unfold MDInst.spec mdDigest
  rw [show (tracing h view hv d0 hd0).compress = fun t b => t ++ [b] from rfl, foldl_trace]
  rfl

theorem length_counting (s : List Bits) : (bigEndian 256 s.length).length = MDHash.sha256.policy.stateBits := by
  simp [bigEndian, MDHash.policy]

/-- A view that shows the number of compressions. -/
def counting : MDInst .sha256 (List Bits) :=
  tracing .sha256 (fun t => bigEndian 256 t.length) length_counting (List.replicate 256 true) List.length_replicate

/-- SHA-256 of 60 octets: two compressions. -/
example : (do
      let (a, _) ← runOps (counting.C spliceInjector) spliceInjector
        (Acc.init (counting.C spliceInjector) (List.replicate 512 true)) [] [feedBytes bigOctetBigBit (List.range 60)]
      a.result (counting.C spliceInjector)) = .ok (bigEndian 256 2) :=
  (C19_compression_calls (h := .sha256) (fun t => bigEndian 256 t.length) length_counting
    (List.replicate 256 true) List.length_replicate spliceInjector (List.replicate 512 true) List.length_replicate
    [feedBytes bigOctetBigBit (List.range 60)]
    (by
      intro op hop
      rw [List.mem_singleton.1 hop]
      exact feedBytes_wellTyped _ _)
    trivial (goodMsg_of_bytes _ (by decide +kernel) (by decide +kernel))).trans
    (congrArg Except.ok (by decide +kernel))

/-- C19: the number of these calls is `⌈(n + marker + length field) / block⌉`. -/
theorem C19_number_of_calls (h : MDHash) (m : Bits) :
    (blocks (standard h).block (paddedMessage h m)).length =
      (m.length + (standard h).marker.length + (standard h).length + ((standard h).block - 1)) /
        (standard h).block := by
  have hB : 0 < (standard h).block := by cases h <;> decide
  rw [length_blocks, length_paddedMessage]
  have h1 := fillTo_spec hB (m.length + (standard h).marker.length + (standard h).length)
  have h2 := fillTo_lt hB (m.length + (standard h).marker.length + (standard h).length)
  generalize m.length + (standard h).marker.length + (standard h).length = t at *
  generalize fillTo (standard h).block t = z at *
  generalize (standard h).block = B at *
  obtain ⟨u, hu⟩ := h1
  rw [hu, Nat.mul_div_cancel_left _ hB, show t + (B - 1) = B * u + (B - 1 - z) by omega,
    Nat.mul_add_div hB, Nat.div_eq_of_lt (by omega), Nat.add_zero]

/-- For the bit-marker hashes this is the claimed `⌈(n + 1 + length_bits) / block_bits⌉`; for example
55 bytes need one SHA-256 call, 56 bytes need two. -/
example : (blocks 512 (paddedMessage .sha256 (octetBits (List.range 55)))).length = 1 ∧
    (blocks 512 (paddedMessage .sha256 (octetBits (List.range 56)))).length = 2 := by
  constructor <;> refine (C19_number_of_calls .sha256 _).trans ?_ <;> rw [length_octetBits] <;>
    simp [standard]

/-! ### C20 -/

/-- C20: after any program the length held by the accumulator is the number of bits fed, modulo
2^64. -/
theorem C20_length_accounting (I : MDInst h σ) (J : Injector)
    (garbage : Bits) (hgb : garbage.length = h.policy.blockBits)
    (ops : List Op) (hwt : ∀ op ∈ ops, op.WellTyped h.policy.blockBits)
    (hg : GoodExtracts h.policy.blockBits (fun m => (standard h).marker.length ∣ m.length) [] ops) :
    ∃ a out, runOps (I.C J) J (Acc.init (I.C J) garbage) [] ops = .ok (a, out) ∧
      a.total = (streamOf h.policy.blockBits ops).length % 2 ^ 64 := by
  obtain ⟨h1, h2, h3, _⟩ := policy_sizes h
  obtain ⟨a, out, e, r⟩ := runOps_ok (C := I.C J) (J := J) (out := []) h1 h2 h3
    (fun a m hr hm => I.result_ok J hr hm) ops (I.init J garbage hgb) hwt (I.fits J _) hg
  rw [List.nil_append] at r
  exact ⟨a, out, e, r.total⟩

example : ∃ a out, runOps ((toy .sha1).C spliceInjector) spliceInjector
      (Acc.init ((toy .sha1).C spliceInjector) (List.replicate 512 true)) []
      [feedBytes bigOctetBigBit (List.range 70), .extract, .block (List.replicate 512 true) 3] = .ok (a, out) ∧
    a.total = 563 := by
  obtain ⟨a, out, e, ht⟩ := C20_length_accounting (toy .sha1) spliceInjector (List.replicate 512 true)
    List.length_replicate
    [feedBytes bigOctetBigBit (List.range 70), .extract, .block (List.replicate 512 true) 3]
    (by
      intro op hop
      simp only [List.mem_cons, List.not_mem_nil, or_false] at hop
      rcases hop with rfl | rfl | rfl
      · exact feedBytes_wellTyped _ _
      · trivial
      · exact ⟨List.length_replicate, by decide⟩)
    ⟨by decide +kernel, trivial⟩
  exact ⟨a, out, e, ht.trans (by decide +kernel)⟩

/-- C20: the encoded length is the true length modulo 2^64, for messages of any length (in particular
beyond 2^64 bits) except the non-zero multiples of 2^64. -/
theorem C20_encoded_length (I : MDInst h σ) (J : Injector)
    (garbage : Bits) (hgb : garbage.length = h.policy.blockBits)
    (ops : List Op) (hwt : ∀ op ∈ ops, op.WellTyped h.policy.blockBits) (hne : Op.extract ∉ ops)
    (hm : (standard h).marker.length ∣ (streamOf h.policy.blockBits ops).length)
    (hw : (streamOf h.policy.blockBits ops).length = 0 ∨
      (streamOf h.policy.blockBits ops).length % 2 ^ 64 ≠ 0) :
    (do let (a, _) ← runOps (I.C J) J (Acc.init (I.C J) garbage) [] ops
        a.result (I.C J)) =
      .ok ((I.view (mdState (standard h).block (standard h).length (standard h).marker
        (fun n => (standard h).encode (n % 2 ^ 64)) I.iv I.compress
        (streamOf h.policy.blockBits ops))).take (standard h).digest) := by
  obtain ⟨a, e, r⟩ := I.runOps J ops hwt (I.init J garbage hgb)
    (goodExtracts_of_no_extract _ _ ops hne _) []
  rw [e]
  show a.result (I.C J) = _
  rw [List.nil_append] at r
  have hdig : h.policy.digestBits / h.policy.wordBits * h.policy.wordBits = h.policy.digestBits := by
    cases h <;> decide
  have hle : h.policy.digestBits ≤ h.policy.stateBits := by cases h <;> decide
  have hwL : h.policy.wordBits ∣ h.policy.lengthBits := by cases h <;> decide
  have V := policy_valid h I.iv I.compress I.view I.digest0
  have hmark := policy_mark h I.iv I.compress I.view I.digest0
  have hml := MD.length_mark _ V
  rw [hmark] at hml
  rw [MD.result_spec (h.policy.md I.iv I.compress I.view I.digest0) V hwL J
    (by intro s; show h.policy.digestBits / h.policy.wordBits * h.policy.wordBits ≤ (I.view s).length
        rw [hdig, I.length_view]; exact hle)
    (by show h.policy.digestBits / h.policy.wordBits * h.policy.wordBits ≤ I.digest0.length
        rw [hdig, I.length_digest0]; exact Nat.le_refl _)
    r (by rw [← hml]; exact hm) hw]
  congr 1
  unfold MD.output
  show (I.view _).take (h.policy.digestBits / h.policy.wordBits * h.policy.wordBits) ++
    I.digest0.drop (h.policy.digestBits / h.policy.wordBits * h.policy.wordBits) = _
  rw [hdig, List.drop_of_length_le (Nat.le_of_eq I.length_digest0), List.append_nil, hmark]
  have hb : (h.policy.md I.iv I.compress I.view I.digest0).blockBits = (standard h).block := by
    cases h <;> rfl
  have hl : (h.policy.md I.iv I.compress I.view I.digest0).lengthBits = (standard h).length := by
    cases h <;> rfl
  have hd : h.policy.digestBits = (standard h).digest := by cases h <;> rfl
  have henc : (fun n => (h.policy.md I.iv I.compress I.view I.digest0).enc (n % 2 ^ 64)) =
      fun n => (standard h).encode (n % 2 ^ 64) := by
    funext n
    rw [← policy_enc h I.iv I.compress I.view I.digest0 (n % 2 ^ 64)
      (Or.inr (Nat.mod_lt _ (by decide))), Nat.mod_mod]
  rw [hb, hl, hd, henc]
  rfl

/-- Any number of full blocks and then five bits: no bound on the length. -/
example (n : Nat) : (do
      let (a, _) ← runOps ((toy .sha256).C spliceInjector) spliceInjector
        (Acc.init ((toy .sha256).C spliceInjector) (List.replicate 512 true)) []
        (List.replicate n (Op.block (List.replicate 512 true) 0) ++ [Op.block (List.replicate 512 true) 5])
      a.result ((toy .sha256).C spliceInjector)) =
    .ok (((toy .sha256).view (mdState 512 64 [true] (fun l => bigEndian 64 (l % 2 ^ 64)) (toy .sha256).iv
      (toy .sha256).compress (List.replicate (512 * n + 5) true))).take 256) := by
  have hs : streamOf 512 (List.replicate n (Op.block (List.replicate 512 true) 0) ++
      [Op.block (List.replicate 512 true) 5]) = List.replicate (512 * n + 5) true := by
    induction n with
    | zero => rfl
    | succ n ih =>
      rw [List.replicate_succ, List.cons_append, streamOf, List.flatMap_cons, ← streamOf, ih]
      simp only [Op.stream, show (0 : Nat) = 0 from rfl, if_true]
      rw [List.take_of_length_le (Nat.le_of_eq List.length_replicate), List.replicate_append_replicate]
      congr 1
      omega
  have := C20_encoded_length (toy .sha256) spliceInjector (List.replicate 512 true) List.length_replicate
    (List.replicate n (Op.block (List.replicate 512 true) 0) ++ [Op.block (List.replicate 512 true) 5])
    (by
      intro op hop
      simp only [List.mem_append, List.mem_replicate, List.mem_singleton] at hop
      rcases hop with ⟨-, rfl⟩ | rfl <;> exact ⟨List.length_replicate, by decide⟩)
    (by
      intro hx
      simp only [List.mem_append, List.mem_replicate, List.mem_singleton] at hx
      rcases hx with ⟨-, hx⟩ | hx <;> cases hx)
    (by rw [show (standard .sha256).marker.length = 1 from rfl]; exact Nat.one_dvd _)
    (Or.inr (by
      rw [show MDHash.sha256.policy.blockBits = 512 from rfl, hs, List.length_replicate]
      omega))
  rw [show MDHash.sha256.policy.blockBits = 512 from rfl, hs] at this
  exact this

/-- C20, `bits_count`: in an accumulator set with both features, after any updates in which direct
block pushes carry a positive `bits` argument, `bits_count` equals the length held by the hash, which
is the number of bits fed modulo 2^64. -/
theorem C20_bits_count (I : MDInst h σ) (J : Injector)
    (garbage : Bits) (hgb : garbage.length = h.policy.blockBits)
    (ops : List Op) (hwt : ∀ op ∈ ops, op.WellTyped h.policy.blockBits)
    (hpos : ∀ value bits, Op.block value bits ∈ ops → 0 < bits) :
    ∃ a cnt, runUpdates (countedPush (I.C J) J) h.policy.blockBits
        (Acc.init (I.C J) garbage, 0) ops = .ok (a, cnt) ∧
      cnt = a.total ∧ cnt = (streamOf h.policy.blockBits ops).length % 2 ^ 64 := by
  obtain ⟨h1, h2, h3, _⟩ := policy_sizes h
  have P : Pushes (countedPush (I.C J) J) h.policy.blockBits (fun _ => True)
      (fun s m => Rep (I.C J) s.1 m ∧ s.2 = wrap64 m.length) := by
    refine ⟨fun _ _ => trivial, ?_⟩
    intro s m value bits hr h0 hb hv _
    obtain ⟨a', e, r⟩ := hr.1.pushBlock (J := J) h2 h3 h0 hb hv (I.fits J _)
    refine ⟨(a', bitsCountPush s.2 bits), ?_, r, ?_⟩
    · simp only [countedPush]; rw [e]; rfl
    · simp only [bitsCountPush]
      rw [hr.2, wrap64_add]
      congr 1
      simp [hv]; omega
  have key : ∀ (ops : List Op) (s : Acc σ × Nat) (m : Bits),
      (∀ op ∈ ops, op.WellTyped h.policy.blockBits) →
      (∀ value bits, Op.block value bits ∈ ops → 0 < bits) →
      Rep (I.C J) s.1 m ∧ s.2 = wrap64 m.length →
      ∃ s', runUpdates (countedPush (I.C J) J) h.policy.blockBits s ops = .ok s' ∧
        Rep (I.C J) s'.1 (m ++ streamOf h.policy.blockBits ops) ∧
        s'.2 = wrap64 (m ++ streamOf h.policy.blockBits ops).length := by
    intro ops
    induction ops with
    | nil => intro s m _ _ hr; exact ⟨s, rfl, by simpa [streamOf] using hr⟩
    | cons op ops ih =>
      intro s m hw hp hr
      have hw' : ∀ o ∈ ops, o.WellTyped h.policy.blockBits := fun o ho => hw o (by simp [ho])
      have hp' : ∀ value bits, Op.block value bits ∈ ops → 0 < bits :=
        fun v b hb => hp v b (by simp [hb])
      have hop := hw op (by simp)
      have step : ∃ s1, op.update (countedPush (I.C J) J) h.policy.blockBits s = .ok s1 ∧
          Rep (I.C J) s1.1 (m ++ op.stream h.policy.blockBits) ∧
          s1.2 = wrap64 (m ++ op.stream h.policy.blockBits).length := by
        cases op with
        | extract => exact ⟨s, rfl, by simpa [Op.stream] using hr⟩
        | block value bits =>
          have h0 := hp value bits (by simp)
          have := P.push hr h0 hop.2 hop.1 trivial
          simp only [Op.stream, if_neg (show ¬ bits = 0 by omega)]
          exact this
        | feed E k cache0 xs =>
          exact feedSet_rep P ⟨h1, hop.1, hop.2.1⟩ hr k cache0 xs hop.2.2 trivial
      obtain ⟨s1, e1, r1⟩ := step
      obtain ⟨s2, e2, r2⟩ := ih s1 _ hw' hp' r1
      refine ⟨s2, ?_, ?_⟩
      · simp only [runUpdates]; rw [e1]; exact e2
      · rw [streamOf_cons, ← List.append_assoc]; exact r2
  obtain ⟨s, e, r, hc⟩ := key ops (Acc.init (I.C J) garbage, 0) [] hwt hpos
    ⟨I.init J garbage hgb, rfl⟩
  rw [List.nil_append] at r hc
  exact ⟨s.1, s.2, e, by rw [hc, r.total], hc⟩

example : ∃ a cnt, runUpdates (countedPush ((toy .md5).C spliceInjector) spliceInjector) MDHash.md5.policy.blockBits
    (Acc.init ((toy .md5).C spliceInjector) (List.replicate 512 true), 0)
      [feedBytes littleOctetBigBit (List.range 65)] = .ok (a, cnt) ∧ cnt = a.total ∧
    cnt = (streamOf MDHash.md5.policy.blockBits [feedBytes littleOctetBigBit (List.range 65)]).length % 2 ^ 64 :=
  C20_bits_count (toy .md5) spliceInjector (List.replicate 512 true) List.length_replicate
    [feedBytes littleOctetBigBit (List.range 65)]
    (by intro op hop; rw [List.mem_singleton.1 hop]; exact feedBytes_wellTyped _ _)
    (by intro v b hb; simp [feedBytes] at hb)

/-- The restriction to positive `bits` is needed: a push of a whole block without `bits` is counted by
the hash but not by `bits_count`. -/
theorem C20_bits_count_ignores_default_push (I : MDInst h σ) (J : Injector)
    (garbage value : Bits) (hgb : garbage.length = h.policy.blockBits)
    (hv : value.length = h.policy.blockBits) :
    ∃ a, runUpdates (countedPush (I.C J) J) h.policy.blockBits
        (Acc.init (I.C J) garbage, 0) [.block value 0] = .ok (a, 0) ∧
      a.total = h.policy.blockBits := by
  obtain ⟨h1, h2, h3, _⟩ := policy_sizes h
  have hlt : h.policy.blockBits < 2 ^ 64 := by cases h <;> decide
  obtain ⟨a, e, r⟩ := (I.init J garbage hgb).pushBlock_zero (J := J) h1 h2 h3 hv (I.fits J _)
  refine ⟨a, ?_, ?_⟩
  · simp only [runUpdates, Op.update, countedPush]
    rw [e]; rfl
  · have := r.total
    rw [this, List.nil_append, hv, wrap64, Nat.mod_eq_of_lt hlt]

example : ∃ a, runUpdates (countedPush ((toy .md4).C spliceInjector) spliceInjector) 512
      (Acc.init ((toy .md4).C spliceInjector) (List.replicate 512 true), 0)
      [.block (List.replicate 512 false) 0] = .ok (a, 0) ∧ a.total = 512 :=
  C20_bits_count_ignores_default_push (toy .md4) spliceInjector _ _ List.length_replicate
    List.length_replicate

/-- C20, the excluded case: if the message length is a non-zero multiple of 2^64 bits the counter is
zero, the code takes the message for empty and never compresses its last block: the digest does not
depend on the last block of the message. -/
theorem C20_wrapped_counter_drops_last_block (I : MDInst h σ) (J : Injector)
    (garbage : Bits) (hgb : garbage.length = h.policy.blockBits)
    (ops : List Op) (hwt : ∀ op ∈ ops, op.WellTyped h.policy.blockBits) (hne : Op.extract ∉ ops)
    (hpos : 0 < (streamOf h.policy.blockBits ops).length)
    (hdvd : 2 ^ 64 ∣ (streamOf h.policy.blockBits ops).length) :
    (do let (a, _) ← runOps (I.C J) J (Acc.init (I.C J) garbage) [] ops
        a.result (I.C J)) =
      .ok ((I.view (I.compress
        ((blocks (standard h).block ((streamOf h.policy.blockBits ops).take
          ((streamOf h.policy.blockBits ops).length - (standard h).block))).foldl I.compress I.iv)
        ((standard h).marker ++ List.replicate ((standard h).block - (standard h).marker.length -
          (standard h).length) false ++ (standard h).encode 0))).take (standard h).digest) := by
  obtain ⟨h1, h2, h3, h4, _⟩ := policy_sizes h
  obtain ⟨a, e, r⟩ := I.runOps J ops hwt (I.init J garbage hgb)
    (goodExtracts_of_no_extract _ _ ops hne _) []
  rw [e]
  show a.result (I.C J) = _
  rw [List.nil_append] at r
  generalize streamOf h.policy.blockBits ops = m at *
  have hb : h.policy.blockBits = (standard h).block := by cases h <;> rfl
  have hl : h.policy.lengthBits = (standard h).length := by cases h <;> rfl
  have hd : h.policy.digestBits = (standard h).digest := by cases h <;> rfl
  have hroom : (standard h).marker.length + (standard h).length ≤ h.policy.blockBits := by
    cases h <;> decide
  have hLp : 0 < h.policy.lengthBits := by cases h <;> decide
  have hdig : h.policy.digestBits / h.policy.wordBits * h.policy.wordBits = h.policy.digestBits := by
    cases h <;> decide
  have hle : h.policy.digestBits ≤ h.policy.stateBits := by cases h <;> decide
  have hwL : h.policy.wordBits ∣ h.policy.lengthBits := by cases h <;> decide
  have V := policy_valid h I.iv I.compress I.view I.digest0
  have hmark := policy_mark h I.iv I.compress I.view I.digest0
  have hml := MD.length_mark _ V
  have hmb : (standard h).marker.length = h.policy.markBits := by rw [← hmark, hml]; rfl
  have htot : a.total = 0 := by
    rw [r.total, wrap64]; exact Nat.mod_eq_zero_of_dvd hdvd
  obtain ⟨q, h5, h6, h7, _, h9, _⟩ := r.core
  have hq : m.length = q * h.policy.blockBits + h.policy.blockBits := by
    have hBd : h.policy.blockBits ∣ m.length := Nat.dvd_trans h4 hdvd
    obtain ⟨t, ht⟩ := hBd
    have hmod : m.length % h.policy.blockBits = 0 := by rw [ht, Nat.mul_mod_right]
    by_cases hfull : m.length = q * h.policy.blockBits + h.policy.blockBits
    · exact hfull
    · have h6' : m.length ≤ q * h.policy.blockBits + h.policy.blockBits := h6
      have := mod_of_between (B := h.policy.blockBits) (n := m.length) h5 (by omega)
      rw [hmod] at this
      have h5' : q * h.policy.blockBits ≤ m.length := h5
      rcases h7 with h7 | h7
      · rw [h7] at this; omega
      · have h7' : q * h.policy.blockBits < m.length := h7
        omega
  show MD.digest (h.policy.md I.iv I.compress I.view I.digest0) J a.st a.cache a.total = _
  rw [htot, MD.digest_tail (h.policy.md I.iv I.compress I.view I.digest0) V hwL J (rest := [])
    (st' := a.st)
    (by intro s; show h.policy.digestBits / h.policy.wordBits * h.policy.wordBits ≤ (I.view s).length
        rw [hdig, I.length_view]; exact hle)
    (by show h.policy.digestBits / h.policy.wordBits * h.policy.wordBits ≤ I.digest0.length
        rw [hdig, I.length_digest0]; exact Nat.le_refl _)
    r.cache_len (by rw [Nat.zero_mod, List.take_zero]) (by rw [Nat.zero_mod]; rfl)
    (by simp)
    (by rw [Nat.zero_mod]; show 0 + h.policy.markBits ≤ h.policy.blockBits; omega)]
  congr 1
  unfold MD.output
  show (I.view _).take (h.policy.digestBits / h.policy.wordBits * h.policy.wordBits) ++
    I.digest0.drop (h.policy.digestBits / h.policy.wordBits * h.policy.wordBits) = _
  have henc := policy_enc h I.iv I.compress I.view I.digest0 0 (Or.inr (by decide))
  rw [Nat.zero_mod] at henc
  rw [hdig, List.drop_of_length_le (Nat.le_of_eq I.length_digest0), List.append_nil, hd, hmark,
    henc]
  congr 2
  show (blocks h.policy.blockBits ([] ++ (standard h).marker ++ List.replicate
    (fillTo h.policy.blockBits (([] : Bits).length + h.policy.markBits + h.policy.lengthBits)) false ++
    (standard h).encode 0)).foldl I.compress a.st = _
  have hst := MD.absorbed_eq (h.policy.md I.iv I.compress I.view I.digest0) J h1 m q h5
  have hst' : a.st = (blocks h.policy.blockBits (m.take (q * h.policy.blockBits))).foldl
    I.compress I.iv := h9.trans hst
  have hz : fillTo h.policy.blockBits (([] : Bits).length + h.policy.markBits + h.policy.lengthBits) =
      (standard h).block - (standard h).marker.length - (standard h).length := by
    rw [fillTo_of_le (by simp; omega) (by simp; omega), ← hmb, hb, hl]; simp; omega
  have hlen : ([] ++ (standard h).marker ++ List.replicate ((standard h).block -
      (standard h).marker.length - (standard h).length) false ++ (standard h).encode 0).length =
      h.policy.blockBits := by
    simp only [List.nil_append, List.length_append, List.length_replicate, length_encode]
    omega
  rw [hst', hz, show m.length - (standard h).block = q * h.policy.blockBits by rw [← hb]; omega,
    blocks_single h1 hlen, hb]
  rfl

/-- Lengths that satisfy the hypothesis exist for every hash: `2^64` bits are `2^64 / B` blocks. -/
example (h : MDHash) : ∃ k, 0 < k ∧ 2 ^ 64 ∣ k * h.policy.blockBits :=
  ⟨2 ^ 64, by decide, ⟨h.policy.blockBits, rfl⟩⟩

end Verif.Props
