import Verif.Proof.LossyHashes
import Verif.Props.WordOps
/-
C14, exactly: what every program with word pushes computes.
-/
namespace Verif.Props

open Spec

variable {σ : Type} {h : MDHash}

/-- The digest of `m` with the blocks `lost` of the padded message left out. -/
abbrev MDInst.specWithout (I : MDInst h σ) (lost : List Nat) (m : Bits) : Bits :=
  mdDigestWithout h I.iv I.compress I.view lost m

/-- With nothing lost it is the standard digest. -/
theorem C14_exact_nothing_lost (I : MDInst h σ) (m : Bits) : MDInst.specWithout I [] m = I.spec m := by
  unfold MDInst.specWithout mdDigestWithout
  rw [without_nil]
  rfl

/-- C14, exactly (Merkle–Damgård): any program of ranges, blocks, words with a bit count and extractions
outputs, at each extraction, the digest of the message fed so far with the compression of the lost blocks
left out; the padding and the length field are those of the whole message.  A block is lost if a word push
that starts at a multiple of the word size completes it and more data follows. -/
theorem C14_exact_md (I : MDInst h σ) (J : Injector) (garbage : Bits)
    (hgb : garbage.length = h.policy.blockBits) (ops : List WOp)
    (hwt : ∀ op ∈ ops, op.WellTyped h.policy.blockBits h.policy.wordBits)
    (hlt : (wstreamOf h.policy.blockBits h.policy.wordBits ops).length < 2 ^ 64)
    (hg : WGoodExtracts h.policy.blockBits h.policy.wordBits
      (fun m => (standard h).marker.length ∣ m.length) [] ops)
    (hgf : (standard h).marker.length ∣ (wstreamOf h.policy.blockBits h.policy.wordBits ops).length) :
    ∃ a, runWOps (I.C J) J (Acc.init (I.C J) garbage) [] ops =
        .ok (a, lossyOutputs h.policy.blockBits h.policy.wordBits (MDInst.specWithout I) .start ops) ∧
      a.result (I.C J) = .ok (MDInst.specWithout I
        (Fed.start.steps h.policy.blockBits h.policy.wordBits ops).lost
        (wstreamOf h.policy.blockBits h.policy.wordBits ops)) :=
  (md_lossy h I.iv I.compress I.view I.length_view I.digest0 I.length_digest0 J).program J garbage hgb ops
    hwt hlt hg hgf

/-- C14, exactly (Keccak, SHA-3): the digest of the message without its lost blocks. -/
theorem C14_exact_sponge (k : SpongeKind) (permute : Lanes → Lanes) {d : Nat} (S : SpongeSize d)
    (JP J : Injector) (garbage : Bits) (hgb : garbage.length = spongeBlockBits d) (ops : List WOp)
    (hwt : ∀ op ∈ ops, op.WellTyped (spongeBlockBits d) 64)
    (hlt : (wstreamOf (spongeBlockBits d) 64 ops).length < 2 ^ 64)
    (hg : WGoodExtracts (spongeBlockBits d) 64 (fun m => 8 ∣ m.length) [] ops)
    (h8 : 8 ∣ (wstreamOf (spongeBlockBits d) 64 ops).length) :
    ∃ a, runWOps (spongeConstruction k permute d JP) J
        (Acc.init (spongeConstruction k permute d JP) garbage) [] ops =
        .ok (a, lossyOutputs (spongeBlockBits d) 64
          (fun lost m => spongeSpec k permute d (kept (spongeBlockBits d) lost m)) .start ops) ∧
      a.result (spongeConstruction k permute d JP) =
        .ok (spongeSpec k permute d (kept (spongeBlockBits d)
          (Fed.start.steps (spongeBlockBits d) 64 ops).lost (wstreamOf (spongeBlockBits d) 64 ops))) :=
  (sponge_lossy k permute d S JP).program J garbage hgb ops hwt hlt hg h8

/-- The digest of BLAKE2b with the compression of the blocks `lost` left out. -/
def blakeWithout (nn : Nat) (lost : List Nat) (m : Bits) : Bits :=
  haifaDigestWithout 1024 (blakeInit (8 * nn)) blakeCompress
    (fun st => octetBits (readout nn st.toList)) lost m

/-- C14, exactly (BLAKE2b): the other blocks keep their counters. -/
theorem C14_exact_blake2b (nn : Nat) (hnn : nn ≤ 64) (JP J : Injector) (garbage : Bits)
    (hgb : garbage.length = 1024) (ops : List WOp)
    (hwt : ∀ op ∈ ops, op.WellTyped 1024 64)
    (hlt : (wstreamOf 1024 64 ops).length < 2 ^ 64) :
    ∃ a, runWOps (blake2bConstruction (8 * nn) JP) J
        (Acc.init (blake2bConstruction (8 * nn) JP) garbage) [] ops =
        .ok (a, lossyOutputs 1024 64 (blakeWithout nn) .start ops) ∧
      a.result (blake2bConstruction (8 * nn) JP) =
        .ok (blakeWithout nn (Fed.start.steps 1024 64 ops).lost (wstreamOf 1024 64 ops)) := by
  have hg : ∀ (ops : List WOp) (m : Bits), WGoodExtracts 1024 64 (fun _ => True) m ops := by
    intro ops
    induction ops with
    | nil => intro m; trivial
    | cons op ops ih =>
      intro m
      cases op with
      | word v n => exact ih _
      | op o =>
        cases o with
        | extract => exact ⟨trivial, ih _⟩
        | feed => exact ih _
        | block => exact ih _
  exact (haifa_lossy 1024 64 (by omega) (by omega) (by omega) _ _ _ _ (blakeOutput_eq nn hnn) JP).program J
    garbage hgb ops hwt hlt (hg ops []) trivial

/-! ### C13 with word pushes -/

/-- C13 for programs with word pushes (Merkle–Damgård): nothing is read or written outside the buffers, lost
blocks or not. -/
theorem C13_words_md (I : MDInst h σ) (J : Injector) (garbage : Bits)
    (hgb : garbage.length = h.policy.blockBits) (ops : List WOp)
    (hwt : ∀ op ∈ ops, op.WellTyped h.policy.blockBits h.policy.wordBits)
    (hlt : (wstreamOf h.policy.blockBits h.policy.wordBits ops).length < 2 ^ 64)
    (hg : WGoodExtracts h.policy.blockBits h.policy.wordBits
      (fun m => (standard h).marker.length ∣ m.length) [] ops) :
    ∃ r, runWOps (I.C J) J (Acc.init (I.C J) garbage) [] ops = .ok r := by
  have V := md_lossy h I.iv I.compress I.view I.length_view I.digest0 I.length_digest0 J
  obtain ⟨a, e, -⟩ := V.run J ops (V.start garbage hgb) hwt hlt hg (out := [])
  exact ⟨_, e⟩

/-- C13 for programs with word pushes (Keccak, SHA-3). -/
theorem C13_words_sponge (k : SpongeKind) (permute : Lanes → Lanes) {d : Nat} (S : SpongeSize d)
    (JP J : Injector) (garbage : Bits) (hgb : garbage.length = spongeBlockBits d) (ops : List WOp)
    (hwt : ∀ op ∈ ops, op.WellTyped (spongeBlockBits d) 64)
    (hlt : (wstreamOf (spongeBlockBits d) 64 ops).length < 2 ^ 64)
    (hg : WGoodExtracts (spongeBlockBits d) 64 (fun m => 8 ∣ m.length) [] ops) :
    ∃ r, runWOps (spongeConstruction k permute d JP) J
        (Acc.init (spongeConstruction k permute d JP) garbage) [] ops = .ok r := by
  have V := sponge_lossy k permute d S JP
  obtain ⟨a, e, -⟩ := V.run J ops (V.start garbage hgb) hwt hlt hg (out := [])
  exact ⟨_, e⟩

/-- C13 for programs with word pushes (BLAKE2b). -/
theorem C13_words_blake2b (nn : Nat) (hnn : nn ≤ 64) (JP J : Injector) (garbage : Bits)
    (hgb : garbage.length = 1024) (ops : List WOp)
    (hwt : ∀ op ∈ ops, op.WellTyped 1024 64)
    (hlt : (wstreamOf 1024 64 ops).length < 2 ^ 64) :
    ∃ r, runWOps (blake2bConstruction (8 * nn) JP) J
        (Acc.init (blake2bConstruction (8 * nn) JP) garbage) [] ops = .ok r := by
  obtain ⟨a, e, -⟩ := C14_exact_blake2b nn hnn JP J garbage hgb ops hwt hlt
  exact ⟨_, e⟩

/-! ### Only whole words -/

/-- Leaving out the first `k` elements. -/
theorem without_range {α : Type} (k : Nat) (xs : List α) : without (List.range k) xs = xs.drop k := by
  rcases Nat.le_total k xs.length with hk | hk
  · conv => lhs; rw [← List.take_append_drop k xs]
    rw [without_append _ _ _ (by
      intro i hi; rw [List.length_take]; have := List.mem_range.1 hi; omega)]
    have : without (List.range k) (xs.take k) = [] := by
      unfold without
      rw [List.map_eq_nil_iff, List.filter_eq_nil_iff]
      intro p hp
      have := List.snd_lt_of_mem_zipIdx hp
      simp only [List.length_take] at this
      simp only [List.contains_eq_mem, List.mem_range, Bool.not_eq_true', decide_eq_false_iff_not,
        Nat.not_lt, Nat.not_le]
      omega
    rw [this, List.nil_append]
  · rw [List.drop_of_length_le hk]
    unfold without
    rw [List.map_eq_nil_iff, List.filter_eq_nil_iff]
    intro p hp
    have := List.snd_lt_of_mem_zipIdx hp
    simp only [List.contains_eq_mem, List.mem_range, Bool.not_eq_true', decide_eq_false_iff_not,
      Nat.not_lt, Nat.not_le]
    omega

/-- The program that pushes whole words. -/
def wordProgram (ws : List Bits) : List WOp := ws.map fun v => WOp.word v 0

theorem wordProgram_stream (B w : Nat) (ws : List Bits) (hws : ∀ v ∈ ws, v.length = w) :
    wstreamOf B w (wordProgram ws) = ws.flatten := by
  induction ws with
  | nil => rfl
  | cons v ws ih =>
    rw [show wordProgram (v :: ws) = WOp.word v 0 :: wordProgram ws from rfl, wstreamOf_cons,
      ih (fun x hx => hws x (by simp [hx])), List.flatten_cons]
    congr 1
    show v.take (announced w 0) = v
    rw [announced, if_pos rfl, List.take_of_length_le (by rw [hws v (by simp)])]

/-- If only whole words are pushed, every block but the last one is lost. -/
theorem wordProgram_lost {B w : Nat} (hw : 0 < w) (hwB : w ∣ B) (hB : 0 < B) (ws : List Bits)
    (hws : ∀ v ∈ ws, v.length = w) :
    (Fed.start.steps B w (wordProgram ws)).lost = List.range ((ws.flatten.length - 1) / B) ∧
    (Fed.start.steps B w (wordProgram ws)).loose = decide (ws ≠ [] ∧ ws.flatten.length % B = 0) := by
  obtain ⟨ys, rfl⟩ : ∃ ys : List Bits, ws = ys.reverse := ⟨ws.reverse, by simp⟩
  induction ys with
  | nil => exact ⟨by simp [wordProgram, Fed.steps, Fed.start], by simp [wordProgram, Fed.steps, Fed.start]⟩
  | cons v ys ih =>
    rw [List.reverse_cons] at hws ⊢
    have hys : ∀ x ∈ ys.reverse, x.length = w := fun x hx => hws x (by simp at hx ⊢; exact Or.inl hx)
    have hv : v.length = w := hws v (by simp)
    obtain ⟨i1, i2⟩ := ih hys
    generalize ys.reverse = zs at *
    have hm : (Fed.start.steps B w (wordProgram zs)).m = zs.flatten := by
      rw [steps_m, wordProgram_stream B w zs hys]; rfl
    have est : Fed.start.steps B w (wordProgram (zs ++ [v])) =
        (Fed.start.steps B w (wordProgram zs)).step B w (.word v 0) := by
      unfold wordProgram Fed.steps
      rw [List.map_append, List.foldl_append]; rfl
    have hx : (WOp.word v 0).stream B w = v := by
      show v.take (announced w 0) = v
      rw [announced, if_pos rfl, List.take_of_length_le (by omega)]
    have hxn : v ≠ [] := by rintro rfl; simp at hv; omega
    have hdvd : w ∣ zs.flatten.length := by
      rw [length_flatten_of zs hys]; exact ⟨_, Nat.mul_comm _ _⟩
    have hfl : (zs ++ [v]).flatten.length = zs.flatten.length + w := by simp [hv]
    rw [est]
    unfold Fed.step
    simp only [hx, if_neg hxn, hm, i1, i2, WOp.isWord, Bool.true_and, decide_eq_true_eq]
    have hnil : zs ≠ [] → 0 < zs.flatten.length := by
      intro hz
      rw [length_flatten_of zs hys]
      exact Nat.mul_pos (List.length_pos_of_ne_nil hz) hw
    have hzero : zs = [] → zs.flatten.length = 0 := by rintro rfl; rfl
    refine ⟨?_, ?_⟩
    · rw [hfl]
      generalize zs.flatten.length = n at *
      have hle : w ≤ B := Nat.le_of_dvd hB hwB
      by_cases hz : zs = []
      · rw [if_neg (by simp [hz])]
        have hn0 : n = 0 := hzero hz
        subst hn0
        rw [List.append_nil, Nat.div_eq_of_lt (by omega), Nat.div_eq_of_lt (by omega)]
      · have hpos := hnil hz
        by_cases h0 : n % B = 0
        · rw [if_pos ⟨hz, h0⟩]
          obtain ⟨c, rfl⟩ := Nat.dvd_of_mod_eq_zero h0
          have hc : c ≠ 0 := by rintro rfl; simp at hpos
          obtain ⟨e, rfl⟩ : ∃ e, c = e + 1 := ⟨c - 1, by omega⟩
          have e1 : (B * (e + 1) - 1) / B = e := by
            rw [show B * (e + 1) - 1 = B * e + (B - 1) by rw [Nat.mul_add]; omega, Nat.mul_add_div hB,
              Nat.div_eq_of_lt (by omega)]; rfl
          have e2 : (B * (e + 1) + w - 1) / B = e + 1 := by
            rw [show B * (e + 1) + w - 1 = B * (e + 1) + (w - 1) by omega, Nat.mul_add_div hB,
              Nat.div_eq_of_lt (by omega)]
          rw [e1, e2, Nat.mul_div_cancel_left _ hB, Nat.add_sub_cancel, List.range_succ]
        · rw [if_neg (by intro hh; exact h0 hh.2), List.append_nil]
          congr 1
          have hd := Nat.div_add_mod n B
          have hml := Nat.mod_lt n hB
          have hrw : n % B + w ≤ B := by
            obtain ⟨k, rfl⟩ := hwB
            have : w ∣ n % (w * k) := (Nat.dvd_mod_iff ⟨k, rfl⟩).2 hdvd
            obtain ⟨t, ht⟩ := this
            rw [ht] at hml ⊢
            have htk : t < k := Nat.lt_of_mul_lt_mul_left hml
            calc w * t + w = w * (t + 1) := by rw [Nat.mul_add]; omega
              _ ≤ w * k := Nat.mul_le_mul_left _ htk
          have e1 : (n - 1) / B = n / B := by
            rw [show n - 1 = B * (n / B) + (n % B - 1) by omega, Nat.mul_add_div hB,
              Nat.div_eq_of_lt (show n % B - 1 < B by omega)]; rfl
          have e2 : (n + w - 1) / B = n / B := by
            rw [show n + w - 1 = B * (n / B) + (n % B + w - 1) by omega, Nat.mul_add_div hB,
              Nat.div_eq_of_lt (show n % B + w - 1 < B by omega)]; rfl
          rw [e1, e2]
    · have hal : zs.flatten.length % w = 0 := Nat.mod_eq_zero_of_dvd hdvd
      rw [hal, List.length_append, hv, hfl]
      simp only [beq_self_eq_true, Bool.true_and, ne_eq, List.append_eq_nil_iff, List.cons_ne_self,
        not_false_eq_true, and_false, true_and, reduceCtorEq]
      rfl

theorem lossyOutputs_map {δ : Type} (B w : Nat) (H : List Nat → Bits → δ) (ops : List WOp) :
    ∀ s, lossyOutputs B w H s ops = (lossyOutputs B w Prod.mk s ops).map fun p => H p.1 p.2 := by
  induction ops with
  | nil => intro s; rfl
  | cons op ops ih =>
    intro s
    cases op with
    | word v n => exact ih _
    | op o =>
      cases o with
      | extract => exact congrArg (_ :: ·) (ih _)
      | _ => exact ih _

theorem runWOps_wordProgram {δ : Type} (C : Construction σ δ) (J : Injector) (ws : List Bits) :
    ∀ (a a' : Acc σ) (out out' : List δ), runWOps C J a out (wordProgram ws) = .ok (a', out') →
      a.pushWords C J ws = .ok a' := by
  induction ws with
  | nil =>
    intro a a' out out' e
    injection e with e
    injection e with e _
    rw [← e]; rfl
  | cons v ws ih =>
    intro a a' out out' e
    simp only [wordProgram, List.map_cons, runWOps, WOp.run] at e
    simp only [Acc.pushWords]
    cases h1 : a.pushWord C J v 0 with
    | error f => rw [h1] at e; exact absurd e (by simp [bind, Except.bind])
    | ok b => rw [h1] at e; exact ih b a' out out' e

theorem wordProgram_wellTyped {B w : Nat} {ws : List Bits} (hws : ∀ v ∈ ws, v.length = w) :
    ∀ op ∈ wordProgram ws, op.WellTyped B w := by
  intro op hop
  obtain ⟨v, hv, rfl⟩ := List.mem_map.1 hop
  exact ⟨hws v hv, Nat.zero_le _⟩

theorem wordProgram_good {B w : Nat} {G : Bits → Prop} (ws : List Bits) :
    ∀ m, WGoodExtracts B w G m (wordProgram ws) := by
  induction ws with
  | nil => intro m; trivial
  | cons v ws ih => intro m; exact ih _

/-- C14, whole words only (Merkle–Damgård): whatever the length of the message, only its last block (and
the padding) is ever compressed. -/
theorem C14_exact_words_md (I : MDInst h σ) (J : Injector) (garbage : Bits)
    (hgb : garbage.length = h.policy.blockBits) (ws : List Bits)
    (hws : ∀ v ∈ ws, v.length = h.policy.wordBits) (hlt : ws.flatten.length < 2 ^ 64) :
    (do let a ← (Acc.init (I.C J) garbage).pushWords (I.C J) J ws
        a.result (I.C J)) =
      .ok ((I.view (((blocks (standard h).block (paddedMessage h ws.flatten)).drop
        ((ws.flatten.length - 1) / (standard h).block)).foldl I.compress I.iv)).take (standard h).digest) := by
  obtain ⟨h1, h2, h3, -, -, h6⟩ := policy_sizes h
  have hs := wordProgram_stream h.policy.blockBits h.policy.wordBits ws hws
  obtain ⟨a, e, r⟩ := C14_exact_md I J garbage hgb (wordProgram ws) (wordProgram_wellTyped hws)
    (by rw [hs]; exact hlt) (wordProgram_good ws _) (by
      rw [hs, length_flatten_of ws hws]
      exact Nat.dvd_trans (Nat.dvd_trans h6 (by cases h <;> decide)) (Nat.dvd_mul_left _ _))
  rw [runWOps_wordProgram _ _ ws _ _ _ _ e]
  refine r.trans ?_
  rw [hs, (wordProgram_lost h2 h3 h1 ws hws).1]
  have hB : h.policy.blockBits = (standard h).block := by cases h <;> rfl
  unfold MDInst.specWithout mdDigestWithout
  rw [without_range, hB]

/-- The same for Keccak and SHA-3: the digest is that of the last block of the message. -/
theorem C14_exact_words_sponge (k : SpongeKind) (permute : Lanes → Lanes) {d : Nat} (S : SpongeSize d)
    (JP J : Injector) (garbage : Bits) (hgb : garbage.length = spongeBlockBits d) (ws : List Bits)
    (hws : ∀ v ∈ ws, v.length = 64) (hlt : ws.flatten.length < 2 ^ 64) :
    (do let a ← (Acc.init (spongeConstruction k permute d JP) garbage).pushWords
          (spongeConstruction k permute d JP) J ws
        a.result (spongeConstruction k permute d JP)) =
      .ok (spongeSpec k permute d
        (ws.flatten.drop ((ws.flatten.length - 1) / spongeBlockBits d * spongeBlockBits d))) := by
  obtain ⟨hB, h64, -⟩ := S.facts
  have hs := wordProgram_stream (spongeBlockBits d) 64 ws hws
  obtain ⟨a, e, r⟩ := C14_exact_sponge k permute S JP J garbage hgb (wordProgram ws)
    (wordProgram_wellTyped hws) (by rw [hs]; exact hlt) (wordProgram_good ws _) (by
      rw [hs, length_flatten_of ws hws]
      exact Nat.dvd_trans (by omega) (Nat.dvd_mul_left 64 _))
  rw [runWOps_wordProgram _ _ ws _ _ _ _ e]
  refine r.trans ?_
  rw [hs, (wordProgram_lost (by omega) h64 hB ws hws).1]
  refine congrArg (fun x => Except.ok (spongeSpec k permute d x)) ?_
  generalize ws.flatten = m
  generalize spongeBlockBits d = B at *
  unfold kept
  rw [without_range]
  -- at most one full block survives
  have hd := Nat.div_add_mod m.length B
  have hmod := Nat.mod_lt m.length hB
  have hbl : (blocks B m).length = m.length / B := by simp [blocks]
  by_cases h0 : m.length ≠ 0 ∧ m.length % B = 0
  · obtain ⟨c, hc⟩ := Nat.dvd_of_mod_eq_zero h0.2
    have hc0 : c ≠ 0 := by
      intro hz
      rw [hz, Nat.mul_zero] at hc
      exact h0.1 hc
    obtain ⟨e, rfl⟩ : ∃ e, c = e + 1 := ⟨c - 1, by omega⟩
    have e1 : (m.length - 1) / B = e := by
      rw [hc, show B * (e + 1) - 1 = B * e + (B - 1) by rw [Nat.mul_add]; omega, Nat.mul_add_div hB,
        Nat.div_eq_of_lt (by omega)]; rfl
    have e2 : m.length / B = e + 1 := by rw [hc, Nat.mul_div_cancel_left _ hB]
    rw [e1, e2]
    have hl : m.length = e * B + B := by rw [hc, Nat.mul_add, Nat.mul_one, Nat.mul_comm]
    have hle : e * B ≤ m.length := by omega
    have hsp : blocks B m = blocks B (m.take (e * B)) ++ [m.drop (e * B)] := by
      conv => lhs; rw [← List.take_append_drop (e * B) m]
      rw [blocks_append hB (take_blocks_length hle),
        blocks_single hB (x := m.drop (e * B)) (by rw [List.length_drop]; omega)]
    rw [hsp, List.drop_left' (length_blocks_take hB hle),
      List.drop_of_length_le (l := m) (i := (e + 1) * B) (by rw [hl, Nat.add_mul]; omega)]
    simp
  · have e1 : (m.length - 1) / B = m.length / B := by
      by_cases hz : m.length = 0
      · rw [hz]
      · rw [show m.length - 1 = B * (m.length / B) + (m.length % B - 1) by omega, Nat.mul_add_div hB,
          Nat.div_eq_of_lt (show m.length % B - 1 < B by omega)]; rfl
    rw [e1, List.drop_of_length_le (by omega)]
    rfl

/-- Hence collisions: any two sequences of as many words that agree from the last block on have the same
digest. -/
theorem C14_exact_words_collide (I : MDInst h σ) (J : Injector) (garbage : Bits)
    (hgb : garbage.length = h.policy.blockBits) (pre pre' post : List Bits)
    (hpre : ∀ v ∈ pre, v.length = h.policy.wordBits) (hpre' : ∀ v ∈ pre', v.length = h.policy.wordBits)
    (hpost : ∀ v ∈ post, v.length = h.policy.wordBits) (hne : post ≠ [])
    (hlen : pre.flatten.length = pre'.flatten.length) (hal : (standard h).block ∣ pre.flatten.length)
    (hlt : (pre ++ post).flatten.length < 2 ^ 64) :
    (do let a ← (Acc.init (I.C J) garbage).pushWords (I.C J) J (pre ++ post)
        a.result (I.C J)) =
    (do let a ← (Acc.init (I.C J) garbage).pushWords (I.C J) J (pre' ++ post)
        a.result (I.C J)) := by
  obtain ⟨h1, h2, h3, -, -, h6⟩ := policy_sizes h
  have hB : h.policy.blockBits = (standard h).block := by cases h <;> rfl
  have hall : ∀ (p : List Bits), (∀ v ∈ p, v.length = h.policy.wordBits) →
      ∀ v ∈ p ++ post, v.length = h.policy.wordBits := by
    intro p hp v hv
    rcases List.mem_append.1 hv with hv | hv
    · exact hp v hv
    · exact hpost v hv
  have hfl : ∀ p : List Bits, (p ++ post).flatten.length = p.flatten.length + post.flatten.length := by
    intro p; rw [List.flatten_append, List.length_append]
  rw [C14_exact_words_md I J garbage hgb _ (hall pre hpre) hlt,
    C14_exact_words_md I J garbage hgb _ (hall pre' hpre') (by rw [hfl, ← hlen, ← hfl]; exact hlt)]
  have hpos : 0 < post.flatten.length := by
    rw [length_flatten_of post hpost]
    exact Nat.mul_pos (List.length_pos_of_ne_nil hne) h2
  rw [hB] at h1
  obtain ⟨c, hc⟩ := hal
  -- both padded messages end with the same string
  have hpad : ∀ p : List Bits, p.flatten.length = (standard h).block * c →
      paddedMessage h (p ++ post).flatten = p.flatten ++ (post.flatten ++ (standard h).marker ++
        List.replicate (fillTo (standard h).block (post.flatten.length + (standard h).marker.length +
          (standard h).length)) false ++ (standard h).encode ((standard h).block * c + post.flatten.length)) := by
    intro p hp
    unfold paddedMessage mdPad
    rw [hfl, hp, List.flatten_append,
      show (standard h).block * c + post.flatten.length + (standard h).marker.length + (standard h).length =
        (standard h).block * c + (post.flatten.length + (standard h).marker.length + (standard h).length) by omega,
      fillTo_add_mul]
    simp only [List.append_assoc]
  have hdrop : ∀ p : List Bits, p.flatten.length = (standard h).block * c → ∀ y : Bits,
      (blocks (standard h).block (p.flatten ++ y)).drop
        (((standard h).block * c + post.flatten.length - 1) / (standard h).block) =
      (blocks (standard h).block y).drop ((post.flatten.length - 1) / (standard h).block) := by
    intro p hp y
    have hcl : (blocks (standard h).block p.flatten).length = c := by
      unfold blocks
      rw [List.length_map, List.length_range, hp, Nat.mul_div_cancel_left _ h1]
    rw [blocks_append h1 ⟨c, hp⟩,
      show (standard h).block * c + post.flatten.length - 1 = (standard h).block * c + (post.flatten.length - 1) by
        omega, Nat.mul_add_div h1, List.drop_append, List.drop_of_length_le (by rw [hcl]; exact Nat.le_add_right _ _), List.nil_append, hcl,
      Nat.add_sub_cancel_left]
  rw [hfl, hfl, hc, ← hlen, hc, hpad pre hc, hpad pre' (by rw [← hlen]; exact hc), hdrop pre hc,
    hdrop pre' (by rw [← hlen]; exact hc)]

/-- 48 words of SHA-256 are three blocks; only the third one is compressed (and the padding block). -/
example (g : Bits) (hg : g.length = 512) (x y : Bits) (hx : x.length = 32) (hy : y.length = 32) :
    (do let a ← (Acc.init ((toy .sha256).C spliceInjector) g).pushWords ((toy .sha256).C spliceInjector)
          spliceInjector (List.replicate 32 x ++ List.replicate 16 (bigEndian 32 5))
        a.result ((toy .sha256).C spliceInjector)) =
    (do let a ← (Acc.init ((toy .sha256).C spliceInjector) g).pushWords ((toy .sha256).C spliceInjector)
          spliceInjector (List.replicate 32 y ++ List.replicate 16 (bigEndian 32 5))
        a.result ((toy .sha256).C spliceInjector)) := by
  have hr : ∀ (n : Nat) (z : Bits), z.length = 32 → ∀ v ∈ List.replicate n z, v.length = 32 := by
    intro n z hz v hv; rw [List.eq_of_mem_replicate hv]; exact hz
  have hfl : ∀ (n : Nat) (z : Bits), z.length = 32 → (List.replicate n z).flatten.length = n * 32 := by
    intro n z hz
    rw [length_flatten_of _ (hr n z hz), List.length_replicate]
  have h5 : (bigEndian 32 5).length = 32 := by simp [bigEndian]
  refine C14_exact_words_collide (toy .sha256) spliceInjector g hg _ _ _ (hr _ _ hx) (hr _ _ hy)
    (hr _ _ h5) (by simp) ?_ ?_ ?_
  · rw [hfl _ _ hx, hfl _ _ hy]
  · rw [hfl _ _ hx]; decide
  · rw [List.flatten_append, List.length_append, hfl _ _ hx, hfl _ _ h5]; decide

/-- The same words through `C14_exact_words_sponge`: 34 words are two blocks of SHA3-256; the digest is
that of the second one. -/
example (g : Bits) (hg : g.length = 1088) (x : Bits) (hx : x.length = 64) :
    (do let a ← (Acc.init (spongeConstruction .sha3 keccakPermute 256 spliceInjector) g).pushWords
          (spongeConstruction .sha3 keccakPermute 256 spliceInjector) spliceInjector
          (List.replicate 17 x ++ List.replicate 17 (bigEndian 64 5))
        a.result (spongeConstruction .sha3 keccakPermute 256 spliceInjector)) =
      .ok (spongeSpec .sha3 keccakPermute 256 (List.replicate 17 (bigEndian 64 5)).flatten) := by
  have hr : ∀ (n : Nat) (z : Bits), z.length = 64 → ∀ v ∈ List.replicate n z, v.length = 64 := by
    intro n z hz v hv; rw [List.eq_of_mem_replicate hv]; exact hz
  have hfl : ∀ (n : Nat) (z : Bits), z.length = 64 → (List.replicate n z).flatten.length = n * 64 := by
    intro n z hz
    rw [length_flatten_of _ (hr n z hz), List.length_replicate]
  have h5 : (bigEndian 64 5).length = 64 := by simp [bigEndian]
  have hl : (List.replicate 17 x ++ List.replicate 17 (bigEndian 64 5)).flatten.length = 2176 := by
    rw [List.flatten_append, List.length_append, hfl _ _ hx, hfl _ _ h5]
  rw [C14_exact_words_sponge .sha3 keccakPermute sizes.2.1 spliceInjector spliceInjector g hg _ (by
    intro v hv
    rcases List.mem_append.1 hv with hv | hv
    · exact hr _ _ hx v hv
    · exact hr _ _ h5 v hv) (by rw [hl]; decide), hl]
  congr 2
  rw [List.flatten_append]
  exact List.drop_left' (by rw [hfl _ _ hx]; rfl)

/-- A program that loses a block in the middle: 16 words, an extraction (the block is still there), a
range, an extraction. -/
example : ∃ a, runWOps ((toy .sha256).C spliceInjector) spliceInjector
      (Acc.init ((toy .sha256).C spliceInjector) (List.replicate 512 true)) []
      [.op (feedBytes bigOctetBigBit (List.range 60)), .word (bigEndian 32 9) 0, .op .extract,
        .op (feedBytes bigOctetBigBit (List.range 10)), .op .extract] =
      .ok (a, [MDInst.specWithout (toy .sha256) [] (octetBits (List.range 60) ++ bigEndian 32 9),
        MDInst.specWithout (toy .sha256) [0]
          (octetBits (List.range 60) ++ bigEndian 32 9 ++ octetBits (List.range 10))]) := by
  obtain ⟨a, e, _⟩ := C14_exact_md (toy .sha256) spliceInjector (List.replicate 512 true)
    List.length_replicate
    [.op (feedBytes bigOctetBigBit (List.range 60)), .word (bigEndian 32 9) 0, .op .extract,
        .op (feedBytes bigOctetBigBit (List.range 10)), .op .extract]
    (by
      intro op hop
      simp only [List.mem_cons, List.not_mem_nil, or_false] at hop
      rcases hop with rfl | rfl | rfl | rfl | rfl <;>
        first
          | exact feedBytes_wellTyped _ _
          | exact trivial
          | exact ⟨by decide +kernel, by decide +kernel⟩)
    (by decide +kernel) ⟨by simp [standard], by simp [standard], trivial⟩ (by simp [standard])
  refine ⟨a, e.trans ?_⟩
  have hl : ∀ H : List Nat → Bits → Bits, lossyOutputs MDHash.sha256.policy.blockBits MDHash.sha256.policy.wordBits
      H .start
      [.op (feedBytes bigOctetBigBit (List.range 60)), .word (bigEndian 32 9) 0, .op .extract,
        .op (feedBytes bigOctetBigBit (List.range 10)), .op .extract] =
      [H [] (octetBits (List.range 60) ++ bigEndian 32 9),
        H [0] (octetBits (List.range 60) ++ bigEndian 32 9 ++ octetBits (List.range 10))] := by
    intro H
    rw [lossyOutputs_map]
    exact congrArg (List.map fun p : List Nat × Bits => H p.1 p.2) (by decide +kernel :
      lossyOutputs 512 32 Prod.mk .start
        [.op (feedBytes bigOctetBigBit (List.range 60)), .word (bigEndian 32 9) 0, .op .extract,
          .op (feedBytes bigOctetBigBit (List.range 10)), .op .extract] =
        [([], octetBits (List.range 60) ++ bigEndian 32 9),
          ([0], octetBits (List.range 60) ++ bigEndian 32 9 ++ octetBits (List.range 10))])
  rw [hl]

/-- BLAKE2b: sixteen words, an extraction, and one more word: the first block is lost. -/
example : ∃ a, runWOps (blake2bConstruction 512 clearingInjector) spliceInjector
      (Acc.init (blake2bConstruction 512 clearingInjector) (List.replicate 1024 true)) []
      (wordProgram (List.replicate 16 (bigEndian 64 5)) ++ [.op .extract, .word (bigEndian 64 7) 0,
        .op .extract]) =
      .ok (a, [blakeWithout 64 [] (List.replicate 16 (bigEndian 64 5)).flatten,
        blakeWithout 64 [0] ((List.replicate 16 (bigEndian 64 5)).flatten ++ bigEndian 64 7)]) := by
  obtain ⟨a, e, _⟩ := C14_exact_blake2b 64 (by omega) clearingInjector spliceInjector
    (List.replicate 1024 true) List.length_replicate
    (wordProgram (List.replicate 16 (bigEndian 64 5)) ++ [.op .extract, .word (bigEndian 64 7) 0,
        .op .extract])
    (by
      intro op hop
      rcases List.mem_append.1 hop with hop | hop
      · exact wordProgram_wellTyped (by
          intro v hv; rw [List.eq_of_mem_replicate hv]; decide +kernel) op hop
      · simp only [List.mem_cons, List.not_mem_nil, or_false] at hop
        rcases hop with rfl | rfl | rfl
        · trivial
        · exact ⟨by decide +kernel, by decide⟩
        · trivial)
    (by decide +kernel)
  have hl : lossyOutputs 1024 64 Prod.mk .start
      (wordProgram (List.replicate 16 (bigEndian 64 5)) ++ [.op .extract, .word (bigEndian 64 7) 0,
        .op .extract]) =
      [([], (List.replicate 16 (bigEndian 64 5)).flatten),
        ([0], (List.replicate 16 (bigEndian 64 5)).flatten ++ bigEndian 64 7)] := by decide +kernel
  rw [lossyOutputs_map, hl] at e
  exact ⟨a, e⟩

/-- Nothing lost: the function of C08 and C09. -/
theorem C14_exact_nothing_lost_blake2b (nn : Nat) (m : Bits) : blakeWithout nn [] m = blakeOf nn m := by
  unfold blakeWithout blakeOf haifaDigestWithout haifaDigestOf
  have habs : ∀ q, haifaAbsorbedWithout 1024 (blakeInit (8 * nn)) blakeCompress [] m q =
      haifaAbsorbed 1024 (blakeInit (8 * nn)) blakeCompress m q := by
    intro q
    unfold haifaAbsorbedWithout
    rw [without_nil]
    induction q with
    | zero => rfl
    | succ q ih => rw [List.range_succ, List.map_append, List.foldl_append, ih]; rfl
  rw [habs]

/-- 17 words of Keccak-256, an extraction, another word and an extraction. -/
def lossyDemo : List WOp := wordProgram (List.replicate 17 (bigEndian 64 5)) ++
  [.op .extract, .word (bigEndian 64 7) 0, .op .extract]

theorem lossyDemo_wellTyped (B : Nat) (hB : 64 ≤ B) : ∀ op ∈ lossyDemo, op.WellTyped B 64 := by
  intro op hop
  rcases List.mem_append.1 hop with hop | hop
  · exact wordProgram_wellTyped (by
      intro v hv; rw [List.eq_of_mem_replicate hv]; decide +kernel) op hop
  · simp only [List.mem_cons, List.not_mem_nil, or_false] at hop
    rcases hop with rfl | rfl | rfl
    · trivial
    · exact ⟨by decide +kernel, by decide⟩
    · trivial

example := C14_exact_sponge .keccak keccakPermute sizes.2.1 spliceInjector clearingInjector
  (List.replicate 1088 true) List.length_replicate lossyDemo (lossyDemo_wellTyped _ (by decide)) (by decide +kernel)
  ⟨by decide +kernel, by decide +kernel, trivial⟩ (by decide +kernel)

example := C13_words_sponge .keccak keccakPermute sizes.2.1 spliceInjector clearingInjector
  (List.replicate 1088 true) List.length_replicate lossyDemo (lossyDemo_wellTyped _ (by decide)) (by decide +kernel)
  ⟨by decide +kernel, by decide +kernel, trivial⟩

example := C13_words_blake2b 32 (by decide) spliceInjector clearingInjector (List.replicate 1024 true)
  List.length_replicate lossyDemo (lossyDemo_wellTyped _ (by decide)) (by decide +kernel)

example := C13_words_md (toy .sha512) spliceInjector (List.replicate 1024 true) List.length_replicate lossyDemo
  (lossyDemo_wellTyped _ (by decide)) (by decide +kernel) ⟨by decide +kernel, by decide +kernel, trivial⟩

/-- 33 words of SHA-256: the first two blocks are lost. -/
example := C14_exact_words_md (toy .sha256) spliceInjector (List.replicate 512 true) List.length_replicate
  ((List.range 33).map (bigEndian 32)) (by decide +kernel) (by decide +kernel)

end Verif.Props
