import Verif.Proof.Lossy
import Verif.Proof.Policies
import Verif.Proof.Sponge
import Verif.Proof.Haifa
/- Digests with lost blocks, for the three constructions. -/
namespace Verif

open Spec

variable {σ δ : Type}

theorem length_blocks_take {B q : Nat} (hB : 0 < B) {m : Bits} (h : q * B ≤ m.length) :
    (blocks B (m.take (q * B))).length = q := by
  unfold blocks
  rw [List.length_map, List.length_range, List.length_take, Nat.min_eq_left h, Nat.mul_div_cancel _ hB]

/-- The state, if `process_block` ignores the counter. -/
theorem absorbed_skip (C : Construction σ δ) (f : σ → Bits → σ)
    (hf : ∀ s b n, C.processBlock s b n = f s b) (hB : 0 < C.blockBits) (lost : List Nat) (m : Bits)
    (hlt : m.length < 2 ^ 64) :
    ∀ q, q * C.blockBits ≤ m.length → absorbed (C.skip lost) m q =
      (without lost (blocks C.blockBits (m.take (q * C.blockBits)))).foldl f C.init := by
  intro q
  induction q with
  | zero => intro _; simp [absorbed, blocks, without, Construction.skip]
  | succ q ih =>
    intro hq
    have hq' : q * C.blockBits + C.blockBits ≤ m.length := by rw [Nat.add_mul] at hq; omega
    have e : m.take ((q + 1) * C.blockBits) =
        m.take (q * C.blockBits) ++ block C.blockBits m q := by
      rw [Nat.add_mul, Nat.one_mul, List.take_add]; rfl
    have hl : (block C.blockBits m q).length = C.blockBits := by simp [block]; omega
    rw [e, blocks_append hB (take_blocks_length (by omega)), blocks_single hB hl, without_snoc,
      length_blocks_take hB (by omega), List.foldl_append, ← ih (by omega)]
    show (if wrap64 ((q + 1) * C.blockBits) / C.blockBits - 1 ∈ lost then _ else _) = _
    rw [wrap64_of_lt (by omega), Nat.mul_div_cancel _ hB, Nat.add_sub_cancel]
    by_cases hm : q ∈ lost
    · rw [if_pos hm, if_pos hm]; rfl
    · rw [if_neg hm, if_neg hm, hf]; rfl

/-- The full block that `digest` processes is not lost. -/
theorem last_not_lost {B : Nat} (hB : 0 < B) {lost : List Nat} {m : Bits}
    (hb : ∀ i ∈ lost, (i + 1) * B < m.length) (h0 : m.length ≠ 0) (hmod : m.length % B = 0) :
    m.length / B - 1 ∉ lost := by
  intro hm
  have h1 := hb _ hm
  obtain ⟨c, hc⟩ := Nat.dvd_of_mod_eq_zero hmod
  rw [hc, Nat.mul_div_cancel_left _ hB] at h1
  have : c ≠ 0 := by rintro rfl; simp at hc; omega
  rw [Nat.sub_add_cancel (by omega), Nat.mul_comm] at h1
  omega

theorem lost_lt {B q : Nat} {lost : List Nat} {m : Bits} (hb : ∀ i ∈ lost, (i + 1) * B < m.length)
    (h2 : m.length < q * B + B) : ∀ i ∈ lost, i < q := by
  intro i hi
  have := hb i hi
  have h3 : (i + 1) * B < (q + 1) * B := by rw [Nat.add_mul q, Nat.one_mul]; omega
  have := Nat.lt_of_mul_lt_mul_right h3
  omega

/-! ### Merkle–Damgård -/

theorem MD.result_skip (M : MD σ) (V : M.Valid) (hL : M.wordBits ∣ M.lengthBits) (J : Injector)
    (hd : ∀ s, M.digestBits / M.wordBits * M.wordBits ≤ (M.stateView s).length)
    (hd0 : M.digestBits / M.wordBits * M.wordBits ≤ M.digest0.length) {lost : List Nat}
    {a : Acc σ} {m : Bits} (hb : ∀ i ∈ lost, (i + 1) * M.blockBits < m.length)
    (h : Rep ((M.construction J).skip lost) a m) (hm : M.markBits ∣ m.length) (hlt : m.length < 2 ^ 64) :
    a.result (M.construction J) = .ok (M.output ((without lost (blocks M.blockBits
      (mdPad M.blockBits M.lengthBits M.mark (fun n => M.enc (n % 2 ^ 64)) m))).foldl M.compress M.iv)) := by
  have hB := V.block
  obtain ⟨q, h1, h2, hst, hrest, hmod⟩ := h.atDigest hB
  have hcl : a.cache.length = M.blockBits := h.cache_len
  replace h1 : q * M.blockBits ≤ m.length := h1
  replace h2 : m.length < q * M.blockBits + M.blockBits := h2
  replace hrest : a.cache.take (m.length % M.blockBits) = m.drop (q * M.blockBits) := hrest
  replace hmod : m.length % M.blockBits = m.length - q * M.blockBits := hmod
  have hst' : (if m.length ≠ 0 ∧ m.length % M.blockBits = 0 then M.compress a.st a.cache else a.st) =
      absorbed ((M.construction J).skip lost) m q := by
    rw [← hst]
    by_cases hf : m.length ≠ 0 ∧ m.length % M.blockBits = 0
    · rw [if_pos hf, if_pos (show m.length ≠ 0 ∧ m.length % ((M.construction J).skip lost).blockBits = 0 from hf),
        wrap64_of_lt hlt, skip_processBlock (last_not_lost hB hb hf.1 hf.2)]
      rfl
    · rw [if_neg hf, if_neg (show ¬ (m.length ≠ 0 ∧ m.length % ((M.construction J).skip lost).blockBits = 0)
        from hf)]
  unfold Acc.result
  show M.digest J a.st a.cache a.total = _
  rw [h.total, wrap64_of_lt hlt]
  have hrl : (m.drop (q * M.blockBits)).length = m.length % M.blockBits := by simp [hmod]
  have hfit : m.length % M.blockBits + M.markBits ≤ M.blockBits := by
    obtain ⟨u, hu⟩ := hm
    obtain ⟨v, hv⟩ := V.markBlock
    have hlt := Nat.mod_lt m.length hB
    have : M.markBits ∣ m.length % M.blockBits := by
      rw [Nat.dvd_mod_iff V.markBlock]; exact ⟨u, hu⟩
    obtain ⟨t, ht⟩ := this
    rw [ht, hv] at hlt
    have htv : t < v := Nat.lt_of_mul_lt_mul_left hlt
    rw [ht, hv]
    calc M.markBits * t + M.markBits = M.markBits * (t + 1) := by rw [Nat.mul_add]; omega
      _ ≤ M.markBits * v := Nat.mul_le_mul_left _ htv
  rw [M.digest_tail V hL J hd hd0 (st' := absorbed ((M.construction J).skip lost) m q) hcl hrest hrl hst' hfit]
  congr 2
  unfold mdPad
  rw [M.length_mark V]
  have e : m ++ M.mark ++ List.replicate (fillTo M.blockBits
      (m.length + M.markBits + M.lengthBits)) false ++ M.enc (m.length % 2 ^ 64) =
      m.take (q * M.blockBits) ++ (m.drop (q * M.blockBits) ++ M.mark ++ List.replicate
        (fillTo M.blockBits ((m.drop (q * M.blockBits)).length + M.markBits + M.lengthBits))
          false ++ M.enc m.length) := by
    have : m.length + M.markBits + M.lengthBits = M.blockBits * q +
        ((m.drop (q * M.blockBits)).length + M.markBits + M.lengthBits) := by
      rw [hrl, hmod, Nat.mul_comm]; omega
    rw [this, fillTo_add_mul, Nat.mod_eq_of_lt hlt]
    simp only [← List.append_assoc, List.take_append_drop]
  rw [e, blocks_append hB (take_blocks_length h1), without_append _ _ _ (by
    rw [length_blocks_take hB h1]; exact lost_lt hb h2), List.foldl_append]
  exact congrArg (fun s => List.foldl M.compress s _)
    (absorbed_skip (M.construction J) M.compress (fun _ _ _ => rfl) hB lost m hlt q h1)

/-- The digest of `m` with the blocks `lost` left out of the padded message. -/
def mdDigestWithout {σ : Type} (h : MDHash) (iv : σ) (compress : σ → List Bool → σ)
    (view : σ → List Bool) (lost : List Nat) (m : List Bool) : List Bool :=
  (view ((without lost (blocks (standard h).block (paddedMessage h m))).foldl compress iv)).take
    (standard h).digest

theorem md_lossy (h : MDHash) (iv : σ) (compress : σ → Bits → σ) (view : σ → Bits)
    (hv : ∀ s, (view s).length = h.policy.stateBits) (d0 : Bits)
    (hd0 : d0.length = h.policy.digestBits) (J : Injector) :
    LossyVerified ((h.policy.md iv compress view d0).construction J)
      (fun m => (standard h).marker.length ∣ m.length) (mdDigestWithout h iv compress view) where
  block := (policy_sizes h).1
  word := (policy_sizes h).2.1
  wordBlock := (policy_sizes h).2.2.1
  computes := by
    intro lost a m hb hrep hlt hg
    have hdig : h.policy.digestBits / h.policy.wordBits * h.policy.wordBits = h.policy.digestBits := by
      cases h <;> decide
    have hle : h.policy.digestBits ≤ h.policy.stateBits := by cases h <;> decide
    have hwL : h.policy.wordBits ∣ h.policy.lengthBits := by cases h <;> decide
    have V := policy_valid h iv compress view d0
    have hmark := policy_mark h iv compress view d0
    have hml := MD.length_mark _ V
    rw [hmark] at hml
    rw [MD.result_skip (h.policy.md iv compress view d0) V hwL J
      (by intro s; show h.policy.digestBits / h.policy.wordBits * h.policy.wordBits ≤ (view s).length
          rw [hdig, hv]; exact hle)
      (by show h.policy.digestBits / h.policy.wordBits * h.policy.wordBits ≤ d0.length
          rw [hdig, hd0]; exact Nat.le_refl _)
      hb hrep (by rw [← hml]; exact hg) hlt]
    congr 1
    unfold MD.output
    show (view _).take (h.policy.digestBits / h.policy.wordBits * h.policy.wordBits) ++
      d0.drop (h.policy.digestBits / h.policy.wordBits * h.policy.wordBits) = _
    rw [hdig, List.drop_of_length_le (by omega), List.append_nil]
    unfold mdDigestWithout paddedMessage mdPad
    simp only
    rw [hmark, policy_enc h iv compress view d0 m.length (Or.inr hlt)]
    have hbb : (h.policy.md iv compress view d0).blockBits = (standard h).block := by cases h <;> rfl
    have hl : (h.policy.md iv compress view d0).lengthBits = (standard h).length := by cases h <;> rfl
    have hd : h.policy.digestBits = (standard h).digest := by cases h <;> rfl
    rw [hbb, hl, hd]
    rfl

/-! ### Sponge -/

/-- The message without its lost blocks. -/
def kept (B : Nat) (lost : List Nat) (m : Bits) : Bits :=
  (without lost (blocks B m)).flatten ++ m.drop (m.length / B * B)

theorem mem_without {α : Type} {lost : List Nat} {xs : List α} {x : α} (h : x ∈ without lost xs) : x ∈ xs := by
  unfold without at h
  obtain ⟨p, hp, rfl⟩ := List.mem_map.1 h
  have := List.mem_filter.1 hp
  exact List.fst_mem_of_mem_zipIdx this.1

theorem blocks_flatten {B : Nat} (hB : 0 < B) (bs : List Bits) (h : ∀ b ∈ bs, b.length = B) :
    blocks B bs.flatten = bs := by
  induction bs with
  | nil => exact blocks_nil B
  | cons b bs ih =>
    have hb := h b (by simp)
    rw [List.flatten_cons, blocks_append hB (by rw [hb]; exact Nat.dvd_refl _), blocks_single hB hb,
      ih (fun x hx => h x (by simp [hx]))]
    rfl

theorem length_flatten_of {B : Nat} (bs : List Bits) (h : ∀ b ∈ bs, b.length = B) :
    bs.flatten.length = bs.length * B := by
  induction bs with
  | nil => simp
  | cons b bs ih =>
    rw [List.flatten_cons, List.length_append, h b (by simp), ih (fun x hx => h x (by simp [hx])),
      List.length_cons, Nat.add_mul]
    omega

theorem sponge_lossy (k : SpongeKind) (permute : Lanes → Lanes) (d : Nat) (S : SpongeSize d)
    (J : Injector) :
    LossyVerified (spongeConstruction k permute d J) (fun m => 8 ∣ m.length)
      (fun lost m => spongeSpec k permute d (kept (spongeBlockBits d) lost m)) where
  block := S.facts.1
  word := by show 0 < 64; omega
  wordBlock := S.facts.2.1
  computes := by
    intro lost a m hb hrep hlt h8
    obtain ⟨hB, h64, -⟩ := S.facts
    generalize hBB : spongeBlockBits d = B at *
    have hBC : (spongeConstruction k permute d J).blockBits = B := hBB
    rw [hBC] at hb
    obtain ⟨q, h1, h2, hst, hrest, hmod⟩ := hrep.atDigest
      (show 0 < ((spongeConstruction k permute d J).skip lost).blockBits by
        show 0 < spongeBlockBits d; rw [hBB]; exact hB)
    have hcl := hrep.cache_len
    have hBS : ((spongeConstruction k permute d J).skip lost).blockBits = B := hBB
    rw [hBS] at h1 h2 hst hrest hmod hcl
    have hq : m.length / B = q := by
      apply Nat.div_eq_of_lt_le h1
      rw [Nat.add_mul]; omega
    have hst' : (if m.length ≠ 0 ∧ m.length % B = 0
        then spongeCompress permute (spongeBlockBits d) a.st a.cache else a.st) =
        absorbed ((spongeConstruction k permute d J).skip lost) m q := by
      rw [← hst]
      by_cases hf : m.length ≠ 0 ∧ m.length % B = 0
      · rw [if_pos hf, if_pos hf, wrap64_of_lt hlt, skip_processBlock (by
          rw [hBC]; exact last_not_lost hB hb hf.1 hf.2)]
        rfl
      · rw [if_neg hf, if_neg hf]
    have hab := absorbed_skip (spongeConstruction k permute d J) (spongeCompress permute (spongeBlockBits d))
      (fun _ _ _ => rfl) (by rw [hBC]; exact hB) lost m hlt q (by rw [hBC]; exact h1)
    rw [hBC] at hab
    have hlen : ∀ b ∈ without lost (blocks B (m.take (q * B))), b.length = B :=
      fun b hb => length_of_mem_blocks (mem_without hb)
    have hkept : kept B lost m = (without lost (blocks B (m.take (q * B)))).flatten ++ m.drop (q * B) := by
      unfold kept
      rw [hq]
      congr 3
      have e : m = m.take (q * B) ++ m.drop (q * B) := (List.take_append_drop _ _).symm
      conv => lhs; rw [e]
      rw [blocks_append hB (take_blocks_length h1)]
      have : blocks B (m.drop (q * B)) = [] := by
        unfold blocks
        rw [List.length_drop, Nat.div_eq_of_lt (by omega)]; rfl
      rw [this, List.append_nil]
    have hsz : (m.drop (q * B)).length = m.length % B := by
      rw [List.length_drop]; omega
    have ht := spongeDigest_tail k B hB h64 (Vector.replicate 25 0)
      (spongeCompress permute (spongeBlockBits d)) (spongeOutput permute d) J a.st a.cache a.total
      (without lost (blocks B (m.take (q * B)))).flatten (m.drop (q * B)) hcl
      (by rw [length_flatten_of _ hlen]; exact ⟨_, Nat.mul_comm _ _⟩)
      (by rw [hrep.total, wrap64_of_lt hlt, hsz])
      (by rw [hsz, Nat.dvd_mod_iff (by omega)]; exact h8) (by rw [hsz, hrest])
      (by rw [hrep.total, wrap64_of_lt hlt, hst', hab, blocks_flatten hB _ hlen]; rfl)
    show spongeDigest k (spongeBlockBits d) (spongeCompress permute (spongeBlockBits d))
      (spongeOutput permute d) J a.st a.cache a.total = _
    rw [hkept]
    subst hBB
    refine ht.trans ?_
    exact output_of_blocks permute d S _

/-! ### HAIFA -/

/-- The state after the first `q` blocks of `m` but those in `lost`, each compressed with the number of
bits up to its end. -/
def haifaAbsorbedWithout (B : Nat) (init : σ) (compress : σ → Bits → Nat → Bool → σ) (lost : List Nat)
    (m : Bits) (q : Nat) : σ :=
  (without lost ((List.range q).map fun i => (block B m i, (i + 1) * B))).foldl
    (fun s p => compress s p.1 p.2 false) init

/-- The digest with the blocks `lost` left out. -/
def haifaDigestWithout (B : Nat) (init : σ) (compress : σ → Bits → Nat → Bool → σ) (out : σ → δ)
    (lost : List Nat) (m : Bits) : δ :=
  out (compress (haifaAbsorbedWithout B init compress lost m (m.length / B)) (haifaLast B m) m.length true)

theorem haifa_lossy (B w : Nat) (hB : 0 < B) (hw : 0 < w) (hwB : w ∣ B) (init : σ)
    (compress : σ → Bits → Nat → Bool → σ) (output : σ → Except Fault δ) (out : σ → δ)
    (hout : ∀ s, output s = .ok (out s)) (J : Injector) :
    LossyVerified (haifaConstruction B w init compress output J) (fun _ => True)
      (haifaDigestWithout B init compress out) where
  block := hB
  word := hw
  wordBlock := hwB
  computes := by
    intro lost a m hb h hlt _
    replace hb : ∀ i ∈ lost, (i + 1) * B < m.length := hb
    obtain ⟨q, h1, h2, h3, h4, h5⟩ := h.atDigest hB
    have hcl : a.cache.length = B := h.cache_len
    replace h1 : q * B ≤ m.length := h1
    replace h2 : m.length < q * B + B := h2
    replace h4 : a.cache.take (m.length % B) = m.drop (q * B) := h4
    have hq : m.length / B = q := by
      apply Nat.div_eq_of_lt_le h1
      rw [Nat.add_mul]; omega
    have hab : ∀ k, k * B ≤ m.length →
        absorbed ((haifaConstruction B w init compress output J).skip lost) m k =
          haifaAbsorbedWithout B init compress lost m k := by
      intro k
      induction k with
      | zero => intro _; simp [absorbed, haifaAbsorbedWithout, without]; rfl
      | succ k ih =>
        intro hk
        have hk' : k * B ≤ m.length := by rw [Nat.add_mul] at hk; omega
        simp only [absorbed, ih hk']
        show (if wrap64 ((k + 1) * B) / B - 1 ∈ lost then _ else compress _ _ (wrap64 ((k + 1) * B)) false) = _
        rw [wrap64_of_lt (by omega), Nat.mul_div_cancel _ hB, Nat.add_sub_cancel]
        unfold haifaAbsorbedWithout
        rw [List.range_succ, List.map_append, List.map_cons, List.map_nil, without_snoc, List.length_map,
          List.length_range, List.foldl_append]
        by_cases hm : k ∈ lost
        · rw [if_pos hm, if_pos hm]; rfl
        · rw [if_neg hm, if_neg hm]; rfl
    have h3' : (if m.length ≠ 0 ∧ m.length % B = 0 then compress a.st a.cache m.length false else a.st) =
        haifaAbsorbedWithout B init compress lost m q := by
      rw [← hab q h1, ← h3]
      by_cases hf : m.length ≠ 0 ∧ m.length % B = 0
      · rw [if_pos hf, if_pos (show m.length ≠ 0 ∧
            m.length % ((haifaConstruction B w init compress output J).skip lost).blockBits = 0 from hf),
          wrap64_of_lt hlt, skip_processBlock (last_not_lost hB hb hf.1 hf.2)]
        rfl
      · rw [if_neg hf, if_neg (show ¬ (m.length ≠ 0 ∧
          m.length % ((haifaConstruction B w init compress output J).skip lost).blockBits = 0) from hf)]
    unfold Acc.result
    rw [h.total, wrap64_of_lt hlt]
    show haifaDigest B w compress output J a.st a.cache m.length = _
    unfold haifaDigest
    simp only [bind, Except.bind]
    rw [h3']
    unfold haifaDigestWithout haifaLast
    rw [hq]
    by_cases hf : m.length ≠ 0 ∧ m.length % B = 0
    · have hp : blake2bPad B w J a.cache m.length = .ok a.cache := by
        unfold blake2bPad
        rw [if_neg (by omega)]
      rw [hp, if_pos hf]
      simp only
      have hc : a.cache = m.drop (m.length - B) := by
        obtain ⟨q', k1, k2, k3, _, _, k6⟩ := h.core
        replace k1 : q' * B ≤ m.length := k1
        replace k2 : m.length ≤ q' * B + B := k2
        replace k3 : q' = 0 ∨ q' * B < m.length := k3
        replace k6 : a.cache.take (m.length - q' * B) = m.drop (q' * B) := k6
        have e : m.length = q' * B + B := by
          obtain ⟨c, hc⟩ := Nat.dvd_of_mod_eq_zero hf.2
          rw [Nat.mul_comm] at hc
          have hlt : q' < c := by
            rcases k3 with rfl | k3
            · rcases Nat.eq_zero_or_pos c with rfl | hc0
              · rw [Nat.zero_mul] at hc; omega
              · exact hc0
            · rw [hc] at k3; exact Nat.lt_of_mul_lt_mul_right k3
          have := Nat.mul_le_mul_right B hlt
          rw [Nat.succ_mul] at this
          omega
        rw [show m.length - q' * B = B by omega, List.take_of_length_le (by omega)] at k6
        rw [k6, show m.length - B = q' * B by omega]
      rw [hc, hout]
    · rw [blake2bPad_eq B w hB hw hwB J _ hcl _ (by omega), if_neg hf]
      simp only
      rw [h4, hout]

end Verif
