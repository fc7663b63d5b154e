import Verif.Spec.UserSponge
import Verif.Model.UserSponge
import Verif.Model.Blake2b
import Verif.Proof.Sponge
import Verif.Proof.Haifa
import Verif.Proof.Collision
import Verif.Props.Modes
import Mathlib.Data.List.Induction
/-
C129: `sponge_construction` and `haifa_construction` for all template arguments.
-/
namespace Verif.Props
open Spec

variable {σ : Type}

/-! ### Sponge -/

/-- The padding functor implements the rule `rule` on rests whose length satisfies `ok`: it looks only at the rest, not at what
else is in the block. -/
def UserSponge.Pads (S : UserSponge σ) (ok : Nat → Prop) (rule : Bits → List Bits) : Prop :=
  ∀ b r : Bits, b.length = S.blockBits → r.length < S.blockBits → ok r.length → b.take r.length = r →
    (∃ b1, S.pad b r.length = .ok (b1, true) ∧ rule r = [b1]) ∨
    (∃ b1 b2, S.pad b r.length = .ok (b1, false) ∧ S.padLast (List.replicate S.blockBits false) r.length = .ok b2 ∧ rule r = [b1, b2])

/-- Arguments for which the template makes sense. -/
structure SpongeArgs (S : UserSponge σ) (fin : σ → σ) : Prop where
  block : 0 < S.blockBits
  word : 0 < S.wordBits
  wordBlock : S.wordBits ∣ S.blockBits
  finalize : ∀ s, S.finalize s = .ok (fin s)
  digestFits : ∀ s, S.digestBits / 8 * 8 ≤ (S.stateView (fin s)).length

/-- The hash that the template should compute. -/
def userSpongeHash (S : UserSponge σ) (fin : σ → σ) (rule : Bits → List Bits) : Bits → Bits :=
  absorbHash S.blockBits rule S.iv S.compress fun s => (S.stateView (fin s)).take (S.digestBits / 8 * 8)

/-- Messages that the template handles. -/
def SpongeMsg (S : UserSponge σ) (ok : Nat → Prop) (m : Bits) : Prop := m.length < 2 ^ 64 ∧ ok (m.length % S.blockBits)

theorem blocks_take_full {B : Nat} (hB : 0 < B) (m : Bits) : blocks B (m.take (m.length / B * B)) = blocks B m := by
  have hd : B ∣ (m.take (m.length / B * B)).length := take_blocks_length (Nat.div_mul_le_self _ _)
  have h := blocks_append hB hd (y := m.drop (m.length / B * B))
  rw [List.take_append_drop] at h
  rw [h]
  have : blocks B (m.drop (m.length / B * B)) = [] := by
    apply List.eq_nil_of_length_eq_zero
    rw [length_blocks, List.length_drop]
    have := Nat.div_add_mod m.length B
    rw [Nat.mul_comm] at this
    exact Nat.div_eq_of_lt (by have := Nat.mod_lt m.length hB; omega)
  rw [this, List.append_nil]

theorem userSponge_verified {S : UserSponge σ} {fin : σ → σ} (A : SpongeArgs S fin) {ok : Nat → Prop} {rule : Bits → List Bits}
    (hP : UserSponge.Pads S ok rule) : Verified S.construction (SpongeMsg S ok) (userSpongeHash S fin rule) where
  block := A.block
  word := A.word
  wordBlock := A.wordBlock
  computes := by
    rintro a m h ⟨hlt, hok⟩
    have hB := A.block
    have hcl : a.cache.length = S.blockBits := h.cache_len
    obtain ⟨q, hq1, hq2, hst, hrest, hmod⟩ := h.atDigest (C := S.construction) hB
    replace hq1 : q * S.blockBits ≤ m.length := hq1
    replace hq2 : m.length < q * S.blockBits + S.blockBits := hq2
    replace hrest : a.cache.take (m.length % S.blockBits) = m.drop (q * S.blockBits) := hrest
    replace hmod : m.length % S.blockBits = m.length - q * S.blockBits := hmod
    have hq : m.length / S.blockBits = q := by
      apply Nat.div_eq_of_lt_le hq1
      rw [Nat.add_mul]; omega
    rw [absorbed_eq_foldl S.construction S.compress (fun _ _ _ => rfl) hB m q hq1] at hst
    replace hst : (if m.length ≠ 0 ∧ m.length % S.blockBits = 0 then S.compress a.st a.cache else a.st) =
      (blocks S.blockBits (m.take (q * S.blockBits))).foldl S.compress S.iv := hst
    rw [← hq, blocks_take_full hB] at hst
    have hrl : (m.drop (q * S.blockBits)).length = m.length % S.blockBits := by rw [List.length_drop]; omega
    have hpad := hP a.cache (m.drop (q * S.blockBits)) hcl (by rw [hrl]; exact Nat.mod_lt _ hB) (by rw [hrl]; exact hok)
      (by rw [hrl]; exact hrest)
    rw [hrl] at hpad
    unfold Acc.result
    rw [h.total, wrap64_of_lt hlt]
    show S.digest a.st a.cache m.length = _
    unfold UserSponge.digest
    simp only
    rw [hst]
    unfold userSpongeHash absorbHash paddedBlocks
    rw [hq]
    rcases hpad with ⟨b1, e1, e2⟩ | ⟨b1, b2, e1, e2, e3⟩
    · rw [e1, e2, List.foldl_append]
      simp only [bind, Except.bind, pure, Except.pure, if_true, A.finalize]
      rw [if_pos (A.digestFits _)]
      rfl
    · rw [e1, e3, List.foldl_append]
      simp only [bind, Except.bind, pure, Except.pure, A.finalize, e2]
      simp only [Bool.false_eq_true, if_false]
      rw [if_pos (A.digestFits _)]
      rfl

/-- **C129, sponge.** Whatever the compressor, the finalizer, the sizes and the padding functor: if the functor implements a padding
rule, every extraction in every program of calls is the absorption of the whole blocks of the message and of the blocks that the rule
makes of the rest. -/
theorem C129_sponge {S : UserSponge σ} {fin : σ → σ} (A : SpongeArgs S fin) {ok : Nat → Prop} {rule : Bits → List Bits}
    (hP : UserSponge.Pads S ok rule) (J : Injector) (garbage : Bits) (hgb : garbage.length = S.blockBits) (ops : List Op)
    (hwt : ∀ op ∈ ops, op.WellTyped S.blockBits) (hgood : GoodExtracts S.blockBits (SpongeMsg S ok) [] ops)
    (hlen : SpongeMsg S ok (streamOf S.blockBits ops)) :
    ∃ a, runOps S.construction J (Acc.init S.construction garbage) [] ops =
        .ok (a, expected S.blockBits (userSpongeHash S fin rule) [] ops) ∧
      a.result S.construction = .ok (userSpongeHash S fin rule (streamOf S.blockBits ops)) :=
  (userSponge_verified A hP).extraction J garbage hgb ops hwt (Or.inl hlen.1) hgood hlen

/-- The library's instances. -/
def spongeInstance (k : SpongeKind) (permute : Lanes → Lanes) (d : Nat) (J : Injector) : UserSponge Lanes where
  blockBits := spongeBlockBits d
  wordBits := 64
  digestBits := d
  iv := Vector.replicate 25 0
  compress := spongeCompress permute (spongeBlockBits d)
  pad := k.pad (spongeBlockBits d) J
  padLast := k.padLast (spongeBlockBits d) J
  finalize := spongeFinalize permute (spongeBlockBits d) d
  stateView := bigOctetBigBit.arrayView

theorem spongeInstance_construction (k : SpongeKind) (permute : Lanes → Lanes) (d : Nat) (J : Injector) :
    (spongeInstance k permute d J).construction = spongeConstruction k permute d J := rfl

/-- The rule of the library: suffix, `10*1`, in the bit order of FIPS 202. -/
def libraryRule (k : SpongeKind) (B : Nat) (r : Bits) : List Bits :=
  [flipOctets (flipOctets r ++ k.suffix ++ pad101 B (r.length + k.suffix.length))]

theorem spongeInstance_pads (k : SpongeKind) (permute : Lanes → Lanes) (d : Nat) (hB : 8 ∣ spongeBlockBits d) (J : Injector) :
    UserSponge.Pads (spongeInstance k permute d J) (8 ∣ ·) (libraryRule k (spongeBlockBits d)) := by
  intro b r hb hr h8 ht
  left
  replace hb : b.length = spongeBlockBits d := hb
  replace hr : r.length < spongeBlockBits d := hr
  have hsl := k.suffix_le
  refine ⟨_, k.pad_eq J b r.length hb (by omega), ?_⟩
  unfold libraryRule pad101
  rw [flipOctets_take b (by omega) _ h8, ht, fillTo_of_le (by omega) (by omega)]
  simp only [List.append_assoc, List.cons_append, List.nil_append]
  congr 7
  omega

/-! ### Collisions -/

/-- Two runs that end in the same state contain a collision of the compression function, or one returns to the initial value. -/
theorem fold_collision {β : Type} (f : σ → β → σ) (iv : σ) : ∀ (xs ys : List β), xs ≠ ys → xs.foldl f iv = ys.foldl f iv →
    CollisionInRuns f iv xs ys ∨ (∃ i, 0 < i ∧ i ≤ xs.length ∧ (xs.take i).foldl f iv = iv) ∨
      ∃ i, 0 < i ∧ i ≤ ys.length ∧ (ys.take i).foldl f iv = iv := by
  intro xs
  induction xs using List.reverseRecOn with
  | nil =>
    intro ys hne e
    right; right
    have hl : 0 < ys.length := List.length_pos_iff.2 fun h => hne h.symm
    exact ⟨ys.length, hl, Nat.le_refl _, by rw [List.take_length]; exact e.symm⟩
  | append_singleton xs x ih =>
    intro ys hne e
    rcases List.eq_nil_or_concat ys with rfl | ⟨ys, y, rfl⟩
    · right; left
      exact ⟨(xs ++ [x]).length, by simp, Nat.le_refl _, by rw [List.take_length]; exact e⟩
    · rw [List.concat_eq_append] at hne e ⊢
      by_cases hs : (xs.foldl f iv, x) = (ys.foldl f iv, y)
      · have hxy : xs ≠ ys := fun h => hne (by rw [h, (Prod.mk.inj hs).2])
        rcases ih ys hxy (Prod.mk.inj hs).1 with h | ⟨i, h0, hi, h⟩ | ⟨i, h0, hi, h⟩
        · exact Or.inl (Verif.CollisionInRuns.snoc h)
        · exact Or.inr (Or.inl ⟨i, h0, by simp; omega, by rw [List.take_append_of_le_length hi]; exact h⟩)
        · exact Or.inr (Or.inr ⟨i, h0, by simp; omega, by rw [List.take_append_of_le_length hi]; exact h⟩)
      · exact Or.inl (collision_last f iv _ _ _ _ hs e)

/-- Two programs of calls with different messages and the same digest. -/
structure UserSpongeColliding (S : UserSponge σ) (ok : Nat → Prop) (J : Injector) (ops ops' : List Op) : Prop where
  wellTyped : ∀ op ∈ ops ++ ops', op.WellTyped S.blockBits
  extracts : GoodExtracts S.blockBits (SpongeMsg S ok) [] ops ∧ GoodExtracts S.blockBits (SpongeMsg S ok) [] ops'
  short : SpongeMsg S ok (streamOf S.blockBits ops) ∧ SpongeMsg S ok (streamOf S.blockBits ops')
  different : streamOf S.blockBits ops ≠ streamOf S.blockBits ops'
  digest : ∃ garbage garbage' : Bits, garbage.length = S.blockBits ∧ garbage'.length = S.blockBits ∧
    (do let (a, _) ← runOps S.construction J (Acc.init S.construction garbage) [] ops
        a.result S.construction) =
    (do let (a, _) ← runOps S.construction J (Acc.init S.construction garbage') [] ops'
        a.result S.construction)

/-- **C129, collisions.** If the padding rule is injective, a collision of the digests gives a collision of the compression function, a
way back to the initial value, or two final states with the same output. -/
theorem C129_collision {S : UserSponge σ} {fin : σ → σ} (A : SpongeArgs S fin) {ok : Nat → Prop} {rule : Bits → List Bits}
    (hP : UserSponge.Pads S ok rule)
    (hinj : ∀ m m', SpongeMsg S ok m → SpongeMsg S ok m' → paddedBlocks S.blockBits rule m = paddedBlocks S.blockBits rule m' → m = m')
    (J : Injector) {ops ops' : List Op} (hC : UserSpongeColliding S ok J ops ops') :
    let X := paddedBlocks S.blockBits rule (streamOf S.blockBits ops)
    let Y := paddedBlocks S.blockBits rule (streamOf S.blockBits ops')
    CollisionInRuns S.compress S.iv X Y ∨
    (∃ Z, (Z = X ∨ Z = Y) ∧ ∃ i, 0 < i ∧ i ≤ Z.length ∧ (Z.take i).foldl S.compress S.iv = S.iv) ∨
    (X.foldl S.compress S.iv ≠ Y.foldl S.compress S.iv ∧
      (S.stateView (fin (X.foldl S.compress S.iv))).take (S.digestBits / 8 * 8) =
        (S.stateView (fin (Y.foldl S.compress S.iv))).take (S.digestBits / 8 * 8)) := by
  intro X Y
  obtain ⟨g, g', hg, hg', hdig⟩ := hC.digest
  obtain ⟨a, e, r⟩ := C129_sponge A hP J g hg ops (fun op ho => hC.wellTyped op (List.mem_append_left _ ho)) hC.extracts.1 hC.short.1
  obtain ⟨a', e', r'⟩ := C129_sponge A hP J g' hg' ops' (fun op ho => hC.wellTyped op (List.mem_append_right _ ho)) hC.extracts.2
    hC.short.2
  rw [e, e'] at hdig
  change a.result S.construction = a'.result S.construction at hdig
  rw [r, r'] at hdig
  injection hdig with hdig
  by_cases hs : X.foldl S.compress S.iv = Y.foldl S.compress S.iv
  · rcases fold_collision S.compress S.iv X Y (fun h => hC.different (hinj _ _ hC.short.1 hC.short.2 h)) hs with h | h | h
    · exact Or.inl h
    · exact Or.inr (Or.inl ⟨X, Or.inl rfl, h⟩)
    · exact Or.inr (Or.inl ⟨Y, Or.inr rfl, h⟩)
  · exact Or.inr (Or.inr ⟨hs, hdig⟩)

/-! ### HAIFA -/

/-- The padding functor implements the rule `rule`: it looks at the part of the block that belongs to the message (the whole block
after a non-empty number of whole blocks) and at the length. -/
def UserHaifa.Pads (S : UserHaifa σ) (ok : Nat → Prop) (rule : Bits → Nat → Bits) : Prop :=
  ∀ (b : Bits) (n : Nat), b.length = S.blockBits → ok n →
    S.pad b n = .ok (rule (b.take (if n ≠ 0 ∧ n % S.blockBits = 0 then S.blockBits else n % S.blockBits)) n)

structure HaifaArgs (S : UserHaifa σ) (fin : σ → σ) : Prop where
  block : 0 < S.blockBits
  word : 0 < S.wordBits
  wordBlock : S.wordBits ∣ S.blockBits
  finalize : ∀ s, S.finalize s = .ok (fin s)
  digestFits : ∀ s, S.digestBits / 8 * 8 ≤ (S.stateView (fin s)).length

/-- The hash that the template computes. -/
def userHaifaHash (S : UserHaifa σ) (fin : σ → σ) (rule : Bits → Nat → Bits) : Bits → Bits :=
  countedHash S.blockBits rule S.iv S.compress fun s => (S.stateView (fin s)).take (S.digestBits / 8 * 8)

/-- Messages that the template handles. -/
def HaifaMsg (ok : Nat → Prop) (m : Bits) : Prop := m.length < 2 ^ 64 ∧ ok m.length

theorem countedFold_snoc (B : Nat) (f : σ → Bits → Nat → σ) (b : Bits) : ∀ (bs : List Bits) (n : Nat) (s : σ),
    countedFold B f n s (bs ++ [b]) = f (countedFold B f n s bs) b (n + bs.length * B + B)
  | [], n, s => by simp [countedFold]
  | c :: bs, n, s => by
    rw [List.cons_append, countedFold, countedFold, countedFold_snoc B f b bs]
    congr 1
    rw [List.length_cons, Nat.add_mul]
    omega

theorem countedFold_range (B : Nat) (iv : σ) (f : σ → Bits → Nat → Bool → σ) (m : Bits) : ∀ q,
    haifaAbsorbed B iv f m q = countedFold B (fun s b n => f s b n false) 0 iv ((List.range q).map (block B m))
  | 0 => rfl
  | q + 1 => by
    rw [List.range_succ, List.map_append, List.map_cons, List.map_nil, countedFold_snoc, haifaAbsorbed, countedFold_range B iv f m q,
      List.length_map, List.length_range, Nat.zero_add, Nat.add_mul, Nat.one_mul]

theorem userHaifa_verified {S : UserHaifa σ} {fin : σ → σ} (A : HaifaArgs S fin) {ok : Nat → Prop} {rule : Bits → Nat → Bits}
    (hP : UserHaifa.Pads S ok rule) : Verified S.construction (HaifaMsg ok) (userHaifaHash S fin rule) where
  block := A.block
  word := A.word
  wordBlock := A.wordBlock
  computes := by
    rintro a m h ⟨hlt, hok⟩
    have hB := A.block
    have hcl : a.cache.length = S.blockBits := h.cache_len
    obtain ⟨q, h1, h2, h3, h4, h5⟩ := h.atDigest (C := S.construction) hB
    replace h1 : q * S.blockBits ≤ m.length := h1
    replace h2 : m.length < q * S.blockBits + S.blockBits := h2
    replace h4 : a.cache.take (m.length % S.blockBits) = m.drop (q * S.blockBits) := h4
    have hq : m.length / S.blockBits = q := by
      apply Nat.div_eq_of_lt_le h1
      rw [Nat.add_mul]; omega
    rw [wrap64_of_lt hlt] at h3
    replace h3 : (if m.length ≠ 0 ∧ m.length % S.blockBits = 0 then S.compress a.st a.cache m.length false else a.st) =
      absorbed S.construction m q := h3
    have hab : ∀ k, k * S.blockBits ≤ m.length → absorbed S.construction m k = haifaAbsorbed S.blockBits S.iv S.compress m k := by
      intro k
      induction k with
      | zero => intro _; rfl
      | succ k ih =>
        intro hk
        have hk' : k * S.blockBits ≤ m.length := by rw [Nat.add_mul] at hk; omega
        simp only [absorbed, haifaAbsorbed, ih hk']
        show S.compress _ _ (wrap64 ((k + 1) * S.blockBits)) false = _
        rw [wrap64_of_lt (by omega)]
        rfl
    have hlast : a.cache.take (if m.length ≠ 0 ∧ m.length % S.blockBits = 0 then S.blockBits else m.length % S.blockBits) =
        lastPart S.blockBits m := by
      unfold lastPart
      by_cases hf : m.length ≠ 0 ∧ m.length % S.blockBits = 0
      · rw [if_pos hf, if_pos hf, List.take_of_length_le (by omega)]
        obtain ⟨q', k1, k2, k3, _, _, k6⟩ := h.core
        replace k1 : q' * S.blockBits ≤ m.length := k1
        replace k2 : m.length ≤ q' * S.blockBits + S.blockBits := k2
        replace k3 : q' = 0 ∨ q' * S.blockBits < m.length := k3
        replace k6 : a.cache.take (m.length - q' * S.blockBits) = m.drop (q' * S.blockBits) := k6
        have e : m.length = q' * S.blockBits + S.blockBits := by
          obtain ⟨c, hc⟩ := Nat.dvd_of_mod_eq_zero hf.2
          rw [Nat.mul_comm] at hc
          have hlt : q' < c := by
            rcases k3 with rfl | k3
            · rcases Nat.eq_zero_or_pos c with rfl | hc0
              · rw [Nat.zero_mul] at hc; omega
              · exact hc0
            · rw [hc] at k3; exact Nat.lt_of_mul_lt_mul_right k3
          have := Nat.mul_le_mul_right S.blockBits hlt
          rw [Nat.succ_mul] at this
          omega
        rw [show m.length - q' * S.blockBits = S.blockBits by omega, List.take_of_length_le (by omega)] at k6
        rw [k6, show m.length - S.blockBits = q' * S.blockBits by omega]
      · rw [if_neg hf, if_neg hf, h4, hq]
    unfold Acc.result
    rw [h.total, wrap64_of_lt hlt]
    show S.digest a.st a.cache m.length = _
    unfold UserHaifa.digest
    simp only
    rw [h3, hab q h1, hP a.cache m.length hcl hok, hlast]
    simp only [bind, Except.bind, pure, Except.pure, A.finalize]
    rw [if_pos (A.digestFits _)]
    unfold userHaifaHash countedHash
    rw [countedFold_range, ← hq]
    rfl

/-- **C129, HAIFA.** Whatever the compressor, the finalizer, the sizes and the padding functor: if the functor implements a padding
rule, every extraction in every program of calls is the iteration with counters over all whole blocks of the message, followed by one
call with the final flag on what the rule makes of the last part, which after whole blocks is the last block once more. -/
theorem C129_haifa {S : UserHaifa σ} {fin : σ → σ} (A : HaifaArgs S fin) {ok : Nat → Prop} {rule : Bits → Nat → Bits}
    (hP : UserHaifa.Pads S ok rule) (J : Injector) (garbage : Bits) (hgb : garbage.length = S.blockBits) (ops : List Op)
    (hwt : ∀ op ∈ ops, op.WellTyped S.blockBits) (hgood : GoodExtracts S.blockBits (HaifaMsg ok) [] ops)
    (hlen : HaifaMsg ok (streamOf S.blockBits ops)) :
    ∃ a, runOps S.construction J (Acc.init S.construction garbage) [] ops =
        .ok (a, expected S.blockBits (userHaifaHash S fin rule) [] ops) ∧
      a.result S.construction = .ok (userHaifaHash S fin rule (streamOf S.blockBits ops)) :=
  (userHaifa_verified A hP).extraction J garbage hgb ops hwt (Or.inl hlen.1) hgood hlen

/-- The calls of the compression function for a message: block, counter, final flag. -/
def countedCalls (B : Nat) (rule : Bits → Nat → Bits) (m : Bits) : List (Bits × Nat × Bool) :=
  (blocks B m).zipIdx.map (fun p => (p.1, (p.2 + 1) * B, false)) ++ [(rule (lastPart B m) m.length, m.length, true)]

theorem countedFold_zipIdx (B : Nat) (f : σ → Bits → Nat → Bool → σ) : ∀ (bs : List Bits) (k : Nat) (s : σ),
    countedFold B (fun s b n => f s b n false) (k * B) s bs =
      ((bs.zipIdx k).map fun p => (p.1, (p.2 + 1) * B, false)).foldl (fun s c => f s c.1 c.2.1 c.2.2) s
  | [], _, _ => rfl
  | b :: bs, k, s => by
    rw [countedFold, List.zipIdx_cons, List.map_cons, List.foldl_cons, ← countedFold_zipIdx B f bs (k + 1), Nat.add_mul, Nat.one_mul]

theorem countedHash_calls (B : Nat) (rule : Bits → Nat → Bits) (iv : σ) (f : σ → Bits → Nat → Bool → σ) (out : σ → Bits) (m : Bits) :
    countedHash B rule iv f out m = out ((countedCalls B rule m).foldl (fun s c => f s c.1 c.2.1 c.2.2) iv) := by
  unfold countedHash countedCalls
  rw [List.foldl_append]
  have := countedFold_zipIdx B f (blocks B m) 0 iv
  rw [Nat.zero_mul] at this
  rw [this]
  rfl

theorem lastPart_length {B : Nat} {m m' : Bits} (h : m.length = m'.length) : (lastPart B m).length = (lastPart B m').length := by
  unfold lastPart
  rw [h]
  split <;> rw [List.length_drop, List.length_drop, h]

/-- The calls determine the message. -/
theorem countedCalls_injective {B : Nat} (hB : 0 < B) {rule : Bits → Nat → Bits}
    (hinj : ∀ r r' n, r.length = r'.length → rule r n = rule r' n → r = r') {m m' : Bits} (hl : m.length = m'.length)
    (e : countedCalls B rule m = countedCalls B rule m') : m = m' := by
  unfold countedCalls at e
  have hlen : (blocks B m).length = (blocks B m').length := by rw [length_blocks, length_blocks, hl]
  obtain ⟨e1, e2⟩ := List.append_inj e (by rw [List.length_map, List.length_map, List.length_zipIdx, List.length_zipIdx, hlen])
  have hb : blocks B m = blocks B m' := by
    have := congrArg (List.map Prod.fst) e1
    rw [List.map_map, List.map_map] at this
    have hz : ∀ l : List Bits, (l.zipIdx).map (Prod.fst ∘ fun p : Bits × Nat => (p.1, (p.2 + 1) * B, false)) = l := fun l => by
      have h := List.zipIdx_map_fst 0 l
      exact h
    rwa [hz, hz] at this
  have h3 := (Prod.mk.inj (List.cons.inj e2).1).1
  rw [← hl] at h3
  have h4 := hinj _ _ _ (lastPart_length hl) h3
  by_cases hf : m.length ≠ 0 ∧ m.length % B = 0
  · refine blocks_injective hB (m.length / B) _ _ ?_ ?_ hb
    · rw [Nat.div_mul_cancel (Nat.dvd_of_mod_eq_zero hf.2)]
    · rw [Nat.div_mul_cancel (Nat.dvd_of_mod_eq_zero hf.2), hl]
  · unfold lastPart at h4
    rw [if_neg hf, if_neg (by rw [← hl]; exact hf), ← hl] at h4
    rw [← blocks_take_full hB m, ← blocks_take_full hB m', ← hl] at hb
    have hdm := Nat.div_mul_le_self m.length B
    have h5 := blocks_injective hB (m.length / B) _ _ (by rw [List.length_take]; omega) (by rw [List.length_take]; omega) hb
    rw [← List.take_append_drop (m.length / B * B) m, ← List.take_append_drop (m.length / B * B) m', h4, h5]

/-- Two programs of calls with different messages and the same digest. -/
structure UserHaifaColliding (S : UserHaifa σ) (ok : Nat → Prop) (J : Injector) (ops ops' : List Op) : Prop where
  wellTyped : ∀ op ∈ ops ++ ops', op.WellTyped S.blockBits
  extracts : GoodExtracts S.blockBits (HaifaMsg ok) [] ops ∧ GoodExtracts S.blockBits (HaifaMsg ok) [] ops'
  short : HaifaMsg ok (streamOf S.blockBits ops) ∧ HaifaMsg ok (streamOf S.blockBits ops')
  different : streamOf S.blockBits ops ≠ streamOf S.blockBits ops'
  digest : ∃ garbage garbage' : Bits, garbage.length = S.blockBits ∧ garbage'.length = S.blockBits ∧
    (do let (a, _) ← runOps S.construction J (Acc.init S.construction garbage) [] ops
        a.result S.construction) =
    (do let (a, _) ← runOps S.construction J (Acc.init S.construction garbage') [] ops'
        a.result S.construction)

/-- **C129, collisions of HAIFA.** If the padding rule is injective on parts of the same length, a collision of the digests gives a
collision of the compression function (in state, block, counter and flag) or two final states with the same output. -/
theorem C129_haifa_collision {S : UserHaifa σ} {fin : σ → σ} (A : HaifaArgs S fin) {ok : Nat → Prop} {rule : Bits → Nat → Bits}
    (hP : UserHaifa.Pads S ok rule) (hinj : ∀ r r' n, r.length = r'.length → rule r n = rule r' n → r = r')
    (J : Injector) {ops ops' : List Op} (hC : UserHaifaColliding S ok J ops ops') :
    let f := fun (s : σ) (c : Bits × Nat × Bool) => S.compress s c.1 c.2.1 c.2.2
    let X := countedCalls S.blockBits rule (streamOf S.blockBits ops)
    let Y := countedCalls S.blockBits rule (streamOf S.blockBits ops')
    CollisionInRuns f S.iv X Y ∨
    (X.foldl f S.iv ≠ Y.foldl f S.iv ∧
      (S.stateView (fin (X.foldl f S.iv))).take (S.digestBits / 8 * 8) =
        (S.stateView (fin (Y.foldl f S.iv))).take (S.digestBits / 8 * 8)) := by
  intro f X Y
  obtain ⟨g, g', hg, hg', hdig⟩ := hC.digest
  obtain ⟨a, e, r⟩ := C129_haifa A hP J g hg ops (fun op ho => hC.wellTyped op (List.mem_append_left _ ho)) hC.extracts.1 hC.short.1
  obtain ⟨a', e', r'⟩ := C129_haifa A hP J g' hg' ops' (fun op ho => hC.wellTyped op (List.mem_append_right _ ho)) hC.extracts.2
    hC.short.2
  rw [e, e'] at hdig
  change a.result S.construction = a'.result S.construction at hdig
  rw [r, r'] at hdig
  injection hdig with hdig
  unfold userHaifaHash at hdig
  rw [countedHash_calls, countedHash_calls] at hdig
  by_cases hs : X.foldl f S.iv = Y.foldl f S.iv
  · left
    by_cases hl : (streamOf S.blockBits ops).length = (streamOf S.blockBits ops').length
    · refine collision_same_length f S.iv X.length X Y rfl ?_ (fun h => hC.different (countedCalls_injective A.block hinj hl h)) hs
      show (countedCalls _ _ _).length = (countedCalls _ _ _).length
      unfold countedCalls
      simp only [List.length_append, List.length_map, List.length_zipIdx, length_blocks, hl, List.length_cons]
    · refine collision_last f S.iv _ _ _ _ ?_ hs
      intro h
      exact hl (Prod.mk.inj (Prod.mk.inj (Prod.mk.inj h).2).2).1
  · exact Or.inr ⟨hs, hdig⟩

/-! ### The library's instances -/

theorem spongeInstance_args (k : SpongeKind) (permute : Lanes → Lanes) {d : Nat} (hd : SpongeSize d) (J : Injector) :
    ∃ fin, SpongeArgs (spongeInstance k permute d J) fin := by
  have hf := hd.facts
  refine ⟨fun s => (spongeFinalize_ok permute (spongeBlockBits d) d hf.1 hf.2.1 (by have := hd.lt; omega) s).choose, hf.1,
    (by decide : 0 < 64), hf.2.1, fun s => (spongeFinalize_ok permute (spongeBlockBits d) d hf.1 hf.2.1
      (by have := hd.lt; omega) s).choose_spec.1, fun s => ?_⟩
  show d / 8 * 8 ≤ (bigOctetBigBit.arrayView _).length
  rw [length_arrayView']
  have := hd.lt
  omega

/-- BLAKE2b as an instance. -/
def haifaInstance (d : Nat) (J : Injector) : UserHaifa BlakeState where
  blockBits := 1024
  wordBits := 64
  digestBits := d
  iv := blakeInit d
  compress := blakeCompress
  pad := blake2bPad 1024 64 J
  finalize := .ok
  stateView := littleOctetBigBit.arrayView

theorem haifaInstance_construction (d : Nat) (J : Injector) : (haifaInstance d J).construction = blake2bConstruction d J := rfl

theorem haifaInstance_args {d : Nat} (hd : d ≤ 512) (J : Injector) : HaifaArgs (haifaInstance d J) id where
  block := (by decide : 0 < 1024)
  word := (by decide : 0 < 64)
  wordBlock := (by decide : 64 ∣ 1024)
  finalize _ := rfl
  digestFits s := by
    show d / 8 * 8 ≤ (littleOctetBigBit.arrayView _).length
    rw [length_arrayView']
    omega

/-- Zeros fill the block; a whole block stays as it is. -/
theorem haifaInstance_pads (d : Nat) (J : Injector) :
    UserHaifa.Pads (haifaInstance d J) (fun _ => True) fun r _ => r ++ List.replicate (1024 - r.length) false := by
  intro b n hb _
  replace hb : b.length = 1024 := hb
  show blake2bPad 1024 64 J b n = .ok (b.take (if n ≠ 0 ∧ n % 1024 = 0 then 1024 else n % 1024) ++
    List.replicate (1024 - (b.take (if n ≠ 0 ∧ n % 1024 = 0 then 1024 else n % 1024)).length) false)
  by_cases hf : n ≠ 0 ∧ n % 1024 = 0
  · rw [if_pos hf, List.take_of_length_le (by omega), hb, Nat.sub_self, List.replicate_zero, List.append_nil]
    unfold blake2bPad
    rw [if_neg (by omega)]
  · rw [if_neg hf, blake2bPad_eq 1024 64 (by decide) (by decide) (by decide) J b hb n (by omega), List.length_take,
      Nat.min_eq_left (by omega)]

/-! ### Examples -/

/-- Three octets between two extractions. -/
def threeOctets (B : Nat) : List Op := [.extract, .block (List.replicate B true) 24, .extract]

theorem threeOctets_wellTyped {B : Nat} (hB : 24 ≤ B) : ∀ op ∈ threeOctets B, op.WellTyped B := by
  intro op ho
  simp only [threeOctets, List.mem_cons, List.not_mem_nil, or_false] at ho
  rcases ho with h | h | h <;> subst h
  · trivial
  · exact ⟨List.length_replicate, hB⟩
  · trivial

theorem threeOctets_stream : (streamOf 1088 (threeOctets 1088)).length = 24 := by decide +kernel

example (J JP : Injector) (permute : Lanes → Lanes) := (spongeInstance_args .sha3 permute (d := 256) ⟨by decide, by decide, by decide⟩ JP).imp
  fun _ A => C129_sponge A (spongeInstance_pads .sha3 permute 256 (by decide) JP) J (List.replicate 1088 true) List.length_replicate
    (threeOctets 1088) (threeOctets_wellTyped (by decide))
    ⟨⟨Nat.two_pow_pos 64, (by decide : 8 ∣ 0 % 1088)⟩, ⟨(by decide +kernel : ([] ++ (List.replicate 1088 true).take 24).length < 2 ^ 64),
      (by decide +kernel : 8 ∣ ([] ++ (List.replicate 1088 true).take 24).length % 1088)⟩, trivial⟩
    ⟨(by rw [threeOctets_stream]; decide : (streamOf 1088 (threeOctets 1088)).length < 2 ^ 64),
      (by rw [threeOctets_stream]; decide : 8 ∣ (streamOf 1088 (threeOctets 1088)).length % 1088)⟩

/-- One whole block, then an extraction. -/
def wholeBlock (B : Nat) : List Op := [.block (List.replicate B true) B, .extract]

theorem wholeBlock_stream : (streamOf 1024 (wholeBlock 1024)).length = 1024 := by decide +kernel

example (J JP : Injector) := C129_haifa (haifaInstance_args (d := 256) (by decide) JP) (haifaInstance_pads 256 JP) J (List.replicate 1024 true)
  List.length_replicate (wholeBlock 1024)
  (by
    intro op ho
    simp only [wholeBlock, List.mem_cons, List.not_mem_nil, or_false] at ho
    rcases ho with h | h <;> subst h
    · exact ⟨List.length_replicate, Nat.le_refl 1024⟩
    · trivial)
  ⟨⟨(by decide +kernel : ([] ++ (List.replicate 1024 true).take 1024).length < 2 ^ 64), trivial⟩, trivial⟩
  ⟨(by rw [wholeBlock_stream]; decide : (streamOf 1024 (wholeBlock 1024)).length < 2 ^ 64), trivial⟩

/-- A toy sponge over octets: the rest with zeros, then a block with the length of the rest. -/
def toySponge : UserSponge (BitVec 8) where
  blockBits := 16
  wordBits := 8
  digestBits := 8
  iv := 0x5A
  compress s b := 3 * s + 5 * bigOctetBigBit.word 8 b 0 + bigOctetBigBit.word 8 b 1 * bigOctetBigBit.word 8 b 1
  pad b seen := .ok (b.take seen ++ List.replicate (16 - seen) false, false)
  padLast _ seen := .ok (bigEndian 16 seen)
  finalize s := .ok (s + 1)
  stateView s := bigOctetBigBit.view 8 s.toNat

theorem toySponge_args : SpongeArgs toySponge (· + 1) where
  block := (by decide : 0 < 16)
  word := (by decide : 0 < 8)
  wordBlock := (by decide : 8 ∣ 16)
  finalize _ := rfl
  digestFits s := by
    show 8 / 8 * 8 ≤ (bigOctetBigBit.view 8 _).length
    rw [length_view]

def toyRule (r : Bits) : List Bits := [r ++ List.replicate (16 - r.length) false, bigEndian 16 r.length]

theorem toySponge_pads : UserSponge.Pads toySponge (fun _ => True) toyRule := by
  intro b r _ _ _ ht
  right
  refine ⟨b.take r.length ++ List.replicate (16 - r.length) false, bigEndian 16 r.length, rfl, rfl, ?_⟩
  rw [ht]
  rfl

theorem toyRule_injective (m m' : Bits) (e : paddedBlocks 16 toyRule m = paddedBlocks 16 toyRule m') : m = m' := by
  unfold paddedBlocks toyRule at e
  have hl : ∀ m : Bits, (m.drop (m.length / 16 * 16)).length < 16 := fun m => by rw [List.length_drop]; omega
  have hlen := congrArg List.length e
  simp only [List.length_append, List.length_cons, List.length_nil, length_blocks] at hlen
  have h1 := List.append_inj e (by rw [length_blocks, length_blocks]; omega)
  obtain ⟨h2, h3⟩ := h1
  have h4 := List.cons.inj h3
  have h5 := bigEndian_injective (L := 16) (by have := hl m; omega) (by have := hl m'; omega) (List.cons.inj h4.2).1
  have h6 := (List.append_inj h4.1 h5).1
  rw [← blocks_take_full (by decide) m, ← blocks_take_full (by decide) m'] at h2
  have h7 := blocks_injective (by decide) (m.length / 16) _ _ (by rw [List.length_take]; omega) (by rw [List.length_take]; omega) h2
  rw [← List.take_append_drop (m.length / 16 * 16) m, ← List.take_append_drop (m'.length / 16 * 16) m', h6, h7]

/-- Octets fed to it. -/
def spongeOctets (bs : List Nat) : Op := .feed (wordElem bigOctetBigBit 8) .randomAccess [0, 0] bs

theorem spongeOctets_wellTyped (bs : List Nat) : (spongeOctets bs).WellTyped 16 := ⟨by simp [wordElem], by simp [wordElem], by simp [wordElem]⟩

theorem toySponge_colliding (J : Injector) : UserSpongeColliding toySponge (fun _ => True) J [spongeOctets [7, 1]] [spongeOctets [7, 255]] where
  wellTyped op ho := by
    simp only [List.cons_append, List.nil_append, List.mem_cons, List.not_mem_nil, or_false] at ho
    rcases ho with h | h <;> subst h <;> exact spongeOctets_wellTyped _
  extracts := ⟨trivial, trivial⟩
  short := ⟨⟨by decide +kernel, trivial⟩, ⟨by decide +kernel, trivial⟩⟩
  different := by decide +kernel
  digest := by
    have hw : ∀ bs, ∀ op ∈ [spongeOctets bs], op.WellTyped toySponge.blockBits := fun bs op ho => by
      rw [List.mem_singleton.1 ho]; exact spongeOctets_wellTyped _
    obtain ⟨a, e, r⟩ := C129_sponge toySponge_args toySponge_pads J (List.replicate 16 true) rfl [spongeOctets [7, 1]] (hw _) trivial
      ⟨by decide +kernel, trivial⟩
    obtain ⟨a', e', r'⟩ := C129_sponge toySponge_args toySponge_pads J (List.replicate 16 true) rfl [spongeOctets [7, 255]] (hw _) trivial
      ⟨by decide +kernel, trivial⟩
    refine ⟨List.replicate 16 true, List.replicate 16 true, rfl, rfl, ?_⟩
    rw [e, e']
    change a.result toySponge.construction = a'.result toySponge.construction
    rw [r, r']
    exact congrArg Except.ok (by decide +kernel)

example (J : Injector) := C129_collision toySponge_args toySponge_pads (fun m m' _ _ => toyRule_injective m m') J (toySponge_colliding J)

/-- A toy HAIFA hash over octets. -/
def toyHaifa : UserHaifa (BitVec 8) where
  blockBits := 16
  wordBits := 8
  digestBits := 8
  iv := 0x5A
  compress s b n fl := 3 * s + 5 * bigOctetBigBit.word 8 b 0 + bigOctetBigBit.word 8 b 1 * bigOctetBigBit.word 8 b 1 +
    BitVec.ofNat 8 n + if fl then 1 else 0
  pad b n := .ok (b.take (if n ≠ 0 ∧ n % 16 = 0 then 16 else n % 16) ++
    List.replicate (16 - (b.take (if n ≠ 0 ∧ n % 16 = 0 then 16 else n % 16)).length) false)
  finalize s := .ok (s + 1)
  stateView s := bigOctetBigBit.view 8 s.toNat

theorem toyHaifa_args : HaifaArgs toyHaifa (· + 1) where
  block := (by decide : 0 < 16)
  word := (by decide : 0 < 8)
  wordBlock := (by decide : 8 ∣ 16)
  finalize _ := rfl
  digestFits s := by
    show 8 / 8 * 8 ≤ (bigOctetBigBit.view 8 _).length
    rw [length_view]

theorem toyHaifa_pads : UserHaifa.Pads toyHaifa (fun _ => True) fun r _ => r ++ List.replicate (16 - r.length) false := fun _ _ _ _ => rfl

theorem toyHaifa_colliding (J : Injector) : UserHaifaColliding toyHaifa (fun _ => True) J [spongeOctets [7, 1, 9]] [spongeOctets [7, 255, 9]] where
  wellTyped op ho := by
    simp only [List.cons_append, List.nil_append, List.mem_cons, List.not_mem_nil, or_false] at ho
    rcases ho with h | h <;> subst h <;> exact spongeOctets_wellTyped _
  extracts := ⟨trivial, trivial⟩
  short := ⟨⟨by decide +kernel, trivial⟩, ⟨by decide +kernel, trivial⟩⟩
  different := by decide +kernel
  digest := by
    have hw : ∀ bs, ∀ op ∈ [spongeOctets bs], op.WellTyped toyHaifa.blockBits := fun bs op ho => by
      rw [List.mem_singleton.1 ho]; exact spongeOctets_wellTyped _
    obtain ⟨a, e, r⟩ := C129_haifa toyHaifa_args toyHaifa_pads J (List.replicate 16 true) rfl [spongeOctets [7, 1, 9]] (hw _) trivial
      ⟨by decide +kernel, trivial⟩
    obtain ⟨a', e', r'⟩ := C129_haifa toyHaifa_args toyHaifa_pads J (List.replicate 16 true) rfl [spongeOctets [7, 255, 9]] (hw _) trivial
      ⟨by decide +kernel, trivial⟩
    refine ⟨List.replicate 16 true, List.replicate 16 true, rfl, rfl, ?_⟩
    rw [e, e']
    change a.result toyHaifa.construction = a'.result toyHaifa.construction
    rw [r, r']
    exact congrArg Except.ok (by decide +kernel)

example (J : Injector) := C129_haifa_collision toyHaifa_args toyHaifa_pads
  (fun r r' _ hl e => (List.append_inj e hl).1) J (toyHaifa_colliding J)

end Verif.Props
