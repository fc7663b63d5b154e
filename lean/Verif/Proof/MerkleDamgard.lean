import Verif.Model.MerkleDamgard
import Verif.Spec.MerkleDamgard
import Verif.Proof.Accumulator
import Verif.Proof.Blocks
import Verif.Proof.Inject
/- `merkle_damgard_construction` computes the specified hash. -/
namespace Verif

open Spec

variable {σ : Type}

/-- The stream of the length field. -/
def MD.enc (M : MD σ) (n : Nat) : Bits := M.endian.views M.wordBits (M.lengthWords n)

theorem length_view (e : Endian) (w x : Nat) : (e.view w x).length = w := by simp [Endian.view]

theorem length_views (e : Endian) (w : Nat) (xs : List Nat) :
    (e.views w xs).length = xs.length * w := by
  unfold Endian.views
  induction xs with
  | nil => simp
  | cons x xs ih => rw [List.flatMap_cons, List.length_append, ih, length_view, List.length_cons,
      Nat.add_mul]; omega

/-- What the policies guarantee about the sizes. -/
structure MD.Valid (M : MD σ) : Prop where
  word : 0 < M.wordBits
  wordBlock : M.wordBits ∣ M.blockBits
  block : 0 < M.blockBits
  lengthFits : M.lengthBits ≤ M.blockBits
  markWord : M.markBits ≤ M.wordBits
  markPos : 0 < M.markBits
  markBlock : M.markBits ∣ M.blockBits

/-- The marker bits. -/
def MD.mark (M : MD σ) : Bits := M.markWord.take M.markBits

theorem MD.length_mark (M : MD σ) (V : M.Valid) : M.mark.length = M.markBits := by
  have := V.markWord
  simp [MD.mark, MD.markWord, length_view]; omega

theorem MD.length_enc (M : MD σ) (n : Nat) (h : M.wordBits ∣ M.lengthBits) :
    (M.enc n).length = M.lengthBits := by
  unfold MD.enc MD.lengthWords explodeOne
  rw [length_views, List.length_map, List.length_range, Nat.div_mul_cancel h]

/-- The state after the processed blocks is the fold over these blocks. -/
theorem MD.absorbed_eq (M : MD σ) (J : Injector) (hB : 0 < M.blockBits) (m : Bits) :
    ∀ q, q * M.blockBits ≤ m.length → absorbed (M.construction J) m q =
      (blocks M.blockBits (m.take (q * M.blockBits))).foldl M.compress M.iv := by
  intro q
  induction q with
  | zero => intro _; simp [absorbed, blocks_nil, MD.construction]
  | succ q ih =>
    intro h
    have h' : q * M.blockBits + M.blockBits ≤ m.length := by rw [Nat.add_mul] at h; omega
    simp only [absorbed]
    rw [ih (by omega)]
    have e : m.take ((q + 1) * M.blockBits) =
        m.take (q * M.blockBits) ++ block M.blockBits m q := by
      rw [Nat.add_mul, Nat.one_mul, List.take_add]; rfl
    have hl : (block M.blockBits m q).length = M.blockBits := by simp [block]; omega
    rw [e, blocks_append hB, List.foldl_append, blocks_single hB hl]
    · rfl
    · rw [List.length_take, Nat.min_eq_left (by omega)]; exact ⟨q, Nat.mul_comm _ _⟩

theorem MD.pad_eq (M : MD σ) (V : M.Valid) (J : Injector) {b rest : Bits} {r : Nat}
    (hb : b.length = M.blockBits) (hr : b.take r = rest) (hrl : rest.length = r)
    (hfit : r + M.markBits ≤ M.blockBits) :
    M.pad J b r = .ok (rest ++ M.mark ++
      List.replicate (M.blockBits - r - M.markBits) false, r + M.markBits) := by
  unfold MD.pad
  rw [J.run_ok (by omega) (by simp)]
  simp only [bind, Except.bind]
  rw [J.inject_to_end (by omega) (by simp), hr]
  have hz : ((List.replicate M.blockBits false).drop 0).take (M.blockBits - r) =
      List.replicate (M.blockBits - r) false := by simp
  have hm := V.markWord
  rw [hz, J.run_ok (by simp; omega) (by simp [MD.markWord, length_view]; omega)]
  have key := J.inject_onto_zeros (src := M.markWord) (pre := rest) (n := M.markBits)
    (k := M.blockBits - r) (off := 0) (by omega) (by simp [MD.markWord, length_view]; omega)
  rw [hrl] at key
  rw [key]
  simp [MD.mark, pure, Except.pure]

/-- Output transformation of `digest`: as many whole words as fit into the digest. -/
def MD.output (M : MD σ) (st : σ) : Bits :=
  (M.stateView (M.finalize st)).take (M.digestBits / M.wordBits * M.wordBits) ++
    M.digest0.drop (M.digestBits / M.wordBits * M.wordBits)

/-- The final part of `digest`, once the padded remainder is known. -/
theorem MD.digest_tail (M : MD σ) (V : M.Valid) (hL : M.wordBits ∣ M.lengthBits) (J : Injector)
    (hd : ∀ s, M.digestBits / M.wordBits * M.wordBits ≤ (M.stateView s).length)
    (hd0 : M.digestBits / M.wordBits * M.wordBits ≤ M.digest0.length)
    {b rest : Bits} {st st' : σ} {total : Nat}
    (hb : b.length = M.blockBits) (hr : b.take (total % M.blockBits) = rest)
    (hrl : rest.length = total % M.blockBits)
    (hst : (if total ≠ 0 ∧ total % M.blockBits = 0 then M.compress st b else st) = st')
    (hfit : total % M.blockBits + M.markBits ≤ M.blockBits) :
    M.digest J st b total = .ok (M.output ((blocks M.blockBits (rest ++ M.mark ++
      List.replicate (fillTo M.blockBits (rest.length + M.markBits + M.lengthBits)) false ++
      M.enc total)).foldl M.compress st')) := by
  have hel := M.length_enc total hL
  have hml := M.length_mark V
  have hB := V.block
  have hmp := V.markPos
  have hfits := V.lengthFits
  unfold MD.digest
  simp only
  rw [hst, M.pad_eq V J hb hr hrl hfit]
  simp only [bind, Except.bind]
  generalize hrr : total % M.blockBits = r at *
  by_cases hbig : r + M.markBits + M.lengthBits > M.blockBits
  · simp only [if_pos hbig]
    unfold MD.appendLength
    have hel' : (M.endian.views M.wordBits (M.lengthWords total)).length = M.lengthBits := hel
    simp only
    rw [hel', if_pos (by simp; omega)]
    simp only [List.length_replicate, List.take_replicate]
    rw [if_pos ⟨hd _, hd0⟩]
    have hf : fillTo M.blockBits (rest.length + M.markBits + M.lengthBits) =
        (M.blockBits - r - M.markBits) + (M.blockBits - M.lengthBits) := by
      rw [fillTo_of_lt_two (by omega) (by omega)]; omega
    rw [hf, ← List.replicate_append_replicate]
    have hassoc : rest ++ M.mark ++ (List.replicate (M.blockBits - r - M.markBits) false ++
        List.replicate (M.blockBits - M.lengthBits) false) ++ M.enc total =
        (rest ++ M.mark ++ List.replicate (M.blockBits - r - M.markBits) false) ++
        (List.replicate (M.blockBits - M.lengthBits) false ++ M.enc total) := by
      simp only [List.append_assoc]
    rw [hassoc, blocks_append hB, blocks_single hB, blocks_single hB]
    · rw [Nat.min_eq_left (by omega)]
      rfl
    · simp [hel]; omega
    · simp; omega
    · simp
      exact ⟨1, by omega⟩
  · simp only [if_neg hbig]
    unfold MD.appendLength
    have hel' : (M.endian.views M.wordBits (M.lengthWords total)).length = M.lengthBits := hel
    simp only
    rw [hel', if_pos (by simp; omega)]
    simp only
    rw [if_pos ⟨hd _, hd0⟩]
    have hf : fillTo M.blockBits (rest.length + M.markBits + M.lengthBits) =
        M.blockBits - r - M.markBits - M.lengthBits := by
      rw [fillTo_of_le (by omega) (by omega)]; omega
    rw [hf, blocks_single hB]
    · have e : (rest ++ M.mark ++ List.replicate (M.blockBits - r - M.markBits) false).take
          ((rest ++ M.mark ++ List.replicate (M.blockBits - r - M.markBits) false).length
          - M.lengthBits) = rest ++ M.mark ++
          List.replicate (M.blockBits - r - M.markBits - M.lengthBits) false := by
        have e1 : (rest ++ M.mark ++ List.replicate (M.blockBits - r - M.markBits) false).length
          - M.lengthBits = (rest ++ M.mark).length +
          (M.blockBits - r - M.markBits - M.lengthBits) := by simp; omega
        rw [e1, List.take_append, List.take_of_length_le (Nat.le_add_right _ _),
          Nat.add_sub_cancel_left, List.take_replicate, Nat.min_eq_left (by omega)]
      rw [e]
      rfl
    · simp [hel]; omega

/-- The extraction of an accumulator representing `m` is the specified digest. -/
theorem MD.result_spec (M : MD σ) (V : M.Valid) (hL : M.wordBits ∣ M.lengthBits) (J : Injector)
    (hd : ∀ s, M.digestBits / M.wordBits * M.wordBits ≤ (M.stateView s).length)
    (hd0 : M.digestBits / M.wordBits * M.wordBits ≤ M.digest0.length)
    {a : Acc σ} {m : Bits} (h : Rep (M.construction J) a m) (hm : M.markBits ∣ m.length)
    (hw : m.length = 0 ∨ m.length % 2 ^ 64 ≠ 0) :
    a.result (M.construction J) = .ok (M.output (mdState M.blockBits M.lengthBits M.mark
      (fun n => M.enc (n % 2 ^ 64)) M.iv M.compress m)) := by
  obtain ⟨q, h1, h2, h3, h4, h5, h6⟩ := h.core
  have hcl := h.cache_len
  have hB := V.block
  have hC : (M.construction J).blockBits = M.blockBits := rfl
  rw [hC] at h1 h2 h3 h4 h6 hcl
  unfold Acc.result
  show M.digest J a.st a.cache a.total = _
  rw [h.total]
  have hwm : wrap64 m.length % M.blockBits = m.length % M.blockBits := h.small.mod
  have hw0 : wrap64 m.length ≠ 0 ↔ m.length ≠ 0 := by
    rcases hw with hw | hw
    · rw [hw]; decide
    · exact ⟨fun _ e => hw (by rw [e]), fun _ => hw⟩
  -- the number of fully processed blocks in the end
  obtain ⟨q', hq1, hq2, hst, hrest⟩ : ∃ q', q' * M.blockBits ≤ m.length ∧
      m.length < q' * M.blockBits + M.blockBits ∧
      (if m.length ≠ 0 ∧ m.length % M.blockBits = 0 then M.compress a.st a.cache else a.st) =
        absorbed (M.construction J) m q' ∧
      a.cache.take (m.length % M.blockBits) = m.drop (q' * M.blockBits) := by
    by_cases hf : m.length = q * M.blockBits + M.blockBits
    · refine ⟨q + 1, by rw [Nat.add_mul]; omega, by rw [Nat.add_mul]; omega, ?_, ?_⟩
      · have hmod : m.length % M.blockBits = 0 := by
          rw [hf, Nat.add_mod_right, Nat.mul_mod_left]
        rw [if_pos ⟨by omega, hmod⟩, h5]
        simp only [absorbed]
        have hc : a.cache = block M.blockBits m q := by
          unfold block
          rw [← h6, List.take_take, hf, List.take_of_length_le]
          rw [hcl]; omega
        rw [hc]; rfl
      · have hmod : m.length % M.blockBits = 0 := by
          rw [hf, Nat.add_mod_right, Nat.mul_mod_left]
        rw [hmod, List.take_zero, List.drop_of_length_le (by rw [Nat.add_mul]; omega)]
    · have hmod : m.length % M.blockBits = m.length - q * M.blockBits :=
        mod_of_between h1 (by omega)
      refine ⟨q, h1, by omega, ?_, ?_⟩
      · rw [if_neg, h5]
        rintro ⟨hne, h0⟩
        rcases h3 with h3 | h3
        · subst h3; omega
        · omega
      · rw [hmod, h6]
  have hmod : m.length % M.blockBits = m.length - q' * M.blockBits := mod_of_between hq1 hq2
  have hrl : (m.drop (q' * M.blockBits)).length = m.length % M.blockBits := by simp [hmod]
  have hfit : m.length % M.blockBits + M.markBits ≤ M.blockBits := by
    -- both are multiples of the marker length
    obtain ⟨u, hu⟩ := hm
    obtain ⟨v, hv⟩ := V.markBlock
    have hlt := Nat.mod_lt m.length hB
    have : M.markBits ∣ m.length % M.blockBits := by
      rw [Nat.dvd_mod_iff V.markBlock]; exact ⟨u, hu⟩
    obtain ⟨t, ht⟩ := this
    rw [ht, hv] at hlt
    have htv : t < v := Nat.lt_of_mul_lt_mul_left hlt
    rw [ht, hv]
    calc M.markBits * t + M.markBits = M.markBits * (t + 1) := by rw [Nat.mul_add]; omega
      _ ≤ M.markBits * v := Nat.mul_le_mul_left _ htv
  rw [← hwm] at hrest hrl hfit
  rw [M.digest_tail V hL J hd hd0 (st' := absorbed (M.construction J) m q') hcl hrest hrl (by rw [hwm]; simp only [hw0]; exact hst) hfit]
  rw [hwm] at hrl
  congr 2
  unfold mdState mdPad
  rw [M.length_mark V]
  have e : m ++ M.mark ++ List.replicate (fillTo M.blockBits
      (m.length + M.markBits + M.lengthBits)) false ++ M.enc (m.length % 2 ^ 64) =
      m.take (q' * M.blockBits) ++ (m.drop (q' * M.blockBits) ++ M.mark ++ List.replicate
        (fillTo M.blockBits ((m.drop (q' * M.blockBits)).length + M.markBits + M.lengthBits))
          false ++ M.enc (m.length % 2 ^ 64)) := by
    have : m.length + M.markBits + M.lengthBits = M.blockBits * q' +
        ((m.drop (q' * M.blockBits)).length + M.markBits + M.lengthBits) := by
      rw [hrl, hmod, Nat.mul_comm]; omega
    rw [this, fillTo_add_mul]
    simp only [← List.append_assoc, List.take_append_drop]
  have hdvd : M.blockBits ∣ (m.take (q' * M.blockBits)).length := by
    rw [List.length_take, Nat.min_eq_left hq1]
    exact ⟨q', Nat.mul_comm _ _⟩
  simp only [wrap64]
  rw [e, blocks_append hB hdvd, List.foldl_append, M.absorbed_eq J hB m q' hq1]

end Verif
