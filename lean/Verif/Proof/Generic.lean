import Batteries.Data.List.Basic
import Verif.Proof.MDHistory
/-
Streaming properties of any construction that computes a function of the represented message.
-/
namespace Verif

variable {σ δ : Type}

/-- A construction whose sizes are sane and that computes `H` on good messages. -/
structure Verified (C : Construction σ δ) (Good : Bits → Prop) (H : Bits → δ) : Prop where
  block : 0 < C.blockBits
  word : 0 < C.wordBits
  wordBlock : C.wordBits ∣ C.blockBits
  computes : Computes C Good H

variable {C : Construction σ δ} {Good : Bits → Prop} {H : Bits → δ}

theorem Verified.run (V : Verified C Good H) (J : Injector) (ops : List Op)
    (hwt : ∀ op ∈ ops, op.WellTyped C.blockBits) {a : Acc σ} {m : Bits} (hrep : Rep C a m)
    (hfit : Fits C (m ++ streamOf C.blockBits ops).length)
    (hg : GoodExtracts C.blockBits Good m ops) (out : List δ) :
    ∃ a', Verif.runOps C J a out ops = .ok (a', out ++ expected C.blockBits H m ops) ∧
      Rep C a' (m ++ streamOf C.blockBits ops) :=
  runOps_spec V.block V.word V.wordBlock V.computes ops hrep hwt hfit hg

theorem Verified.init (V : Verified C Good H) (garbage : Bits)
    (hgb : garbage.length = C.blockBits) : Rep C (Acc.init C garbage) [] :=
  Rep.init C garbage V.block hgb

/-- One range, one extraction. -/
theorem Verified.hashOnce (V : Verified C Good H) (J : Injector) {α : Type} (E : Elem α) (k : RangeKind)
    (garbage : Bits) (hgb : garbage.length = C.blockBits) (cache0 xs : List α)
    (hE : (Op.feed E k cache0 xs).WellTyped C.blockBits) (hfit : Fits C (xs.flatMap E.view).length)
    (hg : Good (xs.flatMap E.view)) :
    Verif.hashOnce C J E k garbage cache0 xs = .ok (H (xs.flatMap E.view)) := by
  obtain ⟨a, e, r⟩ := (V.init garbage hgb).feed (J := J) V.word V.wordBlock
    ⟨V.block, hE.1, hE.2.1⟩ k cache0 xs hE.2.2 hfit
  unfold Verif.hashOnce
  rw [e]
  exact V.computes a _ r hg

/-- Any cuts give the one-shot digest. -/
theorem Verified.incremental (V : Verified C Good H) (J : Injector) (garbage garbage' : Bits)
    (hgb : garbage.length = C.blockBits) (hgb' : garbage'.length = C.blockBits)
    (pieces : List Op) (hwt : ∀ op ∈ pieces, op.WellTyped C.blockBits) (hne : Op.extract ∉ pieces)
    {α : Type} (E : Elem α) (k : RangeKind) (cache0 whole : List α)
    (hE : (Op.feed E k cache0 whole).WellTyped C.blockBits)
    (hsame : whole.flatMap E.view = streamOf C.blockBits pieces)
    (hfit : Fits C (whole.flatMap E.view).length) (hg : Good (whole.flatMap E.view)) :
    ∃ d, (do let (a, _) ← Verif.runOps C J (Acc.init C garbage) [] pieces
             a.result C) = .ok d ∧
      Verif.hashOnce C J E k garbage' cache0 whole = .ok d := by
  refine ⟨_, ?_, V.hashOnce J E k garbage' hgb' cache0 whole hE hfit hg⟩
  obtain ⟨a, e, r⟩ := V.run J pieces hwt (V.init garbage hgb) (by simpa [← hsame] using hfit)
    (goodExtracts_of_no_extract _ _ pieces hne _) []
  rw [e]
  rw [List.nil_append, ← hsame] at r
  exact V.computes a _ r hg

/-- Extraction does not disturb. -/
theorem Verified.extraction (V : Verified C Good H) (J : Injector) (garbage : Bits)
    (hgb : garbage.length = C.blockBits) (ops : List Op)
    (hwt : ∀ op ∈ ops, op.WellTyped C.blockBits) (hfit : Fits C (streamOf C.blockBits ops).length)
    (hg : GoodExtracts C.blockBits Good [] ops) (hgf : Good (streamOf C.blockBits ops)) :
    ∃ a, Verif.runOps C J (Acc.init C garbage) [] ops = .ok (a, expected C.blockBits H [] ops) ∧
      a.result C = .ok (H (streamOf C.blockBits ops)) := by
  obtain ⟨a, e, r⟩ := V.run J ops hwt (V.init garbage hgb) (by simpa using hfit) hg []
  exact ⟨a, e, V.computes a _ r (by simpa using hgf)⟩

/-- Two operations that differ only in memory the user does not control. -/
inductive SameData : Op → Op → Prop where
  | feed {α : Type} (E : Elem α) (k : RangeKind) (c c' xs : List α) :
      SameData (.feed E k c xs) (.feed E k c' xs)
  | same (op : Op) : SameData op op

theorem SameData.expected {δ : Type} {B : Nat} {H : Bits → δ} {Good : Bits → Prop} {ops ops' : List Op}
    (hsame : List.Forall₂ SameData ops ops') : ∀ m : Bits,
      Verif.expected B H m ops = Verif.expected B H m ops' ∧
      (GoodExtracts B Good m ops → GoodExtracts B Good m ops') ∧
      streamOf B ops = streamOf B ops' := by
  induction hsame with
  | nil => intro m; exact ⟨rfl, id, rfl⟩
  | cons hd _ ih =>
    intro m
    cases hd with
    | feed E k c c' xs =>
      exact ⟨(ih _).1, (ih _).2.1, by rw [streamOf_cons, streamOf_cons, (ih m).2.2]; rfl⟩
    | same =>
      rename_i op l l' _
      have hs : streamOf B (op :: l) = streamOf B (op :: l') := by
        rw [streamOf_cons, streamOf_cons, (ih m).2.2]
      cases op with
      | extract =>
        exact ⟨congrArg (H m :: ·) (ih m).1, fun hh => ⟨hh.1, (ih m).2.1 hh.2⟩, hs⟩
      | feed => exact ⟨(ih _).1, (ih _).2.1, hs⟩
      | block => exact ⟨(ih _).1, (ih _).2.1, hs⟩

/-- Uninitialised memory does not reach any digest. -/
theorem Verified.garbage (V : Verified C Good H) (J : Injector) (garbage garbage' : Bits)
    (hgb : garbage.length = C.blockBits) (hgb' : garbage'.length = C.blockBits)
    (ops ops' : List Op) (hwt : ∀ op ∈ ops, op.WellTyped C.blockBits)
    (hwt' : ∀ op ∈ ops', op.WellTyped C.blockBits) (hsame : List.Forall₂ SameData ops ops')
    (hfit : Fits C (streamOf C.blockBits ops).length)
    (hg : GoodExtracts C.blockBits Good [] ops) :
    ∃ a a' out, Verif.runOps C J (Acc.init C garbage) [] ops = .ok (a, out) ∧
      Verif.runOps C J (Acc.init C garbage') [] ops' = .ok (a', out) := by
  obtain ⟨k1, k2, k3⟩ := SameData.expected (B := C.blockBits) (H := H) (Good := Good) hsame []
  obtain ⟨a, e, _⟩ := V.run J ops hwt (V.init garbage hgb) (by simpa using hfit) hg []
  obtain ⟨a', e', _⟩ := V.run J ops' hwt' (V.init garbage' hgb')
    (by rw [← k3]; simpa using hfit) (k2 hg) []
  rw [← k1] at e'
  exact ⟨a, a', _, e, e'⟩

/-- The `bits` argument. -/
theorem Verified.bits (V : Verified C Good H) (J : Injector) (garbage : Bits)
    (hgb : garbage.length = C.blockBits) (ops : List Op)
    (hwt : ∀ op ∈ ops, op.WellTyped C.blockBits) (hgx : GoodExtracts C.blockBits Good [] ops)
    (value : Bits) (hval : value.length = C.blockBits) (bits : Nat) (hbits : bits ≤ C.blockBits)
    (hfit : Fits C (streamOf C.blockBits ops ++
      (if bits = 0 then value else value.take bits)).length)
    (hg : Good (streamOf C.blockBits ops ++ (if bits = 0 then value else value.take bits))) :
    (do let (a, _) ← Verif.runOps C J (Acc.init C garbage) [] ops
        let a ← a.pushBlock C J value bits
        a.result C) =
      .ok (H (streamOf C.blockBits ops ++ (if bits = 0 then value else value.take bits))) := by
  obtain ⟨a, e, r⟩ := V.run J ops hwt (V.init garbage hgb) (hfit.mono (by simp)) hgx []
  rw [List.nil_append] at r
  have hstep : ∃ a1, a.pushBlock C J value bits = .ok a1 ∧
      Rep C a1 (streamOf C.blockBits ops ++ (if bits = 0 then value else value.take bits)) := by
    by_cases h0 : bits = 0
    · subst h0
      exact r.pushBlock_zero (J := J) V.block V.word V.wordBlock hval
        (hfit.mono (by simp; omega))
    · rw [if_neg h0] at hfit ⊢
      exact r.pushBlock (J := J) V.word V.wordBlock (by omega) hbits hval
        (hfit.mono (by simp; omega))
  obtain ⟨a1, e1, r1⟩ := hstep
  rw [e]
  show (a.pushBlock C J value bits >>= fun a => a.result C) = _
  rw [e1]
  exact V.computes a1 _ r1 hg

/-- Fork. -/
theorem Verified.fork (V : Verified C Good H) (J : Injector) (garbage : Bits)
    (hgb : garbage.length = C.blockBits) (pre left right : List Op)
    (hp : ∀ op ∈ pre, op.WellTyped C.blockBits) (hl : ∀ op ∈ left, op.WellTyped C.blockBits)
    (hr : ∀ op ∈ right, op.WellTyped C.blockBits) (hgp : GoodExtracts C.blockBits Good [] pre)
    (hfl : Fits C (streamOf C.blockBits pre ++ streamOf C.blockBits left).length)
    (hfr : Fits C (streamOf C.blockBits pre ++ streamOf C.blockBits right).length)
    (hgl : GoodExtracts C.blockBits Good (streamOf C.blockBits pre) left)
    (hgr : GoodExtracts C.blockBits Good (streamOf C.blockBits pre) right) :
    ∃ a al ar, Verif.runOps C J (Acc.init C garbage) [] pre = .ok (a,
        expected C.blockBits H [] pre) ∧
      Verif.runOps C J a [] left = .ok (al,
        expected C.blockBits H (streamOf C.blockBits pre) left) ∧
      Verif.runOps C J a [] right = .ok (ar,
        expected C.blockBits H (streamOf C.blockBits pre) right) := by
  obtain ⟨a, e, r⟩ := V.run J pre hp (V.init garbage hgb) (hfl.mono (by simp)) hgp []
  rw [List.nil_append] at r
  obtain ⟨al, el, _⟩ := V.run J left hl r hfl hgl []
  obtain ⟨ar, er, _⟩ := V.run J right hr r hfr hgr []
  exact ⟨a, al, ar, e, el, er⟩

end Verif
