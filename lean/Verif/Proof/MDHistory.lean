import Verif.Proof.Policies
/- Consequences for programs over Merkle–Damgård accumulators. -/
namespace Verif

open Spec

variable {σ : Type}

/-- An instantiation of hash `h`: chaining values, their bit view, initial value and compression
function (arbitrary: the block ciphers are not in the repository), and the arbitrary content of a
default-constructed digest. -/
structure MDInst (h : MDHash) (σ : Type) where
  iv : σ
  compress : σ → Bits → σ
  view : σ → Bits
  length_view : ∀ s, (view s).length = h.policy.stateBits
  digest0 : Bits
  length_digest0 : digest0.length = h.policy.digestBits

variable {h : MDHash}

/-- The construction of hash `h` (`hash_type::construction::type`). -/
abbrev MDInst.C (I : MDInst h σ) (J : Injector) : Construction σ Bits :=
  (h.policy.md I.iv I.compress I.view I.digest0).construction J

/-- The digest that the standard prescribes. -/
abbrev MDInst.spec (I : MDInst h σ) (m : Bits) : Bits := mdDigest h I.iv I.compress I.view m

theorem MDInst.computes (I : MDInst h σ) (J : Injector) :
    Computes (I.C J) (GoodMsg h) I.spec :=
  md_computes h I.iv I.compress I.view I.length_view I.digest0 I.length_digest0 J

theorem MDInst.fits (I : MDInst h σ) (J : Injector) (n : Nat) : Fits (I.C J) n :=
  Or.inr (policy_sizes h).2.2.2.1

/-- Running any program on a Merkle–Damgård accumulator that represents `m`. -/
theorem MDInst.runOps (I : MDInst h σ) (J : Injector) (ops : List Op)
    (hwt : ∀ op ∈ ops, op.WellTyped h.policy.blockBits) {a : Acc σ} {m : Bits}
    (hrep : Rep (I.C J) a m) (hg : GoodExtracts h.policy.blockBits (GoodMsg h) m ops)
    (out : List Bits) :
    ∃ a', Verif.runOps (I.C J) J a out ops =
        .ok (a', out ++ expected h.policy.blockBits I.spec m ops) ∧
      Rep (I.C J) a' (m ++ streamOf h.policy.blockBits ops) := by
  obtain ⟨h1, h2, h3, _⟩ := policy_sizes h
  exact runOps_spec (C := I.C J) h1 h2 h3 (I.computes J) ops hrep hwt (I.fits J _) hg

theorem MDInst.init (I : MDInst h σ) (J : Injector) (garbage : Bits)
    (hgb : garbage.length = h.policy.blockBits) : Rep (I.C J) (Acc.init (I.C J) garbage) [] :=
  Rep.init (I.C J) garbage (policy_sizes h).1 hgb

/-- Feeding a range and extracting. -/
theorem MDInst.hashOnce (I : MDInst h σ) (J : Injector) {α : Type} (E : Elem α) (k : RangeKind)
    (garbage : Bits) (hgb : garbage.length = h.policy.blockBits) (cache0 xs : List α)
    (hE : (Op.feed E k cache0 xs).WellTyped h.policy.blockBits)
    (hg : GoodMsg h (xs.flatMap E.view)) :
    Verif.hashOnce (I.C J) J E k garbage cache0 xs = .ok (I.spec (xs.flatMap E.view)) := by
  obtain ⟨h1, h2, h3, _⟩ := policy_sizes h
  obtain ⟨a, e, r⟩ := (I.init J garbage hgb).feed (J := J) h2 h3
    ⟨h1, hE.1, hE.2.1⟩ k cache0 xs hE.2.2 (I.fits J _)
  unfold Verif.hashOnce
  rw [e]
  exact I.computes J a _ r (by simpa using hg)

/-- Expected outputs only depend on the streams. -/
theorem expected_append {δ : Type} (B : Nat) (H : Bits → δ) (ops ops' : List Op) :
    ∀ m, expected B H m (ops ++ ops') = expected B H m ops ++
      expected B H (m ++ streamOf B ops) ops' := by
  induction ops with
  | nil => intro m; simp [expected, streamOf]
  | cons op ops ih =>
    intro m
    cases op with
    | extract => simp only [List.cons_append, expected, streamOf_cons, Op.stream, List.nil_append, ih]
    | feed E k c xs =>
      simp only [List.cons_append, expected, streamOf_cons, ih, List.append_assoc]
    | block v b =>
      simp only [List.cons_append, expected, streamOf_cons, ih, List.append_assoc]

theorem goodExtracts_append (B : Nat) (G : Bits → Prop) (ops ops' : List Op) :
    ∀ m, GoodExtracts B G m (ops ++ ops') ↔ GoodExtracts B G m ops ∧
      GoodExtracts B G (m ++ streamOf B ops) ops' := by
  induction ops with
  | nil => intro m; simp [GoodExtracts, streamOf]
  | cons op ops ih =>
    intro m
    cases op with
    | extract =>
      simp only [List.cons_append, GoodExtracts, streamOf_cons, Op.stream, List.nil_append, ih,
        and_assoc]
    | feed E k c xs =>
      simp only [List.cons_append, GoodExtracts, streamOf_cons, ih, List.append_assoc]
    | block v b =>
      simp only [List.cons_append, GoodExtracts, streamOf_cons, ih, List.append_assoc]

/-- Without extraction nothing is required of the intermediate messages. -/
theorem goodExtracts_of_no_extract (B : Nat) (G : Bits → Prop) (ops : List Op)
    (h : Op.extract ∉ ops) : ∀ m, GoodExtracts B G m ops := by
  induction ops with
  | nil => intro m; trivial
  | cons op ops ih =>
    intro m
    have := ih (fun hh => h (List.mem_cons_of_mem _ hh))
    cases op with
    | extract => exact absurd (List.mem_cons_self) h
    | feed => exact this _
    | block => exact this _

theorem expected_of_no_extract {δ : Type} (B : Nat) (H : Bits → δ) (ops : List Op)
    (h : Op.extract ∉ ops) : ∀ m, expected B H m ops = [] := by
  induction ops with
  | nil => intro m; rfl
  | cons op ops ih =>
    intro m
    have := ih (fun hh => h (List.mem_cons_of_mem _ hh))
    cases op with
    | extract => exact absurd (List.mem_cons_self) h
    | feed => exact this _
    | block => exact this _

end Verif
