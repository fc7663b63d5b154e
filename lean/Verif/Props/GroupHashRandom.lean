import Mathlib.Algebra.Field.GeomSum
import Mathlib.Data.Fin.Tuple.Basic
import Mathlib.Logic.Equiv.Fin.Basic
import Verif.Props.GroupHash
import Verif.Props.XmdUniform
/-
C98: find_group_hash with a random hash function.
-/
namespace Verif.Props

open Spec Spec.Oracle Oracle

/-! ### Probabilities of products -/

theorem prob_marginal {I O : Type} {S : Type} [Fintype I] [DecidableEq I] [Fintype S] [DecidableEq S] [Fintype O] [Nonempty O] (x : I → S)
    (hx : Function.Injective x) (p : (I → O) → Prop) : prob (fun H : S → O => p fun i => H (x i)) = prob p := by
  classical
  have h := event_distance (fun (H : S → O) i => H (x i)) (ε := 0) le_rfl (fun v => ?_) p
  · have h := abs_nonpos_iff.1 h
    exact sub_eq_zero.1 h
  · have hc := card_prescribed x hx v
    have h0 : (0 : ℚ) < Fintype.card O := by exact_mod_cast Fintype.card_pos
    refine le_of_eq ?_
    unfold prob
    rw [sub_zero, Fintype.card_fun, Fintype.card_fun, div_eq_div_iff (by positivity) (by positivity), one_mul, ← Nat.cast_mul,
      Nat.cast_inj, ← hc]
    congr 2
    ext H
    simp only [Finset.mem_filter, Finset.mem_univ, true_and]
    exact ⟨fun h => funext h, fun h i => congrFun h i⟩

theorem prob_equiv {V W : Type} [Fintype V] [Fintype W] (e : V ≃ W) (p : W → Prop) : prob (fun v => p (e v)) = prob p := by
  classical
  unfold prob
  rw [Fintype.card_congr e]
  congr 2
  refine Finset.card_bij (fun v _ => e v) ?_ ?_ ?_
  · intro v hv
    simpa using hv
  · intro v _ w _ h
    exact e.injective h
  · intro w hw
    exact ⟨e.symm w, by simpa using hw, by simp⟩

theorem prob_pi {V : Type} [Fintype V] {q : Nat} (e : Fin q → V → Prop) :
    prob (fun w : Fin q → V => ∀ j, e j (w j)) = ∏ j, prob (e j) := by
  classical
  unfold prob
  rw [Finset.prod_div_distrib, Finset.prod_const, Finset.card_univ, Fintype.card_fin, Fintype.card_fun, Fintype.card_fin, Nat.cast_pow,
    ← Nat.cast_prod, ← Fintype.card_piFinset]
  congr 3
  ext w
  simp [Fintype.mem_piFinset]

theorem prob_true {V : Type} [Fintype V] [Nonempty V] : prob (fun _ : V => True) = 1 := by
  unfold prob
  rw [Finset.filter_true, Finset.card_univ]
  exact div_self (Nat.cast_ne_zero.2 Fintype.card_ne_zero)

theorem prob_false {V : Type} [Fintype V] : prob (fun _ : V => False) = 0 := by
  unfold prob
  rw [Finset.filter_false, Finset.card_empty, Nat.cast_zero, zero_div]

theorem prob_or {V : Type} [Fintype V] {p r : V → Prop} (h : ∀ v, p v → ¬ r v) : prob (fun v => p v ∨ r v) = prob p + prob r := by
  classical
  unfold prob
  rw [← add_div, ← Nat.cast_add]
  congr 2
  have hd : Disjoint (Finset.univ.filter p) (Finset.univ.filter r) :=
    Finset.disjoint_left.2 fun v h1 h2 => h v (Finset.mem_filter.1 h1).2 (Finset.mem_filter.1 h2).2
  have := Finset.card_union_of_disjoint hd
  rw [← Finset.filter_or] at this
  convert this

/-- The first digest, then the others. -/
theorem prob_cons {O : Type} [Fintype O] {n : Nat} (p : (Fin (n + 1) → O) → Prop) :
    prob p = (∑ d, prob fun w : Fin n → O => p (Fin.cons d w)) / Fintype.card O := by
  classical
  rw [← prob_equiv (Fin.consEquiv fun _ => O) p]
  unfold prob
  rw [← Finset.sum_div, div_div, Fintype.card_prod, Nat.cast_mul, mul_comm (Fintype.card O : ℚ), ← Nat.cast_sum]
  congr 2
  rw [← Finset.card_sigma]
  refine Finset.card_bij (fun x _ => ⟨x.1, x.2⟩) ?_ ?_ ?_
  · intro x hx
    exact Finset.mem_sigma.2 ⟨Finset.mem_univ _, Finset.mem_filter.2 ⟨Finset.mem_univ _, (Finset.mem_filter.1 hx).2⟩⟩
  · rintro ⟨a, b⟩ _ ⟨c, d⟩ _ h
    simpa using h
  · rintro ⟨a, b⟩ h
    exact ⟨(a, b), Finset.mem_filter.2 ⟨Finset.mem_univ _, (Finset.mem_filter.1 (Finset.mem_sigma.1 h).2).2⟩, rfl⟩

/-! ### The first digest that decodes -/

section
variable {G : Type} [AddCommGroup G] {b : Nat} (dec : List Nat → Option G) (cofactor : Nat)

/-- The multiple of the first point that a digest decodes to. -/
def firstPoint (ds : List (List Nat)) : Option G := (ds.findSome? dec).map (cofactor • ·)

/-- The share of the digests that do not decode. -/
noncomputable def undecodable (b : Nat) : ℚ := prob fun d : Digest b => dec (octets d) = none

/-- The share of the digests that decode to a point with the multiple `Q`. -/
noncomputable def hits (b : Nat) (Q : G) : ℚ := prob fun d : Digest b => (dec (octets d)).map (cofactor • ·) = some Q

/-- The probability of an outcome: `none`, no candidate decodes, or the multiple of the first point. -/
noncomputable def outcomeProb (b : Nat) : Option G → ℚ
  | none => undecodable dec b ^ 256
  | some Q => hits dec cofactor b Q * ∑ n ∈ Finset.range 256, undecodable dec b ^ n

theorem prob_first_none (n : Nat) :
    prob (fun w : Fin n → Digest b => firstPoint dec cofactor (List.ofFn fun i => octets (w i)) = none) = undecodable dec b ^ n := by
  have h := prob_pi fun (_ : Fin n) (d : Digest b) => dec (octets d) = none
  rw [Finset.prod_const, Finset.card_univ, Fintype.card_fin] at h
  rw [undecodable, ← h]
  refine prob_congr fun w => ?_
  rw [firstPoint, Option.map_eq_none_iff, List.findSome?_eq_none_iff]
  simp [List.mem_ofFn]

theorem prob_first_some (Q : G) (n : Nat) :
    prob (fun w : Fin n → Digest b => firstPoint dec cofactor (List.ofFn fun i => octets (w i)) = some Q) =
      hits dec cofactor b Q * ∑ k ∈ Finset.range n, undecodable dec b ^ k := by
  classical
  induction n with
  | zero =>
    rw [Finset.range_zero, Finset.sum_empty, mul_zero, ← prob_false (V := Fin 0 → Digest b)]
    refine prob_congr fun w => ?_
    simp [firstPoint]
  | succ n ih =>
    rw [prob_cons]
    have hd : ∀ d : Digest b,
        (prob fun w : Fin n → Digest b => firstPoint dec cofactor (List.ofFn fun i => octets (Fin.cons (α := fun _ => Digest b) d w i)) = some Q) =
          (if (dec (octets d)).map (cofactor • ·) = some Q then 1 else 0) +
            (if dec (octets d) = none then hits dec cofactor b Q * ∑ k ∈ Finset.range n, undecodable dec b ^ k else 0) := by
      intro d
      have hl : ∀ w : Fin n → Digest b, (List.ofFn fun i => octets (Fin.cons (α := fun _ => Digest b) d w i)) = octets d :: List.ofFn fun i => octets (w i) := by
        intro w
        rw [List.ofFn_succ]
        simp
      cases hdec : dec (octets d) with
      | none =>
        rw [if_neg (by simp), if_pos rfl, zero_add, ← ih]
        refine prob_congr fun w => ?_
        rw [hl, firstPoint, List.findSome?_cons, hdec, firstPoint]
      | some P =>
        rw [if_neg (by simp : ¬ some P = none), add_zero, Option.map_some]
        have hw : ∀ w : Fin n → Digest b, firstPoint dec cofactor (List.ofFn fun i => octets (Fin.cons (α := fun _ => Digest b) d w i)) =
            some (cofactor • P) := by
          intro w
          rw [hl, firstPoint, List.findSome?_cons, hdec]
          rfl
        simp only [hw]
        split
        · rename_i h
          exact (prob_congr fun _ => iff_of_true h trivial).trans prob_true
        · rename_i h
          exact (prob_congr fun _ => iff_of_false h not_false).trans prob_false
    simp only [hd]
    rw [Finset.sum_add_distrib, Finset.sum_boole, ← Finset.sum_filter, Finset.sum_const, nsmul_eq_mul, add_div, mul_comm _ (hits dec cofactor b Q * _),
      mul_div_assoc]
    rw [show ((Finset.univ.filter fun d : Digest b => (dec (octets d)).map (cofactor • ·) = some Q).card : ℚ) / Fintype.card (Digest b) =
        hits dec cofactor b Q by unfold hits prob; congr!]
    rw [show ((Finset.univ.filter fun d : Digest b => dec (octets d) = none).card : ℚ) / Fintype.card (Digest b) =
        undecodable dec b by unfold undecodable prob; congr!]
    rw [Finset.sum_range_succ']
    simp only [pow_succ, pow_zero]
    rw [← Finset.sum_mul]
    ring

theorem prob_first (o : Option G) :
    prob (fun w : Fin 256 → Digest b => firstPoint dec cofactor (List.ofFn fun i => octets (w i)) = o) = outcomeProb dec cofactor b o := by
  cases o with
  | none => exact prob_first_none dec cofactor 256
  | some Q => exact prob_first_some dec cofactor Q 256

/-! ### Several messages -/

/-- The 256 strings hashed for a message. -/
def candidate (dst msg : List Nat) (i : Nat) : List Nat := dst ++ groupHashUrs ++ msg ++ [i]

variable {q : Nat} {S : Finset (List Nat)} {dst : List Nat} {msg : Fin q → List Nat}

theorem candidate_injective (hm : Function.Injective msg) :
    Function.Injective fun x : Fin q × Fin 256 => candidate dst (msg x.1) x.2.1 := by
  rintro ⟨j, i⟩ ⟨j', i'⟩ h
  obtain ⟨h1, h2⟩ := List.append_inj' h rfl
  have h1 := hm (List.append_cancel_left h1)
  have h2 : i.1 = i'.1 := by simpa using h2
  exact Prod.ext h1 (Fin.ext h2)

/-- The outcomes for different messages are independent. -/
theorem prob_points (hm : Function.Injective msg) (hS : ∀ j, ∀ i < 256, candidate dst (msg j) i ∈ S) (e : Fin q → Option G → Prop) :
    prob (fun H : Hash S b => ∀ j, e j (firstPoint dec cofactor ((List.range 256).map fun i => H.apply (candidate dst (msg j) i)))) =
      ∏ j, prob fun w : Fin 256 → Digest b => e j (firstPoint dec cofactor (List.ofFn fun i => octets (w i))) := by
  rw [← prob_pi, ← prob_equiv (Equiv.curry (Fin q) (Fin 256) (Digest b)),
    ← prob_marginal (fun x : Fin q × Fin 256 => (⟨candidate dst (msg x.1) x.2.1, hS x.1 x.2.1 x.2.2⟩ : S))
      (fun x y h => candidate_injective hm (congrArg Subtype.val h))]
  refine prob_congr fun H => forall_congr' fun j => ?_
  have : ((List.range 256).map fun i => H.apply (candidate dst (msg j) i)) =
      List.ofFn fun i : Fin 256 => octets (H ⟨candidate dst (msg j) i.1, hS j i.1 i.2⟩) := by
    refine List.ext_getElem (by rw [List.length_map, List.length_range, List.length_ofFn]) fun i h1 h2 => ?_
    rw [List.length_map, List.length_range] at h1
    rw [List.getElem_map, List.getElem_range, List.getElem_ofFn, Hash.apply, dif_pos (hS j i h1)]
  rw [this]
  rfl

/-! ### The code -/

/-- What the code does: no candidate, no end; a zero multiple is an assertion failure. -/
def outcomeResult [DecidableEq G] : Option G → Except Fault (Option G)
  | none => .ok none
  | some Q => if Q = 0 then .error .assertion else .ok (some Q)

theorem process_outcome [DecidableEq G] {σ δ : Type} {Good : Bits → Prop} {F : Bits → δ} (P : GroupHashParams σ δ G)
    (V : GroupHashParams.Valid P Good F) {a : Acc σ} {m : Bits} (r : Rep P.C a m) (hfit : Fits P.C (m.length + 8))
    (hg : ∀ i < 256, Good (m ++ octetBits [i])) (fuel : Nat) (hf : 256 ≤ fuel) :
    P.process a fuel = outcomeResult (((List.range 256).findSome? fun i => P.decode (F (m ++ octetBits [i]))).map (P.cofactor • ·)) := by
  rcases C36_exact P V r hfit hg fuel hf with ⟨h, e⟩ | ⟨n, hn, p, hp, hfirst, h⟩
  · rw [e, List.findSome?_eq_none_iff.2 fun i hi => h i (List.mem_range.1 hi)]
    rfl
  · have hl : ((List.range 256).findSome? fun i => P.decode (F (m ++ octetBits [i]))) = some p := by
      rw [show 256 = n + (256 - n) by omega, List.range_add, List.findSome?_append,
        List.findSome?_eq_none_iff.2 fun i hi => hfirst i (List.mem_range.1 hi), Option.none_or]
      rw [show 256 - n = (255 - n) + 1 by omega, List.range_succ_eq_map, List.map_cons, List.findSome?_cons, Nat.add_zero, hp]
    rw [hl, Option.map_some, outcomeResult]
    rcases h with ⟨h0, e⟩ | ⟨h0, e, -⟩
    · rw [e, if_pos h0]
    · rw [e, if_neg h0]

/-- The hash of the accumulator is the random function. -/
structure RandomGroupHash {σ δ : Type} (S : Finset (List Nat)) (b B limit : Nat) (dst : List Nat) (dec : List Nat → Option G)
    (cofactor : Nat) (P : Hash S b → GroupHashParams σ δ G) (Good : Hash S b → Bits → Prop) (F : Hash S b → Bits → δ) : Prop where
  valid : ∀ H, GroupHashParams.Valid (P H) (Good H) (F H)
  block : ∀ H, (P H).C.blockBits = B
  dst : ∀ H, (P H).dst = dst
  cofactor : ∀ H, (P H).cofactor = cofactor
  good : ∀ H (xs : List Nat), xs.length ≤ limit → Good H (octetBits xs)
  fits : ∀ H, Fits (P H).C (8 * limit)
  computes : ∀ H, ∀ x ∈ S, (P H).decode (F H (octetBits x)) = dec (H.apply x)

/-- Creating an accumulator, feeding it and extracting once. -/
def groupHashOnce [DecidableEq G] {σ δ : Type} (P : GroupHashParams σ δ G) (garbage : Bits) (fuel : Nat) (ops : List GroupHashOp) :
    Except Fault (List (Option G)) := do
  let a ← P.init garbage
  let r ← P.run fuel a [] (ops ++ [.extract])
  return r.2

theorem findSome_congr {α β : Type} {f g : α → Option β} (l : List α) (h : ∀ i ∈ l, f i = g i) : l.findSome? f = l.findSome? g := by
  induction l with
  | nil => rfl
  | cons x l ih => rw [List.findSome?_cons, List.findSome?_cons, h x (by simp), ih fun i hi => h i (by simp [hi])]

theorem groupHashOnce_outcome [DecidableEq G] {σ δ : Type} {B limit : Nat} {P : Hash S b → GroupHashParams σ δ G}
    {Good : Hash S b → Bits → Prop} {F : Hash S b → Bits → δ} (R : RandomGroupHash S b B limit dst dec cofactor P Good F)
    {msg : List Nat} (hS : ∀ i < 256, candidate dst msg i ∈ S) (H : Hash S b) (garbage : Bits)
    (hgb : garbage.length = B) (ops : List GroupHashOp) (pieces : List (List Nat))
    (hm : List.Forall₂ (XmdMatches B) ops (pieces.map some)) (hmsg : pieces.flatten = msg)
    (hl : dst.length + 64 + msg.length + 1 ≤ limit) (fuel : Nat) (hf : 256 ≤ fuel) :
    groupHashOnce (P H) garbage fuel ops =
      (outcomeResult (firstPoint dec cofactor ((List.range 256).map fun i => H.apply (candidate dst msg i)))).map ([·]) := by
  rw [← R.block H] at hgb hm
  have V := R.valid H
  have hpre : (groupHashPrefix (P H).dst).length = 8 * (dst.length + 64) := by
    rw [R.dst, groupHashPrefix, List.length_append, length_octetBits, length_octetBits]
    show _ + 8 * 64 = _
    omega
  obtain ⟨a, e, r⟩ := groupHash_init V garbage hgb ((R.fits H).mono (by rw [hpre]; omega))
  have hrun : ∀ (ops : List GroupHashOp) (pieces : List (List Nat)),
      List.Forall₂ (XmdMatches (P H).C.blockBits) ops (pieces.map some) → ∀ (a : Acc σ) (m : Bits), Rep (P H).C a m →
      m.length + 8 * pieces.flatten.length ≤ 8 * limit →
      ∃ a', Rep (P H).C a' (m ++ octetBits pieces.flatten) ∧
        (P H).run fuel a [] (ops ++ [.extract]) = (P H).run fuel a' [] [.extract] := by
    intro ops pieces
    induction pieces generalizing ops with
    | nil =>
      intro h a m r _
      cases h
      exact ⟨a, by simpa [octetBits] using r, rfl⟩
    | cons bs pieces ih =>
      intro h a m r hle
      rw [List.map_cons] at h
      cases h with
      | cons h1 h2 =>
        rename_i op ops
        cases op with
        | extract => exact absurd h1 id
        | update E k cache0 xs =>
          obtain ⟨⟨h3, h4, h5⟩, h6⟩ := h1
          rw [List.flatten_cons, List.length_append] at hle
          obtain ⟨a', e', r'⟩ := r.feed (J := (P H).J) (E := E) V.hash.word V.hash.wordBlock ⟨V.hash.block, h3, h4⟩ k cache0 xs h5
            ((R.fits H).mono (by rw [h6, List.length_append, length_octetBits]; omega))
          rw [h6] at r'
          obtain ⟨a'', r'', e''⟩ := ih _ h2 a' _ r' (by rw [List.length_append, length_octetBits]; omega)
          refine ⟨a'', ?_, ?_⟩
          · rw [List.flatten_cons, octetBits_append, ← List.append_assoc]
            exact r''
          · rw [List.cons_append, GroupHashParams.run, e']
            exact e''
  obtain ⟨a', r', e'⟩ := hrun ops pieces hm a _ r (by rw [hpre, hmsg]; omega)
  rw [hmsg] at r'
  have hcand : ∀ i, groupHashPrefix (P H).dst ++ octetBits msg ++ octetBits [i] = octetBits (candidate dst msg i) := by
    intro i
    rw [R.dst, candidate, groupHashPrefix]
    simp only [octetBits_append, List.append_assoc]
  have hproc := process_outcome (P H) V r' ((R.fits H).mono (by rw [List.length_append, hpre, length_octetBits]; omega))
    (fun i _ => by
      rw [hcand]
      exact R.good H _ (by simp [candidate, groupHashUrs]; omega)) fuel hf
  have hfs : ((List.range 256).findSome? fun i => (P H).decode (F H (groupHashPrefix (P H).dst ++ octetBits msg ++ octetBits [i]))) =
      ((List.range 256).map fun i => H.apply (candidate dst msg i)).findSome? dec := by
    rw [List.findSome?_map]
    refine findSome_congr _ fun i hi => ?_
    rw [hcand, Function.comp_apply, R.computes H _ (hS i (List.mem_range.1 hi))]
  rw [hfs, R.cofactor] at hproc
  unfold groupHashOnce
  rw [e]
  show ((P H).run fuel a [] (ops ++ [.extract]) >>= _) = _
  rw [e', GroupHashParams.run, hproc, firstPoint]
  cases outcomeResult ((((List.range 256).map fun i => H.apply (candidate dst msg i)).findSome? dec).map (cofactor • ·)) <;> rfl

theorem outcomeResult_injective [DecidableEq G] {o o' : Option G}
    (h : (outcomeResult o).map ([·]) = (outcomeResult o').map ([·])) : o = o' := by
  cases o with
  | none =>
    cases o' with
    | none => rfl
    | some Q' =>
      rw [outcomeResult, outcomeResult] at h
      split at h <;> simp [Except.map] at h
  | some Q =>
    cases o' with
    | none =>
      rw [outcomeResult, outcomeResult] at h
      split at h <;> simp [Except.map] at h
    | some Q' =>
      rw [outcomeResult, outcomeResult] at h
      split at h <;> split at h <;> simp_all [Except.map]

variable {dec cofactor}

section
variable [DecidableEq G] {σ δ : Type} {B limit : Nat} {P : Hash S b → GroupHashParams σ δ G} {Good : Hash S b → Bits → Prop}
  {F : Hash S b → Bits → δ} (R : RandomGroupHash S b B limit dst dec cofactor P Good F) (hinj : Function.Injective msg)
  (hS : ∀ j, ∀ i < 256, candidate dst (msg j) i ∈ S) (garbage : Bits) (hgb : garbage.length = B) (ops : Fin q → List GroupHashOp)
  (pieces : Fin q → List (List Nat)) (hm : ∀ j, List.Forall₂ (XmdMatches B) (ops j) ((pieces j).map some))
  (hmsg : ∀ j, (pieces j).flatten = msg j) (hl : ∀ j, dst.length + 64 + (msg j).length + 1 ≤ limit) (fuel : Nat) (hf : 256 ≤ fuel)
include R hinj hS hgb hm hmsg hl hf

/-- C98: what the code does for different messages, exactly: the outcomes are independent, each of them is "no end" with
probability `r^256` and the multiple `Q` (an assertion failure if it is zero) with probability `hits Q * (1 + r + … + r^255)`, where
`r` is the share of the digests that do not decode and `hits Q` the share of those that decode to a point with multiple `Q`. -/
theorem C98_outcomes (o : Fin q → Option G) :
    prob (fun H : Hash S b => ∀ j, groupHashOnce (P H) garbage fuel (ops j) = (outcomeResult (o j)).map ([·])) =
      ∏ j, outcomeProb dec cofactor b (o j) := by
  simp only [← prob_first]
  rw [← prob_points dec cofactor hinj hS fun j x => x = o j]
  refine prob_congr fun H => forall_congr' fun j => ?_
  rw [groupHashOnce_outcome dec cofactor R (hS j) H garbage hgb (ops j) (pieces j) (hm j) (hmsg j) (hl j) fuel hf]
  exact ⟨outcomeResult_injective, fun h => by rw [h]⟩

/-- C98: the probability that all extractions come to an end. -/
theorem C98_termination :
    prob (fun H : Hash S b => ∀ j, groupHashOnce (P H) garbage fuel (ops j) ≠ .ok [none]) = (1 - undecodable dec b ^ 256) ^ q := by
  have h := prob_points (b := b) dec cofactor hinj hS fun _ x => x ≠ none
  have h1 : prob (fun w : Fin 256 → Digest b => firstPoint dec cofactor (List.ofFn fun i => octets (w i)) ≠ none) =
      1 - undecodable dec b ^ 256 := by
    rw [← prob_first_none dec cofactor 256]
    exact prob_not _
  rw [h1, Finset.prod_const, Finset.card_univ, Fintype.card_fin] at h
  rw [← h]
  refine prob_congr fun H => forall_congr' fun j => not_congr ?_
  rw [groupHashOnce_outcome dec cofactor R (hS j) H garbage hgb (ops j) (pieces j) (hm j) (hmsg j) (hl j) fuel hf]
  exact ⟨fun h => outcomeResult_injective (o' := none) h, fun h => by rw [h]; rfl⟩

end

/-! ### Decoders with the same number of encodings for every point -/

section
variable [Fintype G] [DecidableEq G] {t : Nat} (ht : ∀ p : G, (Finset.univ.filter fun d : Digest b => dec (octets d) = some p).card = t)
include ht

theorem undecodable_eq : undecodable dec b = 1 - (t * Fintype.card G : ℚ) / 256 ^ b := by
  classical
  have h1 : undecodable dec b = 1 - prob fun d : Digest b => ∃ p, dec (octets d) = some p := by
    rw [← prob_not]
    refine prob_congr fun d => ?_
    cases dec (octets d) <;> simp
  rw [h1]
  congr 1
  unfold prob
  rw [card_digest, Nat.cast_pow]
  congr 1
  have : (Finset.univ.filter fun d : Digest b => ∃ p, dec (octets d) = some p) =
      Finset.univ.biUnion fun p => Finset.univ.filter fun d : Digest b => dec (octets d) = some p := by
    ext d
    simp
  rw [← Nat.cast_mul, Nat.cast_inj]
  refine Eq.trans (b := (Finset.univ.filter fun d : Digest b => ∃ p, dec (octets d) = some p).card) (by congr!) ?_
  rw [this, Finset.card_biUnion]
  · simp only [ht, Finset.sum_const, Finset.card_univ, smul_eq_mul, Nat.mul_comm]
  · intro p _ p' _ hne
    refine Finset.disjoint_left.2 fun d h h' => hne ?_
    have h := (Finset.mem_filter.1 h).2
    have h' := (Finset.mem_filter.1 h').2
    exact Option.some.inj (h.symm.trans h')

theorem hits_eq (Q : G) : hits dec cofactor b Q = (t * (Finset.univ.filter fun p : G => cofactor • p = Q).card : ℚ) / 256 ^ b := by
  classical
  unfold hits prob
  rw [card_digest, Nat.cast_pow]
  congr 1
  have : (Finset.univ.filter fun d : Digest b => (dec (octets d)).map (cofactor • ·) = some Q) =
      (Finset.univ.filter fun p : G => cofactor • p = Q).biUnion fun p => Finset.univ.filter fun d : Digest b => dec (octets d) = some p := by
    ext d
    cases h : dec (octets d) <;> simp [h]
  rw [← Nat.cast_mul, Nat.cast_inj]
  refine Eq.trans (b := (Finset.univ.filter fun d : Digest b => (dec (octets d)).map (cofactor • ·) = some Q).card) (by congr!) ?_
  rw [this, Finset.card_biUnion]
  · simp only [ht, Finset.sum_const, smul_eq_mul, Nat.mul_comm]
  · intro p _ p' _ hne
    refine Finset.disjoint_left.2 fun d h h' => hne ?_
    have h := (Finset.mem_filter.1 h).2
    have h' := (Finset.mem_filter.1 h').2
    exact Option.some.inj (h.symm.trans h')

omit ht in
/-- All multiples have the same number of points. -/
theorem card_fibre (Q : G) (hQ : ∃ p : G, cofactor • p = Q) :
    (Finset.univ.filter fun p : G => cofactor • p = Q).card * (Finset.univ.image fun p : G => cofactor • p).card = Fintype.card G := by
  classical
  have h0 : ∀ Q ∈ Finset.univ.image fun p : G => cofactor • p, (Finset.univ.filter fun p : G => cofactor • p = Q).card =
      (Finset.univ.filter fun p : G => cofactor • p = 0).card := by
    intro Q hQ
    obtain ⟨p, -, rfl⟩ := Finset.mem_image.1 hQ
    refine Finset.card_bij (fun x _ => x - p) ?_ ?_ ?_
    · intro x hx
      have := (Finset.mem_filter.1 hx).2
      simp [smul_sub, this]
    · intro x _ y _ h
      exact sub_left_injective h
    · intro y hy
      have := (Finset.mem_filter.1 hy).2
      exact ⟨y + p, by simp [smul_add, this], by simp⟩
  have h1 := Finset.card_eq_sum_card_fiberwise (s := (Finset.univ : Finset G)) (f := fun p => cofactor • p)
    (t := Finset.univ.image fun p : G => cofactor • p) fun p _ => Finset.mem_image_of_mem _ (Finset.mem_univ p)
  obtain ⟨p, hp⟩ := hQ
  rw [Finset.sum_congr rfl h0, Finset.sum_const, smul_eq_mul, Finset.card_univ] at h1
  rw [h0 Q (Finset.mem_image.2 ⟨p, Finset.mem_univ _, hp⟩), h1, Nat.mul_comm]

/-- With `t` encodings of every point the outcome is uniform among the multiples of the cofactor. -/
theorem outcomeProb_uniform (h0 : 0 < t) (Q : G) (hQ : ∃ p : G, cofactor • p = Q) :
    outcomeProb dec cofactor b (some Q) = (1 - (1 - (t * Fintype.card G : ℚ) / 256 ^ b) ^ 256) /
      (Finset.univ.image fun p : G => cofactor • p).card := by
  have hr := undecodable_eq ht
  have hh := hits_eq (cofactor := cofactor) ht Q
  have hk := card_fibre (cofactor := cofactor) Q hQ
  have hkq : ((Finset.univ.filter fun p : G => cofactor • p = Q).card : ℚ) * (Finset.univ.image fun p : G => cofactor • p).card =
      Fintype.card G := by exact_mod_cast hk
  have hG : (0 : ℚ) < Fintype.card G := by exact_mod_cast Fintype.card_pos_iff.2 ⟨Q⟩
  have htq : (0 : ℚ) < t := by exact_mod_cast h0
  have hM : ((Finset.univ.image fun p : G => cofactor • p).card : ℚ) ≠ 0 := by
    intro h
    rw [h, mul_zero] at hkq
    exact hG.ne hkq
  have hN : (0 : ℚ) < 256 ^ b := by positivity
  rw [outcomeProb, hh, hr]
  generalize ((Finset.univ.image fun p : G => cofactor • p).card : ℚ) = M at *
  generalize ((Finset.univ.filter fun p : G => cofactor • p = Q).card : ℚ) = κ at *
  have hx : (t * Fintype.card G : ℚ) / 256 ^ b ≠ 0 := by positivity
  have hg := mul_neg_geom_sum (1 - (t * Fintype.card G : ℚ) / 256 ^ b) 256
  rw [sub_sub_cancel] at hg
  rw [← hg, eq_div_iff hM]
  generalize (∑ i ∈ Finset.range 256, (1 - (t * Fintype.card G : ℚ) / 256 ^ b) ^ i) = s
  rw [← hkq]
  ring

end

section
variable [Fintype G] [DecidableEq G] {t : Nat} (ht : ∀ p : G, (Finset.univ.filter fun d : Digest b => dec (octets d) = some p).card = t)
  (h0 : 0 < t) {σ δ : Type} {B limit : Nat} {P : Hash S b → GroupHashParams σ δ G} {Good : Hash S b → Bits → Prop}
  {F : Hash S b → Bits → δ} (R : RandomGroupHash S b B limit dst dec cofactor P Good F) (hinj : Function.Injective msg)
  (hS : ∀ j, ∀ i < 256, candidate dst (msg j) i ∈ S) (garbage : Bits) (hgb : garbage.length = B) (ops : Fin q → List GroupHashOp)
  (pieces : Fin q → List (List Nat)) (hm : ∀ j, List.Forall₂ (XmdMatches B) (ops j) ((pieces j).map some))
  (hmsg : ∀ j, (pieces j).flatten = msg j) (hl : ∀ j, dst.length + 64 + (msg j).length + 1 ≤ limit) (fuel : Nat) (hf : 256 ≤ fuel)
include ht h0 R hinj hS hgb hm hmsg hl hf

/-- C98: if every point has the same number `t` of encodings, all combinations of nonzero multiples of the cofactor are equally
likely: the points returned for different messages are independent and uniform. -/
theorem C98_uniform (Q : Fin q → G) (hQ : ∀ j, ∃ p : G, cofactor • p = Q j) (hne : ∀ j, Q j ≠ 0) :
    prob (fun H : Hash S b => ∀ j, groupHashOnce (P H) garbage fuel (ops j) = .ok [some (Q j)]) =
      ((1 - (1 - (t * Fintype.card G : ℚ) / 256 ^ b) ^ 256) / (Finset.univ.image fun p : G => cofactor • p).card) ^ q := by
  have h := C98_outcomes R hinj hS garbage hgb ops pieces hm hmsg hl fuel hf fun j => some (Q j)
  simp only [outcomeProb_uniform ht h0 _ (hQ _), Finset.prod_const, Finset.card_univ, Fintype.card_fin] at h
  rw [← h]
  refine prob_congr fun H => forall_congr' fun j => ?_
  rw [outcomeResult, if_neg (hne j)]
  rfl

/-- C98: the probability that all extractions return points. -/
theorem C98_success :
    prob (fun H : Hash S b => ∀ j, ∃ Q, groupHashOnce (P H) garbage fuel (ops j) = .ok [some Q]) =
      ((1 - (1 - (t * Fintype.card G : ℚ) / 256 ^ b) ^ 256) * (1 - 1 / (Finset.univ.image fun p : G => cofactor • p).card)) ^ q := by
  have h := prob_points (b := b) dec cofactor hinj hS fun _ x => ¬ (x = none ∨ x = some 0)
  have h1 : prob (fun w : Fin 256 → Digest b => ¬ (firstPoint dec cofactor (List.ofFn fun i => octets (w i)) = none ∨
      firstPoint dec cofactor (List.ofFn fun i => octets (w i)) = some 0)) =
      (1 - (1 - (t * Fintype.card G : ℚ) / 256 ^ b) ^ 256) * (1 - 1 / (Finset.univ.image fun p : G => cofactor • p).card) := by
    have h2 := prob_first_none (b := b) dec cofactor 256
    have h3 := (prob_first (b := b) dec cofactor (some 0)).trans (outcomeProb_uniform ht h0 0 ⟨0, smul_zero _⟩)
    rw [prob_not, prob_or, h2, h3, undecodable_eq ht]
    · generalize (1 - (t * Fintype.card G : ℚ) / 256 ^ b) ^ 256 = x
      ring
    · rintro w e1 e2
      rw [e1] at e2
      cases e2
  rw [h1, Finset.prod_const, Finset.card_univ, Fintype.card_fin] at h
  rw [← h]
  refine prob_congr fun H => forall_congr' fun j => ?_
  rw [groupHashOnce_outcome dec cofactor R (hS j) H garbage hgb (ops j) (pieces j) (hm j) (hmsg j) (hl j) fuel hf]
  generalize firstPoint dec cofactor _ = x
  cases x with
  | none => simp [outcomeResult, Except.map]
  | some Q =>
    rw [outcomeResult]
    by_cases hz : Q = 0
    · simp [hz, Except.map]
    · simp [hz, Except.map]

end

/-! ### Jubjub -/

/-- The numbers of Jubjub: with one encoding of 32 octets per point a search of 256 octets fails with probability below `2^-222`. -/
theorem jubjub_undecodable : (1 - (1 * (8 * jubjubOrder : Nat) : ℚ) / 256 ^ 32) ^ 256 ≤ 1 / 2 ^ 222 := by
  have h0 : (0 : ℚ) ≤ 1 - (1 * (8 * jubjubOrder : Nat) : ℚ) / 256 ^ 32 := by
    rw [jubjubOrder]; norm_num
  have h1 : 1 - (1 * (8 * jubjubOrder : Nat) : ℚ) / 256 ^ 32 ≤ 54720 / 100000 := by
    rw [jubjubOrder]; norm_num
  refine le_trans (pow_le_pow_left₀ h0 h1 256) ?_
  norm_num

/-- C98, Jubjub: a group of `8 ℓ` points whose multiples of 8 are `ℓ` points, one encoding of 32 octets per point.  All of `q`
extractions return a point but with probability `q (2^-222 + 1/ℓ)`, and then the points are uniform and independent. -/
theorem C98_jubjub [Fintype G] [DecidableEq G] {dec : List Nat → Option G} {S : Finset (List Nat)} {dst : List Nat} {q : Nat}
    {msg : Fin q → List Nat} (ht : ∀ p : G, (Finset.univ.filter fun d : Digest 32 => dec (octets d) = some p).card = 1)
    (hG : Fintype.card G = 8 * jubjubOrder) (hM : (Finset.univ.image fun p : G => 8 • p).card = jubjubOrder)
    {σ δ : Type} {B limit : Nat} {P : Hash S 32 → GroupHashParams σ δ G} {Good : Hash S 32 → Bits → Prop}
    {F : Hash S 32 → Bits → δ} (R : RandomGroupHash S 32 B limit dst dec 8 P Good F) (hinj : Function.Injective msg)
    (hS : ∀ j, ∀ i < 256, candidate dst (msg j) i ∈ S) (garbage : Bits) (hgb : garbage.length = B) (ops : Fin q → List GroupHashOp)
    (pieces : Fin q → List (List Nat)) (hm : ∀ j, List.Forall₂ (XmdMatches B) (ops j) ((pieces j).map some))
    (hmsg : ∀ j, (pieces j).flatten = msg j) (hl : ∀ j, dst.length + 64 + (msg j).length + 1 ≤ limit) (fuel : Nat) (hf : 256 ≤ fuel) :
    1 - q * (1 / 2 ^ 222 + 1 / jubjubOrder : ℚ) ≤
      prob (fun H : Hash S 32 => ∀ j, ∃ Q, groupHashOnce (P H) garbage fuel (ops j) = .ok [some Q]) ∧
    ∀ Q Q' : Fin q → G, (∀ j, (∃ p : G, 8 • p = Q j) ∧ Q j ≠ 0) → (∀ j, (∃ p : G, 8 • p = Q' j) ∧ Q' j ≠ 0) →
      prob (fun H : Hash S 32 => ∀ j, groupHashOnce (P H) garbage fuel (ops j) = .ok [some (Q j)]) =
      prob (fun H : Hash S 32 => ∀ j, groupHashOnce (P H) garbage fuel (ops j) = .ok [some (Q' j)]) := by
  constructor
  · rw [C98_success ht Nat.one_pos R hinj hS garbage hgb ops pieces hm hmsg hl fuel hf, hG, hM]
    have ha := jubjub_undecodable
    have ha0 : (0 : ℚ) ≤ (1 - (1 * (8 * jubjubOrder : Nat) : ℚ) / 256 ^ 32) ^ 256 := by
      refine pow_nonneg ?_ _
      rw [jubjubOrder]; norm_num
    have hc0 : (0 : ℚ) ≤ 1 / (jubjubOrder : ℚ) := by positivity
    have hc1 : 1 / (jubjubOrder : ℚ) ≤ 1 := by rw [jubjubOrder]; norm_num
    simp only [Nat.cast_one] at *
    generalize (1 - (1 * (8 * jubjubOrder : Nat) : ℚ) / 256 ^ 32) ^ 256 = a at *
    generalize 1 / (jubjubOrder : ℚ) = c at *
    have hx : (1 / 2 ^ 222 : ℚ) ≤ 1 := by norm_num
    have h1 : 1 - (1 / 2 ^ 222 + c) ≤ (1 - a) * (1 - c) := by nlinarith [mul_nonneg ha0 hc0]
    have h2 : 0 ≤ (1 - a) * (1 - c) := mul_nonneg (by linarith) (by linarith)
    have h3 := one_add_mul_le_pow (a := (1 - a) * (1 - c) - 1) (by linarith) q
    rw [add_sub_cancel] at h3
    refine le_trans ?_ h3
    have hq : (0 : ℚ) ≤ q := Nat.cast_nonneg q
    nlinarith
  · intro Q Q' hQ hQ'
    rw [C98_uniform ht Nat.one_pos R hinj hS garbage hgb ops pieces hm hmsg hl fuel hf Q (fun j => (hQ j).1) fun j => (hQ j).2,
      C98_uniform ht Nat.one_pos R hinj hS garbage hgb ops pieces hm hmsg hl fuel hf Q' (fun j => (hQ' j).1) fun j => (hQ' j).2]

/-! ### The base points of the Pedersen hash -/

/-- The four octets of the index of a base point. -/
def indexOctets (i : Nat) : List Nat := [i / 2 ^ 24 % 256, i / 2 ^ 16 % 256, i / 2 ^ 8 % 256, i % 256]

theorem bigEndian_octet (x : Nat) : bigEndian 8 (x % 256) = bigEndian 8 x := by
  unfold bigEndian
  refine List.map_congr_left fun i hi => ?_
  rw [show (256 : Nat) = 2 ^ 8 from rfl, Nat.testBit_mod_two_pow]
  have := List.mem_range.1 hi
  simp only [Bool.and_eq_right_iff_imp, decide_eq_true_eq]
  omega

theorem view_index (i : Nat) : [i].flatMap (wordElem bigOctetBigBit 32).view = octetBits (indexOctets i) := by
  rw [C36_base_point_index]
  simp only [octetBits, indexOctets, List.flatMap_cons, List.flatMap_nil, bigEndian_octet]

theorem indexOctets_injective {i j : Nat} (hi : i < 2 ^ 32) (hj : j < 2 ^ 32) (h : indexOctets i = indexOctets j) : i = j := by
  simp only [indexOctets, List.cons.injEq, and_true] at h
  omega

/-- `hash<base_point_generator>({static_cast<std::uint32_t>(i)})` (pedersen.hpp:98-100, 125-127). -/
def baseOps (B : Nat) (i : Nat) : List GroupHashOp :=
  [.update (wordElem bigOctetBigBit 32) .container (List.replicate (B / 32) 0) [i]]

/-- C98: the base points of the Pedersen hash, made by the code from the indices of the segments: with a random hash function, a
cofactor `h` and a decoder with `t` encodings for every point, any `q` different indices below `2^32` give independent base points that
are uniform among the nonzero multiples of `h`. -/
theorem C98_base_points [Fintype G] [DecidableEq G] {dec : List Nat → Option G} {cofactor b t : Nat} {S : Finset (List Nat)}
    {dst : List Nat} {q : Nat} (index : Fin q → Nat) (hindex : Function.Injective index) (hlt : ∀ j, index j < 2 ^ 32)
    (ht : ∀ p : G, (Finset.univ.filter fun d : Digest b => dec (octets d) = some p).card = t) (h0 : 0 < t)
    {σ δ : Type} {B limit : Nat} (hB : 32 ∣ B) {P : Hash S b → GroupHashParams σ δ G} {Good : Hash S b → Bits → Prop}
    {F : Hash S b → Bits → δ} (R : RandomGroupHash S b B limit dst dec cofactor P Good F)
    (hS : ∀ j, ∀ i < 256, candidate dst (indexOctets (index j)) i ∈ S) (garbage : Bits) (hgb : garbage.length = B)
    (hl : dst.length + 69 ≤ limit) (fuel : Nat) (hf : 256 ≤ fuel)
    (Q : Fin q → G) (hQ : ∀ j, ∃ p : G, cofactor • p = Q j) (hne : ∀ j, Q j ≠ 0) :
    prob (fun H : Hash S b => ∀ j, groupHashOnce (P H) garbage fuel (baseOps B (index j)) = .ok [some (Q j)]) =
      ((1 - (1 - (t * Fintype.card G : ℚ) / 256 ^ b) ^ 256) / (Finset.univ.image fun p : G => cofactor • p).card) ^ q := by
  refine C98_uniform (msg := fun j => indexOctets (index j)) ht h0 R
    (fun i j h => hindex (indexOctets_injective (hlt i) (hlt j) h)) hS garbage hgb _ (fun j => [indexOctets (index j)]) (fun j => ?_)
    (fun j => by simp) (fun j => hl) fuel hf Q hQ hne
  refine .cons ⟨⟨by show 0 < 32; decide, hB, ?_⟩, view_index _⟩ .nil
  rw [List.length_replicate]
  rfl

/-! ### Examples: SHA-256 around a random function -/

/-- `find_group_hash` with the hash of `collecting`. -/
noncomputable def collectingGroup {S : Finset (List Nat)} (dec : List Nat → Option G) (cofactor : Nat) (H : Hash S 32) :
    GroupHashParams (List Bits) Bits G where
  C := (collecting H).C spliceInjector
  J := spliceInjector
  octets := bigOctetBigBit
  cache0 := List.replicate 64 0
  dst := groupHashDst
  decode d := dec (bitOctets 32 d)
  cofactor := cofactor

theorem collectingGroup_random {S : Finset (List Nat)} (hS : ∀ x ∈ S, (∀ y ∈ x, y < 256) ∧ x.length ≤ 2 ^ 60)
    (dec : List Nat → Option G) (cofactor : Nat) :
    RandomGroupHash S 32 512 (2 ^ 60) groupHashDst dec cofactor (collectingGroup dec cofactor) (fun _ => GoodMsg .sha256)
      fun H => (collecting H).spec where
  valid H := by
    obtain ⟨h1, h2, h3, _⟩ := policy_sizes .sha256
    refine ⟨⟨h1, h2, h3, (collecting H).computes spliceInjector⟩, Or.inl rfl, ⟨64, rfl⟩, ?_⟩
    show (List.replicate 64 0).length = 512 / 8
    rfl
  block H := rfl
  dst H := rfl
  cofactor H := rfl
  good H xs hxs := goodMsg_of_bytes .sha256 (by rw [length_octetBits]; exact Nat.dvd_mul_left _ _) (by rw [length_octetBits]; omega)
  fits H := (collecting H).fits spliceInjector _
  computes H x hx := by
    show dec (bitOctets 32 ((collecting H).spec (octetBits x))) = _
    rw [collecting_spec H x (hS x hx).1 (hS x hx).2]
    have := bitOctets_octetBits (H.apply x) (apply_octets H x).2
    rw [(apply_octets H x).1] at this
    rw [this]

/-- All strings hashed for some messages. -/
def candidateStrings {q : Nat} (dst : List Nat) (msg : Fin q → List Nat) : Finset (List Nat) :=
  Finset.univ.image fun p : Fin q × Fin 256 => candidate dst (msg p.1) p.2

theorem mem_candidateStrings {q : Nat} (dst : List Nat) (msg : Fin q → List Nat) (j : Fin q) (i : Nat) (hi : i < 256) :
    candidate dst (msg j) i ∈ candidateStrings dst msg :=
  Finset.mem_image.2 ⟨(j, ⟨i, hi⟩), Finset.mem_univ _, rfl⟩

/-- A group whose points are numbered, encoded as their number in `b` octets. -/
def numbered {n : Nat} (e : Fin n ≃ G) (x : List Nat) : Option G := if h : os2ip x < n then some (e ⟨os2ip x, h⟩) else none

theorem numbered_encodings {n b : Nat} (e : Fin n ≃ G) (hn : n ≤ 256 ^ b) [DecidableEq G] (p : G) :
    (Finset.univ.filter fun d : Digest b => numbered e (octets d) = some p).card = 1 := by
  obtain ⟨d, hd⟩ := (os2ip_bijective b).2 ⟨(e.symm p).1, lt_of_lt_of_le (e.symm p).2 hn⟩
  have hd : os2ip (octets d) = (e.symm p).1 := congrArg Fin.val hd
  rw [Finset.card_eq_one]
  refine ⟨d, Finset.ext fun d' => ?_⟩
  simp only [Finset.mem_filter, Finset.mem_univ, true_and, Finset.mem_singleton]
  constructor
  · intro h
    unfold numbered at h
    split at h
    · have h := Option.some.inj h
      refine (os2ip_bijective b).1 (Fin.ext ?_)
      show os2ip (octets d') = os2ip (octets d)
      rw [hd, ← h, Equiv.symm_apply_apply]
    · cases h
  · rintro rfl
    unfold numbered
    rw [dif_pos (by rw [hd]; exact (e.symm p).2)]
    congr 1
    rw [Equiv.apply_eq_iff_eq_symm_apply]
    exact Fin.ext hd

instance : NeZero jubjubOrder := ⟨by rw [jubjubOrder]; decide⟩

section
variable {n : Nat} [NeZero n]

theorem times_eight (p : ZMod n × ZMod 8) : (8 • p).2 = 0 := by
  show 8 • p.2 = 0
  rw [nsmul_eq_mul, show ((8 : Nat) : ZMod 8) = 0 from by decide, zero_mul]

theorem kernel_eight (hc : Nat.Coprime n 8) (p : ZMod n × ZMod 8) : 8 • p = 0 ↔ p.1 = 0 := by
  rw [Prod.ext_iff, times_eight]
  simp only [Prod.smul_fst, Prod.fst_zero, Prod.snd_zero, and_true]
  constructor
  · intro h
    have hv : ((8 * p.1.val : Nat) : ZMod n) = 0 := by
      rw [Nat.cast_mul, ZMod.natCast_zmod_val, ← nsmul_eq_mul, h]
    rw [ZMod.natCast_eq_zero_iff] at hv
    exact (ZMod.val_eq_zero _).1 (Nat.eq_zero_of_dvd_of_lt (hc.dvd_of_dvd_mul_left hv) (ZMod.val_lt _))
  · intro h
    rw [h, smul_zero]

theorem multiples_eight (hc : Nat.Coprime n 8) : (Finset.univ.image fun p : ZMod n × ZMod 8 => 8 • p).card = n := by
  have hi : (Finset.univ.image fun p : ZMod n × ZMod 8 => 8 • p) =
      Finset.univ.image fun x : ZMod n => 8 • ((x, 0) : ZMod n × ZMod 8) := by
    refine Finset.Subset.antisymm (fun y hy => ?_) fun y hy => ?_
    · obtain ⟨p, -, rfl⟩ := Finset.mem_image.1 hy
      refine Finset.mem_image.2 ⟨p.1, Finset.mem_univ _, Prod.ext rfl ?_⟩
      rw [times_eight, times_eight]
    · obtain ⟨x, -, rfl⟩ := Finset.mem_image.1 hy
      exact Finset.mem_image.2 ⟨(x, 0), Finset.mem_univ _, rfl⟩
  rw [hi, Finset.card_image_of_injective, Finset.card_univ, ZMod.card]
  intro x y h
  have h : 8 • ((x, 0) : ZMod n × ZMod 8) = 8 • (y, 0) := h
  have h2 := (kernel_eight hc ((x, 0) - (y, 0))).1 (by rw [smul_sub, h, sub_self])
  exact sub_eq_zero.1 h2

end

theorem jubjub_odd : Nat.Coprime jubjubOrder 8 := by decide +kernel

/-- A group with the numbers of Jubjub. -/
abbrev JubjubSized := ZMod jubjubOrder × ZMod 8

theorem card_jubjubSized : Fintype.card JubjubSized = 8 * jubjubOrder := by
  rw [Fintype.card_prod, ZMod.card, ZMod.card, Nat.mul_comm]

/-- The points of this group in some order. -/
noncomputable def jubjubNumbers : Fin (8 * jubjubOrder) ≃ JubjubSized :=
  (finCongr card_jubjubSized.symm).trans (Fintype.equivFin JubjubSized).symm

/-- The strings hashed for the base points of the first `q` segments. -/
def baseStrings (q : Nat) : Finset (List Nat) := candidateStrings groupHashDst fun j : Fin q => indexOctets j

theorem baseStrings_octets (q : Nat) : ∀ x ∈ baseStrings q, (∀ y ∈ x, y < 256) ∧ x.length ≤ 2 ^ 60 := by
  intro x hx
  obtain ⟨⟨j, i⟩, -, rfl⟩ := Finset.mem_image.1 hx
  refine ⟨fun y hy => ?_, ?_⟩
  · simp only [candidate, indexOctets, List.mem_append, List.mem_cons, List.not_mem_nil, or_false] at hy
    have h1 : ∀ y ∈ groupHashDst, y < 256 := by decide
    have h2 : ∀ y ∈ groupHashUrs, y < 256 := by decide
    rcases hy with (((hy | hy) | hy)) | hy
    · exact h1 y hy
    · exact h2 y hy
    · omega
    · rw [hy]; exact i.2
  · have h1 : groupHashDst.length = 8 := by decide
    have h2 : groupHashUrs.length = 64 := by decide
    simp only [candidate, indexOctets, List.length_append, h1, h2, List.length_cons, List.length_nil]
    omega

/-- The base points of the first `q` segments: all combinations of nonzero points of the prime-order part are equally likely. -/
example (q : Nat) (hq : q ≤ 2 ^ 32) (Q : Fin q → ZMod jubjubOrder) (hne : ∀ j, Q j ≠ 0) :
    prob (fun H : Hash (baseStrings q) 32 => ∀ j : Fin q, groupHashOnce (collectingGroup (numbered jubjubNumbers) 8 H)
      (List.replicate 512 false) 256 (baseOps 512 j) = .ok [some (8 • (Q j, 0))]) =
      ((1 - (1 - (1 * (8 * jubjubOrder : Nat) : ℚ) / 256 ^ 32) ^ 256) / jubjubOrder) ^ q := by
  have h := C98_base_points (fun j : Fin q => j.1) Fin.val_injective (fun j => lt_of_lt_of_le j.2 hq)
    (numbered_encodings (b := 32) jubjubNumbers (by rw [jubjubOrder]; norm_num)) Nat.one_pos (B := 512) ⟨16, rfl⟩
    (collectingGroup_random (baseStrings_octets q) (numbered jubjubNumbers) 8)
    (fun j i hi => mem_candidateStrings _ _ j i hi) (List.replicate 512 false) List.length_replicate (by decide +kernel) 256 le_rfl
    (fun j => 8 • (Q j, 0)) (fun j => ⟨_, rfl⟩) fun j h => hne j ((kernel_eight jubjub_odd (Q j, 0)).1 h)
  rw [card_jubjubSized, (multiples_eight jubjub_odd), Nat.cast_one] at h
  exact h

/-- And all of them exist but with a probability below `q / 2^221`. -/
example (q : Nat) (hq : q ≤ 2 ^ 32) : 1 - q / 2 ^ 221 ≤
    prob (fun H : Hash (baseStrings q) 32 => ∀ j : Fin q, ∃ Q, groupHashOnce (collectingGroup (numbered jubjubNumbers) 8 H)
      (List.replicate 512 false) 256 (baseOps 512 j) = .ok [some Q]) := by
  refine le_trans ?_ (C98_jubjub (msg := fun j : Fin q => indexOctets j)
    (numbered_encodings (b := 32) jubjubNumbers (by rw [jubjubOrder]; norm_num)) card_jubjubSized (multiples_eight jubjub_odd)
    (collectingGroup_random (baseStrings_octets q) (numbered jubjubNumbers) 8)
    (fun i j h => Fin.ext (indexOctets_injective (lt_of_lt_of_le i.2 hq) (lt_of_lt_of_le j.2 hq) h))
    (fun j i hi => mem_candidateStrings _ _ j i hi) (List.replicate 512 false) List.length_replicate (fun j => baseOps 512 j)
    (fun j => [indexOctets j]) (fun j => .cons ⟨⟨by show 0 < 32; decide, ⟨16, rfl⟩, rfl⟩, view_index _⟩ .nil) (fun j => by simp)
    (fun j => by
      show 8 + 64 + 4 + 1 ≤ 2 ^ 60
      norm_num) 256 le_rfl).1
  have h : (1 / 2 ^ 222 + 1 / jubjubOrder : ℚ) ≤ 1 / 2 ^ 221 := by rw [jubjubOrder]; norm_num
  have hq : (0 : ℚ) ≤ q := Nat.cast_nonneg q
  have := mul_le_mul_of_nonneg_left h hq
  rw [mul_one_div] at this
  linarith

/-- The same ways of calling for `C98_outcomes`, `C98_uniform` and `C98_success`: all `q` searches fail; the points are given; there are
points. -/
example (q : Nat) (hq : q ≤ 2 ^ 32) (Q : Fin q → JubjubSized) (hQ : ∀ j, ∃ p : JubjubSized, 8 • p = Q j) (hne : ∀ j, Q j ≠ 0) :
    (prob (fun H : Hash (baseStrings q) 32 => ∀ j : Fin q, groupHashOnce (collectingGroup (numbered jubjubNumbers) 8 H)
      (List.replicate 512 false) 256 (baseOps 512 j) = .ok [none]) = (undecodable (numbered jubjubNumbers) 32 ^ 256) ^ q) ∧
    (prob (fun H : Hash (baseStrings q) 32 => ∀ j : Fin q, groupHashOnce (collectingGroup (numbered jubjubNumbers) 8 H)
      (List.replicate 512 false) 256 (baseOps 512 j) = .ok [some (Q j)]) =
      ((1 - (1 - ((1 : Nat) * (8 * jubjubOrder : Nat) : ℚ) / 256 ^ 32) ^ 256) / jubjubOrder) ^ q) ∧
    prob (fun H : Hash (baseStrings q) 32 => ∀ j : Fin q, ∃ Q, groupHashOnce (collectingGroup (numbered jubjubNumbers) 8 H)
      (List.replicate 512 false) 256 (baseOps 512 j) = .ok [some Q]) =
      ((1 - (1 - ((1 : Nat) * (8 * jubjubOrder : Nat) : ℚ) / 256 ^ 32) ^ 256) * (1 - 1 / jubjubOrder)) ^ q := by
  have ht := numbered_encodings (b := 32) jubjubNumbers (by rw [jubjubOrder]; norm_num)
  have R := collectingGroup_random (baseStrings_octets q) (numbered jubjubNumbers) 8
  have hi : Function.Injective fun j : Fin q => indexOctets j :=
    fun i j h => Fin.ext (indexOctets_injective (lt_of_lt_of_le i.2 hq) (lt_of_lt_of_le j.2 hq) h)
  have hS : ∀ (j : Fin q) (i : Nat), i < 256 → candidate groupHashDst (indexOctets j) i ∈ baseStrings q :=
    fun j i hi => mem_candidateStrings _ _ j i hi
  have hm : ∀ j : Fin q, List.Forall₂ (XmdMatches 512) (baseOps 512 j) (([indexOctets j] : List (List Nat)).map some) :=
    fun j => .cons ⟨⟨by show 0 < 32; decide, ⟨16, rfl⟩, rfl⟩, view_index _⟩ .nil
  have hf : ∀ j : Fin q, [indexOctets j].flatten = indexOctets j := fun j => by simp
  have hl : ∀ j : Fin q, groupHashDst.length + 64 + (indexOctets j).length + 1 ≤ 2 ^ 60 := fun j => by
    show 8 + 64 + 4 + 1 ≤ 2 ^ 60
    norm_num
  refine ⟨?_, ?_, ?_⟩
  · have h := C98_outcomes R hi hS (List.replicate 512 false) List.length_replicate _ _ hm hf hl 256 le_rfl fun _ => none
    rw [Finset.prod_const, Finset.card_univ, Fintype.card_fin] at h
    exact h
  · have h := C98_uniform ht Nat.one_pos R hi hS (List.replicate 512 false) List.length_replicate _ _ hm hf hl 256 le_rfl Q hQ hne
    rwa [card_jubjubSized, multiples_eight jubjub_odd] at h
  · have h := C98_success ht Nat.one_pos R hi hS (List.replicate 512 false) List.length_replicate _ _ hm hf hl 256 le_rfl
    rwa [card_jubjubSized, multiples_eight jubjub_odd] at h

/-- One message, ended or not: with the decoder above the search ends with probability `1 − r^256`. -/
example : prob (fun H : Hash (baseStrings 1) 32 => ∀ _ : Fin 1, groupHashOnce (collectingGroup (numbered jubjubNumbers) 8 H)
      (List.replicate 512 false) 256 (baseOps 512 0) ≠ .ok [none]) = (1 - undecodable (numbered jubjubNumbers) 32 ^ 256) ^ 1 :=
  C98_termination (msg := fun j : Fin 1 => indexOctets j) (collectingGroup_random (baseStrings_octets 1) (numbered jubjubNumbers) 8)
    (fun i j _ => Subsingleton.elim i j) (fun j i hi => mem_candidateStrings _ _ j i hi) (List.replicate 512 false)
    List.length_replicate (fun _ => baseOps 512 0) (fun j => [indexOctets j])
    (fun j => .cons ⟨⟨by show 0 < 32; decide, ⟨16, rfl⟩, rfl⟩, by rw [Subsingleton.elim j 0]; exact view_index _⟩ .nil)
    (fun j => by simp) (fun j => by
      show 8 + 64 + 4 + 1 ≤ 2 ^ 60
      norm_num) 256 le_rfl

end

end Verif.Props
