import Verif.Proof.Overload
import Verif.Props.Circuit
import Verif.Props.PoseidonWords
/-
C94: which function a call `hash<H>(…)` means.  C95: which conversion operator a use of its result means.
-/
namespace Verif.Props

/-- What is always so in a C++ program: an iterator type is not an accumulator set, `std::initializer_list`
is neither, accumulator sets are classes. -/
structure Sane (E : Traits) : Prop where
  iterator_not_accumulator : ∀ t, E.isIterator t.decay = true →
    E.isAccumulatorSet t = false ∧ E.isAccumulatorSet (.const t) = false
  accumulator_class : ∀ t, E.isAccumulatorSet t = true → t.decay = t
  list_not_iterator : ∀ t, E.isIterator (.app initializerList t) = false
  list_not_accumulator : ∀ t, E.isAccumulatorSet (.app initializerList t) = false

theorem isList_iff {t : Ty} : t.isList = true ↔ ∃ u, t = .app initializerList u := by
  cases t <;> simp [Ty.isList]

theorem Sane.list_iterator {E : Traits} (h : Sane E) {t : Ty} (ht : E.isIterator t = true) : t.isList = false := by
  cases hl : t.isList with
  | false => rfl
  | true =>
    obtain ⟨u, rfl⟩ := isList_iff.mp hl
    rw [h.list_not_iterator] at ht
    cases ht

theorem Sane.isAcc_of_iterator {E : Traits} (h : Sane E) {t : Ty} (ht : E.isIterator t.decay = true) (c l : Bool) :
    isAcc E t c l = false := by
  obtain ⟨h1, h2⟩ := h.iterator_not_accumulator t ht
  cases c <;> simp [isAcc, h1, h2]

theorem Sane.not_iterator_of_acc {E : Traits} (h : Sane E) {t : Ty} (ht : E.isAccumulatorSet t = true) :
    E.isIterator t.decay = false := by
  cases hi : E.isIterator t.decay with
  | false => rfl
  | true => rw [(h.iterator_not_accumulator t hi).1] at ht; cases ht

section
variable {E : Traits} (h : Sane E) (hP : E.poseidon = false)
include h hP

/-- **C94, two iterators.** Two arguments of the same iterator type are an iterator pair, whatever they are
(constants, temporaries, arrays that decay). -/
theorem C94_iterators (x y : Ty) (cx lx cy ly : Bool) (hs : x.decay = y.decay)
    (hi : E.isIterator x.decay = true) : hashCall E [.expr x cx lx, .expr y cy ly] = .call .iter := by
  rw [hashCall_two E hP, h.list_iterator hi]
  simp [meaningTwo, hs]

/-- **C94, two iterators and an output iterator.** -/
theorem C94_iterators_output (x y z : Ty) (cx lx cy ly cz lz : Bool) (hs : x.decay = y.decay)
    (hz : E.isIterator z.decay = true) :
    hashCall E [.expr x cx lx, .expr y cy ly, .expr z cz lz] = .call .iterOut := by
  have hd : z.decay.decay = z.decay ∨ E.isAccumulatorSet z.decay = false := by
    cases ha : E.isAccumulatorSet z.decay with
    | true => exact Or.inl (h.accumulator_class _ ha)
    | false => exact Or.inr rfl
  have ha : E.isAccumulatorSet z.decay = false := by
    rcases hd with hd | hd
    · exact (h.iterator_not_accumulator z.decay (by rw [hd]; exact hz)).1
    · exact hd
  rw [hashCall_three, h.isAcc_of_iterator hz, ha, hP]
  simp [meaningThree, hs]

/-- **C94, two iterators and an accumulator.** The accumulator is a variable. -/
theorem C94_iterators_accumulator (x y z : Ty) (cx lx cy ly : Bool) (hs : x.decay = y.decay)
    (hz : E.isAccumulatorSet z = true) :
    hashCall E [.expr x cx lx, .expr y cy ly, .expr z false true] = .call .iterAcc := by
  rw [hashCall_three, h.accumulator_class z hz, hz, hP]
  simp [meaningThree, hs, isAcc, hz]

omit h in
/-- **C94, a range alone.** An `initializer_list` variable goes to the overload for lists, everything else to
the one for ranges. -/
theorem C94_range (x : Ty) (cx lx : Bool) :
    hashCall E [.expr x cx lx] = .call (if x.decay.isList then .list else .range) := by
  rw [hashCall_one, hP]
  simp [meaningOne]

/-- **C94, a range and an output iterator, exactly.** The intended overload is called if and only if the type
of the range does not decay to the type of the output iterator; otherwise the two are taken for an iterator
pair. -/
theorem C94_range_output (x y : Ty) (cx lx cy ly : Bool) (hx : x.decay.isList = false)
    (hy : E.isIterator y.decay = true) :
    hashCall E [.expr x cx lx, .expr y cy ly] = .call (if x.decay = y.decay then .iter else .rangeOut) := by
  rw [hashCall_two E hP, h.isAcc_of_iterator hy, hx, hy]
  by_cases e : x.decay = y.decay <;> simp [meaningTwo, e]

/-- **C94, a range and an output iterator, what holds.** For every range that is not a built-in array (a class
that is not itself an iterator). -/
theorem C94_range_output_partial (x y : Ty) (cx lx cy ly : Bool) (hx : x.decay.isList = false)
    (hr : E.isIterator x.decay = false) (hy : E.isIterator y.decay = true) :
    hashCall E [.expr x cx lx, .expr y cy ly] = .call .rangeOut := by
  rw [C94_range_output h hP x y cx lx cy ly hx hy, if_neg]
  intro e
  rw [e, hy] at hr
  cases hr

/-- **C94, a range and an accumulator.** -/
theorem C94_range_accumulator (x y : Ty) (cx lx : Bool) (hx : x.decay.isList = false)
    (hr : E.isAccumulatorSet x.decay = false) (hy : E.isAccumulatorSet y = true) :
    hashCall E [.expr x cx lx, .expr y false true] = .call .rangeAcc := by
  have e : x.decay ≠ y.decay := by
    intro e
    rw [e, h.accumulator_class y hy, hy] at hr
    cases hr
  rw [hashCall_two E hP, h.not_iterator_of_acc hy, hx]
  simp [meaningTwo, e, isAcc, hy]

/-- **C94, lists.** A braced list, and a variable of type `std::initializer_list`, alone, with an output
iterator and with an accumulator.  The elements of a braced list must have one type. -/
theorem C94_lists (a : Arg)
    (ha : (∃ t c l, a = .expr (.app initializerList t) c l) ∨
      ∃ t ts, a = .braced (t :: ts) ∧ ∀ u ∈ ts, u.decay = t.decay) :
    hashCall E [a] = .call .list ∧
    (∀ y cy ly, E.isIterator y.decay = true → hashCall E [a, .expr y cy ly] = .call .listOut) ∧
    (∀ y, E.isAccumulatorSet y = true → hashCall E [a, .expr y false true] = .call .listAcc) := by
  rcases ha with ⟨t, c, l, rfl⟩ | ⟨t, ts, rfl, hts⟩
  · have hl : (Ty.app initializerList t).decay.isList = true := by simp [Ty.decay, Ty.isList]
    refine ⟨?_, ?_, ?_⟩
    · rw [C94_range hP, hl]; rfl
    · intro y cy ly hy
      have e : (Ty.app initializerList t).decay ≠ y.decay := by
        intro e
        rw [← e] at hy
        simp only [Ty.decay, h.list_not_iterator] at hy
        cases hy
      rw [hashCall_two E hP, h.isAcc_of_iterator hy, hl, hy]
      simp [meaningTwo, e]
    · intro y hy
      have e : (Ty.app initializerList t).decay ≠ y.decay := by
        intro e
        rw [h.accumulator_class y hy] at e
        rw [← e] at hy
        simp only [Ty.decay, h.list_not_accumulator] at hy
        cases hy
      rw [hashCall_two E hP, h.not_iterator_of_acc hy, hl]
      simp [meaningTwo, e, isAcc, hy]
  · have hu : uniform (t :: ts) = true := by simpa [uniform] using hts
    refine ⟨?_, ?_, ?_⟩
    · rw [hashCall_braced_one, hP, hu]; rfl
    · intro y cy ly hy
      rw [hashCall_braced_two, hP, hu, hy, h.isAcc_of_iterator hy]
      rfl
    · intro y hy
      rw [hashCall_braced_two, hP, hu, h.not_iterator_of_acc hy]
      simp [isAcc, hy]

omit h in
/-- **C94 is false for arrays.** `hash<H>(message, digest)` with two built-in arrays of the same element type
is not "a range and an output iterator": the call compiles as an iterator pair from the first element of the
one to the first element of the other, whatever their lengths; nothing is written to `digest`. -/
theorem C94_arrays_false (u : Ty) (n m : Nat) (cx lx cy ly : Bool) :
    hashCall E [.expr (.arr u n) cx lx, .expr (.arr u m) cy ly] = .call .iter := by
  rw [hashCall_two E hP]
  simp [meaningTwo, Ty.decay, Ty.isList]
end

/-- … and the loop of that function then reads past the end of the message: two pointers into different
arrays never become equal. -/
theorem C94_arrays_read (mem : List (List Nat)) (fuel : Nat) (first last : Ptr) (hne : first.obj ≠ last.obj) :
    readRange mem fuel first last = .error .outOfRange := by
  induction fuel generalizing first with
  | zero => rfl
  | succ fuel ih =>
    have e : first ≠ last := fun e => hne (by rw [e])
    simp only [readRange, e, if_false]
    cases (mem[first.obj]?).bind (·[first.idx]?) with
    | none => rfl
    | some x => simp only [ih ⟨first.obj, first.idx + 1⟩ hne]; rfl

/-- Whereas an iterator pair into one array reads exactly the elements between. -/
theorem C94_iterators_read (mem : List (List Nat)) (o i n fuel : Nat) (l : List Nat) (ho : mem[o]? = some l)
    (hn : i + n ≤ l.length) (hf : n < fuel) :
    readRange mem fuel ⟨o, i⟩ ⟨o, i + n⟩ = .ok ((l.drop i).take n) := by
  induction n generalizing i fuel with
  | zero =>
    obtain ⟨f, rfl⟩ : ∃ f, fuel = f + 1 := ⟨fuel - 1, by omega⟩
    simp [readRange]
  | succ n ih =>
    obtain ⟨f, rfl⟩ : ∃ f, fuel = f + 1 := ⟨fuel - 1, by omega⟩
    have hi : i < l.length := by omega
    have e : (⟨o, i⟩ : Ptr) ≠ ⟨o, i + (n + 1)⟩ := by simp
    have hr := ih (i + 1) f (by omega) (by omega)
    rw [show i + 1 + n = i + (n + 1) by omega] at hr
    simp only [readRange, e, if_false, ho, Option.bind_some, List.getElem?_eq_getElem hi, hr]
    rw [List.drop_eq_getElem_cons hi, List.take_succ_cons]
    rfl

/-- What is always so for Poseidon: its digest is a field element, which is no iterator and has no nested
`value_type`, and is no built-in integer. -/
structure SanePoseidon (E : Traits) : Prop where
  digest_no_value : E.valueType E.digest = none
  digest_not_integral : E.isIntegral E.digest = false

section
variable {E : Traits} (hs : SanePoseidon E) (hP : E.poseidon = true)
include hP

/-- **C94, Poseidon, iterators.** Iterator pairs, alone and with an output iterator. -/
theorem C94_poseidon_iterators (x y z : Ty) (cx lx cy ly cz lz : Bool) (he : x.decay = y.decay)
    (hi : E.isIterator x.decay = true) :
    hashCall E [.expr x cx lx, .expr y cy ly] = .call .poseidonIter ∧
    hashCall E [.expr x cx lx, .expr y cy ly, .expr z cz lz] = .call .poseidonIterOut := by
  constructor
  · rw [hashCall_poseidon_two E hP, hi]
    simp [meaningPoseidonTwo, he]
  · rw [hashCall_three, hP]
    simp [meaningThree, he]

include hs

/-- **C94, Poseidon, containers of elements**, alone and with an initial element. -/
theorem C94_poseidon_elements (x y : Ty) (cx lx cy ly : Bool) (hv : E.valueType x = some E.digest) :
    hashCall E [.expr x cx lx] = .call .poseidonElems ∧
    ((y = E.digest ∨ E.converts y = true) → E.isIterator x.decay = false →
      hashCall E [.expr x cx lx, .expr y cy ly] = .call .poseidonElemsInit) := by
  have hx : (x == E.digest) = false := by
    rw [beq_eq_false_iff_ne]; rintro rfl; rw [hs.digest_no_value] at hv; cases hv
  constructor
  · rw [hashCall_one, hP, hv, hx]
    simp [meaningOne, hs.digest_not_integral]
  · intro hy hi
    have hin : isInit E y = true := by simpa [isInit] using hy
    rw [hashCall_poseidon_two E hP, hv, hx, hin, hi]
    simp [meaningPoseidonTwo, hs.digest_not_integral]

/-- **C94, Poseidon, one element**, alone and with an initial element. -/
theorem C94_poseidon_element (y : Ty) (cx lx cy ly : Bool) :
    hashCall E [.expr E.digest cx lx] = .call .poseidonElem ∧
    ((y = E.digest ∨ E.converts y = true) → E.isIterator E.digest.decay = false →
      hashCall E [.expr E.digest cx lx, .expr y cy ly] = .call .poseidonElemInit) := by
  constructor
  · rw [hashCall_one, hP, hs.digest_no_value]
    simp [meaningOne]
  · intro hy hi
    have hin : isInit E y = true := by simpa [isInit] using hy
    rw [hashCall_poseidon_two E hP, hs.digest_no_value, hin, hi]
    simp [meaningPoseidonTwo]

/-- **C94, Poseidon, containers of integers**, alone and with an initial element. -/
theorem C94_poseidon_integers (x y i : Ty) (cx lx cy ly : Bool) (hv : E.valueType x = some i)
    (hint : E.isIntegral i = true) :
    hashCall E [.expr x cx lx] = .call .poseidonInts ∧
    ((y = E.digest ∨ E.converts y = true) → E.isIterator x.decay = false →
      hashCall E [.expr x cx lx, .expr y cy ly] = .call .poseidonIntsInit) := by
  have hx : (x == E.digest) = false := by
    rw [beq_eq_false_iff_ne]; rintro rfl; rw [hs.digest_no_value] at hv; cases hv
  have hd : (some i == some E.digest) = false := by
    rw [beq_eq_false_iff_ne]; intro e; cases e; rw [hs.digest_not_integral] at hint; cases hint
  constructor
  · rw [hashCall_one, hP, hv, hx, hd]
    simp [meaningOne, hint]
  · intro hy hi
    have hin : isInit E y = true := by simpa [isInit] using hy
    rw [hashCall_poseidon_two E hP, hv, hx, hin, hi, hd]
    simp [meaningPoseidonTwo, hint]

omit hs in
/-- **C94 is false for Poseidon: missing forms.** A braced list, alone or with a second argument, and a range
with an output iterator or an accumulator (anything that is no field element), name no function. -/
theorem C94_poseidon_missing_false (ts : List Ty) (x y : Ty) (cx lx cy ly : Bool)
    (hy : y ≠ E.digest) (hc : E.converts y = false) (hx : E.isIterator x.decay = false) :
    hashCall E [.braced ts] = .noFunction ∧ hashCall E [.braced ts, .expr y cy ly] = .noFunction ∧
    hashCall E [.expr x cx lx, .expr y cy ly] = .noFunction := by
  refine ⟨?_, ?_, ?_⟩
  · rw [hashCall_braced_one, hP]; rfl
  · rw [hashCall_braced_two, hP]; rfl
  · have hin : isInit E y = false := by simp [isInit, hy, hc]
    rw [hashCall_poseidon_two E hP, hin, hx]
    simp [meaningPoseidonTwo]
end

/-- **C94 is false for Poseidon: the forms disagree.** The same two octets hashed as a container of integers
and as an iterator pair over it: the former function packs them into one field element, the latter absorbs an
element for each (a field element is constructible from an integer). -/
theorem C94_poseidon_octets_false : ∃ octets : List Int,
    poseidonHash pallasPermute (octets.map fun z : Int => ((z : Int) : ZMod pallasBase)) ≠
      poseidonHashWords pallasPermute 255 8 octets := by
  refine ⟨[1, 0], ?_⟩
  rw [(C46_words pallasPermute 255 8 (by decide) (by decide) (by decide) [1, 0]).1, pallas_permute,
    C44_digest (n := 2) (by decide) pallasPerm, C44_digest (n := 2) (by decide) pallasPerm]
  intro he
  have h3 := Except.ok.inj he
  have hp : Spec.Poseidon.pack (255 / 8) 8 [1, 0] = [256] := by decide +kernel
  rw [hp] at h3
  simp only [List.map_cons, List.map_nil] at h3
  have hs : ∀ a : ZMod pallasBase, Spec.Poseidon.digest (n := 2) pallasPerm [a] = pallasPerm ![0, a, 0] 2 := by
    intro a
    have hin : Spec.Poseidon.input (n := 2) (0 : ZMod pallasBase) [a] = ![0, a, 0] := by
      funext i
      fin_cases i <;> rfl
    unfold Spec.Poseidon.digest
    rw [Spec.Poseidon.blocks, dif_pos (Or.inl (by simp))]
    simp only [List.foldl_cons, List.foldl_nil, Spec.Poseidon.compress, hin]
    rfl
  rw [digest_pair, hs] at h3
  have e1 : (![0, ((1 : Int) : ZMod pallasBase), ((0 : Int) : ZMod pallasBase)] : Fin 3 → ZMod pallasBase) =
      vecOf pallasBase [0, 1, 0] := by
    funext i; fin_cases i <;> simp [vecOf]
  have e2 : (![0, ((256 : Int) : ZMod pallasBase), 0] : Fin 3 → ZMod pallasBase) = vecOf pallasBase [0, 256, 0] := by
    funext i; fin_cases i <;> simp [vecOf]
  rw [e1, e2, pallasPerm_nat, pallasPerm_nat] at h3
  have h4 := (ZMod.natCast_eq_natCast_iff' _ _ _).1 h3
  exact absurd h4 (by decide +kernel)

/-- **C94, traits.** `is_poseidon` holds exactly of the instances of `poseidon`; the accumulators that keep no
block cache are exactly those of `find_group_hash`, Pedersen, `h2f` and `h2c`, and never Poseidon's. -/
theorem C94_traits (h : HashTy) :
    (isPoseidon h = true ↔ ∃ P, h = HashTy.poseidon P) ∧
    (elementAccumulator h = true ↔
      h.template ∈ ["find_group_hash", "pedersen_to_point", "pedersen", "h2f", "h2c"]) ∧
    ¬ (isPoseidon h = true ∧ elementAccumulator h = true) := by
  have h1 : isPoseidon h = true ↔ ∃ P, h = HashTy.poseidon P := by
    unfold isPoseidon
    constructor
    · intro hp
      split at hp
      · exact ⟨_, (of_decide_eq_true hp).symm⟩
      · cases hp
    · rintro ⟨P, rfl⟩
      simp [HashTy.poseidon]
  have h2 : elementAccumulator h = true ↔
      h.template ∈ ["find_group_hash", "pedersen_to_point", "pedersen", "h2f", "h2c"] := by
    simp [elementAccumulator, isFindGroupHash, isPedersen, isH2f, isH2c, or_assoc]
  refine ⟨h1, h2, ?_⟩
  rintro ⟨a, b⟩
  obtain ⟨P, rfl⟩ := h1.mp a
  rw [h2] at b
  simp [HashTy.poseidon] at b

example : isPoseidon (.poseidon (.atom "P")) = true ∧ elementAccumulator (.poseidon (.atom "P")) = false := by
  have h := C94_traits (.poseidon (.atom "P"))
  exact ⟨h.1.2 ⟨_, rfl⟩, Bool.eq_false_iff.2 fun e => h.2.2 ⟨h.1.2 ⟨_, rfl⟩, e⟩⟩

/-- A small program: octets, pointers to them, vectors, a MD5 accumulator and digest. -/
def demoTraits : Traits where
  isIterator := fun t => match t with | .ptr _ => true | _ => false
  isAccumulatorSet := fun t => t = .atom "accumulator_set<md5>"
  isIntegral := fun t => t = .atom "uint8_t"
  valueType := fun t => match t with | .app (.atom "vector") u => some u | _ => none
  digest := .atom "digest"
  converts := fun _ => false
  poseidon := false

theorem sane_demo : Sane demoTraits where
  iterator_not_accumulator := by
    intro t ht
    cases t <;> simp [demoTraits, Ty.decay] at ht ⊢
  accumulator_class := by
    intro t ht
    simp only [demoTraits, decide_eq_true_eq] at ht
    rw [ht]; rfl
  list_not_iterator := fun _ => rfl
  list_not_accumulator := fun _ => by simp [demoTraits]

/-- A range and a pointer; two arrays; Poseidon iterators and missing overloads; the traits. -/
example : hashCall demoTraits [.expr (.app (.atom "vector") (.atom "uint8_t")) false true, .expr (.ptr (.atom "uint8_t")) false true] =
      .call .rangeOut ∧
    hashCall demoTraits [.expr (.ptr (.atom "uint8_t")) false true, .expr (.ptr (.atom "uint8_t")) false true] = .call .iter :=
  ⟨C94_range_output sane_demo rfl _ _ _ _ _ _ rfl rfl, C94_range_output sane_demo rfl _ _ _ _ _ _ rfl rfl⟩

example : hashCall { demoTraits with poseidon := true } [.expr (.ptr (.atom "digest")) false true, .expr (.ptr (.atom "digest")) true true] =
    .call .poseidonIter :=
  (C94_poseidon_iterators (z := .num 0) (cz := true) (lz := true) rfl _ _ _ _ _ _ rfl rfl).1

example : hashCall { demoTraits with poseidon := true } [.braced [.atom "digest"]] = .noFunction ∧
    hashCall { demoTraits with poseidon := true } [.expr (.app (.atom "vector") (.atom "digest")) false true,
      .expr (.ptr (.atom "digest")) false true] = .noFunction := by
  have h := C94_poseidon_missing_false (E := { demoTraits with poseidon := true }) rfl [.atom "digest"]
    (.app (.atom "vector") (.atom "digest")) (.ptr (.atom "digest")) false true false true (by decide) rfl rfl
  exact ⟨h.1, h.2.2⟩

/-- `hash<md5>(v, p)` with a vector and a pointer is right, `hash<md5>(message, digest)` with arrays is not. -/
example : hashCall demoTraits [.expr (.app (.atom "vector") (.atom "uint8_t")) false true,
      .expr (.ptr (.atom "uint8_t")) false true] = .call .rangeOut ∧
    hashCall demoTraits [.expr (.arr (.atom "uint8_t") 3) false true,
      .expr (.arr (.atom "uint8_t") 16) false true] = .call .iter :=
  ⟨C94_range_output_partial sane_demo rfl _ _ _ _ _ _ rfl rfl rfl, C94_arrays_false rfl _ _ _ _ _ _ _⟩

example : hashCall demoTraits [.expr (.arr (.atom "uint8_t") 3) false true,
    .expr (.ptr (.atom "uint8_t")) false false] = .call .iter :=
  C94_iterators sane_demo rfl _ _ _ _ _ _ rfl rfl

example : hashCall demoTraits [.expr (.app (.atom "vector") (.atom "uint8_t")) false true,
    .expr (.atom "accumulator_set<md5>") false true] = .call .rangeAcc :=
  C94_range_accumulator sane_demo rfl _ _ _ _ rfl (by decide) (by decide)

example : hashCall demoTraits [.braced [.atom "uint8_t", .atom "uint8_t"]] = .call .list :=
  (C94_lists sane_demo rfl _ (Or.inr ⟨_, _, rfl, by simp⟩)).1

example : hashCall demoTraits [.expr (.ptr (.atom "uint8_t")) false true, .expr (.ptr (.atom "uint8_t")) true true,
      .expr (.ptr (.atom "char")) false false] = .call .iterOut ∧
    hashCall demoTraits [.expr (.ptr (.atom "uint8_t")) false true, .expr (.ptr (.atom "uint8_t")) true true,
      .expr (.atom "accumulator_set<md5>") false true] = .call .iterAcc :=
  ⟨C94_iterators_output sane_demo rfl _ _ _ _ _ _ _ _ _ rfl rfl,
    C94_iterators_accumulator sane_demo rfl _ _ _ _ _ _ _ rfl (by decide)⟩

/-- The same program with Poseidon. -/
example : hashCall { demoTraits with poseidon := true }
      [.expr (.app (.atom "vector") (.atom "digest")) false true, .expr (.atom "digest") false true] =
      .call .poseidonElemsInit ∧
    hashCall { demoTraits with poseidon := true } [.expr (.app (.atom "vector") (.atom "uint8_t")) false true] =
      .call .poseidonInts := by
  have hs : SanePoseidon { demoTraits with poseidon := true } := ⟨rfl, by decide⟩
  exact ⟨(C94_poseidon_elements hs rfl _ _ _ _ _ _ rfl).2 (Or.inl rfl) rfl,
    (C94_poseidon_integers (y := .num 0) (cy := true) (ly := true) hs rfl _ _ _ _ rfl (by decide)).1⟩

example : readRange [[1, 2, 3], [0, 0]] 10 ⟨0, 0⟩ ⟨1, 0⟩ = .error .outOfRange ∧
    readRange [[1, 2, 3], [0, 0]] 10 ⟨0, 0⟩ ⟨0, 3⟩ = .ok [1, 2, 3] :=
  ⟨C94_arrays_read _ _ _ _ (by decide), C94_iterators_read _ 0 0 3 10 [1, 2, 3] rfl (by decide) (by decide)⟩

section
variable (E : Traits) (res acc : Ty) (bits : Nat) (digits : Ty → Nat) (raw : Bool)

/-- **C95, arrays.** The result converts to `std::array` and `boost::array` by the operators for arrays. -/
theorem C95_arrays (t n : Ty) :
    (stdArrayOf t n ≠ res → stdArrayOf t n ≠ acc →
      convCall E res acc bits digits raw (stdArrayOf t n) = .call .stdArray) ∧
    (boostArrayOf t n ≠ res → boostArrayOf t n ≠ acc →
      convCall E res acc bits digits raw (boostArrayOf t n) = .call .boostArray) := by
  constructor
  · intro h1 h2
    rw [convCall_meaning, show (stdArrayOf t n).isStdArray = true from rfl,
      show (stdArrayOf t n).isBoostArray = false by simp [stdArrayOf, Ty.isBoostArray],
      show (stdArrayOf t n).isString = false by
        simp [stdArrayOf, Ty.isString]]
    simp [h1, h2, meaningConv]
  · intro h1 h2
    rw [convCall_meaning, show (boostArrayOf t n).isBoostArray = true from rfl,
      show (boostArrayOf t n).isStdArray = false by simp [boostArrayOf, Ty.isStdArray],
      show (boostArrayOf t n).isString = false by
        simp [boostArrayOf, Ty.isString]]
    simp [h1, h2, meaningConv]

/-- **C95, the digest type and the accumulator** come out unchanged. -/
theorem C95_result (hne : res ≠ acc) :
    convCall E res acc bits digits raw res = .call .result ∧
    convCall E res acc bits digits raw acc = .call .accumulator := by
  constructor <;> rw [convCall_meaning] <;> simp [hne, hne.symm, meaningConv]

/-- **C95, strings.** A string gets the hexadecimal digits, or the octets if
`CRYPTO3_RAW_HASH_STRING_OUTPUT` is defined. -/
theorem C95_string (c tr a : Ty) (h1 : basicStringOf c tr a ≠ res) (h2 : basicStringOf c tr a ≠ acc)
    (h3 : E.isIntegral (basicStringOf c tr a) = false) :
    convCall E res acc bits digits raw (basicStringOf c tr a) = .call (if raw then .range else .string) := by
  rw [convCall_meaning, show (basicStringOf c tr a).isString = true from rfl,
    show (basicStringOf c tr a).isStdArray = false by simp [basicStringOf, Ty.isStdArray],
    show (basicStringOf c tr a).isBoostArray = false by simp [basicStringOf, Ty.isBoostArray], h3]
  cases raw <;> simp [h1, h2, meaningConv]

/-- **C95, other containers** are constructed from the octets. -/
theorem C95_container (t : Ty) (h1 : t ≠ res) (h2 : t ≠ acc) (h3 : t.isStdArray = false)
    (h4 : t.isBoostArray = false) (h5 : t.isString = false) (h6 : E.isIntegral t = false) :
    convCall E res acc bits digits raw t = .call .range := by
  rw [convCall_meaning, h3, h4, h5, h6]
  simp [h1, h2, meaningConv]

/-- **C95 is false for integers.** No integer type can be initialised from a result: if the digest fits, the
operators for containers and for integers are equally good, so the conversion is ambiguous; if it does not
fit, the one for containers is chosen, which cannot construct an integer from two iterators. -/
theorem C95_integral_false (name : String) (h1 : Ty.atom name ≠ res) (h2 : Ty.atom name ≠ acc)
    (h3 : E.isIntegral (.atom name) = true) :
    convCall E res acc bits digits raw (.atom name) =
      (if bits ≤ digits (.atom name) then .ambiguous else .call .range) ∧
    convCall E res acc bits digits raw (.atom name) ≠ .call .integral := by
  have e : convCall E res acc bits digits raw (.atom name) =
      (if bits ≤ digits (.atom name) then .ambiguous else .call .range) := by
    rw [convCall_meaning, h3]
    by_cases hb : bits ≤ digits (.atom name) <;>
      simp [h1, h2, hb, meaningConv, Ty.isStdArray, Ty.isBoostArray, Ty.isString]
  refine ⟨e, ?_⟩
  rw [e]
  split <;> simp

/-- **C95: `operator Integral` is dead.** No target type whatever selects it. -/
theorem C95_integral_unused (t : Ty) : convCall E res acc bits digits raw t ≠ .call .integral := by
  rw [convCall_meaning]
  generalize t.isStdArray = a
  generalize t.isBoostArray = b
  generalize decide (t = res) = c
  generalize decide (t = acc) = d
  generalize (E.isIntegral t && decide (bits ≤ digits t)) = e
  generalize (t.isString && !raw) = f
  revert a b c d e f
  decide
end

/-- CRC-32: 32 bits, `std::uint32_t` has 32 digits; strings and vectors are fine, the integer is ambiguous. -/
example : let E := { demoTraits with isIntegral := fun t => t = .atom "uint32_t" }
    let conv := convCall E (.atom "digest") (.atom "acc") 32 (fun _ => 32) false
    conv (.atom "uint32_t") = .ambiguous ∧
    conv (.app (.atom "vector") (.atom "uint8_t")) = .call .range ∧
    conv (basicStringOf (.atom "char") (.atom "traits") (.atom "alloc")) = .call .string ∧
    conv (stdArrayOf (.atom "uint8_t") (.num 4)) = .call .stdArray ∧
    conv (.atom "digest") = .call .result := by
  refine ⟨(C95_integral_false _ _ _ _ _ _ _ (by decide) (by decide) (by decide)).1,
    C95_container _ _ _ _ _ _ _ (by decide) (by decide) rfl rfl rfl (by decide),
    C95_string _ _ _ _ _ _ _ _ _ (by decide) (by decide) (by decide),
    (C95_arrays _ _ _ _ _ _ _ _).1 (by decide) (by decide),
    (C95_result _ _ _ _ _ _ (by decide)).1⟩
end Verif.Props
