import Verif.Model.Overload
/-
Overload resolution of `hash` (Model/Overload.lean): resolution as a function of which candidates are viable,
and viability in closed form.
-/
namespace Verif

section General
variable {N : Type} [DecidableEq N]

/-- Resolution from a viability test and a comparison of names. -/
def resolveBy (all : List N) (V : N → Bool) (B : N → N → Bool) : Resolution N :=
  match all.filter V with
  | [] => .noFunction
  | vs =>
    match vs.filter (fun a => vs.all fun b => a = b || B a b) with
    | [a] => .call a
    | _ => .ambiguous

theorem resolve_map (E : Traits) (args : List Arg) (ovl : N → Overload N) (hn : ∀ f, (ovl f).name = f)
    (all : List N) : resolve E (all.map ovl) args =
      resolveBy all (fun f => (ovl f).viable E args) (fun f g => (ovl f).better E args (ovl g)) := by
  unfold resolve resolveBy
  rw [List.filter_map]
  have hc : ((fun x => Overload.viable E args x) ∘ ovl) = fun f => (ovl f).viable E args := rfl
  rw [hc]
  generalize all.filter (fun f => (ovl f).viable E args) = vs
  match vs with
  | [] => rfl
  | v :: vs =>
    simp only [List.map_cons]
    rw [← List.map_cons, List.filter_map]
    have hf : ((fun a => ((v :: vs).map ovl).all fun b =>
        decide (a.name = b.name) || Overload.better E args a b) ∘ ovl) =
        fun a => (v :: vs).all fun b => decide (a = b) || (ovl a).better E args (ovl b) := by
      funext a
      simp only [Function.comp, List.all_map, hn]
      congr 1
      funext b
      simp only [Function.comp, hn]
    rw [hf]
    generalize (v :: vs).filter _ = ws
    match ws with
    | [] => rfl
    | [w] => simp [hn]
    | w :: w' :: ws => rfl

theorem resolveBy_congr {all : List N} {V : N → Bool} {B B' : N → N → Bool}
    (h : ∀ a b, V a = true → V b = true → B a b = B' a b) : resolveBy all V B = resolveBy all V B' := by
  unfold resolveBy
  have hV : ∀ a ∈ all.filter V, V a = true := fun a ha => (List.mem_filter.mp ha).2
  generalize all.filter V = vs at hV
  match vs with
  | [] => rfl
  | v :: vs =>
    have : (v :: vs).filter (fun a => (v :: vs).all fun b => decide (a = b) || B a b) =
        (v :: vs).filter (fun a => (v :: vs).all fun b => decide (a = b) || B' a b) := by
      apply List.filter_congr
      intro a ha
      rw [Bool.eq_iff_iff, List.all_eq_true, List.all_eq_true]
      constructor
      · intro hb b hm
        rw [← h a b (hV a ha) (hV b hm)]; exact hb b hm
      · intro hb b hm
        rw [h a b (hV a ha) (hV b hm)]; exact hb b hm
    simp only [this]

/-- `a` is the better template if all conversions are equal. -/
def betterTemplate (a b : Overload N) : Bool :=
  (!a.isTemplate && b.isTemplate) || (a.isTemplate && b.isTemplate &&
    atLeastAsSpecialised a.params b.params && !atLeastAsSpecialised b.params a.params)

omit [DecidableEq N] in
theorem better_of_ranks {E : Traits} {args : List Arg} {a b : Overload N} {r : List Nat}
    (ha : ranks E a.params args = some r) (hb : ranks E b.params args = some r) :
    a.better E args b = betterTemplate a b := by
  have h1 : ∀ r : List Nat, (r.zip r).all (fun x => decide (x.1 ≤ x.2)) = true := by
    intro r; induction r with
    | nil => rfl
    | cons x r ih => simp [ih]
  have h2 : ∀ r : List Nat, (r.zip r).any (fun x => decide (x.1 < x.2)) = false := by
    intro r; induction r with
    | nil => rfl
    | cons x r ih => simp [ih]
  simp only [Overload.better, ha, hb, h1, h2, betterTemplate, Bool.true_and, Bool.false_or]
end General

/-- All functions, in the order of the file. -/
def allHashFns : List HashFn :=
  [.iterOut, .poseidonIterOut, .iterAcc, .iter, .poseidonIter, .rangeOut, .rangeAcc, .range,
    .poseidonElemsInit, .poseidonElems, .poseidonElemInit, .poseidonElem, .poseidonIntsInit, .poseidonInts,
    .listOut, .listAcc, .list]

theorem hashCall_eq (E : Traits) (args : List Arg) : hashCall E args =
    resolveBy allHashFns (fun f => (hashOverload f).viable E args)
      (fun f g => (hashOverload f).better E args (hashOverload g)) :=
  resolve_map E args hashOverload (by intro f; cases f <;> rfl) allHashFns

/-- `std::initializer_list<T>` for some `T`. -/
def Ty.isList : Ty → Bool
  | .app f _ => f = initializerList
  | _ => false

theorem decay_of_isList {t : Ty} (h : t.isList = true) : t.decay = t := by
  cases t <;> simp_all [Ty.isList, Ty.decay]

/-- Deduction of `std::initializer_list<T>`. -/
theorem deduce_list (t : Ty) : ∃ d : Deduced, d 1 = none ∧
    Pat.deduce (.app (.con initializerList) (.var 0)) t Deduced.none =
    if t.isList then some d else none := by
  cases t with
  | app f x =>
    by_cases h : f = initializerList
    · exact ⟨fun j => if j = 0 then some x else none, by simp,
        by simp [Pat.deduce, h, Ty.isList, Deduced.none]⟩
    · exact ⟨Deduced.none, rfl, by simp [Pat.deduce, Ne.symm h, h, Ty.isList]⟩
  | _ => exact ⟨Deduced.none, rfl, by simp [Pat.deduce, Ty.isList]⟩

/-- The type deduced for a parameter `T &`. -/
def Arg.refTy : Arg → Ty
  | .expr t c _ => if c then .const t else t
  | .braced _ => .fresh 0

/-- The argument binds to a parameter `T &` and `T` is an accumulator set. -/
def isAcc (E : Traits) (y : Ty) (cy ly : Bool) : Bool :=
  E.isAccumulatorSet (if cy then .const y else y) && (ly || cy)

/-- The viable candidates for two arguments that are not braced lists, for hashes other than Poseidon. -/
def viableTwo (same it ac li : Bool) : HashFn → Bool
  | .iter => same
  | .rangeOut => it
  | .rangeAcc => ac
  | .listOut => li && it
  | .listAcc => li && ac
  | _ => false

theorem viable_two (E : Traits) (hP : E.poseidon = false) (x y : Ty) (cx lx cy ly : Bool) (f : HashFn) :
    (hashOverload f).viable E [.expr x cx lx, .expr y cy ly] =
      viableTwo (x.decay = y.decay) (E.isIterator y.decay) (isAcc E y cy ly) x.decay.isList f := by
  obtain ⟨d, hd, hl⟩ := deduce_list x.decay
  cases f
  case iter =>
    by_cases h : y.decay = x.decay
    · simp [hashOverload, viableTwo, Overload.viable, deduceAll, Param.deduce, Pat.deduce, Deduced.none, ranks,
        Param.rank, hP, h]
    · simp [hashOverload, viableTwo, Overload.viable, deduceAll, Param.deduce, Pat.deduce, Deduced.none, ranks,
        Param.rank, hP, h, Ne.symm h]
  case poseidonIter =>
    by_cases h : y.decay = x.decay <;>
    simp [hashOverload, viableTwo, Overload.viable, deduceAll, Param.deduce, Pat.deduce, Deduced.none, ranks,
        Param.rank, hP, h]
  case listOut =>
    simp only [hashOverload, viableTwo, Overload.viable, deduceAll, Param.deduce, hl]
    cases x.decay.isList <;> simp [Pat.deduce, hd, ranks, Param.rank, hP, onVar]
  case listAcc =>
    simp only [hashOverload, viableTwo, Overload.viable, deduceAll, Param.deduce, hl]
    cases x.decay.isList <;> cases ly <;> cases cy <;>
      simp [Pat.deduce, hd, ranks, Param.rank, hP, onVar, isAcc]
  case list =>
    simp only [hashOverload, viableTwo, Overload.viable, deduceAll, Param.deduce, hl]
    cases x.decay.isList <;> simp [Pat.deduce, hd, ranks, Param.rank, hP, onVar, deduceAll]
  case rangeAcc =>
    cases ly <;> cases cy <;>
    simp [hashOverload, viableTwo, Overload.viable, deduceAll, Param.deduce, Pat.deduce, Deduced.none, ranks,
        Param.rank, hP, onVar, isAcc]
  case iterOut | iterAcc | poseidonIterOut => 
    by_cases h : y.decay = x.decay <;>
    simp [hashOverload, viableTwo, Overload.viable, deduceAll, Param.deduce, Pat.deduce, Deduced.none, ranks,
        Param.rank, hP, h]
  all_goals
    simp [hashOverload, viableTwo, Overload.viable, deduceAll, Param.deduce, Pat.deduce, Deduced.none, ranks,
        Param.rank, hP, onVar]
/-- All conversions exact: the ranks of a call whose parameters are not `Hash::digest_type`. -/
theorem ranks_two {E : Traits} {x y : Ty} {cx lx cy ly : Bool} {f : HashFn}
    (hP : E.poseidon = false)
    (h : (hashOverload f).viable E [.expr x cx lx, .expr y cy ly] = true) :
    ranks E (hashOverload f).params [.expr x cx lx, .expr y cy ly] = some [0, 0] := by
  rw [viable_two E hP] at h
  cases f <;> simp only [viableTwo, Bool.false_eq_true] at h
  case listAcc | rangeAcc =>
    simp only [isAcc, Bool.and_eq_true] at h
    simp_all [hashOverload, ranks, Param.rank]
  all_goals rfl

/-- Two arguments, hashes other than Poseidon: the meaning of the call as a function of four questions. -/
def meaningTwo (same it ac li : Bool) : Resolution HashFn :=
  if same then (if li && (it || ac) then .ambiguous else .call .iter)
  else if it && ac then .ambiguous
  else if it then .call (if li then .listOut else .rangeOut)
  else if ac then .call (if li then .listAcc else .rangeAcc)
  else .noFunction

theorem resolveBy_two (same it ac li : Bool) :
    resolveBy allHashFns (viableTwo same it ac li) (fun f g => betterTemplate (hashOverload f) (hashOverload g)) =
      meaningTwo same it ac li := by
  cases same <;> cases it <;> cases ac <;> cases li <;> decide

theorem hashCall_two (E : Traits) (hP : E.poseidon = false) (x y : Ty) (cx lx cy ly : Bool) :
    hashCall E [.expr x cx lx, .expr y cy ly] =
      meaningTwo (x.decay = y.decay) (E.isIterator y.decay) (isAcc E y cy ly) x.decay.isList := by
  rw [hashCall_eq, resolveBy_congr (B' := fun f g => betterTemplate (hashOverload f) (hashOverload g)),
    ← resolveBy_two]
  · congr 1
    funext f
    exact viable_two E hP x y cx lx cy ly f
  · intro a b ha hb
    exact better_of_ranks (ranks_two hP ha) (ranks_two hP hb)

/-- One argument that is not a braced list. -/
def viableOne (P li elems elem ints : Bool) : HashFn → Bool
  | .range => !P
  | .list => !P && li
  | .poseidonElems => P && elems
  | .poseidonElem => P && elem
  | .poseidonInts => P && ints
  | _ => false

theorem viable_one (E : Traits) (x : Ty) (cx lx : Bool) (f : HashFn) :
    (hashOverload f).viable E [.expr x cx lx] = viableOne E.poseidon x.decay.isList
      (E.valueType x == some E.digest) (x == E.digest) ((E.valueType x).any E.isIntegral) f := by
  obtain ⟨d, hd, hl⟩ := deduce_list x.decay
  cases f
  case listOut | listAcc | list =>
    simp only [hashOverload, viableOne, Overload.viable, deduceAll, Param.deduce, hl]
    cases x.decay.isList <;> simp [Pat.deduce, hd, ranks, Param.rank, onVar, deduceAll]
  all_goals
    simp [hashOverload, viableOne, Overload.viable, deduceAll, Param.deduce, Pat.deduce, Deduced.none, ranks,
        Param.rank, onVar]

theorem ranks_one {E : Traits} {x : Ty} {cx lx : Bool} {f : HashFn}
    (h : (hashOverload f).viable E [.expr x cx lx] = true) :
    ranks E (hashOverload f).params [.expr x cx lx] = some [0] := by
  rw [viable_one] at h
  cases f <;> simp only [viableOne, Bool.false_eq_true] at h <;> rfl

/-- One argument: the meaning of the call. -/
def meaningOne (P li elems elem ints : Bool) : Resolution HashFn :=
  if P then
    (match elems, elem, ints with
      | true, false, false => .call .poseidonElems
      | false, true, false => .call .poseidonElem
      | false, false, true => .call .poseidonInts
      | false, false, false => .noFunction
      | _, _, _ => .ambiguous)
  else .call (if li then .list else .range)

theorem hashCall_one (E : Traits) (x : Ty) (cx lx : Bool) :
    hashCall E [.expr x cx lx] = meaningOne E.poseidon x.decay.isList
      (E.valueType x == some E.digest) (x == E.digest) ((E.valueType x).any E.isIntegral) := by
  rw [hashCall_eq, resolveBy_congr (B' := fun f g => betterTemplate (hashOverload f) (hashOverload g))]
  · have hV : (fun f => (hashOverload f).viable E [.expr x cx lx]) = viableOne E.poseidon x.decay.isList
        (E.valueType x == some E.digest) (x == E.digest) ((E.valueType x).any E.isIntegral) :=
      funext (viable_one E x cx lx)
    rw [hV]
    generalize E.poseidon = P
    generalize x.decay.isList = li
    generalize (E.valueType x == some E.digest) = a
    generalize (x == E.digest) = b
    generalize (E.valueType x).any E.isIntegral = c
    cases P <;> cases li <;> cases a <;> cases b <;> cases c <;> decide
  · intro a b ha hb
    exact better_of_ranks (ranks_one ha) (ranks_one hb)

/-- Three arguments that are not braced lists. -/
def viableThree (P same acc accRef : Bool) : HashFn → Bool
  | .iterOut => !P && same && !acc
  | .poseidonIterOut => P && same
  | .iterAcc => !P && same && accRef
  | _ => false

theorem viable_three (E : Traits) (x y z : Ty) (cx lx cy ly cz lz : Bool) (f : HashFn) :
    (hashOverload f).viable E [.expr x cx lx, .expr y cy ly, .expr z cz lz] =
      viableThree E.poseidon (x.decay = y.decay) (E.isAccumulatorSet z.decay) (isAcc E z cz lz) f := by
  obtain ⟨d, hd, hl⟩ := deduce_list x.decay
  cases f
  case listOut | listAcc | list =>
    simp only [hashOverload, viableThree, Overload.viable, deduceAll, Param.deduce, hl]
    cases x.decay.isList <;> simp [Pat.deduce, hd, deduceAll]
  case iterAcc =>
    by_cases h : y.decay = x.decay
    · cases lz <;> cases cz <;>
      simp [hashOverload, viableThree, Overload.viable, deduceAll, Param.deduce, Pat.deduce, Deduced.none, ranks,
        Param.rank, onVar, h, isAcc]
    · simp [hashOverload, viableThree, Overload.viable, deduceAll, Param.deduce, Pat.deduce, Deduced.none, ranks,
        Param.rank, onVar, h, Ne.symm h]
  all_goals
    by_cases h : y.decay = x.decay
    · simp [hashOverload, viableThree, Overload.viable, deduceAll, Param.deduce, Pat.deduce, Deduced.none, ranks,
        Param.rank, onVar, h]
    · simp [hashOverload, viableThree, Overload.viable, deduceAll, Param.deduce, Pat.deduce, Deduced.none, ranks,
        Param.rank, onVar, h, Ne.symm h]

theorem ranks_three {E : Traits} {x y z : Ty} {cx lx cy ly cz lz : Bool} {f : HashFn}
    (h : (hashOverload f).viable E [.expr x cx lx, .expr y cy ly, .expr z cz lz] = true) :
    ranks E (hashOverload f).params [.expr x cx lx, .expr y cy ly, .expr z cz lz] = some [0, 0, 0] := by
  rw [viable_three] at h
  cases f <;> simp only [viableThree, Bool.false_eq_true] at h
  case iterAcc =>
    simp only [isAcc, Bool.and_eq_true] at h
    simp_all [hashOverload, ranks, Param.rank]
  all_goals rfl

/-- Three arguments: the meaning of the call. -/
def meaningThree (P same acc accRef : Bool) : Resolution HashFn :=
  if !same then .noFunction
  else if P then .call .poseidonIterOut
  else if acc then (if accRef then .call .iterAcc else .noFunction)
  else if accRef then .ambiguous else .call .iterOut

theorem hashCall_three (E : Traits) (x y z : Ty) (cx lx cy ly cz lz : Bool) :
    hashCall E [.expr x cx lx, .expr y cy ly, .expr z cz lz] =
      meaningThree E.poseidon (x.decay = y.decay) (E.isAccumulatorSet z.decay) (isAcc E z cz lz) := by
  rw [hashCall_eq, resolveBy_congr (B' := fun f g => betterTemplate (hashOverload f) (hashOverload g))]
  · have hV : (fun f => (hashOverload f).viable E [.expr x cx lx, .expr y cy ly, .expr z cz lz]) =
        viableThree E.poseidon (x.decay = y.decay) (E.isAccumulatorSet z.decay) (isAcc E z cz lz) :=
      funext (viable_three E x y z cx lx cy ly cz lz)
    rw [hV]
    generalize E.poseidon = P
    generalize decide (x.decay = y.decay) = a
    generalize E.isAccumulatorSet z.decay = b
    generalize isAcc E z cz lz = c
    cases P <;> cases a <;> cases b <;> cases c <;> decide
  · intro a b ha hb
    exact better_of_ranks (ranks_three ha) (ranks_three hb)

/-- A braced list determines an element type: it is not empty and all elements have the same type. -/
def uniform : List Ty → Bool
  | [] => false
  | t :: ts => ts.all fun u => u.decay = t.decay

theorem deduceElems_some (t : Ty) (ts : List Ty) (d : Deduced) (h : d 0 = some t) :
    deduceElems (.var 0) ts d = if ts.all (fun u => u.decay = t) then some d else none := by
  induction ts with
  | nil => rfl
  | cons u ts ih =>
    by_cases hu : u.decay = t
    · simp [deduceElems, Pat.deduce, h, hu, ih]
    · simp [deduceElems, Pat.deduce, h, hu]

theorem deduce_braced (ts : List Ty) : ∃ d : Deduced, d 1 = none ∧
    Param.deduce (.value (.app (.con initializerList) (.var 0))) (.braced ts) Deduced.none =
      if uniform ts then some d else none := by
  cases ts with
  | nil => exact ⟨Deduced.none, rfl, by simp [Param.deduce, uniform]⟩
  | cons t ts =>
    refine ⟨fun j => if j = 0 then some t.decay else none, by simp, ?_⟩
    have : Param.deduce (.value (.app (.con initializerList) (.var 0))) (.braced (t :: ts)) Deduced.none =
        deduceElems (.var 0) ts (fun j => if j = 0 then some t.decay else none) := by
      simp [Param.deduce, deduceElems, Pat.deduce, Deduced.none]
    rw [this, deduceElems_some t.decay ts _ (by simp)]
    rfl

/-- A braced list alone. -/
theorem viable_braced_one (E : Traits) (ts : List Ty) (f : HashFn) :
    (hashOverload f).viable E [.braced ts] = (f == .list && !E.poseidon && uniform ts) := by
  obtain ⟨d, hd, hl⟩ := deduce_braced ts
  cases f
  case listOut | listAcc | list =>
    simp only [hashOverload, Overload.viable, deduceAll, hl]
    cases uniform ts <;> simp [ranks, Param.rank, deduceAll]
  all_goals simp [hashOverload, Overload.viable, deduceAll, Param.deduce]

theorem hashCall_braced_one (E : Traits) (ts : List Ty) : hashCall E [.braced ts] =
    if !E.poseidon && uniform ts then .call .list else .noFunction := by
  rw [hashCall_eq, resolveBy_congr (B' := fun f g => betterTemplate (hashOverload f) (hashOverload g))]
  · rw [show (fun f => (hashOverload f).viable E [.braced ts]) =
      fun f => (f == .list && !E.poseidon && uniform ts) from funext (viable_braced_one E ts)]
    generalize E.poseidon = P
    generalize uniform ts = u
    cases P <;> cases u <;> decide
  · intro a b ha hb
    rw [viable_braced_one] at ha hb
    simp only [Bool.and_eq_true, beq_iff_eq] at ha hb
    rw [ha.1.1, hb.1.1]
    exact better_of_ranks (r := [0]) rfl rfl

/-- A braced list and a second argument. -/
theorem viable_braced_two (E : Traits) (ts : List Ty) (y : Ty) (cy ly : Bool) (f : HashFn) :
    (hashOverload f).viable E [.braced ts, .expr y cy ly] =
      ((f == .listOut && !E.poseidon && uniform ts && E.isIterator y.decay) ||
        (f == .listAcc && !E.poseidon && uniform ts && isAcc E y cy ly)) := by
  obtain ⟨d, hd, hl⟩ := deduce_braced ts
  cases f
  case listOut | list =>
    simp only [hashOverload, Overload.viable, deduceAll, hl]
    cases uniform ts <;> simp [ranks, Param.rank, deduceAll, Param.deduce, Pat.deduce, hd, onVar]
  case listAcc =>
    simp only [hashOverload, Overload.viable, deduceAll, hl]
    cases uniform ts <;> cases ly <;> cases cy <;>
      simp [ranks, Param.rank, deduceAll, Param.deduce, Pat.deduce, hd, onVar, isAcc]
  all_goals simp [hashOverload, Overload.viable, deduceAll, Param.deduce]

theorem hashCall_braced_two (E : Traits) (ts : List Ty) (y : Ty) (cy ly : Bool) :
    hashCall E [.braced ts, .expr y cy ly] =
    if !E.poseidon && uniform ts then
      (match E.isIterator y.decay, isAcc E y cy ly with
        | true, true => .ambiguous
        | true, false => .call .listOut
        | false, true => .call .listAcc
        | false, false => .noFunction)
    else .noFunction := by
  rw [hashCall_eq, resolveBy_congr (B' := fun f g => betterTemplate (hashOverload f) (hashOverload g))]
  · rw [show (fun f => (hashOverload f).viable E [.braced ts, .expr y cy ly]) = _ from
      funext (viable_braced_two E ts y cy ly)]
    generalize E.poseidon = P
    generalize uniform ts = u
    generalize E.isIterator y.decay = a
    generalize isAcc E y cy ly = b
    cases P <;> cases u <;> cases a <;> cases b <;> decide
  · have hr : ∀ f, (hashOverload f).viable E [.braced ts, .expr y cy ly] = true →
        ranks E (hashOverload f).params [.braced ts, .expr y cy ly] = some [0, 0] := by
      intro f hf
      rw [viable_braced_two] at hf
      cases f <;> simp at hf
      case listOut => rfl
      case listAcc =>
        have h2 := hf.2
        simp only [isAcc, Bool.and_eq_true] at h2
        simp_all [hashOverload, ranks, Param.rank]
    intro a b ha hb
    exact better_of_ranks (hr a ha) (hr b hb)

/-- Poseidon, two arguments. -/
def viablePoseidonTwo (iters init elems elem ints : Bool) : HashFn → Bool
  | .poseidonIter => iters
  | .poseidonElemsInit => elems && init
  | .poseidonElemInit => elem && init
  | .poseidonIntsInit => ints && init
  | _ => false

/-- The argument can be passed for a parameter of type `const Hash::digest_type &`. -/
def isInit (E : Traits) (y : Ty) : Bool := y == E.digest || E.converts y

theorem viable_poseidon_two (E : Traits) (hP : E.poseidon = true) (x y : Ty) (cx lx cy ly : Bool) (f : HashFn) :
    (hashOverload f).viable E [.expr x cx lx, .expr y cy ly] =
      viablePoseidonTwo (x.decay = y.decay && E.isIterator x.decay) (isInit E y)
        (E.valueType x == some E.digest) (x == E.digest) ((E.valueType x).any E.isIntegral) f := by
  obtain ⟨d, hd, hl⟩ := deduce_list x.decay
  cases f
  case listOut | listAcc | list =>
    simp only [hashOverload, viablePoseidonTwo, Overload.viable, deduceAll, Param.deduce, hl]
    cases x.decay.isList <;> simp [Pat.deduce, hd, deduceAll, hP]
  case poseidonElemsInit | poseidonElemInit | poseidonIntsInit =>
    by_cases h : y = E.digest
    · simp [hashOverload, viablePoseidonTwo, Overload.viable, deduceAll, Param.deduce, Pat.deduce, Deduced.none,
        ranks, Param.rank, onVar, hP, h, isInit]
    · cases hc : E.converts y <;>
      simp [hashOverload, viablePoseidonTwo, Overload.viable, deduceAll, Param.deduce, Pat.deduce, Deduced.none,
        ranks, Param.rank, onVar, hP, h, isInit, hc]
  all_goals
    by_cases h : y.decay = x.decay
    · simp [hashOverload, viablePoseidonTwo, Overload.viable, deduceAll, Param.deduce, Pat.deduce, Deduced.none,
        ranks, Param.rank, onVar, h, hP]
    · simp [hashOverload, viablePoseidonTwo, Overload.viable, deduceAll, Param.deduce, Pat.deduce, Deduced.none,
        ranks, Param.rank, onVar, h, Ne.symm h, hP]

/-- The comparison of two Poseidon candidates: the iterator form needs no conversion and is the more
specialised one, the other three are alike. -/
def betterPoseidon (a b : HashFn) : Bool := a == .poseidonIter && b != .poseidonIter

theorem better_poseidon {E : Traits} (hP : E.poseidon = true) {x y : Ty} {cx lx cy ly : Bool} {f g : HashFn}
    (hf : (hashOverload f).viable E [.expr x cx lx, .expr y cy ly] = true)
    (hg : (hashOverload g).viable E [.expr x cx lx, .expr y cy ly] = true) :
    (hashOverload f).better E [.expr x cx lx, .expr y cy ly] (hashOverload g) = betterPoseidon f g := by
  rw [viable_poseidon_two E hP] at hf hg
  have hi : ∀ r s : Nat, ∀ f g : HashFn, (f = .poseidonElemsInit ∨ f = .poseidonElemInit ∨ f = .poseidonIntsInit) →
      (g = .poseidonElemsInit ∨ g = .poseidonElemInit ∨ g = .poseidonIntsInit) →
      betterTemplate (hashOverload f) (hashOverload g) = false := by
    intro _ _ f g hf hg
    rcases hf with rfl | rfl | rfl <;> rcases hg with rfl | rfl | rfl <;> decide
  have hI : ∀ f : HashFn, (f = .poseidonElemsInit ∨ f = .poseidonElemInit ∨ f = .poseidonIntsInit) →
      isInit E y = true →
      ranks E (hashOverload f).params [.expr x cx lx, .expr y cy ly] = some [0, if y = E.digest then 0 else 1] := by
    intro f hf hy
    simp only [isInit, Bool.or_eq_true, beq_iff_eq] at hy
    rcases hf with rfl | rfl | rfl <;> by_cases h : y = E.digest <;>
      simp_all [hashOverload, ranks, Param.rank]
  have hT : ranks E (hashOverload .poseidonIter).params [.expr x cx lx, .expr y cy ly] = some [0, 0] := rfl
  have hcase : ∀ f, viablePoseidonTwo (x.decay = y.decay && E.isIterator x.decay) (isInit E y)
        (E.valueType x == some E.digest) (x == E.digest) ((E.valueType x).any E.isIntegral) f = true →
      f = .poseidonIter ∨
        ((f = .poseidonElemsInit ∨ f = .poseidonElemInit ∨ f = .poseidonIntsInit) ∧ isInit E y = true) := by
    intro f hf
    cases f <;> simp only [viablePoseidonTwo, Bool.false_eq_true, Bool.and_eq_true] at hf <;> simp_all
  rcases hcase f hf with rfl | ⟨h1, h2⟩ <;> rcases hcase g hg with rfl | ⟨h3, h4⟩
  · rw [better_of_ranks hT hT]; decide
  · have := hI g h3 h4
    by_cases h : y = E.digest
    · rw [if_pos h] at this
      rw [better_of_ranks hT this]
      rcases h3 with rfl | rfl | rfl <;> decide
    · rw [if_neg h] at this
      simp only [Overload.better, hT, this]
      rcases h3 with rfl | rfl | rfl <;> simp [betterPoseidon]
  · have := hI f h1 h2
    by_cases h : y = E.digest
    · rw [if_pos h] at this
      rw [better_of_ranks this hT]
      rcases h1 with rfl | rfl | rfl <;> decide
    · rw [if_neg h] at this
      simp only [Overload.better, hT, this]
      rcases h1 with rfl | rfl | rfl <;> simp [betterPoseidon]
  · rw [better_of_ranks (hI f h1 h2) (hI g h3 h4), hi 0 0 f g h1 h3]
    rcases h1 with rfl | rfl | rfl <;> rfl

/-- Poseidon, two arguments: the meaning of the call. -/
def meaningPoseidonTwo (iters init elems elem ints : Bool) : Resolution HashFn :=
  if iters then .call .poseidonIter
  else if !init then .noFunction
  else match elems, elem, ints with
    | true, false, false => .call .poseidonElemsInit
    | false, true, false => .call .poseidonElemInit
    | false, false, true => .call .poseidonIntsInit
    | false, false, false => .noFunction
    | _, _, _ => .ambiguous

theorem hashCall_poseidon_two (E : Traits) (hP : E.poseidon = true) (x y : Ty) (cx lx cy ly : Bool) :
    hashCall E [.expr x cx lx, .expr y cy ly] =
      meaningPoseidonTwo (x.decay = y.decay && E.isIterator x.decay) (isInit E y)
        (E.valueType x == some E.digest) (x == E.digest) ((E.valueType x).any E.isIntegral) := by
  rw [hashCall_eq, resolveBy_congr (B' := betterPoseidon)]
  · rw [show (fun f => (hashOverload f).viable E [.expr x cx lx, .expr y cy ly]) = _ from
      funext (viable_poseidon_two E hP x y cx lx cy ly)]
    generalize (x.decay = y.decay && E.isIterator x.decay : Bool) = a
    generalize isInit E y = b
    generalize (E.valueType x == some E.digest) = c
    generalize (x == E.digest) = d
    generalize (E.valueType x).any E.isIntegral = e
    cases a <;> cases b <;> cases c <;> cases d <;> cases e <;> decide
  · intro a b ha hb
    exact better_poseidon hP ha hb

/-- All conversion operators. -/
def allConvFns : List ConvFn := [.stdArray, .boostArray, .range, .result, .accumulator, .integral, .string]

section Conversion
variable (E : Traits) (res acc : Ty) (bits : Nat) (digits : Ty → Nat) (raw : Bool)

theorem convCall_eq (t : Ty) : convCall E res acc bits digits raw t =
    resolveBy allConvFns (fun f => (convOverload res acc bits digits raw f).viable E [.expr t false true])
      (fun f g => (convOverload res acc bits digits raw f).better E [.expr t false true]
        (convOverload res acc bits digits raw g)) :=
  resolve_map E _ (convOverload res acc bits digits raw) (by intro f; cases f <;> rfl) allConvFns

/-- `std::array<…>`. -/
def Ty.isStdArray : Ty → Bool
  | .app (.app f _) _ => f = .atom "std::array"
  | _ => false

/-- `boost::array<…>`. -/
def Ty.isBoostArray : Ty → Bool
  | .app (.app f _) _ => f = .atom "boost::array"
  | _ => false

/-- `std::basic_string<…>`. -/
def Ty.isString : Ty → Bool
  | .app (.app (.app f _) _) _ => f = .atom "std::basic_string"
  | _ => false

theorem deduce_app2 (c t : Ty) :
    (Pat.deduce (.app (.app (.con c) (.var 0)) (.var 1)) t Deduced.none).isSome =
      (match t with
        | .app (.app f _) _ => decide (f = c)
        | _ => false) := by
  cases t with
  | app f y =>
    cases f with
    | app g x =>
      by_cases h : g = c
      · simp [Pat.deduce, h, Deduced.none]
      · simp [Pat.deduce, h, Ne.symm h]
    | _ => simp [Pat.deduce]
  | _ => simp [Pat.deduce]

theorem deduce_app3 (c t : Ty) :
    (Pat.deduce (.app (.app (.app (.con c) (.var 0)) (.var 1)) (.var 2)) t Deduced.none).isSome =
      (match t with
        | .app (.app (.app f _) _) _ => decide (f = c)
        | _ => false) := by
  cases t with
  | app f y =>
    cases f with
    | app g x =>
      cases g with
      | app k z =>
        by_cases h : k = c
        · simp [Pat.deduce, h, Deduced.none]
        · simp [Pat.deduce, h, Ne.symm h]
      | _ => simp [Pat.deduce]
    | _ => simp [Pat.deduce]
  | _ => simp [Pat.deduce]

/-- The viable operators. -/
def viableConv (sa ba re ac int st : Bool) : ConvFn → Bool
  | .stdArray => sa
  | .boostArray => ba
  | .range => true
  | .result => re
  | .accumulator => ac
  | .integral => int
  | .string => st

theorem viable_conv (t : Ty) (f : ConvFn) :
    (convOverload res acc bits digits raw f).viable E [.expr t false true] =
      viableConv t.isStdArray t.isBoostArray (t = res) (t = acc)
        (E.isIntegral t && decide (bits ≤ digits t)) (t.isString && !raw) f := by
  cases f
  case stdArray =>
    have hd := deduce_app2 (.atom "std::array") t
    cases h : Pat.deduce (.app (.app (.con (.atom "std::array")) (.var 0)) (.var 1)) t Deduced.none <;>
      rw [h] at hd <;>
      simp [convOverload, viableConv, Overload.viable, deduceAll, Param.deduce, ranks, Param.rank, h,
        Ty.isStdArray, ← hd]
  case boostArray =>
    have hd := deduce_app2 (.atom "boost::array") t
    cases h : Pat.deduce (.app (.app (.con (.atom "boost::array")) (.var 0)) (.var 1)) t Deduced.none <;>
      rw [h] at hd <;>
      simp [convOverload, viableConv, Overload.viable, deduceAll, Param.deduce, ranks, Param.rank, h,
        Ty.isBoostArray, ← hd]
  case string =>
    have hd := deduce_app3 (.atom "std::basic_string") t
    cases h : Pat.deduce (.app (.app (.app (.con (.atom "std::basic_string")) (.var 0)) (.var 1)) (.var 2)) t Deduced.none <;>
      rw [h] at hd <;>
      simp [convOverload, viableConv, Overload.viable, deduceAll, Param.deduce, ranks, Param.rank, h,
        Ty.isString, ← hd]
  case result =>
    by_cases h : t = res
    · simp [convOverload, viableConv, Overload.viable, deduceAll, Param.deduce, ranks, Param.rank, Pat.deduce, h]
    · simp [convOverload, viableConv, Overload.viable, deduceAll, Param.deduce, Pat.deduce, h, Ne.symm h]
  case accumulator =>
    by_cases h : t = acc
    · simp [convOverload, viableConv, Overload.viable, deduceAll, Param.deduce, ranks, Param.rank, Pat.deduce, h]
    · simp [convOverload, viableConv, Overload.viable, deduceAll, Param.deduce, Pat.deduce, h, Ne.symm h]
  all_goals
    simp [convOverload, viableConv, Overload.viable, deduceAll, Param.deduce, ranks, Param.rank, Pat.deduce,
      Deduced.none, onVar]

/-- Comparison of the operators: functions before templates, then the more specialised template. -/
def betterConv : ConvFn → ConvFn → Bool
  | .result, .result | .result, .accumulator | .accumulator, .result | .accumulator, .accumulator => false
  | .result, _ | .accumulator, _ => true
  | .stdArray, .range | .stdArray, .integral | .boostArray, .range | .boostArray, .integral
  | .string, .range | .string, .integral => true
  | _, _ => false

theorem better_conv (t : Ty) (f g : ConvFn) : (convOverload res acc bits digits raw f).better E
    [.expr t false true] (convOverload res acc bits digits raw g) = betterConv f g := by
  rw [better_of_ranks (r := [0]) (by cases f <;> rfl) (by cases g <;> rfl)]
  cases f <;> cases g <;> rfl

/-- The meaning of a conversion. -/
def meaningConv (sa ba re ac int st : Bool) : Resolution ConvFn :=
  match re, ac with
  | true, true => .ambiguous
  | true, false => .call .result
  | false, true => .call .accumulator
  | false, false =>
    match sa, ba, st with
    | true, false, false => .call .stdArray
    | false, true, false => .call .boostArray
    | false, false, true => .call .string
    | false, false, false => if int then .ambiguous else .call .range
    | _, _, _ => .ambiguous

theorem convCall_meaning (t : Ty) : convCall E res acc bits digits raw t =
    meaningConv t.isStdArray t.isBoostArray (t = res) (t = acc)
      (E.isIntegral t && decide (bits ≤ digits t)) (t.isString && !raw) := by
  rw [convCall_eq, resolveBy_congr (B' := betterConv)]
  · rw [show (fun f => (convOverload res acc bits digits raw f).viable E [.expr t false true]) = _ from
      funext (viable_conv E res acc bits digits raw t)]
    generalize t.isStdArray = a
    generalize t.isBoostArray = b
    generalize decide (t = res) = c
    generalize decide (t = acc) = d
    generalize (E.isIntegral t && decide (bits ≤ digits t)) = e
    generalize (t.isString && !raw) = f
    cases a <;> cases b <;> cases c <;> cases d <;> cases e <;> cases f <;> decide
  · intro a b _ _
    exact better_conv E res acc bits digits raw t a b
end Conversion
end Verif
