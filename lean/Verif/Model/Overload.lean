import Verif.Model.Core
/-
Which function a call `hash<H>(…)` means (algorithm/hash.hpp), which conversion operator a use of its
result means (hash_value.hpp), and the traits these depend on (type_traits.hpp).

Modelled is the part of C++ overload resolution that these declarations use: template argument deduction
from types without nested references, the `enable_if` conditions, ranking of conversions into "exact" and
"user-defined", and partial ordering of function templates.  The template argument `Hash` is always given
by the caller.  Types are first-order terms.
-/
namespace Verif

/-- Types without reference: `int`, `vector<T>` (`app (atom "vector") T`), `T*`, `T[n]`, `const T`.  The
`const` of an array is that of its elements. -/
inductive Ty where
  | atom (name : String)
  | num (n : Nat)
  | app (f x : Ty)
  | ptr (t : Ty)
  | arr (t : Ty) (n : Nat)
  | const (t : Ty)
  /-- The invented types of partial ordering; no expression has such a type. -/
  | fresh (i : Nat)
  deriving DecidableEq, Repr

/-- The type after the array-to-pointer conversion and removal of `const` (function-call arguments of
parameters passed by value). -/
def Ty.decay : Ty → Ty
  | .arr t _ => .ptr t
  | .const t => t
  | t => t

/-- Argument expressions: an expression of type `ty` (possibly `const`), or a braced list whose elements
have the given types. -/
inductive Arg where
  | expr (ty : Ty) (isConst isLvalue : Bool)
  | braced (elems : List Ty)
  deriving DecidableEq, Repr

/-- Patterns of parameter types: template parameters, fixed types, template instances. -/
inductive Pat where
  | var (i : Nat)
  | con (t : Ty)
  | app (f x : Pat)
  deriving DecidableEq, Repr

/-- Values deduced for the template parameters. -/
abbrev Deduced := Nat → Option Ty

/-- Nothing deduced yet. -/
def Deduced.none : Deduced := fun _ => Option.none

/-- Deduction of a pattern from a type; a template parameter deduced twice must get the same type. -/
def Pat.deduce : Pat → Ty → Deduced → Option Deduced
  | .var i, t, d =>
    match d i with
    | Option.none => some fun j => if j = i then some t else d j
    | some t' => if t = t' then some d else Option.none
  | .con c, t, d => if c = t then some d else Option.none
  | .app f x, .app g y, d => (f.deduce g d).bind (x.deduce y)
  | .app _ _, _, _ => Option.none

/-- Parameters: `P p`, `const P &p`, `P &p`, and `const typename Hash::digest_type &p`, which takes no part
in deduction. -/
inductive Param where
  | value (p : Pat)
  | constRef (p : Pat)
  | ref (p : Pat)
  | digest
  deriving DecidableEq, Repr

/-- What the conditions of the overloads ask about the types of a program: `nil::crypto3::detail::
is_iterator`, `boost::accumulators::detail::is_accumulator_set`, `std::is_integral`, the nested type
`T::value_type` (if it exists), `Hash::digest_type` and the types that convert to it implicitly, and
whether `Hash` is a Poseidon hash. -/
structure Traits where
  isIterator : Ty → Bool
  isAccumulatorSet : Ty → Bool
  isIntegral : Ty → Bool
  valueType : Ty → Option Ty
  digest : Ty
  converts : Ty → Bool
  poseidon : Bool

/-- `std::initializer_list`. -/
abbrev initializerList : Ty := .atom "initializer_list"

/-- Deduction of all elements of a braced list for `std::initializer_list<P>`. -/
def deduceElems (p : Pat) : List Ty → Deduced → Option Deduced
  | [], d => some d
  | t :: ts, d => (p.deduce t.decay d).bind (deduceElems p ts)

/-- Deduction from one argument.  A braced list is only matched by an `initializer_list` parameter, an empty
one by nothing, since it determines no element type. -/
def Param.deduce : Param → Arg → Deduced → Option Deduced
  | .value p, .expr t _ _, d => p.deduce t.decay d
  | .constRef p, .expr t _ _, d => p.deduce t d
  | .ref p, .expr t c _, d => p.deduce (if c then .const t else t) d
  | .digest, .expr _ _ _, d => some d
  | .value (.app (.con f) p), .braced ts, d =>
    if f = initializerList ∧ ts ≠ [] then deduceElems p ts d else Option.none
  | _, .braced _, _ => Option.none

/-- Deduction from all arguments; the numbers must agree. -/
def deduceAll : List Param → List Arg → Deduced → Option Deduced
  | [], [], d => some d
  | p :: ps, a :: as, d => (p.deduce a d).bind (deduceAll ps as)
  | _, _, _ => Option.none

/-- Rank of the conversion of an argument to its parameter: 0 exact, 1 user-defined; `none` if there is no
conversion.  A temporary does not bind to `P &`. -/
def Param.rank (E : Traits) : Param → Arg → Option Nat
  | .ref _, .expr _ c l => if l || c then some 0 else Option.none
  | .digest, .expr t _ _ => if t = E.digest then some 0 else if E.converts t then some 1 else Option.none
  | .digest, .braced _ => Option.none
  | _, _ => some 0

/-- Ranks of all arguments. -/
def ranks (E : Traits) : List Param → List Arg → Option (List Nat)
  | [], [] => some []
  | p :: ps, a :: as => (p.rank E a).bind fun r => (ranks E ps as).map (r :: ·)
  | _, _ => Option.none

/-- The function templates named `hash` in algorithm/hash.hpp, by their lines. -/
inductive HashFn where
  /-- `hash(first, last, out)`, lines 90-102. -/
  | iterOut
  /-- `hash(first, last, out)` for Poseidon, lines 105-116. -/
  | poseidonIterOut
  /-- `hash(first, last, acc)`, lines 133-143. -/
  | iterAcc
  /-- `hash(first, last)`, lines 159-170. -/
  | iter
  /-- `hash(first, last)` for Poseidon, lines 173-185. -/
  | poseidonIter
  /-- `hash(range, out)`, lines 201-211. -/
  | rangeOut
  /-- `hash(range, acc)`, lines 228-238. -/
  | rangeAcc
  /-- `hash(range)`, lines 253-262. -/
  | range
  /-- `hash(elements, initial)` for Poseidon, lines 268-281. -/
  | poseidonElemsInit
  /-- `hash(elements)` for Poseidon, lines 284-295. -/
  | poseidonElems
  /-- `hash(element, initial)` for Poseidon, lines 298-309. -/
  | poseidonElemInit
  /-- `hash(element)` for Poseidon, lines 311-321. -/
  | poseidonElem
  /-- `hash(integers, initial)` for Poseidon, lines 358-366. -/
  | poseidonIntsInit
  /-- `hash(integers)` for Poseidon, lines 368-374. -/
  | poseidonInts
  /-- `hash({…}, out)`, lines 390-400. -/
  | listOut
  /-- `hash({…}, acc)`, lines 417-427. -/
  | listAcc
  /-- `hash({…})`, lines 442-451. -/
  | list
  deriving DecidableEq, Repr

/-- A function (template): its name, its parameters, its `enable_if` conditions on the deduced types, and
whether it is a template. -/
structure Overload (Name : Type) where
  name : Name
  params : List Param
  enabled : Traits → Deduced → Bool
  isTemplate : Bool

/-- A condition on a deduced type; deduction has given it a value whenever the condition is evaluated. -/
def onVar (d : Deduced) (i : Nat) (p : Ty → Bool) : Bool :=
  match d i with
  | some t => p t
  | Option.none => false

/-- `hash` of algorithm/hash.hpp:90-451.  Parameters 0, 1, … are the template parameters after `Hash` in
the order of deduction.  The defaulted `HashAccumulator = accumulator_set<Hash>` of `iter`, `range` and
`list` is not deducible and is an accumulator set. -/
def hashOverload : HashFn → Overload HashFn
  | .iterOut => ⟨.iterOut, [.value (.var 0), .value (.var 0), .value (.var 1)],
    fun E d => !E.poseidon && onVar d 1 (fun t => !E.isAccumulatorSet t), true⟩
  | .poseidonIterOut => ⟨.poseidonIterOut, [.value (.var 0), .value (.var 0), .value (.var 1)],
    fun E _ => E.poseidon, true⟩
  | .iterAcc => ⟨.iterAcc, [.value (.var 0), .value (.var 0), .ref (.var 1)],
    fun E d => !E.poseidon && onVar d 1 E.isAccumulatorSet, true⟩
  | .iter => ⟨.iter, [.value (.var 0), .value (.var 0)], fun E _ => !E.poseidon, true⟩
  | .poseidonIter => ⟨.poseidonIter, [.value (.var 0), .value (.var 0)],
    fun E d => E.poseidon && onVar d 0 E.isIterator, true⟩
  | .rangeOut => ⟨.rangeOut, [.constRef (.var 0), .value (.var 1)],
    fun E d => !E.poseidon && onVar d 1 E.isIterator, true⟩
  | .rangeAcc => ⟨.rangeAcc, [.constRef (.var 0), .ref (.var 1)],
    fun E d => !E.poseidon && onVar d 1 E.isAccumulatorSet, true⟩
  | .range => ⟨.range, [.constRef (.var 0)], fun E _ => !E.poseidon, true⟩
  | .poseidonElemsInit => ⟨.poseidonElemsInit, [.constRef (.var 0), .digest],
    fun E d => E.poseidon && onVar d 0 (fun t => E.valueType t == some E.digest), true⟩
  | .poseidonElems => ⟨.poseidonElems, [.constRef (.var 0)],
    fun E d => E.poseidon && onVar d 0 (fun t => E.valueType t == some E.digest), true⟩
  | .poseidonElemInit => ⟨.poseidonElemInit, [.constRef (.var 0), .digest],
    fun E d => E.poseidon && onVar d 0 (fun t => t == E.digest), true⟩
  | .poseidonElem => ⟨.poseidonElem, [.constRef (.var 0)],
    fun E d => E.poseidon && onVar d 0 (fun t => t == E.digest), true⟩
  | .poseidonIntsInit => ⟨.poseidonIntsInit, [.constRef (.var 0), .digest],
    fun E d => E.poseidon && onVar d 0 (fun t => (E.valueType t).any E.isIntegral), true⟩
  | .poseidonInts => ⟨.poseidonInts, [.constRef (.var 0)],
    fun E d => E.poseidon && onVar d 0 (fun t => (E.valueType t).any E.isIntegral), true⟩
  | .listOut => ⟨.listOut, [.value (.app (.con initializerList) (.var 0)), .value (.var 1)],
    fun E d => !E.poseidon && onVar d 1 E.isIterator, true⟩
  | .listAcc => ⟨.listAcc, [.value (.app (.con initializerList) (.var 0)), .ref (.var 1)],
    fun E d => !E.poseidon && onVar d 1 E.isAccumulatorSet, true⟩
  | .list => ⟨.list, [.value (.app (.con initializerList) (.var 0))],
    fun E _ => !E.poseidon, true⟩

/-- All function templates named `hash` of algorithm/hash.hpp, in the order of the file. -/
def hashOverloads : List (Overload HashFn) :=
  ([.iterOut, .poseidonIterOut, .iterAcc, .iter, .poseidonIter, .rangeOut, .rangeAcc, .range,
    .poseidonElemsInit, .poseidonElems, .poseidonElemInit, .poseidonElem, .poseidonIntsInit, .poseidonInts,
    .listOut, .listAcc, .list] : List HashFn).map hashOverload

/-- The function can be called with these arguments. -/
def Overload.viable {N : Type} (E : Traits) (args : List Arg) (o : Overload N) : Bool :=
  match deduceAll o.params args Deduced.none with
  | some d => o.enabled E d && (ranks E o.params args).isSome
  | Option.none => false

/-- The type of a parameter pattern with every template parameter replaced by an invented type. -/
def Pat.invent : Pat → Ty
  | .var i => .fresh i
  | .con t => t
  | .app f x => .app f.invent x.invent

/-- The type a parameter contributes to partial ordering: references and `const` removed;
`Hash::digest_type` is a type different from all others. -/
def Param.invent : Param → Ty
  | .value p => p.invent
  | .constRef p => p.invent
  | .ref p => p.invent
  | .digest => .atom "Hash::digest_type"

/-- Deduction of a parameter for partial ordering; `Hash::digest_type` is a non-deduced context. -/
def Param.deduceTy : Param → Ty → Deduced → Option Deduced
  | .value p, t, d => p.deduce t d
  | .constRef p, t, d => p.deduce t d
  | .ref p, t, d => p.deduce t d
  | .digest, _, d => some d

/-- Deduction of a parameter list from a list of types. -/
def deduceTys : List Param → List Ty → Deduced → Option Deduced
  | [], [], d => some d
  | p :: ps, t :: ts, d => (p.deduceTy t d).bind (deduceTys ps ts)
  | _, _, _ => Option.none

/-- The parameters `ps` are at least as specialised as `qs`: `qs` can be deduced from them. -/
def atLeastAsSpecialised (ps qs : List Param) : Bool :=
  (deduceTys qs (ps.map Param.invent) Deduced.none).isSome

/-- `a` is the better candidate for the call: no argument needs a worse conversion and one needs a better
one, or all conversions are equal and `a` is not a template and `b` is, or both are templates and `a` is the
more specialised one. -/
def Overload.better {N : Type} (E : Traits) (args : List Arg) (a b : Overload N) : Bool :=
  match ranks E a.params args, ranks E b.params args with
  | some r, some s =>
    (r.zip s).all (fun x => x.1 ≤ x.2) &&
      ((r.zip s).any (fun x => x.1 < x.2) || (!a.isTemplate && b.isTemplate) ||
        (a.isTemplate && b.isTemplate &&
          atLeastAsSpecialised a.params b.params && !atLeastAsSpecialised b.params a.params))
  | _, _ => false

/-- What a call means. -/
inductive Resolution (Name : Type) where
  | call (f : Name)
  | ambiguous
  | noFunction
  deriving DecidableEq, Repr

/-- Overload resolution: the candidate better than all others. -/
def resolve {N : Type} [DecidableEq N] (E : Traits) (os : List (Overload N)) (args : List Arg) :
    Resolution N :=
  match os.filter (·.viable E args) with
  | [] => .noFunction
  | vs =>
    match vs.filter (fun a => vs.all fun b => a.name = b.name || a.better E args b) with
    | [a] => .call a.name
    | _ => .ambiguous

/-- `hash<Hash>(args…)`. -/
def hashCall (E : Traits) (args : List Arg) : Resolution HashFn := resolve E hashOverloads args

/-- The conversion operators of `range_hash_impl`, hash_value.hpp:148-199. -/
inductive ConvFn where
  /-- `operator std::array<T, Size>`, lines 148-155. -/
  | stdArray
  /-- `operator boost::array<T, Size>`, lines 157-164. -/
  | boostArray
  /-- `operator OutputRange`, lines 166-171. -/
  | range
  /-- `operator result_type`, lines 173-175. -/
  | result
  /-- `operator accumulator_set_type &`, lines 177-179. -/
  | accumulator
  /-- `operator Integral`, lines 181-190. -/
  | integral
  /-- `operator std::basic_string<…>`, lines 194-198, unless `CRYPTO3_RAW_HASH_STRING_OUTPUT`. -/
  | string
  deriving DecidableEq, Repr

/-- `std::array<T, n>`. -/
def stdArrayOf (t n : Ty) : Ty := .app (.app (.atom "std::array") t) n

/-- `boost::array<T, n>`. -/
def boostArrayOf (t n : Ty) : Ty := .app (.app (.atom "boost::array") t) n

/-- `std::basic_string<C, Tr, A>`. -/
def basicStringOf (c tr a : Ty) : Ty := .app (.app (.app (.atom "std::basic_string") c) tr) a

/-- The conversion operators, hash_value.hpp:148-199, for `result_type = res`, `accumulator_set_type = acc`
and a digest of `bits` bits; `digits` is `std::numeric_limits<·>::digits`; `raw` says that
`CRYPTO3_RAW_HASH_STRING_OUTPUT` is defined.  The "parameter" is the returned type, which is deduced from
the target of the conversion. -/
def convOverload (res acc : Ty) (bits : Nat) (digits : Ty → Nat) (raw : Bool) : ConvFn → Overload ConvFn
  | .stdArray => ⟨.stdArray, [.constRef (.app (.app (.con (.atom "std::array")) (.var 0)) (.var 1))],
    fun _ _ => true, true⟩
  | .boostArray => ⟨.boostArray, [.constRef (.app (.app (.con (.atom "boost::array")) (.var 0)) (.var 1))],
    fun _ _ => true,
    true⟩
  | .range => ⟨.range, [.constRef (.var 0)], fun _ _ => true, true⟩
  | .result => ⟨.result, [.constRef (.con res)], fun _ _ => true, false⟩
  | .accumulator => ⟨.accumulator, [.constRef (.con acc)], fun _ _ => true, false⟩
  | .integral => ⟨.integral, [.constRef (.var 0)],
    fun E d => onVar d 0 (fun t => E.isIntegral t && bits ≤ digits t), true⟩
  | .string => ⟨.string,
    [.constRef (.app (.app (.app (.con (.atom "std::basic_string")) (.var 0)) (.var 1)) (.var 2))],
    fun _ _ => !raw, true⟩

/-- All conversion operators of `range_hash_impl`. -/
def convOverloads (res acc : Ty) (bits : Nat) (digits : Ty → Nat) (raw : Bool) : List (Overload ConvFn) :=
  ([.stdArray, .boostArray, .range, .result, .accumulator, .integral, .string] : List ConvFn).map
    (convOverload res acc bits digits raw)

/-- `Target x = hash<H>(…);`: the conversion operator that produces `x`. -/
def convCall (E : Traits) (res acc : Ty) (bits : Nat) (digits : Ty → Nat) (raw : Bool) (target : Ty) :
    Resolution ConvFn :=
  resolve E (convOverloads res acc bits digits raw) [.expr target false true]

/-- A hash type: the class template it is an instance of, its arguments, and its nested `policy_type` if it
has one. -/
structure HashTy where
  template : String
  args : List Ty
  policyType : Option Ty
  deriving DecidableEq, Repr

/-- `poseidon<P>`, poseidon.hpp:69-72: its `policy_type` is `P`. -/
def HashTy.poseidon (P : Ty) : HashTy := ⟨"poseidon", [P], some P⟩

/-- `is_poseidon<H>`, type_traits.hpp:153-164: `H::policy_type` exists and `poseidon` of it is `H`. -/
def isPoseidon (h : HashTy) : Bool :=
  match h.policyType with
  | some P => HashTy.poseidon P = h
  | Option.none => false

/-- `is_find_group_hash`, type_traits.hpp:123-127. -/
def isFindGroupHash (h : HashTy) : Bool := h.template = "find_group_hash"

/-- `is_pedersen`, type_traits.hpp:129-138. -/
def isPedersen (h : HashTy) : Bool := h.template = "pedersen_to_point" || h.template = "pedersen"

/-- `is_h2f`, type_traits.hpp:140-144. -/
def isH2f (h : HashTy) : Bool := h.template = "h2f"

/-- `is_h2c`, type_traits.hpp:146-150. -/
def isH2c (h : HashTy) : Bool := h.template = "h2c"

/-- The accumulator of a hash, accumulators/hash.hpp:231-237: `true` for the specialisation that
pushes elements into the construction and keeps no block cache. -/
def elementAccumulator (h : HashTy) : Bool := isFindGroupHash h || isPedersen h || isH2f h || isH2c h

/-- A pointer: the array object it points into and the index. -/
structure Ptr where
  obj : Nat
  idx : Nat
  deriving DecidableEq, Repr

/-- The elements a loop `while (first != last) … *first++ …` reads, the memory being a list of array
objects; reading outside an array is a fault.  `fuel` bounds the number of iterations. -/
def readRange (mem : List (List Nat)) : Nat → Ptr → Ptr → Except Fault (List Nat)
  | 0, _, _ => .error .outOfRange
  | fuel + 1, first, last =>
    if first = last then .ok []
    else match (mem[first.obj]?).bind (·[first.idx]?) with
      | Option.none => .error .outOfRange
      | some x => (readRange mem fuel ⟨first.obj, first.idx + 1⟩ last).map (x :: ·)
end Verif
