import Verif.Model.Core
/-
Model of the generic accumulator `hash_impl` (accumulators/hash.hpp:61-229) and of
`block_stream_processor` (detail/block_stream_processor.hpp), with the `hash()` entry points
that use them (algorithm/hash.hpp, hash_value.hpp). `bits = n` is the named parameter of accumulators/parameters/bits.hpp.
-/
namespace Verif

/-- What `hash_impl` needs from `hash_type::construction::type` (accumulators/hash.hpp:65-75):
sizes, the freshly constructed state, `process_block(block, seen)` and `digest(block, seen)`.
`digest` works on a copy of the construction (hash.hpp:103), so it returns only the digest. -/
structure Construction (σ δ : Type) where
  blockBits : Nat
  wordBits : Nat
  init : σ
  processBlock : σ → Bits → Nat → σ
  digest : σ → Bits → Nat → Except Fault δ

/-- Data members of `hash_impl` (accumulators/hash.hpp:225-228). -/
structure Acc (σ : Type) where
  filled : Bool
  total : Nat
  cache : Bits
  st : σ

variable {σ δ : Type}

/-- Constructor, accumulators/hash.hpp:93-94: `cache` is not initialised, so its content is the
parameter `garbage`. -/
def Acc.init (C : Construction σ δ) (garbage : Bits) : Acc σ :=
  { filled := false, total := 0, cache := garbage, st := C.init }

/-- accumulators/hash.hpp:121-124 and 182-185: a completed block is processed before new data. -/
def Acc.flush (C : Construction σ δ) (a : Acc σ) : Acc σ :=
  if a.filled then
    { a with st := C.processBlock a.st a.cache a.total, filled := false }
  else a

/-- accumulators/hash.hpp:131-157 (and 190-216, same text): append `seen` bits of `value` to a
cache that already holds `total % block_bits` bits. -/
def Acc.append (C : Construction σ δ) (J : Injector) (a : Acc σ) (value : Bits) (seen : Nat) :
    Except Fault (Acc σ) := do
  let cached := a.total % C.blockBits
  let needed := C.blockBits - cached
  let new := if needed > seen then seen else needed
  let cache ← J.run value new a.cache cached 0
  let total := wrap64 (a.total + new)
  if cached + new = C.blockBits then
    if seen > new then
      let st := C.processBlock a.st cache total
      let cache ← J.run value (seen - new) cache 0 new
      return { filled := false, total := wrap64 (total + (seen - new)), cache := cache, st := st }
    else
      return { filled := true, total := total, cache := cache, st := a.st }
  else
    return { filled := a.filled, total := total, cache := cache, st := a.st }

/-- `process(const block_type &value, std::size_t value_seen)`, accumulators/hash.hpp:118-177. -/
def Acc.processBlockValue (C : Construction σ δ) (J : Injector) (a : Acc σ) (value : Bits)
    (seen : Nat) : Except Fault (Acc σ) :=
  let a := a.flush C
  if a.total % C.blockBits ≠ 0 then
    a.append C J value seen
  else
    let total := wrap64 (a.total + seen)
    if seen = C.blockBits then
      .ok { a with total := total, filled := true, cache := value }
    else
      -- hash.hpp:172-174: moves ceil(seen / word_bits) words of `value` into the cache
      let n := (seen / C.wordBits + (if seen % C.wordBits ≠ 0 then 1 else 0)) * C.wordBits
      if n ≤ value.length ∧ n ≤ a.cache.length then
        .ok { a with total := total, cache := value.take n ++ a.cache.drop n }
      else .error .outOfRange

/-- `process(const word_type &value, std::size_t value_seen)`, accumulators/hash.hpp:179-223. -/
def Acc.processWordValue (C : Construction σ δ) (J : Injector) (a : Acc σ) (value : Bits)
    (seen : Nat) : Except Fault (Acc σ) :=
  let a := a.flush C
  let cached := a.total % C.blockBits
  if cached % C.wordBits ≠ 0 then
    a.append C J value seen
  else
    -- hash.hpp:219-221
    let i := cached / C.wordBits * C.wordBits
    if i + value.length ≤ a.cache.length then
      .ok { a with cache := a.cache.take i ++ value ++ a.cache.drop (i + value.length)
                   total := wrap64 (a.total + seen) }
    else .error .outOfRange

/-- `acc(block, bits = n)`: `operator()` and `resolve_type`, accumulators/hash.hpp:97-111. -/
def Acc.pushBlock (C : Construction σ δ) (J : Injector) (a : Acc σ) (value : Bits) (bits : Nat) :
    Except Fault (Acc σ) :=
  a.processBlockValue C J value (if bits = 0 then C.blockBits else bits)

/-- `acc(word, bits = n)`: accumulators/hash.hpp:97-100, 113-116. -/
def Acc.pushWord (C : Construction σ δ) (J : Injector) (a : Acc σ) (value : Bits) (bits : Nat) :
    Except Fault (Acc σ) :=
  a.processWordValue C J value (if bits = 0 then C.wordBits else bits)

/-- A loop of `acc(word)` calls. -/
def Acc.pushWords (C : Construction σ δ) (J : Injector) : Acc σ → List Bits → Except Fault (Acc σ)
  | a, [] => .ok a
  | a, v :: vs => do
    let a ← a.pushWord C J v 0
    pushWords C J a vs

/-- `result()`, accumulators/hash.hpp:102-105. The method is `const` and works on a copy of the
construction: the accumulator is not part of the result. -/
def Acc.result (C : Construction σ δ) (a : Acc σ) : Except Fault δ :=
  C.digest a.st a.cache a.total

/-! ### The stream processor -/

/-- How elements of an input range look in the stream: `value_bits` and the stream view of one
element (block_stream_processor.hpp:69-73, `pack_to` at line 81). -/
structure Elem (α : Type) where
  valueBits : Nat
  view : α → Bits
  length_view : ∀ x, (view x).length = valueBits

/-- Data members of `block_stream_processor` (block_stream_processor.hpp:146-149) together with
the accumulator set it refers to; `A` is any accumulator set. -/
structure Proc (A α : Type) where
  acc : A
  cache : List α
  seen : Nat

/-- `acc(block, bits = n)` for an accumulator set. -/
abbrev Push (A : Type) := A → Bits → Nat → Except Fault A

variable {A α : Type}

/-- `process_block(block_seen)`, block_stream_processor.hpp:78-84: the *whole* element cache is
packed, then pushed with the bit count. -/
def Proc.processBlock (push : Push A) (E : Elem α) (p : Proc A α)
    (blockSeen : Nat) : Except Fault (Proc A α) := do
  let acc ← push p.acc (p.cache.flatMap E.view) blockSeen
  return { p with acc := acc }

/-- `update_one`, block_stream_processor.hpp:87-95.  `B` is `block_bits`. -/
def Proc.updateOne (push : Push A) (B : Nat) (E : Elem α) (p : Proc A α) (x : α) :
    Except Fault (Proc A α) :=
  if p.seen < p.cache.length then
    let p : Proc A α := { p with cache := p.cache.set p.seen x, seen := p.seen + 1 }
    if p.seen = B / E.valueBits then do
      let p ← p.processBlock push E B
      return { p with seen := 0 }
    else .ok p
  else .error .outOfRange

/-- `update_n(p, n)`, block_stream_processor.hpp:97-102: `for (; n; --n) update_one(*p++)`.
Dereferencing past the end of the range is a fault. -/
def Proc.updateN (push : Push A) (B : Nat) (E : Elem α) :
    Proc A α → List α → Nat → Except Fault (Proc A α)
  | p, _, 0 => .ok p
  | _, [], _ + 1 => .error .outOfRange
  | p, x :: xs, n + 1 => do
    let p ← p.updateOne push B E x
    updateN push B E p xs n

/-- `operator()(b, e, Category)`, block_stream_processor.hpp:115-120: `while (b != e)`. -/
def Proc.updateWhile (push : Push A) (B : Nat) (E : Elem α) :
    Proc A α → List α → Except Fault (Proc A α)
  | p, [] => .ok p
  | p, x :: xs => do
    let p ← p.updateOne push B E x
    updateWhile push B E p xs

/-- How a range is handed over: block_stream_processor.hpp:110-113 (random access iterators),
115-120 (any other category), 129-132 (container with `data()`/`size()`). -/
inductive RangeKind where
  | randomAccess
  | singlePass
  | container
  deriving DecidableEq, Repr

/-- `operator()`, block_stream_processor.hpp:110-132. -/
def Proc.run (push : Push A) (B : Nat) (E : Elem α) (k : RangeKind) (p : Proc A α)
    (xs : List α) : Except Fault (Proc A α) :=
  match k with
  | .randomAccess => p.updateN push B E xs xs.length
  | .singlePass => p.updateWhile push B E xs
  | .container => p.updateN push B E xs xs.length

/-- Destructor, block_stream_processor.hpp:138-143. -/
def Proc.finish (push : Push A) (E : Elem α) (p : Proc A α) : Except Fault A :=
  if p.seen > 0 then do
    let p ← p.processBlock push E (p.seen * E.valueBits)
    return p.acc
  else .ok p.acc

/-- `hash<H>(first, last, acc)` / `hash<H>(range, acc)` (algorithm/hash.hpp:133-143, 228-238 through
hash_value.hpp:93-146): a stream processor over `acc` is constructed, run and destroyed.  The
element cache of the stream processor starts with `cache0` (value-initialised in the code,
block_stream_processor.hpp:135; arbitrary here). -/
def feedSet (push : Push A) (B : Nat) (E : Elem α) (k : RangeKind) (cache0 : List α)
    (a : A) (xs : List α) : Except Fault A := do
  let p ← ({ acc := a, cache := cache0, seen := 0 } : Proc A α).run push B E k xs
  p.finish push E

/-- The same for an accumulator set whose only feature is the hash (`accumulator_set<H>`,
hash_state.hpp). -/
def Acc.feed (C : Construction σ δ) (J : Injector) (E : Elem α) (k : RangeKind) (cache0 : List α)
    (a : Acc σ) (xs : List α) : Except Fault (Acc σ) :=
  feedSet (fun a v n => a.pushBlock C J v n) C.blockBits E k cache0 a xs

/-- `hash<H>(first, last)` / `hash<H>(range)` converted to the digest (algorithm/hash.hpp:159-170,
253-262; hash_value.hpp:173-175): fresh accumulator, one feed, extraction. -/
def hashOnce (C : Construction σ δ) (J : Injector) (E : Elem α) (k : RangeKind) (garbage : Bits)
    (cache0 : List α) (xs : List α) : Except Fault δ := do
  let a ← (Acc.init C garbage).feed C J E k cache0 xs
  a.result C

end Verif
