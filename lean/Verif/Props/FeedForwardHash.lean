import Verif.Props.IdealCipher
import Verif.Props.UserMD
/-
C126: hashes over the Matyas–Meyer–Oseas and Miyaguchi–Preneel compressors.
-/
namespace Verif.Props
open Spec Spec.Ideal Verif.Ideal

variable {w n : Nat} {K : Type}

/-- The two compressors whose key is made of the state. -/
inductive StateKeyed | matyasMeyerOseas | miyaguchiPreneel
  deriving DecidableEq

/-- The compressor with `state_adder`. -/
def StateKeyed.compress (f : StateKeyed) (encrypt : K → Vector (BitVec w) n → Vector (BitVec w) n) (zero : K)
    (conv : K → Vector (BitVec w) n → K) : Vector (BitVec w) n → Vector (BitVec w) n → Vector (BitVec w) n :=
  match f with
  | .matyasMeyerOseas => Verif.matyasMeyerOseas encrypt stateAdder zero conv
  | .miyaguchiPreneel => Verif.miyaguchiPreneel encrypt stateAdder zero conv

/-- The hash over a cipher with keys as long as its blocks. -/
def stateKeyedHash (f : StateKeyed) (encrypt : K → Vector (BitVec w) n → Vector (BitVec w) n) (zero : K)
    (conv : K → Vector (BitVec w) n → K) (L d : Nat) (e : Endian) (iv : Vector (BitVec w) n) (d0 : Bits) : MD (Vector (BitVec w) n) :=
  feedForwardHash (f.compress encrypt zero conv) n L d e iv d0

/-- KeyedSizes for which the hash makes sense. -/
structure KeyedSizes (w n L d : Nat) (e : Endian) (d0 : Bits) : Prop where
  word8 : 8 ∣ w
  word : 0 < w
  word64 : w ≤ 64
  block : 0 < n
  wordLength : w ∣ L
  lengthFits : L ≤ n * w
  wordDigest : w ∣ d
  digestFits : d ≤ n * w
  digest0 : d0.length = d
  endian : e = bigOctetBigBit ∨ e = littleOctetBigBit

theorem KeyedSizes.args {L d : Nat} {e : Endian} {d0 : Bits} (S : KeyedSizes w n L d e d0)
    (compress : Vector (BitVec w) n → Vector (BitVec w) n → Vector (BitVec w) n) (iv : Vector (BitVec w) n) :
    UserArgs (feedForwardHash compress n L d e iv d0) where
  word8 := S.word8
  word := S.word
  word64 := S.word64
  wordBlock := Nat.dvd_mul_left _ _
  block := Nat.mul_pos S.block S.word
  wordLength := S.wordLength
  lengthFits := S.lengthFits
  wordDigest := S.wordDigest
  digestFits s := by
    show d ≤ (e.arrayView s).length
    rw [length_arrayView']
    exact S.digestFits
  digest0 := S.digest0
  endian := S.endian
  marker := ⟨rfl, rfl⟩

/-- The textbook modes, word by word (Handbook of Applied Cryptography, algorithms 9.41 and 9.43, with addition of words for the
exclusive or). -/
def StateKeyed.step (f : StateKeyed) (E : Vector (BitVec w) n → Vector (BitVec w) n → Vector (BitVec w) n) (h x : Vector (BitVec w) n) :
    Vector (BitVec w) n :=
  match f with
  | .matyasMeyerOseas => Vector.ofFn fun i => (E h x)[i] + x[i]
  | .miyaguchiPreneel => Vector.ofFn fun i => h[i] + (E h x)[i] + x[i]

theorem StateKeyed.compress_eq (f : StateKeyed) (encrypt : K → Vector (BitVec w) n → Vector (BitVec w) n) (zero : K)
    (conv : K → Vector (BitVec w) n → K) (h x : Vector (BitVec w) n) :
    f.compress encrypt zero conv h x = f.step (fun h => encrypt (conv zero h)) h x := by
  apply Vector.ext
  intro i hi
  cases f
  · show (stateAdder _ _)[i] = _
    apply BitVec.eq_of_toNat_eq
    simp [stateAdder_eq, StateKeyed.step, Sha.plus, BitVec.toNat_add]
  · show (stateAdder (stateAdder _ _) _)[i] = _
    apply BitVec.eq_of_toNat_eq
    simp [stateAdder_eq, StateKeyed.step, Sha.plus, BitVec.toNat_add]

/-- **C126.** The construction over the two compressors and a cipher with keys as long as its blocks computes the iterated hash
with the textbook Matyas–Meyer–Oseas or Miyaguchi–Preneel compression function, in every program of calls. -/
theorem C126_hash_partial (f : StateKeyed) (encrypt : K → Vector (BitVec w) n → Vector (BitVec w) n) (zero : K)
    (conv : K → Vector (BitVec w) n → K) {L d : Nat} {e : Endian} {d0 : Bits} (S : KeyedSizes w n L d e d0) (iv : Vector (BitVec w) n)
    (J : Injector) (garbage : Bits) (hgb : garbage.length = n * w) (ops : List Op) (hwt : ∀ op ∈ ops, op.WellTyped (n * w))
    (hgood : GoodExtracts (n * w) (fun m => m.length < 2 ^ (if L = 0 then w else min L 64)) [] ops)
    (hlen : (streamOf (n * w) ops).length < 2 ^ (if L = 0 then w else min L 64)) :
    let M := stateKeyedHash f encrypt zero conv L d e iv d0
    let H := iteratedHash (n * w) L d e.littleOctet iv
      (fun h b => f.step (fun h => encrypt (conv zero h)) h (Vector.ofFn fun i : Fin n => e.word w b i)) e.arrayView
    ∃ a, runOps (M.constructionU J) J (Acc.init (M.constructionU J) garbage) [] ops = .ok (a, expected (n * w) H [] ops) ∧
      a.result (M.constructionU J) = .ok (H (streamOf (n * w) ops)) := by
  intro M H
  have hH : H = userHash M := by
    funext m
    show iteratedHash _ _ _ _ _ _ _ m = iteratedHash _ _ _ _ _ _ _ m
    congr 1
    funext h b
    exact (f.compress_eq encrypt zero conv h _).symm
  rw [hH]
  exact C125_hash (S.args _ iv) J garbage hgb ops hwt hgood hlen

/-! ### Random ciphers -/

/-- What the compressor makes of state, answer of the cipher and block. -/
def StateKeyed.comb (f : StateKeyed) (s y x : Vector (BitVec w) n) : Vector (BitVec w) n :=
  match f with
  | .matyasMeyerOseas => stateAdder y x
  | .miyaguchiPreneel => stateAdder (stateAdder s y) x

theorem StateKeyed.compress_comb (f : StateKeyed) (encrypt : K → Vector (BitVec w) n → Vector (BitVec w) n) (zero : K)
    (conv : K → Vector (BitVec w) n → K) (s x : Vector (BitVec w) n) :
    f.compress encrypt zero conv s x = f.comb s (encrypt (conv zero s) x) x := by cases f <;> rfl

theorem StateKeyed.comb_injective_answer (f : StateKeyed) (s x : Vector (BitVec w) n) :
    Function.Injective fun y => f.comb s y x := by
  cases f
  · exact stateAdder_left_injective x
  · exact (stateAdder_left_injective x).comp (stateAdder_right_injective s)

theorem StateKeyed.comb_injective_block (f : StateKeyed) (s y : Vector (BitVec w) n) :
    Function.Injective fun x => f.comb s y x := by
  cases f <;> exact stateAdder_right_injective _

theorem endianWords_injective (e : Endian) (h8 : 8 ∣ w) {b b' : Bits} (hb : b.length = n * w) (hb' : b'.length = n * w)
    (h : e.words w n b = e.words w n b') : b = b' := by
  apply List.ext_getElem?
  intro j
  by_cases hj : j < n * w
  · have hw : 0 < w := by
      rcases Nat.eq_zero_or_pos w with rfl | h
      · omega
      · exact h
    have hi : j / w < n := Nat.div_lt_of_lt_mul (by rw [Nat.mul_comm]; exact hj)
    have hq : j % w < w := Nat.mod_lt _ hw
    have hp := e.pos_lt h8 hq
    have h1 := congrArg (fun v : Vector (BitVec w) n => v[j / w].getLsbD (e.pos w (j % w))) h
    simp only [Endian.words, Vector.getElem_ofFn, Endian.word, BitVec.getLsbD_ofFnLE, dif_pos hp, e.pos_pos h8 hq,
      Nat.div_add_mod] at h1
    rw [List.getD_eq_getElem?_getD, List.getD_eq_getElem?_getD, List.getElem?_eq_getElem (by omega),
      List.getElem?_eq_getElem (by omega)] at h1
    rw [List.getElem?_eq_getElem (by omega), List.getElem?_eq_getElem (by omega)]
    simpa using h1
  · rw [List.getElem?_eq_none (by omega), List.getElem?_eq_none (by omega)]

section walk
variable {R : Type _} (f : StateKeyed) (zero : K) (conv : K → Vector (BitVec w) n → K) (e : Endian)

/-- The attacker that runs the compressor over blocks. -/
def ffWalk (r : R) : List Bits → Vector (BitVec w) n → Attacker K (Vector (BitVec w) n) R
  | [], _ => .done r
  | b :: bs, s => .ask .enc (conv zero s) (e.words w n b) fun y => ffWalk r bs (f.comb s y (e.words w n b))

theorem result_ffWalk (E : Cipher K (Vector (BitVec w) n)) (r : R) (bs : List Bits) (s : Vector (BitVec w) n) :
    (ffWalk f zero conv e r bs s).result E = r := by
  induction bs generalizing s with
  | nil => rfl
  | cons b bs ih => exact ih _

theorem atMost_ffWalk (r : R) (bs : List Bits) (s : Vector (BitVec w) n) : (ffWalk f zero conv e r bs s).AtMost bs.length := by
  induction bs generalizing s with
  | nil => trivial
  | cons b bs ih => exact fun a => ih _

/-- The call of the cipher in state `s` for block `b`. -/
def callOf (E : Cipher K (Vector (BitVec w) n)) (s : Vector (BitVec w) n) (b : Bits) : K × Vector (BitVec w) n × Vector (BitVec w) n :=
  (conv zero s, e.words w n b, E (conv zero s) (e.words w n b))

theorem learns_ffWalk (E : Cipher K (Vector (BitVec w) n)) (r : R) (bs : List Bits) (s : Vector (BitVec w) n) {i : Nat} {b : Bits}
    (h : bs[i]? = some b) :
    callOf zero conv e E ((bs.take i).foldl (fun s b => f.compress (fun k => E k) zero conv s (e.words w n b)) s) b ∈
      (ffWalk f zero conv e r bs s).learns E := by
  induction bs generalizing s i with
  | nil => cases h
  | cons c bs ih =>
    rcases i with _ | i
    · cases h
      exact List.mem_cons_self
    · refine List.mem_cons_of_mem _ ?_
      have := ih (f.comb s (E (conv zero s) (e.words w n c)) (e.words w n c)) h
      rw [List.take_succ_cons, List.foldl_cons, f.compress_comb]
      exact this

end walk

/-- All cipher calls for hashing `m` are among the triples `T`. -/
def CallsIn (f : StateKeyed) (zero : K) (conv : K → Vector (BitVec w) n → K) (L : Nat) (e : Endian) (iv : Vector (BitVec w) n)
    (E : Cipher K (Vector (BitVec w) n)) (T : List (K × Vector (BitVec w) n × Vector (BitVec w) n)) (m : Bits) : Prop :=
  ∀ i b, (blocks (n * w) (oneZeroPad (n * w) L e.littleOctet m))[i]? = some b →
    callOf zero conv e E (((blocks (n * w) (oneZeroPad (n * w) L e.littleOctet m)).take i).foldl
      (fun s b => f.compress (fun k => E k) zero conv s (e.words w n b)) iv) b ∈ T

theorem last_oneZeroPad {B : Nat} (hB : 0 < B) (L : Nat) (little : Bool) (m : Bits) :
    ∃ i b, (blocks B (oneZeroPad B L little m))[i]? = some b ∧ ∀ {σ : Type} (f : σ → Bits → σ) (iv : σ),
      (blocks B (oneZeroPad B L little m)).foldl f iv = f (((blocks B (oneZeroPad B L little m)).take i).foldl f iv) b := by
  have hd : B ∣ (oneZeroPad B L little m).length := by rw [length_oneZeroPad]; exact fillTo_spec hB _
  have hp : 0 < (oneZeroPad B L little m).length := by rw [length_oneZeroPad]; omega
  rw [blocks_eq_snoc hB hd hp]
  refine ⟨_, _, List.getElem?_concat_length .., ?_⟩
  intro σ f iv
  rw [List.foldl_append, List.take_left']
  · rfl
  · rfl

section games
variable [Fintype K] [DecidableEq K] (f : StateKeyed) (zero : K) (conv : K → Vector (BitVec w) n → K)
  (hconv : Function.Injective (conv zero)) {L d : Nat} {e : Endian} {d0 : Bits} (S : KeyedSizes w n L d e d0) (iv : Vector (BitVec w) n)
  (J : Injector)

/-- The first bits of the value that the compressor makes of a cipher call. -/
noncomputable def ffVal (d : Nat) (e : Endian) (k : K) (x y : Vector (BitVec w) n) : Bits :=
  (e.arrayView (f.comb (Function.invFun (conv zero) k) y x)).take d

omit [Fintype K] [DecidableEq K] in
theorem ffVal_fibers (h8 : 8 ∣ w) : Fibers (ffVal f zero conv d e) (2 ^ (n * w - d)) :=
  ⟨fun _ x t => card_take_le _ ((arrayView_injective _ h8).comp (f.comb_injective_answer _ x)) (fun _ => length_arrayView' _ _) t,
    fun _ y t => card_take_le _ ((arrayView_injective _ h8).comp (f.comb_injective_block _ y)) (fun _ => length_arrayView' _ _) t⟩

omit [Fintype K] [DecidableEq K] in
include hconv in
theorem ffVal_call (E : Cipher K (Vector (BitVec w) n)) (s : Vector (BitVec w) n) (b : Bits) :
    ffVal f zero conv d e (callOf zero conv e E s b).1 (callOf zero conv e E s b).2.1 (callOf zero conv e E s b).2.2 =
      (e.arrayView (f.compress (fun k => E k) zero conv s (e.words w n b))).take d := by
  rw [f.compress_comb]
  show (e.arrayView (f.comb (Function.invFun (conv zero) (conv zero s)) _ _)).take d = _
  rw [Function.leftInverse_invFun hconv s]
  rfl

omit [Fintype K] [DecidableEq K] in
include hconv in
theorem callOf_injective (h8 : 8 ∣ w) (E : Cipher K (Vector (BitVec w) n)) {s s' : Vector (BitVec w) n} {b b' : Bits}
    (hb : b.length = n * w) (hb' : b'.length = n * w)
    (h : ((callOf zero conv e E s b).1, (callOf zero conv e E s b).2.1) = ((callOf zero conv e E s' b').1, (callOf zero conv e E s' b').2.1)) :
    s = s' ∧ b = b' :=
  ⟨hconv (Prod.mk.inj h).1, endianWords_injective e h8 hb hb' (Prod.mk.inj h).2⟩

include hconv S in
theorem stateKeyed_collision_learned (hL : 0 < L) (A : Attacker K (Vector (BitVec w) n) (List Op × List Op)) (q : Nat) (hA : A.AtMost q)
    (hq : q < 2 ^ (n * w)) :
    prob (fun E => UserColliding (stateKeyedHash f (fun k => E k) zero conv L d e iv d0) J (A.result E).1 (A.result E).2 ∧
      CallsIn f zero conv L e iv E (A.learns E) (streamOf (n * w) (A.result E).1) ∧
      CallsIn f zero conv L e iv E (A.learns E) (streamOf (n * w) (A.result E).2)) ≤
      (q * (q - 1) / 2 * 2 ^ (n * w - d) : ℚ) / (2 ^ (n * w) - q) := by
  refine le_trans (collision_bound (ffVal_fibers f zero conv (d := d) (e := e) S.word8) A q hA (by rw [card_words]; exact hq) _ ?_)
    (le_of_eq (by rw [card_words]; push_cast; rfl))
  rintro E ⟨hC, hE, hE'⟩
  have U := S.args (f.compress (fun k => E k) zero conv) iv
  have hB : 0 < n * w := Nat.mul_pos S.block S.word
  rcases C125_collision U hL J hC with hcol | ⟨hne, htake⟩
  · obtain ⟨i, j, b, b', hi, hj, hne, heq⟩ := hcol
    refine ⟨_, hE i b hi, _, hE' j b' hj, ?_, ?_⟩
    · intro he
      obtain ⟨h1, h2⟩ := callOf_injective zero conv hconv S.word8 E (length_of_mem_blocks (List.mem_of_getElem? hi))
        (length_of_mem_blocks (List.mem_of_getElem? hj)) he
      exact hne (Prod.ext h1 h2)
    · rw [ffVal_call f zero conv hconv, ffVal_call f zero conv hconv]
      exact congrArg (fun v => (e.arrayView v).take d) heq
  · obtain ⟨i, b, hi, hf⟩ := last_oneZeroPad hB L e.littleOctet (streamOf (n * w) (A.result E).1)
    obtain ⟨j, b', hj, hf'⟩ := last_oneZeroPad hB L e.littleOctet (streamOf (n * w) (A.result E).2)
    refine ⟨_, hE i b hi, _, hE' j b' hj, ?_, ?_⟩
    · intro he
      obtain ⟨h1, h2⟩ := callOf_injective zero conv hconv S.word8 E (length_of_mem_blocks (List.mem_of_getElem? hi))
        (length_of_mem_blocks (List.mem_of_getElem? hj)) he
      refine hne ((hf _ _).trans (Eq.trans ?_ (hf' _ _).symm))
      rw [h2]
      exact congrArg (fun s => f.compress (fun k => E k) zero conv s (e.words w n b')) h1
    · rw [ffVal_call f zero conv hconv, ffVal_call f zero conv hconv]
      have h1 := hf (fun s b => f.compress (fun k => E k) zero conv s (e.words w n b)) iv
      have h2 := hf' (fun s b => f.compress (fun k => E k) zero conv s (e.words w n b)) iv
      rw [← h1, ← h2]
      exact htake

/-- Number of cipher calls for hashing `m`. -/
def ffCalls (w n L : Nat) (e : Endian) (m : Bits) : Nat := (blocks (n * w) (oneZeroPad (n * w) L e.littleOctet m)).length

include hconv S in
/-- **C126, collisions.** With a random cipher and a key converter that is injective on the states: an attacker with `q` queries
makes the library return the same digest for different messages of together `l` blocks with probability at most
`(q + l) (q + l - 1) / 2` times `2^-digest`, up to the factor `2^state / (2^state - q - l)`. -/
theorem C126_collision_partial (hL : 0 < L) (A : Attacker K (Vector (BitVec w) n) (List Op × List Op)) (q l : Nat) (hA : A.AtMost q)
    (hq : q + l < 2 ^ (n * w)) :
    prob (fun E => UserColliding (stateKeyedHash f (fun k => E k) zero conv L d e iv d0) J (A.result E).1 (A.result E).2 ∧
      ffCalls w n L e (streamOf (n * w) (A.result E).1) + ffCalls w n L e (streamOf (n * w) (A.result E).2) ≤ l) ≤
      ((q + l) * (q + l - 1) / 2 * 2 ^ (n * w - d) : ℚ) / (2 ^ (n * w) - (q + l)) := by
  let H : Bits → (List Op × List Op) → Attacker K (Vector (BitVec w) n) (List Op × List Op) := fun m r =>
    ffWalk f zero conv e r (blocks (n * w) (oneZeroPad (n * w) L e.littleOctet m)) iv
  let g : List Op × List Op → Attacker K (Vector (BitVec w) n) (List Op × List Op) := fun r =>
    if ffCalls w n L e (streamOf (n * w) r.1) + ffCalls w n L e (streamOf (n * w) r.2) ≤ l then
      andThen (H (streamOf (n * w) r.1) r) fun _ => H (streamOf (n * w) r.2) r
    else .done r
  have hg : ∀ r, (g r).AtMost l := by
    intro r
    show (ite _ _ _ : Attacker _ _ _).AtMost l
    split
    · rename_i hl
      exact atMost_mono (atMost_andThen (atMost_ffWalk _ _ _ _ _ _ _) fun _ => atMost_ffWalk _ _ _ _ _ _ _) hl
    · trivial
  have hr : ∀ E r, (g r).result E = r := by
    intro E r
    show (ite _ _ _ : Attacker _ _ _).result E = r
    split
    · rw [result_andThen]
      exact result_ffWalk _ _ _ _ _ _ _ _
    · rfl
  have hres : ∀ E, (andThen A g).result E = A.result E := fun E => by rw [result_andThen, hr]
  have key := stateKeyed_collision_learned f zero conv hconv S iv J hL (andThen A g) (q + l) (atMost_andThen hA hg) hq
  simp only [hres] at key
  refine le_trans (prob_mono fun E hE => ⟨hE.1, ?_, ?_⟩) (le_trans key (le_of_eq (by push_cast; rfl)))
  · intro i b hi
    rw [learns_andThen]
    refine List.mem_append_right _ ?_
    show _ ∈ (ite _ _ _ : Attacker _ _ _).learns E
    rw [if_pos hE.2, learns_andThen]
    exact List.mem_append_left _ (learns_ffWalk f zero conv e E _ _ iv hi)
  · intro i b hi
    rw [learns_andThen]
    refine List.mem_append_right _ ?_
    show _ ∈ (ite _ _ _ : Attacker _ _ _).learns E
    rw [if_pos hE.2, learns_andThen]
    exact List.mem_append_right _ (learns_ffWalk f zero conv e E _ _ iv hi)

/-- A program of calls whose digest is the given one. -/
structure UserPreimage {σ : Type} (M : MD σ) (J : Injector) (target : Bits) (ops : List Op) : Prop where
  wellTyped : ∀ op ∈ ops, op.WellTyped M.blockBits
  extracts : GoodExtracts M.blockBits (fun m => m.length < 2 ^ lengthLimit M) [] ops
  short : (streamOf M.blockBits ops).length < 2 ^ lengthLimit M
  digest : ∃ garbage : Bits, garbage.length = M.blockBits ∧
    (do let (a, _) ← runOps (M.constructionU J) J (Acc.init (M.constructionU J) garbage) [] ops
        a.result (M.constructionU J)) = .ok target

include hconv S in
/-- **C126, preimages.** The digest is a prescribed one with probability at most `(q + l)` times `2^-digest`, up to the same
factor; here the length field may be empty. -/
theorem C126_preimage_partial (A : Attacker K (Vector (BitVec w) n) (List Op)) (q l : Nat) (hA : A.AtMost q)
    (hq : q + l < 2 ^ (n * w)) (target : Bits) :
    prob (fun E => UserPreimage (stateKeyedHash f (fun k => E k) zero conv L d e iv d0) J target (A.result E) ∧
      ffCalls w n L e (streamOf (n * w) (A.result E)) ≤ l) ≤
      ((q + l) * 2 ^ (n * w - d) : ℚ) / (2 ^ (n * w) - (q + l)) := by
  let g : List Op → Attacker K (Vector (BitVec w) n) (List Op) := fun r =>
    if ffCalls w n L e (streamOf (n * w) r) ≤ l then
      ffWalk f zero conv e r (blocks (n * w) (oneZeroPad (n * w) L e.littleOctet (streamOf (n * w) r))) iv else .done r
  have hg : ∀ r, (g r).AtMost l := by
    intro r
    show (ite _ _ _ : Attacker _ _ _).AtMost l
    split
    · rename_i hl
      exact atMost_mono (atMost_ffWalk _ _ _ _ _ _ _) hl
    · trivial
  have hr : ∀ E r, (g r).result E = r := by
    intro E r
    show (ite _ _ _ : Attacker _ _ _).result E = r
    split
    · exact result_ffWalk _ _ _ _ _ _ _ _
    · rfl
  have hres : ∀ E, (andThen A g).result E = A.result E := fun E => by rw [result_andThen, hr]
  refine le_trans (preimage_bound (ffVal_fibers f zero conv (d := d) (e := e) S.word8) (andThen A g) (q + l) (atMost_andThen hA hg)
    (by rw [card_words]; exact hq) target _ ?_) (le_of_eq (by rw [card_words]; push_cast; rfl))
  rintro E ⟨hP, hl⟩
  have U := S.args (f.compress (fun k => E k) zero conv) iv
  have hB : 0 < n * w := Nat.mul_pos S.block S.word
  obtain ⟨gb, hgb, hdig⟩ := hP.digest
  obtain ⟨a, e1, r⟩ := C125_hash U J gb hgb _ hP.wellTyped hP.extracts hP.short
  obtain ⟨i, b, hi, hf⟩ := last_oneZeroPad hB L e.littleOctet (streamOf (n * w) (A.result E))
  refine ⟨callOf zero conv e E (((blocks (n * w) (oneZeroPad (n * w) L e.littleOctet (streamOf (n * w) (A.result E)))).take i).foldl
      (fun s b => f.compress (fun k => E k) zero conv s (e.words w n b)) iv) b, ?_, ?_⟩
  · rw [learns_andThen]
    refine List.mem_append_right _ ?_
    show _ ∈ (ite _ _ _ : Attacker _ _ _).learns E
    rw [if_pos hl]
    exact learns_ffWalk f zero conv e E _ _ iv hi
  · rw [ffVal_call f zero conv hconv]
    have h1 := hf (fun s b => f.compress (fun k => E k) zero conv s (e.words w n b)) iv
    rw [← h1]
    have hM : stateKeyedHash f (fun k => E k) zero conv L d e iv d0 =
      feedForwardHash (f.compress (fun k => E k) zero conv) n L d e iv d0 := rfl
    rw [hM, e1] at hdig
    change a.result ((feedForwardHash (f.compress (fun k => E k) zero conv) n L d e iv d0).constructionU J) = _ at hdig
    rw [r] at hdig
    injection hdig

end games

/-! ### Keys of another size -/

/-- **C126, keys longer than blocks.** Then `block_bits` exceeds the size of the array `block_type`, and every call of `digest`
accesses memory behind it, whatever the cipher, the state and the counter. -/
theorem C126_long_key_false (compress : Vector (BitVec w) n → Vector (BitVec w) n → Vector (BitVec w) n) {keyWords : Nat}
    (hk : n < keyWords) (hw : 0 < w) (L d : Nat) (e : Endian) (iv : Vector (BitVec w) n) (d0 : Bits) (J : Injector)
    (st : Vector (BitVec w) n) (block : Bits) (hb : block.length = n * w) (total : Nat) :
    (feedForwardHash compress keyWords L d e iv d0).digestU J st block total = .error .outOfRange := by
  unfold MD.digestU MD.padU Injector.run
  simp only
  have hB : (feedForwardHash compress keyWords L d e iv d0).blockBits = keyWords * w := rfl
  have hlt : n * w < keyWords * w := Nat.mul_lt_mul_of_pos_right hk hw
  have hmod := Nat.mod_lt (total % 2 ^ (feedForwardHash compress keyWords L d e iv d0).lengthTypeBits)
    (show 0 < keyWords * w by omega)
  rw [hB, if_neg]
  · rfl
  · rw [hb]
    omega

/-- A cipher with blocks of two octets and keys of one. -/
def shortKey (k : BitVec 8) (x : Vector (BitVec 8) 2) : Vector (BitVec 8) 2 := #v[x[0] + k, x[1] + 3 * k]

/-- **C126, keys shorter than blocks.** Then the padding and the accumulator fill only the first `key_bits` bits of the array, and
the digest, here of the empty message, depends on the rest, which the program never wrote. -/
theorem C126_short_key_false :
    let M (f : StateKeyed) := feedForwardHash (f.compress shortKey 0 fun _ s => s[0] + s[1]) 1 8 16 bigOctetBigBit #v[1, 2] (List.replicate 16 false)
    ∀ f, ∃ garbage garbage' : Bits, garbage.length = 16 ∧ garbage'.length = 16 ∧ garbage.take 8 = garbage'.take 8 ∧
      ∃ d d', (Acc.init ((M f).constructionU spliceInjector) garbage).result ((M f).constructionU spliceInjector) = .ok d ∧
        (Acc.init ((M f).constructionU spliceInjector) garbage').result ((M f).constructionU spliceInjector) = .ok d' ∧ d ≠ d' := by
  have hd : ∀ f : StateKeyed, ∃ d d' : Bits, d ≠ d' ∧
      (Acc.init ((feedForwardHash (f.compress shortKey 0 fun _ s => s[0] + s[1]) 1 8 16 bigOctetBigBit #v[1, 2]
        (List.replicate 16 false)).constructionU spliceInjector) (bigEndian 16 0)).result ((feedForwardHash (f.compress shortKey 0
        fun _ s => s[0] + s[1]) 1 8 16 bigOctetBigBit #v[1, 2] (List.replicate 16 false)).constructionU spliceInjector) = .ok d ∧
      (Acc.init ((feedForwardHash (f.compress shortKey 0 fun _ s => s[0] + s[1]) 1 8 16 bigOctetBigBit #v[1, 2]
        (List.replicate 16 false)).constructionU spliceInjector) (bigEndian 16 77)).result ((feedForwardHash (f.compress shortKey 0
        fun _ s => s[0] + s[1]) 1 8 16 bigOctetBigBit #v[1, 2] (List.replicate 16 false)).constructionU spliceInjector) = .ok d' := by
    intro f
    cases f
    · exact ⟨bigEndian 16 3108, bigEndian 16 42738, by decide +kernel, by decide +kernel, by decide +kernel⟩
    · exact ⟨bigEndian 16 4920, bigEndian 16 44448, by decide +kernel, by decide +kernel, by decide +kernel⟩
  intro M f
  obtain ⟨d, d', h1, h2, h3⟩ := hd f
  exact ⟨bigEndian 16 0, bigEndian 16 77, rfl, rfl, by decide, d, d', h2, h3, h1⟩

/-! ### Examples -/

theorem toySizes (L : Nat) (hL : L = 0 ∨ L = 8) : KeyedSizes 8 2 L 8 bigOctetBigBit (List.replicate 8 false) where
  word8 := by decide
  word := by decide
  word64 := by decide
  block := by decide
  wordLength := by omega
  lengthFits := by omega
  wordDigest := by decide
  digestFits := by decide
  digest0 := rfl
  endian := Or.inl rfl

/-- Hashing three octets with a cipher that adds the key. -/
example (f : StateKeyed) (J : Injector) := C126_hash_partial (K := Vector (BitVec 8) 2) f (fun k x => stateAdder k x) #v[0, 0] (fun _ s => s)
  (toySizes 8 (by decide)) #v[1, 2] J (List.replicate 16 true) rfl [feedOctets bigOctetBigBit [1], .extract, feedOctets bigOctetBigBit [2, 3]]
  (by
    intro op ho
    simp only [List.mem_cons, List.not_mem_nil, or_false] at ho
    rcases ho with h | h | h <;> subst h
    · exact feedOctets_wellTyped _ _
    · trivial
    · exact feedOctets_wellTyped _ _)
  ⟨by decide +kernel, trivial⟩ (by decide +kernel)

/-- An attacker that asks one query and returns two messages depending on the answer. -/
def oneQuery : Attacker (Vector (BitVec 8) 2) (Vector (BitVec 8) 2) (List Op × List Op) :=
  .ask .dec #v[1, 2] #v[0, 0] fun y => .done ([feedOctets bigOctetBigBit [y[0].toNat]], [feedOctets bigOctetBigBit [1, 2, y[1].toNat]])

example (f : StateKeyed) (J : Injector) := C126_collision_partial f #v[0, 0] (fun _ s => s) (fun _ _ h => h) (toySizes 8 (by decide)) #v[1, 2] J
  (by decide) oneQuery 1 5 (fun _ => trivial) (by decide)

example (f : StateKeyed) (J : Injector) (target : Bits) := C126_preimage_partial f #v[0, 0] (fun _ s => s) (fun _ _ h => h)
  (toySizes 0 (by decide)) #v[1, 2] J
  (.ask .enc #v[1, 2] #v[5, 0] fun y => .done [feedOctets bigOctetBigBit [y[0].toNat]]) 1 2 (fun _ => trivial) (by decide) target

example (J : Injector) (total : Nat) := C126_long_key_false (w := 8) (n := 1) (keyWords := 2) (fun s x => stateAdder s x) (by decide)
  (by decide) 8 8 bigOctetBigBit #v[1] (List.replicate 8 false) J #v[3] (List.replicate 8 true) rfl total

end Verif.Props
