import Verif.Props.FeedForwardHash
/-
C127: hashes over the Davies–Meyer compressor and any cipher.
-/
namespace Verif.Props
open Spec Spec.Ideal Verif.Ideal

variable {w n k : Nat}

/-- Sizes for which the hash makes sense. -/
structure CipherSizes (w n k L d : Nat) (e : Endian) (d0 : Bits) : Prop where
  word8 : 8 ∣ w
  word : 0 < w
  word64 : w ≤ 64
  block : 0 < k
  wordLength : w ∣ L
  lengthFits : L ≤ k * w
  wordDigest : w ∣ d
  digestFits : d ≤ n * w
  digest0 : d0.length = d
  endian : e = bigOctetBigBit ∨ e = littleOctetBigBit

theorem CipherSizes.args {L d : Nat} {e : Endian} {d0 : Bits} (S : CipherSizes w n k L d e d0)
    (encrypt : Vector (BitVec w) k → Vector (BitVec w) n → Vector (BitVec w) n) (iv : Vector (BitVec w) n) :
    UserArgs (daviesMeyerHash encrypt L d e iv d0) where
  word8 := S.word8
  word := S.word
  word64 := S.word64
  wordBlock := Nat.dvd_mul_left _ _
  block := Nat.mul_pos S.block S.word
  wordLength := S.wordLength
  lengthFits := S.lengthFits
  wordDigest := S.wordDigest
  digestFits s := by
    show d ≤ (e.arrayView s).length
    rw [length_arrayView']
    exact S.digestFits
  digest0 := S.digest0
  endian := S.endian
  marker := ⟨rfl, rfl⟩

/-- **C127.** The construction over the Davies–Meyer compressor and any cipher, keys of any length, computes the iterated hash with
the textbook compression function `h ↦ h + E(block, h)` (Handbook of Applied Cryptography, algorithm 9.42, with addition of words
for the exclusive or), in every program of calls. -/
theorem C127_hash (encrypt : Vector (BitVec w) k → Vector (BitVec w) n → Vector (BitVec w) n) {L d : Nat} {e : Endian} {d0 : Bits}
    (S : CipherSizes w n k L d e d0) (iv : Vector (BitVec w) n) (J : Injector) (garbage : Bits) (hgb : garbage.length = k * w)
    (ops : List Op) (hwt : ∀ op ∈ ops, op.WellTyped (k * w))
    (hgood : GoodExtracts (k * w) (fun m => m.length < 2 ^ (if L = 0 then w else min L 64)) [] ops)
    (hlen : (streamOf (k * w) ops).length < 2 ^ (if L = 0 then w else min L 64)) :
    let M := daviesMeyerHash encrypt L d e iv d0
    let H := iteratedHash (k * w) L d e.littleOctet iv
      (fun (h : Vector (BitVec w) n) b => Vector.ofFn fun i : Fin n => h[i] + (encrypt (Vector.ofFn fun i : Fin k => e.word w b i) h)[i])
      e.arrayView
    ∃ a, runOps (M.constructionU J) J (Acc.init (M.constructionU J) garbage) [] ops = .ok (a, expected (k * w) H [] ops) ∧
      a.result (M.constructionU J) = .ok (H (streamOf (k * w) ops)) := by
  intro M H
  have hH : H = userHash M := by
    funext m
    show iteratedHash _ _ _ _ _ _ _ m = iteratedHash _ _ _ _ _ _ _ m
    congr 1
    funext h b
    apply Vector.ext
    intro i hi
    show _ = (stateAdder _ _)[i]
    apply BitVec.eq_of_toNat_eq
    simp [stateAdder_eq, Sha.plus, BitVec.toNat_add, Endian.words]
  rw [hH]
  exact C125_hash (S.args _ iv) J garbage hgb ops hwt hgood hlen

/-- Number of cipher calls for hashing `m`. -/
def dmCalls (w k L : Nat) (e : Endian) (m : Bits) : Nat := (blocks (k * w) (oneZeroPad (k * w) L e.littleOctet m)).length

/-- The attacker that hashes `m` and returns `r`. -/
def dmHashing {R : Type _} (L : Nat) (e : Endian) (iv : Vector (BitVec w) n) (m : Bits) (r : R) :
    Attacker (Vector (BitVec w) k) (Vector (BitVec w) n) R :=
  walk (e.words w k) (fun v _ => v) stateAdder r (blocks (k * w) (oneZeroPad (k * w) L e.littleOctet m)) iv

/-- The call of the cipher for block `i` of `m`. -/
def dmCall (L : Nat) (e : Endian) (iv : Vector (BitVec w) n) (E : Cipher (Vector (BitVec w) k) (Vector (BitVec w) n)) (m : Bits) (i : Nat)
    (b : Bits) : Vector (BitVec w) k × Vector (BitVec w) n × Vector (BitVec w) n :=
  let h := ((blocks (k * w) (oneZeroPad (k * w) L e.littleOctet m)).take i).foldl
    (fun s b => daviesMeyer (fun k => E k) stateAdder s (e.words w k b)) iv
  (e.words w k b, h, E (e.words w k b) h)

theorem learns_dmHashing {R : Type _} {L : Nat} {e : Endian} {iv : Vector (BitVec w) n} {m : Bits} (r : R)
    (E : Cipher (Vector (BitVec w) k) (Vector (BitVec w) n)) {i : Nat} {b : Bits}
    (hi : (blocks (k * w) (oneZeroPad (k * w) L e.littleOctet m))[i]? = some b) :
    dmCall L e iv E m i b ∈ (dmHashing (k := k) L e iv m r).learns E :=
  learns_walk (e.words w k) (fun v _ => v) stateAdder E r _ iv hi

/-- The first bits of the value that the compressor makes of a cipher call. -/
def dmVal (d : Nat) (e : Endian) (_ : Vector (BitVec w) k) (x y : Vector (BitVec w) n) : Bits := (e.arrayView (stateAdder x y)).take d

theorem dmVal_fibers {d : Nat} {e : Endian} (h8 : 8 ∣ w) : Fibers (dmVal (w := w) (k := k) (n := n) d e) (2 ^ (n * w - d)) :=
  ⟨fun _ x t => card_take_le _ ((arrayView_injective _ h8).comp (stateAdder_right_injective x)) (fun _ => length_arrayView' _ _) t,
    fun _ y t => card_take_le _ ((arrayView_injective _ h8).comp (stateAdder_left_injective y)) (fun _ => length_arrayView' _ _) t⟩

section games
variable {L d : Nat} {e : Endian} {d0 : Bits} (S : CipherSizes w n k L d e d0) (iv : Vector (BitVec w) n) (J : Injector)

include S in
/-- **C127, collisions.** With a random cipher, an attacker with `q` queries makes the library return the same digest for different
messages of together `l` blocks with probability at most `(q + l) (q + l - 1) / 2` times `2^-digest`, up to the factor
`2^state / (2^state - q - l)`. -/
theorem C127_collision (hL : 0 < L) (A : Attacker (Vector (BitVec w) k) (Vector (BitVec w) n) (List Op × List Op)) (q l : Nat)
    (hA : A.AtMost q) (hq : q + l < 2 ^ (n * w)) :
    prob (fun E => UserColliding (daviesMeyerHash (fun k => E k) L d e iv d0) J (A.result E).1 (A.result E).2 ∧
      dmCalls w k L e (streamOf (k * w) (A.result E).1) + dmCalls w k L e (streamOf (k * w) (A.result E).2) ≤ l) ≤
      ((q + l) * (q + l - 1) / 2 * 2 ^ (n * w - d) : ℚ) / (2 ^ (n * w) - (q + l)) := by
  let g : List Op × List Op → Attacker (Vector (BitVec w) k) (Vector (BitVec w) n) (List Op × List Op) := fun r =>
    if dmCalls w k L e (streamOf (k * w) r.1) + dmCalls w k L e (streamOf (k * w) r.2) ≤ l then
      andThen (dmHashing L e iv (streamOf (k * w) r.1) r) fun _ => dmHashing L e iv (streamOf (k * w) r.2) r
    else .done r
  have hg : ∀ r, (g r).AtMost l := by
    intro r
    show (ite _ _ _ : Attacker _ _ _).AtMost l
    split
    · rename_i hl
      exact atMost_mono (atMost_andThen (atMost_walk _ _ _ _ _ _) fun _ => atMost_walk _ _ _ _ _ _) hl
    · trivial
  refine le_trans (collision_bound (dmVal_fibers (k := k) (n := n) (d := d) (e := e) S.word8) (andThen A g) (q + l) (atMost_andThen hA hg)
    (by rw [card_words]; exact hq) _ ?_) (le_of_eq (by rw [card_words]; push_cast; rfl))
  rintro E ⟨hC, hl⟩
  have hB : 0 < k * w := Nat.mul_pos S.block S.word
  have h1 : ∀ {i b}, (blocks (k * w) (oneZeroPad (k * w) L e.littleOctet (streamOf (k * w) (A.result E).1)))[i]? = some b →
      dmCall L e iv E (streamOf (k * w) (A.result E).1) i b ∈ (andThen A g).learns E := by
    intro i b hi
    rw [learns_andThen]
    refine List.mem_append_right _ ?_
    show _ ∈ (ite _ _ _ : Attacker _ _ _).learns E
    rw [if_pos hl, learns_andThen]
    exact List.mem_append_left _ (learns_dmHashing _ E hi)
  have h2 : ∀ {i b}, (blocks (k * w) (oneZeroPad (k * w) L e.littleOctet (streamOf (k * w) (A.result E).2)))[i]? = some b →
      dmCall L e iv E (streamOf (k * w) (A.result E).2) i b ∈ (andThen A g).learns E := by
    intro i b hi
    rw [learns_andThen]
    refine List.mem_append_right _ ?_
    show _ ∈ (ite _ _ _ : Attacker _ _ _).learns E
    rw [if_pos hl, learns_andThen]
    exact List.mem_append_right _ (learns_dmHashing _ E hi)
  rcases C125_collision (S.args (fun k => E k) iv) hL J hC with hcol | ⟨hne, htake⟩
  · obtain ⟨i, j, b, b', hi, hj, hne, heq⟩ := hcol
    refine ⟨_, h1 hi, _, h2 hj, ?_, ?_⟩
    · intro he
      exact hne (Prod.ext (Prod.mk.inj he).2 (endianWords_injective e S.word8 (length_of_mem_blocks (List.mem_of_getElem? hi))
        (length_of_mem_blocks (List.mem_of_getElem? hj)) (Prod.mk.inj he).1))
    · exact congrArg (fun v => (e.arrayView v).take d) heq
  · obtain ⟨i, b, hi, hf⟩ := last_oneZeroPad hB L e.littleOctet (streamOf (k * w) (A.result E).1)
    obtain ⟨j, b', hj, hf'⟩ := last_oneZeroPad hB L e.littleOctet (streamOf (k * w) (A.result E).2)
    refine ⟨_, h1 hi, _, h2 hj, ?_, ?_⟩
    · intro he
      have hb : b = b' := endianWords_injective e S.word8 (length_of_mem_blocks (List.mem_of_getElem? hi))
        (length_of_mem_blocks (List.mem_of_getElem? hj)) (Prod.mk.inj he).1
      refine hne ((hf _ _).trans (Eq.trans ?_ (hf' _ _).symm))
      rw [hb]
      exact congrArg (fun s => daviesMeyer (fun k => E k) stateAdder s (e.words w k b')) (Prod.mk.inj he).2
    · have e1 := hf (fun s b => daviesMeyer (fun k => E k) stateAdder s (e.words w k b)) iv
      have e2 := hf' (fun s b => daviesMeyer (fun k => E k) stateAdder s (e.words w k b)) iv
      exact (congrArg (fun v => (e.arrayView v).take d) e1).symm.trans (htake.trans (congrArg (fun v => (e.arrayView v).take d) e2))

include S in
/-- **C127, preimages.** The digest is a prescribed one with probability at most `(q + l)` times `2^-digest`, up to the same
factor; here the length field may be empty. -/
theorem C127_preimage (A : Attacker (Vector (BitVec w) k) (Vector (BitVec w) n) (List Op)) (q l : Nat) (hA : A.AtMost q)
    (hq : q + l < 2 ^ (n * w)) (target : Bits) :
    prob (fun E => UserPreimage (daviesMeyerHash (fun k => E k) L d e iv d0) J target (A.result E) ∧
      dmCalls w k L e (streamOf (k * w) (A.result E)) ≤ l) ≤
      ((q + l) * 2 ^ (n * w - d) : ℚ) / (2 ^ (n * w) - (q + l)) := by
  let g : List Op → Attacker (Vector (BitVec w) k) (Vector (BitVec w) n) (List Op) := fun r =>
    if dmCalls w k L e (streamOf (k * w) r) ≤ l then dmHashing L e iv (streamOf (k * w) r) r else .done r
  have hg : ∀ r, (g r).AtMost l := by
    intro r
    show (ite _ _ _ : Attacker _ _ _).AtMost l
    split
    · rename_i hl
      exact atMost_mono (atMost_walk _ _ _ _ _ _) hl
    · trivial
  refine le_trans (preimage_bound (dmVal_fibers (k := k) (n := n) (d := d) (e := e) S.word8) (andThen A g) (q + l) (atMost_andThen hA hg)
    (by rw [card_words]; exact hq) target _ ?_) (le_of_eq (by rw [card_words]; push_cast; rfl))
  rintro E ⟨hP, hl⟩
  have hB : 0 < k * w := Nat.mul_pos S.block S.word
  obtain ⟨gb, hgb, hdig⟩ := hP.digest
  obtain ⟨a, e1, r⟩ := C125_hash (S.args (fun k => E k) iv) J gb hgb _ hP.wellTyped hP.extracts hP.short
  obtain ⟨i, b, hi, hf⟩ := last_oneZeroPad hB L e.littleOctet (streamOf (k * w) (A.result E))
  refine ⟨dmCall L e iv E (streamOf (k * w) (A.result E)) i b, ?_, ?_⟩
  · rw [learns_andThen]
    refine List.mem_append_right _ ?_
    show _ ∈ (ite _ _ _ : Attacker _ _ _).learns E
    rw [if_pos hl]
    exact learns_dmHashing _ E hi
  · rw [e1] at hdig
    change a.result ((daviesMeyerHash (fun k => E k) L d e iv d0).constructionU J) = _ at hdig
    rw [r] at hdig
    injection hdig with hdig
    have h1 := hf (fun s b => daviesMeyer (fun k => E k) stateAdder s (e.words w k b)) iv
    exact (congrArg (fun v => (e.arrayView v).take d) h1).symm.trans hdig

end games

/-! ### Examples -/

/-- Blocks of three octets, keys of two, a digest of two. -/
theorem toyCipherSizes (L : Nat) (hL : L = 0 ∨ L = 8) : CipherSizes 8 3 2 L 16 littleOctetBigBit (List.replicate 16 false) where
  word8 := by decide
  word := by decide
  word64 := by decide
  block := by decide
  wordLength := by omega
  lengthFits := by omega
  wordDigest := by decide
  digestFits := by decide
  digest0 := rfl
  endian := Or.inr rfl

example (J : Injector) := C127_hash (fun (k : Vector (BitVec 8) 2) (x : Vector (BitVec 8) 3) => stateAdder x k)
  (toyCipherSizes 8 (by decide)) #v[1, 2, 3] J (List.replicate 16 true) rfl
  [feedOctets littleOctetBigBit [1], .extract, feedOctets littleOctetBigBit [2, 3]]
  (by
    intro op ho
    simp only [List.mem_cons, List.not_mem_nil, or_false] at ho
    rcases ho with h | h | h <;> subst h
    · exact feedOctets_wellTyped _ _
    · trivial
    · exact feedOctets_wellTyped _ _)
  ⟨by decide +kernel, trivial⟩ (by decide +kernel)

example (J : Injector) := C127_collision (toyCipherSizes 8 (by decide)) #v[1, 2, 3] J (by decide)
  (.ask .dec #v[1, 2] #v[0, 0, 0] fun y => .done ([feedOctets littleOctetBigBit [y[0].toNat]],
    [feedOctets littleOctetBigBit [1, 2, y[1].toNat]])) 1 5 (fun _ => trivial) (by decide)

example (J : Injector) (target : Bits) := C127_preimage (toyCipherSizes 0 (by decide)) #v[1, 2, 3] J
  (.ask .enc #v[1, 2] #v[5, 0, 0] fun y => .done [feedOctets littleOctetBigBit [y[0].toNat]]) 1 2 (fun _ => trivial) (by decide) target

end Verif.Props
