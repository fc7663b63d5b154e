import Verif.Proof.BirthdayBound
import Verif.Proof.Walk
import Verif.Props.Extension
import Verif.Props.MerkleDamgard2
import Verif.Props.Modes
/-
C91: collisions and preimages of the Davies–Meyer hashes of the library, and of the three compression modes, when the block
cipher is random.
-/
namespace Verif.Props

open Spec Spec.Ideal Verif.Ideal

variable {w n : Nat}

/-! ### Counting -/

theorem stateAdder_right_injective (x : Vector (BitVec w) n) : Function.Injective fun y : Vector (BitVec w) n => stateAdder x y := by
  intro y y' h
  apply Vector.ext
  intro i hi
  have := congrArg (fun v : Vector (BitVec w) n => v[i]) h
  simp only [stateAdder_get _ _ i hi, dif_pos hi] at this
  exact (BitVec.add_right_inj _).1 this

theorem stateAdder_left_injective (y : Vector (BitVec w) n) : Function.Injective fun x : Vector (BitVec w) n => stateAdder x y := by
  intro x x' h
  apply Vector.ext
  intro i hi
  have := congrArg (fun v : Vector (BitVec w) n => v[i]) h
  simp only [stateAdder_get _ _ i hi, dif_pos hi] at this
  exact (BitVec.add_left_inj _).1 this

theorem arrayView_injective (e : Endian) (h8 : 8 ∣ w) : Function.Injective (e.arrayView : Vector (BitVec w) n → Bits) := by
  intro v v' h
  rw [← word_arrayView e h8 v, ← word_arrayView e h8 v', h]

/-- Strings of `L` bits with given first `d` bits. -/
theorem card_take_le {X : Type} [Fintype X] [DecidableEq X] (f : X → Bits) (hf : Function.Injective f) {L d : Nat}
    (hL : ∀ x, (f x).length = L) (t : Bits) : (Finset.univ.filter fun x => (f x).take d = t).card ≤ 2 ^ (L - d) := by
  have hc : Fintype.card (Fin (L - d) → Bool) = 2 ^ (L - d) := by
    rw [Fintype.card_fun, Fintype.card_bool, Fintype.card_fin]
  rw [← hc, ← Finset.card_univ]
  refine Finset.card_le_card_of_injOn (fun x (i : Fin (L - d)) => (f x).getD (d + i) false) (fun _ _ => Finset.mem_coe.2 (Finset.mem_univ _)) ?_
  intro x hx y hy hxy
  rw [Finset.mem_coe, Finset.mem_filter] at hx hy
  apply hf
  apply List.ext_getElem?
  intro i
  by_cases hi : i < d
  · have := congrArg (fun l : Bits => l[i]?) (hx.2.trans hy.2.symm)
    simpa [List.getElem?_take, hi] using this
  · by_cases hiL : i < L
    · have := congrFun hxy ⟨i - d, by omega⟩
      simp only [List.getD_eq_getElem?_getD, show d + (i - d) = i by omega] at this
      rw [List.getElem?_eq_getElem (by rw [hL]; exact hiL), List.getElem?_eq_getElem (by rw [hL]; exact hiL)] at this ⊢
      simpa using this
    · rw [List.getElem?_eq_none (by rw [hL]; omega), List.getElem?_eq_none (by rw [hL]; omega)]

theorem card_injective_le {X D : Type} [Fintype X] [DecidableEq X] [DecidableEq D] (f : X → D) (hf : Function.Injective f) (t : D) :
    (Finset.univ.filter fun x => f x = t).card ≤ 1 := by
  refine Finset.card_le_one.2 fun a ha b hb => ?_
  rw [Finset.mem_filter] at ha hb
  exact hf (ha.2.trans hb.2.symm)

theorem collision_words {K D R : Type} [Fintype K] [DecidableEq K] [DecidableEq D]
    {val : K → Vector (BitVec w) n → Vector (BitVec w) n → D} (H : Fibers val 1)
    (A : Attacker K (Vector (BitVec w) n) R) (q : Nat) (hA : A.AtMost q) (hq : q < 2 ^ (n * w))
    (p : Cipher K (Vector (BitVec w) n) → Prop)
    (hp : ∀ E, p E → ∃ s ∈ A.learns E, ∃ t ∈ A.learns E, (s.1, s.2.1) ≠ (t.1, t.2.1) ∧
      val s.1 s.2.1 s.2.2 = val t.1 t.2.1 t.2.2) : prob p ≤ (q * (q - 1) / 2 : ℚ) / (2 ^ (n * w) - q) := by
  have := collision_bound H A q hA (by rw [card_words]; exact hq) p hp
  rw [card_words] at this
  push_cast at this
  rwa [mul_one] at this

/-! ### The compression modes -/

section modes
variable {K : Type} [Fintype K] [DecidableEq K]

/-- **C91, Davies–Meyer.** An attacker with `q` queries to a random cipher that computes both of its results finds a collision of
the compressor with probability at most `q (q - 1) / 2 / (2^(n w) - q)`. -/
theorem C91_davies_meyer (A : Attacker K (Vector (BitVec w) n) ((Vector (BitVec w) n × K) × (Vector (BitVec w) n × K))) (q : Nat)
    (hA : A.AtMost q) (hq : q < 2 ^ (n * w)) :
    prob (fun E =>
      let a := (A.result E).1
      let b := (A.result E).2
      a ≠ b ∧ daviesMeyer (fun k => E k) stateAdder a.1 a.2 = daviesMeyer (fun k => E k) stateAdder b.1 b.2 ∧
        (a.2, a.1, E a.2 a.1) ∈ A.learns E ∧ (b.2, b.1, E b.2 b.1) ∈ A.learns E) ≤
      (q * (q - 1) / 2 : ℚ) / (2 ^ (n * w) - q) := by
  have H : Fibers (fun (_ : K) (x y : Vector (BitVec w) n) => stateAdder x y) 1 :=
    ⟨fun _ x t => card_injective_le _ (stateAdder_right_injective x) t, fun _ y t => card_injective_le _ (stateAdder_left_injective y) t⟩
  refine collision_words H A q hA hq _ fun E hE => ?_
  obtain ⟨hne, hc, ha, hb⟩ := hE
  refine ⟨_, ha, _, hb, ?_, hc⟩
  intro he
  exact hne (Prod.ext (Prod.mk.inj he).2 (Prod.mk.inj he).1)

/-- **C91, Matyas–Meyer–Oseas**, for a key converter that is injective on the states. -/
theorem C91_matyas_meyer_oseas (zero : K) (conv : K → Vector (BitVec w) n → K) (hconv : Function.Injective (conv zero))
    (A : Attacker K (Vector (BitVec w) n) ((Vector (BitVec w) n × Vector (BitVec w) n) × (Vector (BitVec w) n × Vector (BitVec w) n)))
    (q : Nat) (hA : A.AtMost q) (hq : q < 2 ^ (n * w)) :
    prob (fun E =>
      let a := (A.result E).1
      let b := (A.result E).2
      a ≠ b ∧ matyasMeyerOseas (fun k => E k) stateAdder zero conv a.1 a.2 =
          matyasMeyerOseas (fun k => E k) stateAdder zero conv b.1 b.2 ∧
        (conv zero a.1, a.2, E (conv zero a.1) a.2) ∈ A.learns E ∧ (conv zero b.1, b.2, E (conv zero b.1) b.2) ∈ A.learns E) ≤
      (q * (q - 1) / 2 : ℚ) / (2 ^ (n * w) - q) := by
  have H : Fibers (fun (_ : K) (x y : Vector (BitVec w) n) => stateAdder y x) 1 :=
    ⟨fun _ x t => card_injective_le _ (stateAdder_left_injective x) t, fun _ y t => card_injective_le _ (stateAdder_right_injective y) t⟩
  refine collision_words H A q hA hq _ fun E hE => ?_
  obtain ⟨hne, hc, ha, hb⟩ := hE
  refine ⟨_, ha, _, hb, ?_, hc⟩
  intro he
  exact hne (Prod.ext (hconv (Prod.mk.inj he).1) (Prod.mk.inj he).2)

/-- **C91, Miyaguchi–Preneel**, for a key converter that is injective on the states. -/
theorem C91_miyaguchi_preneel (zero : K) (conv : K → Vector (BitVec w) n → K) (hconv : Function.Injective (conv zero))
    (A : Attacker K (Vector (BitVec w) n) ((Vector (BitVec w) n × Vector (BitVec w) n) × (Vector (BitVec w) n × Vector (BitVec w) n)))
    (q : Nat) (hA : A.AtMost q) (hq : q < 2 ^ (n * w)) :
    prob (fun E =>
      let a := (A.result E).1
      let b := (A.result E).2
      a ≠ b ∧ miyaguchiPreneel (fun k => E k) stateAdder zero conv a.1 a.2 =
          miyaguchiPreneel (fun k => E k) stateAdder zero conv b.1 b.2 ∧
        (conv zero a.1, a.2, E (conv zero a.1) a.2) ∈ A.learns E ∧ (conv zero b.1, b.2, E (conv zero b.1) b.2) ∈ A.learns E) ≤
      (q * (q - 1) / 2 : ℚ) / (2 ^ (n * w) - q) := by
  have hinv : ∀ s, Function.invFun (conv zero) (conv zero s) = s := Function.leftInverse_invFun hconv
  have H : Fibers (fun (k : K) (x y : Vector (BitVec w) n) => stateAdder (stateAdder (Function.invFun (conv zero) k) y) x) 1 :=
    ⟨fun k x t => card_injective_le _ ((stateAdder_left_injective x).comp (stateAdder_right_injective (Function.invFun (conv zero) k))) t,
      fun _ y t => card_injective_le _ (stateAdder_right_injective _) t⟩
  refine collision_words H A q hA hq _ fun E hE => ?_
  obtain ⟨hne, hc, ha, hb⟩ := hE
  refine ⟨_, ha, _, hb, ?_, ?_⟩
  · intro he
    exact hne (Prod.ext (hconv (Prod.mk.inj he).1) (Prod.mk.inj he).2)
  · simp only [hinv]
    exact hc

/-- The hypothesis on the key converter is needed: two states with the same key collide under every cipher, for every block. -/
theorem C91_converter_needed (encrypt : K → Vector (BitVec w) n → Vector (BitVec w) n) (zero : K)
    (conv : K → Vector (BitVec w) n → K) (H H' m : Vector (BitVec w) n) (h : conv zero H = conv zero H') :
    matyasMeyerOseas encrypt stateAdder zero conv H m = matyasMeyerOseas encrypt stateAdder zero conv H' m := by
  unfold matyasMeyerOseas
  rw [h]

end modes

/-! ### The hashes -/

/-- The key that the compressor makes of a block. -/
def keyOf (h : MDHash) (w : Nat) (b : Bits) : Vector (BitVec w) 16 := Vector.ofFn fun i : Fin 16 => h.policy.endian.word w b i

theorem keyOf_injective (h : MDHash) {w : Nat} (h8 : 8 ∣ w) {b b' : Bits} (hb : b.length = 16 * w) (hb' : b'.length = 16 * w)
    (e : keyOf h w b = keyOf h w b') : b = b' := by
  apply List.ext_getElem?
  intro j
  by_cases hj : j < 16 * w
  · have hw : 0 < w := by
      rcases Nat.eq_zero_or_pos w with rfl | h
      · omega
      · exact h
    have hi : j / w < 16 := Nat.div_lt_of_lt_mul (by rw [Nat.mul_comm]; exact hj)
    have hq : j % w < w := Nat.mod_lt _ hw
    have hp := h.policy.endian.pos_lt h8 hq
    have h1 := congrArg (fun v : Vector (BitVec w) 16 => v[j / w].getLsbD (h.policy.endian.pos w (j % w))) e
    simp only [keyOf, Vector.getElem_ofFn, Endian.word, BitVec.getLsbD_ofFnLE, dif_pos hp, h.policy.endian.pos_pos h8 hq,
      Nat.div_add_mod] at h1
    rw [List.getD_eq_getElem?_getD, List.getD_eq_getElem?_getD, List.getElem?_eq_getElem (by omega),
      List.getElem?_eq_getElem (by omega)] at h1
    rw [List.getElem?_eq_getElem (by omega), List.getElem?_eq_getElem (by omega)]
    simpa using h1
  · rw [List.getElem?_eq_none (by omega), List.getElem?_eq_none (by omega)]

/-- Two programs of calls that feed different messages, of lengths that the hash supports, and obtain the same digest. -/
structure Colliding {h : MDHash} {σ : Type} (I : MDInst h σ) (J : Injector) (ops ops' : List Op) : Prop where
  wellTyped : ∀ op ∈ ops ++ ops', op.WellTyped h.policy.blockBits
  extracts : GoodExtracts h.policy.blockBits (GoodMsg h) [] ops ∧ GoodExtracts h.policy.blockBits (GoodMsg h) [] ops'
  good : GoodMsg h (streamOf h.policy.blockBits ops) ∧ GoodMsg h (streamOf h.policy.blockBits ops')
  short : (streamOf h.policy.blockBits ops).length < 2 ^ 64 ∧ (streamOf h.policy.blockBits ops').length < 2 ^ 64
  different : streamOf h.policy.blockBits ops ≠ streamOf h.policy.blockBits ops'
  digest : ∃ garbage garbage' : Bits, garbage.length = h.policy.blockBits ∧ garbage'.length = h.policy.blockBits ∧
    (do let (a, _) ← runOps (I.C J) J (Acc.init (I.C J) garbage) [] ops
        a.result (I.C J)) =
    (do let (a, _) ← runOps (I.C J) J (Acc.init (I.C J) garbage') [] ops'
        a.result (I.C J))

/-- The chaining value before block `i` of the padded message. -/
def chaining (h : MDHash) (iv : Vector (BitVec w) n) (E : Cipher (Vector (BitVec w) 16) (Vector (BitVec w) n)) (m : Bits) (i : Nat) :
    Vector (BitVec w) n :=
  ((blocks (standard h).block (paddedMessage h m)).take i).foldl (daviesMeyerAdd h.policy.endian fun k => E k) iv

/-- All cipher calls for hashing `m` are among the triples `L`. -/
def Evaluated (h : MDHash) (iv : Vector (BitVec w) n) (E : Cipher (Vector (BitVec w) 16) (Vector (BitVec w) n))
    (L : List (Vector (BitVec w) 16 × Vector (BitVec w) n × Vector (BitVec w) n)) (m : Bits) : Prop :=
  ∀ i b, (blocks (standard h).block (paddedMessage h m))[i]? = some b →
    (keyOf h w b, chaining h iv E m i, E (keyOf h w b) (chaining h iv E m i)) ∈ L

theorem last_block (h : MDHash) (m : Bits) : ∃ i b, (blocks (standard h).block (paddedMessage h m))[i]? = some b ∧
    ∀ {σ : Type} (f : σ → Bits → σ) (iv : σ), (blocks (standard h).block (paddedMessage h m)).foldl f iv =
      f (((blocks (standard h).block (paddedMessage h m)).take i).foldl f iv) b := by
  have hB : 0 < (standard h).block := by cases h <;> decide
  have hLp : 0 < (standard h).length := by cases h <;> decide
  have hd : (standard h).block ∣ (paddedMessage h m).length := by rw [length_paddedMessage]; exact fillTo_spec hB _
  have hp : 0 < (paddedMessage h m).length := by rw [length_paddedMessage]; omega
  rw [blocks_eq_snoc hB hd hp]
  refine ⟨_, _, List.getElem?_concat_length .., ?_⟩
  intro σ f iv
  rw [List.foldl_append, List.take_left']
  · rfl
  · rfl

/-- **C91, hashes.** For SHA-0, SHA-1, SHA-2, MD4 and MD5 as the library builds them from a block cipher: an attacker that asks
at most `q` queries to a random cipher, those for hashing its own two messages included, makes the library return the same
digest for different messages with probability at most `q (q - 1) / 2` times `2^-digest`, up to the factor
`2^state / (2^state - q)`. -/
theorem C91_collision (h : MDHash) (h8 : 8 ∣ w) (hw : h.policy.stateBits = n * w) (hb : (standard h).block = 16 * w)
    (iv : Vector (BitVec w) n) (d0 : Bits) (hd : d0.length = h.policy.digestBits) (J : Injector)
    (A : Attacker (Vector (BitVec w) 16) (Vector (BitVec w) n) (List Op × List Op)) (q : Nat) (hA : A.AtMost q)
    (hq : q < 2 ^ (n * w)) :
    prob (fun E => Colliding (cipherHash h hw iv (fun k => E k) d0 hd) J (A.result E).1 (A.result E).2 ∧
      Evaluated h iv E (A.learns E) (streamOf h.policy.blockBits (A.result E).1) ∧
      Evaluated h iv E (A.learns E) (streamOf h.policy.blockBits (A.result E).2)) ≤
      (q * (q - 1) / 2 * 2 ^ (n * w - (standard h).digest) : ℚ) / (2 ^ (n * w) - q) := by
  have H : Fibers (fun (_ : Vector (BitVec w) 16) (x y : Vector (BitVec w) n) =>
      (h.policy.endian.arrayView (stateAdder x y)).take (standard h).digest) (2 ^ (n * w - (standard h).digest)) :=
    ⟨fun _ x t => card_take_le _ ((arrayView_injective _ h8).comp (stateAdder_right_injective x)) (fun _ => length_arrayView' _ _) t,
      fun _ y t => card_take_le _ ((arrayView_injective _ h8).comp (stateAdder_left_injective y)) (fun _ => length_arrayView' _ _) t⟩
  refine le_trans (collision_bound H A q hA (by rw [card_words]; exact hq) _ ?_) (le_of_eq (by rw [card_words]; push_cast; rfl))
  rintro E ⟨hC, hE, hE'⟩
  obtain ⟨g, g', hg, hg', hdig⟩ := hC.digest
  rcases C17_truncated (cipherHash h hw iv (fun k => E k) d0 hd) J g g' hg hg' _ _
    (fun op ho => hC.wellTyped op (List.mem_append_left _ ho)) (fun op ho => hC.wellTyped op (List.mem_append_right _ ho))
    hC.extracts.1 hC.extracts.2
    hC.good.1 hC.good.2 hC.short.1 hC.short.2 hC.different hdig with hcol | ⟨hne, htake⟩
  · obtain ⟨i, j, b, b', hi, hj, hne, heq⟩ := hcol
    refine ⟨_, hE i b hi, _, hE' j b' hj, ?_, ?_⟩
    · intro he
      have hbk := keyOf_injective h h8 (by rw [← hb]; exact length_of_mem_blocks (List.mem_of_getElem? hi))
        (by rw [← hb]; exact length_of_mem_blocks (List.mem_of_getElem? hj)) (Prod.mk.inj he).1
      exact hne (Prod.ext (Prod.mk.inj he).2 hbk)
    · exact congrArg (fun v => (h.policy.endian.arrayView v).take (standard h).digest) heq
  · obtain ⟨i, b, hi, hf⟩ := last_block h (streamOf h.policy.blockBits (A.result E).1)
    obtain ⟨j, b', hj, hf'⟩ := last_block h (streamOf h.policy.blockBits (A.result E).2)
    rw [hf, hf'] at hne htake
    refine ⟨_, hE i b hi, _, hE' j b' hj, ?_, htake⟩
    intro he
    apply hne
    show stateAdder _ _ = stateAdder _ _
    have h1 : chaining h iv E (streamOf h.policy.blockBits (A.result E).1) i =
      chaining h iv E (streamOf h.policy.blockBits (A.result E).2) j := (Prod.mk.inj he).2
    have h2 := (Prod.mk.inj he).1
    show stateAdder (chaining h iv E _ i) (E (keyOf h w b) (chaining h iv E _ i)) =
      stateAdder (chaining h iv E _ j) (E (keyOf h w b') (chaining h iv E _ j))
    rw [h1]
    congr 2
    exact congrArg E h2

/-- Number of cipher calls for hashing `m`. -/
def callsFor (h : MDHash) (m : Bits) : Nat := (blocks (standard h).block (paddedMessage h m)).length

/-- The attacker that hashes `m` and returns `r`. -/
def hashing {R : Type _} (h : MDHash) (iv : Vector (BitVec w) n) (m : Bits) (r : R) :
    Attacker (Vector (BitVec w) 16) (Vector (BitVec w) n) R :=
  walk (keyOf h w) (fun v _ => v) stateAdder r (blocks (standard h).block (paddedMessage h m)) iv

theorem evaluated_hashing {R : Type _} (h : MDHash) (iv : Vector (BitVec w) n) (m : Bits) (r : R)
    (E : Cipher (Vector (BitVec w) 16) (Vector (BitVec w) n)) : Evaluated h iv E ((hashing h iv m r).learns E) m := fun _ _ hi =>
  learns_walk (keyOf h w) (fun v _ => v) stateAdder E r _ iv hi

/-- **C91, hashes, any attacker.** The bound without the assumption that the attacker hashes its own messages: their blocks, at
most `l`, are counted as queries. -/
theorem C91_collision_any (h : MDHash) (h8 : 8 ∣ w) (hw : h.policy.stateBits = n * w) (hb : (standard h).block = 16 * w)
    (iv : Vector (BitVec w) n) (d0 : Bits) (hd : d0.length = h.policy.digestBits) (J : Injector)
    (A : Attacker (Vector (BitVec w) 16) (Vector (BitVec w) n) (List Op × List Op)) (q l : Nat) (hA : A.AtMost q)
    (hq : q + l < 2 ^ (n * w)) :
    prob (fun E => Colliding (cipherHash h hw iv (fun k => E k) d0 hd) J (A.result E).1 (A.result E).2 ∧
      callsFor h (streamOf h.policy.blockBits (A.result E).1) + callsFor h (streamOf h.policy.blockBits (A.result E).2) ≤ l) ≤
      ((q + l) * (q + l - 1) / 2 * 2 ^ (n * w - (standard h).digest) : ℚ) / (2 ^ (n * w) - (q + l)) := by
  let f : List Op × List Op → Attacker (Vector (BitVec w) 16) (Vector (BitVec w) n) (List Op × List Op) := fun r =>
    if callsFor h (streamOf h.policy.blockBits r.1) + callsFor h (streamOf h.policy.blockBits r.2) ≤ l then
      andThen (hashing h iv (streamOf h.policy.blockBits r.1) r) fun _ => hashing h iv (streamOf h.policy.blockBits r.2) r
    else .done r
  have hf : ∀ r, (f r).AtMost l := by
    intro r
    show (ite _ _ _ : Attacker _ _ _).AtMost l
    split
    · rename_i hl
      refine atMost_mono (q := callsFor h (streamOf h.policy.blockBits r.1) + callsFor h (streamOf h.policy.blockBits r.2)) ?_ hl
      exact atMost_andThen (atMost_walk _ _ _ _ _ _) fun _ => atMost_walk _ _ _ _ _ _
    · trivial
  have hr : ∀ E r, (f r).result E = r := by
    intro E r
    show (ite _ _ _ : Attacker _ _ _).result E = r
    split
    · rw [result_andThen, hashing, result_walk]
    · rfl
  have hres : ∀ E, (andThen A f).result E = A.result E := fun E => by rw [result_andThen, hr]
  have key := C91_collision h h8 hw hb iv d0 hd J (andThen A f) (q + l) (atMost_andThen hA hf) hq
  simp only [hres] at key
  refine le_trans (prob_mono fun E hE => ⟨hE.1, ?_, ?_⟩) (le_trans key (le_of_eq (by push_cast; rfl)))
  · intro i b hi
    rw [learns_andThen]
    refine List.mem_append_right _ ?_
    show _ ∈ (ite _ _ _ : Attacker _ _ _).learns E
    rw [if_pos hE.2, learns_andThen]
    exact List.mem_append_left _ (evaluated_hashing h iv _ _ E i b hi)
  · intro i b hi
    rw [learns_andThen]
    refine List.mem_append_right _ ?_
    show _ ∈ (ite _ _ _ : Attacker _ _ _).learns E
    rw [if_pos hE.2, learns_andThen]
    refine List.mem_append_right _ ?_
    exact evaluated_hashing h iv _ _ E i b hi

/-- **C91, preimages.** The probability that the library returns a given digest for the message of the attacker. -/
theorem C91_preimage (h : MDHash) (h8 : 8 ∣ w) (hw : h.policy.stateBits = n * w)
    (iv : Vector (BitVec w) n) (d0 : Bits) (hd : d0.length = h.policy.digestBits) (J : Injector)
    (A : Attacker (Vector (BitVec w) 16) (Vector (BitVec w) n) (List Op)) (q : Nat) (hA : A.AtMost q)
    (hq : q < 2 ^ (n * w)) (target garbage : Bits) (hgb : garbage.length = h.policy.blockBits) :
    prob (fun E => (∀ op ∈ A.result E, op.WellTyped h.policy.blockBits) ∧ GoodExtracts h.policy.blockBits (GoodMsg h) [] (A.result E) ∧
      GoodMsg h (streamOf h.policy.blockBits (A.result E)) ∧
      (do let (a, _) ← runOps ((cipherHash h hw iv (fun k => E k) d0 hd).C J) J
            (Acc.init ((cipherHash h hw iv (fun k => E k) d0 hd).C J) garbage) [] (A.result E)
          a.result ((cipherHash h hw iv (fun k => E k) d0 hd).C J)) = .ok target ∧
      Evaluated h iv E (A.learns E) (streamOf h.policy.blockBits (A.result E))) ≤
      (q * 2 ^ (n * w - (standard h).digest) : ℚ) / (2 ^ (n * w) - q) := by
  have H : Fibers (fun (_ : Vector (BitVec w) 16) (x y : Vector (BitVec w) n) =>
      (h.policy.endian.arrayView (stateAdder x y)).take (standard h).digest) (2 ^ (n * w - (standard h).digest)) :=
    ⟨fun _ x t => card_take_le _ ((arrayView_injective _ h8).comp (stateAdder_right_injective x)) (fun _ => length_arrayView' _ _) t,
      fun _ y t => card_take_le _ ((arrayView_injective _ h8).comp (stateAdder_left_injective y)) (fun _ => length_arrayView' _ _) t⟩
  refine le_trans (preimage_bound H A q hA (by rw [card_words]; exact hq) target _ ?_) (le_of_eq (by rw [card_words]; push_cast; rfl))
  rintro E ⟨hwt, hx, hg, hres, hE⟩
  obtain ⟨a, e, r⟩ := (cipherHash h hw iv (fun k => E k) d0 hd).runOps J (A.result E) hwt
    ((cipherHash h hw iv (fun k => E k) d0 hd).init J garbage hgb) hx []
  rw [e] at hres
  change a.result ((cipherHash h hw iv (fun k => E k) d0 hd).C J) = .ok target at hres
  rw [List.nil_append] at r
  rw [(cipherHash h hw iv (fun k => E k) d0 hd).computes J a _ r hg] at hres
  injection hres with hres
  obtain ⟨i, b, hi, hf⟩ := last_block h (streamOf h.policy.blockBits (A.result E))
  refine ⟨_, hE i b hi, ?_⟩
  rw [← hres]
  show _ = ((h.policy.endian.arrayView ((blocks (standard h).block (paddedMessage h _)).foldl _ iv)).take _)
  rw [hf]
  rfl

/-- **C91, preimages, any attacker.** -/
theorem C91_preimage_any (h : MDHash) (h8 : 8 ∣ w) (hw : h.policy.stateBits = n * w)
    (iv : Vector (BitVec w) n) (d0 : Bits) (hd : d0.length = h.policy.digestBits) (J : Injector)
    (A : Attacker (Vector (BitVec w) 16) (Vector (BitVec w) n) (List Op)) (q l : Nat) (hA : A.AtMost q)
    (hq : q + l < 2 ^ (n * w)) (target garbage : Bits) (hgb : garbage.length = h.policy.blockBits) :
    prob (fun E => (∀ op ∈ A.result E, op.WellTyped h.policy.blockBits) ∧ GoodExtracts h.policy.blockBits (GoodMsg h) [] (A.result E) ∧
      GoodMsg h (streamOf h.policy.blockBits (A.result E)) ∧
      (do let (a, _) ← runOps ((cipherHash h hw iv (fun k => E k) d0 hd).C J) J
            (Acc.init ((cipherHash h hw iv (fun k => E k) d0 hd).C J) garbage) [] (A.result E)
          a.result ((cipherHash h hw iv (fun k => E k) d0 hd).C J)) = .ok target ∧
      callsFor h (streamOf h.policy.blockBits (A.result E)) ≤ l) ≤
      ((q + l) * 2 ^ (n * w - (standard h).digest) : ℚ) / (2 ^ (n * w) - (q + l)) := by
  let f : List Op → Attacker (Vector (BitVec w) 16) (Vector (BitVec w) n) (List Op) := fun r =>
    if callsFor h (streamOf h.policy.blockBits r) ≤ l then hashing h iv (streamOf h.policy.blockBits r) r else .done r
  have hf : ∀ r, (f r).AtMost l := by
    intro r
    show (ite _ _ _ : Attacker _ _ _).AtMost l
    split
    · rename_i hl
      exact atMost_mono (atMost_walk _ _ _ _ _ _) hl
    · trivial
  have hr : ∀ E r, (f r).result E = r := by
    intro E r
    show (ite _ _ _ : Attacker _ _ _).result E = r
    split
    · rw [hashing, result_walk]
    · rfl
  have hres : ∀ E, (andThen A f).result E = A.result E := fun E => by rw [result_andThen, hr]
  have key := C91_preimage h h8 hw iv d0 hd J (andThen A f) (q + l) (atMost_andThen hA hf) hq target garbage hgb
  simp only [hres] at key
  refine le_trans (prob_mono fun E hE => ⟨hE.1, hE.2.1, hE.2.2.1, hE.2.2.2.1, ?_⟩) (le_trans key (le_of_eq (by push_cast; rfl)))
  intro i b hi
  rw [learns_andThen]
  refine List.mem_append_right _ ?_
  show _ ∈ (ite _ _ _ : Attacker _ _ _).learns E
  rw [if_pos hE.2.2.2.2]
  exact evaluated_hashing h iv _ _ E i b hi

/-- The hashes to which C91 applies. -/
theorem C91_hashes : ∀ p ∈ [(MDHash.sha0, 32, 5), (.sha1, 32, 5), (.sha224, 32, 8), (.sha256, 32, 8), (.sha384, 64, 8),
    (.sha512, 64, 8), (.md4, 32, 4), (.md5, 32, 4)], 8 ∣ p.2.1 ∧ p.1.policy.stateBits = p.2.2 * p.2.1 ∧
      (standard p.1).block = 16 * p.2.1 := by decide

/-- An attacker that hashes the octets 1 and 2 with SHA-256: two queries. -/
def twoQueries : Attacker (Vector (BitVec 32) 16) (Vector (BitVec 32) 8) (List Op × List Op) :=
  .ask .enc (keyOf .sha256 32 (paddedMessage .sha256 (bigEndian 8 1))) sha256IV fun _ =>
    .ask .enc (keyOf .sha256 32 (paddedMessage .sha256 (bigEndian 8 2))) sha256IV fun _ =>
      .done ([feedBytes bigOctetBigBit [1]], [feedBytes bigOctetBigBit [2]])

theorem oneBlock : ∀ k : Fin 3, streamOf 512 [feedBytes bigOctetBigBit [k.val]] = bigEndian 8 k.val ∧
    blocks (standard .sha256).block (paddedMessage .sha256 (bigEndian 8 k.val)) = [paddedMessage .sha256 (bigEndian 8 k.val)] := by
  decide +kernel

theorem oneBlock_evaluated (E : Cipher (Vector (BitVec 32) 16) (Vector (BitVec 32) 8)) (k : Fin 3)
    {L : List (Vector (BitVec 32) 16 × Vector (BitVec 32) 8 × Vector (BitVec 32) 8)}
    (h : (keyOf .sha256 32 (paddedMessage .sha256 (bigEndian 8 k.val)), sha256IV,
      E (keyOf .sha256 32 (paddedMessage .sha256 (bigEndian 8 k.val))) sha256IV) ∈ L) :
    Evaluated .sha256 sha256IV E L (streamOf 512 [feedBytes bigOctetBigBit [k.val]]) := by
  intro i b hi
  rw [(oneBlock k).1] at hi ⊢
  rw [(oneBlock k).2] at hi
  rcases i with _ | i
  · cases hi
    exact h
  · cases hi

/-- Its chance to see a collision. -/
example : prob (fun E => Colliding (cipherHash .sha256 rfl sha256IV (fun k => E k) (List.replicate 256 true) List.length_replicate)
      spliceInjector (twoQueries.result E).1 (twoQueries.result E).2) ≤ 1 / ((2 : ℚ) ^ 256 - 2) := by
  have := C91_collision (w := 32) (n := 8) .sha256 (by decide) rfl rfl sha256IV (List.replicate 256 true) List.length_replicate
    spliceInjector twoQueries 2 (fun _ _ => trivial) (by norm_num)
  refine le_trans (le_of_eq ?_) (le_trans this (le_of_eq ?_))
  · congr 1
    funext E
    exact propext ⟨fun h => ⟨h, oneBlock_evaluated E 1 List.mem_cons_self,
      oneBlock_evaluated E 2 (List.mem_cons_of_mem _ List.mem_cons_self)⟩, fun h => h.1⟩
  · norm_num [standard]

theorem oneBlock_good (k : Fin 3) : GoodMsg .sha256 (streamOf 512 [feedBytes bigOctetBigBit [k.val]]) := by
  have h : (streamOf 512 [feedBytes bigOctetBigBit [k.val]]).length = 8 := by
    rw [(oneBlock k).1]
    revert k
    decide
  exact goodMsg_of_bytes _ (by rw [h]) (by rw [h]; norm_num)

theorem one_block_digest (I : MDInst .sha256 (Vector (BitVec 32) 8)) (k : Fin 3) :
    (do let (a, _) ← runOps (I.C spliceInjector) spliceInjector (Acc.init (I.C spliceInjector) (List.replicate 512 true)) []
          [feedBytes bigOctetBigBit [k.val]]
        a.result (I.C spliceInjector)) =
      .ok ((I.view (I.compress I.iv (paddedMessage .sha256 (bigEndian 8 k.val)))).take 256) := by
  obtain ⟨a, e, r⟩ := I.runOps spliceInjector [feedBytes bigOctetBigBit [k.val]]
    (by intro op ho; rw [List.mem_singleton.1 ho]; exact feedBytes_wellTyped _ _)
    (I.init spliceInjector (List.replicate 512 true) List.length_replicate)
    (goodExtracts_of_no_extract _ _ _ (by simp [feedBytes]) _) []
  rw [e]
  change a.result (I.C spliceInjector) = _
  rw [List.nil_append] at r
  rw [I.computes spliceInjector a _ r (oneBlock_good k)]
  have h1 := (oneBlock k).1
  have h2 := (oneBlock k).2
  change Except.ok (mdDigest .sha256 I.iv I.compress I.view (streamOf 512 _)) = _
  rw [h1, mdDigest, h2]
  rfl

/-- The event is not empty: a cipher for which the two messages do collide. -/
example : Colliding (cipherHash .sha256 rfl sha256IV (fun _ => Equiv.swap sha256IV (Vector.replicate 8 0)) (List.replicate 256 true)
    List.length_replicate) spliceInjector [feedBytes bigOctetBigBit [1]] [feedBytes bigOctetBigBit [2]] where
  wellTyped := by
    intro op ho
    rcases List.mem_cons.1 ho with rfl | ho
    · exact feedBytes_wellTyped _ _
    · rw [List.mem_singleton.1 ho]; exact feedBytes_wellTyped _ _
  extracts := ⟨trivial, trivial⟩
  good := ⟨oneBlock_good 1, oneBlock_good 2⟩
  short := by decide
  different := by decide
  digest := by
    have key : ∀ x b, (cipherHash .sha256 rfl sha256IV (fun _ => Equiv.swap sha256IV (Vector.replicate 8 0)) (List.replicate 256 true)
        List.length_replicate).compress x b = stateAdder x (Equiv.swap sha256IV (Vector.replicate 8 0) x) := fun x b => rfl
    refine ⟨_, _, List.length_replicate, List.length_replicate, (one_block_digest _ 1).trans
      (Eq.trans ?_ (one_block_digest _ 2).symm)⟩
    rw [key, key]

/-- An attacker that hashes the octet 1 and hopes for a given digest. -/
example (target : Bits) : prob (fun E =>
      (do let (a, _) ← runOps ((cipherHash .sha256 rfl sha256IV (fun k => E k) (List.replicate 256 true) List.length_replicate).C
              spliceInjector) spliceInjector (Acc.init ((cipherHash .sha256 rfl sha256IV (fun k => E k) (List.replicate 256 true)
              List.length_replicate).C spliceInjector) (List.replicate 512 true)) [] [feedBytes bigOctetBigBit [1]]
          a.result ((cipherHash .sha256 rfl sha256IV (fun k => E k) (List.replicate 256 true) List.length_replicate).C
              spliceInjector)) = .ok target) ≤ 1 / ((2 : ℚ) ^ 256 - 1) := by
  have := C91_preimage (w := 32) (n := 8) .sha256 (by decide) rfl sha256IV (List.replicate 256 true) List.length_replicate
    spliceInjector (.ask .enc (keyOf .sha256 32 (paddedMessage .sha256 (bigEndian 8 1))) sha256IV
      fun _ => .done [feedBytes bigOctetBigBit [1]]) 1 (fun _ => trivial) (by norm_num) target (List.replicate 512 true)
    List.length_replicate
  refine le_trans (le_of_eq ?_) (le_trans this (le_of_eq ?_))
  · congr 1
    funext E
    refine propext ⟨fun h => ⟨?_, ?_, ?_, h, oneBlock_evaluated E 1 List.mem_cons_self⟩, fun h => h.2.2.2.1⟩
    · intro op ho
      rw [List.mem_singleton.1 ho]; exact feedBytes_wellTyped _ _
    · exact trivial
    · exact oneBlock_good 1
  · norm_num [standard]

/-- An attacker that asks nothing and guesses the octets 1 and 2 has the same chance. -/
example : prob (fun E => Colliding (cipherHash .sha256 rfl sha256IV (fun k => E k) (List.replicate 256 true) List.length_replicate)
      spliceInjector [feedBytes bigOctetBigBit [1]] [feedBytes bigOctetBigBit [2]]) ≤ 1 / ((2 : ℚ) ^ 256 - 2) := by
  have := C91_collision_any (w := 32) (n := 8) .sha256 (by decide) rfl rfl sha256IV (List.replicate 256 true)
    List.length_replicate spliceInjector (.done ([feedBytes bigOctetBigBit [1]], [feedBytes bigOctetBigBit [2]])) 0 2 trivial
    (by norm_num)
  refine le_trans (prob_mono fun E hE => ⟨hE, ?_⟩) (le_trans this (le_of_eq (by norm_num [standard])))
  have h1 : ∀ k : Fin 3, callsFor .sha256 (streamOf 512 [feedBytes bigOctetBigBit [k.val]]) = 1 := by
    intro k
    rw [callsFor, (oneBlock k).1, (oneBlock k).2, List.length_singleton]
  exact le_of_eq (congrArg₂ (· + ·) (h1 1) (h1 2))

example (target : Bits) : prob (fun E =>
      (do let (a, _) ← runOps ((cipherHash .sha256 rfl sha256IV (fun k => E k) (List.replicate 256 true) List.length_replicate).C
              spliceInjector) spliceInjector (Acc.init ((cipherHash .sha256 rfl sha256IV (fun k => E k) (List.replicate 256 true)
              List.length_replicate).C spliceInjector) (List.replicate 512 true)) [] [feedBytes bigOctetBigBit [1]]
          a.result ((cipherHash .sha256 rfl sha256IV (fun k => E k) (List.replicate 256 true) List.length_replicate).C
              spliceInjector)) = .ok target) ≤ 1 / ((2 : ℚ) ^ 256 - 1) := by
  have := C91_preimage_any (w := 32) (n := 8) .sha256 (by decide) rfl sha256IV (List.replicate 256 true) List.length_replicate
    spliceInjector (.done [feedBytes bigOctetBigBit [1]]) 0 1 trivial (by norm_num) target (List.replicate 512 true)
    List.length_replicate
  refine le_trans (prob_mono fun E hE => ⟨?_, ?_, oneBlock_good 1, hE, ?_⟩) (le_trans this (le_of_eq (by norm_num [standard])))
  · intro op ho
    rw [List.mem_singleton.1 ho]; exact feedBytes_wellTyped _ _
  · exact trivial
  · have h1 : ∀ k : Fin 3, callsFor .sha256 (streamOf 512 [feedBytes bigOctetBigBit [k.val]]) = 1 := by
      intro k
      rw [callsFor, (oneBlock k).1, (oneBlock k).2, List.length_singleton]
    exact le_of_eq (h1 1)

/-- Davies–Meyer on toy words: two inputs with the same block. -/
example : prob (fun E : Cipher (Fin 3) (Vector (BitVec 8) 2) => daviesMeyer (fun k => E k) stateAdder #v[1, 2] 0 =
    daviesMeyer (fun k => E k) stateAdder #v[3, 4] 0) ≤ 1 / ((2 : ℚ) ^ 16 - 2) := by
  have := C91_davies_meyer (w := 8) (n := 2) (K := Fin 3)
    (.ask .enc 0 #v[1, 2] fun _ => .ask .enc 0 #v[3, 4] fun _ => .done ((#v[1, 2], 0), (#v[3, 4], 0))) 2 (fun _ _ => trivial)
    (by norm_num)
  refine le_trans (le_of_eq ?_) (le_trans this (le_of_eq (by norm_num)))
  congr 1
  funext E
  refine propext ⟨fun h => ⟨?_, h, ?_, ?_⟩, fun h => h.2.1⟩
  · show ((#v[1, 2] : Vector (BitVec 8) 2), (0 : Fin 3)) ≠ (#v[3, 4], 0)
    decide
  · exact List.mem_cons_self
  · exact List.mem_cons_of_mem _ List.mem_cons_self

/-- The other two modes with the identity as key converter. -/
example : prob (fun E : Cipher (Vector (BitVec 8) 2) (Vector (BitVec 8) 2) =>
    matyasMeyerOseas (fun k => E k) stateAdder #v[0, 0] (fun _ s => s) #v[1, 2] #v[5, 6] =
      matyasMeyerOseas (fun k => E k) stateAdder #v[0, 0] (fun _ s => s) #v[3, 4] #v[5, 6]) ≤ 1 / ((2 : ℚ) ^ 16 - 2) ∧
  prob (fun E : Cipher (Vector (BitVec 8) 2) (Vector (BitVec 8) 2) =>
    miyaguchiPreneel (fun k => E k) stateAdder #v[0, 0] (fun _ s => s) #v[1, 2] #v[5, 6] =
      miyaguchiPreneel (fun k => E k) stateAdder #v[0, 0] (fun _ s => s) #v[3, 4] #v[5, 6]) ≤ 1 / ((2 : ℚ) ^ 16 - 2) := by
  have hne : ((#v[1, 2] : Vector (BitVec 8) 2), (#v[5, 6] : Vector (BitVec 8) 2)) ≠ (#v[3, 4], #v[5, 6]) := by decide
  constructor
  · have := C91_matyas_meyer_oseas (w := 8) (n := 2) #v[0, 0] (fun _ s => s) (fun _ _ h => h)
      (.ask .enc #v[1, 2] #v[5, 6] fun _ => .ask .enc #v[3, 4] #v[5, 6] fun _ => .done ((#v[1, 2], #v[5, 6]), (#v[3, 4], #v[5, 6])))
      2 (fun _ _ => trivial) (by norm_num)
    refine le_trans (le_of_eq ?_) (le_trans this (le_of_eq (by norm_num)))
    congr 1
    funext E
    exact propext ⟨fun h => ⟨hne, h, List.mem_cons_self, List.mem_cons_of_mem _ List.mem_cons_self⟩, fun h => h.2.1⟩
  · have := C91_miyaguchi_preneel (w := 8) (n := 2) #v[0, 0] (fun _ s => s) (fun _ _ h => h)
      (.ask .enc #v[1, 2] #v[5, 6] fun _ => .ask .enc #v[3, 4] #v[5, 6] fun _ => .done ((#v[1, 2], #v[5, 6]), (#v[3, 4], #v[5, 6])))
      2 (fun _ _ => trivial) (by norm_num)
    refine le_trans (le_of_eq ?_) (le_trans this (le_of_eq (by norm_num)))
    congr 1
    funext E
    exact propext ⟨fun h => ⟨hne, h, List.mem_cons_self, List.mem_cons_of_mem _ List.mem_cons_self⟩, fun h => h.2.1⟩

example : matyasMeyerOseas toyCipher stateAdder #v[0, 0] (fun _ h => #v[h[1], 0]) #v[250, 9] #v[3, 0xf0] =
    matyasMeyerOseas toyCipher stateAdder #v[0, 0] (fun _ h => #v[h[1], 0]) #v[1, 9] #v[3, 0xf0] :=
  C91_converter_needed _ _ _ _ _ _ (by decide)

end Verif.Props
