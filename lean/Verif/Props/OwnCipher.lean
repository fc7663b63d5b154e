import Verif.Proof.TwoLines
import Verif.Props.FixedPoints
import Verif.Props.IdealCipher
import Verif.Props.Ripemd
import Verif.Props.Tiger
/-
C122: collisions and preimages of Tiger and of the four RIPEMD hashes when the passes of Tiger and the lines of RIPEMD are random
ciphers keyed by the message block.
-/
namespace Verif.Props

open Spec Spec.Ideal Verif.Ideal

variable {w n : Nat} {h : MDHash} {K : Type}

/-! ### Hashes whose compression runs ciphers on the chaining value -/

/-- A compression function that encrypts the chaining value under the keys `keys b` made of the block `b` and joins the results
with the chaining value. -/
structure Feed (h : MDHash) (K : Type) (w n : Nat) where
  iv : Vector (BitVec w) n
  keys : Bits → List K
  join : Vector (BitVec w) n → List (Vector (BitVec w) n) → Vector (BitVec w) n

namespace Feed

/-- The compression function. -/
def step (F : Feed h K w n) (E : K → Vector (BitVec w) n → Vector (BitVec w) n) (s : Vector (BitVec w) n) (b : Bits) :
    Vector (BitVec w) n :=
  F.join s ((F.keys b).map fun k => E k s)

/-- The hash of the library with this compression function. -/
def hash (F : Feed h K w n) (hw : h.policy.stateBits = n * w) (E : K → Vector (BitVec w) n → Vector (BitVec w) n) (d0 : Bits)
    (hd : d0.length = h.policy.digestBits) : MDInst h (Vector (BitVec w) n) where
  iv := F.iv
  compress := F.step E
  view := h.policy.endian.arrayView
  length_view s := by rw [length_arrayView', hw]
  digest0 := d0
  length_digest0 := hd

theorem hash_eq (F : Feed h K w n) (hw : h.policy.stateBits = n * w) (E : K → Vector (BitVec w) n → Vector (BitVec w) n) (d0 : Bits)
    (hd : d0.length = h.policy.digestBits) (I : MDInst h (Vector (BitVec w) n)) (h1 : F.iv = I.iv)
    (h2 : ∀ s b, F.step E s b = I.compress s b) (h3 : I.view = h.policy.endian.arrayView) (h4 : I.digest0 = d0) :
    F.hash hw E d0 hd = I := by
  obtain ⟨iv, c, v, hv, d, hd'⟩ := I
  obtain rfl : c = F.step E := (funext fun s => funext fun b => h2 s b).symm
  obtain rfl : F.iv = iv := h1
  obtain rfl : v = h.policy.endian.arrayView := h3
  obtain rfl : d = d0 := h4
  rfl

/-- The chaining value before block `i` of the padded message. -/
def chaining (F : Feed h K w n) (E : Cipher K (Vector (BitVec w) n)) (m : Bits) (i : Nat) : Vector (BitVec w) n :=
  ((blocks (standard h).block (paddedMessage h m)).take i).foldl (F.step fun k => E k) F.iv

/-- Number of cipher calls for hashing `m`. -/
def calls (F : Feed h K w n) (m : Bits) : Nat :=
  ((blocks (standard h).block (paddedMessage h m)).map fun b => (F.keys b).length).sum

/-- All cipher calls for hashing `m` are among the triples `L`. -/
def Evaluated (F : Feed h K w n) (E : Cipher K (Vector (BitVec w) n))
    (L : List (K × Vector (BitVec w) n × Vector (BitVec w) n)) (m : Bits) : Prop :=
  ∀ i b, (blocks (standard h).block (paddedMessage h m))[i]? = some b → ∀ k ∈ F.keys b,
    (k, F.chaining E m i, E k (F.chaining E m i)) ∈ L

/-- Ask for the encryptions of `x` under the keys `ks`. -/
def askAll {R : Type _} {X : Type} (x : X) : List K → (List X → Attacker K X R) → Attacker K X R
  | [], c => c []
  | k :: ks, c => .ask .enc k x fun y => askAll x ks fun ys => c (y :: ys)

/-- The attacker that hashes the blocks `bs` and returns `r`. -/
def hashing {R : Type _} (F : Feed h K w n) (r : R) : List Bits → Vector (BitVec w) n → Attacker K (Vector (BitVec w) n) R
  | [], _ => .done r
  | b :: bs, v => askAll v (F.keys b) fun ys => hashing F r bs (F.join v ys)

section askAll
variable {R : Type _} {X : Type} (x : X)

theorem result_askAll (E : Cipher K X) (ks : List K) (c : List X → Attacker K X R) :
    (askAll x ks c).result E = (c (ks.map fun k => E k x)).result E := by
  induction ks generalizing c with
  | nil => rfl
  | cons k ks ih => exact ih _

theorem learns_askAll (E : Cipher K X) (ks : List K) (c : List X → Attacker K X R) :
    (askAll x ks c).learns E = (ks.map fun k => (k, x, E k x)) ++ (c (ks.map fun k => E k x)).learns E := by
  induction ks generalizing c with
  | nil => rfl
  | cons k ks ih => exact congrArg (_ :: ·) (ih _)

theorem atMost_askAll (ks : List K) (c : List X → Attacker K X R) {q : Nat} (hc : ∀ ys, (c ys).AtMost q) :
    (askAll x ks c).AtMost (ks.length + q) := by
  induction ks generalizing c with
  | nil => rw [List.length_nil, Nat.zero_add]; exact hc _
  | cons k ks ih =>
    rw [List.length_cons, Nat.add_right_comm]
    exact fun a => ih _ fun ys => hc _

end askAll

theorem result_hashing {R : Type _} (F : Feed h K w n) (E : Cipher K (Vector (BitVec w) n)) (r : R) (bs : List Bits)
    (v : Vector (BitVec w) n) : (F.hashing r bs v).result E = r := by
  induction bs generalizing v with
  | nil => rfl
  | cons b bs ih => rw [hashing, result_askAll]; exact ih _

theorem atMost_hashing {R : Type _} (F : Feed h K w n) (r : R) (bs : List Bits) (v : Vector (BitVec w) n) :
    (F.hashing r bs v).AtMost (bs.map fun b => (F.keys b).length).sum := by
  induction bs generalizing v with
  | nil => trivial
  | cons b bs ih =>
    rw [List.map_cons, List.sum_cons]
    exact atMost_askAll _ _ _ fun ys => ih _

theorem learns_hashing {R : Type _} (F : Feed h K w n) (E : Cipher K (Vector (BitVec w) n)) (r : R) (bs : List Bits)
    (v : Vector (BitVec w) n) {i : Nat} {b : Bits} (hi : bs[i]? = some b) {k : K} (hk : k ∈ F.keys b) :
    (k, (bs.take i).foldl (F.step fun k => E k) v, E k ((bs.take i).foldl (F.step fun k => E k) v)) ∈
      (F.hashing r bs v).learns E := by
  induction bs generalizing v i with
  | nil => cases hi
  | cons c bs ih =>
    rw [hashing, learns_askAll]
    rcases i with _ | i
    · cases hi
      exact List.mem_append_left _ (List.mem_map.2 ⟨k, hk, rfl⟩)
    · exact List.mem_append_right _ (ih _ hi)

/-- Every attacker can be made to hash its own messages. -/
theorem completed {R : Type _} (F : Feed h K w n) (msgs : R → List Bits) (A : Attacker K (Vector (BitVec w) n) R) {q l : Nat}
    (hA : A.AtMost q) : ∃ A' : Attacker K (Vector (BitVec w) n) R, A'.AtMost (q + l) ∧ ∀ E, A'.result E = A.result E ∧
      (((msgs (A.result E)).map F.calls).sum ≤ l → ∀ m ∈ msgs (A.result E), F.Evaluated E (A'.learns E) m) := by
  let g : R → List Bits → Attacker K (Vector (BitVec w) n) R := fun r ms =>
    ms.foldr (fun m A => andThen (F.hashing r (blocks (standard h).block (paddedMessage h m)) F.iv) fun _ => A) (.done r)
  have hg : ∀ r ms, (g r ms).AtMost (ms.map F.calls).sum := by
    intro r ms
    induction ms with
    | nil => trivial
    | cons m ms ih =>
      rw [List.map_cons, List.sum_cons]
      exact atMost_andThen (F.atMost_hashing r _ _) fun _ => ih
  have hgr : ∀ E r ms, (g r ms).result E = r := by
    intro E r ms
    induction ms with
    | nil => rfl
    | cons m ms ih => exact (result_andThen E _ _).trans ih
  have hgl : ∀ E r ms, ∀ m ∈ ms, F.Evaluated E ((g r ms).learns E) m := by
    intro E r ms
    induction ms with
    | nil => intro m hm; cases hm
    | cons m' ms ih =>
      intro m hm i b hi k hk
      show _ ∈ (andThen _ _ : Attacker _ _ _).learns E
      rw [learns_andThen]
      rcases List.mem_cons.1 hm with rfl | hm
      · exact List.mem_append_left _ (F.learns_hashing E r _ _ hi hk)
      · exact List.mem_append_right _ (ih m hm i b hi k hk)
  refine ⟨andThen A fun r => if ((msgs r).map F.calls).sum ≤ l then g r (msgs r) else .done r, atMost_andThen hA ?_, ?_⟩
  · intro r
    split
    · rename_i hl
      exact atMost_mono (hg r _) hl
    · trivial
  · intro E
    rw [result_andThen]
    constructor
    · split
      · exact hgr E _ _
      · rfl
    · intro hl m hm i b hi k hk
      rw [learns_andThen, if_pos hl]
      exact List.mem_append_right _ (hgl E _ _ m hm i b hi k hk)

variable (F : Feed h K w n) (h8 : 8 ∣ w) (hw : h.policy.stateBits = n * w) (hfull : (standard h).digest = n * w) (d0 : Bits)
  (hd : d0.length = h.policy.digestBits) (J : Injector)

include h8 hfull in
/-- Two programs with the same digest give two different inputs of the compression function with the same value. -/
theorem collision_point {E : Cipher K (Vector (BitVec w) n)} {ops ops' : List Op}
    (hC : Colliding (F.hash hw (fun k => E k) d0 hd) J ops ops') : ∃ i j b b',
      (blocks (standard h).block (paddedMessage h (streamOf h.policy.blockBits ops)))[i]? = some b ∧
      (blocks (standard h).block (paddedMessage h (streamOf h.policy.blockBits ops')))[j]? = some b' ∧
      (F.chaining E (streamOf h.policy.blockBits ops) i, b) ≠ (F.chaining E (streamOf h.policy.blockBits ops') j, b') ∧
      F.step (fun k => E k) (F.chaining E (streamOf h.policy.blockBits ops) i) b =
        F.step (fun k => E k) (F.chaining E (streamOf h.policy.blockBits ops') j) b' := by
  obtain ⟨g, g', hg, hg', hdig⟩ := hC.digest
  exact C17_collision_reduction (F.hash hw (fun k => E k) d0 hd) J (hfull.trans hw.symm) (arrayView_injective _ h8) g g' hg hg' _ _
    (fun op ho => hC.wellTyped op (List.mem_append_left _ ho)) (fun op ho => hC.wellTyped op (List.mem_append_right _ ho))
    hC.extracts.1 hC.extracts.2
    hC.good.1 hC.good.2 hC.short.1 hC.short.2 hC.different hdig

end Feed

/-- A program of calls, for a message of a length that the hash supports, with a given digest. -/
structure Reaching {h : MDHash} {σ : Type} (I : MDInst h σ) (J : Injector) (target : Bits) (ops : List Op) : Prop where
  wellTyped : ∀ op ∈ ops, op.WellTyped h.policy.blockBits
  extracts : GoodExtracts h.policy.blockBits (GoodMsg h) [] ops
  good : GoodMsg h (streamOf h.policy.blockBits ops)
  digest : ∃ garbage : Bits, garbage.length = h.policy.blockBits ∧
    (do let (a, _) ← runOps (I.C J) J (Acc.init (I.C J) garbage) [] ops
        a.result (I.C J)) = .ok target

namespace Feed

variable (F : Feed h K w n) (h8 : 8 ∣ w) (hw : h.policy.stateBits = n * w) (hfull : (standard h).digest = n * w) (d0 : Bits)
  (hd : d0.length = h.policy.digestBits) (J : Injector)

include hfull in
theorem preimage_point {E : Cipher K (Vector (BitVec w) n)} {target : Bits} {ops : List Op}
    (hR : Reaching (F.hash hw (fun k => E k) d0 hd) J target ops) : ∃ i b,
      (blocks (standard h).block (paddedMessage h (streamOf h.policy.blockBits ops)))[i]? = some b ∧
      h.policy.endian.arrayView (F.step (fun k => E k) (F.chaining E (streamOf h.policy.blockBits ops) i) b) = target := by
  obtain ⟨garbage, hgb, hres⟩ := hR.digest
  obtain ⟨a, e, r⟩ := (F.hash hw (fun k => E k) d0 hd).runOps J ops hR.wellTyped
    ((F.hash hw (fun k => E k) d0 hd).init J garbage hgb) hR.extracts []
  rw [e] at hres
  change a.result ((F.hash hw (fun k => E k) d0 hd).C J) = .ok target at hres
  rw [List.nil_append] at r
  rw [(F.hash hw (fun k => E k) d0 hd).computes J a _ r hR.good] at hres
  injection hres with hres
  obtain ⟨i, b, hi, hf⟩ := last_block h (streamOf h.policy.blockBits ops)
  refine ⟨i, b, hi, ?_⟩
  rw [← hres]
  show _ = ((h.policy.endian.arrayView ((blocks (standard h).block (paddedMessage h _)).foldl _ F.iv)).take _)
  rw [hf, List.take_of_length_le (by rw [length_arrayView', hfull])]
  rfl

/-! ### One cipher -/

/-- Every block is the key of one call; the result and the chaining value determine each other from their combination. -/
structure One (F : Feed h K w n) (key : Bits → K) (ff : Vector (BitVec w) n → Vector (BitVec w) n → Vector (BitVec w) n) : Prop where
  keys : ∀ b, F.keys b = [key b]
  join : ∀ s y, F.join s [y] = ff s y
  key_injective : ∀ b b', b.length = (standard h).block → b'.length = (standard h).block → key b = key b' → b = b'
  right : ∀ s, Function.Injective (ff s)
  left : ∀ y, Function.Injective fun s => ff s y

variable [Fintype K] [DecidableEq K]

include h8 hfull in
/-- **C122, one cipher, collisions.** -/
theorem one_collision {key : Bits → K} {ff : Vector (BitVec w) n → Vector (BitVec w) n → Vector (BitVec w) n} (O : F.One key ff)
    (A : Attacker K (Vector (BitVec w) n) (List Op × List Op)) (q l : Nat) (hA : A.AtMost q) (hq : q + l < 2 ^ (n * w)) :
    prob (fun E => Colliding (F.hash hw (fun k => E k) d0 hd) J (A.result E).1 (A.result E).2 ∧
      F.calls (streamOf h.policy.blockBits (A.result E).1) + F.calls (streamOf h.policy.blockBits (A.result E).2) ≤ l) ≤
      ((q + l) * (q + l - 1) / 2 : ℚ) / (2 ^ (n * w) - (q + l)) := by
  obtain ⟨A', hA', hE⟩ := F.completed (fun r : List Op × List Op => [streamOf h.policy.blockBits r.1, streamOf h.policy.blockBits r.2])
    A (l := l) hA
  have H : Fibers (fun (_ : K) (x y : Vector (BitVec w) n) => ff x y) 1 :=
    ⟨fun _ x t => card_injective_le _ (O.right x) t, fun _ y t => card_injective_le _ (O.left y) t⟩
  refine le_trans (collision_bound H A' (q + l) hA' (by rw [card_words]; exact hq) _ ?_)
    (le_of_eq (by rw [card_words]; push_cast; rw [mul_one]))
  rintro E ⟨hC, hl⟩
  obtain ⟨-, hev⟩ := hE E
  have hev := hev (by simpa using hl)
  obtain ⟨i, j, b, b', hi, hj, hne, heq⟩ := F.collision_point h8 hw hfull d0 hd J hC
  refine ⟨_, hev _ List.mem_cons_self i b hi (key b) (by rw [O.keys]; exact List.mem_cons_self),
    _, hev _ (List.mem_cons_of_mem _ List.mem_cons_self) j b' hj (key b') (by rw [O.keys]; exact List.mem_cons_self), ?_, ?_⟩
  · intro he
    have hbk := O.key_injective b b' (length_of_mem_blocks (List.mem_of_getElem? hi)) (length_of_mem_blocks (List.mem_of_getElem? hj))
      (Prod.mk.inj he).1
    exact hne (Prod.ext (Prod.mk.inj he).2 hbk)
  · simp only [step, O.keys, List.map_cons, List.map_nil, O.join] at heq
    exact heq

include h8 hfull in
/-- **C122, one cipher, preimages.** -/
theorem one_preimage {key : Bits → K} {ff : Vector (BitVec w) n → Vector (BitVec w) n → Vector (BitVec w) n} (O : F.One key ff)
    (A : Attacker K (Vector (BitVec w) n) (List Op)) (q l : Nat) (hA : A.AtMost q) (hq : q + l < 2 ^ (n * w)) (target : Bits) :
    prob (fun E => Reaching (F.hash hw (fun k => E k) d0 hd) J target (A.result E) ∧
      F.calls (streamOf h.policy.blockBits (A.result E)) ≤ l) ≤ ((q + l) : ℚ) / (2 ^ (n * w) - (q + l)) := by
  obtain ⟨A', hA', hE⟩ := F.completed (fun r : List Op => [streamOf h.policy.blockBits r]) A (l := l) hA
  have H : Fibers (fun (_ : K) (x y : Vector (BitVec w) n) => h.policy.endian.arrayView (ff x y)) 1 :=
    ⟨fun _ x t => card_injective_le _ ((arrayView_injective _ h8).comp (O.right x)) t,
      fun _ y t => card_injective_le _ ((arrayView_injective _ h8).comp (O.left y)) t⟩
  refine le_trans (preimage_bound H A' (q + l) hA' (by rw [card_words]; exact hq) target _ ?_)
    (le_of_eq (by rw [card_words]; push_cast; rw [mul_one]))
  rintro E ⟨hR, hl⟩
  obtain ⟨-, hev⟩ := hE E
  have hev := hev (by simpa using hl)
  obtain ⟨i, b, hi, hv⟩ := F.preimage_point hw hfull d0 hd J hR
  refine ⟨_, hev _ List.mem_cons_self i b hi (key b) (by rw [O.keys]; exact List.mem_cons_self), ?_⟩
  rw [← hv]
  simp only [step, O.keys, List.map_cons, List.map_nil, O.join]

end Feed

/-! ### Two lines -/

namespace Feed

variable {K : Type} (F : Feed h (K × Bool) w n) (h8 : 8 ∣ w) (hw : h.policy.stateBits = n * w)
  (hfull : (standard h).digest = n * w) (d0 : Bits) (hd : d0.length = h.policy.digestBits) (J : Injector)

/-- Every block is the key of one call in each of the two lines; the results determine each other from their combination with the
chaining value. -/
structure Two (F : Feed h (K × Bool) w n) (key : Bits → K)
    (ff : Vector (BitVec w) n → Vector (BitVec w) n → Vector (BitVec w) n → Vector (BitVec w) n) : Prop where
  keys : ∀ b, F.keys b = [(key b, false), (key b, true)]
  join : ∀ s y z, F.join s [y, z] = ff s y z
  key_injective : ∀ b b', b.length = (standard h).block → b'.length = (standard h).block → key b = key b' → b = b'
  injective : LineInjective ff

variable [Fintype K] [DecidableEq K]

include h8 hfull in
/-- **C122, two lines, collisions.** -/
theorem two_collision {key : Bits → K} {ff : Vector (BitVec w) n → Vector (BitVec w) n → Vector (BitVec w) n → Vector (BitVec w) n}
    (O : F.Two key ff) (A : Attacker (K × Bool) (Vector (BitVec w) n) (List Op × List Op)) (q l : Nat) (hA : A.AtMost q)
    (hq : q + l < 2 ^ (n * w)) :
    prob (fun E => Colliding (F.hash hw (fun k => E k) d0 hd) J (A.result E).1 (A.result E).2 ∧
      F.calls (streamOf h.policy.blockBits (A.result E).1) + F.calls (streamOf h.policy.blockBits (A.result E).2) ≤ l) ≤
      ((q + l) * (q + l - 1) / 2 : ℚ) / (2 ^ (n * w) - (q + l)) := by
  obtain ⟨A', hA', hE⟩ := F.completed (fun r : List Op × List Op => [streamOf h.policy.blockBits r.1, streamOf h.policy.blockBits r.2])
    A (l := l) hA
  refine le_trans (pair_collision_bound O.injective A' (q + l) hA' (by rw [card_words]; exact hq) _ ?_)
    (le_of_eq (by rw [card_words]; push_cast; rfl))
  rintro E ⟨hC, hl⟩
  obtain ⟨-, hev⟩ := hE E
  have hev := hev (by simpa using hl)
  obtain ⟨i, j, b, b', hi, hj, hne, heq⟩ := F.collision_point h8 hw hfull d0 hd J hC
  have hmem : ∀ b c, (key b, c) ∈ F.keys b := by
    intro b c
    rw [O.keys]
    cases c <;> simp
  refine ⟨key b, F.chaining E (streamOf h.policy.blockBits (A.result E).1) i, key b',
    F.chaining E (streamOf h.policy.blockBits (A.result E).2) j, ?_, ?_,
    fun c => hev _ List.mem_cons_self i b hi _ (hmem b c),
    fun c => hev _ (List.mem_cons_of_mem _ List.mem_cons_self) j b' hj _ (hmem b' c)⟩
  · intro he
    have hbk := O.key_injective b b' (length_of_mem_blocks (List.mem_of_getElem? hi)) (length_of_mem_blocks (List.mem_of_getElem? hj))
      (Prod.mk.inj he).1
    exact hne (Prod.ext (Prod.mk.inj he).2 hbk)
  · simp only [step, O.keys, List.map_cons, List.map_nil, O.join] at heq
    exact heq

include h8 hfull in
/-- **C122, two lines, preimages.** -/
theorem two_preimage {key : Bits → K} {ff : Vector (BitVec w) n → Vector (BitVec w) n → Vector (BitVec w) n → Vector (BitVec w) n}
    (O : F.Two key ff) (A : Attacker (K × Bool) (Vector (BitVec w) n) (List Op)) (q l : Nat) (hA : A.AtMost q)
    (hq : q + l < 2 ^ (n * w)) (target : Bits) :
    prob (fun E => Reaching (F.hash hw (fun k => E k) d0 hd) J target (A.result E) ∧
      F.calls (streamOf h.policy.blockBits (A.result E)) ≤ l) ≤ ((q + l) : ℚ) / (2 ^ (n * w) - (q + l)) := by
  obtain ⟨A', hA', hE⟩ := F.completed (fun r : List Op => [streamOf h.policy.blockBits r]) A (l := l) hA
  have H : LineInjective fun x y z => h.policy.endian.arrayView (ff x y z) :=
    ⟨fun x z => (arrayView_injective _ h8).comp (O.injective.left x z), fun x y => (arrayView_injective _ h8).comp (O.injective.right x y)⟩
  refine le_trans (pair_preimage_bound H A' (q + l) hA' (by rw [card_words]; exact hq) target _ ?_)
    (le_of_eq (by rw [card_words]; push_cast; rfl))
  rintro E ⟨hR, hl⟩
  obtain ⟨-, hev⟩ := hE E
  have hev := hev (by simpa using hl)
  obtain ⟨i, b, hi, hv⟩ := F.preimage_point hw hfull d0 hd J hR
  refine ⟨key b, F.chaining E (streamOf h.policy.blockBits (A.result E)) i, ?_, fun c => hev _ List.mem_cons_self i b hi _ ?_⟩
  · rw [← hv]
    simp only [step, O.keys, List.map_cons, List.map_nil, O.join]
    rfl
  · rw [O.keys]
    cases c <;> simp

end Feed

/-! ### Tiger -/

theorem words_injective (e : Endian) {c : Nat} (h8 : 8 ∣ w) {b b' : Bits} (hb : b.length = c * w) (hb' : b'.length = c * w)
    (he : ∀ i < c, e.word w b i = e.word w b' i) : b = b' := by
  apply List.ext_getElem?
  intro j
  by_cases hj : j < c * w
  · have hw : 0 < w := by
      rcases Nat.eq_zero_or_pos w with rfl | h
      · omega
      · exact h
    have hi : j / w < c := Nat.div_lt_of_lt_mul (by rw [Nat.mul_comm]; exact hj)
    have hq : j % w < w := Nat.mod_lt _ hw
    have hp := e.pos_lt h8 hq
    have h1 := congrArg (fun v : BitVec w => v.getLsbD (e.pos w (j % w))) (he (j / w) hi)
    simp only [Endian.word, BitVec.getLsbD_ofFnLE, dif_pos hp, e.pos_pos h8 hq, Nat.div_add_mod] at h1
    rw [List.getD_eq_getElem?_getD, List.getD_eq_getElem?_getD, List.getElem?_eq_getElem (by omega),
      List.getElem?_eq_getElem (by omega)] at h1
    rw [List.getElem?_eq_getElem (by omega), List.getElem?_eq_getElem (by omega)]
    simpa using h1
  · rw [List.getElem?_eq_none (by omega), List.getElem?_eq_none (by omega)]

section tiger
open Verif.Tiger

/-- The eight words of a block. -/
def tigerKey (b : Bits) : Vector Tiger.W 8 := blockOf (littleOctetBigBit.word 64 b)

/-- The end of `process_block` (tiger.hpp:73-75) for the result `y` of the passes. -/
def tigerJoin (s y : Vector Tiger.W 3) : Vector Tiger.W 3 := feedForward s (y[0], y[1], y[2])

/-- Tiger with any cipher in place of the passes. -/
def tigerFeed : Feed .tiger192 (Vector Tiger.W 8) 64 3 where
  iv := Tiger.iv
  keys b := [tigerKey b]
  join s ys := tigerJoin s (ys.headD s)

theorem vec3_cases {α : Type} (v : Vector α 3) : ∃ a b c, v = #v[a, b, c] := by
  rcases v with ⟨⟨l⟩, hl⟩
  match l, hl with
  | [a, b, c], _ => exact ⟨a, b, c, rfl⟩

theorem vec3_inj {α : Type} {a b c a' b' c' : α} (H : #v[a, b, c] = #v[a', b', c']) : a = a' ∧ b = b' ∧ c = c' := by
  simpa using H

theorem tigerFeed_one : tigerFeed.One tigerKey tigerJoin where
  keys _ := rfl
  join _ _ := rfl
  key_injective b b' hb hb' he := by
    refine words_injective (w := 64) littleOctetBigBit (c := 8) (by decide) hb hb' fun i hi => ?_
    have := congrArg (fun v : Vector Tiger.W 8 => v[i]) he
    simpa [tigerKey, blockOf] using this
  right s y y' he := by
    obtain ⟨a, b, c, rfl⟩ := vec3_cases s
    obtain ⟨x, y, z, rfl⟩ := vec3_cases y
    obtain ⟨x', y', z', rfl⟩ := vec3_cases y'
    obtain ⟨h1, h2, h3⟩ := vec3_inj (show #v[a ^^^ x, y - b, c + z] = #v[a ^^^ x', y' - b, c + z'] from he)
    rw [(BitVec.xor_right_inj _).1 h1, (BitVec.sub_left_inj _).1 h2, (BitVec.add_right_inj _).1 h3]
  left y s s' he := by
    obtain ⟨a, b, c, rfl⟩ := vec3_cases s
    obtain ⟨a', b', c', rfl⟩ := vec3_cases s'
    obtain ⟨x, y, z, rfl⟩ := vec3_cases y
    obtain ⟨h1, h2, h3⟩ := vec3_inj (show #v[a ^^^ x, y - b, c + z] = #v[a' ^^^ x, y - b', c' + z] from he)
    rw [(BitVec.xor_left_inj _).1 h1, (BitVec.sub_right_inj _).1 h2, (BitVec.add_left_inj _).1 h3]

theorem vars3_bijective : Function.Bijective vars3 := by
  constructor
  · intro v v' he
    obtain ⟨a, b, c, rfl⟩ := vec3_cases v
    obtain ⟨a', b', c', rfl⟩ := vec3_cases v'
    obtain ⟨rfl, rfl, rfl⟩ := (by simpa using show (a, b, c) = (a', b', c') from he)
    rfl
  · rintro ⟨a, b, c⟩
    exact ⟨#v[a, b, c], rfl⟩

/-- A permutation of the variables as a permutation of the array. -/
noncomputable def onArray {α β : Type} {g : α → β} (hg : Function.Bijective g) {f : β → β} (hf : Function.Bijective f) : Equiv.Perm α :=
  ((Equiv.ofBijective g hg).trans (Equiv.ofBijective f hf)).trans (Equiv.ofBijective g hg).symm

theorem onArray_spec {α β : Type} {g : α → β} (hg : Function.Bijective g) {f : β → β} (hf : Function.Bijective f) (x : α) :
    g (onArray hg hf x) = f (g x) := (Equiv.ofBijective g hg).apply_symm_apply _

/-- The passes of Tiger, a cipher on the state. -/
noncomputable def tigerCipher (P : Nat) : Cipher (Vector Tiger.W 8) (Vector Tiger.W 3) := fun k =>
  onArray vars3_bijective (C26_passes_bijective P k).2

/-- **C122.** The library's Tiger is `tigerFeed` with its own passes. -/
theorem C122_tiger_library (P : Nat) (d0 : Bits) (hd : d0.length = 192) :
    tigerFeed.hash rfl (fun k => tigerCipher P k) d0 hd = tiger192 P d0 hd := by
  refine Feed.hash_eq _ _ _ _ _ _ rfl (fun s b => ?_) rfl rfl
  show feedForward s (vars3 (tigerCipher P (tigerKey b) s)) = Tiger.compress P s (tigerKey b)
  exact congrArg (feedForward s) (onArray_spec vars3_bijective (C26_passes_bijective P (tigerKey b)).2 s)

/-- **C122, Tiger, collisions.** An attacker with `q` queries to a random cipher in place of the passes makes the library return the
same digest for two different messages of together at most `l` blocks with probability at most
`(q + l) (q + l - 1) / 2 / (2^192 - (q + l))`. -/
theorem C122_tiger_collision (d0 : Bits) (hd : d0.length = 192) (J : Injector)
    (A : Attacker (Vector Tiger.W 8) (Vector Tiger.W 3) (List Op × List Op)) (q l : Nat) (hA : A.AtMost q) (hq : q + l < 2 ^ 192) :
    prob (fun E => Colliding (tigerFeed.hash rfl (fun k => E k) d0 hd) J (A.result E).1 (A.result E).2 ∧
      callsFor .tiger192 (streamOf 512 (A.result E).1) + callsFor .tiger192 (streamOf 512 (A.result E).2) ≤ l) ≤
      ((q + l) * (q + l - 1) / 2 : ℚ) / (2 ^ 192 - (q + l)) := by
  have hcalls : ∀ m, tigerFeed.calls m = callsFor .tiger192 m := by
    intro m
    unfold Feed.calls callsFor
    simp [tigerFeed]
  have := tigerFeed.one_collision (by decide) rfl rfl d0 hd J tigerFeed_one A q l hA hq
  simp only [hcalls] at this
  exact this

/-- **C122, Tiger, preimages.** -/
theorem C122_tiger_preimage (d0 : Bits) (hd : d0.length = 192) (J : Injector)
    (A : Attacker (Vector Tiger.W 8) (Vector Tiger.W 3) (List Op)) (q l : Nat) (hA : A.AtMost q) (hq : q + l < 2 ^ 192)
    (target : Bits) :
    prob (fun E => Reaching (tigerFeed.hash rfl (fun k => E k) d0 hd) J target (A.result E) ∧
      callsFor .tiger192 (streamOf 512 (A.result E)) ≤ l) ≤ ((q + l) : ℚ) / (2 ^ 192 - (q + l)) := by
  have hcalls : ∀ m, tigerFeed.calls m = callsFor .tiger192 m := by
    intro m
    unfold Feed.calls callsFor
    simp [tigerFeed]
  have := tigerFeed.one_preimage (by decide) rfl rfl d0 hd J tigerFeed_one A q l hA hq target
  simp only [hcalls] at this
  exact this

end tiger

/-! ### RIPEMD -/

section ripemd
open Verif.Ripemd

/-- The words of a block of 16 as a table. -/
def wordsOf (k : Vector Ripemd.W 16) (i : Nat) : Ripemd.W := k[i]?.getD 0

/-- The sixteen words of a block. -/
def ripemdKey (b : Bits) : Vector Ripemd.W 16 := Vector.ofFn fun i : Fin 16 => littleOctetBigBit.word 32 b i

theorem wordsOf_ripemdKey (b : Bits) (i : Nat) (hi : i < 16) : wordsOf (ripemdKey b) i = littleOctetBigBit.word 32 b i := by
  simp [wordsOf, ripemdKey, hi]

theorem ripemdKey_injective (b b' : Bits) (hb : b.length = 512) (hb' : b'.length = 512) (he : ripemdKey b = ripemdKey b') : b = b' :=
  words_injective (w := 32) littleOctetBigBit (c := 16) (by decide) hb hb' fun i hi => by
    rw [← wordsOf_ripemdKey b i hi, ← wordsOf_ripemdKey b' i hi, he]

theorem tab_lt (j : Nat) : tab r1 j < 16 ∧ tab r2 j < 16 := by
  by_cases hj : j < 80
  · have : ∀ j < 80, tab r1 j < 16 ∧ tab r2 j < 16 := by decide
    exact this j hj
  · have h1 : tab r1 j = 0 := by
      unfold tab
      rw [List.getD_eq_getElem?_getD, List.getElem?_eq_none (Nat.not_lt.1 hj)]
      rfl
    have h2 : tab r2 j = 0 := by
      unfold tab
      rw [List.getD_eq_getElem?_getD, List.getElem?_eq_none (Nat.not_lt.1 hj)]
      rfl
    rw [h1, h2]
    decide

section congr
variable {X X' : Nat → Ripemd.W} (hX : ∀ i < 16, X i = X' i)
include hX

theorem round4_congr : round4 X = round4 X' := by
  funext start F1 k1 F2 k2 p
  unfold round4
  congr 1
  funext p j
  rw [hX _ (tab_lt j).1, hX _ (tab_lt j).2]

theorem round5_congr : round5 X = round5 X' := by
  funext start F1 k1 F2 k2 p
  unfold round5
  congr 1
  funext p j
  rw [hX _ (tab_lt j).1, hX _ (tab_lt j).2]

theorem compress_congr : (∀ s, compress128 s X = compress128 s X') ∧ (∀ s, compress160 s X = compress160 s X') ∧
    (∀ s, compress256 s X = compress256 s X') ∧ ∀ s, compress320 s X = compress320 s X' := by
  refine ⟨fun s => ?_, fun s => ?_, fun s => ?_, fun s => ?_⟩
  · unfold compress128; rw [round4_congr hX]
  · unfold compress160; rw [round5_congr hX]
  · unfold compress256 round256; rw [round4_congr hX]
  · unfold compress320 round320; rw [round5_congr hX]

end congr

/-- The addition at the end of `process_block` (ripemd.hpp:209-211, 267-269). -/
def addJoin {n : Nat} (s y : Vector Ripemd.W n) : Vector Ripemd.W n := s.zipWith (· + ·) y

theorem addJoin_right {n : Nat} (s : Vector Ripemd.W n) : Function.Injective (addJoin s) := by
  intro y y' he
  apply Vector.ext
  intro i hi
  have := congrArg (fun v : Vector Ripemd.W n => v[i]) he
  simpa [addJoin] using this

theorem addJoin_left {n : Nat} (y : Vector Ripemd.W n) : Function.Injective fun s => addJoin s y := by
  intro s s' he
  apply Vector.ext
  intro i hi
  have := congrArg (fun v : Vector Ripemd.W n => v[i]) he
  simpa [addJoin] using this

/-- RIPEMD-256 with any cipher in place of the rounds and exchanges. -/
def ripemd256Feed : Feed .ripemd256 (Vector Ripemd.W 16) 32 8 where
  iv := iv256
  keys b := [ripemdKey b]
  join s ys := addJoin s (ys.headD s)

/-- RIPEMD-320 with any cipher in place of the rounds and exchanges. -/
def ripemd320Feed : Feed .ripemd320 (Vector Ripemd.W 16) 32 10 where
  iv := iv320
  keys b := [ripemdKey b]
  join s ys := addJoin s (ys.headD s)

theorem ripemd256Feed_one : ripemd256Feed.One ripemdKey addJoin where
  keys _ := rfl
  join _ _ := rfl
  key_injective := ripemdKey_injective
  right := addJoin_right
  left := addJoin_left

theorem ripemd320Feed_one : ripemd320Feed.One ripemdKey addJoin where
  keys _ := rfl
  join _ _ := rfl
  key_injective := ripemdKey_injective
  right := addJoin_right
  left := addJoin_left

/-- The lines of RIPEMD-256 and RIPEMD-320, ciphers on the state. -/
noncomputable def ripemd256Cipher : Cipher (Vector Ripemd.W 16) (Vector Ripemd.W 8) := fun k =>
  Equiv.ofBijective _ (C25_lines256_bijective (wordsOf k)).2
noncomputable def ripemd320Cipher : Cipher (Vector Ripemd.W 16) (Vector Ripemd.W 10) := fun k =>
  Equiv.ofBijective _ (C25_lines320_bijective (wordsOf k)).2

/-- **C122.** The library's RIPEMD-256 and RIPEMD-320 are these hashes with their own lines. -/
theorem C122_ripemd256_library (d0 : Bits) (hd : d0.length = 256) :
    ripemd256Feed.hash rfl (fun k => ripemd256Cipher k) d0 hd = ripemd256 d0 hd := by
  refine Feed.hash_eq _ _ _ _ _ _ rfl (fun s b => ?_) rfl rfl
  exact ((C25_lines256_bijective (wordsOf (ripemdKey b))).1 s).symm.trans ((compress_congr (wordsOf_ripemdKey b)).2.2.1 s)

theorem C122_ripemd320_library (d0 : Bits) (hd : d0.length = 320) :
    ripemd320Feed.hash rfl (fun k => ripemd320Cipher k) d0 hd = ripemd320 d0 hd := by
  refine Feed.hash_eq _ _ _ _ _ _ rfl (fun s b => ?_) rfl rfl
  exact ((C25_lines320_bijective (wordsOf (ripemdKey b))).1 s).symm.trans ((compress_congr (wordsOf_ripemdKey b)).2.2.2 s)

/-- The end of `process_block` of RIPEMD-128 and RIPEMD-160 (ripemd.hpp:100-105, 155-161) for the results of the two lines. -/
def join128 (s y z : Vector Ripemd.W 4) : Vector Ripemd.W 4 := feed128 s (vars4 y, vars4 z)
def join160 (s y z : Vector Ripemd.W 5) : Vector Ripemd.W 5 := feed160 s (vars5 y, vars5 z)

/-- RIPEMD-128 and RIPEMD-160 with any two ciphers in place of the two lines. -/
def ripemd128Feed : Feed .ripemd128 (Vector Ripemd.W 16 × Bool) 32 4 where
  iv := iv128
  keys b := [(ripemdKey b, false), (ripemdKey b, true)]
  join s ys := join128 s (ys.getD 0 s) (ys.getD 1 s)
def ripemd160Feed : Feed .ripemd160 (Vector Ripemd.W 16 × Bool) 32 5 where
  iv := iv160
  keys b := [(ripemdKey b, false), (ripemdKey b, true)]
  join s ys := join160 s (ys.getD 0 s) (ys.getD 1 s)

theorem join128_eq (a b c d x y z t x' y' z' t' : Ripemd.W) : join128 #v[a, b, c, d] #v[x, y, z, t] #v[x', y', z', t'] =
    #v[b + z + t', c + t + x', d + x + y', a + y + z'] := rfl

theorem join160_eq (a b c d e x y z t u x' y' z' t' u' : Ripemd.W) :
    join160 #v[a, b, c, d, e] #v[x, y, z, t, u] #v[x', y', z', t', u'] =
      #v[b + z + t', c + t + u', d + u + x', e + x + y', a + y + z'] := rfl

theorem join128_injective : LineInjective join128 where
  left s z := by
    obtain ⟨a, b, c, d, rfl⟩ := vec4_cases s
    obtain ⟨x', y', z', t', rfl⟩ := vec4_cases z
    intro v v' he
    obtain ⟨x, y, z, t, rfl⟩ := vec4_cases v
    obtain ⟨x2, y2, z2, t2, rfl⟩ := vec4_cases v'
    simp only [join128_eq] at he
    obtain ⟨h1, h2, h3, h4⟩ := vec4_inj he
    simp only [BitVec.add_left_inj, BitVec.add_right_inj] at h1 h2 h3 h4
    rw [h1, h2, h3, h4]
  right s y := by
    obtain ⟨a, b, c, d, rfl⟩ := vec4_cases s
    obtain ⟨x, y, z, t, rfl⟩ := vec4_cases y
    intro v v' he
    obtain ⟨x', y', z', t', rfl⟩ := vec4_cases v
    obtain ⟨x2, y2, z2, t2, rfl⟩ := vec4_cases v'
    simp only [join128_eq] at he
    obtain ⟨h1, h2, h3, h4⟩ := vec4_inj he
    simp only [BitVec.add_right_inj] at h1 h2 h3 h4
    rw [h1, h2, h3, h4]

theorem join160_injective : LineInjective join160 where
  left s z := by
    obtain ⟨a, b, c, d, e, rfl⟩ := vec5_cases s
    obtain ⟨x', y', z', t', u', rfl⟩ := vec5_cases z
    intro v v' he
    obtain ⟨x, y, z, t, u, rfl⟩ := vec5_cases v
    obtain ⟨x2, y2, z2, t2, u2, rfl⟩ := vec5_cases v'
    simp only [join160_eq] at he
    obtain ⟨h1, h2, h3, h4, h5⟩ := vec5_inj he
    simp only [BitVec.add_left_inj, BitVec.add_right_inj] at h1 h2 h3 h4 h5
    rw [h1, h2, h3, h4, h5]
  right s y := by
    obtain ⟨a, b, c, d, e, rfl⟩ := vec5_cases s
    obtain ⟨x, y, z, t, u, rfl⟩ := vec5_cases y
    intro v v' he
    obtain ⟨x', y', z', t', u', rfl⟩ := vec5_cases v
    obtain ⟨x2, y2, z2, t2, u2, rfl⟩ := vec5_cases v'
    simp only [join160_eq] at he
    obtain ⟨h1, h2, h3, h4, h5⟩ := vec5_inj he
    simp only [BitVec.add_right_inj] at h1 h2 h3 h4 h5
    rw [h1, h2, h3, h4, h5]

theorem ripemd128Feed_two : ripemd128Feed.Two ripemdKey join128 where
  keys _ := rfl
  join _ _ _ := rfl
  key_injective := ripemdKey_injective
  injective := join128_injective

theorem ripemd160Feed_two : ripemd160Feed.Two ripemdKey join160 where
  keys _ := rfl
  join _ _ _ := rfl
  key_injective := ripemdKey_injective
  injective := join160_injective

theorem vars4_bijective : Function.Bijective vars4 := by
  constructor
  · intro v v' he
    obtain ⟨a, b, c, d, rfl⟩ := vec4_cases v
    obtain ⟨a', b', c', d', rfl⟩ := vec4_cases v'
    obtain ⟨rfl, rfl, rfl, rfl⟩ := (by simpa using show (a, b, c, d) = (a', b', c', d') from he)
    rfl
  · rintro ⟨a, b, c, d⟩
    exact ⟨#v[a, b, c, d], rfl⟩

theorem vars5_bijective : Function.Bijective vars5 := by
  constructor
  · intro v v' he
    obtain ⟨a, b, c, d, e, rfl⟩ := vec5_cases v
    obtain ⟨a', b', c', d', e', rfl⟩ := vec5_cases v'
    obtain ⟨rfl, rfl, rfl, rfl, rfl⟩ := (by simpa using show (a, b, c, d, e) = (a', b', c', d', e') from he)
    rfl
  · rintro ⟨a, b, c, d, e⟩
    exact ⟨#v[a, b, c, d, e], rfl⟩

/-- The two lines of RIPEMD-128 and of RIPEMD-160, ciphers on the state. -/
noncomputable def ripemd128Cipher : Cipher (Vector Ripemd.W 16 × Bool) (Vector Ripemd.W 4)
  | (k, false) => onArray vars4_bijective (left4_bijective (wordsOf k) 0 64 (by omega))
  | (k, true) => onArray vars4_bijective (right4_bijective (wordsOf k) 0 64 (by omega))
noncomputable def ripemd160Cipher : Cipher (Vector Ripemd.W 16 × Bool) (Vector Ripemd.W 5)
  | (k, false) => onArray vars5_bijective (left5_bijective (wordsOf k) 0 80 (by omega))
  | (k, true) => onArray vars5_bijective (right5_bijective (wordsOf k) 0 80 (by omega))

/-- **C122.** The library's RIPEMD-128 and RIPEMD-160 are these hashes with their own lines. -/
theorem C122_ripemd128_library (d0 : Bits) (hd : d0.length = 128) :
    ripemd128Feed.hash rfl (fun k => ripemd128Cipher k) d0 hd = ripemd128 d0 hd := by
  refine Feed.hash_eq _ _ _ _ _ _ rfl (fun s b => ?_) rfl rfl
  refine Eq.trans ?_ ((compress_congr (wordsOf_ripemdKey b)).1 s)
  apply vars4_bijective.1
  rw [C25_compress128]
  show vars4 (feed128 s (vars4 (ripemd128Cipher (ripemdKey b, false) s), vars4 (ripemd128Cipher (ripemdKey b, true) s))) = _
  rw [vars4_feed]
  unfold ripemd128Cipher
  simp only [onArray_spec]
  rfl

theorem C122_ripemd160_library (d0 : Bits) (hd : d0.length = 160) :
    ripemd160Feed.hash rfl (fun k => ripemd160Cipher k) d0 hd = ripemd160 d0 hd := by
  refine Feed.hash_eq _ _ _ _ _ _ rfl (fun s b => ?_) rfl rfl
  refine Eq.trans ?_ ((compress_congr (wordsOf_ripemdKey b)).2.1 s)
  apply vars5_bijective.1
  rw [C25_compress160]
  show vars5 (feed160 s (vars5 (ripemd160Cipher (ripemdKey b, false) s), vars5 (ripemd160Cipher (ripemdKey b, true) s))) = _
  rw [vars5_feed]
  unfold ripemd160Cipher
  simp only [onArray_spec]
  rfl

variable (J : Injector) (q l : Nat) (target : Bits)

/-- **C122, RIPEMD-256, collisions**, `l` counting the blocks of both messages. -/
theorem C122_ripemd256_collision (d0 : Bits) (hd : d0.length = 256)
    (A : Attacker (Vector Ripemd.W 16) (Vector Ripemd.W 8) (List Op × List Op)) (hA : A.AtMost q) (hq : q + l < 2 ^ 256) :
    prob (fun E => Colliding (ripemd256Feed.hash rfl (fun k => E k) d0 hd) J (A.result E).1 (A.result E).2 ∧
      callsFor .ripemd256 (streamOf 512 (A.result E).1) + callsFor .ripemd256 (streamOf 512 (A.result E).2) ≤ l) ≤
      ((q + l) * (q + l - 1) / 2 : ℚ) / (2 ^ 256 - (q + l)) := by
  have hcalls : ∀ m, ripemd256Feed.calls m = callsFor .ripemd256 m := by
    intro m
    unfold Feed.calls callsFor
    simp [ripemd256Feed]
  have := ripemd256Feed.one_collision (by decide) rfl rfl d0 hd J ripemd256Feed_one A q l hA hq
  simp only [hcalls] at this
  exact this

/-- **C122, RIPEMD-256, preimages.** -/
theorem C122_ripemd256_preimage (d0 : Bits) (hd : d0.length = 256)
    (A : Attacker (Vector Ripemd.W 16) (Vector Ripemd.W 8) (List Op)) (hA : A.AtMost q) (hq : q + l < 2 ^ 256) :
    prob (fun E => Reaching (ripemd256Feed.hash rfl (fun k => E k) d0 hd) J target (A.result E) ∧
      callsFor .ripemd256 (streamOf 512 (A.result E)) ≤ l) ≤ ((q + l) : ℚ) / (2 ^ 256 - (q + l)) := by
  have hcalls : ∀ m, ripemd256Feed.calls m = callsFor .ripemd256 m := by
    intro m
    unfold Feed.calls callsFor
    simp [ripemd256Feed]
  have := ripemd256Feed.one_preimage (by decide) rfl rfl d0 hd J ripemd256Feed_one A q l hA hq target
  simp only [hcalls] at this
  exact this

/-- **C122, RIPEMD-320, collisions.** -/
theorem C122_ripemd320_collision (d0 : Bits) (hd : d0.length = 320)
    (A : Attacker (Vector Ripemd.W 16) (Vector Ripemd.W 10) (List Op × List Op)) (hA : A.AtMost q) (hq : q + l < 2 ^ 320) :
    prob (fun E => Colliding (ripemd320Feed.hash rfl (fun k => E k) d0 hd) J (A.result E).1 (A.result E).2 ∧
      callsFor .ripemd320 (streamOf 512 (A.result E).1) + callsFor .ripemd320 (streamOf 512 (A.result E).2) ≤ l) ≤
      ((q + l) * (q + l - 1) / 2 : ℚ) / (2 ^ 320 - (q + l)) := by
  have hcalls : ∀ m, ripemd320Feed.calls m = callsFor .ripemd320 m := by
    intro m
    unfold Feed.calls callsFor
    simp [ripemd320Feed]
  have := ripemd320Feed.one_collision (by decide) rfl rfl d0 hd J ripemd320Feed_one A q l hA hq
  simp only [hcalls] at this
  exact this

/-- **C122, RIPEMD-320, preimages.** -/
theorem C122_ripemd320_preimage (d0 : Bits) (hd : d0.length = 320)
    (A : Attacker (Vector Ripemd.W 16) (Vector Ripemd.W 10) (List Op)) (hA : A.AtMost q) (hq : q + l < 2 ^ 320) :
    prob (fun E => Reaching (ripemd320Feed.hash rfl (fun k => E k) d0 hd) J target (A.result E) ∧
      callsFor .ripemd320 (streamOf 512 (A.result E)) ≤ l) ≤ ((q + l) : ℚ) / (2 ^ 320 - (q + l)) := by
  have hcalls : ∀ m, ripemd320Feed.calls m = callsFor .ripemd320 m := by
    intro m
    unfold Feed.calls callsFor
    simp [ripemd320Feed]
  have := ripemd320Feed.one_preimage (by decide) rfl rfl d0 hd J ripemd320Feed_one A q l hA hq target
  simp only [hcalls] at this
  exact this

theorem calls128 (m : Bits) : ripemd128Feed.calls m = 2 * callsFor .ripemd128 m := by
  unfold Feed.calls callsFor
  simp [ripemd128Feed, Nat.mul_comm]

theorem calls160 (m : Bits) : ripemd160Feed.calls m = 2 * callsFor .ripemd160 m := by
  unfold Feed.calls callsFor
  simp [ripemd160Feed, Nat.mul_comm]

/-- **C122, RIPEMD-128, collisions.** The two lines are independent random ciphers; a block costs one query to each. -/
theorem C122_ripemd128_collision (d0 : Bits) (hd : d0.length = 128)
    (A : Attacker (Vector Ripemd.W 16 × Bool) (Vector Ripemd.W 4) (List Op × List Op)) (hA : A.AtMost q) (hq : q + l < 2 ^ 128) :
    prob (fun E => Colliding (ripemd128Feed.hash rfl (fun k => E k) d0 hd) J (A.result E).1 (A.result E).2 ∧
      2 * callsFor .ripemd128 (streamOf 512 (A.result E).1) + 2 * callsFor .ripemd128 (streamOf 512 (A.result E).2) ≤ l) ≤
      ((q + l) * (q + l - 1) / 2 : ℚ) / (2 ^ 128 - (q + l)) := by
  have := ripemd128Feed.two_collision (by decide) rfl rfl d0 hd J ripemd128Feed_two A q l hA hq
  simp only [calls128] at this
  exact this

/-- **C122, RIPEMD-128, preimages.** -/
theorem C122_ripemd128_preimage (d0 : Bits) (hd : d0.length = 128)
    (A : Attacker (Vector Ripemd.W 16 × Bool) (Vector Ripemd.W 4) (List Op)) (hA : A.AtMost q) (hq : q + l < 2 ^ 128) :
    prob (fun E => Reaching (ripemd128Feed.hash rfl (fun k => E k) d0 hd) J target (A.result E) ∧
      2 * callsFor .ripemd128 (streamOf 512 (A.result E)) ≤ l) ≤ ((q + l) : ℚ) / (2 ^ 128 - (q + l)) := by
  have := ripemd128Feed.two_preimage (by decide) rfl rfl d0 hd J ripemd128Feed_two A q l hA hq target
  simp only [calls128] at this
  exact this

/-- **C122, RIPEMD-160, collisions.** -/
theorem C122_ripemd160_collision (d0 : Bits) (hd : d0.length = 160)
    (A : Attacker (Vector Ripemd.W 16 × Bool) (Vector Ripemd.W 5) (List Op × List Op)) (hA : A.AtMost q) (hq : q + l < 2 ^ 160) :
    prob (fun E => Colliding (ripemd160Feed.hash rfl (fun k => E k) d0 hd) J (A.result E).1 (A.result E).2 ∧
      2 * callsFor .ripemd160 (streamOf 512 (A.result E).1) + 2 * callsFor .ripemd160 (streamOf 512 (A.result E).2) ≤ l) ≤
      ((q + l) * (q + l - 1) / 2 : ℚ) / (2 ^ 160 - (q + l)) := by
  have := ripemd160Feed.two_collision (by decide) rfl rfl d0 hd J ripemd160Feed_two A q l hA hq
  simp only [calls160] at this
  exact this

/-- **C122, RIPEMD-160, preimages.** -/
theorem C122_ripemd160_preimage (d0 : Bits) (hd : d0.length = 160)
    (A : Attacker (Vector Ripemd.W 16 × Bool) (Vector Ripemd.W 5) (List Op)) (hA : A.AtMost q) (hq : q + l < 2 ^ 160) :
    prob (fun E => Reaching (ripemd160Feed.hash rfl (fun k => E k) d0 hd) J target (A.result E) ∧
      2 * callsFor .ripemd160 (streamOf 512 (A.result E)) ≤ l) ≤ ((q + l) : ℚ) / (2 ^ 160 - (q + l)) := by
  have := ripemd160Feed.two_preimage (by decide) rfl rfl d0 hd J ripemd160Feed_two A q l hA hq target
  simp only [calls160] at this
  exact this

theorem octet_calls : ∀ h ∈ [MDHash.tiger192, .ripemd128, .ripemd160, .ripemd256, .ripemd320], ∀ k : Fin 3,
    callsFor h (streamOf 512 [feedBytes littleOctetBigBit [k.val]]) = 1 := by decide +kernel

theorem octet_calls_tiger192 (k : Fin 3) : callsFor .tiger192 (streamOf 512 [feedBytes littleOctetBigBit [k.val]]) = 1 :=
  octet_calls _ (by decide) k
theorem octet_calls_ripemd256 (k : Fin 3) : callsFor .ripemd256 (streamOf 512 [feedBytes littleOctetBigBit [k.val]]) = 1 :=
  octet_calls _ (by decide) k
theorem octet_calls_ripemd320 (k : Fin 3) : callsFor .ripemd320 (streamOf 512 [feedBytes littleOctetBigBit [k.val]]) = 1 :=
  octet_calls _ (by decide) k
theorem octet_calls_ripemd128 (k : Fin 3) : callsFor .ripemd128 (streamOf 512 [feedBytes littleOctetBigBit [k.val]]) = 1 :=
  octet_calls _ (by decide) k
theorem octet_calls_ripemd160 (k : Fin 3) : callsFor .ripemd160 (streamOf 512 [feedBytes littleOctetBigBit [k.val]]) = 1 :=
  octet_calls _ (by decide) k

/-! Examples: guessing the octets 1 and 2; hoping that the octet 1 has a given digest.  A block has 512 bits. -/

example : prob (fun E => Colliding (tigerFeed.hash rfl (fun k => E k) (List.replicate 192 true) List.length_replicate) J
      [feedBytes littleOctetBigBit [1]] [feedBytes littleOctetBigBit [2]]) ≤ 1 / ((2 : ℚ) ^ 192 - 2) := by
  have := C122_tiger_collision (List.replicate 192 true) List.length_replicate J
    (.done ([feedBytes littleOctetBigBit [1]], [feedBytes littleOctetBigBit [2]])) 0 2 trivial (by norm_num)
  refine le_trans (prob_mono fun E hE => ⟨hE, ?_⟩) (le_trans this (le_of_eq (by norm_num)))
  exact le_of_eq (congrArg₂ (· + ·) ((octet_calls_tiger192 1)) ((octet_calls_tiger192 2)))

example : prob (fun E => Reaching (tigerFeed.hash rfl (fun k => E k) (List.replicate 192 true) List.length_replicate) J target
      [feedBytes littleOctetBigBit [1]]) ≤ 1 / ((2 : ℚ) ^ 192 - 1) := by
  have := C122_tiger_preimage (List.replicate 192 true) List.length_replicate J (.done [feedBytes littleOctetBigBit [1]]) 0 1 trivial
    (by norm_num) target
  refine le_trans (prob_mono fun E hE => ⟨hE, ?_⟩) (le_trans this (le_of_eq (by norm_num)))
  exact le_of_eq ((octet_calls_tiger192 1))

example : prob (fun E => Colliding (ripemd256Feed.hash rfl (fun k => E k) (List.replicate 256 true) List.length_replicate) J
      [feedBytes littleOctetBigBit [1]] [feedBytes littleOctetBigBit [2]]) ≤ 1 / ((2 : ℚ) ^ 256 - 2) := by
  have := C122_ripemd256_collision J 0 2 (List.replicate 256 true) List.length_replicate
    (.done ([feedBytes littleOctetBigBit [1]], [feedBytes littleOctetBigBit [2]])) trivial (by norm_num)
  refine le_trans (prob_mono fun E hE => ⟨hE, ?_⟩) (le_trans this (le_of_eq (by norm_num)))
  exact le_of_eq (congrArg₂ (· + ·) ((octet_calls_ripemd256 1)) ((octet_calls_ripemd256 2)))

example : prob (fun E => Reaching (ripemd256Feed.hash rfl (fun k => E k) (List.replicate 256 true) List.length_replicate) J target
      [feedBytes littleOctetBigBit [1]]) ≤ 1 / ((2 : ℚ) ^ 256 - 1) := by
  have := C122_ripemd256_preimage J 0 1 target (List.replicate 256 true) List.length_replicate
    (.done [feedBytes littleOctetBigBit [1]]) trivial (by norm_num)
  refine le_trans (prob_mono fun E hE => ⟨hE, ?_⟩) (le_trans this (le_of_eq (by norm_num)))
  exact le_of_eq ((octet_calls_ripemd256 1))

set_option exponentiation.threshold 600 in
example : prob (fun E => Colliding (ripemd320Feed.hash rfl (fun k => E k) (List.replicate 320 true) List.length_replicate) J
      [feedBytes littleOctetBigBit [1]] [feedBytes littleOctetBigBit [2]]) ≤ 1 / ((2 : ℚ) ^ 320 - 2) := by
  have := C122_ripemd320_collision J 0 2 (List.replicate 320 true) List.length_replicate
    (.done ([feedBytes littleOctetBigBit [1]], [feedBytes littleOctetBigBit [2]])) trivial (by norm_num)
  refine le_trans (prob_mono fun E hE => ⟨hE, ?_⟩) (le_trans this (le_of_eq (by norm_num)))
  exact le_of_eq (congrArg₂ (· + ·) ((octet_calls_ripemd320 1)) ((octet_calls_ripemd320 2)))

set_option exponentiation.threshold 600 in
example : prob (fun E => Reaching (ripemd320Feed.hash rfl (fun k => E k) (List.replicate 320 true) List.length_replicate) J target
      [feedBytes littleOctetBigBit [1]]) ≤ 1 / ((2 : ℚ) ^ 320 - 1) := by
  have := C122_ripemd320_preimage J 0 1 target (List.replicate 320 true) List.length_replicate
    (.done [feedBytes littleOctetBigBit [1]]) trivial (by norm_num)
  refine le_trans (prob_mono fun E hE => ⟨hE, ?_⟩) (le_trans this (le_of_eq (by norm_num)))
  exact le_of_eq ((octet_calls_ripemd320 1))

example : prob (fun E => Colliding (ripemd128Feed.hash rfl (fun k => E k) (List.replicate 128 true) List.length_replicate) J
      [feedBytes littleOctetBigBit [1]] [feedBytes littleOctetBigBit [2]]) ≤ 6 / ((2 : ℚ) ^ 128 - 4) := by
  have := C122_ripemd128_collision J 0 4 (List.replicate 128 true) List.length_replicate
    (.done ([feedBytes littleOctetBigBit [1]], [feedBytes littleOctetBigBit [2]])) trivial (by norm_num)
  refine le_trans (prob_mono fun E hE => ⟨hE, ?_⟩) (le_trans this (le_of_eq (by norm_num)))
  exact le_of_eq (congrArg₂ (· + ·) (congrArg (2 * ·) (octet_calls_ripemd128 1)) (congrArg (2 * ·) (octet_calls_ripemd128 2)))

example : prob (fun E => Reaching (ripemd128Feed.hash rfl (fun k => E k) (List.replicate 128 true) List.length_replicate) J target
      [feedBytes littleOctetBigBit [1]]) ≤ 2 / ((2 : ℚ) ^ 128 - 2) := by
  have := C122_ripemd128_preimage J 0 2 target (List.replicate 128 true) List.length_replicate
    (.done [feedBytes littleOctetBigBit [1]]) trivial (by norm_num)
  refine le_trans (prob_mono fun E hE => ⟨hE, ?_⟩) (le_trans this (le_of_eq (by norm_num)))
  exact le_of_eq (congrArg (2 * ·) (octet_calls_ripemd128 1))

example : prob (fun E => Colliding (ripemd160Feed.hash rfl (fun k => E k) (List.replicate 160 true) List.length_replicate) J
      [feedBytes littleOctetBigBit [1]] [feedBytes littleOctetBigBit [2]]) ≤ 6 / ((2 : ℚ) ^ 160 - 4) := by
  have := C122_ripemd160_collision J 0 4 (List.replicate 160 true) List.length_replicate
    (.done ([feedBytes littleOctetBigBit [1]], [feedBytes littleOctetBigBit [2]])) trivial (by norm_num)
  refine le_trans (prob_mono fun E hE => ⟨hE, ?_⟩) (le_trans this (le_of_eq (by norm_num)))
  exact le_of_eq (congrArg₂ (· + ·) (congrArg (2 * ·) (octet_calls_ripemd160 1)) (congrArg (2 * ·) (octet_calls_ripemd160 2)))

example : prob (fun E => Reaching (ripemd160Feed.hash rfl (fun k => E k) (List.replicate 160 true) List.length_replicate) J target
      [feedBytes littleOctetBigBit [1]]) ≤ 2 / ((2 : ℚ) ^ 160 - 2) := by
  have := C122_ripemd160_preimage J 0 2 target (List.replicate 160 true) List.length_replicate
    (.done [feedBytes littleOctetBigBit [1]]) trivial (by norm_num)
  refine le_trans (prob_mono fun E hE => ⟨hE, ?_⟩) (le_trans this (le_of_eq (by norm_num)))
  exact le_of_eq (congrArg (2 * ·) (octet_calls_ripemd160 1))

/-- The digest of one octet. -/
theorem octet_digest {h : MDHash} {σ : Type} (I : MDInst h σ) (hB : h.policy.blockBits = 512) (k : Fin 3) (garbage : Bits)
    (hgb : garbage.length = h.policy.blockBits) (hgood : GoodMsg h (streamOf h.policy.blockBits [feedBytes littleOctetBigBit [k.val]])) :
    (do let (a, _) ← runOps (I.C J) J (Acc.init (I.C J) garbage) [] [feedBytes littleOctetBigBit [k.val]]
        a.result (I.C J)) =
      .ok (mdDigest h I.iv I.compress I.view (streamOf h.policy.blockBits [feedBytes littleOctetBigBit [k.val]])) := by
  obtain ⟨a, e, r⟩ := I.runOps J [feedBytes littleOctetBigBit [k.val]]
    (by intro op ho; rw [List.mem_singleton.1 ho, hB]; exact feedBytes_wellTyped _ _)
    (I.init J garbage hgb) (goodExtracts_of_no_extract _ _ _ (by simp [feedBytes]) _) []
  rw [e]
  change a.result (I.C J) = _
  rw [List.nil_append] at r
  exact I.computes J a _ r hgood

/-- A compression function that ignores the block makes the two octets collide. -/
theorem octet_collision {h : MDHash} {σ : Type} (I : MDInst h σ) (hB : h.policy.blockBits = 512)
    (h1 : ∀ k : Fin 3, callsFor h (streamOf h.policy.blockBits [feedBytes littleOctetBigBit [k.val]]) = 1)
    (hgood : ∀ k : Fin 3, GoodMsg h (streamOf h.policy.blockBits [feedBytes littleOctetBigBit [k.val]]))
    (hc : ∀ s b b', I.compress s b = I.compress s b') :
    Colliding I J [feedBytes littleOctetBigBit [1]] [feedBytes littleOctetBigBit [2]] where
  wellTyped := by
    rw [hB]
    intro op ho
    rcases List.mem_cons.1 ho with rfl | ho
    · exact feedBytes_wellTyped _ _
    · rw [List.mem_singleton.1 ho]; exact feedBytes_wellTyped _ _
  extracts := ⟨trivial, trivial⟩
  good := ⟨hgood 1, hgood 2⟩
  short := by rw [hB]; decide
  different := by rw [hB]; decide
  digest := by
    have hg : (List.replicate 512 true).length = h.policy.blockBits := by rw [hB, List.length_replicate]
    refine ⟨_, _, hg, hg, (octet_digest J I hB 1 _ hg (hgood 1)).trans (Eq.trans (congrArg Except.ok ?_)
      (octet_digest J I hB 2 _ hg (hgood 2)).symm)⟩
    obtain ⟨b, hb⟩ := List.length_eq_one_iff.1 (h1 1)
    obtain ⟨b', hb'⟩ := List.length_eq_one_iff.1 (h1 2)
    rw [mdDigest, mdDigest, hb, hb', List.foldl_cons, List.foldl_cons, List.foldl_nil, List.foldl_nil, hc I.iv b b']

/-- The event is not empty: with the identity in both lines the two octets collide. -/
example : Colliding (ripemd160Feed.hash rfl (fun _ s => s) (List.replicate 160 true) List.length_replicate) J
    [feedBytes littleOctetBigBit [1]] [feedBytes littleOctetBigBit [2]] := by
  have hlen : ∀ k : Fin 3, (streamOf 512 [feedBytes littleOctetBigBit [k.val]]).length = 8 := by decide
  have hgood : ∀ k : Fin 3, GoodMsg .ripemd160 (streamOf 512 [feedBytes littleOctetBigBit [k.val]]) := fun k =>
    goodMsg_of_bytes _ (by rw [hlen]) (by rw [hlen]; norm_num)
  have hstep : ∀ s b, ripemd160Feed.step (fun _ s => s) s b = join160 s s s := fun s b => rfl
  exact octet_collision J _ rfl octet_calls_ripemd160 hgood fun s b b' => (hstep s b).trans (hstep s b').symm

end ripemd

end Verif.Props
