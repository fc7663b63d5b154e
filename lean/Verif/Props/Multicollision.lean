import Mathlib.Data.Fintype.Pi
import Mathlib.Data.Fintype.BigOperators
import Verif.Proof.LossyHashes
import Verif.Props.Extension
import Verif.Props.Reductions
/-
C100: what an event inside the iteration means for the digests of the library: multicollisions, second preimages of long
messages, collisions from inner collisions.
-/
namespace Verif.Props

open Spec

variable {σ δ : Type} {h : MDHash}

/-! ### Choosing one of two blocks at every step -/

/-- `t` steps of an iteration `f` from `s 0`; for each of them two different blocks of `B` bits that lead to the same value. -/
structure BlockCollisions {t : Nat} (B : Nat) (f : Nat → σ → Bits → σ) (s : Nat → σ) (x : Fin t → Bool → Bits) : Prop where
  length : ∀ i c, (x i c).length = B
  step : ∀ (i : Fin t) c, f i (s i) (x i c) = s (i + 1)
  differ : ∀ i, x i false ≠ x i true

/-- The blocks chosen by `c`, one after the other. -/
def chosen {t : Nat} (x : Fin t → Bool → Bits) (c : Fin t → Bool) : Bits := (List.ofFn fun i => x i (c i)).flatten

theorem length_chosen {t B : Nat} {x : Fin t → Bool → Bits} (hx : ∀ i c, (x i c).length = B) (c : Fin t → Bool) :
    (chosen x c).length = t * B := by
  unfold chosen
  rw [List.length_flatten, List.map_ofFn, show (List.length ∘ fun i => x i (c i)) = fun _ => B from funext fun i => hx i _,
    List.ofFn_const, List.sum_replicate_nat]

theorem blocks_chosen {t B : Nat} (hB : 0 < B) {x : Fin t → Bool → Bits} (hx : ∀ i c, (x i c).length = B) (c : Fin t → Bool) :
    blocks B (chosen x c) = List.ofFn fun i => x i (c i) := by
  refine blocks_flatten hB _ fun b hb => ?_
  obtain ⟨i, rfl⟩ := (List.mem_ofFn' _ _).1 hb
  exact hx i _

theorem chosen_injective {t B : Nat} (hB : 0 < B) {x : Fin t → Bool → Bits} (hx : ∀ i c, (x i c).length = B)
    (hd : ∀ i, x i false ≠ x i true) : Function.Injective (chosen x) := by
  intro c c' hc
  have h1 := congrArg (blocks B) hc
  rw [blocks_chosen hB hx, blocks_chosen hB hx] at h1
  have h2 := List.ofFn_injective h1
  funext i
  have h3 := congrFun h2 i
  have h4 := hd i
  generalize c i = a at *
  generalize c' i = a' at *
  cases a <;> cases a'
  · rfl
  · exact absurd h3 h4
  · exact absurd h3.symm h4
  · rfl

theorem foldl_ofFn_same {β : Type} (f : σ → β → σ) (t : Nat) (s : Nat → σ) (y : Fin t → β)
    (hy : ∀ i : Fin t, f (s i) (y i) = s (i + 1)) : (List.ofFn y).foldl f (s 0) = s t := by
  induction t generalizing s with
  | zero => rfl
  | succ t ih =>
    rw [List.ofFn_succ, List.foldl_cons, show f (s 0) (y 0) = s 1 from hy 0]
    exact ih (fun n => s (n + 1)) (fun i => y i.succ) fun i => by
      have := hy i.succ
      rwa [Fin.val_succ] at this

theorem card_messages {t B : Nat} (hB : 0 < B) {x : Fin t → Bool → Bits} (hx : ∀ i c, (x i c).length = B)
    (hd : ∀ i, x i false ≠ x i true) (rest : Bits) (m : (Fin t → Bool) → Bits) (hm : ∀ c, m c = chosen x c ++ rest) :
    (Finset.univ.image m).card = 2 ^ t := by
  rw [Finset.card_image_of_injective, Finset.card_univ, Fintype.card_pi_const, Fintype.card_bool]
  intro c c' h
  rw [hm, hm] at h
  exact chosen_injective hB hx hd (List.append_cancel_right h)

/-! ### Merkle–Damgård -/

/-- A message that begins with whole blocks. -/
theorem mdDigest_resume (iv : σ) (compress : σ → Bits → σ) (view : σ → Bits) (m s : Bits) (hm : (standard h).block ∣ m.length) :
    mdDigest h iv compress view (m ++ s) = resume h compress view ((blocks (standard h).block m).foldl compress iv) m.length s := by
  have hB : 0 < (standard h).block := by cases h <;> decide
  unfold mdDigest resume
  rw [paddedMessage_tail, List.length_append, List.append_assoc, blocks_append hB hm, List.foldl_append]

/-- The digest a program obtains. -/
theorem md_program (I : MDInst h σ) (J : Injector) (garbage : Bits) (hgb : garbage.length = h.policy.blockBits) (ops : List Op)
    (hwt : ∀ op ∈ ops, op.WellTyped h.policy.blockBits) (hx : GoodExtracts h.policy.blockBits (GoodMsg h) [] ops) (hg : GoodMsg h (streamOf h.policy.blockBits ops)) :
    (do let (a, _) ← runOps (I.C J) J (Acc.init (I.C J) garbage) [] ops
        a.result (I.C J)) = .ok (mdDigest h I.iv I.compress I.view (streamOf h.policy.blockBits ops)) := by
  obtain ⟨a, e, r⟩ := I.runOps J ops hwt (I.init J garbage hgb) hx []
  rw [List.nil_append] at r
  rw [e]
  exact I.computes J a _ r hg

/-- **C100, multicollisions.** Let the compression function of a Merkle–Damgård hash have `t` collisions one after the other:
from `s i` both blocks `x i false ≠ x i true` lead to `s (i+1)`, and `s 0` is the initial value.  The `2^t` ways of choosing one of
the two blocks at each step, followed by the same data, are different messages, and all programs that feed them obtain the same
digest. -/
theorem C100_multicollision (I : MDInst h σ) (J : Injector) {t : Nat} (s : Nat → σ) (x : Fin t → Bool → Bits) (hs : s 0 = I.iv)
    (X : BlockCollisions (standard h).block (fun _ => I.compress) s x) (rest : Bits)
    (garbage : (Fin t → Bool) → Bits) (hgb : ∀ c, (garbage c).length = h.policy.blockBits)
    (ops : (Fin t → Bool) → List Op) (hwt : ∀ c, ∀ op ∈ ops c, op.WellTyped h.policy.blockBits) (hx : ∀ c, GoodExtracts h.policy.blockBits (GoodMsg h) [] (ops c))
    (hops : ∀ c, streamOf h.policy.blockBits (ops c) = chosen x c ++ rest)
    (hg : ∀ c, GoodMsg h (streamOf h.policy.blockBits (ops c))) :
    (∃ d, ∀ c, (do let (a, _) ← runOps (I.C J) J (Acc.init (I.C J) (garbage c)) [] (ops c)
                   a.result (I.C J)) = .ok d) ∧
    (Finset.univ.image fun c => streamOf h.policy.blockBits (ops c)).card = 2 ^ t := by
  have hB : 0 < (standard h).block := by cases h <;> decide
  refine ⟨⟨resume h I.compress I.view (s t) (t * (standard h).block) rest, fun c => ?_⟩,
    card_messages hB X.length X.differ rest _ hops⟩
  rw [md_program I J _ (hgb c) _ (hwt c) (hx c) (hg c), hops,
    mdDigest_resume _ _ _ _ _ (by rw [length_chosen X.length]; exact Nat.dvd_mul_left _ _), length_chosen X.length,
    blocks_chosen hB X.length, ← hs]
  rw [foldl_ofFn_same I.compress t s (fun i => x i (c i)) fun i => X.step i (c i)]

/-- A toy hash: the compression function adds the number of ones of the block. -/
def onesHash : MDInst .sha256 (Fin 256) where
  iv := 3
  compress s b := s + Fin.ofNat 256 (b.count true)
  view x := (List.range 256).map fun i => x.val.testBit i
  length_view := by simp [MDHash.policy]
  digest0 := List.replicate 256 false
  length_digest0 := List.length_replicate

/-- Two blocks for every step: the single one is in the first or in the second octet. -/
def onesBlock (i : Fin 2) (c : Bool) : List Nat := (if c then [2 ^ i.1, 0] else [0, 2 ^ i.1]) ++ List.replicate 62 0

example := C100_multicollision onesHash spliceInjector (t := 2) (fun i => 3 + Fin.ofNat 256 i) (fun i c => octetBits (onesBlock i c))
  (by decide) ⟨by decide +kernel, by decide +kernel, by decide +kernel⟩ (octetBits [97])
  (fun _ => List.replicate 512 true) (fun _ => List.length_replicate)
  (fun c => [feedBytes bigOctetBigBit (onesBlock 0 (c 0)), feedBytes bigOctetBigBit (onesBlock 1 (c 1) ++ [97])])
  (fun c op hop => by simp at hop; rcases hop with rfl | rfl <;> exact feedBytes_wellTyped _ _) (fun c => goodExtracts_of_no_extract _ _ _ (by simp [feedBytes]) _)
  (by decide +kernel) (by
    intro c
    have h : ∀ c : Fin 2 → Bool, (streamOf 512 [feedBytes bigOctetBigBit (onesBlock 0 (c 0)),
        feedBytes bigOctetBigBit (onesBlock 1 (c 1) ++ [97])]).length = 1032 := by decide +kernel
    exact goodMsg_of_bytes _ (by rw [show MDHash.sha256.policy.blockBits = 512 from rfl, h]; decide)
      (by rw [show MDHash.sha256.policy.blockBits = 512 from rfl, h]; decide))

/-- **C100, fixed points.** A Davies–Meyer compressor over a block cipher has exactly one fixed point for every block. -/
theorem C100_fixed_point {K : Type} {w n : Nat} (E : K → Vector (BitVec w) n → Vector (BitVec w) n)
    (hE : ∀ k, Function.Bijective (E k)) (k : K) : ∃! H, daviesMeyer E stateAdder H k = H := by
  obtain ⟨H, hH⟩ := (hE k).2 (Vector.replicate n 0)
  refine ⟨H, (C27_davies_meyer_fixed_points E H k).2 hH, fun H' h' => (hE k).1 ?_⟩
  rw [hH]
  exact (C27_davies_meyer_fixed_points E H' k).1 h'

/-- A toy block cipher: the key is added. -/
example : ∃! H, daviesMeyer (fun (k : BitVec 8) (v : Vector (BitVec 8) 2) => v.map (· + k)) stateAdder H 5 = H :=
  C100_fixed_point _ (fun k => ⟨fun v v' h => by
    apply Vector.ext
    intro i hi
    have := congrArg (fun x => x[i]) h
    simpa using this, fun v => ⟨v.map (· - k), by apply Vector.ext; intro i hi; simp [BitVec.sub_add_cancel]⟩⟩) 5

theorem foldl_fixed {β : Type} (f : σ → β → σ) (s : σ) (b : β) (hb : f s b = s) (n : Nat) : (List.replicate n b).foldl f s = s := by
  induction n with
  | zero => rfl
  | succ n ih => rw [List.replicate_succ, List.foldl_cons, hb, ih]

/-- **C100, long messages.** Let the chaining value `st` that whole blocks `m` lead to be fixed by the block `b`, and let the block `l`
lead from it to the chaining value after the blocks `p` of a message `p ++ r`.  If `p` has more blocks than `m`, repeating `b` makes
up for the length: `m ++ b ++ … ++ b ++ l ++ r` has the length and the digest of `p ++ r`. -/
theorem C100_long_message (I : MDInst h σ) (J : Injector) (m b l p r : Bits) (st : σ)
    (hm : (standard h).block ∣ m.length) (hb : b.length = (standard h).block) (hl : l.length = (standard h).block)
    (hp : (standard h).block ∣ p.length) (hmp : m.length < p.length)
    (hst : (blocks (standard h).block m).foldl I.compress I.iv = st) (hfix : I.compress st b = st)
    (hlink : I.compress st l = (blocks (standard h).block p).foldl I.compress I.iv)
    (garbage garbage' : Bits) (hgb : garbage.length = h.policy.blockBits) (hgb' : garbage'.length = h.policy.blockBits)
    (ops ops' : List Op) (hwt : ∀ op ∈ ops, op.WellTyped h.policy.blockBits) (hwt' : ∀ op ∈ ops', op.WellTyped h.policy.blockBits)
    (hx : GoodExtracts h.policy.blockBits (GoodMsg h) [] ops) (hx' : GoodExtracts h.policy.blockBits (GoodMsg h) [] ops')
    (hops : streamOf h.policy.blockBits ops = p ++ r)
    (hops' : streamOf h.policy.blockBits ops' =
      m ++ (List.replicate ((p.length - m.length) / (standard h).block - 1) b).flatten ++ l ++ r)
    (hg : GoodMsg h (p ++ r)) :
    (streamOf h.policy.blockBits ops').length = (streamOf h.policy.blockBits ops).length ∧
    ∃ d, (do let (a, _) ← runOps (I.C J) J (Acc.init (I.C J) garbage) [] ops
             a.result (I.C J)) = .ok d ∧
      (do let (a, _) ← runOps (I.C J) J (Acc.init (I.C J) garbage') [] ops'
          a.result (I.C J)) = .ok d := by
  have hB : 0 < (standard h).block := by cases h <;> decide
  generalize hk : (p.length - m.length) / (standard h).block - 1 = k at hops'
  have hdvd : (standard h).block ∣ p.length - m.length := Nat.dvd_sub hp hm
  have hk1 : 0 < (p.length - m.length) / (standard h).block := Nat.div_pos (Nat.le_of_dvd (by omega) hdvd) hB
  have hk2 : (k + 1) * (standard h).block = p.length - m.length := by
    rw [← hk, Nat.sub_add_cancel hk1, Nat.div_mul_cancel hdvd]
  have hlr : (List.replicate k b).flatten.length = k * (standard h).block := by simp [hb]
  have hlen : (m ++ (List.replicate k b).flatten ++ l).length = p.length := by
    rw [List.length_append, List.length_append, hlr, hl, Nat.add_assoc, ← Nat.succ_mul]
    show m.length + (k + 1) * _ = _
    omega
  have hd : mdDigest h I.iv I.compress I.view (m ++ (List.replicate k b).flatten ++ l ++ r) =
      mdDigest h I.iv I.compress I.view (p ++ r) := by
    rw [mdDigest_resume _ _ _ _ _ (by rw [hlen]; exact hp), mdDigest_resume _ _ _ _ _ hp, hlen]
    congr 1
    rw [blocks_append hB (by rw [List.length_append, hlr]; exact (Nat.dvd_add_right hm).2 (Nat.dvd_mul_left _ _)),
      blocks_append hB hm, blocks_single hB hl, blocks_flatten hB _ fun x hx => by rw [List.eq_of_mem_replicate hx, hb],
      List.foldl_append, List.foldl_append, hst, foldl_fixed _ _ _ hfix]
    exact hlink
  have hl2 : (streamOf h.policy.blockBits ops').length = (streamOf h.policy.blockBits ops).length := by
    rw [hops, hops', List.length_append (bs := r), hlen, List.length_append]
  have hg' : GoodMsg h (streamOf h.policy.blockBits ops') := by
    unfold GoodMsg at hg ⊢
    rw [hl2, hops]
    exact hg
  refine ⟨hl2, _, md_program I J _ hgb _ hwt hx (by rw [hops]; exact hg), ?_⟩
  rw [md_program I J _ hgb' _ hwt' hx' hg', hops, hops', hd]

/-- The block of zeros is a fixed point of the toy hash; the block `2 0 … 0` leads to the chaining value after `0 … 0 1`, `0 … 0`. -/
example := C100_long_message onesHash spliceInjector [] (octetBits (List.replicate 64 0)) (octetBits (2 :: List.replicate 63 0))
  (octetBits (List.replicate 63 0 ++ [1] ++ List.replicate 64 0)) (octetBits [97]) 3 (by decide) (by decide +kernel) (by decide +kernel)
  (by decide +kernel) (by decide +kernel) rfl (by decide +kernel) (by decide +kernel)
  (List.replicate 512 true) (List.replicate 512 false) List.length_replicate List.length_replicate
  [feedBytes bigOctetBigBit (List.replicate 63 0 ++ [1] ++ List.replicate 64 0), feedBytes bigOctetBigBit [97]]
  [feedBytes bigOctetBigBit (List.replicate 64 0 ++ [2] ++ List.replicate 63 0 ++ [97])]
  (by intro op hop; simp at hop; rcases hop with rfl | rfl <;> exact feedBytes_wellTyped _ _)
  (by intro op hop; simp at hop; rw [hop]; exact feedBytes_wellTyped _ _) (goodExtracts_of_no_extract _ _ _ (by simp [feedBytes]) _) (goodExtracts_of_no_extract _ _ _ (by simp [feedBytes]) _)
  (by decide +kernel) (by decide +kernel) (goodMsg_of_bytes _ (by decide +kernel) (by decide +kernel))

/-! ### HAIFA -/

theorem block_append_left {B : Nat} (a b : Bits) (i : Nat) (hi : (i + 1) * B ≤ a.length) : block B (a ++ b) i = block B a i := by
  unfold block
  rw [Nat.succ_mul] at hi
  rw [List.drop_append_of_le_length (by omega), List.take_append_of_le_length (by rw [List.length_drop]; omega)]

theorem block_append_right {B : Nat} (a b : Bits) (i : Nat) (hi : a.length ≤ i * B) :
    block B (a ++ b) i = (b.drop (i * B - a.length)).take B := by
  unfold block
  rw [List.drop_append, List.drop_eq_nil_of_le hi, List.nil_append]

theorem block_chosen {t B : Nat} (hB : 0 < B) {x : Fin t → Bool → Bits} (hx : ∀ i c, (x i c).length = B) (c : Fin t → Bool) (rest : Bits)
    (i : Fin t) : block B (chosen x c ++ rest) i = x i (c i) := by
  have hi : (i.1 + 1) * B ≤ (chosen x c).length := by
    rw [length_chosen hx]; exact Nat.mul_le_mul_right _ i.2
  rw [block_append_left _ _ _ hi]
  have h1 := congrArg (·[i.1]?) (blocks_chosen hB hx c)
  have h2 : i.1 < (chosen x c).length / B := by rw [length_chosen hx, Nat.mul_div_cancel _ hB]; exact i.2
  simp only [blocks, List.getElem?_map, List.getElem?_range h2, Option.map_some] at h1
  rw [List.getElem?_eq_getElem (by rw [List.length_ofFn]; exact i.2), List.getElem_ofFn] at h1
  exact Option.some.inj h1

theorem haifaAbsorbed_chosen {t B : Nat} (hB : 0 < B) (init : σ) (compress : σ → Bits → Nat → Bool → σ) (s : Nat → σ)
    (x : Fin t → Bool → Bits) (hs : s 0 = init)
    (X : BlockCollisions B (fun i st b => compress st b ((i + 1) * B) false) s x) (c : Fin t → Bool) (rest : Bits) :
    ∀ q ≤ t, haifaAbsorbed B init compress (chosen x c ++ rest) q = s q
  | 0, _ => hs.symm
  | q + 1, hq => by
    rw [haifaAbsorbed, haifaAbsorbed_chosen hB init compress s x hs X c rest q (by omega), ← X.step ⟨q, hq⟩ (c ⟨q, hq⟩),
      ← block_chosen hB X.length c rest ⟨q, hq⟩]

theorem haifaAbsorbed_same {B : Nat} (init : σ) (compress : σ → Bits → Nat → Bool → σ) (m m' : Bits) (t : Nat)
    (h0 : haifaAbsorbed B init compress m t = haifaAbsorbed B init compress m' t) (hb : ∀ i, t ≤ i → block B m i = block B m' i) :
    ∀ q, haifaAbsorbed B init compress m (t + q) = haifaAbsorbed B init compress m' (t + q)
  | 0 => h0
  | q + 1 => by
    rw [← Nat.add_assoc, haifaAbsorbed, haifaAbsorbed, haifaAbsorbed_same init compress m m' t h0 hb q, hb _ (by omega)]

/-- **C100, HAIFA multicollisions.** The same for the construction of BLAKE2b, any compression function and readout: here the
collisions are between blocks at the same position, because the compression function sees the number of bits. -/
theorem C100_haifa_multicollision (B w : Nat) (hB : 0 < B) (hw : 0 < w) (hwB : w ∣ B) (init : σ)
    (compress : σ → Bits → Nat → Bool → σ) (output : σ → Except Fault δ) (out : σ → δ) (hout : ∀ s, output s = .ok (out s))
    (JP J : Injector) {t : Nat} (s : Nat → σ) (x : Fin t → Bool → Bits) (hs : s 0 = init)
    (X : BlockCollisions B (fun i st b => compress st b ((i + 1) * B) false) s x) (rest : Bits) (hrest : rest ≠ [])
    (garbage : (Fin t → Bool) → Bits) (hgb : ∀ c, (garbage c).length = B)
    (ops : (Fin t → Bool) → List Op) (hwt : ∀ c, ∀ op ∈ ops c, op.WellTyped B) (hx : ∀ c, GoodExtracts B HaifaGood [] (ops c))
    (hops : ∀ c, streamOf B (ops c) = chosen x c ++ rest) (hg : t * B + rest.length < 2 ^ 64) :
    (∃ d, ∀ c, (do let (a, _) ← runOps (haifaConstruction B w init compress output JP) J
                     (Acc.init (haifaConstruction B w init compress output JP) (garbage c)) [] (ops c)
                   a.result (haifaConstruction B w init compress output JP)) = .ok d) ∧
    (Finset.univ.image fun c => streamOf B (ops c)).card = 2 ^ t := by
  have V := haifa_verified B w hB hw hwB init compress output out hout JP
  refine ⟨⟨haifaDigestOf B init compress out (chosen x (fun _ => false) ++ rest), fun c => ?_⟩,
    card_messages hB X.length X.differ rest _ hops⟩
  have hl : ∀ c, (chosen x c ++ rest).length = t * B + rest.length := fun c => by rw [List.length_append, length_chosen X.length]
  have hg' : (streamOf B (ops c)).length < 2 ^ 64 := by rw [hops, hl]; exact hg
  obtain ⟨a, e, r⟩ := V.extraction J (garbage c) (hgb c) (ops c) (hwt c) (Or.inl hg')
    (hx c) hg'
  rw [e]
  show a.result (haifaConstruction B w init compress output JP) = _
  rw [r]
  refine congrArg Except.ok ?_
  show haifaDigestOf B init compress out (streamOf B (ops c)) = _
  have hr : 0 < rest.length := List.length_pos_iff.2 hrest
  have hdrop : ∀ (c : Fin t → Bool) n, t * B ≤ n → (chosen x c ++ rest).drop n = rest.drop (n - t * B) := fun c n hn => by
    rw [List.drop_append, length_chosen X.length, List.drop_eq_nil_of_le (by rw [length_chosen X.length]; exact hn), List.nil_append]
  have hq : (t * B + rest.length) / B = t + rest.length / B := by rw [Nat.add_comm, Nat.add_mul_div_right _ _ hB, Nat.add_comm]
  rw [hops]
  unfold haifaDigestOf
  rw [hl, hl, hq, haifaAbsorbed_same init compress (chosen x c ++ rest) (chosen x (fun _ => false) ++ rest) t
    (by rw [haifaAbsorbed_chosen hB init compress s x hs X c rest t le_rfl,
          haifaAbsorbed_chosen hB init compress s x hs X _ rest t le_rfl])
    (fun i hi => by
      have : t * B ≤ i * B := Nat.mul_le_mul_right _ hi
      unfold block
      rw [hdrop c _ this, hdrop _ _ this])]
  congr 2
  unfold haifaLast
  rw [hl, hl]
  by_cases hf : t * B + rest.length ≠ 0 ∧ (t * B + rest.length) % B = 0
  · have h1 : t * B ≤ t * B + rest.length - B := by
      have : B ≤ rest.length := Nat.le_of_dvd hr (Nat.dvd_of_mod_eq_zero (by rw [Nat.add_comm, Nat.add_mul_mod_self_right] at hf; exact hf.2))
      omega
    rw [if_pos hf, if_pos hf, hdrop _ _ h1, hdrop _ _ h1]
  · have h1 : t * B ≤ (t * B + rest.length) / B * B := by rw [hq, Nat.add_mul]; omega
    rw [if_neg hf, if_neg hf, hdrop _ _ h1, hdrop _ _ h1]

/-- The toy compression function adds the ones of the block and the counter. -/
example := C100_haifa_multicollision 512 64 (by decide) (by decide) (by decide) (7 : Nat) (fun s b n _ => s + b.count true + n)
  Except.ok id (fun _ => rfl) spliceInjector spliceInjector (t := 2) (fun i => 7 + i + 256 * i * (i + 1))
  (fun i c => octetBits (onesBlock i c)) rfl ⟨by decide +kernel, by decide +kernel, by decide +kernel⟩ (octetBits [97])
  (by decide +kernel) (fun _ => List.replicate 512 true) (fun _ => List.length_replicate)
  (fun c => [feedBytes bigOctetBigBit (onesBlock 0 (c 0)), feedBytes bigOctetBigBit (onesBlock 1 (c 1) ++ [97])])
  (fun c op hop => by simp at hop; rcases hop with rfl | rfl <;> exact feedBytes_wellTyped _ _) (fun c => goodExtracts_of_no_extract _ _ _ (by simp [feedBytes]) _)
  (by decide +kernel) (by decide +kernel)

/-! ### The sponge hashes -/

theorem pad101_add (r k n : Nat) : pad101 r (r * k + n) = pad101 r n := by
  unfold pad101
  rw [Nat.add_assoc, fillTo_add_mul]

theorem xorBits_move : ∀ (a a' y : List Bool), a.length = a'.length → a.length = y.length →
    xorBits a' (xorBits (xorBits a a') y) = xorBits a y
  | [], [], [], _, _ => rfl
  | a :: as, a' :: as', y :: ys, h, h' => by
    have ih := xorBits_move as as' ys (by simpa using h) (by simpa using h')
    simp only [xorBits, List.zipWith_cons_cons] at ih ⊢
    rw [ih]
    cases a <;> cases a' <;> cases y <;> rfl

theorem length_xorBits (a b : List Bool) (h : a.length = b.length) : (xorBits a b).length = a.length := by
  simp [xorBits, h]

/-- Two states with the same capacity part: the blocks `y` and `y ⊕ rate ⊕ rate'` bring them together. -/
theorem absorb_join {b r : Nat} (hr : r ≤ b) (A A' y : List Bool) (hA : A.length = b) (hA' : A'.length = b) (hy : y.length = r)
    (hc : A.drop r = A'.drop r) :
    xorBits A' (xorBits (xorBits (A.take r) (A'.take r)) y ++ List.replicate (b - r) false) =
      xorBits A (y ++ List.replicate (b - r) false) := by
  have h1 : (A.take r).length = r := by rw [List.length_take, hA]; omega
  have h2 : (A'.take r).length = r := by rw [List.length_take, hA']; omega
  have h3 : (xorBits (xorBits (A.take r) (A'.take r)) y).length = r := by
    rw [length_xorBits _ _ (by rw [length_xorBits _ _ (h1.trans h2.symm), h1, hy]), length_xorBits _ _ (h1.trans h2.symm), h1]
  have hs : ∀ (A z : List Bool), (A.take r).length = r → z.length = r → xorBits A (z ++ List.replicate (b - r) false) =
      xorBits (A.take r) z ++ xorBits (A.drop r) (List.replicate (b - r) false) := by
    intro A z ha hz
    unfold xorBits
    conv_lhs => rw [← List.take_append_drop r A]
    exact List.zipWith_append (ha.trans hz.symm)
  rw [hs A' _ h2 h3, hs A y h1 hy, xorBits_move _ _ _ (h1.trans h2.symm) (h1.trans hy.symm), hc]

/-- The string absorbed for a message that begins with whole blocks. -/
theorem spongeInput_blocks (k : SpongeKind) {r : Nat} (hr : 0 < r) (h8 : 8 ∣ r) (m y s : Bits) (hm : r ∣ m.length) (hy : y.length = r)
    (hs : 8 ∣ s.length) :
    spongeInput k r (m ++ y ++ s) = blocks r (flipOctets m) ++ [flipOctets y] ++ spongeInput k r s := by
  have hm8 : 8 ∣ m.length := Nat.dvd_trans h8 hm
  have hy8 : 8 ∣ y.length := hy ▸ h8
  obtain ⟨n, hn⟩ := hm
  unfold spongeInput
  have hlen : (flipOctets (m ++ y ++ s) ++ k.suffix).length = r * (n + 1) + (flipOctets s ++ k.suffix).length := by
    simp only [List.length_append, length_flipOctets, hn, hy, Nat.mul_add]
    omega
  rw [hlen, pad101_add, flipOctets_append _ _ (by rw [List.length_append]; exact (Nat.dvd_add_right hm8).2 hy8) hs,
    flipOctets_append _ _ hm8 hy8, List.append_assoc, List.append_assoc, ← List.append_assoc (flipOctets s),
    blocks_append hr (by rw [List.length_append, length_flipOctets, length_flipOctets, hn, hy]; exact ⟨n + 1, rfl⟩),
    blocks_append hr (by rw [length_flipOctets, hn]; exact ⟨n, rfl⟩), blocks_single hr (x := flipOctets y) (by rw [length_flipOctets, hy])]

/-- **C100, inner collisions.** The converse of C76 for the sponge hashes, any permutation: if the states after the whole blocks `m` and
after the whole blocks `m'` agree in the capacity, then for every block `y` the messages `m ++ y ++ s` and `m' ++ y' ++ s` have the same
digest, where `y'` is `y` plus the difference of the two rate parts; they are different messages unless `m = m'`. -/
theorem C100_inner_collision (k : SpongeKind) (permute : Lanes → Lanes) {d : Nat} (S : SpongeSize d) (JP J : Injector)
    (m m' y s : Bits) (hm : spongeBlockBits d ∣ m.length) (hm' : spongeBlockBits d ∣ m'.length) (hy : y.length = spongeBlockBits d)
    (hs : 8 ∣ s.length) (A A' : List Bool)
    (hA : A = absorbBlocks 1600 (spongeBlockBits d) (onStrings permute) (blocks (spongeBlockBits d) (flipOctets m)))
    (hA' : A' = absorbBlocks 1600 (spongeBlockBits d) (onStrings permute) (blocks (spongeBlockBits d) (flipOctets m')))
    (hc : A.drop (spongeBlockBits d) = A'.drop (spongeBlockBits d))
    (garbage garbage' : Bits) (hgb : garbage.length = spongeBlockBits d) (hgb' : garbage'.length = spongeBlockBits d)
    (ops ops' : List Op) (hwt : ∀ op ∈ ops, op.WellTyped (spongeBlockBits d)) (hwt' : ∀ op ∈ ops', op.WellTyped (spongeBlockBits d))
    (hx : GoodExtracts (spongeBlockBits d) SpongeGood [] ops) (hx' : GoodExtracts (spongeBlockBits d) SpongeGood [] ops')
    (hops : streamOf (spongeBlockBits d) ops = m ++ y ++ s)
    (hops' : streamOf (spongeBlockBits d) ops' = m' ++ flipOctets (xorBits (xorBits (A.take (spongeBlockBits d))
      (A'.take (spongeBlockBits d))) (flipOctets y)) ++ s)
    (hg : SpongeGood (streamOf (spongeBlockBits d) ops)) (hg' : SpongeGood (streamOf (spongeBlockBits d) ops')) :
    ∃ dig, (do let (a, _) ← runOps (spongeConstruction k permute d JP) J
                 (Acc.init (spongeConstruction k permute d JP) garbage) [] ops
               a.result (spongeConstruction k permute d JP)) = .ok dig ∧
      (do let (a, _) ← runOps (spongeConstruction k permute d JP) J
            (Acc.init (spongeConstruction k permute d JP) garbage') [] ops'
          a.result (spongeConstruction k permute d JP)) = .ok dig ∧
      (m ≠ m' → streamOf (spongeBlockBits d) ops ≠ streamOf (spongeBlockBits d) ops') := by
  have h := S.facts
  obtain ⟨a, e, r⟩ := (sponge_verified k permute JP S).extraction J garbage hgb ops hwt
    (Or.inl hg.2) hx hg
  obtain ⟨a', e', r'⟩ := (sponge_verified k permute JP S).extraction J garbage' hgb' ops' hwt'
    (Or.inl hg'.2) hx' hg'
  have h8 : 8 ∣ spongeBlockBits d := Nat.dvd_trans ⟨8, rfl⟩ h.2.1
  have lA : A.length = 1600 := by rw [hA]; exact length_absorbBlocks (length_onStrings permute) _
  have lA' : A'.length = 1600 := by rw [hA']; exact length_absorbBlocks (length_onStrings permute) _
  have ly : (flipOctets y).length = spongeBlockBits d := by rw [length_flipOctets, hy]
  have l1 : (A.take (spongeBlockBits d)).length = spongeBlockBits d := by rw [List.length_take, lA]; omega
  have l2 : (A'.take (spongeBlockBits d)).length = spongeBlockBits d := by rw [List.length_take, lA']; omega
  have l3 : (xorBits (xorBits (A.take (spongeBlockBits d)) (A'.take (spongeBlockBits d))) (flipOctets y)).length =
      spongeBlockBits d := by
    rw [length_xorBits _ _ (by rw [length_xorBits _ _ (l1.trans l2.symm), l1, ly]), length_xorBits _ _ (l1.trans l2.symm), l1]
  rw [e, e']
  refine ⟨_, r, ?_, ?_⟩
  · show a'.result (spongeConstruction k permute d JP) = _
    rw [r']
    refine congrArg Except.ok ?_
    show spongeSpec k permute d (streamOf (spongeBlockBits d) ops') = spongeSpec k permute d (streamOf (spongeBlockBits d) ops)
    have key : absorbBlocks 1600 (spongeBlockBits d) (onStrings permute) (spongeInput k (spongeBlockBits d)
          (streamOf (spongeBlockBits d) ops')) =
        absorbBlocks 1600 (spongeBlockBits d) (onStrings permute) (spongeInput k (spongeBlockBits d)
          (streamOf (spongeBlockBits d) ops)) := by
      rw [hops, hops', spongeInput_blocks k h.1 h8 m y s hm hy hs,
        spongeInput_blocks k h.1 h8 m' _ s hm' (by rw [length_flipOctets, l3]) hs,
        flipOctets_flipOctets _ (by rw [l3]; exact h8)]
      unfold absorbBlocks at hA hA' ⊢
      rw [List.foldl_append, List.foldl_append, List.foldl_append, List.foldl_append, ← hA, ← hA', List.foldl_cons, List.foldl_nil,
        List.foldl_cons, List.foldl_nil, absorb_join h.2.2.1 A A' _ lA lA' ly hc]
    unfold spongeSpec sponge
    exact congrArg (fun S => flipOctets (squeeze (spongeBlockBits d) (onStrings permute) S d)) key
  · intro hmm heq
    rw [hops, hops'] at heq
    have h1 := List.append_cancel_right heq
    exact hmm (List.append_inj' h1 (by rw [length_flipOctets, l3, hy])).1

/-- A constant function in place of Keccak-f: it leaves 5 in the first lane. -/
def innerExample (_ : Lanes) : Lanes := (Vector.replicate 25 0).set 0 5

theorem inner_example_stream : streamOf (spongeBlockBits 512) [spongeBytes 512 (List.replicate 72 255), spongeBytes 512 (List.replicate 72 1 ++ [97])] =
    octetBits (List.replicate 72 255) ++ octetBits (List.replicate 72 1) ++ octetBits [97] := by decide +kernel

theorem inner_example_stream' : streamOf (spongeBlockBits 512) [spongeBytes 512 (4 :: List.replicate 71 1 ++ [97])] =
    [] ++ flipOctets (xorBits (xorBits ((absorbBlocks 1600 (spongeBlockBits 512) (onStrings innerExample) (blocks (spongeBlockBits 512) (flipOctets (octetBits
      (List.replicate 72 255))))).take (spongeBlockBits 512)) ((absorbBlocks 1600 (spongeBlockBits 512) (onStrings innerExample) (blocks (spongeBlockBits 512) (flipOctets []))).take (spongeBlockBits 512)))
      (flipOctets (octetBits (List.replicate 72 1)))) ++ octetBits [97] := by decide +kernel

theorem inner_example_capacity : (absorbBlocks 1600 (spongeBlockBits 512) (onStrings innerExample) (blocks (spongeBlockBits 512) (flipOctets (octetBits
      (List.replicate 72 255))))).drop (spongeBlockBits 512) = (absorbBlocks 1600 (spongeBlockBits 512) (onStrings innerExample) (blocks (spongeBlockBits 512) (flipOctets []))).drop (spongeBlockBits 512) := by
  decide +kernel

theorem inner_example_good : SpongeGood (streamOf (spongeBlockBits 512) [spongeBytes 512 (List.replicate 72 255),
      spongeBytes 512 (List.replicate 72 1 ++ [97])]) ∧ SpongeGood (streamOf (spongeBlockBits 512) [spongeBytes 512 (4 :: List.replicate 71 1 ++ [97])]) :=
  ⟨⟨by decide +kernel, by decide +kernel⟩, ⟨by decide +kernel, by decide +kernel⟩⟩

/-- `m` is a block of ones, `m'` is empty. -/
example := C100_inner_collision .sha3 innerExample sizes.2.2.2 spliceInjector spliceInjector (octetBits (List.replicate 72 255)) []
  (octetBits (List.replicate 72 1)) (octetBits [97]) (by decide +kernel) (by decide +kernel) (by decide +kernel) (by decide +kernel)
  _ _ rfl rfl inner_example_capacity (List.replicate (spongeBlockBits 512) true) (List.replicate (spongeBlockBits 512) false) List.length_replicate List.length_replicate
  [spongeBytes 512 (List.replicate 72 255), spongeBytes 512 (List.replicate 72 1 ++ [97])]
  [spongeBytes 512 (4 :: List.replicate 71 1 ++ [97])]
  (by intro op hop; simp at hop; rcases hop with rfl | rfl <;> exact spongeBytes_wellTyped sizes.2.2.2 _)
  (by intro op hop; simp at hop; rw [hop]; exact spongeBytes_wellTyped sizes.2.2.2 _) (goodExtracts_of_no_extract _ _ _ (by simp [spongeBytes]) _) (goodExtracts_of_no_extract _ _ _ (by simp [spongeBytes]) _)
  inner_example_stream inner_example_stream' inner_example_good.1 inner_example_good.2

end Verif.Props
