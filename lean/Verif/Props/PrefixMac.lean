import Verif.Proof.Prf
import Verif.Props.BlakeIndifferentiable
import Verif.Props.Distinguishable
import Verif.Props.Indifferentiable
/-
C106, C107: the hash of a secret key followed by the message, as authentication code.
-/
namespace Verif.Props

open Spec Spec.Ideal Verif.Ideal

/-! ### Keys -/

/-- How a key is fed to a hash of `B`-bit blocks: calls whose bits tell the keys apart and are equally many, whole octets. -/
structure KeyFeed (B : Nat) (Key : Type) where
  ops : Key → List Op
  bits : Nat
  wellTyped : ∀ k, ∀ op ∈ ops k, op.WellTyped B
  noExtract : ∀ k, Op.extract ∉ ops k
  length_stream : ∀ k, (streamOf B (ops k)).length = bits
  injective : ∀ k k', streamOf B (ops k) = streamOf B (ops k') → k = k'
  octets : 8 ∣ bits

/-- The key as octets, fed in one call. -/
def octetKey (B κ : Nat) (hB : 8 ∣ B) (e : Endian) : KeyFeed B (Fin κ → Fin 256) where
  ops k := [.feed (wordElem e 8) .randomAccess (List.replicate (B / 8) 0) (List.ofFn fun i => (k i).1)]
  bits := 8 * κ
  wellTyped k op ho := by
    rw [List.mem_singleton.1 ho]
    exact ⟨by simp [wordElem], hB, by simp [wordElem]⟩
  noExtract k h := nomatch List.mem_singleton.1 h
  length_stream k := by
    show (e.views 8 (List.ofFn fun i => (k i).1) ++ []).length = _
    rw [List.append_nil, length_views, List.length_ofFn, Nat.mul_comm]
  injective k k' h := by
    have h' : e.views 8 (List.ofFn fun i => (k i).1) = e.views 8 (List.ofFn fun i => (k' i).1) := by
      have h1 : ∀ xs : List Nat, streamOf B [.feed (wordElem e 8) .randomAccess (List.replicate (B / 8) 0) xs] = e.views 8 xs := by
        intro xs
        show e.views 8 xs ++ [] = _
        rw [List.append_nil]
      rw [← h1, ← h1]
      exact h
    have hlt : ∀ k : Fin κ → Fin 256, ∀ x ∈ List.ofFn fun i => (k i).1, x < 2 ^ 8 := by
      intro k x hx
      obtain ⟨i, rfl⟩ := List.mem_ofFn.1 hx
      exact (k i).2
    have := List.ofFn_injective (views_injective e (by omega) (by omega) _ _ (hlt k) (hlt k') h')
    exact funext fun i => Fin.ext (congrFun this i)
  octets := ⟨κ, rfl⟩

theorem streamOf_append (B : Nat) (a b : List Op) : streamOf B (a ++ b) = streamOf B a ++ streamOf B b := List.flatMap_append

section
variable {B : Nat} {Key : Type} (F : KeyFeed B Key)

theorem KeyFeed.length_append (k : Key) (ops : List Op) : (streamOf B (F.ops k ++ ops)).length = F.bits + (streamOf B ops).length := by
  rw [streamOf_append, List.length_append, F.length_stream]

theorem KeyFeed.wellTyped_append (k : Key) {ops : List Op} (h : ∀ op ∈ ops, op.WellTyped B) : ∀ op ∈ F.ops k ++ ops, op.WellTyped B := by
  intro op ho
  rcases List.mem_append.1 ho with ho | ho
  · exact F.wellTyped k op ho
  · exact h op ho

theorem KeyFeed.noExtract_append (k : Key) {ops : List Op} (h : Op.extract ∉ ops) : Op.extract ∉ F.ops k ++ ops := by
  intro ho
  rcases List.mem_append.1 ho with ho | ho
  · exact F.noExtract k ho
  · exact h ho

/-- Keys and messages can be read back. -/
theorem KeyFeed.join_injective {k k' : Key} {m m' : Bits} (h : streamOf B (F.ops k) ++ m = streamOf B (F.ops k') ++ m') : k = k' ∧ m = m' := by
  obtain ⟨h1, h2⟩ := List.append_inj h ((F.length_stream k).trans (F.length_stream k').symm)
  exact ⟨F.injective k k' h1, h2⟩

end

/-! ### Sponges -/

section
variable {d : Nat} {Key : Type} {F : KeyFeed (spongeBlockBits d) Key}

/-- A program of calls that feeds one message behind the key. -/
structure SpongeMacCall {d : Nat} {Key : Type} (F : KeyFeed (spongeBlockBits d) Key) where
  kind : SpongeKind
  garbage : Bits
  ops : List Op
  length_garbage : garbage.length = spongeBlockBits d
  wellTyped : ∀ op ∈ ops, op.WellTyped (spongeBlockBits d)
  noExtract : Op.extract ∉ ops
  octets : 8 ∣ (streamOf (spongeBlockBits d) ops).length
  short : F.bits + (streamOf (spongeBlockBits d) ops).length < 2 ^ 64

/-- The whole program with the key `k`. -/
def SpongeMacCall.withKey (k : Key) (q : SpongeMacCall F) : SpongeCall d where
  kind := q.kind
  garbage := q.garbage
  ops := F.ops k ++ q.ops
  length_garbage := q.length_garbage
  wellTyped := F.wellTyped_append k q.wellTyped
  extracts := goodExtracts_of_no_extract _ _ _ (F.noExtract_append k q.noExtract) _
  good := by
    unfold SpongeGood
    rw [F.length_append]
    exact ⟨Nat.dvd_add F.octets q.octets, q.short⟩

/-- What the library returns for key and message. -/
def SpongeMacCall.tag (permute : Lanes → Lanes) (JP J : Injector) (k : Key) (q : SpongeMacCall F) : Except Fault Bits :=
  (q.withKey k).digest permute JP J

/-- The messages to be authenticated. -/
def SpongeMacMessage (F : KeyFeed (spongeBlockBits d) Key) : Type :=
  { m : SpongeKind × Bits // 8 ∣ m.2.length ∧ F.bits + m.2.length < 2 ^ 64 }

def SpongeMacCall.message (q : SpongeMacCall F) : SpongeMacMessage F :=
  ⟨(q.kind, streamOf (spongeBlockBits d) q.ops), q.octets, q.short⟩

/-- The number of permutation calls for key and message. -/
def SpongeMacCall.cost (q : SpongeMacCall F) : Nat :=
  (spongeInput q.kind (spongeBlockBits d) (List.replicate F.bits false ++ streamOf (spongeBlockBits d) q.ops)).length

noncomputable instance : Fintype (SpongeMacMessage F) := by
  have : Finite { b : Bits // b.length < 2 ^ 64 } := (List.finite_length_lt Bool _).to_subtype
  exact @Fintype.ofFinite _ (Finite.of_injective
    (fun m : SpongeMacMessage F => ((m.1.1, ⟨m.1.2, by have := m.2.2; omega⟩) : SpongeKind × { b : Bits // b.length < 2 ^ 64 }))
    (fun m m' h => Subtype.ext (Prod.ext (Prod.mk.inj h).1 (congrArg Subtype.val (Prod.mk.inj h).2))))

theorem length_spongeInput_congr (k : SpongeKind) (r : Nat) {m m' : Bits} (h : m.length = m'.length) :
    (spongeInput k r m).length = (spongeInput k r m').length := by
  unfold spongeInput
  simp only [blocks, List.length_map, List.length_range, List.length_append, length_flipOctets, h]

theorem SpongeMacCall.cost_withKey (k : Key) (q : SpongeMacCall F) : (q.withKey k).cost = q.cost := by
  refine length_spongeInput_congr _ _ ?_
  show (streamOf _ (F.ops k ++ q.ops)).length = _
  rw [F.length_append, List.length_append, List.length_replicate]

/-- Key and message as message of the hash. -/
def spongeJoin (F : KeyFeed (spongeBlockBits d) Key) (k : Key) (m : SpongeMacMessage F) : SpongeMessage :=
  ⟨(m.1.1, streamOf (spongeBlockBits d) (F.ops k) ++ m.1.2), by
    unfold SpongeGood
    rw [List.length_append, F.length_stream]
    exact ⟨Nat.dvd_add F.octets m.2.1, m.2.2⟩⟩

theorem spongeJoin_injective (F : KeyFeed (spongeBlockBits d) Key) (k k' : Key) (m m' : SpongeMacMessage F)
    (h : spongeJoin F k m = spongeJoin F k' m') : k = k' ∧ m = m' := by
  have h := congrArg Subtype.val h
  obtain ⟨h1, h2⟩ := F.join_injective (Prod.mk.inj h).2
  exact ⟨h1, Subtype.ext (Prod.ext (Prod.mk.inj h).1 h2)⟩

theorem spongeJoin_message (k : Key) (q : SpongeMacCall F) : (q.withKey k).message = spongeJoin F k q.message :=
  Subtype.ext (Prod.ext rfl (streamOf_append _ _ _))

open Classical in
/-- **C106.** The hash of a secret key followed by the message, for the Keccak and SHA-3 hashes as the library builds them, over a
random permutation: an adversary of cost `N` that may query the permutation and ask for the codes of messages cannot tell them from
those of a random function, independent of the permutation, but with an advantage of `2 N^2 / 2^2d` and `N` over the number of
keys.  The cost of a code is the number of its permutation calls. -/
theorem C106_sponge_random (S : SpongeSize d) (h3 : 3 * d ≤ 1600) (JP J : Injector) [Fintype Key] [Nonempty Key]
    (F : KeyFeed (spongeBlockBits d) Key) (P : Distinguisher (SpongeMacCall F) (Except Fault Bits) Unit Lanes) (N : Nat)
    (hP : P.AtMost SpongeMacCall.cost N) :
    |(chance fun w : Key × Cipher Unit Lanes => P.real (fun q => q.tag (w.2 ()) JP J w.1) w.2 = true) -
      (chance fun w : (SpongeMacMessage F → Fin d → Bool) × Cipher Unit Lanes =>
        P.real (fun q => .ok (List.ofFn (w.1 q.message))) w.2 = true)| ≤ 2 * ((N : ℚ) ^ 2 / 2 ^ (2 * d)) + N / Fintype.card Key := by
  obtain ⟨sim, h⟩ := C102_indifferentiable S h3 JP J
  letI := sim.fintype
  refine prf_close sim (spongeJoin F) (spongeJoin_injective F) SpongeMacCall.message (fun t => Except.ok (List.ofFn t)) P N hP
    (fun k E q => q.tag (E ()) JP J k) (fun k => ?_) (fun G => ?_)
  · have h1 := h (onInput (SpongeMacCall.withKey k) P) N (atMost_onInput _ (SpongeMacCall.cost_withKey k) P N hP)
    unfold Distinguisher.idealChance at h1
    simp only [real_onInput, ideal_onInput, spongeJoin_message] at h1
    exact h1
  · have h2 := h (fixed (SpongeCall d) (fun q => Except.ok (List.ofFn (G q.message))) P) N (atMost_fixed _ P N hP)
    unfold Distinguisher.idealChance at h2
    simp only [real_fixed, ideal_fixed] at h2
    exact h2

theorem ok_ofFn_injective (n : Nat) : Function.Injective fun t : Fin n → Bool => (Except.ok (List.ofFn t) : Except Fault Bits) :=
  fun _ _ h => List.ofFn_injective (Except.ok.inj h)

open Classical in
/-- **C106.** So forging such a code succeeds with probability at most that and `2^-d`. -/
theorem C106_sponge_unforgeable (S : SpongeSize d) (h3 : 3 * d ≤ 1600) (JP J : Injector) [Fintype Key] [Nonempty Key]
    (F : KeyFeed (spongeBlockBits d) Key) (A : Forger (SpongeMacCall F) (Except Fault Bits) Unit Lanes) (N : Nat)
    (hA : A.AtMost SpongeMacCall.cost N) :
    (chance fun w : Key × Cipher Unit Lanes => A.Wins SpongeMacCall.message (fun q => q.tag (w.2 ()) JP J w.1) w.2) ≤
      2 * ((N : ℚ) ^ 2 / 2 ^ (2 * d)) + N / Fintype.card Key + 1 / 2 ^ d := by
  have h := unforgeable SpongeMacCall.message (fun t : Fin d → Bool => (Except.ok (List.ofFn t) : Except Fault Bits)) (ok_ofFn_injective d) A
    (fun k (E : Cipher Unit Lanes) q => q.tag (E ()) JP J k)
    (C106_sponge_random S h3 JP J F (game SpongeMacCall.message A []) N (game_atMost _ A _ N hA))
  rw [Fintype.card_fun, Fintype.card_bool, Fintype.card_fin] at h
  push_cast at h
  exact h

end

/-! ### BLAKE2b -/

section
variable {Key : Type} {F : KeyFeed 1024 Key}

/-- A program of calls that feeds one message behind the key. -/
structure BlakeMacCall {Key : Type} (F : KeyFeed 1024 Key) where
  garbage : Bits
  ops : List Op
  length_garbage : garbage.length = 1024
  wellTyped : ∀ op ∈ ops, op.WellTyped 1024
  noExtract : Op.extract ∉ ops
  octets : 8 ∣ (streamOf 1024 ops).length
  short : F.bits + (streamOf 1024 ops).length < 2 ^ 64

/-- The whole program with the key `k`. -/
def BlakeMacCall.withKey (k : Key) (q : BlakeMacCall F) : BlakeCall where
  garbage := q.garbage
  ops := F.ops k ++ q.ops
  length_garbage := q.length_garbage
  wellTyped := F.wellTyped_append k q.wellTyped
  extracts := goodExtracts_of_no_extract _ _ _ (F.noExtract_append k q.noExtract) _
  octets := by rw [F.length_append]; exact Nat.dvd_add F.octets q.octets
  short := by rw [F.length_append]; exact q.short

/-- What the library returns for key and message. -/
def BlakeMacCall.tag (E : BlakeKey → BlakeWork → BlakeWork) (nn : Nat) (JP J : Injector) (k : Key) (q : BlakeMacCall F) :
    Except Fault Bits := (q.withKey k).digest E nn JP J

/-- The messages to be authenticated. -/
def BlakeMacMessage (F : KeyFeed 1024 Key) : Type := { m : Bits // 8 ∣ m.length ∧ F.bits + m.length < 2 ^ 64 }

def BlakeMacCall.message (q : BlakeMacCall F) : BlakeMacMessage F := ⟨streamOf 1024 q.ops, q.octets, q.short⟩

/-- The number of calls of the compression function for key and message. -/
def BlakeMacCall.cost (q : BlakeMacCall F) : Nat := (haifaInput 1024 (List.replicate F.bits false ++ streamOf 1024 q.ops)).length

noncomputable instance : Fintype (BlakeMacMessage F) := by
  have : Finite { b : Bits // b.length < 2 ^ 64 } := (List.finite_length_lt Bool _).to_subtype
  exact @Fintype.ofFinite _ (Finite.of_injective
    (fun m : BlakeMacMessage F => (⟨m.1, by have := m.2.2; omega⟩ : { b : Bits // b.length < 2 ^ 64 }))
    (fun m m' h => Subtype.ext (congrArg (fun x : { b : Bits // b.length < 2 ^ 64 } => x.1) h)))

theorem BlakeMacCall.cost_withKey (k : Key) (q : BlakeMacCall F) : (q.withKey k).cost = q.cost := by
  have h : ∀ m m' : Bits, m.length = m'.length → (haifaInput 1024 m).length = (haifaInput 1024 m').length := by
    intro m m' h
    unfold haifaInput
    simp only [List.length_append, List.length_map, List.length_range, List.length_singleton, h]
  refine h _ _ ?_
  show (streamOf _ (F.ops k ++ q.ops)).length = _
  rw [F.length_append, List.length_append, List.length_replicate]

/-- Key and message as message of the hash. -/
def blakeJoin (F : KeyFeed 1024 Key) (k : Key) (m : BlakeMacMessage F) : BlakeMessage :=
  ⟨streamOf 1024 (F.ops k) ++ m.1, by
    rw [List.length_append, F.length_stream]
    exact ⟨Nat.dvd_add F.octets m.2.1, m.2.2⟩⟩

theorem blakeJoin_injective (F : KeyFeed 1024 Key) (k k' : Key) (m m' : BlakeMacMessage F)
    (h : blakeJoin F k m = blakeJoin F k' m') : k = k' ∧ m = m' := by
  obtain ⟨h1, h2⟩ := F.join_injective (congrArg Subtype.val h)
  exact ⟨h1, Subtype.ext h2⟩

theorem blakeJoin_message (k : Key) (q : BlakeMacCall F) : (q.withKey k).message = blakeJoin F k q.message :=
  Subtype.ext (streamOf_append _ _ _)

open Classical in
/-- **C106.** The same for BLAKE2b with `nn` octets of output, over a random cipher in place of the twelve rounds. -/
theorem C106_blake_random {nn : Nat} (hnn : nn ≤ 64) (JP J : Injector) [Fintype Key] [Nonempty Key] (F : KeyFeed 1024 Key)
    (P : Distinguisher (BlakeMacCall F) (Except Fault Bits) BlakeKey BlakeWork) (N : Nat) (hP : P.AtMost BlakeMacCall.cost N) :
    |(chance fun w : Key × Cipher BlakeKey BlakeWork => P.real (fun q => q.tag (fun k => w.2 k) nn JP J w.1) w.2 = true) -
      (chance fun w : (BlakeMacMessage F → Fin (8 * nn) → Bool) × Cipher BlakeKey BlakeWork =>
        P.real (fun q => .ok (List.ofFn (w.1 q.message))) w.2 = true)| ≤
      2 * ((N : ℚ) ^ 2 / 2 ^ 512 + N * (N - 1) / 2 ^ 1025) + N / Fintype.card Key := by
  obtain ⟨sim, h⟩ := C105_indifferentiable hnn JP J
  letI := sim.fintype
  refine prf_close sim (blakeJoin F) (blakeJoin_injective F) BlakeMacCall.message (fun t => Except.ok (List.ofFn t)) P N hP
    (fun k E q => q.tag (fun k => E k) nn JP J k) (fun k => ?_) (fun G => ?_)
  · have h1 := h (onInput (BlakeMacCall.withKey k) P) N (atMost_onInput _ (BlakeMacCall.cost_withKey k) P N hP)
    unfold Distinguisher.idealChance at h1
    simp only [real_onInput, ideal_onInput, blakeJoin_message] at h1
    exact h1
  · have h2 := h (fixed BlakeCall (fun q => Except.ok (List.ofFn (G q.message))) P) N (atMost_fixed _ P N hP)
    unfold Distinguisher.idealChance at h2
    simp only [real_fixed, ideal_fixed] at h2
    exact h2

open Classical in
/-- **C106.** So forging such a code succeeds with probability at most that and `2^-8nn`. -/
theorem C106_blake_unforgeable {nn : Nat} (hnn : nn ≤ 64) (JP J : Injector) [Fintype Key] [Nonempty Key] (F : KeyFeed 1024 Key)
    (A : Forger (BlakeMacCall F) (Except Fault Bits) BlakeKey BlakeWork) (N : Nat) (hA : A.AtMost BlakeMacCall.cost N) :
    (chance fun w : Key × Cipher BlakeKey BlakeWork => A.Wins BlakeMacCall.message (fun q => q.tag (fun k => w.2 k) nn JP J w.1) w.2) ≤
      2 * ((N : ℚ) ^ 2 / 2 ^ 512 + N * (N - 1) / 2 ^ 1025) + N / Fintype.card Key + 1 / 2 ^ (8 * nn) := by
  have h := unforgeable BlakeMacCall.message (fun t : Fin (8 * nn) → Bool => (Except.ok (List.ofFn t) : Except Fault Bits))
    (ok_ofFn_injective _) A (fun k (E : Cipher BlakeKey BlakeWork) q => q.tag (fun k => E k) nn JP J k)
    (C106_blake_random hnn JP J F (game BlakeMacCall.message A []) N (game_atMost _ A _ N hA))
  rw [Fintype.card_fun, Fintype.card_bool, Fintype.card_fin] at h
  push_cast at h
  exact h

end

/-! ### Merkle–Damgård hashes -/

/-- The bits, block by block, the last one in part. -/
def feedBits (B : Nat) (b : Bits) : List Op :=
  if B = 0 ∨ b = [] then [] else .block (b.take B ++ List.replicate (B - b.length) false) (b.take B).length :: feedBits B (b.drop B)
termination_by b.length
decreasing_by
  rename_i h
  have := List.length_pos_iff.2 fun e => h (Or.inr e)
  rw [List.length_drop]
  omega

theorem feedBits_spec {B : Nat} (hB : 0 < B) (b : Bits) :
    streamOf B (feedBits B b) = b ∧ (∀ op ∈ feedBits B b, op.WellTyped B) ∧ Op.extract ∉ feedBits B b := by
  induction hn : b.length using Nat.strongRecOn generalizing b with
  | _ n ih =>
    unfold feedBits
    by_cases hb : b = []
    · rw [if_pos (Or.inr hb), hb]
      exact ⟨rfl, fun _ h => absurd h List.not_mem_nil, List.not_mem_nil⟩
    · have hp := List.length_pos_iff.2 hb
      rw [if_neg (by rintro (h | h); omega; exact hb h)]
      obtain ⟨h1, h2, h3⟩ := ih (b.drop B).length (by rw [List.length_drop]; omega) (b.drop B) rfl
      refine ⟨?_, ?_, ?_⟩
      · show (b.take B ++ _).take (if (b.take B).length = 0 then B else (b.take B).length) ++ streamOf B (feedBits B (b.drop B)) = b
        rw [h1, if_neg (by rw [List.length_take]; omega), List.take_left' rfl, List.take_append_drop]
      · intro op ho
        rcases List.mem_cons.1 ho with rfl | ho
        · refine ⟨?_, ?_⟩
          · rw [List.length_append, List.length_take, List.length_replicate]; omega
          · rw [List.length_take]; omega
        · exact h2 op ho
      · intro ho
        rcases List.mem_cons.1 ho with h | ho
        · cases h
        · exact h3 ho

section
variable {h : MDHash} {Key : Type} {F : KeyFeed h.policy.blockBits Key} {w n : Nat}

/-- A program of calls that feeds one message behind the key. -/
structure MDMacCall {h : MDHash} {Key : Type} (F : KeyFeed h.policy.blockBits Key) where
  garbage : Bits
  ops : List Op
  length_garbage : garbage.length = h.policy.blockBits
  wellTyped : ∀ op ∈ ops, op.WellTyped h.policy.blockBits
  noExtract : Op.extract ∉ ops
  octets : 8 ∣ (streamOf h.policy.blockBits ops).length
  short : F.bits + (streamOf h.policy.blockBits ops).length < 2 ^ 64

theorem md_marker (h : MDHash) : (standard h).marker.length ∣ 8 ∧ 8 ∣ (standard h).block ∧ (standard h).marker.length + (standard h).length < (standard h).block := by
  cases h <;> decide

/-- The whole program with the key `k`. -/
def MDMacCall.withKey (k : Key) (q : MDMacCall F) : MDCall h where
  garbage := q.garbage
  ops := F.ops k ++ q.ops
  length_garbage := q.length_garbage
  wellTyped := F.wellTyped_append k q.wellTyped
  extracts := goodExtracts_of_no_extract _ _ _ (F.noExtract_append k q.noExtract) _
  good := by
    have hs := q.short
    unfold GoodMsg
    rw [F.length_append, Nat.mod_eq_of_lt hs]
    exact ⟨(md_marker h).1.trans (Nat.dvd_add F.octets q.octets), by omega, Or.inr hs⟩
  short := by rw [F.length_append]; exact q.short

/-- What the library returns for key and message. -/
def MDMacCall.tag {σ : Type} (I : MDInst h σ) (J : Injector) (k : Key) (q : MDMacCall F) : Except Fault Bits := (q.withKey k).digest I J

/-- The message that is authenticated. -/
def MDMacCall.message (q : MDMacCall F) : Bits := streamOf h.policy.blockBits q.ops

theorem length_padTail (h : MDHash) (n : Nat) : (standard h).block ∣ n + (padTail h n).length ∧ (padTail h n).length < 2 * (standard h).block := by
  have hz := md_marker h
  unfold padTail
  simp only [List.length_append, List.length_replicate, length_encode]
  have h1 : (standard h).block ∣ (n + (standard h).marker.length + (standard h).length) +
      fillTo (standard h).block (n + (standard h).marker.length + (standard h).length) := by
    exact fillTo_spec (by omega) _
  have h2 : fillTo (standard h).block (n + (standard h).marker.length + (standard h).length) < (standard h).block := fillTo_lt (by omega) _
  refine ⟨?_, by omega⟩
  convert h1 using 1
  omega

/-- The padding behind whole blocks is one block. -/
theorem length_padTail_blocks (h : MDHash) {n : Nat} (hn : (standard h).block ∣ n) : (padTail h n).length = (standard h).block := by
  obtain ⟨c, rfl⟩ := hn
  have hz := md_marker h
  have hs := md_sizes h
  unfold padTail
  simp only [List.length_append, List.length_replicate, length_encode]
  rw [Nat.add_assoc ((standard h).block * c), fillTo_add_mul, fillTo_of_le (by omega) (by omega)]
  omega

/-- The message of `q` with the padding of key and message. -/
def MDMacCall.padded (q : MDMacCall F) (hq : F.bits + q.message.length + 2 * (standard h).block ≤ 2 ^ 64) : MDMacCall F where
  garbage := q.garbage
  ops := q.ops ++ feedBits h.policy.blockBits (padTail h (F.bits + q.message.length))
  length_garbage := q.length_garbage
  wellTyped := by
    intro op ho
    rcases List.mem_append.1 ho with ho | ho
    · exact q.wellTyped op ho
    · exact (feedBits_spec (by have := md_sizes h; omega) _).2.1 op ho
  noExtract := by
    intro ho
    rcases List.mem_append.1 ho with ho | ho
    · exact q.noExtract ho
    · exact (feedBits_spec (by have := md_sizes h; omega) _).2.2 ho
  octets := by
    rw [streamOf_append, (feedBits_spec (by have := md_sizes h; omega) _).1, List.length_append]
    have h1 := (md_marker h).2.1.trans (length_padTail h (F.bits + q.message.length)).1
    have h2 := F.octets
    have h3 : 8 ∣ q.message.length := q.octets
    show 8 ∣ q.message.length + _
    omega
  short := by
    rw [streamOf_append, (feedBits_spec (by have := md_sizes h; omega) _).1, List.length_append]
    have h1 := (length_padTail h (F.bits + q.message.length)).2
    show _ + (q.message.length + _) < _
    omega

theorem MDMacCall.padded_message (q : MDMacCall F) (hq : F.bits + q.message.length + 2 * (standard h).block ≤ 2 ^ 64) :
    (q.padded hq).message = q.message ++ padTail h (F.bits + q.message.length) := by
  show streamOf _ (q.ops ++ _) = _
  rw [streamOf_append, (feedBits_spec (by have := md_sizes h; omega) _).1]
  rfl

/-- Ask for the code of one message, continue from it with one cipher query. -/
def prolong (h : MDHash) {Key : Type} {F : KeyFeed h.policy.blockBits Key} (w n : Nat) (q : MDMacCall F)
    (hq : F.bits + q.message.length + 2 * (standard h).block ≤ 2 ^ 64) :
    Forger (MDMacCall F) (Except Fault Bits) (Vector (BitVec w) 16) (Vector (BitVec w) n) :=
  .tag q fun a =>
    match a with
    | .error f => .forge q (.error f)
    | .ok d => .ask .enc (keyOf h w (padTail h (F.bits + q.message.length + (padTail h (F.bits + q.message.length)).length)))
        (readState h w n d) fun y =>
      .forge (q.padded hq) (.ok (h.policy.endian.arrayView (stateAdder (readState h w n d) y)))

/-- **C107.** For the hashes of the library in Davies–Meyer mode whose digest is the whole chaining value, the hash of a secret key
followed by the message is no authentication code: with the code of one message, whatever it is, and one cipher query the code of
another one is found, for every key and every cipher. -/
theorem C107_forgery (h : MDHash) (h8 : 8 ∣ w) (hw : h.policy.stateBits = n * w) (hfull : (standard h).digest = h.policy.stateBits)
    (iv : Vector (BitVec w) n) (d0 : Bits) (hd : d0.length = h.policy.digestBits) (J : Injector) {Key : Type}
    (F : KeyFeed h.policy.blockBits Key) (q : MDMacCall F) (hq : F.bits + q.message.length + 2 * (standard h).block ≤ 2 ^ 64) :
    ∃ A : Forger (MDMacCall F) (Except Fault Bits) (Vector (BitVec w) 16) (Vector (BitVec w) n), A.AtMost (fun _ => 1) 3 ∧
      ∀ (k : Key) (E : Cipher (Vector (BitVec w) 16) (Vector (BitVec w) n)),
        A.Wins MDMacCall.message (fun q => q.tag (cipherHash h hw iv (fun k => E k) d0 hd) J k) E := by
  refine ⟨prolong h w n q hq, ⟨show 1 ≤ 3 by omega, fun a => ?_⟩, fun k E => ?_⟩
  · cases a with
    | error f => exact Nat.le_succ 1
    | ok d => exact fun y => Nat.le_refl 1
  have hz := md_sizes h
  have hlen : ∀ q : MDMacCall F, (streamOf h.policy.blockBits (q.withKey k).ops).length = F.bits + q.message.length := fun q =>
    F.length_append k q.ops
  obtain ⟨d, e1, e2⟩ := C85_extension (cipherHash h hw iv (fun k => E k) d0 hd) J hfull (readState h w n)
    (fun st => word_arrayView _ h8 st) (q.withKey k).garbage ((q.padded hq).withKey k).garbage (q.withKey k).length_garbage
    ((q.padded hq).withKey k).length_garbage (q.withKey k).ops ((q.padded hq).withKey k).ops (q.withKey k).wellTyped
    ((q.padded hq).withKey k).wellTyped (q.withKey k).extracts ((q.padded hq).withKey k).extracts (q.withKey k).good
    ((q.padded hq).withKey k).good (F.bits + q.message.length) (hlen q) [] (by
      rw [List.append_nil]
      show streamOf _ (F.ops k ++ (q.padded hq).ops) = streamOf _ (F.ops k ++ q.ops) ++ _
      rw [streamOf_append, streamOf_append, List.append_assoc]
      exact congrArg (_ ++ ·) (q.padded_message hq))
  have e1' : q.tag (cipherHash h hw iv (fun k => E k) d0 hd) J k = .ok d := e1
  have e2' : (q.padded hq).tag (cipherHash h hw iv (fun k => E k) d0 hd) J k = .ok (resume h (cipherHash h hw iv (fun k => E k) d0 hd).compress
    (cipherHash h hw iv (fun k => E k) d0 hd).view (readState h w n d)
      (F.bits + q.message.length + (padTail h (F.bits + q.message.length)).length) []) := e2
  have hrun : (prolong h w n q hq).outcome MDMacCall.message (fun q => q.tag (cipherHash h hw iv (fun k => E k) d0 hd) J k) E [] =
      ([q.message], q.padded hq, .ok (h.policy.endian.arrayView (stateAdder (readState h w n d)
        (E (keyOf h w (padTail h (F.bits + q.message.length + (padTail h (F.bits + q.message.length)).length))) (readState h w n d))))) := by
    unfold prolong
    rw [Forger.outcome, e1']
    rfl
  unfold Forger.Wins
  rw [hrun]
  refine ⟨?_, ?_⟩
  · intro hm
    have := congrArg List.length (List.mem_singleton.1 hm)
    dsimp only at this
    rw [q.padded_message hq, List.length_append] at this
    have hp : 0 < (padTail h (F.bits + q.message.length)).length := by
      unfold padTail
      rw [List.length_append, List.length_append]
      omega
    omega
  · dsimp only
    rw [e2']
    refine congrArg Except.ok ?_
    unfold resume
    rw [List.nil_append, List.length_nil, Nat.add_zero, blocks_one (by omega) (length_padTail_blocks h (length_padTail h _).1)]
    have hl := (cipherHash h hw iv (fun k => E k) d0 hd).length_view
      ((cipherHash h hw iv (fun k => E k) d0 hd).compress (readState h w n d)
        (padTail h (F.bits + q.message.length + (padTail h (F.bits + q.message.length)).length)))
    rw [List.foldl_cons, List.foldl_nil, List.take_of_length_le (by rw [hl, hfull])]
    rfl

end

/-! ### Examples -/

theorem card_octetKey (κ : Nat) : (Fintype.card (Fin κ → Fin 256) : ℚ) = 2 ^ (8 * κ) := by
  rw [Fintype.card_fun, Fintype.card_fin, Fintype.card_fin]
  push_cast
  rw [pow_mul]
  norm_num

/-- A key of 16 octets for SHA3-256. -/
def spongeKey : KeyFeed (spongeBlockBits 256) (Fin 16 → Fin 256) := octetKey _ 16 (by decide) bigOctetBigBit

theorem length_forty (x : Nat) : (streamOf (spongeBlockBits 256) (forty x)).length = 320 := by
  show (bigOctetBigBit.views 8 (List.replicate 39 0 ++ [x]) ++ []).length = _
  rw [List.append_nil, length_views, List.length_append, List.length_replicate]
  rfl

/-- A message of 40 octets. -/
def macCall (x : Nat) : SpongeMacCall spongeKey where
  kind := .sha3
  garbage := List.replicate 1088 true
  ops := forty x
  length_garbage := List.length_replicate
  wellTyped := forty_wellTyped x
  noExtract := by simp [forty, spongeBytes]
  octets := by rw [length_forty]; decide
  short := by rw [length_forty]; decide

theorem macCall_cost (x : Nat) : (macCall x).cost = 1 := by
  have h : (macCall x).cost = (spongeInput .sha3 1088 (List.replicate 448 false)).length :=
    length_spongeInput_congr _ _ (by
      rw [List.length_append, List.length_replicate, List.length_replicate]
      show 8 * 16 + (streamOf (spongeBlockBits 256) (forty x)).length = 448
      rw [length_forty])
  rw [h]
  decide +kernel

/-- Uses the code of one message for another one. -/
def reuse : Forger (SpongeMacCall spongeKey) (Except Fault Bits) Unit Lanes := .tag (macCall 0) fun a => .forge (macCall 1) a

theorem reuse_atMost : reuse.AtMost SpongeMacCall.cost 2 := by
  refine ⟨by rw [macCall_cost]; omega, fun a => ?_⟩
  show (macCall 1).cost ≤ 2 - (macCall 0).cost
  rw [macCall_cost, macCall_cost]

/-- That code is good for both messages for fewer than `2^-126` of the keys and permutations. -/
example : (chance fun w : (Fin 16 → Fin 256) × Cipher Unit Lanes =>
    (macCall 1).tag (w.2 ()) spliceInjector spliceInjector w.1 = (macCall 0).tag (w.2 ()) spliceInjector spliceInjector w.1) ≤ 1 / 2 ^ 126 := by
  have h := C106_sponge_unforgeable sizes.2.1 (by omega) spliceInjector spliceInjector spongeKey reuse 2 reuse_atMost
  rw [card_octetKey] at h
  refine le_trans (chance_mono fun w hw => ?_) (le_trans h ?_)
  · refine ⟨?_, hw⟩
    show (macCall 1).message ∉ [(macCall 0).message]
    intro e
    have e := congrArg (fun m => m.1.2) (List.mem_singleton.1 e)
    have e : streamOf 1088 (forty 1) = streamOf 1088 (forty 0) := e
    revert e
    decide +kernel
  · rw [show 2 * 256 = 256 + 256 from rfl, pow_add]
    norm_num

/-- A distinguisher that compares two codes. -/
def compareTags : Distinguisher (SpongeMacCall spongeKey) (Except Fault Bits) Unit Lanes :=
  .hash (macCall 0) fun a => .hash (macCall 1) fun b => .done (match a, b with | .ok x, .ok y => x == y | _, _ => false)

example (JP J : Injector) : compareTags.AtMost SpongeMacCall.cost 2 := by
  refine ⟨by rw [macCall_cost]; omega, fun a => ⟨?_, fun b => trivial⟩⟩
  rw [macCall_cost, macCall_cost]

/-- With `2^60` permutation calls no code of SHA3-256 with 16 octets of key is forged but with probability `2^-67`. -/
example (A : Forger (SpongeMacCall spongeKey) (Except Fault Bits) Unit Lanes) (hA : A.AtMost SpongeMacCall.cost (2 ^ 60)) :
    (chance fun w : (Fin 16 → Fin 256) × Cipher Unit Lanes =>
      A.Wins SpongeMacCall.message (fun q => q.tag (w.2 ()) spliceInjector spliceInjector w.1) w.2) ≤ 1 / 2 ^ 67 := by
  have h := C106_sponge_unforgeable sizes.2.1 (by omega) spliceInjector spliceInjector spongeKey A _ hA
  rw [card_octetKey] at h
  refine le_trans h ?_
  rw [show 2 * 256 = 256 + 256 from rfl, pow_add]
  push_cast
  norm_num

/-- A key of 32 octets for BLAKE2b. -/
def blakeMacKey : KeyFeed 1024 (Fin 32 → Fin 256) := octetKey _ 32 (by decide) littleOctetBigBit

/-- The empty message. -/
def blakeMacCall : BlakeMacCall blakeMacKey where
  garbage := List.replicate 1024 true
  ops := []
  length_garbage := List.length_replicate
  wellTyped := fun _ h => absurd h List.not_mem_nil
  noExtract := List.not_mem_nil
  octets := by decide
  short := by decide

/-- Guessing the code of the empty message. -/
example (t : Bits) : (chance fun w : (Fin 32 → Fin 256) × Cipher BlakeKey BlakeWork =>
    blakeMacCall.tag (fun k => w.2 k) 32 spliceInjector spliceInjector w.1 = .ok t) ≤ 1 / 2 ^ 254 := by
  have hc : blakeMacCall.cost = 1 := by decide +kernel
  have h := C106_blake_unforgeable (nn := 32) (by omega) spliceInjector spliceInjector blakeMacKey (.forge blakeMacCall (.ok t)) 1 hc.le
  rw [card_octetKey] at h
  refine le_trans (chance_mono fun w hw => ⟨List.not_mem_nil, hw⟩) (le_trans h ?_)
  rw [show (512 : Nat) = 256 + 256 from rfl, pow_add]
  norm_num

/-- A key of 32 octets for SHA-256 and the empty message. -/
def shaMacCall : MDMacCall (h := .sha256) (octetKey MDHash.sha256.policy.blockBits 32 (by decide) bigOctetBigBit) where
  garbage := List.replicate 512 true
  ops := []
  length_garbage := List.length_replicate
  wellTyped := fun _ h => absurd h List.not_mem_nil
  noExtract := List.not_mem_nil
  octets := by decide
  short := by decide

/-- Keyed SHA-256 is forged with certainty. -/
example : ∃ A : Forger (MDMacCall (h := .sha256) (octetKey MDHash.sha256.policy.blockBits 32 (by decide) bigOctetBigBit))
    (Except Fault Bits) (Vector (BitVec 32) 16) (Vector (BitVec 32) 8), A.AtMost (fun _ => 1) 3 ∧
    (chance fun w : (Fin 32 → Fin 256) × Cipher (Vector (BitVec 32) 16) (Vector (BitVec 32) 8) =>
      A.Wins MDMacCall.message (fun q => q.tag (cipherHash .sha256 (by decide) (Vector.replicate 8 0) (fun k => w.2 k)
        (List.replicate 256 false) (by decide +kernel)) spliceInjector w.1) w.2) = 1 := by
  obtain ⟨A, h1, h2⟩ := C107_forgery .sha256 (w := 32) (n := 8) (by decide) (by decide) (by decide) (Vector.replicate 8 0)
    (List.replicate 256 false) (by decide +kernel) spliceInjector _ shaMacCall (by decide)
  refine ⟨A, h1, ?_⟩
  classical
  unfold chance
  rw [Finset.filter_true_of_mem fun w _ => h2 w.1 w.2, Finset.card_univ, div_self]
  exact Nat.cast_ne_zero.2 Fintype.card_ne_zero

/-- The forged message of this example is 256 bits of padding. -/
example : (shaMacCall.padded (by decide)).message = true :: List.replicate 246 false ++ [true] ++ List.replicate 8 false := by
  rw [MDMacCall.padded_message]
  decide +kernel

end Verif.Props
