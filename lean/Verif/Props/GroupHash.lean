import Verif.Model.GroupHash
import Verif.Spec.GroupHash
import Verif.Props.Pedersen
import Verif.Props.Sponge
/- C36: FindGroupHash. -/
namespace Verif.Props

open Spec

variable {σ δ G : Type} [AddCommGroup G] {Good : Bits → Prop} {H : Bits → δ}

/-- The hash is a verified construction fed with octets in stream order. -/
structure GroupHashParams.Valid (P : GroupHashParams σ δ G) (Good : Bits → Prop) (H : Bits → δ) : Prop where
  hash : Verified P.C Good H
  octets : P.octets = bigOctetBigBit ∨ P.octets = littleOctetBigBit
  block : 8 ∣ P.C.blockBits
  cache0 : P.cache0.length = P.C.blockBits / 8

theorem octets_view {P : GroupHashParams σ δ G} (V : GroupHashParams.Valid P Good H) (xs : List Nat) :
    xs.flatMap (wordElem P.octets 8).view = octetBits xs := by
  rcases V.octets with h | h
  · rw [h]; exact view_octet .sha256 xs
  · rw [h]; exact view_octet .md5 xs

theorem groupHash_feed {P : GroupHashParams σ δ G} (V : GroupHashParams.Valid P Good H) {a : Acc σ} {m : Bits}
    (r : Rep P.C a m) (xs : List Nat) (hfit : Fits P.C (m ++ octetBits xs).length) :
    ∃ a', P.feed a xs = .ok a' ∧ Rep P.C a' (m ++ octetBits xs) := by
  have := r.feed (J := P.J) (E := wordElem P.octets 8) V.hash.word V.hash.wordBlock
    ⟨V.hash.block, by simp [wordElem], by simpa [wordElem] using V.block⟩ .container P.cache0 xs
    (by simpa [wordElem] using V.cache0) (by rw [octets_view V]; exact hfit)
  rw [octets_view V] at this
  exact this

/-- C36: the fixed prefix is the uniform random string of the Zcash specification,
64 hexadecimal digits in ASCII. -/
theorem C36_urs : groupHashUrs =
    "096b36a5804bfacef1691e173c366a47ff5ba84a44f26ddd7e8d9f79d5b42df0".toList.map Char.toNat := by
  decide +kernel

/-- C36: the default domain separator. -/
theorem C36_default_dst : groupHashDst = "Zcash_PH".toList.map Char.toNat := by decide +kernel

/-- Everything fed before the message. -/
def groupHashPrefix (dst : List Nat) : Bits := octetBits dst ++ octetBits groupHashUrs

theorem groupHash_init {P : GroupHashParams σ δ G} (V : GroupHashParams.Valid P Good H) (garbage : Bits)
    (hg : garbage.length = P.C.blockBits) (hfit : Fits P.C (groupHashPrefix P.dst).length) :
    ∃ a, P.init garbage = .ok a ∧ Rep P.C a (groupHashPrefix P.dst) := by
  obtain ⟨a, e, r⟩ := groupHash_feed V (V.hash.init garbage hg) P.dst (hfit.mono (by
    simp [groupHashPrefix]))
  obtain ⟨a', e', r'⟩ := groupHash_feed V r groupHashUrs (by simpa [groupHashPrefix] using hfit)
  refine ⟨a', ?_, by simpa [groupHashPrefix] using r'⟩
  unfold GroupHashParams.init
  rw [e]
  exact e'

/-- One candidate. -/
theorem groupHash_candidate {P : GroupHashParams σ δ G} (V : GroupHashParams.Valid P Good H) {a : Acc σ}
    {m : Bits} (r : Rep P.C a m) (i : Nat) (hfit : Fits P.C (m.length + 8)) (hg : Good (m ++ octetBits [i])) :
    ∃ copy, P.feed a [i] = .ok copy ∧ copy.result P.C = .ok (H (m ++ octetBits [i])) := by
  obtain ⟨copy, e, r'⟩ := groupHash_feed V r [i] (by simpa [octetBits, bigEndian] using hfit)
  exact ⟨copy, e, V.hash.computes copy _ r' hg⟩

theorem loop_step {P : GroupHashParams σ δ G} (V : GroupHashParams.Valid P Good H) {a : Acc σ} {m : Bits}
    (r : Rep P.C a m) (i fuel : Nat) (hfit : Fits P.C (m.length + 8)) (hg : Good (m ++ octetBits [i])) :
    P.loop a (fuel + 1) i = match P.decode (H (m ++ octetBits [i])) with
      | some p => Except.ok (some p)
      | none => P.loop a fuel ((i + 1) % 256) := by
  obtain ⟨copy, e1, e2⟩ := groupHash_candidate V r i hfit hg
  rw [GroupHashParams.loop, e1]
  show (copy.result P.C >>= _) = _
  rw [e2]
  show (match P.decode (H (m ++ octetBits [i])) with
    | some p => Except.ok (some p)
    | none => if (i + 1) % 2 ^ 8 < 256 then P.loop a fuel ((i + 1) % 2 ^ 8) else .error .assertion) = _
  have hlt : (i + 1) % 2 ^ 8 < 256 := Nat.mod_lt _ (by omega)
  simp only [hlt, if_true]
  rfl

/-- C36, the loop: it finds the point of the first octet that decodes. -/
theorem C36_loop_partial (P : GroupHashParams σ δ G) (V : GroupHashParams.Valid P Good H) {a : Acc σ} {m : Bits}
    (r : Rep P.C a m) (hfit : Fits P.C (m.length + 8)) (hg : ∀ i < 256, Good (m ++ octetBits [i]))
    (n : Nat) (hn : n < 256) (p : G) (hp : P.decode (H (m ++ octetBits [n])) = some p)
    (hfirst : ∀ i < n, P.decode (H (m ++ octetBits [i])) = none) (fuel : Nat) (hf : n < fuel) :
    P.loop a fuel 0 = .ok (some p) := by
  have key : ∀ (fuel i : Nat), i ≤ n → n < i + fuel → P.loop a fuel i = .ok (some p) := by
    intro fuel
    induction fuel with
    | zero => intro i h1 h2; omega
    | succ fuel ih =>
      intro i h1 h2
      rw [loop_step V r i fuel hfit (hg i (by omega))]
      by_cases hi : i = n
      · subst hi; rw [hp]
      · rw [hfirst i (by omega)]
        show P.loop a fuel ((i + 1) % 256) = _
        rw [Nat.mod_eq_of_lt (by omega)]
        exact ih (i + 1) (by omega) (by omega)
  exact key fuel 0 (by omega) (by omega)

/-- C36, termination is false in general: if none of the 256 candidates decodes, the loop never ends (the
assertion `i < 256` on an octet cannot fail). -/
theorem C36_endless_false (P : GroupHashParams σ δ G) (V : GroupHashParams.Valid P Good H) {a : Acc σ} {m : Bits}
    (r : Rep P.C a m) (hfit : Fits P.C (m.length + 8)) (hg : ∀ i < 256, Good (m ++ octetBits [i]))
    (hnone : ∀ i < 256, P.decode (H (m ++ octetBits [i])) = none) (fuel : Nat) :
    P.loop a fuel 0 = .ok none := by
  have key : ∀ (fuel i : Nat), i < 256 → P.loop a fuel i = .ok none := by
    intro fuel
    induction fuel with
    | zero => intro i _; rfl
    | succ fuel ih =>
      intro i hi
      rw [loop_step V r i fuel hfit (hg i hi), hnone i hi]
      exact ih _ (Nat.mod_lt _ (by omega))
  exact key fuel 0 (by omega)

variable [DecidableEq G]

/-- Octets fed by an update. -/
def groupHashStream : GroupHashOp → Bits
  | .update E _ _ xs => xs.flatMap E.view
  | .extract => []

/-- Sizes of an update. -/
def groupHashTyped (B : Nat) : GroupHashOp → Prop
  | .update E _ cache0 _ => 0 < E.valueBits ∧ E.valueBits ∣ B ∧ cache0.length = B / E.valueBits
  | .extract => True

/-- What the extractions of a program return: FindGroupHash of the message so far. -/
def groupHashOutputs (H : Bits → δ) (decode : δ → Option G) (cofactor : Nat) : Bits → List GroupHashOp →
    List (Option G)
  | _, [] => []
  | m, .extract :: ops =>
    findGroupHash H decode cofactor m :: groupHashOutputs H decode cofactor m ops
  | m, .update E _ _ xs :: ops => groupHashOutputs H decode cofactor (m ++ xs.flatMap E.view) ops

/-- At every extraction some octet decodes and no octet decodes to a point killed by the cofactor, and the
hash is defined on the candidates. -/
def groupHashReady (H : Bits → δ) (decode : δ → Option G) (cofactor : Nat) (Good : Bits → Prop) :
    Bits → List GroupHashOp → Prop
  | _, [] => True
  | m, .extract :: ops =>
    ((∃ i < 256, decode (H (m ++ octetBits [i])) ≠ none) ∧
      (∀ i < 256, ∀ p, decode (H (m ++ octetBits [i])) = some p → cofactor • p ≠ 0) ∧
      (∀ i < 256, Good (m ++ octetBits [i]))) ∧ groupHashReady H decode cofactor Good m ops
  | m, .update E _ _ xs :: ops => groupHashReady H decode cofactor Good (m ++ xs.flatMap E.view) ops

theorem findGroupHash_first (decode : δ → Option G) (cofactor : Nat) (m : Bits) (n : Nat) (hn : n < 256)
    (p : G) (hp : decode (H (m ++ octetBits [n])) = some p)
    (hfirst : ∀ i < n, decode (H (m ++ octetBits [i])) = none) (hz : cofactor • p ≠ 0) :
    findGroupHash H decode cofactor m = some (cofactor • p) := by
  unfold findGroupHash
  have hsplit : List.range 256 = List.range n ++ (n :: (List.range' (n + 1) (255 - n))) := by
    rw [List.range_eq_range', List.range_eq_range', ← List.range'_succ]
    have := List.range'_append (s := 0) (m := n) (n := 255 - n + 1) (step := 1)
    rw [Nat.one_mul, Nat.zero_add] at this
    rw [this]; congr 1; omega
  rw [hsplit, List.findSome?_append, List.findSome?_eq_none_iff.2, List.findSome?_cons]
  · simp [groupHash, hp, hz]
  · intro i hi
    have := List.mem_range.1 hi
    simp [groupHash, hfirst i this]

/-- C36: one extraction from an accumulator that has been fed `m`. -/
theorem C36_process_partial (P : GroupHashParams σ δ G) (V : GroupHashParams.Valid P Good H) {a : Acc σ}
    {m : Bits} (r : Rep P.C a m) (hfit : Fits P.C (m.length + 8)) (hg : ∀ i < 256, Good (m ++ octetBits [i]))
    (hsome : ∃ i < 256, P.decode (H (m ++ octetBits [i])) ≠ none)
    (hz : ∀ i < 256, ∀ p, P.decode (H (m ++ octetBits [i])) = some p → P.cofactor • p ≠ 0)
    (fuel : Nat) (hf : 256 ≤ fuel) :
    ∃ n < 256, ∃ p, P.decode (H (m ++ octetBits [n])) = some p ∧
      (∀ i < n, P.decode (H (m ++ octetBits [i])) = none) ∧
      P.process a fuel = .ok (some (P.cofactor • p)) ∧
      findGroupHash H P.decode P.cofactor m = some (P.cofactor • p) := by
  classical
  have hex : ∃ i, P.decode (H (m ++ octetBits [i])) ≠ none := ⟨hsome.choose, hsome.choose_spec.2⟩
  have hlt : Nat.find hex < 256 :=
    Nat.lt_of_le_of_lt (Nat.find_min' hex hsome.choose_spec.2) hsome.choose_spec.1
  obtain ⟨p, hp⟩ := Option.ne_none_iff_exists'.1 (Nat.find_spec hex)
  have hfirst : ∀ i < Nat.find hex, P.decode (H (m ++ octetBits [i])) = none := fun i hi => by
    simpa using Nat.find_min hex hi
  have hnz := hz _ hlt p hp
  refine ⟨Nat.find hex, hlt, p, hp, hfirst, ?_, findGroupHash_first _ _ _ _ hlt p hp hfirst hnz⟩
  unfold GroupHashParams.process
  rw [C36_loop_partial P V r hfit hg _ hlt p hp hfirst fuel (by omega)]
  show (if P.cofactor • p = 0 then Except.error Fault.assertion else .ok (some (P.cofactor • p))) = _
  rw [if_neg hnz]

/-- C36: every history of updates and extractions, if at every extraction some candidate decodes and none
decodes to a point of small order: each extraction returns FindGroupHash of the domain separator, the random
string and the data fed so far, and extracting does not change what follows. -/
theorem C36_find_group_hash_partial (P : GroupHashParams σ δ G) (V : GroupHashParams.Valid P Good H)
    (garbage : Bits) (hgb : garbage.length = P.C.blockBits) (ops : List GroupHashOp)
    (hwt : ∀ op ∈ ops, groupHashTyped P.C.blockBits op)
    (hfit : Fits P.C ((groupHashPrefix P.dst ++ ops.flatMap groupHashStream).length + 8))
    (hready : groupHashReady H P.decode P.cofactor Good (groupHashPrefix P.dst) ops)
    (fuel : Nat) (hf : 256 ≤ fuel) :
    ∃ a a', P.init garbage = .ok a ∧ P.run fuel a [] ops =
      .ok (a', groupHashOutputs H P.decode P.cofactor (groupHashPrefix P.dst) ops) := by
  obtain ⟨a, e, r⟩ := groupHash_init V garbage hgb (hfit.mono (by simp; omega))
  refine ⟨a, ?_⟩
  suffices key : ∀ (ops : List GroupHashOp) (a : Acc σ) (m : Bits) (out : List (Option G)), Rep P.C a m →
      (∀ op ∈ ops, groupHashTyped P.C.blockBits op) →
      Fits P.C ((m ++ ops.flatMap groupHashStream).length + 8) →
      groupHashReady H P.decode P.cofactor Good m ops →
      ∃ a', P.run fuel a out ops = .ok (a', out ++ groupHashOutputs H P.decode P.cofactor m ops) by
    obtain ⟨a', e'⟩ := key ops a _ [] r hwt hfit hready
    exact ⟨a', e, by simpa using e'⟩
  intro ops
  induction ops with
  | nil => intro a m out _ _ _ _; exact ⟨a, by simp [GroupHashParams.run, groupHashOutputs]⟩
  | cons op ops ih =>
    intro a m out r hwt hfit hready
    have hwt' : ∀ op ∈ ops, groupHashTyped P.C.blockBits op := fun o ho => hwt o (List.mem_cons_of_mem _ ho)
    cases op with
    | update E k cache0 xs =>
      obtain ⟨t1, t2, t3⟩ := hwt _ List.mem_cons_self
      obtain ⟨a1, e1, r1⟩ := r.feed (J := P.J) V.hash.word V.hash.wordBlock ⟨V.hash.block, t1, t2⟩ k cache0 xs t3
        (hfit.mono (by simp [groupHashStream]; omega))
      obtain ⟨a', e'⟩ := ih a1 _ out r1 hwt' (by simpa [groupHashStream] using hfit) hready
      refine ⟨a', ?_⟩
      rw [GroupHashParams.run, e1]
      exact e'
    | extract =>
      obtain ⟨⟨h1, h2, h3⟩, h4⟩ := hready
      obtain ⟨n, _, p, _, _, ep, es⟩ := C36_process_partial P V r (hfit.mono (by simp)) h3 h1 h2 fuel hf
      obtain ⟨a', e'⟩ := ih a m (out ++ [some (P.cofactor • p)]) r hwt' (by simpa [groupHashStream] using hfit) h4
      refine ⟨a', ?_⟩
      rw [GroupHashParams.run, ep]
      show P.run fuel a (out ++ [some (P.cofactor • p)]) ops = _
      rw [e', groupHashOutputs, es]
      simp

/-- C36: a first decodable candidate of small order is an assertion failure, where the Zcash specification
takes the next candidate. -/
theorem C36_small_order_false (P : GroupHashParams σ δ G) (V : GroupHashParams.Valid P Good H) {a : Acc σ}
    {m : Bits} (r : Rep P.C a m) (hfit : Fits P.C (m.length + 8)) (hg : ∀ i < 256, Good (m ++ octetBits [i]))
    (p : G) (hp : P.decode (H (m ++ octetBits [0])) = some p) (hz : P.cofactor • p = 0) (q : G)
    (hq : P.decode (H (m ++ octetBits [1])) = some q) (hqz : P.cofactor • q ≠ 0) (fuel : Nat) (hf : 0 < fuel) :
    P.process a fuel = .error .assertion ∧
      findGroupHash H P.decode P.cofactor m = some (P.cofactor • q) := by
  constructor
  · unfold GroupHashParams.process
    rw [C36_loop_partial P V r hfit hg 0 (by omega) p hp (by intro i hi; omega) fuel hf]
    show (if P.cofactor • p = 0 then Except.error Fault.assertion else .ok (some (P.cofactor • p))) = _
    rw [if_pos hz]
  · unfold findGroupHash
    have : List.range 256 = 0 :: 1 :: List.range' 2 254 := by decide +kernel
    rw [this, List.findSome?_cons, List.findSome?_cons]
    simp [groupHash, hp, hz, hq, hqz]

/-- C36, exactly: what one extraction does, for every hash and decoder.  With no decodable candidate it does not end, with a
first decodable candidate of small order it trips the assertion, otherwise it returns FindGroupHash. -/
theorem C36_exact (P : GroupHashParams σ δ G) (V : GroupHashParams.Valid P Good H) {a : Acc σ}
    {m : Bits} (r : Rep P.C a m) (hfit : Fits P.C (m.length + 8)) (hg : ∀ i < 256, Good (m ++ octetBits [i]))
    (fuel : Nat) (hf : 256 ≤ fuel) :
    ((∀ i < 256, P.decode (H (m ++ octetBits [i])) = none) ∧ P.process a fuel = .ok none) ∨
    ∃ n < 256, ∃ p, P.decode (H (m ++ octetBits [n])) = some p ∧
      (∀ i < n, P.decode (H (m ++ octetBits [i])) = none) ∧
      (P.cofactor • p = 0 ∧ P.process a fuel = .error .assertion ∨
        P.cofactor • p ≠ 0 ∧ P.process a fuel = .ok (some (P.cofactor • p)) ∧
          findGroupHash H P.decode P.cofactor m = some (P.cofactor • p)) := by
  classical
  by_cases hsome : ∃ i < 256, P.decode (H (m ++ octetBits [i])) ≠ none
  · right
    have hex : ∃ i, P.decode (H (m ++ octetBits [i])) ≠ none := ⟨hsome.choose, hsome.choose_spec.2⟩
    have hlt : Nat.find hex < 256 :=
      Nat.lt_of_le_of_lt (Nat.find_min' hex hsome.choose_spec.2) hsome.choose_spec.1
    obtain ⟨p, hp⟩ := Option.ne_none_iff_exists'.1 (Nat.find_spec hex)
    have hfirst : ∀ i < Nat.find hex, P.decode (H (m ++ octetBits [i])) = none := fun i hi => by
      simpa using Nat.find_min hex hi
    have hproc : P.process a fuel = if P.cofactor • p = 0 then Except.error Fault.assertion else .ok (some (P.cofactor • p)) := by
      unfold GroupHashParams.process
      rw [C36_loop_partial P V r hfit hg _ hlt p hp hfirst fuel (by omega)]
      rfl
    refine ⟨Nat.find hex, hlt, p, hp, hfirst, ?_⟩
    by_cases hz : P.cofactor • p = 0
    · exact Or.inl ⟨hz, by rw [hproc, if_pos hz]⟩
    · exact Or.inr ⟨hz, by rw [hproc, if_neg hz], findGroupHash_first _ _ _ _ hlt p hp hfirst hz⟩
  · left
    have hnone : ∀ i < 256, P.decode (H (m ++ octetBits [i])) = none := by
      intro i hi
      by_contra h
      exact hsome ⟨i, hi, h⟩
    refine ⟨hnone, ?_⟩
    unfold GroupHashParams.process
    rw [C36_endless_false P V r hfit hg hnone fuel]
    rfl

/-- The index of a base point (`hash<base_point_generator>({uint32_t})`, pedersen.hpp:98-100, 125-127) reaches
SHA-256 as four octets, most significant first (the Zcash protocol encodes it least significant first). -/
theorem C36_base_point_index (i : Nat) : [i].flatMap (wordElem bigOctetBigBit 32).view =
    octetBits [i / 2 ^ 24, i / 2 ^ 16, i / 2 ^ 8, i] := by
  simp only [List.flatMap_cons, List.flatMap_nil, List.append_nil, wordElem, Endian.view, octetBits, bigEndian]
  have h : ∀ k j, (i / 2 ^ k).testBit j = i.testBit (k + j) := fun k j => by
    rw [Nat.testBit_div_two_pow, Nat.add_comm]
  simp only [h]
  simp [List.range_succ, Endian.pos, bigOctetBigBit, -Nat.testBit_zero]

/-! Examples: SHA-256 as the hash, with the toy compression function. -/

/-- SHA-256 sizes, decoder accepting digests whose bit 205 is clear; the point is the digest as a number. -/
def groupHashToy : GroupHashParams Nat Bits (ZMod jubjubOrder) where
  C := (toy .sha256).C spliceInjector
  J := spliceInjector
  octets := bigOctetBigBit
  cache0 := List.replicate 64 0
  dst := groupHashDst
  decode d := if d.getD 205 true = false then some (((d.foldl (fun n b => 2 * n + b.toNat) 0 % 1000 + 1 : Nat)) : ZMod jubjubOrder) else none
  cofactor := 8

theorem groupHashToy_valid : GroupHashParams.Valid groupHashToy (GoodMsg .sha256) (toy .sha256).spec where
  hash := by
    obtain ⟨h1, h2, h3, _⟩ := policy_sizes .sha256
    exact ⟨h1, h2, h3, (toy .sha256).computes _⟩
  octets := Or.inl rfl
  block := ⟨64, rfl⟩
  cache0 := rfl

theorem groupHashToy_nonzero (d : Bits) (p : ZMod jubjubOrder) (h : groupHashToy.decode d = some p) :
    groupHashToy.cofactor • p ≠ 0 := by
  simp only [groupHashToy] at h
  split at h
  · have h := Option.some.inj h
    subst h
    show 8 • _ ≠ _
    rw [nsmul_eq_mul, ← Nat.cast_mul, Ne, ZMod.natCast_eq_zero_iff]
    intro hd
    have := Nat.le_of_dvd (by omega) hd
    have hm := Nat.mod_lt (d.foldl (fun n b => 2 * n + b.toNat) 0) (show 0 < 1000 by omega)
    have hj : 8 * 1001 < jubjubOrder := by decide +kernel
    omega
  · cases h

/-- A message of three octets, fed as one octet and one 16-bit unit, extracted twice. -/
def groupHashToyOps : List GroupHashOp :=
  [.update (wordElem bigOctetBigBit 8) .singlePass (List.replicate 64 0) [7],
   .update (wordElem bigOctetBigBit 16) .container (List.replicate 32 0) [0x1234], .extract, .extract]

/-- The hypotheses of C36 hold for it. -/
example : ∃ a a' g, groupHashToy.init (List.replicate 512 true) = .ok a ∧
    groupHashToy.run 256 a [] groupHashToyOps = .ok (a', [g, g]) := by
  have hlen : ∀ i, (groupHashPrefix groupHashDst ++ octetBits [7, 0x12, 0x34] ++ octetBits [i]).length = 608 := by
    intro i; simp [groupHashPrefix, octetBits, bigEndian, groupHashDst, groupHashUrs]
  have hm : [0x1234].flatMap (wordElem bigOctetBigBit 16).view = octetBits [0x12, 0x34] := by decide +kernel
  have hm' : [7].flatMap (wordElem bigOctetBigBit 8).view = octetBits [7] := by decide +kernel
  have hr : groupHashReady (toy .sha256).spec groupHashToy.decode groupHashToy.cofactor (GoodMsg .sha256)
      (groupHashPrefix groupHashToy.dst) groupHashToyOps := by
    simp only [groupHashToyOps, groupHashReady, hm, hm', and_true, and_self]
    have e : groupHashPrefix groupHashToy.dst ++ octetBits [7] ++ octetBits [0x12, 0x34] =
      groupHashPrefix groupHashDst ++ octetBits [7, 0x12, 0x34] := by
        simp [octetBits, groupHashToy]
    rw [e]
    refine ⟨?_, fun i _ p hp => groupHashToy_nonzero _ p hp, fun i _ => goodMsg_of_bytes _ ⟨76, hlen i⟩ (by
      rw [hlen]; omega)⟩
    have hd : ∃ i < 256, (groupHashToy.decode ((toy .sha256).spec (groupHashPrefix groupHashDst ++
      octetBits [7, 0x12, 0x34] ++ octetBits [i]))).isSome = true := ⟨2, by omega, by decide +kernel⟩
    obtain ⟨i, hi, h⟩ := hd
    exact ⟨i, hi, by intro hn; rw [hn] at h; cases h⟩
  obtain ⟨a, a', e1, e2⟩ := C36_find_group_hash_partial groupHashToy groupHashToy_valid (List.replicate 512 true)
    (by rw [List.length_replicate]; rfl) groupHashToyOps
    (by
      intro op hop
      simp only [groupHashToyOps, List.mem_cons, List.not_mem_nil, or_false] at hop
      have hB : groupHashToy.C.blockBits = 512 := rfl
      rw [hB]
      rcases hop with rfl | rfl | rfl | rfl
      · exact ⟨by decide, ⟨64, rfl⟩, by rw [List.length_replicate]; rfl⟩
      · exact ⟨by decide, ⟨32, rfl⟩, by rw [List.length_replicate]; rfl⟩
      · trivial
      · trivial)
    ((toy .sha256).fits _ _) hr 256 (by omega)
  exact ⟨a, a', _, e1, e2⟩

/-- A decoder that refuses everything: the hypotheses of the non-termination theorem hold. -/
def groupHashDeaf : GroupHashParams Nat Bits (ZMod jubjubOrder) :=
  { groupHashToy with decode := fun _ => none }

example (fuel : Nat) : ∃ a, groupHashDeaf.init (List.replicate 512 false) = .ok a ∧
    groupHashDeaf.loop a fuel 0 = .ok none := by
  have V : GroupHashParams.Valid groupHashDeaf (GoodMsg .sha256) (toy .sha256).spec :=
    ⟨groupHashToy_valid.hash, groupHashToy_valid.octets, groupHashToy_valid.block, groupHashToy_valid.cache0⟩
  obtain ⟨a, e, r⟩ := groupHash_init V (List.replicate 512 false) (by rw [List.length_replicate]; rfl)
    ((toy .sha256).fits _ _)
  refine ⟨a, e, C36_endless_false _ V r ((toy .sha256).fits _ _) ?_ (fun _ _ => rfl) fuel⟩
  intro i _
  have hlen : (groupHashPrefix groupHashDst ++ octetBits [i]).length = 584 := by
    simp [groupHashPrefix, octetBits, bigEndian, groupHashDst, groupHashUrs]
  exact goodMsg_of_bytes _ ⟨73, hlen⟩ (lt_of_eq_of_lt hlen (by omega))

theorem groupHashToy_good (dst : List Nat) (hd : dst.length = 8) (i : Nat) :
    GoodMsg .sha256 (groupHashPrefix dst ++ octetBits [i]) := by
  have hlen : (groupHashPrefix dst ++ octetBits [i]).length = 584 := by
    simp [groupHashPrefix, octetBits, bigEndian, groupHashUrs, hd]
  exact goodMsg_of_bytes _ ⟨73, hlen⟩ (lt_of_eq_of_lt hlen (by omega))

/-- The empty message with the toy parameters: some octet decodes, and the result is a multiple of the cofactor. -/
example : ∃ a g, groupHashToy.init (List.replicate 512 false) = .ok a ∧
    groupHashToy.process a 256 = .ok (some g) ∧
    findGroupHash (toy .sha256).spec groupHashToy.decode groupHashToy.cofactor (groupHashPrefix groupHashDst) =
      some g := by
  obtain ⟨a, e, r⟩ := groupHash_init groupHashToy_valid (List.replicate 512 false)
    (by rw [List.length_replicate]; rfl) ((toy .sha256).fits _ _)
  have hd : ∃ i < 256, (groupHashToy.decode ((toy .sha256).spec (groupHashPrefix groupHashDst ++
      octetBits [i]))).isSome = true := ⟨1, by omega, by decide +kernel⟩
  obtain ⟨n, _, p, _, _, e2, e3⟩ := C36_process_partial groupHashToy groupHashToy_valid r ((toy .sha256).fits _ _)
    (fun i _ => groupHashToy_good groupHashDst rfl i)
    (by
      obtain ⟨i, hi, h⟩ := hd
      exact ⟨i, hi, fun hn => by
        rw [show groupHashToy.dst = groupHashDst from rfl] at hn
        rw [hn] at h; cases h⟩)
    (fun i _ p hp => groupHashToy_nonzero _ p hp) 256 (by omega)
  exact ⟨a, _, e, e2, e3⟩

/-- A decoder that returns the neutral element for the octet 0 and a generator otherwise. -/
def groupHashLow : GroupHashParams Nat Bits (ZMod jubjubOrder) :=
  { groupHashToy with
    decode := fun d => some (if d = (toy .sha256).spec (groupHashPrefix groupHashDst ++ octetBits [0]) then 0 else 1) }

example : ∃ a, groupHashLow.init (List.replicate 512 false) = .ok a ∧
    groupHashLow.loop a 256 0 = .ok (some 0) ∧ groupHashLow.process a 256 = .error .assertion ∧
    findGroupHash (toy .sha256).spec groupHashLow.decode groupHashLow.cofactor (groupHashPrefix groupHashDst) =
      some (8 • 1) := by
  have V : GroupHashParams.Valid groupHashLow (GoodMsg .sha256) (toy .sha256).spec :=
    ⟨groupHashToy_valid.hash, groupHashToy_valid.octets, groupHashToy_valid.block, groupHashToy_valid.cache0⟩
  obtain ⟨a, e, r⟩ := groupHash_init V (List.replicate 512 false) (by rw [List.length_replicate]; rfl)
    ((toy .sha256).fits _ _)
  have h0 : groupHashLow.decode ((toy .sha256).spec (groupHashPrefix groupHashDst ++ octetBits [0])) = some 0 :=
    congrArg some (if_pos rfl)
  have h1 : groupHashLow.decode ((toy .sha256).spec (groupHashPrefix groupHashDst ++ octetBits [1])) = some 1 :=
    congrArg some (if_neg (by decide +kernel))
  refine ⟨a, e, C36_loop_partial groupHashLow V r ((toy .sha256).fits _ _)
    (fun i _ => groupHashToy_good groupHashDst rfl i) 0 (by omega) 0 h0 (fun i hi => by omega) 256 (by omega), ?_⟩
  refine C36_small_order_false groupHashLow V r ((toy .sha256).fits _ _)
    (fun i _ => groupHashToy_good groupHashDst rfl i) 0 h0 (smul_zero _) 1 h1 ?_ 256 (by omega)
  show (8 : Nat) • (1 : ZMod jubjubOrder) ≠ 0
  rw [nsmul_eq_mul, mul_one, Ne, ZMod.natCast_eq_zero_iff]
  exact fun hd => absurd (Nat.le_of_dvd (by omega) hd) (by decide +kernel)

/-- The hypotheses of the exact description hold for the empty message with the toy parameters. -/
example : ∃ a, groupHashToy.init (List.replicate 512 false) = .ok a ∧
    groupHashToy.process a 256 ≠ .ok none := by
  obtain ⟨a, e, r⟩ := groupHash_init groupHashToy_valid (List.replicate 512 false)
    (by rw [List.length_replicate]; rfl) ((toy .sha256).fits _ _)
  refine ⟨a, e, ?_⟩
  have h1 : (groupHashToy.decode ((toy .sha256).spec (groupHashPrefix groupHashDst ++ octetBits [1]))).isSome = true := by
    decide +kernel
  rcases C36_exact groupHashToy groupHashToy_valid r ((toy .sha256).fits _ _)
    (fun i _ => groupHashToy_good groupHashDst rfl i) 256 (by omega) with ⟨h, _⟩ | ⟨_, _, p, _, _, ⟨_, e⟩ | ⟨_, e, _⟩⟩
  · rw [show groupHashToy.dst = groupHashDst from rfl] at h
    rw [h 1 (by omega)] at h1; cases h1
  · rw [e]; exact fun h => by cases h
  · rw [e]; exact fun h => by cases h

end Verif.Props
