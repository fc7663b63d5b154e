import Verif.Proof.Counter
import Verif.Proof.WordOps
import Verif.Props.Sponge
import Verif.Props.Blake2b
/-
C82: programs that push single words, `acc(word, bits = n)`, interleaved with ranges, blocks and
extractions.  C14: the one case in which they go wrong, for every hash.
-/
namespace Verif.Props

open Spec

variable {σ : Type} {h : MDHash}

theorem md_verified (I : MDInst h σ) (J : Injector) : Verified (I.C J) (GoodMsg h) I.spec := by
  obtain ⟨h1, h2, h3, _⟩ := policy_sizes h
  exact ⟨h1, h2, h3, I.computes J⟩

/-- The general statement, for any construction that computes a function of the represented message. -/
theorem word_programs {δ : Type} {C : Construction σ δ} {Good : Bits → Prop} {H : Bits → δ}
    (V : Verified C Good H) (J : Injector) (garbage : Bits) (hgb : garbage.length = C.blockBits)
    (ops : List WOp) (hwt : ∀ op ∈ ops, op.WellTyped C.blockBits C.wordBits)
    (hfit : Fits C (wstreamOf C.blockBits C.wordBits ops).length)
    (hg : WGoodExtracts C.blockBits C.wordBits Good [] ops)
    (hgf : Good (wstreamOf C.blockBits C.wordBits ops))
    (hsafe : NoAlignedFill C.blockBits C.wordBits [] ops) :
    ∃ a, runWOps C J (Acc.init C garbage) [] ops =
        .ok (a, wexpected C.blockBits C.wordBits H [] ops) ∧
      a.result C = .ok (H (wstreamOf C.blockBits C.wordBits ops)) := by
  obtain ⟨a, e, r⟩ := V.runW J ops (out := []) (V.init garbage hgb) hwt (by simpa using hfit) hg hsafe
  obtain ⟨a', r', e'⟩ := r.result
  exact ⟨a, e, by rw [e']; exact V.computes a' _ r' (by simpa using hgf)⟩

/-- C82, Merkle–Damgård: any program of ranges, blocks, words with a bit count and extractions outputs
the digests of the message fed so far, unless a word push that starts at a multiple of the word size
completes a block and more data follows. -/
theorem C82_md (I : MDInst h σ) (J : Injector) (garbage : Bits)
    (hgb : garbage.length = h.policy.blockBits) (ops : List WOp)
    (hwt : ∀ op ∈ ops, op.WellTyped h.policy.blockBits h.policy.wordBits)
    (hg : WGoodExtracts h.policy.blockBits h.policy.wordBits (GoodMsg h) [] ops)
    (hgf : GoodMsg h (wstreamOf h.policy.blockBits h.policy.wordBits ops))
    (hsafe : NoAlignedFill h.policy.blockBits h.policy.wordBits [] ops) :
    ∃ a, runWOps (I.C J) J (Acc.init (I.C J) garbage) [] ops =
        .ok (a, wexpected h.policy.blockBits h.policy.wordBits I.spec [] ops) ∧
      a.result (I.C J) = .ok (I.spec (wstreamOf h.policy.blockBits h.policy.wordBits ops)) :=
  word_programs (md_verified I J) J garbage hgb ops hwt (I.fits J _) hg hgf hsafe

/-- C82: pushes of fewer bits than a word are always right, at every fill level, whatever else the
program does. -/
theorem C82_md_partial_words (I : MDInst h σ) (J : Injector) (garbage : Bits)
    (hgb : garbage.length = h.policy.blockBits) (ops : List WOp)
    (hwt : ∀ op ∈ ops, op.WellTyped h.policy.blockBits h.policy.wordBits)
    (hshort : ∀ v n, WOp.word v n ∈ ops → 0 < n ∧ n < h.policy.wordBits)
    (hg : WGoodExtracts h.policy.blockBits h.policy.wordBits (GoodMsg h) [] ops)
    (hgf : GoodMsg h (wstreamOf h.policy.blockBits h.policy.wordBits ops)) :
    ∃ a, runWOps (I.C J) J (Acc.init (I.C J) garbage) [] ops =
        .ok (a, wexpected h.policy.blockBits h.policy.wordBits I.spec [] ops) ∧
      a.result (I.C J) = .ok (I.spec (wstreamOf h.policy.blockBits h.policy.wordBits ops)) :=
  C82_md I J garbage hgb ops hwt hg hgf (noAlignedFill_partial (policy_sizes h).2.2.1 ops hshort [])

/-- A word push that starts at a multiple of the word size, as the library's tests do in the middle of
a block, followed by a range that crosses the block boundary, then an extraction, two more word pushes
of which the last completes a block, and an extraction. -/
example : ∃ a, runWOps ((toy .sha256).C spliceInjector) spliceInjector
      (Acc.init ((toy .sha256).C spliceInjector) (List.replicate 512 true)) []
      [.word (bigEndian 32 7) 0, .op (feedBytes bigOctetBigBit (List.range 100)), .op .extract,
        .word (bigEndian 32 9) 8, .word (bigEndian 32 9) 24, .op (feedBytes bigOctetBigBit (List.range 16)),
        .word (bigEndian 32 3) 0, .op .extract] =
      .ok (a, [(toy .sha256).spec (bigEndian 32 7 ++ octetBits (List.range 100)),
        (toy .sha256).spec (bigEndian 32 7 ++ octetBits (List.range 100) ++ (bigEndian 32 9).take 8 ++
          (bigEndian 32 9).take 24 ++ octetBits (List.range 16) ++ bigEndian 32 3)]) := by
  obtain ⟨a, e, _⟩ := C82_md (toy .sha256) spliceInjector (List.replicate 512 true)
    List.length_replicate
    [.word (bigEndian 32 7) 0, .op (feedBytes bigOctetBigBit (List.range 100)), .op .extract,
        .word (bigEndian 32 9) 8, .word (bigEndian 32 9) 24, .op (feedBytes bigOctetBigBit (List.range 16)),
        .word (bigEndian 32 3) 0, .op .extract]
    (by
      intro op hop
      simp only [List.mem_cons, List.not_mem_nil, or_false] at hop
      rcases hop with rfl | rfl | rfl | rfl | rfl | rfl | rfl | rfl <;>
        first
          | exact feedBytes_wellTyped _ _
          | exact trivial
          | exact ⟨by decide +kernel, by decide +kernel⟩)
    ⟨goodMsg_of_bytes _ (by decide +kernel) (by decide +kernel),
      goodMsg_of_bytes _ (by decide +kernel) (by decide +kernel), trivial⟩
    (goodMsg_of_bytes _ (by decide +kernel) (by decide +kernel))
    ⟨fun hh => absurd hh (by decide +kernel), fun hh => absurd hh (by decide +kernel),
      fun hh => absurd hh (by decide +kernel), fun _ => by simp, trivial⟩
  exact ⟨a, e⟩

/-- The word that holds octet `b` first in the stream: `0x000000bb` for little-endian octet order,
`0xbb000000` for big-endian octet order (the words of the preprocessor tests, test/md5.cpp:200-202,
test/sha2.cpp). -/
def byteWord (P : Policy) (b : Nat) : Bits :=
  bigEndian 8 b ++ List.replicate (P.wordBits - 8) false

/-- That these are the stream views of the integers the tests push. -/
theorem byteWord_md5 (b : Nat) (hb : b < 256) :
    byteWord MDHash.md5.policy b = MDHash.md5.policy.endian.view 32 b ∧
    byteWord MDHash.sha256.policy b = MDHash.sha256.policy.endian.view 32 (b * 2 ^ 24) ∧
    byteWord MDHash.sha512.policy b = MDHash.sha512.policy.endian.view 64 (b * 2 ^ 56) := by
  have key : ∀ b : Fin 256, byteWord MDHash.md5.policy b = MDHash.md5.policy.endian.view 32 b ∧
    byteWord MDHash.sha256.policy b = MDHash.sha256.policy.endian.view 32 (b * 2 ^ 24) ∧
    byteWord MDHash.sha512.policy b = MDHash.sha512.policy.endian.view 64 (b * 2 ^ 56) := by
    decide +kernel
  exact key ⟨b, hb⟩

/-- C82: pushing a byte string one byte at a time, `acc(byte, bits = 8)`, gives the one-shot digest of
the byte string. -/
theorem C82_md_bytes (I : MDInst h σ) (J : Injector) (garbage : Bits)
    (hgb : garbage.length = h.policy.blockBits) (bytes : List Nat) (hlen : bytes.length < 2 ^ 61) :
    (do let (a, _) ← runWOps (I.C J) J (Acc.init (I.C J) garbage) []
          (bytes.map fun b => WOp.word (byteWord h.policy b) 8)
        a.result (I.C J)) = .ok (I.spec (octetBits bytes)) := by
  have hw8 : 8 < h.policy.wordBits := by cases h <;> decide
  have hs : wstreamOf h.policy.blockBits h.policy.wordBits
      (bytes.map fun b => WOp.word (byteWord h.policy b) 8) = octetBits bytes := by
    unfold wstreamOf octetBits
    rw [List.flatMap_map]
    refine congrArg (fun f => List.flatMap f bytes) (funext fun b => ?_)
    show (bigEndian 8 b ++ List.replicate (h.policy.wordBits - 8) false).take 8 = _
    rw [List.take_left' (by simp [bigEndian])]
  have hng : ∀ (bs : List Nat) (m : Bits), WGoodExtracts h.policy.blockBits h.policy.wordBits
      (GoodMsg h) m (bs.map fun b => WOp.word (byteWord h.policy b) 8) := by
    intro bs
    induction bs with
    | nil => intro m; trivial
    | cons b bs ih => intro m; exact ih _
  obtain ⟨a, e, r⟩ := C82_md_partial_words I J garbage hgb
    (bytes.map fun b => WOp.word (byteWord h.policy b) 8)
    (by
      intro op hop
      obtain ⟨b, _, rfl⟩ := List.mem_map.1 hop
      exact ⟨by simp [byteWord, bigEndian]; omega, by omega⟩)
    (by
      intro v n hop
      obtain ⟨b, _, hh⟩ := List.mem_map.1 hop
      injection hh with _ hn
      omega)
    (hng bytes [])
    (by rw [hs]; exact goodMsg_of_bytes h (by rw [length_octetBits]; exact ⟨_, Nat.mul_comm _ _⟩)
          (by rw [length_octetBits]; omega))
  rw [e, ← hs]
  exact r

/-- 100 bytes, one at a time. -/
example : (do
      let (a, _) ← runWOps ((toy .tiger192).C spliceInjector) spliceInjector
        (Acc.init ((toy .tiger192).C spliceInjector) (List.replicate 512 true)) []
        ((List.range 100).map fun b => WOp.word (byteWord MDHash.tiger192.policy b) 8)
      a.result ((toy .tiger192).C spliceInjector)) =
    .ok ((toy .tiger192).spec (octetBits (List.range 100))) :=
  C82_md_bytes (toy .tiger192) spliceInjector _ List.length_replicate _ (by simp)

/-- C82, Keccak and SHA-3. -/
theorem C82_sponge (k : SpongeKind) (permute : Lanes → Lanes) {d : Nat} (S : SpongeSize d)
    (JP J : Injector) (garbage : Bits) (hgb : garbage.length = spongeBlockBits d) (ops : List WOp)
    (hwt : ∀ op ∈ ops, op.WellTyped (spongeBlockBits d) 64)
    (hlt : (wstreamOf (spongeBlockBits d) 64 ops).length < 2 ^ 64)
    (hg : WGoodExtracts (spongeBlockBits d) 64 SpongeGood [] ops)
    (h8 : 8 ∣ (wstreamOf (spongeBlockBits d) 64 ops).length)
    (hsafe : NoAlignedFill (spongeBlockBits d) 64 [] ops) :
    ∃ a, runWOps (spongeConstruction k permute d JP) J
        (Acc.init (spongeConstruction k permute d JP) garbage) [] ops =
        .ok (a, wexpected (spongeBlockBits d) 64 (spongeSpec k permute d) [] ops) ∧
      a.result (spongeConstruction k permute d JP) =
        .ok (spongeSpec k permute d (wstreamOf (spongeBlockBits d) 64 ops)) :=
  word_programs (sponge_verified k permute JP S) J garbage hgb ops hwt (Or.inl hlt) hg ⟨h8, hlt⟩ hsafe

/-- Pushes of fewer than 64 bits into Keccak and SHA-3. -/
theorem C82_sponge_partial_words (k : SpongeKind) (permute : Lanes → Lanes) {d : Nat} (S : SpongeSize d)
    (JP J : Injector) (garbage : Bits) (hgb : garbage.length = spongeBlockBits d) (ops : List WOp)
    (hwt : ∀ op ∈ ops, op.WellTyped (spongeBlockBits d) 64)
    (hshort : ∀ v n, WOp.word v n ∈ ops → 0 < n ∧ n < 64)
    (hlt : (wstreamOf (spongeBlockBits d) 64 ops).length < 2 ^ 64)
    (hg : WGoodExtracts (spongeBlockBits d) 64 SpongeGood [] ops)
    (h8 : 8 ∣ (wstreamOf (spongeBlockBits d) 64 ops).length) :
    ∃ a, runWOps (spongeConstruction k permute d JP) J
        (Acc.init (spongeConstruction k permute d JP) garbage) [] ops =
        .ok (a, wexpected (spongeBlockBits d) 64 (spongeSpec k permute d) [] ops) ∧
      a.result (spongeConstruction k permute d JP) =
        .ok (spongeSpec k permute d (wstreamOf (spongeBlockBits d) 64 ops)) :=
  C82_sponge k permute S JP J garbage hgb ops hwt hlt hg h8
    (noAlignedFill_partial S.facts.2.1 ops hshort [])

/-- A word, 120 bytes and a word fill a block of SHA3-256; the last push ends the program. -/
example : ∃ a, runWOps (spongeConstruction .sha3 keccakPermute 256 clearingInjector) spliceInjector
      (Acc.init (spongeConstruction .sha3 keccakPermute 256 clearingInjector) (List.replicate 1088 true))
      [] [.word (bigEndian 64 5) 0, .op (spongeBytes 256 (List.range 120)), .word (bigEndian 64 7) 64,
        .op .extract] =
    .ok (a, [spongeSpec .sha3 keccakPermute 256
      (bigEndian 64 5 ++ octetBits (List.range 120) ++ bigEndian 64 7)]) := by
  obtain ⟨a, e, _⟩ := C82_sponge .sha3 keccakPermute sizes.2.1 clearingInjector spliceInjector
    (List.replicate 1088 true) List.length_replicate
    [.word (bigEndian 64 5) 0, .op (spongeBytes 256 (List.range 120)), .word (bigEndian 64 7) 64,
        .op .extract]
    (by
      intro op hop
      simp only [List.mem_cons, List.not_mem_nil, or_false] at hop
      rcases hop with rfl | rfl | rfl | rfl
      · exact ⟨by decide +kernel, by decide⟩
      · exact spongeBytes_wellTyped sizes.2.1 (List.range 120)
      · exact ⟨by decide +kernel, by decide⟩
      · trivial)
    (by decide +kernel)
    ⟨⟨by decide +kernel, by decide +kernel⟩, trivial⟩
    (by decide +kernel)
    ⟨fun hh => absurd hh (by decide +kernel), fun _ => by simp, trivial⟩
  exact ⟨a, e⟩

/-- C82, BLAKE2b (`nn` octets of digest). -/
theorem C82_blake2b (nn : Nat) (hnn : nn ≤ 64) (JP J : Injector) (garbage : Bits)
    (hgb : garbage.length = 1024) (ops : List WOp)
    (hwt : ∀ op ∈ ops, op.WellTyped 1024 64)
    (hlt : (wstreamOf 1024 64 ops).length < 2 ^ 64)
    (hg : WGoodExtracts 1024 64 HaifaGood [] ops)
    (hsafe : NoAlignedFill 1024 64 [] ops) :
    ∃ a, runWOps (blake2bConstruction (8 * nn) JP) J
        (Acc.init (blake2bConstruction (8 * nn) JP) garbage) [] ops =
        .ok (a, wexpected 1024 64 (blakeOf nn) [] ops) ∧
      a.result (blake2bConstruction (8 * nn) JP) = .ok (blakeOf nn (wstreamOf 1024 64 ops)) :=
  word_programs (blake_verified nn hnn JP) J garbage hgb ops hwt (Or.inl hlt) hg hlt hsafe

example : ∃ a, runWOps (blake2bConstruction 512 clearingInjector) spliceInjector
      (Acc.init (blake2bConstruction 512 clearingInjector) (List.replicate 1024 true)) []
      [.word (bigEndian 64 5) 8, .op .extract, .word (bigEndian 64 7) 48] =
      .ok (a, [blakeOf 64 (List.replicate 8 false)]) := by
  obtain ⟨a, e, _⟩ := C82_blake2b 64 (by omega) clearingInjector spliceInjector
    (List.replicate 1024 true) List.length_replicate
    [.word (bigEndian 64 5) 8, .op .extract, .word (bigEndian 64 7) 48]
    (by
      intro op hop
      simp only [List.mem_cons, List.not_mem_nil, or_false] at hop
      rcases hop with rfl | rfl | rfl
      · exact ⟨by decide +kernel, by decide⟩
      · trivial
      · exact ⟨by decide +kernel, by decide⟩)
    (by decide +kernel) ⟨show _ < 2 ^ 64 by decide +kernel, trivial⟩
    ⟨fun hh => absurd hh (by decide +kernel), fun hh => absurd hh (by decide +kernel), trivial⟩
  exact ⟨a, e⟩

/-! ### C14: what is lost -/

theorem pushWords_append {σ δ : Type} (C : Construction σ δ) (J : Injector) (ys zs : List Bits) :
    ∀ a : Acc σ, a.pushWords C J (ys ++ zs) = (a.pushWords C J ys >>= fun a => a.pushWords C J zs) := by
  induction ys with
  | nil => intro a; rfl
  | cons y ys ih =>
    intro a
    simp only [List.cons_append, Acc.pushWords]
    cases a.pushWord C J y 0 with
    | error e => rfl
    | ok a' => exact ih a'

/-- Full words pushed into a fresh accumulator, up to one block, stay in the cache. -/
theorem pushWords_fresh {σ δ : Type} (C : Construction σ δ) (J : Injector) (hw : 0 < C.wordBits)
    (hB : C.blockBits < 2 ^ 64) (ws : List Bits) :
    ∀ (a : Acc σ) (pre : Bits), (∀ v ∈ ws, v.length = C.wordBits) → a.filled = false →
      a.total = pre.length → C.wordBits ∣ pre.length → a.cache.length = C.blockBits →
      a.cache.take pre.length = pre →
      pre.length + ws.length * C.wordBits ≤ C.blockBits →
      a.pushWords C J ws = .ok { a with
        cache := pre ++ ws.flatten ++ a.cache.drop (pre.length + ws.length * C.wordBits)
        total := pre.length + ws.length * C.wordBits } := by
  induction ws with
  | nil =>
    intro a pre _ hf ht _ hc hp _
    cases a
    simp only [Acc.pushWords, List.flatten_nil, List.append_nil, List.length_nil, Nat.zero_mul,
      Nat.add_zero] at *
    subst ht
    congr
    exact ((congrArg (· ++ _) hp).symm.trans (List.take_append_drop _ _)).symm
  | cons v ws ih =>
    intro a pre hv hf ht hd hc hp hle
    have hvl := hv v (by simp)
    rw [List.length_cons, Nat.add_mul, Nat.one_mul] at hle
    obtain ⟨k, hk⟩ := hd
    have e1 : a.pushWord C J v 0 = .ok { a with
        cache := pre ++ v ++ a.cache.drop (pre.length + C.wordBits)
        total := pre.length + C.wordBits } := by
      unfold Acc.pushWord Acc.processWordValue
      have hflush : a.flush C = a := by unfold Acc.flush; rw [hf]; rfl
      simp only [hflush, if_true, ht]
      rw [Nat.mod_eq_of_lt (show pre.length < C.blockBits by omega), hk, Nat.mul_mod_right,
        if_neg (by simp), Nat.mul_div_cancel_left _ hw, Nat.mul_comm k, ← hk, if_pos (by omega), hp,
        hvl]
      simp only [wrap64, Nat.mod_eq_of_lt (show pre.length + C.wordBits < 2 ^ 64 by omega)]
    simp only [Acc.pushWords]
    rw [e1]
    refine (ih { a with
        cache := pre ++ v ++ a.cache.drop (pre.length + C.wordBits)
        total := pre.length + C.wordBits } (pre ++ v) (fun y hy => hv y (by simp [hy])) hf (by simp [hvl])
      (by rw [List.length_append, hvl]; exact (Nat.dvd_add_left (Nat.dvd_refl _)).2 ⟨k, hk⟩) ?_ ?_ ?_).trans ?_
    · simp [hvl, hc]; omega
    · show List.take (pre ++ v).length (pre ++ v ++ _) = _
      rw [List.take_left]
    · simp [hvl]; omega
    · have e2 : (pre ++ v).length + ws.length * C.wordBits =
          pre.length + (v :: ws).length * C.wordBits := by
        rw [List.length_append, hvl, List.length_cons, Nat.add_mul]; omega
      have e3 : List.drop (pre.length + (v :: ws).length * C.wordBits)
          (pre ++ v ++ a.cache.drop (pre.length + C.wordBits)) =
          a.cache.drop (pre.length + (v :: ws).length * C.wordBits) := by
        rw [← e2, List.length_append, hvl, List.drop_append, List.length_append, hvl,
          List.drop_of_length_le (by rw [List.length_append, hvl]; omega), List.drop_drop,
          List.nil_append]
        congr 1
        omega
      simp only [e2]
      rw [e3, List.flatten_cons, ← List.append_assoc pre v]

/-- C14 is false for every hash: after the words of one whole block, one more word overwrites the first
one, which has reached nothing but the cache.  The accumulators are equal for any two first words. -/
theorem C14_first_word_overwritten {σ δ : Type} (C : Construction σ δ) (J : Injector) (garbage : Bits)
    (hgb : garbage.length = C.blockBits) (hw : 0 < C.wordBits)
    (hB : C.blockBits < 2 ^ 63) (v v' x : Bits) (ws : List Bits)
    (hv : v.length = C.wordBits) (hv' : v'.length = C.wordBits) (hx : x.length = C.wordBits)
    (hws : ∀ u ∈ ws, u.length = C.wordBits) (hfull : (ws.length + 1) * C.wordBits = C.blockBits) :
    (Acc.init C garbage).pushWords C J (v :: ws ++ [x]) =
      (Acc.init C garbage).pushWords C J (v' :: ws ++ [x]) := by
  have key : ∀ v : Bits, v.length = C.wordBits →
      (Acc.init C garbage).pushWords C J (v :: ws ++ [x]) =
        .ok { filled := false, total := C.blockBits + C.wordBits, cache := x ++ ws.flatten,
              st := C.init } := by
    intro v hv
    have hfl : ws.flatten.length = ws.length * C.wordBits := by
      rw [List.length_flatten, List.map_congr_left (g := fun _ => C.wordBits) hws]
      simp
    rw [pushWords_append, pushWords_fresh C J hw (by omega) (v :: ws) (Acc.init C garbage) []
      (by intro y hy; rcases List.mem_cons.1 hy with rfl | hy
          · exact hv
          · exact hws y hy) rfl rfl (by simp) hgb (by simp)
      (by rw [List.length_cons, hfull]; simp)]
    show Acc.pushWords C J _ [x] = _
    simp only [Acc.pushWords, List.length_cons, List.length_nil, Nat.zero_add, hfull, List.nil_append,
      Acc.init, List.flatten_cons]
    rw [List.drop_of_length_le (by omega), List.append_nil]
    have hle : C.wordBits ≤ C.blockBits := by rw [← hfull, Nat.add_mul]; omega
    unfold Acc.pushWord Acc.processWordValue
    simp only [Acc.flush, Bool.false_eq_true, if_false, if_true, Nat.mod_self, Nat.zero_mod, ne_eq,
      not_true_eq_false, Nat.zero_div, Nat.zero_mul, Nat.zero_add, List.take_zero, List.nil_append]
    rw [if_pos (by rw [List.length_append, hv, hfl, hx]; omega)]
    simp only [bind, Except.bind, wrap64, hx]
    rw [Nat.mod_eq_of_lt (by omega), List.drop_left' hv]
  rw [key v hv, key v' hv']

example (g : Bits) (hg : g.length = 1088) :
    (Acc.init (spongeConstruction .sha3 keccakPermute 256 spliceInjector) g).pushWords
        (spongeConstruction .sha3 keccakPermute 256 spliceInjector) spliceInjector
        (bigEndian 64 1 :: List.replicate 16 (bigEndian 64 3) ++ [bigEndian 64 7]) =
      (Acc.init (spongeConstruction .sha3 keccakPermute 256 spliceInjector) g).pushWords
        (spongeConstruction .sha3 keccakPermute 256 spliceInjector) spliceInjector
        (bigEndian 64 2 :: List.replicate 16 (bigEndian 64 3) ++ [bigEndian 64 7]) :=
  C14_first_word_overwritten _ _ g hg (by show 0 < 64; omega)
    (by show 1088 < 2 ^ 63; omega) _ _ _ _ (by simp [bigEndian]; rfl) (by simp [bigEndian]; rfl)
    (by simp [bigEndian]; rfl) (by intro u hu; rw [List.eq_of_mem_replicate hu]; simp [bigEndian]; rfl) rfl

/-- C20 for any construction (sponges, BLAKE2b and Merkle–Damgård alike) and any program of ranges,
blocks, words and extractions that runs to its end: the length held by the accumulator is the number of
bits fed modulo 2^64.  This includes the programs of C14 and C86, whose data is lost. -/
theorem C20_any_construction {σ δ : Type} (C : Construction σ δ) (hB : 0 < C.blockBits) (J : Injector)
    (garbage : Bits) (ops : List WOp) (hwt : ∀ op ∈ ops, op.WellTyped C.blockBits C.wordBits)
    {a : Acc σ} {out : List δ} (hr : runWOps C J (Acc.init C garbage) [] ops = .ok (a, out)) :
    a.total = (wstreamOf C.blockBits C.wordBits ops).length % 2 ^ 64 := by
  have := runWOps_total hB ops hwt (show (Acc.init C garbage).total < 2 ^ 64 from Nat.two_pow_pos 64) hr
  rwa [show (Acc.init C garbage).total = 0 from rfl, Nat.zero_add] at this

/-- SHA3-256: a word, 120 octets, a word: 1088 bits. -/
example {a : Acc Lanes} {out : List Bits}
    (hr : runWOps (spongeConstruction .sha3 keccakPermute 256 clearingInjector) spliceInjector
      (Acc.init (spongeConstruction .sha3 keccakPermute 256 clearingInjector) (List.replicate 1088 true))
      [] [.word (bigEndian 64 5) 0, .op (spongeBytes 256 (List.range 120)), .word (bigEndian 64 7) 64,
        .op .extract] = .ok (a, out)) : a.total = 1088 := by
  rw [C20_any_construction _ (by decide) _ _ _ (by
      intro op hop
      simp only [List.mem_cons, List.not_mem_nil, or_false] at hop
      rcases hop with rfl | rfl | rfl | rfl
      · exact ⟨by decide +kernel, by decide⟩
      · exact ⟨by decide, by decide, by decide +kernel⟩
      · exact ⟨by decide +kernel, by decide⟩
      · trivial) hr]
  decide +kernel

end Verif.Props
