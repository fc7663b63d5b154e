import Verif.Proof.ExtensionCount
import Verif.Props.RandomPoseidon
import Mathlib.Data.Set.Finite.List
import Mathlib.Tactic.Ring
/-
C104: the digest of the Poseidon hashes is the whole chaining value: digests can be continued, and the hashes are not
indifferentiable from a random oracle.
-/
namespace Verif.Props

open Spec.Poseidon Spec.Ideal Verif.Ideal

section
variable {F : Type} [CommRing F] {n : Nat}

theorem blocks_after (hn : 0 < n) (L : List (List F)) (hL : ∀ b ∈ L, b.length = n) (w : List F) (hw : w ≠ []) :
    blocks n (L.flatten ++ w) = L ++ blocks n w := by
  induction L with
  | nil => rfl
  | cons b L ih =>
    rw [List.flatten_cons, List.append_assoc, blocks_long hn b _ (hL b List.mem_cons_self) (by simp [hw]),
      ih fun b hb => hL b (List.mem_cons_of_mem _ hb)]
    rfl

theorem blocks_zeroPad_append (hn : 0 < n) (l m : List F) (hm : m ≠ []) :
    blocks n (zeroPad n l ++ m) = (blocks n l).map (padBlock n) ++ blocks n m := by
  rw [← blocks_pad hn l]
  refine blocks_after hn _ (fun b hb => ?_) m hm
  obtain ⟨c, hc, rfl⟩ := List.mem_map.1 hb
  have := blocks_fit hn l c hc
  rw [padBlock, List.length_append, List.length_replicate]
  omega

theorem input_padBlock (h : F) (b : List F) (hb : b.length ≤ n) : input (n := n) h (padBlock n b) = input h b := by
  funext i
  refine Fin.cases rfl (fun i => ?_) i
  show ((padBlock n b)[i.val]?).getD 0 = (b[i.val]?).getD 0
  rw [padBlock, List.getElem?_append]
  split
  · rfl
  · rename_i hi
    rw [List.getElem?_replicate, List.getElem?_eq_none (by omega : b.length ≤ i.val)]
    split <;> rfl

/-- **C104.** The digest of a list, filled up with zeros to whole blocks and followed by other elements, is computed from the
digest of the list and those elements. -/
theorem C104_extension (hn : 0 < n) (P : (Fin (n + 1) → F) → Fin (n + 1) → F) (l m : List F) (hm : m ≠ []) :
    ∃ d, poseidonHash (fun S => .ok (P S)) l = .ok d ∧
      poseidonHash (fun S => .ok (P S)) (zeroPad n l ++ m) = .ok ((blocks n m).foldl (compress P) d) := by
  refine ⟨digest P l, C44_digest hn P l, ?_⟩
  rw [C44_digest hn, digest, blocks_zeroPad_append hn l m hm, List.foldl_append, List.foldl_map]
  refine congrArg (fun d => Except.ok (List.foldl (compress P) d (blocks n m))) ?_
  have key : ∀ (bs : List (List F)) (h : F), (∀ b ∈ bs, b.length ≤ n) →
      bs.foldl (fun x y => compress P x (padBlock n y)) h = bs.foldl (compress P) h := by
    intro bs
    induction bs with
    | nil => intro h _; rfl
    | cons b bs ih =>
      intro h hb
      rw [List.foldl_cons, List.foldl_cons, compress, input_padBlock h b (hb b List.mem_cons_self), ih _ fun c hc => hb c (List.mem_cons_of_mem _ hc)]
      rfl
  exact key _ 0 (blocks_fit hn l)

/-- Two lists with the same digest, continued alike after filling up with zeros, still have the same digest. -/
theorem C104_collisions (hn : 0 < n) (P : (Fin (n + 1) → F) → Fin (n + 1) → F) (l l' m : List F) (hm : m ≠ [])
    (h : poseidonHash (fun S => .ok (P S)) l = poseidonHash (fun S => .ok (P S)) l') :
    poseidonHash (fun S => .ok (P S)) (zeroPad n l ++ m) = poseidonHash (fun S => .ok (P S)) (zeroPad n l' ++ m) := by
  obtain ⟨d, e1, e2⟩ := C104_extension hn P l m hm
  obtain ⟨d', e1', e2'⟩ := C104_extension hn P l' m hm
  rw [e1, e1'] at h
  rw [e2, e2', Except.ok.inj h]

theorem zeroPad_full (hn : 0 < n) (l : List F) (k : Nat) (hk : l.length = (k + 1) * n) : zeroPad n l = l := by
  have hl : l ≠ [] := by
    intro e
    rw [e, List.length_nil] at hk
    exact absurd hk (Nat.mul_pos (Nat.succ_pos k) hn).ne
  rw [zeroPad, if_neg hl, hk]
  have : ((k + 1) * n + n - 1) / n = k + 1 := by
    rw [Nat.add_sub_assoc hn, Nat.mul_comm, Nat.mul_add_div hn, Nat.div_eq_of_lt (by omega), Nat.add_zero]
  rw [this, Nat.sub_self, List.replicate_zero, List.append_nil]

end

section
variable {F : Type} [CommRing F] [Fintype F] [DecidableEq F] {n : Nat}

/-- The lists that are hashed: those that fill at most `N` words. -/
def PoseidonCall (F : Type) [CommRing F] (n N : Nat) : Type := { l : List F // (zeroPad n l).length ≤ N }

/-- The inputs of the random oracle. -/
def PoseidonMessage (F : Type) (N : Nat) : Type := { l : List F // l.length ≤ N }

/-- The message: the list with its zeros, so that lists that the library identifies get the same digest in both worlds. -/
def PoseidonCall.message {N : Nat} (q : PoseidonCall F n N) : PoseidonMessage F N := ⟨zeroPad n q.1, q.2⟩

/-- The number of permutation calls. -/
def PoseidonCall.cost {N : Nat} (q : PoseidonCall F n N) : Nat := (blocks n q.1).length

omit [CommRing F] [DecidableEq F] in
noncomputable instance (N : Nat) : Fintype (PoseidonMessage F N) := by
  have : Finite { b : List F // b.length ≤ N } := (List.finite_length_le F N).to_subtype
  exact @Fintype.ofFinite _ this

/-- One block. -/
def shortCall {N : Nat} (hn : 0 < n) (hN : 2 * n ≤ N) (m : Fin n → F) : PoseidonCall F n N :=
  ⟨List.ofFn m, by rw [zeroPad_full hn _ 0 (by simp), List.length_ofFn]; omega⟩

/-- Two blocks, the second of ones. -/
def longCall {N : Nat} (hn : 0 < n) (hN : 2 * n ≤ N) (m : Fin n → F) : PoseidonCall F n N :=
  ⟨List.ofFn m ++ List.replicate n 1, by
    rw [zeroPad_full hn _ 1 (by rw [List.length_append, List.length_ofFn, List.length_replicate]; omega), List.length_append,
      List.length_ofFn, List.length_replicate]
    omega⟩

omit [Fintype F] [DecidableEq F] in
theorem blocks_one_block (b : List F) (h : b.length ≤ n) : blocks n b = [b] := blocks_short b h

omit [Fintype F] [DecidableEq F] in
theorem shortCall_message {N : Nat} (hn : 0 < n) (hN : 2 * n ≤ N) (m : Fin n → F) :
    (shortCall hn hN m).message.1 = List.ofFn m := zeroPad_full hn (List.ofFn m) 0 (by simp)

omit [Fintype F] [DecidableEq F] in
theorem longCall_message {N : Nat} (hn : 0 < n) (hN : 2 * n ≤ N) (m : Fin n → F) :
    (longCall hn hN m).message.1 = List.ofFn m ++ List.replicate n 1 :=
  zeroPad_full hn (List.ofFn m ++ List.replicate n 1) 1 (by rw [List.length_append, List.length_ofFn, List.length_replicate]; omega)

omit [Fintype F] [DecidableEq F] in
theorem shortCall_cost {N : Nat} (hn : 0 < n) (hN : 2 * n ≤ N) (m : Fin n → F) : (shortCall hn hN m).cost = 1 := by
  unfold PoseidonCall.cost shortCall
  rw [blocks_short _ (by rw [List.length_ofFn])]
  rfl

omit [Fintype F] [DecidableEq F] in
theorem longCall_cost {N : Nat} (hn : 0 < n) (hN : 2 * n ≤ N) (m : Fin n → F) : (longCall hn hN m).cost = 2 := by
  unfold PoseidonCall.cost longCall
  rw [blocks_long hn _ _ List.length_ofFn (by simp [hn.ne']), blocks_short _ (by rw [List.length_replicate])]
  rfl

/-- Hash one block, continue with one call of the permutation, and compare with the digest of two blocks. -/
def poseidonExtender {N : Nat} (hn : 0 < n) (hN : 2 * n ≤ N) (m : Fin n → F) :
    Distinguisher (PoseidonCall F n N) (Except Fault F) Unit (Fin (n + 1) → F) :=
  .hash (shortCall hn hN m) fun a =>
    match a with
    | .error _ => .done false
    | .ok d => .ask .enc () (input d (List.replicate n 1)) fun y =>
      .hash (longCall hn hN m) fun a' => .done (decide (a' = .ok (y (Fin.last n))))

/-- **C104, indifferentiability.** Over a random permutation of the states: whatever the simulator, there is a distinguisher that
asks for two digests, of one block and of two, and makes one query, that always outputs one with the library, and outputs one with
the random oracle and the simulator with probability at most `1 / p^rate + 1 / p`. -/
theorem C104_distinguishable (hn : 0 < n) {N : Nat} (hN : 2 * n ≤ N)
    (sim : Simulator (PoseidonMessage F N) F Unit (Fin (n + 1) → F)) :
    ∃ P : Distinguisher (PoseidonCall F n N) (Except Fault F) Unit (Fin (n + 1) → F),
      P.AtMost PoseidonCall.cost 4 ∧
      (∀ E, P.real (fun q => poseidonHash (fun S => .ok (E () S)) q.1) E = true) ∧
      P.idealChance PoseidonCall.message .ok sim ≤ 1 / (Fintype.card F : ℚ) ^ n + 1 / Fintype.card F := by
  classical
  haveI := sim.fintype
  haveI : Nonempty F := ⟨0⟩
  let W : sim.Coins → F → Option (PoseidonMessage F N) := fun c v => sim.wants c sim.start .enc () (input v (List.replicate n 1))
  let g : sim.Coins → F → Option F → F := fun c v o =>
    (sim.reply c sim.start .enc () (input v (List.replicate n 1)) o).2 (Fin.last n)
  have hext : Function.Injective fun m => (longCall (F := F) hn hN m).message := by
    intro m m' e
    have e1 := congrArg Subtype.val e
    simp only [longCall_message] at e1
    exact List.ofFn_injective (List.append_cancel_right e1)
  have hne : ∀ m m', (shortCall (F := F) hn hN m).message ≠ (longCall hn hN m').message := by
    intro m m' e
    have e1 := congrArg (fun x => x.1.length) e
    simp only [longCall_message, shortCall_message, List.length_ofFn, List.length_append, List.length_replicate] at e1
    omega
  have hideal : ∀ m (v : (PoseidonMessage F N → F) × sim.Coins),
      (poseidonExtender hn hN m).ideal (fun q => Except.ok (v.1 q.message)) sim v.1 v.2 sim.start = true ↔
      v.1 (longCall hn hN m).message = g v.2 (v.1 (shortCall hn hN m).message) ((W v.2 (v.1 (shortCall hn hN m).message)).map v.1) := by
    intro m v
    unfold poseidonExtender
    rw [Distinguisher.ideal, Distinguisher.ideal, Distinguisher.ideal, Distinguisher.ideal, decide_eq_true_eq, Except.ok.injEq]
  obtain ⟨m, hm⟩ : ∃ m, ((Finset.univ.filter fun v : (PoseidonMessage F N → F) × sim.Coins =>
      v.1 (longCall hn hN m).message = g v.2 (v.1 (shortCall hn hN m).message) ((W v.2 (v.1 (shortCall hn hN m).message)).map v.1)).card : ℚ) /
      Fintype.card ((PoseidonMessage F N → F) × sim.Coins) ≤ 1 / (Fintype.card F : ℚ) ^ n + 1 / Fintype.card F := by
    rcases isEmpty_or_nonempty sim.Coins with hC | hC
    · refine ⟨fun _ => 0, ?_⟩
      rw [Fintype.card_prod, Fintype.card_eq_zero (α := sim.Coins), Nat.mul_zero, Nat.cast_zero, div_zero]
      positivity
    · obtain ⟨m, hm⟩ := exists_guess (fun m => (shortCall (F := F) hn hN m).message) (fun m => (longCall hn hN m).message) hext hne W g
      rw [Fintype.card_fun, Fintype.card_fin, Nat.cast_pow] at hm
      exact ⟨m, by convert hm⟩
  refine ⟨poseidonExtender hn hN m, ?_, fun E => ?_, ?_⟩
  · refine ⟨by rw [shortCall_cost]; omega, fun a => ?_⟩
    rw [shortCall_cost]
    cases a with
    | error => trivial
    | ok d => exact fun y => ⟨by rw [longCall_cost], fun a' => trivial⟩
  · obtain ⟨d, e1, e2⟩ := C104_extension hn (E ()) (List.ofFn m) (List.replicate n 1) (by simp [hn.ne'])
    rw [zeroPad_full hn _ 0 (by simp), blocks_short _ (by rw [List.length_replicate])] at e2
    have e1' : poseidonHash (fun S => .ok (E () S)) (shortCall hn hN m).1 = .ok d := e1
    have e2' : poseidonHash (fun S => .ok (E () S)) (longCall hn hN m).1 = .ok (compress (E ()) d (List.replicate n 1)) := e2
    unfold poseidonExtender
    rw [Distinguisher.real, e1', Distinguisher.real, Distinguisher.real, e2', Distinguisher.real, decide_eq_true_eq]
    rfl
  · refine le_trans (le_of_eq ?_) hm
    unfold Distinguisher.idealChance chance
    simp only [hideal]
    congr!

end

/-! ### Examples -/

/-- A permutation of the states of three words. -/
def mix3 : Equiv.Perm (Fin 3 → ZMod 13) where
  toFun x := ![x 1, x 2, x 0 + x 1 + 2 * x 2]
  invFun y := ![y 2 - y 0 - 2 * y 1, y 0, y 1]
  left_inv x := by funext i; fin_cases i <;> simp <;> ring
  right_inv y := by funext i; fin_cases i <;> simp <;> ring

theorem mix3_123 : poseidonHash (fun S => .ok (mix3 S)) [1, 2, 3] = .ok 8 := by
  rw [C44_digest (n := 2) (by decide), digest, show [(1 : ZMod 13), 2, 3] = [1, 2] ++ [3] from rfl,
    blocks_long (n := 2) (by decide) _ _ rfl (by simp), blocks_short _ (by decide)]
  decide +kernel

/-- With it, `[1, 2, 3]` has the digest 8, and the digest 12 of `[1, 2, 3, 0, 4]` is that of `[4]` from the value 8. -/
example : poseidonHash (fun S => .ok (mix3 S)) [1, 2, 3, 0, 4] = .ok 12 := by
  obtain ⟨d, e1, e2⟩ := C104_extension (n := 2) (by decide) mix3 [1, 2, 3] [4] (by simp)
  rw [mix3_123] at e1
  obtain rfl : 8 = d := Except.ok.inj e1
  rw [blocks_short _ (by decide)] at e2
  exact e2

/-- `[1, 2, 3]` and `[8]` collide, and so do `[1, 2, 3, 0, 4]` and `[8, 0, 4]`. -/
example : poseidonHash (fun S => .ok (mix3 S)) [1, 2, 3, 0, 4] = poseidonHash (fun S => .ok (mix3 S)) [8, 0, 4] :=
  C104_collisions (n := 2) (by decide) mix3 [1, 2, 3] [8] [4] (by simp) (by
    rw [mix3_123, C44_digest (n := 2) (by decide), digest, blocks_short _ (by decide)]
    decide +kernel)

/-- Three words over the field of 13 elements, lists of up to six. -/
example (sim : Simulator (PoseidonMessage (ZMod 13) 6) (ZMod 13) Unit (Fin 3 → ZMod 13)) :
    ∃ P : Distinguisher (PoseidonCall (ZMod 13) 2 6) (Except Fault (ZMod 13)) Unit (Fin 3 → ZMod 13),
      P.AtMost PoseidonCall.cost 4 ∧ P.idealChance PoseidonCall.message .ok sim ≤ 14 / 169 := by
  obtain ⟨P, h1, _, h3⟩ := C104_distinguishable (n := 2) (by decide) (by decide) sim
  refine ⟨P, h1, le_trans h3 (le_of_eq ?_)⟩
  rw [ZMod.card]
  norm_num

end Verif.Props
