import Verif.Spec.Indifferentiable
import Verif.Proof.SpongeBound
/-
A hash function built from a random cipher is indifferentiable from a random oracle if the chaining values keep a part that the
digest does not show (Bertoni, Daemen, Peeters, Van Assche 2008, for the sponge over a random permutation) or if the last call is
marked (Chang, Nandi, Yung 2011, for BLAKE).
-/
namespace Verif.Ideal
open Spec.Ideal

universe u
variable {K X V B C D W M Z : Type} {Q : Type*} {R : Type u}

/-! ### Runs that keep a table -/

abbrev Tab (K X : Type) := List (Entry K X)

/-- The side of an entry that a query in direction `d` asks for. -/
def Entry.other (d : Dir) (e : Entry K X) : X :=
  match d with
  | .enc => e.y
  | .dec => e.x

open Classical in
/-- The answer in the table. -/
noncomputable def look (T : Tab K X) (d : Dir) (k : K) (v : X) : Option X :=
  (T.find? fun e => e.key = k ∧ e.side d = v).map (Entry.other d)

theorem look_none {T : Tab K X} {d : Dir} {k : K} {v : X} : look T d k v = none ↔ ¬ Known T d k v := by
  classical
  unfold look Known
  rw [Option.map_eq_none_iff, List.find?_eq_none]
  constructor
  · rintro h ⟨e, he, hv⟩
    exact h e he (decide_eq_true hv)
  · intro h e he hv
    exact h ⟨e, he, of_decide_eq_true hv⟩

theorem look_some {T : Tab K X} {d : Dir} {k : K} {v a : X} (h : look T d k v = some a) :
    ∃ e ∈ T, e.key = k ∧ e.side d = v ∧ e.other d = a := by
  classical
  obtain ⟨e, he, ha⟩ := Option.map_eq_some_iff.1 h
  have hs := List.find?_some he
  have hs := of_decide_eq_true hs
  exact ⟨e, List.mem_of_find?_eq_some he, hs.1, hs.2, ha⟩

/-- The attacker with answers from the table, or new ones by `ans`. -/
noncomputable def simRun (ans : Tab K X → Dir → K → X → X) : Attacker K X R → Tab K X → R × Tab K X
  | .done r, T => (r, T)
  | .ask d k v next, T =>
    match look T d k v with
    | some a => simRun ans (next a) T
    | none => simRun ans (next (ans T d k v)) (entry d k v (ans T d k v) :: T)

theorem simRun_known {ans : Tab K X → Dir → K → X → X} {d : Dir} {k : K} {v a : X} {next : X → Attacker K X R} {T : Tab K X}
    (h : look T d k v = some a) : simRun ans (.ask d k v next) T = simRun ans (next a) T := by
  rw [simRun, h]

theorem simRun_fresh {ans : Tab K X → Dir → K → X → X} {d : Dir} {k : K} {v : X} {next : X → Attacker K X R} {T : Tab K X}
    (h : look T d k v = none) :
    simRun ans (.ask d k v next) T = simRun ans (next (ans T d k v)) (entry d k v (ans T d k v) :: T) := by
  rw [simRun, h]

theorem simRun_suffix (ans : Tab K X → Dir → K → X → X) (A : Attacker K X R) : ∀ T, T <:+ (simRun ans A T).2 := by
  induction A with
  | done r => intro T; exact List.suffix_refl _
  | ask d k v next ih =>
    intro T
    cases h : look T d k v with
    | some a => rw [simRun_known h]; exact ih a T
    | none => rw [simRun_fresh h]; exact (List.suffix_cons _ _).trans (ih _ _)

/-- The answers of a permutation. -/
def permAns (E : Cipher K X) : Tab K X → Dir → K → X → X := fun _ d k v => answer E d k v

theorem look_agrees {E : Cipher K X} {T : Tab K X} (h : Agrees E T) {d : Dir} {k : K} {v a : X} (hl : look T d k v = some a) :
    answer E d k v = a := by
  obtain ⟨e, he, rfl, rfl, rfl⟩ := look_some hl
  rw [answer_known h he d]
  cases d <;> rfl

theorem simRun_perm (E : Cipher K X) (A : Attacker K X R) : ∀ T, Agrees E T → (simRun (permAns E) A T).1 = A.result E := by
  induction A with
  | done r => intro T _; rfl
  | ask d k v next ih =>
    intro T hT
    rw [Attacker.result]
    cases h : look T d k v with
    | some a => rw [simRun_known h, look_agrees hT h]; exact ih a T hT
    | none => rw [simRun_fresh h]; exact ih _ _ ((agrees_cons d k v _).2 ⟨hT, rfl⟩)

theorem agrees_suffix {E : Cipher K X} {T T' : Tab K X} (h : T <:+ T') (hE : Agrees E T') : Agrees E T :=
  fun e he => hE e (h.subset he)

/-- A permutation that agrees with the final table gives the same run. -/
theorem simRun_determined (ans : Tab K X → Dir → K → X → X) (E : Cipher K X) (A : Attacker K X R) :
    ∀ T, Agrees E (simRun ans A T).2 → simRun (permAns E) A T = simRun ans A T := by
  induction A with
  | done r => intro T _; rfl
  | ask d k v next ih =>
    intro T hT
    cases h : look T d k v with
    | some a =>
      rw [simRun_known h] at hT ⊢
      rw [simRun_known h]
      exact ih a T hT
    | none =>
      rw [simRun_fresh h] at hT ⊢
      rw [simRun_fresh h]
      have h1 := (agrees_cons d k v _).1 (agrees_suffix (simRun_suffix ans _ _) hT)
      have h2 : permAns E T d k v = ans T d k v := h1.2
      rw [h2]
      exact ih _ _ hT

/-! ### Distinguishers as attackers, with the evaluation of the messages at the end -/

section walk
variable (key : B → K) (add : V → B → X) (out : K → X → X → V) (s0 : V) (path : Q → List B)

/-- Absorbs the blocks, then continues. -/
def walkP : List B → V → Attacker K X R → Attacker K X R
  | [], _, A => A
  | b :: P, s, A => .ask .enc (key b) (add s b) fun y => walkP P (out (key b) (add s b) y) A

/-- Evaluates the messages, then continues. -/
def completing : List Q → Attacker K X R → Attacker K X R
  | [], A => A
  | q :: qs, A => walkP key add out (path q) s0 (completing qs A)

/-- The distinguisher with digests by `h`; at the end it evaluates all messages. -/
def full (h : Q → Z) : Distinguisher Q Z K X → List Q → Attacker K X (Bool × List Q)
  | .done b, qs => completing key add out s0 path qs (.done (b, qs))
  | .hash q next, qs => full h (next (h q)) (q :: qs)
  | .ask d k v next, qs => .ask d k v fun a => full h (next a) qs

/-- The blocks `P` lead from `s` to `s'` by entries of the table. -/
def PathIn (T : Tab K X) : List B → V → V → Prop
  | [], s, s' => s = s'
  | b :: P, s, s' => ∃ e ∈ T, e.key = key b ∧ e.x = add s b ∧ PathIn T P (out e.key e.x e.y) s'

variable {key add out s0 path}

theorem PathIn.mono {T T' : Tab K X} (h : T <:+ T') {P : List B} {s s' : V} (hp : PathIn key add out T P s s') :
    PathIn key add out T' P s s' := by
  induction P generalizing s with
  | nil => exact hp
  | cons b P ih =>
    obtain ⟨e, he, hk, hx, hp⟩ := hp
    exact ⟨e, h.subset he, hk, hx, ih hp⟩

theorem atMost_mono' {A : Attacker K X R} {q q' : Nat} (h : A.AtMost q) (hq : q ≤ q') : A.AtMost q' := by
  induction A generalizing q q' with
  | done r => trivial
  | ask d k v next ih =>
    cases q with
    | zero => exact h.elim
    | succ q =>
      cases q' with
      | zero => omega
      | succ q' => exact fun a => ih a (h a) (by omega)

theorem atMost_walkP (P : List B) (s : V) (A : Attacker K X R) {n : Nat} (h : A.AtMost n) :
    (walkP key add out P s A).AtMost (n + P.length) := by
  induction P generalizing s with
  | nil => exact h
  | cons b P ih => exact fun y => ih _

theorem atMost_completing (qs : List Q) (A : Attacker K X R) {n : Nat} (h : A.AtMost n) :
    (completing key add out s0 path qs A).AtMost (n + (qs.map fun q => (path q).length).sum) := by
  induction qs with
  | nil => exact h
  | cons q qs ih =>
    rw [List.map_cons, List.sum_cons, Nat.add_comm (path q).length, ← Nat.add_assoc]
    exact atMost_walkP _ _ _ ih

theorem atMost_full (h : Q → Z) (P : Distinguisher Q Z K X) : ∀ (n : Nat) (qs : List Q), P.AtMost (fun q => (path q).length) n →
    (full key add out s0 path h P qs).AtMost (n + (qs.map fun q => (path q).length).sum) := by
  induction P with
  | done b =>
    intro n qs _
    exact atMost_mono' (atMost_completing qs _ (n := 0) trivial) (by omega)
  | hash q next ih =>
    intro n qs hn
    refine atMost_mono' (ih _ _ (q :: qs) (hn.2 (h q))) ?_
    rw [List.map_cons, List.sum_cons]
    have : (path q).length ≤ n := hn.1
    show n - (path q).length + _ ≤ _
    omega
  | ask d k v next ih =>
    intro n qs hn
    cases n with
    | zero => exact hn.elim
    | succ n =>
      rw [show n + 1 + (qs.map fun q => (path q).length).sum = (n + (qs.map fun q => (path q).length).sum) + 1 by omega]
      exact fun a => ih a n qs (hn a)

theorem result_walkP (E : Cipher K X) (P : List B) (s : V) (A : Attacker K X R) :
    (walkP key add out P s A).result E = A.result E := by
  induction P generalizing s with
  | nil => rfl
  | cons b P ih => rw [walkP, Attacker.result]; exact ih _

theorem result_completing (E : Cipher K X) (qs : List Q) (A : Attacker K X R) :
    (completing key add out s0 path qs A).result E = A.result E := by
  induction qs with
  | nil => rfl
  | cons q qs ih => rw [completing, result_walkP, ih]

/-- The real world. -/
theorem result_full (h : Q → Z) (E : Cipher K X) (P : Distinguisher Q Z K X) : ∀ qs,
    ((full key add out s0 path h P qs).result E).1 = P.real h E := by
  induction P with
  | done b => intro qs; rw [full, result_completing]; rfl
  | hash q next ih => intro qs; rw [full, Distinguisher.real]; exact ih _ _
  | ask d k v next ih => intro qs; rw [full, Attacker.result, Distinguisher.real]; exact ih _ _

theorem simRun_walkP (ans : Tab K X → Dir → K → X → X) (P : List B) (A : Attacker K X R) : ∀ (s : V) (T : Tab K X), ∃ T' s',
    T <:+ T' ∧ PathIn key add out T' P s s' ∧ simRun ans (walkP key add out P s A) T = simRun ans A T' := by
  induction P with
  | nil => intro s T; exact ⟨T, s, List.suffix_refl _, rfl, rfl⟩
  | cons b P ih =>
    intro s T
    rw [walkP]
    cases h : look T .enc (key b) (add s b) with
    | some a =>
      obtain ⟨e, he, hk, hx, hy⟩ := look_some h
      obtain ⟨T', s', h1, h2, h3⟩ := ih (out (key b) (add s b) a) T
      rw [simRun_known h]
      refine ⟨T', s', h1, ⟨e, h1.subset he, hk, hx, ?_⟩, h3⟩
      rw [hk, show e.x = add s b from hx, show e.y = a from hy]
      exact h2
    | none =>
      obtain ⟨T', s', h1, h2, h3⟩ := ih (out (key b) (add s b) (ans T .enc (key b) (add s b)))
        (entry .enc (key b) (add s b) (ans T .enc (key b) (add s b)) :: T)
      rw [simRun_fresh h]
      exact ⟨T', s', (List.suffix_cons _ _).trans h1, ⟨_, h1.subset List.mem_cons_self, rfl, rfl, h2⟩, h3⟩

theorem simRun_completing (ans : Tab K X → Dir → K → X → X) (qs : List Q) (r : R) : ∀ (T : Tab K X),
    (simRun ans (completing key add out s0 path qs (.done r)) T).1 = r ∧
      ∀ q ∈ qs, ∃ s', PathIn key add out (simRun ans (completing key add out s0 path qs (.done r)) T).2 (path q) s0 s' := by
  induction qs with
  | nil => intro T; exact ⟨rfl, fun q h => by cases h⟩
  | cons q qs ih =>
    intro T
    rw [completing]
    obtain ⟨T', s', h1, h2, h3⟩ := simRun_walkP ans (path q) (completing key add out s0 path qs (.done r)) s0 T
    rw [h3]
    refine ⟨(ih T').1, fun q' hq => ?_⟩
    rcases List.mem_cons.1 hq with rfl | hq
    · exact ⟨s', h2.mono (simRun_suffix _ _ _)⟩
    · exact (ih T').2 q' hq

/-- All messages that were asked are in the list, and have been evaluated. -/
theorem simRun_full (ans : Tab K X → Dir → K → X → X) (h : Q → Z) (P : Distinguisher Q Z K X) : ∀ (qs : List Q) (T : Tab K X),
    (∀ q ∈ qs, q ∈ (simRun ans (full key add out s0 path h P qs) T).1.2) ∧
      ∀ q ∈ (simRun ans (full key add out s0 path h P qs) T).1.2, ∃ s',
        PathIn key add out (simRun ans (full key add out s0 path h P qs) T).2 (path q) s0 s' := by
  induction P with
  | done b =>
    intro qs T
    rw [full]
    have := simRun_completing (key := key) (add := add) (out := out) (s0 := s0) (path := path) ans qs (b, qs) T
    rw [this.1]
    exact ⟨fun q hq => hq, this.2⟩
  | hash q next ih =>
    intro qs T
    rw [full]
    have := ih (h q) (q :: qs) T
    exact ⟨fun q' hq => this.1 q' (List.mem_cons_of_mem _ hq), this.2⟩
  | ask d k v next ih =>
    intro qs T
    rw [full]
    cases hl : look T d k v with
    | some a => rw [simRun_known hl]; exact ih a qs T
    | none => rw [simRun_fresh hl]; exact ih _ qs _

/-- Digests that agree on what was asked give the same run. -/
theorem simRun_full_congr (ans : Tab K X → Dir → K → X → X) (h h' : Q → Z) (P : Distinguisher Q Z K X) : ∀ (qs : List Q) (T : Tab K X),
    (∀ q ∈ (simRun ans (full key add out s0 path h P qs) T).1.2, h q = h' q) →
      simRun ans (full key add out s0 path h P qs) T = simRun ans (full key add out s0 path h' P qs) T := by
  induction P with
  | done b => intro qs T _; rfl
  | hash q next ih =>
    intro qs T hq
    have h1 : h q = h' q := hq q (by rw [full]; exact (simRun_full ans h (next (h q)) (q :: qs) T).1 q List.mem_cons_self)
    rw [full] at hq
    rw [full, full, ← h1]
    exact ih _ _ _ hq
  | ask d k v next ih =>
    intro qs T hq
    rw [full] at hq
    rw [full, full]
    cases hl : look T d k v with
    | some a =>
      rw [simRun_known hl] at hq
      rw [simRun_known hl, simRun_known hl]; exact ih a qs T hq
    | none =>
      rw [simRun_fresh hl] at hq
      rw [simRun_fresh hl, simRun_fresh hl]; exact ih _ qs _ hq

end walk

/-! ### The simulator -/

/-- The other direction. -/
def flip : Dir → Dir
  | .enc => .dec
  | .dec => .enc

/-- A hash function built from a cipher: the chaining values `V` have inner parts in `C`; a block gives a key and, with a chaining
value, an input of the cipher; input and output give the next chaining value; an output consists of a digest `D` and the rest `W`;
messages are padded to sequences of blocks.  `isOpen` says that a chaining value may be followed by a block. -/
structure Shape (K X V B C D W M : Type) where
  inner : V → C
  cin : X → C
  key : B → K
  add : V → B → X
  out : K → X → X → V
  diff : V → K → X → B
  isOpen : V → Prop
  s0 : V
  digest : V → D
  split : K → X → X ≃ D × W
  pad : M → List B
  add_diff : ∀ s k x, cin x = inner s → add s (diff s k x) = x
  key_diff : ∀ s k x, key (diff s k x) = k
  diff_add : ∀ s m b, b ∈ pad m → diff s (key b) (add s b) = b
  cin_add : ∀ s m b, b ∈ pad m → isOpen s → cin (add s b) = inner s
  open_s0 : isOpen s0
  open_out : ∀ s m b y, b ∈ (pad m).dropLast → isOpen (out (key b) (add s b) y)
  digest_out : ∀ k x y, digest (out k x y) = (split k x y).1
  pad_injective : Function.Injective pad
  pad_ne_nil : ∀ m, pad m ≠ []

namespace Shape
variable (S : Shape K X V B C D W M)

open Classical in
/-- The message with these blocks. -/
noncomputable def decode (P : List B) : Option M := if h : ∃ m, S.pad m = P then some h.choose else none

theorem decode_pad (m : M) : S.decode (S.pad m) = some m := by
  have h : ∃ m', S.pad m' = S.pad m := ⟨m, rfl⟩
  rw [decode, dif_pos h]
  exact congrArg some (S.pad_injective h.choose_spec)

theorem decode_some {P : List B} {m : M} (h : S.decode P = some m) : S.pad m = P := by
  unfold decode at h
  split at h
  · rename_i h1
    rw [← Option.some.inj h]; exact h1.choose_spec
  · cases h

open Classical in
/-- The blocks that lead to the query `k`, `x`, from the known chaining values `N`. -/
noncomputable def path (N : List (List B × V)) (k : K) (x : X) : Option (List B) :=
  (N.find? fun n => S.inner n.2 = S.cin x).map fun n => n.1 ++ [S.diff n.2 k x]

theorem path_some {N : List (List B × V)} {k : K} {x : X} {P : List B} (h : S.path N k x = some P) :
    ∃ n ∈ N, S.inner n.2 = S.cin x ∧ P = n.1 ++ [S.diff n.2 k x] := by
  obtain ⟨n, hn, hP⟩ := Option.map_eq_some_iff.1 h
  have hs := List.find?_some hn
  exact ⟨n, List.mem_of_find?_eq_some hn, by simpa using hs, hP.symm⟩

/-- The chaining values that are reached by known blocks, with these blocks. -/
noncomputable def nodes : Tab K X → List (List B × V)
  | [] => [([], S.s0)]
  | e :: T => ((if e.dir = .enc then S.path (nodes T) e.key e.x else none).map fun P => (P, S.out e.key e.x e.y)).toList ++ nodes T

theorem mem_nodes_cons {e : Entry K X} {T : Tab K X} {n : List B × V} : n ∈ S.nodes (e :: T) ↔
    (e.dir = .enc ∧ S.path (S.nodes T) e.key e.x = some n.1 ∧ n.2 = S.out e.key e.x e.y) ∨ n ∈ S.nodes T := by
  rw [nodes, List.mem_append]
  refine or_congr ?_ Iff.rfl
  rw [Option.mem_toList, Option.map_eq_some_iff]
  constructor
  · rintro ⟨P, hP, rfl⟩
    split at hP
    · rename_i h; exact ⟨h, hP, rfl⟩
    · cases hP
  · rintro ⟨h1, h2, h3⟩
    exact ⟨n.1, by rw [if_pos h1]; exact h2, by rw [← h3]⟩

/-- The message that ends with the query `k`, `x`. -/
noncomputable def message (T : Tab K X) (k : K) (x : X) : Option M := (S.path (S.nodes T) k x).bind S.decode

/-- The digest that the simulator wants for a new query. -/
noncomputable def wants (T : Tab K X) : Dir → K → X → Option M
  | .enc, k, x => S.message T k x
  | .dec, _, _ => none

/-- The random value `v` with the digest put in. -/
def patch (k : K) (x : X) (o : Option D) (v : X) : X := o.elim v fun t => (S.split k x).symm (t, (S.split k x v).2)

/-- The answer to a new query. -/
noncomputable def ans (F : M → D) (c : Dir × K × X → X) (T : Tab K X) (d : Dir) (k : K) (v : X) : X :=
  S.patch k v ((S.wants T d k v).map F) (c (d, k, v))

/-- The inner parts that occurred. -/
def seen (T : Tab K X) : List C := S.inner S.s0 :: T.flatMap fun e => [S.cin e.x, S.inner (S.out e.key e.x e.y)]

/-- The inner part that an answer brings. -/
def fresh (e : Entry K X) : C :=
  match e.dir with
  | .enc => S.inner (S.out e.key e.x e.y)
  | .dec => S.cin e.x

/-- No answer brings an inner part that occurred before, or is one that the permutation has given before. -/
def Good : Tab K X → Prop
  | [] => True
  | e :: T => Good T ∧ (S.fresh e ∉ S.seen T ∧ ¬ Known T (flip e.dir) e.key (e.other e.dir)) ∧ ¬ Known T e.dir e.key (e.side e.dir)

variable {S}

theorem good_cons {e : Entry K X} {T : Tab K X} : S.Good (e :: T) ↔ S.Good T ∧
    (S.fresh e ∉ S.seen T ∧ ¬ Known T (flip e.dir) e.key (e.other e.dir)) ∧ ¬ Known T e.dir e.key (e.side e.dir) := Iff.rfl

theorem good_suffix {T T' : Tab K X} (h : T <:+ T') (hg : S.Good T') : S.Good T := by
  obtain ⟨U, rfl⟩ := h
  induction U with
  | nil => exact hg
  | cons e U ih => exact ih (good_cons.1 hg).1

theorem length_seen (T : Tab K X) : (S.seen T).length = 2 * T.length + 1 := by
  unfold seen
  rw [List.length_cons]
  induction T with
  | nil => rfl
  | cons e T ih => rw [List.flatMap_cons, List.length_append, List.length_cons]; simp only [List.length_cons, List.length_nil]; omega

theorem seen_x {T : Tab K X} {e : Entry K X} (h : e ∈ T) : S.cin e.x ∈ S.seen T :=
  List.mem_cons_of_mem _ (List.mem_flatMap.2 ⟨e, h, List.mem_cons_self⟩)

theorem seen_y {T : Tab K X} {e : Entry K X} (h : e ∈ T) : S.inner (S.out e.key e.x e.y) ∈ S.seen T :=
  List.mem_cons_of_mem _ (List.mem_flatMap.2 ⟨e, h, List.mem_cons_of_mem _ List.mem_cons_self⟩)

theorem mem_seen {T : Tab K X} {c : C} (h : c ∈ S.seen T) :
    c = S.inner S.s0 ∨ ∃ e ∈ T, c = S.cin e.x ∨ c = S.inner (S.out e.key e.x e.y) := by
  rcases List.mem_cons.1 h with h | h
  · exact Or.inl h
  · obtain ⟨e, he, h⟩ := List.mem_flatMap.1 h
    simp only [List.mem_cons, List.not_mem_nil, or_false] at h
    exact Or.inr ⟨e, he, h⟩

theorem seen_cons {T : Tab K X} (e : Entry K X) {c : C} (h : c ∈ S.seen T) : c ∈ S.seen (e :: T) := by
  rcases List.mem_cons.1 h with h | h
  · exact h ▸ List.mem_cons_self
  · exact List.mem_cons_of_mem _ (by rw [List.flatMap_cons]; exact List.mem_append_right _ h)

theorem seen_node {T : Tab K X} {n : List B × V} (h : n ∈ S.nodes T) : S.inner n.2 ∈ S.seen T := by
  induction T with
  | nil =>
    rw [nodes, List.mem_singleton] at h
    rw [h]; exact List.mem_cons_self
  | cons e T ih =>
    rcases (S.mem_nodes_cons).1 h with ⟨_, _, h⟩ | h
    · rw [h]; exact seen_y List.mem_cons_self
    · exact seen_cons e (ih h)

theorem fresh_enc {e : Entry K X} (h : e.dir = .enc) : S.fresh e = S.inner (S.out e.key e.x e.y) := by
  unfold fresh; rw [h]

theorem fresh_dec {e : Entry K X} (h : e.dir = .dec) : S.fresh e = S.cin e.x := by
  unfold fresh; rw [h]

theorem nodes_inner {T : Tab K X} (hg : S.Good T) {n n' : List B × V} (h : n ∈ S.nodes T) (h' : n' ∈ S.nodes T)
    (hi : S.inner n.2 = S.inner n'.2) : n = n' := by
  induction T with
  | nil => rw [nodes, List.mem_singleton] at h h'; rw [h, h']
  | cons e T ih =>
    obtain ⟨g1, ⟨g2, _⟩, _⟩ := good_cons.1 hg
    rcases (S.mem_nodes_cons).1 h with ⟨a1, a2, a3⟩ | a <;> rcases (S.mem_nodes_cons).1 h' with ⟨b1, b2, b3⟩ | b
    · exact Prod.ext (Option.some.inj (a2.symm.trans b2)) (a3.trans b3.symm)
    · rw [fresh_enc a1] at g2
      exact absurd (by rw [← a3, hi]; exact seen_node b) g2
    · rw [fresh_enc b1] at g2
      exact absurd (by rw [← b3, ← hi]; exact seen_node a) g2
    · exact ih g1 a b

/-- The table from a chaining value that is reached: the next one is reached. -/
theorem node_step {T : Tab K X} (hg : S.Good T) {P : List B} {s : V} (hn : (P, s) ∈ S.nodes T) {b : B}
    (hd : S.diff s (S.key b) (S.add s b) = b) (hi : S.cin (S.add s b) = S.inner s) {e : Entry K X} (he : e ∈ T)
    (hk : e.key = S.key b) (hx : e.x = S.add s b) : (P ++ [b], S.out e.key e.x e.y) ∈ S.nodes T := by
  induction T with
  | nil => cases he
  | cons f T ih =>
    obtain ⟨g1, ⟨g2, _⟩, _⟩ := good_cons.1 hg
    rcases (S.mem_nodes_cons).1 hn with ⟨a1, a2, a3⟩ | a
    · exfalso
      rw [fresh_enc a1] at g2
      apply g2
      rw [← show s = S.out f.key f.x f.y from a3, ← hi, ← hx]
      rcases List.mem_cons.1 he with rfl | he
      · obtain ⟨n, hn', h1, _⟩ := S.path_some a2
        rw [← h1]
        exact seen_node hn'
      · exact seen_x he
    · rcases List.mem_cons.1 he with rfl | he
      · refine (S.mem_nodes_cons).2 (Or.inl ?_)
        cases hdir : e.dir with
        | dec =>
          exfalso
          rw [fresh_dec hdir] at g2
          apply g2
          rw [hx, hi]
          exact seen_node a
        | enc =>
          refine ⟨rfl, ?_, rfl⟩
          have hex : ∃ n, (S.nodes T).find? (fun n => @decide (S.inner n.2 = S.cin e.x) (Classical.propDecidable _)) = some n := by
            rw [← Option.isSome_iff_exists, List.find?_isSome]
            exact ⟨(P, s), a, by simp [hx, hi]⟩
          obtain ⟨n, hn'⟩ := hex
          have hs := List.find?_some hn'
          have hs' : S.inner n.2 = S.cin e.x := by simpa using hs
          have : n = (P, s) := nodes_inner g1 (List.mem_of_find?_eq_some hn') a (by rw [hs', hx, hi])
          unfold path
          rw [hn', Option.map_some, this, hk, hx, hd]
      · exact (S.mem_nodes_cons).2 (Or.inr (ih g1 a he))

theorem node_path {T : Tab K X} (hg : S.Good T) (P : List B)
    (hP : ∀ b ∈ P, ∀ s, S.diff s (S.key b) (S.add s b) = b ∧ (S.isOpen s → S.cin (S.add s b) = S.inner s))
    (ho : ∀ b ∈ P.dropLast, ∀ s y, S.isOpen (S.out (S.key b) (S.add s b) y)) :
    ∀ (P0 : List B) (s s' : V), S.isOpen s → (P0, s) ∈ S.nodes T → PathIn S.key S.add S.out T P s s' → (P0 ++ P, s') ∈ S.nodes T := by
  induction P with
  | nil =>
    intro P0 s s' _ hn hp
    rw [List.append_nil, ← show s = s' from hp]; exact hn
  | cons b P ih =>
    intro P0 s s' hs hn hp
    obtain ⟨e, he, hk, hx, hp⟩ := hp
    have hb := hP b List.mem_cons_self s
    have hn' := node_step hg hn hb.1 (hb.2 hs) he hk hx
    cases P with
    | nil =>
      rw [← show S.out e.key e.x e.y = s' from hp]
      exact hn'
    | cons b' P =>
      have := ih (fun c hc => hP c (List.mem_cons_of_mem _ hc))
        (fun c hc => ho c (by rw [List.dropLast_cons_cons]; exact List.mem_cons_of_mem _ hc)) (P0 ++ [b]) _ s'
        (by rw [hk, hx]; exact ho b (by rw [List.dropLast_cons_cons]; exact List.mem_cons_self) s e.y) hn' hp
      rwa [List.append_assoc] at this

theorem root_mem (T : Tab K X) : (([] : List B), S.s0) ∈ S.nodes T := by
  induction T with
  | nil => exact List.mem_cons_self
  | cons e T ih => exact (S.mem_nodes_cons).2 (Or.inr ih)

/-- A chaining value that is reached comes from a query to the one before. -/
theorem node_query {T : Tab K X} {P : List B} {y : V} (h : (P, y) ∈ S.nodes T) (h0 : P ≠ []) : ∃ e ∈ T, ∃ P' s b,
    P = P' ++ [b] ∧ (P', s) ∈ S.nodes T ∧ e.key = S.key b ∧ e.x = S.add s b := by
  induction T with
  | nil =>
    rw [nodes, List.mem_singleton] at h
    exact absurd (Prod.mk.inj h).1 h0
  | cons f T ih =>
    rcases (S.mem_nodes_cons).1 h with ⟨a1, a2, a3⟩ | a
    · obtain ⟨n, hn, h1, h2⟩ := S.path_some a2
      exact ⟨f, List.mem_cons_self, n.1, n.2, S.diff n.2 f.key f.x, h2, (S.mem_nodes_cons).2 (Or.inr hn),
        (S.key_diff _ _ _).symm, (S.add_diff _ _ _ h1.symm).symm⟩
    · obtain ⟨e, he, P', s, b, h1, h2, h3⟩ := ih a
      exact ⟨e, List.mem_cons_of_mem _ he, P', s, b, h1, (S.mem_nodes_cons).2 (Or.inr h2), h3⟩

/-- Blocks lead to one chaining value only. -/
theorem nodes_path {T : Tab K X} (hg : S.Good T) {P : List B} {s s' : V} (h : (P, s) ∈ S.nodes T) (h' : (P, s') ∈ S.nodes T) :
    s = s' := by
  have key : ∀ (T : Tab K X), S.Good T → ∀ (P : List B) (s s' : V), (P, s) ∈ S.nodes T → (P, s') ∈ S.nodes T → s = s' := by
    intro T
    induction T with
    | nil =>
      intro _ P s s' h h'
      rw [nodes, List.mem_singleton] at h h'
      exact (Prod.mk.inj h).2.trans (Prod.mk.inj h').2.symm
    | cons f T ih =>
      intro hg
      obtain ⟨g1, _, g3⟩ := good_cons.1 hg
      -- a new chaining value and an old one
      have new : ∀ (P : List B) (s' : V), f.dir = .enc → S.path (S.nodes T) f.key f.x = some P → (P, s') ∈ S.nodes T → False := by
        intro P s' a1 a2 b
        obtain ⟨n, hn, h1, h2⟩ := S.path_some a2
        obtain ⟨e, he, P', t, b', c1, c2, c3, c4⟩ := node_query b (by rw [h2]; simp)
        rw [h2] at c1
        obtain ⟨d1, d2⟩ := List.append_inj' c1 rfl
        have ht : n.2 = t := ih g1 n.1 n.2 t hn (by rw [d1]; exact c2)
        rw [a1] at g3
        apply g3
        refine ⟨e, he, ?_, ?_⟩
        · rw [c3, ← List.singleton_inj.1 d2, S.key_diff]
        · show e.x = f.x
          rw [c4, ← ht, ← List.singleton_inj.1 d2, S.add_diff _ _ _ h1.symm]
      intro P s s' h h'
      rcases (S.mem_nodes_cons).1 h with ⟨a1, a2, a3⟩ | a <;> rcases (S.mem_nodes_cons).1 h' with ⟨b1, b2, b3⟩ | b
      · exact a3.trans b3.symm
      · exact (new P s' a1 a2 b).elim
      · exact (new P s b1 b2 a).elim
      · exact ih g1 P s s' a b
  exact key T hg P s s' h h'

/-- The answers of the table are those of the simulator. -/
def Agr (S : Shape K X V B C D W M) (F : M → D) (c : Dir × K × X → X) : Tab K X → Prop
  | [] => True
  | e :: T => Agr S F c T ∧ S.ans F c T e.dir e.key (e.side e.dir) = e.other e.dir

theorem agr_cons_entry {F : M → D} {c : Dir × K × X → X} {T : Tab K X} {d : Dir} {k : K} {v a : X} :
    Agr S F c (entry d k v a :: T) ↔ Agr S F c T ∧ S.ans F c T d k v = a := by
  cases d <;> rfl

theorem agr_run (F : M → D) (c : Dir × K × X → X) (A : Attacker K X R) : ∀ T, Agr S F c T → Agr S F c (simRun (S.ans F c) A T).2 := by
  induction A with
  | done r => intro T h; exact h
  | ask d k v next ih =>
    intro T hT
    cases h : look T d k v with
    | some a => rw [simRun_known h]; exact ih a T hT
    | none => rw [simRun_fresh h]; exact ih _ _ (agr_cons_entry.2 ⟨hT, rfl⟩)

/-- The chaining value that a message reaches carries its digest. -/
theorem node_digest {F : M → D} {c : Dir × K × X → X} {T : Tab K X} (ha : Agr S F c T) {m : M} {y : V}
    (h : (S.pad m, y) ∈ S.nodes T) : S.digest y = F m := by
  induction T with
  | nil =>
    rw [nodes, List.mem_singleton] at h
    exact absurd (Prod.mk.inj h).1 (S.pad_ne_nil m)
  | cons e T ih =>
    rcases (S.mem_nodes_cons).1 h with ⟨a1, a2, a3⟩ | a
    · have h1 := ha.2
      rw [a1] at h1
      change S.patch e.key e.x ((S.message T e.key e.x).map F) _ = e.y at h1
      rw [message, a2, Option.bind_some, S.decode_pad, Option.map_some] at h1
      rw [show y = S.out e.key e.x e.y from a3, S.digest_out, ← h1]
      show (S.split e.key e.x ((S.split e.key e.x).symm _)).1 = _
      rw [Equiv.apply_symm_apply]
    · exact ih ha.1 a

/-- The chaining value after the blocks, over a cipher. -/
def absorbed (S : Shape K X V B C D W M) (E : Cipher K X) (P : List B) : V :=
  P.foldl (fun s b => S.out (S.key b) (S.add s b) (E (S.key b) (S.add s b))) S.s0

theorem path_absorbed {E : Cipher K X} {T : Tab K X} (hE : Agrees E T) (P : List B) : ∀ s s', PathIn S.key S.add S.out T P s s' →
    s' = P.foldl (fun s b => S.out (S.key b) (S.add s b) (E (S.key b) (S.add s b))) s := by
  induction P with
  | nil => intro s s' h; exact h.symm
  | cons b P ih =>
    intro s s' h
    obtain ⟨e, he, hk, hx, hp⟩ := h
    rw [List.foldl_cons, ih _ _ hp]
    have := hE e he
    rw [hk, hx] at this
    rw [hk, hx, ← this]

/-- A cipher that agrees with a good table gives the digests of the random oracle. -/
theorem digest_eq {F : M → D} {c : Dir × K × X → X} {T : Tab K X} (hg : S.Good T) (ha : Agr S F c T) {E : Cipher K X}
    (hE : Agrees E T) {m : M} {s' : V} (hp : PathIn S.key S.add S.out T (S.pad m) S.s0 s') :
    S.digest (S.absorbed E (S.pad m)) = F m := by
  rw [absorbed, ← path_absorbed hE _ _ _ hp]
  exact node_digest ha (by
    have := node_path hg (S.pad m) (fun b hb s => ⟨S.diff_add s m b hb, S.cin_add s m b hb⟩) (fun b hb s y => S.open_out s m b y hb)
      [] S.s0 s' S.open_s0 (root_mem T) hp
    rwa [List.nil_append] at this)

end Shape

end Verif.Ideal
