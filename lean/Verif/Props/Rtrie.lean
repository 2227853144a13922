import Verif.Lemmas.RtrieRmSpec
/-
C08, C09: the radix trie behaves like a finite map from prefixes to values with longest-prefix lookup, and never touches
freed memory, during every history that adds prefixes from the outside in.

The full claim (every history) is false: `Verif.Props.RtrieDefects` has the counterexamples. `Allowed` is what has to be
assumed, in terms of the contents of the table.
-/
namespace Jool.Rtrie
variable {V : Type}

/-! ## The specification -/

/-- What the trie stands for. -/
abbrev Table (V : Type) := Key → Option V

/-- The answer to a lookup: the value of the longest stored prefix of the key. -/
def IsLongest (S : Table V) (key : Key) (r : Option V) : Prop :=
  (r = none ∧ ∀ k, k <+: key → S k = none) ∨
  (∃ k v, r = some v ∧ k <+: key ∧ S k = some v ∧ ∀ k', k' <+: key → S k' ≠ none → k'.length ≤ k.length)

/-- The requests. The booleans tell whether the allocations (value node, inner node) would succeed. -/
inductive Op (V : Type)
  | add (leafOk inodeOk : Bool) (key : Key) (v : V)
  | rm (inodeOk : Bool) (key : Key)
  | flush

def put (S : Table V) (key : Key) (x : Option V) : Table V := fun k => if k = key then x else S k

/-- The stored prefixes strictly inside of `key` are all inside of one another. -/
def Nested (S : Table V) (key : Key) : Prop :=
  ∀ k k', S k ≠ none → S k' ≠ none → key <+: k → key <+: k' → k ≠ key → k' ≠ key → k <+: k' ∨ k' <+: k

/-- What a request may answer, and what it does to the table. -/
inductive Spec (S : Table V) : Op V → Code → Table V → Prop
  | added (lo io key v) : lo = true → S key = none → Spec S (.add lo io key v) .ok (put S key (some v))
  | exist (lo io key v) : lo = true → S key ≠ none → Spec S (.add lo io key v) .eexist S
  | addNoMem (lo io key v) : lo = false ∨ (io = false ∧ S key = none) → Spec S (.add lo io key v) .enomem S
  | removed (io key) : S key ≠ none → Spec S (.rm io key) .ok (put S key none)
  | srch (io key) : S key = none → Spec S (.rm io key) .esrch S
  | rmNoMem (io key) : io = false → S key ≠ none → ¬ Nested S key → Spec S (.rm io key) .enomem S
  | flushed : Spec S .flush .ok (fun _ => none)

/-- The requests that the trie can take. Nothing stored may be inside of a prefix that is added. What is inside of a
prefix that is removed has to be nested, unless everything is inside of it (or there is no such prefix to remove). -/
def Allowed (S : Table V) : Op V → Prop
  | .add _ _ key _ => ∀ k, S k ≠ none → key <+: k → k = key
  | .rm _ key =>
    S key = none ∨ Nested S key ∨
    (∀ k, S k ≠ none → key <+: k)
  | .flush => True

/-! ## The model -/

def step (t : Trie V) : Op V → Outcome (Trie V × Code)
  | .add lo io key v => add t lo io key v
  | .rm io key => rm t io key
  | .flush => .ok (flush t, .ok)

/-- A history: the codes that were answered, and the final state. -/
def run (t : Trie V) : List (Op V) → Outcome (Trie V × List Code)
  | [] => .ok (t, [])
  | o :: os => (step t o).bind (fun p => (run p.1 os).map (fun q => (q.1, p.2 :: q.2)))

/-- The histories of the specification. -/
inductive Hist : Table V → List (Op V) → List Code → Table V → Prop
  | nil (S) : Hist S [] [] S
  | cons {S S' S'' o os c cs} : Spec S o c S' → Hist S' os cs S'' → Hist S (o :: os) (c :: cs) S''

/-- A history all of whose requests are `Allowed`, whichever the answers. -/
def AllAllowed (S : Table V) : List (Op V) → Prop
  | [] => True
  | o :: os => Allowed S o ∧ ∀ c S', Spec S o c S' → AllAllowed S' os

/-! ## The refinement -/

/-- The trie is healthy and stands for the table. -/
def Repr (t : Trie V) (S : Table V) : Prop := Inv t ∧ ∀ k v, Stored t k v ↔ S k = some v

theorem repr_init : Repr (init : Trie V) (fun _ => none) := by
  refine ⟨inv_init, ?_⟩
  intro k v
  constructor
  · rintro ⟨a, h, _⟩; simp [fW, init] at h
  · intro h; simp at h

/-- Below every node there is a stored prefix. -/
theorem white_below {t : Trie V} (hi : Inv t) {a : Nat} {n : Node V} (ha : t.heap a = some n) :
    ∃ x nx, t.heap x = some nx ∧ nx.white = true ∧ Le n.key nx.key := by
  have hb : ∃ M, ∀ x nx, t.heap x = some nx → nx.key.length ≤ M := by
    have : ∀ l : List Nat, ∃ M, ∀ x ∈ l, ∀ nx, t.heap x = some nx → nx.key.length ≤ M := by
      intro l
      induction l with
      | nil => exact ⟨0, by simp⟩
      | cons y l ih =>
        obtain ⟨M, hM⟩ := ih
        cases hy : t.heap y with
        | none =>
          refine ⟨M, fun x hx nx hnx => ?_⟩
          rcases List.mem_cons.1 hx with rfl | hx
          · rw [hy] at hnx; simp at hnx
          · exact hM x hx nx hnx
        | some ny =>
          refine ⟨max M ny.key.length, fun x hx nx hnx => ?_⟩
          rcases List.mem_cons.1 hx with rfl | hx
          · rw [hy] at hnx; injection hnx with hnx; subst hnx; omega
          · have := hM x hx nx hnx; omega
    obtain ⟨M, hM⟩ := this t.list
    exact ⟨M, fun x nx hx => hM x ((hi.list x).2 ⟨nx, hx⟩) nx hx⟩
  obtain ⟨M, hM⟩ := hb
  generalize hd : M - n.key.length = d
  induction d using Nat.strongRecOn generalizing a n with
  | ind d ih =>
    cases hw : n.white with
    | true => exact ⟨a, n, ha, hw, Le.refl _⟩
    | false =>
      obtain ⟨⟨l, hl⟩, _⟩ := hi.black a n ha hw
      obtain ⟨m, hm, _, hlt⟩ := hi.left a n l ha hl
      have h1 := hlt.length
      have h2 := hM l m hm
      obtain ⟨x, nx, k1, k2, k3⟩ := ih (M - m.key.length) (by omega) hm rfl
      exact ⟨x, nx, k1, k2, hlt.le.trans k3⟩

theorem node_stored {t : Trie V} {S : Table V} (hr : Repr t S) {x : Nat} {nx : Node V} (hx : t.heap x = some nx)
    (hw : nx.white = true) : S nx.key ≠ none ∧ nx.val = S nx.key := by
  obtain ⟨v, hv⟩ := (hr.1.val x nx hx).1 hw
  have := (hr.2 nx.key v).1 ⟨x, by simp [fW, hx, hw], by simp [fK, hx], by simp [fV, hx, hv]⟩
  rw [this, hv]; simp

theorem stored_none {t : Trie V} {S : Table V} (hr : Repr t S) {key : Key} :
    (∀ w, ¬ Stored t key w) ↔ S key = none := by
  constructor
  · intro h
    cases hs : S key with
    | none => rfl
    | some v => exact absurd ((hr.2 key v).2 hs) (h v)
  · intro h w hw
    rw [(hr.2 key w).1 hw] at h; simp at h

theorem stored_some {t : Trie V} {S : Table V} (hr : Repr t S) {key : Key} {w : V} (h : Stored t key w) :
    S key ≠ none := by rw [(hr.2 key w).1 h]; simp

theorem calmAdd_of {t : Trie V} {S : Table V} (hr : Repr t S) {key : Key}
    (h : ∀ k, S k ≠ none → key <+: k → k = key) : CalmAdd t key := by
  intro b m hb hle hch
  have child : ∀ c, (m.left = some c ∨ m.right = some c) → ¬ Le key (fK t.heap c) := by
    intro c hc hkc
    have : ∃ mc, t.heap c = some mc := by
      rcases hc with hc | hc
      · obtain ⟨mc, h, _⟩ := hr.1.left b m c hb hc; exact ⟨mc, h⟩
      · obtain ⟨mc, h, _⟩ := hr.1.right b m c hb hc; exact ⟨mc, h⟩
    obtain ⟨mc, hmc⟩ := this
    have hkc' : Le key mc.key := by simpa [fK, hmc] using hkc
    obtain ⟨x, nx, k1, k2, k3⟩ := white_below hr.1 hmc
    have := h nx.key (node_stored hr k1 k2).1 (hkc'.trans k3)
    exact hch c mc hc hmc (this ▸ k3)
  refine ⟨?_, ?_, ?_, ?_⟩
  · intro hw he
    obtain ⟨x, nx, k1, k2, k3⟩ := white_below hr.1 hb
    have := h nx.key (node_stored hr k1 k2).1 (he ▸ k3)
    have := key_inj hr.1 k1 hb (this.trans he.symm)
    subst this
    rw [k1] at hb; injection hb with hb; subst hb
    rw [k2] at hw; simp at hw
  · intro _ l r hl hr' hh; exact child l (.inl hl) hh.1
  · intro _ _ r hr'; exact child r (.inr hr')
  · intro _ _ l hl; exact child l (.inl hl)

/-- A node with two children has two stored prefixes below, none inside of the other. -/
theorem not_nested {t : Trie V} {S : Table V} (hr : Repr t S) {key : Key} {a l r : Nat} {n : Node V}
    (ha : t.heap a = some n) (he : n.key = key) (hl : n.left = some l) (hr' : n.right = some r) :
    ¬ Nested S key := by
  intro h
  have hi := hr.1
  obtain ⟨ln, hln, hlp, hlk⟩ := hi.left a n l ha hl
  obtain ⟨rn, hrn, hrp, hrk⟩ := hi.right a n r ha hr'
  obtain ⟨s1, s2⟩ := hi.sib a n l r ln rn ha hl hr' hln hrn
  obtain ⟨x, nx, x1, x2, x3⟩ := white_below hi hln
  obtain ⟨y, ny, y1, y2, y3⟩ := white_below hi hrn
  have hx := hlk.trans_le x3
  have hy := hrk.trans_le y3
  rw [he] at hx hy
  rcases h nx.key ny.key (node_stored hr x1 x2).1 (node_stored hr y1 y2).1 hx.le hy.le (fun e => hx.ne e.symm)
    (fun e => hy.ne e.symm) with h | h
  · rcases (x3.trans h).total y3 with h | h
    · exact s1 h
    · exact s2 h
  · rcases (y3.trans h).total x3 with h | h
    · exact s2 h
    · exact s1 h

theorem calmRm_of {t : Trie V} {S : Table V} (hr : Repr t S) {key : Key}
    (h : S key = none ∨ Nested S key ∨ (∀ k, S k ≠ none → key <+: k)) : CalmRm t key := by
  intro a n l r ha hw he hl hr'
  have hi := hr.1
  rcases h with h | h | h
  · exact absurd (he ▸ h) (node_stored hr ha hw).1
  · exact absurd h (not_nested hr ha he hl hr')
  · cases hp : n.parent with
    | none => rfl
    | some p =>
      exfalso
      obtain ⟨pn, hpn, hside⟩ := hi.up a n p ha hp
      have hlt := parent_lt hi ha hp hpn
      cases hpw : pn.white with
      | true =>
        have := h pn.key (node_stored hr hpn hpw).1
        rw [← he] at this
        exact hlt.not_le this
      | false =>
        obtain ⟨⟨u, hu⟩, ⟨w, hw'⟩⟩ := hi.black p pn hpn hpw
        obtain ⟨un, hun, _, _⟩ := hi.left p pn u hpn hu
        obtain ⟨wn, hwn, _, _⟩ := hi.right p pn w hpn hw'
        obtain ⟨q1, q2⟩ := hi.sib p pn u w un wn hpn hu hw' hun hwn
        -- the sibling has something stored, which would be inside of both
        have key : ∀ s sn, t.heap s = some sn → ¬ Le n.key sn.key → ¬ Le sn.key n.key → False := by
          intro s sn hs e1 e2
          obtain ⟨x, nx, x1, x2, x3⟩ := white_below hi hs
          have := h nx.key (node_stored hr x1 x2).1
          rw [← he] at this
          rcases Le.total this x3 with h | h
          · exact e1 h
          · exact e2 h
        rcases hside with hs | hs
        · rw [hu] at hs; injection hs with hs; subst hs
          rw [ha] at hun; injection hun with hun; subst hun
          exact key w wn hwn q1 q2
        · rw [hw'] at hs; injection hs with hs; subst hs
          rw [ha] at hwn; injection hwn with hwn; subst hwn
          exact key u un hun q2 q1

/-! ## Property theorems -/

theorem flush_repr {t : Trie V} {S : Table V} (hr : Repr t S) : Repr (flush t) (fun _ => none) := by
  have hi := hr.1
  have hdead : ∀ x, (flush t).heap x = none := by
    intro x
    unfold flush
    cases hroot : t.root with
    | none =>
      dsimp only
      cases hx : t.heap x with
      | none => rfl
      | some n =>
        obtain ⟨r, h, _⟩ := anc_root hi hx
        rw [hroot] at h; simp at h
    | some r =>
      dsimp only
      split
      · rfl
      · rename_i h
        cases hx : t.heap x with
        | none => rfl
        | some n => exact absurd ((hi.list x).2 ⟨n, hx⟩) h
  have hroot : (flush t).root = none := by
    unfold flush; cases hroot : t.root with
    | none => exact hroot
    | some r => rfl
  have hlist : (flush t).list = [] := by
    unfold flush; cases hroot : t.root with
    | none =>
      dsimp only
      cases hl : t.list with
      | nil => rfl
      | cons x l =>
        obtain ⟨n, hn⟩ := (hi.list x).1 (by simp [hl])
        obtain ⟨r, h, _⟩ := anc_root hi hn
        rw [hroot] at h; simp at h
    | some r => rfl
  refine ⟨?_, ?_⟩
  · constructor <;> simp [hdead, hroot, hlist]
  · intro k v
    constructor
    · rintro ⟨a, h, _⟩; simp [fW, hdead] at h
    · intro h; simp at h

/-- C08, C09: one request. It is answered as the specification says, without touching freed memory, and the trie stays
healthy. -/
theorem step_refines {t : Trie V} {S : Table V} (hr : Repr t S) (o : Op V) (ha : Allowed S o) :
    ∃ t' c S', step t o = .ok (t', c) ∧ Spec S o c S' ∧ Repr t' S' := by
  cases o with
  | add lo io key v =>
    obtain ⟨t', c, h1, h2⟩ := add_spec hr.1 lo io key v (calmAdd_of hr ha)
    refine ⟨t', c, ?_⟩
    cases h2 with
    | ok k1 k2 k3 k4 k5 =>
      refine ⟨_, h1, .added lo io key v k1 ((stored_none hr).1 k4), k2, ?_⟩
      intro k w
      rw [k3 k w, hr.2 k w]
      have hn := (stored_none hr).1 k4
      unfold put
      by_cases hk : k = key
      · subst hk; rw [if_pos rfl, hn]; simp [eq_comm]
      · rw [if_neg hk]; simp [hk]
    | exist w k1 k2 k3 =>
      refine ⟨_, h1, .exist lo io key v k1 (stored_some hr k3), ?_⟩
      subst k2
      exact ⟨{ hr.1 with fresh := fun a h => hr.1.fresh a (by dsimp only at h; omega) }, hr.2⟩
    | nomem f l k1 k2 k3 k4 k5 =>
      refine ⟨_, h1, .addNoMem lo io key v ?_, ?_⟩
      · rcases k2 with k2 | k2
        · rcases k1 with k1 | k1
          · exact .inl k1
          · exact .inr ⟨k1, (stored_none hr).1 k2⟩
        · exact .inl k2
      · subst k3
        exact ⟨{ hr.1 with fresh := fun a h => hr.1.fresh a (by dsimp only at h; omega) }, hr.2⟩
  | rm io key =>
    obtain ⟨t', c, h1, h2⟩ := rm_spec hr.1 io key (calmRm_of hr ha)
    refine ⟨t', c, ?_⟩
    cases h2 with
    | ok w k1 k2 k3 k4 =>
      refine ⟨_, h1, .removed io key (stored_some hr k3), k1, ?_⟩
      intro k w
      rw [k2 k w, hr.2 k w]
      unfold put
      by_cases hk : k = key
      · simp [hk]
      · simp [hk]
    | srch k1 => exact ⟨_, h1, .srch io key ((stored_none hr).1 k1), hr⟩
    | nomem w k1 k2 k3 =>
      obtain ⟨a, n, l, r, n1, n2, n3, n4⟩ := k3
      exact ⟨_, h1, .rmNoMem io key k1 (stored_some hr k2) (not_nested hr n1 n2 n3 n4), hr⟩
  | flush => exact ⟨_, _, _, rfl, .flushed, flush_repr hr⟩

/-- C08: in a healthy trie, a lookup yields the longest stored prefix of the key. -/
theorem find_longest {t : Trie V} {S : Table V} (hr : Repr t S) (key : Key) :
    ∃ r, find t key = .ok r ∧ IsLongest S key r := by
  unfold find
  rcases findWhite_spec hr.1 key with ⟨h1, h2⟩ | ⟨w, nw, h1, h2, h3, h4, h5⟩
  · rw [h1]
    refine ⟨none, rfl, .inl ⟨rfl, fun k hk => (stored_none hr).1 ?_⟩⟩
    intro w hw
    obtain ⟨x, nx, k1, k2, k3, _⟩ := stored_node hr.1 hw
    have := h2 x nx k1 (k2 ▸ hk)
    rw [k3] at this; simp at this
  · rw [h1]
    simp only [Outcome.bind, deref_eq h2, Outcome.map]
    obtain ⟨hs, hv⟩ := node_stored hr h2 h3
    obtain ⟨v, hv'⟩ := Option.ne_none_iff_exists'.1 hs
    refine ⟨_, rfl, .inr ⟨nw.key, v, hv.trans hv', h4, hv', ?_⟩⟩
    intro k' hk' hs'
    obtain ⟨v', hv''⟩ := Option.ne_none_iff_exists'.1 hs'
    obtain ⟨x, nx, k1, k2, k3, _⟩ := stored_node hr.1 ((hr.2 k' v').2 hv'')
    rcases h5 x nx k1 (k2 ▸ hk') k3 with rfl | h
    · rw [h2] at k1; injection k1 with k1; rw [k1, k2]; exact Nat.le_refl _
    · rw [k2] at h; exact Nat.le_of_lt h.length

theorem trieContains_spec {t : Trie V} {S : Table V} (hr : Repr t S) (key : Key) :
    ∃ b, trieContains t key = .ok b ∧ (b = true ↔ ∃ k, k <+: key ∧ S k ≠ none) := by
  unfold trieContains
  rcases findWhite_spec hr.1 key with ⟨h1, h2⟩ | ⟨w, nw, h1, h2, h3, h4, h5⟩
  · rw [h1]
    refine ⟨false, rfl, by simp, ?_⟩
    rintro ⟨k, hk, hs⟩
    obtain ⟨v', hv''⟩ := Option.ne_none_iff_exists'.1 hs
    obtain ⟨x, nx, k1, k2, k3, _⟩ := stored_node hr.1 ((hr.2 k v').2 hv'')
    have := h2 x nx k1 (k2 ▸ hk)
    rw [k3] at this; simp at this
  · rw [h1]
    exact ⟨true, rfl, fun _ => ⟨nw.key, h4, (node_stored hr h2 h3).1⟩, fun _ => rfl⟩

/-- C08, C09 (partial: histories that are `AllAllowed`): every history runs without touching freed memory or hanging,
answers what a map from prefixes to values answers, and ends in a state where every lookup is the longest match. -/
theorem trie_refines_partial (os : List (Op V)) {t : Trie V} {S : Table V} (hr : Repr t S) (ha : AllAllowed S os) :
    ∃ t' cs S', run t os = .ok (t', cs) ∧ Hist S os cs S' ∧ Repr t' S' ∧
      ∀ key, ∃ r, find t' key = .ok r ∧ IsLongest S' key r := by
  induction os generalizing t S with
  | nil => exact ⟨t, [], S, rfl, .nil S, hr, find_longest hr⟩
  | cons o os ih =>
    obtain ⟨h1, h2⟩ := ha
    obtain ⟨t', c, S', k1, k2, k3⟩ := step_refines hr o h1
    obtain ⟨t'', cs, S'', j1, j2, j3⟩ := ih k3 (h2 c S' k2)
    exact ⟨t'', c :: cs, S'', by simp [run, k1, j1, Outcome.bind, Outcome.map], .cons k2 j2, j3⟩

/-- C08, C09 (partial): from the empty trie. -/
theorem trie_history_partial (os : List (Op V)) (ha : AllAllowed (fun _ => none) os) :
    ∃ t' cs S', run (init : Trie V) os = .ok (t', cs) ∧ Hist (fun _ => none) os cs S' ∧ Repr t' S' ∧
      ∀ key, ∃ r, find t' key = .ok r ∧ IsLongest S' key r :=
  trie_refines_partial os repr_init ha

/-! ## Non-overlapping tables -/

/-- The keys that a history adds. -/
def addedKeys : List (Op V) → List Key
  | [] => []
  | .add _ _ k _ :: os => k :: addedKeys os
  | _ :: os => addedKeys os

/-- Two keys are the same, or none contains the other. -/
def Apart (a b : Key) : Prop := a = b ∨ (¬ a <+: b ∧ ¬ b <+: a)

/-- A history that only ever adds prefixes that do not overlap, in any order and with any removals and flushes in
between, is `AllAllowed`. -/
theorem disjoint_allowed (os : List (Op V)) (D : Key → Prop) (hD : ∀ a b, D a → D b → Apart a b)
    (hk : ∀ k ∈ addedKeys os, D k) (S : Table V) (hS : ∀ k, S k ≠ none → D k) : AllAllowed S os := by
  induction os generalizing S with
  | nil => trivial
  | cons o os ih =>
    refine ⟨?_, ?_⟩
    · cases o with
      | add lo io key v =>
        intro k hs hle
        rcases hD key k (hk key (by simp [addedKeys])) (hS k hs) with h | h
        · exact h.symm
        · exact absurd hle h.1
      | rm io key =>
        cases hs : S key with
        | none => exact .inl hs
        | some v =>
          right; left
          intro k k' hk1 hk2 h1 h2 n1 n2
          rcases hD key k (hS key (by simp [hs])) (hS k hk1) with h | h
          · exact absurd h.symm n1
          · exact absurd h1 h.1
      | flush => trivial
    · intro c S' hsp
      apply ih
      · intro k hk'
        apply hk
        cases o <;> simp [addedKeys, hk']
      · intro k hs
        cases hsp with
        | added lo io key v h1 h2 =>
          unfold put at hs
          split at hs
          · rename_i h; subst h; exact hk _ (by simp [addedKeys])
          · exact hS k hs
        | removed io key h1 =>
          unfold put at hs
          split at hs
          · simp at hs
          · exact hS k hs
        | flushed => simp at hs
        | _ => exact hS k hs

/-- C08, C09: tables without overlaps. Every history works. -/
theorem disjoint_history (os : List (Op V)) (hD : ∀ a ∈ addedKeys os, ∀ b ∈ addedKeys os, Apart a b) :
    ∃ t' cs S', run (init : Trie V) os = .ok (t', cs) ∧ Hist (fun _ => none) os cs S' ∧ Repr t' S' ∧
      ∀ key, ∃ r, find t' key = .ok r ∧ IsLongest S' key r :=
  trie_history_partial os (disjoint_allowed os (· ∈ addedKeys os) (fun a b ha hb => hD a ha b hb) (fun _ h => h) _
    (by simp))

/-! ## Memory accounting -/

/-- How many of the answers are "no memory". -/
def noMem (cs : List Code) : Nat := cs.countP (fun c => c == .enomem)

/-- C09 (partial): nothing is leaked, save for at most one node for each addition that ran out of memory. -/
theorem no_leak_partial (os : List (Op V)) {t : Trie V} {S : Table V} (hr : Repr t S) (ha : AllAllowed S os) :
    ∃ t' cs, run t os = .ok (t', cs) ∧ t.leaked ≤ t'.leaked ∧ t'.leaked ≤ t.leaked + noMem cs := by
  induction os generalizing t S with
  | nil => exact ⟨t, [], rfl, Nat.le_refl _, by simp [noMem]⟩
  | cons o os ih =>
    obtain ⟨h1, h2⟩ := ha
    obtain ⟨t', c, S', k1, k2, k3⟩ := step_refines hr o h1
    obtain ⟨t'', cs, j1, j2, j3⟩ := ih k3 (h2 c S' k2)
    refine ⟨t'', c :: cs, by simp [run, k1, j1, Outcome.bind, Outcome.map], ?_⟩
    have hone : t.leaked ≤ t'.leaked ∧ t'.leaked ≤ t.leaked + (if c = .enomem then 1 else 0) := by
      cases o with
      | add lo io key v =>
        obtain ⟨u, d, e1, e2⟩ := add_spec hr.1 lo io key v (calmAdd_of hr h1)
        simp only [step] at k1
        rw [k1] at e1
        injection e1 with e1; injection e1 with e1 e3; subst e1; subst e3
        cases e2 with
        | ok _ _ _ _ h => omega
        | exist _ _ h => subst h; simp
        | nomem f l _ _ h _ h' => subst h; dsimp only; simp; omega
      | rm io key =>
        obtain ⟨u, d, e1, e2⟩ := rm_spec hr.1 io key (calmRm_of hr h1)
        simp only [step] at k1
        rw [k1] at e1
        injection e1 with e1; injection e1 with e1 e3; subst e1; subst e3
        cases e2 with
        | ok _ _ _ _ h => omega
        | srch => simp
        | nomem => simp
      | flush =>
        simp only [step, Outcome.ok.injEq, Prod.mk.injEq] at k1
        obtain ⟨rfl, rfl⟩ := k1
        have : (flush t).leaked = t.leaked := by unfold flush; split <;> rfl
        rw [this]; simp
    have hcount : noMem (c :: cs) = noMem cs + (if c = .enomem then 1 else 0) := by
      unfold noMem; rw [List.countP_cons]; simp
    rw [hcount]
    omega

end Jool.Rtrie
