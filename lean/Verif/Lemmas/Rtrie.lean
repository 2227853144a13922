import Verif.Model.Rtrie
/-
Pointer-level facts about the radix trie: the invariant, and what the search finds in a trie that satisfies it.
-/
namespace Jool.Rtrie
variable {V : Type}

/-! ## Keys -/

/-- `a` is a prefix of `b`. -/
def Le (a b : Key) : Prop := a <+: b
def Lt (a b : Key) : Prop := a <+: b ∧ a ≠ b

theorem Le.refl (a : Key) : Le a a := List.prefix_refl a
theorem Le.trans {a b c : Key} (h : Le a b) (h' : Le b c) : Le a c := List.IsPrefix.trans h h'
theorem Le.antisymm {a b : Key} (h : Le a b) (h' : Le b a) : a = b :=
  h.eq_of_length (Nat.le_antisymm h.length_le h'.length_le)
theorem Le.total {a b c : Key} (h : Le a c) (h' : Le b c) : Le a b ∨ Le b a := List.prefix_or_prefix_of_prefix h h'
theorem Lt.le {a b : Key} (h : Lt a b) : Le a b := h.1
theorem Lt.ne {a b : Key} (h : Lt a b) : a ≠ b := h.2
theorem Lt.not_le {a b : Key} (h : Lt a b) : ¬ Le b a := fun h' => h.2 (Le.antisymm h.1 h')
theorem lt_of {a b : Key} (h : Le a b) (h' : a ≠ b) : Lt a b := ⟨h, h'⟩
theorem Lt.trans_le {a b c : Key} (h : Lt a b) (h' : Le b c) : Lt a c :=
  ⟨Le.trans h.1 h', fun e => h.not_le (e ▸ h')⟩
theorem Le.trans_lt {a b c : Key} (h : Le a b) (h' : Lt b c) : Lt a c :=
  ⟨Le.trans h h'.1, fun e => h'.not_le (e ▸ h)⟩
theorem Lt.length {a b : Key} (h : Lt a b) : a.length < b.length := by
  have h1 := h.1.length_le
  rcases Nat.lt_or_ge a.length b.length with h2 | h2
  · exact h2
  · exact absurd (h.1.eq_of_length (Nat.le_antisymm h1 h2)) h.2

theorem lcp_le_left (a b : Key) : lcp a b ≤ a.length := by
  induction a generalizing b with
  | nil => simp [lcp]
  | cons x a ih =>
    cases b with
    | nil => simp [lcp]
    | cons y b =>
      rw [lcp]
      have := ih b
      split <;> simp <;> omega

theorem lcp_comm (a b : Key) : lcp a b = lcp b a := by
  induction a generalizing b with
  | nil => cases b <;> rfl
  | cons x a ih =>
    cases b with
    | nil => rfl
    | cons y b =>
      rw [lcp, lcp, ih b]
      by_cases h : x = y
      · rw [if_pos h, if_pos h.symm]
      · rw [if_neg h, if_neg (fun e => h e.symm)]

theorem lcp_le_right (a b : Key) : lcp a b ≤ b.length := lcp_comm a b ▸ lcp_le_left b a

/-- A common prefix is not longer than `lcp`, and the first `lcp` bits are one. -/
theorem take_prefix_iff (a b : Key) (m : Nat) (hm : m ≤ a.length) : Le (a.take m) b ↔ m ≤ lcp a b := by
  induction a generalizing b m with
  | nil =>
    have : m = 0 := by simpa using hm
    subst this
    simp [Le, lcp]
  | cons x a ih =>
    cases m with
    | zero => simp [Le]
    | succ m =>
      cases b with
      | nil => simp [Le, lcp]
      | cons y b =>
        have := ih b m (by simpa using hm)
        rw [lcp, List.take_succ_cons]
        unfold Le at *
        rw [List.cons_prefix_cons, this]
        by_cases h : x = y
        · simp [h]
        · simp [h]

theorem le_iff_lcp (a b : Key) : Le a b ↔ lcp a b = a.length := by
  have h := take_prefix_iff a b a.length (Nat.le_refl _)
  rw [List.take_length] at h
  rw [h]
  have := lcp_le_left a b
  omega

theorem contains_iff (a b : Key) : contains a b = true ↔ Le a b := by
  unfold contains
  split
  · rw [beq_iff_eq, le_iff_lcp]
  · rename_i h
    simp only [Bool.false_eq_true, false_iff]
    intro h'
    exact h h'.length_le

theorem equals_iff (a b : Key) : equals a b = true ↔ a = b := by
  unfold equals
  split
  · rename_i h
    rw [beq_iff_eq, ← le_iff_lcp]
    exact ⟨fun h' => h'.eq_of_length h, fun e => e ▸ Le.refl a⟩
  · rename_i h
    simp only [Bool.false_eq_true, false_iff]
    exact fun e => h (e ▸ rfl)

/-! ## The invariant -/

/-- Everything that holds between the nodes of a healthy trie. -/
structure Inv (t : Trie V) : Prop where
  fresh : ∀ a, t.fresh ≤ a → t.heap a = none
  root : ∀ a, t.root = some a → ∃ n, t.heap a = some n ∧ n.parent = none
  only : ∀ a n, t.heap a = some n → n.parent = none → t.root = some a
  left : ∀ a n c, t.heap a = some n → n.left = some c →
    ∃ m, t.heap c = some m ∧ m.parent = some a ∧ Lt n.key m.key
  right : ∀ a n c, t.heap a = some n → n.right = some c →
    ∃ m, t.heap c = some m ∧ m.parent = some a ∧ Lt n.key m.key
  up : ∀ a n p, t.heap a = some n → n.parent = some p →
    ∃ m, t.heap p = some m ∧ (m.left = some a ∨ m.right = some a)
  sib : ∀ a n l r ml mr, t.heap a = some n → n.left = some l → n.right = some r → t.heap l = some ml →
    t.heap r = some mr → ¬ Le ml.key mr.key ∧ ¬ Le mr.key ml.key
  black : ∀ a n, t.heap a = some n → n.white = false → (∃ l, n.left = some l) ∧ (∃ r, n.right = some r)
  val : ∀ a n, t.heap a = some n → (n.white = true ↔ ∃ v, n.val = some v)
  nodup : t.list.Nodup
  list : ∀ a, a ∈ t.list ↔ ∃ n, t.heap a = some n

theorem inv_init : Inv (init : Trie V) := by
  constructor <;> simp [init]

/-- `a` is an ancestor of `x`, or `x` itself. -/
inductive Anc (h : Heap V) (a : Nat) : Nat → Prop
  | self : Anc h a a
  | child {x p : Nat} {n : Node V} : h x = some n → n.parent = some p → Anc h a p → Anc h a x

section
variable {t : Trie V} (hi : Inv t)
include hi

theorem parent_lt {x p : Nat} {n m : Node V} (hx : t.heap x = some n) (hp : n.parent = some p)
    (hm : t.heap p = some m) : Lt m.key n.key := by
  obtain ⟨m', h1, h2⟩ := hi.up x n p hx hp
  rw [hm] at h1
  injection h1 with h1
  subst h1
  rcases h2 with h2 | h2
  · obtain ⟨n', h3, _, h4⟩ := hi.left p m x hm h2
    rw [hx] at h3; injection h3 with h3; subst h3; exact h4
  · obtain ⟨n', h3, _, h4⟩ := hi.right p m x hm h2
    rw [hx] at h3; injection h3 with h3; subst h3; exact h4

/-- Ancestors have shorter keys. -/
theorem anc_le {a x : Nat} (h : Anc t.heap a x) {n m : Node V} (ha : t.heap a = some n) (hx : t.heap x = some m) :
    (a = x) ∨ Lt n.key m.key := by
  induction h generalizing m with
  | self => exact .inl rfl
  | @child x p k h1 h2 h3 ih =>
    right
    rw [hx] at h1; injection h1 with h1; subst h1
    obtain ⟨pn, h4, _⟩ := hi.up x m p hx h2
    have h5 := parent_lt hi hx h2 h4
    rcases ih h4 with rfl | h6
    · rw [ha] at h4; injection h4 with h4; subst h4; exact h5
    · exact h6.trans_le h5.le

/-- The root is above everything. -/
theorem anc_root {x : Nat} {m : Node V} (hx : t.heap x = some m) : ∃ r, t.root = some r ∧ Anc t.heap r x := by
  generalize hk : m.key.length = k
  induction k using Nat.strongRecOn generalizing x m with
  | ind k ih =>
    cases hp : m.parent with
    | none => exact ⟨x, hi.only x m hx hp, .self⟩
    | some p =>
      obtain ⟨pn, h1, h2⟩ := hi.up x m p hx hp
      have h3 := (parent_lt hi hx hp h1).length
      obtain ⟨r, hr, ha⟩ := ih pn.key.length (by omega) h1 rfl
      exact ⟨r, hr, .child hx hp ha⟩

/-- The next node below `a` in the way to `x`. -/
theorem anc_step {a x : Nat} (h : Anc t.heap a x) {n : Node V} (ha : t.heap a = some n) (hne : x ≠ a) :
    ∃ c, (n.left = some c ∨ n.right = some c) ∧ Anc t.heap c x := by
  induction h with
  | self => exact absurd rfl hne
  | @child x p k h1 h2 h3 ih =>
    by_cases hpa : p = a
    · subst hpa
      obtain ⟨m, h4, h5⟩ := hi.up x k p h1 h2
      rw [ha] at h4; injection h4 with h4; subst h4
      exact ⟨x, h5, .self⟩
    · obtain ⟨c, h4, h5⟩ := ih hpa
      exact ⟨c, h4, .child h1 h2 h5⟩

/-- What the search does at a node. -/
theorem childFor_spec {a : Nat} {n : Node V} (ha : t.heap a = some n) (key : Key) :
    (childFor t.heap key n = .ok none ∧ (∀ c m, (n.left = some c ∨ n.right = some c) → t.heap c = some m → ¬ Le m.key key)) ∨
    (∃ c m, childFor t.heap key n = .ok (some c) ∧ (n.left = some c ∨ n.right = some c) ∧ t.heap c = some m ∧
      Le m.key key) := by
  have hl : enters t.heap key n.left = .ok false ∧ (∀ c m, n.left = some c → t.heap c = some m → ¬ Le m.key key) ∨
      (∃ c m, enters t.heap key n.left = .ok true ∧ n.left = some c ∧ t.heap c = some m ∧ Le m.key key) := by
    cases hc : n.left with
    | none => exact .inl ⟨rfl, by simp⟩
    | some c =>
      obtain ⟨m, h1, _, _⟩ := hi.left a n c ha hc
      simp only [enters, deref, h1, Outcome.map, contains_iff]
      by_cases hcon : Le m.key key
      · exact .inr ⟨c, m, by rw [(contains_iff _ _).2 hcon], rfl, h1, hcon⟩
      · refine .inl ⟨?_, ?_⟩
        · rw [Bool.eq_false_iff.2 (fun h => hcon ((contains_iff _ _).1 h))]
        · rintro c' m' h2 h3; injection h2 with h2; subst h2; rw [h1] at h3; injection h3 with h3; subst h3; exact hcon
  have hr : enters t.heap key n.right = .ok false ∧ (∀ c m, n.right = some c → t.heap c = some m → ¬ Le m.key key) ∨
      (∃ c m, enters t.heap key n.right = .ok true ∧ n.right = some c ∧ t.heap c = some m ∧ Le m.key key) := by
    cases hc : n.right with
    | none => exact .inl ⟨rfl, by simp⟩
    | some c =>
      obtain ⟨m, h1, _, _⟩ := hi.right a n c ha hc
      simp only [enters, deref, h1, Outcome.map, contains_iff]
      by_cases hcon : Le m.key key
      · exact .inr ⟨c, m, by rw [(contains_iff _ _).2 hcon], rfl, h1, hcon⟩
      · refine .inl ⟨?_, ?_⟩
        · rw [Bool.eq_false_iff.2 (fun h => hcon ((contains_iff _ _).1 h))]
        · rintro c' m' h2 h3; injection h2 with h2; subst h2; rw [h1] at h3; injection h3 with h3; subst h3; exact hcon
  rcases hl with ⟨h1, h2⟩ | ⟨c, m, h1, h2, h3, h4⟩
  · rcases hr with ⟨h5, h6⟩ | ⟨c, m, h5, h6, h7, h8⟩
    · refine .inl ⟨by simp [childFor, h1, h5, Outcome.bind], ?_⟩
      rintro c m (hc | hc) hm
      · exact h2 c m hc hm
      · exact h6 c m hc hm
    · exact .inr ⟨c, m, by simp [childFor, h1, h5, Outcome.bind]; exact h6, .inr h6, h7, h8⟩
  · exact .inr ⟨c, m, by simp [childFor, h1, Outcome.bind]; exact h2, .inl h2, h3, h4⟩

/-- Two children of a node cannot both contain the key. -/
theorem child_unique {a : Nat} {n : Node V} (ha : t.heap a = some n) {key : Key} {c d : Nat} {mc md : Node V}
    (hc : n.left = some c ∨ n.right = some c) (hd : n.left = some d ∨ n.right = some d)
    (hmc : t.heap c = some mc) (hmd : t.heap d = some md) (hkc : Le mc.key key) (hkd : Le md.key key) : c = d := by
  rcases hc with hc | hc <;> rcases hd with hd | hd
  · rw [hc] at hd; injection hd
  · have := hi.sib a n c d mc md ha hc hd hmc hmd
    rcases hkc.total hkd with h | h
    · exact absurd h this.1
    · exact absurd h this.2
  · have := hi.sib a n d c md mc ha hd hc hmd hmc
    rcases hkc.total hkd with h | h
    · exact absurd h this.2
    · exact absurd h this.1
  · rw [hc] at hd; injection hd

/-- The search from a node visits every node below it that contains the key. -/
theorem descend_spec (key : Key) (fuel a : Nat) (lw : Option Nat) (n : Node V) (ha : t.heap a = some n)
    (hk : Le n.key key) (hf : key.length - n.key.length < fuel) :
    ∃ lw' b m, descend t.heap key fuel a lw = .ok (lw', b) ∧ t.heap b = some m ∧ Le m.key key ∧ Anc t.heap a b ∧
      (∀ c mc, (m.left = some c ∨ m.right = some c) → t.heap c = some mc → ¬ Le mc.key key) ∧
      (∀ x nx, t.heap x = some nx → Anc t.heap a x → Le nx.key key → Anc t.heap x b) ∧
      (∀ x nx, t.heap x = some nx → Anc t.heap a x → Le nx.key key → nx.white = true →
        ∃ w, lw' = some w ∧ Anc t.heap x w) ∧
      (lw' = lw ∨ ∃ w nw, lw' = some w ∧ t.heap w = some nw ∧ nw.white = true ∧ Le nw.key key ∧ Anc t.heap a w) := by
  induction fuel generalizing a lw n with
  | zero => omega
  | succ fuel ih =>
    rw [descend]
    simp only [deref, ha, Outcome.bind]
    rcases childFor_spec hi ha key with ⟨h1, h2⟩ | ⟨c, m, h1, h2, h3, h4⟩
    · simp only [h1]
      refine ⟨_, a, n, rfl, ha, hk, .self, h2, ?_, ?_, ?_⟩
      · intro x nx hx hax hkx
        by_cases hxa : x = a
        · subst hxa; exact .self
        · obtain ⟨c, hc, hcx⟩ := anc_step hi hax ha hxa
          obtain ⟨mc, hmc⟩ : ∃ mc, t.heap c = some mc := by
            rcases hc with hc | hc
            · obtain ⟨mc, hmc, _⟩ := hi.left a n c ha hc; exact ⟨mc, hmc⟩
            · obtain ⟨mc, hmc, _⟩ := hi.right a n c ha hc; exact ⟨mc, hmc⟩
          refine absurd ?_ (h2 c mc hc hmc)
          rcases anc_le hi hcx hmc hx with rfl | h
          · rw [hx] at hmc; injection hmc with hmc; exact hmc ▸ hkx
          · exact h.le.trans hkx
      · intro x nx hx hax hkx hw
        by_cases hxa : x = a
        · subst hxa
          rw [ha] at hx; injection hx with hx; subst hx
          exact ⟨x, by rw [if_pos hw], .self⟩
        · obtain ⟨c, hc, hcx⟩ := anc_step hi hax ha hxa
          obtain ⟨mc, hmc⟩ : ∃ mc, t.heap c = some mc := by
            rcases hc with hc | hc
            · obtain ⟨mc, hmc, _⟩ := hi.left a n c ha hc; exact ⟨mc, hmc⟩
            · obtain ⟨mc, hmc, _⟩ := hi.right a n c ha hc; exact ⟨mc, hmc⟩
          refine absurd ?_ (h2 c mc hc hmc)
          rcases anc_le hi hcx hmc hx with rfl | h
          · rw [hx] at hmc; injection hmc with hmc; exact hmc ▸ hkx
          · exact h.le.trans hkx
      · by_cases hw : n.white = true
        · exact .inr ⟨a, n, by rw [if_pos hw], ha, hw, hk, .self⟩
        · exact .inl (by rw [if_neg hw])
    · simp only [h1]
      have hpar : m.parent = some a ∧ Lt n.key m.key := by
        rcases h2 with h2 | h2
        · obtain ⟨m', h5, h6, h7⟩ := hi.left a n c ha h2
          rw [h3] at h5; injection h5 with h5; subst h5; exact ⟨h6, h7⟩
        · obtain ⟨m', h5, h6, h7⟩ := hi.right a n c ha h2
          rw [h3] at h5; injection h5 with h5; subst h5; exact ⟨h6, h7⟩
      have hac : Anc t.heap a c := .child h3 hpar.1 .self
      have hcl := hpar.2.length
      have hml := h4.length_le
      obtain ⟨lw', b, mb, r1, r2, r3, r4, r5, r6, r7, r8⟩ :=
        ih c (if n.white then some a else lw) m h3 h4 (by omega)
      have trans : ∀ {x y}, Anc t.heap c x → Anc t.heap x y → Anc t.heap c y := by
        intro x y h h'
        induction h' with
        | self => exact h
        | child k1 k2 _ ih => exact .child k1 k2 ih
      have transA : ∀ {x}, Anc t.heap c x → Anc t.heap a x := by
        intro x h
        induction h with
        | self => exact hac
        | child k1 k2 _ ih => exact .child k1 k2 ih
      have below : ∀ x nx, t.heap x = some nx → Anc t.heap a x → Le nx.key key → x = a ∨ Anc t.heap c x := by
        intro x nx hx hax hkx
        by_cases hxa : x = a
        · exact .inl hxa
        · right
          obtain ⟨d, hd, hdx⟩ := anc_step hi hax ha hxa
          obtain ⟨md, hmd⟩ : ∃ md, t.heap d = some md := by
            rcases hd with hd | hd
            · obtain ⟨mc, hmc, _⟩ := hi.left a n d ha hd; exact ⟨mc, hmc⟩
            · obtain ⟨mc, hmc, _⟩ := hi.right a n d ha hd; exact ⟨mc, hmc⟩
          have hkd : Le md.key key := by
            rcases anc_le hi hdx hmd hx with rfl | h
            · rw [hx] at hmd; injection hmd with hmd; exact hmd ▸ hkx
            · exact h.le.trans hkx
          rw [child_unique hi ha h2 hd h3 hmd h4 hkd]
          exact hdx
      refine ⟨lw', b, mb, r1, r2, r3, transA r4, r5, ?_, ?_, ?_⟩
      · intro x nx hx hax hkx
        rcases below x nx hx hax hkx with rfl | h
        · exact transA r4
        · exact r6 x nx hx h hkx
      · intro x nx hx hax hkx hw
        rcases below x nx hx hax hkx with rfl | h
        · rw [ha] at hx; injection hx with hx; subst hx
          rcases r8 with r8 | ⟨w, nw, k1, k2, k3, k4, k5⟩
          · exact ⟨x, by rw [r8, if_pos hw], .self⟩
          · exact ⟨w, k1, transA k5⟩
        · exact r7 x nx hx h hkx hw
      · rcases r8 with r8 | ⟨w, nw, k1, k2, k3, k4, k5⟩
        · by_cases hw : n.white = true
          · exact .inr ⟨a, n, by rw [r8, if_pos hw], ha, hw, hk, .self⟩
          · exact .inl (by rw [r8, if_neg hw])
        · exact .inr ⟨w, nw, k1, k2, k3, k4, transA k5⟩

/-- Nodes that contain the same key are on one path. -/
theorem findLcp_spec (key : Key) :
    (findLcp t key = .ok none ∧ ∀ x nx, t.heap x = some nx → ¬ Le nx.key key) ∨
    (∃ lw b m, findLcp t key = .ok (some (lw, b)) ∧ t.heap b = some m ∧ Le m.key key ∧
      (∀ c mc, (m.left = some c ∨ m.right = some c) → t.heap c = some mc → ¬ Le mc.key key) ∧
      (∀ x nx, t.heap x = some nx → Le nx.key key → x = b ∨ Lt nx.key m.key) ∧
      ((lw = none ∧ ∀ x nx, t.heap x = some nx → Le nx.key key → nx.white = false) ∨
        (∃ w nw, lw = some w ∧ t.heap w = some nw ∧ nw.white = true ∧ Le nw.key key ∧
          ∀ x nx, t.heap x = some nx → Le nx.key key → nx.white = true → x = w ∨ Lt nx.key nw.key))) := by
  unfold findLcp
  cases hr : t.root with
  | none =>
    refine .inl ⟨rfl, ?_⟩
    intro x nx hx _
    obtain ⟨r, h, _⟩ := anc_root hi hx
    rw [hr] at h; simp at h
  | some r =>
    obtain ⟨n, hn, _⟩ := hi.root r hr
    simp only [deref, hn, Outcome.bind]
    have toRoot : ∀ x nx, t.heap x = some nx → Anc t.heap r x := by
      intro x nx hx
      obtain ⟨r', h, h'⟩ := anc_root hi hx
      rw [hr] at h; injection h with h; exact h ▸ h'
    by_cases hc : Le n.key key
    · rw [if_pos ((contains_iff _ _).2 hc)]
      obtain ⟨lw, b, m, r1, r2, r3, r4, r5, r6, r7, r8⟩ := descend_spec hi key (key.length + 2) r none n hn hc (by omega)
      right
      refine ⟨lw, b, m, by rw [r1]; rfl, r2, r3, r5, ?_, ?_⟩
      · intro x nx hx hkx
        exact anc_le hi (r6 x nx hx (toRoot x nx hx) hkx) hx r2
      · rcases r8 with r8 | ⟨w, nw, k1, k2, k3, k4, k5⟩
        · refine .inl ⟨r8, ?_⟩
          intro x nx hx hkx
          cases hw : nx.white with
          | false => rfl
          | true =>
            obtain ⟨w, h, _⟩ := r7 x nx hx (toRoot x nx hx) hkx hw
            rw [r8] at h; simp at h
        · refine .inr ⟨w, nw, k1, k2, k3, k4, ?_⟩
          intro x nx hx hkx hw
          obtain ⟨w', h, h'⟩ := r7 x nx hx (toRoot x nx hx) hkx hw
          rw [k1] at h; injection h with h; subst h
          exact anc_le hi h' hx k2
    · rw [if_neg (fun h => hc ((contains_iff _ _).1 h))]
      refine .inl ⟨rfl, ?_⟩
      intro x nx hx hkx
      apply hc
      rcases anc_le hi (toRoot x nx hx) hn hx with rfl | h
      · rw [hx] at hn; injection hn with hn; exact hn ▸ hkx
      · exact h.le.trans hkx

/-- No two nodes have the same key. -/
theorem key_inj {x y : Nat} {nx ny : Node V} (hx : t.heap x = some nx) (hy : t.heap y = some ny)
    (h : nx.key = ny.key) : x = y := by
  rcases findLcp_spec hi nx.key with ⟨_, h2⟩ | ⟨lw, b, m, _, h2, h3, _, h5, _⟩
  · exact absurd (Le.refl _) (h2 x nx hx)
  · have h6 := h5 x nx hx (Le.refl _)
    have h7 := h5 y ny hy (h ▸ Le.refl _)
    rcases h6 with rfl | h6
    · rcases h7 with rfl | h7
      · rfl
      · rw [hx] at h2; injection h2 with h2; subst h2
        exact absurd h.symm h7.ne
    · exact absurd h3 h6.not_le

end
end Jool.Rtrie
