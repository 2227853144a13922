import Verif.Props.RtrieList
/-
C08, C09: histories that the radix trie gets wrong, and histories that the theorems of `Verif.Props.Rtrie` cover.

Keys are written as bits; prepend any prefix to all of the keys of a history to obtain others.
-/
namespace Jool.Rtrie

private abbrev T := true
private abbrev F := false
private def A (k : Key) (v : Nat) : Op Nat := .add true true k v
private def R (k : Key) : Op Nat := .rm true k

/-- The answers, and the result of a lookup at the end. -/
def outcome (os : List (Op Nat)) (key : Key) : Outcome (List Code × Option Nat) :=
  (run init os).bind (fun p => (find p.1 key).map (fun r => (p.2, r)))

/-! ## Defects -/

/-- C09 is false: `swap_nodes` does not tell the children of the replaced node about their new parent. Adding the common
prefix of two entries and then removing one of these writes to freed memory. -/
theorem swap_use_after_free :
    outcome [A [F, T] 1, A [T] 2, A [] 3, R [F, T]] [] = .ub .useAfterFree := by decide

/-- The same, when the new prefix is between the inner node and its two children. -/
theorem swap_use_after_free2 :
    outcome [A [] 1, A [T, F, F] 2, A [T, F, T] 3, R [], A [T] 4, R [T, F, F]] [] = .ub .useAfterFree := by decide

/-- C08 is false: removing an entry that has two others inside leaves an inner node without parent. When one of the two
is removed, the whole table is replaced by the other: the entry `[]`, which was not touched, is no longer found. -/
theorem orphan_loses_table :
    outcome [A [] 0, A [F] 1, A [F, F] 2, A [F, T] 3, R [F], R [F, F]] [T, T] =
      .ok ([.ok, .ok, .ok, .ok, .ok, .ok], none) := by decide

/-- C08 is false: a new entry is put into a free place without checking whether the entry in the other place is inside
of it. The lookup yields the shorter prefix. -/
theorem sibling_hides :
    outcome [A [] 0, A [T, T] 1, A [F, F, F] 2, R [T, T], A [F, F] 3] [F, F, F] =
      .ok ([.ok, .ok, .ok, .ok, .ok], some 3) := by decide

/-- In that state, the hidden entry cannot be removed. -/
theorem sibling_unremovable :
    outcome [A [] 0, A [T, T] 1, A [F, F, F] 2, R [T, T], A [F, F] 3, R [F, F, F]] [F, F, F] =
      .ok ([.ok, .ok, .ok, .ok, .ok, .esrch], some 3) := by decide

/-- It takes no removals either. -/
theorem sibling_hides_add_only :
    outcome [A [] 0, A [F, F, F] 1, A [F, F, T] 2, A [F, F] 3, A [F] 4] [F, F, F] =
      .ok ([.ok, .ok, .ok, .ok, .ok], some 4) := by decide

/-- The node of an addition that fails for want of an inner node is never freed. -/
theorem nomem_leaks :
    ((run init [A [T] 1, .add true false [F] 2] : Outcome (Trie Nat × List Code)).map (fun p => (p.2, p.1.leaked))) =
      .ok ([.ok, .enomem], 1) := by decide

/-- `rtrie_is_empty` answers the opposite. -/
theorem isEmpty_inverted {V : Type} {t : Trie V} {S : Table V} (hr : Repr t S) :
    isEmpty t = true ↔ ∃ k, S k ≠ none := by
  unfold isEmpty
  constructor
  · intro h
    obtain ⟨r, h⟩ := Option.isSome_iff_exists.1 h
    obtain ⟨n, hn, _⟩ := hr.1.root r h
    obtain ⟨x, nx, h1, h2, _⟩ := white_below hr.1 hn
    exact ⟨nx.key, (node_stored hr h1 h2).1⟩
  · rintro ⟨k, hk⟩
    obtain ⟨v, hv⟩ := Option.ne_none_iff_exists'.1 hk
    obtain ⟨x, nx, h1, _⟩ := stored_node hr.1 ((hr.2 k v).2 hv)
    obtain ⟨r, h, _⟩ := anc_root hr.1 h1
    simp [h]

/-! ## Cases that the theorems cover -/

/-- Nested prefixes, added from the outside in. -/
example : AllAllowed (fun _ => none) [A [] 0, A [F] 1, A [F, T] 2, A [T, T, F] 3, R [F, T]] := by
  refine ⟨by intro k h; simp at h, ?_⟩
  rintro _ _ (⟨_, _, _, _, _, _⟩ | ⟨_, _, _, _, _, h⟩ | ⟨_, _, _, _, h⟩)
  · refine ⟨?_, ?_⟩
    · intro k h h'
      unfold put at h; split at h
      · rename_i e; subst e; simp at h'
      · simp at h
    rintro _ _ (⟨_, _, _, _, _, _⟩ | ⟨_, _, _, _, _, h⟩ | ⟨_, _, _, _, h⟩)
    · refine ⟨?_, ?_⟩
      · intro k h h'
        unfold put at h
        split at h
        · rename_i e; subst e; simp at h'
        · split at h
          · rename_i e; subst e; simp at h'
          · simp at h
      rintro _ _ (⟨_, _, _, _, _, _⟩ | ⟨_, _, _, _, _, h⟩ | ⟨_, _, _, _, h⟩)
      · refine ⟨?_, ?_⟩
        · intro k h h'
          unfold put at h
          split at h
          · rename_i e; subst e; simp at h'
          · split at h
            · rename_i e; subst e; simp at h'
            · split at h
              · rename_i e; subst e; simp at h'
              · simp at h
        rintro _ _ (⟨_, _, _, _, _, _⟩ | ⟨_, _, _, _, _, h⟩ | ⟨_, _, _, _, h⟩)
        · refine ⟨.inr (.inl ?_), fun _ _ _ => trivial⟩
          intro k k' h1 h2 h3 h4 h5 h6
          exfalso
          unfold put at h1
          repeat' split at h1
          all_goals first
            | (rename_i e; exact h5 e)
            | (rename_i e; subst e; simp at h3)
            | simp at h1
        · simp [put] at h
        · simp at h
      · simp [put] at h
      · simp at h
    · simp [put] at h
    · simp at h
  · simp at h
  · simp at h

example : outcome [A [] 0, A [F] 1, A [F, T] 2, A [T, T, F] 3, R [F, T]] [F, T, T] =
    .ok ([.ok, .ok, .ok, .ok, .ok], some 1) := by decide

/-- Prefixes that do not overlap, in any order; this history goes through the reshaping cases of `add_full_collision`
and through the pruning of inner nodes. -/
example : ∀ a ∈ addedKeys [A [F, F, F] 1, A [F, F, T] 2, A [T, T] 3, A [T, F, T] 4, A [T, F, F] 5, R [T, T], R [F, F, T],
    A [F, T] 6, .flush, A [F, T] 7],
    ∀ b ∈ addedKeys [A [F, F, F] 1, A [F, F, T] 2, A [T, T] 3, A [T, F, T] 4, A [T, F, F] 5, R [T, T], R [F, F, T],
    A [F, T] 6, .flush, A [F, T] 7], Apart a b := by
  unfold Apart; decide

example : outcome [A [F, F, F] 1, A [F, F, T] 2, A [T, T] 3, A [T, F, T] 4, A [T, F, F] 5, R [T, T], R [F, F, T],
    A [F, T] 6] [T, F, F, T] = .ok ([.ok, .ok, .ok, .ok, .ok, .ok, .ok, .ok], some 5) := by decide

/-- C09: the list by which a table is released has every node once. -/
theorem nodes_once {V : Type} {t : Trie V} {S : Table V} (hr : Repr t S) :
    t.list.Nodup ∧ ∀ a, a ∈ t.list ↔ ∃ n, t.heap a = some n := ⟨hr.1.nodup, hr.1.list⟩

/-- C09: `swap_nodes` keeps it that way, so releasing the table does not release the replaced node again. -/
theorem swap_list {V : Type} {t t' : Trie V} {old : Nat} {n : Node V} (hs : swapNodes t old n = .ok t') (hn : t.list.Nodup)
    (hf : t.heap t.fresh = none) (hl : ∀ a, a ∈ t.list ↔ ∃ n, t.heap a = some n) :
    t'.list.Nodup ∧ ∀ a, a ∈ t'.list ↔ ∃ n, t'.heap a = some n := by
  unfold swapNodes at hs
  have hdo : ∃ o, t.heap old = some o := by
    unfold deref at hs
    cases h : t.heap old with
    | none => rw [h] at hs; cases hs
    | some o => exact ⟨o, rfl⟩
  obtain ⟨o, ho⟩ := hdo
  rw [show deref t.heap old = .ok o by unfold deref; rw [ho]] at hs
  simp only [Outcome.bind] at hs
  cases hp : parentPtr t.heap old o with
  | ub u => rw [hp] at hs; cases hs
  | ok loc =>
    rw [hp] at hs
    simp only at hs
    generalize hh : upd t.heap t.fresh { n with left := o.left, right := o.right, parent := o.parent } = h1 at hs
    have hlive : ∀ {t1 : Trie V}, assign { t with heap := h1 } loc (some t.fresh) = .ok t1 →
        ∀ a, (∃ n, t1.heap a = some n) ↔ (∃ n, h1 a = some n) := by
      intro t1 h a
      unfold assign at h
      have hm : ∀ (x : Nat) (f : Node V → Node V) (h2 : Heap V), modify h1 x f = .ok h2 →
          ((∃ n, h2 a = some n) ↔ (∃ n, h1 a = some n)) := by
        intro x f h2 h
        unfold modify at h
        split at h
        · rename_i m hm
          injection h with h
          rw [← h]
          unfold upd
          by_cases e : a = x
          · subst e; simp [hm]
          · simp [e]
        · cases h
      cases loc with
      | root => injection h with h; rw [← h]
      | left x =>
        simp only [Outcome.map] at h
        split at h
        · rename_i h2 hmd; injection h with h; rw [← h]; exact hm _ _ _ hmd
        · cases h
      | right x =>
        simp only [Outcome.map] at h
        split at h
        · rename_i h2 hmd; injection h with h; rw [← h]; exact hm _ _ _ hmd
        · cases h
    cases ha : assign { t with heap := h1 } loc (some t.fresh) with
    | ub u => rw [ha] at hs; cases hs
    | ok t1 =>
      rw [ha] at hs
      injection hs with hs
      subst hs
      have hnf : t.fresh ∉ t.list := fun hm => by
        obtain ⟨m, hm⟩ := (hl _).1 hm
        rw [hf] at hm; cases hm
      have hnd : (t.fresh :: t.list).Nodup := List.nodup_cons.2 ⟨hnf, hn⟩
      refine ⟨hnd.erase _, fun a => ?_⟩
      show a ∈ (t.fresh :: t.list).erase old ↔ ∃ n, free t1.heap old a = some n
      rw [hnd.mem_erase_iff]
      unfold free
      by_cases e : a = old
      · simp [e]
      · have := hlive ha a
        rw [if_neg e, this, ← hh]
        unfold upd
        by_cases e2 : a = t.fresh
        · simp [e2, show t.fresh ≠ old from e2 ▸ e]
        · simp [e, e2, hl a]

end Jool.Rtrie
