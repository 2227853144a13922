import Verif.Lemmas.XlatorHeap
/-
The invariant of the instance table and its preservation.
-/
namespace Jool.Xlator

/-- Every reference to a database. -/
def holders (w : World) : List Nat :=
  w.table.flatMap (·.xl.objs) ++ w.limbo.flatMap (·.owned) ++ w.clones.flatMap (·.2.objs)

/-- The hook arrays that instances know of. -/
def claims (w : World) : List (Nat × Ns) :=
  w.table.filterMap (fun n => n.ops.map (·, n.xl.ns)) ++
  w.limbo.filterMap (fun l => l.ops.map (·, l.node.xl.ns))

/-- Instances with the same identity. -/
def SameKey (x y : Xl) : Prop := x.ns = y.ns ∧ xtOf x.flags = xtOf y.flags ∧ x.name = y.name

instance (x y : Xl) : Decidable (SameKey x y) := by unfold SameKey; infer_instance

/-- Database `d` has an owner that outlives reader `r`. -/
def Covered (w : World) (r d : Nat) : Prop :=
  (∃ n ∈ w.table, d ∈ n.xl.objs) ∨ (∃ l ∈ w.limbo, d ∈ l.owned ∧ r ∈ l.wait)

def XlValid (x : Xl) : Prop := addValid x.name x.flags x.globals.pool6Set = true

structure Shape (H : Hash) (w : World) : Prop where
  ids : (w.table.map (·.id) ++ w.limbo.map (·.node.id)).Nodup
  tableLt : ∀ n ∈ w.table, n.id < w.next
  limboLt : ∀ l ∈ w.limbo, l.node.id < w.next
  hooksLt : ∀ k ∈ w.hooks, k.1 < w.next
  readersLt : ∀ r ∈ w.readers, r.1 < w.next
  waitLt : ∀ l ∈ w.limbo, ∀ r ∈ l.wait, r < w.next
  hash : ∀ n ∈ w.table, n.hash = H n.xl.ns (xtOf n.xl.flags) n.xl.name
  valid : ∀ n ∈ w.table, XlValid n.xl
  uniq : w.table.Pairwise (fun m n => ¬ SameKey m.xl n.xl)
  nf : w.nf.Perm ((w.table.filter (fun n => isNetfilter n.xl.flags)).map (·.id))
  opsTable : ∀ n ∈ w.table, n.ops.isSome = isNetfilter n.xl.flags
  opsLimbo : ∀ l ∈ w.limbo, l.ops.isSome = (isNetfilter l.node.xl.flags && l.unhook)
  hooksNodup : (w.hooks.map (·.1)).Nodup
  hooks : w.hooks.Perm (claims w)
  pinned : ∀ r ∈ w.readers, (∃ n ∈ w.table, n.id = r.2) ∨ (∃ l ∈ w.limbo, l.node.id = r.2 ∧ r.1 ∈ l.wait)
  covered : ∀ l ∈ w.limbo, ∀ r ∈ l.wait, r ∈ w.active → ∀ d ∈ l.node.xl.objs, Covered w r d

structure Good (H : Hash) (w : World) : Prop where
  shape : Shape H w
  counts : Counts w.heap (holders w)

theorem good_empty (H : Hash) : Good H World.empty := by
  refine ⟨?_, ⟨fun d => rfl, by simp [holders, World.empty]⟩⟩
  constructor <;> simp [World.empty, claims]

/-- Only the heap differs. -/
theorem Shape.heap {H : Hash} {w : World} (s : Shape H w) (h : Heap) : Shape H { w with heap := h } := by
  constructor
  · exact s.ids
  · exact s.tableLt
  · exact s.limboLt
  · exact s.hooksLt
  · exact s.readersLt
  · exact s.waitLt
  · exact s.hash
  · exact s.valid
  · exact s.uniq
  · exact s.nf
  · exact s.opsTable
  · exact s.opsLimbo
  · exact s.hooksNodup
  · exact s.hooks
  · exact s.pinned
  · exact s.covered

/-- Copies don't matter to the shape. -/
theorem Shape.clones {H : Hash} {w : World} (s : Shape H w) (c : List (Nat × Xl)) (k : Nat) :
    Shape H { w with clones := c, next := w.next + k } := by
  constructor
  · exact s.ids
  · exact fun n hn => Nat.lt_of_lt_of_le (s.tableLt n hn) (Nat.le_add_right ..)
  · exact fun n hn => Nat.lt_of_lt_of_le (s.limboLt n hn) (Nat.le_add_right ..)
  · exact fun n hn => Nat.lt_of_lt_of_le (s.hooksLt n hn) (Nat.le_add_right ..)
  · exact fun n hn => Nat.lt_of_lt_of_le (s.readersLt n hn) (Nat.le_add_right ..)
  · exact fun l hl r hr => Nat.lt_of_lt_of_le (s.waitLt l hl r hr) (Nat.le_add_right ..)
  · exact s.hash
  · exact s.valid
  · exact s.uniq
  · exact s.nf
  · exact s.opsTable
  · exact s.opsLimbo
  · exact s.hooksNodup
  · exact s.hooks
  · exact s.pinned
  · exact s.covered

theorem nodup_ids {H : Hash} {w : World} (s : Shape H w) : (w.table.map (·.id)).Nodup :=
  (List.nodup_append.1 s.ids).1

theorem eq_of_id {H : Hash} {w : World} (s : Shape H w) {m n : Node} (hm : m ∈ w.table) (hn : n ∈ w.table)
    (e : m.id = n.id) : m = n := by
  have := nodup_ids s
  generalize w.table = t at hm hn this
  induction t with
  | nil => cases hm
  | cons x t ih =>
    rw [List.map_cons, List.nodup_cons] at this
    rcases List.mem_cons.1 hm with h1 | h1 <;> rcases List.mem_cons.1 hn with h2 | h2
    · rw [h1, h2]
    · exact absurd (List.mem_map.2 ⟨n, h2, by rw [← e, h1]⟩) this.1
    · exact absurd (List.mem_map.2 ⟨m, h1, by rw [e, h2]⟩) this.1
    · exact ih h1 h2 this.2

/-- Unlinking splits the table. -/
theorem erase_split {H : Hash} {w : World} (s : Shape H w) {n : Node} (hn : n ∈ w.table) :
    ∃ l1 l2, w.table = l1 ++ n :: l2 ∧ w.table.eraseP (·.id == n.id) = l1 ++ l2 := by
  obtain ⟨m, l1, l2, _, hm, h1, h2⟩ := List.exists_of_eraseP (p := (·.id == n.id)) hn (by simp)
  have hm' : m.id = n.id := by simpa using hm
  have : m = n := eq_of_id s (by rw [h1]; simp) hn hm'
  subst this
  exact ⟨l1, l2, h1, h2⟩

theorem xt_match {f xt : Flags} (hf : xtValid (xtOf f) = true) (hx : xtValid xt = true) :
    (xt &&& f != 0) = (xtOf f == xt) := by
  revert hf
  have : xt = 1 ∨ xt = 2 := by simpa [xtValid] using hx
  rcases this with rfl | rfl <;> (revert f; decide)

theorem XlValid.xt {x : Xl} (h : XlValid x) : xtValid (xtOf x.flags) = true := by
  simp only [XlValid, addValid, Bool.and_eq_true] at h
  exact h.1.1.2

theorem XlValid.xf {x : Xl} (h : XlValid x) : xfValid (xfOf x.flags) = true := by
  simp only [XlValid, addValid, Bool.and_eq_true] at h
  exact h.1.2

theorem find_some {H : Hash} {w : World} {ns : Ns} {xt : Flags} {name : Name} {n : Node} (s : Shape H w)
    (hx : xtValid xt = true) (h : findInstance H w ns xt name = some n) :
    n ∈ w.table ∧ n.xl.ns = ns ∧ xtOf n.xl.flags = xt ∧ n.xl.name = name := by
  have hm := List.mem_of_find?_eq_some h
  have hp := List.find?_some h
  simp only [Bool.and_eq_true] at hp
  rw [xt_match (s.valid n hm).xt hx] at hp
  simp only [beq_iff_eq] at hp
  exact ⟨hm, hp.1.1.2.symm, hp.1.2, hp.2.symm⟩

theorem find_none {H : Hash} {w : World} {ns : Ns} {xt : Flags} {name : Name} (s : Shape H w)
    (hx : xtValid xt = true) (h : findInstance H w ns xt name = none) {n : Node} (hn : n ∈ w.table) :
    ¬ (n.xl.ns = ns ∧ xtOf n.xl.flags = xt ∧ n.xl.name = name) := by
  rintro ⟨h1, h2, h3⟩
  have := List.find?_eq_none.1 h n hn
  apply this
  simp only [Bool.and_eq_true]
  rw [xt_match (s.valid n hn).xt hx, s.hash n hn]
  simp [h1, h2, h3]

theorem uniq_eq {H : Hash} {w : World} (s : Shape H w) {m n : Node} (hm : m ∈ w.table) (hn : n ∈ w.table)
    (h : SameKey m.xl n.xl) : m = n := by
  have hu := s.uniq
  generalize w.table = t at hm hn hu
  induction t with
  | nil => cases hm
  | cons x t ih =>
    rw [List.pairwise_cons] at hu
    rcases List.mem_cons.1 hm with h1 | h1 <;> rcases List.mem_cons.1 hn with h2 | h2
    · rw [h1, h2]
    · exact absurd (h1 ▸ h) (hu.1 n h2)
    · exact absurd ⟨(h2 ▸ h).1.symm, (h2 ▸ h).2.1.symm, (h2 ▸ h).2.2.symm⟩ (hu.1 m h1)
    · exact ih h1 h2 hu.2

/-- A valid lookup finds exactly the instance with that identity. -/
theorem find_iff {H : Hash} {w : World} {ns : Ns} {xt : Flags} {name : Name} (s : Shape H w)
    (hx : xtValid xt = true) (n : Node) :
    findInstance H w ns xt name = some n ↔
      n ∈ w.table ∧ n.xl.ns = ns ∧ xtOf n.xl.flags = xt ∧ n.xl.name = name := by
  constructor
  · exact find_some s hx
  · rintro ⟨hn, h1, h2, h3⟩
    cases hf : findInstance H w ns xt name with
    | none => exact absurd ⟨h1, h2, h3⟩ (find_none s hx hf hn)
    | some m =>
      obtain ⟨hm, g1, g2, g3⟩ := find_some s hx hf
      rw [uniq_eq s hm hn ⟨g1.trans h1.symm, g2.trans h2.symm, g3.trans h3.symm⟩]

/-- Linking a new instance. -/
theorem shape_addNode {H : Hash} {e : Env} {x : Xl} {w : World} (s : Shape H w) (hv : XlValid x)
    (hu : ∀ n ∈ w.table, ¬ SameKey x n.xl) : Shape H (addNode H e x w).1 := by
  unfold addNode
  dsimp only
  split
  · split
    · exact s
    split
    · exact s
    rename_i hnf _ _
    constructor
    · simp only [List.map_cons, List.cons_append, List.nodup_cons]
      refine ⟨fun h => ?_, s.ids⟩
      rcases List.mem_append.1 h with h | h <;> obtain ⟨y, hy, he⟩ := List.mem_map.1 h
      · have := s.tableLt y hy; omega
      · have := s.limboLt y hy; omega
    · intro n hn
      rcases List.mem_cons.1 hn with rfl | hn
      · exact Nat.lt_succ_self _
      · exact Nat.lt_succ_of_lt (s.tableLt n hn)
    · exact fun l hl => Nat.lt_succ_of_lt (s.limboLt l hl)
    · intro k hk
      rcases List.mem_cons.1 hk with rfl | hk
      · exact Nat.lt_succ_self _
      · exact Nat.lt_succ_of_lt (s.hooksLt k hk)
    · exact fun l hl => Nat.lt_succ_of_lt (s.readersLt l hl)
    · exact fun l hl r hr => Nat.lt_succ_of_lt (s.waitLt l hl r hr)
    · intro n hn
      rcases List.mem_cons.1 hn with rfl | hn
      · rfl
      · exact s.hash n hn
    · intro n hn
      rcases List.mem_cons.1 hn with rfl | hn
      · exact hv
      · exact s.valid n hn
    · exact List.pairwise_cons.2 ⟨hu, s.uniq⟩
    · rw [List.filter_cons_of_pos (by exact hnf)]
      exact (List.perm_append_singleton ..).trans (s.nf.cons _)
    · intro n hn
      rcases List.mem_cons.1 hn with rfl | hn
      · exact hnf.symm
      · exact s.opsTable n hn
    · exact s.opsLimbo
    · simp only [List.map_cons, List.nodup_cons]
      refine ⟨fun h => ?_, s.hooksNodup⟩
      obtain ⟨y, hy, he⟩ := List.mem_map.1 h
      have := s.hooksLt y hy; omega
    · exact s.hooks.cons _
    · intro r hr
      rcases s.pinned r hr with ⟨n, hn, e⟩ | h
      · exact .inl ⟨n, List.mem_cons_of_mem _ hn, e⟩
      · exact .inr h
    · intro l hl r hr ha d hd
      rcases s.covered l hl r hr ha d hd with ⟨n, hn, e⟩ | h
      · exact .inl ⟨n, List.mem_cons_of_mem _ hn, e⟩
      · exact .inr h
  · rename_i hnf
    constructor
    · simp only [List.map_cons, List.cons_append, List.nodup_cons]
      refine ⟨fun h => ?_, s.ids⟩
      rcases List.mem_append.1 h with h | h <;> obtain ⟨y, hy, he⟩ := List.mem_map.1 h
      · have := s.tableLt y hy; omega
      · have := s.limboLt y hy; omega
    · intro n hn
      rcases List.mem_cons.1 hn with rfl | hn
      · exact Nat.lt_succ_self _
      · exact Nat.lt_succ_of_lt (s.tableLt n hn)
    · exact fun l hl => Nat.lt_succ_of_lt (s.limboLt l hl)
    · exact fun l hl => Nat.lt_succ_of_lt (s.hooksLt l hl)
    · exact fun l hl => Nat.lt_succ_of_lt (s.readersLt l hl)
    · exact fun l hl r hr => Nat.lt_succ_of_lt (s.waitLt l hl r hr)
    · intro n hn
      rcases List.mem_cons.1 hn with rfl | hn
      · rfl
      · exact s.hash n hn
    · intro n hn
      rcases List.mem_cons.1 hn with rfl | hn
      · exact hv
      · exact s.valid n hn
    · exact List.pairwise_cons.2 ⟨hu, s.uniq⟩
    · rw [List.filter_cons_of_neg (by exact hnf)]
      exact s.nf
    · intro n hn
      rcases List.mem_cons.1 hn with rfl | hn
      · simpa using hnf
      · exact s.opsTable n hn
    · exact s.opsLimbo
    · exact s.hooksNodup
    · exact s.hooks
    · intro r hr
      rcases s.pinned r hr with ⟨n, hn, e⟩ | h
      · exact .inl ⟨n, List.mem_cons_of_mem _ hn, e⟩
      · exact .inr h
    · intro l hl r hr ha d hd
      rcases s.covered l hl r hr ha d hd with ⟨n, hn, e⟩ | h
      · exact .inl ⟨n, List.mem_cons_of_mem _ hn, e⟩
      · exact .inr h

theorem addNode_spec {H : Hash} {e : Env} {x : Xl} {w : World} :
    ((addNode H e x w).2 ≠ .ok ∧ (addNode H e x w).1 = w) ∨
    ((addNode H e x w).2 = .ok ∧ holders (addNode H e x w).1 = x.objs ++ holders w ∧
      (addNode H e x w).1.heap = w.heap ∧ (addNode H e x w).1.clones = w.clones ∧
      (addNode H e x w).1.limbo = w.limbo ∧ (addNode H e x w).1.readers = w.readers ∧
      ∃ n, (addNode H e x w).1.table = n :: w.table ∧ n.xl = x ∧ n.id = w.next) := by
  unfold addNode
  dsimp only
  split
  · split
    · exact .inl ⟨by simp, rfl⟩
    split
    · exact .inl ⟨by simp, rfl⟩
    · exact .inr ⟨rfl, by simp [holders], rfl, rfl, rfl, rfl, _, rfl, rfl, rfl⟩
  · exact .inr ⟨rfl, by simp [holders], rfl, rfl, rfl, rfl, _, rfl, rfl, rfl⟩

/-- Giving up a new instance, which has no hooks. -/
theorem destroy_new {flags : Flags} {l : List Nat} {w : World} (c : Counts w.heap (l ++ holders w)) :
    ∃ h', destroy flags l none false w = .ok { w with heap := h' } ∧ Counts h' (holders w) := by
  obtain ⟨h', e, c', _⟩ := putAll_counts c
  refine ⟨h', ?_, c'⟩
  unfold destroy
  cases isNetfilter flags <;> simp [Outcome.bind, Outcome.map, e]

end Jool.Xlator
