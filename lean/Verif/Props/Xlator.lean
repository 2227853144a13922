import Verif.Lemmas.XlatorRun
/-
C48 (instance table) and C50 (reference counts): what every sequence of steps, interleaved in any
way, guarantees.
-/
namespace Jool.Xlator

/-! ## Specification -/

/-- The states that the module can be in. -/
def Reachable (H : Hash) (w : World) : Prop := ∃ ops, run H World.empty ops = .ok w

/-- Somebody uses database `d`: an instance of the table, the copy of a packet, a request or a
configuration candidate, or an instance that awaits its destruction. -/
def InUse (w : World) (d : Nat) : Prop :=
  (∃ n ∈ w.table, d ∈ n.xl.objs) ∨ (∃ c ∈ w.clones, d ∈ c.2.objs) ∨ (∃ l ∈ w.limbo, d ∈ l.owned)

/-- How many references there are to `d`. -/
def uses (w : World) (d : Nat) : Nat :=
  ((w.table.map fun n => n.xl.objs.count d).sum + (w.limbo.map fun l => l.owned.count d).sum) +
    (w.clones.map fun c => c.2.objs.count d).sum

/-- The instance with this identity, if any. -/
def At (w : World) (ns : Ns) (xt : Flags) (name : Name) (x : Xl) : Prop :=
  ∃ n ∈ w.table, n.xl = x ∧ x.ns = ns ∧ xtOf x.flags = xt ∧ x.name = name

theorem Reachable.good {H : Hash} {w : World} (h : Reachable H w) : Good H w := by
  obtain ⟨ops, e⟩ := h
  obtain ⟨w', e', g⟩ := good_run ops (good_empty H)
  rw [e] at e'; injection e' with e'; subst e'; exact g

theorem run_append {H : Hash} {a b : List Op} : ∀ {w : World},
    run H w (a ++ b) = (run H w a).bind fun w' => run H w' b := by
  induction a with
  | nil => intro w; rfl
  | cons o a ih =>
    intro w
    simp only [List.cons_append, run]
    cases step H w o with
    | ok r => simp only [Outcome.bind]; exact ih
    | ub u => rfl

theorem Reachable.step {H : Hash} {w : World} (h : Reachable H w) {o : Op} {r : World × Code}
    (e : step H w o = .ok r) : Reachable H r.1 := by
  obtain ⟨ops, e'⟩ := h
  refine ⟨ops ++ [o], ?_⟩
  rw [run_append, e']
  simp [Outcome.bind, run, e]

/-! ## C50 -/

/-- No interleaving touches a released database, a freed instance or a freed hook array, or frees one
twice. -/
theorem never_undefined (H : Hash) (ops : List Op) : ∃ w, run H World.empty ops = .ok w := by
  obtain ⟨w, e, _⟩ := good_run ops (good_empty H)
  exact ⟨w, e⟩

theorem count_flatMap {α} (f : α → List Nat) (d : Nat) : ∀ l : List α,
    (l.flatMap f).count d = (l.map fun x => (f x).count d).sum
  | [] => rfl
  | x :: l => by
    rw [List.flatMap_cons, List.count_append, count_flatMap f d l, List.map_cons, List.sum_cons]

/-- The count of a database is the number of its users. -/
theorem refcount_exact {H : Hash} {w : World} (h : Reachable H w) (d : Nat) : w.heap.count d = uses w d := by
  rw [h.good.counts.eq d]
  simp only [holders, uses, List.count_append, count_flatMap]

/-- A database is released if and only if nobody uses it. -/
theorem released_iff {H : Hash} {w : World} (h : Reachable H w) (d : Nat) :
    w.heap.count d = 0 ↔ ¬ InUse w d := by
  rw [h.good.counts.eq d, List.count_eq_zero]
  simp only [holders, InUse, List.mem_append, List.mem_flatMap]
  constructor
  · rintro h (⟨n, a, b⟩ | ⟨n, a, b⟩ | ⟨n, a, b⟩)
    · exact h (.inl (.inl ⟨n, a, b⟩))
    · exact h (.inr ⟨n, a, b⟩)
    · exact h (.inl (.inr ⟨n, a, b⟩))
  · rintro h ((⟨n, a, b⟩ | ⟨n, a, b⟩) | ⟨n, a, b⟩)
    · exact h (.inl ⟨n, a, b⟩)
    · exact h (.inr (.inr ⟨n, a, b⟩))
    · exact h (.inr (.inl ⟨n, a, b⟩))

/-- Once the grace periods are over: in use by the table or by a copy. -/
theorem released_iff_quiet {H : Hash} {w : World} (h : Reachable H w) (hl : w.limbo = []) (d : Nat) :
    w.heap.count d = 0 ↔ (∀ n ∈ w.table, d ∉ n.xl.objs) ∧ (∀ c ∈ w.clones, d ∉ c.2.objs) := by
  rw [released_iff h d]
  simp only [InUse, hl]
  constructor
  · intro g
    exact ⟨fun n hn hd => g (.inl ⟨n, hn, hd⟩), fun c hc hd => g (.inr (.inl ⟨c, hc, hd⟩))⟩
  · rintro ⟨g1, g2⟩ (⟨n, a, b⟩ | ⟨n, a, b⟩ | ⟨n, a, _⟩)
    · exact g1 n a b
    · exact g2 n a b
    · cases a

/-- Nothing is left behind. -/
theorem no_leak {H : Hash} {w : World} (h : Reachable H w) (ht : w.table = []) (hl : w.limbo = [])
    (hc : w.clones = []) : (∀ d, w.heap.count d = 0) ∧ w.hooks = [] := by
  refine ⟨fun d => ?_, ?_⟩
  · rw [refcount_exact h d]; simp [uses, ht, hl, hc]
  · have := h.good.shape.hooks
    simpa [claims, ht, hl] using this

/-- A grace period ends when the readers that were active at its beginning are gone, and then the
instance is destroyed. -/
theorem reap_idle {H : Hash} {w : World} (h : Reachable H w) {l : Limbo} (hl : l ∈ w.limbo)
    (hw : ∀ r ∈ l.wait, r ∉ w.active) :
    ∃ w', reap l.node.id w = .ok w' ∧ w'.limbo = w.limbo.eraseP (·.node.id == l.node.id) ∧
      w'.limbo.length < w.limbo.length := by
  obtain ⟨w', e, _⟩ := good_reap l.node.id h.good
  refine ⟨w', e, ?_⟩
  unfold reap at e
  cases hf : w.limbo.find? (·.node.id == l.node.id) with
  | none => exact absurd (by simp) (List.find?_eq_none.1 hf l hl)
  | some m =>
    have hm := List.mem_of_find?_eq_some hf
    have : m = l := limbo_unique h.good.shape hm hl (by simpa using List.find?_some hf)
    subst this
    rw [hf] at e
    dsimp only at e
    have hq : m.wait.any (w.active.contains ·) = false := by
      rw [List.any_eq_false]
      intro r hr hc
      exact hw r hr (List.contains_iff_mem.1 hc)
    rw [hq] at e
    have hk := (destroy_same e).2.1
    rw [hk]
    refine ⟨rfl, ?_⟩
    obtain ⟨l1, l2, h1, h2⟩ := find_erase hf
    dsimp only
    rw [h2]
    conv => rhs; rw [h1]
    simp only [List.length_append, List.length_cons]
    exact Nat.add_lt_add_left (Nat.lt_succ_self _) _

/-- The registered hooks are those of the Netfilter instances that are in the table or await removal. -/
theorem hooks_exact {H : Hash} {w : World} (h : Reachable H w) (ns : Ns) :
    (w.hooks.filter (·.2 == ns)).length =
      (w.table.filter fun n => isNetfilter n.xl.flags && n.xl.ns == ns).length +
      (w.limbo.filter fun l => (isNetfilter l.node.xl.flags && l.unhook) && l.node.xl.ns == ns).length := by
  have s := h.good.shape
  rw [(s.hooks.filter _).length_eq]
  unfold claims
  rw [List.filter_append, List.length_append]
  congr 1
  · have hs := s.opsTable
    generalize w.table = t at hs
    induction t with
    | nil => rfl
    | cons n t ih =>
      have h1 := hs n (List.mem_cons_self ..)
      have h2 := ih (fun m hm => hs m (List.mem_cons_of_mem _ hm))
      cases ho : n.ops with
      | none =>
        rw [ho] at h1
        have : isNetfilter n.xl.flags = false := by simpa using h1.symm
        simp only [List.filterMap_cons, ho, Option.map_none, List.filter_cons, this, Bool.false_and]
        exact h2
      | some o =>
        rw [ho] at h1
        have : isNetfilter n.xl.flags = true := by simpa using h1.symm
        simp only [List.filterMap_cons, ho, Option.map_some, List.filter_cons, this, Bool.true_and]
        split <;> simp [h2]
  · have hs := s.opsLimbo
    generalize w.limbo = t at hs
    induction t with
    | nil => rfl
    | cons n t ih =>
      have h1 := hs n (List.mem_cons_self ..)
      have h2 := ih (fun m hm => hs m (List.mem_cons_of_mem _ hm))
      cases ho : n.ops with
      | none =>
        rw [ho] at h1
        have : (isNetfilter n.node.xl.flags && n.unhook) = false := by simpa using h1.symm
        simp only [List.filterMap_cons, ho, Option.map_none, List.filter_cons, this, Bool.false_and]
        exact h2
      | some o =>
        rw [ho] at h1
        have : (isNetfilter n.node.xl.flags && n.unhook) = true := by simpa using h1.symm
        simp only [List.filterMap_cons, ho, Option.map_some, List.filter_cons, this, Bool.true_and]
        split <;> simp [h2]

end Jool.Xlator
