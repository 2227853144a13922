import Verif.Lemmas.XlatorSteps
/-
Every step keeps the instance table's invariant and is defined.
-/
namespace Jool.Xlator

theorem find_erase {α} {p : α → Bool} {l : List α} {a : α} (h : l.find? p = some a) :
    ∃ l1 l2, l = l1 ++ a :: l2 ∧ l.eraseP p = l1 ++ l2 := by
  obtain ⟨hp, l1, l2, he, hn⟩ := List.find?_eq_some_iff_append.1 h
  refine ⟨l1, l2, he, ?_⟩
  rw [he, List.eraseP_append_right _ (fun b hb => by simpa using hn b hb), List.eraseP_cons_of_pos hp]

theorem hooks_erase {hooks K : List (Nat × Ns)} {o : Nat} {ns : Ns} (p : hooks.Perm ((o, ns) :: K))
    (hd : (hooks.map (·.1)).Nodup) :
    (hooks.eraseP (·.1 == o)).Perm K ∧ ((hooks.eraseP (·.1 == o)).map (·.1)).Nodup := by
  have hm : (o, ns) ∈ hooks := p.mem_iff.2 (List.mem_cons_self ..)
  obtain ⟨a, k1, k2, h1, ha, he, h2⟩ := List.exists_of_eraseP (p := (·.1 == o)) hm (by simp)
  have ha' : a.1 = o := by simpa using ha
  have hnd : (a.1 :: (k1 ++ k2).map (·.1)).Nodup := by
    rw [he] at hd
    refine List.Perm.nodup_iff (perm_count fun d => ?_) |>.1 hd
    simp only [List.map_append, List.map_cons, List.count_append, List.count_cons]; omega
  have hao : a = (o, ns) := by
    rw [he] at hm
    rcases mem_split_case hm with h | h
    · exact absurd (List.mem_map.2 ⟨_, h, ha'.symm⟩) (List.nodup_cons.1 hnd).1
    · exact h.symm
  rw [h2]
  refine ⟨?_, (List.nodup_cons.1 hnd).2⟩
  have : (a :: (k1 ++ k2)).Perm ((o, ns) :: K) := by
    refine List.Perm.trans ?_ p
    rw [he]; exact List.perm_middle.symm
  rw [hao] at this
  exact (List.perm_cons _).1 this

theorem bind_ok {α β} {o : Outcome α} {f : α → Outcome β} {b : β} (h : o.bind f = .ok b) :
    ∃ a, o = .ok a ∧ f a = .ok b := by
  cases o with
  | ok a => exact ⟨a, rfl, h⟩
  | ub u => cases h

theorem map_ok {α β} {o : Outcome α} {f : α → β} {b : β} (h : o.map f = .ok b) :
    ∃ a, o = .ok a ∧ f a = b := by
  cases o with
  | ok a => exact ⟨a, rfl, by injection h⟩
  | ub u => cases h

/-- `destroy` affects the counts and the hooks. -/
theorem destroy_same {f : Flags} {o : List Nat} {op : Option Nat} {u : Bool} {a b : World}
    (h : destroy f o op u a = .ok b) :
    b.table = a.table ∧ b.limbo = a.limbo ∧ b.readers = a.readers ∧ b.clones = a.clones ∧ b.nf = a.nf ∧
      b.next = a.next := by
  unfold destroy at h
  obtain ⟨a1, h1, h2⟩ := bind_ok h
  obtain ⟨h3, _, rfl⟩ := map_ok h2
  dsimp only
  split at h1
  · split at h1
    · split at h1
      · cases h1
      · split at h1
        · injection h1 with h1; subst h1; exact ⟨rfl, rfl, rfl, rfl, rfl, rfl⟩
        · cases h1
    · split at h1
      · injection h1 with h1; subst h1; exact ⟨rfl, rfl, rfl, rfl, rfl, rfl⟩
      · split at h1
        · cases h1
        · injection h1 with h1; subst h1; exact ⟨rfl, rfl, rfl, rfl, rfl, rfl⟩
  · injection h1 with h1; subst h1; exact ⟨rfl, rfl, rfl, rfl, rfl, rfl⟩

theorem good_reap {H : Hash} {w : World} (i : Nat) (g : Good H w) : ∃ w', reap i w = .ok w' ∧ Good H w' := by
  have s := g.shape
  unfold reap
  split
  · exact ⟨w, rfl, g⟩
  rename_i l hl
  split
  · exact ⟨w, rfl, g⟩
  rename_i hw
  obtain ⟨l1, l2, hll, hle⟩ := find_erase hl
  have hidle : ∀ r ∈ l.wait, r ∉ w.active := by
    intro r hr ha
    exact hw (List.any_eq_true.2 ⟨r, hr, List.contains_iff_mem.2 ha⟩)
  have hmem : l ∈ w.limbo := List.mem_of_find?_eq_some hl
  have hsub : ∀ m ∈ l1 ++ l2, m ∈ w.limbo := fun m hm => by rw [hll]; exact mem_split_sub hm
  have hcase : ∀ m ∈ w.limbo, m ∈ l1 ++ l2 ∨ m = l := fun m hm => by rw [hll] at hm; exact mem_split_case hm
  -- the shape once the hooks are sorted out
  have hshape : ∀ (K : List (Nat × Ns)) (h : Heap), (K.map (·.1)).Nodup →
      K.Perm (w.table.filterMap (fun n => n.ops.map (·, n.xl.ns)) ++
        (l1 ++ l2).filterMap (fun l => l.ops.map (·, l.node.xl.ns))) → (∀ k ∈ K, k.1 < w.next) →
      Shape H { w with limbo := l1 ++ l2, hooks := K, heap := h } := by
    intro K h hK hp hlt
    constructor
    · have := s.ids
      rw [hll] at this
      exact this.sublist (by simp)
    · exact s.tableLt
    · exact fun m hm => s.limboLt m (hsub m hm)
    · exact hlt
    · exact s.readersLt
    · exact fun m hm => s.waitLt m (hsub m hm)
    · exact s.hash
    · exact s.valid
    · exact s.uniq
    · exact s.nf
    · exact s.opsTable
    · exact fun m hm => s.opsLimbo m (hsub m hm)
    · exact hK
    · exact hp
    · intro r hr
      rcases s.pinned r hr with h | ⟨m, hm, e, hrm⟩
      · exact .inl h
      · rcases hcase m hm with h | rfl
        · exact .inr ⟨m, h, e, hrm⟩
        · exact absurd (List.mem_map.2 ⟨r, hr, rfl⟩) (hidle _ hrm)
    · intro m hm r hr ha d hd
      rcases s.covered m (hsub m hm) r hr ha d hd with h | ⟨m', hm', e, hrm⟩
      · exact .inl h
      · rcases hcase m' hm' with h | rfl
        · exact .inr ⟨m', h, e, hrm⟩
        · exact absurd ha (hidle _ hrm)
  have hcounts : Counts w.heap (l.owned ++ holders { w with limbo := l1 ++ l2 }) := by
    refine g.counts.perm (perm_count fun d => ?_)
    simp only [holders, hll, List.flatMap_append, List.flatMap_cons, List.count_append]; omega
  obtain ⟨h', he, hc, _⟩ := putAll_counts hcounts
  have hops := s.opsLimbo l hmem
  have hclaims : (claims w).Perm ((l.ops.map (·, l.node.xl.ns)).toList ++
      (w.table.filterMap (fun n => n.ops.map (·, n.xl.ns)) ++
        (l1 ++ l2).filterMap (fun l => l.ops.map (·, l.node.xl.ns)))) := by
    unfold claims
    rw [hll]
    cases hop : l.ops with
    | none => simp [hop, List.filterMap_append]
    | some o =>
      rw [List.filterMap_append, List.filterMap_append]
      simp only [List.filterMap_cons, hop, Option.map_some, Option.toList_some, List.cons_append, List.nil_append]
      rw [← List.append_assoc, ← List.append_assoc]
      exact List.perm_middle
  rw [hle]
  unfold destroy
  cases ho : l.ops with
  | none =>
    rw [ho] at hops hclaims
    refine ⟨{ w with limbo := l1 ++ l2, heap := h' }, ?_, hshape w.hooks h' s.hooksNodup ?_ s.hooksLt, ?_⟩
    · cases hf : isNetfilter l.node.xl.flags <;> cases hu : l.unhook <;>
        simp_all [Outcome.bind, Outcome.map]
    · exact s.hooks.trans hclaims
    · exact hc
  | some o =>
    rw [ho] at hops hclaims
    have hfu : isNetfilter l.node.xl.flags = true ∧ l.unhook = true := by simpa using hops.symm
    have hp := s.hooks.trans hclaims
    have hin : (o, l.node.xl.ns) ∈ w.hooks := hp.mem_iff.2 (by simp)
    obtain ⟨hq, hqn⟩ := hooks_erase hp s.hooksNodup
    refine ⟨{ w with limbo := l1 ++ l2, hooks := w.hooks.eraseP (·.1 == o), heap := h' }, ?_,
      hshape _ h' hqn hq (fun k hk => s.hooksLt k (List.mem_of_mem_eraseP hk)), ?_⟩
    · have hany : w.hooks.any (·.1 == o) = true := List.any_eq_true.2 ⟨_, hin, by simp⟩
      rw [hfu.1, hfu.2]
      simp [Outcome.bind, Outcome.map, hany, he]
    · exact hc

theorem good_enter {H : Hash} {w : World} {n : Node} (g : Good H w) (hn : n ∈ w.table) : Good H (w.enter n) := by
  have s := g.shape
  refine ⟨?_, g.counts⟩
  unfold World.enter
  constructor
  · exact s.ids
  · exact fun m hm => Nat.lt_succ_of_lt (s.tableLt m hm)
  · exact fun m hm => Nat.lt_succ_of_lt (s.limboLt m hm)
  · exact fun m hm => Nat.lt_succ_of_lt (s.hooksLt m hm)
  · intro r hr
    rcases List.mem_cons.1 hr with rfl | hr
    · exact Nat.lt_succ_self _
    · exact Nat.lt_succ_of_lt (s.readersLt r hr)
  · exact fun m hm r hr => Nat.lt_succ_of_lt (s.waitLt m hm r hr)
  · exact s.hash
  · exact s.valid
  · exact s.uniq
  · exact s.nf
  · exact s.opsTable
  · exact s.opsLimbo
  · exact s.hooksNodup
  · exact s.hooks
  · intro r hr
    rcases List.mem_cons.1 hr with rfl | hr
    · exact .inl ⟨n, hn, rfl⟩
    · exact s.pinned r hr
  · intro l hl r hr ha d hd
    rcases List.mem_cons.1 (show r ∈ w.next :: w.active from ha) with rfl | ha
    · exact absurd (s.waitLt l hl _ hr) (Nat.lt_irrefl _)
    · exact s.covered l hl r hr ha d hd

theorem limbo_unique {H : Hash} {w : World} (s : Shape H w) {l m : Limbo} (hl : l ∈ w.limbo) (hm : m ∈ w.limbo)
    (e : l.node.id = m.node.id) : l = m := by
  have := (List.nodup_append.1 s.ids).2.1
  generalize w.limbo = t at hl hm this
  induction t with
  | nil => cases hm
  | cons x t ih =>
    rw [List.map_cons, List.nodup_cons] at this
    rcases List.mem_cons.1 hl with h1 | h1 <;> rcases List.mem_cons.1 hm with h2 | h2
    · rw [h1, h2]
    · exact absurd (List.mem_map.2 ⟨m, h2, by rw [← e, h1]⟩) this.1
    · exact absurd (List.mem_map.2 ⟨l, h1, by rw [e, h2]⟩) this.1
    · exact ih h1 h2 this.2

/-- A reader finds its instance intact, and the databases alive. -/
theorem memory_of_pinned {H : Hash} {w : World} (g : Good H w) {r : Nat × Nat} (hr : r ∈ w.readers) :
    ∃ x, w.memory r.2 = some x ∧ ∀ d ∈ x.objs, d ∈ holders w := by
  have s := g.shape
  have hact : r.1 ∈ w.active := List.mem_map.2 ⟨r, hr, rfl⟩
  unfold World.memory
  cases hf : w.table.find? (·.id == r.2) with
  | some n =>
    refine ⟨n.xl, rfl, fun d hd => ?_⟩
    have := List.mem_of_find?_eq_some hf
    exact List.mem_append_left _ (List.mem_append_left _ (List.mem_flatMap.2 ⟨n, this, hd⟩))
  | none =>
    have hnt : ¬ ∃ n ∈ w.table, n.id = r.2 := by
      rintro ⟨n, hn, e⟩
      exact List.find?_eq_none.1 hf n hn (by simp [e])
    rcases s.pinned r hr with h | ⟨l, hl, e, hw⟩
    · exact absurd h hnt
    · cases hg : w.limbo.find? (·.node.id == r.2) with
      | none => exact absurd (by simp [e]) (List.find?_eq_none.1 hg l hl)
      | some l' =>
        have h1 := List.mem_of_find?_eq_some hg
        have h2 := List.find?_some hg
        have : l' = l := limbo_unique s h1 hl (by simp at h2; rw [h2, e])
        subst this
        refine ⟨l'.node.xl, rfl, fun d hd => ?_⟩
        rcases s.covered l' hl r.1 hw hact d hd with ⟨n, hn, h⟩ | ⟨m, hm, h, _⟩
        · exact List.mem_append_left _ (List.mem_append_left _ (List.mem_flatMap.2 ⟨n, hn, h⟩))
        · exact List.mem_append_left _ (List.mem_append_right _ (List.mem_flatMap.2 ⟨m, hm, h⟩))

theorem good_grab {H : Hash} {w : World} (r : Nat) (g : Good H w) : ∃ w', grab r w = .ok w' ∧ Good H w' := by
  have s := g.shape
  unfold grab
  cases hf : w.readers.find? (·.1 == r) with
  | none => exact ⟨w, rfl, g⟩
  | some q =>
    have hq := List.mem_of_find?_eq_some hf
    obtain ⟨x, hx, hd⟩ := memory_of_pinned g hq
    obtain ⟨h', e, c, _⟩ := getAll_counts g.counts hd
    obtain ⟨q1, q2⟩ := q
    dsimp only at hx ⊢
    rw [hx]
    dsimp only
    rw [e]
    refine ⟨_, rfl, ?_, ?_⟩
    · constructor
      · exact s.ids
      · exact s.tableLt
      · exact s.limboLt
      · exact s.hooksLt
      · exact fun m hm => s.readersLt m (List.mem_filter.1 hm).1
      · exact s.waitLt
      · exact s.hash
      · exact s.valid
      · exact s.uniq
      · exact s.nf
      · exact s.opsTable
      · exact s.opsLimbo
      · exact s.hooksNodup
      · exact s.hooks
      · exact fun m hm => s.pinned m (List.mem_filter.1 hm).1
      · intro l hl k hk ha d hd
        refine s.covered l hl k hk ?_ d hd
        obtain ⟨y, hy, e⟩ := List.mem_map.1 ha
        exact List.mem_map.2 ⟨y, (List.mem_filter.1 hy).1, e⟩
    · refine c.perm (perm_count fun d => ?_)
      simp only [holders, List.flatMap_cons, List.count_append]; omega

theorem good_put {H : Hash} {w : World} (k : Nat) (g : Good H w) : ∃ w', put k w = .ok w' ∧ Good H w' := by
  unfold put
  cases hf : w.clones.find? (·.1 == k) with
  | none => exact ⟨w, rfl, g⟩
  | some q =>
    obtain ⟨l1, l2, h1, h2⟩ := find_erase hf
    have c : Counts w.heap (q.2.objs ++ holders { w with clones := l1 ++ l2 }) := by
      refine g.counts.perm (perm_count fun d => ?_)
      simp only [holders, h1, List.flatMap_append, List.flatMap_cons, List.count_append]; omega
    obtain ⟨h', e, c', _⟩ := putAll_counts c
    obtain ⟨q1, q2⟩ := q
    dsimp only at e ⊢
    rw [e, h2]
    exact ⟨_, rfl, (g.shape.heap h').clones (l1 ++ l2) 0, c'⟩

theorem collides_false {w : World} {ns : Ns} {name : Name} {flags : Flags} (h : collides w ns name flags = false)
    {x : Xl} (h1 : x.ns = ns) (h2 : x.name = name) (h3 : x.flags = flags) :
    ∀ n ∈ w.table, ¬ SameKey x n.xl := by
  intro n hn hs
  have := List.any_eq_false.1 h n hn
  apply this
  simp only [Bool.and_eq_true, Bool.or_eq_true, beq_iff_eq]
  refine ⟨⟨?_, ?_⟩, .inl ?_⟩
  · rw [← hs.1, h1]
  · rw [← hs.2.1, h3]
  · rw [← hs.2.2, h2]

theorem good_add {H : Hash} {w : World} (e : Env) (ns : Ns) (flags : Flags) (name : Name) (gl : Glob) (want : Bool)
    (g : Good H w) : ∃ r, add H e ns flags name gl want w = .ok r ∧ Good H r.1 := by
  unfold add
  split
  · exact ⟨_, rfl, g⟩
  rename_i hv
  split
  · exact ⟨_, rfl, g⟩
  rcases xlInit_counts (e := e) (ns := ns) (name := name) (flags := flags) (g := gl) g.counts with
    ⟨h', code, he, _, c⟩ | ⟨h', x, he, c, x1, x2, x3, x4, _, _, _, _⟩
  · rw [he]; exact ⟨_, rfl, g.shape.heap h', c⟩
  rw [he]
  dsimp only [Outcome.bind]
  have hvx : XlValid x := by
    unfold XlValid; rw [x2, x3, x4]; simpa using hv
  split
  · obtain ⟨h2, e2, c2⟩ := destroy_new (flags := flags) (w := { w with heap := h' }) c
    rw [e2]; exact ⟨_, rfl, g.shape.heap h2, c2⟩
  rename_i hcol
  have hcol' : collides { w with heap := h' } ns name flags = false := by simpa using hcol
  have hu := collides_false hcol' x1 x2 x3
  have hsh := shape_addNode (e := e) (g.shape.heap h') hvx hu
  rcases addNode_spec (H := H) (e := e) (x := x) (w := { w with heap := h' }) with
    ⟨hne, hw⟩ | ⟨hok, hh, hheap, hcl, _, _, _⟩
  · revert hne hw
    generalize addNode H e x { w with heap := h' } = q
    obtain ⟨q1, q2⟩ := q
    intro hne hw
    dsimp only at hne hw
    subst hw
    obtain ⟨h2, e2, c2⟩ := destroy_new (flags := flags) (w := { w with heap := h' }) c
    have : (match ({ w with heap := h' }, q2) with
          | (w, .ok) =>
            if want then
              (getAll x.objs w.heap).map fun h =>
                ({ w with heap := h, next := w.next + 1, clones := (w.next, x) :: w.clones }, Code.ok)
            else .ok (w, .ok)
          | (w, code) => (destroy flags x.objs none false w).map (·, code)) =
        (destroy flags x.objs none false { w with heap := h' }).map (·, q2) := by
      cases q2 <;> first | rfl | exact absurd rfl hne
    exact ⟨({ w with heap := h2 }, q2), this.trans (by rw [e2]; rfl), g.shape.heap h2, c2⟩
  · revert hsh hok hh hheap hcl
    generalize addNode H e x { w with heap := h' } = q
    obtain ⟨q1, q2⟩ := q
    intro hsh hok hh hheap hcl
    dsimp only at hsh hok hh hheap hcl
    subst hok
    have c3 : Counts q1.heap (holders q1) := by rw [hheap, hh]; exact c
    cases want with
    | false => exact ⟨_, rfl, hsh, c3⟩
    | true =>
      obtain ⟨h2, e2, c2, _⟩ := getAll_counts (l := x.objs) c3 (by rw [hh]; simp +contextual)
      refine ⟨({ q1 with heap := h2, next := q1.next + 1, clones := (q1.next, x) :: q1.clones }, .ok), ?_, ?_, ?_⟩
      · show (getAll x.objs q1.heap).map _ = _
        rw [e2]; rfl
      · exact (hsh.heap h2).clones ((q1.next, x) :: q1.clones) 1
      · refine c2.perm (perm_count fun d => ?_)
        simp only [holders, List.flatMap_cons, List.count_append]; omega

theorem good_replace {H : Hash} {w : World} (e : Env) (x : Xl) (hx : ∀ d ∈ x.objs, d ∈ holders w)
    (g : Good H w) : ∃ r, replace H e x w = .ok r ∧ Good H r.1 := by
  unfold replace
  split
  · exact ⟨_, rfl, g⟩
  rename_i hv
  have hvx : XlValid x := by unfold XlValid; simpa using hv
  split
  · exact ⟨_, rfl, g⟩
  split
  · exact ⟨_, rfl, g⟩
  obtain ⟨h', he, c, _⟩ := getAll_counts g.counts hx
  rw [he]
  dsimp only [Outcome.bind]
  have s' := g.shape.heap h'
  obtain ⟨h2, e2, c2⟩ := destroy_new (flags := x.flags) (w := { w with heap := h' }) c
  cases hf : findInstance H { w with heap := h' } x.ns (xtOf x.flags) x.name with
  | none =>
    dsimp only
    have hu : ∀ n ∈ w.table, ¬ SameKey x n.xl := fun n hn hs =>
      find_none s' hvx.xt hf hn ⟨hs.1.symm, hs.2.1.symm, hs.2.2.symm⟩
    have hsh := shape_addNode (e := e) s' hvx hu
    rcases addNode_spec (H := H) (e := e) (x := x) (w := { w with heap := h' }) with
      ⟨hne, hw⟩ | ⟨hok, hh, hheap, hcl, _, _, _⟩
    · revert hne hw
      generalize addNode H e x { w with heap := h' } = q
      obtain ⟨q1, q2⟩ := q
      intro hne hw
      dsimp only at hne hw
      subst hw
      have : (match (({ w with heap := h' } : World), q2) with
            | (w, .ok) => .ok (w, .ok)
            | (w, code) => (destroy x.flags x.objs none false w).map (·, code)) =
          (destroy x.flags x.objs none false { w with heap := h' }).map (·, q2) := by
        cases q2 <;> first | rfl | exact absurd rfl hne
      exact ⟨({ w with heap := h2 }, q2), this.trans (by rw [e2]; rfl), g.shape.heap h2, c2⟩
    · revert hsh hok hh hheap hcl
      generalize addNode H e x { w with heap := h' } = q
      obtain ⟨q1, q2⟩ := q
      intro hsh hok hh hheap hcl
      dsimp only at hsh hok hh hheap hcl
      subst hok
      exact ⟨_, rfl, hsh, by rw [hheap, hh]; exact c⟩
  | some old =>
    dsimp only
    obtain ⟨ho, k1, k2, k3⟩ := find_some s' hvx.xt hf
    split
    · rw [e2]; exact ⟨_, rfl, g.shape.heap h2, c2⟩
    rename_i hfr
    split
    · rw [e2]; exact ⟨_, rfl, g.shape.heap h2, c2⟩
    · obtain ⟨w', ew, gw⟩ := good_swap s' ho hvx ⟨k1, k2, k3⟩ (by simpa using hfr) c
      rw [ew]; exact ⟨_, rfl, gw⟩

theorem lookup_mem {H : Hash} {w : World} {ns : Ns} {flags : Flags} {name : Name} {n : Node} (s : Shape H w)
    (h : lookup H ns flags name w = .ok n) :
    n ∈ w.table ∧ n.xl.ns = ns ∧ xtOf n.xl.flags = xtOf flags ∧ n.xl.name = name ∧ n.xl.flags &&& xfOf flags ≠ 0 := by
  unfold lookup at h
  split at h
  · cases h
  split at h
  · cases h
  rename_i hx
  split at h
  · cases h
  rename_i m hm
  split at h
  · cases h
  rename_i hfl
  injection h with h
  subst h
  obtain ⟨a, b, c, d⟩ := find_some s (by simpa using hx) hm
  exact ⟨a, b, c, d, by simpa using hfl⟩

theorem lookupNf_mem {w : World} {ns : Ns} {n : Node} (h : lookupNf ns w = some n) :
    n ∈ w.table ∧ n.xl.ns = ns ∧ n.id ∈ w.nf := by
  have h1 := List.mem_of_find?_eq_some h
  have h2 := List.find?_some h
  obtain ⟨i, hi, hf⟩ := List.mem_filterMap.1 h1
  have h3 := List.find?_some hf
  exact ⟨List.mem_of_find?_eq_some hf, by simpa using h2, by
    have : n.id = i := by simpa using h3
    rw [this]; exact hi⟩

theorem good_step {H : Hash} {w : World} (g : Good H w) (o : Op) : ∃ r, step H w o = .ok r ∧ Good H r.1 := by
  cases o with
  | add e ns flags name gl want => exact good_add e ns flags name gl want g
  | init e ns flags name gl =>
    unfold step
    dsimp only
    split
    · exact ⟨_, rfl, g⟩
    rcases xlInit_counts (e := e) (ns := ns) (name := name) (flags := flags) (g := gl) g.counts with
      ⟨h', code, he, _, c⟩ | ⟨h', x, he, c, _⟩
    · rw [he]; exact ⟨_, rfl, g.shape.heap h', c⟩
    · rw [he]
      refine ⟨_, rfl, (g.shape.heap h').clones ((w.next, x) :: w.clones) 1, ?_⟩
      refine c.perm (perm_count fun d => ?_)
      simp only [holders, List.flatMap_cons, List.count_append]; omega
  | edit c gl =>
    refine ⟨_, rfl, g.shape.clones _ 0, ?_⟩
    have : holders { w with clones := w.clones.map fun p => if p.1 == c then (p.1, { p.2 with globals := gl }) else p }
        = holders w := by
      unfold holders
      congr 1
      dsimp only
      rw [List.flatMap_map]
      congr 1
      funext p
      split <;> rfl
    show Counts w.heap (holders _)
    rw [this]; exact g.counts
  | rm ns xt name =>
    refine ⟨_, rfl, ?_⟩
    unfold rm
    split
    · exact g
    rename_i hx
    split
    · exact g
    cases hf : findInstance H w ns xt name with
    | none => exact g
    | some n => exact good_unlink g (find_some g.shape (by simpa using hx) hf).1
  | flush nss xt => exact ⟨_, rfl, good_flush nss g⟩
  | replace e c =>
    unfold step
    dsimp only
    cases hf : w.clones.find? (·.1 == c) with
    | none => exact ⟨_, rfl, g⟩
    | some q =>
      obtain ⟨q1, x⟩ := q
      refine good_replace e x (fun d hd => ?_) g
      exact List.mem_append_right _ (List.mem_flatMap.2 ⟨_, List.mem_of_find?_eq_some hf, hd⟩)
  | reap i =>
    obtain ⟨w', e, g'⟩ := good_reap i g
    exact ⟨(w', .ok), by simp only [step, e]; rfl, g'⟩
  | pin ns flags name =>
    unfold step
    dsimp only
    cases hl : lookup H ns flags name w with
    | error code => exact ⟨_, rfl, g⟩
    | ok n => exact ⟨_, rfl, good_enter g (lookup_mem g.shape hl).1⟩
  | pinNf ns =>
    unfold step
    dsimp only
    cases hl : lookupNf ns w with
    | none => exact ⟨_, rfl, g⟩
    | some n => exact ⟨_, rfl, good_enter g (lookupNf_mem hl).1⟩
  | grab r =>
    obtain ⟨w', e, g'⟩ := good_grab r g
    exact ⟨(w', .ok), by simp only [step, e]; rfl, g'⟩
  | put c =>
    obtain ⟨w', e, g'⟩ := good_put c g
    exact ⟨(w', .ok), by simp only [step, e]; rfl, g'⟩

theorem good_run {H : Hash} : ∀ (ops : List Op) {w : World}, Good H w → ∃ w', run H w ops = .ok w' ∧ Good H w'
  | [], w, g => ⟨w, rfl, g⟩
  | o :: ops, w, g => by
    obtain ⟨r, e, g'⟩ := good_step g o
    obtain ⟨w', e', g''⟩ := good_run ops g'
    exact ⟨w', by simp only [run, e, Outcome.bind]; exact e', g''⟩

end Jool.Xlator
