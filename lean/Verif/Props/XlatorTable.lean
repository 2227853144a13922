import Verif.Props.Xlator
/-
C48: the table of instances. What each operation does to it, uniqueness, and counterexamples.
-/
namespace Jool.Xlator

/-! ## Uniqueness -/

/-- No two instances of a namespace share type and name. -/
theorem unique_names {H : Hash} {w : World} (h : Reachable H w) {m n : Node} (hm : m ∈ w.table) (hn : n ∈ w.table)
    (h1 : m.xl.ns = n.xl.ns) (h2 : xtOf m.xl.flags = xtOf n.xl.flags) (h3 : m.xl.name = n.xl.name) : m = n :=
  uniq_eq h.good.shape hm hn ⟨h1, h2, h3⟩

/-- Every instance was validated. -/
theorem instances_valid {H : Hash} {w : World} (h : Reachable H w) {n : Node} (hn : n ∈ w.table) :
    (xtOf n.xl.flags = 1 ∨ xtOf n.xl.flags = 2) ∧ (xfOf n.xl.flags = 4 ∨ xfOf n.xl.flags = 8) ∧
    n.xl.name.length ≤ 15 ∧ (∀ c ∈ n.xl.name, 32 ≤ c ∧ c < 128) ∧
    (xtOf n.xl.flags = 2 → n.xl.globals.pool6Set = true) := by
  have v := h.good.shape.valid n hn
  have hx := v.xt
  have h64 := nat64_of_type hx
  simp only [XlValid, addValid, Bool.and_eq_true, nameValid, xtValid, xfValid, Bool.or_eq_true, beq_iff_eq,
    decide_eq_true_eq, List.all_eq_true] at v
  obtain ⟨⟨⟨⟨a, b⟩, c⟩, d⟩, e⟩ := v
  refine ⟨c, d, by omega, b, fun h2 => ?_⟩
  rw [h2] at h64
  rw [h64] at e
  simpa using e

/-- The histories in which every replacement (`replace`) finds the instance that it replaces. -/
def Replaces (H : Hash) : World → List Op → Prop
  | _, [] => True
  | w, o :: ops =>
    (∀ e c x, o = .replace e c → w.clones.find? (·.1 == c) = some x →
      (findInstance H w x.2.ns (xtOf x.2.flags) x.2.name).isSome) ∧
    ∀ r, step H w o = .ok r → Replaces H r.1 ops

/-- At most one Netfilter instance per namespace and type. -/
def OneNf (w : World) : Prop :=
  ∀ m ∈ w.table, ∀ n ∈ w.table, isNetfilter m.xl.flags = true → isNetfilter n.xl.flags = true →
    m.xl.ns = n.xl.ns → xtOf m.xl.flags = xtOf n.xl.flags → m = n

theorem OneNf.sub {w w' : World} (h : OneNf w) (hs : ∀ n ∈ w'.table, n ∈ w.table) : OneNf w' :=
  fun m hm n hn => h m (hs m hm) n (hs n hn)

theorem unlink_sub {w : World} {n m : Node} (h : m ∈ (unlink w n).table) : m ∈ w.table :=
  List.mem_of_mem_eraseP h

theorem unlinks_sub {m : Node} : ∀ {l : List Node} {w : World}, m ∈ (l.foldl unlink w).table → m ∈ w.table
  | [], _, h => h
  | _ :: _, _, h => unlink_sub (unlinks_sub (by exact h))

theorem flush_sub {xt : Flags} {m : Node} : ∀ {nss : List Ns} {w : World}, m ∈ (flush nss xt w).table → m ∈ w.table
  | [], _, h => h
  | _ :: _, _, h => unlinks_sub (flush_sub (by exact h))

theorem rm_sub {H : Hash} {ns : Ns} {xt : Flags} {name : Name} {w : World} {m : Node}
    (h : m ∈ (rm H ns xt name w).1.table) : m ∈ w.table := by
  unfold rm at h
  split at h
  · exact h
  split at h
  · exact h
  split at h
  · exact h
  · exact unlink_sub h

/-- The table after `addNode`. -/
theorem addNode_table {H : Hash} {e : Env} {x : Xl} {w : World} :
    (addNode H e x w).1.table = w.table ∨
    ∃ n, (addNode H e x w).1.table = n :: w.table ∧ n.xl = x := by
  rcases addNode_spec (H := H) (e := e) (x := x) (w := w) with ⟨_, h⟩ | ⟨_, _, _, _, _, _, n, h1, h2, _⟩
  · exact .inl (by rw [h])
  · exact .inr ⟨n, h1, h2⟩

/-- What the outcome of `xlator_init` looks like. -/
theorem xlInit_some {e : Env} {ns : Ns} {name : Name} {flags : Flags} {g : Glob} {h h' : Heap} {c : Code} {x : Xl}
    (hi : xlInit e ns name flags g h = .ok (h', c, some x)) :
    c = .ok ∧ x.ns = ns ∧ x.name = name ∧ x.flags = flags ∧ x.globals = g := by
  unfold xlInit at hi
  split at hi
  · cases hi
  split at hi
  · cases hi
  split at hi
  · cases hi
  obtain ⟨q, _, hq⟩ := map_ok hi
  obtain ⟨q1, q2⟩ := q
  cases q2 with
  | none => cases hq
  | some p =>
    obtain ⟨a, b, c', d⟩ := p
    simp only [Prod.mk.injEq, Option.some.injEq] at hq
    obtain ⟨_, hc, hx⟩ := hq
    subst hx
    exact ⟨hc.symm, rfl, rfl, rfl, rfl⟩

/-- The outcome of an addition: nothing changes in the table, or one instance is added. -/
theorem add_table {H : Hash} {e : Env} {ns : Ns} {flags : Flags} {name : Name} {g : Glob} {want : Bool} {w w' : World}
    {code : Code} (h : add H e ns flags name g want w = .ok (w', code)) :
    (code ≠ .ok ∧ w'.table = w.table) ∨
    (code = .ok ∧ collides w ns name flags = false ∧ ∃ n, w'.table = n :: w.table ∧ n.xl.ns = ns ∧ n.xl.name = name ∧
      n.xl.flags = flags ∧ n.xl.globals = g) := by
  unfold add at h
  split at h
  · injection h with h; injection h with h1 h2; subst h1 h2; exact .inl ⟨by simp, rfl⟩
  split at h
  · injection h with h; injection h with h1 h2; subst h1 h2; exact .inl ⟨by simp, rfl⟩
  obtain ⟨⟨h1, c1, x⟩, hi, h⟩ := bind_ok h
  cases x with
  | none =>
    dsimp only at h
    injection h with h; injection h with h2 h3; subst h2 h3
    refine .inl ⟨?_, rfl⟩
    intro hc
    subst hc
    unfold xlInit at hi
    split at hi
    · cases hi
    split at hi
    · cases hi
    split at hi
    · cases hi
    obtain ⟨q, _, hq⟩ := map_ok hi
    obtain ⟨q1, q2⟩ := q
    cases q2 <;> cases hq
  | some x =>
    obtain ⟨_, x1, x2, x3, x4⟩ := xlInit_some hi
    dsimp only at h
    split at h
    · obtain ⟨w2, hd, he⟩ := map_ok h
      injection he with he1 he2
      subst he1 he2
      exact .inl ⟨by simp, (destroy_same hd).1⟩
    rename_i hcol
    have hcol' : collides w ns name flags = false := Bool.eq_false_iff.2 hcol
    rcases addNode_spec (H := H) (e := e) (x := x) (w := { w with heap := h1 }) with
      ⟨hne, hw⟩ | ⟨hok, _, _, _, _, _, n, hn, hx, _⟩
    · revert h hne hw
      generalize addNode H e x { w with heap := h1 } = q
      obtain ⟨q1, q2⟩ := q
      intro h hne hw
      dsimp only at hne hw
      subst hw
      have h : (destroy flags x.objs none false { w with heap := h1 }).map (·, q2) = .ok (w', code) := by
        cases q2 <;> first | exact h | exact absurd rfl hne
      obtain ⟨w2, hd, he⟩ := map_ok h
      injection he with he1 he2
      subst he1 he2
      exact .inl ⟨hne, (destroy_same hd).1⟩
    · revert h hok hn
      generalize addNode H e x { w with heap := h1 } = q
      obtain ⟨q1, q2⟩ := q
      intro h hok hn
      dsimp only at hok hn
      subst hok
      cases want with
      | false =>
        injection h with h; injection h with h2 h3; subst h2 h3
        exact .inr ⟨rfl, hcol', n, hn, by rw [hx]; exact ⟨x1, x2, x3, x4⟩⟩
      | true =>
        obtain ⟨h4, _, he⟩ := map_ok h
        injection he with he1 he2
        subst he1 he2
        exact .inr ⟨rfl, hcol', n, hn, by rw [hx]; exact ⟨x1, x2, x3, x4⟩⟩

/-- The outcome of a replacement: nothing changes in the table; or there was no such instance and it is
added; or the old instance gives way to the new one. -/
theorem replace_table {H : Hash} {e : Env} {x : Xl} {w w' : World} {code : Code}
    (h : replace H e x w = .ok (w', code)) :
    (code ≠ .ok ∧ w'.table = w.table) ∨
    (code = .ok ∧ findInstance H w x.ns (xtOf x.flags) x.name = none ∧ XlValid x ∧
      ∃ n, w'.table = n :: w.table ∧ n.xl = x) ∨
    (code = .ok ∧ XlValid x ∧ ∃ old n, findInstance H w x.ns (xtOf x.flags) x.name = some old ∧
      w'.table = n :: w.table.eraseP (·.id == old.id) ∧ n.ops = old.ops ∧
      n.xl = (if isNat64 x.flags then { x with b := old.xl.b, c := old.xl.c } else x) ∧
      isNetfilter old.xl.flags = isNetfilter x.flags ∧
      (isNat64 x.flags = true → old.xl.globals.pool6 = x.globals.pool6)) := by
  unfold replace at h
  split at h
  · injection h with h; injection h with h1 h2; subst h1 h2; exact .inl ⟨by simp, rfl⟩
  rename_i hv
  have hvx : XlValid x := by unfold XlValid; simpa using hv
  split at h
  · injection h with h; injection h with h1 h2; subst h1 h2; exact .inl ⟨by simp, rfl⟩
  split at h
  · injection h with h; injection h with h1 h2; subst h1 h2; exact .inl ⟨by simp, rfl⟩
  obtain ⟨h1, hg, h⟩ := bind_ok h
  dsimp only at h
  have hfi : findInstance H { w with heap := h1 } x.ns (xtOf x.flags) x.name =
      findInstance H w x.ns (xtOf x.flags) x.name := rfl
  rw [hfi] at h
  cases hf : findInstance H w x.ns (xtOf x.flags) x.name with
  | none =>
    rw [hf] at h
    dsimp only at h
    rcases addNode_spec (H := H) (e := e) (x := x) (w := { w with heap := h1 }) with
      ⟨hne, hw⟩ | ⟨hok, _, _, _, _, _, n, hn, hx, _⟩
    · revert h hne hw
      generalize addNode H e x { w with heap := h1 } = q
      obtain ⟨q1, q2⟩ := q
      intro h hne hw
      dsimp only at hne hw
      subst hw
      have h : (destroy x.flags x.objs none false { w with heap := h1 }).map (·, q2) = .ok (w', code) := by
        cases q2 <;> first | exact h | exact absurd rfl hne
      obtain ⟨w2, hd, he⟩ := map_ok h
      injection he with he1 he2
      subst he1 he2
      exact .inl ⟨hne, (destroy_same hd).1⟩
    · revert h hok hn
      generalize addNode H e x { w with heap := h1 } = q
      obtain ⟨q1, q2⟩ := q
      intro h hok hn
      dsimp only at hok hn
      subst hok
      injection h with h; injection h with h2 h3; subst h2 h3
      exact .inr (.inl ⟨rfl, rfl, hvx, n, hn, hx⟩)
  | some old =>
    rw [hf] at h
    dsimp only at h
    split at h
    · obtain ⟨w2, hd, he⟩ := map_ok h
      injection he with he1 he2
      subst he1 he2
      exact .inl ⟨by simp, (destroy_same hd).1⟩
    rename_i hfr
    split at h
    · obtain ⟨w2, hd, he⟩ := map_ok h
      injection he with he1 he2
      subst he1 he2
      exact .inl ⟨by simp, (destroy_same hd).1⟩
    rename_i hp6
    obtain ⟨w2, hd, he⟩ := map_ok h
    injection he with he1 he2
    subst he1 he2
    unfold swap at hd
    obtain ⟨h3, _, he⟩ := map_ok hd
    subst he
    refine .inr (.inr ⟨rfl, hvx, old, _, rfl, rfl, rfl, rfl, ?_, fun h64 => ?_⟩)
    · have hfr' : framework old.xl.flags = framework x.flags := by simpa using hfr
      unfold framework at hfr'
      cases h1 : isNetfilter old.xl.flags <;> cases h2 : isNetfilter x.flags <;> simp_all
    · simpa [h64] using hp6

theorem collides_nf {w : World} {ns : Ns} {name : Name} {flags : Flags} (h : collides w ns name flags = false)
    {n : Node} (hn : n ∈ w.table) (h1 : n.xl.ns = ns) (h2 : xtOf n.xl.flags = xtOf flags)
    (h3 : isNetfilter flags = true) : isNetfilter n.xl.flags = false := by
  have := List.any_eq_false.1 h n hn
  rw [h1, h2, h3] at this
  simp at this
  exact this.2

/-- One step keeps the Netfilter instances unique, unless it is a replacement without an original. -/
theorem oneNf_step {H : Hash} {w : World} (g : Good H w) (h1 : OneNf w) {o : Op} {r : World × Code}
    (hr : ∀ e c x, o = .replace e c → w.clones.find? (·.1 == c) = some x →
      (findInstance H w x.2.ns (xtOf x.2.flags) x.2.name).isSome)
    (hs : step H w o = .ok r) : OneNf r.1 := by
  have same : r.1.table = w.table → OneNf r.1 := fun e => h1.sub (fun n hn => by rw [← e]; exact hn)
  obtain ⟨w', code⟩ := r
  cases o with
  | add e ns flags name gl want =>
    rcases add_table (show add H e ns flags name gl want w = .ok (w', code) from hs) with
      ⟨_, ht⟩ | ⟨_, hcol, n, ht, n1, n2, n3, n4⟩
    · exact same ht
    · intro a ha b hb fa fb hns hxt
      dsimp only at ha hb
      rw [ht] at ha hb
      rcases List.mem_cons.1 ha with ea | ma <;> rcases List.mem_cons.1 hb with eb | mb
      · rw [ea, eb]
      · subst ea
        have := collides_nf hcol mb (hns ▸ n1) (by rw [← hxt, n3]) (by rw [← n3]; exact fa)
        rw [fb] at this; cases this
      · subst eb
        have := collides_nf hcol ma (hns ▸ n1) (by rw [hxt, n3]) (by rw [← n3]; exact fb)
        rw [fa] at this; cases this
      · exact h1 a ma b mb fa fb hns hxt
  | init e ns flags name gl =>
    apply same
    unfold step at hs
    dsimp only at hs
    split at hs
    · injection hs with hs; injection hs with h1 h2; subst h1; rfl
    · obtain ⟨⟨a, b, c⟩, _, he⟩ := map_ok hs
      cases c <;> (injection he with he1 he2; subst he1; rfl)
  | edit c gl => injection hs with hs; injection hs with h1 h2; subst h1; exact same rfl
  | rm ns xt name =>
    injection hs with hs
    refine h1.sub (fun n hn => rm_sub (H := H) (ns := ns) (xt := xt) (name := name) ?_)
    rw [hs]; exact hn
  | flush nss xt => injection hs with hs; injection hs with h1' h2; subst h1'; exact h1.sub (fun n hn => flush_sub hn)
  | replace e c =>
    unfold step at hs
    dsimp only at hs
    cases hf : w.clones.find? (·.1 == c) with
    | none => rw [hf] at hs; injection hs with hs; injection hs with h1 h2; subst h1; exact same rfl
    | some q =>
      have hsome := hr e c q rfl hf
      rw [hf] at hs
      obtain ⟨q1, x⟩ := q
      rcases replace_table (show replace H e x w = .ok (w', code) from hs) with
        ⟨_, ht⟩ | ⟨_, hn, _⟩ | ⟨_, hv, old, n, hfo, ht, _, hx, hnf, _⟩
      · exact same ht
      · rw [hn] at hsome; cases hsome
      · obtain ⟨ho, k1, k2, k3⟩ := find_some g.shape hv.xt hfo
        have hxx : n.xl.ns = x.ns ∧ n.xl.flags = x.flags := by
          rw [hx]; cases isNat64 x.flags <;> exact ⟨rfl, rfl⟩
        have hne : ∀ m ∈ w.table.eraseP (·.id == old.id), m ∈ w.table ∧ m ≠ old := by
          intro m hm
          refine ⟨List.mem_of_mem_eraseP hm, fun e => ?_⟩
          subst e
          obtain ⟨t1, t2, e1, e2⟩ := erase_split g.shape ho
          rw [e2] at hm
          have hnd := nodup_ids g.shape
          rw [e1] at hnd
          have hp : (m.id :: (t1 ++ t2).map (·.id)).Nodup := by
            refine List.Perm.nodup_iff (perm_count fun d => ?_) |>.1 hnd
            simp only [List.map_append, List.map_cons, List.count_append, List.count_cons]; omega
          exact (List.nodup_cons.1 hp).1 (List.mem_map.2 ⟨m, hm, rfl⟩)
        intro a ha b hb fa fb hns hxt
        dsimp only at ha hb
        rw [ht] at ha hb
        rcases List.mem_cons.1 ha with ea | ma <;> rcases List.mem_cons.1 hb with eb | mb
        · rw [ea, eb]
        · subst ea
          refine absurd (h1 b (hne b mb).1 old ho fb ?_ ?_ ?_) (hne b mb).2
          · rw [hnf, ← hxx.2]; exact fa
          · rw [← hns, hxx.1, k1]
          · rw [← hxt, hxx.2, k2]
        · subst eb
          refine absurd (h1 a (hne a ma).1 old ho fa ?_ ?_ ?_) (hne a ma).2
          · rw [hnf, ← hxx.2]; exact fb
          · rw [hns, hxx.1, k1]
          · rw [hxt, hxx.2, k2]
        · exact h1 a (hne a ma).1 b (hne b mb).1 fa fb hns hxt
  | reap i =>
    apply same
    obtain ⟨a, ha, he⟩ := map_ok hs
    injection he with he1 he2
    subst he1
    unfold reap at ha
    split at ha
    · injection ha with ha; subst ha; rfl
    split at ha
    · injection ha with ha; subst ha; rfl
    · exact (destroy_same ha).1
  | pin ns flags name =>
    apply same
    unfold step at hs
    dsimp only at hs
    split at hs <;> (injection hs with hs; injection hs with h1 h2; subst h1; rfl)
  | pinNf ns =>
    apply same
    unfold step at hs
    dsimp only at hs
    split at hs <;> (injection hs with hs; injection hs with h1 h2; subst h1; rfl)
  | grab r =>
    apply same
    obtain ⟨a, ha, he⟩ := map_ok hs
    injection he with he1 he2
    subst he1
    unfold grab at ha
    split at ha
    · injection ha with ha; subst ha; rfl
    split at ha
    · cases ha
    · obtain ⟨b, _, hb⟩ := map_ok ha
      subst hb; rfl
  | put c =>
    apply same
    obtain ⟨a, ha, he⟩ := map_ok hs
    injection he with he1 he2
    subst he1
    unfold put at ha
    split at ha
    · injection ha with ha; subst ha; rfl
    · obtain ⟨b, _, hb⟩ := map_ok ha
      subst hb; rfl

/-- At most one Netfilter instance per namespace and type, as long as no replacement lacks an original.
Missing: with such replacements it is false (`netfilter_two`). -/
theorem netfilter_unique_partial {H : Hash} {ops : List Op} : ∀ {w w' : World}, Good H w → OneNf w →
    Replaces H w ops → run H w ops = .ok w' → OneNf w' := by
  induction ops with
  | nil => intro w w' _ h _ e; injection e with e; subst e; exact h
  | cons o ops ih =>
    intro w w' g h hr e
    obtain ⟨r, hs, he⟩ := bind_ok e
    obtain ⟨r', hs', g'⟩ := good_step g o
    rw [hs] at hs'; injection hs' with hs'; subst hs'
    exact ih g' (oneNf_step g h hr.1 hs) (hr.2 r hs) he

theorem oneNf_empty : OneNf World.empty := fun _ hm => by cases hm

/-! ## What each operation does -/

/-- Lookup by name: valid names and types find exactly the instance with this identity and one of the
frameworks asked for. -/
theorem lookup_spec {H : Hash} {w : World} (h : Reachable H w) (ns : Ns) (flags : Flags) (name : Name) :
    (∀ n, lookup H ns flags name w = .ok n ↔
      nameValid name = true ∧ xtValid (xtOf flags) = true ∧ n ∈ w.table ∧ n.xl.ns = ns ∧
        xtOf n.xl.flags = xtOf flags ∧ n.xl.name = name ∧ n.xl.flags &&& xfOf flags ≠ 0) ∧
    (lookup H ns flags name w = .error .EINVAL ↔ ¬ (nameValid name = true ∧ xtValid (xtOf flags) = true)) := by
  have s := h.good.shape
  constructor
  · intro n
    constructor
    · intro hl
      have := lookup_mem s hl
      unfold lookup at hl
      split at hl
      · cases hl
      rename_i hnm
      split at hl
      · cases hl
      rename_i hxt
      exact ⟨by simpa using hnm, by simpa using hxt, this⟩
    · rintro ⟨h1, h2, h3, h4, h5, h6, h7⟩
      unfold lookup
      rw [h1, h2, (find_iff s h2 n).2 ⟨h3, h4, h5, h6⟩]
      simp
      exact h7
  · unfold lookup
    cases h1 : nameValid name <;> cases h2 : xtValid (xtOf flags) <;> simp
    split
    · simp
    · split <;> simp

/-- The code of an addition. `taken`: the name is in use, or there is already a Netfilter instance. -/
def addCode (e : Env) (flags : Flags) (name : Name) (g : Glob) (taken : Bool) : Code :=
  if !addValid name flags g.pool6Set then .EINVAL
  else if !e.inst then .ENOMEM
  else if !e.glob then .EINVAL
  else if !(e.db 0 && e.db 1 && e.db 2 && (e.db 3 || xtOf flags == 1)) then .ENOMEM
  else if taken then .EEXIST
  else if isNetfilter flags && !e.ops then .ENOMEM
  else if isNetfilter flags && !e.hook then .EHOOK
  else .ok

theorem xlInit_code {e : Env} {ns : Ns} {name : Name} {flags : Flags} {g : Glob} {h h' : Heap} {c : Code}
    {x : Option Xl} (hv : addValid name flags g.pool6Set = true)
    (hi : xlInit e ns name flags g h = .ok (h', c, x)) :
    (x = none ∧ c = if !e.glob then .EINVAL else .ENOMEM) ∧
      (e.glob && (e.db 0 && e.db 1 && e.db 2 && (e.db 3 || xtOf flags == 1))) = false ∨
    x.isSome ∧ e.glob = true ∧ (e.db 0 && e.db 1 && e.db 2 && (e.db 3 || xtOf flags == 1)) = true := by
  simp only [addValid, Bool.and_eq_true] at hv
  unfold xlInit at hi
  rw [hv.1.1.2, hv.1.2] at hi
  simp only [Bool.not_true, Bool.false_eq_true, if_false] at hi
  split at hi
  · rename_i hg
    injection hi with hi
    injection hi with h1 h2
    injection h2 with h2 h3
    subst h1 h2 h3
    refine .inl ⟨⟨rfl, by rw [if_pos hg]⟩, ?_⟩
    have : e.glob = false := by simpa using hg
    rw [this]; rfl
  rename_i hg
  have hg' : e.glob = true := by simpa using hg
  obtain ⟨⟨q1, q2⟩, hq, he⟩ := map_ok hi
  have key : q2.isSome = (e.db 0 && e.db 1 && e.db 2 && (e.db 3 || xtOf flags == 1)) := by
    split at hq
    · rename_i h1
      rw [h1, Bool.or_true, Bool.and_true]
      unfold initSiit at hq
      dsimp only at hq
      split at hq
      · rename_i h0; have : e.db 0 = false := by simpa using h0
        injection hq with hq; injection hq with _ h2; subst h2
        rw [this]; rfl
      rename_i h0
      have h0' : e.db 0 = true := by simpa using h0
      rw [h0', Bool.true_and]
      split at hq
      · rename_i h0; have : e.db 1 = false := by simpa using h0
        obtain ⟨a, _, hq⟩ := map_ok hq
        injection hq with _ h2; subst h2
        rw [this]; rfl
      rename_i h0
      have h0' : e.db 1 = true := by simpa using h0
      rw [h0', Bool.true_and]
      split at hq
      · rename_i h0; have : e.db 2 = false := by simpa using h0
        obtain ⟨a, _, hq⟩ := map_ok hq
        injection hq with _ h2; subst h2
        rw [this]; rfl
      rename_i h0
      have h0' : e.db 2 = true := by simpa using h0
      rw [h0']
      injection hq with hq; injection hq with _ h2; subst h2; rfl
    · rename_i h1
      have h1' : (xtOf flags == 1) = false := by simpa using h1
      rw [h1', Bool.or_false]
      unfold initNat64 at hq
      dsimp only at hq
      split at hq
      · rename_i h0; have : e.db 0 = false := by simpa using h0
        injection hq with hq; injection hq with _ h2; subst h2
        rw [this]; rfl
      rename_i h0
      have h0' : e.db 0 = true := by simpa using h0
      rw [h0', Bool.true_and]
      split at hq
      · rename_i h0; have : e.db 1 = false := by simpa using h0
        obtain ⟨a, _, hq⟩ := map_ok hq
        injection hq with _ h2; subst h2
        rw [this]; rfl
      rename_i h0
      have h0' : e.db 1 = true := by simpa using h0
      rw [h0', Bool.true_and]
      split at hq
      · rename_i h0; have : e.db 2 = false := by simpa using h0
        obtain ⟨a, _, hq⟩ := map_ok hq
        injection hq with _ h2; subst h2
        rw [this]; rfl
      rename_i h0
      have h0' : e.db 2 = true := by simpa using h0
      rw [h0', Bool.true_and]
      split at hq
      · rename_i h0; have : e.db 3 = false := by simpa using h0
        obtain ⟨a, _, hq⟩ := map_ok hq
        injection hq with _ h2; subst h2
        rw [this]; rfl
      rename_i h0
      have h0' : e.db 3 = true := by simpa using h0
      rw [h0']
      injection hq with hq; injection hq with _ h2; subst h2; rfl
  rw [hg', Bool.true_and, ← key]
  cases q2 with
  | none =>
    injection he with h1 h2
    injection h2 with h2 h3
    subst h1 h2 h3
    exact .inl ⟨⟨rfl, rfl⟩, rfl⟩
  | some p =>
    injection he with h1 h2
    injection h2 with h2 h3
    subst h1 h2 h3
    exact .inr ⟨rfl, rfl, rfl⟩

/-- Adding an instance: when it works, and what it does. -/
theorem add_spec {H : Hash} {w : World} (h : Reachable H w) (e : Env) (ns : Ns) (flags : Flags) (name : Name)
    (g : Glob) (want : Bool) (taken : Bool)
    (ht : taken = true ↔ ∃ n ∈ w.table, n.xl.ns = ns ∧ xtOf n.xl.flags = xtOf flags ∧
      (n.xl.name = name ∨ (isNetfilter flags = true ∧ isNetfilter n.xl.flags = true))) :
    ∃ w', add H e ns flags name g want w = .ok (w', addCode e flags name g taken) ∧
      (addCode e flags name g taken ≠ .ok → w'.table = w.table) ∧
      (addCode e flags name g taken = .ok →
        ∃ n, w'.table = n :: w.table ∧ n.xl.ns = ns ∧ n.xl.name = name ∧ n.xl.flags = flags ∧ n.xl.globals = g) := by
  have htc : taken = collides w ns name flags := by
    rw [Bool.eq_iff_iff, ht, collides, List.any_eq_true]
    simp only [Bool.and_eq_true, Bool.or_eq_true, beq_iff_eq, and_assoc]
  obtain ⟨⟨w', code⟩, ha, _⟩ := good_add e ns flags name g want h.good
  have hcode : code = addCode e flags name g taken := by
    have ha' := ha
    unfold add at ha'
    unfold addCode
    split at ha'
    · rename_i hv; rw [if_pos hv]; injection ha' with ha'; injection ha' with _ h2; exact h2.symm
    rename_i hv
    rw [if_neg hv]
    have hv' : addValid name flags g.pool6Set = true := by simpa using hv
    split at ha'
    · rename_i hv; rw [if_pos hv]; injection ha' with ha'; injection ha' with _ h2; exact h2.symm
    rename_i hm
    rw [if_neg hm]
    obtain ⟨⟨h1, c1, x⟩, hi, ha'⟩ := bind_ok ha'
    rcases xlInit_code hv' hi with ⟨⟨hx, hc⟩, hb⟩ | ⟨hx, hb1, hb2⟩
    · subst hx
      dsimp only at ha'
      injection ha' with ha'; injection ha' with _ h2
      rw [← h2, hc]
      cases hg : e.glob with
      | false => rfl
      | true =>
        rw [hg, Bool.true_and] at hb
        rw [hb]; rfl
    · rw [hb1, hb2]
      cases x with
      | none => cases hx
      | some x =>
        obtain ⟨_, x1, x2, x3, x4⟩ := xlInit_some hi
        dsimp only at ha'
        have hcw : collides { w with heap := h1 } ns name flags = taken := by rw [htc]; rfl
        rw [hcw] at ha'
        cases taken with
        | true =>
          obtain ⟨w2, hd, he⟩ := map_ok ha'
          injection he with _ he2
          exact he2.symm
        | false =>
          simp only [Bool.not_true, Bool.false_eq_true, if_false] at ha' ⊢
          unfold addNode at ha'
          rw [x3] at ha'
          cases hnf : isNetfilter flags with
          | false =>
            rw [hnf] at ha'
            simp only [Bool.false_eq_true, if_false] at ha'
            simp only [Bool.false_and, Bool.false_eq_true, if_false]
            split at ha'
            · obtain ⟨a, _, he⟩ := map_ok ha'
              injection he with _ he; exact he.symm
            · injection ha' with ha'; injection ha' with _ he; exact he.symm
          | true =>
            rw [hnf] at ha'
            simp only [if_true] at ha'
            simp only [Bool.true_and]
            cases ho : e.ops with
            | false =>
              rw [ho] at ha'
              obtain ⟨a, _, he⟩ := map_ok ha'
              injection he with _ he; exact he.symm
            | true =>
              rw [ho] at ha'
              cases hk : e.hook with
              | false =>
                rw [hk] at ha'
                obtain ⟨a, _, he⟩ := map_ok ha'
                injection he with _ he; exact he.symm
              | true =>
                rw [hk] at ha'
                simp only [Bool.not_true, Bool.false_eq_true, if_false] at ha' ⊢
                split at ha'
                · obtain ⟨a, _, he⟩ := map_ok ha'
                  injection he with _ he; exact he.symm
                · injection ha' with ha'; injection ha' with _ he; exact he.symm
  subst hcode
  refine ⟨w', ha, fun hne => ?_, fun hok => ?_⟩
  · rcases add_table ha with ⟨_, h⟩ | ⟨h, _⟩
    · exact h
    · exact absurd h hne
  · rcases add_table ha with ⟨h, _⟩ | ⟨_, _, h⟩
    · exact absurd hok h
    · exact h

/-- Removal takes exactly the named instance out of the table; it is then destroyed together with its hooks. -/
theorem rm_spec {H : Hash} {w : World} (h : Reachable H w) (ns : Ns) (xt : Flags) (name : Name)
    (hx : xtValid xt = true) (hn : nameValid name = true) :
    ((rm H ns xt name w).2 = .ok ↔ ∃ n ∈ w.table, n.xl.ns = ns ∧ xtOf n.xl.flags = xt ∧ n.xl.name = name) ∧
    ((rm H ns xt name w).2 ≠ .ok → rm H ns xt name w = (w, .ESRCH)) ∧
    (∀ m, m ∈ (rm H ns xt name w).1.table ↔
      m ∈ w.table ∧ ¬ (m.xl.ns = ns ∧ xtOf m.xl.flags = xt ∧ m.xl.name = name)) := by
  have s := h.good.shape
  unfold rm
  rw [hx, hn]
  simp only [Bool.not_true, Bool.false_eq_true, if_false]
  cases hf : findInstance H w ns xt name with
  | none =>
    refine ⟨⟨fun h => by simp at h, fun ⟨n, hn, hk⟩ => absurd hk (find_none s hx hf hn)⟩, fun _ => rfl, fun m => ?_⟩
    exact ⟨fun hm => ⟨hm, find_none s hx hf hm⟩, fun h => h.1⟩
  | some n =>
    obtain ⟨hm, k⟩ := find_some s hx hf
    refine ⟨⟨fun _ => ⟨n, hm, k⟩, fun _ => rfl⟩, fun h => absurd rfl h, fun m => ?_⟩
    show m ∈ w.table.eraseP (·.id == n.id) ↔ _
    constructor
    · intro hme
      refine ⟨List.mem_of_mem_eraseP hme, fun k' => ?_⟩
      have e : m = n := uniq_eq s (List.mem_of_mem_eraseP hme) hm
        ⟨k'.1.trans k.1.symm, k'.2.1.trans k.2.1.symm, k'.2.2.trans k.2.2.symm⟩
      subst e
      obtain ⟨t1, t2, e1, e2⟩ := erase_split s hm
      rw [e2] at hme
      have hnd := nodup_ids s
      rw [e1] at hnd
      have hp : (m.id :: (t1 ++ t2).map (·.id)).Nodup := by
        refine List.Perm.nodup_iff (perm_count fun d => ?_) |>.1 hnd
        simp only [List.map_append, List.map_cons, List.count_append, List.count_cons]; omega
      exact (List.nodup_cons.1 hp).1 (List.mem_map.2 ⟨m, hme, rfl⟩)
    · rintro ⟨hmt, hk⟩
      refine (List.mem_eraseP_of_neg ?_).2 hmt
      simp only [beq_iff_eq]
      intro e
      exact hk (eq_of_id s hmt hm e ▸ k)

/-- Flushing takes exactly the instances of these namespaces and types out of the table. -/
theorem flush_spec {H : Hash} {xt : Flags} : ∀ (nss : List Ns) {w : World}, Good H w → ∀ m,
    m ∈ (flush nss xt w).table ↔ m ∈ w.table ∧ ¬ (m.xl.ns ∈ nss ∧ m.xl.flags &&& xt ≠ 0)
  | [], w, _, m => by simp [flush]
  | ns :: nss, w, g, m => by
    have one : m ∈ (flushOne ns xt w).table ↔ m ∈ w.table ∧ ¬ (m.xl.ns = ns ∧ m.xl.flags &&& xt ≠ 0) := by
      have key : ∀ (l : List Node) (w : World), Good H w → (∀ n ∈ l, n ∈ w.table) → (l.map (·.id)).Nodup →
          (m ∈ (l.foldl unlink w).table ↔ m ∈ w.table ∧ m ∉ l) := by
        intro l
        induction l with
        | nil => intro w _ _ _; simp
        | cons n l ih =>
          intro w g hs hd
          rw [List.map_cons, List.nodup_cons] at hd
          have hn : n ∈ w.table := hs n (List.mem_cons_self ..)
          have hmem : ∀ k, k ∈ (unlink w n).table ↔ k ∈ w.table ∧ k ≠ n := by
            intro k
            obtain ⟨t1, t2, e1, e2⟩ := erase_split g.shape hn
            show k ∈ w.table.eraseP (·.id == n.id) ↔ _
            have hnd := nodup_ids g.shape
            rw [e1] at hnd
            have hp : (n.id :: (t1 ++ t2).map (·.id)).Nodup := by
              refine List.Perm.nodup_iff (perm_count fun d => ?_) |>.1 hnd
              simp only [List.map_append, List.map_cons, List.count_append, List.count_cons]; omega
            rw [e2, e1]
            constructor
            · intro hk
              refine ⟨mem_split_sub hk, fun e => ?_⟩
              subst e
              exact (List.nodup_cons.1 hp).1 (List.mem_map.2 ⟨k, hk, rfl⟩)
            · rintro ⟨hk, hne⟩
              rcases mem_split_case hk with h | h
              · exact h
              · exact absurd h hne
          rw [List.foldl_cons, ih (unlink w n) (good_unlink g hn) ?_ hd.2, hmem]
          · simp only [List.mem_cons, not_or, and_assoc]
          · intro k hk
            refine (hmem k).2 ⟨hs k (List.mem_cons_of_mem _ hk), fun e => ?_⟩
            subst e
            exact hd.1 (List.mem_map.2 ⟨k, hk, rfl⟩)
      unfold flushOne
      rw [key _ w g (fun n hn => (List.mem_filter.1 hn).1)
        ((nodup_ids g.shape).sublist (List.Sublist.map _ List.filter_sublist))]
      simp only [List.mem_filter, Bool.and_eq_true, beq_iff_eq, bne_iff_ne]
      constructor
      · rintro ⟨a, b⟩; exact ⟨a, fun c => b ⟨a, c⟩⟩
      · rintro ⟨a, b⟩; exact ⟨a, fun c => b c.2⟩
    show m ∈ (flush nss xt (flushOne ns xt w)).table ↔ _
    rw [flush_spec nss (good_flushOne ns xt g) m, one]
    simp only [List.mem_cons]
    constructor
    · rintro ⟨⟨a, b⟩, c⟩
      refine ⟨a, fun ⟨d, e⟩ => ?_⟩
      rcases d with d | d
      · exact b ⟨d, e⟩
      · exact c ⟨d, e⟩
    · rintro ⟨a, b⟩
      exact ⟨⟨a, fun c => b ⟨.inl c.1, c.2⟩⟩, fun c => b ⟨.inr c.1, c.2⟩⟩

end Jool.Xlator
