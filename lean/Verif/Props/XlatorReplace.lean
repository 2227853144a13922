import Verif.Props.XlatorTable
/-
C48, C50: replacement, the view of a reader, examples and counterexamples.
-/
namespace Jool.Xlator

/-! ## Replacement -/

/-- The code of a replacement. `old`: the instance with the same identity. -/
def replaceCode (e : Env) (x : Xl) (old : Option Node) : Code :=
  if !addValid x.name x.flags x.globals.pool6Set then .EINVAL
  else if isNat64 x.flags && !e.bib then .EINVAL
  else if !e.inst then .ENOMEM
  else
    match old with
    | none =>
      if isNetfilter x.flags && !e.ops then .ENOMEM
      else if isNetfilter x.flags && !e.hook then .EHOOK
      else .ok
    | some o =>
      if isNetfilter o.xl.flags != isNetfilter x.flags then .EINVAL
      else if isNat64 x.flags && o.xl.globals.pool6 != x.globals.pool6 then .EINVAL
      else .ok

theorem framework_ne {f g : Flags} : (framework f != framework g) = (isNetfilter f != isNetfilter g) := by
  unfold framework
  cases isNetfilter f <;> cases isNetfilter g <;> rfl

/-- `replace_spec`, from the invariant. -/
theorem replace_good {H : Hash} {w : World} (h : Good H w) (e : Env) (k : Nat) (x : Xl)
    (hc : w.clones.find? (·.1 == k) = some (k, x)) (old : Option Node)
    (ho : ∀ n, old = some n ↔ n ∈ w.table ∧ n.xl.ns = x.ns ∧ xtOf n.xl.flags = xtOf x.flags ∧ n.xl.name = x.name) :
    ∃ w', step H w (.replace e k) = .ok (w', replaceCode e x old) ∧
      (replaceCode e x old ≠ .ok → w'.table = w.table) ∧
      (replaceCode e x old = .ok → ∃ n, n.xl.ns = x.ns ∧ n.xl.name = x.name ∧ n.xl.flags = x.flags ∧
        n.xl.globals = x.globals ∧ n.xl.stats = x.stats ∧ n.xl.a = x.a ∧
        (∀ o, old = some o → xtOf x.flags = 2 → n.xl.b = o.xl.b ∧ n.xl.c = o.xl.c) ∧
        (old = none ∨ xtOf x.flags = 1 → n.xl.b = x.b ∧ n.xl.c = x.c) ∧
        (∀ o, old = some o → n.ops = o.ops) ∧
        ∀ m, m ∈ w'.table ↔ m = n ∨ (m ∈ w.table ∧ old ≠ some m)) := by
  have s := h.shape
  obtain ⟨⟨w', code⟩, hr, _⟩ := good_step h (.replace e k)
  have hr' : replace H e x w = .ok (w', code) := by
    unfold step at hr
    dsimp only at hr
    rw [hc] at hr
    exact hr
  have hfind : XlValid x → findInstance H w x.ns (xtOf x.flags) x.name = old := by
    intro hv
    cases hf : findInstance H w x.ns (xtOf x.flags) x.name with
    | none =>
      cases hold : old with
      | none => rfl
      | some n => exact absurd ((ho n).1 hold).2 (find_none s hv.xt hf ((ho n).1 hold).1)
    | some n => exact ((ho n).2 (find_some s hv.xt hf)).symm
  have hcode : code = replaceCode e x old := by
    have ha := hr'
    unfold replace at ha
    unfold replaceCode
    split at ha
    · rename_i hv; rw [if_pos hv]; injection ha with ha; injection ha with _ h2; exact h2.symm
    rename_i hv
    rw [if_neg hv]
    have hvx : XlValid x := by unfold XlValid; simpa using hv
    split at ha
    · rename_i hv; rw [if_pos hv]; injection ha with ha; injection ha with _ h2; exact h2.symm
    rename_i hb
    rw [if_neg hb]
    split at ha
    · rename_i hv; rw [if_pos hv]; injection ha with ha; injection ha with _ h2; exact h2.symm
    rename_i hm
    rw [if_neg hm]
    obtain ⟨h1, _, ha⟩ := bind_ok ha
    dsimp only at ha
    have hfi : findInstance H { w with heap := h1 } x.ns (xtOf x.flags) x.name = old := hfind hvx
    rw [hfi] at ha
    cases hold : old with
    | none =>
      rw [hold] at ha
      dsimp only at ha ⊢
      unfold addNode at ha
      cases hnf : isNetfilter x.flags with
      | false =>
        rw [hnf] at ha
        simp only [Bool.false_eq_true, if_false] at ha
        injection ha with ha; injection ha with _ h2; exact h2.symm
      | true =>
        rw [hnf] at ha
        simp only [if_true] at ha
        simp only [Bool.true_and]
        cases hop : e.ops with
        | false =>
          rw [hop] at ha
          obtain ⟨a, _, he⟩ := map_ok ha
          injection he with _ he; exact he.symm
        | true =>
          rw [hop] at ha
          cases hk : e.hook with
          | false =>
            rw [hk] at ha
            obtain ⟨a, _, he⟩ := map_ok ha
            injection he with _ he; exact he.symm
          | true =>
            rw [hk] at ha
            injection ha with ha; injection ha with _ h2; exact h2.symm
    | some o =>
      rw [hold] at ha
      dsimp only at ha ⊢
      rw [framework_ne] at ha
      split at ha
      · rename_i hfr; rw [if_pos hfr]
        obtain ⟨a, _, he⟩ := map_ok ha
        injection he with _ he; exact he.symm
      rename_i hfr
      rw [if_neg hfr]
      split at ha
      · rename_i hp; rw [if_pos hp]
        obtain ⟨a, _, he⟩ := map_ok ha
        injection he with _ he; exact he.symm
      rename_i hp
      rw [if_neg hp]
      obtain ⟨a, _, he⟩ := map_ok ha
      injection he with _ he; exact he.symm
  subst hcode
  refine ⟨w', hr, fun hne => ?_, fun hok => ?_⟩
  · rcases replace_table hr' with ⟨_, h⟩ | ⟨h, _⟩ | ⟨h, _⟩
    · exact h
    · exact absurd h hne
    · exact absurd h hne
  · rcases replace_table hr' with ⟨h, _⟩ | ⟨_, hn, hv, n, ht, hx⟩ | ⟨_, hv, o, n, hfo, ht, hops, hx, hnf, hp⟩
    · exact absurd hok h
    · rw [hfind hv] at hn
      refine ⟨n, ?_⟩
      rw [hx]
      refine ⟨rfl, rfl, rfl, rfl, rfl, rfl, fun o ho => ?_, fun _ => ⟨rfl, rfl⟩, fun o ho => ?_, fun m => ?_⟩
      · rw [hn] at ho; cases ho
      · rw [hn] at ho; cases ho
      · rw [ht, hn]; simp
    · rw [hfind hv] at hfo
      obtain ⟨hom, _⟩ := (ho o).1 hfo
      have h64 := nat64_of_type hv.xt
      refine ⟨n, ?_⟩
      have hxx : n.xl.ns = x.ns ∧ n.xl.name = x.name ∧ n.xl.flags = x.flags ∧ n.xl.globals = x.globals ∧
          n.xl.stats = x.stats ∧ n.xl.a = x.a := by
        rw [hx]; cases isNat64 x.flags <;> exact ⟨rfl, rfl, rfl, rfl, rfl, rfl⟩
      refine ⟨hxx.1, hxx.2.1, hxx.2.2.1, hxx.2.2.2.1, hxx.2.2.2.2.1, hxx.2.2.2.2.2, fun o' ho' h2 => ?_, fun h1 => ?_,
        fun o' ho' => ?_, fun m => ?_⟩
      · rw [hfo] at ho'; injection ho' with ho'; subst ho'
        rw [h2] at h64
        rw [hx, h64]; exact ⟨rfl, rfl⟩
      · rcases h1 with h1 | h1
        · rw [h1] at hfo; cases hfo
        · rw [h1] at h64
          rw [hx, h64]; exact ⟨rfl, rfl⟩
      · rw [hfo] at ho'; injection ho' with ho'; subst ho'; exact hops
      · rw [ht, hfo, List.mem_cons]
        have : m ∈ w.table.eraseP (·.id == o.id) ↔ m ∈ w.table ∧ some o ≠ some m := by
          constructor
          · intro hme
            refine ⟨List.mem_of_mem_eraseP hme, fun e => ?_⟩
            injection e with e
            subst e
            obtain ⟨t1, t2, e1, e2⟩ := erase_split s hom
            rw [e2] at hme
            have hnd := nodup_ids s
            rw [e1] at hnd
            have hp : (o.id :: (t1 ++ t2).map (·.id)).Nodup := by
              refine List.Perm.nodup_iff (perm_count fun d => ?_) |>.1 hnd
              simp only [List.map_append, List.map_cons, List.count_append, List.count_cons]; omega
            exact (List.nodup_cons.1 hp).1 (List.mem_map.2 ⟨o, hme, rfl⟩)
          · rintro ⟨hmt, hk⟩
            refine (List.mem_eraseP_of_neg ?_).2 hmt
            simp only [beq_iff_eq]
            intro e
            exact hk (by rw [eq_of_id s hmt hom e])
        rw [this]

/-- Replacing an instance: when it works, and what it does. The new instance takes over the BIB, joold's queue and the hooks
of the old one; it keeps everything else. Other instances aren't affected. -/
theorem replace_spec {H : Hash} {w : World} (h : Reachable H w) (e : Env) (k : Nat) (x : Xl)
    (hc : w.clones.find? (·.1 == k) = some (k, x)) (old : Option Node)
    (ho : ∀ n, old = some n ↔ n ∈ w.table ∧ n.xl.ns = x.ns ∧ xtOf n.xl.flags = xtOf x.flags ∧ n.xl.name = x.name) :
    ∃ w', step H w (.replace e k) = .ok (w', replaceCode e x old) ∧
      (replaceCode e x old ≠ .ok → w'.table = w.table) ∧
      (replaceCode e x old = .ok → ∃ n, n.xl.ns = x.ns ∧ n.xl.name = x.name ∧ n.xl.flags = x.flags ∧
        n.xl.globals = x.globals ∧ n.xl.stats = x.stats ∧ n.xl.a = x.a ∧
        (∀ o, old = some o → xtOf x.flags = 2 → n.xl.b = o.xl.b ∧ n.xl.c = o.xl.c) ∧
        (old = none ∨ xtOf x.flags = 1 → n.xl.b = x.b ∧ n.xl.c = x.c) ∧
        (∀ o, old = some o → n.ops = o.ops) ∧
        ∀ m, m ∈ w'.table ↔ m = n ∨ (m ∈ w.table ∧ old ≠ some m)) :=
  replace_good h.good e k x hc old ho

/-! ## What a reader sees -/

/-- Instance `i` is in memory, with contents `x`. -/
def Sees (w : World) (i : Nat) (x : Xl) : Prop :=
  (∃ n ∈ w.table, n.id = i ∧ n.xl = x) ∨ (∃ l ∈ w.limbo, l.node.id = i ∧ l.node.xl = x)

/-- Nothing in memory is lost, and readers stay. -/
structure Frame (w w' : World) : Prop where
  readers : w'.readers = w.readers
  table : ∀ n ∈ w.table, n ∈ w'.table ∨ ∃ l ∈ w'.limbo, l.node = n
  limbo : ∀ l ∈ w.limbo, ∃ l' ∈ w'.limbo, l'.node = l.node

theorem Frame.sees {w w' : World} (f : Frame w w') {i : Nat} {x : Xl} (h : Sees w i x) : Sees w' i x := by
  rcases h with ⟨n, hn, a, b⟩ | ⟨l, hl, a, b⟩
  · rcases f.table n hn with h | ⟨l, hl, e⟩
    · exact .inl ⟨n, h, a, b⟩
    · exact .inr ⟨l, hl, by rw [e]; exact a, by rw [e]; exact b⟩
  · obtain ⟨l', hl', e⟩ := f.limbo l hl
    exact .inr ⟨l', hl', by rw [e]; exact a, by rw [e]; exact b⟩

theorem Frame.refl (w : World) : Frame w w := ⟨rfl, fun _ h => .inl h, fun l h => ⟨l, h, rfl⟩⟩

theorem Frame.trans {a b c : World} (f : Frame a b) (g : Frame b c) : Frame a c := by
  refine ⟨g.readers.trans f.readers, fun n hn => ?_, fun l hl => ?_⟩
  · rcases f.table n hn with h | ⟨l, hl, e⟩
    · exact g.table n h
    · obtain ⟨l', hl', e'⟩ := g.limbo l hl
      exact .inr ⟨l', hl', e'.trans e⟩
  · obtain ⟨l', hl', e⟩ := f.limbo l hl
    obtain ⟨l2, hl2, e2⟩ := g.limbo l' hl'
    exact ⟨l2, hl2, e2.trans e⟩

/-- Same table, unlinked instances and readers. -/
theorem Frame.same {a b : World} (h1 : b.table = a.table) (h2 : b.limbo = a.limbo) (h3 : b.readers = a.readers) :
    Frame a b :=
  ⟨h3, fun _ h => .inl (h1 ▸ h), fun l h => ⟨l, h2 ▸ h, rfl⟩⟩

theorem frame_unlinked {w : World} {n : Node} {m : Node} (hm : m ∈ w.table) (hd : ∀ k ∈ w.table, k.id = n.id → k = n) :
    m ∈ w.table.eraseP (·.id == n.id) ∨ m = n := by
  by_cases he : m.id = n.id
  · exact .inr (hd m hm he)
  · exact .inl ((List.mem_eraseP_of_neg (by simpa using he)).2 hm)

theorem frame_unlink {H : Hash} {w : World} {n : Node} (s : Shape H w) (hn : n ∈ w.table) : Frame w (unlink w n) := by
  refine ⟨rfl, fun m hm => ?_, fun l hl => ⟨l, List.mem_cons_of_mem _ hl, rfl⟩⟩
  rcases frame_unlinked hm (fun k hk e => eq_of_id s hk hn e) with h | h
  · exact .inl h
  · exact .inr ⟨_, List.mem_cons_self .., h.symm⟩

theorem frame_unlinks {H : Hash} : ∀ {l : List Node} {w : World}, Good H w → (∀ n ∈ l, n ∈ w.table) →
    (l.map (·.id)).Nodup → Frame w (l.foldl unlink w)
  | [], w, _, _, _ => Frame.refl w
  | n :: l, w, g, hs, hd => by
    rw [List.map_cons, List.nodup_cons] at hd
    rw [List.foldl_cons]
    have hn := hs n (List.mem_cons_self ..)
    refine (frame_unlink g.shape hn).trans (frame_unlinks (good_unlink g hn) (fun m hm => ?_) hd.2)
    have h1 : m ∈ w.table := hs m (List.mem_cons_of_mem _ hm)
    have h2 : m.id ≠ n.id := fun e => hd.1 (List.mem_map.2 ⟨m, hm, e⟩)
    exact (List.mem_eraseP_of_neg (by simpa using h2)).2 h1

theorem frame_flush {H : Hash} {xt : Flags} : ∀ (nss : List Ns) {w : World}, Good H w → Frame w (flush nss xt w)
  | [], w, _ => Frame.refl w
  | ns :: nss, _, g =>
    (frame_unlinks g (fun _ hn => (List.mem_filter.1 hn).1)
      ((nodup_ids g.shape).sublist (List.Sublist.map _ List.filter_sublist))).trans
      (frame_flush nss (good_flushOne ns xt g))

theorem frame_addNode {H : Hash} {e : Env} {x : Xl} {w : World} : Frame w (addNode H e x w).1 := by
  rcases addNode_spec (H := H) (e := e) (x := x) (w := w) with ⟨_, h⟩ | ⟨_, _, _, _, h1, h2, n, h3, _⟩
  · rw [h]; exact Frame.refl w
  · exact ⟨h2, fun m hm => .inl (by rw [h3]; exact List.mem_cons_of_mem _ hm), fun l hl => ⟨l, by rw [h1]; exact hl, rfl⟩⟩

theorem frame_destroy {f : Flags} {o : List Nat} {op : Option Nat} {u : Bool} {a b : World}
    (h : destroy f o op u a = .ok b) : Frame a b := by
  obtain ⟨h1, h2, h3, _⟩ := destroy_same h
  exact Frame.same h1 h2 h3

theorem frame_heap (w : World) (h : Heap) : Frame w { w with heap := h } := Frame.same rfl rfl rfl

theorem frame_add {H : Hash} {e : Env} {ns : Ns} {flags : Flags} {name : Name} {g : Glob} {want : Bool} {w w' : World}
    {code : Code} (h : add H e ns flags name g want w = .ok (w', code)) : Frame w w' := by
  unfold add at h
  split at h
  · injection h with h; injection h with h1 h2; subst h1; exact Frame.refl _
  split at h
  · injection h with h; injection h with h1 h2; subst h1; exact Frame.refl _
  obtain ⟨⟨h1, c1, x⟩, hi, h⟩ := bind_ok h
  cases x with
  | none => injection h with h; injection h with h2 h3; subst h2; exact frame_heap ..
  | some x =>
    dsimp only at h
    split at h
    · obtain ⟨w2, hd, he⟩ := map_ok h
      injection he with he1 he2
      subst he1
      exact (frame_heap w h1).trans (frame_destroy hd)
    have hf : Frame w (addNode H e x { w with heap := h1 }).1 := (frame_heap w h1).trans frame_addNode
    revert h hf
    generalize addNode H e x { w with heap := h1 } = q
    obtain ⟨q1, q2⟩ := q
    intro h hf
    refine hf.trans ?_
    by_cases hq : q2 = .ok
    · subst hq
      cases want with
      | false => injection h with h; injection h with h2 h3; subst h2; exact Frame.refl _
      | true =>
        obtain ⟨h4, _, he⟩ := map_ok h
        injection he with he1 he2
        subst he1
        exact Frame.same rfl rfl rfl
    · have h : (destroy flags x.objs none false q1).map (·, q2) = .ok (w', code) := by
        cases q2 <;> first | exact h | exact absurd rfl hq
      obtain ⟨w2, hd, he⟩ := map_ok h
      injection he with he1 he2
      subst he1
      exact frame_destroy hd

theorem frame_replace {H : Hash} {e : Env} {x : Xl} {w w' : World} {code : Code} (s : Shape H w)
    (h : replace H e x w = .ok (w', code)) : Frame w w' := by
  unfold replace at h
  split at h
  · injection h with h; injection h with h1 h2; subst h1; exact Frame.refl _
  rename_i hv
  have hvx : XlValid x := by unfold XlValid; simpa using hv
  split at h
  · injection h with h; injection h with h1 h2; subst h1; exact Frame.refl _
  split at h
  · injection h with h; injection h with h1 h2; subst h1; exact Frame.refl _
  obtain ⟨h1, _, h⟩ := bind_ok h
  refine (frame_heap w h1).trans ?_
  have s' := s.heap h1
  revert h s'
  generalize ({ w with heap := h1 } : World) = v
  intro h s'
  dsimp only at h
  cases hf : findInstance H v x.ns (xtOf x.flags) x.name with
  | none =>
    rw [hf] at h
    dsimp only at h
    have hfr : Frame v (addNode H e x v).1 := frame_addNode
    revert h hfr
    generalize addNode H e x v = q
    obtain ⟨q1, q2⟩ := q
    intro h hfr
    refine hfr.trans ?_
    by_cases hq : q2 = .ok
    · subst hq
      injection h with h; injection h with h2 h3; subst h2; exact Frame.refl _
    · have h : (destroy x.flags x.objs none false q1).map (·, q2) = .ok (w', code) := by
        cases q2 <;> first | exact h | exact absurd rfl hq
      obtain ⟨w2, hd, he⟩ := map_ok h
      injection he with he1 he2
      subst he1
      exact frame_destroy hd
  | some old =>
    have ho := (find_some s' hvx.xt hf).1
    rw [hf] at h
    dsimp only at h
    split at h
    · obtain ⟨w2, hd, he⟩ := map_ok h
      injection he with he1 he2; subst he1; exact frame_destroy hd
    split at h
    · obtain ⟨w2, hd, he⟩ := map_ok h
      injection he with he1 he2; subst he1; exact frame_destroy hd
    obtain ⟨w2, hd, he⟩ := map_ok h
    injection he with he1 he2; subst he1
    unfold swap at hd
    obtain ⟨h3, _, he⟩ := map_ok hd
    subst he
    refine ⟨rfl, fun m hm => ?_, fun l hl => ⟨l, List.mem_cons_of_mem _ hl, rfl⟩⟩
    rcases frame_unlinked hm (fun k hk e => eq_of_id s' hk ho e) with h | h
    · exact .inl (List.mem_cons_of_mem _ h)
    · exact .inr ⟨_, List.mem_cons_self .., h.symm⟩

/-- As long as a reader has not taken its copy, its instance stays in memory, unchanged. -/
theorem sees_step {H : Hash} {w : World} (g : Good H w) {r i : Nat} {x : Xl} (hr : (r, i) ∈ w.readers)
    (hx : Sees w i x) {o : Op} (ho : o ≠ .grab r) {q : World × Code} (hs : step H w o = .ok q) :
    (r, i) ∈ q.1.readers ∧ Sees q.1 i x := by
  have fr : Frame w q.1 → (r, i) ∈ q.1.readers ∧ Sees q.1 i x :=
    fun f => ⟨by rw [f.readers]; exact hr, f.sees hx⟩
  obtain ⟨w', code⟩ := q
  cases o with
  | add e ns flags name gl want => exact fr (frame_add hs)
  | init e ns flags name gl =>
    unfold step at hs
    dsimp only at hs
    split at hs
    · injection hs with hs; injection hs with h1 h2; subst h1; exact fr (Frame.refl _)
    · obtain ⟨⟨a, b, c⟩, _, he⟩ := map_ok hs
      cases c <;> (injection he with he1 he2; subst he1; exact fr (Frame.same rfl rfl rfl))
  | edit c gl => injection hs with hs; injection hs with h1 h2; subst h1; exact fr (Frame.same rfl rfl rfl)
  | rm ns xt name =>
    injection hs with hs
    apply fr
    have hs1 : (rm H ns xt name w).1 = w' := by rw [hs]
    show Frame w w'
    rw [← hs1]
    unfold rm
    split
    · exact Frame.refl _
    rename_i hxt
    split
    · exact Frame.refl _
    cases hf : findInstance H w ns xt name with
    | none => exact Frame.refl _
    | some n => exact frame_unlink g.shape (find_some g.shape (by simpa using hxt) hf).1
  | flush nss xt =>
    injection hs with hs; injection hs with h1 h2; subst h1; exact fr (frame_flush nss g)
  | replace e c =>
    unfold step at hs
    dsimp only at hs
    split at hs
    · injection hs with hs; injection hs with h1 h2; subst h1; exact fr (Frame.refl _)
    · exact fr (frame_replace g.shape hs)
  | reap j =>
    obtain ⟨a, ha, he⟩ := map_ok hs
    injection he with he1 he2
    subst he1
    unfold reap at ha
    cases hf : w.limbo.find? (·.node.id == j) with
    | none => rw [hf] at ha; injection ha with ha; subst ha; exact ⟨hr, hx⟩
    | some l =>
      rw [hf] at ha
      dsimp only at ha
      split at ha
      · injection ha with ha; subst ha; exact ⟨hr, hx⟩
      rename_i hw
      have hlm := List.mem_of_find?_eq_some hf
      have hfd := frame_destroy ha
      refine ⟨by rw [hfd.readers]; exact hr, hfd.sees ?_⟩
      rcases hx with h | ⟨m, hm, e1, e2⟩
      · exact .inl h
      · obtain ⟨l1, l2, h1, h2⟩ := find_erase hf
        have hmm := hm
        rw [h1] at hmm
        rcases mem_split_case hmm with hm' | hm'
        · exact .inr ⟨m, by show m ∈ w.limbo.eraseP _; rw [h2]; exact hm', e1, e2⟩
        · subst hm'
          exfalso
          apply hw
          have hact : r ∈ w.active := List.mem_map.2 ⟨_, hr, rfl⟩
          rcases g.shape.pinned _ hr with ⟨n, hn, en⟩ | ⟨l', hl', el', hrl⟩
          · have hd := (List.nodup_append.1 g.shape.ids).2.2
            exact absurd (en.trans e1.symm) (hd _ (List.mem_map.2 ⟨n, hn, rfl⟩) _ (List.mem_map.2 ⟨m, hlm, rfl⟩))
          · have : l' = m := limbo_unique g.shape hl' hlm (by rw [el', e1])
            subst this
            exact List.any_eq_true.2 ⟨r, hrl, List.contains_iff_mem.2 hact⟩
  | pin ns flags name =>
    unfold step at hs
    dsimp only at hs
    split at hs
    · injection hs with hs; injection hs with h1 h2; subst h1; exact ⟨hr, hx⟩
    · injection hs with hs; injection hs with h1 h2; subst h1
      exact ⟨List.mem_cons_of_mem _ hr, hx⟩
  | pinNf ns =>
    unfold step at hs
    dsimp only at hs
    split at hs
    · injection hs with hs; injection hs with h1 h2; subst h1; exact ⟨hr, hx⟩
    · injection hs with hs; injection hs with h1 h2; subst h1
      exact ⟨List.mem_cons_of_mem _ hr, hx⟩
  | grab k =>
    obtain ⟨a, ha, he⟩ := map_ok hs
    injection he with he1 he2
    subst he1
    unfold grab at ha
    split at ha
    · injection ha with ha; subst ha; exact ⟨hr, hx⟩
    split at ha
    · cases ha
    · obtain ⟨b, _, hb⟩ := map_ok ha
      subst hb
      refine ⟨List.mem_filter.2 ⟨hr, ?_⟩, hx⟩
      have : r ≠ k := fun e => ho (by rw [e])
      simpa using this
  | put c =>
    obtain ⟨a, ha, he⟩ := map_ok hs
    injection he with he1 he2
    subst he1
    unfold put at ha
    split at ha
    · injection ha with ha; subst ha; exact ⟨hr, hx⟩
    · obtain ⟨b, _, hb⟩ := map_ok ha
      subst hb; exact fr (Frame.same rfl rfl rfl)

/-- A reader obtains a copy of the instance exactly as it was when it was found, with all its databases, whatever removals,
replacements and destructions happen in between. -/
theorem snapshot {H : Hash} {w : World} (h : Reachable H w) {n : Node} (hn : n ∈ w.table) :
    ∀ (ops : List Op) (w2 : World), Op.grab w.next ∉ ops → run H (w.enter n) ops = .ok w2 →
      ∃ w3, grab w.next w2 = .ok w3 ∧ (w.next, n.xl) ∈ w3.clones ∧ ∀ d ∈ n.xl.objs, 0 < w3.heap.count d := by
  have key : ∀ (ops : List Op) {v w2 : World}, Good H v → (w.next, n.id) ∈ v.readers → Sees v n.id n.xl →
      (∀ q ∈ v.readers, q.1 = w.next → q = (w.next, n.id)) → w.next < v.next →
      Op.grab w.next ∉ ops → run H v ops = .ok w2 →
      Good H w2 ∧ (w.next, n.id) ∈ w2.readers ∧ Sees w2 n.id n.xl ∧
        (∀ q ∈ w2.readers, q.1 = w.next → q = (w.next, n.id)) := by
    intro ops
    induction ops with
    | nil => intro v w2 g hr hs hu _ _ e; injection e with e; subst e; exact ⟨g, hr, hs, hu⟩
    | cons o ops ih =>
      intro v w2 g hr hs hu hlt hno e
      obtain ⟨q, hq, e⟩ := bind_ok e
      obtain ⟨q', hq', g'⟩ := good_step g o
      rw [hq] at hq'; injection hq' with hq'; subst hq'
      have hne : o ≠ .grab w.next := fun e => hno (by rw [e]; exact List.mem_cons_self ..)
      obtain ⟨a, b⟩ := sees_step g hr hs hne hq
      have hlt' : w.next < q.1.next := g'.shape.readersLt _ a
      refine ih g' a b ?_ hlt' (fun hm => hno (List.mem_cons_of_mem _ hm)) e
      -- readers are numbered from `next` on
      have hnew : ∀ p ∈ q.1.readers, p ∈ v.readers ∨ p.1 = v.next := by
        obtain ⟨w', code⟩ := q
        intro p hp
        cases o with
        | add e ns flags name gl want => rw [(frame_add hq).readers] at hp; exact .inl hp
        | init e ns flags name gl =>
          unfold step at hq
          dsimp only at hq
          split at hq
          · injection hq with hq; injection hq with h1 h2; subst h1; exact .inl hp
          · obtain ⟨⟨a, b, c⟩, _, he⟩ := map_ok hq
            cases c <;> (injection he with he1 he2; subst he1; exact .inl hp)
        | edit c gl => injection hq with hq; injection hq with h1 h2; subst h1; exact .inl hp
        | rm ns xt name =>
          injection hq with hq
          have hs1 : (rm H ns xt name v).1 = w' := by rw [hq]
          have : w'.readers = v.readers := by
            rw [← hs1]
            unfold rm
            split
            · rfl
            split
            · rfl
            split <;> rfl
          rw [this] at hp; exact .inl hp
        | flush nss xt =>
          injection hq with hq; injection hq with h1 h2; subst h1
          rw [(frame_flush nss g).readers] at hp; exact .inl hp
        | replace e c =>
          unfold step at hq
          dsimp only at hq
          split at hq
          · injection hq with hq; injection hq with h1 h2; subst h1; exact .inl hp
          · rw [(frame_replace g.shape hq).readers] at hp; exact .inl hp
        | reap j =>
          obtain ⟨a, ha, he⟩ := map_ok hq
          injection he with he1 he2
          subst he1
          unfold reap at ha
          split at ha
          · injection ha with ha; subst ha; exact .inl hp
          split at ha
          · injection ha with ha; subst ha; exact .inl hp
          · rw [(destroy_same ha).2.2.1] at hp; exact .inl hp
        | pin ns flags name =>
          unfold step at hq
          dsimp only at hq
          split at hq
          · injection hq with hq; injection hq with h1 h2; subst h1; exact .inl hp
          · injection hq with hq; injection hq with h1 h2; subst h1
            rcases List.mem_cons.1 hp with rfl | hp
            · exact .inr rfl
            · exact .inl hp
        | pinNf ns =>
          unfold step at hq
          dsimp only at hq
          split at hq
          · injection hq with hq; injection hq with h1 h2; subst h1; exact .inl hp
          · injection hq with hq; injection hq with h1 h2; subst h1
            rcases List.mem_cons.1 hp with rfl | hp
            · exact .inr rfl
            · exact .inl hp
        | grab k =>
          obtain ⟨a, ha, he⟩ := map_ok hq
          injection he with he1 he2
          subst he1
          unfold grab at ha
          split at ha
          · injection ha with ha; subst ha; exact .inl hp
          split at ha
          · cases ha
          · obtain ⟨b, _, hb⟩ := map_ok ha
            subst hb; exact .inl (List.mem_filter.1 hp).1
        | put c =>
          obtain ⟨a, ha, he⟩ := map_ok hq
          injection he with he1 he2
          subst he1
          unfold put at ha
          split at ha
          · injection ha with ha; subst ha; exact .inl hp
          · obtain ⟨b, _, hb⟩ := map_ok ha
            subst hb; exact .inl hp
      intro p hp hp1
      rcases hnew p hp with h | h
      · exact hu p h hp1
      · omega
  intro ops w2 hno e
  have g0 := good_enter h.good hn
  obtain ⟨g, hr, hs, hu⟩ := key ops g0 (List.mem_cons_self ..) (.inl ⟨n, hn, rfl, rfl⟩)
    (by
      intro q hq hq1
      rcases List.mem_cons.1 hq with rfl | hq
      · rfl
      · have := h.good.shape.readersLt q hq; omega)
    (Nat.lt_succ_self _) hno e
  obtain ⟨w3, hg, g3⟩ := good_grab w.next g
  refine ⟨w3, hg, ?_⟩
  unfold grab at hg
  cases hf : w2.readers.find? (·.1 == w.next) with
  | none => exact absurd (by simp) (List.find?_eq_none.1 hf _ hr)
  | some p =>
    have hp : p = (w.next, n.id) := hu p (List.mem_of_find?_eq_some hf) (by simpa using List.find?_some hf)
    subst hp
    rw [hf] at hg
    dsimp only at hg
    have hmem : w2.memory n.id = some n.xl := by
      unfold World.memory
      rcases hs with ⟨m, hm, e1, e2⟩ | ⟨l, hl, e1, e2⟩
      · cases hf : w2.table.find? (·.id == n.id) with
        | none => exact absurd (by simp [e1]) (List.find?_eq_none.1 hf _ hm)
        | some m' =>
          have : m' = m := eq_of_id g.shape (List.mem_of_find?_eq_some hf) hm
            ((by simpa using List.find?_some hf : m'.id = n.id).trans e1.symm)
          subst this
          dsimp only; rw [e2]
      · have hd := (List.nodup_append.1 g.shape.ids).2.2
        have : w2.table.find? (·.id == n.id) = none := by
          rw [List.find?_eq_none]
          intro m hm
          simp only [beq_iff_eq]
          intro e
          exact hd _ (List.mem_map.2 ⟨m, hm, rfl⟩) _ (List.mem_map.2 ⟨l, hl, rfl⟩) (e.trans e1.symm)
        rw [this]
        dsimp only
        cases hf : w2.limbo.find? (·.node.id == n.id) with
        | none => exact absurd (by simp [e1]) (List.find?_eq_none.1 hf _ hl)
        | some l' =>
          have : l' = l := limbo_unique g.shape (List.mem_of_find?_eq_some hf) hl
            ((by simpa using List.find?_some hf : l'.node.id = n.id).trans e1.symm)
          subst this
          simp [e2]
    rw [hmem] at hg
    obtain ⟨h', _, hw3⟩ := map_ok hg
    have hcl : (w.next, n.xl) ∈ w3.clones := by rw [← hw3]; exact List.mem_cons_self ..
    refine ⟨hcl, fun d hd => ?_⟩
    rw [g3.counts.eq d]
    exact List.count_pos_iff.2 (List.mem_append_right _ (List.mem_flatMap.2 ⟨_, hcl, hd⟩))

end Jool.Xlator
