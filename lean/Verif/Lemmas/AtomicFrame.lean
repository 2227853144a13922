import Verif.Props.XlatorReplace
import Verif.Model.AtomicConfig
/-
What the steps of the instance table do to the databases that are not involved.
-/
namespace Jool.Atomic

open Xlator

/-- Database `d` belongs to an instance, or to one that awaits destruction. -/
def Vis (w : World) (d : Nat) : Prop :=
  (∃ n ∈ w.table, d ∈ n.xl.objs) ∨ (∃ l ∈ w.limbo, d ∈ l.node.xl.objs ∨ d ∈ l.owned)

/-- Copies and readers have distinct numbers. -/
structure Ids (w : World) : Prop where
  nodup : (w.clones.map (·.1) ++ w.readers.map (·.1)).Nodup
  lt : ∀ i ∈ w.clones.map (·.1) ++ w.readers.map (·.1), i < w.next

/-- The effect of a step. `S`: the databases it may publish; `K`: the copies it may change. -/
structure Eff (w w' : World) (S K : Nat → Prop) : Prop where
  vis : ∀ d, Vis w' d → Vis w d ∨ S d ∨ (w.heap.next ≤ d ∧ d < w'.heap.next)
  next : w.heap.next ≤ w'.heap.next
  clones : ∀ p ∈ w'.clones, (∃ q ∈ w.clones, q.1 = p.1 ∧ q.2.objs = p.2.objs) ∨
    ∀ d ∈ p.2.objs, Vis w d ∨ S d ∨ w.heap.next ≤ d
  keep : ∀ p ∈ w.clones, ¬ K p.1 → p ∈ w'.clones
  ids : Ids w → Ids w'

abbrev Non : Nat → Prop := fun _ => False

theorem Eff.refl (w : World) (S K : Nat → Prop) : Eff w w S K :=
  ⟨fun _ h => .inl h, Nat.le_refl _, fun p h => .inl ⟨p, h, rfl, rfl⟩, fun _ h _ => h, id⟩

theorem Eff.trans {a b c : World} {S K : Nat → Prop} (f : Eff a b S K) (g : Eff b c S K) : Eff a c S K := by
  have up : ∀ d, Vis b d ∨ S d ∨ b.heap.next ≤ d → Vis a d ∨ S d ∨ a.heap.next ≤ d := by
    rintro d (h | h | h)
    · exact (f.vis d h).imp id (Or.imp id fun h => h.1)
    · exact .inr (.inl h)
    · exact .inr (.inr (Nat.le_trans f.next h))
  have upv : ∀ d, Vis c d → Vis a d ∨ S d ∨ (a.heap.next ≤ d ∧ d < c.heap.next) := by
    intro d h
    rcases g.vis d h with h | h | h
    · rcases f.vis d h with h | h | h
      · exact .inl h
      · exact .inr (.inl h)
      · exact .inr (.inr ⟨h.1, Nat.lt_of_lt_of_le h.2 g.next⟩)
    · exact .inr (.inl h)
    · exact .inr (.inr ⟨Nat.le_trans f.next h.1, h.2⟩)
  refine ⟨upv, Nat.le_trans f.next g.next, fun p hp => ?_,
    fun p hp hk => g.keep p (f.keep p hp hk) hk, fun h => g.ids (f.ids h)⟩
  rcases g.clones p hp with ⟨q, hq, e1, e2⟩ | h
  · rcases f.clones q hq with ⟨r, hr, e3, e4⟩ | h
    · exact .inl ⟨r, hr, e3.trans e1, e4.trans e2⟩
    · exact .inr fun d hd => h d (e2 ▸ hd)
  · exact .inr fun d hd => up d (h d hd)

theorem Eff.weaken {w w' : World} {S K S' K' : Nat → Prop} (f : Eff w w' S K) (hS : ∀ d, S d → S' d)
    (hK : ∀ d, K d → K' d) : Eff w w' S' K' :=
  ⟨fun d h => (f.vis d h).imp id (Or.imp (hS d) id), f.next,
    fun p hp => (f.clones p hp).imp id fun h d hd => (h d hd).imp id (Or.imp (hS d) id),
    fun p hp hk => f.keep p hp fun h => hk (hK _ h), f.ids⟩

/-- Copies and readers stay the same. -/
theorem Eff.mk' {w w' : World} {S K : Nat → Prop} (h1 : ∀ d, Vis w' d → Vis w d ∨ S d)
    (h2 : w.heap.next ≤ w'.heap.next) (h3 : w'.clones = w.clones) (h4 : w'.readers = w.readers)
    (h5 : w.next ≤ w'.next) : Eff w w' S K := by
  refine ⟨fun d h => (h1 d h).imp id .inl, h2, fun p hp => .inl ⟨p, h3 ▸ hp, rfl, rfl⟩, fun p hp _ => h3 ▸ hp, fun h => ⟨?_, ?_⟩⟩
  · rw [h3, h4]; exact h.nodup
  · rw [h3, h4]; exact fun i hi => Nat.lt_of_lt_of_le (h.lt i hi) h5

theorem vis_same {w w' : World} (h1 : w'.table = w.table) (h2 : w'.limbo = w.limbo) {d : Nat} (h : Vis w' d) :
    Vis w d := by
  unfold Vis at *
  rw [h1, h2] at h
  exact h

/-- Only the heap and the hooks change. -/
theorem Eff.same {w w' : World} {S K : Nat → Prop} (h1 : w'.table = w.table) (h2 : w'.limbo = w.limbo)
    (h3 : w'.clones = w.clones) (h4 : w'.readers = w.readers) (h5 : w.next ≤ w'.next)
    (h6 : w.heap.next ≤ w'.heap.next) : Eff w w' S K :=
  Eff.mk' (fun _ h => .inl (vis_same h1 h2 h)) h6 h3 h4 h5

theorem getAll_next : ∀ {l : List Nat} {h h' : Heap}, getAll l h = .ok h' → h'.next = h.next
  | [], _, _, e => by injection e with e; rw [e]
  | o :: l, h, h', e => by
    obtain ⟨a, ha, hb⟩ := bind_ok e
    rw [getAll_next hb]
    unfold getObj at ha
    split at ha
    · cases ha
    · injection ha with ha; rw [← ha]

theorem putAll_next : ∀ {l : List Nat} {h h' : Heap}, putAll l h = .ok h' → h'.next = h.next
  | [], _, _, e => by injection e with e; rw [e]
  | o :: l, h, h', e => by
    obtain ⟨a, ha, hb⟩ := bind_ok e
    rw [putAll_next hb]
    unfold putObj at ha
    split at ha
    · cases ha
    · injection ha with ha; rw [← ha]

theorem destroy_next {f : Flags} {o : List Nat} {op : Option Nat} {u : Bool} {a b : World}
    (h : destroy f o op u a = .ok b) : b.heap.next = a.heap.next ∧ b.next = a.next := by
  unfold destroy at h
  obtain ⟨v, hv, h⟩ := bind_ok h
  obtain ⟨h', hp, e⟩ := map_ok h
  subst e
  have h2 : v.heap = a.heap ∧ v.next = a.next := by
    split at hv
    · split at hv
      · split at hv
        · cases hv
        · split at hv
          · injection hv with hv; subst hv; exact ⟨rfl, rfl⟩
          · cases hv
      · split at hv
        · injection hv with hv; subst hv; exact ⟨rfl, rfl⟩
        · split at hv
          · cases hv
          · injection hv with hv; subst hv; exact ⟨rfl, rfl⟩
    · injection hv with hv; subst hv; exact ⟨rfl, rfl⟩
  exact ⟨by show h'.next = _; rw [putAll_next hp, h2.1], h2.2⟩

theorem eff_destroy {f : Flags} {o : List Nat} {op : Option Nat} {u : Bool} {a b : World} {S K : Nat → Prop}
    (h : destroy f o op u a = .ok b) : Eff a b S K := by
  have h1 := destroy_same h
  have h2 := destroy_next h
  exact Eff.same h1.1 h1.2.1 h1.2.2.2.1 h1.2.2.1 (Nat.le_of_eq h2.2.symm) (Nat.le_of_eq h2.1.symm)

theorem eff_heap {w : World} {h : Heap} {S K : Nat → Prop} (hn : w.heap.next ≤ h.next) :
    Eff w { w with heap := h } S K := Eff.same rfl rfl rfl rfl (Nat.le_refl _) hn

theorem eff_addNode {H : Hash} {e : Env} {x : Xl} {w : World} {S K : Nat → Prop}
    (hx : ∀ d ∈ x.objs, S d) : Eff w (addNode H e x w).1 S K := by
  have hv : ∀ (d : Nat) (w' : World), Vis w' d → ∀ n : Node, w'.table = n :: w.table → w'.limbo = w.limbo → n.xl = x →
      Vis w d ∨ S d := by
    rintro d w' (⟨m, hm, hd⟩ | h) n h1 h2 h3
    · rw [h1] at hm
      rcases List.mem_cons.1 hm with hm | hm
      · subst hm; rw [h3] at hd; exact .inr (hx d hd)
      · exact .inl (.inl ⟨m, hm, hd⟩)
    · rw [h2] at h; exact .inl (.inr h)
  unfold addNode
  dsimp only
  split
  · split
    · exact Eff.refl ..
    · split
      · exact Eff.refl ..
      · exact Eff.mk' (fun d h => hv d _ h _ rfl rfl rfl) (Nat.le_refl _) rfl rfl (Nat.le_succ _)
  · exact Eff.mk' (fun d h => hv d _ h _ rfl rfl rfl) (Nat.le_refl _) rfl rfl (Nat.le_succ _)

theorem eff_unlink {w : World} {n : Node} {S K : Nat → Prop} (hn : n ∈ w.table) : Eff w (unlink w n) S K := by
  refine Eff.mk' (fun d h => .inl ?_) (Nat.le_refl _) rfl rfl (Nat.le_refl _)
  rcases h with ⟨m, hm, hd⟩ | ⟨l, hl, hd⟩
  · exact .inl ⟨m, List.mem_of_mem_eraseP hm, hd⟩
  · rcases List.mem_cons.1 hl with hl | hl
    · subst hl
      exact .inl ⟨n, hn, hd.elim id id⟩
    · exact .inr ⟨l, hl, hd⟩

theorem eff_unlinks {H : Hash} {S K : Nat → Prop} : ∀ {l : List Node} {w : World}, Good H w → (∀ n ∈ l, n ∈ w.table) →
    (l.map (·.id)).Nodup → Eff w (l.foldl unlink w) S K
  | [], w, _, _, _ => Eff.refl w ..
  | n :: l, w, g, hs, hd => by
    rw [List.map_cons, List.nodup_cons] at hd
    rw [List.foldl_cons]
    have hn := hs n (List.mem_cons_self ..)
    refine (eff_unlink hn).trans (eff_unlinks (good_unlink g hn) (fun m hm => ?_) hd.2)
    have h1 : m ∈ w.table := hs m (List.mem_cons_of_mem _ hm)
    have h2 : m.id ≠ n.id := fun e => hd.1 (List.mem_map.2 ⟨m, hm, e⟩)
    exact (List.mem_eraseP_of_neg (by simpa using h2)).2 h1

theorem eff_flush {H : Hash} {xt : Flags} {S K : Nat → Prop} : ∀ (nss : List Ns) {w : World}, Good H w →
    Eff w (flush nss xt w) S K
  | [], w, _ => Eff.refl w ..
  | ns :: nss, _, g =>
    (eff_unlinks g (fun _ hn => (List.mem_filter.1 hn).1)
      ((nodup_ids g.shape).sublist (List.Sublist.map _ List.filter_sublist))).trans
      (eff_flush nss (good_flushOne ns xt g))

/-- `xlator_init` only creates databases. -/
theorem xlInit_next {e : Env} {ns : Ns} {name : Name} {flags : Flags} {g : Glob} {h h' : Heap} {c : Code}
    {x : Option Xl} (hi : xlInit e ns name flags g h = .ok (h', c, x)) : h.next ≤ h'.next := by
  unfold xlInit at hi
  split at hi
  · injection hi with hi; injection hi with h1 _; rw [h1]; exact Nat.le_refl _
  split at hi
  · injection hi with hi; injection hi with h1 _; rw [h1]; exact Nat.le_refl _
  split at hi
  · injection hi with hi; injection hi with h1 _; rw [h1]; exact Nat.le_refl _
  obtain ⟨⟨q1, q2⟩, hq, hq2⟩ := map_ok hi
  have hle : h.next ≤ q1.next := by
    split at hq
    · unfold initSiit at hq
      dsimp only at hq
      split at hq
      · injection hq with hq; injection hq with h1 _; rw [h1]; exact Nat.le_refl _
      split at hq
      · obtain ⟨a, ha, he⟩ := map_ok hq
        injection he with h1 _; rw [← h1, putAll_next ha]; simp only [fresh]; omega
      split at hq
      · obtain ⟨a, ha, he⟩ := map_ok hq
        injection he with h1 _; rw [← h1, putAll_next ha]; simp only [fresh]; omega
      · injection hq with hq; injection hq with h1 _; rw [← h1]; simp only [fresh]; omega
    · unfold initNat64 at hq
      dsimp only at hq
      split at hq
      · injection hq with hq; injection hq with h1 _; rw [h1]; exact Nat.le_refl _
      split at hq
      · obtain ⟨a, ha, he⟩ := map_ok hq
        injection he with h1 _; rw [← h1, putAll_next ha]; simp only [fresh]; omega
      split at hq
      · obtain ⟨a, ha, he⟩ := map_ok hq
        injection he with h1 _; rw [← h1, putAll_next ha]; simp only [fresh]; omega
      split at hq
      · obtain ⟨a, ha, he⟩ := map_ok hq
        injection he with h1 _; rw [← h1, putAll_next ha]; simp only [fresh]; omega
      · injection hq with hq; injection hq with h1 _; rw [← h1]; simp only [fresh]; omega
  cases q2 with
  | none => injection hq2 with h1 _; rw [← h1]; exact hle
  | some p => obtain ⟨a, b, c', d⟩ := p; injection hq2 with h1 _; rw [← h1]; exact hle

theorem xlInit_fresh {e : Env} {ns : Ns} {name : Name} {flags : Flags} {g : Glob} {h h' : Heap} {c : Code} {x : Xl}
    {L : List Nat} (hc : Counts h L) (hi : xlInit e ns name flags g h = .ok (h', c, some x)) :
    (∀ d ∈ x.objs, h.next ≤ d) ∧ x.objs.Nodup ∧ Counts h' (x.objs ++ L) ∧ xtValid (xtOf flags) = true := by
  rcases xlInit_counts (e := e) (ns := ns) (name := name) (flags := flags) (g := g) hc with
    ⟨a, b, h1, _⟩ | ⟨a, y, h1, h2, _, _, _, _, h5, _, h3, h4⟩
  · rw [h1] at hi; cases hi
  · rw [h1] at hi
    injection hi with hi
    injection hi with e1 e2
    injection e2 with _ e3
    injection e3 with e3
    subst e1 e3
    exact ⟨h3, h4, h2, h5⟩

/-- A new copy. -/
theorem Ids.cons {w w' : World} (h : Ids w) {x : Xl} (h1 : w'.clones = (w.next, x) :: w.clones)
    (h2 : w'.readers = w.readers) (h3 : w'.next = w.next + 1) : Ids w' := by
  have hn : w.next ∉ w.clones.map (·.1) ++ w.readers.map (·.1) := fun hm => Nat.lt_irrefl _ (h.lt _ hm)
  refine ⟨?_, ?_⟩
  · rw [h1, h2]
    exact List.nodup_cons.2 ⟨hn, h.nodup⟩
  · rw [h1, h2, h3]
    intro i hi
    rcases List.mem_cons.1 hi with hi | hi
    · subst hi; exact Nat.lt_succ_self _
    · exact Nat.lt_succ_of_lt (h.lt i hi)

theorem eff_add {H : Hash} {e : Env} {ns : Ns} {flags : Flags} {name : Name} {g : Glob} {want : Bool} {w w' : World}
    {code : Code} {S K : Nat → Prop} (gd : Good H w) (h : add H e ns flags name g want w = .ok (w', code)) :
    Eff w w' S K := by
  unfold add at h
  split at h
  · injection h with h; injection h with h1 h2; subst h1; exact Eff.refl ..
  split at h
  · injection h with h; injection h with h1 h2; subst h1; exact Eff.refl ..
  obtain ⟨⟨h1, c1, x⟩, hi, h⟩ := bind_ok h
  have hle := xlInit_next hi
  cases x with
  | none => injection h with h; injection h with h2 h3; subst h2; exact eff_heap hle
  | some x =>
    obtain ⟨hfr, _, hcn, _⟩ := xlInit_fresh gd.counts hi
    have hlt : ∀ d ∈ x.objs, d < h1.next := fun d hd => hcn.lt d (List.mem_append_left _ hd)
    dsimp only at h
    split at h
    · obtain ⟨w2, hd, he⟩ := map_ok h
      injection he with he1 he2
      subst he1
      exact (eff_heap hle).trans (eff_destroy hd)
    have hf : Eff w (addNode H e x { w with heap := h1 }).1 (fun d => w.heap.next ≤ d ∧ d < h1.next) K :=
      (eff_heap hle).trans (eff_addNode (w := { w with heap := h1 }) fun d hd => ⟨hfr d hd, hlt d hd⟩)
    have hnx : h1.next ≤ (addNode H e x { w with heap := h1 }).1.heap.next :=
      (eff_addNode (H := H) (e := e) (x := x) (w := { w with heap := h1 }) (S := fun _ => True) (K := K) fun _ _ => trivial).next
    have hf : Eff w (addNode H e x { w with heap := h1 }).1 S K :=
      ⟨fun d hd => (hf.vis d hd).imp id fun h => .inr (h.elim (fun h => ⟨h.1, Nat.lt_of_lt_of_le h.2 hnx⟩) id), hf.next,
        fun p hp => (hf.clones p hp).imp id fun h d hd => (h d hd).imp id fun h => .inr (h.elim (fun h => h.1) id), hf.keep, hf.ids⟩
    rcases addNode_spec (H := H) (e := e) (x := x) (w := { w with heap := h1 }) with ⟨hne, hw⟩ | ⟨hok, _, hcl, _⟩
    · revert h hf hne hw
      generalize addNode H e x { w with heap := h1 } = q
      obtain ⟨q1, q2⟩ := q
      intro h hf hq hw
      refine hf.trans ?_
      have h : (destroy flags x.objs none false q1).map (·, q2) = .ok (w', code) := by
        cases q2 <;> first | exact h | exact absurd rfl hq
      obtain ⟨w2, hd, he⟩ := map_ok h
      injection he with he1 he2
      subst he1
      exact eff_destroy hd
    · revert h hf hok
      generalize addNode H e x { w with heap := h1 } = q
      obtain ⟨q1, q2⟩ := q
      intro h hf hok
      dsimp only at hok
      subst hok
      cases want with
      | false => injection h with h; injection h with h2 h3; subst h2; exact hf
      | true =>
        obtain ⟨h4, hg, he⟩ := map_ok h
        injection he with he1 he2
        subst he1
        have hq := getAll_next hg
        refine ⟨fun d hd => (hf.vis d (vis_same rfl rfl hd)).imp id (Or.imp id fun h => ⟨h.1, Nat.lt_of_lt_of_le h.2 (Nat.le_of_eq hq.symm)⟩),
          Nat.le_trans hf.next (Nat.le_of_eq hq.symm), fun p hp => ?_,
          fun p hp hk => List.mem_cons_of_mem _ (hf.keep p hp hk), fun hi => (hf.ids hi).cons rfl rfl rfl⟩
        rcases List.mem_cons.1 hp with hp | hp
        · subst hp
          exact .inr fun d hd => .inr (.inr (hfr d hd))
        · exact hf.clones p hp

theorem eff_replace {H : Hash} {e : Env} {x : Xl} {w w' : World} {code : Code} {K : Nat → Prop} (s : Shape H w)
    (h : replace H e x w = .ok (w', code)) : Eff w w' (· ∈ x.objs) K := by
  unfold replace at h
  split at h
  · injection h with h; injection h with h1 h2; subst h1; exact Eff.refl ..
  rename_i hv
  have hvx : XlValid x := by unfold XlValid; simpa using hv
  split at h
  · injection h with h; injection h with h1 h2; subst h1; exact Eff.refl ..
  split at h
  · injection h with h; injection h with h1 h2; subst h1; exact Eff.refl ..
  obtain ⟨h1, hg, h⟩ := bind_ok h
  refine (eff_heap (w := w) (h := h1) (Nat.le_of_eq (getAll_next hg).symm)).trans ?_
  have s' := s.heap h1
  revert h s'
  generalize ({ w with heap := h1 } : World) = v
  intro h s'
  dsimp only at h
  cases hf : findInstance H v x.ns (xtOf x.flags) x.name with
  | none =>
    rw [hf] at h
    dsimp only at h
    have hfr : Eff v (addNode H e x v).1 (· ∈ x.objs) K := eff_addNode fun d hd => hd
    revert h hfr
    generalize addNode H e x v = q
    obtain ⟨q1, q2⟩ := q
    intro h hfr
    refine hfr.trans ?_
    by_cases hq : q2 = .ok
    · subst hq
      injection h with h; injection h with h2 h3; subst h2; exact Eff.refl ..
    · have h : (destroy x.flags x.objs none false q1).map (·, q2) = .ok (w', code) := by
        cases q2 <;> first | exact h | exact absurd rfl hq
      obtain ⟨w2, hd, he⟩ := map_ok h
      injection he with he1 he2
      subst he1
      exact eff_destroy hd
  | some old =>
    obtain ⟨ho, _, hxt, _⟩ := find_some s' hvx.xt hf
    rw [hf] at h
    dsimp only at h
    split at h
    · obtain ⟨w2, hd, he⟩ := map_ok h
      injection he with he1 he2; subst he1; exact eff_destroy hd
    split at h
    · obtain ⟨w2, hd, he⟩ := map_ok h
      injection he with he1 he2; subst he1; exact eff_destroy hd
    obtain ⟨w2, hd, he⟩ := map_ok h
    injection he with he1 he2; subst he1
    unfold swap at hd
    obtain ⟨h3, hp, he⟩ := map_ok hd
    subst he
    have hnx : h3.next = v.heap.next := by
      split at hp
      · exact putAll_next hp
      · injection hp with hp; rw [hp]
    have h64 : isNat64 old.xl.flags = isNat64 x.flags := by
      rw [nat64_of_type (s'.valid old ho).xt, nat64_of_type hvx.xt, hxt]
    refine Eff.mk' (fun d h => ?_) (Nat.le_of_eq hnx.symm) rfl rfl (Nat.le_succ _)
    rcases h with ⟨m, hm, hd⟩ | ⟨l, hl, hd⟩
    · rcases List.mem_cons.1 hm with hm | hm
      · subst hm
        dsimp only at hd
        cases hx64 : isNat64 x.flags with
        | false => rw [hx64] at hd; exact .inr hd
        | true =>
          rw [hx64] at hd
          simp only [if_true, Xl.objs, hx64, List.mem_cons, List.not_mem_nil, or_false] at hd
          rcases hd with hd | hd | hd | hd
          · refine .inr ?_; simp [Xl.objs, hx64, hd]
          · refine .inr ?_; simp [Xl.objs, hx64, hd]
          · refine .inl (.inl ⟨old, ho, ?_⟩); simp [Xl.objs, h64, hx64, hd]
          · refine .inl (.inl ⟨old, ho, ?_⟩); simp [Xl.objs, h64, hx64, hd]
      · exact .inl (.inl ⟨m, List.mem_of_mem_eraseP hm, hd⟩)
    · rcases List.mem_cons.1 hl with hl | hl
      · subst hl
        refine .inl (.inl ⟨old, ho, ?_⟩)
        rcases hd with hd | hd
        · exact hd
        · dsimp only at hd
          split at hd
          · rename_i h6
            simp only [List.mem_cons, List.not_mem_nil, or_false] at hd
            simp only [Xl.objs, h6, if_true, List.mem_cons]
            rcases hd with hd | hd
            · exact .inl hd
            · exact .inr (.inl hd)
          · exact hd
      · exact .inl (.inr ⟨l, hl, hd⟩)

end Jool.Atomic
