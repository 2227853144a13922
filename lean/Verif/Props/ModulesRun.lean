import Verif.Props.ModulesSafe
/-
C85: the modules over whole histories.
-/
namespace Jool.Mods
open Jool.ModsSpec
open List (Perm)

set_option linter.unusedVariables false
set_option linter.unusedSimpArgs false

variable {s : St}

theorem ok_bind {α β : Type} (a : α) (g : α → Outcome β) : (Outcome.ok a).bind g = g a := rfl

/-- Only instances, candidates and caches change. -/
theorem tidy_mk (T : Tidy s) {b d : Bool} {h : List Res} {L C : List Inst} {n : Nat}
    (p : h.Perm (cacheB b ++ cacheD d ++ (base s ++ L.flatMap parts ++ C.flatMap cparts))) (hb : b = true → s.core = true) (hd : d = true → s.core = true)
    (hn : ∀ i, i ∈ L ∨ i ∈ C → i.xt = .nat64 → b = true ∧ d = true) (ho : ∀ i ∈ L, s.ins i.xt ≠ none ∧ i.ns ∈ s.nss) (hc : C ≠ [] → s.core = true)
    (hf : ∀ i, i ∈ L ∨ i ∈ C → i.id < n) : Tidy { s with held := h, insts := L, cands := C, next := n } :=
  ⟨⟨b, d, p.trans (want_perm b d { s with held := h, insts := L, cands := C, next := n }).symm, hb, hd, hn⟩, T.mods, T.refs, T.rules, ho, hc, hf, T.defrag, T.req⟩

theorem tidy_rule {x : Xt} (T : Tidy s) : ∃ s', step s (.rule x) = .ok s' ∧ Tidy s' := by
  show ∃ s', (if s.ins x = some true then (.ok { s with rules := set s.rules x (s.rules x + 1) } : Outcome St) else .ok s) = .ok s' ∧ Tidy s'
  by_cases h : s.ins x = some true
  · rw [if_pos h]
    refine ⟨_, rfl, ⟨T.held, T.mods, T.refs, ?_, T.owned, T.cands, T.fresh, T.defrag, T.req⟩⟩
    intro y hy
    show s.ins y = some true
    by_cases e : y = x
    · rw [e]; exact h
    · exact T.rules y (fun h0 => hy ((set_other _ _ e).trans h0))
  · rw [if_neg h]; exact ⟨s, rfl, T⟩

theorem tidy_unrule {x : Xt} (T : Tidy s) : ∃ s', step s (.unrule x) = .ok s' ∧ Tidy s' := by
  refine ⟨_, rfl, ⟨T.held, T.mods, T.refs, ?_, T.owned, T.cands, T.fresh, T.defrag, T.req⟩⟩
  intro y hy
  show s.ins y = some true
  by_cases e : y = x
  · subst e
    refine T.rules y (fun h0 => hy ?_)
    show set s.rules y (s.rules y - 1) y = 0
    rw [set_self, h0]
  · exact T.rules y (fun h0 => hy ((set_other _ _ e).trans h0))

theorem tidy_newNs {n : Nat} (T : Tidy s) : ∃ s', step s (.newNs n) = .ok s' ∧ Tidy s' := by
  show ∃ s', (if n ∈ s.nss then (.ok s : Outcome St) else .ok { s with nss := n :: s.nss }) = .ok s' ∧ Tidy s'
  by_cases h : n ∈ s.nss
  · rw [if_pos h]; exact ⟨s, rfl, T⟩
  · rw [if_neg h]
    exact ⟨_, rfl, ⟨T.held, T.mods, T.refs, T.rules, fun i hi => ⟨(T.owned i hi).1, List.mem_cons_of_mem _ (T.owned i hi).2⟩, T.cands, T.fresh, T.defrag, T.req⟩⟩

/-- A namespace ceases, and one of the modules is told. -/
theorem exit_to {n : Nat} {x : Xt} {l : List Res} (h : s.held.Perm (s.insts.flatMap parts ++ l)) (hc : ∀ i ∈ s.insts, Caches i.xt l) :
    ∃ h' L, (flushNet n x s).bind (flushBatch [n] x) = .ok { s with insts := L, held := h' } ∧ h'.Perm (L.flatMap parts ++ l) ∧ ∀ i, i ∈ L ↔ i ∈ s.insts ∧ ¬ (i.ns = n ∧ i.xt = x) := by
  obtain ⟨a, L, e, p, m⟩ := flushNets_to (nss := [n]) (x := x) h hc
  have e' : flushNet n x s = .ok { s with insts := L, held := a } := by
    unfold flushNets at e
    cases hf : flushNet n x s with
    | ub u => rw [hf] at e; cases e
    | ok s' => rw [hf] at e; exact e
  rw [e']
  dsimp only [Outcome.bind]
  obtain ⟨a', L', e2, p2, m2⟩ := flushBatch_to (s := { s with insts := L, held := a }) (nss := [n]) (x := x) p (fun i hi => hc i ((m i).1 hi).1)
  refine ⟨a', L', e2, p2, fun i => ?_⟩
  rw [m2]
  show i ∈ L ∧ _ ↔ _
  rw [m]
  simp only [List.mem_singleton]
  exact ⟨fun ⟨⟨u, v⟩, w⟩ => ⟨u, v⟩, fun ⟨u, v⟩ => ⟨⟨u, v⟩, v⟩⟩

/-- The same if the module is not inserted. -/
theorem exit_any {n : Nat} {x : Xt} {l : List Res} (h : s.held.Perm (s.insts.flatMap parts ++ l)) (hc : ∀ i ∈ s.insts, Caches i.xt l) (ho : ∀ i ∈ s.insts, s.ins i.xt ≠ none) :
    ∃ h' L, (if s.ins x ≠ none then (flushNet n x s).bind (flushBatch [n] x) else .ok s) = .ok { s with insts := L, held := h' } ∧ h'.Perm (L.flatMap parts ++ l) ∧
      ∀ i, i ∈ L ↔ i ∈ s.insts ∧ ¬ (i.ns = n ∧ i.xt = x) := by
  by_cases e : s.ins x ≠ none
  · rw [if_pos e]; exact exit_to h hc
  · rw [if_neg e]
    refine ⟨s.held, s.insts, rfl, h, fun i => ⟨fun hi => ⟨hi, fun c => ?_⟩, fun hi => hi.1⟩⟩
    exact ho i hi (by rw [c.2]; exact Classical.not_not.1 e)

theorem split_insts {b d : Bool} (p : s.held.Perm (cacheB b ++ cacheD d ++ others s)) :
    s.held.Perm (s.insts.flatMap parts ++ (cacheB b ++ cacheD d ++ (base s ++ s.cands.flatMap cparts))) := by
  refine p.trans ?_
  unfold others
  (perms)

theorem tidy_exitNs {n : Nat} (T : Tidy s) : ∃ s', step s (.exitNs n) = .ok s' ∧ Tidy s' := by
  show ∃ s', (if n ∈ s.nss ∧ s.req = none then
      ((if s.ins .siit ≠ none then (flushNet n .siit s).bind (flushBatch [n] .siit) else .ok s).bind fun s =>
        if s.ins .nat64 ≠ none then (flushNet n .nat64 s).bind (flushBatch [n] .nat64) else .ok s).map fun s => { s with nss := s.nss.filter (· ≠ n) }
    else .ok s) = .ok s' ∧ Tidy s'
  by_cases hcond : ¬ (n ∈ s.nss ∧ s.req = none)
  · rw [if_neg hcond]; exact ⟨s, rfl, T⟩
  rw [if_pos (Classical.not_not.1 hcond)]
  obtain ⟨b, d, p, h1, h2, h3⟩ := stock T
  have p := split_insts p
  have hc : ∀ L : List Inst, (∀ i ∈ L, i ∈ s.insts) → ∀ i ∈ L, Caches i.xt (cacheB b ++ cacheD d ++ (base s ++ s.cands.flatMap cparts)) :=
    fun L hL i hi => caches_mem (h3 i (.inl (hL i hi)))
  obtain ⟨a1, L1, e1, p1, m1⟩ := exit_any (x := .siit) (n := n) p (hc _ fun i hi => hi) (fun i hi => (T.owned i hi).1)
  rw [e1, ok_bind]; dsimp only
  have s1 : ∀ i ∈ L1, i ∈ s.insts := fun i hi => ((m1 i).1 hi).1
  obtain ⟨a2, L2, e2, p2, m2⟩ := exit_any (s := { s with insts := L1, held := a1 }) (x := .nat64) (n := n) p1 (hc L1 s1) (fun i hi => (T.owned i (s1 i hi)).1)
  dsimp only at e2
  rw [e2]
  have s2 : ∀ i ∈ L2, i ∈ s.insts ∧ i.ns ≠ n := by
    intro i hi
    have q2 := (m2 i).1 hi
    have q1 := (m1 i).1 q2.1
    refine ⟨q1.1, fun e => ?_⟩
    cases hx : i.xt with
    | siit => exact q1.2 ⟨e, hx⟩
    | nat64 => exact q2.2 ⟨e, hx⟩
  have T' : Tidy { s with held := a2, insts := L2, cands := s.cands, next := s.next } :=
    tidy_mk T (b := b) (d := d) (p2.trans (by perms)) h1 h2 (fun i hi => h3 i (hi.imp (fun h => (s2 i h).1) id)) (fun i hi => T.owned i (s2 i hi).1) T.cands
      (fun i hi => T.fresh i (hi.imp (fun h => (s2 i h).1) id))
  refine ⟨_, rfl, ⟨T'.held, T'.mods, T'.refs, T'.rules, fun i hi => ⟨(T'.owned i hi).1, ?_⟩, T'.cands, T'.fresh, T'.defrag, T'.req⟩⟩
  exact List.mem_filter.2 ⟨(T'.owned i hi).2, by simpa using (s2 i hi).2⟩

theorem tidy_start {x : Xt} (T : Tidy s) : ∃ s', step s (.start x) = .ok s' ∧ Tidy s' := by
  refine ⟨_, rfl, ?_⟩
  unfold start
  by_cases h : s.core ∧ s.req = none ∧ s.refs x ≠ 0
  · rw [if_pos h]
    refine ⟨T.held, T.mods, T.refs, T.rules, T.owned, T.cands, T.fresh, T.defrag, ?_⟩
    intro y hy
    cases hy
    intro e
    have hr := T.refs x
    have e : s.ins x = none := e
    rw [if_pos e] at hr
    exact h.2.2 hr
  · rw [if_neg h]; exact T

theorem tidy_done (T : Tidy s) : ∃ s', step s .done = .ok s' ∧ Tidy s' :=
  ⟨_, rfl, ⟨T.held, T.mods, T.refs, T.rules, T.owned, T.cands, T.fresh, T.defrag, nofun⟩⟩

/-- Requests that are not let through do nothing. -/
theorem request_tidy {ns : Nat} {go : Xt → Outcome St} (T : Tidy s) (h : ∀ x, s.req = some x → s.ins x ≠ none → s.core = true → ns ∈ s.nss → ∃ s', go x = .ok s' ∧ Tidy s') :
    ∃ s', request ns s go = .ok s' ∧ Tidy s' := by
  unfold request
  cases hq : s.req with
  | none => exact ⟨s, rfl, T⟩
  | some x =>
    show ∃ s', (if ns ∈ s.nss then go x else .ok s) = .ok s' ∧ Tidy s'
    by_cases hn : ns ∈ s.nss
    · rw [if_pos hn]; exact h x hq (T.req x hq) (T.mods x (T.req x hq)) hn
    · rw [if_neg hn]; exact ⟨s, rfl, T⟩

theorem tidy_flush {ns : Nat} (T : Tidy s) : ∃ s', step s (.flush ns) = .ok s' ∧ Tidy s' := by
  refine request_tidy T fun x hq hx hc hn => ?_
  obtain ⟨b, d, p, h1, h2, h3⟩ := stock T
  obtain ⟨a, L, e, p', m⟩ := flushNets_to (nss := [ns]) (x := x) (split_insts p) (fun i hi => caches_mem (h3 i (.inl hi)))
  have e' : flushNet ns x s = .ok { s with insts := L, held := a } := by
    unfold flushNets at e
    cases hf : flushNet ns x s with
    | ub u => rw [hf] at e; cases e
    | ok s' => rw [hf] at e; exact e
  rw [e']
  have s1 : ∀ i ∈ L, i ∈ s.insts := fun i hi => ((m i).1 hi).1
  exact ⟨_, rfl, tidy_mk T (b := b) (d := d) (n := s.next) (C := s.cands) (p'.trans (by perms)) h1 h2 (fun i hi => h3 i (hi.imp (s1 i) id)) (fun i hi => T.owned i (s1 i hi)) T.cands
    (fun i hi => T.fresh i (hi.imp (s1 i) id))⟩

theorem erase_flatMap {L : List Inst} {i : Inst} (h : i ∈ L) (g : Inst → List Res) : (L.flatMap g).Perm (g i ++ (L.erase i).flatMap g) := by
  have := (List.perm_cons_erase h).flatMap_right g
  rwa [List.flatMap_cons] at this

theorem tidy_rm {ns name : Nat} (T : Tidy s) : ∃ s', step s (.rm ns name) = .ok s' ∧ Tidy s' := by
  refine request_tidy T fun x hq hx hc hn => ?_
  unfold rm
  cases hf : s.insts.find? fun i => i.ns = ns ∧ i.xt = x ∧ i.name = name with
  | none => exact ⟨s, rfl, T⟩
  | some i =>
    have hi : i ∈ s.insts := List.mem_of_find?_eq_some hf
    obtain ⟨b, d, p, h1, h2, h3⟩ := stock T
    have p := split_insts p
    have hp := erase_flatMap hi parts
    obtain ⟨a, e, p'⟩ := destroy_to (i := i) (s := { s with insts := s.insts.erase i }) (l := (s.insts.erase i).flatMap parts ++ (cacheB b ++ cacheD d ++ (base s ++ s.cands.flatMap cparts)))
      (p.trans (by perms hp))
      (by intro e; obtain ⟨u, v, w⟩ := caches_mem (b := b) (d := d) (l := base s ++ s.cands.flatMap cparts) (h3 i (.inl hi)) e; exact ⟨List.mem_append_right _ u, List.mem_append_right _ v, List.mem_append_right _ w⟩)
    have s1 : ∀ j ∈ s.insts.erase i, j ∈ s.insts := fun j hj => List.mem_of_mem_erase hj
    refine ⟨_, e, tidy_mk T (b := b) (d := d) (n := s.next) (C := s.cands) (p'.trans (by perms)) h1 h2 (fun j hj => h3 j (hj.imp (s1 j) id)) (fun j hj => T.owned j (s1 j hj)) T.cands
      (fun j hj => T.fresh j (hj.imp (s1 j) id))⟩

theorem tidy_expire {i : Inst} (T : Tidy s) : ∃ s', step s (.expire i) = .ok s' ∧ Tidy s' := by
  show ∃ s', (if s.req ≠ none ∧ i ∈ s.cands then candDestroy i s else .ok s) = .ok s' ∧ Tidy s'
  by_cases hcond : ¬ (s.req ≠ none ∧ i ∈ s.cands)
  · rw [if_neg hcond]; exact ⟨s, rfl, T⟩
  replace hcond := Classical.not_not.1 hcond
  rw [if_pos hcond]
  have hi := hcond.2
  obtain ⟨b, d, p, h1, h2, h3⟩ := stock T
  have hp := erase_flatMap hi cparts
  rw [cparts_eq] at hp
  have hcc : s.core = true := T.cands (fun e => by rw [e] at hi; cases hi)
  unfold candDestroy
  obtain ⟨a1, e1, p1⟩ := xlatorPut_to (s := s) (id := i.id) (x := i.xt) (l := cacheB b ++ cacheD d ++ (.obj i.id .cand :: (base s ++ s.insts.flatMap parts ++ (s.cands.erase i).flatMap cparts)))
    (p.trans (by unfold others; perms hp)) (caches_mem (h3 i (.inr hi)))
  rw [e1]; dsimp only [Outcome.bind]
  obtain ⟨a2, e2, p2⟩ := free_to (s := { s with held := a1, cands := s.cands.erase i }) (r := .obj i.id .cand)
    (l := cacheB b ++ cacheD d ++ (base s ++ s.insts.flatMap parts ++ (s.cands.erase i).flatMap cparts)) (p1.trans (by perms))
  have s1 : ∀ j ∈ s.cands.erase i, j ∈ s.cands := fun j hj => List.mem_of_mem_erase hj
  exact ⟨_, e2, tidy_mk T (b := b) (d := d) (n := s.next) (L := s.insts) p2 h1 h2 (fun j hj => h3 j (hj.imp id (s1 j))) T.owned (fun _ => hcc) (fun j hj => T.fresh j (hj.imp id (s1 j)))⟩

/-- A new instance or candidate: `k` is its own memory. -/
theorem new_to {f : Fail} {x : Xt} {k : Kind} (hk : k = .inst ∨ k = .cand) (T : Tidy s) :
    (∃ h, (xlatorInit f s.next x { s with next := s.next + 1, held := .obj s.next k :: s.held }) = .ok (false, { s with next := s.next + 1, held := h }) ∧
      ∃ b d, h.Perm (.obj s.next k :: (cacheB b ++ cacheD d ++ others s)) ∧ ∀ i, i ∈ s.insts ∨ i ∈ s.cands → i.xt = .nat64 → b = true ∧ d = true) ∨
    (∃ h, (xlatorInit f s.next x { s with next := s.next + 1, held := .obj s.next k :: s.held }) = .ok (true, { s with next := s.next + 1, held := h }) ∧
      ∃ b d, h.Perm (.obj s.next k :: inner s.next x ++ (cacheB b ++ cacheD d ++ others s)) ∧ (x = .nat64 → b = true ∧ d = true) ∧
        ∀ i, i ∈ s.insts ∨ i ∈ s.cands → i.xt = .nat64 → b = true ∧ d = true) := by
  obtain ⟨b, d, p, h1, h2, h3⟩ := stock T
  have R := stock_rest h3
  have R' : Rest b d (.obj s.next k :: others s) := by
    refine ⟨?_, ?_, ?_, ?_⟩
    · simp [R.bibs]
    · simp [R.deferred]
    · intro hb id; rcases hk with rfl | rfl <;> simp [R.bib hb id]
    · intro hd id; rcases hk with rfl | rfl <;> simp [R.joold hd id]
  rcases xlatorInit_to (f := f) (id := s.next) (x := x) (s := { s with next := s.next + 1, held := .obj s.next k :: s.held }) (b := b) (d := d) (l := .obj s.next k :: others s)
    (by show (Res.obj s.next k :: s.held).Perm _; exact (p.cons _).trans (by perms)) R' with ⟨b', g1, h, e, q⟩ | ⟨b', d', g1, g2, g3, h, e, q⟩
  · exact .inl ⟨h, e, b', d, q.trans (by perms), fun i hi ht => ⟨g1 (h3 i hi ht).1, (h3 i hi ht).2⟩⟩
  · exact .inr ⟨h, e, b', d', q.trans (by perms), g3, fun i hi ht => ⟨g1 (h3 i hi ht).1, g2 (h3 i hi ht).2⟩⟩

/-- What is not acquired in the end leaves at most a cache. -/
theorem tidy_caches (T : Tidy s) (hc : s.core = true) {b d : Bool} {h : List Res} (p : h.Perm (cacheB b ++ cacheD d ++ others s))
    (h3 : ∀ i, i ∈ s.insts ∨ i ∈ s.cands → i.xt = .nat64 → b = true ∧ d = true) : Tidy { s with held := h, next := s.next + 1 } :=
  tidy_mk T (b := b) (d := d) (L := s.insts) (C := s.cands) p (fun _ => hc) (fun _ => hc) h3 T.owned T.cands (fun i hi => by have := T.fresh i hi; omega)

theorem tidy_candidate {ns name : Nat} {nf : Bool} {f : Fail} (T : Tidy s) : ∃ s', step s (.candidate ns name nf f) = .ok s' ∧ Tidy s' := by
  refine request_tidy T fun x hq hx hc hn => ?_
  unfold candidate alloc
  by_cases k1 : f (.obj s.next .cand) = true
  · simp only [k1, if_true]
    obtain ⟨b, d, p, h1, h2, h3⟩ := stock T
    exact ⟨_, rfl, tidy_caches T hc p h3⟩
  · simp only [k1, if_false, Bool.false_eq_true, Bool.true_eq_false, St.put]
    rcases new_to (f := f) (x := x) (k := .cand) (.inr rfl) T with ⟨h, e, b, d, q, h3⟩ | ⟨h, e, b, d, q, g, h3⟩
    · rw [e, ok_bind]
      simp only [if_true]
      obtain ⟨a, e', p'⟩ := free_to (s := { s with next := s.next + 1, held := h }) q
      exact ⟨_, e', tidy_caches T hc p' h3⟩
    · rw [e, ok_bind]
      simp only [if_false, Bool.true_eq_false]
      refine ⟨_, rfl, tidy_mk T (b := b) (d := d) (L := s.insts) (C := ⟨s.next, ns, x, name, nf⟩ :: s.cands) ?_ (fun _ => hc) (fun _ => hc) ?_ T.owned (fun _ => hc) ?_⟩
      · refine q.trans ?_
        rw [List.flatMap_cons, cparts_eq]
        unfold others
        (perms)
      · intro i hi ht
        rcases hi with hi | hi
        · exact h3 i (.inl hi) ht
        · rcases List.mem_cons.1 hi with rfl | hi
          · exact g ht
          · exact h3 i (.inr hi) ht
      · intro i hi
        rcases hi with hi | hi
        · have := T.fresh i (.inl hi); omega
        · rcases List.mem_cons.1 hi with rfl | hi
          · show s.next < s.next + 1; omega
          · have := T.fresh i (.inr hi); omega

/-- The instance is listed. -/
theorem listed {i : Inst} {h : List Res} {b d : Bool} (T : Tidy s) (hid : i.id = s.next) (hns : i.ns ∈ s.nss) (hx : s.ins i.xt ≠ none) (hc : s.core = true)
    (q : h.Perm (parts i ++ (cacheB b ++ cacheD d ++ others s))) (g : i.xt = .nat64 → b = true ∧ d = true)
    (h3 : ∀ j, j ∈ s.insts ∨ j ∈ s.cands → j.xt = .nat64 → b = true ∧ d = true) : Tidy { s with held := h, insts := i :: s.insts, next := s.next + 1 } := by
  refine tidy_mk T (b := b) (d := d) (L := i :: s.insts) (C := s.cands) ?_ (fun _ => hc) (fun _ => hc) ?_ ?_ T.cands ?_
  · refine q.trans ?_
    rw [List.flatMap_cons]
    unfold others
    (perms)
  · intro j hj ht
    rcases hj with hj | hj
    · rcases List.mem_cons.1 hj with rfl | hj
      · exact g ht
      · exact h3 j (.inl hj) ht
    · exact h3 j (.inr hj) ht
  · intro j hj
    rcases List.mem_cons.1 hj with rfl | hj
    · exact ⟨hx, hns⟩
    · exact T.owned j hj
  · intro j hj
    rcases hj with hj | hj
    · rcases List.mem_cons.1 hj with rfl | hj
      · omega
      · have := T.fresh j (.inl hj); omega
    · have := T.fresh j (.inr hj); omega

theorem defrag_there {i : Inst} {s' : St} (hx : s.ins i.xt ≠ none) (T : Tidy s) (h1 : s'.defrag = s.defrag) (h2 : s'.gen = s.gen) (h3 : s'.ins = s.ins) : callDefrag i s' = .ok s' := by
  unfold callDefrag
  by_cases e : i.xt = .nat64
  · rw [if_pos e, if_pos]
    rw [e] at hx
    rw [h1, h2, h3]
    exact ⟨T.defrag hx, hx⟩
  · rw [if_neg e]

theorem mem_core {b d : Bool} {h l : List Res} {r : Res} (hc : s.core = true) (hr : r ∈ coreRes) (p : h.Perm (l ++ (cacheB b ++ cacheD d ++ others s))) : r ∈ h := by
  rw [p.mem_iff]
  unfold others base
  rw [hc, if_pos rfl]
  simp [hr]

theorem tidy_add {ns name : Nat} {nf : Bool} {f : Fail} (T : Tidy s) : ∃ s', step s (.add ns name nf f) = .ok s' ∧ Tidy s' := by
  refine request_tidy T fun x hq hx hc hn => ?_
  unfold add alloc
  by_cases k1 : f (.obj s.next .inst) = true
  · simp only [k1, if_true]
    obtain ⟨b, d, p, h1, h2, h3⟩ := stock T
    exact ⟨_, rfl, tidy_caches T hc p h3⟩
  simp only [k1, if_false, Bool.false_eq_true, Bool.true_eq_false, St.put]
  rcases new_to (f := f) (x := x) (k := .inst) (.inl rfl) T with ⟨h, e, b, d, q, h3⟩ | ⟨h, e, b, d, q, g, h3⟩
  · rw [e, ok_bind]
    simp only [if_true]
    obtain ⟨a, e', p'⟩ := free_to (s := { s with next := s.next + 1, held := h }) q
    exact ⟨_, e', tidy_caches T hc p' h3⟩
  rw [e, ok_bind]
  simp only [if_false, Bool.true_eq_false]
  have hops : Res.obj s.next .ops ∉ cacheB b ++ cacheD d ++ others s := by
    have := no_obj (k := .ops) T.fresh (Nat.le_refl s.next)
    cases b <;> cases d <;> simp [cacheB, cacheD, this]
  have undo : ∃ s', destroy ⟨s.next, ns, x, name, nf⟩ false { s with next := s.next + 1, held := h } = .ok s' ∧ Tidy s' := by
    obtain ⟨a, e', p'⟩ := destroyNew_to (i := ⟨s.next, ns, x, name, nf⟩) (s := { s with next := s.next + 1, held := h }) q (caches_mem g) hops
    exact ⟨_, e', tidy_caches T hc p' h3⟩
  by_cases k2 : collides { s with next := s.next + 1, held := h } ⟨s.next, ns, x, name, nf⟩ = true
  · rw [if_pos k2]
    exact undo
  rw [if_neg k2]
  unfold xlatorAddHook
  cases nf with
  | false =>
    simp only [if_false, Bool.false_eq_true, Bool.true_eq_false, ok_bind]
    exact ⟨_, defrag_there (s := s) hx T rfl rfl rfl, listed T rfl hn hx hc (q.trans (by rw [parts_eq]; simp only [Bool.false_eq_true, if_false]; perms)) g h3⟩
  | true =>
    simp only [if_true]
    by_cases k3 : f (.obj s.next .ops) = true
    · simp only [k3, if_true, ok_bind]
      exact undo
    simp only [k3, if_false, Bool.false_eq_true]
    by_cases k4 : f (.obj s.next .hooks) = true
    · simp only [k4, if_true]
      have : St.free (St.put { s with next := s.next + 1, held := h } (.obj s.next .ops)) (.obj s.next .ops) = .ok { s with next := s.next + 1, held := h } := by
        simp [St.free, St.put]
      rw [this]
      simp only [Outcome.map, ok_bind, if_true]
      exact undo
    simp only [k4, if_false, Bool.false_eq_true, ok_bind, Bool.true_eq_false, St.put]
    rw [show St.use { s with next := s.next + 1, held := Res.obj s.next .hooks :: Res.obj s.next .ops :: h } .list = .ok { s with next := s.next + 1, held := Res.obj s.next .hooks :: Res.obj s.next .ops :: h } from
      if_pos (by have := mem_core (r := .list) hc (by decide) q; simp [this]), ok_bind]
    exact ⟨_, defrag_there (s := s) hx T rfl rfl rfl, listed T rfl hn hx hc (((q.cons _).cons _).trans (by rw [parts_eq]; simp only [if_true]; perms)) g h3⟩

/-! ## Packets and timers -/

theorem content_mem {i : Inst} (T : Tidy s) (hi : i ∈ s.insts) : ∀ r ∈ content i, r ∈ s.held := by
  obtain ⟨b, d, p, h1, h2, h3⟩ := stock T
  have hc : s.core = true := T.mods _ (T.owned i hi).1
  have own : ∀ r ∈ parts i, r ∈ s.held := by
    intro r hr
    rw [p.mem_iff]
    unfold others
    simp only [List.mem_append, List.mem_flatMap]
    exact .inr (.inl (.inr ⟨i, hi, hr⟩))
  have core : ∀ r ∈ coreRes, r ∈ s.held := fun r hr => mem_core (l := []) hc hr p
  intro r hr
  unfold content at hr
  cases hx : i.xt with
  | siit =>
    rw [hx] at hr
    apply own
    unfold parts
    rw [hx]
    simp only [List.mem_cons, List.mem_append, List.not_mem_nil, or_false] at hr ⊢
    exact .inl hr
  | nat64 =>
    rw [hx] at hr
    obtain ⟨rfl, rfl⟩ := h3 i (.inl hi) hx
    have cache : ∀ r ∈ [Res.bibs, .sessions, .deferred], r ∈ s.held := by
      intro r hr
      rw [p.mem_iff]
      simp only [cacheB, cacheD, if_true, List.mem_append, List.mem_cons, List.not_mem_nil, or_false] at hr ⊢
      rcases hr with rfl | rfl | rfl <;> simp
    have hown : ∀ r ∈ [Res.obj i.id .inst, .obj i.id .stats, .obj i.id .pool4, .obj i.id .bib, .obj i.id .queue, .obj i.id .joold], r ∈ s.held := by
      intro r hr
      apply own
      unfold parts
      rw [hx]
      simp only [List.mem_cons, List.mem_append, List.not_mem_nil, or_false] at hr ⊢
      exact .inl hr
    have : r ∈ [Res.obj i.id .inst, .obj i.id .stats, .obj i.id .pool4, .obj i.id .bib, .obj i.id .queue, .obj i.id .joold] ++ [Res.bibs, .sessions, .deferred] ++ [Res.key, .shash] := hr
    simp only [List.mem_append] at this
    rcases this with (h | h) | h
    · exact hown r h
    · exact cache r h
    · apply core
      revert r; simp [coreRes]

theorem useInsts_ok {L : List Inst} (T : Tidy s) (h : ∀ i ∈ L, i ∈ s.insts) : useInsts L s = .ok s := by
  induction L with
  | nil => rfl
  | cons i t ih =>
    unfold useInsts
    rw [uses_ok (content_mem T (h i (by simp))), ok_bind]
    exact ih fun j hj => h j (by simp [hj])

theorem tidy_tick (T : Tidy s) : ∃ s', step s .tick = .ok s' ∧ Tidy s' := by
  show ∃ s', tick s = .ok s' ∧ Tidy s'
  unfold tick
  split
  · exact ⟨s, useInsts_ok T fun i hi => (List.mem_filter.1 hi).1, T⟩
  · exact ⟨s, rfl, T⟩

/-- Hooks are those of an instance. -/
theorem hooks_of {id : Nat} (T : Tidy s) (h : .obj id .hooks ∈ s.held) : ∃ i ∈ s.insts, i.id = id ∧ i.nf = true := by
  obtain ⟨b, d, p, h1, h2, h3⟩ := stock T
  rw [p.mem_iff] at h
  have h : Res.obj id .hooks ∈ others s := by
    cases b <;> cases d <;> simpa [cacheB, cacheD] using h
  rcases mem_others h with h | ⟨i, hi, h⟩ | ⟨i, hi, h⟩
  · exact absurd rfl ((base_none h).1 id .hooks)
  · refine ⟨i, hi, ?_⟩
    unfold parts at h
    cases hx : i.xt <;> cases hn : i.nf <;> rw [hx, hn] at h <;> simp at h
    · exact ⟨h.symm, rfl⟩
    · exact ⟨h.symm, rfl⟩
  · unfold cparts at h
    cases hx : i.xt <;> rw [hx] at h <;> simp at h

theorem tidy_hook {i : Inst} (T : Tidy s) : ∃ s', step s (.hook i) = .ok s' ∧ Tidy s' := by
  show ∃ s', hook i s = .ok s' ∧ Tidy s'
  unfold hook
  by_cases h : Res.obj i.id .hooks ∈ s.held
  · rw [if_pos h]
    obtain ⟨j, hj, -⟩ := hooks_of T h
    have hc : s.core = true := T.mods _ (T.owned j hj).1
    rw [if_pos hc]
    obtain ⟨b, d, p, -⟩ := stock T
    rw [uses_ok (rs := [.xlations, .list]) (by intro r hr; exact mem_core (l := []) hc (by revert r; simp [coreRes]) p), ok_bind]
    exact ⟨s, useInsts_ok T fun i hi => (List.mem_filter.1 hi).1, T⟩
  · rw [if_neg h]; exact ⟨s, rfl, T⟩

theorem tidy_target {x : Xt} {ns : Nat} (T : Tidy s) : ∃ s', step s (.target x ns) = .ok s' ∧ Tidy s' := by
  show ∃ s', target x ns s = .ok s' ∧ Tidy s'
  unfold target
  by_cases h : s.rules x = 0
  · rw [if_pos h]; exact ⟨s, rfl, T⟩
  · rw [if_neg h]
    have hx : s.ins x ≠ none := by rw [T.rules x h]; simp
    have hc := T.mods x hx
    rw [if_pos ⟨hc, hx⟩]
    obtain ⟨b, d, p, -⟩ := stock T
    rw [show s.use .xlations = .ok s from if_pos (mem_core (l := []) hc (by decide) p), ok_bind]
    exact ⟨s, useInsts_ok T fun i hi => (List.mem_filter.1 hi).1, T⟩

theorem step_tidy {o : Op} (T : Tidy s) (h : ∀ x, o = .remove x → s.req ≠ some x) : ∃ s', step s o = .ok s' ∧ Tidy s' := by
  cases o with
  | insertCore f => exact tidy_insertCore T
  | removeCore => exact tidy_removeCore T
  | insert x f => exact tidy_insert T
  | remove x => exact tidy_remove T (h x rfl)
  | rule x => exact tidy_rule T
  | unrule x => exact tidy_unrule T
  | newNs n => exact tidy_newNs T
  | exitNs n => exact tidy_exitNs T
  | start x => exact tidy_start T
  | add ns name nf f => exact tidy_add T
  | rm ns name => exact tidy_rm T
  | flush ns => exact tidy_flush T
  | candidate ns name nf f => exact tidy_candidate T
  | expire i => exact tidy_expire T
  | done => exact tidy_done T
  | tick => exact tidy_tick T
  | hook i => exact tidy_hook T
  | target x ns => exact tidy_target T

theorem run_tidy {os : List Op} (T : Tidy s) (h : Calm s os) : ∃ s', run s os = .ok s' ∧ Tidy s' := by
  induction os generalizing s with
  | nil => exact ⟨s, rfl, T⟩
  | cons o t ih =>
    obtain ⟨s', e, T'⟩ := step_tidy T h.1
    unfold run
    rw [e]
    exact ih T' (h.2 s' e)

theorem init_tidy : Tidy init :=
  ⟨⟨false, false, .refl _, nofun, nofun, (by intro i h; rcases h with h | h <;> cases h)⟩, fun x h => absurd rfl h, fun _ => rfl, fun x h => absurd rfl h, nofun, fun h => absurd rfl h,
    (by intro i h; rcases h with h | h <;> cases h), fun h => absurd rfl h, nofun⟩

/-! ## The theorems -/

/-- The history of the modules: whatever is inserted, removed, configured and translated, in whichever order, and whatever fails, nothing is used or released that is not there, and what is there
is exactly what should be. The exception is a module that is removed while a request to it is being served (see `removal_race`). -/
theorem modules_safe_partial {os : List Op} (h : Calm init os) : ∃ s, run init os = .ok s ∧ Tidy s := run_tidy init_tidy h

/-- After `rmmod jool_common`, nothing is left. -/
theorem nothing_left_partial {os : List Op} {s : St} (h : Calm init os) (e : run init os = .ok s) (hc : s.core = false) : s.held = [] ∧ s.insts = [] ∧ s.cands = [] ∧ ∀ x, s.rules x = 0 := by
  obtain ⟨s', e', T⟩ := run_tidy init_tidy h
  rw [e] at e'
  cases e'
  have hi : ∀ x, s.ins x = none := by
    intro x
    cases hx : s.ins x with
    | none => rfl
    | some v => have := T.mods x (by rw [hx]; simp); rw [hc] at this; cases this
  have h1 : s.insts = [] := List.eq_nil_iff_forall_not_mem.2 fun i h => (T.owned i h).1 (hi _)
  have h2 : s.cands = [] := Classical.byContradiction fun h => by have := T.cands h; rw [hc] at this; cases this
  refine ⟨?_, h1, h2, fun x => Classical.byContradiction fun h => by have := T.rules x h; rw [hi x] at this; cases this⟩
  obtain ⟨b, d, p, g1, g2, -⟩ := T.held
  have hb : b = false := by cases b with | false => rfl | true => have := g1 rfl; rw [hc] at this; cases this
  have hd : d = false := by cases d with | false => rfl | true => have := g2 rfl; rw [hc] at this; cases this
  subst hb hd
  unfold want at p
  rw [hc, hi .siit, hi .nat64, h1, h2] at p
  simpa [modRes] using p

theorem mem_modRes {r : Res} {x : Xt} {v : Option Bool} (h : r ∈ modRes x v) : (r = .pernet x ∨ r = .targets x) ∧ v ≠ none := by
  cases v with
  | none => cases h
  | some b => cases b <;> simp [modRes] at h <;> simp [h]

/-- After `rmmod jool` or `rmmod jool_siit`, no instance of the module, no hook and no target of it is left. -/
theorem module_gone_partial {os : List Op} {s : St} {x : Xt} (h : Calm init os) (e : run init os = .ok s) (hx : s.ins x = none) :
    (∀ i ∈ s.insts, i.xt ≠ x) ∧ .targets x ∉ s.held ∧ .pernet x ∉ s.held ∧ ∀ id, .obj id .hooks ∈ s.held → ∃ i ∈ s.insts, i.id = id ∧ i.nf = true := by
  obtain ⟨s', e', T⟩ := run_tidy init_tidy h
  rw [e] at e'
  cases e'
  have key : ∀ r, r = .targets x ∨ r = .pernet x → r ∉ s.held := by
    intro r hr hm
    obtain ⟨b, d, p, -⟩ := stock T
    rw [p.mem_iff] at hm
    have hm : r ∈ others s := by rcases hr with rfl | rfl <;> (cases b <;> cases d <;> simpa [cacheB, cacheD] using hm)
    rcases mem_others hm with hm | ⟨i, hi, hm⟩ | ⟨i, hi, hm⟩
    · unfold base at hm
      simp only [List.mem_append] at hm
      rcases hm with (hm | hm) | hm
      · cases hc : s.core <;> rw [hc] at hm <;> rcases hr with rfl | rfl <;> simp [coreRes] at hm
      · obtain ⟨m1, m2⟩ := mem_modRes hm
        have : x = .siit := by rcases hr with rfl | rfl <;> rcases m1 with m1 | m1 <;> cases m1 <;> rfl
        exact m2 (by rw [← this]; exact hx)
      · obtain ⟨m1, m2⟩ := mem_modRes hm
        have : x = .nat64 := by rcases hr with rfl | rfl <;> rcases m1 with m1 | m1 <;> cases m1 <;> rfl
        exact m2 (by rw [← this]; exact hx)
    · obtain ⟨k, e, -⟩ := mem_parts hm; rcases hr with rfl | rfl <;> cases e
    · obtain ⟨k, e, -⟩ := mem_cparts hm; rcases hr with rfl | rfl <;> cases e
  exact ⟨fun i hi e => (T.owned i hi).1 (by rw [e]; exact hx), key _ (.inl rfl), key _ (.inr rfl), fun id hid => hooks_of T hid⟩

/-- `insmod jool_common`: works if and only if none of its five acquisitions fails; if it does not, it leaves nothing behind. -/
theorem insertCore_iff (f : Fail) (s : St) :
    ∃ h ok, setupCommon f s = .ok (ok, { s with held := h }) ∧ (ok = true ↔ ∀ r ∈ [Res.key, .shash, .xlations, .list, .family], f r = false) ∧
      h.Perm (if ok then coreRes ++ s.held else s.held) := by
  have key : ∀ ok s', setupCommon f s = .ok (ok, s') → (ok = true ↔ ∀ r ∈ [Res.key, .shash, .xlations, .list, .family], f r = false) := by
    intro ok s' e
    cases h1 : f .key <;> cases h2 : f .shash <;> cases h3 : f .xlations <;> cases h4 : f .list <;> cases h5 : f .family <;>
      simp [setupCommon, rfc6056Setup, jtimerSetup, xlationSetup, xlatorSetup, nlSetup, failTimer, failXlation, failXlator, failNl, rfc6056Teardown, jtimerTeardown, xlationTeardown, xlatorTeardown,
        frees, St.put, St.free, Outcome.bind, Outcome.map, h1, h2, h3, h4, h5] at e ⊢ <;> simp [← e.1]
  rcases setup_to f s with ⟨h, e, q⟩ | ⟨h, e, q⟩
  · exact ⟨h, false, e, key _ _ e, q⟩
  · exact ⟨h, true, e, key _ _ e, q⟩

abbrev never : Fail := fun _ => false

theorem init_never {id : Nat} {x : Xt} {s s' : St} : xlatorInit never id x s ≠ .ok (false, s') := by
  cases x with
  | siit => simp [xlatorInit, initSiit, alloc, never]
  | nat64 =>
    by_cases h : Res.bibs ∈ s.held <;> by_cases h' : Res.deferred ∈ s.held <;>
      simp [xlatorInit, initNat64, alloc, never, bibAlloc, bibAllocRest, bibSetup, jooldAlloc, jooldAllocRest, St.put, Outcome.bind, Outcome.map, h, h']

/-- An instance is added if its name is free, nobody has the hooks, and nothing fails. -/
theorem add_succeeds {ns name : Nat} {nf : Bool} {x : Xt} (T : Tidy s) (hq : s.req = some x) (hn : ns ∈ s.nss)
    (hc : ∀ j ∈ s.insts, j.ns = ns → j.xt = x → j.name ≠ name ∧ ¬ (nf = true ∧ j.nf = true)) :
    ∃ s', step s (.add ns name nf never) = .ok s' ∧ s'.insts = ⟨s.next, ns, x, name, nf⟩ :: s.insts := by
  have hx := T.req x hq
  have hcore := T.mods x hx
  show ∃ s', request ns s (fun x => add ⟨s.next, ns, x, name, nf⟩ never { s with next := s.next + 1 }) = .ok s' ∧ _
  have hr : ∀ go, request ns s go = go x := by intro go; unfold request; rw [hq]; exact if_pos hn
  rw [hr]
  unfold add alloc
  simp only [if_false, Bool.false_eq_true, Bool.true_eq_false, St.put]
  rcases new_to (f := never) (x := x) (k := .inst) (.inl rfl) T with ⟨h, e, -⟩ | ⟨h, e, b, d, q, -⟩
  · exact absurd e init_never
  rw [e, ok_bind]
  simp only [if_false, Bool.true_eq_false]
  rw [if_neg]
  · unfold xlatorAddHook
    cases nf with
    | false =>
      simp only [if_false, Bool.false_eq_true, Bool.true_eq_false, ok_bind]
      exact ⟨_, defrag_there (s := s) hx T rfl rfl rfl, rfl⟩
    | true =>
      simp only [if_true, if_false, Bool.false_eq_true, ok_bind, Bool.true_eq_false, St.put]
      rw [show St.use { s with next := s.next + 1, held := Res.obj s.next .hooks :: Res.obj s.next .ops :: h } .list = .ok { s with next := s.next + 1, held := Res.obj s.next .hooks :: Res.obj s.next .ops :: h } from
        if_pos (by have := mem_core (r := .list) hcore (by decide) q; simp [this]), ok_bind]
      exact ⟨_, defrag_there (s := s) hx T rfl rfl rfl, rfl⟩
  · intro hcol
    unfold collides at hcol
    simp only [List.any_eq_true, decide_eq_true_eq] at hcol
    obtain ⟨j, hj, j1, j2, j3⟩ := hcol
    obtain ⟨c1, c2⟩ := hc j hj j1 j2
    rcases j3 with j3 | j3
    · exact c1 j3
    · exact c2 j3

/-! ## Examples -/

/-- Does `Calm` hold? -/
def calmB : St → List Op → Bool
  | _, [] => true
  | s, o :: t => (match o with | .remove x => decide (s.req ≠ some x) | _ => true) && match step s o with | .ok s' => calmB s' t | .ub _ => true

theorem calm_of {os : List Op} (h : calmB s os = true) : Calm s os := by
  induction os generalizing s with
  | nil => trivial
  | cons o t ih =>
    simp only [calmB, Bool.and_eq_true] at h
    refine ⟨?_, fun s' e => ih (by have := h.2; rw [e] at this; exact this)⟩
    rintro x rfl
    simpa using h.1

/-- A NAT64 and a SIIT are configured, a namespace ceases, and the modules are removed. -/
def life : List Op :=
  [.insertCore never, .insert .nat64 never, .insert .siit (fun r => r = .targets .siit), .newNs 1, .start .nat64, .add 0 7 true never, .add 0 7 false never, .candidate 0 8 false never, .done,
   .start .siit, .add 1 7 true (fun r => r = .obj 3 .hooks), .add 1 7 true never, .done, .rule .nat64, .remove .nat64, .tick, .hook ⟨0, 0, .nat64, 7, true⟩, .hook ⟨4, 1, .siit, 7, true⟩, .target .nat64 0,
   .exitNs 1, .unrule .nat64, .remove .nat64, .remove .siit, .removeCore]

example : Calm init life := calm_of (by decide)
/-- In the middle there is something; in the end, nothing. -/
example : ((run init (life.take 19)).map fun s => (s.held.length, s.insts.map (·.id), s.cands.map (·.id))) = .ok (32, [4, 0], [2]) := by decide
example : ((run init life).map fun s => (s.held, s.core)) = .ok ([], false) := by decide

/-- A request that was let through goes on while the module is removed (mod/nl/nl_common.c:34-51 looks at the counter, and nothing holds the module afterwards), and calls a function of the module. -/
theorem removal_race : run init [.insertCore never, .insert .nat64 never, .start .nat64, .remove .nat64, .add 0 7 true never] = .ub .useAfterFree := rfl

/-- With SIIT, there is an instance left whose module is gone. Nobody will remove it, and its hooks call code of `jool_common.ko` when that is gone as well. -/
theorem removal_race_siit :
    ((run init [.insertCore never, .insert .siit never, .start .siit, .remove .siit, .add 0 7 true never, .done]).map fun s => (s.ins .siit, s.insts.length)) = .ok (none, 1) ∧
    ((run init [.insertCore never, .insert .siit never, .start .siit, .remove .siit, .add 0 7 true never, .done, .removeCore]).map fun s => (s.core, s.insts.length)) = .ok (false, 1) ∧
    run init [.insertCore never, .insert .siit never, .start .siit, .remove .siit, .add 0 7 true never, .done, .removeCore, .hook ⟨0, 0, .siit, 7, true⟩] = .ub .useAfterFree := ⟨rfl, rfl, rfl⟩

end Jool.Mods
