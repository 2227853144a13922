import Verif.Lemmas.AtomicFrame
/-
The invariant of the configuration candidates.
-/
namespace Jool.Atomic

open Xlator
open scoped List

/-- The databases that step `o` publishes. -/
def Pub (w : World) (o : Op) (d : Nat) : Prop :=
  ∃ e k p, o = .replace e k ∧ w.clones.find? (·.1 == k) = some p ∧ d ∈ p.2.objs

theorem eff_init {H : Hash} {w : World} (g : Good H w) {e : Env} {ns : Ns} {flags : Flags} {name : Name} {gl : Glob}
    {w' : World} {code : Code} {S K : Nat → Prop} (hs : step H w (.init e ns flags name gl) = .ok (w', code)) :
    Eff w w' S K := by
  unfold step at hs
  dsimp only at hs
  split at hs
  · injection hs with hs; injection hs with h1 h2; subst h1; exact Eff.refl ..
  · obtain ⟨⟨a, b, c⟩, hi, he⟩ := map_ok hs
    have hle := xlInit_next hi
    cases c with
    | none => injection he with he1 he2; subst he1; exact eff_heap hle
    | some x =>
      have hfr := (xlInit_fresh g.counts hi).1
      injection he with he1 he2; subst he1
      refine ⟨fun d hd => .inl (vis_same rfl rfl hd), hle, fun p hp => ?_, fun p hp _ => List.mem_cons_of_mem _ hp,
        fun hi => hi.cons rfl rfl rfl⟩
      rcases List.mem_cons.1 hp with hp | hp
      · subst hp
        exact .inr fun d hd => .inr (.inr (hfr d hd))
      · exact .inl ⟨p, hp, rfl, rfl⟩

theorem eff_put {w : World} {k : Nat} {w' : World} {S : Nat → Prop} (h : put k w = .ok w') :
    Eff w w' S (· = k) := by
  unfold put at h
  cases hf : w.clones.find? (·.1 == k) with
  | none => rw [hf] at h; injection h with h; subst h; exact Eff.refl ..
  | some p =>
    rw [hf] at h
    obtain ⟨h', hp, he⟩ := map_ok h
    subst he
    have hsub : (w.clones.eraseP (·.1 == k)).map (·.1) <+ w.clones.map (·.1) := (List.eraseP_sublist ..).map _
    refine ⟨fun d hd => .inl (vis_same rfl rfl hd), Nat.le_of_eq (putAll_next hp).symm,
      fun p hp => .inl ⟨p, List.mem_of_mem_eraseP hp, rfl, rfl⟩,
      fun p hp hk => (List.mem_eraseP_of_neg (by simpa using hk)).2 hp, fun hi => ⟨?_, fun i h => ?_⟩⟩
    · exact hi.nodup.sublist (hsub.append (List.Sublist.refl _))
    · exact hi.lt i ((hsub.append (List.Sublist.refl _)).subset h)

theorem eff_edit {w : World} {k : Nat} {gl : Glob} {S : Nat → Prop} :
    Eff w { w with clones := w.clones.map fun p => if p.1 == k then (p.1, { p.2 with globals := gl }) else p }
      S (· = k) := by
  have hids : (w.clones.map fun p => if p.1 == k then (p.1, { p.2 with globals := gl }) else p).map (·.1) =
      w.clones.map (·.1) := by
    rw [List.map_map]
    apply List.map_congr_left
    intro p _
    show (if _ then _ else _ : Nat × Xl).1 = _
    split <;> rfl
  refine ⟨fun d hd => .inl (vis_same rfl rfl hd), Nat.le_refl _, fun p hp => ?_, fun p hp hk => ?_, fun hi => ⟨?_, ?_⟩⟩
  · obtain ⟨q, hq, he⟩ := List.mem_map.1 hp
    refine .inl ⟨q, hq, ?_⟩
    rw [← he]
    split <;> exact ⟨rfl, rfl⟩
  · exact List.mem_map.2 ⟨p, hp, if_neg (by simpa using hk)⟩
  · show (List.map _ (List.map _ _) ++ _).Nodup; rw [hids]; exact hi.nodup
  · show ∀ i ∈ List.map _ (List.map _ _) ++ _, _; rw [hids]; exact hi.lt

theorem eff_enter {w : World} {n : Node} {S K : Nat → Prop} : Eff w (w.enter n) S K := by
  refine ⟨fun d hd => .inl (vis_same rfl rfl hd), Nat.le_refl _, fun p hp => .inl ⟨p, hp, rfl, rfl⟩, fun p hp _ => hp,
    fun hi => ?_⟩
  have hn : w.next ∉ w.clones.map (·.1) ++ w.readers.map (·.1) := fun hm => Nat.lt_irrefl _ (hi.lt _ hm)
  have hperm : ((w.enter n).clones.map (·.1) ++ (w.enter n).readers.map (·.1)).Perm
      (w.next :: (w.clones.map (·.1) ++ w.readers.map (·.1))) := by
    refine perm_count fun d => ?_
    simp only [World.enter, List.map_cons, List.count_append, List.count_cons]; omega
  refine ⟨hperm.nodup_iff.2 (List.nodup_cons.2 ⟨hn, hi.nodup⟩), fun i h => ?_⟩
  rcases List.mem_cons.1 (hperm.mem_iff.1 h) with h | h
  · subst h; exact Nat.lt_succ_self _
  · exact Nat.lt_succ_of_lt (hi.lt i h)

theorem memory_vis {w : World} {i : Nat} {x : Xl} (h : w.memory i = some x) : ∀ d ∈ x.objs, Vis w d := by
  unfold World.memory at h
  intro d hd
  split at h
  · rename_i n hn
    injection h with h
    exact .inl ⟨n, List.mem_of_find?_eq_some hn, h ▸ hd⟩
  · cases hf : w.limbo.find? (·.node.id == i) with
    | none => rw [hf] at h; cases h
    | some l =>
      rw [hf] at h
      injection h with h
      dsimp only at h
      exact .inr ⟨l, List.mem_of_find?_eq_some hf, .inl (h ▸ hd)⟩

theorem eff_grab {w : World} {r : Nat} {w' : World} {S K : Nat → Prop} (h : grab r w = .ok w') : Eff w w' S K := by
  unfold grab at h
  cases hf : w.readers.find? (·.1 == r) with
  | none => rw [hf] at h; injection h with h; subst h; exact Eff.refl ..
  | some p =>
    obtain ⟨r', i⟩ := p
    have hr : r' = r := by simpa using List.find?_some hf
    subst hr
    have hmem := List.mem_of_find?_eq_some hf
    rw [hf] at h
    dsimp only at h
    cases hm : w.memory i with
    | none => rw [hm] at h; cases h
    | some x =>
      rw [hm] at h
      obtain ⟨h', hg, he⟩ := map_ok h
      subst he
      refine ⟨fun d hd => .inl (vis_same rfl rfl hd), Nat.le_of_eq (getAll_next hg).symm, fun p hp => ?_,
        fun p hp _ => List.mem_cons_of_mem _ hp, fun hi => ?_⟩
      · rcases List.mem_cons.1 hp with hp | hp
        · subst hp
          exact .inr fun d hd => .inl (memory_vis hm d hd)
        · exact .inl ⟨p, hp, rfl, rfl⟩
      · have hsub : (w.readers.filter (·.1 != r')).map (·.1) <+ w.readers.map (·.1) := List.filter_sublist.map _
        have hnd := hi.nodup
        rw [List.nodup_append] at hnd
        obtain ⟨n1, n2, n3⟩ := hnd
        have hrm : r' ∈ w.readers.map (·.1) := List.mem_map.2 ⟨_, hmem, rfl⟩
        refine ⟨?_, ?_⟩
        · show (r' :: w.clones.map (·.1) ++ (w.readers.filter (·.1 != r')).map (·.1)).Nodup
          rw [List.cons_append, List.nodup_cons, List.nodup_append]
          refine ⟨fun hc => ?_, n1, n2.sublist hsub, fun a ha b hb => n3 a ha b (hsub.subset hb)⟩
          rcases List.mem_append.1 hc with hc | hc
          · exact n3 _ hc _ hrm rfl
          · obtain ⟨q, hq, e⟩ := List.mem_map.1 hc
            have := (List.mem_filter.1 hq).2
            simp [e] at this
        · intro j hj
          have hj : j ∈ r' :: w.clones.map (·.1) ++ (w.readers.filter (·.1 != r')).map (·.1) := hj
          apply hi.lt j
          rw [List.cons_append] at hj
          rcases List.mem_cons.1 hj with hj | hj
          · subst hj; exact List.mem_append_right _ hrm
          · rcases List.mem_append.1 hj with hj | hj
            · exact List.mem_append_left _ hj
            · exact List.mem_append_right _ (hsub.subset hj)

theorem eff_reap {w : World} {i : Nat} {w' : World} {S K : Nat → Prop} (h : reap i w = .ok w') : Eff w w' S K := by
  unfold reap at h
  split at h
  · injection h with h; subst h; exact Eff.refl ..
  · split at h
    · injection h with h; subst h; exact Eff.refl ..
    · refine Eff.trans ?_ (eff_destroy h)
      refine Eff.mk' (fun d hd => .inl ?_) (Nat.le_refl _) rfl rfl (Nat.le_refl _)
      rcases hd with h | ⟨l, hl, hd⟩
      · exact .inl h
      · exact .inr ⟨l, List.mem_of_mem_eraseP hl, hd⟩

theorem eff_step {H : Hash} {w : World} (g : Good H w) {o : Op} {q : World × Code} (hs : step H w o = .ok q) :
    Eff w q.1 (Pub w o) (fun k => target o = some k) := by
  obtain ⟨w', code⟩ := q
  cases o with
  | add e ns flags name gl want => exact eff_add g hs
  | init e ns flags name gl => exact eff_init g hs
  | edit c gl =>
    injection hs with hs; injection hs with h1 h2; subst h1
    exact eff_edit.weaken (fun _ h => h) fun d h => by rw [h]; rfl
  | rm ns xt name =>
    injection hs with hs
    have hs1 : (rm H ns xt name w).1 = w' := by rw [hs]
    show Eff w w' _ _
    rw [← hs1]
    unfold rm
    split
    · exact Eff.refl ..
    rename_i hxt
    split
    · exact Eff.refl ..
    cases hf : findInstance H w ns xt name with
    | none => exact Eff.refl ..
    | some n => exact eff_unlink (find_some g.shape (by simpa using hxt) hf).1
  | flush nss xt =>
    injection hs with hs; injection hs with h1 h2; subst h1; exact eff_flush nss g
  | replace e c =>
    unfold step at hs
    dsimp only at hs
    split at hs
    · injection hs with hs; injection hs with h1 h2; subst h1; exact Eff.refl ..
    · rename_i p c' x hf
      exact (eff_replace g.shape hs).weaken (fun d hd => ⟨e, c, _, rfl, hf, hd⟩) (fun _ h => h)
  | reap j =>
    obtain ⟨a, ha, he⟩ := map_ok hs
    injection he with he1 he2
    subst he1
    exact eff_reap ha
  | pin ns flags name =>
    unfold step at hs
    dsimp only at hs
    split at hs
    · injection hs with hs; injection hs with h1 h2; subst h1; exact Eff.refl ..
    · injection hs with hs; injection hs with h1 h2; subst h1; exact eff_enter
  | pinNf ns =>
    unfold step at hs
    dsimp only at hs
    split at hs
    · injection hs with hs; injection hs with h1 h2; subst h1; exact Eff.refl ..
    · injection hs with hs; injection hs with h1 h2; subst h1; exact eff_enter
  | grab r =>
    obtain ⟨a, ha, he⟩ := map_ok hs
    injection he with he1 he2
    subst he1
    exact eff_grab ha
  | put c =>
    obtain ⟨a, ha, he⟩ := map_ok hs
    injection he with he1 he2
    subst he1
    exact (eff_put ha).weaken (fun _ h => h) fun d h => by rw [h]; rfl

/-! ## The invariant -/

/-- Copy `k`, which is `x`, has its databases for itself. -/
structure Priv (w : World) (k : Nat) (x : Xl) : Prop where
  nodup : x.objs.Nodup
  xt : xtValid (xtOf x.flags) = true
  vis : ∀ d ∈ x.objs, ¬ Vis w d
  others : ∀ p ∈ w.clones, p.1 ≠ k → ∀ d ∈ x.objs, d ∉ p.2.objs

/-- The invariant. `E`: the candidates that may have been published. -/
structure Inv {D : Type} (sys : Sys D) (s : St D) (E : Nat → Prop) : Prop where
  good : Good sys.H s.w
  ids : Ids s.w
  lt : ∀ d, Vis s.w d → d < s.w.heap.next
  data : ∀ d, s.w.heap.next ≤ d → s.data d = sys.empty
  nodup : (s.cands.map (·.clone)).Nodup
  cand : ∀ c ∈ s.cands, ∃ x, (c.clone, x) ∈ s.w.clones ∧ (¬ E c.clone → Priv s.w c.clone x)

theorem find_clone {w : World} (h : Ids w) {k : Nat} {x : Xl} :
    w.clones.find? (·.1 == k) = some (k, x) ↔ (k, x) ∈ w.clones := by
  constructor
  · exact List.mem_of_find?_eq_some
  · intro hm
    cases hf : w.clones.find? (·.1 == k) with
    | none => exact absurd (List.find?_eq_none.1 hf _ hm) (by simp)
    | some p =>
      have hp := List.mem_of_find?_eq_some hf
      have hk : p.1 = k := by simpa using List.find?_some hf
      have hnd := (List.nodup_append.1 h.nodup).1
      congr 1
      have : ∀ {l : List (Nat × Xl)} {p q}, (l.map (·.1)).Nodup → p ∈ l → q ∈ l → p.1 = q.1 → p = q := by
        intro l
        induction l with
        | nil => intro p q _ hp; cases hp
        | cons a l ih =>
          intro p q hn hp hq e
          rw [List.map_cons, List.nodup_cons] at hn
          rcases List.mem_cons.1 hp with hp | hp <;> rcases List.mem_cons.1 hq with hq | hq
          · rw [hp, hq]
          · exact absurd (List.mem_map.2 ⟨q, hq, by rw [← e, hp]⟩) hn.1
          · exact absurd (List.mem_map.2 ⟨p, hp, by rw [e, hq]⟩) hn.1
          · exact ih hn.2 hp hq e
      exact this hnd hp hm hk

theorem xl_iff {D : Type} {s : St D} (h : Ids s.w) {k : Nat} {x : Xl} : s.xl k = some x ↔ (k, x) ∈ s.w.clones := by
  rw [← find_clone h]
  unfold St.xl
  cases hf : s.w.clones.find? (·.1 == k) with
  | none => simp
  | some p =>
    have hk : p.1 = k := by simpa using List.find?_some hf
    obtain ⟨p1, p2⟩ := p
    simp only at hk
    subst hk
    simp

theorem clone_unique {w : World} (h : Ids w) {k : Nat} {x y : Xl} (hx : (k, x) ∈ w.clones) (hy : (k, y) ∈ w.clones) :
    x = y := by
  have h1 := (find_clone h).2 hx
  rw [(find_clone h).2 hy] at h1
  injection h1 with h1
  injection h1 with _ h1
  exact h1.symm

theorem clone_lt {H : Hash} {w : World} (g : Good H w) {p : Nat × Xl} (hp : p ∈ w.clones) :
    ∀ d ∈ p.2.objs, d < w.heap.next := fun d hd =>
  g.counts.lt d (List.mem_append_right _ (List.mem_flatMap.2 ⟨p, hp, hd⟩))

theorem Priv.eff {w w' : World} {k : Nat} {x y : Xl} {S K : Nat → Prop} (h : Priv w k x) (f : Eff w w' S K)
    (hlt : ∀ d ∈ x.objs, d < w.heap.next) (hS : ∀ d ∈ x.objs, ¬ S d) (ho : y.objs = x.objs) (hf : y.flags = x.flags) :
    Priv w' k y := by
  have no : ∀ d ∈ x.objs, ¬ (Vis w d ∨ S d ∨ w.heap.next ≤ d) := by
    rintro d hd (h1 | h1 | h1)
    · exact h.vis d hd h1
    · exact hS d hd h1
    · exact Nat.lt_irrefl _ (Nat.lt_of_lt_of_le (hlt d hd) h1)
  refine ⟨ho ▸ h.nodup, hf ▸ h.xt, fun d hd hv => ?_, fun p hp hk d hd hc => ?_⟩
  · rw [ho] at hd
    exact no d hd ((f.vis d hv).imp id (Or.imp id fun h => h.1))
  · rw [ho] at hd
    rcases f.clones p hp with ⟨q, hq, e1, e2⟩ | h1
    · exact h.others q hq (e1 ▸ hk) d hd (e2 ▸ hc)
    · exact no d hd (h1 d hc)

theorem vis_lt {w w' : World} {S K : Nat → Prop} (h : ∀ d, Vis w d → d < w.heap.next) (f : Eff w w' S K)
    (hS : ∀ d, S d → d < w.heap.next) : ∀ d, Vis w' d → d < w'.heap.next := fun d hd => by
  rcases f.vis d hd with h1 | h1 | h1
  · exact Nat.lt_of_lt_of_le (h d h1) f.next
  · exact Nat.lt_of_lt_of_le (hS d h1) f.next
  · exact h1.2

theorem pub_lt {H : Hash} {w : World} (g : Good H w) {o : Op} : ∀ d, Pub w o d → d < w.heap.next := by
  rintro d ⟨e, k, p, _, hf, hd⟩
  exact clone_lt g (List.mem_of_find?_eq_some hf) d hd

/-- A step that does not involve the candidates. -/
theorem Inv.step {D : Type} {sys : Sys D} {s : St D} {E : Nat → Prop} (h : Inv sys s E) {o : Op} {w' : World} {code : Code}
    (hs : step sys.H s.w o = .ok (w', code)) (hK : ∀ c ∈ s.cands, target o ≠ some c.clone) :
    Inv sys { s with w := w' } E := by
  have f := eff_step h.good hs
  obtain ⟨q, hq, hg⟩ := good_step h.good o
  rw [hs] at hq
  injection hq with hq
  subst hq
  refine ⟨hg, f.ids h.ids, vis_lt h.lt f (pub_lt h.good), fun d hd => h.data d (Nat.le_trans f.next hd), h.nodup,
    fun c hc => ?_⟩
  obtain ⟨x, hx, hp⟩ := h.cand c hc
  refine ⟨x, f.keep _ hx (hK c hc), fun hE => (hp hE).eff f (clone_lt h.good hx) ?_ rfl rfl⟩
  rintro d hd ⟨e, k, p, ho, hf, hdp⟩
  have hk : p.1 = k := by simpa using List.find?_some hf
  have hne : p.1 ≠ c.clone := fun e1 => hK c hc (by rw [ho, ← e1, hk]; rfl)
  exact (hp hE).others p (List.mem_of_find?_eq_some hf) hne d hd hdp

theorem cands_erase {l : List Cand} {k : Nat} (hn : (l.map (·.clone)).Nodup) {c : Cand} :
    c ∈ l.eraseP (·.clone == k) ↔ c ∈ l ∧ c.clone ≠ k := by
  induction l with
  | nil => simp
  | cons a l ih =>
    rw [List.map_cons, List.nodup_cons] at hn
    by_cases ha : a.clone = k
    · rw [List.eraseP_cons_of_pos (by simpa using ha)]
      constructor
      · intro hc
        refine ⟨List.mem_cons_of_mem _ hc, fun e => hn.1 (List.mem_map.2 ⟨c, hc, e.trans ha.symm⟩)⟩
      · rintro ⟨hc, hne⟩
        rcases List.mem_cons.1 hc with hc | hc
        · subst hc; exact absurd ha hne
        · exact hc
    · rw [List.eraseP_cons_of_neg (by simpa using ha), List.mem_cons, List.mem_cons, ih hn.2]
      constructor
      · rintro (h | ⟨h1, h2⟩)
        · subst h; exact ⟨.inl rfl, ha⟩
        · exact ⟨.inr h1, h2⟩
      · rintro ⟨h1 | h1, h2⟩
        · exact .inl h1
        · exact .inr ⟨h1, h2⟩

/-- Destroying a candidate: the rest stays. -/
theorem destroyCand_spec {D : Type} {sys : Sys D} {s : St D} {E : Nat → Prop} (h : Inv sys s E) (k : Nat) :
    ∃ s', destroyCand k s = .ok s' ∧ Inv sys s' (fun i => E i ∧ i ≠ k) ∧ s'.w.table = s.w.table ∧ s'.w.limbo = s.w.limbo ∧
      s'.data = s.data ∧ s'.nsRefs = s.nsRefs ∧ s'.cands = s.cands.eraseP (·.clone == k) ∧
      (∀ p, p.1 ≠ k → (p ∈ s'.w.clones ↔ p ∈ s.w.clones)) := by
  obtain ⟨w', hp, hg⟩ := good_put k h.good
  have f : Eff s.w w' Non (· = k) := eff_put hp
  have hsame : w'.table = s.w.table ∧ w'.limbo = s.w.limbo ∧ (∀ p, p ∈ w'.clones → p ∈ s.w.clones) := by
    unfold put at hp
    split at hp
    · injection hp with hp; subst hp; exact ⟨rfl, rfl, fun _ h => h⟩
    · obtain ⟨h', _, he⟩ := map_ok hp
      subst he
      exact ⟨rfl, rfl, fun _ h => List.mem_of_mem_eraseP h⟩
  refine ⟨{ s with w := w', cands := s.cands.eraseP (·.clone == k) }, by unfold destroyCand; rw [hp]; rfl, ⟨hg, f.ids h.ids,
    vis_lt h.lt f (fun _ h => h.elim), fun d hd => h.data d (Nat.le_trans f.next hd), ?_, ?_⟩,
    hsame.1, hsame.2.1, rfl, rfl, rfl, fun p hk => ⟨hsame.2.2 p, fun hp => f.keep p hp hk⟩⟩
  · exact h.nodup.sublist ((List.eraseP_sublist ..).map _)
  · intro c hc
    obtain ⟨hc1, hc2⟩ := (cands_erase h.nodup).1 hc
    obtain ⟨x, hx, hpr⟩ := h.cand c hc1
    refine ⟨x, f.keep _ hx hc2, fun hE => (hpr fun he => hE ⟨he, hc2⟩).eff f (clone_lt h.good hx) (fun _ _ h => h) rfl rfl⟩

theorem Inv.weaken {D : Type} {sys : Sys D} {s : St D} {E E' : Nat → Prop} (h : Inv sys s E) (hE : ∀ i, E i → E' i) :
    Inv sys s E' :=
  ⟨h.good, h.ids, h.lt, h.data, h.nodup, fun c hc => by
    obtain ⟨x, hx, hp⟩ := h.cand c hc
    exact ⟨x, hx, fun hn => hp fun he => hn (hE _ he)⟩⟩

end Jool.Atomic
