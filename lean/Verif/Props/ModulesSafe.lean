import Verif.Props.Modules
/-
C85: every step keeps the order.
-/
namespace Jool.Mods
open Jool.ModsSpec
open List (Perm)

set_option linter.unusedVariables false
set_option linter.unusedSimpArgs false

variable {s : St}

theorem base_none {s : St} {r : Res} (h : r ∈ base s) : (∀ id k, r ≠ .obj id k) ∧ r ≠ .bibs ∧ r ≠ .sessions ∧ r ≠ .deferred := by
  unfold base at h
  simp only [List.mem_append] at h
  rcases h with (h | h) | h
  · cases hc : s.core <;> rw [hc] at h
    · simp at h
    · revert r; simp [coreRes]
  · cases hx : s.ins .siit with
    | none => rw [hx] at h; simp [modRes] at h
    | some b => rw [hx] at h; cases b <;> (revert r; simp [modRes])
  · cases hx : s.ins .nat64 with
    | none => rw [hx] at h; simp [modRes] at h
    | some b => rw [hx] at h; cases b <;> (revert r; simp [modRes])

theorem mem_others {r : Res} (h : r ∈ others s) : r ∈ base s ∨ (∃ i ∈ s.insts, r ∈ parts i) ∨ ∃ i ∈ s.cands, r ∈ cparts i := by
  unfold others at h
  simp only [List.mem_append, List.mem_flatMap] at h
  rcases h with (h | h) | h
  · exact .inl h
  · exact .inr (.inl h)
  · exact .inr (.inr h)

theorem stock_rest {b d : Bool} (hn : ∀ i, i ∈ s.insts ∨ i ∈ s.cands → i.xt = .nat64 → b = true ∧ d = true) : Rest b d (others s) := by
  have key : ∀ id k, k = Kind.bib ∨ k = Kind.joold → .obj id k ∈ others s → b = true ∧ d = true := by
    intro id k hk h
    rcases mem_others h with h | ⟨i, hi, h⟩ | ⟨i, hi, h⟩
    · exact absurd rfl ((base_none h).1 id k)
    · obtain ⟨k', e, h1, -⟩ := mem_parts h
      cases e
      exact hn i (.inl hi) (h1 hk)
    · obtain ⟨k', e, h1, -⟩ := mem_cparts h
      cases e
      exact hn i (.inr hi) (h1 hk)
  refine ⟨?_, ?_, ?_, ?_⟩
  · intro h
    rcases mem_others h with h | ⟨i, hi, h⟩ | ⟨i, hi, h⟩
    · exact (base_none h).2.1 rfl
    · obtain ⟨k', e, -⟩ := mem_parts h; cases e
    · obtain ⟨k', e, -⟩ := mem_cparts h; cases e
  · intro h
    rcases mem_others h with h | ⟨i, hi, h⟩ | ⟨i, hi, h⟩
    · exact (base_none h).2.2.2 rfl
    · obtain ⟨k', e, -⟩ := mem_parts h; cases e
    · obtain ⟨k', e, -⟩ := mem_cparts h; cases e
  · intro hb id h
    rw [(key id .bib (.inl rfl) h).1] at hb; cases hb
  · intro hd id h
    rw [(key id .joold (.inr rfl) h).2] at hd; cases hd

theorem no_obj {id : Nat} {k : Kind} (hf : ∀ i, i ∈ s.insts ∨ i ∈ s.cands → i.id < s.next) (hid : s.next ≤ id) : .obj id k ∉ others s := by
  intro h
  rcases mem_others h with h | ⟨i, hi, h⟩ | ⟨i, hi, h⟩
  · exact absurd rfl ((base_none h).1 id k)
  · obtain ⟨k', e, -⟩ := mem_parts h
    cases e
    have := hf i (.inl hi); omega
  · obtain ⟨k', e, -⟩ := mem_cparts h
    cases e
    have := hf i (.inr hi); omega

theorem caches_mem {b d : Bool} {x : Xt} {l : List Res} (h : x = .nat64 → b = true ∧ d = true) : Caches x (cacheB b ++ cacheD d ++ l) := by
  intro e
  obtain ⟨rfl, rfl⟩ := h e
  simp [cacheB, cacheD]

/-- Instances that are deleted, `p`, and others. -/
theorem drop_to {p q : Inst → Bool} (hq : ∀ i, q i = !p i) {l : List Res} (h : s.held.Perm (s.insts.flatMap parts ++ l)) (hc : ∀ i ∈ s.insts, Caches i.xt l) :
    ∃ h', destroys (s.insts.filter p) { s with insts := s.insts.filter q } = .ok { s with insts := s.insts.filter q, held := h' } ∧ h'.Perm ((s.insts.filter q).flatMap parts ++ l) := by
  obtain rfl : q = fun i => !p i := funext hq
  have hp := flatMap_split p s.insts parts
  refine destroys_to (L := s.insts.filter p) (s := { s with insts := s.insts.filter fun i => !p i }) (l := (s.insts.filter fun i => !p i).flatMap parts ++ l) ?_ ?_
  · refine h.trans ?_
    perms hp
  · intro i hi e
    obtain ⟨a, b, c⟩ := hc i (List.mem_filter.1 hi).1 e
    simp [a, b, c]

theorem flushNets_to {nss : List Nat} {x : Xt} {l : List Res} (h : s.held.Perm (s.insts.flatMap parts ++ l)) (hc : ∀ i ∈ s.insts, Caches i.xt l) :
    ∃ h' L, flushNets nss x s = .ok { s with insts := L, held := h' } ∧ h'.Perm (L.flatMap parts ++ l) ∧ ∀ i, i ∈ L ↔ i ∈ s.insts ∧ ¬ (i.ns ∈ nss ∧ i.xt = x) := by
  induction nss generalizing s with
  | nil => exact ⟨s.held, s.insts, rfl, h, by simp⟩
  | cons n t ih =>
    unfold flushNets flushNet
    obtain ⟨h', e, p⟩ := drop_to (p := fun i => decide (i.ns = n ∧ i.xt = x)) (q := fun i => decide (¬ (i.ns = n ∧ i.xt = x))) (fun i => by simp) h hc
    rw [e]
    obtain ⟨h'', L, e', p', hm⟩ := ih (s := { s with insts := _, held := h' }) p (fun i hi => hc i (List.mem_filter.1 hi).1)
    refine ⟨h'', L, e', p', ?_⟩
    intro i
    rw [hm]
    simp only [List.mem_filter, List.mem_cons, decide_eq_true_eq]
    constructor
    · rintro ⟨⟨a, b⟩, c⟩
      refine ⟨a, ?_⟩
      rintro ⟨d | d, u⟩
      · exact b ⟨d, u⟩
      · exact c ⟨d, u⟩
    · rintro ⟨a, b⟩
      exact ⟨⟨a, fun d => b ⟨.inl d.1, d.2⟩⟩, fun d => b ⟨.inr d.1, d.2⟩⟩

theorem flushBatch_to {nss : List Nat} {x : Xt} {l : List Res} (h : s.held.Perm (s.insts.flatMap parts ++ l)) (hc : ∀ i ∈ s.insts, Caches i.xt l) :
    ∃ h' L, flushBatch nss x s = .ok { s with insts := L, held := h' } ∧ h'.Perm (L.flatMap parts ++ l) ∧ ∀ i, i ∈ L ↔ i ∈ s.insts ∧ ¬ (i.ns ∈ nss ∧ i.xt = x) := by
  unfold flushBatch
  obtain ⟨h', e, p⟩ := drop_to (p := fun i => decide (i.ns ∈ nss ∧ i.xt = x)) (q := fun i => decide (¬ (i.ns ∈ nss ∧ i.xt = x))) (fun i => by simp) h hc
  rw [e]
  exact ⟨h', _, rfl, p, fun i => by simp only [List.mem_filter, decide_eq_true_eq]⟩

theorem candsDestroy_to {L : List Inst} {l : List Res} (hL : s.cands = L) (h : s.held.Perm (L.flatMap cparts ++ l)) (hc : ∀ i ∈ L, Caches i.xt l) :
    ∃ h', candsDestroy L s = .ok { s with cands := [], held := h' } ∧ h'.Perm l := by
  induction L generalizing s with
  | nil => exact ⟨s.held, by obtain ⟨⟩ := s; simp only at hL; subst hL; rfl, h⟩
  | cons i t ih =>
    unfold candsDestroy candDestroy
    rw [List.flatMap_cons, cparts_eq] at h
    have hp : s.held.Perm (inner i.id i.xt ++ (.obj i.id .cand :: (t.flatMap cparts ++ l))) := h.trans (by perms)
    obtain ⟨h1, e1, p1⟩ := xlatorPut_to hp (by intro e; obtain ⟨a, b, c⟩ := hc i (by simp) e; simp [a, b, c])
    rw [e1]
    dsimp only [Outcome.bind]
    obtain ⟨h2, e2, p2⟩ := free_to (s := { s with held := h1, cands := s.cands.erase i }) p1
    rw [e2]
    dsimp only [Outcome.bind]
    exact ih (s := { s with held := h2, cands := s.cands.erase i }) (by show s.cands.erase i = t; rw [hL]; simp) p2 (fun j hj => hc j (by simp [hj]))

/-- The held part of `Tidy`. -/
theorem stock (T : Tidy s) : ∃ b d, s.held.Perm (cacheB b ++ cacheD d ++ others s) ∧ (b = true → s.core = true) ∧ (d = true → s.core = true) ∧
    (∀ i, i ∈ s.insts ∨ i ∈ s.cands → i.xt = .nat64 → b = true ∧ d = true) := by
  obtain ⟨b, d, p, h⟩ := T.held
  exact ⟨b, d, p.trans (want_perm b d s), h⟩

theorem tidy_insertCore {f : Fail} (T : Tidy s) : ∃ s', step s (.insertCore f) = .ok s' ∧ Tidy s' := by
  unfold step
  cases hc : s.core with
  | true => exact ⟨s, rfl, T⟩
  | false =>
    simp only [Bool.false_eq_true, if_false]
    have hi : ∀ x, s.ins x = none := by
      intro x
      cases h : s.ins x with
      | none => rfl
      | some v => have := T.mods x (by rw [h]; simp); rw [hc] at this; cases this
    obtain ⟨b, d, p, h1, h2, h3⟩ := T.held
    rcases setup_to f s with ⟨h, e, q⟩ | ⟨h, e, q⟩
    · rw [e]
      refine ⟨_, rfl, ⟨⟨b, d, (q.trans p).trans ?_, ?_, ?_, h3⟩, ?_, T.refs, T.rules, T.owned, ?_, T.fresh, T.defrag, T.req⟩⟩
      · unfold want; rw [hc]
      · rw [hc] at h1; exact h1
      · rw [hc] at h2; exact h2
      · intro x hx; exact absurd (hi x) hx
      · intro hx; have := T.cands hx; rw [hc] at this; cases this
    · rw [e]
      refine ⟨_, rfl, ⟨⟨b, d, (q.trans (p.append_left _)).trans ?_, fun _ => rfl, fun _ => rfl, h3⟩, fun _ _ => rfl, T.refs, T.rules, T.owned, fun _ => rfl, T.fresh, T.defrag, T.req⟩⟩
      unfold want
      rw [hc]
      simp only [Bool.false_eq_true, if_false, if_true]
      perms

theorem tidy_removeCore (T : Tidy s) : ∃ s', step s .removeCore = .ok s' ∧ Tidy s' := by
  unfold step
  by_cases hcond : s.core = true ∧ s.ins .siit = none ∧ s.ins .nat64 = none ∧ s.req = none
  · rw [if_pos hcond]
    obtain ⟨hc, i1, i2, hr⟩ := hcond
    have hi : ∀ x, s.ins x = none := by intro x; cases x <;> assumption
    have hin : s.insts = [] := by
      apply List.eq_nil_iff_forall_not_mem.2
      intro i h
      exact (T.owned i h).1 (hi _)
    obtain ⟨b, d, p, h1, h2, h3⟩ := stock T
    have po : (others s).Perm (coreRes ++ s.cands.flatMap cparts) := by
      unfold others base
      rw [hc, i1, i2, hin]
      simp [modRes]
    have p := p.trans (po.append_left _)
    unfold coreRes at p
    unfold teardownCommon nlTeardown xlatorTeardown xlationTeardown jtimerTeardown rfc6056Teardown
    obtain ⟨a1, e1, p1⟩ := free_to (s := s) (r := .family) (l := .list :: .xlations :: (s.cands.flatMap cparts ++ (cacheB b ++ cacheD d ++ [.timer, .shash, .key]))) (p.trans (by perms))
    rw [e1]; dsimp only [Outcome.bind]
    obtain ⟨a2, e2, p2⟩ := free_to (s := { s with held := a1 }) p1
    rw [e2]; dsimp only [Outcome.bind]
    obtain ⟨a3, e3, p3⟩ := free_to (s := { s with held := a2 }) p2
    rw [e3]; dsimp only [Outcome.bind]
    obtain ⟨a4, e4, p4⟩ := candsDestroy_to (s := { s with held := a3 }) rfl p3 (fun i hi => caches_mem (h3 i (.inr hi)))
    rw [e4]; dsimp only [Outcome.bind]
    obtain ⟨a5, e5, p5⟩ := free_to (s := { s with held := a4, cands := [] }) (r := .timer) (l := .shash :: .key :: (cacheB b ++ cacheD d)) (p4.trans (by perms))
    rw [e5]; dsimp only [Outcome.bind]
    obtain ⟨a6, e6, p6⟩ := frees_to (rs := [.shash, .key]) (s := { s with held := a5, cands := [] }) p5
    rw [e6]; dsimp only [Outcome.bind]
    have e7 : ∃ a7, jooldTeardown { s with held := a6, cands := [] } = .ok { s with held := a7, cands := [] } ∧ a7.Perm (cacheB b) := by
      cases d with
      | true => exact jooldTeardown_to (s := { s with held := a6, cands := [] }) (l := cacheB b) (p6.trans (by unfold cacheD; simp only [if_true]; exact List.perm_append_comm)) (by cases b <;> simp [cacheB])
      | false =>
        refine ⟨a6, ?_, p6.trans (by simp [cacheD])⟩
        unfold jooldTeardown
        rw [if_neg]
        show Res.deferred ∉ a6
        rw [p6.mem_iff]
        cases b <;> simp [cacheB, cacheD]
    obtain ⟨a7, e7, p7⟩ := e7
    rw [e7]; dsimp only [Outcome.bind]
    have e8 : ∃ a8, bibTeardown { s with held := a7, cands := [] } = .ok { s with held := a8, cands := [] } ∧ a8.Perm [] := by
      cases b with
      | true => exact bibTeardown_to (s := { s with held := a7, cands := [] }) (l := []) p7 (by simp)
      | false =>
        refine ⟨a7, ?_, p7⟩
        unfold bibTeardown
        rw [if_neg]
        show Res.bibs ∉ a7
        rw [p7.mem_iff]
        simp [cacheB]
    obtain ⟨a8, e8, p8⟩ := e8
    rw [e8]
    refine ⟨_, rfl, ⟨⟨false, false, p8.trans ?_, nofun, nofun, ?_⟩, ?_, T.refs, T.rules, T.owned, fun h => absurd rfl h, ?_, T.defrag, T.req⟩⟩
    · unfold want
      simp only
      rw [i1, i2, hin]
      simp [modRes]
    · intro i h
      rcases h with h | h
      · simp only [hin] at h; cases h
      · cases h
    · intro x hx; exact absurd (hi x) hx
    · intro i h
      rcases h with h | h
      · exact T.fresh i (.inl h)
      · cases h
  · rw [if_neg hcond]; exact ⟨s, rfl, T⟩

/-- Back to `Tidy`. -/
theorem held_of {b d : Bool} (p : s.held.Perm (cacheB b ++ cacheD d ++ others s)) (h1 : b = true → s.core = true) (h2 : d = true → s.core = true)
    (h3 : ∀ i, i ∈ s.insts ∨ i ∈ s.cands → i.xt = .nat64 → b = true ∧ d = true) :
    ∃ b d, s.held.Perm (want b d s) ∧ (b = true → s.core = true) ∧ (d = true → s.core = true) ∧ (∀ i, i ∈ s.insts ∨ i ∈ s.cands → i.xt = .nat64 → b = true ∧ d = true) :=
  ⟨b, d, p.trans (want_perm b d s).symm, h1, h2, h3⟩

theorem set_self {α : Type} (g : Xt → α) (x : Xt) (v : α) : set g x v x = v := by simp [set]
theorem set_other {α : Type} (g : Xt → α) {x y : Xt} (v : α) (h : y ≠ x) : set g x v y = g y := by simp [set, h]

/-- The registrations of both modules. -/
def modsRes (g : Xt → Option Bool) : List Res := modRes .siit (g .siit) ++ modRes .nat64 (g .nat64)

theorem modsRes_set {g : Xt → Option Bool} {x : Xt} (v : Option Bool) (h : g x = none) : (modsRes (set g x v)).Perm (modRes x v ++ modsRes g) := by
  unfold modsRes
  cases x with
  | siit => rw [set_self, set_other _ _ (by decide), h]; simp [modRes]
  | nat64 => rw [set_self, set_other _ _ (by decide), h]; simp only [modRes]; perms

theorem set_set {g : Xt → Option Bool} {x : Xt} {v : Option Bool} (h : g x = v) : set (set g x none) x v = g := by
  funext y
  unfold set
  by_cases e : y = x
  · subst e; simp [h]
  · simp [e]

theorem tidy_insert {x : Xt} {f : Fail} (T : Tidy s) : ∃ s', step s (.insert x f) = .ok s' ∧ Tidy s' := by
  show ∃ s', (if s.core = true ∧ s.ins x = none then (.ok (insert x f s) : Outcome St) else .ok s) = .ok s' ∧ Tidy s'
  by_cases hcond : ¬ (s.core = true ∧ s.ins x = none)
  · rw [if_neg hcond]; exact ⟨s, rfl, T⟩
  replace hcond := Classical.not_not.1 hcond
  rw [if_pos hcond]
  obtain ⟨hc, hx⟩ := hcond
  refine ⟨_, rfl, ?_⟩
  unfold insert
  by_cases hf : f (.pernet x) = true
  · rw [if_pos hf]; exact T
  rw [if_neg hf]
  obtain ⟨b, d, p, h1, h2, h3⟩ := T.held
  have hr : s.refs x = 0 := by rw [T.refs x, hx]; rfl
  have hru : s.rules x = 0 := by
    cases h : s.rules x with
    | zero => rfl
    | succ n => have := T.rules x (by rw [h]; omega); rw [hx] at this; cases this
  generalize ht : (!f (.targets x)) = t
  have main : ∀ h' : List Res, h'.Perm (modRes x (some t) ++ s.held) →
      Tidy (get x { s with held := h', ins := set s.ins x (some t), gen := if x = .nat64 then s.gen + 1 else s.gen }) := by
    intro h' p'
    have e : get x { s with held := h', ins := set s.ins x (some t), gen := if x = .nat64 then s.gen + 1 else s.gen } =
        { s with held := h', ins := set s.ins x (some t), gen := (if x = .nat64 then s.gen + 1 else s.gen), refs := set s.refs x 1,
                 defrag := if x = .nat64 then some (s.gen + 1) else s.defrag } := by
      unfold get
      simp only [hr, set_self]
      cases x <;> simp
    rw [e]
    refine ⟨⟨b, d, p'.trans ?_, fun _ => hc, fun _ => hc, h3⟩, fun _ _ => hc, ?_, ?_, ?_, fun _ => hc, T.fresh, ?_, ?_⟩
    · have q := modsRes_set (g := s.ins) (some t) hx
      unfold want at p ⊢
      unfold modsRes at q
      simp only
      refine List.perm_iff_count.2 fun a => ?_
      have u1 := List.perm_iff_count.1 p a
      have u2 := List.perm_iff_count.1 q a
      simp only [List.count_append] at u1 u2 ⊢
      omega
    · intro y
      show set s.refs x 1 y = if set s.ins x (some t) y = none then 0 else 1
      by_cases e : y = x
      · subst e; simp [set_self]
      · rw [set_other _ _ e, set_other _ _ e]; exact T.refs y
    · intro y hy
      show set s.ins x (some t) y = some true
      by_cases e : y = x
      · subst e; exact absurd hru hy
      · rw [set_other _ _ e]; exact T.rules y hy
    · intro i hi
      refine ⟨?_, (T.owned i hi).2⟩
      show set s.ins x (some t) i.xt ≠ none
      by_cases e : i.xt = x
      · rw [e, set_self]; simp
      · rw [set_other _ _ e]; exact (T.owned i hi).1
    · intro hn
      show (if x = .nat64 then some (s.gen + 1) else s.defrag) = some (if x = .nat64 then s.gen + 1 else s.gen)
      by_cases e : x = .nat64
      · simp [e]
      · simp only [e, if_false]
        have : set s.ins x (some t) .nat64 ≠ none := hn
        rw [set_other _ _ (fun h => e h.symm)] at this
        exact T.defrag this
    · intro y hy
      show set s.ins x (some t) y ≠ none
      by_cases e : y = x
      · rw [e, set_self]; simp
      · rw [set_other _ _ e]; exact T.req y hy
  cases t with
  | false =>
    simp only [ht]
    exact main _ (.refl _)
  | true =>
    simp only [ht]
    exact main _ (List.Perm.swap _ _ _)

theorem tidy_remove {x : Xt} (T : Tidy s) (hq : s.req ≠ some x) : ∃ s', step s (.remove x) = .ok s' ∧ Tidy s' := by
  show ∃ s', (if s.ins x ≠ none ∧ s.rules x = 0 then remove x s else .ok s) = .ok s' ∧ Tidy s'
  by_cases hcond : ¬ (s.ins x ≠ none ∧ s.rules x = 0)
  · rw [if_neg hcond]; exact ⟨s, rfl, T⟩
  replace hcond := Classical.not_not.1 hcond
  rw [if_pos hcond]
  obtain ⟨hx, hru⟩ := hcond
  obtain ⟨b, d, p, h1, h2, h3⟩ := T.held
  have hr : s.refs x = 1 := by rw [T.refs x, if_neg hx]
  obtain ⟨t, ht⟩ := Option.ne_none_iff_exists'.1 hx
  have hm : (modsRes s.ins).Perm (modRes x (some t) ++ modsRes (set s.ins x none)) := by
    have := modsRes_set (g := set s.ins x none) (x := x) (some t) (set_self _ _ _)
    rw [set_set ht] at this
    exact this
  have hu : ungot x s = { s with refs := set s.refs x 0 } := by
    unfold ungot
    rw [hr]; rfl
  unfold remove
  rw [hu]
  dsimp only
  -- what stays
  generalize hl : (if s.core then coreRes else []) ++ (cacheB b ++ cacheD d) ++ modsRes (set s.ins x none) ++ s.cands.flatMap cparts = l
  have p0 : s.held.Perm (modRes x (some t) ++ (s.insts.flatMap parts ++ l)) := by
    refine p.trans ?_
    rw [← hl]
    unfold want cacheB cacheD
    unfold modsRes at hm ⊢
    refine List.perm_iff_count.2 fun a => ?_
    have u2 := List.perm_iff_count.1 hm a
    simp only [List.count_append] at u2 ⊢
    omega
  have hcl : ∀ L : List Inst, (∀ i ∈ L, i ∈ s.insts) → ∀ i ∈ L, Caches i.xt (.pernet x :: l) := by
    intro L hL i hi e
    obtain ⟨rfl, rfl⟩ := h3 i (.inl (hL i hi)) e
    rw [← hl]
    simp [cacheB, cacheD]
  -- the targets
  have st1 : ∃ a1, (if s.ins x = some true then ({ s with refs := set s.refs x 0 } : St).free (.targets x) else .ok { s with refs := set s.refs x 0 }) = .ok { s with refs := set s.refs x 0, held := a1 } ∧
      a1.Perm (s.insts.flatMap parts ++ (.pernet x :: l)) := by
    cases t with
    | true =>
      rw [ht, if_pos rfl]
      exact free_to (s := { s with refs := set s.refs x 0 }) (l := s.insts.flatMap parts ++ (.pernet x :: l)) (p0.trans (by unfold modRes; perms))
    | false =>
      rw [ht, if_neg (by simp)]
      exact ⟨s.held, rfl, p0.trans (by unfold modRes; perms)⟩
  obtain ⟨a1, e1, p1⟩ := st1
  rw [e1]; dsimp only [Outcome.bind]
  obtain ⟨a2, L2, e2, p2, m2⟩ := flushNets_to (s := { s with refs := set s.refs x 0, held := a1 }) (nss := s.nss) (x := x) p1 (hcl s.insts (fun i hi => hi))
  rw [e2]; dsimp only [Outcome.bind]
  obtain ⟨a3, L3, e3, p3, m3⟩ := flushBatch_to (s := { s with refs := set s.refs x 0, held := a2, insts := L2 }) (nss := s.nss) (x := x) p2 (hcl L2 (fun i hi => ((m2 i).1 hi).1))
  rw [e3]; dsimp only [Outcome.bind]
  obtain ⟨a4, e4, p4⟩ := free_to (s := { s with refs := set s.refs x 0, held := a3, insts := L3 }) (r := .pernet x) (l := L3.flatMap parts ++ l) (p3.trans (by perms))
  rw [e4]
  have hL3 : ∀ i ∈ L3, i ∈ s.insts ∧ i.xt ≠ x := by
    intro i hi
    have h2 := (m3 i).1 hi
    have h3 := (m2 i).1 h2.1
    exact ⟨h3.1, fun e => h3.2 ⟨(T.owned i h3.1).2, e⟩⟩
  refine ⟨_, rfl, ⟨⟨b, d, p4.trans ?_, h1, h2, ?_⟩, ?_, ?_, ?_, ?_, T.cands, ?_, ?_, ?_⟩⟩
  · rw [← hl]
    unfold want cacheB cacheD modsRes
    simp only
    (perms)
  · intro i hi
    rcases hi with hi | hi
    · exact h3 i (.inl (hL3 i hi).1)
    · exact h3 i (.inr hi)
  · intro y hy
    by_cases e : y = x
    · subst e; exact absurd (set_self _ _ _) hy
    · have : s.ins y ≠ none := by intro h; exact hy ((set_other _ _ e).trans h)
      exact T.mods y this
  · intro y
    show set s.refs x 0 y = if set s.ins x none y = none then 0 else 1
    by_cases e : y = x
    · subst e; simp [set_self]
    · rw [set_other _ _ e, set_other _ _ e]; exact T.refs y
  · intro y hy
    show set s.ins x none y = some true
    by_cases e : y = x
    · subst e; exact absurd hru hy
    · rw [set_other _ _ e]; exact T.rules y hy
  · intro i hi
    obtain ⟨g1, g2⟩ := hL3 i hi
    refine ⟨?_, (T.owned i g1).2⟩
    show set s.ins x none i.xt ≠ none
    rw [set_other _ _ g2]; exact (T.owned i g1).1
  · intro i hi
    rcases hi with hi | hi
    · exact T.fresh i (.inl (hL3 i hi).1)
    · exact T.fresh i (.inr hi)
  · intro hn
    have hn : set s.ins x none .nat64 ≠ none := hn
    by_cases e : Xt.nat64 = x
    · subst e; exact absurd (set_self _ _ _) hn
    · rw [set_other _ _ e] at hn; exact T.defrag hn
  · intro y hy
    show set s.ins x none y ≠ none
    by_cases e : y = x
    · subst e; exact absurd hy hq
    · rw [set_other _ _ e]; exact T.req y hy

end Jool.Mods
