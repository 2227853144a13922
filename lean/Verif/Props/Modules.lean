import Verif.Model.Modules
/-
C85: inserting and removing the kernel modules, and everything in between, releases what it acquires, and uses only what is there.
-/
namespace Jool.ModsSpec
open Jool.Mods

/-- What `jool_common.ko` has while it is inserted. -/
def coreRes : List Res := [.key, .shash, .timer, .xlations, .list, .family]

/-- What an instance has. -/
def parts (i : Inst) : List Res :=
  .obj i.id .inst :: (match i.xt with
    | .siit => [.obj i.id .stats, .obj i.id .eamt, .obj i.id .deny]
    | .nat64 => [.obj i.id .stats, .obj i.id .pool4, .obj i.id .bib, .obj i.id .queue, .obj i.id .joold]) ++ if i.nf then [.obj i.id .ops, .obj i.id .hooks] else []

/-- What a candidate has. -/
def cparts (i : Inst) : List Res :=
  .obj i.id .cand :: match i.xt with
    | .siit => [.obj i.id .stats, .obj i.id .eamt, .obj i.id .deny]
    | .nat64 => [.obj i.id .stats, .obj i.id .pool4, .obj i.id .bib, .obj i.id .queue, .obj i.id .joold]

/-- What a module has. -/
def modRes (x : Xt) : Option Bool → List Res
  | none => []
  | some false => [.pernet x]
  | some true => [.pernet x, .targets x]

/-- Everything that should be there. `b`, `d`: have the caches of the BIBs and of joold been created? -/
def want (b d : Bool) (s : St) : List Res :=
  (if s.core then coreRes else []) ++ (if b then [.bibs, .sessions] else []) ++ (if d then [.deferred] else []) ++ modRes .siit (s.ins .siit) ++ modRes .nat64 (s.ins .nat64) ++
    s.insts.flatMap parts ++ s.cands.flatMap cparts

/-- The order of things: nothing is there that should not, nothing is missing that should not. -/
structure Tidy (s : St) : Prop where
  held : ∃ b d, s.held.Perm (want b d s) ∧ (b = true → s.core = true) ∧ (d = true → s.core = true) ∧ (∀ i, i ∈ s.insts ∨ i ∈ s.cands → i.xt = .nat64 → b = true ∧ d = true)
  mods : ∀ x, s.ins x ≠ none → s.core = true
  refs : ∀ x, s.refs x = if s.ins x = none then 0 else 1
  rules : ∀ x, s.rules x ≠ 0 → s.ins x = some true
  owned : ∀ i ∈ s.insts, s.ins i.xt ≠ none ∧ i.ns ∈ s.nss
  cands : s.cands ≠ [] → s.core = true
  fresh : ∀ i, i ∈ s.insts ∨ i ∈ s.cands → i.id < s.next
  defrag : s.ins .nat64 ≠ none → s.defrag = some s.gen
  req : ∀ x, s.req = some x → s.ins x ≠ none

/-- Nobody removes a module while a request to it, which was let through, is being served. -/
def Calm : St → List Op → Prop
  | _, [] => True
  | s, o :: t => (∀ x, o = .remove x → s.req ≠ some x) ∧ ∀ s', step s o = .ok s' → Calm s' t

end Jool.ModsSpec

namespace Jool.Mods
open Jool.ModsSpec
open List (Perm)

set_option linter.unusedVariables false
set_option linter.unusedSimpArgs false

/-- The code gets there, has changed only what is held, and holds `l`. -/
def To (o : Outcome St) (s : St) (l : List Res) : Prop := ∃ h, o = .ok { s with held := h } ∧ h.Perm l
def ToB (o : Outcome (Bool × St)) (s : St) (b : Bool) (l : List Res) : Prop := ∃ h, o = .ok (b, { s with held := h }) ∧ h.Perm l

theorem To.bind {o : Outcome St} {s : St} {l l' : List Res} {g : St → Outcome St} (h : To o s l) (hg : ∀ h', h'.Perm l → To (g { s with held := h' }) s l') : To (o.bind g) s l' := by
  obtain ⟨h', rfl, p⟩ := h
  exact hg h' p

theorem To.map {o : Outcome St} {s : St} {l : List Res} (b : Bool) (h : To o s l) : ToB (o.map (b, ·)) s b l := by
  obtain ⟨h', rfl, p⟩ := h
  exact ⟨h', rfl, p⟩

theorem To.perm {o : Outcome St} {s : St} {l l' : List Res} (h : To o s l) (p : l.Perm l') : To o s l' := by
  obtain ⟨h', e, q⟩ := h
  exact ⟨h', e, q.trans p⟩

theorem free_to {s : St} {r : Res} {l : List Res} (h : s.held.Perm (r :: l)) : To (s.free r) s l := by
  refine ⟨s.held.erase r, ?_, ?_⟩
  · unfold St.free
    rw [if_pos (h.mem_iff.2 (by simp))]
  · have := h.erase r
    simpa using this

theorem frees_to {rs : List Res} {s : St} {l : List Res} (h : s.held.Perm (rs ++ l)) : To (frees rs s) s l := by
  induction rs generalizing s with
  | nil => exact ⟨s.held, rfl, h⟩
  | cons r t ih =>
    unfold frees
    exact (free_to h).bind fun h' p => ih (s := { s with held := h' }) p

theorem uses_ok {rs : List Res} {s : St} (h : ∀ r ∈ rs, r ∈ s.held) : uses rs s = .ok s := by
  induction rs with
  | nil => rfl
  | cons r t ih =>
    unfold uses St.use
    rw [if_pos (h r (by simp))]
    exact ih fun r' h' => h r' (by simp [h'])

/-- Permutations of known elements. -/
macro "perms" : tactic => `(tactic| (refine List.perm_iff_count.2 fun a => ?_; simp only [List.count_append, List.count_cons, List.count_nil]; omega))
macro "perms" h:term : tactic => `(tactic| (refine List.perm_iff_count.2 fun a => ?_; have hp := List.perm_iff_count.1 $h a; simp only [List.count_append, List.count_cons, List.count_nil] at hp ⊢; omega))

/-! ## jool_common.ko -/

theorem setup_to (f : Fail) (s : St) : ToB (setupCommon f s) s false s.held ∨ ToB (setupCommon f s) s true (coreRes ++ s.held) := by
  unfold setupCommon rfc6056Setup
  by_cases h1 : f .key = true
  · rw [if_pos h1]; exact .inl ⟨s.held, rfl, .refl _⟩
  rw [if_neg h1]
  by_cases h2 : f .shash = true
  · rw [if_pos h2]
    obtain ⟨h', e, p⟩ := free_to (s := s.put .key) (r := .key) (l := s.held) (.refl _)
    rw [e]
    exact .inl ⟨h', rfl, p⟩
  rw [if_neg h2]
  dsimp only [Outcome.bind, jtimerSetup, xlationSetup, xlatorSetup, nlSetup]
  simp only [Bool.true_eq_false, if_false]
  have r0 : ∀ h', h'.Perm (.shash :: .key :: s.held) → To (failTimer { s with held := h' }) s s.held := fun h' p => frees_to (rs := [.shash, .key]) (s := { s with held := h' }) p
  have r1 : ∀ h', h'.Perm (.timer :: .shash :: .key :: s.held) → To (failXlation { s with held := h' }) s s.held := fun h' p => (free_to (s := { s with held := h' }) p).bind r0
  have r2 : ∀ h', h'.Perm (.xlations :: .timer :: .shash :: .key :: s.held) → To (failXlator { s with held := h' }) s s.held := fun h' p => (free_to (s := { s with held := h' }) p).bind r1
  have r3 : ∀ h', h'.Perm (.list :: .xlations :: .timer :: .shash :: .key :: s.held) → To (failNl { s with held := h' }) s s.held := fun h' p => (free_to (s := { s with held := h' }) p).bind r2
  by_cases h3 : f .xlations = true
  · simp only [h3, if_true]
    exact .inl ((r1 _ (.refl _)).map false)
  simp only [h3, Bool.false_eq_true, if_false, Bool.true_eq_false]
  by_cases h4 : f .list = true
  · simp only [h4, if_true]
    exact .inl ((r2 _ (.refl _)).map false)
  simp only [h4, Bool.false_eq_true, if_false, Bool.true_eq_false]
  by_cases h5 : f .family = true
  · simp only [h5, if_true]
    exact .inl ((r3 _ (.refl _)).map false)
  simp only [h5, Bool.false_eq_true, if_false, Bool.true_eq_false]
  refine .inr ⟨_, rfl, ?_⟩
  show List.Perm (.family :: .list :: .xlations :: .timer :: .shash :: .key :: s.held) _
  unfold coreRes
  perms

/-! ## Instances and candidates -/

/-- What `xlator_init` acquires. -/
def inner (id : Nat) : Xt → List Res
  | .siit => [.obj id .stats, .obj id .eamt, .obj id .deny]
  | .nat64 => [.obj id .stats, .obj id .pool4, .obj id .bib, .obj id .queue, .obj id .joold]

theorem parts_eq (i : Inst) : parts i = .obj i.id .inst :: inner i.id i.xt ++ if i.nf then [.obj i.id .ops, .obj i.id .hooks] else [] := by
  obtain ⟨_, _, x, _, _⟩ := i
  cases x <;> rfl

theorem cparts_eq (i : Inst) : cparts i = .obj i.id .cand :: inner i.id i.xt := by
  obtain ⟨_, _, x, _, _⟩ := i
  cases x <;> rfl

theorem initSiit_to (f : Fail) (id : Nat) (s : St) : ToB (initSiit f id s) s false s.held ∨ ToB (initSiit f id s) s true (inner id .siit ++ s.held) := by
  unfold initSiit alloc
  by_cases h1 : f (.obj id .stats) = true
  · simp only [h1, if_true]; exact .inl ⟨s.held, rfl, .refl _⟩
  simp only [h1, Bool.false_eq_true, if_false, Bool.true_eq_false]
  by_cases h2 : f (.obj id .eamt) = true
  · simp only [h2, if_true]
    exact .inl ((free_to (s := s.put _) (.refl _)).map false)
  simp only [h2, Bool.false_eq_true, if_false, Bool.true_eq_false]
  by_cases h3 : f (.obj id .deny) = true
  · simp only [h3, if_true]
    exact .inl (((free_to (s := (s.put _).put _) (.refl _)).bind fun h' p => free_to (s := { s with held := h' }) p).map false)
  simp only [h3, Bool.false_eq_true, if_false, Bool.true_eq_false]
  refine .inr ⟨_, rfl, ?_⟩
  show List.Perm (.obj id .deny :: .obj id .eamt :: .obj id .stats :: s.held) _
  unfold inner
  perms

/-- The caches. -/
def cacheB (b : Bool) : List Res := if b then [.bibs, .sessions] else []
def cacheD (d : Bool) : List Res := if d then [.deferred] else []

theorem anyOf_false {s : St} {k : Kind} {l : List Res} (p : s.held.Perm l) (h : ∀ id, .obj id k ∉ l) : s.anyOf k = false := by
  unfold St.anyOf
  rw [List.any_eq_false]
  intro r hr
  have := p.mem_iff.1 hr
  cases r with
  | obj id k' =>
    simp only [beq_iff_eq]
    rintro rfl
    exact h id this
  | _ => simp

theorem bibPut_to {s : St} {id : Nat} {l : List Res} (p : s.held.Perm (.obj id .bib :: .obj id .queue :: l)) (h1 : .bibs ∈ l) (h2 : .sessions ∈ l) : To (bibPut id s) s l := by
  unfold bibPut
  rw [uses_ok (by
    intro r hr
    rw [p.mem_iff]
    simp only [List.mem_cons, List.not_mem_nil, or_false] at hr
    rcases hr with rfl | rfl <;> simp [h1, h2])]
  exact frees_to (p.trans (by perms))

theorem jooldPut_to {s : St} {id : Nat} {l : List Res} (p : s.held.Perm (.obj id .joold :: l)) (h1 : .deferred ∈ l) : To (jooldPut id s) s l := by
  unfold jooldPut St.use
  rw [if_pos (p.mem_iff.2 (by simp [h1]))]
  exact free_to p

theorem bibSetup_to (f : Fail) (s : St) : ToB (bibSetup f s) s false s.held ∨ ToB (bibSetup f s) s true (.bibs :: .sessions :: s.held) := by
  unfold bibSetup
  by_cases h1 : f .bibs = true
  · rw [if_pos h1]; exact .inl ⟨s.held, rfl, .refl _⟩
  rw [if_neg h1]
  by_cases h2 : f .sessions = true
  · rw [if_pos h2]; exact .inl ((free_to (s := s.put _) (.refl _)).map false)
  rw [if_neg h2]
  exact .inr ⟨_, rfl, List.Perm.swap _ _ _⟩

theorem bibTeardown_to {s : St} {l : List Res} (p : s.held.Perm (.bibs :: .sessions :: l)) (h : ∀ id, .obj id .bib ∉ l) : To (bibTeardown s) s l := by
  unfold bibTeardown
  rw [if_pos (p.mem_iff.2 (by simp)), anyOf_false p (by intro id; simp [h id])]
  exact frees_to (rs := [.bibs, .sessions]) p

theorem jooldTeardown_to {s : St} {l : List Res} (p : s.held.Perm (.deferred :: l)) (h : ∀ id, .obj id .joold ∉ l) : To (jooldTeardown s) s l := by
  unfold jooldTeardown
  rw [if_pos (p.mem_iff.2 (by simp)), anyOf_false p (by intro id; simp [h id])]
  exact free_to p

theorem bibAllocRest_to {f : Fail} {id : Nat} {created : Bool} {s : St} {l : List Res} (p : s.held.Perm (.bibs :: .sessions :: l)) (h : created = true → ∀ id, .obj id .bib ∉ l) :
    ToB (bibAllocRest f id created s) s false (if created then l else .bibs :: .sessions :: l) ∨
      ToB (bibAllocRest f id created s) s true (.obj id .bib :: .obj id .queue :: .bibs :: .sessions :: l) := by
  have r : ∀ h', h'.Perm (.bibs :: .sessions :: l) → To (if created then bibTeardown { s with held := h' } else .ok { s with held := h' }) s (if created then l else .bibs :: .sessions :: l) := by
    intro h' p'
    cases created with
    | false => exact ⟨h', rfl, p'⟩
    | true => exact bibTeardown_to (s := { s with held := h' }) p' (h rfl)
  unfold bibAllocRest
  by_cases h1 : f (.obj id .bib) = true
  · rw [if_pos h1]; exact .inl ((r s.held p).map false)
  rw [if_neg h1]
  dsimp only
  by_cases h2 : f (.obj id .queue) = true
  · rw [if_pos h2]
    obtain ⟨h', e, p'⟩ := free_to (s := s.put (.obj id .bib)) (.refl _)
    rw [e]
    exact .inl ((r h' (p'.trans p)).map false)
  rw [if_neg h2]
  refine .inr ⟨_, rfl, ?_⟩
  show List.Perm (_ :: _ :: s.held) _
  perms p

theorem bibAlloc_to {f : Fail} {id : Nat} {b : Bool} {s : St} {l : List Res} (p : s.held.Perm (cacheB b ++ l)) (hl : .bibs ∉ l) (h : b = false → ∀ id, .obj id .bib ∉ l) :
    ToB (bibAlloc f id s) s false (cacheB b ++ l) ∨ ToB (bibAlloc f id s) s true (.obj id .bib :: .obj id .queue :: cacheB true ++ l) := by
  unfold bibAlloc
  cases b with
  | true =>
    rw [if_pos (p.mem_iff.2 (by simp [cacheB]))]
    have := bibAllocRest_to (f := f) (id := id) (created := false) (s := s) (l := l) p (fun h => nomatch h)
    exact this
  | false =>
    rw [if_neg (by rw [p.mem_iff]; simpa [cacheB] using hl)]
    rcases bibSetup_to f s with ⟨h', e, p'⟩ | ⟨h', e, p'⟩
    · rw [e]
      exact .inl ⟨h', rfl, p'.trans p⟩
    · rw [e]
      have := bibAllocRest_to (f := f) (id := id) (created := true) (s := { s with held := h' }) (l := l) (p'.trans ((p.cons _).cons _)) (fun _ => h rfl)
      exact this

theorem jooldAllocRest_to {f : Fail} {id : Nat} {created : Bool} {s : St} {l : List Res} (p : s.held.Perm (.deferred :: l)) (h : created = true → ∀ id, .obj id .joold ∉ l) :
    ToB (jooldAllocRest f id created s) s false (if created then l else .deferred :: l) ∨ ToB (jooldAllocRest f id created s) s true (.obj id .joold :: .deferred :: l) := by
  unfold jooldAllocRest
  by_cases h1 : f (.obj id .joold) = true
  · rw [if_pos h1]
    refine .inl (To.map false ?_)
    cases created with
    | false => exact ⟨s.held, rfl, p⟩
    | true => exact jooldTeardown_to p (h rfl)
  · rw [if_neg h1]
    exact .inr ⟨_, rfl, p.cons _⟩

theorem jooldAlloc_to {f : Fail} {id : Nat} {d : Bool} {s : St} {l : List Res} (p : s.held.Perm (cacheD d ++ l)) (hl : .deferred ∉ l) (h : d = false → ∀ id, .obj id .joold ∉ l) :
    ToB (jooldAlloc f id s) s false (cacheD d ++ l) ∨ ToB (jooldAlloc f id s) s true (.obj id .joold :: cacheD true ++ l) := by
  unfold jooldAlloc
  cases d with
  | true =>
    rw [if_pos (p.mem_iff.2 (by simp [cacheD]))]
    exact jooldAllocRest_to (f := f) (id := id) (created := false) (s := s) (l := l) p (fun h => nomatch h)
  | false =>
    rw [if_neg (by rw [p.mem_iff]; simpa [cacheD] using hl)]
    by_cases h1 : f .deferred = true
    · rw [if_pos h1]; exact .inl ⟨s.held, rfl, p⟩
    · rw [if_neg h1]
      exact jooldAllocRest_to (f := f) (id := id) (created := true) (s := s.put .deferred) (l := l) (p.cons _) (fun _ => h rfl)

theorem initNat64_to {f : Fail} {id : Nat} {b d : Bool} {s : St} {l : List Res} (p : s.held.Perm (cacheB b ++ cacheD d ++ l)) (h1 : .bibs ∉ l) (h2 : .deferred ∉ l)
    (h3 : b = false → ∀ id, .obj id .bib ∉ l) (h4 : d = false → ∀ id, .obj id .joold ∉ l) :
    (∃ b', (b = true → b' = true) ∧ ToB (initNat64 f id s) s false (cacheB b' ++ cacheD d ++ l)) ∨ ToB (initNat64 f id s) s true (inner id .nat64 ++ cacheB true ++ cacheD true ++ l) := by
  unfold initNat64 alloc
  by_cases k1 : f (.obj id .stats) = true
  · simp only [k1, if_true]; exact .inl ⟨b, fun h => h, s.held, rfl, p⟩
  simp only [k1, Bool.false_eq_true, if_false, Bool.true_eq_false]
  by_cases k2 : f (.obj id .pool4) = true
  · simp only [k2, if_true]
    exact .inl ⟨b, fun h => h, To.map false ((free_to (s := s.put _) (.refl _)).perm p)⟩
  simp only [k2, Bool.false_eq_true, if_false, Bool.true_eq_false]
  have nb : .bibs ∉ (Res.obj id .pool4 :: .obj id .stats :: cacheD d ++ l) := by cases d <;> simp [cacheD, h1]
  have no : b = false → ∀ id', .obj id' .bib ∉ (Res.obj id .pool4 :: .obj id .stats :: cacheD d ++ l) := by
    intro hb id'
    have := h3 hb id'
    cases d <;> simp [cacheD, this]
  have r0 : ∀ (b' : Bool) h', h'.Perm (cacheB b' ++ (.obj id .pool4 :: .obj id .stats :: cacheD d ++ l)) → ToB ((failBib id { s with held := h' }).map (false, ·)) s false (cacheB b' ++ cacheD d ++ l) := by
    intro b' h' p'
    refine To.map false ?_
    exact (free_to (s := { s with held := h' }) (l := .obj id .stats :: cacheB b' ++ cacheD d ++ l) (p'.trans (by perms))).bind
      fun h'' p'' => (free_to (s := { s with held := h'' }) p'')
  rcases bibAlloc_to (f := f) (id := id) (b := b) (s := (s.put (.obj id .stats)).put (.obj id .pool4)) (l := .obj id .pool4 :: .obj id .stats :: cacheD d ++ l)
      (by show List.Perm (_ :: _ :: s.held) _; perms p) nb no with ⟨h', e, p'⟩ | ⟨h', e, p'⟩
  · rw [e]
    exact .inl ⟨b, fun h => h, r0 b h' p'⟩
  rw [e]
  show (∃ b', _ ∧ ToB (Outcome.bind (jooldAlloc f id { s with held := h' }) _) s _ _) ∨ ToB (Outcome.bind (jooldAlloc f id { s with held := h' }) _) s _ _
  rcases jooldAlloc_to (f := f) (id := id) (d := d) (s := { s with held := h' }) (l := .obj id .bib :: .obj id .queue :: .obj id .pool4 :: .obj id .stats :: cacheB true ++ l)
      (p'.trans (by perms)) (by simp [cacheB, h2]) (by intro hd id'; have := h4 hd id'; simp [cacheB, this]) with ⟨h'', e', p''⟩ | ⟨h'', e', p''⟩
  · rw [e']
    refine .inl ⟨true, fun _ => rfl, ?_⟩
    show ToB ((failJoold id { s with held := h'' }).map (false, ·)) s false _
    unfold failJoold
    obtain ⟨h3, e3, p3⟩ := bibPut_to (s := { s with held := h'' }) (id := id) (l := cacheB true ++ (.obj id .pool4 :: .obj id .stats :: cacheD d ++ l)) (p''.trans (by perms))
      (by simp [cacheB]) (by simp [cacheB])
    rw [e3]
    exact r0 true h3 p3
  · rw [e']
    refine .inr ⟨h'', rfl, p''.trans ?_⟩
    unfold inner
    perms

/-- What is in the way of nothing: neither caches nor objects that need them, if they are not there. -/
structure Rest (b d : Bool) (l : List Res) : Prop where
  bibs : .bibs ∉ l
  deferred : .deferred ∉ l
  bib : b = false → ∀ id, .obj id .bib ∉ l
  joold : d = false → ∀ id, .obj id .joold ∉ l

theorem xlatorInit_to {f : Fail} {id : Nat} {b d : Bool} {x : Xt} {s : St} {l : List Res} (p : s.held.Perm (cacheB b ++ cacheD d ++ l)) (R : Rest b d l) :
    (∃ b', (b = true → b' = true) ∧ ToB (xlatorInit f id x s) s false (cacheB b' ++ cacheD d ++ l)) ∨
      ∃ b' d', (b = true → b' = true) ∧ (d = true → d' = true) ∧ (x = .nat64 → b' = true ∧ d' = true) ∧ ToB (xlatorInit f id x s) s true (inner id x ++ (cacheB b' ++ cacheD d' ++ l)) := by
  cases x with
  | siit =>
    rcases initSiit_to f id s with ⟨h, e, q⟩ | ⟨h, e, q⟩
    · exact .inl ⟨b, fun h => h, h, e, q.trans p⟩
    · exact .inr ⟨b, d, fun h => h, fun h => h, (fun h => nomatch h), h, e, q.trans (p.append_left _)⟩
  | nat64 =>
    rcases initNat64_to (f := f) (id := id) p R.bibs R.deferred R.bib R.joold with h | ⟨h, e, q⟩
    · exact .inl h
    · exact .inr ⟨true, true, fun _ => rfl, fun _ => rfl, fun _ => ⟨rfl, rfl⟩, h, e, q.trans (by perms)⟩

/-- The caches that the contents of a NAT64 need. -/
def Caches (x : Xt) (l : List Res) : Prop := x = .nat64 → .bibs ∈ l ∧ .sessions ∈ l ∧ .deferred ∈ l

theorem xlatorPut_to {id : Nat} {x : Xt} {s : St} {l : List Res} (p : s.held.Perm (inner id x ++ l)) (h : Caches x l) : To (xlatorPut id x s) s l := by
  cases x with
  | siit => exact frees_to p
  | nat64 =>
    obtain ⟨h1, h2, h3⟩ := h rfl
    unfold xlatorPut
    refine (frees_to (l := .obj id .bib :: .obj id .queue :: .obj id .joold :: l) (p.trans (by unfold inner; perms))).bind fun h' p' => ?_
    exact (bibPut_to (s := { s with held := h' }) (l := .obj id .joold :: l) p' (by simp [h1]) (by simp [h2])).bind fun h'' p'' => jooldPut_to (s := { s with held := h'' }) p'' h3

theorem destroy_to {i : Inst} {s : St} {l : List Res} (p : s.held.Perm (parts i ++ l)) (h : Caches i.xt l) : To (destroy i true s) s l := by
  rw [parts_eq] at p
  unfold destroy
  have fin : ∀ h', h'.Perm (.obj i.id .inst :: inner i.id i.xt ++ l) → To ((xlatorPut i.id i.xt { s with held := h' }).bind (·.free (.obj i.id .inst))) s l := by
    intro h' p'
    exact (xlatorPut_to (s := { s with held := h' }) (l := .obj i.id .inst :: l) (p'.trans (by perms)) (by intro e; obtain ⟨a, b, c⟩ := h e; simp [a, b, c])).bind
      fun h'' p'' => free_to (s := { s with held := h'' }) p''
  cases hn : i.nf with
  | false =>
    rw [hn] at p
    exact fin s.held (by simpa using p)
  | true =>
    rw [hn] at p
    simp only [if_true]
    refine To.bind (l := .obj i.id .inst :: inner i.id i.xt ++ l) ?_ fin
    refine (free_to (s := s) (l := .obj i.id .ops :: (.obj i.id .inst :: inner i.id i.xt ++ l)) (p.trans (by simp only [if_true]; perms))).bind fun h' p' => ?_
    rw [if_pos (p'.mem_iff.2 (by simp))]
    exact free_to (s := { s with held := h' }) p'

theorem destroyNew_to {i : Inst} {s : St} {l : List Res} (p : s.held.Perm (.obj i.id .inst :: inner i.id i.xt ++ l)) (h : Caches i.xt l) (ho : .obj i.id .ops ∉ l) : To (destroy i false s) s l := by
  unfold destroy
  have ho' : .obj i.id .ops ∉ s.held := by
    rw [p.mem_iff]
    cases hx : i.xt <;> simp [inner, ho]
  have fin : ∀ h', h'.Perm (.obj i.id .inst :: inner i.id i.xt ++ l) → To ((xlatorPut i.id i.xt { s with held := h' }).bind (·.free (.obj i.id .inst))) s l := by
    intro h' p'
    exact (xlatorPut_to (s := { s with held := h' }) (l := .obj i.id .inst :: l) (p'.trans (by perms)) (by intro e; obtain ⟨a, b, c⟩ := h e; simp [a, b, c])).bind
      fun h'' p'' => free_to (s := { s with held := h'' }) p''
  cases hn : i.nf with
  | false => exact fin s.held p
  | true =>
    simp only [if_true]
    show To (Outcome.bind (if .obj i.id .ops ∈ s.held then _ else _) _) s l
    rw [if_neg ho']
    exact fin s.held p

theorem destroys_to {L : List Inst} {s : St} {l : List Res} (p : s.held.Perm (L.flatMap parts ++ l)) (h : ∀ i ∈ L, Caches i.xt l) : To (destroys L s) s l := by
  induction L generalizing s with
  | nil => exact ⟨s.held, rfl, p⟩
  | cons i t ih =>
    unfold destroys
    rw [List.flatMap_cons, List.append_assoc] at p
    refine (destroy_to p (fun e => ?_)).bind fun h' p' => ih (s := { s with held := h' }) p' fun j hj => h j (by simp [hj])
    obtain ⟨a, b, c⟩ := h i (by simp) e
    simp [a, b, c]

theorem flatMap_split (p : Inst → Bool) (L : List Inst) (g : Inst → List Res) : (L.flatMap g).Perm ((L.filter p).flatMap g ++ (L.filter fun i => !p i).flatMap g) := by
  induction L with
  | nil => exact .refl _
  | cons i t ih =>
    cases hp : p i with
    | true => simp only [List.filter_cons, hp, if_true, Bool.not_true, Bool.false_eq_true, if_false, List.flatMap_cons]; perms ih
    | false => simp only [List.filter_cons, hp, if_true, Bool.not_false, Bool.false_eq_true, if_false, List.flatMap_cons]; perms ih

/-! ## Everything -/

def base (s : St) : List Res := (if s.core then coreRes else []) ++ modRes .siit (s.ins .siit) ++ modRes .nat64 (s.ins .nat64)
def others (s : St) : List Res := base s ++ s.insts.flatMap parts ++ s.cands.flatMap cparts

theorem want_perm (b d : Bool) (s : St) : (want b d s).Perm (cacheB b ++ cacheD d ++ others s) := by
  unfold want others base cacheB cacheD
  perms

theorem mem_parts {r : Res} {i : Inst} (h : r ∈ parts i) : ∃ k, r = .obj i.id k ∧ ((k = .bib ∨ k = .joold) → i.xt = .nat64) ∧ k ≠ .cand := by
  rw [parts_eq] at h
  revert r
  cases hx : i.xt <;> cases hn : i.nf <;> simp [inner]

theorem mem_cparts {r : Res} {i : Inst} (h : r ∈ cparts i) : ∃ k, r = .obj i.id k ∧ ((k = .bib ∨ k = .joold) → i.xt = .nat64) ∧ k ≠ .ops := by
  rw [cparts_eq] at h
  revert r
  cases hx : i.xt <;> simp [inner]

end Jool.Mods
