import Verif.Model.DaemonStart
/-
C97: how the joold daemon starts.
-/
namespace Jool.DStart
open Jool.Text (Text Inet)

/-! ### What starting means -/

/-- The calls `l`, made one after the other after `h`, succeed. -/
def Works (s : Sys) : List Call → List Call → Prop
  | _, [] => True
  | h, c :: l => s.ok h c = true ∧ Works s (h ++ [c]) l

/-- A call was made, and succeeded. -/
def Done (s : Sys) (h : List Call) (c : Call) : Prop := ∃ a b, h = a ++ c :: b ∧ s.ok a c = true

/-- How the candidate `a` is tried after `h`. -/
def trial (h : List Call) (a : AI) : List Call := [.socket a.fam, .reuse h.length, .bind h.length a]

/-- All the candidates are tried in vain. -/
inductive Skipped (s : Sys) : List Call → List AI → List Call → Prop
  | nil (h) : Skipped s h [] h
  | cons {h a l h' pre c post} : trial h a = pre ++ c :: post → Works s h pre → s.ok (h ++ pre) c = false → Skipped s (h ++ pre ++ [c]) l h' → Skipped s h (a :: l) h'

/-- The interface that is called `t`: by one of its IPv4 addresses or by its name. -/
def Called (s : Sys) : Fam → Text → Ifc → Prop
  | .v4, t, i => ∃ a, s.inet.pton4 t = some a ∧ i = .addr a
  | .v6, t, i => ∃ n, s.ifIndex t = some n ∧ i = .index n
  | .other, _, _ => False

/-- The options of the socket: it is a member of the group `a` at the right interface, does not hear itself, and its datagrams leave with the right hop limit through the right interface. -/
def Options (s : Sys) (c : Net) (fd : Nat) (a : AI) (l : List Call) : Prop :=
  a.fam ≠ .other ∧ ∃ i o, ((c.inIf = none ∧ i = .any) ∨ ∃ t, c.inIf = some t ∧ Called s a.fam t i) ∧
    ((c.outIf = none ∧ o = []) ∨ ∃ t j, c.outIf = some t ∧ Called s a.fam t j ∧ o = [.outIf fd a.fam j]) ∧
    l = [.join fd a.fam a.ip i, .loopOff fd a.fam, .ttl fd a.fam c.ttl] ++ o

/-! ### Calls -/

theorem works_append {s : Sys} : ∀ {l h m : List Call}, Works s h (l ++ m) ↔ Works s h l ∧ Works s (h ++ l) m
  | [], h, m => by simp [Works]
  | c :: l, h, m => by
    simp only [List.cons_append, Works, works_append (l := l), List.append_assoc, and_assoc]
    simp

theorem call_some {α : Type} {s : Sys} {h h' : List Call} {c : Call} {k : List Call → List Call × Option α} {x : α} :
    call s h c k = (h', some x) ↔ s.ok h c = true ∧ k (h ++ [c]) = (h', some x) := by
  unfold call
  by_cases q : s.ok h c = true
  · simp [q]
  · simp [q]

theorem try_some {s : Sys} {h h' : List Call} {a : AI} {fd : Nat} :
    tryAddress s h a = (h', some fd) ↔ fd = h.length ∧ Works s h (trial h a) ∧ h' = h ++ trial h a := by
  unfold tryAddress
  rw [call_some, call_some, call_some]
  simp only [Prod.mk.injEq, Option.some.injEq, Works, trial, and_true, List.append_assoc, List.cons_append, List.nil_append]
  constructor
  · rintro ⟨h1, h2, h3, h4, h5⟩; exact ⟨h5.symm, ⟨h1, h2, h3⟩, h4.symm⟩
  · rintro ⟨h5, ⟨h1, h2, h3⟩, h4⟩; exact ⟨h1, h2, h3, h4.symm, h5.symm⟩

theorem try_none {s : Sys} {h h' : List Call} {a : AI} :
    tryAddress s h a = (h', none) ↔ ∃ pre c post, trial h a = pre ++ c :: post ∧ Works s h pre ∧ s.ok (h ++ pre) c = false ∧ h' = h ++ pre ++ [c] := by
  constructor
  · intro g
    unfold tryAddress call at g
    split at g
    · rename_i q1
      dsimp only at g
      split at g
      · rename_i q2
        split at g
        · cases g
        · rename_i q3
          cases g
          exact ⟨[.socket a.fam, .reuse h.length], _, [], rfl, ⟨q1, q2, trivial⟩, by simpa using q3, by simp⟩
      · rename_i q2
        cases g
        exact ⟨[.socket a.fam], _, [_], rfl, ⟨q1, trivial⟩, by simpa using q2, by simp⟩
    · rename_i q1
      cases g
      exact ⟨[], _, [_, _], rfl, trivial, by simpa using q1, by simp⟩
  · rintro ⟨pre, c, post, e, hw, hf, rfl⟩
    match pre, e with
    | [], e =>
      simp only [trial, List.nil_append, List.cons.injEq] at e
      obtain ⟨rfl, rfl⟩ := e
      simp only [List.append_nil] at hf ⊢
      simp [tryAddress, call, hf]
    | [x], e =>
      simp only [trial, List.cons_append, List.nil_append, List.cons.injEq] at e
      obtain ⟨rfl, rfl, rfl⟩ := e
      simp [tryAddress, call, hf, hw.1]
    | [x, y], e =>
      simp only [trial, List.cons_append, List.nil_append, List.cons.injEq] at e
      obtain ⟨rfl, rfl, rfl, rfl⟩ := e
      have h2 := hw.2.1
      simp [tryAddress, call, hf, hw.1, h2]
    | x :: y :: z :: w, e =>
      have := congrArg List.length e
      simp [trial] at this

theorem all_some {s : Sys} {fd : Nat} {a : AI} {h' : List Call} : ∀ {l : List AI} {h : List Call}, tryAll s h l = (h', some (fd, a)) ↔
    ∃ pre post h1, l = pre ++ a :: post ∧ Skipped s h pre h1 ∧ fd = h1.length ∧ Works s h1 (trial h1 a) ∧ h' = h1 ++ trial h1 a
  | [], h => by simp [tryAll]
  | x :: l, h => by
    unfold tryAll
    cases q : tryAddress s h x with
    | mk h2 r =>
      cases r with
      | some fd' =>
        simp only
        have q' := try_some.1 q
        constructor
        · intro e
          simp only [Prod.mk.injEq, Option.some.injEq] at e
          obtain ⟨rfl, rfl, rfl⟩ := e
          exact ⟨[], l, h, rfl, .nil h, q'.1, q'.2.1, q'.2.2⟩
        · rintro ⟨pre, post, h1, e, hs, e1, hw, e2⟩
          cases pre with
          | nil =>
            cases hs
            simp only [List.nil_append, List.cons.injEq] at e
            obtain ⟨rfl, rfl⟩ := e
            rw [e1, e2, q'.1, q'.2.2]
          | cons y pre =>
            simp only [List.cons_append, List.cons.injEq] at e
            obtain ⟨rfl, rfl⟩ := e
            cases hs with
            | cons g1 g2 g3 g4 =>
              have := try_none.2 ⟨_, _, _, g1, g2, g3, rfl⟩
              rw [this] at q; cases q
      | none =>
        simp only
        rw [all_some]
        have ⟨p, c, po, g1, g2, g3, g4⟩ := try_none.1 q
        constructor
        · rintro ⟨pre, post, h1, rfl, hs, e1, hw, e2⟩
          exact ⟨x :: pre, post, h1, rfl, .cons g1 g2 g3 (g4 ▸ hs), e1, hw, e2⟩
        · rintro ⟨pre, post, h1, e, hs, e1, hw, e2⟩
          cases pre with
          | nil =>
            cases hs
            simp only [List.nil_append, List.cons.injEq] at e
            obtain ⟨rfl, rfl⟩ := e
            have := try_some.2 ⟨rfl, hw, rfl⟩
            rw [this] at q; cases q
          | cons y pre =>
            simp only [List.cons_append, List.cons.injEq] at e
            obtain ⟨rfl, rfl⟩ := e
            cases hs with
            | cons k1 k2 k3 k4 =>
              have := try_none.2 ⟨_, _, _, k1, k2, k3, rfl⟩
              rw [this] at q
              cases q
              exact ⟨pre, post, h1, rfl, k4, e1, hw, e2⟩

theorem called_iff {s : Sys} {f : Fam} {t : Text} {i : Ifc} (h : f ≠ .other) : interface s f t = some i ↔ Called s f t i := by
  cases f with
  | v4 =>
    simp only [interface, Called, Option.map_eq_some_iff]
    exact ⟨fun ⟨a, h1, h2⟩ => ⟨a, h1, h2.symm⟩, fun ⟨a, h1, h2⟩ => ⟨a, h1, h2.symm⟩⟩
  | v6 =>
    simp only [interface, Called, Option.map_eq_some_iff]
    exact ⟨fun ⟨a, h1, h2⟩ => ⟨a, h1, h2.symm⟩, fun ⟨a, h1, h2⟩ => ⟨a, h1, h2.symm⟩⟩
  | other => exact absurd rfl h

theorem out_some {s : Sys} {c : Net} {fd : Nat} {a : AI} {h h' : List Call} (hf : a.fam ≠ .other) : setOut s c fd a h = (h', some ()) ↔
    ∃ o, ((c.outIf = none ∧ o = []) ∨ ∃ t j, c.outIf = some t ∧ Called s a.fam t j ∧ o = [.outIf fd a.fam j]) ∧ Works s h o ∧ h' = h ++ o := by
  unfold setOut
  cases q : c.outIf with
  | none =>
    simp only [Prod.mk.injEq, and_true, true_and, reduceCtorEq, false_and, exists_false, or_false]
    constructor
    · rintro rfl; exact ⟨[], rfl, trivial, by simp⟩
    · rintro ⟨o, rfl, _, rfl⟩; simp
  | some t =>
    simp only
    cases q2 : interface s a.fam t with
    | none =>
      constructor
      · intro e; cases e
      · rintro ⟨o, (⟨e, _⟩ | ⟨t', j, e, hc, _⟩), _⟩
        · cases e
        · cases e; rw [← called_iff hf, q2] at hc; cases hc
    | some i =>
      simp only [call_some, Prod.mk.injEq, and_true]
      constructor
      · rintro ⟨h1, rfl⟩; exact ⟨_, .inr ⟨t, i, rfl, (called_iff hf).1 q2, rfl⟩, ⟨h1, trivial⟩, rfl⟩
      · rintro ⟨o, (⟨e, _⟩ | ⟨t', j, e, hc, rfl⟩), hw, rfl⟩
        · cases e
        · cases e
          rw [← called_iff hf, q2] at hc; cases hc
          exact ⟨hw.1, rfl⟩

theorem adjust_some {s : Sys} {c : Net} {fd : Nat} {a : AI} {h h' : List Call} : adjust s c fd a h = (h', some ()) ↔ ∃ l, Options s c fd a l ∧ Works s h l ∧ h' = h ++ l := by
  unfold adjust
  by_cases hf : a.fam = .other
  · rw [if_pos hf]
    constructor
    · intro e; cases e
    · rintro ⟨l, ho, _⟩; exact absurd hf ho.1
  · rw [if_neg hf]
    have core : ∀ i, (call s h (.join fd a.fam a.ip i) fun h1 => call s h1 (.loopOff fd a.fam) fun h2 => call s h2 (.ttl fd a.fam c.ttl) fun h3 => setOut s c fd a h3) = (h', some ()) ↔
        ∃ o, ((c.outIf = none ∧ o = []) ∨ ∃ t j, c.outIf = some t ∧ Called s a.fam t j ∧ o = [.outIf fd a.fam j]) ∧
          Works s h ([.join fd a.fam a.ip i, .loopOff fd a.fam, .ttl fd a.fam c.ttl] ++ o) ∧ h' = h ++ ([.join fd a.fam a.ip i, .loopOff fd a.fam, .ttl fd a.fam c.ttl] ++ o) := by
      intro i
      rw [call_some, call_some, call_some, out_some hf]
      constructor
      · rintro ⟨h1, h2, h3, o, ho, hw, rfl⟩
        exact ⟨o, ho, ⟨h1, h2, h3, hw⟩, by simp⟩
      · rintro ⟨o, ho, ⟨h1, h2, h3, hw⟩, rfl⟩
        exact ⟨h1, h2, h3, o, ho, hw, by simp⟩
    unfold addMembership
    cases q : c.inIf with
    | none =>
      simp only
      rw [core]
      constructor
      · rintro ⟨o, ho, hw, e⟩; exact ⟨_, ⟨hf, .any, o, .inl ⟨q, rfl⟩, ho, rfl⟩, hw, e⟩
      · rintro ⟨l, ⟨_, i, o, (⟨_, rfl⟩ | ⟨t, e, _⟩), ho, rfl⟩, hw, e'⟩
        · exact ⟨o, ho, hw, e'⟩
        · rw [q] at e; cases e
    | some t =>
      simp only
      cases q2 : interface s a.fam t with
      | none =>
        constructor
        · intro e; cases e
        · rintro ⟨l, ⟨_, i, o, (⟨e, _⟩ | ⟨t', e, hc⟩), _⟩, _⟩
          · rw [q] at e; cases e
          · rw [q] at e; cases e; rw [← called_iff hf, q2] at hc; cases hc
      | some i =>
        simp only
        rw [core]
        constructor
        · rintro ⟨o, ho, hw, e⟩; exact ⟨_, ⟨hf, i, o, .inr ⟨t, q, (called_iff hf).1 q2⟩, ho, rfl⟩, hw, e⟩
        · rintro ⟨l, ⟨_, j, o, (⟨e, _⟩ | ⟨t', e, hc⟩), ho, rfl⟩, hw, e'⟩
          · rw [q] at e; cases e
          · rw [q] at e; cases e; rw [← called_iff hf, q2] at hc; cases hc
            exact ⟨o, ho, hw, e'⟩

/-- **C97** The daemon listens to a socket if and only if it is bound to the first candidate for which that is possible, then is configured as it should be, then gets its thread. -/
theorem listens_iff {s : Sys} {c : Net} {h h' : List Call} {fd : Nat} {a : AI} : netStart s c h = (h', some (some (fd, a))) ↔
    c.enabled = true ∧ ∃ t l pre post h1 opts, c.addr = some t ∧ s.getaddrinfo (some t) c.port = some l ∧ l = pre ++ a :: post ∧ Skipped s h pre h1 ∧ fd = h1.length ∧
      Options s c fd a opts ∧ Works s h1 (trial h1 a ++ opts ++ [.netThread fd]) ∧ h' = h1 ++ trial h1 a ++ opts ++ [.netThread fd] := by
  unfold netStart
  cases q1 : c.enabled with
  | false => simp
  | true =>
    cases q2 : c.addr with
    | none => simp
    | some t =>
      simp only [Bool.not_true, Bool.false_eq_true, if_false, Option.isNone_some, true_and]
      unfold createSocket
      rw [q2]
      cases q3 : s.getaddrinfo (some t) c.port with
      | none => simp [q3]
      | some l =>
        simp only
        cases q4 : tryAll s h l with
        | mk h2 r =>
          cases r with
          | none =>
            simp only
            constructor
            · intro e; cases e
            · rintro ⟨t', l', pre, post, h1, opts, e, e', e'', hs, rfl, ho, hw, _⟩
              cases e
              rw [q3] at e'; cases e'
              rw [works_append, works_append] at hw
              have := all_some.2 ⟨pre, post, h1, e'', hs, rfl, hw.1.1, rfl⟩
              rw [this] at q4; cases q4
          | some p =>
            obtain ⟨fd', a'⟩ := p
            obtain ⟨pre, post, h1, g1, g2, g3, g4, g5⟩ := all_some.1 q4
            simp only
            cases q5 : adjust s c fd' a' h2 with
            | mk h3 r =>
              cases r with
              | none =>
                simp only
                constructor
                · intro e; cases e
                · rintro ⟨t', l', pre', post', h1', opts, e, e', e'', hs, rfl, ho, hw, _⟩
                  cases e
                  rw [q3] at e'; cases e'
                  rw [works_append, works_append] at hw
                  have := all_some.2 ⟨pre', post', h1', e'', hs, rfl, hw.1.1, rfl⟩
                  rw [this] at q4
                  simp only [Prod.mk.injEq, Option.some.injEq] at q4
                  obtain ⟨rfl, rfl, rfl⟩ := q4
                  have := adjust_some.2 ⟨opts, ho, hw.1.2, rfl⟩
                  rw [this] at q5; cases q5
              | some u =>
                obtain ⟨opts, ho, hw, e3⟩ := adjust_some.1 q5
                simp only [call_some, Prod.mk.injEq, Option.some.injEq]
                constructor
                · rintro ⟨k1, k2, rfl, rfl⟩
                  subst g5 e3
                  refine ⟨t, l, pre, post, h1, opts, rfl, q3, g1, g2, g3, ho, ?_, k2.symm⟩
                  rw [works_append, works_append]
                  exact ⟨⟨g4, hw⟩, by simpa [List.append_assoc] using k1, trivial⟩
                · rintro ⟨t', l', pre', post', h1', opts', e, e', e'', hs', rfl, ho', hw', eh⟩
                  cases e
                  rw [q3] at e'; cases e'
                  rw [works_append, works_append] at hw'
                  have := all_some.2 ⟨pre', post', h1', e'', hs', rfl, hw'.1.1, rfl⟩
                  rw [this] at q4
                  simp only [Prod.mk.injEq, Option.some.injEq] at q4
                  obtain ⟨rfl, rfl, rfl⟩ := q4
                  have := adjust_some.2 ⟨opts', ho', hw'.1.2, rfl⟩
                  rw [this] at q5
                  simp only [Prod.mk.injEq] at q5
                  obtain ⟨rfl, _⟩ := q5
                  refine ⟨?_, eh.symm, rfl, rfl⟩
                  have := hw'.2.1
                  simpa [List.append_assoc] using this

/-! ### One socket -/

/-- None of the calls `l`, after `h`, is a successful `bind`. -/
def NoBind (s : Sys) (h l : List Call) : Prop := ∀ x y fd a, l = x ++ .bind fd a :: y → s.ok (h ++ x) (.bind fd a) = false

theorem noBind_append {s : Sys} {h l m : List Call} (h1 : NoBind s h l) (h2 : NoBind s (h ++ l) m) : NoBind s h (l ++ m) := by
  intro x y fd a e
  rcases List.append_eq_append_iff.1 e with ⟨z, rfl, e2⟩ | ⟨z, e1, e2⟩
  · have := h2 z y fd a e2
    rwa [List.append_assoc] at this
  · cases z with
    | nil =>
      simp only [List.append_nil] at e1
      subst e1
      have := h2 [] y fd a (by simpa using e2.symm)
      simpa using this
    | cons b z =>
      simp only [List.cons_append, List.cons.injEq] at e2
      obtain ⟨rfl, rfl⟩ := e2
      exact h1 x z fd a e1

theorem skipped_noBind {s : Sys} {h h' : List Call} {l : List AI} (g : Skipped s h l h') : ∃ m, h' = h ++ m ∧ NoBind s h m := by
  induction g with
  | nil h => exact ⟨[], by simp, fun x y fd a e => by simp at e⟩
  | @cons h a l h' pre c post e hw hf _ ih =>
    obtain ⟨m, rfl, hm⟩ := ih
    refine ⟨pre ++ [c] ++ m, by simp, noBind_append ?_ (by simpa [List.append_assoc] using hm)⟩
    intro x y fd b q
    rcases List.append_eq_append_iff.1 q with ⟨z, rfl, e2⟩ | ⟨z, e1, e2⟩
    · cases z with
      | nil =>
        simp only [List.nil_append, List.cons.injEq] at e2
        obtain ⟨rfl, _⟩ := e2
        simpa using hf
      | cons w z =>
        have := congrArg List.length e2
        simp at this
    · cases z with
      | nil =>
        simp only [List.append_nil] at e1
        simp only [List.nil_append, List.cons.injEq] at e2
        rw [e2.1, ← e1]; exact hf
      | cons w z =>
        simp only [List.cons_append, List.cons.injEq] at e2
        obtain ⟨rfl, rfl⟩ := e2
        subst e1
        have := congrArg (fun t => t.drop x.length) e
        match x, e with
        | [], e => simp [trial] at e
        | [_], e => simp [trial] at e
        | [_, _], e => simp [trial] at e
        | _ :: _ :: _ :: w, e => have := congrArg List.length e; simp [trial] at this

/-- **C97** Only one socket is ever bound to an address for the sessions: the one where the daemon listens. -/
theorem one_socket {s : Sys} {c : Net} {h' : List Call} {fd fd' : Nat} {a a' : AI} (h : netStart s c [] = (h', some (some (fd, a)))) (hd : Done s h' (.bind fd' a')) : fd' = fd ∧ a' = a := by
  obtain ⟨_, t, l, pre, post, h1, opts, _, _, _, hs, rfl, ho, _, rfl⟩ := listens_iff.1 h
  obtain ⟨m, e, hm⟩ := skipped_noBind hs
  simp only [List.nil_append] at e
  subst e
  have h0 : NoBind s h1 [.socket a.fam, .reuse h1.length] := by
    intro x y f b q
    match x, q with
    | [], q => simp at q
    | [_], q => simp at q
    | _ :: _ :: w, q => have := congrArg List.length q; simp at this
  have h2 : ∀ c ∈ opts ++ [.netThread h1.length], ∀ f b, c ≠ Call.bind f b := by
    obtain ⟨_, i, o, _, hoo, rfl⟩ := ho
    intro c hc f b
    rcases hoo with ⟨_, rfl⟩ | ⟨_, _, _, _, rfl⟩ <;> simp at hc <;> rcases hc with rfl | rfl | rfl | rfl | rfl <;> simp
  obtain ⟨x, y, e, hk⟩ := hd
  have e2 : (h1 ++ [.socket a.fam, .reuse h1.length]) ++ .bind h1.length a :: (opts ++ [.netThread h1.length]) = x ++ .bind fd' a' :: y := by
    rw [← e]; simp [trial]
  have nb := noBind_append hm h0
  rcases List.append_eq_append_iff.1 e2 with ⟨z, rfl, e3⟩ | ⟨z, e3, e4⟩
  · cases z with
    | nil =>
      simp only [List.nil_append, List.cons.injEq, Call.bind.injEq] at e3
      exact ⟨e3.1.1.symm, e3.1.2.symm⟩
    | cons w z =>
      simp only [List.cons_append, List.cons.injEq] at e3
      exact absurd rfl (h2 _ (by rw [e3.2]; simp) fd' a')
  · cases z with
    | nil =>
      simp only [List.nil_append, List.cons.injEq, Call.bind.injEq] at e4
      exact ⟨e4.1.1, e4.1.2⟩
    | cons w z =>
      simp only [List.cons_append, List.cons.injEq] at e4
      obtain ⟨rfl, _⟩ := e4
      have := nb x z fd' a' e3
      simp only [List.nil_append] at this
      rw [this] at hk; cases hk

theorem works_done {s : Sys} {c : Call} : ∀ {l h : List Call}, Works s h l → c ∈ l → Done s (h ++ l) c
  | x :: l, h, hw, hc => by
    rcases List.mem_cons.1 hc with rfl | hc
    · exact ⟨h, l, rfl, hw.1⟩
    · have := works_done hw.2 hc
      simpa using this

/-- **C97** That socket has joined the group, does not hear itself and has the hop limit before its thread begins, which is the last thing that happens. -/
theorem ready {s : Sys} {c : Net} {h h' : List Call} {fd : Nat} {a : AI} (g : netStart s c h = (h', some (some (fd, a)))) :
    ∃ m, h' = m ++ [.netThread fd] ∧ Done s m (.bind fd a) ∧ (∃ i, Done s m (.join fd a.fam a.ip i) ∧ (c.inIf = none → i = .any) ∧ (∀ t, c.inIf = some t → Called s a.fam t i)) ∧
      Done s m (.loopOff fd a.fam) ∧ Done s m (.ttl fd a.fam c.ttl) ∧ (∀ t, c.outIf = some t → ∃ j, Called s a.fam t j ∧ Done s m (.outIf fd a.fam j)) := by
  obtain ⟨_, t, l, pre, post, h1, opts, _, _, _, hs, rfl, ⟨_, i, o, hi, ho, rfl⟩, hw, rfl⟩ := listens_iff.1 g
  rw [works_append] at hw
  have dn : ∀ x ∈ trial h1 a ++ ([.join h1.length a.fam a.ip i, .loopOff h1.length a.fam, .ttl h1.length a.fam c.ttl] ++ o),
      Done s (h1 ++ trial h1 a ++ ([.join h1.length a.fam a.ip i, .loopOff h1.length a.fam, .ttl h1.length a.fam c.ttl] ++ o)) x := fun x hx => by
    have := works_done hw.1 hx
    rwa [← List.append_assoc] at this
  refine ⟨_, rfl, dn _ (by simp [trial]), ⟨i, dn _ (by simp), ?_, ?_⟩, dn _ (by simp), dn _ (by simp), ?_⟩
  · intro q
    rcases hi with ⟨_, e⟩ | ⟨t, e, _⟩
    · exact e
    · rw [q] at e; cases e
  · intro t q
    rcases hi with ⟨e, _⟩ | ⟨t', e, hc⟩
    · rw [q] at e; cases e
    · rw [q] at e; cases e; exact hc
  · intro t q
    rcases ho with ⟨e, _⟩ | ⟨t', j, e, hc, rfl⟩
    · rw [q] at e; cases e
    · rw [q] at e; cases e; exact ⟨j, hc, dn _ (by simp)⟩

/-! ### If it does not start -/

/-- The calls that a step makes: none of them is a thread of the network's socket. -/
def Quiet {α : Type} (h : List Call) (r : List Call × Option α) : Prop := ∃ l, r.1 = h ++ l ∧ ∀ fd, .netThread fd ∉ l

theorem quiet_call {α : Type} {s : Sys} {h : List Call} {c : Call} {k : List Call → List Call × Option α} (hc : ∀ fd, c ≠ .netThread fd) (hk : Quiet (h ++ [c]) (k (h ++ [c]))) :
    Quiet h (call s h c k) := by
  unfold call
  split
  · obtain ⟨l, e, q⟩ := hk
    exact ⟨c :: l, by rw [e]; simp, fun fd m => (List.mem_cons.1 m).elim (fun m => hc fd m.symm) (q fd)⟩
  · exact ⟨[c], rfl, fun fd m => hc fd (List.mem_singleton.1 m).symm⟩

theorem quiet_refl {α : Type} (h : List Call) (x : Option α) : Quiet h (h, x) := ⟨[], by simp, fun _ m => by cases m⟩

theorem quiet_try (s : Sys) (h : List Call) (a : AI) : Quiet h (tryAddress s h a) :=
  quiet_call (by simp) (quiet_call (by simp) (quiet_call (by simp) (quiet_refl _ _)))

theorem quiet_trans {α β : Type} {h : List Call} {r : List Call × Option α} {r' : List Call × Option β} (h1 : Quiet h r) (h2 : Quiet r.1 r') : Quiet h r' := by
  obtain ⟨l, e, q⟩ := h1
  obtain ⟨m, e', q'⟩ := h2
  exact ⟨l ++ m, by rw [e', e, List.append_assoc], fun fd hm => (List.mem_append.1 hm).elim (q fd) (q' fd)⟩

theorem quiet_all (s : Sys) : ∀ (l : List AI) (h : List Call), Quiet h (tryAll s h l)
  | [], h => quiet_refl _ _
  | a :: l, h => by
    have := quiet_try s h a
    unfold tryAll
    split
    · rename_i e
      rw [e] at this; exact this
    · rename_i h2 e
      rw [e] at this; exact quiet_trans this (quiet_all s l h2)

theorem quiet_out (s : Sys) (c : Net) (fd : Nat) (a : AI) (h : List Call) : Quiet h (setOut s c fd a h) := by
  unfold setOut
  repeat' split
  · exact quiet_refl _ _
  · exact quiet_refl _ _
  · exact quiet_call (by simp) (quiet_refl _ _)

theorem quiet_adjust (s : Sys) (c : Net) (fd : Nat) (a : AI) (h : List Call) : Quiet h (adjust s c fd a h) := by
  unfold adjust addMembership
  repeat' split
  · exact quiet_refl _ _
  · exact quiet_call (by simp) (quiet_call (by simp) (quiet_call (by simp) (quiet_out ..)))
  · exact quiet_refl _ _
  · exact quiet_call (by simp) (quiet_call (by simp) (quiet_call (by simp) (quiet_out ..)))

/-- **C97** If the socket cannot be had, or not be configured, no thread listens to it. -/
theorem no_thread {s : Sys} {c : Net} {h' : List Call} (g : netStart s c [] = (h', none)) (fd : Nat) : ¬ Done s h' (.netThread fd) := by
  have nil : ∀ {h : List Call}, Quiet ([] : List Call) ((h, none) : List Call × Option Unit) → ¬ Done s h (.netThread fd) := by
    rintro h ⟨l, e, q⟩ ⟨x, y, e', _⟩
    simp only [List.nil_append] at e
    exact q fd (by rw [← e, e']; simp)
  unfold netStart at g
  split at g
  · cases g
  · split at g
    · cases g
      exact nil (quiet_refl _ _)
    · have q1 : Quiet [] (createSocket s c []) := by
        unfold createSocket
        split
        · exact quiet_refl _ _
        · exact quiet_all ..
      split at g
      · rename_i e
        rw [e] at q1
        cases g
        exact nil q1
      · rename_i h1 f a e
        rw [e] at q1
        have q2 := quiet_trans q1 (quiet_adjust s c f a h1)
        split at g
        · rename_i e2
          rw [e2] at q2
          cases g
          exact nil q2
        · rename_i h2 e2
          rw [e2] at q2
          unfold call at g
          split at g
          · cases g
          · rename_i hf
            cases g
            obtain ⟨l, e, q⟩ := q2
            simp only [List.nil_append] at e
            subst e
            rintro ⟨x, y, e', hk⟩
            rcases List.append_eq_append_iff.1 e' with ⟨z, rfl, e3⟩ | ⟨z, e3, e4⟩
            · cases z with
              | nil =>
                simp only [List.nil_append, List.cons.injEq, Call.netThread.injEq] at e3
                rw [← e3.1] at hk
                simp only [List.append_nil] at hk
                exact hf hk
              | cons w z => have := congrArg List.length e3; simp at this
            · cases z with
              | nil =>
                simp only [List.nil_append, List.cons.injEq, Call.netThread.injEq] at e4
                simp only [List.append_nil] at e3
                rw [e4.1, ← e3] at hk
                exact hf hk
              | cons w z =>
                simp only [List.cons_append, List.cons.injEq] at e4
                exact q fd (by rw [e3, ← e4.1]; simp)

/-! ### The hop limit -/

/-- `IP_MULTICAST_TTL` and `IPV6_MULTICAST_HOPS` (Linux): -1 stands for the default, which is 1; otherwise it must fit in a byte. -/
def Hops (s : Sys) : Prop := ∀ h fd f n, s.ok h (.ttl fd f n) = true → -1 ≤ n ∧ n ≤ 255
def hops (n : Int) : Int := if n = -1 then 1 else n

/-- **C97** The datagrams of a daemon that starts have the hop limit which the file asks for. -/
theorem hops_file {s : Sys} (hs : Hops s) {c : ReadFile.Cfg} (hc : 0 ≤ c.ttl) {h' : List Call} {r : Nat × AI} (g : netStart s (fileNet c) [] = (h', some (some r))) :
    c.ttl ≤ 255 ∧ hops (fileNet c).ttl = c.ttl := by
  obtain ⟨m, _, _, _, _, ⟨x, y, _, hk⟩, _⟩ := ready (fd := r.1) (a := r.2) g
  have := hs _ _ _ _ hk
  refine ⟨this.2, ?_⟩
  show hops c.ttl = _
  unfold hops
  rw [if_neg (by omega)]

/-- **C97** The same with the command line, unless it asks for 4294967295. -/
theorem hops_proxy_partial {s : Sys} (hs : Hops s) {p : Proxy} (hp : p.ttl ≠ 4294967295) {h' : List Call} {r : Nat × AI} (g : netStart s (proxyNet p) [] = (h', some (some r))) :
    p.ttl.toNat ≤ 255 ∧ hops (proxyNet p).ttl = p.ttl.toNat := by
  obtain ⟨m, _, _, _, _, ⟨x, y, _, hk⟩, _⟩ := ready (fd := r.1) (a := r.2) g
  have q : -1 ≤ p.ttl.toInt ∧ p.ttl.toInt ≤ 255 := hs _ _ _ _ hk
  have l := p.ttl.isLt
  have n : p.ttl.toNat ≠ 4294967295 := fun e => hp (BitVec.eq_of_toNat_eq (by rw [e]; rfl))
  have e : p.ttl.toInt = p.ttl.toNat := by
    rw [BitVec.toInt_eq_toNat_cond] at q ⊢
    split at q <;> rename_i hh
    · rw [if_pos hh]
    · omega
  refine ⟨by omega, ?_⟩
  show hops p.ttl.toInt = _
  unfold hops
  rw [if_neg (by omega), e]

/-! ### Statistics -/

/-- The calls that create the sockets for the statistics. -/
def statCalls (n : Nat) : List AI → List Call
  | [] => []
  | a :: l => [.socket a.fam, .bind n a, .malloc] ++ statCalls (n + 3) l

/-- Their descriptors. -/
def statFds (n : Nat) : List AI → List Nat
  | [] => []
  | _ :: l => n :: statFds (n + 3) l

theorem sockets_some {s : Sys} {h' : List Call} {r : List Nat} : ∀ {l : List AI} {h : List Call} {fds : List Nat}, statSockets s h l fds = (h', some r) ↔
    Works s h (statCalls h.length l) ∧ h' = h ++ statCalls h.length l ∧ r = (statFds h.length l).reverse ++ fds
  | [], h, fds => by simp [statSockets, statCalls, statFds, Works, eq_comm]
  | a :: l, h, fds => by
    unfold statSockets
    rw [call_some, call_some, call_some, sockets_some]
    have e : (h ++ [Call.socket a.fam] ++ [Call.bind h.length a] ++ [Call.malloc]).length = h.length + 3 := by simp
    rw [e]
    simp only [statCalls, statFds, List.cons_append, List.nil_append, Works, List.append_assoc, List.reverse_cons, and_assoc]

theorem threads_some {s : Sys} {h' : List Call} : ∀ {l : List Nat} {h : List Call}, statThreads s h l = (h', some ()) ↔ Works s h (l.map .statThread) ∧ h' = h ++ l.map .statThread
  | [], h => by simp [statThreads, Works, eq_comm]
  | a :: l, h => by
    unfold statThreads
    rw [call_some, threads_some]
    simp only [List.map_cons, Works, List.append_assoc, List.cons_append, List.nil_append, and_assoc]

/-- **C97** The statistics are served if and only if each address gets a socket and each socket a thread. -/
theorem served_iff {s : Sys} {c : Stat} {h h' : List Call} (hc : c.enabled = true) : statStart s c h = (h', some ()) ↔
    ∃ l, s.getaddrinfo (some c.addr) c.port = some l ∧ Works s h (statCalls h.length l ++ (statFds h.length l).reverse.map .statThread) ∧
      h' = h ++ statCalls h.length l ++ (statFds h.length l).reverse.map .statThread := by
  unfold statStart
  simp only [hc, Bool.not_true, Bool.false_eq_true, if_false]
  cases q : s.getaddrinfo (some c.addr) c.port with
  | none => simp
  | some l =>
    simp only [Option.some.injEq, exists_eq_left', works_append]
    cases q2 : statSockets s h l [] with
    | mk h1 r =>
      cases r with
      | none =>
        simp only
        constructor
        · intro e; cases e
        · rintro ⟨⟨hw, _⟩, _⟩
          have := sockets_some (fds := []) |>.2 ⟨hw, rfl, rfl⟩
          rw [this] at q2; cases q2
      | some fds =>
        obtain ⟨g1, g2, g3⟩ := sockets_some.1 q2
        simp only [List.append_nil] at g3
        simp only
        rw [threads_some, g2, g3]
        exact ⟨fun ⟨k1, k2⟩ => ⟨⟨g1, k1⟩, k2⟩, fun ⟨⟨_, k1⟩, k2⟩ => ⟨k1, k2⟩⟩

/-! ### What is wrong with it, and examples -/

section
def good : Sys where
  ok := fun _ c => match c with | .ttl _ _ n => decide (-1 ≤ n ∧ n ≤ 255) | _ => true
  getaddrinfo := fun _ _ => some [⟨.v6, 0xff08 <<< 112, 6400⟩, ⟨.v4, 0xE9000001, 6400⟩]
  ifIndex := fun t => if t = "eth0".toList then some 2 else none
  inet := ⟨fun _ => some 0xC0000201, fun _ => [], fun _ => none, fun _ => []⟩

theorem good_hops : Hops good := fun h fd f n q => by simpa [good] using q

/-- IPv6 multicast cannot be joined here. -/
def noV6 : Sys := { good with ok := fun h c => match c with | .join _ .v6 _ _ => false | c => good.ok h c }

def group : Net := ⟨true, some "group.example".toList, "6400".toList, none, none, 1⟩

/-- **C97 (violation)** A candidate that can be bound but not joined is not given up: the daemon does not start, although it would with the other candidate alone. -/
theorem not_retried : (netStart noV6 group []).2 = none ∧
    (netStart { noV6 with getaddrinfo := fun _ _ => some [⟨.v4, 0xE9000001, 6400⟩] } group []).2 = some (some (0, ⟨.v4, 0xE9000001, 6400⟩)) := by decide

/-- The first candidate cannot be bound. -/
def busy : Sys := { good with ok := fun h c => match c with | .bind _ ⟨.v6, _, _⟩ => false | c => good.ok h c }

/-- **C97 (violation)** The sockets of candidates that could not be bound stay open: nothing closes them. -/
theorem stays_open : ∃ h', netStart busy group [] = (h', some (some (3, ⟨.v4, 0xE9000001, 6400⟩))) ∧ Done busy h' (.socket .v6) ∧ .close 0 ∉ h' := by
  refine ⟨_, rfl, ⟨[], _, rfl, by decide⟩, by decide⟩

/-- **C97 (violation)** A hop limit of 4294967295 is accepted; the datagrams have the hop limit 1. -/
theorem hops_default : ∃ (p : Proxy) (h' : List Call) (r : Nat × AI), p.ttl = 4294967295 ∧ netStart good (proxyNet p) [] = (h', some (some r)) ∧ hops (proxyNet p).ttl = 1 :=
  ⟨⟨some "group.example".toList, none, none, none, 4294967295, none, none⟩, _, _, rfl, rfl, by decide⟩

/-- **C97 (violation)** One address that cannot have a socket is enough for the daemon not to start; the thread that listens to the network is already there then. -/
theorem stats_all : ∃ h', start { good with ok := fun h c => match c with | .bind _ ⟨.v6, _, 6401⟩ => false | c => good.ok h c
                                            getaddrinfo := fun _ p => some (if p = "6401".toList then [⟨.v4, 0x7F000001, 6401⟩, ⟨.v6, 1, 6401⟩] else [⟨.v4, 0xE9000001, 6400⟩]) }
    true group ⟨true, "localhost".toList, "6401".toList⟩ = (h', none) ∧ .netThread 0 ∈ h' := ⟨_, rfl, by decide⟩

/-- An interface for each direction, and statistics. -/
example : start good true { group with inIf := some "eth0".toList, outIf := some "eth0".toList } ⟨true, "::".toList, "6401".toList⟩ =
    ([.socket .v6, .reuse 0, .bind 0 ⟨.v6, 0xff08 <<< 112, 6400⟩, .join 0 .v6 (0xff08 <<< 112) (.index 2), .loopOff 0 .v6, .ttl 0 .v6 1, .outIf 0 .v6 (.index 2), .netThread 0,
      .socket .v6, .bind 8 ⟨.v6, 0xff08 <<< 112, 6400⟩, .malloc, .socket .v4, .bind 11 ⟨.v4, 0xE9000001, 6400⟩, .malloc, .statThread 11, .statThread 8], some (some (0, ⟨.v6, 0xff08 <<< 112, 6400⟩))) := by
  decide +kernel

/-- An interface that does not exist. -/
example : (netStart good { group with inIf := some "eth1".toList } []).2 = none := by decide +kernel

/-- The address is mandatory. -/
example (p : Proxy) (h : p.addr = none) : netStart good (proxyNet p) [] = ([], none) := by simp [netStart, proxyNet, h]
end

end Jool.DStart
