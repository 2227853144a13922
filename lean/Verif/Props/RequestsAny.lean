import Verif.Props.Requests
import Verif.Props.Eam
import Verif.Props.BibTables
import Verif.Lemmas.Nat64Bib
/-
C69, second part: requests with any bytes, from any client.
-/
namespace Jool.Req
open Jool.Nla Jool.NlAttr
open Jool.JooldMsg (Byte)

/-! ## Who and where -/

theorem kParse_cases (s : Bool) (pol : List Pol) (l : List Byte) :
    (∃ tb, kParse s pol l = .ok tb) ∨ kParse s pol l = .err .parse := by
  unfold kParse
  dsimp only
  split
  · exact .inr rfl
  · split
    · exact .inr rfl
    · exact .inl ⟨_, rfl⟩

/-- The instance that a message names. -/
def named (msg : List Byte) : Option (List Byte) := (decHdr msg).map (fun r => cstr (getIname r.1))

/-- A message either is turned down by Generic Netlink, or by the checks that come before every operation, or it reaches its handler. -/
theorem handle_cases (st : State) (e : Env) (c : Cmd) (msg : List Byte) :
    handle st e c msg = .ok (st, [], .kernel)
    ∨ (∃ h err, (decHdr msg).map (·.1) = some h ∧ start st e c.xt h = some err
        ∧ handle st e c msg = .ok (st, [], .error (.nl err)))
    ∨ ∃ h tb, (decHdr msg).map (·.1) = some h ∧ start st e c.xt h = none ∧ handle st e c msg = act st e c h tb := by
  unfold handle
  cases hd : decHdr msg with
  | none => exact .inl rfl
  | some r =>
    obtain ⟨h, body⟩ := r
    dsimp only
    rcases kParse_cases e.strict rootPolicy body with ⟨tb, hp⟩ | hp
    · rw [hp]
      dsimp only
      cases hs : start st e c.xt h with
      | some err => exact .inr (.inl ⟨h, err, rfl, hs, rfl⟩)
      | none => exact .inr (.inr ⟨h, tb, rfl, hs, rfl⟩)
    · rw [hp]; exact .inl rfl

/-- **Privileges.** Whatever an unprivileged client sends, nothing happens. -/
theorem unprivileged (st : State) (e : Env) (c : Cmd) (msg : List Byte) (h : e.admin = false) :
    handle st e c msg = .ok (st, [], .kernel) ∨ handle st e c msg = .ok (st, [], .error (.nl .EPERM)) := by
  rcases handle_cases st e c msg with h1 | ⟨hd, err, _, h2, h3⟩ | ⟨hd, tb, _, h2, _⟩
  · exact .inl h1
  · unfold start at h2
    simp only [h, Bool.not_false, if_true, Option.some.injEq] at h2
    subst h2
    exact .inr h3
  · unfold start at h2
    simp [h] at h2

/-- **Admission.** A message that the checks do not admit changes nothing. -/
theorem not_admitted (st : State) (e : Env) (c : Cmd) (msg : List Byte)
    (h : ∀ hd body, decHdr msg = some (hd, body) → start st e c.xt hd ≠ none) :
    ∃ a, handle st e c msg = .ok (st, [], a) ∧ a ≠ .done := by
  rcases handle_cases st e c msg with h1 | ⟨hd, err, _, h2, h3⟩ | ⟨hd, tb, h1, h2, _⟩
  · exact ⟨_, h1, by simp⟩
  · exact ⟨_, h3, by simp⟩
  · cases hm : decHdr msg with
    | none => rw [hm] at h1; cases h1
    | some r =>
      rw [hm] at h1
      simp only [Option.map_some, Option.some.injEq] at h1
      exact absurd (by rw [h1]; exact h2) (h r.1 r.2 (by rw [hm]))

theorem map_ok {α β} {f : α → β} {o : Outcome α} {b : β} (h : o.map f = .ok b) : ∃ a, o = .ok a ∧ f a = b := by
  cases o with
  | ok a => exact ⟨a, rfl, by simpa [Outcome.map] using h⟩
  | ub u => cases h

theorem bind_ok' {α β} {f : α → Outcome β} {o : Outcome α} {b : β} (h : o.bind f = .ok b) : ∃ a, o = .ok a ∧ f a = .ok b := by
  cases o with
  | ok a => exact ⟨a, rfl, h⟩
  | ub u => cases h

/-- What a handled request looks like. -/
theorem act_ok {st : State} {e : Env} {c : Cmd} {h : Hdr} {tb : List Attr} {st' ev a}
    (hk : act st e c h tb = .ok (st', ev, a)) :
    (st' = st ∧ ev = [])
    ∨ (c.xt = 1 ∧ ∃ s s', st.siit (cstr (getIname h)) = some s ∧ actS e h (Nla.get tb OPERAND) c s = .ok (s', a) ∧ ev = []
        ∧ st' = st.setSiit (cstr (getIname h)) s')
    ∨ (c.xt = 2 ∧ ∃ s s', st.nat64 (cstr (getIname h)) = some s ∧ actN e h (Nla.get tb OPERAND) c s = .ok (s', ev, a)
        ∧ st' = st.setNat64 (cstr (getIname h)) s') := by
  unfold act at hk
  dsimp only at hk
  split at hk
  · rename_i hx
    cases hs : st.siit (cstr (getIname h)) with
    | none =>
      rw [hs] at hk
      simp only [Outcome.ok.injEq, Prod.mk.injEq] at hk
      exact .inl ⟨hk.1.symm, hk.2.1.symm⟩
    | some s =>
      rw [hs] at hk
      obtain ⟨r, h1, h2⟩ := map_ok hk
      simp only [Prod.mk.injEq] at h2
      obtain ⟨rfl, rfl, rfl⟩ := h2
      exact .inr (.inl ⟨hx, s, r.1, rfl, h1, rfl, rfl⟩)
  · rename_i hx
    have hx2 : c.xt = 2 := by cases c <;> first | rfl | exact absurd rfl hx
    cases hs : st.nat64 (cstr (getIname h)) with
    | none =>
      rw [hs] at hk
      simp only [Outcome.ok.injEq, Prod.mk.injEq] at hk
      exact .inl ⟨hk.1.symm, hk.2.1.symm⟩
    | some s =>
      rw [hs] at hk
      obtain ⟨r, h1, h2⟩ := map_ok hk
      simp only [Prod.mk.injEq] at h2
      obtain ⟨rfl, rfl, rfl⟩ := h2
      exact .inr (.inr ⟨hx2, s, r.1, rfl, h1, rfl⟩)

/-- **Isolation.** Any message leaves alone all the instances that it does not name, and those of the other type. -/
theorem others_unchanged (st : State) (e : Env) (c : Cmd) (msg : List Byte) (st' : State) (ev : Events) (a : Answer)
    (h : handle st e c msg = .ok (st', ev, a)) :
    st'.siitOn = st.siitOn ∧ st'.nat64On = st.nat64On
    ∧ (∀ m, named msg ≠ some m → st'.siit m = st.siit m ∧ st'.nat64 m = st.nat64 m)
    ∧ (c.xt = 1 → st'.nat64 = st.nat64) ∧ (c.xt = 2 → st'.siit = st.siit)
    ∧ (∀ m, (st'.siit m).isSome = (st.siit m).isSome ∧ (st'.nat64 m).isSome = (st.nat64 m).isSome) := by
  have same : st' = st → st'.siitOn = st.siitOn ∧ st'.nat64On = st.nat64On
      ∧ (∀ m, named msg ≠ some m → st'.siit m = st.siit m ∧ st'.nat64 m = st.nat64 m)
      ∧ (c.xt = 1 → st'.nat64 = st.nat64) ∧ (c.xt = 2 → st'.siit = st.siit)
      ∧ (∀ m, (st'.siit m).isSome = (st.siit m).isSome ∧ (st'.nat64 m).isSome = (st.nat64 m).isSome) := by
    rintro rfl; exact ⟨rfl, rfl, fun _ _ => ⟨rfl, rfl⟩, fun _ => rfl, fun _ => rfl, fun _ => ⟨rfl, rfl⟩⟩
  rcases handle_cases st e c msg with h1 | ⟨hd, err, _, _, h1⟩ | ⟨hd, tb, hn, _, h1⟩
  · rw [h1] at h; simp only [Outcome.ok.injEq, Prod.mk.injEq] at h; exact same h.1.symm
  · rw [h1] at h; simp only [Outcome.ok.injEq, Prod.mk.injEq] at h; exact same h.1.symm
  · have hnm : named msg = some (cstr (getIname hd)) := by
      unfold named
      cases hm : decHdr msg with
      | none => rw [hm] at hn; cases hn
      | some r => rw [hm] at hn; simp only [Option.map_some, Option.some.injEq] at hn ⊢; rw [hn]
    rw [h1] at h
    rcases act_ok h with ⟨h2, _⟩ | ⟨hx, s, s', hs, _, _, rfl⟩ | ⟨hx, s, s', hs, _, rfl⟩
    · exact same h2
    · refine ⟨rfl, rfl, ?_, fun _ => rfl, ?_, ?_⟩
      · intro m hm
        have : m ≠ cstr (getIname hd) := fun hh => hm (by rw [hnm, hh])
        exact ⟨by simp [State.setSiit, this], rfl⟩
      · intro h2; rw [hx] at h2; exact absurd h2 (by decide)
      · intro m
        refine ⟨?_, rfl⟩
        by_cases hm : m = cstr (getIname hd)
        · simp [State.setSiit, hm, hs]
        · simp [State.setSiit, hm]
    · refine ⟨rfl, rfl, ?_, ?_, fun _ => rfl, ?_⟩
      · intro m hm
        have : m ≠ cstr (getIname hd) := fun hh => hm (by rw [hnm, hh])
        exact ⟨rfl, by simp [State.setNat64, this]⟩
      · intro h2; rw [hx] at h2; exact absurd h2 (by decide)
      · intro m
        refine ⟨rfl, ?_⟩
        by_cases hm : m = cstr (getIname hd)
        · simp [State.setNat64, hm, hs]
        · simp [State.setNat64, hm]

/-! ## Requests are histories of the databases -/

/-- Contents that a history of the database's own operations can leave. -/
def RanEam (t : Eam.Eamt) : Prop := ∃ ops cs, Eam.run Eam.init ops = .ok (t, cs)
def RanDeny (d : Denylist4.Pool) : Prop := ∃ ops, (Denylist4.run [] ops).1 = d
def RanPool4 (db : Pool4.Pool) : Prop := ∃ ops, Pool4.run Pool4.empty ops = .ok db
def RanBib (p : Proto) (t : Bib.Table) : Prop := ∃ hist ev, BibSpec.After p hist t ev

theorem RanEam.step {t t' : Eam.Eamt} {o : Eam.Op} {c} (h : RanEam t) (hs : Eam.step t o = .ok (t', c)) : RanEam t' := by
  obtain ⟨ops, cs, h⟩ := h
  have : ∀ (ops : List Eam.Op) (t0 : Eam.Eamt) (cs), Eam.run t0 ops = .ok (t, cs) →
      Eam.run t0 (ops ++ [o]) = .ok (t', cs ++ [c]) := by
    intro ops
    induction ops with
    | nil =>
      intro t0 cs h
      simp only [Eam.run, Outcome.ok.injEq, Prod.mk.injEq] at h
      obtain ⟨rfl, rfl⟩ := h
      simp [Eam.run, hs, Outcome.bind, Outcome.map]
    | cons x r ih =>
      intro t0 cs h
      simp only [Eam.run, List.cons_append] at h ⊢
      obtain ⟨q, h1, h2⟩ := bind_ok' h
      obtain ⟨w, h3, h4⟩ := map_ok h2
      rw [h1]
      simp only [Outcome.bind]
      simp only [Prod.mk.injEq] at h4
      obtain ⟨h4, rfl⟩ := h4
      rw [ih _ w.2 (by rw [h3, ← h4])]
      rfl
  exact ⟨_, _, this ops _ _ h⟩

theorem RanDeny.step {d : Denylist4.Pool} (o : Denylist4.Op) (h : RanDeny d) : RanDeny (Denylist4.step d o).1 := by
  obtain ⟨ops, rfl⟩ := h
  have : ∀ (ops : List Denylist4.Op) (d0 : Denylist4.Pool),
      (Denylist4.run d0 (ops ++ [o])).1 = (Denylist4.step (Denylist4.run d0 ops).1 o).1 := by
    intro ops
    induction ops with
    | nil => intro d0; rfl
    | cons x r ih => intro d0; simp only [List.cons_append, Denylist4.run]; exact ih _
  exact ⟨_, this ops _⟩

theorem RanPool4.step {db : Pool4.Pool} {o : Pool4.Op} {r} (h : RanPool4 db) (hs : Pool4.step db o = .ok r) : RanPool4 r.1 := by
  obtain ⟨ops, h⟩ := h
  have : ∀ (ops : List Pool4.Op) (d0 : Pool4.Pool), Pool4.run d0 ops = .ok db → Pool4.run d0 (ops ++ [o]) = .ok r.1 := by
    intro ops
    induction ops with
    | nil =>
      intro d0 h
      simp only [Pool4.run, Outcome.ok.injEq] at h
      subst h
      simp [Pool4.run, hs]
    | cons x t ih =>
      intro d0 h
      simp only [Pool4.run, List.cons_append] at h ⊢
      cases hx : Pool4.step d0 x with
      | ub u => rw [hx] at h; cases h
      | ok q => rw [hx] at h; exact ih _ h
  exact ⟨_, this ops _ h⟩

theorem RanBib.step {p : Proto} {t : Bib.Table} {e : Bib.Env} {o : Bib.Op} {r} (h : RanBib p t)
    (ho : o.Ok) (hs : Bib.step p t e o = .ok r) : RanBib p r.1 := by
  obtain ⟨hist, ev, h⟩ := h
  refine ⟨hist ++ [(e, o)], ev ++ r.2.1, ?_, Bib.run_snoc hist _ _ ev r h.2 hs⟩
  intro x hx
  rcases List.mem_append.1 hx with hx | hx
  · exact h.1 x hx
  · rw [List.mem_singleton.1 hx]; exact ho

/-- Every database of every instance was left by a history of its own operations. -/
def Ran (st : State) : Prop :=
  (∀ n s, st.siit n = some s → RanEam s.eamt ∧ RanDeny s.deny)
  ∧ (∀ n s, st.nat64 n = some s → RanPool4 s.pool4 ∧ ∀ p, RanBib p (s.bib p))

theorem withS_ok {α} {s : Siit} {r : Res α} {f : α → SiitStep} {s' a} (h : withS s r f = .ok (s', a)) :
    s' = s ∨ ∃ x, r = .ok x ∧ f x = .ok (s', a) := by
  unfold withS at h
  cases r with
  | ok x => exact .inr ⟨x, rfl, h⟩
  | err e =>
    simp only [Outcome.ok.injEq, Prod.mk.injEq] at h
    exact .inl h.1.symm
  | ub u => cases h

theorem withN_ok {α} {s : Nat64} {r : Res α} {f : α → Nat64Step} {s' ev a} (h : withN s r f = .ok (s', ev, a)) :
    (s' = s ∧ ev = []) ∨ ∃ x, r = .ok x ∧ f x = .ok (s', ev, a) := by
  unfold withN at h
  cases r with
  | ok x => exact .inr ⟨x, rfl, h⟩
  | err e =>
    simp only [Outcome.ok.injEq, Prod.mk.injEq] at h
    exact .inl ⟨h.1.symm, h.2.1.symm⟩
  | ub u => cases h

theorem actS_ran {e : Env} {h : Hdr} {o : Option Attr} {c : Cmd} {s s' : Siit} {a}
    (hk : actS e h o c s = .ok (s', a)) (hr : RanEam s.eamt ∧ RanDeny s.deny) : RanEam s'.eamt ∧ RanDeny s'.deny := by
  cases c with
  | eamAdd =>
    rcases withS_ok hk with rfl | ⟨x, _, hx⟩
    · exact hr
    · obtain ⟨r, h1, h2⟩ := map_ok hx
      simp only [Prod.mk.injEq] at h2
      obtain ⟨rfl, _⟩ := h2
      exact ⟨hr.1.step (o := .add e.mem x (forced h)) (c := r.2) h1, hr.2⟩
  | eamRm =>
    rcases withS_ok hk with rfl | ⟨x, _, hx⟩
    · exact hr
    · obtain ⟨r, h1, h2⟩ := map_ok hx
      simp only [Prod.mk.injEq] at h2
      obtain ⟨rfl, _⟩ := h2
      exact ⟨hr.1.step (o := .rm e.mem x.1 x.2) (c := r.2) h1, hr.2⟩
  | eamFlush =>
    simp only [actS, eamFlush, Outcome.ok.injEq, Prod.mk.injEq] at hk
    obtain ⟨rfl, _⟩ := hk
    exact ⟨hr.1.step (o := .flush) (c := .ok) rfl, hr.2⟩
  | denyAdd =>
    rcases withS_ok hk with rfl | ⟨x, _, hx⟩
    · exact hr
    · simp only [Outcome.ok.injEq, Prod.mk.injEq] at hx
      obtain ⟨rfl, _⟩ := hx
      exact ⟨hr.1, hr.2.step (.add x (forced h) e.oom)⟩
  | denyRm =>
    rcases withS_ok hk with rfl | ⟨x, _, hx⟩
    · exact hr
    · simp only [Outcome.ok.injEq, Prod.mk.injEq] at hx
      obtain ⟨rfl, _⟩ := hx
      exact ⟨hr.1, hr.2.step (.rm x)⟩
  | denyFlush =>
    simp only [actS, denyFlush, Outcome.ok.injEq, Prod.mk.injEq] at hk
    obtain ⟨rfl, _⟩ := hk
    exact ⟨hr.1, hr.2.step (.flush e.oom)⟩
  | _ =>
    simp only [actS, Outcome.ok.injEq, Prod.mk.injEq] at hk
    obtain ⟨rfl, _⟩ := hk
    exact hr

theorem setBib_ran {s : Nat64} {p : Proto} {e : Bib.Env} {o : Bib.Op} {r} (h : ∀ q, RanBib q (s.bib q))
    (ho : o.Ok) (hs : Bib.step p (s.bib p) e o = .ok r) : ∀ q, RanBib q ((setBib s p r).1.bib q) := by
  intro q
  simp only [setBib]
  split
  · rename_i hq; subst hq; exact (h q).step ho hs
  · exact h q

theorem bibRmRange_ok {t : Bib.Table} {r : Bib.Range4} {x} (h : bibRmRange t r = .ok x) : Bib.rmRange t r = .ok x := by
  unfold bibRmRange at h
  split at h
  · cases h
  · exact h

theorem flushOne_ran {p : Proto} {s s' : Nat64 × Events} (h : flushOne p s = .ok s') (hr : ∀ q, RanBib q (s.1.bib q)) :
    (∀ q, RanBib q (s'.1.bib q)) ∧ s'.1.pool4 = s.1.pool4 := by
  obtain ⟨r, h1, h2⟩ := map_ok h
  subst h2
  exact ⟨setBib_ran (e := default) (o := .flush) hr trivial h1, rfl⟩

theorem actN_ran {e : Env} {h : Hdr} {o : Option Attr} {c : Cmd} {s s' : Nat64} {ev a}
    (hk : actN e h o c s = .ok (s', ev, a)) (hr : RanPool4 s.pool4 ∧ ∀ p, RanBib p (s.bib p)) :
    RanPool4 s'.pool4 ∧ ∀ p, RanBib p (s'.bib p) := by
  cases c with
  | pool4Add =>
    rcases withN_ok hk with ⟨rfl, _⟩ | ⟨x, _, hx⟩
    · exact hr
    · split at hx
      · simp only [Outcome.ok.injEq, Prod.mk.injEq] at hx; obtain ⟨rfl, _⟩ := hx; exact hr
      · rename_i p _
        obtain ⟨r, h1, h2⟩ := map_ok hx
        simp only [Prod.mk.injEq] at h2
        obtain ⟨rfl, _⟩ := h2
        exact ⟨hr.1.step (o := .add e.kr _ p (entryOf x)) h1, hr.2⟩
  | pool4Rm =>
    rcases withN_ok hk with ⟨rfl, _⟩ | ⟨x, _, hx⟩
    · exact hr
    · split at hx
      · simp only [Outcome.ok.injEq, Prod.mk.injEq] at hx; obtain ⟨rfl, _⟩ := hx; exact hr
      · rename_i p _
        obtain ⟨r, h1, h2⟩ := bind_ok' hx
        have hp := hr.1.step (o := .rm e.kr p x.mark x.pfx x.min x.max) h1
        split at h2
        · simp only [Outcome.ok.injEq, Prod.mk.injEq] at h2; obtain ⟨rfl, _⟩ := h2; exact ⟨hp, hr.2⟩
        · obtain ⟨b, h3, h4⟩ := map_ok h2
          simp only [Prod.mk.injEq] at h4
          obtain ⟨rfl, _⟩ := h4
          refine ⟨hp, ?_⟩
          exact setBib_ran (s := { s with pool4 := r.1 }) (e := default) (o := .rmRange _) hr.2 trivial (bibRmRange_ok h3)
  | pool4Flush =>
    simp only [actN, pool4Flush] at hk
    have hp : RanPool4 (Pool4.flush s.pool4) := hr.1.step (o := .flush) (r := (_, false)) rfl
    split at hk
    · simp only [Outcome.ok.injEq, Prod.mk.injEq] at hk; obtain ⟨rfl, _⟩ := hk; exact ⟨hp, hr.2⟩
    · obtain ⟨u, h1, h2⟩ := map_ok hk
      simp only [Prod.mk.injEq] at h2
      obtain ⟨rfl, _⟩ := h2
      unfold bibFlush at h1
      obtain ⟨x, k1, k2⟩ := bind_ok' h1
      obtain ⟨y, k3, k4⟩ := bind_ok' k2
      have m1 := flushOne_ran k1 (by exact hr.2)
      have m2 := flushOne_ran k3 m1.1
      have m3 := flushOne_ran k4 m2.1
      exact ⟨by rw [m3.2, m2.2, m1.2]; exact hp, m3.1⟩
  | bibAdd =>
    rcases withN_ok hk with ⟨rfl, _⟩ | ⟨x, _, hx⟩
    · exact hr
    · split at hx
      · simp only [Outcome.ok.injEq, Prod.mk.injEq] at hx; obtain ⟨rfl, _⟩ := hx; exact hr
      · rename_i p _
        split at hx
        · simp only [Outcome.ok.injEq, Prod.mk.injEq] at hx; obtain ⟨rfl, _⟩ := hx; exact hr
        · obtain ⟨r, h1, h2⟩ := map_ok hx
          simp only [Prod.mk.injEq] at h2
          obtain ⟨rfl, _⟩ := h2
          exact ⟨hr.1, setBib_ran (e := e.bib) (o := .addStatic _) hr.2 trivial h1⟩
  | bibRm =>
    rcases withN_ok hk with ⟨rfl, _⟩ | ⟨x, _, hx⟩
    · exact hr
    · split at hx
      · cases hx
      · split at hx
        · simp only [Outcome.ok.injEq, Prod.mk.injEq] at hx; obtain ⟨rfl, _⟩ := hx; exact hr
        · rename_i p _
          split at hx
          · simp only [Outcome.ok.injEq, Prod.mk.injEq] at hx; obtain ⟨rfl, _⟩ := hx; exact hr
          · obtain ⟨r, h1, h2⟩ := map_ok hx
            simp only [Prod.mk.injEq] at h2
            obtain ⟨rfl, _⟩ := h2
            exact ⟨hr.1, setBib_ran (e := e.bib) (o := .rm _) hr.2 trivial h1⟩
  | _ =>
    simp only [actN, Outcome.ok.injEq, Prod.mk.injEq] at hk
    obtain ⟨rfl, _⟩ := hk
    exact hr

theorem request_ran {st : State} {e : Env} {c : Cmd} {msg : List Byte} {st' : State} {ev : Events} {a : Answer}
    (h : handle st e c msg = .ok (st', ev, a)) (hr : Ran st) : Ran st' := by
  rcases handle_cases st e c msg with h1 | ⟨hd, err, _, _, h1⟩ | ⟨hd, tb, hn, _, h1⟩
  · rw [h1] at h; simp only [Outcome.ok.injEq, Prod.mk.injEq] at h; rw [← h.1]; exact hr
  · rw [h1] at h; simp only [Outcome.ok.injEq, Prod.mk.injEq] at h; rw [← h.1]; exact hr
  · rw [h1] at h
    rcases act_ok h with ⟨rfl, _⟩ | ⟨hx, s, s', hs, hk, _, rfl⟩ | ⟨hx, s, s', hs, hk, rfl⟩
    · exact hr
    · refine ⟨?_, hr.2⟩
      intro n t ht
      simp only [State.setSiit] at ht
      split at ht
      · cases ht; exact actS_ran hk (hr.1 _ s hs)
      · exact hr.1 n t ht
    · refine ⟨hr.1, ?_⟩
      intro n t ht
      simp only [State.setNat64] at ht
      split at ht
      · cases ht; exact actN_ran hk (hr.2 _ s hs)
      · exact hr.2 n t ht

/-- A sequence of messages of any clients. -/
def requests (st : State) : List (Env × Cmd × List Byte) → Outcome State
  | [] => .ok st
  | (e, c, m) :: r => (handle st e c m).bind (fun x => requests x.1 r)

/-- **Refinement.** After any sequence of messages with any bytes, the databases of all instances are what some histories of
database operations leave; so the theorems about all histories of the EAMT, the denylist, pool4 and the BIB apply to all that clients
can do. -/
theorem requests_ran (l : List (Env × Cmd × List Byte)) (st st' : State) (hr : Ran st) (h : requests st l = .ok st') :
    Ran st' := by
  induction l generalizing st with
  | nil => simp only [requests, Outcome.ok.injEq] at h; rw [← h]; exact hr
  | cons x r ih =>
    obtain ⟨e, c, m⟩ := x
    obtain ⟨q, h1, h2⟩ := bind_ok' h
    exact ih q.1 (request_ran (st' := q.1) (ev := q.2.1) (a := q.2.2) h1 hr) h2

/-- For instance: whatever clients send, a BIB never has two entries with the same address. -/
theorem requests_bijection (l : List (Env × Cmd × List Byte)) (st st' : State) (hr : Ran st) (h : requests st l = .ok st')
    (n : List Byte) (s : Nat64) (hs : st'.nat64 n = some s) (p : Proto) :
    ((BibSpec.bibs (s.bib p)).map (·.src6)).Nodup ∧ ((BibSpec.bibs (s.bib p)).map (·.src4)).Nodup := by
  obtain ⟨hist, ev, hh⟩ := ((requests_ran l st st' hr h).2 n s hs).2 p
  exact ⟨(Bib.bib_bijection hh).1, (Bib.bib_bijection hh).2.1⟩

/-- A namespace whose instances are new. -/
theorem new_ran (a b : Bool) (f g : List Byte → Bool) :
    Ran ⟨a, b, fun n => if f n then some ⟨Eam.init, []⟩ else none,
      fun n => if g n then some ⟨Pool4.empty, fun _ => Bib.init⟩ else none⟩ := by
  constructor
  · intro n s h
    dsimp only at h
    split at h
    · cases h; exact ⟨⟨[], [], rfl⟩, ⟨[], rfl⟩⟩
    · cases h
  · intro n s h
    dsimp only at h
    split at h
    · cases h; exact ⟨⟨[], rfl⟩, fun p => ⟨[], [], by simp, rfl⟩⟩
    · cases h

/-! ## Undefined behaviour -/

theorem map_ub {α β} {f : α → β} {o : Outcome α} {u : UB} (h : o.map f = .ub u) : o = .ub u := by
  cases o with
  | ok a => cases h
  | ub v => simpa [Outcome.map] using h

theorem bind_ub {α β} {f : α → Outcome β} {o : Outcome α} {u : UB} (h : o.bind f = .ub u) :
    o = .ub u ∨ ∃ a, o = .ok a ∧ f a = .ub u := by
  cases o with
  | ok a => exact .inr ⟨a, rfl, h⟩
  | ub v => exact .inl (by simpa [Outcome.bind] using h)

theorem withS_ub {α} {s : Siit} {r : Res α} {f : α → SiitStep} {u} (hr : Safe r) (h : withS s r f = .ub u) :
    ∃ x, r = .ok x ∧ f x = .ub u := by
  unfold withS at h
  cases r with
  | ok x => exact ⟨x, rfl, h⟩
  | err e => cases h
  | ub v => exact absurd rfl (hr v)

theorem withN_ub {α} {s : Nat64} {r : Res α} {f : α → Nat64Step} {u} (hr : Safe r) (h : withN s r f = .ub u) :
    ∃ x, r = .ok x ∧ f x = .ub u := by
  unfold withN at h
  cases r with
  | ok x => exact ⟨x, rfl, h⟩
  | err e => cases h
  | ub v => exact absurd rfl (hr v)

theorem addStatic_safe (e : Bib.Env) (p : Proto) (t : Bib.Table) (b : Bib.BibKey) (u : UB) : Bib.addStatic e p t b ≠ .ub u := by
  unfold Bib.addStatic
  intro h
  split at h
  · cases h
  · split at h
    · split at h <;> cases h
    · split at h
      · cases h
      · dsimp only at h; split at h <;> cases h

theorem rmBib_safe (t : Bib.Table) (b : Bib.BibKey) (u : UB) : Bib.rmBib t b ≠ .ub u := by
  unfold Bib.rmBib
  intro h
  split at h
  · cases h
  · split at h <;> cases h

theorem flushOne_safe (p : Proto) (s : Nat64 × Events) (u : UB) : flushOne p s ≠ .ub u := by
  intro h; exact absurd (map_ub h) (by unfold Bib.flush; simp)

/-- **Memory safety, partial.** Whatever the bytes: undefined behaviour needs the privilege, and comes only from the EAMT's or
pool4's own operations (see C12, C29), from a BIB removal without protocol, or from a pool4 removal whose prefix length exceeds
32. The last two are defects: see below. -/
theorem ub_causes_partial (st : State) (e : Env) (c : Cmd) (msg : List Byte) (u : UB) (h : handle st e c msg = .ub u) :
    e.admin = true ∧
    ((∃ n s o, st.siit n = some s ∧ Eam.step s.eamt o = .ub u)
    ∨ (∃ n s o, st.nat64 n = some s ∧ Pool4.step s.pool4 o = .ub u)
    ∨ (c = .bibRm ∧ u = .uninitialized ∧ ∃ tb a6 a4, kBibRm e.strict (Nla.get tb OPERAND) = .ok (a6, a4, none))
    ∨ (c = .pool4Rm ∧ u = .badShift ∧ ∃ tb x, kPool4 e.strict (Nla.get tb OPERAND) = .ok x ∧ 32 < x.pfx.len)) := by
  constructor
  · cases ha : e.admin with
    | true => rfl
    | false => rcases unprivileged st e c msg ha with h1 | h1 <;> rw [h1] at h <;> cases h
  · rcases handle_cases st e c msg with h1 | ⟨hd, err, _, _, h1⟩ | ⟨hd, tb, hn, _, h1⟩
    · rw [h1] at h; cases h
    · rw [h1] at h; cases h
    · rw [h1] at h
      unfold act at h
      dsimp only at h
      split at h
      · split at h
        · cases h
        · rename_i s hs
          have h := map_ub h
          cases c with
          | eamAdd =>
            obtain ⟨x, _, hx⟩ := withS_ub (kEam_safe _ _) h
            exact .inl ⟨_, s, .add e.mem x (forced hd), hs, map_ub hx⟩
          | eamRm =>
            obtain ⟨x, _, hx⟩ := withS_ub (kEamRm_safe _ _) h
            exact .inl ⟨_, s, .rm e.mem x.1 x.2, hs, map_ub hx⟩
          | denyAdd => obtain ⟨x, _, hx⟩ := withS_ub (kPrefix4_safe _ _) h; cases hx
          | denyRm => obtain ⟨x, _, hx⟩ := withS_ub (kPrefix4_safe _ _) h; cases hx
          | _ => cases h
      · split at h
        · cases h
        · rename_i s hs
          have h := map_ub h
          cases c with
          | pool4Add =>
            obtain ⟨x, _, hx⟩ := withN_ub (kPool4_safe _ _) h
            split at hx
            · cases hx
            · rename_i p _
              exact .inr (.inl ⟨_, s, .add e.kr _ p (entryOf x), hs, map_ub hx⟩)
          | pool4Rm =>
            obtain ⟨x, hx0, hx⟩ := withN_ub (kPool4_safe _ _) h
            split at hx
            · cases hx
            · rename_i p _
              rcases bind_ub hx with hx | ⟨r, _, hx⟩
              · exact .inr (.inl ⟨_, s, .rm e.kr p x.mark x.pfx x.min x.max, hs, hx⟩)
              · split at hx
                · cases hx
                · have hx := map_ub hx
                  unfold bibRmRange at hx
                  split at hx
                  · rename_i hc
                    refine .inr (.inr (.inr ⟨rfl, ?_, tb, x, hx0, hc.1⟩))
                    simpa using hx.symm
                  · cases hx
          | pool4Flush =>
            simp only [actN, pool4Flush] at h
            split at h
            · cases h
            · have h := map_ub h
              unfold bibFlush at h
              rcases bind_ub h with h | ⟨_, _, h⟩
              · exact absurd h (flushOne_safe _ _ _)
              · rcases bind_ub h with h | ⟨_, _, h⟩
                · exact absurd h (flushOne_safe _ _ _)
                · exact absurd h (flushOne_safe _ _ _)
          | bibAdd =>
            obtain ⟨x, _, hx⟩ := withN_ub (kBib_safe _ _) h
            split at hx
            · cases hx
            · split at hx
              · cases hx
              · exact absurd (map_ub hx) (addStatic_safe _ _ _ _ _)
          | bibRm =>
            obtain ⟨x, hx0, hx⟩ := withN_ub (kBibRm_safe _ _) h
            split at hx
            · rename_i hp
              refine .inr (.inr (.inl ⟨rfl, by simpa using hx.symm, tb, x.1, x.2.1, ?_⟩))
              rw [hx0, ← hp]
            · split at hx
              · cases hx
              · split at hx
                · cases hx
                · exact absurd (map_ub hx) (rmBib_safe _ _ _)
          | _ => cases h

/-! ## Refused requests -/

theorem setSiit_same {st : State} {n s} (h : st.siit n = some s) : st.setSiit n s = st := by
  unfold State.setSiit
  have : (fun m => if m = n then some s else st.siit m) = st.siit := by
    funext m; split
    · rename_i hm; rw [hm, h]
    · rfl
  rw [this]

theorem setNat64_same {st : State} {n s} (h : st.nat64 n = some s) : st.setNat64 n s = st := by
  unfold State.setNat64
  have : (fun m => if m = n then some s else st.nat64 m) = st.nat64 := by
    funext m; split
    · rename_i hm; rw [hm, h]
    · rfl
  rw [this]

/-- Requests whose refusal leaves no trace. -/
def Clean : Cmd → Prop
  | .denyAdd | .denyRm | .denyFlush | .bibAdd | .bibRm => True
  | _ => False

theorem actS_refused {e : Env} {h : Hdr} {o : Option Attr} {c : Cmd} {s s' : Siit} {a} (hc : Clean c)
    (hk : actS e h o c s = .ok (s', a)) (ha : a ≠ .done) : s' = s := by
  cases c with
  | denyAdd =>
    rcases withS_ok hk with rfl | ⟨x, _, hx⟩
    · rfl
    · revert hx
      dsimp only
      unfold Denylist4.add
      repeat' split
      all_goals (intro hx; simp only [Outcome.ok.injEq, Prod.mk.injEq, ofDeny] at hx)
      · exact hx.1.symm
      · exact hx.1.symm
      · exact hx.1.symm
      · exact absurd hx.2.symm ha
  | denyRm =>
    rcases withS_ok hk with rfl | ⟨x, _, hx⟩
    · rfl
    · revert hx
      dsimp only
      unfold Denylist4.rm
      split
      all_goals (intro hx; simp only [Outcome.ok.injEq, Prod.mk.injEq, ofDeny] at hx)
      · exact absurd hx.2.symm ha
      · exact hx.1.symm
  | denyFlush =>
    revert hk
    simp only [actS, denyFlush]
    unfold Denylist4.flush
    split
    all_goals (intro hx; simp only [Outcome.ok.injEq, Prod.mk.injEq, ofDeny] at hx)
    · exact hx.1.symm
    · exact absurd hx.2.symm ha
  | bibAdd | bibRm =>
    simp only [actS, Outcome.ok.injEq, Prod.mk.injEq] at hk
    exact hk.1.symm
  | _ => exact hc.elim

theorem addStatic_refused {e : Bib.Env} {p : Proto} {t : Bib.Table} {b : Bib.BibKey} {r} (h : Bib.addStatic e p t b = .ok r)
    (hr : ofBib r.2.2 ≠ .done) : r.1 = t ∧ r.2.1 = [] := by
  revert h
  unfold Bib.addStatic
  dsimp only
  repeat' split
  all_goals (intro h; simp only [Outcome.ok.injEq] at h; subst h)
  all_goals first | exact ⟨rfl, rfl⟩ | exact absurd rfl hr

theorem rmBib_refused {t : Bib.Table} {b : Bib.BibKey} {r} (h : Bib.rmBib t b = .ok r)
    (hr : ofBib r.2.2 ≠ .done) : r.1 = t ∧ r.2.1 = [] := by
  revert h
  unfold Bib.rmBib
  dsimp only
  repeat' split
  all_goals (intro h; simp only [Outcome.ok.injEq] at h; subst h)
  all_goals first | exact ⟨rfl, rfl⟩ | exact absurd rfl hr

theorem setBib_same {s : Nat64} {p : Proto} {r} (h : r.1 = s.bib p ∧ r.2.1 = []) : setBib s p r = (s, []) := by
  unfold setBib
  have : (fun q => if q = p then r.1 else s.bib q) = s.bib := by
    funext q; split
    · rename_i hq; rw [hq, h.1]
    · rfl
  rw [this, h.2]
  rfl

theorem actN_refused {e : Env} {h : Hdr} {o : Option Attr} {c : Cmd} {s s' : Nat64} {ev a} (hc : Clean c)
    (hk : actN e h o c s = .ok (s', ev, a)) (ha : a ≠ .done) : s' = s ∧ ev = [] := by
  have K : ∀ {p : Proto} {r : Bib.Table × List Bib.Event × Bib.Result},
      ((setBib s p r).1, (setBib s p r).2, ofBib r.2.2) = (s', ev, a) →
      (ofBib r.2.2 ≠ .done → r.1 = s.bib p ∧ r.2.1 = []) → s' = s ∧ ev = [] := by
    intro p r h1 h2
    simp only [Prod.mk.injEq] at h1
    obtain ⟨rfl, rfl, rfl⟩ := h1
    rw [setBib_same (h2 ha)]
    exact ⟨rfl, rfl⟩
  cases c with
  | bibAdd =>
    rcases withN_ok hk with h1 | ⟨x, _, hx⟩
    · exact h1
    · split at hx
      · simp only [Outcome.ok.injEq, Prod.mk.injEq] at hx; exact ⟨hx.1.symm, hx.2.1.symm⟩
      · split at hx
        · simp only [Outcome.ok.injEq, Prod.mk.injEq] at hx; exact ⟨hx.1.symm, hx.2.1.symm⟩
        · obtain ⟨r, h1, h2⟩ := map_ok hx
          exact K h2 (addStatic_refused h1)
  | bibRm =>
    rcases withN_ok hk with h1 | ⟨x, _, hx⟩
    · exact h1
    · split at hx
      · cases hx
      · split at hx
        · simp only [Outcome.ok.injEq, Prod.mk.injEq] at hx; exact ⟨hx.1.symm, hx.2.1.symm⟩
        · split at hx
          · simp only [Outcome.ok.injEq, Prod.mk.injEq] at hx; exact ⟨hx.1.symm, hx.2.1.symm⟩
          · obtain ⟨r, h1, h2⟩ := map_ok hx
            exact K h2 (rmBib_refused h1)
  | denyAdd | denyRm | denyFlush =>
    simp only [actN, Outcome.ok.injEq, Prod.mk.injEq] at hk
    exact ⟨hk.1.symm, hk.2.1.symm⟩
  | _ => exact hc.elim

/-- **Refusal.** A request about the denylist or the BIB that is not answered with success changed nothing and did nothing, whatever
its bytes. (Missing: additions to the EAMT and to pool4 that run out of memory, and pool4 removals, which are not clean: see
`pool4_rm_refused_but_done`.) -/
theorem refused_partial (st : State) (e : Env) (c : Cmd) (msg : List Byte) (st' : State) (ev : Events) (a : Answer)
    (hc : Clean c) (h : handle st e c msg = .ok (st', ev, a)) (ha : a ≠ .done) : st' = st ∧ ev = [] := by
  rcases handle_cases st e c msg with h1 | ⟨hd, err, _, _, h1⟩ | ⟨hd, tb, hn, _, h1⟩
  · rw [h1] at h; simp only [Outcome.ok.injEq, Prod.mk.injEq] at h; exact ⟨h.1.symm, h.2.1.symm⟩
  · rw [h1] at h; simp only [Outcome.ok.injEq, Prod.mk.injEq] at h; exact ⟨h.1.symm, h.2.1.symm⟩
  · rw [h1] at h
    rcases act_ok h with h2 | ⟨hx, s, s', hs, hk, rfl, rfl⟩ | ⟨hx, s, s', hs, hk, rfl⟩
    · exact h2
    · rw [actS_refused hc hk ha]; exact ⟨setSiit_same hs, rfl⟩
    · obtain ⟨rfl, rfl⟩ := actN_refused hc hk ha; exact ⟨setNat64_same hs, rfl⟩

/-! ## Examples and defects -/

def exEnv : Env := ⟨true, true, Eam.Mem.all, false, fun _ _ => .stay, (32768, 60999), fun _ => false, default⟩
/-- One SIIT and one NAT64 instance, both "default", and nothing in them. -/
def exSt : State := ⟨true, true, fun n => if n = DEFAULT then some ⟨Eam.init, []⟩ else none,
  fun n => if n = DEFAULT then some ⟨Pool4.empty, fun _ => Bib.init⟩ else none⟩
/-- 192.0.2.0/30 and 192.0.2.1/30. -/
def exPfx : Prefix4 := ⟨0xc0000200#32, 30⟩
def exBad : Prefix4 := ⟨0xc0000201#32, 30⟩
def exPool (p : Prefix4) : WPool4 := { (default : WPool4) with pfx := p, proto := 1, min := 1000, max := 2000 }
def exT6 : T6 := ⟨0x20010db8000000000000000000000001#128, 40#16⟩
def exT4 : T4 := ⟨0xc0000201#32, 1500#16⟩

/-- What a sequence of requests of the client answers, and which UDP entries the NAT64 has afterwards. -/
def exRun (st : State) : List Ask → Outcome (List Answer × Option (List Bib.BibKey))
  | [] => .ok ([], (st.nat64 DEFAULT).map (fun s => BibSpec.bibs (s.bib .UDP)))
  | q :: l =>
    match q.msg 200 (if q.cmd.xt = 1 then 1 else 2) none with
    | none => .ok ([], none)
    | some m => (handle st exEnv q.cmd m).bind (fun r => (exRun r.1 l).map (fun x => (r.2.2 :: x.1, x.2)))

example : exRun exSt [.pool4Add (exPool exPfx) false, .bibAdd exT6 exT4 1]
    = .ok ([.done, .done], some [⟨exT6, exT4⟩]) := by decide +kernel

/-- **Defect**: a pool4 removal that is refused because the prefix has a suffix still deletes the BIB entries. -/
theorem pool4_rm_refused_but_done :
    exRun exSt [.pool4Add (exPool exPfx) false, .bibAdd exT6 exT4 1, .pool4Rm (exPool exBad) false]
    = .ok ([.done, .done, .error .pool4], some []) := by decide +kernel

/-- **Defect**: a pool4 removal with a prefix length over 32 shifts by a negative amount. -/
theorem pool4_rm_shift :
    exRun exSt [.pool4Add (exPool exPfx) false, .bibAdd exT6 exT4 1, .pool4Rm (exPool ⟨0, 33⟩) false]
    = .ub .badShift := by decide +kernel

/-- A BIB removal with an IPv4 transport address and nothing else. -/
def exNoProto : List Byte := (uHdr 2 none 0).getD [] ++
  [24, 0, BitVec.ofNat 8 OPERAND, 0x80, 20, 0, 2, 0x80, 8, 0, 1, 0, 192, 0, 2, 1, 6, 0, 2, 0, 0xdc, 5, 0, 0]

/-- **Defect**: a BIB removal without protocol reads an uninitialized variable. -/
theorem bib_rm_uninitialized : (handle exSt exEnv .bibRm exNoProto).map (·.2.2) = .ub .uninitialized := by decide +kernel

/-- The hypotheses of the theorems above: a refusal, an admitted message, a history. -/
example : (handle exSt { exEnv with admin := false } .bibRm exNoProto).map (·.2.2) = .ok (.error (.nl .EPERM)) := by decide +kernel
example : exRun exSt [.denyAdd exPfx false, .denyRm exPfx, .denyRm exPfx, .bibAdd exT6 exT4 1]
    = .ok ([.done, .done, .error (.deny .ESRCH), .error (.bib .EINVAL)], some []) := by decide +kernel
example : Ran exSt := by
  simpa [exSt] using new_ran true true (fun n => decide (n = DEFAULT)) (fun n => decide (n = DEFAULT))
example : named exNoProto = some DEFAULT := by decide +kernel

end Jool.Req
