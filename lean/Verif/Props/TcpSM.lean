import Verif.Model.TcpSM
/-
C24, C25: the TCP state machine versus RFC 6146 section 3.5.2.2.
-/
namespace Jool

/-! ## Specification, written from RFC 6146 section 3.5.2.2 (not from the code) -/
namespace TcpSpec

inductive Side | v6 | v4
deriving DecidableEq, Repr

/-- What a segment may mean for the RFC's state machine. -/
inductive Event
  | syn (s : Side) | fin (s : Side) | rst (s : Side)
deriving DecidableEq, Repr

/-- Lifetime column: (re)set to the established timeout, to the transitory one, or unchanged. -/
inductive Lifetime | est | trans | keep
deriving DecidableEq, Repr

/-- Rows of the state descriptions which mention a specific event. -/
def row : TcpState → Event → Option (TcpState × Lifetime)
  -- *** V4 INIT ***
  | .V4_INIT, .syn .v6 => some (.ESTABLISHED, .est)
  -- *** V6 INIT ***
  | .V6_INIT, .syn .v4 => some (.ESTABLISHED, .est)
  | .V6_INIT, .syn .v6 => some (.V6_INIT, .trans)
  -- *** ESTABLISHED ***
  | .ESTABLISHED, .fin .v4 => some (.V4_FIN_RCV, .keep)
  | .ESTABLISHED, .fin .v6 => some (.V6_FIN_RCV, .keep)
  | .ESTABLISHED, .rst _ => some (.TRANS, .trans)
  -- *** V4 FIN RCV *** / *** V6 FIN RCV ***
  | .V4_FIN_RCV, .fin .v6 => some (.V4_FIN_V6_FIN_RCV, .trans)
  | .V6_FIN_RCV, .fin .v4 => some (.V4_FIN_V6_FIN_RCV, .trans)
  -- *** TRANS ***: "If a packet other than a RST arrives" below, as default.
  | .TRANS, .rst _ => some (.TRANS, .keep)
  | _, _ => none

/-- Row "any other packet". -/
def otherwise : TcpState → TcpState × Lifetime
  | .ESTABLISHED => (.ESTABLISHED, .est)
  | .V4_FIN_RCV => (.V4_FIN_RCV, .est)
  | .V6_FIN_RCV => (.V6_FIN_RCV, .est)
  | .TRANS => (.ESTABLISHED, .est)
  | s => (s, .keep)

def side : L3 → Side | .V6 => .v6 | .V4 => .v4

def events (p : Seg) : List Event :=
  (if p.syn then [.syn (side p.l3)] else []) ++ (if p.fin then [.fin (side p.l3)] else []) ++
  (if p.rst then [.rst (side p.l3)] else [])

/-- The RFC does not say what to do with several flags at once; any of the rows triggered by the
segment is acceptable, and the default row is acceptable only if none is triggered. -/
def Allows (s : TcpState) (p : Seg) (out : TcpState × Lifetime) : Prop :=
  (∃ e ∈ events p, row s e = some out) ∨
  ((∀ e ∈ events p, row s e = none) ∧ out = otherwise s)

/-- Lifetime column of a model fate. -/
def lifetime : Fate → Lifetime
  | .TIMER_EST => .est
  | .TIMER_TRANS => .trans
  | _ => .keep

/-- RFC 6146 states (excludes corrupted values). -/
def Legal (s : TcpState) : Prop := s ≠ .unknown

end TcpSpec

open TcpSM TcpSpec

/-- C24. Every segment in every RFC state leads where RFC 6146 says, and the segment is translated,
except (a) `handle-rst-during-fin-rcv` turns a RST in a FIN RCV state into the transitory lifetime,
(b) a retransmitted V4 SYN of a stored simultaneous open is dropped without any change. -/
theorem tcp_sm_conforms (hr : Bool) (p : Seg) (s : SessCtl) (hs : Legal s.state) :
    let r := stateMachine hr p s
    (Allows s.state p (r.1.state, lifetime r.2) ∧ r.2 ≠ .DROP ∧ r.2 ≠ .RM ∧ r.2 ≠ .PROBE
        ∧ r.2 ≠ .TIMER_SLOW)
    ∨ (hr = true ∧ p.rst = true ∧ (s.state = .V4_FIN_RCV ∨ s.state = .V6_FIN_RCV) ∧
        r = (s, .TIMER_TRANS))
    ∨ (s.state = .V4_INIT ∧ p.l3 = .V4 ∧ s.hasStored = true ∧ r = (s, .DROP)) := by
  obtain ⟨st, tm, ut, stored⟩ := s
  obtain ⟨l3, syn, fin, rst⟩ := p
  simp only [Legal] at hs
  cases st <;>
    simp only [stateMachine, establishedState, v4InitState, v6InitState, v4FinRcvState,
      v6FinRcvState, transState] <;> (repeat' split) <;>
    simp_all [Allows, events, side, row, otherwise, lifetime] <;>
    (try (cases l3 <;> simp_all [row])) <;> (try (cases syn <;> simp_all [row])) <;>
    (try (cases fin <;> simp_all [row])) <;> (try (cases rst <;> simp_all [row]))

/-- The callback edits nothing but the state and (on a simultaneous open) the stored packet flag. -/
theorem tcp_sm_frame (hr : Bool) (p : Seg) (s : SessCtl) :
    let r := (stateMachine hr p s).1
    r.timer = s.timer ∧ r.updateTime = s.updateTime ∧
    (r.hasStored = s.hasStored ∨ (s.state = .V4_INIT ∧ r.state = .ESTABLISHED)) := by
  obtain ⟨l3, syn, fin, rst⟩ := p
  obtain ⟨st, tm, ut, stored⟩ := s
  cases st <;> cases l3 <;> cases syn <;> cases fin <;> cases rst <;> cases hr <;> cases stored <;>
    simp_all [stateMachine, establishedState, v4InitState, v6InitState, v4FinRcvState,
      v6FinRcvState, transState]

/-- C24, deterministic form: a segment with exactly one of SYN, FIN and RST follows the RFC row
when there is one, and the default otherwise. -/
theorem tcp_sm_single_flag (p : Seg) (s : SessCtl) (e : Event) (hs : Legal s.state)
    (he : events p = [e]) (hst : s.hasStored = false) :
    let r := stateMachine false p s
    (r.1.state, lifetime r.2) = (row s.state e).getD (otherwise s.state) := by
  have h := tcp_sm_conforms false p s hs
  simp only [hst] at h
  rcases h with ⟨h, _⟩ | h | h
  · rcases h with ⟨e', he', hr⟩ | ⟨hn, hd⟩
    · rw [he] at he'; simp at he'; subst he'; simp [hr]
    · rw [he] at hn; simp at hn; simp [hn, hd]
  · simp at h
  · simp at h

example : events ⟨.V4, false, true, false⟩ = [.fin .v4] ∧
    (stateMachine false ⟨.V4, false, true, false⟩ ⟨.V6_FIN_RCV, some .EST, 7, false⟩)
      = (⟨.V4_FIN_V6_FIN_RCV, some .EST, 7, false⟩, .TIMER_TRANS) := by decide

/-! ## Whole lives of a session -/

namespace TcpSpec

/-- Instrumented run: the session plus the events of its *current life* (since its creation). -/
def lifeStepH (hr : Bool) (sh : Option Live × List Ev) (e : Ev) : Option Live × List Ev :=
  match lifeStep hr sh.1 e with
  | none => (none, [])
  | some l => (some l, sh.2 ++ [e])

def lifeRunH (hr : Bool) (evs : List Ev) : Option Live × List Ev :=
  evs.foldl (lifeStepH hr) (none, [])

/-- The current life contains a segment from `side` with the given property. -/
def Saw (h : List Ev) (side : L3) (f : Seg → Bool) : Prop :=
  ∃ p adf, Ev.seg p adf ∈ h ∧ p.l3 = side ∧ f p = true

/-- Both ends sent a SYN. -/
def Handshake (h : List Ev) : Prop := Saw h .V6 Seg.syn ∧ Saw h .V4 Seg.syn

/-- Some end sent a RST. -/
def Reset (h : List Ev) : Prop := Saw h .V6 Seg.rst ∨ Saw h .V4 Seg.rst

/-- What the current life must contain for the session to be in a given state. -/
def Evidence (h : List Ev) : TcpState → Prop
  | .V6_INIT => Saw h .V6 Seg.syn
  | .V4_INIT => Saw h .V4 Seg.syn
  | .ESTABLISHED => Handshake h
  | .V4_FIN_RCV => Handshake h ∧ Saw h .V4 Seg.fin
  | .V6_FIN_RCV => Handshake h ∧ Saw h .V6 Seg.fin
  | .V4_FIN_V6_FIN_RCV => Handshake h ∧ Saw h .V4 Seg.fin ∧ Saw h .V6 Seg.fin
  | .TRANS => Handshake h ∧ (Reset h ∨ Ev.expire ∈ h)
  | .unknown => False

end TcpSpec

theorem lifeRunH_fst (hr : Bool) (evs : List Ev) : (lifeRunH hr evs).1 = lifeRun hr evs := by
  unfold lifeRunH lifeRun
  suffices ∀ s h, (evs.foldl (lifeStepH hr) (s, h)).1 = evs.foldl (lifeStep hr) s from this _ _
  induction evs with
  | nil => intros; rfl
  | cons e es ih =>
    intro s h
    simp only [List.foldl_cons, lifeStepH]
    cases hl : lifeStep hr s e <;> simp [ih]

/-- The recorded life is the tail of the real history. -/
theorem lifeRunH_suffix (hr : Bool) (evs : List Ev) : (lifeRunH hr evs).2 <:+ evs := by
  unfold lifeRunH
  suffices ∀ s h pre, h <:+ pre →
      (evs.foldl (lifeStepH hr) (s, h)).2 <:+ pre ++ evs by
    simpa using this none [] [] (List.suffix_refl _)
  induction evs with
  | nil => intro s h pre hp; simpa using hp
  | cons e es ih =>
    intro s h pre hp
    simp only [List.foldl_cons, lifeStepH]
    have hap : pre ++ e :: es = (pre ++ [e]) ++ es := by simp
    rw [hap]
    cases hl : lifeStep hr s e with
    | none => exact ih _ _ _ (List.nil_suffix)
    | some l =>
      refine ih _ _ _ ?_
      obtain ⟨t, rfl⟩ := hp
      exact ⟨t, by simp⟩

theorem TcpSpec.Saw.mono {h : List Ev} {side f} (e : Ev) (hs : Saw h side f) : Saw (h ++ [e]) side f := by
  obtain ⟨p, a, hm, h1, h2⟩ := hs
  exact ⟨p, a, by simp [hm], h1, h2⟩

theorem TcpSpec.Saw.last {h : List Ev} {p : Seg} {a} {side f} (h1 : p.l3 = side) (h2 : f p = true) :
    Saw (h ++ [.seg p a]) side f := ⟨p, a, by simp, h1, h2⟩

theorem TcpSpec.Handshake.mono {h : List Ev} (e : Ev) (hs : Handshake h) : Handshake (h ++ [e]) :=
  ⟨hs.1.mono e, hs.2.mono e⟩

theorem TcpSpec.Reset.mono {h : List Ev} (e : Ev) (hs : Reset h) : Reset (h ++ [e]) := by
  rcases hs with hs | hs
  · exact .inl (hs.mono e)
  · exact .inr (hs.mono e)

theorem TcpSpec.Evidence.mono {h : List Ev} {s} (e : Ev) (hs : Evidence h s) : Evidence (h ++ [e]) s := by
  cases s <;> simp only [Evidence] at hs ⊢
  · exact hs.mono e
  · exact hs.mono e
  · exact hs.mono e
  · exact ⟨hs.1.mono e, hs.2.mono e⟩
  · exact ⟨hs.1.mono e, hs.2.mono e⟩
  · exact ⟨hs.1.mono e, hs.2.1.mono e, hs.2.2.mono e⟩
  · refine ⟨hs.1.mono e, ?_⟩
    rcases hs.2 with h1 | h1
    · exact .inl (h1.mono e)
    · exact .inr (by simp [h1])

/-- Timer/state/stored packet agreement of a lone session. -/
def LiveOk (hr : Bool) (l : Live) (h : List Ev) : Prop :=
  Evidence h l.state ∧
  (l.timer = .EST → l.state = .ESTABLISHED ∨ l.state = .V4_FIN_RCV ∨ l.state = .V6_FIN_RCV) ∧
  (l.timer = .SYN4 → l.state = .V4_INIT) ∧
  (l.stored = true → l.state = .V4_INIT ∧ l.timer = .SYN4) ∧
  (l.timer = .TRANS → l.state = .ESTABLISHED → False) ∧
  (l.timer = .TRANS → (l.state = .V4_FIN_RCV ∨ l.state = .V6_FIN_RCV) → hr = true ∧ Reset h)

theorem lifeStep_ok (hr : Bool) (l : Live) (h : List Ev) (e : Ev) (ho : LiveOk hr l h) (l' : Live)
    (hl : lifeStep hr (some l) e = some l') : LiveOk hr l' (h ++ [e]) := by
  obtain ⟨st, tm, stored⟩ := l
  obtain ⟨hev, h1, h2, h3, h4, h5⟩ := ho
  simp only at hev h1 h2 h3 h4 h5
  cases e with
  | seg p adf =>
    have hev' := hev.mono (.seg p adf)
    have hR : p.rst = true → Reset (h ++ [.seg p adf]) := by
      intro hr'
      cases hp : p.l3
      · exact .inl (Saw.last hp hr')
      · exact .inr (Saw.last hp hr')
    have h5' : tm = .TRANS → (st = .V4_FIN_RCV ∨ st = .V6_FIN_RCV) →
        hr = true ∧ Reset (h ++ [.seg p adf]) :=
      fun a b => ⟨(h5 a b).1, (h5 a b).2.mono _⟩
    have hS : p.syn = true → Saw (h ++ [.seg p adf]) p.l3 Seg.syn := fun x => Saw.last rfl x
    have hF : p.fin = true → Saw (h ++ [.seg p adf]) p.l3 Seg.fin := fun x => Saw.last rfl x
    generalize hh : h ++ [Ev.seg p adf] = hh at *
    simp only [lifeStep, applyFate, Live.ctl] at hl
    cases st <;>
      simp only [stateMachine, establishedState, v4InitState, v6InitState, v4FinRcvState,
        v6FinRcvState, transState] at hl <;> (repeat' split at hl) <;>
      (try simp only [reduceCtorEq, if_false, if_true, Option.some.injEq] at hl) <;>
      (try subst hl) <;> (try simp_all [fateTimer, Evidence, Handshake, LiveOk])
  | expire =>
    have hev' := hev.mono .expire
    have h5' : tm = .TRANS → (st = .V4_FIN_RCV ∨ st = .V6_FIN_RCV) →
        hr = true ∧ Reset (h ++ [.expire]) :=
      fun a b => ⟨(h5 a b).1, (h5 a b).2.mono _⟩
    have hX : Ev.expire ∈ h ++ [Ev.expire] := by simp
    generalize hh : h ++ [Ev.expire] = hh at *
    simp only [lifeStep, applyFate, Live.ctl] at hl
    cases tm <;> cases st <;>
      simp_all [estExpireCb, justDie, fateTimer, Evidence, Handshake, LiveOk]
    subst hl
    simp_all [Evidence, Handshake]

theorem lifeCreate_ok (hr : Bool) (h : List Ev) (e : Ev) (l' : Live)
    (hl : lifeStep hr none e = some l') : LiveOk hr l' (h ++ [e]) := by
  cases e with
  | expire => simp [lifeStep] at hl
  | seg p adf =>
    have hS : p.syn = true → Saw (h ++ [.seg p adf]) p.l3 Seg.syn := fun x => Saw.last rfl x
    generalize hh : h ++ [Ev.seg p adf] = hh at *
    obtain ⟨l3, syn, fin, rst⟩ := p
    cases l3 <;> cases syn <;> cases adf <;> simp_all [lifeStep] <;> subst hl <;>
      simp_all [LiveOk, Evidence]

theorem lifeRun_ok (hr : Bool) (evs : List Ev) :
    ∀ l, (lifeRunH hr evs).1 = some l → LiveOk hr l (lifeRunH hr evs).2 := by
  unfold lifeRunH
  suffices ∀ sh : Option Live × List Ev, (∀ l, sh.1 = some l → LiveOk hr l sh.2) →
      ∀ l, (evs.foldl (lifeStepH hr) sh).1 = some l →
        LiveOk hr l (evs.foldl (lifeStepH hr) sh).2 from this _ (by simp)
  induction evs with
  | nil => intro sh h; simpa using h
  | cons e es ih =>
    intro sh h
    simp only [List.foldl_cons]
    refine ih _ ?_
    intro l hl
    obtain ⟨s, hist⟩ := sh
    simp only [lifeStepH] at hl ⊢
    cases hstep : lifeStep hr s e with
    | none => simp [hstep] at hl
    | some l' =>
      simp only [hstep, Option.some.injEq] at hl ⊢
      subst hl
      cases s with
      | none => exact lifeCreate_ok hr hist e l' hstep
      | some l0 => exact lifeStep_ok hr l0 hist e (h l0 rfl) l' hstep

/-- C24, whole histories: whatever the segments and expirations, the state of a session is
justified by what both ends sent during the session's current life: ESTABLISHED needs both SYNs,
the FIN states need the FINs, TRANS needs a RST or an expiration of an established session. -/
theorem tcp_state_justified (hr : Bool) (evs : List Ev) (l : Live)
    (h : lifeRun hr evs = some l) :
    ∃ life, life <:+ evs ∧ Evidence life l.state :=
  ⟨_, lifeRunH_suffix hr evs, (lifeRun_ok hr evs l (by rw [lifeRunH_fst, h])).1⟩

/-- A v6 SYN, a v4 SYN+ACK, a v4 FIN: the session is in V4 FIN RCV. -/
example : lifeRun false [.seg ⟨.V6, true, false, false⟩ false, .seg ⟨.V4, true, false, false⟩ false,
    .seg ⟨.V4, false, true, false⟩ false] = some ⟨.V4_FIN_RCV, .EST, false⟩ := by decide

/-- C24, closing: a session disappears only when a timer expires, and then either it never became
established, or both ends sent FIN, or an end sent RST, or (a single FIN, or nothing at all
for a whole established lifetime) the established timer expired first. In particular
a session in ESTABLISHED is never removed. -/
theorem tcp_close_reason (hr : Bool) (evs : List Ev) (l : Live) (e : Ev)
    (h : lifeRun hr evs = some l) (hrm : lifeRun hr (evs ++ [e]) = none) :
    e = .expire ∧ l.state ≠ .ESTABLISHED ∧ ∃ life, life <:+ evs ∧
      (((l.state = .V6_INIT ∨ l.state = .V4_INIT) ∧ l.timer ≠ .EST)
        ∨ (Saw life .V4 Seg.fin ∧ Saw life .V6 Seg.fin)
        ∨ Reset life
        ∨ (l.state = .TRANS ∧ Ev.expire ∈ life)
        ∨ ((l.state = .V4_FIN_RCV ∧ Saw life .V4 Seg.fin
            ∨ l.state = .V6_FIN_RCV ∧ Saw life .V6 Seg.fin) ∧ l.timer = .EST)) := by
  have hok := lifeRun_ok hr evs l (by rw [lifeRunH_fst, h])
  have hstep : lifeStep hr (some l) e = none := by
    unfold lifeRun at h hrm
    rw [List.foldl_append, h] at hrm
    simpa using hrm
  have hsuf := lifeRunH_suffix hr evs
  generalize (lifeRunH hr evs).2 = life at hok hsuf
  obtain ⟨st, tm, stored⟩ := l
  obtain ⟨hev, h1, h2, h3, h4, h5⟩ := hok
  simp only at hev h1 h2 h3 h4 h5
  cases e with
  | seg p adf =>
    exfalso
    have hne : st ≠ .unknown := by rintro rfl; exact hev
    simp only [lifeStep, applyFate] at hstep
    have := tcp_sm_conforms hr p (Live.ctl ⟨st, tm, stored⟩) hne
    rcases this with ⟨_, _, h, _⟩ | ⟨_, _, _, h⟩ | ⟨_, _, _, h⟩
    · simp [h] at hstep
    · simp [h] at hstep
    · simp [h] at hstep
  | expire =>
    have hne : st ≠ .ESTABLISHED := by
      rintro heq
      subst heq
      cases tm <;> simp_all [lifeStep, applyFate, estExpireCb, Live.ctl]
    refine ⟨rfl, hne, life, hsuf, ?_⟩
    cases tm <;> cases st <;> simp_all [Evidence] <;>
        (try rcases hev with ⟨_, _ | _⟩ <;> simp_all)

/-- Handshake, both FINs, transitory timer expires: removed, with both FINs seen. -/
example :
    let evs := [Ev.seg ⟨.V6, true, false, false⟩ false, .seg ⟨.V4, true, false, false⟩ false,
      .seg ⟨.V4, false, true, false⟩ false, .seg ⟨.V6, false, true, false⟩ false]
    lifeRun false evs = some ⟨.V4_FIN_V6_FIN_RCV, .TRANS, false⟩ ∧
    lifeRun false (evs ++ [.expire]) = none := by decide

/-- C25. A session waiting for the established timer is in ESTABLISHED, V4 FIN RCV or V6 FIN RCV
(so `tcp_est_expire_cb` never warns); one with a stored packet is in V4 INIT on the six-second
timer; an ESTABLISHED session is always on the established timer. (The same statement about the
whole table is `Bib.bib_tcp_timer_state`.) -/
theorem tcp_timer_agrees (hr : Bool) (evs : List Ev) (l : Live) (h : lifeRun hr evs = some l) :
    (l.timer = .EST → l.state = .ESTABLISHED ∨ l.state = .V4_FIN_RCV ∨ l.state = .V6_FIN_RCV) ∧
    (l.stored = true → l.state = .V4_INIT ∧ l.timer = .SYN4) ∧
    (l.timer = .SYN4 → l.state = .V4_INIT) ∧
    (l.state = .ESTABLISHED → l.timer = .EST) := by
  obtain ⟨_, h1, h2, h3, h4, _⟩ := lifeRun_ok hr evs l (by rw [lifeRunH_fst, h])
  refine ⟨h1, h3, h2, ?_⟩
  intro he
  cases ht : l.timer with
  | EST => rfl
  | TRANS => exact (h4 ht he).elim
  | SYN4 => have := h2 ht; rw [he] at this; cases this

example : lifeRun true [.seg ⟨.V4, true, false, false⟩ true] = some ⟨.V4_INIT, .SYN4, true⟩ := by
  decide

end Jool
