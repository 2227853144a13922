/-
Model of the NAT64 TCP state machine: `src/mod/common/steps/filtering_and_updating.c` lines 20-44
and 197-432, plus the session fields it may edit (`src/mod/common/db/bib/entry.h:22-63`).

Not modelled: logging. `WARN()` is only a log message here.
-/
namespace Jool

/-- src/common/session.h:5-39 `tcp_state`. `unknown` stands for every value outside of the
enumeration (joold carries three bits, so the value 7 can be stored in the database;
see `Verif.Model.JooldMsg`). -/
inductive TcpState
  | ESTABLISHED | V6_INIT | V4_INIT | V4_FIN_RCV | V6_FIN_RCV | V4_FIN_V6_FIN_RCV | TRANS
  | unknown
deriving DecidableEq, Repr, Inhabited

/-- mod/db/bib/entry.h:7-11 `session_timer_type`. -/
inductive TimerType | EST | TRANS | SYN4
deriving DecidableEq, Repr, Inhabited

/-- mod/db/bib/db.h:18-57 `enum session_fate`. -/
inductive Fate | TIMER_EST | TIMER_TRANS | RM | PRESERVE | PROBE | DROP | TIMER_SLOW
deriving DecidableEq, Repr, Inhabited

/-- Network protocol of the packet (`l3_protocol`). -/
inductive L3 | V6 | V4
deriving DecidableEq, Repr, Inhabited

/-- The part of `struct session_entry` that fate callbacks may edit (mod/db/bib/db.h:69-73).
`timer` is `timer_type`; only joold's callback edits it. -/
structure SessCtl where
  state : TcpState
  timer : Option TimerType
  updateTime : Nat
  hasStored : Bool
deriving DecidableEq, Repr, Inhabited

/-- The packet as seen by the state machine: network protocol and TCP flags. -/
structure Seg where
  l3 : L3
  syn : Bool
  fin : Bool
  rst : Bool
deriving DecidableEq, Repr, Inhabited

namespace TcpSM

/-- mod/steps/filtering_and_updating.c:20-44 `tcp_est_expire_cb`. -/
def estExpireCb (now : Nat) (s : SessCtl) : SessCtl × Fate :=
  match s.state with
  | .ESTABLISHED => ({ s with state := .TRANS, updateTime := now }, .PROBE)
  | .V4_FIN_RCV | .V6_FIN_RCV => (s, .RM)
  | .V4_INIT | .V6_INIT | .TRANS | .V4_FIN_V6_FIN_RCV => (s, .RM)   -- WARN at 36
  | .unknown => (s, .RM)                                            -- WARN at 41

/-- mod/steps/filtering_and_updating.c:201-280 `tcp_v4_init_state`. -/
def v4InitState (p : Seg) (s : SessCtl) : SessCtl × Fate :=
  match p.l3 with
  | .V6 =>
    if p.syn then ({ s with state := .ESTABLISHED, hasStored := false }, .TIMER_EST)
    else (s, .PRESERVE)
  | .V4 => if s.hasStored then (s, .DROP) else (s, .PRESERVE)

/-- mod/steps/filtering_and_updating.c:286-302 `tcp_v6_init_state`. -/
def v6InitState (p : Seg) (s : SessCtl) : SessCtl × Fate :=
  if p.syn then
    match p.l3 with
    | .V4 => ({ s with state := .ESTABLISHED }, .TIMER_EST)
    | .V6 => (s, .TIMER_TRANS)
  else (s, .PRESERVE)

/-- mod/steps/filtering_and_updating.c:308-330 `tcp_established_state`. -/
def establishedState (p : Seg) (s : SessCtl) : SessCtl × Fate :=
  if p.fin then
    match p.l3 with
    | .V4 => ({ s with state := .V4_FIN_RCV }, .PRESERVE)
    | .V6 => ({ s with state := .V6_FIN_RCV }, .PRESERVE)
  else if p.rst then ({ s with state := .TRANS }, .TIMER_TRANS)
  else (s, .TIMER_EST)

/-- mod/steps/filtering_and_updating.c:341-358 `tcp_v4_fin_rcv_state`. `hr` is the
`handle-rst-during-fin-rcv` global (332-335). -/
def v4FinRcvState (hr : Bool) (p : Seg) (s : SessCtl) : SessCtl × Fate :=
  if p.l3 = .V6 ∧ p.fin then ({ s with state := .V4_FIN_V6_FIN_RCV }, .TIMER_TRANS)
  else if p.rst && hr then (s, .TIMER_TRANS)
  else (s, .TIMER_EST)

/-- mod/steps/filtering_and_updating.c:364-381 `tcp_v6_fin_rcv_state`. -/
def v6FinRcvState (hr : Bool) (p : Seg) (s : SessCtl) : SessCtl × Fate :=
  if p.l3 = .V4 ∧ p.fin then ({ s with state := .V4_FIN_V6_FIN_RCV }, .TIMER_TRANS)
  else if p.rst && hr then (s, .TIMER_TRANS)
  else (s, .TIMER_EST)

/-- mod/steps/filtering_and_updating.c:397-408 `tcp_trans_state`. -/
def transState (p : Seg) (s : SessCtl) : SessCtl × Fate :=
  if !p.rst then ({ s with state := .ESTABLISHED }, .TIMER_EST) else (s, .PRESERVE)

/-- mod/steps/filtering_and_updating.c:410-432 `tcp_state_machine`
(388-391 `tcp_v4_fin_v6_fin_rcv_state` inlined). -/
def stateMachine (hr : Bool) (p : Seg) (s : SessCtl) : SessCtl × Fate :=
  match s.state with
  | .ESTABLISHED => establishedState p s
  | .V4_INIT => v4InitState p s
  | .V6_INIT => v6InitState p s
  | .V4_FIN_RCV => v4FinRcvState hr p s
  | .V6_FIN_RCV => v6FinRcvState hr p s
  | .V4_FIN_V6_FIN_RCV => (s, .PRESERVE)
  | .TRANS => transState p s
  | .unknown => (s, .RM)

/-- mod/db/bib/db.c:347-350 `just_die`: what the transitory and SYN4 timers do on expiration. -/
def justDie (s : SessCtl) : SessCtl × Fate := (s, .RM)

/-! ### One session's life, seen alone

`Life` is a TCP session as the database keeps it; the transitions below are the ones the database
performs on one session (mod/db/bib/db.c:653-713 `decide_fate`, 1705-1898 `bib_add_tcp6/4`,
1973-1996 `__clean`), with the rest of the table abstracted. The complete table is modelled in
`Verif.Model.Bib`; this smaller machine is what RFC 6146 section 3.5.2.2 describes. -/

/-- State of a TCP session: `none` is the RFC's CLOSED (no session). -/
structure Live where
  state : TcpState
  timer : TimerType
  stored : Bool
deriving DecidableEq, Repr

/-- Events a session can see. -/
inductive Ev
  /-- A TCP segment arrives. `adf`: address-dependent filtering is on, so a V4 SYN that creates a
  session is stored (db.c:1865-1878). -/
  | seg (p : Seg) (adf : Bool)
  /-- The session's current timer expires. -/
  | expire
deriving DecidableEq, Repr

/-- mod/db/bib/db.c:675-710: timer of the session after a fate (not `RM`). -/
def fateTimer (old : TimerType) : Fate → TimerType
  | .TIMER_EST => .EST
  | .PROBE => .TRANS
  | .TIMER_TRANS => .TRANS
  | .RM | .PRESERVE | .DROP | .TIMER_SLOW => old

/-- mod/db/bib/db.c:653-713 on a lone session; `none`: the session is removed. -/
def applyFate (old : Live) (r : SessCtl × Fate) : Option Live :=
  if r.2 = .RM then none
  else some { state := r.1.state, timer := fateTimer old.timer r.2,
              stored := old.stored && r.1.hasStored && r.2 != .PROBE }

def Live.ctl (s : Live) : SessCtl :=
  { state := s.state, timer := some s.timer, updateTime := 0, hasStored := s.stored }

/-- One step of a session's life when the BIB entry exists (CLOSED: db.c:1745-1761 and
1817-1881; otherwise db.c:1733-1743, 1805-1815, 1987-1995 with the callbacks of 397-399 and
370-376). -/
def lifeStep (hr : Bool) (s : Option Live) : Ev → Option Live
  | .seg p adf =>
    match s with
    | none =>
      if !p.syn then none
      else match p.l3 with
        | .V6 => some ⟨.V6_INIT, .TRANS, false⟩
        | .V4 => if adf then some ⟨.V4_INIT, .SYN4, true⟩ else some ⟨.V4_INIT, .TRANS, false⟩
    | some l => applyFate l (stateMachine hr p l.ctl)
  | .expire =>
    match s with
    | none => none
    | some l =>
      match l.timer with
      | .EST => applyFate l (estExpireCb 0 l.ctl)
      | .TRANS => applyFate l (justDie l.ctl)
      | .SYN4 => applyFate l (justDie l.ctl)

def lifeRun (hr : Bool) (evs : List Ev) : Option Live := evs.foldl (lifeStep hr) none

end TcpSM
end Jool
