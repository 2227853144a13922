import Verif.Model.Types
/-
Model of joold's queue: `src/mod/common/joold.c`. (`mod/` abbreviates `src/mod/common/`.)

Each function's critical section (under `queue->lock`) is one atomic step. It yields the list of
sessions that the function hands to `send_to_userspace` after releasing the lock.

Simplifications: linked lists are sequences; `α` is the type of sessions; `jiffies` is constant
during one step; counters (`jstat_*`) and logging are left out; `unsigned int` counts don't overflow.
`flush_deadline` is given in jiffies.
-/
namespace Jool.Joold

/-- mod/joold.c:30-46 `struct joold_queue`. `ack`, `ad`: `flags`. -/
structure Queue (α : Type) where
  ack : Bool
  ad : Bool
  list : List α
  count : Nat
  lastFlush : BitVec 64
deriving DecidableEq, Repr

/-- src/common/config.h `struct joold_config`. -/
structure Cfg where
  enabled : Bool
  maxPer : Nat
  capacity : Nat
  deadline : BitVec 64
deriving DecidableEq, Repr, Inhabited

/-- The settings and the clock at the time of a step. -/
structure Env where
  cfg : Cfg
  now : BitVec 64
deriving DecidableEq, Repr, Inhabited

/-- Kernel's `time_before(a, b)`: `(long)(a - b) < 0`. -/
def timeBefore (a b : BitVec 64) : Bool := (a - b).msb

/-- mod/joold.c:277-304 `joold_alloc`. -/
def alloc {α} (now : BitVec 64) : Queue α := ⟨true, false, [], 0, now⟩

/-- mod/joold.c:115-150 `should_send`. -/
def shouldSend {α} (e : Env) (q : Queue α) : Bool :=
  if q.count = 0 then false
  else if timeBefore (q.lastFlush + e.cfg.deadline) e.now then true
  else if !q.ack then false
  else if q.ad then true
  else decide (q.count ≥ e.cfg.maxPer)

/-- mod/joold.c:152-160 `too_many_sessions`. -/
def tooMany {α} (e : Env) (q : Queue α) : Bool :=
  if q.ad then false else decide (q.count ≥ e.cfg.capacity)

/-- mod/joold.c:175-184: the optional session is queued or dropped. -/
def enqueue {α} (e : Env) (q : Queue α) : Option α → Queue α
  | none => q
  | some s => if tooMany e q then q else { q with list := q.list ++ [s], count := q.count + 1 }

/-- mod/joold.c:167-214 `send_to_userspace_prepare`. The second component is `none` if
`should_send` says no, otherwise the `prepared` list (empty if `max_sessions_per_pkt` is zero). -/
def prepare {α} (e : Env) (q : Queue α) (s : Option α) : Queue α × Option (List α) :=
  let q := enqueue e q s
  if !shouldSend e q then (q, none)
  else
    let d := if q.count ≤ e.cfg.maxPer then q.count else e.cfg.maxPer
    let count := q.count - d
    ({ ack := false, ad := q.ad && decide (count ≠ 0), list := q.list.drop d, count := count,
       lastFlush := e.now }, some (q.list.take d))

/-- What happens to the queue. `add`: a packet was translated (`oom`: the allocation fails).
`advertise`: the user asks to send the whole database, whose sessions are `ss`
(`none`: an allocation fails, 463-471). `ack`: the daemon acknowledges. `clean`: the timer. -/
inductive Op (α : Type)
  | add (s : α) (oom : Bool)
  | advertise (ss : Option (List α))
  | ack
  | clean
deriving DecidableEq, Repr

/-- mod/joold.c:331-353 `joold_add`, 449-499 `joold_advertise`, 501-519 `joold_ack`,
527-543 `joold_clean`. -/
def step {α} (e : Env) (q : Queue α) : Op α → Queue α × Option (List α)
  | .add s oom => if !e.cfg.enabled || oom then (q, none) else prepare e q (some s)
  | .advertise ss =>
    if !e.cfg.enabled then (q, none)
    else match ss with
      | none => (q, none)
      | some ss =>
        if ss.isEmpty then (q, none)
        else if q.ad then (q, none)
        else prepare e { q with ad := true, list := q.list ++ ss, count := q.count + ss.length } none
  | .ack => if !e.cfg.enabled then (q, none) else prepare e { q with ack := true } none
  | .clean => if !e.cfg.enabled then (q, none) else prepare e q none

/-- A history; the flush of each step is recorded. -/
def run {α} (q : Queue α) : List (Env × Op α) → Queue α × List (Option (List α))
  | [] => (q, [])
  | (e, o) :: rest =>
    let r := step e q o
    let l := run r.1 rest
    (l.1, r.2 :: l.2)

/-- mod/joold.c:219-272 `send_to_userspace`: the sessions of the message that is multicast, if
there is one. `room`: the size of the buffer (`genlmsg_new` at 231 asks for 1520 bytes, the kernel
may round up); `none`: the allocation fails. The headers take 52 bytes (Netlink 16, Generic Netlink 4,
`struct joolnlhdr` 28, nest 4) and each session takes 40. -/
def transmit {α} (room : Option Nat) (batch : List α) : Option (List α) :=
  if batch.isEmpty then none
  else match room with
    | none => none
    | some n => if 52 + 40 * batch.length ≤ n then some batch else none

end Jool.Joold
