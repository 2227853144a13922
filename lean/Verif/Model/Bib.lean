import Verif.Model.Types
import Verif.Model.TcpSM
/-
Model of the NAT64's BIB and session tables: `src/mod/common/db/bib/db.c` and
`src/mod/common/db/bib/pkt_queue.c`. (`mod/` abbreviates `src/mod/common/`.)

Representation. A `tabled_bib` is identified by its two immutable transport addresses, a
`tabled_session` by its owner and `dst4`; these identities play the role of pointers. The mutable
fields live in the functions `isStatic`, `sess` (the tree of sessions of a BIB entry) and `info`.
The two BIB trees and the three expiration lists are separate sequences of pointers, as in C, so
that "both trees are in step" or "a session is in exactly one list" are theorems.

Simplifications.
* A red-black tree is its in-order sequence. `Verif.Model.RbTree` models search, slots,
  `rb_next` and `try_next` on actual binary search trees and proves that they compute what is used
  here, for every shape of the tree.
* The packet queue's tree (`node_tree`) and list (`node_list`) always hold the same nodes
  (pkt_queue.c:28-32,129-130,145-146); they are one list here.
* `jiffies` is a natural number (no wraparound) and constant during one operation.
* A pointer that the C code keeps after freeing its target is `OldBib.dangling`;
  using it is `UB.useAfterFree`.
* Locking: each operation runs under the table's spinlock, hence atomically.
* Not modelled: logging, probe packet construction (715-812), `bib_print`.
-/
namespace Jool.Bib

/-- Identity of a `struct tabled_bib` (mod/db/bib/db.c:19-44). -/
structure BibKey where
  src6 : T6
  src4 : T4
deriving DecidableEq, Repr, Inhabited

/-- Identity of a `struct tabled_session` (mod/db/bib/db.c:49-95). -/
structure SessKey where
  bib : BibKey
  dst4 : T4
deriving DecidableEq, Repr, Inhabited

/-- The remaining fields of `struct tabled_session`. `stored` is an skb (any identifier). -/
structure SessInfo where
  dst6 : T6
  state : TcpState
  updateTime : Nat
  expirer : TimerType
  stored : Option Nat
deriving DecidableEq, Repr, Inhabited

/-- mod/db/bib/pkt_queue.h `struct pktqueue_session`. -/
structure QNode where
  src4 : T4
  dst4 : T4
  dst6 : T6
  skb : Nat
  updateTime : Nat
deriving DecidableEq, Repr, Inhabited

/-- mod/db/bib/db.c:124-164 `struct bib_table`, and the two statistics that count its contents
(`JSTAT_BIB_ENTRIES`, `JSTAT_SESSIONS`; this table's share). -/
structure Table where
  tree6 : List BibKey
  tree4 : List BibKey
  isStatic : BibKey → Bool
  sess : BibKey → List T4
  info : SessKey → SessInfo
  lists : TimerType → List SessKey
  pktCount : Int
  queue : List QNode
  statBib : Int
  statSess : Int

/-- What leaves the table. `icmpErr skb`: a port unreachable is sent for `skb`, which is then freed;
`freed skb`: freed silently; `probe k`: a TCP probe is sent. -/
inductive Event | icmpErr (skb : Nat) | freed (skb : Nat) | probe (k : SessKey)
deriving DecidableEq, Repr

/-- Globals used here (`struct nat64_globals`' `bib`), timeouts in jiffies. -/
structure Cfg where
  dropByAddr : Bool
  dropExternalTcp : Bool
  handleRst : Bool
  maxStored : Nat
  ttlTcpEst : Nat
  ttlTcpTrans : Nat
  ttlSyn4 : Nat
  ttlUdp : Nat
  ttlIcmp : Nat
deriving DecidableEq, Repr, Inhabited

/-- Which allocations fail during the operation. -/
structure Oom where
  new : Bool
  upBib : Bool
  upSess : Bool
  probe : Bool
  queue : Bool
deriving DecidableEq, Repr, Inhabited

structure Env where
  now : Nat
  cfg : Cfg
  oom : Oom
deriving DecidableEq, Repr, Inhabited

def initInfo : SessInfo := default

/-- mod/db/bib/db.c:362-379 `init_table`. -/
def init : Table :=
  { tree6 := [], tree4 := [], isStatic := fun _ => false, sess := fun _ => [],
    info := fun _ => initInfo, lists := fun _ => [], pktCount := 0, queue := [],
    statBib := 0, statSess := 0 }

/-- Pointwise update of a function. -/
def upd {α β} [DecidableEq α] (f : α → β) (a : α) (b : β) : α → β := fun x => if x = a then b else f x

/-- Insertion in a sequence sorted by `f` (commit of a valid tree slot). -/
def insBy {α} (f : α → Nat) (x : α) : List α → List α
  | [] => [x]
  | y :: ys => if f x < f y then x :: y :: ys else y :: insBy f x ys

def key6 (b : BibKey) : Nat := b.src6.key
def key4 (b : BibKey) : Nat := b.src4.key

/-- mod/db/bib/db.c:889-894 `find_bib6`, 903-911 `find_bibtree6_slot` (collision). -/
def find6 (t : Table) (a : T6) : Option BibKey := t.tree6.find? (fun b => decide (b.src6 = a))
/-- mod/db/bib/db.c:896-901 `find_bib4`, 913-921 `find_bibtree4_slot` (collision). -/
def find4 (t : Table) (a : T4) : Option BibKey := t.tree4.find? (fun b => decide (b.src4 = a))

/-- mod/db/bib/db.c:214-239 `get_timeout`. -/
def getTimeout (cfg : Cfg) : Proto → TimerType → Nat
  | .TCP, .EST => cfg.ttlTcpEst
  | .TCP, .TRANS => cfg.ttlTcpTrans
  | .UDP, .EST => cfg.ttlUdp
  | .TCP, .SYN4 => cfg.ttlSyn4
  | .ICMP, .EST => cfg.ttlIcmp
  | _, _ => 0

/-! ### Primitive table edits -/

def setInfo (t : Table) (k : SessKey) (i : SessInfo) : Table := { t with info := upd t.info k i }

/-- `list_del(&session->list_hook)`: the session leaves the list which it is in. -/
def listDel (t : Table) (k : SessKey) : Table := { t with lists := fun τ => (t.lists τ).erase k }

/-- mod/db/bib/db.c:304-314 `kill_stored_pkt`. -/
def killStored (t : Table) (k : SessKey) : Table × List Event :=
  match (t.info k).stored with
  | none => (t, [])
  | some skb =>
    ({ setInfo t k { t.info k with stored := none } with pktCount := t.pktCount - 1 }, [.freed skb])

/-- mod/db/bib/db.c:526-569 `handle_probe` and what `post_fate` (817-834) does with the probe.
`probes`: the caller collects probes. -/
def handleProbe (oom : Oom) (probes : Bool) (t : Table) (k : SessKey) : Table × List Event :=
  if !probes then killStored t k
  else if oom.probe then killStored t k
  else match (t.info k).stored with
    | some skb =>
      ({ setInfo t k { t.info k with stored := none } with pktCount := t.pktCount - 1 },
        [.icmpErr skb])
    | none => (t, [.probe k])

/-- `rb_erase(&session->tree_hook, &bib->sessions)`. -/
def treeDel (t : Table) (k : SessKey) : Table :=
  { t with sess := upd t.sess k.bib ((t.sess k.bib).erase k.dst4) }

/-- mod/db/bib/db.c:588-594: a dynamic BIB entry dies with its last session. -/
def reapBib (t : Table) (b : BibKey) : Table :=
  if !t.isStatic b && (t.sess b).isEmpty then
    { t with tree6 := t.tree6.erase b, tree4 := t.tree4.erase b, statBib := t.statBib - 1 }
  else t

/-- mod/db/bib/db.c:571-595 `rm`. -/
def rmSess (oom : Oom) (probes : Bool) (t : Table) (k : SessKey) : Table × List Event :=
  let r := match (t.info k).stored with
    | some _ => handleProbe oom probes t k
    | none => (t, [])
  let t := listDel (treeDel r.1 k) k
  (reapBib { t with statSess := t.statSess - 1 } k.bib, r.2)

/-- mod/db/bib/db.c:597-604 `handle_fate_timer`. -/
def fateTimer (now : Nat) (t : Table) (k : SessKey) (τ : TimerType) : Table :=
  let t := setInfo t k { t.info k with updateTime := now, expirer := τ }
  let t := listDel t k
  { t with lists := upd t.lists τ (t.lists τ ++ [k]) }

/-- mod/db/bib/db.c:632-641: walk `l` from the tail until an element older than `k`; insert after
it. -/
def slowInsert (ut : SessKey → Nat) (k : SessKey) : List SessKey → List SessKey
  | [] => [k]
  | x :: xs => if (x :: xs).any (fun y => decide (ut y < ut k)) then x :: slowInsert ut k xs
    else k :: x :: xs

/-- mod/db/bib/db.c:606-644 `queue_unsorted_session`. `none`: the timer type is invalid (-EINVAL).
With `remove_first` the walk sees `k` itself in the list, but never stops at it because
it is not older than itself; so `k` can be removed before the walk. -/
def queueUnsorted (t : Table) (k : SessKey) (τ : Option TimerType) (removeFirst : Bool) :
    Option Table :=
  match τ with
  | none => none
  | some τ =>
    let t := if removeFirst then listDel t k else t
    let t := { t with lists := upd t.lists τ
                        (slowInsert (fun k => (t.info k).updateTime) k (t.lists τ)) }
    some (setInfo t k { t.info k with expirer := τ })

/-- mod/db/bib/db.c:244-258 `tstose`, restricted to what callbacks may edit. -/
def ctlOf (t : Table) (k : SessKey) : SessCtl :=
  let i := t.info k
  { state := i.state, timer := some i.expirer, updateTime := i.updateTime,
    hasStored := i.stored.isSome }

/-- Result of `decide_fate`. -/
structure Decided where
  t : Table
  ev : List Event
  /-- `false`: the packet has to be dropped. -/
  translate : Bool
  /-- the session object was freed (`FATE_RM`). -/
  removed : Bool

/-- mod/db/bib/db.c:653-713 `decide_fate` (non-NULL `cb`). -/
def decideFate (e : Env) (probes : Bool) (cb : SessCtl → SessCtl × Fate) (t : Table) (k : SessKey) :
    Decided :=
  let r := cb (ctlOf t k)
  let t := setInfo t k { t.info k with state := r.1.state, updateTime := r.1.updateTime }
  let r1 := if !r.1.hasStored then killStored t k else (t, [])
  match r.2 with
  | .TIMER_EST => { t := fateTimer e.now r1.1 k .EST, ev := r1.2, translate := true, removed := false }
  | .PROBE =>
    let r2 := handleProbe e.oom probes r1.1 k
    { t := fateTimer e.now r2.1 k .TRANS, ev := r1.2 ++ r2.2, translate := true, removed := false }
  | .TIMER_TRANS =>
    { t := fateTimer e.now r1.1 k .TRANS, ev := r1.2, translate := true, removed := false }
  | .RM =>
    let r2 := rmSess e.oom probes r1.1 k
    { t := r2.1, ev := r1.2 ++ r2.2, translate := true, removed := true }
  | .PRESERVE => { t := r1.1, ev := r1.2, translate := true, removed := false }
  | .DROP => { t := r1.1, ev := r1.2, translate := false, removed := false }
  | .TIMER_SLOW =>
    { t := (queueUnsorted r1.1 k r.1.timer true).getD r1.1, ev := r1.2, translate := true,
      removed := false }

/-- `commit_bib_add` (842-847) of a BIB entry initialized at 1010-1018, 1060-1064, 1371-1375 or
2246-2250. -/
def addBib (t : Table) (b : BibKey) (static : Bool) : Table :=
  { t with tree6 := insBy key6 b t.tree6, tree4 := insBy key4 b t.tree4,
           isStatic := upd t.isStatic b static, sess := upd t.sess b [],
           statBib := t.statBib + 1 }

/-- `commit_session_add` (849-853) + `attach_timer` (855-861) of a session initialized with
`dst6`, `state`, `stored`. -/
def addSess (now : Nat) (t : Table) (k : SessKey) (dst6 : T6) (st : TcpState) (stored : Option Nat)
    (τ : TimerType) : Table :=
  let t := setInfo t k ⟨dst6, st, now, τ, stored⟩
  { t with sess := upd t.sess k.bib (insBy T4.key k.dst4 (t.sess k.bib)),
           lists := upd t.lists τ (t.lists τ ++ [k]), statSess := t.statSess + 1 }

/-- mod/db/bib/db.c:1157-1170 `detach_sessions`, one session. -/
def detachSess (t : Table) (k : SessKey) : Table :=
  let t := listDel t k
  let t := if (t.info k).stored.isSome then { t with pktCount := t.pktCount - 1 } else t
  { t with statSess := t.statSess - 1 }

/-- mod/db/bib/db.c:1172-1180 `detach_bib` followed (after releasing the lock) by
`release_bib_entry` (426-440). The freed entry's session tree is emptied to forget it. -/
def detachBib (t : Table) (b : BibKey) : Table × List Event :=
  let ks := (t.sess b).map (SessKey.mk b)
  let ev := ks.filterMap (fun k => ((t.info k).stored).map Event.icmpErr)
  let t := { t with tree6 := t.tree6.erase b, tree4 := t.tree4.erase b, statBib := t.statBib - 1 }
  let t := ks.foldl detachSess t
  ({ t with sess := upd t.sess b [] }, ev)

/-! ### Masks (pool4 candidates) -/

/-- What this module knows of `struct mask_domain`: the sequence that `mask_domain_next` yields (with
its `consecutive` flag), `mask_domain_is_dynamic` and `mask_domain_matches`.
See `Verif.Model.Pool4` for the actual generator. -/
structure Masks where
  cands : List (T4 × Bool)
  dynamic : Bool
  owns : T4 → Bool

/-- `bib4_entry(rb_next(&pred->hook4))`. -/
def next4 (tree4 : List BibKey) (pred : BibKey) : Option BibKey :=
  ((tree4.dropWhile (fun b => decide (b ≠ pred))).drop 1).head?

/-- mod/db/bib/db.c:1219-1249 `try_next`: the collision, if any. -/
def tryNext (tree4 : List BibKey) (pred : BibKey) (a : T4) : Option BibKey :=
  match next4 tree4 pred with
  | none => none
  | some n => if n.src4 = a then some n else none

/-- mod/db/bib/db.c:1263-1297 `find_available_mask`, from the next candidate on.
`ok none` is -ENOENT. -/
def findAvailable (t : Table) (collision : Option BibKey) : List (T4 × Bool) → Outcome (Option T4)
  | [] => .ok none
  | (a, consecutive) :: rest =>
    if consecutive then
      match collision with
      | none => .ub .nullDeref
      | some pred =>
        match tryNext t.tree4 pred a with
        | none => .ok (some a)
        | some c => findAvailable t (some c) rest
    else
      match find4 t a with
      | none => .ok (some a)
      | some c => findAvailable t (some c) rest

/-! ### Finding or preparing entries for a 6→4 packet -/

/-- `struct bib_session_tuple`'s `bib` member in `old`. -/
inductive OldBib | null | live (b : BibKey) | dangling
deriving DecidableEq, Repr

/-- Result of `upgrade_pktqueue_session`. -/
inductive Upgrade
  /-- 0: `old` holds this BIB entry and session. -/
  | done (k : SessKey)
  /-- any error; `old->bib` is as given. -/
  | failed (old : OldBib)
deriving DecidableEq, Repr

/-- mod/db/bib/pkt_queue.c:166-181 `pktqueue_find` without the removal. -/
def pktqueueFind (q : List QNode) (dst6 : T6) (masks : Option Masks) : Option QNode :=
  match q.find? (fun n => decide (n.dst6 = dst6)) with
  | none => none
  | some n =>
    match masks with
    | none => some n
    | some m => if m.owns n.src4 then some n else none

/-- mod/db/bib/db.c:1299-1414 `upgrade_pktqueue_session`. -/
def upgrade (e : Env) (p : Proto) (t : Table) (masks : Option Masks) (src6 dst6 : T6) :
    Table × List Event × Upgrade :=
  if p ≠ .TCP then (t, [], .failed .null)
  else match pktqueueFind t.queue dst6 masks with
    | none => (t, [], .failed .null)
    | some n =>
      let t := { t with queue := t.queue.erase n, pktCount := t.pktCount - 1 }
      match masks with
      | none => (t, [.freed n.skb], .failed .null)
      | some _ =>
        -- alloc_bib_session (979-992)
        if e.oom.upBib then (t, [.freed n.skb], .failed .null)
        else if e.oom.upSess then (t, [.freed n.skb], .failed .dangling)
        else
          let b : BibKey := ⟨src6, n.src4⟩
          match find6 t src6 with
          | some _ => (t, [.freed n.skb], .failed .dangling)
          | none =>
            match find4 t n.src4 with
            | some _ => (t, [.freed n.skb], .failed .dangling)
            | none =>
              let k : SessKey := ⟨b, n.dst4⟩
              (addSess e.now (addBib t b false) k n.dst6 .V4_INIT none .SYN4, [.freed n.skb], .done k)

/-- mod/db/bib/db.c:1416-1423 `issue216_needed`. -/
def issue216 (masks : Option Masks) (b : BibKey) : Bool :=
  match masks with
  | none => false
  | some m => m.dynamic && !m.owns b.src4

/-- What `find_bib_session6` tells its caller. -/
structure Found where
  /-- `old->bib`. -/
  oldBib : OldBib
  /-- `old->session`. -/
  oldSess : Option SessKey
  /-- `new->bib->src4`, meaningful if `old->bib` is NULL. -/
  src4 : T4
  /-- `new->session->dst4`. -/
  dst4 : T4
deriving DecidableEq, Repr

inductive Errno | ENOMEM | ENOENT | EEXIST | EINVAL | ESRCH | EPERM
deriving DecidableEq, Repr

/-- `new->session->dst4` once the BIB entry is known (1468-1469, 1539-1540). -/
def patchDst4 (p : Proto) (dst4 src4 : T4) : T4 :=
  if p = .ICMP then { dst4 with port := src4.port } else dst4

/-- mod/db/bib/db.c:1507-1557, "create-new-BIB-and-session mode". `src4` is only used when
`masks` is NULL. -/
def findNew (p : Proto) (t : Table) (masks : Option Masks) (old : OldBib) (src4 dst4 : T4) :
    Outcome (Except Errno Found) :=
  match masks with
  | some m =>
    match findAvailable t none m.cands with
    | .ub u => .ub u
    | .ok none => .ok (.error .ENOENT)
    | .ok (some a) => .ok (.ok ⟨old, none, a, patchDst4 p dst4 a⟩)
  | none =>
    match find4 t src4 with
    | some _ => .ok (.error .EEXIST)
    | none => .ok (.ok ⟨old, none, src4, dst4⟩)

/-- mod/db/bib/db.c:1436-1558 `find_bib_session6`. -/
def findBibSession6 (e : Env) (p : Proto) (t : Table) (masks : Option Masks) (src6 dst6 : T6)
    (src4 dst4 : T4) : Table × List Event × Outcome (Except Errno Found) :=
  match find6 t src6 with
  | some b =>
    if !issue216 masks b then
      let dst4 := patchDst4 p dst4 b.src4
      (t, [], .ok (.ok ⟨.live b, if dst4 ∈ t.sess b then some ⟨b, dst4⟩ else none, b.src4, dst4⟩))
    else
      let r := detachBib t b
      match find6 r.1 src6 with
      | some _ => (r.1, r.2, .ok (.error .EINVAL))
      | none => (r.1, r.2, findNew p r.1 masks .null src4 dst4)
  | none =>
    let r := upgrade e p t masks src6 dst6
    match r.2.2 with
    | .done k => (r.1, r.2.1, .ok (.ok ⟨.live k.bib, some k, k.bib.src4, k.dst4⟩))
    | .failed old => (r.1, r.2.1, findNew p r.1 masks old src4 dst4)

/-- mod/db/bib/db.c:1080-1098 `commit_add6`. With a dangling `old->bib` the new session is linked to
freed memory (1086; 1087 through `log_new_session`, `tstobs`). -/
def commitAdd6 (now : Nat) (t : Table) (f : Found) (src6 dst6 : T6) (st : TcpState) (τ : TimerType) :
    Outcome (Table × SessKey) :=
  match f.oldBib with
  | .dangling => .ub .useAfterFree
  | .live b => .ok (addSess now t ⟨b, f.dst4⟩ dst6 st none τ, ⟨b, f.dst4⟩)
  | .null =>
    let b : BibKey := ⟨src6, f.src4⟩
    .ok (addSess now (addBib t b false) ⟨b, f.dst4⟩ dst6 st none τ, ⟨b, f.dst4⟩)

/-! ### Operations -/

/-- What the caller of an operation learns. -/
inductive Result
  /-- The packet continues with this BIB entry (and session). -/
  | cont (b : BibKey) (k : Option SessKey)
  /-- Success of an administrative/joold/timer operation. -/
  | done
  /-- Error code. -/
  | err (e : Errno)
  /-- Verdict DROP with its statistic. -/
  | drop (why : String)
  /-- The packet was kept by the table. -/
  | stolen
deriving DecidableEq, Repr

abbrev Step := Outcome (Table × List Event × Result)

/-- mod/db/bib/db.c:1571-1630 `bib_add6` (UDP and ICMP). -/
def add6 (e : Env) (p : Proto) (t : Table) (masks : Masks) (src6 dst6 : T6) (dst4 : T4) : Step :=
  if e.oom.new then .ok (t, [], .err .ENOMEM)
  else
    let r := findBibSession6 e p t (some masks) src6 dst6 default dst4
    match r.2.2 with
    | .ub u => .ub u
    | .ok (.error err) => .ok (r.1, r.2.1, .err err)
    | .ok (.ok f) =>
      match f.oldSess with
      | some k => .ok (fateTimer e.now r.1 k .EST, r.2.1, .cont k.bib (some k))
      | none =>
        match commitAdd6 e.now r.1 f src6 dst6 .ESTABLISHED .EST with
        | .ub u => .ub u
        | .ok c => .ok (c.1, r.2.1, .cont c.2.bib (some c.2))

/-- mod/db/bib/db.c:943-977 `find_session_slot`'s `allow`: see `RbTree.sessionSlot_allow`. -/
def adfAllow (t : Table) (b : BibKey) (dst4 : T4) : Bool :=
  (t.sess b).any (fun d => decide (d.addr = dst4.addr))

/-- mod/db/bib/db.c:1650-1699 `bib_add4` (UDP and ICMP). The tuple's destination is our `src4`, its
source our `dst4`. -/
def add4 (e : Env) (t : Table) (src4 dst4 : T4) (dst6 : T6) : Step :=
  if e.oom.new then .ok (t, [], .err .ENOMEM)
  else match find4 t src4 with
    | none => .ok (t, [], .err .ESRCH)
    | some b =>
      if dst4 ∈ t.sess b then
        .ok (fateTimer e.now t ⟨b, dst4⟩ .EST, [], .cont b (some ⟨b, dst4⟩))
      else if e.cfg.dropByAddr && !adfAllow t b dst4 then .ok (t, [], .err .EPERM)
      else .ok (addSess e.now t ⟨b, dst4⟩ dst6 .ESTABLISHED none .EST, [], .cont b (some ⟨b, dst4⟩))

/-- mod/db/bib/db.c:1733-1743, 1805-1815: a packet of an existing TCP session. -/
def tcpCollision (e : Env) (cb : SessCtl → SessCtl × Fate) (t : Table) (ev : List Event)
    (k : SessKey) : Step :=
  let d := decideFate e false cb t k
  if d.translate then
    -- tstobs() reads the session.
    if d.removed then .ub .useAfterFree else .ok (d.t, ev ++ d.ev, .cont k.bib (some k))
  else .ok (d.t, ev ++ d.ev, .drop "SO_EXISTS")

/-- mod/db/bib/db.c:1705-1774 `bib_add_tcp6`, with the callback of filtering_and_updating.c:453. -/
def tcp6 (e : Env) (t : Table) (masks : Masks) (seg : Seg) (src6 dst6 : T6) (dst4 : T4) : Step :=
  if e.oom.new then .ok (t, [], .drop "ENOMEM")
  else
    let r := findBibSession6 e .TCP t (some masks) src6 dst6 default dst4
    match r.2.2 with
    | .ub u => .ub u
    | .ok (.error _) => .ok (r.1, r.2.1, .drop "UNKNOWN")
    | .ok (.ok f) =>
      match f.oldSess with
      | some k => tcpCollision e (TcpSM.stateMachine e.cfg.handleRst seg) r.1 r.2.1 k
      | none =>
        if !seg.syn then
          match f.oldBib with
          | .live b => .ok (r.1, r.2.1, .cont b none)
          | .null => .ok (r.1, r.2.1, .drop "SYN6_EXPECTED")
          | .dangling => .ub .useAfterFree      -- tbtobs(old.bib), line 1749
        else
          match commitAdd6 e.now r.1 f src6 dst6 .V6_INIT .TRANS with
          | .ub u => .ub u
          | .ok c => .ok (c.1, r.2.1, .cont c.2.bib (some c.2))

/-- `table->pkt_count >= max_stored_pkts` (1840, 1866): an `int` against a `__u32`, so the
comparison is unsigned. -/
def tooMany (cfg : Cfg) (t : Table) : Bool := decide (cfg.maxStored ≤ (t.pktCount % 4294967296).toNat)

/-- mod/db/bib/pkt_queue.c:79-132 `pktqueue_add` and its caller (db.c:1836-1861). -/
def storeType1 (e : Env) (t : Table) (src4 dst4 : T4) (dst6 : T6) (skb : Nat) :
    Table × List Event × Result :=
  if e.oom.queue then (t, [], .drop "ENOMEM")
  else if t.queue.any (fun n => decide (n.dst6 = dst6)) then (t, [], .drop "SO_EXISTS")
  else if tooMany e.cfg t then (t, [], .drop "SO_FULL")
  else ({ t with queue := t.queue ++ [⟨src4, dst4, dst6, skb, e.now⟩], pktCount := t.pktCount + 1 },
        [], .stolen)

/-- mod/db/bib/db.c:1780-1898 `bib_add_tcp4`, with the callback of filtering_and_updating.c:477.
`skb`: the packet. -/
def tcp4 (e : Env) (t : Table) (seg : Seg) (src4 dst4 : T4) (dst6 : T6) (skb : Nat) : Step :=
  if e.oom.new then .ok (t, [], .drop "ENOMEM")
  else
    let old := find4 t src4
    let oldSess := match old with
      | some b => if dst4 ∈ t.sess b then some (SessKey.mk b dst4) else none
      | none => none
    match oldSess with
    | some k => tcpCollision e (TcpSM.stateMachine e.cfg.handleRst seg) t [] k
    | none =>
      if !seg.syn then
        match old with
        | some b => .ok (t, [], .cont b none)
        | none => .ok (t, [], .drop "SYN4_EXPECTED")
      else if e.cfg.dropExternalTcp then .ok (t, [], .drop "V4_SYN")
      else match old with
        | none => .ok (storeType1 e t src4 dst4 dst6 skb)
        | some b =>
          if e.cfg.dropByAddr then
            if tooMany e.cfg t then .ok (t, [], .drop "SO_FULL")
            else
              let t := { t with pktCount := t.pktCount + 1 }
              .ok (addSess e.now t ⟨b, dst4⟩ dst6 .V4_INIT (some skb) .SYN4, [], .stolen)
          else
            .ok (addSess e.now t ⟨b, dst4⟩ dst6 .V4_INIT none .TRANS, [],
                 .cont b (some ⟨b, dst4⟩))

/-- A `struct session_entry` received through joold (`mod/nl/attribute.c`, see
`Verif.Model.JooldMsg`). `timer = none`: not a `session_timer_type`. -/
structure SessEntry where
  src6 : T6
  dst6 : T6
  src4 : T4
  dst4 : T4
  state : TcpState
  timer : Option TimerType
  updateTime : Nat
deriving DecidableEq, Repr, Inhabited

/-- mod/joold.c:360-378 `collision_cb`, for the database session `k`. -/
def jooldCb (t : Table) (s : SessEntry) (k : SessKey) (c : SessCtl) : SessCtl × Fate :=
  if k.bib.src6 = s.src6 ∧ (t.info k).dst6 = s.dst6 ∧ k.bib.src4 = s.src4 ∧ k.dst4 = s.dst4 then
    ({ c with state := s.state, timer := s.timer, updateTime := s.updateTime }, .TIMER_SLOW)
  else (c, .PRESERVE)

/-- `queue_unsorted_session(..., false)` + `commit_session_add` (mod/db/bib/db.c:1130-1155) of a
session initialized by `create_bib_session` (1047-1071). -/
def addSessSlow (t : Table) (k : SessKey) (s : SessEntry) (τ : TimerType) : Table :=
  let t := setInfo t k ⟨s.dst6, s.state, s.updateTime, τ, none⟩
  { t with sess := upd t.sess k.bib (insBy T4.key k.dst4 (t.sess k.bib)),
           lists := upd t.lists τ (slowInsert (fun k => (t.info k).updateTime) k (t.lists τ)),
           statSess := t.statSess + 1 }

/-- mod/db/bib/db.c:1927-1971 `bib_add_session` with joold's callback. A NULL `cb` is not used by
any caller. -/
def jooldAdd (e : Env) (p : Proto) (t : Table) (s : SessEntry) : Step :=
  if e.oom.new then .ok (t, [], .err .ENOMEM)
  else
    let r := findBibSession6 e p t none s.src6 s.dst6 s.src4 s.dst4
    match r.2.2 with
    | .ub u => .ub u
    | .ok (.error err) => .ok (r.1, r.2.1, .err err)
    | .ok (.ok f) =>
      match f.oldSess with
      | some k =>
        let d := decideFate e false (jooldCb r.1 s k) r.1 k
        .ok (d.t, r.2.1 ++ d.ev, .done)
      | none =>
        match s.timer with
        | none => .ok (r.1, r.2.1, .err .EINVAL)
        | some τ =>
          match f.oldBib with
          | .dangling => .ub .useAfterFree
          | .live b => .ok (addSessSlow r.1 ⟨b, f.dst4⟩ s τ, r.2.1, .done)
          | .null =>
            let b : BibKey := ⟨s.src6, f.src4⟩
            .ok (addSessSlow (addBib r.1 b false) ⟨b, f.dst4⟩ s τ, r.2.1, .done)

/-- The callback of each expiration list (mod/db/bib/db.c:370-376, 397-399). -/
def expireCb (now : Nat) : Proto → TimerType → SessCtl → SessCtl × Fate
  | .TCP, .EST => TcpSM.estExpireCb now
  | _, _ => TcpSM.justDie

/-- mod/db/bib/db.c:1987-1995, the loop of `__clean` over the remaining part of the list. -/
def cleanLoop (e : Env) (p : Proto) (τ : TimerType) (t : Table) : List SessKey → Table × List Event
  | [] => (t, [])
  | k :: ks =>
    if e.now < (t.info k).updateTime + getTimeout e.cfg p τ then (t, [])
    else
      let d := decideFate e true (expireCb e.now p τ) t k
      let r := cleanLoop e p τ d.t ks
      (r.1, d.ev ++ r.2)

/-- mod/db/bib/db.c:1973-1996 `__clean`. -/
def cleanList (e : Env) (p : Proto) (τ : TimerType) (t : Table) : Table × List Event :=
  cleanLoop e p τ t (t.lists τ)

/-- mod/db/bib/pkt_queue.c:194-215 `pktqueue_prepare_clean`: the expired head and the rest. -/
def queueClean (e : Env) : List QNode → List QNode × List QNode
  | [] => ([], [])
  | n :: ns =>
    if e.now < n.updateTime + e.cfg.ttlSyn4 then ([], n :: ns)
    else
      let r := queueClean e ns
      (n :: r.1, r.2)

/-- mod/db/bib/db.c:1998-2015 `clean_table`. -/
def clean (e : Env) (p : Proto) (t : Table) : Step :=
  let r1 := cleanList e p .EST t
  let r2 := cleanList e p .TRANS r1.1
  let r3 := cleanList e p .SYN4 r2.1
  if p = .TCP then
    let q := queueClean e r3.1.queue
    let t := { r3.1 with queue := q.2, pktCount := r3.1.pktCount - q.1.length }
    .ok (t, r1.2 ++ r2.2 ++ r3.2 ++ q.1.map (fun n => .icmpErr n.skb), .done)
  else .ok (r3.1, r1.2 ++ r2.2 ++ r3.2, .done)

/-- mod/db/bib/db.c:2253-2313 `__bib_add_static`. Lines 2296-2297: the stored type-1 packets of
the address are freed, `pkt_count` is not updated. -/
def addStatic (e : Env) (p : Proto) (t : Table) (b : BibKey) : Step :=
  if e.oom.new then .ok (t, [], .err .ENOMEM)
  else match find6 t b.src6 with
    | some c =>
      if b.src4 = c.src4 then .ok ({ t with isStatic := upd t.isStatic c true }, [], .done)
      else .ok (t, [], .err .EEXIST)
    | none =>
      match find4 t b.src4 with
      | some _ => .ok (t, [], .err .EEXIST)
      | none =>
        let t := addBib t b true
        if p = .TCP then
          -- pktqueue_rm (pkt_queue.c:134-151)
          let gone := t.queue.filter (fun n => decide (n.src4 = b.src4))
          .ok ({ t with queue := t.queue.filter (fun n => !decide (n.src4 = b.src4)) },
               gone.map (fun n => .freed n.skb), .done)
        else .ok (t, [], .done)

/-- mod/db/bib/db.c:2337-2364 `bib_rm`. -/
def rmBib (t : Table) (b : BibKey) : Step :=
  match find6 t b.src6 with
  | none => .ok (t, [], .err .ESRCH)
  | some c =>
    if b.src4 = c.src4 then
      let r := detachBib t c
      .ok (r.1, r.2, .done)
    else .ok (t, [], .err .ESRCH)

/-- mod/db/bib/db.c:2028-2056 `find_starting_point`: the part of the in-order sequence of `tree4`
that remains to be visited (see `RbTree.startingPoint_correct`). -/
def startingPoint (tree4 : List BibKey) (offset : Option T4) (incl : Bool) : List BibKey :=
  match offset with
  | none => tree4
  | some o =>
    if incl then tree4.dropWhile (fun b => decide (key4 b < o.key))
    else tree4.dropWhile (fun b => decide (key4 b ≤ o.key))

/-- `struct ipv4_range` (src/common/types.h:201-204). -/
structure Range4 where
  pfx : Prefix4
  min : BitVec 16
  max : BitVec 16
deriving DecidableEq, Repr, Inhabited

/-- mod/db/bib/db.c:2386-2396, the loop of `bib_rm_range`. -/
def rmRangeLoop (r : Range4) (t : Table) : List BibKey → Table × List Event
  | [] => (t, [])
  | b :: bs =>
    if !prefix4Contains r.pfx b.src4.addr then (t, [])
    else if decide (r.min.toNat ≤ b.src4.port.toNat) && decide (b.src4.port.toNat ≤ r.max.toNat) then
      let d := detachBib t b
      let l := rmRangeLoop r d.1 bs
      (l.1, d.2 ++ l.2)
    else rmRangeLoop r t bs

/-- mod/db/bib/db.c:2366-2401 `bib_rm_range`. -/
def rmRange (t : Table) (r : Range4) : Step :=
  let l := rmRangeLoop r t (startingPoint t.tree4 (some ⟨r.pfx.addr, r.min⟩) true)
  .ok (l.1, l.2, .done)

/-- mod/db/bib/db.c:2403-2420 `flush_table`. -/
def flush (t : Table) : Step :=
  let l := t.tree4.foldl (fun (acc : Table × List Event) b =>
    let d := detachBib acc.1 b
    (d.1, acc.2 ++ d.2)) (t, [])
  .ok (l.1, l.2, .done)

/-! ### Histories -/

inductive Op
  | add6 (masks : Masks) (src6 dst6 : T6) (dst4 : T4)
  | add4 (src4 dst4 : T4) (dst6 : T6)
  | tcp6 (masks : Masks) (seg : Seg) (src6 dst6 : T6) (dst4 : T4)
  | tcp4 (seg : Seg) (src4 dst4 : T4) (dst6 : T6) (skb : Nat)
  | joold (s : SessEntry)
  | clean
  | addStatic (b : BibKey)
  | rm (b : BibKey)
  | rmRange (r : Range4)
  | flush

/-- One operation on the table of protocol `p` (`get_table`, mod/db/bib/db.c:287-302, picks the
table). `add6`/`add4` are only called for UDP and ICMP and `tcp6`/`tcp4` for TCP
(filtering_and_updating.c:541-583); other combinations are not operations. -/
def step (p : Proto) (t : Table) (e : Env) : Op → Step
  | .add6 m s6 d6 d4 => if p = .TCP then .ok (t, [], .done) else add6 e p t m s6 d6 d4
  | .add4 s4 d4 d6 => if p = .TCP then .ok (t, [], .done) else add4 e t s4 d4 d6
  | .tcp6 m sg s6 d6 d4 => if p = .TCP then tcp6 e t m sg s6 d6 d4 else .ok (t, [], .done)
  | .tcp4 sg s4 d4 d6 skb => if p = .TCP then tcp4 e t sg s4 d4 d6 skb else .ok (t, [], .done)
  | .joold s => jooldAdd e p t s
  | .clean => clean e p t
  | .addStatic b => addStatic e p t b
  | .rm b => rmBib t b
  | .rmRange r => rmRange t r
  | .flush => flush t

/-- A history; the events of all operations are concatenated. -/
def run (p : Proto) (t : Table) : List (Env × Op) → Outcome (Table × List Event)
  | [] => .ok (t, [])
  | (e, o) :: rest =>
    match step p t e o with
    | .ub u => .ub u
    | .ok r =>
      match run p r.1 rest with
      | .ub u => .ub u
      | .ok q => .ok (q.1, r.2.1 ++ q.2)

end Jool.Bib
