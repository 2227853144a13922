import Verif.Model.Types
/-
The kernel modules: `jool_common.ko` (src/mod/common/init.c), `jool.ko` (src/mod/nat64/jool.c) and `jool_siit.ko` (src/mod/siit/jool_siit.c): what inserting, removing,
failing halfway, creating and deleting instances, packets, timers and namespaces acquire and release.

Each thing that has to be given back (memory, caches, timers, registrations) is a `Res`. Releasing or using one that is not there is undefined behaviour.

Simplified: the replacement of instances (`xlator_replace`: Model/Xlator.lean) is left out; a candidate of an atomic configuration is created and destroyed
only. `kref`s of databases that packets take and return are left out: a packet is one step.
-/
namespace Jool.Mods

/-- src/common/config.h `xlator_type`. -/
inductive Xt | siit | nat64
deriving DecidableEq, Repr, Inhabited

/-- What an instance (or candidate) consists of. `queue`: mod/db/bib/pkt_queue.c. `ops`: the copy of `netfilter_hooks`. `hooks`: their registration. -/
inductive Kind | inst | cand | stats | eamt | deny | pool4 | bib | queue | joold | ops | hooks
deriving DecidableEq, Repr, Inhabited

inductive Res
  | key | shash | timer | xlations | list | family
  | bibs | sessions | deferred
  | pernet (x : Xt) | targets (x : Xt)
  | obj (id : Nat) (k : Kind)
deriving DecidableEq, Repr, Inhabited

/-- mod/xlator.c:41-65. `nf`: XF_NETFILTER. -/
structure Inst where
  id : Nat
  ns : Nat
  xt : Xt
  name : Nat
  nf : Bool
deriving DecidableEq, Repr, Inhabited

structure St where
  held : List Res
  /-- Addresses that `kmalloc` has not returned yet. -/
  next : Nat
  core : Bool
  /-- Is `jool.ko`, `jool_siit.ko` inserted? `some b`: yes; `b`: `!iptables_error`. -/
  ins : Xt → Option Bool
  /-- mod/init.c:20-21 `siit_refs`, `nat64_refs`. -/
  refs : Xt → Nat
  /-- iptables rules with a target of the module. -/
  rules : Xt → Nat
  nss : List Nat
  insts : List Inst
  cands : List Inst
  /-- mod/xlator.c:71 `defrag_enable`: which insertion of `jool.ko` the function belongs to. -/
  defrag : Option Nat
  gen : Nat
  /-- A netlink request that `validate_stateness` let through, and that is not over. -/
  req : Option Xt

def init : St := ⟨[], 0, false, fun _ => none, fun _ => 0, fun _ => 0, [0], [], [], none, 0, none⟩

/-- Which acquisitions fail. -/
abbrev Fail := Res → Bool

def St.put (s : St) (r : Res) : St := { s with held := r :: s.held }
def St.free (s : St) (r : Res) : Outcome St := if r ∈ s.held then .ok { s with held := s.held.erase r } else .ub .useAfterFree
def St.use (s : St) (r : Res) : Outcome St := if r ∈ s.held then .ok s else .ub .useAfterFree

/-- A list of things is given back, in this order. -/
def frees : List Res → St → Outcome St
  | [], s => .ok s
  | r :: t, s => (s.free r).bind (frees t)

def uses : List Res → St → Outcome St
  | [], s => .ok s
  | r :: t, s => (s.use r).bind (uses t)

/-! ## jool_common.ko -/

/-- mod/db/pool4/rfc6056.c:83-105 `rfc6056_setup`. The answer: did it work? -/
def rfc6056Setup (f : Fail) (s : St) : Outcome (Bool × St) :=
  if f .key then .ok (false, s)
  else if f .shash then ((s.put .key).free .key).map (false, ·)
  else .ok (true, (s.put .key).put .shash)

/-- mod/db/pool4/rfc6056.c:107-111. -/
def rfc6056Teardown (s : St) : Outcome St := frees [.shash, .key] s

/-- mod/timer.c:47-59. It cannot fail. -/
def jtimerSetup (s : St) : Bool × St := (true, s.put .timer)

/-- mod/timer.c:64-71. -/
def jtimerTeardown (s : St) : Outcome St := s.free .timer

/-- mod/translation_state.c:7-12. -/
def xlationSetup (f : Fail) (s : St) : Bool × St := if f .xlations then (false, s) else (true, s.put .xlations)

/-- mod/translation_state.c:14-17. -/
def xlationTeardown (s : St) : Outcome St := s.free .xlations

/-- mod/xlator.c:228-239. -/
def xlatorSetup (f : Fail) (s : St) : Bool × St := if f .list then (false, s) else (true, s.put .list)

/-- mod/xlator.c:250-258. -/
def xlatorTeardown (s : St) : Outcome St := s.free .list

/-- mod/nl/nl_handler.c:244-248, mod/error_pool.c:28-31: the error pool acquires nothing. -/
def nlSetup (f : Fail) (s : St) : Bool × St := if f .family then (false, s) else (true, s.put .family)

/-- mod/nl/nl_handler.c:250-254. -/
def nlTeardown (s : St) : Outcome St := s.free .family

/-- mod/init.c:57-66: the labels `nlhandler_fail`, `xlator_fail`, `xlation_fail`, `jtimer_fail`. -/
def failTimer (s : St) : Outcome St := rfc6056Teardown s
def failXlation (s : St) : Outcome St := (jtimerTeardown s).bind failTimer
def failXlator (s : St) : Outcome St := (xlationTeardown s).bind failXlation
def failNl (s : St) : Outcome St := (xlatorTeardown s).bind failXlator

/-- mod/init.c:24-67 `setup_common_modules`. -/
def setupCommon (f : Fail) (s : St) : Outcome (Bool × St) :=
  (rfc6056Setup f s).bind fun (ok, s) => if ok = false then .ok (false, s) else
  let (ok, s) := jtimerSetup s
  if ok = false then (failTimer s).map (false, ·) else
  let (ok, s) := xlationSetup f s
  if ok = false then (failXlation s).map (false, ·) else
  let (ok, s) := xlatorSetup f s
  if ok = false then (failXlator s).map (false, ·) else
  let (ok, s) := nlSetup f s
  if ok = false then (failNl s).map (false, ·) else
  .ok (true, s)

/-! ## Instances and candidates -/

/-- mod/db/bib/db.c:316-334 `bib_setup`. -/
def bibSetup (f : Fail) (s : St) : Outcome (Bool × St) :=
  if f .bibs then .ok (false, s)
  else if f .sessions then ((s.put .bibs).free .bibs).map (false, ·)
  else .ok (true, (s.put .bibs).put .sessions)

/-- Is there an object in the caches of BIB entries and sessions, or in that of joold? Every BIB may have some. -/
def St.anyOf (s : St) (k : Kind) : Bool := s.held.any fun | .obj _ k' => k' == k | _ => false

/-- mod/db/bib/db.c:336-345 `bib_teardown`. `kmem_cache_destroy` of a cache with objects: they dangle. -/
def bibTeardown (s : St) : Outcome St :=
  if .bibs ∈ s.held then if s.anyOf .bib then .ub .useAfterFree else frees [.bibs, .sessions] s
  else .ok s

/-- mod/joold.c:80-86 `joold_teardown`. -/
def jooldTeardown (s : St) : Outcome St :=
  if .deferred ∈ s.held then if s.anyOf .joold then .ub .useAfterFree else s.free .deferred
  else .ok s

/-- mod/db/bib/db.c:381-415 `bib_alloc`, behind the creation of the caches. `created`: `cache_created`. -/
def bibAllocRest (f : Fail) (id : Nat) (created : Bool) (s : St) : Outcome (Bool × St) :=
  if f (.obj id .bib) then (if created then bibTeardown s else .ok s).map (false, ·)
  else
    let s := s.put (.obj id .bib)
    if f (.obj id .queue) then (s.free (.obj id .bib)).bind fun s => (if created then bibTeardown s else .ok s).map (false, ·)
    else .ok (true, s.put (.obj id .queue))

def bibAlloc (f : Fail) (id : Nat) (s : St) : Outcome (Bool × St) :=
  if .bibs ∈ s.held then bibAllocRest f id false s
  else (bibSetup f s).bind fun (ok, s) => if ok = false then .ok (false, s) else bibAllocRest f id true s

/-- mod/db/bib/db.c:442-468 `bib_put`, `bib_release`. Entries and sessions go back to their caches. -/
def bibPut (id : Nat) (s : St) : Outcome St := (uses [.bibs, .sessions] s).bind (frees [.obj id .queue, .obj id .bib])

/-- mod/joold.c:277-304 `joold_alloc`. -/
def jooldAllocRest (f : Fail) (id : Nat) (created : Bool) (s : St) : Outcome (Bool × St) :=
  if f (.obj id .joold) then (if created then jooldTeardown s else .ok s).map (false, ·) else .ok (true, s.put (.obj id .joold))

def jooldAlloc (f : Fail) (id : Nat) (s : St) : Outcome (Bool × St) :=
  if .deferred ∈ s.held then jooldAllocRest f id false s
  else if f .deferred then .ok (false, s) else jooldAllocRest f id true (s.put .deferred)

/-- mod/joold.c:319-322 `joold_put`. -/
def jooldPut (id : Nat) (s : St) : Outcome St := (s.use .deferred).bind (·.free (.obj id .joold))

/-- An allocation that is one object. -/
def alloc (f : Fail) (id : Nat) (k : Kind) (s : St) : Bool × St := if f (.obj id k) then (false, s) else (true, s.put (.obj id k))

/-- mod/xlator.c:282-288: the labels of `init_siit`. -/
def failStats (id : Nat) (s : St) : Outcome St := s.free (.obj id .stats)
def failDeny (id : Nat) (s : St) : Outcome St := (s.free (.obj id .eamt)).bind (failStats id)

/-- mod/xlator.c:260-288 `init_siit`. -/
def initSiit (f : Fail) (id : Nat) (s : St) : Outcome (Bool × St) :=
  let (ok, s) := alloc f id .stats s
  if ok = false then .ok (false, s) else
  let (ok, s) := alloc f id .eamt s
  if ok = false then (failStats id s).map (false, ·) else
  let (ok, s) := alloc f id .deny s
  if ok = false then (failDeny id s).map (false, ·) else
  .ok (true, s)

/-- mod/xlator.c:315-323: the labels of `init_nat64`. -/
def failBib (id : Nat) (s : St) : Outcome St := (s.free (.obj id .pool4)).bind (failStats id)
def failJoold (id : Nat) (s : St) : Outcome St := (bibPut id s).bind (failBib id)

/-- mod/xlator.c:290-323 `init_nat64`. -/
def initNat64 (f : Fail) (id : Nat) (s : St) : Outcome (Bool × St) :=
  let (ok, s) := alloc f id .stats s
  if ok = false then .ok (false, s) else
  let (ok, s) := alloc f id .pool4 s
  if ok = false then (failStats id s).map (false, ·) else
  (bibAlloc f id s).bind fun (ok, s) => if ok = false then (failBib id s).map (false, ·) else
  (jooldAlloc f id s).bind fun (ok, s) => if ok = false then (failJoold id s).map (false, ·) else
  .ok (true, s)

/-- mod/xlator.c:325-349 `xlator_init`, with valid flags and prefix. -/
def xlatorInit (f : Fail) (id : Nat) : Xt → St → Outcome (Bool × St)
  | .siit, s => initSiit f id s
  | .nat64, s => initNat64 f id s

/-- mod/xlator.c:865-889 `xlator_put`. -/
def xlatorPut (id : Nat) : Xt → St → Outcome St
  | .siit, s => frees [.obj id .stats, .obj id .eamt, .obj id .deny] s
  | .nat64, s => (frees [.obj id .stats, .obj id .pool4] s).bind fun s => (bibPut id s).bind (jooldPut id)

/-- mod/xlator.c:114-128 `destroy_jool_instance`. `kfree(NULL)` is fine: `nf_ops` may not be set yet. -/
def destroy (i : Inst) (unhook : Bool) (s : St) : Outcome St :=
  (if i.nf then
    (if unhook then s.free (.obj i.id .hooks) else .ok s).bind fun s => if .obj i.id .ops ∈ s.held then s.free (.obj i.id .ops) else .ok s
  else .ok s).bind fun s => (xlatorPut i.id i.xt s).bind (·.free (.obj i.id .inst))

/-- Deletes instances that are not listed any more. -/
def destroys : List Inst → St → Outcome St
  | [], s => .ok s
  | i :: t, s => (destroy i true s).bind (destroys t)

/-- mod/xlator.c:147-202 `__flush_detach`, `__flush_delete`, `jool_xlator_flush_net`. -/
def flushNet (ns : Nat) (x : Xt) (s : St) : Outcome St :=
  destroys (s.insts.filter fun i => i.ns = ns ∧ i.xt = x) { s with insts := s.insts.filter fun i => ¬ (i.ns = ns ∧ i.xt = x) }

/-- mod/xlator.c:211-222 `jool_xlator_flush_batch`. -/
def flushBatch (nss : List Nat) (x : Xt) (s : St) : Outcome St :=
  destroys (s.insts.filter fun i => i.ns ∈ nss ∧ i.xt = x) { s with insts := s.insts.filter fun i => ¬ (i.ns ∈ nss ∧ i.xt = x) }

def flushNets : List Nat → Xt → St → Outcome St
  | [], _, s => .ok s
  | n :: t, x, s => (flushNet n x s).bind (flushNets t x)

/-- mod/atomic_config.c:49-56 `candidate_destroy`. -/
def candDestroy (i : Inst) (s : St) : Outcome St :=
  (xlatorPut i.id i.xt s).bind fun s => { s with cands := s.cands.erase i }.free (.obj i.id .cand)

/-- mod/atomic_config.c:58-65 `atomconfig_teardown`. -/
def candsDestroy : List Inst → St → Outcome St
  | [], s => .ok s
  | i :: t, s => (candDestroy i s).bind (candsDestroy t)

/-- mod/init.c:69-87 `teardown_common_modules`. -/
def teardownCommon (s : St) : Outcome St :=
  (nlTeardown s).bind fun s => (xlatorTeardown s).bind fun s => (xlationTeardown s).bind fun s => (candsDestroy s.cands s).bind fun s =>
  (jtimerTeardown s).bind fun s => (rfc6056Teardown s).bind fun s => (jooldTeardown s).bind bibTeardown

/-! ## jool.ko and jool_siit.ko -/

def set {α : Type} (g : Xt → α) (x : Xt) (v : α) : Xt → α := fun y => if y = x then v else g y

/-- mod/init.c:89-116 `jool_siit_get`, `jool_nat64_get`; mod/xlator.c:241-244. -/
def get (x : Xt) (s : St) : St :=
  let s' := { s with refs := set s.refs x (s.refs x + 1) }
  if x = .nat64 ∧ s'.refs x = 1 then { s' with defrag := some s.gen } else s'

/-- mod/init.c:98-125 `jool_siit_put`, `jool_nat64_put`. -/
def ungot (x : Xt) (s : St) : St := if s.refs x = 0 then s else { s with refs := set s.refs x (s.refs x - 1) }

/-- src/mod/nat64/jool.c:83-118 `nat64_init`, src/mod/siit/jool_siit.c:56-90 `siit_init`. The namespaces that exist have no instances. Failing: `register_pernet_subsys`, and
`xt_register_targets` (without consequences). -/
def insert (x : Xt) (f : Fail) (s : St) : St :=
  if f (.pernet x) then s
  else
    let s := s.put (.pernet x)
    let t := !f (.targets x)
    let s := if t then s.put (.targets x) else s
    get x { s with ins := set s.ins x (some t), gen := if x = .nat64 then s.gen + 1 else s.gen }

/-- src/mod/nat64/jool.c:120-129 `nat64_exit`, src/mod/siit/jool_siit.c:92-101 `siit_exit`. `unregister_pernet_subsys` calls `flush_net` for each namespace and then `flush_batch`
for all of them (Linux: net/core/net_namespace.c). -/
def remove (x : Xt) (s : St) : Outcome St :=
  let s := ungot x s
  (if s.ins x = some true then s.free (.targets x) else .ok s).bind fun s =>
  (flushNets s.nss x s).bind fun s => (flushBatch s.nss x s).bind fun s => (s.free (.pernet x)).map fun s => { s with ins := set s.ins x none }

/-! ## Requests, packets, timers, namespaces -/

/-- mod/xlator.c:427-471 `__xlator_add`. The call of `defrag_enable` is undefined if its module is gone. -/
def xlatorAddHook (i : Inst) (f : Fail) (s : St) : Outcome (Bool × St) :=
  if i.nf then
    if f (.obj i.id .ops) then .ok (false, s)
    else if f (.obj i.id .hooks) then ((s.put (.obj i.id .ops)).free (.obj i.id .ops)).map (false, ·)
    else .ok (true, (s.put (.obj i.id .ops)).put (.obj i.id .hooks))
  else .ok (true, s)

def callDefrag (i : Inst) (s : St) : Outcome St :=
  if i.xt = .nat64 then
    if s.defrag = some s.gen ∧ s.ins .nat64 ≠ none then .ok s else .ub .useAfterFree
  else .ok s

/-- mod/xlator.c:399-422 `validate_collision`. -/
def collides (s : St) (i : Inst) : Bool := s.insts.any fun j => j.ns = i.ns ∧ j.xt = i.xt ∧ (j.name = i.name ∨ (i.nf ∧ j.nf))

/-- mod/xlator.c:479-541 `xlator_add`, for a valid name and prefix. -/
def add (i : Inst) (f : Fail) (s : St) : Outcome St :=
  let (ok, s) := alloc f i.id .inst s
  if ok = false then .ok s else
  (xlatorInit f i.id i.xt s).bind fun (ok, s) =>
  if ok = false then s.free (.obj i.id .inst) else
  if collides s i then destroy i false s else
  (xlatorAddHook i f s).bind fun (ok, s) =>
  if ok = false then destroy i false s else
  if i.nf then (s.use .list).bind fun s => callDefrag i { s with insts := i :: s.insts } else callDefrag i { s with insts := i :: s.insts }

/-- mod/xlator.c:543-574 `__xlator_rm`. -/
def rm (ns name : Nat) (x : Xt) (s : St) : Outcome St :=
  match s.insts.find? fun i => i.ns = ns ∧ i.xt = x ∧ i.name = name with
  | none => .ok s
  | some i => destroy i true { s with insts := s.insts.erase i }

/-- mod/atomic_config.c:136-171 `handle_init`. -/
def candidate (i : Inst) (f : Fail) (s : St) : Outcome St :=
  let (ok, s) := alloc f i.id .cand s
  if ok = false then .ok s else
  (xlatorInit f i.id i.xt s).bind fun (ok, s) =>
  if ok = false then s.free (.obj i.id .cand) else .ok { s with cands := i :: s.cands }

/-- What a packet or a request needs of an instance. -/
def content (i : Inst) : List Res :=
  match i.xt with
  | .siit => [.obj i.id .inst, .obj i.id .stats, .obj i.id .eamt, .obj i.id .deny]
  | .nat64 => [.obj i.id .inst, .obj i.id .stats, .obj i.id .pool4, .obj i.id .bib, .obj i.id .queue, .obj i.id .joold, .bibs, .sessions, .deferred, .key, .shash]

def useInsts : List Inst → St → Outcome St
  | [], s => .ok s
  | i :: t, s => (uses (content i) s).bind (useInsts t)

/-- mod/timer.c:28-43 `timer_function`: `bib_clean` and `joold_clean` of each NAT64 instance. -/
def tick (s : St) : Outcome St := if .timer ∈ s.held then useInsts (s.insts.filter fun i => i.xt = .nat64) s else .ok s

/-- mod/kernel_hook_netfilter.c:39-108: a packet arrives in a namespace. Some instance's hooks are registered there; the code allocates its state, and walks the list to find
one. -/
def hook (i : Inst) (s : St) : Outcome St :=
  if .obj i.id .hooks ∈ s.held then
    if s.core then (uses [.xlations, .list] s).bind (useInsts (s.insts.filter fun j => j.ns = i.ns ∧ j.nf)) else .ub .useAfterFree
  else .ok s

/-- mod/kernel_hook_iptables.c:90-148: a packet reaches a rule. -/
def target (x : Xt) (ns : Nat) (s : St) : Outcome St :=
  if s.rules x = 0 then .ok s
  else if s.core = true ∧ s.ins x ≠ none then (s.use .xlations).bind (useInsts (s.insts.filter fun j => j.ns = ns ∧ j.xt = x ∧ j.nf = false)) else .ub .useAfterFree

inductive Op
  | insertCore (f : Fail) | removeCore | insert (x : Xt) (f : Fail) | remove (x : Xt)
  | rule (x : Xt) | unrule (x : Xt)
  | newNs (n : Nat) | exitNs (n : Nat)
  | start (x : Xt) | add (ns name : Nat) (nf : Bool) (f : Fail) | rm (ns name : Nat) | flush (ns : Nat) | candidate (ns name : Nat) (nf : Bool) (f : Fail)
  | expire (i : Inst) | done
  | tick | hook (i : Inst) | target (x : Xt) (ns : Nat)

/-- mod/nl/nl_common.c:34-51 `validate_stateness`. -/
def start (x : Xt) (s : St) : St := if s.core ∧ s.req = none ∧ s.refs x ≠ 0 then { s with req := some x } else s

/-- What the requests may do once they are let through, in a namespace that exists (the client lives in it). -/
def request (ns : Nat) (s : St) (go : Xt → Outcome St) : Outcome St :=
  match s.req with
  | some x => if ns ∈ s.nss then go x else .ok s
  | none => .ok s

/-- What happens. The kernel refuses to insert what is inserted, and to remove what others need: `jool_common.ko` while another module is inserted (symbols) or a request is
being handled (`genl_unregister_family` waits), `jool.ko` and `jool_siit.ko` while iptables rules have their targets. A namespace does not cease while a client in it is being served. -/
def step (s : St) : Op → Outcome St
  | .insertCore f => if s.core then .ok s else (setupCommon f s).map fun (ok, s) => { s with core := ok }
  | .removeCore => if s.core = true ∧ s.ins .siit = none ∧ s.ins .nat64 = none ∧ s.req = none then (teardownCommon s).map ({ · with core := false }) else .ok s
  | .insert x f => if s.core = true ∧ s.ins x = none then .ok (insert x f s) else .ok s
  | .remove x => if s.ins x ≠ none ∧ s.rules x = 0 then remove x s else .ok s
  | .rule x => if s.ins x = some true then .ok { s with rules := set s.rules x (s.rules x + 1) } else .ok s
  | .unrule x => .ok { s with rules := set s.rules x (s.rules x - 1) }
  | .newNs n => if n ∈ s.nss then .ok s else .ok { s with nss := n :: s.nss }
  | .exitNs n => if n ∈ s.nss ∧ s.req = none then
      ((if s.ins .siit ≠ none then (flushNet n .siit s).bind (flushBatch [n] .siit) else .ok s).bind fun s =>
        if s.ins .nat64 ≠ none then (flushNet n .nat64 s).bind (flushBatch [n] .nat64) else .ok s).map fun s => { s with nss := s.nss.filter (· ≠ n) }
    else .ok s
  | .start x => .ok (start x s)
  | .add ns name nf f => request ns s fun x => add ⟨s.next, ns, x, name, nf⟩ f { s with next := s.next + 1 }
  | .rm ns name => request ns s fun x => rm ns name x s
  | .flush ns => request ns s fun x => flushNet ns x s
  | .candidate ns name nf f => request ns s fun x => candidate ⟨s.next, ns, x, name, nf⟩ f { s with next := s.next + 1 }
  | .expire i => if s.req ≠ none ∧ i ∈ s.cands then candDestroy i s else .ok s
  | .done => .ok { s with req := none }
  | .tick => tick s
  | .hook i => hook i s
  | .target x ns => target x ns s

def run (s : St) : List Op → Outcome St
  | [] => .ok s
  | o :: t => (step s o).bind fun s => run s t

end Jool.Mods
