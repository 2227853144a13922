import Verif.Model.Xlator
/-
Model of the loading of configuration files: `src/mod/common/atomic_config.c`. (`mod/` abbreviates
`src/mod/common/`.)

A client loads a file by a series of requests. They fill a candidate, which is a copy of an instance
(`Jool.Xlator.World.clones`) that has databases of its own. The last request turns the candidate into the
running instance.

`data` says what is in each database. What the sections of a request do to the databases (`eamt_add`,
`pool4db_add`, …) is a parameter: any function that may change the contents and may fail. Requests are
handled one at a time: the mutex of atomic_config.c, and `parallel_ops = false` in mod/nl/nl_handler.c.
In between, everything else can happen: other requests, packets, and grace periods (`Op.sys`), and changes to
the databases of running instances (`Op.write`).

Simplifications: `get_net_ns_by_pid` does not fail; a namespace is a number that is not reused (the candidate has
only a pointer to its namespace); `jiffies` is constant during one request and has 64 bits; the settings'
effect on joold is left out.
-/
namespace Jool.Atomic

open Xlator

/-- mod/atomic_config.c:28-38 `struct config_candidate`. `clone`: its copy of an instance. -/
structure Cand where
  clone : Nat
  time : BitVec 64
  pid : Nat
deriving DecidableEq, Repr, Inhabited

structure St (D : Type) where
  w : World
  /-- `db` -/
  cands : List Cand
  /-- the contents of the databases -/
  data : Nat → D
  /-- references to namespaces that were taken and not returned -/
  nsRefs : Nat

/-- The constants of a system. `timeout`: mod/atomic_config.c:45; `dflt`: `globals_init` without pool6
(mod/db/global.c); `bibOk pool4 bib`: mod/xlator.c:622-642; `empty`: a new database. -/
structure Sys (D : Type) where
  H : Hash
  timeout : BitVec 64
  dflt : Flags → Glob
  bibOk : D → D → Bool
  empty : D

/-- A request. The sections are the functions that its attributes amount to. -/
structure Req (D : Type) where
  ns : Ns
  pid : Nat
  name : Name
  xt : Flags
  env : Env
  now : BitVec 64
  /-- `JNLAR_ATOMIC_INIT` -/
  init : Option Flags
  globals : Option (Flags → Glob → Glob × Bool)
  deny : Option (D → D × Bool)
  eamt : Option (D → D × Bool)
  pool4 : Option (D → D × Bool)
  bib : Option (D → D → D × Bool)
  /-- `JNLAR_ATOMIC_END` -/
  fin : Bool

variable {D : Type}

def St.xl (s : St D) (k : Nat) : Option Xl := (s.w.clones.find? (·.1 == k)).map (·.2)

/-- mod/xlator.h:85-88 `xlator_is_siit`. -/
def isSiit (f : Flags) : Bool := f &&& 1 != 0

/-- mod/atomic_config.c:50-57 `candidate_destroy`. -/
def destroyCand (k : Nat) (s : St D) : Outcome (St D) :=
  (put k s.w).map fun w => { s with w := w, cands := s.cands.eraseP (·.clone == k) }

/-- mod/atomic_config.c:59-66 `atomconfig_teardown`. -/
def teardown : List Cand → St D → Outcome (St D)
  | [], s => .ok s
  | c :: cs, s => (destroyCand c.clone s).bind (teardown cs)

/-- `time_after(jiffies, candidate->update_time + TIMEOUT)` (mod/atomic_config.c:98). -/
def expired (sys : Sys D) (now time : BitVec 64) : Bool := (time + sys.timeout - now).slt 0

/-- mod/atomic_config.c:106-134 `get_candidate`. The namespace is not returned if there is no candidate
(132-133). -/
def getCand (sys : Sys D) (r : Req D) : List Cand → St D → Outcome (St D × Option Nat)
  | [], s => .ok ({ s with nsRefs := s.nsRefs + 1 }, none)
  | c :: cs, s =>
    match s.xl c.clone with
    | none => .ub .useAfterFree
    | some x =>
      if x.ns == r.ns && x.name == r.name && c.pid == r.pid then .ok (s, some c.clone)
      else if expired sys r.now c.time then (destroyCand c.clone s).bind (getCand sys r cs)
      else getCand sys r cs s

/-- mod/atomic_config.c:136-171 `handle_init`. -/
def handleInit (sys : Sys D) (r : Req D) (f : Flags) (s : St D) : Outcome (St D × Code × Option Nat) :=
  (step sys.H s.w (.init r.env r.ns (f ||| r.xt) r.name (sys.dflt (xtOf (f ||| r.xt))))).map fun (w, code) =>
    if code = .ok then
      ({ s with w := w, cands := ⟨s.w.next, r.now, r.pid⟩ :: s.cands }, .ok, some s.w.next)
    else ({ s with w := w }, code, none)

/-- mod/atomic_config.c:173-180 `handle_global`. -/
def handleGlobal (sys : Sys D) (k : Nat) (f : Flags → Glob → Glob × Bool) (s : St D) : Outcome (St D × Code) :=
  match s.xl k with
  | none => .ub .useAfterFree
  | some x =>
    (step sys.H s.w (.edit k (f (xtOf x.flags) x.globals).1)).map fun (w, _) =>
      ({ s with w := w }, if (f (xtOf x.flags) x.globals).2 then .ok else .EINVAL)

def St.set (s : St D) (o : Nat) (d : D) : St D := { s with data := fun i => if i = o then d else s.data i }

/-- mod/atomic_config.c:212-238 `handle_denylist4`. -/
def handleDeny (k : Nat) (f : D → D × Bool) (s : St D) : Outcome (St D × Code) :=
  match s.xl k with
  | none => .ub .useAfterFree
  | some x =>
    if isNat64 x.flags then .ok (s, .EINVAL)
    else .ok (s.set x.b (f (s.data x.b)).1, if (f (s.data x.b)).2 then .ok else .EINVAL)

/-- mod/atomic_config.c:182-210 `handle_eamt`. -/
def handleEamt (k : Nat) (f : D → D × Bool) (s : St D) : Outcome (St D × Code) :=
  match s.xl k with
  | none => .ub .useAfterFree
  | some x =>
    if isNat64 x.flags then .ok (s, .EINVAL)
    else .ok (s.set x.a (f (s.data x.a)).1, if (f (s.data x.a)).2 then .ok else .EINVAL)

/-- mod/atomic_config.c:240-268 `handle_pool4`. -/
def handlePool4 (k : Nat) (f : D → D × Bool) (s : St D) : Outcome (St D × Code) :=
  match s.xl k with
  | none => .ub .useAfterFree
  | some x =>
    if isSiit x.flags then .ok (s, .EINVAL)
    else .ok (s.set x.a (f (s.data x.a)).1, if (f (s.data x.a)).2 then .ok else .EINVAL)

/-- mod/atomic_config.c:270-296 `handle_bib`. `bib_add_static` looks at pool4. -/
def handleBib (k : Nat) (f : D → D → D × Bool) (s : St D) : Outcome (St D × Code) :=
  match s.xl k with
  | none => .ub .useAfterFree
  | some x =>
    if isSiit x.flags then .ok (s, .EINVAL)
    else .ok (s.set x.b (f (s.data x.a) (s.data x.b)).1, if (f (s.data x.a) (s.data x.b)).2 then .ok else .EINVAL)

/-- mod/atomic_config.c:298-313 `commit`. -/
def commit (sys : Sys D) (r : Req D) (k : Nat) (s : St D) : Outcome (St D × Code) :=
  match s.xl k with
  | none => .ub .useAfterFree
  | some x =>
    (step sys.H s.w (.replace { r.env with bib := sys.bibOk (s.data x.a) (s.data x.b) } k)).bind fun (w, code) =>
      if code = .ok then (destroyCand k { s with w := w }).map (·, .ok)
      else .ok ({ s with w := w }, code)

/-- `if (info->attrs[…]) error = handle_…` -/
def opt {α : Type} (o : Option α) (f : α → St D → Outcome (St D × Code)) (s : St D) : Outcome (St D × Code) :=
  match o with
  | none => .ok (s, .ok)
  | some a => f a s

/-- `if (error) goto revert` -/
def andThen (o : Outcome (St D × Code)) (f : St D → Outcome (St D × Code)) : Outcome (St D × Code) :=
  o.bind fun (s, code) => if code = .ok then f s else .ok (s, code)

/-- mod/atomic_config.c:336-365: the sections. -/
def sections (sys : Sys D) (r : Req D) (k : Nat) (s : St D) : Outcome (St D × Code) :=
  andThen (andThen (andThen (andThen (opt r.globals (handleGlobal sys k) s)
    (opt r.deny (handleDeny k))) (opt r.eamt (handleEamt k))) (opt r.pool4 (handlePool4 k)))
    (opt r.bib (handleBib k))

/-- mod/atomic_config.c:330-334: find or create the candidate. -/
def select (sys : Sys D) (r : Req D) (s : St D) : Outcome (St D × Code × Option Nat) :=
  match r.init with
  | some f => handleInit sys r f s
  | none => (getCand sys r s.cands s).map fun
    | (s, none) => (s, .ESRCH, none)
    | (s, some k) => (s, .ok, some k)

/-- mod/atomic_config.c:315-365 and 370-371: `atomconfig_add` without the final assignment. The third component is the candidate. -/
def body (sys : Sys D) (r : Req D) (s : St D) : Outcome (St D × Code × Option Nat) :=
  if !nameValid r.name then .ok (s, .EINVAL, none)
  else
    (select sys r s).bind fun
    | (s, code, none) => .ok (s, code, none)
    | (s, _, some k) =>
      (andThen (sections sys r k s) (fun s => if r.fin then commit sys r k s else .ok (s, .ok))).bind fun (s, code) =>
        if code = .ok then .ok (s, .ok, some k)
        else (destroyCand k s).map (·, code, none)

/-- The memory of candidate `k` is written (mod/atomic_config.c:367). -/
def touch (now : BitVec 64) (k : Nat) (s : St D) : Outcome (St D) :=
  if s.cands.any (·.clone == k) then
    .ok { s with cands := s.cands.map fun c => if c.clone == k then { c with time := now } else c }
  else .ub .useAfterFree

/-- mod/atomic_config.c:315-374 `atomconfig_add`. -/
def request (sys : Sys D) (r : Req D) (s : St D) : Outcome (St D × Code) :=
  (body sys r s).bind fun
    | (s, code, none) => .ok (s, code)
    | (s, code, some k) => (touch r.now k s).map (·, code)

/-- The same with a harmless assignment: what happens when the memory of the candidate that was just released is still unused. -/
def requestLucky (sys : Sys D) (r : Req D) (s : St D) : Outcome (St D × Code) :=
  (body sys r s).map fun
    | (s, code, none) => (s, code)
    | (s, code, some k) =>
      ({ s with cands := s.cands.map fun c => if c.clone == k then { c with time := r.now } else c }, code)

/-- What can happen. -/
inductive AOp (D : Type)
  /-- a request to load a part of a file -/
  | req (r : Req D)
  /-- anything else that happens to instances -/
  | sys (o : Op)
  /-- the holder of a copy of an instance (a packet, a request) changes the `i`-th database -/
  | write (k : Nat) (i : Fin 4) (f : D → D)
  | teardown

/-- The copy that an operation is about. -/
def target : Op → Option Nat
  | .edit c _ => some c
  | .replace _ c => some c
  | .put c => some c
  | _ => none

def Xl.nth (x : Xl) : Fin 4 → Nat
  | 0 => x.stats
  | 1 => x.a
  | 2 => x.b
  | 3 => x.c

/-- Nobody else has the candidates' copies, so other operations that are about these do nothing. -/
def astep (sys : Sys D) (s : St D) : AOp D → Outcome (St D × Code)
  | .req r => requestLucky sys r s
  | .sys o =>
    if s.cands.any (fun c => target o == some c.clone) then .ok (s, .EINVAL)
    else (step sys.H s.w o).map fun (w, code) => ({ s with w := w }, code)
  | .write k i f =>
    if s.cands.any (fun c => c.clone == k) then .ok (s, .EINVAL)
    else
      match s.xl k with
      | none => .ok (s, .ESRCH)
      | some x =>
        if Xl.nth x i ∈ x.objs then .ok (s.set (Xl.nth x i) (f (s.data (Xl.nth x i))), .ok)
        else .ok (s, .EINVAL)
  | .teardown => (teardown s.cands s).map (·, .ok)

def arun (sys : Sys D) (s : St D) : List (AOp D) → Outcome (St D)
  | [] => .ok s
  | o :: ops => (astep sys s o).bind fun q => arun sys q.1 ops

def St.start (sys : Sys D) : St D := ⟨World.empty, [], fun _ => sys.empty, 0⟩

end Jool.Atomic
