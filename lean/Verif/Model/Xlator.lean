import Verif.Model.Types
/-
Model of the instance table: `src/mod/common/xlator.c`. (`mod/` abbreviates `src/mod/common/`.)

The state is everything that refers to an instance or to one of its databases: the table, the
instances that were taken out of it and await the end of a grace period, the read-side critical
sections in progress, and the shallow copies (`struct xlator`) held by packets, requests and
configuration candidates. A step is one critical section: the part of a writer under the mutex
together with what it does before it, the part of a writer after `synchronize_rcu_bh` (`reap`), the
lookup of a reader (`pin`), its acquisition of the references (`grab`), and the release of a copy.
Steps of different threads interleave arbitrarily.

`synchronize_rcu_bh` waits for the readers that were active when it was called. The model lets it
wait for those that were active when the instance was unlinked, which are fewer.

Databases (`kref` objects) and instances are numbers, which are not reused. A database is released
once its count is zero; from then on, getting or putting it is undefined. `nf_ops` arrays are
numbers too.

Simplifications: the hash function is a parameter; hash buckets are one list, filtered by bucket;
the two list operations by which a replacement unlinks the old instance and links the new one are
one step (the window between them is `unlinked`); settings other than pool6 are a number; the
validation of the settings' pool6 by `globals_init`, memory and hook registration are up to the
environment; `defrag_enable` and logging are left out; an `iname` is the list of the bytes before the NUL, and
it is not a null pointer.
-/
namespace Jool.Xlator

abbrev Ns := Nat
abbrev Name := List Nat
abbrev Flags := BitVec 8
/-- src/common/config.c:160-163 `xlator_flags2xt`. -/
def xtOf (f : Flags) : Flags := f &&& 0x03
/-- src/common/config.c:165-168 `xlator_flags2xf`. -/
def xfOf (f : Flags) : Flags := f &&& 0x0C
/-- src/common/config.c:146-149 `xt_validate` (types.h:31-32: SIIT = 1, NAT64 = 2). -/
def xtValid (xt : Flags) : Bool := xt == 1 || xt == 2
/-- src/common/config.c:151-158 `xf_validate` (types.h:33-34: NETFILTER = 4, IPTABLES = 8). -/
def xfValid (xf : Flags) : Bool := xf == 4 || xf == 8
/-- mod/xlator.h:90-93 `xlator_is_nat64`. -/
def isNat64 (f : Flags) : Bool := f &&& 2 != 0
/-- mod/xlator.h:95-98 `xlator_is_netfilter`. -/
def isNetfilter (f : Flags) : Bool := f &&& 4 != 0

/-- src/common/config.c:129-144 `iname_validate` (INAME_MAX_SIZE = 16; `char` is signed). -/
def nameValid (n : Name) : Bool :=
  decide (n.length < 16) && n.all fun c => decide (32 ≤ c ∧ c < 128)

/-- src/common/config.h `struct jool_globals`. -/
structure Glob where
  pool6Set : Bool
  pool6 : BitVec 128 × Nat
  rest : Nat
deriving DecidableEq, Repr, Inhabited

/-- mod/xlator.h:15-53 `struct xlator`. The union is `a`, `b`, `c`: eamt, denylist4 (SIIT), or pool4, bib,
joold (NAT64). -/
structure Xl where
  ns : Ns
  name : Name
  flags : Flags
  globals : Glob
  stats : Nat
  a : Nat
  b : Nat
  c : Nat
deriving DecidableEq, Repr, Inhabited

/-- The databases that `xlator_get` (mod/xlator.c:130-145) and `xlator_put` (mod/xlator.c:865-889)
visit, in order. -/
def Xl.objs (x : Xl) : List Nat :=
  if isNat64 x.flags then [x.stats, x.a, x.b, x.c] else [x.stats, x.a, x.b]

/-- The memory of the databases. -/
structure Heap where
  count : Nat → Nat
  next : Nat

/-- `kref_get`. -/
def getObj (o : Nat) (h : Heap) : Outcome Heap :=
  if h.count o = 0 then .ub .useAfterFree
  else .ok { h with count := fun i => if i = o then h.count i + 1 else h.count i }

/-- `kref_put`. -/
def putObj (o : Nat) (h : Heap) : Outcome Heap :=
  if h.count o = 0 then .ub .useAfterFree
  else .ok { h with count := fun i => if i = o then h.count i - 1 else h.count i }

def getAll : List Nat → Heap → Outcome Heap
  | [], h => .ok h
  | o :: l, h => (getObj o h).bind (getAll l)

def putAll : List Nat → Heap → Outcome Heap
  | [], h => .ok h
  | o :: l, h => (putObj o h).bind (putAll l)

/-- A database is created with one reference (`kref_init`). -/
def fresh (h : Heap) : Nat × Heap :=
  (h.next, ⟨fun i => if i = h.next then 1 else h.count i, h.next + 1⟩)

/-- What the environment decides during one request: which allocations work (`inst`: the instance or
candidate; `db k`: the k-th database; `ops`: the hook array), whether the kernel registers the hooks,
whether `globals_init` accepts, whether every BIB entry is in pool4
(`basic_replace_validations`, mod/xlator.c:622-642). -/
structure Env where
  inst : Bool
  db : Nat → Bool
  ops : Bool
  hook : Bool
  glob : Bool
  bib : Bool

/-- mod/xlator.h error codes. -/
inductive Code | ok | EINVAL | ENOMEM | EEXIST | ESRCH | EHOOK
deriving DecidableEq, Repr, Inhabited

/-- mod/xlator.c:260-288 `init_siit`. -/
def initSiit (e : Env) (h : Heap) : Outcome (Heap × Option (Nat × Nat × Nat × Nat)) :=
  let (s, h1) := fresh h
  let (a, h2) := fresh h1
  let (b, h3) := fresh h2
  if !e.db 0 then .ok (h, none)
  else if !e.db 1 then (putAll [s] h1).map (·, none)
  else if !e.db 2 then (putAll [a, s] h2).map (·, none)
  else .ok (h3, some (s, a, b, 0))

/-- mod/xlator.c:290-323 `init_nat64`. -/
def initNat64 (e : Env) (h : Heap) : Outcome (Heap × Option (Nat × Nat × Nat × Nat)) :=
  let (s, h1) := fresh h
  let (a, h2) := fresh h1
  let (b, h3) := fresh h2
  let (c, h4) := fresh h3
  if !e.db 0 then .ok (h, none)
  else if !e.db 1 then (putAll [s] h1).map (·, none)
  else if !e.db 2 then (putAll [a, s] h2).map (·, none)
  else if !e.db 3 then (putAll [b, a, s] h3).map (·, none)
  else .ok (h4, some (s, a, b, c))

/-- mod/xlator.c:325-349 `xlator_init`. -/
def xlInit (e : Env) (ns : Ns) (name : Name) (flags : Flags) (g : Glob) (h : Heap) :
    Outcome (Heap × Code × Option Xl) :=
  if !xfValid (xfOf flags) then .ok (h, .EINVAL, none)
  else if !xtValid (xtOf flags) then .ok (h, .EINVAL, none)
  else if !e.glob then .ok (h, .EINVAL, none)
  else
    (if xtOf flags == 1 then initSiit e h else initNat64 e h).map fun
      | (h, none) => (h, .ENOMEM, none)
      | (h, some (s, a, b, c)) => (h, .ok, some ⟨ns, name, flags, g, s, a, b, c⟩)

/-- mod/xlator.c:41-65 `struct jool_instance`. -/
structure Node where
  id : Nat
  hash : Nat
  xl : Xl
  ops : Option Nat
deriving DecidableEq, Repr, Inhabited

/-- An instance that has been unlinked. `node` is what readers still see in it; `owned`, `ops` are the references
that `destroy_jool_instance` will find. `wait`: the readers for which the grace period lasts. -/
structure Limbo where
  node : Node
  owned : List Nat
  ops : Option Nat
  unhook : Bool
  wait : List Nat
deriving DecidableEq, Repr, Inhabited

structure World where
  heap : Heap
  /-- the next identifier of an instance, reader, copy or hook array -/
  next : Nat
  table : List Node
  /-- `netfilter_instances` -/
  nf : List Nat
  limbo : List Limbo
  /-- reader, and the instance it found -/
  readers : List (Nat × Nat)
  /-- copies of instances -/
  clones : List (Nat × Xl)
  /-- registered hook arrays, and their namespace -/
  hooks : List (Nat × Ns)

/-- mod/xlator.c:228-239 `xlator_setup`. -/
def World.empty : World := ⟨⟨fun _ => 0, 0⟩, 0, [], [], [], [], [], []⟩

/-- `hash_min(hash, 6)`: the bucket. -/
def bucket (hash : Nat) : Nat := hash % 64

/-- mod/xlator.c:73-84 `get_hash`. -/
abbrev Hash := Ns → Flags → Name → Nat

/-- mod/xlator.c:98-112 `find_instance`. -/
def findInstance (H : Hash) (w : World) (ns : Ns) (xt : Flags) (name : Name) : Option Node :=
  w.table.find? fun n =>
    bucket n.hash == bucket (H ns xt name) &&
    ns == n.xl.ns && xt &&& n.xl.flags != 0 && name == n.xl.name

/-- mod/xlator.c:399-422 `validate_collision`. -/
def collides (w : World) (ns : Ns) (name : Name) (flags : Flags) : Bool :=
  w.table.any fun n =>
    n.xl.ns == ns && xtOf n.xl.flags == xtOf flags &&
    (n.xl.name == name || (isNetfilter flags && isNetfilter n.xl.flags))

/-- mod/xlator.c:351-390 `basic_add_validations`. -/
def addValid (name : Name) (flags : Flags) (pool6 : Bool) : Bool :=
  nameValid name && xtValid (xtOf flags) && xfValid (xfOf flags) && !(isNat64 flags && !pool6)

/-- mod/xlator.c:427-471 `__xlator_add`. `id`: the identifiers of the instance and of its hooks.
The hash is computed (`get_instance_hash`, 86-96). -/
def addNode (H : Hash) (e : Env) (x : Xl) (w : World) : World × Code :=
  let node (ops : Option Nat) : Node := ⟨w.next, H x.ns (xtOf x.flags) x.name, x, ops⟩
  if isNetfilter x.flags then
    if !e.ops then (w, .ENOMEM)
    else if !e.hook then (w, .EHOOK)
    else
      ({ w with
          next := w.next + 1
          hooks := (w.next, x.ns) :: w.hooks
          table := node (some w.next) :: w.table
          nf := w.nf ++ [w.next] }, .ok)
  else ({ w with next := w.next + 1, table := node none :: w.table }, .ok)

/-- mod/xlator.c:114-128 `destroy_jool_instance`. Freeing a registered array is undefined. -/
def destroy (flags : Flags) (owned : List Nat) (ops : Option Nat) (unhook : Bool) (w : World) : Outcome World :=
  (if isNetfilter flags then
    if unhook then
      match ops with
      | none => .ub .nullDeref
      | some o => if w.hooks.any (·.1 == o) then .ok { w with hooks := w.hooks.eraseP (·.1 == o) }
                  else .ub .useAfterFree
    else
      match ops with
      | none => .ok w
      | some o => if w.hooks.any (·.1 == o) then .ub .useAfterFree else .ok w
  else .ok w : Outcome World).bind fun w =>
  (putAll owned w.heap).map fun h => { w with heap := h }

/-- mod/xlator.c:479-541 `xlator_add`. `want`: the caller wants a copy (`__xlator_add`, 465-468). -/
def add (H : Hash) (e : Env) (ns : Ns) (flags : Flags) (name : Name) (g : Glob) (want : Bool) (w : World) :
    Outcome (World × Code) :=
  if !addValid name flags g.pool6Set then .ok (w, .EINVAL)
  else if !e.inst then .ok (w, .ENOMEM)
  else
    (xlInit e ns name flags g w.heap).bind fun
      | (h, code, none) => .ok ({ w with heap := h }, code)
      | (h, _, some x) =>
        let w : World := { w with heap := h }
        if collides w ns name flags then (destroy flags x.objs none false w).map (·, .EEXIST)
        else
          match addNode H e x w with
          | (w, .ok) =>
            if want then
              (getAll x.objs w.heap).map fun h =>
                ({ w with heap := h, next := w.next + 1, clones := (w.next, x) :: w.clones }, .ok)
            else .ok (w, .ok)
          | (w, code) => (destroy flags x.objs none false w).map (·, code)

/-- The readers that are in a critical section. -/
def World.active (w : World) : List Nat := w.readers.map (·.1)

/-- Unlink an instance to destroy it (mod/xlator.c:556-558, 160-163). -/
def unlink (w : World) (n : Node) : World :=
  { w with
    table := w.table.eraseP (·.id == n.id)
    nf := if isNetfilter n.xl.flags then w.nf.erase n.id else w.nf
    limbo := ⟨n, n.xl.objs, n.ops, true, w.active⟩ :: w.limbo }

/-- mod/xlator.c:543-602 `xlator_rm`, up to the grace period. -/
def rm (H : Hash) (ns : Ns) (xt : Flags) (name : Name) (w : World) : World × Code :=
  if !xtValid xt then (w, .EINVAL)
  else if !nameValid name then (w, .EINVAL)
  else
    match findInstance H w ns xt name with
    | none => (w, .ESRCH)
    | some n => (unlink w n, .ok)

/-- mod/xlator.c:151-166 `__flush_detach`. -/
def flushOne (ns : Ns) (xt : Flags) (w : World) : World :=
  (w.table.filter fun n => n.xl.ns == ns && n.xl.flags &&& xt != 0).foldl unlink w

/-- mod/xlator.c:191-222 `jool_xlator_flush_net`, `jool_xlator_flush_batch`, up to the grace period. -/
def flush (nss : List Ns) (xt : Flags) (w : World) : World :=
  nss.foldl (fun w ns => flushOne ns xt w) w

/-- mod/xlator.c:930-938 `xlator_get_framework`. -/
def framework (f : Flags) : Flags := if isNetfilter f then 4 else 8

/-- mod/xlator.c:708-713: the window in which neither the old nor the new instance is linked. -/
def unlinked (w : World) (old : Node) : World :=
  { w with
    table := w.table.eraseP (·.id == old.id)
    nf := if isNetfilter old.xl.flags then w.nf.erase old.id else w.nf }

/-- mod/xlator.c:693-727: the old instance is replaced. `x` takes over bib and joold; after the grace
period the old instance has neither these nor the hooks (720-725). -/
def swap (old : Node) (x : Xl) (w : World) : Outcome World :=
  (if isNat64 x.flags then putAll [x.b, x.c] w.heap else .ok w.heap).map fun h =>
    let x := if isNat64 x.flags then { x with b := old.xl.b, c := old.xl.c } else x
    let w' := unlinked w old
    { w' with
      heap := h
      next := w.next + 1
      table := ⟨w.next, old.hash, x, old.ops⟩ :: w'.table
      nf := if isNetfilter old.xl.flags then w.next :: w'.nf else w'.nf
      limbo := ⟨old, if isNat64 old.xl.flags then [old.xl.stats, old.xl.a] else old.xl.objs, none, false,
        w.active⟩ :: w.limbo }

/-- mod/xlator.c:644-735 `xlator_replace`, up to the grace period. -/
def replace (H : Hash) (e : Env) (x : Xl) (w : World) : Outcome (World × Code) :=
  if !addValid x.name x.flags x.globals.pool6Set then .ok (w, .EINVAL)
  else if isNat64 x.flags && !e.bib then .ok (w, .EINVAL)
  else if !e.inst then .ok (w, .ENOMEM)
  else
    (getAll x.objs w.heap).bind fun h =>
      let w : World := { w with heap := h }
      match findInstance H w x.ns (xtOf x.flags) x.name with
      | none =>
        match addNode H e x w with
        | (w, .ok) => .ok (w, .ok)
        | (w, code) => (destroy x.flags x.objs none false w).map (·, code)
      | some old =>
        if framework old.xl.flags != framework x.flags then
          (destroy x.flags x.objs none false w).map (·, .EINVAL)
        else if isNat64 x.flags && old.xl.globals.pool6 != x.globals.pool6 then
          (destroy x.flags x.objs none false w).map (·, .EINVAL)
        else (swap old x w).map (·, .ok)

/-- The end of a grace period: mod/xlator.c:572, 181-182, 720-727. -/
def reap (i : Nat) (w : World) : Outcome World :=
  match w.limbo.find? (·.node.id == i) with
  | none => .ok w
  | some l =>
    if l.wait.any (w.active.contains ·) then .ok w
    else
      destroy l.node.xl.flags l.owned l.ops l.unhook
        { w with limbo := w.limbo.eraseP (·.node.id == i) }

/-- A reader found instance `n`. -/
def World.enter (w : World) (n : Node) : World :=
  { w with next := w.next + 1, readers := (w.next, n.id) :: w.readers }

/-- mod/xlator.c:776-796: the first half of `xlator_find`. -/
def lookup (H : Hash) (ns : Ns) (flags : Flags) (name : Name) (w : World) : Except Code Node :=
  if !nameValid name then .error .EINVAL
  else if !xtValid (xtOf flags) then .error .EINVAL
  else
    match findInstance H w ns (xtOf flags) name with
    | none => .error .ESRCH
    | some n => if n.xl.flags &&& xfOf flags == 0 then .error .ESRCH else .ok n

/-- mod/xlator.c:835-844: the first half of `xlator_find_netfilter`. -/
def lookupNf (ns : Ns) (w : World) : Option Node :=
  (w.nf.filterMap fun i => w.table.find? (·.id == i)).find? fun n => n.xl.ns == ns

/-- What a reader finds at the address of instance `i`. -/
def World.memory (w : World) (i : Nat) : Option Xl :=
  match w.table.find? (·.id == i) with
  | some n => some n.xl
  | none => (w.limbo.find? (·.node.id == i)).map (·.node.xl)

/-- mod/xlator.c:798-804, 845-848: the reader takes its references and leaves. Its copy is known under the
reader's number. -/
def grab (r : Nat) (w : World) : Outcome World :=
  match w.readers.find? (·.1 == r) with
  | none => .ok w
  | some (_, i) =>
    match w.memory i with
    | none => .ub .useAfterFree
    | some x =>
      (getAll x.objs w.heap).map fun h =>
        { w with heap := h, readers := w.readers.filter (·.1 != r), clones := (r, x) :: w.clones }

/-- mod/xlator.c:865-889 `xlator_put`, for the copy `c`. -/
def put (c : Nat) (w : World) : Outcome World :=
  match w.clones.find? (·.1 == c) with
  | none => .ok w
  | some (_, x) =>
    (putAll x.objs w.heap).map fun h => { w with heap := h, clones := w.clones.eraseP (·.1 == c) }

/-- The steps. -/
inductive Op
  /-- `xlator_add` -/
  | add (e : Env) (ns : Ns) (flags : Flags) (name : Name) (g : Glob) (want : Bool)
  /-- `xlator_init` by a configuration candidate (mod/atomic_config.c:151-166) -/
  | init (e : Env) (ns : Ns) (flags : Flags) (name : Name) (g : Glob)
  /-- the holder of a copy changes its settings (mod/nl/global.c `handle_global_update`) -/
  | edit (c : Nat) (g : Glob)
  | rm (ns : Ns) (xt : Flags) (name : Name)
  | flush (nss : List Ns) (xt : Flags)
  /-- `xlator_replace` with a copy -/
  | replace (e : Env) (c : Nat)
  | reap (i : Nat)
  | pin (ns : Ns) (flags : Flags) (name : Name)
  | pinNf (ns : Ns)
  | grab (r : Nat)
  | put (c : Nat)

def step (H : Hash) (w : World) : Op → Outcome (World × Code)
  | .add e ns flags name g want => add H e ns flags name g want w
  | .init e ns flags name g =>
    if !e.inst then .ok (w, .ENOMEM)
    else
      (xlInit e ns name flags g w.heap).map fun
        | (h, code, none) => ({ w with heap := h }, code)
        | (h, code, some x) =>
          ({ w with heap := h, next := w.next + 1, clones := (w.next, x) :: w.clones }, code)
  | .edit c g =>
    .ok ({ w with clones := w.clones.map fun p => if p.1 == c then (p.1, { p.2 with globals := g }) else p }, .ok)
  | .rm ns xt name => .ok (rm H ns xt name w)
  | .flush nss xt => .ok (flush nss xt w, .ok)
  | .replace e c =>
    match w.clones.find? (·.1 == c) with
    | none => .ok (w, .ESRCH)
    | some (_, x) => replace H e x w
  | .reap i => (reap i w).map (·, .ok)
  | .pin ns flags name =>
    match lookup H ns flags name w with
    | .error code => .ok (w, code)
    | .ok n => .ok (w.enter n, .ok)
  | .pinNf ns =>
    match lookupNf ns w with
    | none => .ok (w, .ESRCH)
    | some n => .ok (w.enter n, .ok)
  | .grab r => (grab r w).map (·, .ok)
  | .put c => (put c w).map (·, .ok)

def run (H : Hash) (w : World) : List Op → Outcome World
  | [] => .ok w
  | o :: ops => (step H w o).bind fun r => run H r.1 ops

end Jool.Xlator
