import Verif.Model.Xlator
/-
Listing of the instances: `xlator_foreach` (src/mod/common/xlator.c), its request handler
(src/mod/common/nl/instance.c) and the client's loop (src/usr/nl/instance.c). Also "hello", by which a client asks
whether an instance exists.

Simplified: one request is one step (`xlator_foreach` holds the RCU read lock, but not the mutex, while it walks
over the table); the callback appends entries to the response until there is no room, which is a number of entries;
an address of a namespace is a number of which the entry carries the low 32 bits.
-/
namespace Jool.InstList
open Jool.Xlator

/-- src/common/config.h:289-294 `struct instance_entry_usr`. -/
structure Entry where
  ns : BitVec 32
  xf : Flags
  name : Name
deriving DecidableEq, Repr, Inhabited

/-- mod/nl/instance.c:32-57 `serialize_instance`. -/
def entryOf (n : Node) : Entry := ⟨BitVec.ofNat 32 n.xl.ns, xfOf n.xl.flags, n.xl.name⟩

/-- `hash_for_each`: bucket after bucket (`DEFINE_HASHTABLE(instances, 6)`, mod/xlator.c:67). -/
def order (w : World) : List Node :=
  (List.range 64).flatMap fun b => w.table.filter fun n => bucket n.hash == b

/-- mod/xlator.c:891-896 `offset_equals`. -/
def offsetEquals (o : Entry) (n : Node) : Bool :=
  o.ns == BitVec.ofNat 32 n.xl.ns && o.name == n.xl.name

/-- How the walk ended: at the end of the table, by the callback (no room), or without having found the offset
(−ESRCH). -/
inductive Stop | fin | full | lost
deriving DecidableEq, Repr

/-- mod/xlator.c:898-928 `xlator_foreach`: what the callback was given, and the end. -/
def walk (xt : Flags) (room : Nat) : Option Entry → List Node → List Node × Stop
  | off, [] => ([], if off.isSome then .lost else .fin)
  | off, n :: l =>
    if xtOf n.xl.flags &&& xt == 0 then walk xt room off l
    else
      match off with
      | some o => if offsetEquals o n then walk xt room none l else walk xt room (some o) l
      | none =>
        match room with
        | 0 => ([], .full)
        | k + 1 => let r := walk xt k none l; (n :: r.1, r.2)

inductive Resp
  | page (l : List Node) (more : Bool)
  | einval
  | esrch
deriving DecidableEq, Repr

/-- mod/nl/instance.c:59-97 `handle_instance_foreach` with mod/nl/nl_core.c:71-96 `jresponse_send_array`. -/
def serve (w : World) (xt : Flags) (room : Nat) (off : Option Entry) : Resp :=
  match walk xt room off (order w) with
  | (_, .lost) => .esrch
  | (l, .fin) => .page l false
  | ([], .full) => .einval
  | (l, .full) => .page l true

inductive End
  | done
  /-- the instance at which the list should continue does not exist -/
  | lost
  /-- not even one entry fits -/
  | einval
  /-- the client did not send more requests -/
  | unfinished
deriving DecidableEq, Repr

/-- usr/nl/instance.c:79-114 `joolnl_instance_foreach` with 51-77: the pages. Each request finds its own table and has its
own room. `off`: the last entry received. -/
def pages (xt : Flags) (off : Option Entry) : List (World × Nat) → List (List Node) × End
  | [] => ([], .unfinished)
  | (w, room) :: reqs =>
    match serve w xt room off with
    | .esrch => ([], .lost)
    | .einval => ([], .einval)
    | .page l false => ([l], .done)
    | .page l true =>
      let r := pages xt (match l.getLast? with | some n => some (entryOf n) | none => off) reqs
      (l :: r.1, r.2)

/-- mod/nl/instance.c:148-191 `handle_instance_hello`: alive, dead, or an error. `xt`: of the header
(XF_ANY = 12). -/
def hello (H : Hash) (w : World) (ns : Ns) (xt : Flags) (name : Name) : Except Code Bool :=
  match lookup H ns (12 ||| xt) name w with
  | .ok _ => .ok true
  | .error .ESRCH => .ok false
  | .error _ => .error .EINVAL

end Jool.InstList
