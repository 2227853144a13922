import Verif.Model.Addr
/-
Model of `src/mod/common/db/denylist4.c` (SIIT's IPv4 denylist), its Netlink listing
(`src/mod/common/nl/denylist4.c`, `nl_core.c`) and the userspace client that walks the pages
(`src/usr/nl/denylist4.c`).

Not modelled: RCU (readers here see the list before or after an update, never during), kref.
-/
namespace Jool.Denylist4

/-- mod/db/denylist4.c:10-18. The pool is a doubly linked list of prefixes. -/
abbrev Pool := List Prefix4

inductive Err | EINVAL | ENOMEM | ESRCH
deriving DecidableEq, Repr

/-- mod/db/denylist4.c:92-121 `denylist4_add`. `oom`: the allocation at line 108 fails. -/
def add (pool : Pool) (p : Prefix4) (force oom : Bool) : Pool × Option Err :=
  if !prefix4Validate p then (pool, some .EINVAL)
  else if !prefix4ValidateScope p force then (pool, some .EINVAL)
  else if oom then (pool, some .ENOMEM)
  else (pool ++ [p], none)

/-- mod/db/denylist4.c:132-141: delete the first entry equal to `p`; `none` if there is none. -/
def rmLoop (p : Prefix4) : Pool → Option Pool
  | [] => none
  | e :: es => if p = e then some es else (rmLoop p es).map (e :: ·)

/-- mod/db/denylist4.c:123-146 `denylist4_rm`. -/
def rm (pool : Pool) (p : Prefix4) : Pool × Option Err :=
  match rmLoop p pool with
  | some l => (l, none)
  | none => (pool, some .ESRCH)

/-- mod/db/denylist4.c:148-166 `denylist4_flush`. `oom`: `alloc_list` fails. -/
def flush (pool : Pool) (oom : Bool) : Pool × Option Err :=
  if oom then (pool, some .ENOMEM) else ([], none)

/-- mod/db/denylist4.c:207-226 `denylist4_contains`. -/
def contains : Pool → Addr4 → Bool
  | [], _ => false
  | e :: es, a => if prefix4Contains e a then true else contains es a

/-- mod/db/denylist4.c:255-266. -/
def isEmpty (pool : Pool) : Bool := match pool with | [] => true | _ :: _ => false

/-- mod/db/denylist4.c:240-249 with `func = serialize_bl4_entry` (mod/nl/denylist4.c:8-11), whose
message has room for `cap` more entries: returns 1 when the entry does not fit.
Result: entries written, final `offset` (`some` = never found), error. -/
def foreachLoop : Pool → Option Prefix4 → Nat → List Prefix4 × Option Prefix4 × Nat
  | [], off, _ => ([], off, 0)
  | _ :: _, none, 0 => ([], none, 1)
  | e :: es, none, cap + 1 =>
    let r := foreachLoop es none cap
    (e :: r.1, r.2)
  | e :: es, some o, cap => foreachLoop es (if o = e then none else some o) cap

inductive Page
  /-- -ESRCH: the offset is gone. -/
  | notFound
  /-- A page; `more` is JOOLNLHDR_FLAGS_M (mod/nl/nl_core.c `jresponse_send_array`). -/
  | page (entries : List Prefix4) (more : Bool)
deriving DecidableEq, Repr

/-- mod/db/denylist4.c:228-253 `denylist4_foreach` plus the response header. -/
def foreach (pool : Pool) (off : Option Prefix4) (cap : Nat) : Page :=
  match foreachLoop pool off cap with
  | (_, some _, _) => .notFound
  | (l, none, err) => .page l (err != 0)

/-- The userspace listing (src/usr/nl/denylist4.c:21-73): ask again from the last received entry
while the M flag is set. `fuel` bounds the number of requests; `none` = ran out of fuel or error. -/
def client (pool : Pool) (cap : Nat) : Nat → Option Prefix4 → Option (List Prefix4)
  | 0, _ => none
  | fuel + 1, off =>
    match foreach pool off cap with
    | .notFound => none
    | .page l false => some l
    | .page l true =>
      match l.getLast? with
      | none => none
      | some last => (client pool cap fuel (some last)).map (l ++ ·)

/-- One administrative request. -/
inductive Op
  | add (p : Prefix4) (force oom : Bool)
  | rm (p : Prefix4)
  | flush (oom : Bool)

def step (pool : Pool) : Op → Pool × Option Err
  | .add p force oom => add pool p force oom
  | .rm p => rm pool p
  | .flush oom => flush pool oom

/-- The pool after a history, and the answers given. -/
def run : Pool → List Op → Pool × List (Option Err)
  | pool, [] => (pool, [])
  | pool, op :: ops =>
    let (p1, r) := step pool op
    let (p2, rs) := run p1 ops
    (p2, r :: rs)

end Jool.Denylist4
