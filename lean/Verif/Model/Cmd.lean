import Verif.Model.Types
/-
The commands of `jool` and `jool_siit`: how the words of a command line select an operation, and their completion by the shell. src/usr/argp/main.c.

Simplifications:
- The options that precede the mode (`getopt_long`, main.c:652-681) are left out; a run begins with the words behind them.
- The tree is the one that `init_cmd_option_array` leaves (main.c:329-350), i.e. `calloc` does not fail.
- Strings are lists of characters; the NUL at the end is not part of the list.
- `strtol` is a parameter.
- The field `next` of the options (command.h:55-56) is apart from them: a function from positions in an array. It is NULL everywhere when the program starts.
-/
namespace Jool.Cmd

abbrev Tok := List Char

/-- src/common/types.h:28-36 `xlator_type`. -/
abbrev Xt := BitVec 2
def siit : Xt := 1
def nat64 : Xt := 2
def any : Xt := 3

/-- `handler`, with `args`. `key`: `handle_global_update` of that key. -/
inductive Handler
  | op (name : String)
  | key (name : String)
  | autocomplete
deriving DecidableEq, Repr

/-- src/usr/argp/command.h:11-57 `struct cmd_option`: either `children` or `handler` is set. `auto`: is `handle_autocomplete` set? -/
inductive Node
  | dir (label : Tok) (xt : Xt) (hidden : Bool) (children : List Node)
  | cmd (label : Tok) (xt : Xt) (hidden : Bool) (handler : Handler) (auto : Bool)

def Node.label : Node → Tok
  | .dir l _ _ _ => l
  | .cmd l _ _ _ _ => l
def Node.xt : Node → Xt
  | .dir _ x _ _ => x
  | .cmd _ x _ _ _ => x
def Node.hidden : Node → Bool
  | .dir _ _ h _ => h
  | .cmd _ _ h _ _ => h

/-- `memcmp(a, b, strlen(b)) == 0`, byte after byte, up to the first difference. `a` is an array; behind its end is something else. -/
def compare : List Char → List Char → Outcome Bool
  | _, [] => .ok true
  | [], _ :: _ => .ub .outOfBounds
  | x :: a, y :: b => if x = y then compare a b else .ok false

/-- `memcmp(a, b, strlen(b)) == 0`. The standard library may look at all of the bytes at once (`strict`), or stop at the first difference. -/
def memcmp (strict : Bool) (a b : List Char) : Outcome Bool :=
  if strict = true ∧ a.length < b.length then .ub .outOfBounds else compare a b

/-- The `next` fields of the options of an array. -/
abbrev Nx := Nat → Option Nat
def fresh : Nx := fun _ => none
def Nx.set (nx : Nx) (i : Nat) (v : Option Nat) : Nx := fun j => if j = i then v else nx j

/-- Where the loop of `find_matches` is. -/
structure Find where
  first : Option Nat
  last : Option Nat
  nx : Nx

/-- src/usr/argp/main.c:402-407. -/
def link (s : Find) (i : Nat) : Find :=
  match s.first, s.last with
  | some f, some l => ⟨some f, some i, (s.nx.set l (some i)).set i none⟩
  | some f, none => ⟨some f, some i, s.nx.set i none⟩
  | none, _ => ⟨some i, some i, s.nx.set i none⟩

/-- src/usr/argp/main.c:383-409, the loop of `find_matches`. -/
def findLoop (strict : Bool) (xt : Xt) (pre : Tok) : Nat → List Node → Find → Outcome (Option Nat × Nx)
  | _, [], s => .ok (s.first, s.nx)
  | i, n :: ns, s =>
    if xt &&& n.xt = 0 then findLoop strict xt pre (i + 1) ns s
    else if n.hidden then
      if n.label = pre then .ok (some i, s.nx) else findLoop strict xt pre (i + 1) ns s
    else
      (memcmp strict (n.label ++ ['\x00']) pre).bind fun eq =>
        if eq then
          if n.label = pre then .ok (some i, s.nx) else findLoop strict xt pre (i + 1) ns (link s i)
        else findLoop strict xt pre (i + 1) ns s

/-- src/usr/argp/main.c:374-412 `find_matches`: the position of the result, and the new `next`s. -/
def findMatches (strict : Bool) (xt : Xt) (options : List Node) (nx : Nx) (pre : Tok) : Outcome (Option Nat × Nx) :=
  findLoop strict xt pre 0 options ⟨none, none, nx⟩

/-- `for (; node; node = node->next)`. It doesn't end if there are more turns than options. -/
def chain (nx : Nx) : Nat → Option Nat → Outcome (List Nat)
  | _, none => .ok []
  | 0, some _ => .ub .infiniteLoop
  | n + 1, some i => (chain nx n (nx i)).map (i :: ·)

/-- src/usr/argp/command.c:6-9 `cmdopt_is_hidden`. -/
def isHidden (xt : Xt) (n : Node) : Bool := n.hidden || decide (xt &&& n.xt = 0)

/-- The options that the error messages mention: src/usr/argp/main.c:414-448. -/
def mentioned (xt : Xt) (nodes : List Node) : List Tok := (nodes.filter fun n => !isHidden xt n).map Node.label

/-- What the program does. -/
inductive Act
  /-- "Unexpected token" -/
  | unexpected (t : Tok) (options : List Tok)
  /-- "Ambiguous token" -/
  | ambiguous (t : Tok) (options : List Tok)
  /-- "More arguments expected." -/
  | more (options : List Tok)
  /-- The handler is called with the rest of the words, itself included. -/
  | run (h : Handler) (args : List Tok)
  /-- The completion prints words. -/
  | print (l : List Tok)
  /-- The completion calls `handle_autocomplete` of that option. -/
  | suggest (h : Handler)
  /-- The completion prints nothing. -/
  | nothing
deriving DecidableEq, Repr

/-- The options at some positions. -/
def pickAll (nodes : List Node) (l : List Nat) : List Node := l.filterMap fun i => nodes[i]?

/-- src/usr/argp/main.c:544-564, the end of `handle_autocomplete`. -/
def completeGo (strict : Bool) (xt : Xt) : List Node → Nx → List Tok → Tok → Outcome Act
  | nodes, nx, [], last => (findMatches strict xt nodes nx last).bind fun r => (chain r.2 nodes.length r.1).map fun l => .print ((pickAll nodes l).map Node.label)
  | nodes, nx, t :: ts, last => (findMatches strict xt nodes nx t).bind fun r =>
    match r.1 with
    | none => .ok .nothing
    | some i =>
      if (r.2 i).isSome then .ok .nothing
      else match nodes[i]? with
        | none => .ub .outOfBounds
        | some (.cmd _ _ _ h auto) => if auto then .ok (.suggest h) else .ub .nullDeref
        | some (.dir _ _ _ children) => completeGo strict xt children fresh ts last

/-- src/usr/argp/main.c:494-565 `handle_autocomplete`. `strtol`: the number, unless it is out of range. `nx`: the `next`s of `tree`. -/
def complete (strict : Bool) (xt : Xt) (tree : List Node) (nx : Nx) (strtol : Tok → Option Int) : List Tok → Outcome Act
  | _ :: k :: ts =>
    match strtol k with
    | none => .ok .nothing
    | some v =>
      let depth := v - 1
      if depth = (ts.length : Int) - 1 then completeGo strict xt tree nx ts.dropLast (ts.getLastD [])
      else if depth = (ts.length : Int) then completeGo strict xt tree nx ts []
      else .ok .nothing
  | _ => .ok .nothing

/-- src/usr/argp/main.c:450-475, the loop of `__handle`. `top`: the `next`s of `tree`, unless this is `tree`. -/
def handleGo (strict : Bool) (xt : Xt) (tree : List Node) (strtol : Tok → Option Int) : Option Nx → List Node → List Tok → Outcome Act
  | _, nodes, [] => .ok (.more (mentioned xt nodes))
  | top, nodes, t :: ts => (findMatches strict xt nodes fresh t).bind fun r =>
    match r.1 with
    | none => .ok (.unexpected t (mentioned xt nodes))
    | some i =>
      if (r.2 i).isSome then (chain r.2 nodes.length (some i)).map fun l => .ambiguous t (mentioned xt (pickAll nodes l))
      else match nodes[i]? with
        | none => .ub .outOfBounds
        | some (.cmd _ _ _ h _) => if h = .autocomplete then complete strict xt tree (top.getD r.2) strtol (t :: ts) else .ok (.run h (t :: ts))
        | some (.dir _ _ _ children) => handleGo strict xt tree strtol (some (top.getD r.2)) children ts

/-- src/usr/argp/main.c:477-489 `handle`. -/
def handle (strict : Bool) (xt : Xt) (tree : List Node) (strtol : Tok → Option Int) (argv : List Tok) : Outcome Act := handleGo strict xt tree strtol none tree argv

/-! ## The commands -/

/-- src/usr/argp/main.c:39-67 `instance_ops`. -/
def instanceOps : List Node :=
  [.cmd "display".toList any false (.op "handle_instance_display") true,
   .cmd "add".toList any false (.op "handle_instance_add") true,
   .cmd "remove".toList any false (.op "handle_instance_remove") true,
   .cmd "flush".toList any false (.op "handle_instance_flush") true,
   .cmd "status".toList any false (.op "handle_instance_status") true]

/-- src/usr/argp/main.c:69-77 `stats_ops`. -/
def statsOps : List Node :=
  [.cmd "display".toList any false (.op "handle_stats_display") true]

/-- src/usr/argp/main.c:79-87 `address_ops`. -/
def addressOps : List Node :=
  [.cmd "query".toList siit false (.op "handle_address_query") true]

/-- src/usr/argp/wargp/global.c:115-136 `build_global_update_children`; the keys: src/common/global.c:755-1014 `globals_metadata`. -/
def globalUpdate : List Node :=
  [.cmd "manually-enabled".toList any false (.key "manually-enabled") true,
   .cmd "pool6".toList any false (.key "pool6") true,
   .cmd "lowest-ipv6-mtu".toList any false (.key "lowest-ipv6-mtu") true,
   .cmd "logging-debug".toList any false (.key "logging-debug") true,
   .cmd "zeroize-traffic-class".toList any false (.key "zeroize-traffic-class") true,
   .cmd "override-tos".toList any false (.key "override-tos") true,
   .cmd "tos".toList any false (.key "tos") true,
   .cmd "mtu-plateaus".toList any false (.key "mtu-plateaus") true,
   .cmd "amend-udp-checksum-zero".toList siit false (.key "amend-udp-checksum-zero") true,
   .cmd "eam-hairpin-mode".toList siit false (.key "eam-hairpin-mode") true,
   .cmd "randomize-rfc6791-addresses".toList siit false (.key "randomize-rfc6791-addresses") true,
   .cmd "rfc6791v6-prefix".toList siit false (.key "rfc6791v6-prefix") true,
   .cmd "rfc6791v4-prefix".toList siit false (.key "rfc6791v4-prefix") true,
   .cmd "address-dependent-filtering".toList nat64 false (.key "address-dependent-filtering") true,
   .cmd "drop-externally-initiated-tcp".toList nat64 false (.key "drop-externally-initiated-tcp") true,
   .cmd "drop-icmpv6-info".toList nat64 false (.key "drop-icmpv6-info") true,
   .cmd "source-icmpv6-errors-better".toList nat64 false (.key "source-icmpv6-errors-better") true,
   .cmd "f-args".toList nat64 false (.key "f-args") true,
   .cmd "handle-rst-during-fin-rcv".toList nat64 false (.key "handle-rst-during-fin-rcv") true,
   .cmd "tcp-est-timeout".toList nat64 false (.key "tcp-est-timeout") true,
   .cmd "tcp-trans-timeout".toList nat64 false (.key "tcp-trans-timeout") true,
   .cmd "udp-timeout".toList nat64 false (.key "udp-timeout") true,
   .cmd "icmp-timeout".toList nat64 false (.key "icmp-timeout") true,
   .cmd "logging-bib".toList nat64 false (.key "logging-bib") true,
   .cmd "logging-session".toList nat64 false (.key "logging-session") true,
   .cmd "maximum-simultaneous-opens".toList nat64 false (.key "maximum-simultaneous-opens") true,
   .cmd "ss-enabled".toList nat64 false (.key "ss-enabled") true,
   .cmd "ss-flush-asap".toList nat64 false (.key "ss-flush-asap") true,
   .cmd "ss-flush-deadline".toList nat64 false (.key "ss-flush-deadline") true,
   .cmd "ss-capacity".toList nat64 false (.key "ss-capacity") true,
   .cmd "ss-max-payload".toList nat64 false (.key "ss-max-payload") true,
   .cmd "ss-max-sessions-per-packet".toList nat64 false (.key "ss-max-sessions-per-packet") true]

/-- src/usr/argp/main.c:89-101 `global_ops`. -/
def globalOps : List Node :=
  [.cmd "display".toList any false (.op "handle_global_display") true,
   .dir "update".toList any false globalUpdate]

/-- src/usr/argp/main.c:103-126 `eamt_ops`. -/
def eamtOps : List Node :=
  [.cmd "display".toList siit false (.op "handle_eamt_display") true,
   .cmd "add".toList siit false (.op "handle_eamt_add") true,
   .cmd "remove".toList siit false (.op "handle_eamt_remove") true,
   .cmd "flush".toList siit false (.op "handle_eamt_flush") true]

/-- src/usr/argp/main.c:128-151 `blacklist4_ops`. -/
def blacklist4Ops : List Node :=
  [.cmd "display".toList siit false (.op "handle_blacklist4_display") true,
   .cmd "add".toList siit false (.op "handle_blacklist4_add") true,
   .cmd "remove".toList siit false (.op "handle_blacklist4_remove") true,
   .cmd "flush".toList siit false (.op "handle_blacklist4_flush") true]

/-- src/usr/argp/main.c:153-176 `denylist4_ops`. -/
def denylist4Ops : List Node :=
  [.cmd "display".toList siit false (.op "handle_denylist4_display") true,
   .cmd "add".toList siit false (.op "handle_denylist4_add") true,
   .cmd "remove".toList siit false (.op "handle_denylist4_remove") true,
   .cmd "flush".toList siit false (.op "handle_denylist4_flush") true]

/-- src/usr/argp/main.c:178-201 `pool4_ops`. -/
def pool4Ops : List Node :=
  [.cmd "display".toList nat64 false (.op "handle_pool4_display") true,
   .cmd "add".toList nat64 false (.op "handle_pool4_add") true,
   .cmd "remove".toList nat64 false (.op "handle_pool4_remove") true,
   .cmd "flush".toList nat64 false (.op "handle_pool4_flush") true]

/-- src/usr/argp/main.c:203-221 `bib_ops`. -/
def bibOps : List Node :=
  [.cmd "display".toList nat64 false (.op "handle_bib_display") true,
   .cmd "add".toList nat64 false (.op "handle_bib_add") true,
   .cmd "remove".toList nat64 false (.op "handle_bib_remove") true]

/-- src/usr/argp/main.c:223-246 `session_ops`. -/
def sessionOps : List Node :=
  [.cmd "display".toList nat64 false (.op "handle_session_display") true,
   .cmd "follow".toList nat64 false (.op "handle_session_follow") true,
   .cmd "proxy".toList nat64 false (.op "handle_session_proxy") true,
   .cmd "advertise".toList nat64 false (.op "handle_session_advertise") true]

/-- src/usr/argp/main.c:248-256 `file_ops`. -/
def fileOps : List Node :=
  [.cmd "handle".toList any false (.op "handle_file_update") true]

/-- src/usr/argp/main.c:258-267 `joold_ops`. -/
def jooldOps : List Node :=
  [.cmd "advertise".toList nat64 true (.op "handle_session_advertise") true]

/-- src/usr/argp/main.c:269-327 `tree`. -/
def tree : List Node :=
  [.dir "instance".toList any false instanceOps,
   .dir "stats".toList any false statsOps,
   .dir "address".toList siit false addressOps,
   .dir "global".toList any false globalOps,
   .dir "eamt".toList siit false eamtOps,
   .dir "blacklist4".toList siit false blacklist4Ops,
   .dir "denylist4".toList siit false denylist4Ops,
   .dir "pool4".toList nat64 false pool4Ops,
   .dir "bib".toList nat64 false bibOps,
   .dir "session".toList nat64 false sessionOps,
   .dir "file".toList any false fileOps,
   .dir "joold".toList nat64 true jooldOps,
   .cmd "autocomplete".toList any true .autocomplete false]

end Jool.Cmd
