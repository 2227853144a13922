import Verif.Model.ReadFile
import Verif.Model.Addr
/-
How the joold daemon starts: `joold_start` (src/usr/argp/wargp/session.c), `netsocket_start` (src/usr/argp/joold/netsocket.c), `statsocket_start` (src/usr/argp/joold/statsocket.c).

Simplifications:
- The system calls are a list, in the order in which they are made; the system answers each of them as it likes (`Sys.ok`, which may depend on everything before).
- A descriptor is the number of calls before its `socket` (none is ever closed, so they are all different).
- Error codes, logs and the Netlink socket of `modsocket_setup` (one answer) are left out.
-/
namespace Jool.DStart
open Jool.Text (Text Inet)

inductive Fam
  | v4 | v6 | other
deriving DecidableEq, Repr

/-- `struct addrinfo`: the family, the address, the port. -/
structure AI where
  fam : Fam
  ip : Nat
  port : Nat
deriving DecidableEq, Repr

/-- An interface: any, the one that has an address, the one that has a number. -/
inductive Ifc
  | any
  | addr (a : Addr4)
  | index (n : Nat)
deriving DecidableEq

inductive Call
  | socket (fam : Fam)
  | reuse (fd : Nat)
  | bind (fd : Nat) (a : AI)
  | join (fd : Nat) (fam : Fam) (group : Nat) (i : Ifc)
  | loopOff (fd : Nat) (fam : Fam)
  | ttl (fd : Nat) (fam : Fam) (n : Int)
  | outIf (fd : Nat) (fam : Fam) (i : Ifc)
  /-- The thread that reads the network's socket. -/
  | netThread (fd : Nat)
  | malloc
  /-- A thread that answers requests for statistics. -/
  | statThread (fd : Nat)
  | close (fd : Nat)
deriving DecidableEq

/-- What the system answers. -/
structure Sys where
  ok : List Call → Call → Bool
  getaddrinfo : Option Text → Text → Option (List AI)
  ifIndex : Text → Option Nat
  inet : Inet

/-- `struct netsocket_cfg` (usr/argp/joold/netsocket.h) and `struct statsocket_cfg` (usr/argp/joold/statsocket.h). -/
structure Net where
  enabled : Bool
  addr : Option Text
  port : Text
  inIf : Option Text
  outIf : Option Text
  ttl : Int

structure Stat where
  enabled : Bool
  addr : Text
  port : Text

/-- A call, and what comes after it if it succeeds. -/
def call {α : Type} (s : Sys) (h : List Call) (c : Call) (k : List Call → List Call × Option α) : List Call × Option α :=
  if s.ok h c then k (h ++ [c]) else (h ++ [c], none)

/-- usr/argp/joold/netsocket.c:47-73 `try_address`. -/
def tryAddress (s : Sys) (h : List Call) (a : AI) : List Call × Option Nat :=
  call s h (.socket a.fam) fun h1 => call s h1 (.reuse h.length) fun h2 => call s h2 (.bind h.length a) fun h3 => (h3, some h.length)

/-- usr/argp/joold/netsocket.c:91-98: the candidates. -/
def tryAll (s : Sys) : List Call → List AI → List Call × Option (Nat × AI)
  | h, [] => (h, none)
  | h, a :: l =>
    match tryAddress s h a with
    | (h', some fd) => (h', some (fd, a))
    | (h', none) => tryAll s h' l

/-- usr/argp/joold/netsocket.c:75-103 `create_socket`. -/
def createSocket (s : Sys) (c : Net) (h : List Call) : List Call × Option (Nat × AI) :=
  match s.getaddrinfo c.addr c.port with
  | none => (h, none)
  | some l => tryAll s h l

/-- usr/argp/joold/netsocket.c:111-120, 157-166 (addresses); 202-211, 252-259 (names). `none`: there is no such interface. -/
def interface (s : Sys) (f : Fam) (t : Text) : Option Ifc :=
  match f with
  | .v4 => (s.inet.pton4 t).map .addr
  | _ => (s.ifIndex t).map .index

/-- usr/argp/joold/netsocket.c:105-128 `mcast4opt_add_membership`; 198-222 `mcast6opt_add_membership`. -/
def addMembership (s : Sys) (c : Net) (fd : Nat) (a : AI) (h : List Call) (k : List Call → List Call × Option Unit) : List Call × Option Unit :=
  match c.inIf with
  | none => call s h (.join fd a.fam a.ip .any) k
  | some t =>
    match interface s a.fam t with
    | none => (h, none)
    | some i => call s h (.join fd a.fam a.ip i) k

/-- usr/argp/joold/netsocket.c:154-175 `mcast4opt_set_out_interface`; 248-270 `mcast6opt_set_out_interface`. -/
def setOut (s : Sys) (c : Net) (fd : Nat) (a : AI) (h : List Call) : List Call × Option Unit :=
  match c.outIf with
  | none => (h, some ())
  | some t =>
    match interface s a.fam t with
    | none => (h, none)
    | some i => call s h (.outIf fd a.fam i) fun h => (h, some ())

/-- usr/argp/joold/netsocket.c:177-194 `handle_mcast4_opts`; 272-289 `handle_mcast6_opts`; 291-305 `adjust_mcast_opts`. -/
def adjust (s : Sys) (c : Net) (fd : Nat) (a : AI) (h : List Call) : List Call × Option Unit :=
  if a.fam = .other then (h, none) else
    addMembership s c fd a h fun h1 => call s h1 (.loopOff fd a.fam) fun h2 => call s h2 (.ttl fd a.fam c.ttl) fun h3 => setOut s c fd a h3

/-- usr/argp/joold/netsocket.c:327-360 `netsocket_start`. The result: `none` is failure, `some none` means that there is no such socket. -/
def netStart (s : Sys) (c : Net) (h : List Call) : List Call × Option (Option (Nat × AI)) :=
  if !c.enabled then (h, some none) else if c.addr.isNone then (h, none) else
    match createSocket s c h with
    | (h1, none) => (h1, none)
    | (h1, some (fd, a)) =>
      match adjust s c fd a h1 with
      | (h2, none) => (h2, none)
      | (h2, some ()) => call s h2 (.netThread fd) fun h3 => (h3, some (some (fd, a)))

/-- usr/argp/joold/statsocket.c:77-104: the sockets, the last one first. -/
def statSockets (s : Sys) : List Call → List AI → List Nat → List Call × Option (List Nat)
  | h, [], fds => (h, some fds)
  | h, a :: l, fds =>
    call s h (.socket a.fam) fun h1 => call s h1 (.bind h.length a) fun h2 => call s h2 .malloc fun h3 => statSockets s h3 l (h.length :: fds)

/-- usr/argp/joold/statsocket.c:169-176: their threads. -/
def statThreads (s : Sys) : List Call → List Nat → List Call × Option Unit
  | h, [] => (h, some ())
  | h, fd :: l => call s h (.statThread fd) fun h1 => statThreads s h1 l

/-- usr/argp/joold/statsocket.c:149-181 `statsocket_start`. -/
def statStart (s : Sys) (c : Stat) (h : List Call) : List Call × Option Unit :=
  if !c.enabled then (h, some ()) else
    match s.getaddrinfo (some c.addr) c.port with
    | none => (h, none)
    | some l =>
      match statSockets s h l [] with
      | (h1, none) => (h1, none)
      | (h1, some fds) => statThreads s h1 fds

/-- usr/argp/wargp/session.c:289-332 `joold_start`: whether it gets to its loop. `mod`: whether `modsocket_setup` succeeds. -/
def start (s : Sys) (mod : Bool) (n : Net) (t : Stat) : List Call × Option (Option (Nat × AI)) :=
  if !mod then ([], none) else
    match netStart s n [] with
    | (h, none) => (h, none)
    | (h, some r) =>
      match statStart s t h with
      | (h', none) => (h', none)
      | (h', some ()) => (h', some r)

/-- The operands of `session proxy`. -/
structure Proxy where
  addr : Option Text
  port : Option Text
  inIf : Option Text
  outIf : Option Text
  ttl : BitVec 32
  statAddr : Option Text
  statPort : Option Text

/-- usr/argp/wargp/session.c:221-252 `handle_session_proxy`. -/
def proxyNet (p : Proxy) : Net := ⟨true, p.addr, p.port.getD "6400".toList, p.inIf, p.outIf, p.ttl.toInt⟩
def proxyStat (p : Proxy) : Stat := ⟨p.statAddr.isSome || p.statPort.isSome, p.statAddr.getD "::".toList, p.statPort.getD "6401".toList⟩

/-- usr/joold/joold.c:63-91: the configuration of Verif.Model.ReadFile, and the third argument, which is the port of the statistics. -/
def fileNet (c : ReadFile.Cfg) : Net := ⟨true, c.addr, c.port, c.inIf, c.outIf, c.ttl⟩
def fileStat (port : Option Text) : Stat := ⟨port.isSome, "::".toList, port.getD "6401".toList⟩

end Jool.DStart
