import Verif.Model.Joold
import Verif.Model.JooldMsg
import Verif.Model.NlAttr
/-
Model of the path of a session between two instances: the kernel's queue and message (`src/mod/common/joold.c`), the joold daemon
(`src/usr/argp/joold/modsocket.c`, `netsocket.c`, `src/usr/nl/joold.c`, `src/usr/nl/core.c`), the network, the other daemon and the other
kernel (`src/mod/common/nl/joold.c`, `nl_common.c`, `nl_core.c`). (`mod/` abbreviates `src/mod/common/`.)

Simplifications.
* The header of a message (`struct joolnlhdr`) is a record: whether the magic is right, the version, the kind of translator, the error
  flag, the name. Names are the bytes before the NUL. The attributes are bytes.
* The bytes of an attribute's header are least significant first (`Verif.Model.Nla`); `bigEnc` is the other kind of machine.
* One thread of the daemon reads the kernel's socket (`daemon`), another one reads the network's (`recv`); each message and each
  request to the kernel is one step. The kernel's socket is a sequence; a message can be lost because it is full (`heard`).
* `nlmsg_alloc` gives a page (4096 bytes), so `nla_put` of 2048 bytes does not fail. System calls of the daemon do not fail.
* Statistics and logs are left out; the error message inside of an error response is left out.
-/
namespace Jool.Relay
open Jool.Nla (Attr enc attrs unle le)
open Jool.JooldMsg (Sess Db)

abbrev Byte := BitVec 8

/-- The name of an instance. -/
abbrev Name := List Byte

/-- `tolower` of the C locale. -/
def lower (b : Byte) : Byte := if 65 ≤ b.toNat ∧ b.toNat ≤ 90 then b + 32#8 else b

/-- `strcasecmp(a, b) == 0`. -/
def sameCase (a b : Name) : Bool := a.map lower == b.map lower

/-- src/common/config.h:297-312 `struct joolnlhdr`. -/
structure Hdr where
  magic : Bool
  version : Nat
  xt : Nat
  err : Bool
  iname : Name
deriving DecidableEq, Repr, Inhabited

/-- A message from the kernel to the daemon. `full`: it is long enough for its headers (`genlmsg_valid_hdr`). `body`: what follows. -/
structure Msg where
  full : Bool
  hdr : Hdr
  body : List Byte
deriving DecidableEq, Repr, Inhabited

/-- src/common/types.h:32. -/
def XT_NAT64 : Nat := 2

/-- src/usr/nl/core.c:81-99 and mod/nl/nl_common.c:53-71 `validate_version`: the two upper bytes. -/
def sameVersion (a b : Nat) : Bool := a / 65536 == b / 65536

/-- src/usr/nl/core.c:114-132 `validate_joolnlhdr`, of a NAT64. -/
def validHdr (v : Nat) (h : Hdr) : Bool := h.magic && sameVersion v h.version && h.xt / 2 % 2 == 1

/-- src/common/config.h:65-80: `JNLAR_SESSION_ENTRIES`. -/
def SESSION_ENTRIES : Nat := 7

/-- src/common/config.h:84-88: `JNLAL_ENTRY`. -/
def ENTRY : Nat := 1

/-- What the daemon does. -/
inductive Act
  | datagram (d : List Byte)
  | print (s : List JooldMsg.Raw)
  | ack
deriving DecidableEq, Repr

/-- src/usr/argp/joold/modsocket.c:60-121 `jnla_get_session_joold`, `print_sessions`. (The same comparison of `nla_len`, which
includes the header, with the size of the payload.) -/
def printLoop : List Attr → Outcome (List JooldMsg.Raw)
  | [] => .ok []
  | a :: l =>
    if a.data.length + 4 < 36 then .ok []
    else (JooldMsg.readRaw a.data).bind fun r => (printLoop l).map (r :: ·)

/-- src/usr/argp/joold/modsocket.c:172-192: the message is for this daemon, and it's not an error. Neither the presence nor the
length of the attribute is checked. -/
def forward (net : Bool) (body : List Byte) : Outcome (List Act) :=
  if body.length < 4 then .ub .outOfBounds
  else if unle ((body.drop 2).take 2) % 2 ^ 14 ≠ SESSION_ENTRIES then .ok [.ack]
  else if unle (body.take 2) < 4 ∨ body.length < unle (body.take 2) then .ub .outOfBounds
  else
    let data := (body.take (unle (body.take 2))).drop 4
    if net then .ok [.datagram data, .ack]
    else (printLoop (attrs data).1).map fun s => [.print s, .ack]

/-- src/usr/argp/joold/modsocket.c:137-199 `updated_entries_cb`, for a daemon of version `v` whose instance is `me`. `net`:
`netsocket_enabled()`. -/
def react (v : Nat) (me : Name) (net : Bool) (m : Msg) : Outcome (List Act) :=
  if !m.full then .ok [.ack]
  else if !validHdr v m.hdr then .ok [.ack]
  else if !sameCase m.hdr.iname me then .ok []
  else if m.hdr.err then .ok [.ack]
  else forward net m.body

/-- src/usr/argp/joold/netsocket.c:302-325 `netsocket_listen`: the buffer of `recv` (src/common/config.h:420); the rest of a longer
datagram is discarded. -/
def MAX_PAYLOAD : Nat := 2048
def received (d : List Byte) : List Byte := d.take MAX_PAYLOAD

/-- src/usr/nl/joold.c:25-50 `joolnl_joold_add`: the attributes of the request. -/
def request (data : List Byte) : List Byte := enc ⟨SESSION_ENTRIES, true, data⟩

/-- An attribute, from a machine whose most significant byte comes first. (Addresses, ports and lifetimes are in network order in any case.) -/
def bigEnc (a : Attr) : List Byte :=
  JooldMsg.be 2 (4 + a.data.length) ++ JooldMsg.be 2 (a.ty + if a.nested then 2 ^ 15 else 0) ++ a.data
    ++ List.replicate (Nla.align (4 + a.data.length) - (4 + a.data.length)) 0#8

/-! ### The kernel -/

/-- What matters of an instance. -/
structure Inst where
  q : Joold.Queue Sess
  db : Db

/-- The circumstances of one step. `jool`: joold's settings and the clock. `room`: see `Joold.transmit`. `heard`: the daemon's socket has
room for one more message. `p`, `cfg`, `bib`: see `JooldMsg.sync`; `bib i` is for the `i`th session. `strict`: the validation
of attributes since Linux 5.2. -/
structure Env where
  jool : Joold.Env
  room : Option Nat
  heard : Bool
  p : Nat
  cfg : JooldMsg.Cfg
  bib : Nat → Bib.Env
  strict : Bool

/-- A machine: its instances, and the daemon of instance `me`. `v`, `kv`: the versions of the daemon and of the kernel module.
`admin`: the daemon has `CAP_NET_ADMIN`. `loaded`: the NAT64 module is inserted. `rx`: what the daemon hasn't read. -/
structure Node where
  me : Name
  net : Bool
  v : Nat
  kv : Nat
  admin : Bool
  loaded : Bool
  insts : Name → Option Inst
  rx : List Msg

def upd (f : Name → Option Inst) (a : Name) (x : Option Inst) : Name → Option Inst := fun b => if b = a then x else f b

/-- One more message for the daemon. -/
def hear (heard : Bool) (n : Node) (m : Msg) : Node := if heard then { n with rx := n.rx ++ [m] } else n

/-- mod/joold.c:245-258: the container of the sessions. -/
def wire (p now : Nat) (b : List Sess) : List Byte := b.flatMap fun s => enc ⟨ENTRY, false, JooldMsg.put p now s⟩

/-- mod/joold.c:235-266: the message of instance `name`. (The kernel sets `NLA_F_NESTED` or not, depending on its version.) -/
def announce (kv : Nat) (name : Name) (nested : Bool) (p now : Nat) (b : List Sess) : Msg :=
  ⟨true, ⟨true, kv, XT_NAT64, false, name⟩, enc ⟨SESSION_ENTRIES, nested, wire p now b⟩⟩

/-- mod/joold.c:219-272 `send_to_userspace`, mod/steps/send_packet.c:52-75 `sendpkt_multicast`. -/
def multicast (e : Env) (n : Node) (name : Name) (b : Option (List Sess)) : Node :=
  match Joold.transmit e.room (b.getD []) with
  | none => n
  | some b => hear e.heard n (announce n.kv name e.strict e.p e.jool.now.toNat b)

/-- Something happens to the queue of instance `name`. -/
def queueOp (e : Env) (n : Node) (name : Name) (o : Joold.Op Sess) : Node :=
  match n.insts name with
  | none => n
  | some i =>
    let r := Joold.step e.jool i.q o
    multicast e { n with insts := upd n.insts name (some { i with q := r.1 }) } name r.2

/-- mod/nl/nl_common.c:73-118 `request_handle_start`, of a request of the daemon: the instance. -/
def start (n : Node) : Option Inst :=
  if !n.admin then none
  else if !n.loaded then none
  else if !sameVersion n.kv n.v then none
  else n.insts n.me

/-- mod/nl/nl_core.c:98-148 `jresponse_send_simple` with an error: the header is the request's, plus the flag. The attributes are
`JNLAERR_CODE` and `JNLAERR_MSG`, which the daemon only prints. -/
def failure (n : Node) : Msg := ⟨true, ⟨true, n.v, XT_NAT64, true, n.me⟩, enc ⟨1, false, le 2 22⟩⟩

/-- mod/nl/joold.c:54-69 `handle_joold_ack`. -/
def handleAck (e : Env) (n : Node) : Node :=
  match start n with
  | none => hear e.heard n (failure n)
  | some _ => queueOp e n n.me .ack

/-- The sessions of a request, each with its circumstances. -/
def stamp (f : Nat → Bib.Env) (l : List Attr) : List (Bib.Env × List Byte) := l.zipIdx.map fun x => (f x.2, x.1.data)

/-- mod/nl/joold.c:8-33 `handle_joold_add`, after the validation of the attributes (mod/nl/nl_handler.c:44-58). If that fails, Generic Netlink answers
instead of Jool; the daemon only prints that. -/
def handleAdd (e : Env) (n : Node) (body : List Byte) : Outcome Node :=
  match Nla.kParse e.strict NlAttr.rootPolicy body with
  | .err _ => .ok n
  | .ub u => .ub u
  | .ok as =>
    match start n with
    | none => .ok (hear e.heard n (failure n))
    | some i =>
      (JooldMsg.sync e.cfg e.p e.jool.cfg.enabled i.db ((Nla.get as SESSION_ENTRIES).map fun a => stamp e.bib (attrs a.data).1)).map fun r =>
        let n' := { n with insts := upd n.insts n.me (some { i with db := r.1 }) }
        if r.2 then n' else hear e.heard n' (failure n)

/-! ### A machine -/

/-- What happens on a machine. `kern`: packets, the timer, `jool session advertise`; `daemon`: the daemon reads its socket;
`recv`: a datagram; `create`, `remove`: an instance; `table`: the traffic and the users modify the tables. -/
inductive Ev
  | kern (name : Name) (o : Joold.Op Sess)
  | daemon
  | recv (d : List Byte)
  | create (name : Name)
  | remove (name : Name)
  | table (name : Name) (db : Db)

/-- The daemon's actions, in order: the new state, the datagrams. -/
def perform (e : Env) (n : Node) : List Act → Node × List (List Byte)
  | [] => (n, [])
  | .datagram d :: l => let r := perform e n l; (r.1, d :: r.2)
  | .print _ :: l => perform e n l
  | .ack :: l => perform e (handleAck e n) l

/-- The daemon reads a message (src/usr/argp/joold/modsocket.c:243-256 `modsocket_listen`). -/
def daemonStep (e : Env) (n : Node) : Outcome (Node × List (List Byte)) :=
  match n.rx with
  | [] => .ok (n, [])
  | m :: l => (react n.v n.me n.net m).map fun as => perform e { n with rx := l } as

/-- One step of a machine. -/
def step (e : Env) (n : Node) : Ev → Outcome (Node × List (List Byte))
  | .kern name o => .ok (queueOp e n name o, [])
  | .daemon => daemonStep e n
  | .recv d => (handleAdd e n (request (received d))).map fun n' => (n', [])
  | .create name => .ok (match n.insts name with
      | some _ => n
      | none => { n with insts := upd n.insts name (some ⟨Joold.alloc e.jool.now, fun _ => Bib.init⟩) }, [])
  | .remove name => .ok ({ n with insts := upd n.insts name none }, [])
  | .table name db => .ok (match n.insts name with
      | some i => { n with insts := upd n.insts name (some { i with db := db }) }
      | none => n, [])

/-! ### A cluster -/

/-- The machines and the datagrams that were sent, with the sender. -/
structure Cluster where
  node : Nat → Node
  air : List (Nat × List Byte)

def updNode (f : Nat → Node) (a : Nat) (x : Node) : Nat → Node := fun b => if b = a then x else f b

/-- One step of one of the machines. A datagram can be received by any machine other than the sender (the loopback is disabled:
src/usr/argp/joold/netsocket.c:130-141, 221-232), never, once, or several times, in any order. -/
inductive CStep : Cluster → Nat → Env → Ev → Cluster → Prop
  | local (c i e ev n ds) (hr : ∀ d, ev ≠ .recv d) (h : step e (c.node i) ev = .ok (n, ds)) :
      CStep c i e ev ⟨updNode c.node i n, c.air ++ ds.map fun d => (i, d)⟩
  | recv (c i j e d n ds) (hj : j ≠ i) (hd : (j, d) ∈ c.air) (h : step e (c.node i) (.recv d) = .ok (n, ds)) :
      CStep c i e (.recv d) ⟨updNode c.node i n, c.air ++ ds.map fun d => (i, d)⟩

end Jool.Relay
