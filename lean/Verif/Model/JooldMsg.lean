import Verif.Model.Bib
import Verif.Model.Rfc6052
/-
Model of joold's session serialization (`src/mod/common/nl/attribute.c`) and of the reception of a
synchronization message (`src/mod/common/joold.c`). (`mod/` abbreviates `src/mod/common/`.)

Simplifications.
* A Netlink attribute is its payload; `nla_len` is the payload's length plus `NLA_HDRLEN` (4). Reading
  after the last byte of the payload is `UB.outOfBounds`.
* `nla_for_each_nested` (kernel) yields the list of nested attributes.
* `HZ` divides 1000 (100, 200, 250, 500, 1000); `p` is the number of milliseconds of one jiffy.
  `unsigned long` has 64 bits, `unsigned int` has 32.
* The reader's clock does not change while one attribute is processed.
-/
namespace Jool.JooldMsg
open Jool.Bib (SessEntry)

abbrev Byte := BitVec 8

/-- `x` as `n` bytes, most significant first (how the kernel keeps addresses; `htonl`, `htons`). -/
def be : Nat → Nat → List Byte
  | 0, _ => []
  | n + 1, x => be n (x / 256) ++ [BitVec.ofNat 8 x]

/-- The number which bytes spell, most significant first (`ntohl`, `ntohs`). -/
def unbe (l : List Byte) : Nat := l.foldl (fun a b => a * 256 + b.toNat) 0

/-- `MAX_JIFFY_OFFSET` (kernel's include/linux/jiffies.h): `(LONG_MAX >> 1) - 1`. -/
def maxJiffyOffset : Nat := 2 ^ 62 - 2

/-- Kernel's `msecs_to_jiffies` (include/linux/jiffies.h, kernel/time/time.c); the argument is an
`unsigned int`. -/
def msecsToJiffies (p m : Nat) : Nat :=
  if m % 2 ^ 32 ≥ 2 ^ 31 then maxJiffyOffset else (m % 2 ^ 32 + p - 1) / p

/-- Kernel's `jiffies_to_msecs` (kernel/time/time.c), which returns an `unsigned int`. -/
def jiffiesToMsecs (p j : Nat) : Nat := (p * j) % 2 ^ 32

/-- Sum and difference of `unsigned long`s. -/
def add64 (a b : Nat) : Nat := (a + b) % 2 ^ 64
def sub64 (a b : Nat) : Nat := (a + 2 ^ 64 - b % 2 ^ 64) % 2 ^ 64

/-- The fields of `struct session_entry` (mod/db/bib/entry.h:22-63) that the serializer sees. -/
structure Sess where
  proto : Proto
  src6 : T6
  dst6 : T6
  src4 : T4
  dst4 : T4
  state : TcpState
  timer : TimerType
  updateTime : Nat
  timeout : Nat
deriving DecidableEq, Repr, Inhabited

/-- src/common/types.h:94-115 `l4_protocol`. -/
def protoCode : Proto → Nat | .TCP => 0 | .UDP => 1 | .ICMP => 2

/-- src/common/session.h:5-39 `tcp_state`. -/
def stateCode : TcpState → Nat
  | .ESTABLISHED => 0 | .V6_INIT => 1 | .V4_INIT => 2 | .V4_FIN_RCV => 3 | .V6_FIN_RCV => 4
  | .V4_FIN_V6_FIN_RCV => 5 | .TRANS => 6 | .unknown => 7

/-- mod/db/bib/entry.h:7-11 `session_timer_type`. -/
def timerCode : TimerType → Nat | .EST => 0 | .TRANS => 1 | .SYN4 => 2

/-- mod/nl/attribute.c:800-805: the remaining lifetime in milliseconds. (`dying_time > MAX_U32` can
never hold at 804, since `jiffies_to_msecs` returns an `unsigned int`.) -/
def lifetimeMs (p now : Nat) (s : Sess) : Nat :=
  let dying := add64 s.updateTime s.timeout
  let ms := if dying > now then jiffiesToMsecs p (dying - now) else 0
  if ms > 2 ^ 32 - 1 then 2 ^ 32 - 1 else ms

/-- mod/nl/attribute.c:774-829 `jnla_put_session_joold`: the payload of the attribute. -/
def put (p now : Nat) (s : Sess) : List Byte :=
  be 16 s.src6.addr.toNat ++ be 4 s.src4.addr.toNat ++ be 4 s.dst4.addr.toNat
    ++ be 4 (lifetimeMs p now s)
    ++ be 2 s.src6.port.toNat ++ be 2 s.src4.port.toNat ++ be 2 s.dst4.port.toNat
    ++ be 2 (protoCode s.proto * 2 ^ 5 + stateCode s.state * 2 ^ 2 + timerCode s.timer)

/-- The globals which the parser uses, timeouts in milliseconds. -/
structure Cfg where
  pool6 : Prefix6
  tcpEst : Nat
  tcpTrans : Nat
  udp : Nat
  icmp : Nat
deriving DecidableEq, Repr, Inhabited

/-- mod/nl/attribute.c:408-410 `READ_RAW`. -/
def read (n : Nat) (l : List Byte) : Outcome (Nat × List Byte) :=
  if n ≤ l.length then .ok (unbe (l.take n), l.drop n) else .ub .outOfBounds

def protoOf : Nat → Option Proto | 0 => some .TCP | 1 => some .UDP | 2 => some .ICMP | _ => none

def stateOf : Nat → TcpState
  | 0 => .ESTABLISHED | 1 => .V6_INIT | 2 => .V4_INIT | 3 => .V4_FIN_RCV | 4 => .V6_FIN_RCV
  | 5 => .V4_FIN_V6_FIN_RCV | 6 => .TRANS | _ => .unknown

def timerOf : Nat → Option TimerType | 0 => some .EST | 1 => some .TRANS | 2 => some .SYN4 | _ => none

/-- mod/nl/attribute.c:372-405 `get_timeout`, in milliseconds; `none` is -EINVAL. Line 386:
`TCP_INCOMING_SYN` (src/common/constants.h:42) is in seconds. -/
def timeoutMs (c : Cfg) (proto : Proto) (timer : Option TimerType) : Option Nat :=
  match proto with
  | .TCP =>
    match timer with
    | some .EST => some c.tcpEst
    | some .TRANS => some c.tcpTrans
    | some .SYN4 => some 6
    | none => none
  | .UDP => some c.udp
  | .ICMP => some c.icmp

/-- The raw fields, in the order in which they are read. -/
structure Raw where
  src6 : Nat
  src4 : Nat
  dst4 : Nat
  ms : Nat
  port6 : Nat
  port4 : Nat
  portd : Nat
  flags : Nat
deriving DecidableEq, Repr, Inhabited

/-- mod/nl/attribute.c:435-447: the eight reads. -/
def readRaw (l : List Byte) : Outcome Raw :=
  (read 16 l).bind fun a => (read 4 a.2).bind fun b => (read 4 b.2).bind fun c =>
  (read 4 c.2).bind fun d => (read 2 d.2).bind fun e => (read 2 e.2).bind fun f =>
  (read 2 f.2).bind fun g => (read 2 g.2).bind fun h =>
  .ok ⟨a.1, b.1, c.1, d.1, e.1, f.1, g.1, h.1⟩

/-- mod/nl/attribute.c:440-464: from the raw fields to the session. `none` is -EINVAL. -/
def interpret (c : Cfg) (p now : Nat) (r : Raw) : Option (Proto × SessEntry) :=
  let timer := timerOf (r.flags % 4)
  let dst4 : T4 := ⟨BitVec.ofNat 32 r.dst4, BitVec.ofNat 16 r.portd⟩
  match rfc6052_4to6 c.pool6 dst4.addr with
  | none => none
  | some d6 =>
    match protoOf (r.flags / 32 % 4) with
    | none => none
    | some proto =>
      match timeoutMs c proto timer with
      | none => none
      | some t =>
        some (proto,
          { src6 := ⟨BitVec.ofNat 128 r.src6, BitVec.ofNat 16 r.port6⟩,
            dst6 := ⟨d6, if proto = .ICMP then BitVec.ofNat 16 r.port6 else BitVec.ofNat 16 r.portd⟩,
            src4 := ⟨BitVec.ofNat 32 r.src4, BitVec.ofNat 16 r.port4⟩,
            dst4 := dst4,
            state := stateOf (r.flags / 4 % 8),
            timer := timer,
            updateTime := sub64 (add64 now (msecsToJiffies p r.ms)) (msecsToJiffies p t) })

/-- mod/nl/attribute.c:412-466 `jnla_get_session_joold`, of an attribute (never NULL here). Line 426
compares `nla_len`, which includes the header, with the size of the payload. -/
def get (c : Cfg) (p now : Nat) (payload : List Byte) : Outcome (Option (Proto × SessEntry)) :=
  if payload.length + 4 < 36 then .ok none
  else (readRaw payload).map (interpret c p now)

/-! ### Reception -/

/-- The three tables (mod/db/bib/db.c:166-175 `struct bib`). -/
abbrev Db := Proto → Bib.Table

/-- mod/joold.c:380-407 `add_new_session`. When there is a collision, `bib_add_session` returns 0
(mod/db/bib/db.c:1952-1956), so `params.success` is not looked at. -/
def addNew (c : Cfg) (p : Nat) (e : Bib.Env) (db : Db) (payload : List Byte) : Outcome (Db × Bool) :=
  match get c p e.now payload with
  | .ub u => .ub u
  | .ok none => .ok (db, false)
  | .ok (some (proto, s)) =>
    match Bib.jooldAdd e proto (db proto) s with
    | .ub u => .ub u
    | .ok (t, _, res) =>
      .ok (Bib.upd db proto t, match res with | .err .EEXIST => true | .err _ => false | _ => true)

/-- mod/joold.c:437-440, the loop of `joold_sync`. Each attribute comes with the environment
in which it is processed. -/
def syncLoop (c : Cfg) (p : Nat) : Db → List (Bib.Env × List Byte) → Outcome (Db × Bool)
  | db, [] => .ok (db, true)
  | db, (e, l) :: rest =>
    match addNew c p e db l with
    | .ub u => .ub u
    | .ok (db', ok) => (syncLoop c p db' rest).map (fun r => (r.1, ok && r.2))

/-- mod/joold.c:425-447 `joold_sync`, called by mod/nl/joold.c:8-32 `handle_joold_add` with whatever
`info->attrs` has. `false` is -EINVAL. -/
def sync (c : Cfg) (p : Nat) (enabled : Bool) (db : Db) (root : Option (List (Bib.Env × List Byte))) :
    Outcome (Db × Bool) :=
  if !enabled then .ok (db, false)
  else match root with
    | none => .ub .nullDeref
    | some l => syncLoop c p db l

end Jool.JooldMsg
