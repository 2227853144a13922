import Verif.Model.AtomicConfig
import Verif.Model.Globals
import Verif.Model.Json
import Verif.Model.Requests
import Verif.Model.Text
/-
Loading a configuration file. The client (`src/usr/nl/file.c`, `src/usr/nl/json.c`, the `json2nl_*` functions of
`src/common/global.c`) reads the file and sends it in parts; the kernel module (`src/mod/common/atomic_config.c`) reads these.
(`mod/` abbreviates `src/mod/common/`, `usr/` abbreviates `src/usr/`.)

Simplifications.
* `malloc` and `nlmsg_alloc` succeed. What is not released on the error paths is not recorded.
* The socket and the file were opened for the same type of translator (usr/argp/wargp/file.c:51 passes `xt_get()` to both).
* The texts of the errors are left out. (The type error of an entry of an array prints a NULL name, which glibc writes as "(null)".)
* A handler that fills a member of a structure through a pointer (`arg2`) is a function to a value, and the structure is a
  record of which members were filled, with what. Members are numbered as in the tables.
* The global variables `iname`, `flags`, `force`, `sk` are arguments.
-/
namespace Jool.File
open Jool.Nla Jool.NlAttr
open Jool.JooldMsg (Byte)
open Jool.Text (Text Inet caseEq GType GVal)
open Jool.Json (Json)

/-- `struct jool_result`: success, `-NLE_NOMEM` (which is what `joolnl_err_msgsize` returns: usr/nl/common.c:9-15), other
errors; or undefined behaviour. -/
inductive St
  | ok
  | nomem
  | no
  | ub (u : UB)
deriving DecidableEq, Repr

/-! ### Objects -/

/-- usr/nl/file.c:33-41 `struct json_meta`. (`already_found` is kept beside it.) -/
structure Meta (σ : Type) where
  name : Text
  mandatory : Bool
  run : Json → σ → σ × St

/-- usr/nl/file.c:94-101, the loop of `handle_child`. -/
def findTag {σ : Type} (tag : Text) (j : Json) : List (Meta σ × Bool) → σ → List (Meta σ × Bool) × σ × St
  | [], s => ([], s, .no)
  | (m, found) :: ms, s =>
    if caseEq tag m.name then
      if found then ((m, found) :: ms, s, .no) else ((m, true) :: ms, m.run j s)
    else
      let r := findTag tag j ms s
      ((m, found) :: r.1, r.2)

/-- usr/nl/file.c:88-106 `handle_child`. -/
def handleChild {σ : Type} (p : Text × Json) (ms : List (Meta σ × Bool)) (s : σ) : List (Meta σ × Bool) × σ × St :=
  if caseEq p.1 "comment".toList then (ms, s, .ok) else findTag p.1 p.2 ms s

/-- usr/nl/file.c:115-119, a loop of `handle_object`. -/
def children {σ : Type} : List (Text × Json) → List (Meta σ × Bool) → σ → List (Meta σ × Bool) × σ × St
  | [], ms, s => (ms, s, .ok)
  | p :: ps, ms, s =>
    match handleChild p ms s with
    | (ms, s, .ok) => children ps ms s
    | r => r

/-- usr/nl/file.c:108-128 `handle_object`. -/
def handleObject {σ : Type} (j : Json) (ms : List (Meta σ)) (s : σ) : σ × St :=
  match j with
  | .obj l =>
    match children l (ms.map (fun m => (m, false))) s with
    | (ms, s, .ok) => if ms.any (fun m => m.1.mandatory && !m.2) then (s, .no) else (s, .ok)
    | (_, s, st) => (s, st)
  | _ => (s, .no)

/-! ### Fields of entries -/

/-- A value that a handler stores. -/
inductive Field
  | p6 (p : Prefix6)
  | p4 (p : Prefix4)
  | t6 (a : T6)
  | t4 (a : T4)
  | proto (p : BitVec 8)
  | mark (m : BitVec 32)
  | ports (min max : BitVec 16)
  | iters (flags : BitVec 8) (n : BitVec 32)
deriving DecidableEq, Repr

/-- The members that were filled. -/
abbrev Fields := Nat → Option Field

/-- A row of a table: the member number `k` of the structure. -/
def field (k : Nat) (name : Text) (mandatory : Bool) (f : Json → Option Field) : Meta Fields :=
  ⟨name, mandatory, fun j s =>
    match f j with
    | none => (s, .no)
    | some v => (fun i => if i = k then some v else s i, .ok)⟩

/-- usr/nl/json.c:80-95 `validate_uint`, and `valueuint`. -/
def uint (j : Json) (min max : Nat) : Option Nat :=
  match j with
  | .num n =>
    match n.uint with
    | some v => if v < min ∨ max < v then none else some v
    | none => none
  | _ => none

/-- usr/nl/file.c:262-267 `json2prefix6`. -/
def json2prefix6 (i : Inet) : Json → Option Field
  | .str s => (Text.strToPrefix6 i s).map .p6
  | _ => none

/-- usr/nl/file.c:269-274 `json2prefix4`. -/
def json2prefix4 (i : Inet) : Json → Option Field
  | .str s => (Text.strToPrefix4 i s).map .p4
  | _ => none

/-- usr/nl/file.c:276-287 `json2mark`: what is stored is `valueint`. -/
def json2mark (j : Json) : Option Field :=
  match uint j 0 4294967295, j with
  | some _, .num n => some (.mark (BitVec.ofInt 32 n.int))
  | _, _ => none

/-- usr/nl/file.c:289-294 `json2port_range`. -/
def json2portRange : Json → Option Field
  | .str s => (Text.strToPortRange s).map (fun r => .ports r.1 r.2)
  | _ => none

/-- usr/nl/file.c:296-331 `json2max_iterations`; `ITERATIONS_SET`, `ITERATIONS_AUTO`, `ITERATIONS_INFINITE` are 1, 2, 4
(src/common/types.h:186-202). -/
def json2maxIterations : Json → Option Field
  | .num n => (uint (.num n) 1 4294967295).map (fun v => .iters 1 (BitVec.ofNat 32 v))
  | .str s =>
    if s = "auto".toList then some (.iters 3 0) else if s = "infinity".toList then some (.iters 5 0) else none
  | _ => none

/-- usr/nl/file.c:333-338 `json2taddr6`. -/
def json2taddr6 (i : Inet) : Json → Option Field
  | .str s => (Text.strToT6 i s).map .t6
  | _ => none

/-- usr/nl/file.c:340-345 `json2taddr4`. -/
def json2taddr4 (i : Inet) : Json → Option Field
  | .str s => (Text.strToT4 i s).map .t4
  | _ => none

/-- src/common/types.c:37-46 `str_to_l4proto`, src/common/types.h:94-114 `l4_protocol`. -/
def strToProto (s : Text) : Option (BitVec 8) :=
  if caseEq "TCP".toList s then some 0
  else if caseEq "UDP".toList s then some 1
  else if caseEq "ICMP".toList s then some 2
  else none

/-- usr/nl/file.c:347-364 `json2proto`. -/
def json2proto : Json → Option Field
  | .str s => (strToProto s).map .proto
  | _ => none

/-! ### Entries -/

/-- An entry, an error, or the use of a member that was not filled. -/
inductive Got (α : Type)
  | ok (a : α)
  | no
  | ub (u : UB)
deriving DecidableEq, Repr

/-- What `handle_object` and the use of the structure amount to. -/
def built {α : Type} (r : Fields × St) (f : Fields → Option α) : Got α :=
  match r with
  | (s, .ok) => match f s with | some a => .ok a | none => .ub .uninitialized
  | (_, .ub u) => .ub u
  | _ => .no

/-- usr/nl/file.c:372-389 `handle_eam_entry`: the entry. -/
def eamEntry (i : Inet) (j : Json) : Got Eam.Entry :=
  built (handleObject j [
    field 0 "ipv6 prefix".toList true (json2prefix6 i),
    field 1 "ipv4 prefix".toList true (json2prefix4 i)] (fun _ => none)) fun f =>
      match f 0, f 1 with
      | some (.p6 a), some (.p4 b) => some ⟨a, b⟩
      | _, _ => none

/-- usr/nl/file.c:391-406 `handle_denylist_entry`: the entry. -/
def denyEntry (i : Inet) (j : Json) : Got Prefix4 :=
  match j with
  | .str s => match Text.strToPrefix4 i s with | some p => .ok p | none => .no
  | _ => .no

/-- usr/nl/file.c:408-434 `handle_pool4_entry`: the entry; `DEFAULT_POOL4_MIN_PORT`, `DEFAULT_POOL4_MAX_PORT`
(src/common/constants.h:126-127). -/
def pool4Entry (i : Inet) (j : Json) : Got WPool4 :=
  built (handleObject j [
    field 0 "mark".toList false json2mark,
    field 1 "protocol".toList true json2proto,
    field 2 "prefix".toList true (json2prefix4 i),
    field 3 "port range".toList false json2portRange,
    field 4 "max-iterations".toList false json2maxIterations] (fun _ => none)) fun f =>
      match f 1, f 2 with
      | some (.proto proto), some (.p4 pfx) =>
        some {
          mark := match f 0 with | some (.mark m) => m | _ => 0
          proto := proto
          pfx := pfx
          min := match f 3 with | some (.ports a _) => a | _ => 61001
          max := match f 3 with | some (.ports _ b) => b | _ => 65535
          flags := match f 4 with | some (.iters a _) => a | _ => 0
          iters := match f 4 with | some (.iters _ b) => b | _ => 0 }
      | _, _ => none

/-- usr/nl/file.c:436-456 `handle_bib_entry`: the entry. -/
def bibEntry (i : Inet) (j : Json) : Got WBib :=
  built (handleObject j [
    field 0 "ipv6 address".toList true (json2taddr6 i),
    field 1 "ipv4 address".toList true (json2taddr4 i),
    field 2 "protocol".toList true json2proto] (fun _ => none)) fun f =>
      match f 0, f 1, f 2 with
      | some (.t6 a), some (.t4 b), some (.proto p) => some ⟨a, b, p, true⟩
      | _, _, _ => none

/-! ### Messages -/

abbrev Msg := List Byte

/-- What the functions of file.c share. `cap`: the room for attributes in a message. `kernel log m`: does the kernel module
accept `m` after the messages `log`? -/
structure Ctx where
  i : Inet
  cap : Nat
  xt : BitVec 8
  force : Bool
  kernel : List Msg → Msg → Bool

/-- usr/nl/core.c `joolnl_request`: the message is sent, and the answer is awaited. -/
def send (c : Ctx) (m : Msg) (log : List Msg) : List Msg × St := (log ++ [m], if c.kernel log m then .ok else .no)

/-- `force` (usr/nl/file.c:728). -/
def Ctx.flags (c : Ctx) : BitVec 8 := if c.force then Req.FORCE else 0

/-- A string as bytes. -/
def bytes (s : Text) : List Byte := s.map (fun c => BitVec.ofNat 8 c.toNat)

/-- `jnla_nest_start` at the beginning of the attributes. -/
def nestStart (c : Ctx) (ty : Nat) : Option (List Byte) := if 4 ≤ c.cap then some (enc ⟨ty, true, []⟩) else none

/-- libnl's `nla_nest_end` of an attribute that is at the beginning. If nothing is in it, it is removed. -/
def nestEnd (ty : Nat) (out : List Byte) : List Byte :=
  if out.length = 4 then [] else le 2 out.length ++ le 2 (ty + 2 ^ 15) ++ out.drop 4

/-- usr/nl/file.c:144-155: the message, or a new one. -/
def current (c : Ctx) (ty : Nat) (cur : Option (List Byte × Nat)) : Option (List Byte × Nat) :=
  match cur with
  | some x => some x
  | none => (nestStart c ty).map (fun o => (o, 0))

/-- usr/nl/file.c:128-187 the loop of `handle_array`. `cur`: `msg` (its attributes) and `entries_written`. `hd`: the header.
An entry that does not fit is tried again in a new message (`json = json->prev`). -/
def arrayLoop (c : Ctx) (hd : List Byte) (ty : Nat) {α : Type} (parse : Json → Got α) (w : α → Writer) :
    List Json → Option (List Byte × Nat) → List Msg → List Msg × St
  | [], cur, log =>
    match cur with
    | some (out, _ + 1) => send c (hd ++ nestEnd ty out) log
    | _ => (log, .ok)
  | j :: js, cur, log =>
    match current c ty cur with
    | none => (log, .nomem)
    | some (out, n) =>
      match parse j with
      | .no => (log, .no)
      | .ub u => (log, .ub u)
      | .ok a =>
        match w a out with
        | some out' => arrayLoop c hd ty parse w js (some (out', n + 1)) log
        | none =>
          if n = 0 then (log, .nomem)
          else
            match send c (hd ++ nestEnd ty out) log with
            | (log, .ok) =>
              match nestStart c ty with
              | none => (log, .nomem)
              | some out =>
                match w a out with
                | none => (log, .nomem)
                | some out' => arrayLoop c hd ty parse w js (some (out', 1)) log
            | r => r

/-- usr/nl/file.c:130-187 `handle_array`. (Every message has the same header: usr/nl/core.c:33-68 `joolnl_alloc_msg`.) -/
def handleArray (c : Ctx) (name : Text) (ty : Nat) {α : Type} (parse : Json → Got α) (w : α → Writer) (j : Json)
    (log : List Msg) : List Msg × St :=
  match j with
  | .arr l =>
    match Req.uHdr c.xt (some (bytes name)) c.flags with
    | none => (log, if l.isEmpty then .ok else .no)
    | some hd => arrayLoop c hd ty parse w l none log
  | _ => (log, .no)

/-! ### Settings -/

/-- src/common/global.c:755-1014 `globals_metadata`: names, identifiers (src/common/config.h:217-261) and types. -/
def settings : List (Text × Nat × GType) := [
  ("manually-enabled".toList, 1, .bool), ("pool6".toList, 2, .prefix6), ("lowest-ipv6-mtu".toList, 3, .u32),
  ("logging-debug".toList, 4, .bool), ("zeroize-traffic-class".toList, 5, .bool), ("override-tos".toList, 6, .bool),
  ("tos".toList, 7, .u8), ("mtu-plateaus".toList, 8, .plateaus), ("amend-udp-checksum-zero".toList, 9, .bool),
  ("eam-hairpin-mode".toList, 10, .hairpin), ("randomize-rfc6791-addresses".toList, 11, .bool),
  ("rfc6791v6-prefix".toList, 12, .prefix6), ("rfc6791v4-prefix".toList, 13, .prefix4),
  ("address-dependent-filtering".toList, 14, .bool), ("drop-externally-initiated-tcp".toList, 15, .bool),
  ("drop-icmpv6-info".toList, 16, .bool), ("source-icmpv6-errors-better".toList, 17, .bool), ("f-args".toList, 18, .u8),
  ("handle-rst-during-fin-rcv".toList, 19, .bool), ("tcp-est-timeout".toList, 20, .timeout),
  ("tcp-trans-timeout".toList, 21, .timeout), ("udp-timeout".toList, 22, .timeout), ("icmp-timeout".toList, 23, .timeout),
  ("logging-bib".toList, 24, .bool), ("logging-session".toList, 25, .bool),
  ("maximum-simultaneous-opens".toList, 26, .u32), ("ss-enabled".toList, 27, .bool), ("ss-flush-asap".toList, 28, .bool),
  ("ss-flush-deadline".toList, 29, .u32), ("ss-capacity".toList, 30, .u32), ("ss-max-payload".toList, 31, .u32),
  ("ss-max-sessions-per-packet".toList, 32, .u32)]

/-- src/common/global.c:602-685 `json2nl_bool`, `json2nl_u8`, `json2nl_u32`, `json2nl_string`, `json2nl_plateaus`: the value (the
types' functions are listed in 705-753). -/
def jsonVal (i : Inet) (ty : GType) (j : Json) : Option GVal :=
  match ty with
  | .bool => match j with | .bool b => some (.bool b) | _ => none
  | .u8 => (uint j 0 255).map (fun v => .u8 (BitVec.ofNat 8 v))
  | .u32 => (uint j 0 4294967295).map (fun v => .u32 (BitVec.ofNat 32 v))
  | .plateaus =>
    match j with
    | .arr l => (l.mapM (fun k => (uint k 0 65535).map (BitVec.ofNat 16))).map .plateaus
    | _ => none
  | .timeout | .prefix6 | .prefix4 | .hairpin =>
    match j with
    | .str s => Text.str2nl i s ty
    | .null => Text.str2nl i "null".toList ty
    | _ => none

/-- libnl's `nla_nest_start`, `nla_nest_end`; empty attributes are removed. -/
def uNest (cap ty : Nat) (ws : List Writer) : Writer := fun skb =>
  (nest cap ty ws skb).map (fun out => if out.length = skb.length + 4 then skb else out)

/-- The attribute. (If the message has no room it is thrown away, with whatever is already there.) -/
def putVal (cap id : Nat) : GVal → Writer
  | .bool b => putU8 cap id (if b then 1 else 0)
  | .u8 n => putU8 cap id n
  | .u32 n => putU32 cap id n
  | .timeout n => putU32 cap id n
  | .plateaus l => uNest cap id (l.map (putU16 cap ENTRY))
  | .prefix6 p => putPrefix6 cap id p
  | .prefix4 p => putPrefix4 cap id p
  | .hairpin m => putU8 cap id m

/-- usr/nl/file.c:195-218 `create_globals_meta`, 189-193 `write_global`. -/
def globalMeta (c : Ctx) : List (Meta (List Byte)) :=
  settings.map fun g => ⟨g.1, false, fun j out =>
    match jsonVal c.i g.2.2 j with
    | none => (out, .no)
    | some v => match putVal c.cap g.2.1 v out with | none => (out, .nomem) | some out => (out, .ok)⟩

/-- src/common/config.h:65-80 `JNLAR_GLOBALS`, `JNLAR_BL4_ENTRIES`, `JNLAR_EAMT_ENTRIES`, `JNLAR_POOL4_ENTRIES`, `JNLAR_BIB_ENTRIES`,
`JNLAR_ATOMIC_INIT`, `JNLAR_ATOMIC_END`. -/
def GLOBALS : Nat := 2
def DENY : Nat := 3
def EAMT : Nat := 4
def POOL4 : Nat := 5
def BIB : Nat := 6
def INIT : Nat := 12
def END : Nat := 13

/-- usr/nl/file.c:220-254 `handle_global`. -/
def handleGlobal (c : Ctx) (name : Text) (j : Json) (log : List Msg) : List Msg × St :=
  match Req.uHdr c.xt (some (bytes name)) c.flags with
  | none => (log, .no)
  | some hd =>
    match nestStart c GLOBALS with
    | none => (log, .nomem)
    | some out =>
      match handleObject j (globalMeta c) out with
      | (out, .ok) => send c (hd ++ nestEnd GLOBALS out) log
      | (_, st) => (log, st)

/-! ### The second pass -/

/-- usr/nl/file.c:464-467 `do_nothing`. -/
def doNothing {σ : Type} (_ : Json) (s : σ) : σ × St := (s, .ok)

/-- usr/nl/file.c:474-477 `handle_eamt_tag`, 371-389. -/
def eamtTag (c : Ctx) (name : Text) : Json → List Msg → List Msg × St :=
  handleArray c name EAMT (eamEntry c.i) (fun e => uPutEam c.cap ENTRY (some e.p6) (some e.p4))

/-- usr/nl/file.c:481-489 `handle_bl4_tag`, `handle_dl4_tag`, 391-406. -/
def denyTag (c : Ctx) (name : Text) : Json → List Msg → List Msg × St :=
  handleArray c name DENY (denyEntry c.i) (fun p => putPrefix4 c.cap ENTRY (some p))

/-- usr/nl/file.c:489-492 `handle_pool4_tag`, 408-435. -/
def pool4Tag (c : Ctx) (name : Text) : Json → List Msg → List Msg × St :=
  handleArray c name POOL4 (pool4Entry c.i) (fun e => uPutPool4 c.cap ENTRY e)

/-- usr/nl/file.c:494-497 `handle_bib_tag`, 437-458. -/
def bibTag (c : Ctx) (name : Text) : Json → List Msg → List Msg × St :=
  handleArray c name BIB (bibEntry c.i) (fun e => uPutBib c.cap ENTRY (some e.a6) (some e.a4) e.proto e.static)

/-- usr/nl/file.c:505-519 `parse_siit_json`: the table. -/
def siitMeta (c : Ctx) (name : Text) : List (Meta (List Msg)) := [
  ⟨"instance".toList, true, doNothing⟩,
  ⟨"framework".toList, true, doNothing⟩,
  ⟨"global".toList, false, handleGlobal c name⟩,
  ⟨"eamt".toList, false, eamtTag c name⟩,
  ⟨"blacklist4".toList, false, denyTag c name⟩,
  ⟨"denylist4".toList, false, denyTag c name⟩]

/-- usr/nl/file.c:521-534 `parse_nat64_json`: the table. -/
def nat64Meta (c : Ctx) (name : Text) : List (Meta (List Msg)) := [
  ⟨"instance".toList, true, doNothing⟩,
  ⟨"framework".toList, true, doNothing⟩,
  ⟨"global".toList, false, handleGlobal c name⟩,
  ⟨"pool4".toList, false, pool4Tag c name⟩,
  ⟨"bib".toList, false, bibTag c name⟩]

/-! ### The first pass -/

/-- src/common/config.c:129-144 `iname_validate`, of a string. -/
def nameOk (s : Text) : Bool := Req.inameOk (bytes s)

/-- usr/nl/file.c:542-564 `handle_instance_tag`. The state is `iname` and `flags`. -/
def instanceTag (opt : Option Text) (j : Json) (s : Option Text × BitVec 8) : (Option Text × BitVec 8) × St :=
  match j with
  | .str n =>
    if !nameOk n then (s, .no)
    else if opt.any (fun o => o != n) then (s, .no)
    else ((some n, s.2), .ok)
  | _ => (s, .no)

/-- usr/nl/file.c:566-584 `handle_framework_tag`; `XF_NETFILTER`, `XF_IPTABLES` are 4, 8 (src/common/types.h). -/
def frameworkTag (j : Json) (s : Option Text × BitVec 8) : (Option Text × BitVec 8) × St :=
  match j with
  | .str n =>
    if n = "netfilter".toList then ((s.1, s.2 ||| 4), .ok)
    else if n = "iptables".toList then ((s.1, s.2 ||| 8), .ok)
    else (s, .no)
  | _ => (s, .no)

/-- usr/nl/file.c:595-635 `prepare_instance`: the table. -/
def prepareMeta (opt : Option Text) : List (Meta (Option Text × BitVec 8)) := [
  ⟨"instance".toList, false, instanceTag opt⟩,
  ⟨"framework".toList, true, frameworkTag⟩,
  ⟨"global".toList, false, doNothing⟩,
  ⟨"eamt".toList, false, doNothing⟩,
  ⟨"blacklist4".toList, false, doNothing⟩,
  ⟨"denylist4".toList, false, doNothing⟩,
  ⟨"pool4".toList, false, doNothing⟩,
  ⟨"bib".toList, false, doNothing⟩]

/-- usr/nl/file.c:595-635 `prepare_instance`: name and flags. `opt` is the name of the command line. -/
def prepare (xt : BitVec 8) (opt : Option Text) (j : Json) : Got (Text × BitVec 8) :=
  if opt.any (fun o => !nameOk o) then .no
  else
    match handleObject j (prepareMeta opt) (none, xt) with
    | ((iname, flags), .ok) =>
      match iname, opt with
      | some n, _ => .ok (n, flags)
      | none, some n => .ok (n, flags)
      | none, none => .no
    | (_, .ub u) => .ub u
    | _ => .no

/-! ### The whole -/

/-- usr/nl/file.c:643-666 `send_ctrl_msg`. If the attribute does not fit, nothing is sent and the result is success. -/
def ctrl (c : Ctx) (name : Text) (w : Writer) (log : List Msg) : List Msg × St :=
  match Req.uHdr c.xt (some (bytes name)) 0 with
  | none => (log, .no)
  | some hd =>
    match w [] with
    | none => (log, .ok)
    | some b => send c (hd ++ b) log

/-- usr/nl/file.c:696-709, the second pass. -/
def second (c : Ctx) (name : Text) (flags : BitVec 8) (j : Json) (log : List Msg) : List Msg × St :=
  if flags &&& 3 = 1 then handleObject j (siitMeta c name) log
  else if flags &&& 3 = 2 then handleObject j (nat64Meta c name) log
  else (log, .no)

/-- usr/nl/file.c:688-717, of a file that could be parsed. -/
def load (c : Ctx) (opt : Option Text) (j : Json) : List Msg × St :=
  match prepare c.xt opt j with
  | .no => ([], .no)
  | .ub u => ([], .ub u)
  | .ok (name, flags) =>
    match ctrl c name (putU8 c.cap INIT (flags &&& 0x0C)) [] with
    | (log, .ok) =>
      match second c name flags j log with
      | (log, .ok) => ctrl c name (put c.cap END []) log
      | r => r
    | r => r

/-- usr/nl/file.c:668-718 `do_parsing`, 720-738 `joolnl_file_parse`: the messages that are sent, and the result. -/
def fileParse (c : Ctx) (opt : Option Text) (buf : Text) : List Msg × St :=
  match Json.parse buf with
  | .ub u => ([], .ub u)
  | .ok none => ([], .no)
  | .ok (some j) => load c opt j

/-- usr/nl/file.c:739-759 `__json_get_iname`: the name of the instance. `valuestring` of what is not a string is NULL. -/
def getIname : Json → Got Text
  | .obj l =>
    match l.find? (fun p => caseEq p.1 "instance".toList) with
    | some (_, .str s) => .ok s
    | some _ => .ub .nullDeref
    | none => .no
  | _ => .no

/-! ### The kernel module -/

open Jool.Xlator (Flags Glob Ns Name Env)

/-- What the databases do: `eamt_add`, `denylist4_add`, `pool4db_add`, `bib_add_static`, `global_update`. -/
structure Dbs (D : Type) where
  eam : Bool → Eam.Entry → D → D × Bool
  deny : Bool → Prefix4 → D → D × Bool
  pool4 : Bool → WPool4 → D → D × Bool
  bib : WBib → D → D → D × Bool
  globals : Flags → Bool → Globals.Attrs → Glob → Glob × Bool

/-- mod/atomic_config.c:196-207, 226-235, 254-265, 284-293: the loops of `handle_eamt`, `handle_denylist4`, `handle_pool4`,
`handle_bib`. (Reading is safe: C68.) -/
def addAll {α D : Type} (read : Option Attr → Res α) (add : α → D → D × Bool) : List Attr → D → D × Bool
  | [], d => (d, true)
  | a :: as, d =>
    if a.ty ≠ ENTRY then addAll read add as d
    else
      match read (some a) with
      | .ok e => if (add e d).2 then addAll read add as (add e d).1 else add e d
      | _ => (d, false)

/-- src/common/config.c:83-127 `siit_globals_policy`, `nat64_globals_policy`. -/
def globalsPol (xt : Flags) (id : Nat) : Option Pol :=
  if id ∈ [1, 4, 5, 6, 7] then some .u8
  else if id = 3 then some .u32
  else if id ∈ [2, 8] then some .nested
  else if xt = 1 then
    if id ∈ [9, 10, 11] then some .u8 else if id ∈ [12, 13] then some .nested else none
  else if xt = 2 then
    if id ∈ [14, 15, 16, 17, 18, 19, 24, 25, 27, 28] then some .u8
    else if id ∈ [20, 21, 22, 23, 26, 29, 30, 31, 32] then some .u32 else none
  else none

/-- The opinion on one attribute. -/
def globalOk (strict : Bool) (xt : Flags) (a : Attr) : Bool :=
  match globalsPol xt a.ty with
  | none => !strict
  | some p => kValid strict a p

/-- `nla_parse_nested` with this policy, which has gaps. (Strict validation refuses attributes whose policy is `NLA_UNSPEC`.) -/
def kParseGlobals (strict : Bool) (xt : Flags) (a : Attr) : Res (List Attr) :=
  if strict && !a.nested then .err .parse
  else if !((attrs a.data).1.all (globalOk strict xt)) then .err .parse
  else if strict && decide (0 < (attrs a.data).2) then .err .parse
  else .ok (attrs a.data).1

/-- What `nl2raw_*` find in the attribute: `nla_get_u8`, `nla_get_u32`, mod/nl/attribute.c:510-536 `jnla_get_plateaus` and
`jnla_get_prefix6_optional`, `jnla_get_prefix4_optional`. What cannot be read is a value that is refused. -/
def kVal (strict : Bool) (ty : GType) (a : Attr) : Globals.Val :=
  match ty with
  | .bool | .u8 | .hairpin => match getU8 (some a) with | .ok v => .u8 v | _ => .pfx6 none none
  | .u32 | .timeout => match getU32 (some a) with | .ok v => .u32 v | _ => .pfx6 none none
  | .plateaus =>
    match kParse strict [.u16] a.data with
    | .ok l => match mapRes (fun b => getU16 (some b)) l with | .ok l => .list l | _ => .pfx6 none none
    | _ => .pfx6 none none
  | .prefix6 =>
    match kPrefix6Opt strict (some a) with
    | .ok (some p) => .pfx6 (some (BitVec.ofNat 8 p.len)) (some p.addr)
    | .ok none => .pfx6 (some 0) none
    | _ => .pfx6 none none
  | .prefix4 =>
    match kPrefix4Opt strict (some a) with
    | .ok (some p) => .pfx4 (some (BitVec.ofNat 8 p.len)) (some p.addr)
    | .ok none => .pfx4 (some 0) none
    | _ => .pfx6 none none

/-- The attributes by identifier: mod/nl/global.c:156-170. -/
def kAttrs (strict : Bool) (tb : List Attr) : Globals.Attrs := fun id =>
  match Nla.get tb id, settings.find? (fun g => g.2.1 == id) with
  | some a, some g => some (kVal strict g.2.2 a)
  | _, _ => none

/-- What is not in a message: the client's namespace and process, and the circumstances. -/
structure Ext where
  ns : Ns
  pid : Nat
  env : Env
  now : BitVec 64
  strict : Bool

/-- mod/nl/atomic_config.c:8-20 `handle_atomconfig_request` and the parts of mod/atomic_config.c:315-375 `atomconfig_add` that read
the message. `none`: Generic Netlink refuses it. -/
def toReq {D : Type} (db : Dbs D) (e : Ext) (msg : Msg) : Option (Atomic.Req D) :=
  match Req.decHdr msg with
  | none => none
  | some (h, body) =>
    match kParse e.strict rootPolicy body with
    | .ok tb =>
      let force := h.flags &&& Req.FORCE != 0
      some {
        ns := e.ns, pid := e.pid, name := (Req.cstr h.iname).map (·.toNat), xt := h.xt, env := e.env, now := e.now
        init := (Nla.get tb INIT).map (fun a => match getU8 (some a) with | .ok v => v | _ => 0)
        globals := (Nla.get tb GLOBALS).map fun a f g =>
          match kParseGlobals e.strict f a with
          | .ok tb => db.globals f force (kAttrs e.strict tb) g
          | _ => (g, false)
        deny := (Nla.get tb DENY).map fun a => addAll (kPrefix4 e.strict) (db.deny force) (attrs a.data).1
        eamt := (Nla.get tb EAMT).map fun a => addAll (kEam e.strict) (db.eam force) (attrs a.data).1
        pool4 := (Nla.get tb POOL4).map fun a => addAll (kPool4 e.strict) (db.pool4 force) (attrs a.data).1
        bib := (Nla.get tb BIB).map fun a p => addAll (kBib e.strict) (fun x => db.bib x p) (attrs a.data).1
        fin := (Nla.get tb END).isSome }
    | _ => none

end Jool.File
