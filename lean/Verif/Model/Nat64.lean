import Verif.Model.Pool4
import Verif.Model.Rfc6052
import Verif.Model.Icmp
/-
Model of the path of a packet through a NAT64 instance: `src/mod/common/core.c`,
`src/mod/common/steps/determine_incoming_tuple.c`, `src/mod/common/steps/filtering_and_updating.c` (the state machine is
in `Verif.Model.TcpSM`), `src/mod/common/steps/compute_outgoing_tuple.c`,
`src/mod/common/steps/handling_hairpinning_nat64.c` and the parts of `src/mod/common/rfc7915/6to4.c` and
`src/mod/common/rfc7915/4to6.c` which write addresses, ports and ICMP identifiers.

It joins the models of pool4, of the BIB/session tables, of RFC 6052 and of the ICMP types.

Simplifications:
- Packets are already parsed (see `Verif.Model.Packet` for `pkt_init_ipv4` and `pkt_init_ipv6`). Only addresses, ports,
  identifiers, ICMP types and TCP flags are modelled; the other fields are in `Verif.Model.Header`.
- Whatever else can stop the translation of the packet (no route, no memory, time exceeded, packet too big…) is a
  parameter, `Ctx.fail`. So is the result of sending, `Ctx.sendFails`.
- The locks of the tables make each table operation atomic; the tables do not change between the operations of one packet.
  (They can: find_bib() might then use an entry which another packet just removed. See `compute6`.)
- joold, statistics other than the reason of a refusal, and log messages are not modelled here.
-/
namespace Jool.Nat64
open Jool.Bib (Table BibKey Masks Event)

abbrev Port := BitVec 16
abbrev Byte := BitVec 8

/-- The transport header of the packet inside of an ICMP error. -/
inductive InL4
  | tcp (s d : Port)
  | udp (s d : Port)
  | icmp (t c : Byte) (id : Port)
  | other
deriving DecidableEq, Repr

/-- The packet inside of an ICMP error. -/
structure Inner (A : Type) where
  src : A
  dst : A
  l4 : InL4
deriving DecidableEq, Repr

/-- The transport header. `inner`: for ICMP errors. -/
inductive L4 (A : Type)
  | tcp (s d : Port) (syn fin rst : Bool)
  | udp (s d : Port)
  | icmp (t c : Byte) (id : Port) (inner : Option (Inner A))
  | other
deriving DecidableEq, Repr

structure Pkt (A : Type) where
  src : A
  dst : A
  l4 : L4 A
deriving DecidableEq, Repr

/-- mod/types.h:85-126 `struct tuple`; `A` is `T6` or `T4`, which is the `l3_proto`. -/
structure Tuple (A : Type) where
  src : A
  dst : A
  proto : Proto
deriving DecidableEq, Repr

/-- mod/icmp_wrapper.h:24-34 `icmp_error_code`, without `ICMPERR_NONE`. -/
inductive IcmpErr
  | ADDR_UNREACHABLE | PORT_UNREACHABLE | PROTO_UNREACHABLE | TTL | FRAG_NEEDED | HDR_FIELD | SRC_ROUTE | FILTER
deriving DecidableEq, Repr

/-- Why the translation of a packet ends early: the verdict (mod/types.h:21-62), the statistic and the ICMP error
(mod/translation_state.c:45-83). -/
inductive Stop
  | untranslatable (stat : String) (icmp : Option IcmpErr)
  | drop (stat : String) (icmp : Option IcmpErr)
  | stolen
deriving DecidableEq, Repr

/-! ## Step 1 -/

/-- mod/steps/determine_incoming_tuple.c:198-254 `ipv6_icmp_err`. The ICMP identifier of the packet inside is read
whatever its type, as long as it isn't an error. -/
def tupleErr6 (i : Inner Addr6) : Except Stop (Tuple T6) :=
  match i.l4 with
  | .udp s d => .ok ⟨⟨i.dst, d⟩, ⟨i.src, s⟩, .UDP⟩
  | .tcp s d => .ok ⟨⟨i.dst, d⟩, ⟨i.src, s⟩, .TCP⟩
  | .icmp t _ id =>
    if Icmp.isIcmp6Error t then .error (.drop "DOUBLE_ICMP6_ERROR" none)
    else .ok ⟨⟨i.dst, id⟩, ⟨i.src, id⟩, .ICMP⟩
  | .other => .error (.untranslatable "UNKNOWN_PROTO_INNER" none)

/-- mod/steps/determine_incoming_tuple.c:156-196 `ipv6_udp`, `ipv6_tcp`, `ipv6_icmp_info`, 256-274 `ipv6_icmp`, and the
IPv6 half of 283-332 `determine_in_tuple`. (An ICMP error without a packet inside does not get here: mod/packet.c
refuses it.) -/
def tuple6 (p : Pkt Addr6) : Except Stop (Tuple T6) :=
  match p.l4 with
  | .udp s d => .ok ⟨⟨p.src, s⟩, ⟨p.dst, d⟩, .UDP⟩
  | .tcp s d _ _ _ => .ok ⟨⟨p.src, s⟩, ⟨p.dst, d⟩, .TCP⟩
  | .icmp t _ id inner =>
    if Icmp.isIcmp6Info t then .ok ⟨⟨p.src, id⟩, ⟨p.dst, id⟩, .ICMP⟩
    else if Icmp.isIcmp6Error t then
      match inner with
      | some i => tupleErr6 i
      | none => .error (.drop "UNKNOWN" none)
    else .error (.untranslatable "UNKNOWN_ICMP6_TYPE" none)
  | .other => .error (.untranslatable "UNKNOWN_L4_PROTO" (some .PROTO_UNREACHABLE))

/-- mod/steps/determine_incoming_tuple.c:88-137 `ipv4_icmp_err`. -/
def tupleErr4 (i : Inner Addr4) : Except Stop (Tuple T4) :=
  match i.l4 with
  | .udp s d => .ok ⟨⟨i.dst, d⟩, ⟨i.src, s⟩, .UDP⟩
  | .tcp s d => .ok ⟨⟨i.dst, d⟩, ⟨i.src, s⟩, .TCP⟩
  | .icmp t _ id =>
    if Icmp.isIcmp4Error t then .error (.drop "DOUBLE_ICMP4_ERROR" none)
    else .ok ⟨⟨i.dst, id⟩, ⟨i.src, id⟩, .ICMP⟩
  | .other => .error (.untranslatable "UNKNOWN_PROTO_INNER" none)

/-- mod/steps/determine_incoming_tuple.c:47-87 `ipv4_udp`, `ipv4_tcp`, `ipv4_icmp_info`, 138-154 `ipv4_icmp`, and the
IPv4 half of 283-332 `determine_in_tuple`. -/
def tuple4 (p : Pkt Addr4) : Except Stop (Tuple T4) :=
  match p.l4 with
  | .udp s d => .ok ⟨⟨p.src, s⟩, ⟨p.dst, d⟩, .UDP⟩
  | .tcp s d _ _ _ => .ok ⟨⟨p.src, s⟩, ⟨p.dst, d⟩, .TCP⟩
  | .icmp t _ id inner =>
    if Icmp.isIcmp4Info t then .ok ⟨⟨p.src, id⟩, ⟨p.dst, id⟩, .ICMP⟩
    else if Icmp.isIcmp4Error t then
      match inner with
      | some i => tupleErr4 i
      | none => .error (.drop "UNKNOWN" none)
    else .error (.untranslatable "UNKNOWN_ICMP4_TYPE" none)
  | .other => .error (.untranslatable "UNKNOWN_L4_PROTO" (some .PROTO_UNREACHABLE))

/-! ## The instance and the circumstances -/

/-- What is read from `struct xlator` and does not change while a packet is translated. `own`: is this a global address
of one of the namespace's interfaces. -/
structure Cfg where
  enabled : Bool
  pool6 : Option Prefix6
  dropIcmp6Info : Bool
  srcIcmp6errsBetter : Bool
  own : Addr4 → Bool

/-- What changes: `struct pool4` and the three tables of `struct bib`. -/
structure St where
  pool4 : Pool4.Pool
  tables : Proto → Table

/-- The circumstances of the translation of one packet. `env`: time, settings of the tables and failed allocations;
`skb`: the packet, as a reference to keep; `mark`: its mark; `hash`: the result of RFC 6056's F (mod/db/pool4/db.c:1123-1126), if it can
be computed; `masksOom`: the mask domain cannot be allocated; `route`: the source address that the routing of the outgoing
packet yields, or the refusal (only asked for when pool4 is empty); `fail`: whether something that is not modelled
stops the translation of the packet; `sendFails`: dst_output() fails. -/
structure Ctx where
  env : Bib.Env
  skb : Nat
  mark : BitVec 32
  hash : Option (BitVec 32)
  masksOom : Bool
  route : Except Stop Addr4
  fail : Option Stop
  sendFails : Bool

def St.set (s : St) (p : Proto) (t : Table) : St := { s with tables := fun q => if q = p then t else s.tables q }

/-! ## Step 2 -/

/-- mod/db/pool4/db.c:1115-1178 `mask_domain_find`, 1082-1113 `find_empty` and mod/db/pool4/empty.c:42-63
`pool4empty_find`: which refusal. Also returns the source address that was already decided: when pool4 is empty,
`predict_route64` (mod/rfc7915/6to4.c:337-355) fills `flowx` early, and never does it again. (A domain whose
counter is wrong is refused with `UNKNOWN` instead of `MASK_DOMAIN_NOT_FOUND`; that statistic is not modelled.) -/
def findMasks (s : St) (c : Ctx) (p : Proto) : Outcome (Except Stop (Masks × Option Addr4)) :=
  match c.hash with
  | none => .ok (.error (.drop "6056_F" none))
  | some h =>
    if Pool4.isEmpty s.pool4 then
      if c.masksOom then .ok (.error (.drop "ENOMEM" none))
      else match c.route with
        | .error e => .ok (.error e)
        | .ok a => .ok (.ok (Pool4.masks (Pool4.domainEmpty a h), some a))
    else
      (Pool4.domainFind s.pool4 p c.mark none h).map (fun d =>
        match d with
        | none => .error (.drop "MASK_DOMAIN_NOT_FOUND" none)
        | some d =>
          if c.masksOom then .error (.drop "MASK_DOMAIN_NOT_FOUND" none)
          else .ok (Pool4.masks d, none))

/-- What step 2 leaves: the tables, what they let go, the BIB entry if it is already known (`state->entries`), and the
source address if it is already known (`state->flowx`). -/
structure Fu where
  st : St
  ev : List Event
  res : Except Stop (Option BibKey)
  saddr : Option Addr4 := none

/-- mod/steps/filtering_and_updating.c:138-148, 457-459: what becomes of the result of a 6→4 table operation. -/
def result6 : Bib.Result → Except Stop (Option BibKey)
  | .cont b _ => .ok (some b)
  | .err _ => .error (.drop "BIB6_NOT_FOUND" none)
  | .drop w => .error (.drop w none)
  | .stolen => .error .stolen
  | .done => .error (.drop "UNKNOWN" none)

/-- mod/steps/filtering_and_updating.c:174-194, 477-480, and the ICMP error of mod/db/bib/db.c:1892-1897: what becomes of
the result of a 4→6 table operation. -/
def result4 : Bib.Result → Except Stop (Option BibKey)
  | .cont b _ => .ok (some b)
  | .err .ESRCH => .error (.untranslatable "BIB4_NOT_FOUND" (some .ADDR_UNREACHABLE))
  | .err .EPERM => .error (.drop "ADF" (some .FILTER))
  | .err _ => .error (.drop "UNKNOWN" none)
  | .drop w => if w = "SO_FULL" then .error (.drop w (some .PORT_UNREACHABLE)) else .error (.drop w none)
  | .stolen => .error .stolen
  | .done => .error (.drop "UNKNOWN" none)

def Fu.stop (s : St) (st : Stop) : Fu := { st := s, ev := [], res := .error st }

/-- The table operation of a packet from IPv6 (mod/steps/filtering_and_updating.c:136, 455). -/
def op6 (p : Pkt Addr6) (t : Tuple T6) (m : Masks) (dst4 : T4) : Bib.Op :=
  match p.l4 with
  | .tcp _ _ syn fin rst => .tcp6 m ⟨.V6, syn, fin, rst⟩ t.src t.dst dst4
  | _ => .add6 m t.src t.dst dst4

/-- mod/steps/filtering_and_updating.c:118-149 `ipv6_simple`, 437-460 `ipv6_tcp`, 97-106 `xlat_dst_6to4`. -/
def update6 (P : Prefix6) (s : St) (c : Ctx) (p : Pkt Addr6) (t : Tuple T6) : Outcome Fu :=
  match rfc6052_6to4 P t.dst.addr with
  | none => .ok (Fu.stop s (.drop "UNTRANSLATABLE_DST6" none))
  | some a =>
    (findMasks s c t.proto).bind (fun m =>
      match m with
      | .error e => .ok (Fu.stop s e)
      | .ok (m, saddr) =>
        (Bib.step t.proto (s.tables t.proto) c.env (op6 p t m ⟨a, t.dst.port⟩)).map (fun r =>
          { st := s.set t.proto r.1, ev := r.2.1, res := result6 r.2.2, saddr := saddr }))

def isError6 (p : Pkt Addr6) : Bool :=
  match p.l4 with
  | .icmp t _ _ _ => Icmp.isIcmp6Error t
  | _ => false

def isError4 (p : Pkt Addr4) : Bool :=
  match p.l4 with
  | .icmp t _ _ _ => Icmp.isIcmp4Error t
  | _ => false

/-- mod/steps/filtering_and_updating.c:490-587 `filtering_and_updating`, the IPv6 half. -/
def fu6 (cfg : Cfg) (P : Prefix6) (s : St) (c : Ctx) (p : Pkt Addr6) (t : Tuple T6) : Outcome Fu :=
  if prefix6Contains P p.src then .ok (Fu.stop s (.drop "HAIRPIN_LOOP" none))
  else if !prefix6Contains P p.dst then .ok (Fu.stop s (.untranslatable "POOL6_MISMATCH" none))
  else if isError6 p then .ok { st := s, ev := [], res := .ok none }
  else if t.proto = .ICMP ∧ cfg.dropIcmp6Info = true then .ok (Fu.stop s (.drop "ICMP6_FILTER" none))
  else update6 P s c p t

/-- The table operation of a packet from IPv4 (mod/steps/filtering_and_updating.c:172, 477). -/
def op4 (p : Pkt Addr4) (t : Tuple T4) (dst6 : T6) (skb : Nat) : Bib.Op :=
  match p.l4 with
  | .tcp _ _ syn fin rst => .tcp4 ⟨.V4, syn, fin, rst⟩ t.dst t.src dst6 skb
  | _ => .add4 t.dst t.src dst6

/-- mod/steps/filtering_and_updating.c:161-195 `ipv4_simple`, 465-481 `ipv4_tcp`. -/
def update4 (P : Prefix6) (s : St) (c : Ctx) (p : Pkt Addr4) (t : Tuple T4) : Outcome Fu :=
  match rfc6052_4to6 P t.src.addr with
  | none => .ok (Fu.stop s (.drop "UNTRANSLATABLE_DST4" none))
  | some a =>
    (Bib.step t.proto (s.tables t.proto) c.env (op4 p t ⟨a, t.src.port⟩ c.skb)).map (fun r =>
      { st := s.set t.proto r.1, ev := r.2.1, res := result4 r.2.2 })

/-- mod/steps/filtering_and_updating.c:490-587 `filtering_and_updating`, the IPv4 half. -/
def fu4 (cfg : Cfg) (P : Prefix6) (s : St) (c : Ctx) (p : Pkt Addr4) (t : Tuple T4) : Outcome Fu :=
  if !Pool4.contains cfg.own s.pool4 t.proto t.dst then .ok (Fu.stop s (.untranslatable "POOL4_MISMATCH" none))
  else if isError4 p then .ok { st := s, ev := [], res := .ok none }
  else update4 P s c p t

/-! ## Step 3 -/

/-- mod/steps/compute_outgoing_tuple.c:11-31 `find_bib`, 52-94 `compute_out_tuple` (IPv6 half), mod/db/bib/db.c:1900-1925
`bib_find`. -/
def compute6 (P : Prefix6) (s : St) (t : Tuple T6) (known : Option BibKey) : Except Stop (Tuple T4) :=
  match (match known with
    | some b => some b
    | none => Bib.find6 (s.tables t.proto) t.src) with
  | none => .error (.untranslatable "SESSION_NOT_FOUND" none)
  | some b =>
    match rfc6052_6to4 P t.dst.addr with
    | none => .error (.untranslatable "UNTRANSLATABLE_DST6" none)
    | some a => .ok ⟨b.src4, ⟨a, if t.proto = .ICMP then b.src4.port else t.dst.port⟩, t.proto⟩

/-- mod/steps/compute_outgoing_tuple.c:11-31 `find_bib`, 52-94 `compute_out_tuple` (IPv4 half). -/
def compute4 (P : Prefix6) (s : St) (t : Tuple T4) (known : Option BibKey) : Except Stop (Tuple T6) :=
  match (match known with
    | some b => some b
    | none => Bib.find4 (s.tables t.proto) t.dst) with
  | none => .error (.untranslatable "SESSION_NOT_FOUND" none)
  | some b =>
    match rfc6052_4to6 P t.src.addr with
    | none => .error (.untranslatable "UNTRANSLATABLE_DST4" none)
    | some a => .ok ⟨⟨a, if t.proto = .ICMP then b.src6.port else t.src.port⟩, b.src6, t.proto⟩

/-! ## Step 4 -/

/-- mod/rfc7915/6to4.c:1054-1066 `get_src_port64`, `get_dst_port64` for the packet inside, 1016-1018 the identifier, and
4to6.c:1340-1352, 1309-1312. `o`: ports of the outgoing tuple; `xl`: the ICMP type. -/
def innerL4 (xl : Byte → Byte → Option (Byte × Byte)) (src dst : Port) : InL4 → Option InL4
  | .tcp _ _ => some (.tcp dst src)
  | .udp _ _ => some (.udp dst src)
  | .icmp t c _ => (xl t c).map (fun r => .icmp r.1 r.2 src)
  | .other => some .other

/-- mod/rfc7915/core.c:55-101 `translating_the_packet` from IPv6: 6to4.c:31-48 `xlat64_external_addresses`, 50-80
`xlat64_internal_addresses`, 1054-1066 ports, 991-1052 `ttp64_icmp`. `saddr`: see `findMasks`. -/
def translate6 (c : Ctx) (p : Pkt Addr6) (o : Tuple T4) (saddr : Option Addr4) : Except Stop (Pkt Addr4) :=
  match c.fail with
  | some e => .error e
  | none =>
    let src := saddr.getD o.src.addr
    match p.l4 with
    | .tcp _ _ syn fin rst => .ok ⟨src, o.dst.addr, .tcp o.src.port o.dst.port syn fin rst⟩
    | .udp _ _ => .ok ⟨src, o.dst.addr, .udp o.src.port o.dst.port⟩
    | .other => .ok ⟨src, o.dst.addr, .other⟩
    | .icmp t code _ inner =>
      match Icmp.xlat64Type t code with
      | none => .error (.drop "UNKNOWN_ICMP6_TYPE" none)
      | some (t', code') =>
        if Icmp.isIcmp6Info t then .ok ⟨src, o.dst.addr, .icmp t' code' o.src.port none⟩
        else match inner with
          | none => .error (.drop "UNKNOWN" none)
          | some i =>
            match innerL4 Icmp.xlat64Type o.src.port o.dst.port i.l4 with
            | none => .error (.drop "UNKNOWN_ICMP6_TYPE" none)
            | some l => .ok ⟨src, o.dst.addr, .icmp t' code' 0 (some ⟨o.dst.addr, o.src.addr, l⟩)⟩

/-- mod/rfc7915/4to6.c:20-36 `generate_saddr6_nat64`. -/
def saddr6 (cfg : Cfg) (P : Prefix6) (p : Pkt Addr4) (o : Tuple T6) : Option Addr6 :=
  if cfg.srcIcmp6errsBetter && isError4 p then rfc6052_4to6 P p.src else some o.src.addr

/-- mod/rfc7915/core.c:55-101 `translating_the_packet` from IPv4: 4to6.c:38-56 `xlat46_external_addresses`, 58-87
`xlat46_internal_addresses`, 1340-1352 ports, 1285-1338 `ttp46_icmp`. -/
def translate4 (cfg : Cfg) (P : Prefix6) (c : Ctx) (p : Pkt Addr4) (o : Tuple T6) : Except Stop (Pkt Addr6) :=
  match c.fail with
  | some e => .error e
  | none =>
    match saddr6 cfg P p o with
    | none => .error (.drop "46_SRC" none)
    | some src =>
      match p.l4 with
      | .tcp _ _ syn fin rst => .ok ⟨src, o.dst.addr, .tcp o.src.port o.dst.port syn fin rst⟩
      | .udp _ _ => .ok ⟨src, o.dst.addr, .udp o.src.port o.dst.port⟩
      | .other => .ok ⟨src, o.dst.addr, .other⟩
      | .icmp t code _ inner =>
        match Icmp.xlat46Type t code with
        | none => .error (.drop "UNKNOWN_ICMP4_TYPE" none)
        | some (t', code') =>
          if Icmp.isIcmp4Info t then .ok ⟨src, o.dst.addr, .icmp t' code' o.src.port none⟩
          else match inner with
            | none => .error (.drop "UNKNOWN" none)
            | some i =>
              match innerL4 Icmp.xlat46Type o.src.port o.dst.port i.l4 with
              | none => .error (.drop "UNKNOWN_ICMP4_TYPE" none)
              | some l => .ok ⟨src, o.dst.addr, .icmp t' code' 0 (some ⟨o.dst.addr, o.src.addr, l⟩)⟩

/-! ## The whole path -/

/-- What becomes of a packet. `sent`: the translation left the translator, and the packet is freed; `stored`: the table
keeps the packet; `returned`: it continues its way through the kernel; `dropped`: with an ICMP error or without. -/
inductive Out
  | sent6 (q : Pkt Addr6)
  | sent4 (q : Pkt Addr4)
  | stored
  | returned (stat : String)
  | dropped (stat : String) (icmp : Option IcmpErr)
deriving DecidableEq, Repr

/-- mod/core.c:70-84 `send_icmp4_error`, 118-132 `send_icmp6_error`: no ICMP error if the verdict is "untranslatable".
(Should the ICMP error fail, that is the end of it.) -/
def Stop.out : Stop → Out
  | .untranslatable s _ => .returned s
  | .drop s i => .dropped s i
  | .stolen => .stored

/-- mod/core.c:45-54, mod/steps/handling_hairpinning_nat64.c:44-75: what happens on the second pass is only known by
its verdict; its ICMP error is in a `struct xlation` that is destroyed. -/
def Stop.out2 : Stop → Out
  | .untranslatable s _ => .returned s
  | .drop s _ => .dropped s none
  | .stolen => .stored

structure Res where
  st : St
  ev : List Event
  out : Out

/-- mod/steps/send_packet.c:8-51. -/
def send (c : Ctx) (o : Out) : Out := if c.sendFails then .dropped "DST_OUTPUT" none else o

/-- The end of the way of a packet from IPv4 (mod/core.c:39-56): the result is an IPv6 packet, so it is not a hairpin
(mod/steps/handling_hairpinning_nat64.c:17-34). -/
def finish4 (cfg : Cfg) (P : Prefix6) (c : Ctx) (p : Pkt Addr4) (t : Tuple T4) (f : Fu) (stop : Stop → Out) : Res :=
  match f.res with
  | .error e => ⟨f.st, f.ev, stop e⟩
  | .ok known =>
    match compute4 P f.st t known with
    | .error e => ⟨f.st, f.ev, stop e⟩
    | .ok o =>
      match translate4 cfg P c p o with
      | .error e => ⟨f.st, f.ev, stop e⟩
      | .ok q => ⟨f.st, f.ev, send c (.sent6 q)⟩

/-- mod/steps/handling_hairpinning_nat64.c:44-75 `handling_hairpinning_nat64`: the IPv4 packet `q` and its tuple `o`, as if
just received, without step 1. `none`: the `struct xlation` cannot be allocated. -/
def hairpin (cfg : Cfg) (P : Prefix6) (s : St) (c : Option Ctx) (q : Pkt Addr4) (o : Tuple T4) : Outcome Res :=
  match c with
  | none => .ok ⟨s, [], .dropped "hairpin" none⟩
  | some c => (fu4 cfg P s c q o).map (fun f => finish4 cfg P c q o f Stop.out2)

/-- mod/core.c:28-68 `core_common`, from IPv6. `c2`: the circumstances of the second pass of a hairpinning packet. -/
def common6 (cfg : Cfg) (P : Prefix6) (s : St) (c : Ctx) (c2 : Option Ctx) (p : Pkt Addr6) : Outcome Res :=
  match tuple6 p with
  | .error e => .ok ⟨s, [], e.out⟩
  | .ok t =>
    (fu6 cfg P s c p t).bind (fun f =>
      match f.res with
      | .error e => .ok ⟨f.st, f.ev, e.out⟩
      | .ok known =>
        match compute6 P f.st t known with
        | .error e => .ok ⟨f.st, f.ev, e.out⟩
        | .ok o =>
          match translate6 c p o f.saddr with
          | .error e => .ok ⟨f.st, f.ev, e.out⟩
          | .ok q =>
            if Pool4.contains cfg.own f.st.pool4 o.proto o.dst then
              (hairpin cfg P f.st c2 q o).map (fun r => { r with ev := f.ev ++ r.ev })
            else .ok ⟨f.st, f.ev, send c (.sent4 q)⟩)

/-- mod/core.c:28-68 `core_common`, from IPv4. -/
def common4 (cfg : Cfg) (P : Prefix6) (s : St) (c : Ctx) (p : Pkt Addr4) : Outcome Res :=
  match tuple4 p with
  | .error e => .ok ⟨s, [], e.out⟩
  | .ok t => (fu4 cfg P s c p t).map (fun f => finish4 cfg P c p t f Stop.out)

/-- mod/core.c:134-166 `core_6to4`, 14-26 `validate_xlator`. -/
def core6 (cfg : Cfg) (s : St) (c : Ctx) (c2 : Option Ctx) (p : Pkt Addr6) : Outcome Res :=
  if !cfg.enabled then .ok ⟨s, [], .returned "XLATOR_DISABLED"⟩
  else match cfg.pool6 with
    | none => .ok ⟨s, [], .returned "POOL6_UNSET"⟩
    | some P => common6 cfg P s c c2 p

/-- mod/core.c:86-116 `core_4to6`, 14-26 `validate_xlator`. -/
def core4 (cfg : Cfg) (s : St) (c : Ctx) (p : Pkt Addr4) : Outcome Res :=
  if !cfg.enabled then .ok ⟨s, [], .returned "XLATOR_DISABLED"⟩
  else match cfg.pool6 with
    | none => .ok ⟨s, [], .returned "POOL6_UNSET"⟩
    | some P => common4 cfg P s c p

/-! ## Histories -/

/-- What can happen to an instance. `table`: an administrator's request, a joold message or a sweep of the timer. -/
inductive Op
  | pkt6 (cfg : Cfg) (c : Ctx) (c2 : Option Ctx) (p : Pkt Addr6)
  | pkt4 (cfg : Cfg) (c : Ctx) (p : Pkt Addr4)
  | table (p : Proto) (e : Bib.Env) (o : Bib.Op)
  | pool (o : Pool4.Op)

/-- One event of the life of an instance. -/
def step (s : St) : Op → Outcome (St × Option Out)
  | .pkt6 cfg c c2 p => (core6 cfg s c c2 p).map (fun r => (r.st, some r.out))
  | .pkt4 cfg c p => (core4 cfg s c p).map (fun r => (r.st, some r.out))
  | .table p e o => (Bib.step p (s.tables p) e o).map (fun r => (s.set p r.1, none))
  | .pool o => (Pool4.step s.pool4 o).map (fun r => ({ s with pool4 := r.1 }, none))

def run (s : St) : List Op → Outcome St
  | [] => .ok s
  | o :: rest => (step s o).bind (fun r => run r.1 rest)

/-- mod/xlator.c:290-323 `init_nat64`: a new instance. -/
def init : St := ⟨Pool4.empty, fun _ => Bib.init⟩

end Jool.Nat64
