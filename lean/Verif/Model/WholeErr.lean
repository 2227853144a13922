import Verif.Model.Whole
import Verif.Model.WireErr
/-
ICMP errors through a NAT64 instance, from bytes to bytes: Verif.Model.Whole for the packets that have another packet inside (Verif.Model.WireErr).

Simplifications: those of Verif.Model.Whole and Verif.Model.WireErr. (An error that turns out to be a hairpin ends as `Fate.hairpin`.)
-/
namespace Jool.Whole
open Jool.Pkt (Byte L4 Meta Acc at8 at16)
open Jool.Nat64 (Stop St Fu Tuple)

/-- What mod/steps/determine_incoming_tuple.c:88-137 `ipv4_icmp_err` and 198-254 `ipv6_icmp_err` read of the transport header of the packet inside. -/
def inL4 (a : Acc) (i : Meta) : Nat64.InL4 :=
  let d := a.skb.data
  match i.proto with
  | L4.tcp => .tcp (port d i.l4) (port d (i.l4 + 2))
  | L4.udp => .udp (port d i.l4) (port d (i.l4 + 2))
  | L4.icmp => .icmp (at8 d i.l4) (at8 d (i.l4 + 1)) (port d (i.l4 + 4))
  | L4.other => .other

/-- The error as mod/steps/determine_incoming_tuple.c:283-332 `determine_in_tuple` sees it. The packet inside begins where the ICMP header ends. -/
def err6 (a : Acc) (i : Meta) : Nat64.Pkt Addr6 :=
  let d := a.skb.data
  let k := Wire.ip6 (d.drop a.m.pay)
  ⟨(Wire.ip6 d).src, (Wire.ip6 d).dst, .icmp (at8 d a.m.l4) (at8 d (a.m.l4 + 1)) (port d (a.m.l4 + 4)) (some ⟨k.src, k.dst, inL4 a i⟩)⟩
def err4 (a : Acc) (i : Meta) : Nat64.Pkt Addr4 :=
  let d := a.skb.data
  let k := Wire.ip4 (d.drop a.m.pay)
  ⟨(Wire.ip4 d).src, (Wire.ip4 d).dst, .icmp (at8 d a.m.l4) (at8 d (a.m.l4 + 1)) (port d (a.m.l4 + 4)) (some ⟨k.src, k.dst, inL4 a i⟩)⟩

/-- The packet inside goes the other way: mod/rfc7915/6to4.c:1054-1066 `get_src_port64`, `get_dst_port64`, 4to6.c:1340-1352, if `pkt_is_inner`. -/
def turned (y : Wire.ErrCtx) (s d : BitVec 16) : Wire.ErrCtx := { y with ports := some (d, s) }

/-- mod/core.c:28-68 `core_common`, from IPv6, from step 3 on, for an error. The addresses of the packet inside: mod/rfc7915/6to4.c:50-80 `xlat64_internal_addresses`. -/
def endErr6 (cfg : Nat64.Cfg) (P : Prefix6) (c : Nat64.Ctx) (x : Wire.Ctx) (y : Wire.ErrCtx) (sel2 : BitVec 16) (segleft : Option Nat) (p : Build.P) (a : Acc) (i : Meta)
    (t : Tuple T6) (f : Fu) : Outcome Res :=
  match f.res with
  | .error e => .ok ⟨f.st, f.ev, .stop e⟩
  | .ok known =>
    match Nat64.compute6 P f.st t known with
    | .error e => .ok ⟨f.st, f.ev, .stop e⟩
    | .ok o =>
      match c.fail with
      | some e => .ok ⟨f.st, f.ev, .stop e⟩
      | none =>
        (Wire.translateErr64 (assign x o.src.port o.dst.port) (turned y o.src.port o.dst.port) (f.saddr.getD o.src.addr) o.dst.addr o.dst.addr o.src.addr sel2 segleft p a i).map
          (leave c f (fun b => if Pool4.contains cfg.own f.st.pool4 o.proto o.dst then .hairpin b o else .sent b))

/-- mod/core.c:28-68 `core_common`, from IPv6, for an error that was accepted. -/
def passErr6 (cfg : Nat64.Cfg) (P : Prefix6) (s : St) (c : Nat64.Ctx) (x : Wire.Ctx) (y : Wire.ErrCtx) (sel2 : BitVec 16) (segleft : Option Nat) (p : Build.P) (a : Acc) (i : Meta) :
    Outcome Res :=
  match Nat64.tuple6 (err6 a i) with
  | .error e => .ok ⟨s, [], .stop e⟩
  | .ok t => (Nat64.fu6 cfg P s c (err6 a i) t).bind (endErr6 cfg P c x y sel2 segleft p a i t)

/-- mod/core.c:28-68 `core_common`, from IPv4, from step 3 on, for an error. The addresses of the packet inside: mod/rfc7915/4to6.c:58-87 `xlat46_internal_addresses`. -/
def endErr4 (cfg : Nat64.Cfg) (P : Prefix6) (c : Nat64.Ctx) (x : Wire.Ctx) (y : Wire.ErrCtx) (p : Build.P) (a : Acc) (i : Meta) (t : Tuple T4) (f : Fu) : Outcome Res :=
  match f.res with
  | .error e => .ok ⟨f.st, f.ev, .stop e⟩
  | .ok known =>
    match Nat64.compute4 P f.st t known with
    | .error e => .ok ⟨f.st, f.ev, .stop e⟩
    | .ok o =>
      match c.fail with
      | some e => .ok ⟨f.st, f.ev, .stop e⟩
      | none =>
        match Nat64.saddr6 cfg P (err4 a i) o with
        | none => .ok ⟨f.st, f.ev, .stop (.drop "46_SRC" none)⟩
        | some src =>
          (Wire.translateErr46 (assign x o.src.port o.dst.port) (turned y o.src.port o.dst.port) src o.dst.addr o.dst.addr o.src.addr p a i).map (leave c f .sent)

/-- mod/core.c:28-68 `core_common`, from IPv4, for an error that was accepted. -/
def passErr4 (cfg : Nat64.Cfg) (P : Prefix6) (s : St) (c : Nat64.Ctx) (x : Wire.Ctx) (y : Wire.ErrCtx) (p : Build.P) (a : Acc) (i : Meta) : Outcome Res :=
  match Nat64.tuple4 (err4 a i) with
  | .error e => .ok ⟨s, [], .stop e⟩
  | .ok t => (Nat64.fu4 cfg P s c (err4 a i) t).bind (endErr4 cfg P c x y p a i t)

end Jool.Whole
