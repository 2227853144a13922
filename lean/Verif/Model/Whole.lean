import Verif.Model.Nat64
import Verif.Model.Wire
/-
A NAT64 instance, from bytes to bytes: the model of the tables and tuples (Verif.Model.Nat64) joined with the model of the bytes of one packet (Verif.Model.Wire), in
the order of `src/mod/common/core.c`. What was a parameter of each of them (a packet already parsed; addresses, ports and identifier already chosen) is what the
other one computes.

Simplifications:
- Not ICMP errors, and no second pass: a packet that turns out to be a hairpin ends as `Fate.hairpin`.
- As in Verif.Model.Nat64: the tables do not change between the operations of one packet, and reasons to stop which are not modelled are a parameter (`Nat64.Ctx.fail`).
-/
namespace Jool.Whole
open Jool.Pkt (Byte L4 Acc at8 at16)
open Jool.Nat64 (Stop St Fu Tuple)
open Jool.Bib (Event)

/-- A 16-bit field of a transport header: `be16_to_cpu(pkt_udp_hdr(pkt)->source)` etc. -/
def port (d : List Byte) (i : Nat) : BitVec 16 := BitVec.ofNat 16 (at16 d i)

/-- One bit of a byte: Linux `struct tcphdr`, the flags, which mod/steps/filtering_and_updating.c reads. -/
def bit (b : Byte) (i : Nat) : Bool := b.getLsbD i

/-- What the steps read of the transport header: mod/steps/determine_incoming_tuple.c:47-87, 156-196 (ports, identifier), 138-154, 256-274 (the type); the flags of
Linux `struct tcphdr` are FIN (bit 0 of byte 13), SYN (bit 1) and RST (bit 2). The first bytes of the transport header are read even if the packet is a fragment
that doesn't have one. -/
def l4 (A : Type) (a : Acc) : Nat64.L4 A :=
  let d := a.skb.data
  let o := a.m.l4
  match a.m.proto with
  | L4.tcp => .tcp (port d o) (port d (o + 2)) (bit (at8 d (o + 13)) 1) (bit (at8 d (o + 13)) 0) (bit (at8 d (o + 13)) 2)
  | L4.udp => .udp (port d o) (port d (o + 2))
  | L4.icmp => .icmp (at8 d o) (at8 d (o + 1)) (port d (o + 4)) none
  | L4.other => .other

/-- The packet as mod/steps/determine_incoming_tuple.c:283-332 `determine_in_tuple` sees it. -/
def pkt6 (a : Acc) : Nat64.Pkt Addr6 := ⟨(Wire.ip6 a.skb.data).src, (Wire.ip6 a.skb.data).dst, l4 Addr6 a⟩
def pkt4 (a : Acc) : Nat64.Pkt Addr4 := ⟨(Wire.ip4 a.skb.data).src, (Wire.ip4 a.skb.data).dst, l4 Addr4 a⟩

/-- The outgoing tuple decides ports and identifier: mod/rfc7915/6to4.c:1054-1066 `get_src_port64`, `get_dst_port64`, 1016-1018, and 4to6.c:1340-1352, 1309-1312. -/
def assign (x : Wire.Ctx) (s d : BitVec 16) : Wire.Ctx := { x with nat64 := true, hairpin := false, ports := some (s, d), id := some s }

/-- What becomes of a packet. `cut`: the translation of its headers drops it (hop limit, source route, type that has no translation…). -/
inductive Fate
  | stop (e : Stop)
  | cut
  | hairpin (o : List Byte) (t : Tuple T4)
  | sent (o : List Byte)

structure Res where
  st : St
  ev : List Event
  fate : Fate

/-- mod/steps/send_packet.c:8-51, or the second pass. -/
def leave (c : Nat64.Ctx) (f : Fu) (fate : List Byte → Fate) : Option (List Byte) → Res
  | none => ⟨f.st, f.ev, .cut⟩
  | some o => ⟨f.st, f.ev, match fate o with
    | .sent o => if c.sendFails then .stop (.drop "DST_OUTPUT" none) else .sent o
    | g => g⟩

/-- mod/core.c:28-68 `core_common`, from IPv6, from step 3 on. -/
def end6 (cfg : Nat64.Cfg) (P : Prefix6) (c : Nat64.Ctx) (x : Wire.Ctx) (segleft : Option Nat) (p : Build.P) (a : Acc) (t : Tuple T6) (f : Fu) : Outcome Res :=
  match f.res with
  | .error e => .ok ⟨f.st, f.ev, .stop e⟩
  | .ok known =>
    match Nat64.compute6 P f.st t known with
    | .error e => .ok ⟨f.st, f.ev, .stop e⟩
    | .ok o =>
      match c.fail with
      | some e => .ok ⟨f.st, f.ev, .stop e⟩
      | none =>
        (Wire.translate64 (assign x o.src.port o.dst.port) (f.saddr.getD o.src.addr) o.dst.addr segleft p a).map
          (leave c f (fun b => if Pool4.contains cfg.own f.st.pool4 o.proto o.dst then .hairpin b o else .sent b))

/-- mod/core.c:28-68 `core_common`, from IPv6, for a packet that was accepted. -/
def pass6 (cfg : Nat64.Cfg) (P : Prefix6) (s : St) (c : Nat64.Ctx) (x : Wire.Ctx) (segleft : Option Nat) (p : Build.P) (a : Acc) : Outcome Res :=
  match Nat64.tuple6 (pkt6 a) with
  | .error e => .ok ⟨s, [], .stop e⟩
  | .ok t => (Nat64.fu6 cfg P s c (pkt6 a) t).bind (end6 cfg P c x segleft p a t)

/-- mod/core.c:28-68 `core_common`, from IPv4, from step 3 on. -/
def end4 (cfg : Nat64.Cfg) (P : Prefix6) (c : Nat64.Ctx) (x : Wire.Ctx) (p : Build.P) (a : Acc) (t : Tuple T4) (f : Fu) : Outcome Res :=
  match f.res with
  | .error e => .ok ⟨f.st, f.ev, .stop e⟩
  | .ok known =>
    match Nat64.compute4 P f.st t known with
    | .error e => .ok ⟨f.st, f.ev, .stop e⟩
    | .ok o =>
      match c.fail with
      | some e => .ok ⟨f.st, f.ev, .stop e⟩
      | none =>
        match Nat64.saddr6 cfg P (pkt4 a) o with
        | none => .ok ⟨f.st, f.ev, .stop (.drop "46_SRC" none)⟩
        | some src => (Wire.translate46 (assign x o.src.port o.dst.port) src o.dst.addr p a).map (leave c f .sent)

/-- mod/core.c:28-68 `core_common`, from IPv4, for a packet that was accepted. -/
def pass4 (cfg : Nat64.Cfg) (P : Prefix6) (s : St) (c : Nat64.Ctx) (x : Wire.Ctx) (p : Build.P) (a : Acc) : Outcome Res :=
  match Nat64.tuple4 (pkt4 a) with
  | .error e => .ok ⟨s, [], .stop e⟩
  | .ok t => (Nat64.fu4 cfg P s c (pkt4 a) t).bind (end4 cfg P c x p a t)

end Jool.Whole
