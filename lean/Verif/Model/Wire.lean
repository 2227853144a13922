import Verif.Model.Build
import Verif.Model.Header
import Verif.Model.Csum
/-
The whole translation of one packet that is not an ICMP error, from bytes to bytes. Nothing new happens here: the models of the fields of the headers
(Verif.Model.Header), of types and codes (Verif.Model.Icmp), of checksums (Verif.Model.Csum) and of the memory (Verif.Model.Build) are put together, in the order of
`src/mod/common/rfc7915/core.c`.

Simplifications:
- The addresses (and, in NAT64, ports or identifier) that the packet gets are parameters: RFC 6052, the EAM table and the BIB are modelled elsewhere.
- `allocate_slow` (4to6.c) is not here.
- IPv4 packets of protocol 58 and IPv6 packets of next header 1 are out of scope: the flow computation (`compute_flowix46`, `compute_flowix64`) takes their payload for an
  ICMP message, and goes on as if it was one (Verif.Model.Packet, `flowReads`). For all the others, that computation does not decide anything that is not decided here.
- A packet whose checksum is left to the hardware (CHECKSUM_PARTIAL) is completed at the end (`leave`), by contract of the kernel (`Csum.finish`).
-/
namespace Jool.Wire
open Jool.Pkt (Byte L4 Meta Acc at8 at16 first4)
open Jool.Csum (Kernel Summed)

/-! ## Headers are bytes -/

/-- The number that some bytes are, the highest one first. -/
def num (l : List Byte) : Nat := l.foldl (fun a b => a * 256 + b.toNat) 0

/-- Linux `struct iphdr`: what mod/packet.h:265-268 `pkt_ip4_hdr` points at. -/
def ip4 (d : List Byte) : Hdr.Ip4 :=
  { tos := at8 d 1, totLen := BitVec.ofNat 16 (at16 d 2), id := BitVec.ofNat 16 (at16 d 4), fragOff := BitVec.ofNat 16 (at16 d 6),
    ttl := at8 d 8, proto := at8 d 9, src := BitVec.ofNat 32 (num ((d.drop 12).take 4)), dst := BitVec.ofNat 32 (num ((d.drop 16).take 4)) }

/-- Linux `struct ipv6hdr`: what mod/packet.h:271-274 `pkt_ip6_hdr` points at. -/
def ip6 (d : List Byte) : Hdr.Ip6 :=
  { priority := (at8 d 0).setWidth 4, flowLbl0 := at8 d 1, flowLbl1 := at8 d 2, flowLbl2 := at8 d 3, payloadLen := BitVec.ofNat 16 (at16 d 4),
    next := at8 d 6, hop := at8 d 7, src := BitVec.ofNat 128 (num ((d.drop 8).take 16)), dst := BitVec.ofNat 128 (num ((d.drop 24).take 16)) }

/-- Linux `struct frag_hdr`: what mod/packet.h:306-311 `pkt_frag_hdr` points at. -/
def frag (l : List Byte) : Hdr.Frag :=
  { next := at8 l 0, reserved := at8 l 1, fragOff := BitVec.ofNat 16 (at16 l 2), id := BitVec.ofNat 32 (num ((l.drop 4).take 4)) }

/-- The fields of an IPv6 header, written one by one: mod/rfc7915/4to6.c:855-902. -/
def bytes6 (h : Hdr.Ip6) : List Byte :=
  [6#4 ++ h.priority, h.flowLbl0, h.flowLbl1, h.flowLbl2] ++ Csum.be16 h.payloadLen ++ [h.next, h.hop] ++ Csum.be128 h.src ++ Csum.be128 h.dst

/-- The fields of a fragment header: mod/rfc7915/4to6.c:889-898. -/
def bytesFrag (f : Hdr.Frag) : List Byte := [f.next, f.reserved] ++ Csum.be16 f.fragOff ++ Csum.be32 f.id

/-- The fields of an IPv4 header (version 4, ihl 5), then the checksum: mod/rfc7915/6to4.c:646-666. -/
def bytes4 (K : Kernel) (h : Hdr.Ip4) : List Byte :=
  Csum.ipHeader K ([0x45#8, h.tos] ++ Csum.be16 h.totLen ++ Csum.be16 h.id ++ Csum.be16 h.fragOff ++ [h.ttl, h.proto, 0#8, 0#8] ++ Csum.be32 h.src ++ Csum.be32 h.dst)

/-! ## What decides the result, besides the packet -/

/-- `ports`, `id`: what NAT64 assigned; `none` in SIIT. `amend`: `--amend-udp-checksum-zero`. `sm`: `skb->ip_summed` of the incoming packet. `sel`: what
`__ip_select_ident` picks. `route`: what `has_unexpired_src_route` says (Verif.Model.Options). `gso`: `gso_size`; `fragList`: whether the packet has a `frag_list`. -/
structure Ctx where
  K : Kernel
  cfg : Hdr.Cfg
  sm : Summed
  nat64 : Bool
  amend : Bool
  hairpin : Bool
  ports : Option (BitVec 16 × BitVec 16)
  id : Option (BitVec 16)
  sel : BitVec 16
  route : Bool
  gso : Nat
  fragList : Bool
  env : Build.Env
  ll : Nat

/-- Exactly `n` bytes. -/
def fit (n : Nat) (l : List Byte) : List Byte := (l ++ List.replicate n 0#8).take n

/-- The values of the headers, once the transport segment is known. -/
def vals (x : Ctx) (l3 : Option (List Byte) → List Byte) (fr seg : List Byte) : Build.Vals :=
  { l3 := l3, frag := fr, ports := x.ports.map (fun p => Csum.be16 p.1 ++ Csum.be16 p.2), tcp := fit 2 (seg.drop 16), udp := fit 2 (seg.drop 6), icmp := fit 8 seg,
    sum := [0#8, 0#8], ipsum := [0#8, 0#8] }

def given (x : Ctx) (v : Build.Vals) : Build.Given :=
  { env := x.env, vals := fun _ => v, partially := x.sm = Summed.partial_, ll := x.ll }

/-- What the hardware or `skb_checksum_help` does to a packet that leaves with CHECKSUM_PARTIAL. `l4`: `csum_start`, from the beginning of the packet. -/
def leave (K : Kernel) (sm : Summed) (proto : L4) (l4 : Nat) (o : List Byte) : List Byte :=
  if sm = Summed.partial_ then
    match proto with
    | L4.tcp => o.take l4 ++ Csum.finish K 16 (o.drop l4)
    | L4.udp => o.take l4 ++ Csum.finish K 6 (o.drop l4)
    | _ => o
  else o

/-! ## 4 to 6 -/

/-- The transport segment: mod/rfc7915/4to6.c:1288-1338 (echoes), 1443-1532. `none`: dropped. -/
def seg46 (x : Ctx) (s6 d6 : BitVec 128) (a : Acc) : Option (List Byte × Summed) :=
  let d := a.skb.data
  let seg := d.drop a.m.l4
  match a.m.proto with
  | L4.tcp =>
    let o := Csum.tcp46 x.K x.sm x.ports (ip4 d).src (ip4 d).dst seg [] s6 d6
    some (o.seg, o.summed)
  | L4.udp => (Csum.udp46 x.K x.sm x.nat64 (Hdr.mf4 (ip4 d)) x.amend x.ports (ip4 d).src (ip4 d).dst seg [] s6 d6).map (fun o => (o.seg, o.summed))
  | L4.icmp => (Icmp.xlat46Type (at8 seg 0) (at8 seg 1)).map (fun t => (Csum.echo46 x.K t.1 t.2 x.id s6 d6 seg, x.sm))
  | L4.other => some (seg, x.sm)

/-- mod/rfc7915/core.c:55-100 `translating_the_packet` with the steps of 4to6.c: the bytes that leave. `none`: dropped. `p`: the incoming packet in memory;
`a`: what packet.c found out about it. -/
def translate46 (x : Ctx) (s6 d6 : BitVec 128) (p : Build.P) (a : Acc) : Outcome (Option (List Byte)) :=
  let d := a.skb.data
  let h := ip4 d
  let l3 := 40 + if Hdr.needsFrag h then 8 else 0
  if x.route then .ok none
  else match Hdr.common46 x.cfg h true x.hairpin false (BitVec.ofNat 16 (l3 - 40 + (d.length - a.m.l4))) s6 d6 with
  | .ok (h6, f) =>
    match if first4 d 0 then seg46 x s6 d6 a else some (d.drop a.m.l4, x.sm) with
    | none => .ok none
    | some (seg, sm) => do
      let r ← Build.xlat46 (given x (vals x (fun _ => bytes6 h6) (bytesFrag (f.getD ⟨0, 0, 0, 0⟩)) seg)) p
      pure (r.map (fun s => if first4 d 0 then leave x.K sm a.m.proto l3 s.pout.skb.bytes else s.pout.skb.bytes))
  | _ => .ok none

/-! ## 6 to 4 -/

/-- The transport segment: mod/rfc7915/6to4.c:996-1052 (echoes), 1107-1178. `none`: dropped. -/
def seg64 (x : Ctx) (s4 d4 : BitVec 32) (a : Acc) : Option (List Byte × Summed) :=
  let d := a.skb.data
  let seg := d.drop a.m.l4
  match a.m.proto with
  | L4.tcp =>
    let o := Csum.tcp64 x.K x.sm x.ports (ip6 d).src (ip6 d).dst seg s4 d4
    some (o.seg, o.summed)
  | L4.udp =>
    let o := Csum.udp64 x.K x.sm x.ports (ip6 d).src (ip6 d).dst seg s4 d4
    some (o.seg, o.summed)
  | L4.icmp => (Icmp.xlat64Type (at8 seg 0) (at8 seg 1)).map (fun t => (Csum.echo64 x.K t.1 t.2 x.id (ip6 d).src (ip6 d).dst seg, x.sm))
  | L4.other => some (seg, x.sm)

/-- What `generate_df_flag` looks at, for the packet that is being written. -/
def dfIn (x : Ctx) (a : Acc) : Hdr.DfIn :=
  { inner := false, totLen := 0, fragList := x.fragList, gso := x.gso, tcp := a.m.proto = L4.tcp, hdrsLen := 20 + (a.m.pay - a.m.l4), len := 20 + (a.skb.data.length - a.m.l4) }

/-- The IPv4 header. `f`: the fragment header, if there is one; `last`: the type of the last header of the chain. `none`: dropped. -/
def l364 (x : Ctx) (s4 d4 : BitVec 32) (segleft : Option Nat) (last : Byte) (a : Acc) (f : Option (List Byte)) : Option (List Byte) :=
  match Hdr.ext64 x.cfg (ip6 a.skb.data) (f.map frag) last segleft (dfIn x a) x.sel s4 d4 with
  | .ok h => some (bytes4 x.K h)
  | _ => none

/-- mod/rfc7915/core.c:55-100 `translating_the_packet` with the steps of 6to4.c: the bytes that leave. `segleft`: what `has_nonzero_segments_left` finds. -/
def translate64 (x : Ctx) (s4 d4 : BitVec 32) (segleft : Option Nat) (p : Build.P) (a : Acc) : Outcome (Option (List Byte)) :=
  let d := a.skb.data
  match Pkt.last6 a.skb 0 with
  | none => .ub .outOfBounds
  | some last =>
    match l364 x s4 d4 segleft last.1 a none with
    | none => .ok none
    | some _ =>
      match if Pkt.isFirst6 d a.m then seg64 x s4 d4 a else some (d.drop a.m.l4, x.sm) with
      | none => .ok none
      | some (seg, sm) => do
        let r ← Build.xlat64 (given x (vals x (fun f => (l364 x s4 d4 segleft last.1 a f).getD (List.replicate 20 0#8)) [0#8, 0#8, 0#8, 0#8, 0#8, 0#8, 0#8, 0#8] seg)) p
        pure (r.map (fun s => if Pkt.isFirst6 d a.m then leave x.K sm a.m.proto 20 s.pout.skb.bytes else s.pout.skb.bytes))

end Jool.Wire
