import Verif.Model.Wire
/-
IPv4 packets that are too big: which of the two ways `ttp46_alloc_skb` goes, and the translation of a packet that has to be split, from bytes to bytes. As in
Verif.Model.Wire, the models of the headers, of the checksums and of the memory are put together.

Simplifications:
- The incoming packet is one `sk_buff`, without a `frag_list` and not the result of GRO (what `Hdr.exceeds46` does with those is C39).
- `compute_flowix46`, `predict_route46`: see Verif.Model.Wire and C43, C46. `nexthop` is `dst_mtu` of the route.
- `alloc_skb` does not fail (what happens then is C75).
-/
namespace Jool.Wire
open Jool.Pkt (Byte L4 Acc at8 first4)
open Jool.Csum (Kernel Summed)

/-- The transport segment of a packet that is split in pieces of `per` bytes, and `ip_summed` of the first one: mod/rfc7915/4to6.c:1288-1338 (echoes), 1443-1532. The checksum
functions get the first piece (`pkt_tcp_hdr(out)`), and `skb_list_csum` goes through all of them (4to6.c:1357-1379); only the length of an echo is that of the incoming
packet (4to6.c:1139-1141). The outgoing packets are new (4to6.c:506): CHECKSUM_NONE, unless `partialize_skb` says something else (4to6.c:1477, 1531). `none`: dropped. -/
def segSlow46 (x : Ctx) (s6 d6 : BitVec 128) (per : Nat) (a : Acc) : Option (List Byte × Summed) :=
  let d := a.skb.data
  let seg := d.drop a.m.l4
  let c := seg.take per
  let cs := Hdr.chunks per (seg.drop per)
  match a.m.proto with
  | L4.tcp => some ((Csum.tcp46 x.K x.sm x.ports (ip4 d).src (ip4 d).dst c cs s6 d6).seg ++ seg.drop per,
      if x.sm = Summed.partial_ ∧ cs = [] then Summed.partial_ else Summed.none)
  | L4.udp => (Csum.udp46 x.K x.sm x.nat64 (Hdr.mf4 (ip4 d)) x.amend x.ports (ip4 d).src (ip4 d).dst c cs s6 d6).map (fun o => (o.seg ++ seg.drop per,
      if Csum.load x.K.le c 6 = 0#16 ∨ x.sm = Summed.partial_ ∧ cs = [] then Summed.partial_ else Summed.none))
  | L4.icmp => (Icmp.xlat46Type (at8 seg 0) (at8 seg 1)).map (fun t => (Csum.echo46 x.K t.1 t.2 x.id s6 d6 seg, Summed.none))
  | L4.other => some (seg, Summed.none)

/-- mod/rfc7915/core.c:55-100 `translating_the_packet` with the steps of 4to6.c, if `allocate_slow` (4to6.c:478-547) is used: the bytes of the packets that leave, in order.
`none`: dropped. `mpl`: what `allocate_slow` is told. -/
def slow46 (x : Ctx) (s6 d6 : BitVec 128) (mpl : Nat) (p : Build.P) (a : Acc) : Outcome (Option (List (List Byte))) :=
  let d := a.skb.data
  let per := (mpl - 48) / 8 * 8
  if x.route then .ok none
  else match Hdr.common46 x.cfg (ip4 d) true x.hairpin true (BitVec.ofNat 16 (8 + ((d.drop a.m.l4).take per).length)) s6 d6 with
  | .ok (h6, f) =>
    match if first4 d 0 then segSlow46 x s6 d6 per a else some (d.drop a.m.l4, Summed.none) with
    | none => .ok none
    | some (seg, sm) => do
      let r ← Build.xlat46Slow (given x (vals x (fun _ => bytes6 h6) (bytesFrag (f.getD ⟨0, 0, 0, 0⟩)) seg)) mpl p
      pure (r.map (fun s => (if first4 d 0 then leave x.K sm a.m.proto 48 s.1.pout.skb.bytes else s.1.pout.skb.bytes) :: s.2.map Build.Buf.bytes))
  | _ => .ok none

/-- What becomes of a packet. -/
inductive Fate
  /-- `JSTAT46_BAD_MTU`. -/
  | badMtu
  /-- Dropped; a Fragmentation Needed with that MTU is sent. -/
  | tooBig (mtu : Nat)
  | dropped
  | sent (os : List (List Byte))
deriving DecidableEq, Repr

/-- mod/rfc7915/4to6.c:562-765 `ttp46_alloc_skb`, and then the rest. `nexthop`: `dst_mtu` of the route; `lim`: lowest-ipv6-mtu. -/
def forward46 (x : Ctx) (s6 d6 : BitVec 128) (nexthop lim : BitVec 32) (p : Build.P) (a : Acc) : Outcome Fate :=
  let d := a.skb.data
  match Hdr.path46 (ip4 d) { len := d.length, headlen := a.skb.linear, l3 := a.m.l4, l4 := a.m.pay - a.m.l4, gso := 0, frags := [] } a.inner.isSome nexthop lim with
  | .badMtu => .ok .badMtu
  | .fragNeeded mtu => .ok (.tooBig mtu.toNat)
  | .fast => do
    let r ← translate46 x s6 d6 p a
    pure (match r with
      | none => .dropped
      | some o => .sent [o])
  | .slow mpl => do
    let r ← slow46 x s6 d6 mpl.toNat p a
    pure (match r with
      | none => .dropped
      | some os => .sent os)

end Jool.Wire
