import Verif.Model.Addr
import Verif.Model.Mtu
/-
Translation of layer 3 headers: mod/common/rfc7915/6to4.c (ttp64_ipv4_external, ttp64_ipv4_internal) and 4to6.c
(ttp46_ipv6_external, ttp46_ipv6_internal), with the helpers of mod/common/packet.h.

Fields are in host byte order, as the code reads them after `be16_to_cpu`. Lengths of buffers are `Nat`. Addresses
and the IPv4 header checksum are elsewhere (Verif.Model.Csum).
-/
namespace Jool.Hdr

abbrev Byte := BitVec 8

/-- Linux `struct iphdr`, without version, ihl, checksum. -/
structure Ip4 where
  tos : Byte
  totLen : BitVec 16
  id : BitVec 16
  /-- Flags and fragment offset. -/
  fragOff : BitVec 16
  ttl : Byte
  proto : Byte
  src : BitVec 32
  dst : BitVec 32
deriving DecidableEq, Repr

/-- Linux `struct ipv6hdr`, without version. -/
structure Ip6 where
  priority : BitVec 4
  flowLbl0 : Byte
  flowLbl1 : Byte
  flowLbl2 : Byte
  payloadLen : BitVec 16
  next : Byte
  hop : Byte
  src : BitVec 128
  dst : BitVec 128
deriving DecidableEq, Repr

/-- Linux `struct frag_hdr`. -/
structure Frag where
  next : Byte
  reserved : Byte
  fragOff : BitVec 16
  id : BitVec 32
deriving DecidableEq, Repr

/-! ## mod/common/packet.h -/

/-- packet.h:57-62 `get_traffic_class` -/
def trafficClass (h : Ip6) : Byte := (h.priority.setWidth 8 <<< 4) ||| (h.flowLbl0 >>> 4)
/-- packet.h:74-77 `is_df_set` -/
def df4 (h : Ip4) : Bool := h.fragOff &&& 0x4000#16 != 0#16
/-- packet.h:80-83 `is_mf_set_ipv6` -/
def mf6 (h : Frag) : Bool := h.fragOff &&& 0x0001#16 != 0#16
/-- packet.h:86-89 `is_mf_set_ipv4` -/
def mf4 (h : Ip4) : Bool := h.fragOff &&& 0x2000#16 != 0#16
/-- packet.h:92-95 `get_fragment_offset_ipv6` (bytes) -/
def off6 (h : Frag) : BitVec 16 := h.fragOff &&& 0xFFF8#16
/-- packet.h:98-103 `get_fragment_offset_ipv4` (bytes) -/
def off4 (h : Ip4) : BitVec 16 := (h.fragOff &&& 0x1FFF#16) <<< 3
/-- packet.h:135-138 `is_fragmented_ipv4` (the kernel's `ip_is_fragment`), mod/rfc7915/common.c:24-27 `will_need_frag_hdr` -/
def needsFrag (h : Ip4) : Bool := h.fragOff &&& (0x2000#16 ||| 0x1FFF#16) != 0#16
/-- packet.h:140-145 `is_fragmented_ipv6` -/
def fragmented6 : Option Frag → Bool
  | none => false
  | some h => off6 h != 0#16 || mf6 h
/-- packet.h:158-162 `build_ipv6_frag_off_field` -/
def build6 (off : BitVec 16) (mf : Bool) : BitVec 16 := (off &&& 0xFFF8#16) ||| (if mf then 1#16 else 0#16)
/-- packet.h:172-181 `build_ipv4_frag_off_field` -/
def build4 (df mf : Bool) (off : BitVec 16) : BitVec 16 :=
  (if df then 0x4000#16 else 0#16) ||| (if mf then 0x2000#16 else 0#16) ||| (off >>> 3)

/-! ## IPv6 to IPv4 -/

/-- Configuration that matters here (common/config.h `struct jool_globals`). -/
structure Cfg where
  resetTos : Bool := false
  newTos : Byte := 0
  resetTc : Bool := false
  /-- Kernel 6.18 or newer: the TOS goes through a `dscp_t` (6to4.c:206-210, 652-656). -/
  dscp : Bool := false

/-- 6to4.c:14-17 `xlat_tos` -/
def xlatTos (c : Cfg) (h : Ip6) : Byte := if c.resetTos then c.newTos else trafficClass h

/-- 6to4.c:206-210 and 652-656: the TOS of the outer header. `inet_dsfield_to_dscp` (net/inet_dscp.h) masks the two
ECN bits. -/
def outerTos (c : Cfg) (h : Ip6) : Byte := if c.dscp then xlatTos c h &&& 0xfc#8 else xlatTos c h

/-- 6to4.c:22-29 `xlat_proto`; `last` is the type of the last header of the chain. -/
def xlatProto (last : Byte) : Byte := if last == 58 then 1 else last

/-- What `generate_df_flag` looks at. -/
structure DfIn where
  inner : Bool
  /-- Total length field, of the outgoing inner packet. -/
  totLen : Nat
  fragList : Bool
  /-- 0 if the packet is not GSO. -/
  gso : Nat
  tcp : Bool
  hdrsLen : Nat
  /-- skb->len of the outgoing packet. -/
  len : Nat

/-- 6to4.c:541-573 `generate_df_flag` -/
def dfFlag (i : DfIn) : Bool :=
  if i.inner then decide (1260 < i.totLen)
  else if i.fragList then false
  else if i.gso ≠ 0 then (if !i.tcp then false else decide (1260 < i.hdrsLen + i.gso))
  else decide (1260 < i.len)

/-- 6to4.c:575-593 `xlat_frag_off` -/
def fragOff64 (fh : Option Frag) (d : DfIn) : BitVec 16 :=
  match fh with
  | some h => build4 false (mf6 h) (off6 h)
  | none => build4 (dfFlag d) false 0

/-- 6to4.c:531-539 `generate_ipv4_id`; `sel` is what the kernel's `__ip_select_ident` picks. -/
def id64 (fh : Option Frag) (sel : BitVec 16) : BitVec 16 :=
  match fh with
  | some h => h.id.setWidth 16
  | none => sel

/-- Outcome of the translation of a header. -/
inductive Res (α : Type) where
  | ok (a : α)
  /-- Dropped; the sender gets an ICMP time exceeded. -/
  | ttl
  /-- Dropped; the sender gets a parameter problem that points to that byte. -/
  | segmentsLeft (location : Nat)
  /-- Dropped; the sender gets a source route failed. -/
  | srcRoute
deriving DecidableEq, Repr

/-- 6to4.c:626-669 `ttp64_ipv4_external`. `seg`: result of `has_nonzero_segments_left`. `len`: skb->len of the
outgoing packet. -/
def ext64 (c : Cfg) (h : Ip6) (fh : Option Frag) (last : Byte) (seg : Option Nat) (d : DfIn) (sel : BitVec 16)
    (src dst : BitVec 32) : Res Ip4 :=
  if h.hop.toNat ≤ 1 then .ttl
  else match seg with
    | some l => .segmentsLeft l
    | none => .ok
      { tos := outerTos c h
        totLen := BitVec.ofNat 16 d.len
        id := id64 fh sel
        fragOff := fragOff64 fh d
        ttl := h.hop - 1
        proto := xlatProto last
        src := src
        dst := dst }

/-- 6to4.c:674-697 `ttp64_ipv4_internal`. `inHdrs`, `outHdrs`: lengths of the headers of the inner packets. -/
def int64 (c : Cfg) (h : Ip6) (fh : Option Frag) (last : Byte) (inHdrs outHdrs : Nat) (d : DfIn) (sel : BitVec 16)
    (src dst : BitVec 32) : Ip4 :=
  { tos := xlatTos c h
    totLen := BitVec.ofNat 16 40 + h.payloadLen - BitVec.ofNat 16 inHdrs + BitVec.ofNat 16 outHdrs
    id := id64 fh sel
    fragOff := fragOff64 fh d
    ttl := h.hop
    proto := xlatProto last
    src := src
    dst := dst }

/-! ## IPv4 to IPv6 -/

/-- 4to6.c:15-18 `xlat_nexthdr` -/
def xlatNext (p : Byte) : Byte := if p == 1 then 58 else p

/-- 4to6.c:855-902 `ttcp46_ipv6_common`, except length and addresses. `outer`: the header does not belong to the
packet inside an ICMP error. `slow`: the packet was split in several ones (`out->skb->next`). -/
def common46 (c : Cfg) (h : Ip4) (outer hairpin slow : Bool) (payloadLen : BitVec 16) (src dst : BitVec 128) :
    Res (Ip6 × Option Frag) :=
  let next := xlatNext h.proto
  let prio : BitVec 4 := if c.resetTc then 0 else (h.tos >>> 4).setWidth 4
  let fl0 : Byte := if c.resetTc then 0 else h.tos <<< 4
  let fh : Option Frag :=
    if needsFrag h || slow then
      some { next := next, reserved := 0, fragOff := build6 (off4 h) (mf4 h), id := h.id.setWidth 32 }
    else none
  let mk (hop : Byte) : Ip6 × Option Frag :=
    ({ priority := prio, flowLbl0 := fl0, flowLbl1 := 0, flowLbl2 := 0, payloadLen := payloadLen,
       next := if fh.isSome then 44 else next, hop := hop, src := src, dst := dst }, fh)
  if outer && !hairpin then
    if h.ttl.toNat ≤ 1 then .ttl else .ok (mk (h.ttl - 1))
  else .ok (mk h.ttl)

/-! ## Slow path -/

/-- 4to6.c:495 `payload_per_frag` -/
def perFrag (mpl : BitVec 32) : BitVec 32 := (mpl - 48#32) &&& 0xFFFFFFF8#32

/-- 4to6.c:498-540, the loop of `allocate_slow`: the layer 3 payload of each packet. With `per = 0` the C loop would
not end; the caller makes sure that `mpl` is at least 1280. -/
def chunks (per : Nat) (l : List Byte) : List (List Byte) :=
  if h : 0 < per ∧ per < l.length then l.take per :: chunks per (l.drop per)
  else if l = [] then [] else [l]
termination_by l.length
decreasing_by simp; omega

/-- One of the resulting packets: its fragment header, its payload length field, and its layer 3 payload. -/
structure Piece where
  frag : Frag
  payloadLen : BitVec 16
  data : List Byte
deriving DecidableEq, Repr

/-- 4to6.c:842-852, the loop of `autofill_hdr6`. `first`: the fragment header of the first packet, after its MF was
set. -/
def fill (first : Frag) (firstMf : Bool) (off : BitVec 16) : List (List Byte) → List Piece
  | [] => []
  | d :: ds =>
    { frag := { first with fragOff := build6 off (if ds.isEmpty then firstMf else true) }
      payloadLen := BitVec.ofNat 16 (d.length + 8)
      data := d } ::
    fill first firstMf (off + BitVec.ofNat 16 d.length) ds

/-- 4to6.c:824-853 `autofill_hdr6` after 889-898: all the packets that result of the slow path. -/
def autofill (h : Ip4) : List (List Byte) → List Piece
  | [] => []
  | d :: ds =>
    let fh : Frag := { next := xlatNext h.proto, reserved := 0, fragOff := build6 (off4 h) (mf4 h),
                       id := h.id.setWidth 32 }
    let pl := BitVec.ofNat 16 (d.length + 8)
    if ds.isEmpty then [{ frag := fh, payloadLen := pl, data := d }]
    else
      let fh' := { fh with fragOff := fh.fragOff ||| 1#16 }
      { frag := fh', payloadLen := pl, data := d } ::
        fill fh' (mf6 fh) (off6 fh + BitVec.ofNat 16 d.length) ds

/-- 4to6.c:478-548 `allocate_slow` and the headers. `payload`: everything that follows the IPv4 header. -/
def slow46 (h : Ip4) (mpl : BitVec 32) (payload : List Byte) : List Piece :=
  autofill h (chunks (perFrag mpl).toNat payload)

/-! ## Size checks -/

/-- Lengths of an sk_buff. -/
structure Skb where
  /-- skb->len -/
  len : Nat
  /-- skb_headlen -/
  headlen : Nat
  l3 : Nat
  l4 : Nat
  gso : Nat
  /-- Lengths of the packets in the frag_list. -/
  frags : List Nat
deriving DecidableEq, Repr

/-- 6to4.c:363-410 `fragment_exceeds_mtu64`; `true` is 1 or 2. -/
def exceeds64 (s : Skb) (mtu : Nat) : Bool :=
  if s.gso ≠ 0 then decide (mtu < 20 + s.l4 + s.gso)
  else if mtu < s.headlen + 20 - s.l3 then true
  else s.frags.any (fun f => decide (mtu - 20 < f))

/-- 4to6.c:337-357 `get_frag_max_size` -/
def fragMaxSize (s : Skb) : Nat :=
  s.frags.foldl (fun m f => if m < f + 48 then f + 48 else m) (s.headlen - (s.l3 + s.l4) + 48)

/-- 4to6.c:359-398 `fragment_exceeds_mtu46` -/
def exceeds46 (h : Ip4) (s : Skb) (mtu : Nat) : Bool :=
  let hdrs := 40 + (if needsFrag h then 8 else 0) + s.l4
  if s.gso ≠ 0 then decide (mtu < hdrs + s.gso)
  else if s.frags ≠ [] then decide (mtu < fragMaxSize s)
  else decide (mtu < hdrs + (s.len - (s.l3 + s.l4)))

/-- What `ttp46_alloc_skb` decides. -/
inductive Path
  | badMtu
  /-- Dropped, and a Fragmentation Needed with that MTU is sent. -/
  | fragNeeded (mtu : BitVec 32)
  | fast
  | slow (mpl : BitVec 32)
deriving DecidableEq, Repr

/-- 4to6.c:562-765 `ttp46_alloc_skb` -/
def path46 (h : Ip4) (s : Skb) (icmpError : Bool) (nexthop lim : BitVec 32) : Path :=
  let mpl := Mtu.umin nexthop lim
  if mpl.toNat < 1280 then .badMtu
  else if icmpError then .fast
  else if df4 h then
    if exceeds46 h s nexthop.toNat then .fragNeeded (Mtu.ownFn nexthop) else .fast
  else if exceeds46 h s mpl.toNat then .slow mpl
  else .fast

end Jool.Hdr
