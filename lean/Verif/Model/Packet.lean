import Verif.Model.Icmp

/-!
# Packet validation

Model of `src/mod/common/packet.c`, of the extension header iterator
(`src/mod/common/ipv6_hdr_iterator.c`) and of which header bytes the translation
reads directly.

A `struct sk_buff` is its bytes (`skb->len` many, starting at the network
header; `skb_network_offset()` is zero) and the length of its linear part
(`skb_headlen()`).  `skb_header_pointer()` works on all bytes; direct pointers
only on the linear part.  `pskb_may_pull()` extends the linear part, and fails
if there are not enough bytes; that it can also fail for lack of memory only
drops more packets.
-/

namespace Jool.Pkt

abbrev Byte := BitVec 8

structure Skb where
  data : List Byte
  linear : Nat
  deriving DecidableEq, Repr

/-- A byte at an offset. -/
def at8 (d : List Byte) (off : Nat) : Byte := d.getD off 0#8

/-- A big endian 16-bit number at an offset. -/
def at16 (d : List Byte) (off : Nat) : Nat := (at8 d off).toNat * 256 + (at8 d (off + 1)).toNat

/-- `enum l4_protocol`. -/
inductive L4 where | tcp | udp | icmp | other
  deriving DecidableEq, Repr

/-- `struct pkt_metadata`, packet.c:17-32. -/
structure Meta where
  /-- `fhdr_offset`; zero if there is no fragment header. -/
  fh : Nat
  proto : L4
  l4 : Nat
  pay : Nat
  deriving DecidableEq, Repr

/-- `tcp_hdr_len()`, packet.h:186-189. -/
def tcpLen (d : List Byte) (off : Nat) : Nat := (at8 d (off + 12)).toNat / 16 * 4

/-- `is_first_frag6()`, packet.h:123-126: fragment offset of the header at `off`. -/
def first6 (d : List Byte) (off : Nat) : Bool := at16 d (off + 2) / 8 == 0

/-- `is_fragmented_ipv6()`, packet.h:140-145. -/
def fragmented6 (d : List Byte) (off : Nat) : Bool :=
  at16 d (off + 2) / 8 != 0 || at16 d (off + 2) % 2 == 1

/-- The loop of `summarize_skb6()`, packet.c:167-240.  `none`: the packet is
    dropped. -/
def walk6 (d : List Byte) (off : Nat) (nh : Byte) (fh : Nat) (first : Bool) : Option Meta :=
  if nh = 6#8 then
    if first then
      if off + 20 ≤ d.length then some ⟨fh, L4.tcp, off, off + tcpLen d off⟩ else none
    else some ⟨fh, L4.tcp, off, off⟩
  else if nh = 17#8 then some ⟨fh, L4.udp, off, if first then off + 8 else off⟩
  else if nh = 58#8 then some ⟨fh, L4.icmp, off, if first then off + 8 else off⟩
  else if nh = 44#8 then
    if fh ≠ 0 then none
    else if _h : off + 8 ≤ d.length then walk6 d (off + 8) (at8 d off) off (first6 d off)
    else none
  else if nh = 0#8 ∨ nh = 43#8 ∨ nh = 60#8 then
    if fh ≠ 0 then none
    else if _h : off + 2 ≤ d.length then
      walk6 d (off + ((at8 d (off + 1)).toNat + 1) * 8) (at8 d off) fh first
    else none
  else some ⟨fh, L4.other, off, off⟩
termination_by d.length - off

/-- `summarize_skb6()`, packet.c:136-243. -/
def summarize6 (d : List Byte) (off6 : Nat) : Option Meta :=
  if off6 + 7 ≤ d.length then walk6 d (off6 + 40) (at8 d (off6 + 6)) 0 true else none

/-- `pskb_may_pull()` (kernel). -/
def pull (s : Skb) (n : Nat) : Option Skb :=
  if n ≤ s.data.length then some { s with linear := max s.linear n } else none

/-- `validate_inner6()`, packet.c:245-297.  Returns the metadata of the inner
    packet and the `skb` after the pull. -/
def validateInner6 (s : Skb) (pay : Nat) : Option (Meta × Skb) :=
  if pay + 40 ≤ s.data.length then
    if (at8 s.data pay).toNat / 16 = 6 then
      match summarize6 s.data pay with
      | none => none
      | some m =>
        if m.fh ≠ 0 ∧ (m.fh + 8 > s.data.length ∨ ¬ first6 s.data m.fh) then none
        else if m.proto = L4.icmp ∧
            (m.l4 + 8 > s.data.length ∨ Icmp.isIcmp6Error (at8 s.data m.l4)) then none
        else match pull s m.pay with
          | none => none
          | some s => some (m, s)
    else none
  else none

/-- What `pkt_init_ipv6()` and `pkt_init_ipv4()` leave in `state->in`, plus the
    metadata of the nested packet (which they do not keep). -/
structure Acc where
  skb : Skb
  m : Meta
  inner : Option Meta
  deriving DecidableEq, Repr

/-- `handle_icmp6()`, packet.c:299-329. -/
def handleIcmp6 (s : Skb) (m : Meta) : Option (Option Meta × Skb) :=
  if m.fh ≠ 0 ∧ (m.fh + 8 > s.data.length ∨ fragmented6 s.data m.fh) then none
  else if m.l4 + 8 > s.data.length then none
  else if Icmp.isIcmp6Error (at8 s.data m.l4) then
    match validateInner6 s m.pay with
    | none => none
    | some r => some (some r.1, r.2)
  else some (none, s)

/-- `pkt_init_ipv6()`, packet.c:331-382. -/
def init6 (s : Skb) : Option Acc :=
  match pull s 40 with
  | none => none
  | some s =>
    if s.data.length ≠ 40 + at16 s.data 4 then none
    else match summarize6 s.data 0 with
      | none => none
      | some m =>
        match (if m.proto = L4.icmp then handleIcmp6 s m else some (none, s)) with
        | none => none
        | some r =>
          match pull r.2 m.pay with
          | none => none
          | some s => some ⟨s, m, r.1⟩

/-- Fragment offset of an IPv4 header, zero or not: `is_first_frag4()`,
    packet.h:118-121. -/
def first4 (d : List Byte) (off : Nat) : Bool := at16 d (off + 6) % 8192 == 0

/-- `is_fragmented_ipv4()`, packet.h:135-138: offset or "more fragments". -/
def fragmented4 (d : List Byte) (off : Nat) : Bool := at16 d (off + 6) % 16384 != 0

/-- `ihl << 2`. -/
def ihl4 (d : List Byte) (off : Nat) : Nat := (at8 d off).toNat % 16 * 4

/-- `validate_inner4()`, packet.c:384-432. -/
def validateInner4 (s : Skb) (pay : Nat) : Option (Meta × Skb) :=
  let d := s.data
  if pay + 20 ≤ d.length then
    if (at8 d pay).toNat / 16 ≠ 4 then none
    else if ihl4 d pay < 20 then none
    else if at16 d (pay + 2) < ihl4 d pay then none
    else if ¬ first4 d pay then none
    else
      let l4 := pay + ihl4 d pay
      let p := at8 d (pay + 9)
      if p = 6#8 ∧ l4 + 20 > d.length then none
      else
        let m : Meta :=
          if p = 6#8 then ⟨0, L4.tcp, l4, l4 + tcpLen d l4⟩
          else if p = 17#8 then ⟨0, L4.udp, l4, l4 + 8⟩
          else if p = 1#8 then ⟨0, L4.icmp, l4, l4 + 8⟩
          else ⟨0, L4.other, l4, l4⟩
        match pull s m.pay with
        | none => none
        | some s => some (m, s)
  else none

/-- `handle_icmp4()`, packet.c:434-464. -/
def handleIcmp4 (s : Skb) (m : Meta) : Option (Option Meta × Skb) :=
  if fragmented4 s.data 0 then none
  else if m.l4 + 8 > s.data.length then none
  else if Icmp.isIcmp4Error (at8 s.data m.l4) then
    match validateInner4 s m.pay with
    | none => none
    | some r => some (some r.1, r.2)
  else some (none, s)

/-- `summarize_skb4()`, packet.c:466-505. -/
def summarize4 (s : Skb) : Option (Meta × Option Meta × Skb) :=
  let d := s.data
  let l4 := ihl4 d 0
  let p := at8 d 9
  if p = 6#8 then
    if first4 d 0 then
      if l4 + 20 ≤ d.length then some (⟨0, L4.tcp, l4, l4 + tcpLen d l4⟩, none, s) else none
    else some (⟨0, L4.tcp, l4, l4⟩, none, s)
  else if p = 17#8 then some (⟨0, L4.udp, l4, if first4 d 0 then l4 + 8 else l4⟩, none, s)
  else if p = 1#8 then
    let m : Meta := ⟨0, L4.icmp, l4, if first4 d 0 then l4 + 8 else l4⟩
    match handleIcmp4 s m with
    | none => none
    | some r => some (m, r.1, r.2)
  else some (⟨0, L4.other, l4, l4⟩, none, s)

/-- `pkt_init_ipv4()`, packet.c:507-550. -/
def init4 (s : Skb) : Option Acc :=
  match pull s 20 with
  | none => none
  | some s =>
    match summarize4 s with
    | none => none
    | some r =>
      match pull r.2.2 r.1.pay with
      | none => none
      | some s => some ⟨s, r.1, r.2.1⟩

/-- `hdr_iterator_next()` in a loop: `hdr_iterator_last()`,
    ipv6_hdr_iterator.c:11-43.  It reads through plain pointers; `none`: it
    reads beyond the linear part. -/
def iter (d : List Byte) (linear : Nat) (off : Nat) (nh : Byte) : Option (Byte × Nat) :=
  if nh = 0#8 ∨ nh = 43#8 ∨ nh = 60#8 then
    if _h : off + 2 ≤ linear then
      iter d linear (off + (8 + 8 * (at8 d (off + 1)).toNat)) (at8 d off)
    else none
  else if nh = 44#8 then
    if _h : off + 8 ≤ linear then iter d linear (off + 8) (at8 d off) else none
  else some (nh, off)
termination_by linear - off

/-- The iterator on the IPv6 header at `off6`: `HDR_ITERATOR_INIT` and
    `hdr_iterator_last()`, as used by `move_pointers6()` (common.c:100-115) and
    `xlat_proto()` (6to4.c). -/
def last6 (s : Skb) (off6 : Nat) : Option (Byte × Nat) :=
  if off6 + 40 ≤ s.linear then iter s.data s.linear (off6 + 40) (at8 s.data (off6 + 6)) else none

/-- Header bytes (offset, length) that the translation reads through plain
    pointers, once the packet is accepted: network header; transport header
    unless the packet is a subsequent fragment.  `ttp64_tcp()` and `ttp46_tcp()`
    copy a whole `struct tcphdr`, and `tcp_hdr_len()` bytes. -/
def l4Reads (d : List Byte) (m : Meta) (first : Bool) : List (Nat × Nat) :=
  match m.proto with
  | L4.tcp => if first then [(m.l4, 20), (m.l4, tcpLen d m.l4)] else []
  | L4.udp => if first then [(m.l4, 8)] else []
  | L4.icmp => [(m.l4, 8)]
  | L4.other => []

/-- `compute_flowix64()` (6to4.c:196-236) and `compute_flowix46()`
    (4to6.c:220-248) look at the ICMP header whenever the protocol number of the
    *outgoing* packet is ICMP. -/
def flowReads (l4 : Nat) (outIsIcmp : Bool) : List (Nat × Nat) :=
  if outIsIcmp then [(l4, 2)] else []

/-- `xlat_proto()` and `xlat_nexthdr()`: is the outgoing protocol ICMP?  The
    code compares the outgoing number with ICMP's, and numbers other than the
    incoming ICMP's are copied. -/
def outIsIcmp64 (nh : Byte) : Bool := nh = 58#8 || nh = 1#8
def outIsIcmp46 (p : Byte) : Bool := p = 1#8 || p = 58#8

/-- First fragment (or no fragment at all)? -/
def isFirst6 (d : List Byte) (m : Meta) : Bool := m.fh = 0 || first6 d m.fh

/-- `move_pointers_in()`, common.c:29-62: how the nested packet is classified
    once it is going to be translated, by protocol number only. -/
def innerProto (p : Byte) : L4 :=
  if p = 6#8 then L4.tcp
  else if p = 17#8 then L4.udp
  else if p = 1#8 ∨ p = 58#8 then L4.icmp
  else L4.other

/-- Everything the translation of an accepted IPv6 packet reads directly.
    `none`: the iterator already went beyond the linear part. -/
def reads6 (a : Acc) : Option (List (Nat × Nat)) :=
  match last6 a.skb 0 with
  | none => none
  | some o =>
    let outer := [(0, 40)] ++ l4Reads a.skb.data a.m (isFirst6 a.skb.data a.m) ++
      (if a.m.fh = 0 then [] else [(a.m.fh, 8)]) ++ flowReads o.2 (outIsIcmp64 o.1)
    match a.inner with
    | none => some outer
    | some _ =>
      match last6 a.skb a.m.pay with
      | none => none
      | some i =>
        some (outer ++ [(a.m.pay, 40)] ++ l4Reads a.skb.data ⟨0, innerProto i.1, i.2, i.2⟩ true)

/-- Everything the translation of an accepted IPv4 packet reads directly. -/
def reads4 (a : Acc) : List (Nat × Nat) :=
  let d := a.skb.data
  let outer := [(0, ihl4 d 0)] ++ l4Reads d a.m (first4 d 0) ++
    flowReads a.m.l4 (outIsIcmp46 (at8 d 9))
  match a.inner with
  | none => outer
  | some _ =>
    let l4 := a.m.pay + ihl4 d a.m.pay
    outer ++ [(a.m.pay, 20), (a.m.pay, ihl4 d a.m.pay)] ++
      l4Reads d ⟨0, innerProto (at8 d (a.m.pay + 9)), l4, l4⟩ true

end Jool.Pkt
