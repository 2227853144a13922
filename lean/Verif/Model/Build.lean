import Verif.Model.Packet
import Verif.Model.IcmpExt
import Verif.Model.Types
/-
Model of the memory of packets while they are translated: how the outgoing packet is made out of the incoming one, where its headers
are written, how the translator moves to the packet inside of an ICMP error and back.

`src/mod/common/rfc7915/4to6.c`, `6to4.c`, `common.c` and `core.c`; of `packet.h`, the functions about lengths and positions. The kernel's functions
(`include/linux/skbuff.h`, `net/core/skbuff.c`) are the ones of Linux 6.1.

Simplifications:
- The values of the fields of the headers are parameters (`Vals`): other files model them. Lengths are not: they are computed here. A header whose fields
  are all written one by one is written at once.
- The pages of a packet (`frags`, `frag_list`) are a list of bytes. They are shared by the copy, and nobody writes to them.
- Everything that ends up in a packet being dropped is left out, except for what moving the pointers might do. (An allocation that fails, for example.)
-/
namespace Jool

instance : Monad Outcome where
  pure := .ok
  bind := .bind

end Jool

namespace Jool.Build
open Jool.Pkt (Byte L4 Meta Acc at8 at16)

/-! ## The kernel's functions -/

/-- `struct sk_buff`. `mem`: from `head` to `end`; the others are positions in it. `pages`: the data that is not in `mem`. -/
structure Buf where
  mem : List Byte
  data : Nat
  tail : Nat
  pages : List Byte
  nh : Nat
  th : Nat
deriving DecidableEq, Repr

/-- skb_headlen(). -/
def Buf.headlen (b : Buf) : Nat := b.tail - b.data

/-- `len`. -/
def Buf.len (b : Buf) : Nat := b.headlen + b.pages.length

/-- The bytes of the packet. -/
def Buf.bytes (b : Buf) : List Byte := (b.mem.drop b.data).take b.headlen ++ b.pages

/-- skb_pull(): NULL if the packet is shorter; BUG() if the bytes are not in the linear area. -/
def pull (b : Buf) (n : Nat) : Outcome (Option Buf) :=
  if b.len < n then .ok none
  else if b.headlen < n then .ub .outOfBounds
  else .ok (some { b with data := b.data + n })

/-- skb_pull(), if nobody looks at the result. -/
def pull' (b : Buf) (n : Nat) : Outcome Buf := do
  let r ← pull b n
  pure (r.getD b)

/-- skb_push(): skb_under_panic() if there is no room. -/
def push (b : Buf) (n : Nat) : Outcome Buf :=
  if b.data < n then .ub .outOfBounds else .ok { b with data := b.data - n }

/-- skb_push(), on a condition. -/
def pushIf (c : Bool) (b : Buf) (n : Nat) : Outcome Buf := if c then push b n else .ok b

/-- Reading `n` bytes through a pointer. -/
def read (b : Buf) (pos n : Nat) : Outcome (List Byte) :=
  if pos + n ≤ b.mem.length then .ok ((b.mem.drop pos).take n) else .ub .outOfBounds

/-- Writing bytes through a pointer. -/
def write (b : Buf) (pos : Nat) (l : List Byte) : Outcome Buf :=
  if pos + l.length ≤ b.mem.length then .ok { b with mem := b.mem.take pos ++ l ++ b.mem.drop (pos + l.length) }
  else .ub .outOfBounds

/-- What the allocator returns: the contents of the memory, and how many bytes there are beyond the ones that were requested. -/
structure Env where
  junk : Nat → Byte
  slack : Nat

def Env.fresh (e : Env) (n : Nat) : List Byte := (List.range n).map e.junk

/-- __pskb_copy(): the linear area is copied, the pages are shared. -/
def pskbCopy (e : Env) (b : Buf) (headroom : Nat) : Buf :=
  { mem := e.fresh headroom ++ (b.mem.drop b.data).take b.headlen ++ e.fresh e.slack
    data := headroom, tail := headroom + b.headlen, pages := b.pages, nh := b.nh, th := b.th }

/-- alloc_skb(). -/
def allocSkb (e : Env) (size : Nat) : Buf :=
  { mem := e.fresh (size + e.slack), data := 0, tail := 0, pages := [], nh := 0, th := 0 }

/-- skb_reserve(). -/
def reserve (b : Buf) (n : Nat) : Buf := { b with data := b.data + n, tail := b.tail + n }

/-- skb_put(): skb_over_panic() if there is no room. -/
def put (b : Buf) (n : Nat) : Outcome Buf :=
  if b.mem.length < b.tail + n then .ub .outOfBounds else .ok { b with tail := b.tail + n }

/-- skb_copy_bits(): `none` is an error. -/
def copyBits (b : Buf) (off n : Nat) : Option (List Byte) :=
  if b.len < off + n then none else some ((b.bytes.drop off).take n)

/-- pskb_trim(), on a packet that nobody else has. -/
def trim (b : Buf) (n : Nat) : Buf :=
  if b.len ≤ n then b
  else if n < b.headlen then { b with tail := b.data + n, pages := [] }
  else { b with pages := b.pages.take (n - b.headlen) }

/-! ## struct packet -/

/-- mod/packet.h:197-239 `struct packet`. `frag`: `frag_offset`; `pay`: `payload_offset`. -/
structure P where
  skb : Buf
  proto : L4
  inner : Bool
  frag : Nat
  pay : Nat
deriving DecidableEq, Repr

/-- mod/packet.h:313-316 `pkt_payload`: a position. -/
def P.payload (p : P) : Nat := p.skb.data + p.pay

/-- mod/packet.h:343-346 `pkt_l3hdr_len`. -/
def P.l3len (p : P) : Nat := p.skb.th - p.skb.nh

/-- mod/packet.h:358-361 `pkt_l4hdr_len`. -/
def P.l4len (p : P) : Nat := p.payload - p.skb.th

/-- A byte. -/
def rd8 (b : Buf) (pos : Nat) : Outcome Byte := do
  let l ← read b pos 1
  pure (at8 l 0)

/-- `ihl << 2` of the IPv4 header at a position. -/
def ihl (b : Buf) (pos : Nat) : Outcome Nat := do
  let x ← rd8 b pos
  pure (x.toNat % 16 * 4)

/-- mod/rfc7915/common.c:24-27 `will_need_frag_hdr`, for the IPv4 header at a position. -/
def needFrag (b : Buf) (pos : Nat) : Outcome Bool := do
  let l ← read b (pos + 6) 2
  pure (at16 l 0 % 16384 != 0)

/-- mod/packet.h:118-121 `is_first_frag4`. -/
def firstFrag4 (b : Buf) (pos : Nat) : Outcome Bool := do
  let l ← read b (pos + 6) 2
  pure (at16 l 0 % 8192 == 0)

/-- mod/packet.h:306-311 `pkt_frag_hdr`: the bytes of the header. -/
def fragHdr (p : P) : Outcome (Option (List Byte)) :=
  if p.frag = 0 then pure none
  else do
    let l ← read p.skb (p.skb.data + p.frag) 8
    pure (some l)

/-- mod/packet.h:123-126 `is_first_frag6`. -/
def firstFrag6 : Option (List Byte) → Bool
  | none => true
  | some l => at16 l 2 / 8 == 0

/-- mod/packet.h:399-403 `pkt_is_icmp4_error`. -/
def isError4 (p : P) : Outcome Bool :=
  if p.proto = L4.icmp then do
    let t ← rd8 p.skb p.skb.th
    pure (Icmp.isIcmp4Error t)
  else pure false

/-- mod/packet.h:393-397 `pkt_is_icmp6_error`. -/
def isError6 (p : P) : Outcome Bool :=
  if p.proto = L4.icmp then do
    let t ← rd8 p.skb p.skb.th
    pure (Icmp.isIcmp6Error t)
  else pure false

/-- mod/ipv6_hdr_iterator.c:11-43, through plain pointers: the type of the last header, and its position. `fuel`: how much memory there is. -/
def lastGo (b : Buf) : Nat → Nat → Byte → Outcome (Byte × Nat)
  | 0, _, _ => .ub .outOfBounds
  | fuel + 1, pos, nh =>
    if nh = 0#8 ∨ nh = 43#8 ∨ nh = 60#8 then do
      let l ← read b pos 2
      lastGo b fuel (pos + (8 + 8 * (at8 l 1).toNat)) (at8 l 0)
    else if nh = 44#8 then do
      let l ← read b pos 8
      lastGo b fuel (pos + 8) (at8 l 0)
    else pure (nh, pos)

/-- `HDR_ITERATOR_INIT` and `hdr_iterator_last` on the IPv6 header at a position. -/
def last (b : Buf) (pos : Nat) : Outcome (Byte × Nat) := do
  let l ← read b pos 40
  lastGo b (b.mem.length + 1) (pos + 40) (at8 l 6)

/-! ## The values of the headers -/

/-- The values of the headers of one packet. `l3`: depends on the fragment header that was looked at (only from IPv6 to IPv4); `frag`: the IPv6 fragment
header; `ports`: NAT64 only; `icmp`: the whole header; `sum`: its checksum, computed after the packet inside is done; `ipsum`: the checksum of the IPv4 header,
if it has to be computed again. -/
structure Vals where
  l3 : Option (List Byte) → List Byte
  frag : List Byte
  ports : Option (List Byte)
  tcp : List Byte
  udp : List Byte
  icmp : List Byte
  sum : List Byte
  ipsum : List Byte

/-- Everything the translation is given. `vals`: 0 is the packet, 1 is the packet inside, and so on. `partially`: `ip_summed` is CHECKSUM_PARTIAL.
`ll`: LL_MAX_HEADER. -/
structure Given where
  env : Env
  vals : Nat → Vals
  partially : Bool
  ll : Nat

/-- `state->in` and `state->out`. -/
structure S where
  pin : P
  pout : P
deriving DecidableEq, Repr

def be16 (n : Nat) : List Byte := [BitVec.ofNat 8 (n / 256), BitVec.ofNat 8 n]

def writeOut (s : S) (pos : Nat) (l : List Byte) : Outcome S := do
  let b ← write s.pout.skb pos l
  pure { s with pout := { s.pout with skb := b } }

/-! ## Moving to the packet inside, and back -/

/-- mod/rfc7915/common.h:58-66 `struct bkp_skb`. The offsets count from `data`. -/
structure Bkp where
  pulled : Nat
  l3 : Int
  l4 : Int
  pay : Nat
  proto : L4
deriving DecidableEq, Repr

/-- mod/rfc7915/common.c:116-123 `backup_pointers`. -/
def backup (p : P) : Bkp :=
  { pulled := p.pay, l3 := (p.skb.nh : Int) - p.skb.data, l4 := (p.skb.th : Int) - p.skb.data, pay := p.pay, proto := p.proto }

/-- mod/rfc7915/common.c:125-133 `restore_pointers`. -/
def restore (p : P) (k : Bkp) : Outcome P := do
  let b ← push p.skb k.pulled
  pure { p with skb := { b with nh := (b.data + k.l3).toNat, th := (b.data + k.l4).toNat }, pay := k.pay, proto := k.proto, inner := false }

/-- mod/rfc7915/common.c:29-62 `move_pointers_in`. `none`: -EINVAL. -/
def movePointersIn (p : P) (protocol : Byte) (l3 : Nat) : Outcome (Option P) := do
  let r ← pull p.skb p.pay
  match r with
  | none => pure none
  | some b =>
    let b := { b with nh := b.data, th := b.data + l3 }
    let proto := Pkt.innerProto protocol
    match proto with
    | L4.tcp => do
      let x ← rd8 b (b.th + 12)
      pure (some { p with skb := b, proto := proto, inner := true, pay := l3 + x.toNat / 16 * 4 })
    | L4.udp => pure (some { p with skb := b, proto := proto, inner := true, pay := l3 + 8 })
    | L4.icmp => pure (some { p with skb := b, proto := proto, inner := true, pay := l3 + 8 })
    | L4.other => pure (some { p with skb := b, proto := proto, inner := true, pay := l3 })

/-- mod/rfc7915/common.c:64-78 `move_pointers_out`. -/
def movePointersOut (i o : P) (l3 : Nat) : Outcome (Option P) := do
  let r ← pull o.skb o.pay
  match r with
  | none => pure none
  | some b =>
    pure (some { o with skb := { b with nh := b.data, th := b.data + l3 }, proto := i.proto, inner := true, pay := l3 + i.l4len })

/-- mod/rfc7915/common.c:80-98 `move_pointers4`, 135-157 `become_inner_packet`. `none`: dropped. -/
def becomeInner4 (s : S) (doOut : Bool) : Outcome (Option S) := do
  let pos := s.pin.payload
  let proto ← rd8 s.pin.skb (pos + 9)
  let l3 ← ihl s.pin.skb pos
  let r ← movePointersIn s.pin proto l3
  match r with
  | none => pure none
  | some i =>
    if !doOut then pure (some { s with pin := i })
    else do
      let f ← needFrag i.skb pos
      let r ← movePointersOut i s.pout (40 + if f then 8 else 0)
      match r with
      | none => pure none
      | some o => pure (some { pin := i, pout := o })

/-- mod/rfc7915/common.c:100-114 `move_pointers6`, 135-157 `become_inner_packet`. -/
def becomeInner6 (s : S) (doOut : Bool) : Outcome (Option S) := do
  let pos := s.pin.payload
  let r ← last s.pin.skb pos
  let r ← movePointersIn s.pin r.1 (r.2 - pos)
  match r with
  | none => pure none
  | some i =>
    if !doOut then pure (some { s with pin := i })
    else do
      let r ← movePointersOut i s.pout 20
      match r with
      | none => pure none
      | some o => pure (some { pin := i, pout := o })

/-- mod/rfc7915/common.c:159-165 `restore_outer_packet`. -/
def restoreOuter (s : S) (ki ko : Bkp) (doOut : Bool) : Outcome S := do
  let i ← restore s.pin ki
  if doOut then do
    let o ← restore s.pout ko
    pure { pin := i, pout := o }
  else pure { s with pin := i }

/-- mod/rfc7915/4to6.c:58-87 `xlat46_internal_addresses` and 6to4.c:50-79 `xlat64_internal_addresses`, as far as the packet is concerned (SIIT): the
addresses of the packet inside are read. `none`: dropped. -/
def peek4 (s : S) : Outcome (Option S) := do
  let r ← becomeInner4 s false
  match r with
  | none => pure none
  | some t => do
    let _ ← read t.pin.skb t.pin.skb.nh 20
    let t ← restoreOuter t (backup s.pin) (backup s.pout) false
    pure (some t)

def peek6 (s : S) : Outcome (Option S) := do
  let r ← becomeInner6 s false
  match r with
  | none => pure none
  | some t => do
    let _ ← read t.pin.skb t.pin.skb.nh 40
    let t ← restoreOuter t (backup s.pin) (backup s.pout) false
    pure (some t)

/-- mod/rfc7915/4to6.c:1293-1300, 6to4.c:1002-1010: only inside of an error, because otherwise it was done before. -/
def peekIf (s : S) (f : S → Outcome (Option S)) : Outcome (Option S) := if s.pin.inner then f s else .ok (some s)

/-! ## Allocating the outgoing packet -/

/-- mod/rfc7915/4to6.c:301-333 `get_delta`, with `iphdr_delta`. -/
def getDelta (p : P) : Outcome Int := do
  let h ← ihl p.skb p.skb.nh
  let e ← isError4 p
  if e then do
    let h2 ← ihl p.skb p.payload
    let f ← needFrag p.skb p.payload
    pure ((40 - h : Int) + 8 + (40 - h2) + (if f then 8 else 0))
  else pure ((40 - h : Int) + 8)

/-- mod/rfc7915/4to6.c:425-436: the headers of the packet inside. -/
def fastInner (p : P) (b : Buf) : Outcome Buf := do
  let h ← ihl p.skb p.payload
  let b ← pull' b h
  let f ← needFrag p.skb p.payload
  let b ← pushIf f b 8
  push b 40

/-- mod/rfc7915/4to6.c:425-436: the condition. -/
def fastInnerIf (err : Bool) (p : P) (b : Buf) : Outcome Buf := if err then fastInner p b else .ok b

/-- mod/rfc7915/4to6.c:398-476 `allocate_fast`. -/
def allocFast (e : Env) (p : P) : Outcome P := do
  let delta ← getDelta p
  let b := pskbCopy e p.skb (delta.toNat + p.skb.data)
  let b ← pull' b p.pay
  let err ← isError4 p
  let b ← fastInnerIf err p b
  let b ← push b p.l4len
  let f ← needFrag p.skb p.skb.nh
  let b ← pushIf f b 8
  let b ← push b 40
  let l3 := 40 + if f then 8 else 0
  pure { skb := { b with nh := b.data, th := b.data + l3 }, proto := p.proto, inner := false, frag := if f then 40 else 0, pay := l3 + p.l4len }

/-- mod/rfc7915/4to6.c:506-536: one packet of the slow path. `none`: skb_copy_bits() fails. -/
def slowOne (e : Env) (p : P) (off n : Nat) : Outcome (Option Buf) := do
  let b := reserve (allocSkb e (p.skb.data + 48 + n)) p.skb.data
  let b := { b with nh := b.data }
  let b ← put b 40
  let b ← put b 8
  let pos := b.tail
  let b ← put b n
  let b := { b with th := b.data + 48 }
  match copyBits p.skb (p.skb.th - p.skb.data + off) n with
  | none => pure none
  | some l => do
    let b ← write b pos l
    pure (some b)

/-- mod/rfc7915/4to6.c:498-540: the loop. `left`: `payload_left`; `off`: `bytes_consumed`. If `per` is zero it does not end. -/
def slowGo (e : Env) (p : P) (per : Nat) : Nat → Nat → Nat → Outcome (Option (List Buf))
  | 0, _, _ => .ub .infiniteLoop
  | fuel + 1, left, off =>
    if left = 0 then pure (some [])
    else do
      let n := if per < left then per else left
      let r ← slowOne e p off n
      match r with
      | none => pure none
      | some b => do
        let r ← slowGo e p per fuel (left - n) (off + n)
        match r with
        | none => pure none
        | some bs => pure (some (b :: bs))

/-- mod/rfc7915/4to6.c:478-547 `allocate_slow`. `mpl` is at least 1280 (see `Hdr.path46`). `none`: dropped. -/
def allocSlow (e : Env) (p : P) (mpl : Nat) : Outcome (Option (P × List Buf)) := do
  let left := p.skb.len - p.l3len
  let r ← slowGo e p ((mpl - 48) / 8 * 8) (left + 1) left 0
  match r with
  | none => pure none
  | some [] => .ub .nullDeref
  | some (b :: bs) => pure (some ({ skb := b, proto := p.proto, inner := false, frag := 40, pay := 48 + p.l4len }, bs))

/-- mod/rfc7915/6to4.c:474-486: the headers of the packet inside. -/
def alloc64Inner (p : P) (b : Buf) : Outcome Buf := do
  let r ← last p.skb p.payload
  let b ← pull' b (r.2 - p.payload)
  push b 20

/-- mod/rfc7915/6to4.c:476: the condition. -/
def alloc64InnerIf (err : Bool) (p : P) (b : Buf) : Outcome Buf := if err then alloc64Inner p b else .ok b

/-- mod/rfc7915/6to4.c:476: whether there are headers of a packet inside. -/
def hasInner6 (p : P) : Outcome Bool := do
  let f ← fragHdr p
  if firstFrag6 f then isError6 p else pure false

/-- mod/rfc7915/6to4.c:434-526 `ttp64_alloc_skb`. -/
def alloc64 (e : Env) (p : P) : Outcome P := do
  let b := pskbCopy e p.skb p.skb.data
  let b ← pull' b p.pay
  let err ← hasInner6 p
  let b ← alloc64InnerIf err p b
  let b ← push b p.l4len
  let b ← push b 20
  pure { skb := { b with nh := b.data, th := b.data + 20 }, proto := p.proto, inner := false, frag := 0, pay := 20 + p.l4len }

/-! ## Writing headers -/

/-- mod/rfc7915/4to6.c:855-900 `ttcp46_ipv6_common`, and the addresses. `many`: `out->skb->next`. -/
def common46 (v : Vals) (s : S) (many : Bool) : Outcome S := do
  let s ← writeOut s s.pout.skb.nh (v.l3 none)
  let f ← needFrag s.pin.skb s.pin.skb.nh
  if f || many then writeOut s (s.pout.skb.nh + 40) v.frag else pure s

/-- mod/rfc7915/4to6.c:903-934 `ttp46_ipv6_external`, except for `autofill_hdr6`. -/
def ext46 (v : Vals) (s : S) (many : Bool) : Outcome S := do
  let s ← common46 v s many
  writeOut s (s.pout.skb.nh + 4) (be16 (s.pout.skb.len - 40))

/-- mod/rfc7915/6to4.c:626-669 `ttp64_ipv4_external`. -/
def ext64 (v : Vals) (s : S) : Outcome S := do
  let f ← fragHdr s.pin
  let s ← writeOut s s.pout.skb.nh (v.l3 f)
  writeOut s (s.pout.skb.nh + 2) (be16 s.pout.skb.len)

/-- mod/rfc7915/6to4.c:674-697 `ttp64_ipv4_internal`. -/
def int64 (v : Vals) (s : S) : Outcome S := do
  let _ ← read s.pin.skb s.pin.skb.nh 40
  let f ← fragHdr s.pin
  writeOut s s.pout.skb.nh (v.l3 f)

/-- mod/rfc7915/4to6.c:936-960 `ttp46_ipv6_internal`. -/
def int46 (v : Vals) (s : S) : Outcome S := do
  let _ ← read s.pin.skb s.pin.skb.nh 20
  common46 v s false

/-- The ports: mod/rfc7915/4to6.c:1453-1456, 1493-1496, 6to4.c:1117-1120, 1153-1156. -/
def writePorts (v : Vals) (s : S) : Outcome S :=
  match v.ports with
  | none => pure s
  | some l => writeOut s s.pout.skb.th l

/-- mod/rfc7915/4to6.c:1443-1481 `ttp46_tcp`, 6to4.c:1107-1141 `ttp64_tcp`. -/
def xlatTcp (g : Given) (v : Vals) (s : S) : Outcome S := do
  let l ← read s.pin.skb s.pin.skb.th s.pin.l4len
  let s ← writeOut s s.pout.skb.th l
  let s ← writePorts v s
  if !g.partially then do
    let _ ← read s.pin.skb s.pin.skb.th 20
    let _ ← read s.pout.skb s.pout.skb.th 20
    writeOut s (s.pout.skb.th + 16) v.tcp
  else writeOut s (s.pout.skb.th + 16) v.tcp

/-- mod/rfc7915/4to6.c:1483-1532 `ttp46_udp`, 6to4.c:1143-1178 `ttp64_udp`. -/
def xlatUdp (g : Given) (v : Vals) (s : S) : Outcome S := do
  let l ← read s.pin.skb s.pin.skb.th s.pin.l4len
  let s ← writeOut s s.pout.skb.th l
  let s ← writePorts v s
  if !g.partially then do
    let _ ← read s.pin.skb s.pin.skb.th 8
    let _ ← read s.pout.skb s.pout.skb.th 8
    writeOut s (s.pout.skb.th + 6) v.udp
  else writeOut s (s.pout.skb.th + 6) v.udp

/-- mod/rfc7915/common.c:248-313 `fix_ie`, mod/rfc7915/common.c:337-405 `handle_icmp_extension`, without the length field. The bytes come from `Jool.IcmpExt`. `none`: dropped. -/
def extension (g : Given) (a : IcmpExt.Args) (ipl : Nat) (s : S) : Outcome (Option (S × Nat)) :=
  let inPay := s.pin.skb.bytes.drop s.pin.pay
  match IcmpExt.handle a ipl inPay s.pout.pay (s.pout.skb.bytes.drop s.pout.pay) with
  | .drop => pure none
  | .ub => .ub .outOfBounds
  | .ok l f =>
    if ipl = 0 ∨ ipl = inPay.length then pure (some (s, f))
    else
      let o := s.pout.skb
      let b : Buf :=
        { mem := g.env.fresh g.ll ++ o.bytes.take s.pout.pay ++ l ++ g.env.fresh g.env.slack
          data := g.ll, tail := g.ll + (o.bytes.take s.pout.pay).length + l.length, pages := []
          nh := g.ll, th := g.ll + (o.th - o.data) }
      pure (some ({ s with pout := { s.pout with skb := b } }, f))

def skbTrim (s : S) (n : Nat) : S := { s with pout := { s.pout with skb := trim s.pout.skb n } }

/-- mod/rfc7915/4to6.c:1205-1225 `handle_icmp6_extension`, 1233-1251 `trim_1280`. -/
def finish46 (g : Given) (s : S) : Outcome (Option S) := do
  let l ← read s.pin.skb s.pin.skb.th 8
  let r ← extension g ⟨1280, 3, IcmpExt.shouldRemove (at8 l 0) (at8 l 1)⟩ ((at8 l 5).toNat * 4) s
  match r with
  | none => pure none
  | some (s, f) => do
    let s ← writeOut s (s.pout.skb.th + 4) [BitVec.ofNat 8 f]
    let s ← writeOut s (s.pout.skb.nh + 4) (be16 (s.pout.skb.len - 40))
    if s.pout.skb.len ≤ 1280 then pure (some s)
    else do
      let s := skbTrim s 1280
      let s ← writeOut s (s.pout.skb.nh + 4) (be16 (s.pout.skb.len - 40))
      pure (some s)

/-- mod/rfc7915/6to4.c:899-914 `update_total_length`: the header checksum is given by the values. -/
def updateTotalLength (v : Vals) (s : S) : Outcome S := do
  let l ← read s.pout.skb s.pout.skb.nh 20
  if at16 l 2 = s.pout.skb.len then pure s
  else do
    let s ← writeOut s (s.pout.skb.nh + 2) (be16 s.pout.skb.len)
    let s ← writeOut s (s.pout.skb.nh + 6) [at8 l 6 &&& 0xbf#8]
    writeOut s (s.pout.skb.nh + 10) v.ipsum

/-- mod/rfc7915/6to4.c:944-961 `trim_576`. -/
def trim576 (v : Vals) (s : S) : Outcome S :=
  if s.pout.skb.len ≤ 576 then pure s
  else updateTotalLength v (skbTrim s 576)

/-- mod/rfc7915/6to4.c:916-935 `handle_icmp4_extension`, and 983 `trim_576`. Types 1 and 3 are the ones that might have extensions (1027, 1043, 1048). -/
def finish64 (g : Given) (v : Vals) (s : S) : Outcome (Option S) := do
  let l ← read s.pin.skb s.pin.skb.th 8
  if at8 l 0 = 1#8 ∨ at8 l 0 = 3#8 then do
    let r ← extension g ⟨576, 2, false⟩ ((at8 l 4).toNat * 8) s
    match r with
    | none => pure none
    | some (s, f) => do
      let s ← writeOut s (s.pout.skb.th + 5) [BitVec.ofNat 8 f]
      let s ← updateTotalLength v s
      let s ← trim576 v s
      pure (some s)
  else do
    let s ← trim576 v s
    pure (some s)

/-- mod/rfc7915/4to6.c:1288-1338 `ttp46_icmp`, 1253-1281 `post_icmp6error`, and mod/rfc7915/common.c:167-214 `xlat_l4_function` and `ttpcomm_translate_inner_packet`, which call each other.
`lvl`: 0 is the packet, 1 is the packet inside, and so on. An error inside of an error looks for the addresses of the packet inside (1295-1298: `peek4`, SIIT).
`none`: dropped. -/
def l446 (g : Given) : Nat → Nat → S → Outcome (Option S)
  | 0, _, _ => .ub .infiniteLoop
  | fuel + 1, lvl, s => do
    match s.pin.proto with
    | L4.tcp => do
      let s ← xlatTcp g (g.vals lvl) s
      pure (some s)
    | L4.udp => do
      let s ← xlatUdp g (g.vals lvl) s
      pure (some s)
    | L4.other => pure (some s)
    | L4.icmp => do
      let l ← read s.pin.skb s.pin.skb.th 8
      let s ← writeOut s s.pout.skb.th (g.vals lvl).icmp
      if Icmp.isIcmp4Error (at8 l 0) then do
        let r ← peekIf s peek4
        match r with
        | none => pure none
        | some s => do
          let r ← becomeInner4 s true
          match r with
          | none => pure none
          | some t => do
            let t ← int46 (g.vals (lvl + 1)) t
            let r ← l446 g fuel (lvl + 1) t
            match r with
            | none => pure none
            | some t => do
              let s ← restoreOuter t (backup s.pin) (backup s.pout) true
              let r ← finish46 g s
              match r with
              | none => pure none
              | some s => do
                let s ← writeOut s (s.pout.skb.th + 2) (g.vals lvl).sum
                pure (some s)
      else pure (some s)

/-- mod/rfc7915/6to4.c:996-1052 `ttp64_icmp`, 963-989 `post_icmp4error`, and mod/rfc7915/common.c:167-214. -/
def l464 (g : Given) : Nat → Nat → S → Outcome (Option S)
  | 0, _, _ => .ub .infiniteLoop
  | fuel + 1, lvl, s => do
    match s.pin.proto with
    | L4.tcp => do
      let s ← xlatTcp g (g.vals lvl) s
      pure (some s)
    | L4.udp => do
      let s ← xlatUdp g (g.vals lvl) s
      pure (some s)
    | L4.other => pure (some s)
    | L4.icmp => do
      let l ← read s.pin.skb s.pin.skb.th 8
      let s ← writeOut s s.pout.skb.th (g.vals lvl).icmp
      if Icmp.isIcmp6Error (at8 l 0) then do
        let r ← peekIf s peek6
        match r with
        | none => pure none
        | some s => do
          let r ← becomeInner6 s true
          match r with
          | none => pure none
          | some t => do
            let t ← int64 (g.vals (lvl + 1)) t
            let r ← l464 g fuel (lvl + 1) t
            match r with
            | none => pure none
            | some t => do
              let s ← restoreOuter t (backup s.pin) (backup s.pout) true
              let r ← finish64 g (g.vals lvl) s
              match r with
              | none => pure none
              | some s => do
                let s ← writeOut s (s.pout.skb.th + 2) (g.vals lvl).sum
                pure (some s)
      else pure (some s)

/-! ## The whole translation -/

/-- mod/rfc7915/core.c:55-100 `translating_the_packet` with the steps of 6to4.c. -/
def xlat64 (g : Given) (p : P) : Outcome (Option S) := do
  let o ← alloc64 g.env p
  let s ← ext64 (g.vals 0) { pin := p, pout := o }
  let f ← fragHdr s.pin
  if firstFrag6 f then l464 g (p.skb.len + 2) 0 s else pure (some s)

/-- mod/rfc7915/core.c:55-100 `translating_the_packet` with the steps of 4to6.c, if `allocate_fast` is used. -/
def xlat46 (g : Given) (p : P) : Outcome (Option S) := do
  let o ← allocFast g.env p
  let s ← ext46 (g.vals 0) { pin := p, pout := o } false
  let f ← firstFrag4 s.pin.skb s.pin.skb.nh
  if f then l446 g (p.skb.len + 2) 0 s else pure (some s)

/-- mod/rfc7915/4to6.c:842-852: the loop of `autofill_hdr6`. `hdr`: the first 48 bytes of the first packet; `off`: `frag_offset`; `mf`: `first_mf`. -/
def fillGo (hdr : List Byte) (mf : Bool) : BitVec 16 → List Buf → Outcome (List Buf)
  | _, [] => pure []
  | off, b :: bs => do
    let b ← write b b.nh hdr
    let b ← write b (b.nh + 4) (be16 (b.len - 40))
    let fo := (off &&& 0xfff8#16) ||| (if !bs.isEmpty || mf then 1#16 else 0#16)
    let b ← write b (b.nh + 42) (be16 fo.toNat)
    let bs ← fillGo hdr mf (off + BitVec.ofNat 16 (b.len - 48)) bs
    pure (b :: bs)

/-- mod/rfc7915/4to6.c:824-853 `autofill_hdr6`. -/
def autofill (s : S) (bs : List Buf) : Outcome (S × List Buf) :=
  if bs.isEmpty then pure (s, bs)
  else do
    let l ← read s.pout.skb (s.pout.skb.nh + 42) 2
    let fo := BitVec.ofNat 16 (at16 l 0)
    let off := (fo &&& 0xfff8#16) + BitVec.ofNat 16 (s.pout.skb.len - 48)
    let s ← writeOut s (s.pout.skb.nh + 42) (be16 (fo ||| 1#16).toNat)
    let hdr ← read s.pout.skb s.pout.skb.nh 48
    let bs ← fillGo hdr (fo &&& 1#16 != 0#16) off bs
    pure (s, bs)

/-- mod/rfc7915/core.c:55-100 `translating_the_packet` with the steps of 4to6.c, if `allocate_slow` is used. -/
def xlat46Slow (g : Given) (mpl : Nat) (p : P) : Outcome (Option (S × List Buf)) := do
  let r ← allocSlow g.env p mpl
  match r with
  | none => pure none
  | some (o, bs) => do
    let s ← ext46 (g.vals 0) { pin := p, pout := o } (!bs.isEmpty)
    let (s, bs) ← autofill s bs
    let f ← firstFrag4 s.pin.skb s.pin.skb.nh
    if f then do
      let r ← l446 g (p.skb.len + 2) 0 s
      match r with
      | none => pure none
      | some s => pure (some (s, bs))
    else pure (some (s, bs))

end Jool.Build
