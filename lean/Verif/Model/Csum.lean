/-!
# Layer 4 and IPv4 header checksums of the translator

Model of the checksum arithmetic of `src/mod/common/rfc7915/6to4.c` and
`src/mod/common/rfc7915/4to6.c`.  Packets are byte strings.  The kernel's
checksum helpers work on 16-bit words in the byte order of the machine, so the
byte order is a parameter (`le`).

The four leaf helpers of `include/net/checksum.h` (`csum_add`, `csum_sub`,
`csum_unfold`, `csum_fold`) are transcribed.  The architecture-dependent ones
(`csum_partial` / `skb_checksum`, `csum_tcpudp_nofold`, `csum_ipv6_magic`) are
only known by contract: structure `Kernel`.  They are kernel code, not part of
`/repo`.
-/

namespace Jool.Csum

abbrev Byte := BitVec 8

/-- One 16-bit word of memory, as the machine reads it. -/
def w16 (le : Bool) (a b : Byte) : Nat :=
  if le then b.toNat * 256 + a.toNat else a.toNat * 256 + b.toNat

/-- Sum of the native 16-bit words of a byte string; an odd last byte is
    followed by an imaginary zero byte. -/
def wsum (le : Bool) : List Byte → Nat
  | [] => 0
  | [a] => w16 le a 0#8
  | a :: b :: t => w16 le a b + wsum le t

/-- `csum_add()` (kernel, `include/net/checksum.h`). -/
def csumAdd (a b : BitVec 32) : BitVec 32 :=
  let r := a + b
  r + (if r.toNat < b.toNat then 1#32 else 0#32)

/-- `csum_sub()` (kernel, `include/net/checksum.h`). -/
def csumSub (a b : BitVec 32) : BitVec 32 := csumAdd a (~~~ b)

/-- `csum_unfold()` (kernel). -/
def csumUnfold (c : BitVec 16) : BitVec 32 := c.setWidth 32

/-- `csum_fold()` (kernel, `include/asm-generic/checksum.h`). -/
def csumFold (s : BitVec 32) : BitVec 16 :=
  let a := (s &&& 0xFFFF#32) + (s >>> 16)
  let b := (a &&& 0xFFFF#32) + (a >>> 16)
  ~~~ (b.setWidth 16)

/-- A 16-bit number in network byte order. -/
def be16 (v : BitVec 16) : List Byte := [v.extractLsb' 8 8, v.extractLsb' 0 8]

/-- A 32-bit number in network byte order. -/
def be32 (v : BitVec 32) : List Byte :=
  be16 (v.extractLsb' 16 16) ++ be16 (v.extractLsb' 0 16)

/-- An IPv6 address in network byte order. -/
def be128 (v : BitVec 128) : List Byte :=
  be32 (v.extractLsb' 96 32) ++ be32 (v.extractLsb' 64 32) ++
  be32 (v.extractLsb' 32 32) ++ be32 (v.extractLsb' 0 32)

/-- Bytes summed by `csum_tcpudp_nofold(saddr, daddr, len, proto, …)`. -/
def pseudo4 (s d : BitVec 32) (len : Nat) (proto : Byte) : List Byte :=
  be32 s ++ be32 d ++ [0#8, proto] ++ be16 (BitVec.ofNat 16 len)

/-- Bytes summed by `csum_ipv6_magic(saddr, daddr, len, proto, …)`. -/
def pseudo6 (s d : BitVec 128) (len : Nat) (proto : Byte) : List Byte :=
  be128 s ++ be128 d ++ be32 (BitVec.ofNat 32 len) ++ [0#8, 0#8, 0#8, proto]

/-- Every byte is zero. -/
def allZero (l : List Byte) : Prop := ∀ b ∈ l, b = 0#8

instance (l : List Byte) : Decidable (allZero l) := by
  unfold allZero; infer_instance

/-- The architecture-dependent helpers of the kernel, by contract: the value is
    the sum of the native words modulo 65535, and zero represents the sum of
    nothing but zeroes only. -/
structure Kernel where
  /-- Little endian machine? -/
  le : Bool
  /-- `csum_partial(buff, len, sum)`; also `skb_checksum(skb, offset, len, sum)`
      over the bytes from `offset` on. -/
  part : List Byte → BitVec 32 → BitVec 32
  /-- `csum_tcpudp_nofold(saddr, daddr, len, proto, sum)`. -/
  nofold4 : BitVec 32 → BitVec 32 → Nat → Byte → BitVec 32 → BitVec 32
  /-- `csum_ipv6_magic(saddr, daddr, len, proto, sum)`. -/
  magic6 : BitVec 128 → BitVec 128 → Nat → Byte → BitVec 32 → BitVec 16
  part_mod : ∀ l i, (part l i).toNat % 65535 = (wsum le l + i.toNat) % 65535
  part_zero : ∀ l i, part l i = 0#32 ↔ allZero l ∧ i = 0#32
  nofold4_mod : ∀ s d len p i, (nofold4 s d len p i).toNat % 65535 =
    (wsum le (pseudo4 s d len p) + i.toNat) % 65535
  magic6_mod : ∀ s d len p i, ((magic6 s d len p i).toNat +
    (wsum le (pseudo6 s d len p) + i.toNat)) % 65535 = 0
  magic6_ones : ∀ s d len p i, magic6 s d len p i = 0xFFFF#16 →
    allZero (pseudo6 s d len p) ∧ i = 0#32

/-- How a native 16-bit number is laid out in memory. -/
def store (le : Bool) (c : BitVec 16) : List Byte :=
  if le then [c.extractLsb' 0 8, c.extractLsb' 8 8]
  else [c.extractLsb' 8 8, c.extractLsb' 0 8]

/-- Read a native 16-bit number at an offset. -/
def load (le : Bool) (l : List Byte) (off : Nat) : BitVec 16 :=
  BitVec.ofNat 16 (w16 le (l.getD off 0#8) (l.getD (off + 1) 0#8))

/-- Overwrite the two bytes at an offset. -/
def put (l : List Byte) (off : Nat) (two : List Byte) : List Byte :=
  l.take off ++ two ++ l.drop (off + 2)

/-- `pseudohdr6_csum()`, 6to4.c:1068-1071. -/
def pseudohdr6 (K : Kernel) (s d : BitVec 128) : BitVec 32 :=
  ~~~ csumUnfold (K.magic6 s d 0 0#8 0#32)

/-- `pseudohdr4_csum()`, 6to4.c:1073-1076. -/
def pseudohdr4 (K : Kernel) (s d : BitVec 32) : BitVec 32 := K.nofold4 s d 0 0#8 0#32

/-- `update_csum_6to4()`, 6to4.c:1078-1104. -/
def update64 (K : Kernel) (c : BitVec 16) (s6 d6 : BitVec 128) (inHdr : List Byte)
    (s4 d4 : BitVec 32) (outHdr : List Byte) : BitVec 16 :=
  let x := ~~~ csumUnfold c
  let x := csumSub x (pseudohdr6 K s6 d6)
  let x := csumSub x (K.part inHdr 0#32)
  let x := csumAdd x (pseudohdr4 K s4 d4)
  let x := csumAdd x (K.part outHdr 0#32)
  csumFold x

/-- `update_csum_4to6()`, 4to6.c:1383-1405. -/
def update46 (K : Kernel) (c : BitVec 16) (s4 d4 : BitVec 32) (inHdr : List Byte)
    (s6 d6 : BitVec 128) (outHdr : List Byte) : BitVec 16 :=
  let x := ~~~ csumUnfold c
  let x := csumSub x (K.nofold4 s4 d4 0 0#8 0#32)
  let x := csumSub x (K.part inHdr 0#32)
  let x := csumAdd x (~~~ csumUnfold (K.magic6 s6 d6 0 0#8 0#32))
  let x := csumAdd x (K.part outHdr 0#32)
  csumFold x

/-- `skb->ip_summed`. -/
inductive Summed where | none | unnecessary | complete | partial_
  deriving DecidableEq, Repr

/-- Header geometry: offset of the checksum field, and how many header bytes
    the functions copy into `tcp_copy` / `udp_copy`. -/
structure Geo where
  off : Nat
  hl : Nat
  proto : Byte

/-- `struct tcphdr`. -/
def tcp : Geo := ⟨16, 20, 6#8⟩
/-- `struct udphdr`. -/
def udp : Geo := ⟨6, 8, 17#8⟩

/-- The port rewriting at the top of `ttp64_tcp()` (6to4.c:1115-1120),
    `ttp64_udp()`, `ttp46_tcp()` and `ttp46_udp()`: NAT64 replaces both ports,
    SIIT none. -/
def setPorts (ports : Option (BitVec 16 × BitVec 16)) (l : List Byte) : List Byte :=
  match ports with
  | some p => be16 p.1 ++ be16 p.2 ++ l.drop 4
  | none => l

/-- Outcome: the segment, and the new `skb->ip_summed`. -/
structure Out where
  seg : List Byte
  summed : Summed
  deriving DecidableEq, Repr

/-- The segment with its checksum field zeroed: `tcp_out->check = 0`. -/
def cleared (g : Geo) (l : List Byte) : List Byte := put l g.off [0#8, 0#8]

/-- `ttp64_tcp()` (6to4.c:1106-1140) and `ttp64_udp()` (6to4.c:1142-1178); they
    only differ in the geometry and in `CSUM_MANGLED_0`.
    `pkt_datagram_len(out)` is the length of the segment. -/
def xlat64 (K : Kernel) (g : Geo) (mangle : Bool) (sm : Summed)
    (ports : Option (BitVec 16 × BitVec 16)) (s6 d6 : BitVec 128) (seg : List Byte)
    (s4 d4 : BitVec 32) : Out :=
  let out := setPorts ports seg
  if sm ≠ Summed.partial_ then
    let c := update64 K (load K.le seg g.off) s6 d6 (cleared g (seg.take g.hl))
      s4 d4 ((cleared g out).take g.hl)
    let c := if mangle ∧ c = 0#16 then 0xFFFF#16 else c
    Out.mk (put out g.off (store K.le c)) Summed.none
  else
    let c := ~~~ csumFold (K.nofold4 s4 d4 seg.length g.proto 0#32)
    Out.mk (put out g.off (store K.le c)) Summed.partial_

/-- `ttp64_tcp()`, 6to4.c:1106-1140. -/
def tcp64 (K : Kernel) := xlat64 K tcp false
/-- `ttp64_udp()`, 6to4.c:1142-1178. -/
def udp64 (K : Kernel) := xlat64 K udp true

/-- `skb_list_csum()`, 4to6.c:1357-1379: the checksum over all the fragments
    the slow path produced. -/
def listCsum (K : Kernel) (s6 d6 : BitVec 128) (proto : Byte) (frags : List (List Byte)) :
    BitVec 16 :=
  K.magic6 s6 d6 (frags.map List.length).sum proto
    (frags.foldl (fun c f => K.part f c) 0#32)

/-- `ttp46_tcp()`, 4to6.c:1443-1481.  `seg` is what the first `skb` of the list
    carries, `more` is what the other fragments carry. -/
def tcp46 (K : Kernel) (sm : Summed) (ports : Option (BitVec 16 × BitVec 16))
    (s4 d4 : BitVec 32) (seg : List Byte) (more : List (List Byte)) (s6 d6 : BitVec 128) : Out :=
  let out := setPorts ports seg
  if sm ≠ Summed.partial_ then
    Out.mk (put out tcp.off (store K.le
      (update46 K (load K.le seg tcp.off) s4 d4 (cleared tcp (seg.take tcp.hl))
        s6 d6 ((cleared tcp out).take tcp.hl)))) sm
  else if more ≠ [] then
    Out.mk (put out tcp.off (store K.le
      (listCsum K s6 d6 tcp.proto (cleared tcp out :: more)))) sm
  else
    Out.mk (put out tcp.off (store K.le
      (~~~ K.magic6 s6 d6 seg.length tcp.proto 0#32))) Summed.partial_

/-- `can_compute_csum()`, 4to6.c:1407-1441. -/
def canCompute (nat64 mf amend : Bool) : Bool := nat64 || !(mf || !amend)

/-- `ttp46_udp()`, 4to6.c:1483-1533.  `none`: the packet is dropped. -/
def udp46 (K : Kernel) (sm : Summed) (nat64 mf amend : Bool)
    (ports : Option (BitVec 16 × BitVec 16))
    (s4 d4 : BitVec 32) (seg : List Byte) (more : List (List Byte)) (s6 d6 : BitVec 128) :
    Option Out :=
  let out := setPorts ports seg
  let part := Out.mk (put out udp.off (store K.le
      (~~~ K.magic6 s6 d6 seg.length udp.proto 0#32))) Summed.partial_
  if load K.le seg udp.off = 0#16 then
    if canCompute nat64 mf amend then some part else none
  else if sm ≠ Summed.partial_ then
    some (Out.mk (put out udp.off (store K.le
      (update46 K (load K.le seg udp.off) s4 d4 (cleared udp (seg.take udp.hl))
        s6 d6 ((cleared udp out).take udp.hl)))) sm)
  else if more ≠ [] then
    some (Out.mk (put out udp.off (store K.le
      (listCsum K s6 d6 udp.proto (cleared udp out :: more)))) sm)
  else some part

/-- What the NIC or `skb_checksum_help()` does to a `CHECKSUM_PARTIAL` packet
    before it leaves (kernel, `net/core/dev.c`): sum everything from
    `csum_start` on, store the folded sum at `csum_offset`. -/
def finish (K : Kernel) (off : Nat) (seg : List Byte) : List Byte :=
  let c := csumFold (K.part seg 0#32)
  put seg off (store K.le (if c = 0#16 then 0xFFFF#16 else c))

/-- An ICMP echo header: type, code, checksum, identifier, and the sequence
    number and payload of the original. -/
def echo (t c : Byte) (ck : List Byte) (id : Option (BitVec 16)) (seg : List Byte) : List Byte :=
  [t, c] ++ ck ++ (match id with
    | some i => be16 i
    | none => (seg.drop 4).take 2) ++ seg.drop 6

/-- The echo cases of `ttp64_icmp()` (6to4.c:1013-1022) with
    `update_icmp4_csum()` (6to4.c:823-855). -/
def echo64 (K : Kernel) (t c : Byte) (id : Option (BitVec 16)) (s6 d6 : BitVec 128)
    (seg : List Byte) : List Byte :=
  let x := ~~~ csumUnfold (load K.le seg 2)
  let x := csumSub x (~~~ csumUnfold (K.magic6 s6 d6 seg.length 58#8 0#32))
  let x := csumSub x (K.part (put (seg.take 8) 2 [0#8, 0#8]) 0#32)
  let x := csumAdd x (K.part ((echo t c [0#8, 0#8] id seg).take 8) 0#32)
  echo t c (store K.le (csumFold x)) id seg

/-- The echo cases of `ttp46_icmp()` (4to6.c:1307-1316) with
    `update_icmp6_csum()` (4to6.c:1122-1143). -/
def echo46 (K : Kernel) (t c : Byte) (id : Option (BitVec 16)) (s6 d6 : BitVec 128)
    (seg : List Byte) : List Byte :=
  let x := ~~~ csumUnfold (load K.le seg 2)
  let x := csumSub x (K.part (put (seg.take 8) 2 [0#8, 0#8]) 0#32)
  let x := csumAdd x (K.part ((echo t c [0#8, 0#8] id seg).take 8) 0#32)
  echo t c (store K.le (K.magic6 s6 d6 seg.length 58#8 x)) id seg

/-- `validate_icmp6_csum()`, 6to4.c:876-897. -/
def validate6 (K : Kernel) (sm : Summed) (s6 d6 : BitVec 128) (seg : List Byte) : Bool :=
  if sm ≠ Summed.none then true
  else decide (K.magic6 s6 d6 seg.length 58#8 (K.part seg 0#32) = 0#16)

/-- `validate_icmp4_csum()`, 4to6.c:1164-1181. -/
def validate4 (K : Kernel) (sm : Summed) (seg : List Byte) : Bool :=
  if sm ≠ Summed.none then true
  else decide (csumFold (K.part seg 0#32) = 0#16)

/-- `post_icmp4error()`, 6to4.c:963-989, as far as checksums go: validate the
    original, and compute (`compute_icmp4_csum()`, 6to4.c:861-874) that of
    the translated segment `out`. -/
def error64 (K : Kernel) (sm : Summed) (s6 d6 : BitVec 128) (seg out : List Byte) :
    Option (List Byte) :=
  if validate6 K sm s6 d6 seg then
    some (put out 2 (store K.le (csumFold (K.part (put out 2 [0#8, 0#8]) 0#32))))
  else none

/-- `post_icmp6error()`, 4to6.c:1253-1282, as far as checksums go;
    `compute_icmp6_csum()` is 4to6.c:1145-1162. -/
def error46 (K : Kernel) (sm : Summed) (seg out : List Byte) (s6 d6 : BitVec 128) :
    Option (List Byte) :=
  if validate4 K sm seg then
    some (put out 2 (store K.le
      (K.magic6 s6 d6 out.length 58#8 (K.part (put out 2 [0#8, 0#8]) 0#32))))
  else none

/-- `hdr4->check = 0; hdr4->check = ip_fast_csum(hdr4, hdr4->ihl)`:
    6to4.c:665-666, 6to4.c:693-694 and 6to4.c:912-913. -/
def ipHeader (K : Kernel) (hdr : List Byte) : List Byte :=
  put hdr 10 (store K.le (csumFold (K.part (put hdr 10 [0#8, 0#8]) 0#32)))

/-- A reference kernel: add the words one after another with `csum_add()`. -/
def genPart (le : Bool) : List Byte → BitVec 32 → BitVec 32
  | [], i => i
  | [a], i => csumAdd i (BitVec.ofNat 32 (w16 le a 0#8))
  | a :: b :: t, i => genPart le t (csumAdd i (BitVec.ofNat 32 (w16 le a b)))

end Jool.Csum
