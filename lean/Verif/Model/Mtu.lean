import Verif.Model.Addr
/-
MTU fields and MTU plateaus.

Sources: mod/common/rfc7915/6to4.c (compute_mtu4, validate_size), mod/common/rfc7915/4to6.c (icmp6_minimum_mtu,
compute_mtu6, ttp46_alloc_skb), mod/common/nl/attribute.c (validate_plateaus, jnla_get_plateaus).

`unsigned int` is `BitVec 32`, with the wraparound of C.
-/
namespace Jool.Mtu

abbrev U32 := BitVec 32

/-- The kernel's `min` and `max` on `unsigned int`. -/
def umin (a b : U32) : U32 := if a.toNat < b.toNat then a else b
def umax (a b : U32) : U32 := if b.toNat < a.toNat then a else b

/-- mod/common/rfc7915/6to4.c:703-706 `minimum`: the `cpu_to_be16` truncates. -/
def minimum (a b c : U32) : BitVec 16 := (umin a (umin b c)).setWidth 16

/-- mod/common/rfc7915/6to4.c:708-735 `compute_mtu4`. `pkt`: MTU of the Packet Too Big. `inMtu`, `outMtu`: MTU of
the incoming device and of the outgoing route; 0xffffffff (`INFINITE`) if the kernel does not have them. -/
def mtu4 (pkt inMtu outMtu : U32) : BitVec 16 := minimum (pkt - 20) outMtu (inMtu - 20)

/-- mod/common/rfc7915/4to6.c:985-990: the first plateau of the table that is smaller than `totLen`. -/
def pickPlateau (plateaus : List (BitVec 16)) (totLen : BitVec 16) : Option (BitVec 16) :=
  plateaus.find? (fun p => decide (p.toNat < totLen.toNat))

/-- mod/common/rfc7915/4to6.c:967-999 `icmp6_minimum_mtu`. `plateaus` are the first `count` values of the
table. -/
def minimumMtu6 (plateaus : List (BitVec 16)) (pkt nexthop6 nexthop4 : U32) (totLen : BitVec 16) : U32 :=
  let pkt := if pkt = 0 then
      match pickPlateau plateaus totLen with
      | some p => p.setWidth 32
      | none => pkt
    else pkt
  let result := umin (pkt + 20) (umin nexthop6 (nexthop4 + 20))
  if result.toNat < 1280 then 1280 else result

/-- mod/common/rfc7915/4to6.c:1001-1037 `compute_mtu6`. `pkt`: MTU of the Fragmentation Needed (16 bits). `totLen`:
total length field of the packet in error. -/
def mtu6 (plateaus : List (BitVec 16)) (pkt : BitVec 16) (inMtu outMtu : U32) (totLen : BitVec 16) : U32 :=
  minimumMtu6 plateaus (pkt.setWidth 32) outMtu inMtu totLen

/-- mod/common/rfc7915/6to4.c:424-425: MTU of the Packet Too Big sent to the IPv6 node when the packet does not
fit in the IPv4 side. -/
def ownPtb (nexthop : U32) : U32 := umax 1280 (nexthop + 20)

/-- mod/common/rfc7915/4to6.c:732-734: MTU of the Fragmentation Needed sent to the IPv4 node when a packet with DF
does not fit in the IPv6 side. -/
def ownFn (nexthop : U32) : U32 := umax 576 (nexthop - 20)

/-! ## Plateaus -/

/-- mod/common/nl/attribute.c:490-497, the loop of `validate_plateaus`. `v`: the array. Returns the array and the
final `i`. -/
def compact (count : Nat) (v : Nat → Nat) (i j : Nat) : (Nat → Nat) × Nat :=
  if j < count then
    if v j = 0 then (v, i)
    else if v i ≠ v j then compact count (fun k => if k = i + 1 then v j else v k) (i + 1) (j + 1)
    else compact count v i (j + 1)
  else (v, i)
termination_by count - j

/-- The array after the kernel's `sort` (linux/sort.h; trusted to sort) puts the first elements in descending
order: mod/common/nl/attribute.c:469-472 `u16_compare`, 487. `input` are the elements, `stale` is the rest of the
array. -/
def sorted (input : List Nat) (stale : Nat → Nat) (k : Nat) : Nat :=
  (input.mergeSort (fun a b => decide (b ≤ a)))[k]?.getD (stale k)

/-- mod/common/nl/attribute.c:510-536 `jnla_get_plateaus` and 481-507 `validate_plateaus`. `stale`: what the array
had before. Returns the list that is stored (the first `count` elements), or `none` if refused. -/
def setPlateaus (stale : Nat → Nat) (input : List Nat) : Option (List Nat) :=
  if 64 < input.length then none
  else
    let v := sorted input stale
    let r := compact input.length v 0 1
    if r.1 0 = 0 then none
    else some ((List.range (r.2 + 1)).map r.1)

end Jool.Mtu
