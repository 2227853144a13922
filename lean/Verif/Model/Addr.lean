/-
Model of `src/mod/common/address.c` and `src/mod/common/address.h`.

IPv4 addresses are their 32-bit host-order value (`be32_to_cpu(addr.s_addr)`), IPv6 addresses
their 128-bit value, most significant bit first. `getMsbD i` is therefore "bit i counting from
the left", as in a prefix.
-/
namespace Jool

/-- `struct in_addr` (host order). -/
abbrev Addr4 := BitVec 32
/-- `struct in6_addr` as one 128-bit big-endian number. -/
abbrev Addr6 := BitVec 128

/-- `struct ipv4_prefix` (src/common/types.h:92-99). `len` is a `__u8` in C. -/
structure Prefix4 where
  addr : Addr4
  len : Nat
deriving DecidableEq, Repr, Inhabited

/-- `struct ipv6_prefix` (src/common/types.h:101-108). -/
structure Prefix6 where
  addr : Addr6
  len : Nat
deriving DecidableEq, Repr, Inhabited

/-- mod/address.c:77-80 `get_prefix4_mask`: `((__u64) 0xffffffffU) << (32 - len)`, truncated to
32 bits on return. Shifting by a negative amount (`len > 32`) is undefined in C; every theorem
about this function carries `len ≤ 32`. -/
def getPrefix4Mask (len : Nat) : BitVec 32 :=
  ((0xffffffff#64) <<< (32 - len)).setWidth 32

/-- mod/address.c:82-89 `prefix4_contains`. -/
def prefix4Contains (p : Prefix4) (a : Addr4) : Bool :=
  (p.addr &&& getPrefix4Mask p.len) == (a &&& getPrefix4Mask p.len)

/-- mod/address.c:91-96 `prefix4_intersects`. -/
def prefix4Intersects (p1 p2 : Prefix4) : Bool :=
  prefix4Contains p1 p2.addr || prefix4Contains p2 p1.addr

/-- mod/address.c:98-101 `prefix4_get_addr_count` (a `__u64`). -/
def prefix4GetAddrCount (p : Prefix4) : BitVec 64 := 1#64 <<< (32 - p.len)

/-- mod/address.c:103-107 `prefix6_contains`, through the kernel's `ipv6_prefix_equal`
(include/net/ipv6.h), which compares the first `len` bits. Here: nothing survives of the
exclusive-or after dropping the `128 - len` low bits. -/
def prefix6Contains (p : Prefix6) (a : Addr6) : Bool :=
  (p.addr ^^^ a) >>> (128 - p.len) == 0#128

/-- mod/address.c:109-131 `prefix4_validate` (`true` = returns 0). NULL is not modelled. -/
def prefix4Validate (p : Prefix4) : Bool :=
  if p.len > 32 then false
  else (p.addr &&& ~~~(getPrefix4Mask p.len)) == 0#32

/-- The 32-bit "quadrant" `addr->s6_addr32[k]` in host order. -/
def Addr6.quadrant (a : Addr6) (k : Nat) : BitVec 32 := (a >>> (32 * (3 - k))).setWidth 32

/-- mod/address.c:189-200 `addr6_get_bit` (nonzero ⇔ true). -/
def addr6GetBit (a : Addr6) (pos : Nat) : Bool :=
  (Addr6.quadrant a (pos >>> 5)) &&& (1#32 <<< (31 - (pos &&& 0x1F))) != 0#32

/-- mod/address.c:173-177 `addr4_get_bit` (nonzero ⇔ true). Undefined in C for `pos > 31`. -/
def addr4GetBit (a : Addr4) (pos : Nat) : Bool :=
  a &&& (1#32 <<< (31 - pos)) != 0#32

/-- mod/address.c:179-187 `addr4_set_bit`. -/
def addr4SetBit (a : Addr4) (pos : Nat) (v : Bool) : Addr4 :=
  if v then a ||| (1#32 <<< (31 - pos)) else a &&& ~~~(1#32 <<< (31 - pos))

/-- mod/address.c:202-214 `addr6_set_bit`. The write to one quadrant is expressed on the whole
128-bit number: quadrant `pos >> 5`, bit `31 - (pos & 31)` is bit
`32 * (3 - pos>>5) + 31 - (pos & 31)` counted from the right. -/
def addr6SetBit (a : Addr6) (pos : Nat) (v : Bool) : Addr6 :=
  let m : Addr6 := 1#128 <<< (32 * (3 - (pos >>> 5)) + (31 - (pos &&& 0x1F)))
  if v then a ||| m else a &&& ~~~m

/-- mod/address.c:147-153, the loop of `prefix6_validate` starting at bit `i`; `fuel` is
`128 - i`. Returns `true` if no bit is set. -/
def prefix6ValidateLoop (a : Addr6) (i : Nat) : Nat → Bool
  | 0 => true
  | fuel + 1 => if addr6GetBit a i then false else prefix6ValidateLoop a (i + 1) fuel

/-- mod/address.c:133-156 `prefix6_validate` (`true` = returns 0). -/
def prefix6Validate (p : Prefix6) : Bool :=
  if p.len > 128 then false else prefix6ValidateLoop p.addr p.len (128 - p.len)

/-- mod/address.c:248-254, the subnets which should not be translated. -/
def scopeSubnets : List Prefix4 :=
  [ ⟨0x00000000#32, 8⟩, ⟨0x7f000000#32, 8⟩, ⟨0xa9fe0000#32, 16⟩, ⟨0xe0000000#32, 4⟩,
    ⟨0xffffffff#32, 32⟩ ]

/-- mod/address.c:245-266 `prefix4_has_subnet_scope`. -/
def prefix4HasSubnetScope (p : Prefix4) : Bool := scopeSubnets.any (prefix4Intersects p)

/-- mod/address.c:158-171 `prefix4_validate_scope` (`true` = returns 0). -/
def prefix4ValidateScope (p : Prefix4) (force : Bool) : Bool :=
  !(!force && prefix4HasSubnetScope p)

/-- mod/address.c:226-238 `addr4_is_scope_subnet`, with the kernel predicates of
include/linux/in.h: zeronet `(a & 0xff000000) == 0`, loopback `== 0x7f000000`, linklocal_169
`(a & 0xffff0000) == 0xa9fe0000`, multicast `(a & 0xf0000000) == 0xe0000000`, lbcast
`a == 0xffffffff`. -/
def addr4IsScopeSubnet (a : Addr4) : Bool :=
  (a &&& 0xff000000#32 == 0x00000000#32)
  || (a &&& 0xff000000#32 == 0x7f000000#32)
  || (a &&& 0xffff0000#32 == 0xa9fe0000#32)
  || (a &&& 0xf0000000#32 == 0xe0000000#32)
  || (a == 0xffffffff#32)

/-- mod/address.c:216-220 `prefix4_next` (a `__u64`). -/
def prefix4Next (p : Prefix4) : BitVec 64 := prefix4GetAddrCount p + p.addr.setWidth 64

/-- mod/address.h:65-69 `foreach_addr4`: the addresses visited, in order. `cursor` is a `__u64`;
the address is its truncation (`cpu_to_be32(cursor)`). `fuel` bounds the iterations. -/
def foreachAddr4Loop (p : Prefix4) (cursor : BitVec 64) : Nat → List Addr4
  | 0 => []
  | fuel + 1 =>
    if cursor.ult (prefix4Next p) then
      cursor.setWidth 32 :: foreachAddr4Loop p (cursor + 1#64) fuel
    else []

/-- `foreach_addr4` from the start. The loop condition is monotone, so `2^33` iterations of fuel
are never exhausted (proved in `Props`). -/
def foreachAddr4 (p : Prefix4) : List Addr4 :=
  foreachAddr4Loop p (p.addr.setWidth 64) (2 ^ 33)

end Jool
