import Verif.Model.Addr
/-
ICMP types, codes and pointers: the tables of mod/common/rfc7915/6to4.c and 4to6.c.

The C functions write their results in the outgoing header (or in the flow) and return a verdict; here they
return `none` if the packet is dropped. Type and code are `__u8`.
-/
namespace Jool.Icmp

abbrev Byte := BitVec 8

/-- mod/common/types.c:9-12 `is_icmp6_info` -/
def isIcmp6Info (t : Byte) : Bool := t == 128 || t == 129
/-- mod/common/types.c:14-24 `is_icmp6_error` -/
def isIcmp6Error (t : Byte) : Bool := t == 1 || t == 2 || t == 3 || t == 4
/-- mod/common/types.c:26-29 `is_icmp4_info` -/
def isIcmp4Info (t : Byte) : Bool := t == 8 || t == 0
/-- mod/common/types.c:31-38 `is_icmp4_error` -/
def isIcmp4Error (t : Byte) : Bool := t == 3 || t == 4 || t == 5 || t == 11 || t == 12

/-- mod/common/rfc7915/6to4.c:123-191 `xlat64_icmp_type`. The calls to `xlat64_internal_addresses` (which
translate the addresses of the packet in error) are the caller's business here. -/
def xlat64Type (t c : Byte) : Option (Byte × Byte) :=
  if t == 128 then some (8, 0)
  else if t == 129 then some (0, 0)
  else if t == 1 then
    if c == 0 || c == 2 || c == 3 then some (3, 1)
    else if c == 1 then some (3, 10)
    else if c == 4 then some (3, 3)
    else none
  else if t == 2 then some (3, 4)
  else if t == 3 then some (11, c)
  else if t == 4 then
    if c == 0 then some (12, 0)
    else if c == 1 then some (3, 2)
    else none
  else none

/-- mod/common/rfc7915/4to6.c:137-216 `xlat46_icmp_type`. -/
def xlat46Type (t c : Byte) : Option (Byte × Byte) :=
  if t == 8 then some (128, 0)
  else if t == 0 then some (129, 0)
  else if t == 3 then
    if c == 0 || c == 1 || c == 5 || c == 6 || c == 7 || c == 8 || c == 11 || c == 12 then some (1, 0)
    else if c == 2 then some (4, 1)
    else if c == 3 then some (1, 4)
    else if c == 4 then some (2, 0)
    else if c == 9 || c == 10 || c == 13 || c == 15 then some (1, 1)
    else none
  else if t == 11 then some (3, c)
  else if t == 12 then
    if c == 0 || c == 2 then some (4, 0)
    else none
  else none

/-- mod/common/rfc7915/6to4.c:742-794 `icmp6_to_icmp4_param_prob_ptr`. -/
def ptr64 (p : BitVec 32) : Option (BitVec 32) :=
  if 39 < p.toNat then none
  else if p == 0 then some 0
  else if p == 1 then some 1
  else if p == 2 || p == 3 then none
  else if p == 4 || p == 5 then some 2
  else if p == 6 then some 9
  else if p == 7 then some 8
  else if 24 ≤ p.toNat then some 16
  else if 8 ≤ p.toNat then some 12
  else none

/-- mod/common/rfc7915/4to6.c:1086-1092, the table of pointers. -/
def ptrs : List Byte :=
  [0, 1, 4, 4, 255, 255, 255, 255, 7, 6, 255, 255, 8, 8, 8, 8, 24, 24, 24, 24]

/-- mod/common/rfc7915/4to6.c:1098-1112: `ptr` is the high byte of the second word of the header.
`none`: dropped. -/
def ptr46 (word : BitVec 32) : Option (BitVec 32) :=
  let ptr : Byte := (word >>> 24).setWidth 8
  if 19 < ptr.toNat then none
  else
    match ptrs[ptr.toNat]? with
    | none => none
    | some x => if x == 255 then none else some (x.setWidth 32)

/-- Result of the translation of an ICMP header. `dead`: control reached one of the `WARN`s that the code marks
as dead code. -/
inductive Hdr
  | ok (type code : Byte) (word : BitVec 32)
  | drop
  | dead
deriving DecidableEq, Repr

/-- mod/common/rfc7915/6to4.c:996-1054 `ttp64_icmp` (with `icmp6_to_icmp4_param_prob`, 799-818), except the
checksum and the payload. `word` is the second word of the ICMPv6 header, in host byte order; `id` is the
identifier assigned by NAT64 (`none` in SIIT: the identifier does not change); `mtu` is the 16-bit value that
`compute_mtu4` leaves in the MTU field (`Verif.Model.Mtu`). -/
def ttp64 (id : Option (BitVec 16)) (mtu : BitVec 16) (t c : Byte) (word : BitVec 32) : Hdr :=
  match xlat64Type t c with
  | none => .drop
  | some (t', c') =>
    if t == 128 || t == 129 then
      .ok t' c' (id.getD (word.extractLsb' 16 16) ++ word.extractLsb' 0 16)
    else if t == 1 || t == 3 then .ok t' c' 0
    else if t == 2 then .ok t' c' ((0 : BitVec 16) ++ mtu)
    else if t == 4 then
      if c == 0 then
        match ptr64 word with
        | none => .drop
        | some p => .ok t' c' (p <<< 24)
      else if c == 1 then .ok t' c' 0
      else .dead
    else .dead

/-- mod/common/rfc7915/4to6.c:1288-1338 `ttp46_icmp` (with `icmp4_to_icmp6_dest_unreach`, 1043-1078, and
`icmp4_to_icmp6_param_prob`, 1083-1119), except the checksum and the payload. `mtu` is the value that
`compute_mtu6` leaves in the MTU field. -/
def ttp46 (id : Option (BitVec 16)) (mtu : BitVec 32) (t c : Byte) (word : BitVec 32) : Hdr :=
  match xlat46Type t c with
  | none => .drop
  | some (t', c') =>
    if t == 8 || t == 0 then
      .ok t' c' (id.getD (word.extractLsb' 16 16) ++ word.extractLsb' 0 16)
    else if t == 3 then
      if c == 0 || c == 1 || c == 5 || c == 6 || c == 7 || c == 8 || c == 11 || c == 12 || c == 3 || c == 9 ||
        c == 10 || c == 13 || c == 15 then .ok t' c' 0
      else if c == 2 then .ok t' c' 6
      else if c == 4 then .ok t' c' mtu
      else .dead
    else if t == 11 then .ok t' c' 0
    else if t == 12 then
      if c == 0 || c == 2 then
        match ptr46 word with
        | none => .drop
        | some p => .ok t' c' p
      else .dead
    else .dead

end Jool.Icmp
