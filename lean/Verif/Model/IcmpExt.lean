/-!
# ICMP extensions (RFC 4884) in translated ICMP errors

Model of `handle_icmp_extension()` and `fix_ie()`
(`src/mod/common/rfc7915/common.c:248-405`) and of their callers in
`6to4.c` and `4to6.c`.

A packet is the length of its headers (IP header plus the 8 bytes of ICMP
header) and its ICMP payload (the nested packet and, perhaps, an extension).
`size_t` is 64 bits wide, `int` is 32.
-/

namespace Jool.IcmpExt

abbrev Byte := BitVec 8

/-- `struct icmpext_args`, `rfc7915/common.h`, minus `ipl`. -/
structure Args where
  /-- `max_pkt_len`: 576 or 1280. -/
  max : Nat
  /-- `out_bits`: the length field counts units of `2 ^ bits` bytes. -/
  bits : Nat
  /-- `force_remove_ie`. -/
  force : Bool

/-- Outcomes. -/
inductive Res where
  /-- `VERDICT_CONTINUE`: the ICMP payload and the value of the length field. -/
  | ok (payload : List Byte) (field : Nat)
  | drop
  /-- Memory outside of the buffers is accessed. -/
  | ub
  deriving DecidableEq, Repr

/-- Conversion of `size_t` to `int`. -/
def int (x : BitVec 64) : Int := (x.setWidth 32).toInt

/-- Outcomes of `skb_copy_bits()` (kernel). -/
inductive Copy where
  | ok (l : List Byte)
  | fault
  | ub

/-- `skb_copy_bits(skb, off, to, len)` (kernel, `net/core/skbuff.c`): a negative
    `len` passes the range check and becomes a huge `memcpy()`. -/
def copyBits (src : List Byte) (off : Nat) (len : Int) (room : Nat) : Copy :=
  if len < 0 then Copy.ub
  else if off + len.toNat > src.length then Copy.fault
  else if len.toNat > room then Copy.ub
  else Copy.ok ((src.drop off).take len.toNat)

/-- `fix_ie()`, common.c:248-316.  `ohl`: outer header length of `out`;
    `old`: ICMP payload of `out` so far; `inPay`: ICMP payload of `in`;
    `ieo`: where the extension starts in it.  The outer headers are copied
    verbatim and are left out.  Allocation does not fail in the model. -/
def fixIe (ohl : Nat) (old inPay : List Byte) (ieo : Nat) (ipl pad iel : BitVec 64) (field : Nat) :
    Res :=
  let total := int (BitVec.ofNat 64 ohl + ipl + pad + iel)
  if total < ohl then Res.ub
  else
    let room := total.toNat - ohl
    match copyBits old 0 (int ipl) room with
    | Copy.ub => Res.ub
    | Copy.fault => Res.drop
    | Copy.ok a =>
      if iel = 0#64 then
        -- whatever is not written stays as allocated; see `fixIe_exact`
        if a.length = room then Res.ok a field else Res.ub
      else if int pad < 0 ∨ (int pad).toNat > room - a.length then Res.ub
      else
        let z := List.replicate (int pad).toNat 0#8
        match copyBits inPay ieo (int iel) (room - a.length - z.length) with
        | Copy.ub => Res.ub
        | Copy.fault => Res.drop
        | Copy.ok e => if a.length + z.length + e.length = room then Res.ok (a ++ z ++ e) field
                       else Res.ub

/-- `x & ((~(size_t)0) << bits)`. -/
def align (x : BitVec 64) (bits : Nat) : BitVec 64 := x &&& (BitVec.allOnes 64 <<< bits)

/-- Kernel `min()` on `size_t`. -/
def min64 (a b : BitVec 64) : BitVec 64 := if a.toNat < b.toNat then a else b

/-- `handle_icmp_extension()`, common.c:337-405.  `ipl`: the length field of
    the incoming error, in bytes; `inPay`: its ICMP payload; `ohl`, `old`:
    header length and ICMP payload of the outgoing error so far. -/
def handle (a : Args) (ipl : Nat) (inPay : List Byte) (ohl : Nat) (old : List Byte) : Res :=
  if ipl = 0 then Res.ok old 0
  else if ipl = inPay.length then Res.ok old 0
  else if ipl > inPay.length then Res.drop
  else
    let inIel := BitVec.ofNat 64 (inPay.length - ipl)
    let ohl' := BitVec.ofNat 64 ohl
    let max := BitVec.ofNat 64 a.max
    let outLen := BitVec.ofNat 64 (ohl + old.length)
    let maxIel := max - (ohl' + 128#64)
    if a.force ∨ inIel.toNat > maxIel.toNat then
      fixIe ohl old inPay ipl (min64 (outLen - inIel) max - ohl') 0#64 0#64 0
    else
      let outIpl := align (min64 outLen max - inIel - ohl') a.bits
      let pad := if outIpl.toNat < 128 then 128#64 - outIpl else 0#64
      fixIe ohl old inPay ipl outIpl pad inIel ((outIpl + pad) >>> a.bits).toNat

/-- `trim_576()` (6to4.c:944-961) and `trim_1280()` (4to6.c:1233-1251), on the
    payload. -/
def trim (max ohl : Nat) (r : Res) : Res :=
  match r with
  | Res.ok p f => Res.ok (p.take (max - ohl)) f
  | r => r

/-- The length field as stored: `__u8`. -/
def store8 (r : Res) : Res :=
  match r with
  | Res.ok p f => Res.ok p (f % 256)
  | r => r

/-- `handle_icmp4_extension()` (6to4.c:916-935): 6→4, destination unreachable
    and time exceeded.  `field` is the length field of the ICMPv6 error, in
    units of 8 bytes.  The outgoing headers are 20 + 8 bytes. -/
def ext64 (field : BitVec 8) (inPay old : List Byte) : Res :=
  trim 576 28 (store8 (handle ⟨576, 2, false⟩ (field.toNat * 8) inPay 28 old))

/-- `should_remove_ie()`, 4to6.c:1182-1203. -/
def shouldRemove (type code : BitVec 8) : Bool :=
  if type = 3#8 ∧ code = 2#8 then true
  else if type = 3#8 ∧ code = 4#8 then true
  else if type = 12#8 then true
  else false

/-- `handle_icmp6_extension()` (4to6.c:1205-1225): 4→6, every error.  `field`
    is the length field of the ICMPv4 error, in units of 4 bytes.  The outgoing
    headers are 40 + 8 bytes. -/
def ext46 (type code : BitVec 8) (field : BitVec 8) (inPay old : List Byte) : Res :=
  trim 1280 48 (store8 (handle ⟨1280, 3, shouldRemove type code⟩ (field.toNat * 4) inPay 48 old))

end Jool.IcmpExt
