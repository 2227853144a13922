import Verif.Model.JooldMsg
/-
Netlink attributes as bytes: their layout, the parser of the kernel (`lib/nlattr.c`), the parser of the
clients' library (libnl's `attr.c`), and writing into a message of limited size. None of this is Jool's code:
these are contracts of its two libraries. `Verif.Model.NlAttr` is what Jool does with them.

Simplifications.
* Both ends run on the same little-endian host. (`nla_len`, `nla_type` and integers are in host order.)
* The kernel validates strictly since Linux 5.2 (`NL_VALIDATE_STRICT`) and liberally before; `strict` chooses, and the
  theorems are about both.
* The codes that a parser returns (`-EINVAL`, `-ERANGE`, `-NLE_*`) are one error, `Err.parse`.
-/
namespace Jool.Nla
open Jool.JooldMsg (Byte be unbe)

/-- Error codes. -/
inductive Err | parse | EINVAL | ENOENT | ESRCH | EPERM | EEXIST | ENOMEM | EMSGSIZE
deriving DecidableEq, Repr, Inhabited

/-- A function that returns a value or an error, or misbehaves. -/
inductive Res (α : Type)
  | ok (a : α)
  | err (e : Err)
  | ub (u : UB)
deriving DecidableEq, Repr

def Res.bind {α β} (r : Res α) (f : α → Res β) : Res β :=
  match r with
  | .ok a => f a
  | .err e => .err e
  | .ub u => .ub u

instance : Monad Res where
  pure := .ok
  bind := Res.bind

/-- `x` as `n` bytes, least significant first. -/
def le : Nat → Nat → List Byte
  | 0, _ => []
  | n + 1, x => BitVec.ofNat 8 x :: le n (x / 256)

/-- The number which bytes spell, least significant first. -/
def unle : List Byte → Nat
  | [] => 0
  | b :: r => b.toNat + 256 * unle r

/-- An attribute: `nla_type()` (14 bits), `NLA_F_NESTED`, payload. -/
structure Attr where
  ty : Nat
  nested : Bool
  data : List Byte
deriving DecidableEq, Repr, Inhabited

/-- `NLA_ALIGN` (include/uapi/linux/netlink.h). -/
def align (n : Nat) : Nat := (n + 3) / 4 * 4

/-- The bytes of an attribute: header, payload, padding. -/
def enc (a : Attr) : List Byte :=
  le 2 (4 + a.data.length) ++ le 2 (a.ty + if a.nested then 2 ^ 15 else 0) ++ a.data
    ++ List.replicate (align (4 + a.data.length) - (4 + a.data.length)) 0#8

/-- `nla_for_each_attr`, `nla_ok`, `nla_next` (include/net/netlink.h; libnl's `attr.c`): the attributes, and how many bytes
remain when the loop ends. -/
def walk : Nat → List Byte → List Attr × Nat
  | 0, l => ([], l.length)
  | n + 1, l =>
    if l.length < 4 then ([], l.length)
    else if unle (l.take 2) < 4 ∨ l.length < unle (l.take 2) then ([], l.length)
    else
      let r := walk n (l.drop (align (unle (l.take 2))))
      (⟨unle ((l.drop 2).take 2) % 2 ^ 14, unle ((l.drop 2).take 2) / 2 ^ 15 % 2 == 1,
        (l.take (unle (l.take 2))).drop 4⟩ :: r.1, r.2)

/-- The whole payload. (Each turn of the loop consumes four bytes or more.) -/
def attrs (l : List Byte) : List Attr × Nat := walk l.length l

/-- `struct nla_policy`: `NLA_U8`, `NLA_U16`, `NLA_U32`, an address (`JOOLNL_ADDR6_POLICY`, `JOOLNL_ADDR4_POLICY`:
src/common/config.h:92-113), `NLA_NESTED`, the name of an instance (src/common/config.c:18-27; size including the NUL), `NLA_BINARY` of
any length. -/
inductive Pol | u8 | u16 | u32 | addr (len : Nat) | nested | name (size : Nat) | any
deriving DecidableEq, Repr

/-- `nla_attr_len`/`nla_attr_minlen` of the integers. -/
def intOk (strict : Bool) (n : Nat) (a : Attr) : Bool :=
  if strict then !a.nested && a.data.length == n else decide (n ≤ a.data.length)

/-- Kernel's `validate_nla` (lib/nlattr.c). Addresses are `NLA_BINARY`, whose `len` is a maximum; names are
`NLA_NUL_STRING` (the NUL is within the first `size` bytes). -/
def kValid (strict : Bool) (a : Attr) : Pol → Bool
  | .u8 => intOk strict 1 a
  | .u16 => intOk strict 2 a
  | .u32 => intOk strict 4 a
  | .addr n => !(strict && a.nested) && decide (a.data.length ≤ n)
  | .nested => (!strict || a.nested) && (a.data.length == 0 || decide (4 ≤ a.data.length))
  | .name n => !(strict && a.nested) && (a.data.take n).contains 0#8
      && decide (a.data.length ≤ n - 1 + if a.data.getLast? = some 0#8 then 1 else 0)
  | .any => !(strict && a.nested)

/-- The policy of a type; types start at 1. -/
def polOf (pol : List Pol) (ty : Nat) : Option Pol := if ty = 0 then none else pol[ty - 1]?

/-- The kernel's opinion on one attribute; types beyond the policy are only accepted by liberal validation. -/
def kAccepts (strict : Bool) (pol : List Pol) (a : Attr) : Bool :=
  match polOf pol a.ty with
  | none => !strict
  | some p => kValid strict a p

/-- Kernel's `__nla_validate_parse` (lib/nlattr.c). -/
def kParse (strict : Bool) (pol : List Pol) (l : List Byte) : Res (List Attr) :=
  let w := attrs l
  if !(w.1.all (kAccepts strict pol)) then .err .parse
  else if strict && decide (0 < w.2) then .err .parse
  else .ok w.1

/-- Kernel's `nla_parse_nested` (include/net/netlink.h), called by mod/nl/attribute.c:852-866 `jnla_parse_nested`. -/
def kParseNested (strict : Bool) (pol : List Pol) (a : Attr) : Res (List Attr) :=
  if strict && !a.nested then .err .parse else kParse strict pol a.data

/-- `tb[t]`: the last attribute of the type. -/
def get (tb : List Attr) (t : Nat) : Option Attr := (tb.filter (fun a => a.ty == t)).getLast?

/-- libnl's `validate_nla` (`lib/attr.c`). Addresses are `NLA_UNSPEC` with both lengths set; names are `NLA_STRING`, which must
end with a NUL. -/
def uValid (a : Attr) : Pol → Bool
  | .u8 => decide (1 ≤ a.data.length)
  | .u16 => decide (2 ≤ a.data.length)
  | .u32 => decide (4 ≤ a.data.length)
  | .addr n => a.data.length == n
  | .nested => true
  | .name n => decide (1 ≤ a.data.length) && decide (a.data.length ≤ n) && (a.data.getLast? == some 0#8)
  | .any => true

/-- libnl's opinion on one attribute. -/
def uAccepts (pol : List Pol) (a : Attr) : Bool :=
  match polOf pol a.ty with
  | none => true
  | some p => uValid a p

/-- libnl's `nla_parse`, `nla_parse_nested`. -/
def uParse (pol : List Pol) (l : List Byte) : Res (List Attr) :=
  if (attrs l).1.all (uAccepts pol)
  then .ok (attrs l).1 else .err .parse

/-! ### Reading a payload -/

/-- `nla_get_u8`, `nla_get_u16`, `nla_get_u32`, `memcpy` from `nla_data`: the first `n` bytes; NULL is an error. -/
def payload (n : Nat) : Option Attr → Res (List Byte)
  | none => .ub .nullDeref
  | some a => if n ≤ a.data.length then .ok (a.data.take n) else .ub .outOfBounds

def getU8 (a : Option Attr) : Res (BitVec 8) := (payload 1 a).bind (fun l => .ok (BitVec.ofNat 8 (unle l)))
def getU16 (a : Option Attr) : Res (BitVec 16) := (payload 2 a).bind (fun l => .ok (BitVec.ofNat 16 (unle l)))
def getU32 (a : Option Attr) : Res (BitVec 32) := (payload 4 a).bind (fun l => .ok (BitVec.ofNat 32 (unle l)))

/-! ### Writing into a message with room for `cap` bytes

`none`: there is no room. Every caller then goes back to where it started (`nla_nest_cancel`) or throws the message away. -/

abbrev Writer := List Byte → Option (List Byte)

/-- `nla_put` (kernel and libnl). -/
def put (cap : Nat) (ty : Nat) (data : List Byte) : Writer := fun skb =>
  if skb.length + align (4 + data.length) ≤ cap then some (skb ++ enc ⟨ty, false, data⟩) else none

def putU8 (cap ty : Nat) (x : BitVec 8) : Writer := put cap ty (le 1 x.toNat)
def putU16 (cap ty : Nat) (x : BitVec 16) : Writer := put cap ty (le 2 x.toNat)
def putU32 (cap ty : Nat) (x : BitVec 32) : Writer := put cap ty (le 4 x.toNat)

/-- One after the other. -/
def seq : List Writer → Writer
  | [], skb => some skb
  | w :: ws, skb => (w skb).bind (seq ws)

/-- `nla_nest_start` (puts an empty attribute), some writers, `nla_nest_end` (corrects `nla_len`, which counts up to the end
of the message). -/
def nest (cap : Nat) (ty : Nat) (ws : List Writer) : Writer := fun skb =>
  if skb.length + 4 ≤ cap then
    (seq ws (skb ++ enc ⟨ty, true, []⟩)).map (fun out =>
      skb ++ (le 2 (out.length - skb.length) ++ le 2 (ty + 2 ^ 15)) ++ out.drop (skb.length + 4))
  else none

end Jool.Nla
