import Verif.Model.Nla
import Verif.Model.Pool4
import Verif.Model.Eam
/-
Model of the attributes of `src/mod/common/nl/attribute.c` (the kernel's side) and `src/usr/nl/attribute.c` (the clients'
side): prefixes, transport addresses, EAM, pool4, BIB and session entries. (`mod/` abbreviates `src/mod/common/`, `usr/`
abbreviates `src/usr/`.)

The numbers of the attributes are those of the enumerations of src/common/config.h:115-215.
-/
namespace Jool.NlAttr
open Jool.Nla
open Jool.JooldMsg (Byte be unbe)

/-- src/common/types.h:206-216 `struct pool4_entry`. -/
structure WPool4 where
  mark : BitVec 32
  iters : BitVec 32
  flags : BitVec 8
  proto : BitVec 8
  pfx : Prefix4
  min : BitVec 16
  max : BitVec 16
deriving DecidableEq, Repr, Inhabited

/-- src/common/types.h:222-231 `struct bib_entry`. -/
structure WBib where
  a6 : T6
  a4 : T4
  proto : BitVec 8
  static : Bool
deriving DecidableEq, Repr, Inhabited

/-- src/usr/nl/session.h:15-23 `struct session_entry_usr`. -/
structure WSess where
  src6 : T6
  dst6 : T6
  src4 : T4
  dst4 : T4
  proto : BitVec 8
  state : BitVec 8
  ms : BitVec 32
deriving DecidableEq, Repr, Inhabited

/-- src/common/config.h:335-340 `struct instance_entry_usr`. The name is what comes before the NUL. -/
structure WInst where
  ns : BitVec 32
  xf : BitVec 8
  name : List Byte
deriving DecidableEq, Repr, Inhabited

/-! ### Policies (src/common/config.c:30-84) -/

def prefix6Policy : List Pol := [.addr 16, .u8]
def prefix4Policy : List Pol := [.addr 4, .u8]
def taddr6Policy : List Pol := [.addr 16, .u16]
def taddr4Policy : List Pol := [.addr 4, .u16]
def eamPolicy : List Pol := [.nested, .nested]
def pool4Policy : List Pol := [.u32, .u32, .u8, .u8, .nested, .u16, .u16]
def bibPolicy : List Pol := [.nested, .nested, .u8, .u8]
def sessionPolicy : List Pol := [.nested, .nested, .nested, .nested, .u8, .u8, .u8, .u32]
/-- src/common/config.c:14-28; `INAME_MAX_SIZE` is 16 (src/common/types.h:63). -/
def instancePolicy : List Pol := [.u32, .u8, .name 16]
/-- mod/nl/nl_handler.c:44-58 `jool_policy`: the attributes of a request, in the order of `enum joolnl_attr_root`
(src/common/config.h:65-80). -/
def rootPolicy : List Pol := [.any, .nested, .nested, .nested, .nested, .nested, .nested, .nested, .u8, .nested, .u8, .u8, .any]
def ADDR_QUERY : Nat := 1
def OFFSET : Nat := 8
def OPERAND : Nat := 10
def PROTO : Nat := 11

/-! ### The kernel reads -/

/-- mod/nl/attribute.c:15-23 `validate_null`. -/
def nonNull : Option Attr → Res Attr
  | none => .err .EINVAL
  | some a => .ok a

/-- mod/nl/attribute.c:36-46, 48-58, 60-70 `jnla_get_u8`, `jnla_get_u16`, `jnla_get_u32`; 226-236 `jnla_get_port`. -/
def kU8 (o : Option Attr) : Res (BitVec 8) := (nonNull o).bind (fun a => getU8 (some a))
def kU16 (o : Option Attr) : Res (BitVec 16) := (nonNull o).bind (fun a => getU16 (some a))
def kU32 (o : Option Attr) : Res (BitVec 32) := (nonNull o).bind (fun a => getU32 (some a))

/-- mod/nl/attribute.c:25-34 `validate_len`, and the `memcpy`. -/
def kBytes (n : Nat) (o : Option Attr) : Res (List Byte) :=
  (nonNull o).bind (fun a => if a.data.length < n then .err .EINVAL else payload n (some a))

/-- mod/nl/attribute.c:98-111, 113-126 `jnla_get_addr6`, `jnla_get_addr4`. -/
def kAddr6 (o : Option Attr) : Res Addr6 := (kBytes 16 o).bind (fun l => .ok (BitVec.ofNat 128 (unbe l)))
def kAddr4 (o : Option Attr) : Res Addr4 := (kBytes 4 o).bind (fun l => .ok (BitVec.ofNat 32 (unbe l)))

/-- mod/nl/attribute.c:147-175 `jnla_get_prefix6_optional`. -/
def kPrefix6Opt (s : Bool) (o : Option Attr) : Res (Option Prefix6) := do
  let a ← nonNull o
  let tb ← kParseNested s prefix6Policy a
  match get tb 2 with
  | none => .err .EINVAL
  | some l =>
    match get tb 1 with
    | none => pure none
    | some d => do
      let len ← getU8 (some l)
      let addr ← kAddr6 (some d)
      pure (some ⟨addr, len.toNat⟩)

/-- mod/nl/attribute.c:128-145 `jnla_get_prefix6`. -/
def kPrefix6 (s : Bool) (o : Option Attr) : Res Prefix6 := do
  match ← kPrefix6Opt s o with
  | none => .err .EINVAL
  | some p => pure p

/-- mod/nl/attribute.c:196-224 `jnla_get_prefix4_optional`. -/
def kPrefix4Opt (s : Bool) (o : Option Attr) : Res (Option Prefix4) := do
  let a ← nonNull o
  let tb ← kParseNested s prefix4Policy a
  match get tb 2 with
  | none => .err .EINVAL
  | some l =>
    match get tb 1 with
    | none => pure none
    | some d => do
      let len ← getU8 (some l)
      let addr ← kAddr4 (some d)
      pure (some ⟨addr, len.toNat⟩)

/-- mod/nl/attribute.c:177-194 `jnla_get_prefix4`. -/
def kPrefix4 (s : Bool) (o : Option Attr) : Res Prefix4 := do
  match ← kPrefix4Opt s o with
  | none => .err .EINVAL
  | some p => pure p

/-- mod/nl/attribute.c:238-257 `jnla_get_taddr6`. -/
def kTaddr6 (s : Bool) (o : Option Attr) : Res T6 := do
  let a ← nonNull o
  let tb ← kParseNested s taddr6Policy a
  let addr ← kAddr6 (get tb 1)
  let port ← kU16 (get tb 2)
  pure ⟨addr, port⟩

/-- mod/nl/attribute.c:259-278 `jnla_get_taddr4`. -/
def kTaddr4 (s : Bool) (o : Option Attr) : Res T4 := do
  let a ← nonNull o
  let tb ← kParseNested s taddr4Policy a
  let addr ← kAddr4 (get tb 1)
  let port ← kU16 (get tb 2)
  pure ⟨addr, port⟩

/-- mod/nl/attribute.c:280-298 `jnla_get_eam`. -/
def kEam (s : Bool) (o : Option Attr) : Res Eam.Entry := do
  let a ← nonNull o
  let tb ← kParseNested s eamPolicy a
  let p6 ← kPrefix6 s (get tb 1)
  let p4 ← kPrefix4 s (get tb 2)
  pure ⟨p6, p4⟩

/-- `if (attrs[…]) x = nla_get_…(attrs[…]);` on a field that was zeroed. -/
def optional {α} (zero : α) (f : Option Attr → Res α) : Option Attr → Res α
  | none => .ok zero
  | some a => f (some a)

/-- mod/nl/attribute.c:300-337 `jnla_get_pool4`. -/
def kPool4 (s : Bool) (o : Option Attr) : Res WPool4 := do
  let a ← nonNull o
  let tb ← kParseNested s pool4Policy a
  let mark ← optional 0 getU32 (get tb 1)
  let iters ← optional 0 getU32 (get tb 2)
  let flags ← optional 0 getU8 (get tb 3)
  let proto ← kU8 (get tb 4)
  let pfx ← kPrefix4 s (get tb 5)
  let min ← kU16 (get tb 6)
  let max ← kU16 (get tb 7)
  pure ⟨mark, iters, flags, proto, pfx, min, max⟩

/-- mod/nl/attribute.c:339-370 `jnla_get_bib`. (`is_static` is a `bool`.) -/
def kBib (s : Bool) (o : Option Attr) : Res WBib := do
  let a ← nonNull o
  let tb ← kParseNested s bibPolicy a
  let a6 ← kTaddr6 s (get tb 1)
  let a4 ← kTaddr4 s (get tb 2)
  let proto ← kU8 (get tb 3)
  let static ← optional 0 getU8 (get tb 4)
  pure ⟨a6, a4, proto, static != 0⟩

/-- mod/nl/eam.c:90-138 `handle_eamt_rm`: the prefixes of the request. -/
def kEamRm (s : Bool) (o : Option Attr) : Res (Option Prefix6 × Option Prefix4) := do
  let a ← nonNull o
  let tb ← kParseNested s eamPolicy a
  if (get tb 1).isNone && (get tb 2).isNone then .err .ENOENT
  else do
    let p6 ← optional none (fun x => (kPrefix6 s x).bind (fun p => .ok (some p))) (get tb 1)
    let p4 ← optional none (fun x => (kPrefix4 s x).bind (fun p => .ok (some p))) (get tb 2)
    pure (p6, p4)

/-- mod/nl/bib.c:96-162 `handle_bib_rm`: the addresses and the protocol of the request. (`is_static` is not used
afterwards.) `none` as protocol: `entry.l4_proto` keeps what was on the stack. -/
def kBibRm (s : Bool) (o : Option Attr) : Res (Option T6 × Option T4 × Option (BitVec 8)) := do
  let a ← nonNull o
  let tb ← kParseNested s bibPolicy a
  if (get tb 1).isNone && (get tb 2).isNone then .err .EINVAL
  else do
    let a6 ← optional none (fun x => (kTaddr6 s x).bind (fun p => .ok (some p))) (get tb 1)
    let a4 ← optional none (fun x => (kTaddr4 s x).bind (fun p => .ok (some p))) (get tb 2)
    let proto ← optional none (fun x => (getU8 x).bind (fun p => .ok (some p))) (get tb 3)
    let _ ← optional 0 getU8 (get tb 4)
    pure (a6, a4, proto)

/-- mod/nl/instance.c:101-104 `add_policy`. -/
def instAddPolicy : List Pol := [.u8, .nested]

/-- mod/nl/instance.c:101-151 `handle_instance_add`: framework and pool6. -/
def kInstAdd (s : Bool) (o : Option Attr) : Res (BitVec 8 × Option Prefix6) := do
  let a ← nonNull o
  let tb ← kParseNested s instAddPolicy a
  let xf ← kU8 (get tb 1)
  let p ← optional none (kPrefix6Opt s) (get tb 2)
  pure (xf, p)

/-- mod/nl/session.c:10-34 `parse_offset`: the two IPv4 transport addresses; absent ones are zeroes. -/
def kSessOffset (s : Bool) (a : Attr) : Res (T4 × T4) := do
  let tb ← kParseNested s sessionPolicy a
  let src ← optional ⟨0, 0⟩ (kTaddr4 s) (get tb 3)
  let dst ← optional ⟨0, 0⟩ (kTaddr4 s) (get tb 4)
  pure (src, dst)

/-- mod/nl/attribute.c:72-81 `validate_str`, 83-96 `jnla_get_str`. The loop reads up to `size` bytes. -/
def kStr (size : Nat) (o : Option Attr) : Res (List Byte) := do
  let a ← nonNull o
  if (a.data.take size).contains 0#8 then pure (a.data.takeWhile (fun b => b != 0#8))
  else if a.data.length < size then .ub .outOfBounds
  else .err .EINVAL

/-- mod/nl/instance.c:11-29 `parse_instance`. -/
def kInst (s : Bool) (a : Attr) : Res WInst := do
  let tb ← kParseNested s instancePolicy a
  let ns ← kU32 (get tb 1)
  let xf ← kU8 (get tb 2)
  let name ← kStr 16 (get tb 3)
  pure ⟨ns, xf, name⟩

/-! ### The kernel writes -/

/-- mod/nl/attribute.c:538-548 `jnla_put_addr6`, `jnla_put_addr4`; usr/nl/attribute.c:324-332 `nla_put_addr6`,
`nla_put_addr4`. -/
def putAddr6 (cap ty : Nat) (a : Addr6) : Writer := put cap ty (be 16 a.toNat)
def putAddr4 (cap ty : Nat) (a : Addr4) : Writer := put cap ty (be 4 a.toNat)

/-- mod/nl/attribute.c:550-579 `jnla_put_prefix6`; usr/nl/attribute.c:334-358 `nla_put_prefix6`. `none` is NULL. -/
def putPrefix6 (cap ty : Nat) : Option Prefix6 → Writer
  | some p => nest cap ty [putAddr6 cap 1 p.addr, putU8 cap 2 (BitVec.ofNat 8 p.len)]
  | none => nest cap ty [putU8 cap 2 0]

/-- mod/nl/attribute.c:581-610 `jnla_put_prefix4`; usr/nl/attribute.c:360-384 `nla_put_prefix4`. -/
def putPrefix4 (cap ty : Nat) : Option Prefix4 → Writer
  | some p => nest cap ty [putAddr4 cap 1 p.addr, putU8 cap 2 (BitVec.ofNat 8 p.len)]
  | none => nest cap ty [putU8 cap 2 0]

/-- mod/nl/attribute.c:612-635 `jnla_put_taddr6`; usr/nl/attribute.c:386-405 `nla_put_taddr6`. -/
def putTaddr6 (cap ty : Nat) (a : T6) : Writer := nest cap ty [putAddr6 cap 1 a.addr, putU16 cap 2 a.port]

/-- mod/nl/attribute.c:637-660 `jnla_put_taddr4`; usr/nl/attribute.c:407-426 `nla_put_taddr4`. -/
def putTaddr4 (cap ty : Nat) (a : T4) : Writer := nest cap ty [putAddr4 cap 1 a.addr, putU16 cap 2 a.port]

/-- mod/nl/attribute.c:662-685 `jnla_put_eam`. -/
def kPutEam (cap ty : Nat) (e : Eam.Entry) : Writer :=
  nest cap ty [putPrefix6 cap 1 (some e.p6), putPrefix4 cap 2 (some e.p4)]

/-- mod/nl/attribute.c:687-711 `jnla_put_pool4`. -/
def kPutPool4 (cap ty : Nat) (e : WPool4) : Writer :=
  nest cap ty [putU32 cap 1 e.mark, putU32 cap 2 e.iters, putU8 cap 3 e.flags, putU8 cap 4 e.proto,
    putPrefix4 cap 5 (some e.pfx), putU16 cap 6 e.min, putU16 cap 7 e.max]

/-- mod/nl/attribute.c:713-733 `jnla_put_bib`. -/
def kPutBib (cap ty : Nat) (e : WBib) : Writer :=
  nest cap ty [putTaddr6 cap 1 e.a6, putTaddr4 cap 2 e.a4, putU8 cap 3 e.proto,
    putU8 cap 4 (if e.static then 1 else 0)]

/-- mod/nl/attribute.c:735-768 `jnla_put_session`. The remaining lifetime (746-752) is computed like that of joold
(`JooldMsg.lifetimeMs`). -/
def kPutSess (cap ty : Nat) (e : WSess) (timer : BitVec 8) : Writer :=
  nest cap ty [putTaddr6 cap 1 e.src6, putTaddr6 cap 2 e.dst6, putTaddr4 cap 3 e.src4, putTaddr4 cap 4 e.dst4,
    putU8 cap 5 e.proto, putU8 cap 6 e.state, putU8 cap 7 timer, putU32 cap 8 e.ms]

/-- mod/nl/instance.c:31-57 `serialize_instance`; usr/nl/instance.c:15-33 `entry2attr`. -/
def putInst (cap ty : Nat) (e : WInst) : Writer :=
  nest cap ty [putU32 cap 1 e.ns, putU8 cap 2 e.xf, put cap 3 (e.name ++ [0#8])]

/-! ### The client writes -/

/-- usr/nl/eamt.c:78-106 `__update`: the operand of an EAM request. (`nla_put_eam`, usr/nl/attribute.c:448-467, writes the same
when both are there.) -/
def uPutEam (cap ty : Nat) (p6 : Option Prefix6) (p4 : Option Prefix4) : Writer :=
  nest cap ty [putPrefix6 cap 1 p6, putPrefix4 cap 2 p4]

/-- usr/nl/instance.c:150-180 `joolnl_instance_add`: the operand. -/
def uPutInstAdd (cap ty : Nat) (xf : BitVec 8) (pool6 : Option Prefix6) : Writer :=
  nest cap ty [putU8 cap 1 xf, putPrefix6 cap 2 pool6]

/-- usr/nl/attribute.c:469-492 `nla_put_pool4`. -/
def uPutPool4 (cap ty : Nat) (e : WPool4) : Writer :=
  nest cap ty [putU32 cap 1 e.mark, putU32 cap 2 e.iters, putU8 cap 3 e.flags, putU8 cap 4 e.proto,
    putPrefix4 cap 5 (some e.pfx), putU16 cap 6 e.min, putU16 cap 7 e.max]

/-- usr/nl/attribute.c:494-519 `nla_put_bib_attrs`. -/
def uPutBib (cap ty : Nat) (a6 : Option T6) (a4 : Option T4) (proto : BitVec 8) (static : Bool) : Writer :=
  nest cap ty ((match a6 with | some a => [putTaddr6 cap 1 a] | none => [])
    ++ (match a4 with | some a => [putTaddr4 cap 2 a] | none => [])
    ++ [putU8 cap 3 proto, putU8 cap 4 (if static then 1 else 0)])

/-- usr/nl/attribute.c:527-553 `nla_put_session`, which leaves out the timer. -/
def uPutSess (cap ty : Nat) (e : WSess) : Writer :=
  nest cap ty [putTaddr6 cap 1 e.src6, putTaddr6 cap 2 e.dst6, putTaddr4 cap 3 e.src4, putTaddr4 cap 4 e.dst4,
    putU8 cap 5 e.proto, putU8 cap 6 e.state, putU32 cap 8 e.ms]

/-! ### The client reads -/

/-- usr/nl/attribute.c:8-25 `validate_mandatory_attrs`. The loop stops before `maxtype`, which is the last attribute; and
addresses have type 0 (`NLA_UNSPEC`). -/
def mandatory (pol : List Pol) (tb : List Attr) : Bool :=
  (List.range pol.length).all (fun i =>
    match polOf pol i with
    | none => true
    | some (.addr _) => true
    | some _ => (get tb i).isSome)

/-- usr/nl/attribute.c:50-64 `jnla_parse_nested`. -/
def uParseNested (pol : List Pol) (a : Attr) : Res (List Attr) := do
  let tb ← uParse pol a.data
  if mandatory pol tb then pure tb else .err .EINVAL

/-- libnl's `nla_parse_nested` of an attribute that might be NULL. -/
def deref : Option Attr → Res Attr
  | none => .ub .nullDeref
  | some a => .ok a

/-- usr/nl/attribute.c:102-110 `nla_get_addr6`, `nla_get_addr4`. -/
def uAddr6 (o : Option Attr) : Res Addr6 := (payload 16 o).bind (fun l => .ok (BitVec.ofNat 128 (unbe l)))
def uAddr4 (o : Option Attr) : Res Addr4 := (payload 4 o).bind (fun l => .ok (BitVec.ofNat 32 (unbe l)))

/-- usr/nl/attribute.c:118-148 `nla_get_prefix6`. -/
def uPrefix6 (o : Option Attr) : Res Prefix6 := do
  let a ← deref o
  let tb ← uParse prefix6Policy a.data
  match get tb 1 with
  | none => .err .ENOENT
  | some d =>
    match get tb 2 with
    | none => .err .EINVAL
    | some l => do
      let addr ← uAddr6 (some d)
      let len ← getU8 (some l)
      pure ⟨addr, len.toNat⟩

/-- usr/nl/attribute.c:156-186 `nla_get_prefix4`. -/
def uPrefix4 (o : Option Attr) : Res Prefix4 := do
  let a ← deref o
  let tb ← uParse prefix4Policy a.data
  match get tb 1 with
  | none => .err .ENOENT
  | some d =>
    match get tb 2 with
    | none => .err .EINVAL
    | some l => do
      let addr ← uAddr4 (some d)
      let len ← getU8 (some l)
      pure ⟨addr, len.toNat⟩

/-- usr/nl/attribute.c:188-200 `nla_get_taddr6`. -/
def uTaddr6 (o : Option Attr) : Res T6 := do
  let a ← deref o
  let tb ← uParseNested taddr6Policy a
  let addr ← uAddr6 (get tb 1)
  let port ← getU16 (get tb 2)
  pure ⟨addr, port⟩

/-- usr/nl/attribute.c:202-214 `nla_get_taddr4`. -/
def uTaddr4 (o : Option Attr) : Res T4 := do
  let a ← deref o
  let tb ← uParseNested taddr4Policy a
  let addr ← uAddr4 (get tb 1)
  let port ← getU16 (get tb 2)
  pure ⟨addr, port⟩

/-- usr/nl/attribute.c:216-230 `nla_get_eam`. -/
def uEam (a : Attr) : Res Eam.Entry := do
  let tb ← uParseNested eamPolicy a
  let p6 ← uPrefix6 (get tb 1)
  let p4 ← uPrefix4 (get tb 2)
  pure ⟨p6, p4⟩

/-- usr/nl/attribute.c:232-248 `nla_get_pool4`. -/
def uPool4 (a : Attr) : Res WPool4 := do
  let tb ← uParseNested pool4Policy a
  let mark ← getU32 (get tb 1)
  let iters ← getU32 (get tb 2)
  let flags ← getU8 (get tb 3)
  let proto ← getU8 (get tb 4)
  let min ← getU16 (get tb 6)
  let max ← getU16 (get tb 7)
  let pfx ← uPrefix4 (get tb 5)
  pure ⟨mark, iters, flags, proto, pfx, min, max⟩

/-- usr/nl/attribute.c:250-268 `nla_get_bib`. -/
def uBib (a : Attr) : Res WBib := do
  let tb ← uParseNested bibPolicy a
  let a6 ← uTaddr6 (get tb 1)
  let a4 ← uTaddr4 (get tb 2)
  let proto ← getU8 (get tb 3)
  let static ← getU8 (get tb 4)
  pure ⟨a6, a4, proto, static != 0⟩

/-- usr/nl/attribute.c:270-295 `nla_get_session`. -/
def uSess (a : Attr) : Res WSess := do
  let tb ← uParseNested sessionPolicy a
  let src6 ← uTaddr6 (get tb 1)
  let dst6 ← uTaddr6 (get tb 2)
  let src4 ← uTaddr4 (get tb 3)
  let dst4 ← uTaddr4 (get tb 4)
  let proto ← getU8 (get tb 5)
  let state ← getU8 (get tb 6)
  let ms ← getU32 (get tb 8)
  pure ⟨src6, dst6, src4, dst4, proto, state, ms⟩

/-- usr/nl/instance.c:35-50 `attr2entry`. `strcpy` reads up to the first NUL. -/
def uInst (a : Attr) : Res WInst := do
  let tb ← uParseNested instancePolicy a
  let ns ← getU32 (get tb 1)
  let xf ← getU8 (get tb 2)
  let n ← deref (get tb 3)
  if n.data.contains 0#8 then pure ⟨ns, xf, n.data.takeWhile (fun b => b != 0#8)⟩ else .ub .outOfBounds

/-! ### Address queries -/

/-- How an address was translated: `struct address_translation_entry` (src/common/config.h), without `AXM_RFC6791`. -/
inductive Method | rfc6052 (p : Prefix6) | eam (e : Eam.Entry)
deriving DecidableEq, Repr

/-- mod/nl/address.c:10-32 `jnla_put_entry`. -/
def kPutMethod (cap : Nat) : Method → Writer
  | .rfc6052 p => putPrefix6 cap 3 (some p)
  | .eam e => kPutEam cap 4 e

/-- mod/nl/address.c:34-85, 87-138 `handle_address_query64`, `handle_address_query46`: the responses. -/
def kPutQuery64 (cap : Nat) (a : Addr4) (m : Method) : Writer := seq [putAddr4 cap 2 a, kPutMethod cap m]
def kPutQuery46 (cap : Nat) (a : Addr6) (m : Method) : Writer := seq [putAddr6 cap 1 a, kPutMethod cap m]

/-- usr/nl/address.c:7-30 `handle_method`. -/
def uMethod (tb : List Attr) : Res Method :=
  match get tb 3, get tb 4 with
  | some _, some _ => .err .EINVAL
  | some a, none => do
    let p ← uPrefix6 (some a)
    pure (.rfc6052 p)
  | none, some a => do
    let e ← uEam a
    pure (.eam e)
  | none, none => .err .EINVAL

/-- usr/nl/address.c:32-56 `query64_response_cb`. (The policy has no entry for the other address, which therefore is not examined.) -/
def uQuery64 (msg : List Byte) : Res (Addr4 × Method) := do
  let tb ← uParse [.any, .addr 4, .nested, .nested] msg
  match get tb 2 with
  | none => .err .ESRCH
  | some a => do
    let x ← uAddr4 (some a)
    let m ← uMethod tb
    pure (x, m)

/-- usr/nl/address.c:80-104 `query46_response_cb`. -/
def uQuery46 (msg : List Byte) : Res (Addr6 × Method) := do
  let tb ← uParse [.addr 16, .any, .nested, .nested] msg
  match get tb 1 with
  | none => .err .ESRCH
  | some a => do
    let x ← uAddr6 (some a)
    let m ← uMethod tb
    pure (x, m)

/-! ### Listings -/

/-- The callbacks `serialize_*_entry` (mod/nl/eam.c, pool4.c, bib.c, session.c, denylist4.c) during a `*_foreach`: entries are
appended until one does not fit. The Boolean: there are more (the `foreach` returned 1, so
`JOOLNLHDR_FLAGS_M` is set: mod/nl/nl_core.c:71-90). -/
def fill {α} (w : α → Writer) : List α → List Byte → List Byte × Bool
  | [], skb => (skb, false)
  | e :: es, skb =>
    match w e skb with
    | none => (skb, true)
    | some skb' => fill w es skb'

/-- `JNLAL_ENTRY` (src/common/config.h:83). -/
def ENTRY : Nat := 1

/-- usr/nl/attribute.c:67-95 `jnla_validate_list` with `joolnl_struct_list_policy` (nested attributes, which libnl does not
examine): all types are `JNLAL_ENTRY`. -/
def listOk (l : List Attr) : Bool := l.all (fun a => a.ty == ENTRY)

/-- `f` of each, up to the first failure. -/
def mapRes {α β} (f : α → Res β) : List α → Res (List β)
  | [] => .ok []
  | a :: as => do
    let b ← f a
    let bs ← mapRes f as
    pure (b :: bs)

/-- usr/nl/eamt.c:17-44 and its siblings in pool4.c, bib.c, session.c, denylist4.c `handle_foreach_response`: the entries that
are handed to the caller's callback, if nothing fails. -/
def readList {α} (f : Attr → Res α) (msg : List Byte) : Res (List α) :=
  if listOk (attrs msg).1 then mapRes f (attrs msg).1 else .err .EINVAL

end Jool.NlAttr
