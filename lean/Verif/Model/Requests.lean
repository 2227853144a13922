import Verif.Model.NlAttr
import Verif.Model.Denylist4
import Verif.Model.Pool4
import Verif.Model.Xlator
/-
Requests, from the bytes that the client sends to what happens in the databases: the header of every message, the checks
that come before every operation (`mod/nl/nl_common.c`), and the handlers that add, remove and flush entries of the EAMT,
denylist4, pool4 and BIB. (`mod/` abbreviates `src/mod/common/`, `usr/` abbreviates `src/usr/`.)

Simplifications.
* The state is that of the namespace of the client. What other namespaces have is not touched by these requests.
* Generic Netlink itself (kernel) checks that the message has room for the header, and the attributes against the policy
  of the family (`NlAttr.rootPolicy`); what it refuses does not reach Jool. So the pointers to header and attributes are
  never NULL (nl_common.c:83-92).
* `char` is signed (x86), both ends are little-endian.
* Log messages are not part of this model; the response is its code.
-/
namespace Jool.Req
open Jool.Nla Jool.NlAttr
open Jool.JooldMsg (Byte be unbe)

/-- src/common/config.h:297-312 `struct joolnlhdr`. The two reserved bytes are skipped. -/
structure Hdr where
  magic : List Byte
  version : BitVec 32
  xt : BitVec 8
  flags : BitVec 8
  iname : List Byte
deriving DecidableEq, Repr, Inhabited

/-- Size of the header (src/common/config.h:297-314). -/
def HDRLEN : Nat := 28

/-- The header at the beginning of a message, and the rest. -/
def decHdr (l : List Byte) : Option (Hdr × List Byte) :=
  if l.length < HDRLEN then none
  else some (⟨l.take 4, BitVec.ofNat 32 (unbe ((l.drop 4).take 4)), l.getD 8 0, l.getD 9 0, (l.drop 12).take 16⟩,
    l.drop HDRLEN)

/-- src/common/config.h:20 `JOOLNL_HDR_MAGIC`. -/
def MAGIC : List Byte := [0x6a, 0x6f, 0x6f, 0x6c]
/-- src/common/types.h:64 `INAME_DEFAULT`. -/
def DEFAULT : List Byte := [0x64, 0x65, 0x66, 0x61, 0x75, 0x6c, 0x74]
/-- src/common/xlat.h:24-30 `xlat_version`, with the numbers of lines 9-12. -/
def VERSION : BitVec 32 := 0x04010f00

/-- src/common/config.h:276 `JOOLNLHDR_FLAGS_FORCE`, 278 `JOOLNLHDR_FLAGS_QUICK`. -/
def FORCE : BitVec 8 := 2
def QUICK : BitVec 8 := 4

/-- A string in a buffer: what comes before the NUL. -/
def cstr (l : List Byte) : List Byte := l.takeWhile (fun b => b != 0#8)

/-- src/common/config.c:129-144 `iname_validate`, of a buffer of 16 bytes or more. -/
def inameOk (l : List Byte) : Bool :=
  decide ((cstr l).length < 16) && (cstr l).all (fun c => decide (32 ≤ c.toNat ∧ c.toNat < 128))

/-! ### Namespaces -/

/-- The part of a SIIT instance that these requests change. -/
structure Siit where
  eamt : Eam.Eamt
  deny : Denylist4.Pool

/-- The part of a NAT64 instance that these requests change. -/
structure Nat64 where
  pool4 : Pool4.Pool
  bib : Proto → Bib.Table

/-- The client's namespace: which modules are loaded, and the instances by name. -/
structure State where
  siitOn : Bool
  nat64On : Bool
  siit : List Byte → Option Siit
  nat64 : List Byte → Option Nat64

/-- What is not in the message: privileges of the client, kernel version, allocation failures, clock and addresses of the
interfaces. `eph` is the ephemeral port range of the namespace. -/
structure Env where
  admin : Bool
  strict : Bool
  mem : Eam.Mem
  oom : Bool
  kr : Pool4.Oracle
  eph : Nat × Nat
  own : Addr4 → Bool
  bib : Bib.Env

/-- Where the error code of a response comes from. -/
inductive Code
  | nl (e : Err)
  | eam (c : Rtrie.Code)
  | deny (e : Denylist4.Err)
  | pool4
  | bib (e : Bib.Errno)
deriving DecidableEq, Repr

/-- What the client is told. `kernel`: Generic Netlink refused the message. -/
inductive Answer
  | kernel
  | done
  | error (c : Code)
deriving DecidableEq, Repr

/-! ### What comes before every operation -/

/-- mod/nl/nl_common.c:34-51 `validate_stateness`. -/
def stateness (st : State) (xt : BitVec 8) : Bool :=
  if xt = 1 then st.siitOn else if xt = 2 then st.nat64On else false

/-- mod/nl/nl_common.c:9-14 `get_iname`. -/
def getIname (h : Hdr) : List Byte := if h.iname.getD 0 0 ≠ 0 then h.iname else DEFAULT

/-- Does the namespace have such an instance? mod/xlator.c:776-809 `xlator_find`, after the validation of the name; any
framework is fine. -/
def exists? (st : State) (xt : BitVec 8) (name : List Byte) : Bool :=
  if xt = 1 then (st.siit name).isSome else (st.nat64 name).isSome

/-- mod/nl/nl_common.c:73-118 `request_handle_start`; `xt` are the types of instance that support the operation. `none` is
success. `basic_validations` (mod/xlator.c:351-368) checks the name. -/
def start (st : State) (e : Env) (xt : BitVec 8) (h : Hdr) : Option Err :=
  if !e.admin then some .EPERM
  else if h.magic ≠ MAGIC then some .EINVAL
  else if !stateness st h.xt then some .EINVAL
  else if VERSION &&& 0xFFFF0000#32 ≠ h.version &&& 0xFFFF0000#32 then some .EINVAL
  else if h.xt &&& xt = 0 then some .EINVAL
  else if !inameOk (getIname h) then some .EINVAL
  else if !exists? st h.xt (cstr (getIname h)) then some .ESRCH
  else none

/-! ### Handlers -/

inductive Cmd
  | eamAdd | eamRm | eamFlush
  | denyAdd | denyRm | denyFlush
  | pool4Add | pool4Rm | pool4Flush
  | bibAdd | bibRm
deriving DecidableEq, Repr

/-- The argument of `request_handle_start` in each handler: `XT_SIIT` or `XT_NAT64`. -/
def Cmd.xt : Cmd → BitVec 8
  | .eamAdd | .eamRm | .eamFlush | .denyAdd | .denyRm | .denyFlush => 1
  | .pool4Add | .pool4Rm | .pool4Flush | .bibAdd | .bibRm => 2

/-- Things that happened to stored packets, by table. -/
abbrev Events := List (Proto × Bib.Event)

/-- src/common/types.h:94-114 `l4_protocol`. -/
def protoOf (b : BitVec 8) : Option Proto :=
  if b = 0 then some .TCP else if b = 1 then some .UDP else if b = 2 then some .ICMP else none

/-- src/common/config.h:349-359 `enum iteration_flags`. -/
def flagsOf (b : BitVec 8) : Pool4.Flags := ⟨b.getLsbD 0, b.getLsbD 1, b.getLsbD 2⟩

/-- src/common/types.h:206-216 `struct pool4_entry`, as the database reads it. -/
def entryOf (w : WPool4) : Pool4.Entry := ⟨w.mark, w.iters, flagsOf w.flags, w.pfx, w.min, w.max⟩

def ofEam (c : Rtrie.Code) : Answer := if c = .ok then .done else .error (.eam c)
def ofDeny : Option Denylist4.Err → Answer
  | none => .done
  | some e => .error (.deny e)
def ofPool4 (bad : Bool) : Answer := if bad then .error .pool4 else .done
def ofBib : Bib.Result → Answer
  | .err e => .error (.bib e)
  | _ => .done

/-- Result of a handler of SIIT. -/
abbrev SiitStep := Outcome (Siit × Answer)
/-- Result of a handler of NAT64. -/
abbrev Nat64Step := Outcome (Nat64 × Events × Answer)

/-- The error of a parser is the error of the handler (`goto revert_start`). -/
def withS {α} (s : Siit) (r : Res α) (f : α → SiitStep) : SiitStep :=
  match r with
  | .ok a => f a
  | .err e => .ok (s, .error (.nl e))
  | .ub u => .ub u

def withN {α} (s : Nat64) (r : Res α) (f : α → Nat64Step) : Nat64Step :=
  match r with
  | .ok a => f a
  | .err e => .ok (s, [], .error (.nl e))
  | .ub u => .ub u

/-- The flags of the request. -/
def forced (h : Hdr) : Bool := h.flags &&& FORCE != 0
def quick (h : Hdr) : Bool := h.flags &&& QUICK != 0

/-- mod/nl/eam.c:66-88 `handle_eamt_add`. -/
def eamAdd (e : Env) (h : Hdr) (o : Option Attr) (s : Siit) : SiitStep :=
  withS s (kEam e.strict o) (fun x =>
    (Eam.add s.eamt e.mem x (forced h)).map (fun r => ({ s with eamt := r.1 }, ofEam r.2)))

/-- mod/nl/eam.c:90-138 `handle_eamt_rm`. -/
def eamRm (e : Env) (o : Option Attr) (s : Siit) : SiitStep :=
  withS s (kEamRm e.strict o) (fun x =>
    (Eam.rm s.eamt e.mem x.1 x.2).map (fun r => ({ s with eamt := r.1 }, ofEam r.2)))

/-- mod/nl/eam.c:140-156 `handle_eamt_flush`. -/
def eamFlush (s : Siit) : SiitStep := .ok ({ s with eamt := Eam.flush s.eamt }, .done)

/-- mod/nl/denylist4.c:62-86 `handle_denylist4_add`. -/
def denyAdd (e : Env) (h : Hdr) (o : Option Attr) (s : Siit) : SiitStep :=
  withS s (kPrefix4 e.strict o) (fun x =>
    let r := Denylist4.add s.deny x (forced h) e.oom
    .ok ({ s with deny := r.1 }, ofDeny r.2))

/-- mod/nl/denylist4.c:88-109 `handle_denylist4_rm`. -/
def denyRm (e : Env) (o : Option Attr) (s : Siit) : SiitStep :=
  withS s (kPrefix4 e.strict o) (fun x =>
    let r := Denylist4.rm s.deny x
    .ok ({ s with deny := r.1 }, ofDeny r.2))

/-- mod/nl/denylist4.c:111-126 `handle_denylist4_flush`. -/
def denyFlush (e : Env) (s : Siit) : SiitStep :=
  let r := Denylist4.flush s.deny e.oom
  .ok ({ s with deny := r.1 }, ofDeny r.2)

/-- mod/nl/pool4.c:76-98 `handle_pool4_add`. `pool4db_add` looks for the tree of the protocol (`get_tree`, mod/db/pool4/db.c:163-178) after the
validations and before any change. -/
def pool4Add (e : Env) (h : Hdr) (o : Option Attr) (s : Nat64) : Nat64Step :=
  withN s (kPool4 e.strict o) (fun x =>
    match protoOf x.proto with
    | none => .ok (s, [], .error .pool4)
    | some p =>
      (Pool4.add e.kr (if forced h then none else some e.eph) p (entryOf x) s.pool4).map (fun r =>
        ({ s with pool4 := r.1 }, [], ofPool4 r.2)))

/-- mod/db/bib/db.c:2366-2401 `bib_rm_range`, including what `prefix4_contains` (mod/address.c:77-89) does when the
length is more than 32: it shifts by a negative number. -/
def bibRmRange (t : Bib.Table) (r : Bib.Range4) : Bib.Step :=
  if 32 < r.pfx.len ∧ Bib.startingPoint t.tree4 (some ⟨r.pfx.addr, r.min⟩) true ≠ [] then .ub .badShift
  else Bib.rmRange t r

/-- A new table of one protocol, and its events. -/
def setBib (s : Nat64) (p : Proto) (r : Bib.Table × List Bib.Event × Bib.Result) : Nat64 × Events :=
  ({ s with bib := fun q => if q = p then r.1 else s.bib q }, r.2.1.map (fun ev => (p, ev)))

/-- mod/db/pool4/db.c:797-802: the ports of the request after `pool4db_rm`, which swaps them in place unless it refuses the
prefix. -/
def rmPorts (x : WPool4) : BitVec 16 × BitVec 16 :=
  if prefix4Validate x.pfx then (Pool4.lower x.min x.max, Pool4.upper x.min x.max) else (x.min, x.max)

/-- mod/nl/pool4.c:108-132 `handle_pool4_rm`: lines 124-126 remove from the BIB whatever `pool4db_rm` answered. -/
def pool4Rm (e : Env) (h : Hdr) (o : Option Attr) (s : Nat64) : Nat64Step :=
  withN s (kPool4 e.strict o) (fun x =>
    match protoOf x.proto with
    | none => .ok (s, [], .error .pool4)
    | some p =>
      (Pool4.rm e.kr p x.mark x.pfx x.min x.max s.pool4).bind (fun r =>
        if quick h then .ok ({ s with pool4 := r.1 }, [], ofPool4 r.2)
        else
          (bibRmRange (s.bib p) ⟨x.pfx, (rmPorts x).1, (rmPorts x).2⟩).map (fun b =>
            let u := setBib { s with pool4 := r.1 } p b
            (u.1, u.2, ofPool4 r.2))))

/-- mod/db/bib/db.c:2422-2428 `bib_flush`: one table. -/
def flushOne (p : Proto) (s : Nat64 × Events) : Outcome (Nat64 × Events) :=
  (Bib.flush (s.1.bib p)).map (fun r => let u := setBib s.1 p r; (u.1, s.2 ++ u.2))

/-- mod/db/bib/db.c:2422-2428 `bib_flush`. -/
def bibFlush (s : Nat64) : Outcome (Nat64 × Events) :=
  (flushOne .TCP (s, [])).bind (fun a => (flushOne .UDP a).bind (fun b => flushOne .ICMP b))

/-- mod/nl/pool4.c:134-158 `handle_pool4_flush`. -/
def pool4Flush (h : Hdr) (s : Nat64) : Nat64Step :=
  let s1 := { s with pool4 := Pool4.flush s.pool4 }
  if quick h then .ok (s1, [], .done)
  else (bibFlush s1).map (fun u => (u.1, u.2, .done))

/-- mod/nl/bib.c:66-94 `handle_bib_add`. With an unknown protocol, `pool4db_contains` is false or `__bib_add_static` finds no table:
`-EINVAL` both times. -/
def bibAdd (e : Env) (o : Option Attr) (s : Nat64) : Nat64Step :=
  withN s (kBib e.strict o) (fun x =>
    match protoOf x.proto with
    | none => .ok (s, [], .error (.bib .EINVAL))
    | some p =>
      if !Pool4.contains e.own s.pool4 p x.a4 then .ok (s, [], .error (.bib .EINVAL))
      else
        (Bib.addStatic e.bib p (s.bib p) ⟨x.a6, x.a4⟩).map (fun r =>
          let u := setBib s p r
          (u.1, u.2, ofBib r.2.2)))

/-- mod/nl/bib.c:147-150: the entry that the addresses of the request mean. `bib_find6` (mod/db/bib/db.c:2204-2222), `bib_find4`
(2224-2241). -/
def rmTarget (t : Bib.Table) : Option T6 → Option T4 → Option Bib.BibKey
  | some a6, some a4 => some ⟨a6, a4⟩
  | some a6, none => Bib.find6 t a6
  | none, some a4 => Bib.find4 t a4
  | none, none => none

/-- mod/nl/bib.c:96-162 `handle_bib_rm`. -/
def bibRm (e : Env) (o : Option Attr) (s : Nat64) : Nat64Step :=
  withN s (kBibRm e.strict o) (fun x =>
    match x.2.2 with
    | none => .ub .uninitialized
    | some b =>
      match protoOf b with
      | none => .ok (s, [], .error (.bib .EINVAL))
      | some p =>
        match rmTarget (s.bib p) x.1 x.2.1 with
        | none => .ok (s, [], .error (.bib .ESRCH))
        | some k =>
          (Bib.rmBib (s.bib p) k).map (fun r =>
            let u := setBib s p r
            (u.1, u.2, ofBib r.2.2)))

/-- The handlers of SIIT. -/
def actS (e : Env) (h : Hdr) (o : Option Attr) : Cmd → Siit → SiitStep
  | .eamAdd => eamAdd e h o
  | .eamRm => eamRm e o
  | .eamFlush => eamFlush
  | .denyAdd => denyAdd e h o
  | .denyRm => denyRm e o
  | .denyFlush => denyFlush e
  | _ => fun s => .ok (s, .kernel)

/-- The handlers of NAT64. -/
def actN (e : Env) (h : Hdr) (o : Option Attr) : Cmd → Nat64 → Nat64Step
  | .pool4Add => pool4Add e h o
  | .pool4Rm => pool4Rm e h o
  | .pool4Flush => pool4Flush h
  | .bibAdd => bibAdd e o
  | .bibRm => bibRm e o
  | _ => fun s => .ok (s, [], .kernel)

/-- The instance which the request names changes. -/
def State.setSiit (st : State) (n : List Byte) (s : Siit) : State :=
  { st with siit := fun m => if m = n then some s else st.siit m }
def State.setNat64 (st : State) (n : List Byte) (s : Nat64) : State :=
  { st with nat64 := fun m => if m = n then some s else st.nat64 m }

/-- What a handler does once `request_handle_start` found the instance. -/
def act (st : State) (e : Env) (c : Cmd) (h : Hdr) (tb : List Attr) : Outcome (State × Events × Answer) :=
  let n := cstr (getIname h)
  if c.xt = 1 then
    match st.siit n with
    | none => .ok (st, [], .error (.nl .ESRCH))
    | some s => (actS e h (Nla.get tb OPERAND) c s).map (fun r => (st.setSiit n r.1, [], r.2))
  else
    match st.nat64 n with
    | none => .ok (st, [], .error (.nl .ESRCH))
    | some s => (actN e h (Nla.get tb OPERAND) c s).map (fun r => (st.setNat64 n r.1, r.2.1, r.2.2))

/-- A whole request: the bytes after the Generic Netlink header. mod/nl/nl_handler.c:66-188: each operation has its handler. -/
def handle (st : State) (e : Env) (c : Cmd) (msg : List Byte) : Outcome (State × Events × Answer) :=
  match decHdr msg with
  | none => .ok (st, [], .kernel)
  | some (h, body) =>
    match kParse e.strict rootPolicy body with
    | .err _ => .ok (st, [], .kernel)
    | .ub u => .ub u
    | .ok tb =>
      match start st e c.xt h with
      | some err => .ok (st, [], .error (.nl err))
      | none => act st e c h tb

/-! ### The client -/

/-- usr/nl/core.c:33-68 `joolnl_alloc_msg`: the header, if the name is valid. (`none` as name: the default.) -/
def uHdr (xt : BitVec 8) (iname : Option (List Byte)) (flags : BitVec 8) : Option (List Byte) :=
  let n := cstr (iname.getD DEFAULT)
  if inameOk n then
    some (MAGIC ++ be 4 VERSION.toNat ++ [xt, flags, 0, 0] ++ n ++ List.replicate (16 - n.length) 0#8)
  else none

/-- Header and operand; `cap` is the size of the message without the header. -/
def uMsg (xt : BitVec 8) (iname : Option (List Byte)) (flags : BitVec 8) (w : Writer) : Option (List Byte) :=
  (uHdr xt iname flags).bind (fun h => (w []).map (fun b => h ++ b))

/-- What the user of the library asks for. -/
inductive Ask
  | eamAdd (x : Eam.Entry) (force : Bool)
  | eamRm (p6 : Option Prefix6) (p4 : Option Prefix4)
  | eamFlush
  | denyAdd (p : Prefix4) (force : Bool)
  | denyRm (p : Prefix4)
  | denyFlush
  | pool4Add (x : WPool4) (force : Bool)
  | pool4Rm (x : WPool4) (quick : Bool)
  | pool4Flush (quick : Bool)
  | bibAdd (a6 : T6) (a4 : T4) (proto : BitVec 8)
  | bibRm (a6 : Option T6) (a4 : Option T4) (proto : BitVec 8)
deriving DecidableEq, Repr

def Ask.cmd : Ask → Cmd
  | .eamAdd .. => .eamAdd
  | .eamRm .. => .eamRm
  | .eamFlush => .eamFlush
  | .denyAdd .. => .denyAdd
  | .denyRm .. => .denyRm
  | .denyFlush => .denyFlush
  | .pool4Add .. => .pool4Add
  | .pool4Rm .. => .pool4Rm
  | .pool4Flush .. => .pool4Flush
  | .bibAdd .. => .bibAdd
  | .bibRm .. => .bibRm

/-- usr/nl/eamt.c:108-120, usr/nl/denylist4.c:97-108, usr/nl/pool4.c:103-119: the flags. -/
def Ask.flags : Ask → BitVec 8
  | .eamAdd _ f | .denyAdd _ f | .pool4Add _ f => if f then FORCE else 0
  | .pool4Rm _ q | .pool4Flush q => if q then QUICK else 0
  | _ => 0

/-- usr/nl/eamt.c:78-106, usr/nl/denylist4.c:78-95, usr/nl/pool4.c:84-101, usr/nl/bib.c:83-102 `__update`; the flushes of the EAMT and
denylist4 have no operand. -/
def Ask.writer (cap : Nat) : Ask → Writer
  | .eamAdd x _ => uPutEam cap OPERAND (some x.p6) (some x.p4)
  | .eamRm p6 p4 => uPutEam cap OPERAND p6 p4
  | .denyAdd p _ | .denyRm p => putPrefix4 cap OPERAND (some p)
  | .pool4Add x _ | .pool4Rm x _ => uPutPool4 cap OPERAND x
  | .bibAdd a6 a4 proto => uPutBib cap OPERAND (some a6) (some a4) proto true
  | .bibRm a6 a4 proto => uPutBib cap OPERAND a6 a4 proto true
  | .eamFlush | .denyFlush | .pool4Flush _ => some

/-- The message of a client of type `xt`. -/
def Ask.msg (cap : Nat) (xt : BitVec 8) (iname : Option (List Byte)) (a : Ask) : Option (List Byte) :=
  uMsg xt iname a.flags (a.writer cap)

end Jool.Req
