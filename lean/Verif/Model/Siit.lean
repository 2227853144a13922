import Verif.Model.Eam
import Verif.Model.Denylist4
import Verif.Model.Rfc6052
/-
Model of `src/mod/common/address_xlat.c`, `src/mod/common/db/rfc6791v4.c`, `src/mod/common/db/rfc6791v6.c` and
`src/mod/common/steps/compute_outgoing_tuple_siit.c`: how SIIT translates the addresses of a packet.

The instance does not change during the translation of a packet's addresses. Of the packet, only what these functions
look at is modelled. Random numbers are parameters. Log messages are not modelled.
-/
namespace Jool.Siit

/-- `struct in_ifaddr` (kernel): one address of the translator itself. -/
structure Ifa where
  addr : Addr4
  mask : BitVec 32
  plen : Nat
deriving DecidableEq, Repr

/-- common/config.h:583-587 `enum eam_hairpinning_mode`. -/
inductive Mode | off | simple | intrinsic
deriving DecidableEq, Repr

/-- What is read from `struct xlator`. -/
structure Inst where
  eamt : Eam.Eamt
  pool6 : Option Prefix6
  deny : Denylist4.Pool
  ifas : List Ifa
  mode : Mode
  v4src : Option Prefix4
  v6src : Option Prefix6
  randomize : Bool

/-- mod/db/denylist4.c:172-192 `check_ifa`. -/
def checkIfa (i : Ifa) (q : Addr4) : Bool :=
  if i.plen < 31 ∧ i.addr ||| ~~~ i.mask = q then true
  else if i.addr = q then true
  else false

/-- mod/db/denylist4.c:202-205 `interface_contains`, with mod/dev.c:6-40 `foreach_ifa`. -/
def interfaceContains : List Ifa → Addr4 → Bool
  | [], _ => false
  | i :: is, q => if checkIfa i q then true else interfaceContains is q

/-- mod/address_xlat.c:20-24 `must_not_translate`. -/
def mustNotTranslate (s : Inst) (a : Addr4) : Bool := addr4IsScopeSubnet a || interfaceContains s.ifas a

/-- mod/address_xlat.c:8-18 `is_illegal_source`. -/
def isIllegalSource (a : Addr6) : Bool := a.quadrant 0 == 0#32 && a.quadrant 1 == 0#32 && a.quadrant 2 == 0#32 &&
  a.quadrant 3 == 1#32

/-- common/config.h:368-381 `enum address_translation_method`, with the entry that was used. -/
inductive Method
  | rfc6052 (p : Prefix6)
  | eamt (e : Eam.Entry)
  | rfc6791
deriving DecidableEq, Repr

/-- mod/address_xlat.h:19-28 `addrxlat_verdict`, with the result. `drop` ("Programming error") included. -/
inductive Ax (A : Type)
  | cont (a : A) (m : Method)
  | tryElse
  | accept
  | drop
deriving DecidableEq, Repr

/-- mod/address_xlat.c:67-75: the last check of `addrxlat_siit64`. -/
def success64 (s : Inst) (screen : Bool) (a : Addr4) (m : Method) : Ax Addr4 :=
  if screen && mustNotTranslate s a then .accept else .cont a m

/-- mod/address_xlat.c:53-65: `addrxlat_siit64` without EAM entry. -/
def fallback64 (s : Inst) (a : Addr6) (screen : Bool) : Ax Addr4 :=
  match s.pool6 with
  | none => .tryElse
  | some p =>
    match rfc6052_6to4 p a with
    | none => .tryElse
    | some a4 =>
      if screen && Denylist4.contains s.deny a4 then .accept else success64 s screen a4 (.rfc6052 p)

/-- mod/address_xlat.c:34-76 `addrxlat_siit64`. -/
def siit64 (s : Inst) (a : Addr6) (screen : Bool) : Outcome (Ax Addr4) :=
  if isIllegalSource a then .ok .accept
  else
    (Eam.xlat64 s.eamt a).map (fun r =>
      match r with
      | some (a4, e) => success64 s screen a4 (.eamt e)
      | none => fallback64 s a screen)

/-- mod/address_xlat.c:101-115: `addrxlat_siit46` without EAM entry. -/
def fallback46 (s : Inst) (a : Addr4) : Ax Addr6 :=
  if Denylist4.contains s.deny a then .accept
  else
    match s.pool6 with
    | none => .tryElse
    | some p =>
      match rfc6052_4to6 p a with
      | some a6 => .cont a6 (.rfc6052 p)
      | none => .drop

/-- mod/address_xlat.c:78-121 `addrxlat_siit46`. -/
def siit46 (s : Inst) (a : Addr4) (eam screen : Bool) : Outcome (Ax Addr6) :=
  if screen && mustNotTranslate s a then .ok .accept
  else if eam then
    (Eam.xlat46 s.eamt a).map (fun r =>
      match r with
      | some (a6, e) => .cont a6 (.eamt e)
      | none => fallback46 s a)
  else .ok (fallback46 s a)

/-! ## RFC 6791 -/

/-- mod/db/rfc6791v4.c:6-21 `get_pool_address`, 30-34 `get_host_address`, 36-41 `rfc6791v4_find`. `rnd`: the random
number, if configured. -/
def find6791v4 (s : Inst) (hopLimit : BitVec 8) (rnd : BitVec 32) : Addr4 :=
  match s.v4src with
  | some p => p.addr ||| ((if s.randomize then rnd else hopLimit.setWidth 32) &&& ~~~ getPrefix4Mask p.len)
  | none => 0#32

/-- mod/db/rfc6791v6.c:23-41 of `get_pool_address`: the bytes of the prefix, followed by random bytes. `i`: the index of
the byte. `rnd i`: the random byte meant for that place. -/
def byte6791 (p : Prefix6) (rnd : Nat → BitVec 8) (i : Nat) : BitVec 8 :=
  let seg := p.len >>> 3
  let modulus := p.len &&& 7
  if modulus = 0 then
    if seg ≤ i then rnd i else p.addr.byte i
  else if seg + 1 ≤ i then rnd i
  else if i = seg then p.addr.byte i ||| (rnd i &&& BitVec.ofNat 8 ((1 <<< (8 - modulus)) - 1))
  else p.addr.byte i

/-- mod/db/rfc6791v6.c:9-42 `get_pool_address`, 51-54 `get_host_address_v6`, 60-67 `rfc6791v6_find`. -/
def find6791v6 (s : Inst) (rnd : Nat → BitVec 8) : Addr6 :=
  match s.v6src with
  | some p =>
    let b := byte6791 p rnd
    Addr6.ofBytes (b 0) (b 1) (b 2) (b 3) (b 4) (b 5) (b 6) (b 7) (b 8) (b 9) (b 10) (b 11) (b 12) (b 13) (b 14) (b 15)
  | none => 0#128

/-! ## Packets -/

/-- What is read from `struct packet`. `innerDst`: the destination of the packet inside, if this is an ICMP error. -/
structure View (A : Type) where
  outer : Bool
  icmpError : Bool
  src : A
  dst : A
  hopLimit : BitVec 8
  innerDst : A
deriving DecidableEq, Repr

/-- Which counter. -/
inductive Stat | src64 | dst64 | src46 | dst46 | unknown
deriving DecidableEq, Repr

/-- The verdicts, with the addresses and the hairpin flag of the state. -/
inductive Res (A : Type)
  | cont (src dst : A) (hairpin : Bool)
  | untranslatable (st : Stat)
  | drop (st : Stat)
deriving DecidableEq, Repr

/-- mod/steps/compute_outgoing_tuple_siit.c:66-80: intrinsic hairpinning. -/
def hairpin64 (s : Inst) (v : View Addr6) (flag : Bool) (src dst : Addr4) (ms md : Method) : Outcome Bool :=
  if s.mode = .intrinsic then
    let cA := v.outer && !v.icmpError && (match md with | .rfc6052 _ => true | _ => false)
    let cB := !v.outer && (match ms with | .rfc6052 _ => true | _ => false)
    (if cA then Eam.contains4 s.eamt dst else .ok false).bind (fun a =>
      if a then .ok true
      else (if cB then Eam.contains4 s.eamt src else .ok false).map (fun b => if b then true else flag))
  else .ok flag

/-- mod/steps/compute_outgoing_tuple_siit.c:43-57: the source address, once it went through `addrxlat_siit64`. -/
def source64 (s : Inst) (v : View Addr6) (rnd : BitVec 32) : Ax Addr4 → Except (Res Addr4) (Addr4 × Method)
  | .cont a m => .ok (a, m)
  | .tryElse => if v.icmpError then .ok (find6791v4 s v.hopLimit rnd, .rfc6791) else .error (.untranslatable .dst64)
  | .accept => .error (.untranslatable .dst64)
  | .drop => .error (.drop .unknown)

/-- mod/steps/compute_outgoing_tuple_siit.c:9-84 `translate_addrs64_siit`. `flag`: the hairpin flag so far. -/
def addrs64 (s : Inst) (v : View Addr6) (flag : Bool) (rnd : BitVec 32) : Outcome (Res Addr4) :=
  (siit64 s v.dst true).bind (fun d =>
    match d with
    | .tryElse => .ok (.untranslatable .src64)
    | .accept => .ok (.untranslatable .src64)
    | .drop => .ok (.drop .unknown)
    | .cont dst md =>
      (siit64 s v.src (!v.icmpError)).bind (fun r =>
        match source64 s v rnd r with
        | .error e => .ok e
        | .ok (src, ms) => (hairpin64 s v flag src dst ms md).map (fun h => .cont src dst h)))

/-- mod/steps/compute_outgoing_tuple_siit.c:86-97 `disable_src_eam`. -/
def disableSrcEam (v : View Addr4) (hairpin : Bool) : Bool :=
  if !hairpin || !v.outer then false
  else if !v.icmpError then true
  else v.src == v.innerDst

/-- mod/steps/compute_outgoing_tuple_siit.c:99-102 `disable_dst_eam`. -/
def disableDstEam (v : View Addr4) (hairpin : Bool) : Bool := hairpin && !v.outer

/-- mod/steps/compute_outgoing_tuple_siit.c:145-159: the source address, once it went through `addrxlat_siit46`. -/
def source46 (s : Inst) (v : View Addr4) (rnd : Nat → BitVec 8) : Ax Addr6 → Except (Res Addr6) Addr6
  | .cont a _ => .ok a
  | .tryElse => if v.icmpError then .ok (find6791v6 s rnd) else .error (.untranslatable .src46)
  | .accept => .error (.untranslatable .src46)
  | .drop => .error (.drop .unknown)

/-- mod/steps/compute_outgoing_tuple_siit.c:104-165 `translate_addrs46_siit`. -/
def addrs46 (s : Inst) (v : View Addr4) (flag : Bool) (rnd : Nat → BitVec 8) : Outcome (Res Addr6) :=
  let hairpin := decide (s.mode = .simple) || flag
  (siit46 s v.dst (!disableDstEam v hairpin) true).bind (fun d =>
    match d with
    | .tryElse => .ok (.untranslatable .dst46)
    | .accept => .ok (.untranslatable .dst46)
    | .drop => .ok (.drop .unknown)
    | .cont dst _ =>
      (siit46 s v.src (!disableSrcEam v hairpin) (!v.icmpError)).map (fun r =>
        match source46 s v rnd r with
        | .error e => e
        | .ok src => .cont src dst flag))

end Jool.Siit
