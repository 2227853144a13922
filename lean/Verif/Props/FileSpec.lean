import Verif.Lemmas.AtomicReq
import Verif.Model.File
/-
Specification of configuration files: what a file says, and the configuration that it describes. It does not depend on how files
are processed (`Verif.Model.File`); from there it only takes the types of the entries.
-/
namespace Jool.File
open Jool.NlAttr
open Jool.Text (Text Inet caseEq GType GVal)
open Jool.Json (Json)

/-- The lists have the same length, and their elements are related in order. -/
inductive Each {α β : Type} (R : α → β → Prop) : List α → List β → Prop
  | nil : Each R [] []
  | cons {a b as bs} : R a b → Each R as bs → Each R (a :: as) (b :: bs)

/-! ### Objects -/

/-- The members of an object, without the comments. -/
def real (l : List (Text × Json)) : List (Text × Json) := l.filter (fun p => !caseEq p.1 "comment".toList)

/-- Each tag is one of `names` or a comment, and none occurs twice. Capitals and small letters are the same. -/
def Tagged (names : List Text) (l : List (Text × Json)) : Prop :=
  (∀ p ∈ real l, ∃ n ∈ names, caseEq p.1 n = true) ∧ (real l).Pairwise (fun p q => caseEq p.1 q.1 = false)

/-- The member with the tag `n`. -/
def member (l : List (Text × Json)) (n : Text) : Option Json := ((real l).find? (fun p => caseEq p.1 n)).map (·.2)

/-! ### Entries -/

/-- The number `v`. -/
def IsUint (j : Json) (min max v : Nat) : Prop := ∃ n, j = .num n ∧ n.uint = some v ∧ min ≤ v ∧ v ≤ max

/-- `{ "ipv6 prefix": "2001:db8::/120", "ipv4 prefix": "192.0.2.0/24" }` -/
def EamSays (i : Inet) (j : Json) (e : Eam.Entry) : Prop :=
  ∃ l s6 s4, j = .obj l ∧ Tagged ["ipv6 prefix".toList, "ipv4 prefix".toList] l
    ∧ member l "ipv6 prefix".toList = some (.str s6) ∧ Text.strToPrefix6 i s6 = some e.p6
    ∧ member l "ipv4 prefix".toList = some (.str s4) ∧ Text.strToPrefix4 i s4 = some e.p4

/-- `"198.51.100.0/24"` -/
def DenySays (i : Inet) (j : Json) (p : Prefix4) : Prop := ∃ s, j = .str s ∧ Text.strToPrefix4 i s = some p

/-- TCP, UDP or ICMP. -/
def ProtoSays (j : Json) (p : BitVec 8) : Prop :=
  ∃ s, j = .str s ∧ (caseEq s "TCP".toList = true ∧ p = 0 ∨ caseEq s "UDP".toList = true ∧ p = 1
    ∨ caseEq s "ICMP".toList = true ∧ p = 2)

/-- The mark; 0 if absent. -/
def MarkSays (o : Option Json) (m : BitVec 32) : Prop :=
  match o with
  | none => m = 0
  | some j => ∃ v, IsUint j 0 4294967295 v ∧ m = BitVec.ofNat 32 v

/-- The ports; 61001-65535 if absent. -/
def PortsSay (o : Option Json) (min max : BitVec 16) : Prop :=
  match o with
  | none => min = 61001 ∧ max = 65535
  | some j => ∃ s, j = .str s ∧ Text.strToPortRange s = some (min, max)

/-- A number, "auto" or "infinity"; unset if absent. The flags: 1 is "set", 2 is "automatic", 4 is "infinite". -/
def ItersSay (o : Option Json) (flags : BitVec 8) (n : BitVec 32) : Prop :=
  match o with
  | none => flags = 0 ∧ n = 0
  | some j => (∃ v, IsUint j 1 4294967295 v ∧ flags = 1 ∧ n = BitVec.ofNat 32 v)
    ∨ j = .str "auto".toList ∧ flags = 3 ∧ n = 0 ∨ j = .str "infinity".toList ∧ flags = 5 ∧ n = 0

/-- `{ "mark": 0, "protocol": "TCP", "prefix": "192.0.2.1/32", "port range": "1-65535", "max-iterations": "auto" }` -/
def Pool4Says (i : Inet) (j : Json) (e : WPool4) : Prop :=
  ∃ l proto sp, j = .obj l
    ∧ Tagged ["mark".toList, "protocol".toList, "prefix".toList, "port range".toList, "max-iterations".toList] l
    ∧ MarkSays (member l "mark".toList) e.mark
    ∧ member l "protocol".toList = some proto ∧ ProtoSays proto e.proto
    ∧ member l "prefix".toList = some (.str sp) ∧ Text.strToPrefix4 i sp = some e.pfx
    ∧ PortsSay (member l "port range".toList) e.min e.max
    ∧ ItersSay (member l "max-iterations".toList) e.flags e.iters

/-- `{ "ipv6 address": "2001:db8::1#80", "ipv4 address": "192.0.2.1#80", "protocol": "TCP" }` -/
def BibSays (i : Inet) (j : Json) (e : WBib) : Prop :=
  ∃ l s6 s4 proto, j = .obj l ∧ Tagged ["ipv6 address".toList, "ipv4 address".toList, "protocol".toList] l
    ∧ member l "ipv6 address".toList = some (.str s6) ∧ Text.strToT6 i s6 = some e.a6
    ∧ member l "ipv4 address".toList = some (.str s4) ∧ Text.strToT4 i s4 = some e.a4
    ∧ member l "protocol".toList = some proto ∧ ProtoSays proto e.proto ∧ e.static = true

/-! ### Settings -/

/-- The value of a setting of a certain type. -/
def ValSays (i : Inet) (ty : GType) (j : Json) (v : GVal) : Prop :=
  match ty with
  | .bool => ∃ b, j = .bool b ∧ v = .bool b
  | .u8 => ∃ k, IsUint j 0 255 k ∧ v = .u8 (BitVec.ofNat 8 k)
  | .u32 => ∃ k, IsUint j 0 4294967295 k ∧ v = .u32 (BitVec.ofNat 32 k)
  | .plateaus => ∃ l ks, j = .arr l ∧ Each (fun j k => IsUint j 0 65535 k) l ks ∧ v = .plateaus (ks.map (BitVec.ofNat 16))
  | .timeout | .prefix6 | .prefix4 | .hairpin =>
    ∃ s, (j = .str s ∨ j = .null ∧ s = "null".toList) ∧ Text.str2nl i s ty = some v

/-- The settings of docs/en/usr-flags-global.md, with their identifiers (src/common/config.h:217-261, see C51) and types. -/
def documented : List (Text × Nat × GType) :=
  -- whoever they are for
  [("manually-enabled".toList, 1, .bool), ("pool6".toList, 2, .prefix6), ("lowest-ipv6-mtu".toList, 3, .u32),
   ("logging-debug".toList, 4, .bool)] ++
  -- NAT64
  [("address-dependent-filtering".toList, 14, .bool), ("drop-icmpv6-info".toList, 16, .bool),
   ("drop-externally-initiated-tcp".toList, 15, .bool), ("udp-timeout".toList, 22, .timeout), ("tcp-est-timeout".toList, 20, .timeout),
   ("tcp-trans-timeout".toList, 21, .timeout), ("icmp-timeout".toList, 23, .timeout), ("maximum-simultaneous-opens".toList, 26, .u32),
   ("source-icmpv6-errors-better".toList, 17, .bool), ("logging-bib".toList, 24, .bool), ("logging-session".toList, 25, .bool)] ++
  -- headers
  [("zeroize-traffic-class".toList, 5, .bool), ("override-tos".toList, 6, .bool), ("tos".toList, 7, .u8),
   ("amend-udp-checksum-zero".toList, 9, .bool), ("randomize-rfc6791-addresses".toList, 11, .bool), ("mtu-plateaus".toList, 8, .plateaus),
   ("eam-hairpin-mode".toList, 10, .hairpin), ("rfc6791v4-prefix".toList, 13, .prefix4), ("rfc6791v6-prefix".toList, 12, .prefix6),
   ("f-args".toList, 18, .u8), ("handle-rst-during-fin-rcv".toList, 19, .bool)] ++
  -- synchronization of sessions
  [("ss-enabled".toList, 27, .bool), ("ss-flush-asap".toList, 28, .bool), ("ss-flush-deadline".toList, 29, .u32),
   ("ss-capacity".toList, 30, .u32), ("ss-max-payload".toList, 31, .u32), ("ss-max-sessions-per-packet".toList, 32, .u32)]

/-- A member of "global". -/
def SettingSays (i : Inet) (p : Text × Json) (x : Nat × GVal) : Prop :=
  ∃ n ty, (n, x.1, ty) ∈ documented ∧ caseEq p.1 n = true ∧ ValSays i ty p.2 x.2

/-- The contents of "global", in order. -/
def GlobalsSay (i : Inet) (j : Json) (x : List (Nat × GVal)) : Prop :=
  ∃ l, j = .obj l ∧ Tagged (documented.map (·.1)) l ∧ Each (SettingSays i) (real l) x

/-! ### Files -/

/-- The contents of a file, in parts. -/
inductive Sect
  | globals (l : List (Nat × GVal))
  | eamt (l : List Eam.Entry)
  | deny (l : List Prefix4)
  | pool4 (l : List WPool4)
  | bib (l : List WBib)

/-- A list of entries. -/
def ListSays {α : Type} (says : Json → α → Prop) (j : Json) (l : List α) : Prop := ∃ js, j = .arr js ∧ Each says js l

/-- A part of a file for translators of type `xt` (SIIT is 1, NAT64 is 2). -/
inductive SectSays (i : Inet) (xt : BitVec 8) : Text × Json → Sect → Prop
  | globals {p l} : caseEq p.1 "global".toList = true → GlobalsSay i p.2 l → SectSays i xt p (.globals l)
  | eamt {p l} : xt = 1 → caseEq p.1 "eamt".toList = true → ListSays (EamSays i) p.2 l → SectSays i xt p (.eamt l)
  | deny {p l} : xt = 1 → (caseEq p.1 "denylist4".toList = true ∨ caseEq p.1 "blacklist4".toList = true) →
      ListSays (DenySays i) p.2 l → SectSays i xt p (.deny l)
  | pool4 {p l} : xt = 2 → caseEq p.1 "pool4".toList = true → ListSays (Pool4Says i) p.2 l → SectSays i xt p (.pool4 l)
  | bib {p l} : xt = 2 → caseEq p.1 "bib".toList = true → ListSays (BibSays i) p.2 l → SectSays i xt p (.bib l)

/-- The tags that files for each type of translator may have. -/
def rootTags (xt : BitVec 8) : List Text :=
  if xt = 1 then ["instance".toList, "framework".toList, "global".toList, "eamt".toList, "blacklist4".toList, "denylist4".toList]
  else ["instance".toList, "framework".toList, "global".toList, "pool4".toList, "bib".toList]

/-- The parts, without the name of the instance and the framework. -/
def parts (l : List (Text × Json)) : List (Text × Json) :=
  (real l).filter (fun p => !caseEq p.1 "instance".toList && !caseEq p.1 "framework".toList)

/-- A file describes the instance `name` with framework `fw` (Netfilter is 4, iptables is 8) and the contents `x`. -/
def FileSays (i : Inet) (xt : BitVec 8) (j : Json) (name : Text) (fw : BitVec 8) (x : List Sect) : Prop :=
  ∃ l, j = .obj l ∧ (xt = 1 ∨ xt = 2) ∧ Tagged (rootTags xt) l
    ∧ member l "instance".toList = some (.str name) ∧ nameOk name = true
    ∧ (member l "framework".toList = some (.str "netfilter".toList) ∧ fw = 4
      ∨ member l "framework".toList = some (.str "iptables".toList) ∧ fw = 8)
    ∧ Each (SectSays i xt) (parts l) x

/-! ### Configurations -/

open Jool.Atomic (Conf)
open Jool.Xlator (Flags xtOf)
variable {D : Type}

/-- The entries are added in order; none if one of them is refused. -/
def addEach {α D : Type} (add : α → D → D × Bool) : List α → D → Option D
  | [], d => some d
  | e :: es, d => if (add e d).2 then addEach add es (add e d).1 else none

/-- A value as an attribute. -/
def gval : GVal → Globals.Val
  | .bool b => .u8 (if b then 1 else 0)
  | .u8 n => .u8 n
  | .u32 n => .u32 n
  | .timeout n => .u32 n
  | .plateaus l => .list l
  | .prefix6 (some p) => .pfx6 (some (BitVec.ofNat 8 p.len)) (some p.addr)
  | .prefix6 none => .pfx6 (some 0) none
  | .prefix4 (some p) => .pfx4 (some (BitVec.ofNat 8 p.len)) (some p.addr)
  | .prefix4 none => .pfx4 (some 0) none
  | .hairpin m => .u8 m

/-- The settings by identifier. -/
def gattrs (l : List (Nat × GVal)) : Globals.Attrs := fun id => (l.find? (fun x => x.1 == id)).map (fun x => gval x.2)

/-- What a part of the file does to a configuration; none if it has to be refused. The settings are applied at once; if there are
none, there is nothing to do. -/
def Sect.apply (db : Dbs D) (force : Bool) (c : Conf D) : Sect → Option (Conf D)
  | .globals [] => some c
  | .globals l =>
    let r := db.globals (xtOf c.flags) force (gattrs l) c.globals
    if r.2 then some { c with globals := r.1 } else none
  | .eamt l => (addEach (db.eam force) l c.a).map (fun a => { c with a := a })
  | .deny l => (addEach (db.deny force) l c.b).map (fun b => { c with b := b })
  | .pool4 l => (addEach (db.pool4 force) l c.a).map (fun a => { c with a := a })
  | .bib l => (addEach (fun e => db.bib e c.a) l c.b).map (fun b => { c with b := b })

/-- The configuration that the parts describe, starting from `c`. -/
def build (db : Dbs D) (force : Bool) : List Sect → Conf D → Option (Conf D)
  | [], c => some c
  | s :: ss, c => (s.apply db force c).bind (build db force ss)

end Jool.File
