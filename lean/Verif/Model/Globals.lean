import Verif.Model.Addr
import Verif.Model.Mtu
/-
Model of the global settings of an instance: `src/common/global.c` (the kernel half), `src/mod/common/db/global.c`
and `src/mod/common/nl/global.c`. (`mod/` abbreviates `src/mod/common/`.)

Simplifications: the `siit` and `nat64` members, which share memory in C (src/common/config.h), are separate fields
here; each function only touches the ones of the instance's type. The contents of `prefix` while `set` is false, and
of the plateaus after `count`, are not kept. Attributes have the type that the policies of src/common/config.c:83-127
demand (a request that violates a policy is refused before it reads anything), or are of another constructor of
`Val`, which every reader refuses.
-/
namespace Jool.Globals

/-- `xlator_type` of an instance (src/common/config.h). -/
inductive Xt where | siit | nat64
deriving DecidableEq, Repr, Inhabited

/-- src/common/config.h `struct jool_globals`. -/
structure Globals where
  enabled : Bool
  pool6 : Option Prefix6
  lowestMtu : BitVec 32
  debug : Bool
  resetTc : Bool
  resetTos : Bool
  newTos : BitVec 8
  plateaus : List Nat
  -- siit
  csumZero : Bool
  hairpin : BitVec 8
  randomize : Bool
  pool6791v6 : Option Prefix6
  pool6791v4 : Option Prefix4
  -- nat64
  dropByAddr : Bool
  dropExternalTcp : Bool
  dropIcmp6Info : Bool
  srcIcmp6Better : Bool
  fArgs : BitVec 8
  handleRst : Bool
  ttlTcpEst : BitVec 32
  ttlTcpTrans : BitVec 32
  ttlUdp : BitVec 32
  ttlIcmp : BitVec 32
  bibLogging : Bool
  sessionLogging : Bool
  maxStoredPkts : BitVec 32
  jooldEnabled : Bool
  jooldFlushAsap : Bool
  jooldDeadline : BitVec 32
  jooldCapacity : BitVec 32
  jooldMaxPayload : BitVec 32
  jooldMaxSessions : BitVec 32
deriving DecidableEq, Repr, Inhabited

/-- A netlink attribute. A prefix is a nest that has, or lacks, a length and an address. -/
inductive Val where
  | u8 (v : BitVec 8)
  | u32 (v : BitVec 32)
  | list (v : List (BitVec 16))
  | pfx6 (len : Option (BitVec 8)) (addr : Option Addr6)
  | pfx4 (len : Option (BitVec 8)) (addr : Option Addr4)
deriving DecidableEq, Repr, Inhabited

/-! ## Writing a setting to a message (`raw2nl_*`) -/

/-- src/common/global.c:81-85 `raw2nl_bool`. -/
def putBool (b : Bool) : Val := .u8 (if b then 1 else 0)

/-- src/common/global.c:99-103 `raw2nl_plateaus`. -/
def putPlateaus (l : List Nat) : Val := .list (l.map (BitVec.ofNat 16))

/-- src/common/global.c:105-111 `raw2nl_prefix6`, mod/nl/attribute.c:550-579 `jnla_put_prefix6`. -/
def putPfx6 : Option Prefix6 → Val
  | some p => .pfx6 (some (BitVec.ofNat 8 p.len)) (some p.addr)
  | none => .pfx6 (some 0) none

/-- src/common/global.c:113-119 `raw2nl_prefix4`, mod/nl/attribute.c:581-610 `jnla_put_prefix4`. -/
def putPfx4 : Option Prefix4 → Val
  | some p => .pfx4 (some (BitVec.ofNat 8 p.len)) (some p.addr)
  | none => .pfx4 (some 0) none

/-! ## Reading a setting from a message (`nl2raw_*`). The result is the new contents of the field, and whether the
function returns 0. -/

/-- src/common/global.c:121-125 `nl2raw_bool`. -/
def getBool (_force : Bool) (old : Bool) : Val → Bool × Bool
  | .u8 v => (v != 0, true)
  | _ => (old, false)

/-- src/common/global.c:127-131 `nl2raw_u8`. -/
def getU8 (_force : Bool) (old : BitVec 8) : Val → BitVec 8 × Bool
  | .u8 v => (v, true)
  | _ => (old, false)

/-- src/common/global.c:133-137 `nl2raw_u32`. -/
def getU32 (_force : Bool) (old : BitVec 32) : Val → BitVec 32 × Bool
  | .u32 v => (v, true)
  | _ => (old, false)

/-- src/common/global.c:139-142 `nl2raw_plateaus`. If it fails the array is left with garbage; the first element of
the old one is what `jnla_get_plateaus` may look at. -/
def getPlateaus (_force : Bool) (old : List Nat) : Val → List Nat × Bool
  | .list l =>
    match Mtu.setPlateaus (fun k => old[k]?.getD 0) (l.map (·.toNat)) with
    | some l => (l, true)
    | none => (l.map (·.toNat), false)
  | _ => (old, false)

/-- mod/nl/attribute.c:147-175 `jnla_get_prefix6_optional`. -/
def prefix6Optional (old : Option Prefix6) : Val → Option Prefix6 × Bool
  | .pfx6 (some len) (some addr) => (some ⟨addr, len.toNat⟩, true)
  | .pfx6 (some _) none => (none, true)
  | _ => (old, false)

/-- mod/nl/attribute.c:196-224 `jnla_get_prefix4_optional`. -/
def prefix4Optional (old : Option Prefix4) : Val → Option Prefix4 × Bool
  | .pfx4 (some len) (some addr) => (some ⟨addr, len.toNat⟩, true)
  | .pfx4 (some _) none => (none, true)
  | _ => (old, false)

/-- mod/db/global.c:12-21 `validate_pool6_len`. -/
def validatePool6Len (len : Nat) : Bool :=
  len == 32 || len == 40 || len == 48 || len == 56 || len == 64 || len == 96

/-- mod/db/global.c:23-31 `validate_ubit`: `s6_addr[8]`. -/
def validateUbit (p : Prefix6) (force : Bool) : Bool := force || (p.addr >>> 56).setWidth 8 == 0#8

/-- mod/db/global.c:33-49 `pool6_validate`. -/
def pool6Validate (p : Option Prefix6) (force : Bool) : Bool :=
  match p with
  | none => true
  | some p => prefix6Validate p && validatePool6Len p.len && validateUbit p force

/-- src/common/global.c:144-157 `validate_prefix6791v4`. -/
def validate6791v4 (p : Option Prefix4) (force : Bool) : Bool :=
  match p with
  | none => true
  | some p => prefix4Validate p && prefix4ValidateScope p force

/-- src/common/global.c:159-169 `nl2raw_pool6`. The field is written before it is validated. -/
def getPool6 (force : Bool) (old : Option Prefix6) (v : Val) : Option Prefix6 × Bool :=
  let (p, ok) := prefix6Optional old v
  (p, ok && pool6Validate p force)

/-- src/common/global.c:171-181 `nl2raw_pool6791v6`. -/
def get6791v6 (_force : Bool) (old : Option Prefix6) (v : Val) : Option Prefix6 × Bool :=
  let (p, ok) := prefix6Optional old v
  (p, ok && match p with | none => true | some p => prefix6Validate p)

/-- src/common/global.c:183-193 `nl2raw_pool6791v4`. -/
def get6791v4 (force : Bool) (old : Option Prefix4) (v : Val) : Option Prefix4 × Bool :=
  let (p, ok) := prefix4Optional old v
  (p, ok && validate6791v4 p force)

/-- src/common/global.c:195-207 `nl2raw_lowest_ipv6_mtu`. -/
def getMtu (_force : Bool) (old : BitVec 32) : Val → BitVec 32 × Bool
  | .u32 v => if v < 1280#32 then (old, false) else (v, true)
  | _ => (old, false)

/-- src/common/global.c:209-221 `nl2raw_hairpin_mode`; `EHM_OFF`, `EHM_SIMPLE`, `EHM_INTRINSIC` are 0, 1, 2. -/
def getHairpin (_force : Bool) (old : BitVec 8) : Val → BitVec 8 × Bool
  | .u8 v => if v ≠ 0 ∧ v ≠ 1 ∧ v ≠ 2 then (old, false) else (v, true)
  | _ => (old, false)

/-- src/common/global.c:223-232 `validate_timeout`, and its three callers: 234-245 `nl2raw_ttl_udp`, 247-258
`nl2raw_ttl_tcp_est`, 260-271 `nl2raw_ttl_tcp_trans`. -/
def getTtl (min : BitVec 32) (_force : Bool) (old : BitVec 32) : Val → BitVec 32 × Bool
  | .u32 v => if v < min then (old, false) else (v, true)
  | _ => (old, false)

/-- src/common/global.c:273-285 `nl2raw_f_args`. -/
def getFArgs (_force : Bool) (old : BitVec 8) : Val → BitVec 8 × Bool
  | .u8 v => if v > 0x0F#8 then (old, false) else (v, true)
  | _ => (old, false)

/-! ## The table of settings -/

/-- src/common/global.c:65-78 `struct joolnl_global_meta`. `get`, `put`: the field at `offset`. `enc`: `raw2nl`.
`dec`: `nl2raw` (of the setting or, failing that, of its type: 1097-1103). -/
structure Meta where
  {α : Type}
  id : Nat
  siit : Bool
  nat64 : Bool
  get : Globals → α
  put : α → Globals → Globals
  enc : α → Val
  dec : Bool → α → Val → α × Bool

def Meta.of (m : Meta) : Xt → Bool
  | .siit => m.siit
  | .nat64 => m.nat64

/-- src/common/global.c:755-1014 `globals_metadata`; the ids are those of src/common/config.h:217-261. -/
def metas : List Meta := [
  ⟨1, true, true, (·.enabled), fun v g => { g with enabled := v }, putBool, getBool⟩,
  ⟨2, true, true, (·.pool6), fun v g => { g with pool6 := v }, putPfx6, getPool6⟩,
  ⟨3, true, true, (·.lowestMtu), fun v g => { g with lowestMtu := v }, .u32, getMtu⟩,
  ⟨4, true, true, (·.debug), fun v g => { g with debug := v }, putBool, getBool⟩,
  ⟨5, true, true, (·.resetTc), fun v g => { g with resetTc := v }, putBool, getBool⟩,
  ⟨6, true, true, (·.resetTos), fun v g => { g with resetTos := v }, putBool, getBool⟩,
  ⟨7, true, true, (·.newTos), fun v g => { g with newTos := v }, .u8, getU8⟩,
  ⟨8, true, true, (·.plateaus), fun v g => { g with plateaus := v }, putPlateaus, getPlateaus⟩,
  ⟨9, true, false, (·.csumZero), fun v g => { g with csumZero := v }, putBool, getBool⟩,
  ⟨10, true, false, (·.hairpin), fun v g => { g with hairpin := v }, .u8, getHairpin⟩,
  ⟨11, true, false, (·.randomize), fun v g => { g with randomize := v }, putBool, getBool⟩,
  ⟨12, true, false, (·.pool6791v6), fun v g => { g with pool6791v6 := v }, putPfx6, get6791v6⟩,
  ⟨13, true, false, (·.pool6791v4), fun v g => { g with pool6791v4 := v }, putPfx4, get6791v4⟩,
  ⟨14, false, true, (·.dropByAddr), fun v g => { g with dropByAddr := v }, putBool, getBool⟩,
  ⟨15, false, true, (·.dropExternalTcp), fun v g => { g with dropExternalTcp := v }, putBool, getBool⟩,
  ⟨16, false, true, (·.dropIcmp6Info), fun v g => { g with dropIcmp6Info := v }, putBool, getBool⟩,
  ⟨17, false, true, (·.srcIcmp6Better), fun v g => { g with srcIcmp6Better := v }, putBool, getBool⟩,
  ⟨18, false, true, (·.fArgs), fun v g => { g with fArgs := v }, .u8, getFArgs⟩,
  ⟨19, false, true, (·.handleRst), fun v g => { g with handleRst := v }, putBool, getBool⟩,
  ⟨20, false, true, (·.ttlTcpEst), fun v g => { g with ttlTcpEst := v }, .u32, getTtl (1000 * 7200)⟩,
  ⟨21, false, true, (·.ttlTcpTrans), fun v g => { g with ttlTcpTrans := v }, .u32, getTtl (1000 * 240)⟩,
  ⟨22, false, true, (·.ttlUdp), fun v g => { g with ttlUdp := v }, .u32, getTtl (1000 * 120)⟩,
  ⟨23, false, true, (·.ttlIcmp), fun v g => { g with ttlIcmp := v }, .u32, getU32⟩,
  ⟨24, false, true, (·.bibLogging), fun v g => { g with bibLogging := v }, putBool, getBool⟩,
  ⟨25, false, true, (·.sessionLogging), fun v g => { g with sessionLogging := v }, putBool, getBool⟩,
  ⟨26, false, true, (·.maxStoredPkts), fun v g => { g with maxStoredPkts := v }, .u32, getU32⟩,
  ⟨27, false, true, (·.jooldEnabled), fun v g => { g with jooldEnabled := v }, putBool, getBool⟩,
  ⟨28, false, true, (·.jooldFlushAsap), fun v g => { g with jooldFlushAsap := v }, putBool, getBool⟩,
  ⟨29, false, true, (·.jooldDeadline), fun v g => { g with jooldDeadline := v }, .u32, getU32⟩,
  ⟨30, false, true, (·.jooldCapacity), fun v g => { g with jooldCapacity := v }, .u32, getU32⟩,
  ⟨31, false, true, (·.jooldMaxPayload), fun v g => { g with jooldMaxPayload := v }, .u32, getU32⟩,
  ⟨32, false, true, (·.jooldMaxSessions), fun v g => { g with jooldMaxSessions := v }, .u32, getU32⟩]

/-! ## Updates -/

/-- The attributes of a request, by id. -/
abbrev Attrs := Nat → Option Val

/-- mod/nl/global.c:161-174, the loop of `global_update`. -/
def updateLoop (xt : Xt) (force : Bool) (attrs : Attrs) : List Meta → Globals → Globals × Bool
  | [], g => (g, true)
  | m :: ms, g =>
    if !m.of xt then updateLoop xt force attrs ms g
    else
      match attrs m.id with
      | none => updateLoop xt force attrs ms g
      | some v =>
        let (raw, ok) := m.dec force (m.get g) v
        if ok then updateLoop xt force attrs ms (m.put raw g) else (m.put raw g, false)

/-- mod/nl/global.c:132-177 `global_update`. It changes the structure in place, and leaves it half changed if it
fails. -/
def update (xt : Xt) (force : Bool) (attrs : Attrs) (g : Globals) : Globals × Bool :=
  updateLoop xt force attrs metas g

/-- What `xlator_replace` demands of the settings (mod/xlator.c:651-656 with `basic_add_validations`, 686-691): a
NAT64 has a pool6, and it does not change. `old`: the settings of the running instance. -/
def replaceOk (xt : Xt) (old : Option Globals) (new : Globals) : Bool :=
  match xt with
  | .siit => true
  | .nat64 => new.pool6.isSome && match old with | none => true | some old => old.pool6 == new.pool6

/-- mod/nl/global.c:56-130 `handle_global_update`: it changes a copy, which then replaces the instance. `env`: the
rest of `xlator_replace` (memory, and the BIB entries that must be in pool4) succeeds. -/
def handleUpdate (xt : Xt) (force : Bool) (attrs : Attrs) (env : Bool) (g : Globals) : Globals × Bool :=
  match update xt force attrs g with
  | (_, false) => (g, false)
  | (new, true) => if env && replaceOk xt (some g) new then (new, true) else (g, false)

/-- mod/db/global.c:51-122 `globals_init`, and the constants of src/common/constants.h. `debug`: whether `DEBUG` is
defined. -/
def init (debug : Bool) (pool6 : Option Prefix6) : Option Globals :=
  if pool6Validate pool6 true then
    some {
      enabled := true, pool6 := pool6, lowestMtu := 1280, debug := debug, resetTc := false, resetTos := false
      newTos := 0, plateaus := [65535, 32000, 17914, 8166, 4352, 2002, 1492, 1006, 508, 296, 68]
      csumZero := false, hairpin := 2, randomize := true, pool6791v6 := none, pool6791v4 := none
      dropByAddr := false, dropExternalTcp := false, dropIcmp6Info := false, srcIcmp6Better := true
      fArgs := 0b1011, handleRst := false
      ttlTcpEst := 1000 * 7200, ttlTcpTrans := 1000 * 240, ttlUdp := 1000 * 300, ttlIcmp := 1000 * 60
      bibLogging := false, sessionLogging := false, maxStoredPkts := 10
      jooldEnabled := false, jooldFlushAsap := false, jooldDeadline := 1000 * 2, jooldCapacity := 512
      jooldMaxPayload := 1452, jooldMaxSessions := 36 }
  else none

/-! ## Listing -/

/-- mod/db/global.c:124-148 `globals_foreach` with mod/nl/global.c:11-15 `serialize_global`. `room`: how many more
settings fit in the message (in C it depends on their sizes; see `Props`). Returns what is in the message, and
whether there is more. -/
def foreachLoop (xt : Xt) (g : Globals) : List Meta → Nat → Nat → List (Nat × Val) × Bool
  | [], _, _ => ([], false)
  | m :: ms, offset, room =>
    if !m.of xt then foreachLoop xt g ms offset room
    else if offset ≠ 0 then foreachLoop xt g ms (if m.id = offset then 0 else offset) room
    else
      match room with
      | 0 => ([], true)
      | room + 1 =>
        let (l, more) := foreachLoop xt g ms 0 room
        ((m.id, m.enc (m.get g)) :: l, more)

def foreach (xt : Xt) (g : Globals) (offset room : Nat) : List (Nat × Val) × Bool :=
  foreachLoop xt g metas offset room

/-- src/usr/nl/global.c:64-93 `joolnl_global_foreach` with 21-62 `handle_foreach_response`: it asks for more, starting
after the last setting that it received, until nothing is left. `rooms`: how many settings fit in each of the answers.
The second component: it ended. -/
def pages (xt : Xt) (g : Globals) : List Nat → Nat → List (Nat × Val) × Bool
  | [], _ => ([], false)
  | room :: rooms, last =>
    let (l, more) := foreach xt g last room
    if more then
      let (l', done) := pages xt g rooms ((l.getLast?.map (·.1)).getD last)
      (l ++ l', done)
    else (l, true)

/-! ## Histories -/

/-- What the requests of the kernel act on: the running instance of a certain name, namespace and type (if there is
one), and the candidates of the configuration files that are being loaded for it. -/
structure World where
  running : Option Globals
  cands : List Globals
deriving Inhabited

inductive Op where
  /-- mod/xlator.c:479-541 `xlator_add` -/
  | add (debug : Bool) (pool6 : Option Prefix6) (env : Bool)
  /-- mod/xlator.c:576-602 `xlator_rm` -/
  | rm
  | update (force : Bool) (attrs : Attrs) (env : Bool)
  /-- mod/atomic_config.c:136-171 `handle_init` -/
  | candNew (debug : Bool)
  /-- mod/atomic_config.c:173-180 `handle_global`. If it fails the candidate is destroyed (372-376). -/
  | candUpdate (k : Nat) (force : Bool) (attrs : Attrs)
  /-- a candidate expires, or fails for another reason -/
  | candDrop (k : Nat)
  /-- mod/atomic_config.c:298-313 `commit` -/
  | candCommit (k : Nat) (env : Bool)

/-- One request. The second component: it succeeded. -/
def step (xt : Xt) (w : World) : Op → World × Bool
  | .add debug pool6 env =>
    match w.running, init debug pool6 with
    | none, some g => if env && replaceOk xt none g then ({ w with running := some g }, true) else (w, false)
    | _, _ => (w, false)
  | .rm => ({ w with running := none }, w.running.isSome)
  | .update force attrs env =>
    match w.running with
    | none => (w, false)
    | some g => let (g, ok) := handleUpdate xt force attrs env g; ({ w with running := some g }, ok)
  | .candNew debug =>
    match init debug none with
    | none => (w, false)
    | some g => ({ w with cands := g :: w.cands }, true)
  | .candUpdate k force attrs =>
    match w.cands[k]? with
    | none => (w, false)
    | some g =>
      match update xt force attrs g with
      | (g, true) => ({ w with cands := w.cands.set k g }, true)
      | (_, false) => ({ w with cands := w.cands.eraseIdx k }, false)
  | .candDrop k => ({ w with cands := w.cands.eraseIdx k }, true)
  | .candCommit k env =>
    match w.cands[k]? with
    | none => (w, false)
    | some g =>
      if env && replaceOk xt w.running g then (⟨some g, w.cands.eraseIdx k⟩, true)
      else ({ w with cands := w.cands.eraseIdx k }, false)

def run (xt : Xt) : World → List Op → World
  | w, [] => w
  | w, op :: ops => run xt (step xt w op).1 ops

end Jool.Globals
