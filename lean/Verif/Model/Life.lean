import Verif.Model.Nat64
/-
Model of what becomes of packets and routes while a packet is handled: who owns each `struct sk_buff`, each reference to a
route (`struct dst_entry`), each `struct xlation` and each reference to the instance.

`src/mod/common/kernel_hook_netfilter.c`, `kernel_hook_iptables.c`, `core.c`, `translation_state.c`, `icmp_wrapper.c`,
`steps/send_packet.c`, `steps/handling_hairpinning_{nat64,siit}.c`, `rfc7915/core.c`, the allocations of `rfc7915/4to6.c`
and `rfc7915/6to4.c`, `rfc7915/common.c` and `route_out.c`, and `post_fate` and `send_probe_packet` of `db/bib/db.c`.

Simplifications:
- Everything these functions decide by looking at the packet, at the configuration or at the databases is a parameter
  (a `…Ch` structure), except for the TCP table, which is the one of `Verif.Model.Bib`: it keeps and releases packets.
  The theorems quantify over all the parameters.
- Of a packet, only what matters to the others is kept: `next`, the route, the mark, the protocol, the length and the
  positions of the headers.
- The references to routes are the ones that the translator takes. (The ones that incoming packets bring with them belong to the
  kernel.)
- Addresses of freed packets are not reused, so that each use after free is noticed.
- Nothing else happens while a packet is handled.
-/
namespace Jool.Life
open Jool.Nat64 (IcmpErr)

inductive L3 | v4 | v6
deriving DecidableEq, Repr

/-- `struct sk_buff`. `l3`: `protocol`, if it was set; `nullPage`: see rfc7915/core.c:23-38; `data`, `nh` and `th` count from
`head`. -/
structure Skb where
  l3 : Option L3
  mark : BitVec 32
  next : Option Nat
  dst : Option Nat
  nullPage : Bool
  len : Nat
  data : Nat
  nh : Int
  th : Int
deriving DecidableEq, Repr

/-- The return values of the hooks. `xtContinue`: the next iptables rule. -/
inductive Nf | accept | drop | stolen | xtContinue
deriving DecidableEq, Repr

/-- What can be seen from outside. `sent`: dst_output() got a translated packet, and whether it failed; `probe`: it got a probe;
`icmp`: an ICMP error that answers the packet; `back`: the hook returned, the packet belongs to the kernel. -/
inductive Ev
  | sent (i : Nat) (c : Skb) (fails : Bool)
  | probe (i : Nat) (fails : Bool)
  | icmp (i : Nat) (type code : Nat)
  | back (i : Nat) (c : Skb) (v : Nf)
deriving DecidableEq, Repr

/-- `skb`: the packets that are allocated; `top`: addresses from here on were never used; `dst`: how many references to
each route are held; `xlations`: how many `struct xlation` are allocated; `insts`: references to the instance; `log`: the last event is
first. -/
structure Heap where
  skb : Nat → Option Skb
  top : Nat
  dst : Nat → Nat
  xlations : Nat
  insts : Nat
  table : Bib.Table
  log : List Ev

/-- A computation that reads and writes the heap, and might do something undefined. -/
def M (α : Type) := Heap → Outcome (α × Heap)

instance : Monad M where
  pure a := fun h => .ok (a, h)
  bind m f := fun h => (m h).bind (fun r => f r.1 r.2)

def get : M Heap := fun h => .ok (h, h)
def set (h : Heap) : M Unit := fun _ => .ok ((), h)
def ub {α : Type} (u : UB) : M α := fun _ => .ub u

def emit (e : Ev) : M Unit := fun h => .ok ((), { h with log := e :: h.log })

/-! ## The kernel's functions -/

def upd {α : Type} (f : Nat → α) (i : Nat) (a : α) : Nat → α := fun j => if j = i then a else f j

/-- dst_hold(). -/
def dstHold (d : Nat) : M Unit := fun h => .ok ((), { h with dst := upd h.dst d (h.dst d + 1) })

/-- dst_release(): it is not defined if nothing is held. `none`: NULL. -/
def dstRelease : Option Nat → M Unit
  | none => pure ()
  | some d => fun h =>
    if h.dst d = 0 then .ub .useAfterFree else .ok ((), { h with dst := upd h.dst d (h.dst d - 1) })

/-- alloc_skb(), pskb_copy(). -/
def alloc (c : Skb) : M Nat := fun h => .ok (h.top, { h with skb := upd h.skb h.top (some c), top := h.top + 1 })

/-- Reading a packet. -/
def load (i : Nat) : M Skb := fun h =>
  match h.skb i with
  | none => .ub .useAfterFree
  | some c => .ok (c, h)

/-- Writing to a packet. -/
def store (i : Nat) (c : Skb) : M Unit := fun h =>
  match h.skb i with
  | none => .ub .useAfterFree
  | some _ => .ok ((), { h with skb := upd h.skb i (some c) })

/-- The packet is not the translator's any more. -/
def take (i : Nat) : M Skb := fun h =>
  match h.skb i with
  | none => .ub .useAfterFree
  | some c => .ok (c, { h with skb := upd h.skb i none })

/-- kfree_skb(): the packet's reference to its route goes too. -/
def kfree : Option Nat → M Unit
  | none => pure ()
  | some i => do
    let c ← take i
    dstRelease c.dst

/-- kfree_skb_list(). The fuel is the number of packets that were ever allocated; a longer list has a cycle. -/
def kfreeListGo : Nat → Option Nat → M Unit
  | _, none => pure ()
  | 0, some _ => ub .infiniteLoop
  | n + 1, some i => do
    let c ← load i
    kfree (some i)
    kfreeListGo n c.next

def kfreeList (i : Option Nat) : M Unit := do
  let h ← get
  kfreeListGo h.top i

/-- skb_dst_set(): the packet gets the reference. -/
def skbDstSet (i : Nat) (d : Option Nat) : M Unit := do
  let c ← load i
  store i { c with dst := d }

/-- skb_dst_drop(). -/
def skbDstDrop (i : Nat) : M Unit := do
  let c ← load i
  dstRelease c.dst
  store i { c with dst := none }

/-- skb_pull(): `false` is NULL. -/
def pull (i n : Nat) : M Bool := do
  let c ← load i
  if n ≤ c.len then
    store i { c with data := c.data + n, len := c.len - n }
    pure true
  else pure false

/-- skb_push(). (It panics if there is no room; what is pushed here was pulled before.) -/
def push (i n : Nat) : M Unit := do
  let c ← load i
  if n ≤ c.data then store i { c with data := c.data - n, len := c.len + n }
  else ub .outOfBounds

/-! ## The state of a translation -/

/-- mod/packet.h:190-239 `struct packet`. `orig`: `original_pkt->skb`. -/
structure Pkt where
  skb : Option Nat
  l3 : L3
  inner : Bool
  payload : Nat
  orig : Option Nat
deriving DecidableEq, Repr

def withSkb (p : Pkt) (i : Option Nat) : Pkt := { p with skb := i }

/-- mod/translation_state.h:38-74 `struct xlation`. -/
structure St where
  nat64 : Bool
  pin : Pkt
  pout : Pkt
  flowx : Bool
  dst : Option Nat
  hairpin : Bool
  icmp : Option IcmpErr
deriving DecidableEq, Repr

/-- mod/types.h:21-62 `verdict`. -/
inductive Verd | cont | drop | untr | stolen
deriving DecidableEq, Repr

/-- What a function without effects on packets does: `none` continues; otherwise it drops (`true`) or declines (`false`) the
packet, and maybe asks for an ICMP error (mod/translation_state.c:45-72). -/
abbrev Sub := Option (Bool × Option IcmpErr)

/-- mod/translation_state.c:45-72 `untranslatable`, `untranslatable_icmp`, `drop`, `drop_icmp`. -/
def sub (s : St) : Sub → Verd × St
  | none => (.cont, s)
  | some (true, i) => (.drop, match i with | none => s | some i => { s with icmp := some i })
  | some (false, i) => (.untr, match i with | none => s | some i => { s with icmp := some i })

/-- mod/translation_state.c:29-34 `xlation_init`: everything is zero. -/
def St.zero (nat64 : Bool) : St :=
  { nat64 := nat64, pin := ⟨none, .v4, false, 0, none⟩, pout := ⟨none, .v4, false, 0, none⟩, flowx := false, dst := none,
    hairpin := false, icmp := none }

/-- mod/translation_state.c:17-27 `xlation_create`. -/
def create (nat64 oom : Bool) : M (Option St) := fun h =>
  if oom then .ok (none, h) else .ok (some (St.zero nat64), { h with xlations := h.xlations + 1 })

/-- mod/translation_state.c:36-41 `xlation_destroy`. -/
def destroy (s : St) : M Unit := do
  dstRelease s.dst
  let h ← get
  if h.xlations = 0 then ub .useAfterFree else set { h with xlations := h.xlations - 1 }

/-- A new packet: `data` is at its layer 3 header. `th`: the length of the layer 3 headers. -/
def newSkb (l3 : Option L3) (mark : BitVec 32) (nullPage : Bool) (len : Nat) (th : Int) : Skb :=
  { l3 := l3, mark := mark, next := none, dst := none, nullPage := nullPage, len := len, data := 0, nh := 0, th := th }

/-! ## Routing -/

/-- What the kernel answers: a route, `dst->error`, `dst->dev`. -/
structure RouteCh where
  dst : Nat
  error : Bool
  dev : Bool
deriving DecidableEq, Repr

/-- mod/route_out.c:7-41 `route4`. -/
def route4 : Option RouteCh → M (Option Nat)
  | none => pure none
  | some r => do
    dstHold r.dst
    if r.error || !r.dev then
      dstRelease (some r.dst)
      pure none
    else pure (some r.dst)

/-- mod/route_out.c:43-61 `route6`. -/
def route6 : Option RouteCh → M (Option Nat)
  | none => pure none
  | some r => do
    dstHold r.dst
    if r.error then
      dstRelease (some r.dst)
      pure none
    else pure (some r.dst)

/-! ## The packet inside of an ICMP error -/

/-- The lengths of the headers of the packet inside, and what the translation of the packet inside yields. -/
structure InnerCh where
  l3in : Nat
  l4in : Nat
  l3out : Nat
  res : Sub
deriving DecidableEq, Repr

/-- mod/rfc7915/common.h:58-67 `struct bkp_skb`. -/
structure Bkp where
  pulled : Nat
  l3 : Int
  l4 : Int
  payload : Nat
deriving DecidableEq, Repr

def skbOf (p : Pkt) : M Nat :=
  match p.skb with
  | none => ub .nullDeref
  | some i => pure i

/-- mod/rfc7915/common.c:116-123 `backup_pointers`. The offsets count from `data`. -/
def backup (p : Pkt) : M Bkp := do
  let i ← skbOf p
  let c ← load i
  pure ⟨p.payload, c.nh - c.data, c.th - c.data, p.payload⟩

/-- mod/rfc7915/common.c:125-133 `restore_pointers`. -/
def restore (p : Pkt) (b : Bkp) : M Pkt := do
  let i ← skbOf p
  push i b.pulled
  let c ← load i
  store i { c with nh := c.data + b.l3, th := c.data + b.l4 }
  pure { p with payload := b.payload, inner := false }

/-- mod/rfc7915/common.c:29-61 `move_pointers_in`, 63-77 `move_pointers_out`. `false`: -EINVAL. -/
def movePointers (p : Pkt) (l3 l4 : Nat) : M (Bool × Pkt) := do
  let i ← skbOf p
  if ← pull i p.payload then
    let c ← load i
    store i { c with nh := c.data, th := c.data + l3 }
    pure (true, { p with inner := true, payload := l3 + l4 })
  else pure (false, p)

/-- mod/rfc7915/common.c:135-157 `become_inner_packet`, with 79-99 `move_pointers4` and 101-114 `move_pointers6`. -/
def becomeInner (s : St) (ch : InnerCh) (doOut : Bool) : M (Verd × St × Bkp × Bkp) := do
  let bi ← backup s.pin
  let bo ← if doOut then backup s.pout else pure bi
  let (ok, p) ← movePointers s.pin ch.l3in ch.l4in
  if !ok then pure (.drop, { s with pin := p }, bi, bo)
  else if doOut then
    let (ok, q) ← movePointers s.pout ch.l3out ch.l4in
    pure (if ok then .cont else .drop, { s with pin := p, pout := q }, bi, bo)
  else pure (.cont, { s with pin := p }, bi, bo)

/-- mod/rfc7915/common.c:159-165 `restore_outer_packet`. -/
def restoreOuter (s : St) (bi bo : Bkp) (doOut : Bool) : M St := do
  let p ← restore s.pin bi
  if doOut then
    let q ← restore s.pout bo
    pure { s with pin := p, pout := q }
  else pure { s with pin := p }

/-- mod/rfc7915/4to6.c:58-87 `xlat46_internal_addresses`, 6to4.c:50-79 `xlat64_internal_addresses`, for SIIT. -/
def innerAddrs (s : St) (ch : InnerCh) : M (Verd × St) := do
  let (v, s, bi, bo) ← becomeInner s ch false
  if v ≠ .cont then pure (v, s)
  else
    let (v, s) := sub s ch.res
    let s ← restoreOuter s bi bo false
    pure (v, s)

/-- mod/rfc7915/common.c:185-214 `ttpcomm_translate_inner_packet`: a declined packet inside is a reason to drop. -/
def translateInner (s : St) (ch : InnerCh) : M (Verd × St) := do
  let (v, s, bi, bo) ← becomeInner s ch true
  if v ≠ .cont then pure (v, s)
  else
    let (v, s) := sub s ch.res
    let s ← restoreOuter s bi bo true
    pure (if v = .untr then .drop else v, s)

/-! ## From IPv6 to IPv4 -/

/-- Circumstances of `predict_route64`. `flow`: the computation of the flow, up to the packet inside; `inner`: the packet
inside (SIIT only); `eam`: intrinsic hairpin (compute_outgoing_tuple_siit.c:66-80); `saddr`: the selection of a source address, if it is
needed. -/
structure FlowCh where
  flow : Sub
  inner : Option InnerCh
  eam : Bool
  route : Option RouteCh
  saddr : Sub
deriving DecidableEq, Repr

/-- mod/rfc7915/6to4.c:195-235 `compute_flowix64`. -/
def computeFlow64 (s : St) (ch : FlowCh) : M (Verd × St) := do
  let (v, s) := sub s ch.flow
  if v ≠ .cont then pure (v, s)
  else
    let s := if ch.eam && !s.nat64 then { s with hairpin := true } else s
    match ch.inner with
    | none => pure (.cont, s)
    | some i => if s.nat64 then pure (.cont, s) else innerAddrs s i

/-- mod/rfc7915/6to4.c:299-335 `__predict_route64`. -/
def predictRoute64' (s : St) (ch : FlowCh) : M (Verd × St) := do
  if s.hairpin then pure (sub s ch.saddr)
  else
    let d ← route4 ch.route
    match d with
    | none => pure (.untr, s)
    | some d =>
      let (v, s) := sub { s with dst := some d } ch.saddr
      if v ≠ .cont then
        dstRelease (some d)
        pure (v, { s with dst := none })
      else pure (.cont, s)

/-- The flow, unless it was computed before (6to4.c:341-346). -/
def flow64 (s : St) (ch : FlowCh) : M (Verd × St) :=
  if s.flowx then pure (.cont, s)
  else do
    let (v, s) ← computeFlow64 s ch
    pure (v, if v = .cont then { s with flowx := true } else s)

/-- mod/rfc7915/6to4.c:337-355 `predict_route64`. -/
def predictRoute64 (s : St) (ch : FlowCh) : M (Verd × St) := do
  let (v, s) ← flow64 s ch
  if v ≠ .cont then pure (v, s)
  else match s.dst with
    | none => predictRoute64' s ch
    | some _ => pure (.cont, s)

/-- Circumstances of `fix_ie`. -/
inductive IeCh | oom | copyFails | ok (len : Nat)
deriving DecidableEq, Repr

/-- Circumstances of the translation of the layer 4 header. `pre`: everything before the packet inside; `inner`: it is an ICMP error;
`ie`: there is an extension to move; `post`: everything afterwards. -/
structure L4Ch where
  pre : Sub
  inner : Option InnerCh
  ie : Option IeCh
  post : Sub
deriving DecidableEq, Repr

/-- Circumstances of the translation of a packet from IPv6. `size`: `validate_size`; `copy`: pskb_copy() succeeds; `l4`: there
is a layer 4 header to translate. -/
structure Ch64 where
  flow : FlowCh
  size : Sub
  copy : Bool
  nullPage : Bool
  outLen : Nat
  hdrs : Nat
  l3 : Sub
  l4 : Option L4Ch
deriving DecidableEq, Repr

/-- mod/rfc7915/6to4.c:434-526 `ttp64_alloc_skb`, 412-432 `validate_size`. The mark is the one of the flow (205, 505), which is the one of the
incoming packet. -/
def alloc64 (s : St) (ch : Ch64) : M (Verd × St) := do
  let (v, s) ← predictRoute64 s ch.flow
  if v ≠ .cont then pure (v, s)
  else
    let (v, s) := if s.dst.isNone then (.cont, s) else sub s ch.size
    if v ≠ .cont then
      dstRelease s.dst
      pure (v, { s with dst := none })
    else if !ch.copy then
      dstRelease s.dst
      pure (.drop, { s with dst := none })
    else
      let i ← skbOf s.pin
      let c ← load i
      let o ← alloc (newSkb (some .v4) c.mark ch.nullPage ch.outLen 20)
      let s := { s with pout := ⟨some o, .v4, false, ch.hdrs, s.pin.orig⟩ }
      match s.dst with
      | none => pure (.cont, s)
      | some d =>
        skbDstSet o (some d)
        pure (.cont, { s with dst := none })

/-! ## From IPv4 to IPv6 -/

/-- One packet of the slow path: it cannot be allocated, its contents cannot be copied, or everything is fine. -/
inductive FragCh | oom | copyFails | ok
deriving DecidableEq, Repr

/-- How the packet is allocated (4to6.c:720-754). `tooBig`: it cannot be fragmented; `slow`: it has to be fragmented, into these. -/
inductive Mode46
  | tooBig
  | fast
  | slow (first : FragCh) (rest : List FragCh)
deriving DecidableEq, Repr

/-- Circumstances of the translation of a packet from IPv4. `saddr`: 4to6.c:263-280; `mtu`: 4to6.c:715-718; `copy`:
__pskb_copy() succeeds. -/
structure Ch46 where
  flow : Sub
  inner : Option InnerCh
  route : Option RouteCh
  saddr : Sub
  mtu : Sub
  mode : Mode46
  copy : Bool
  nullPage : Bool
  outLen : Nat
  hdrs : Nat
  l3 : Sub
  l4 : Option L4Ch
deriving DecidableEq, Repr

/-- `pkt_is_icmp4_error`: there is a packet inside to be translated. -/
def Ch46.isError (ch : Ch46) : Bool :=
  match ch.l4 with
  | some l => l.inner.isSome
  | none => false

/-- mod/rfc7915/4to6.c:216-247 `compute_flowix46`. -/
def computeFlow46 (s : St) (ch : Ch46) : M (Verd × St) := do
  let (v, s) := sub s ch.flow
  if v ≠ .cont then pure (v, s)
  else match ch.inner with
    | none => pure (.cont, s)
    | some i => if s.nat64 then pure (.cont, s) else innerAddrs s i

/-- mod/rfc7915/4to6.c:249-287 `predict_route46`. -/
def predictRoute46 (s : St) (ch : Ch46) : M (Verd × St) := do
  let d ← route6 ch.route
  match d with
  | none => pure (.untr, { s with dst := none })
  | some d =>
    let (v, s) := sub { s with dst := some d } ch.saddr
    if v ≠ .cont then
      dstRelease (some d)
      pure (v, { s with dst := none })
    else pure (.cont, s)

/-- mod/rfc7915/4to6.c:398-476 `allocate_fast`. -/
def allocFast (s : St) (ch : Ch46) : M (Verd × St) := do
  if !ch.copy then pure (.drop, s)
  else
    let i ← skbOf s.pin
    let c ← load i
    let o ← alloc (newSkb (some .v6) c.mark ch.nullPage ch.outLen 40)
    pure (.cont, { s with pout := ⟨some o, .v6, false, ch.hdrs, s.pin.orig⟩ })

/-- `*previous = out` (4to6.c:512): `previous` is `&state->out.skb` or the `next` of the last packet. -/
def link (s : St) (prev : Option Nat) (o : Nat) (ch : Ch46) : M St :=
  match prev with
  | none => pure { s with pout := ⟨some o, .v6, false, ch.hdrs, s.pin.orig⟩ }
  | some p => do
    let c ← load p
    store p { c with next := some o }
    pure s

/-- The loop of `allocate_slow` (4to6.c:498-540). -/
def slowLoop (ch : Ch46) : St → Option Nat → List FragCh → M (Verd × St)
  | s, _, [] => pure (.cont, s)
  | s, prev, f :: rest => do
    if f = .oom then
      kfreeList s.pout.skb
      pure (.drop, { s with pout := withSkb s.pout none })
    else
      let i ← skbOf s.pin
      let c ← load i
      let o ← alloc (newSkb (some .v6) c.mark false ch.outLen 40)
      let s ← link s prev o ch
      if f = .copyFails then
        kfreeList s.pout.skb
        pure (.drop, { s with pout := withSkb s.pout none })
      else slowLoop ch s (some o) rest

/-- mod/rfc7915/4to6.c:549-560 `autofill_dst`: the rest of the list. -/
def autofillGo (d : Nat) : Nat → Option Nat → M Unit
  | _, none => pure ()
  | 0, some _ => ub .infiniteLoop
  | n + 1, some i => do
    let c ← load i
    dstHold d
    skbDstSet i (some d)
    autofillGo d n c.next

/-- mod/rfc7915/4to6.c:549-560 `autofill_dst`. -/
def autofill (s : St) : M St := do
  let i ← skbOf s.pout
  match s.dst with
  | none =>
    skbDstSet i none
    pure s
  | some d =>
    skbDstSet i (some d)
    let c ← load i
    let h ← get
    autofillGo d h.top c.next
    pure { s with dst := none }

/-- The allocation (4to6.c:715-754). -/
def allocate46 (s : St) (ch : Ch46) : M (Verd × St) :=
  match sub s ch.mtu with
  | (.cont, s) =>
    if ch.isError then allocFast s ch
    else match ch.mode with
      | .tooBig => pure (.drop, { s with icmp := some .FRAG_NEEDED })
      | .fast => allocFast s ch
      | .slow f rest => slowLoop ch s none (f :: rest)
  | r => pure r

/-- mod/rfc7915/4to6.c:562-765 `ttp46_alloc_skb`. -/
def alloc46 (s : St) (ch : Ch46) : M (Verd × St) := do
  let (v, s) ← computeFlow46 s ch
  if v ≠ .cont then pure (v, s)
  else
    let (v, s) ← predictRoute46 s ch
    if v ≠ .cont then pure (v, s)
    else
      let (v, s) ← allocate46 s ch
      if v ≠ .cont then
        dstRelease s.dst
        pure (v, { s with dst := none })
      else
        let s ← autofill s
        pure (.cont, s)

/-! ## The rest of the translation -/

/-- mod/rfc7915/common.c:249-313 `fix_ie`. -/
def fixIe (s : St) : IeCh → M (Verd × St)
  | .oom => pure (.drop, s)
  | .copyFails => do
    let _ ← alloc (newSkb none 0 false 0 0)
    pure (.drop, s)
  | .ok len => do
    let old ← skbOf s.pout
    let c ← load old
    let new ← alloc (newSkb none 0 false len (c.th - c.data))
    match c.dst with
    | none => skbDstSet new none
    | some d =>
      dstHold d
      skbDstSet new (some d)
    kfree (some old)
    pure (.cont, { s with pout := withSkb s.pout (some new) })

/-- The packet inside, if there is one. -/
def xlatInner (s : St) : Option InnerCh → M (Verd × St)
  | none => pure (.cont, s)
  | some i => translateInner s i

/-- The extension, if there is one. -/
def xlatIe (s : St) : Option InnerCh → Option IeCh → M (Verd × St)
  | some _, some ie => fixIe s ie
  | _, _ => pure (.cont, s)

/-- mod/rfc7915/common.c:167-183 `xlat_l4_function` and what it calls: for ICMP errors 6to4.c:964-992 `post_icmp4error`,
937-962 and their counterparts in 4to6.c. -/
def xlatL4 (s : St) (ch : L4Ch) : M (Verd × St) := do
  let (v, s) := sub s ch.pre
  if v ≠ .cont then pure (v, s)
  else
    let (v, s) ← xlatInner s ch.inner
    if v ≠ .cont then pure (v, s)
    else
      let (v, s) ← xlatIe s ch.inner ch.ie
      if v ≠ .cont then pure (v, s)
      else pure (sub s ch.post)

/-- mod/rfc7915/core.c:23-38 `has_null_page`, over the list. -/
def hasNullPage : Nat → Option Nat → M Bool
  | _, none => pure false
  | 0, some _ => ub .infiniteLoop
  | n + 1, some i => do
    let c ← load i
    if c.nullPage then pure true else hasNullPage n c.next

/-- mod/rfc7915/core.c:40-53 `__kfree_skb_list`. -/
def kfreeOut (s : St) : M St := do
  let h ← get
  if ← hasNullPage h.top s.pout.skb then pure { s with pout := withSkb s.pout none }
  else
    kfreeList s.pout.skb
    pure { s with pout := withSkb s.pout none }

/-- mod/rfc7915/core.c:80-99: the steps that follow the allocation. -/
def afterAlloc (s : St) (l3 : Sub) (l4 : Option L4Ch) : M (Verd × St) := do
  let (v, s) := sub s l3
  if v ≠ .cont then
    let s ← kfreeOut s
    pure (v, s)
  else match l4 with
    | none => pure (.cont, s)
    | some l4 =>
      let (v, s) ← xlatL4 s l4
      if v ≠ .cont then
        let s ← kfreeOut s
        pure (v, s)
      else pure (.cont, s)

structure XlatCh where
  six : Ch64
  four : Ch46
deriving DecidableEq, Repr

/-- mod/rfc7915/core.c:55-101 `translating_the_packet`. -/
def translate (s : St) (ch : XlatCh) : M (Verd × St) := do
  match s.pin.l3 with
  | .v6 =>
    let (v, s) ← alloc64 s ch.six
    if v ≠ .cont then pure (v, s) else afterAlloc s ch.six.l3 ch.six.l4
  | .v4 =>
    let (v, s) ← alloc46 s ch.four
    if v ≠ .cont then pure (v, s) else afterAlloc s ch.four.l3 ch.four.l4

/-! ## Sending -/

/-- mod/steps/send_packet.c:8-31 `__sendpkt_send`. dst_output() owns the packet from now on. -/
def send1 (i : Nat) (fails : Bool) : M Verd := do
  let c ← load i
  match c.dst with
  | none => pure .drop
  | some d =>
    let c ← take i
    dstRelease (some d)
    emit (.sent i c fails)
    pure (if fails then .drop else .cont)

/-- mod/steps/send_packet.c:33-51 `sendpkt_send`. `fails`: for which packets dst_output() fails. -/
def sendGo (fails : Nat → Bool) : Nat → Option Nat → M Verd
  | _, none => pure .cont
  | 0, some _ => ub .infiniteLoop
  | n + 1, some i => do
    let c ← load i
    store i { c with next := none }
    let v ← send1 i (fails i)
    if v ≠ .cont then
      kfreeList c.next
      pure v
    else sendGo fails n c.next

def send (s : St) (fails : Nat → Bool) : M Verd := do
  let h ← get
  sendGo fails h.top s.pout.skb

/-! ## ICMP errors -/

/-- mod/icmp_wrapper.c:77-112: type and code. -/
def icmp4 : IcmpErr → Option (Nat × Nat)
  | .ADDR_UNREACHABLE => some (3, 1)
  | .PORT_UNREACHABLE => some (3, 3)
  | .PROTO_UNREACHABLE => some (3, 2)
  | .TTL => some (11, 0)
  | .FRAG_NEEDED => some (3, 4)
  | .FILTER => some (3, 13)
  | .SRC_ROUTE => some (3, 5)
  | .HDR_FIELD => none

/-- mod/icmp_wrapper.c:125-154: type and code. -/
def icmp6 : IcmpErr → Option (Nat × Nat)
  | .ADDR_UNREACHABLE => some (1, 3)
  | .PORT_UNREACHABLE => some (1, 4)
  | .PROTO_UNREACHABLE => some (1, 4)
  | .TTL => some (3, 0)
  | .FILTER => some (1, 1)
  | .HDR_FIELD => some (4, 0)
  | .FRAG_NEEDED => some (2, 0)
  | .SRC_ROUTE => none

def icmpOf (l3 : L3) (e : IcmpErr) : Option (Nat × Nat) :=
  match l3 with
  | .v4 => icmp4 e
  | .v6 => icmp6 e

/-- mod/icmp_wrapper.c:59-117 `icmp64_send4`, 119-160 `icmp64_send6`. `can`: there is a device, and (IPv4) the way back can be routed. -/
def icmpSend (l3 : L3) (i : Option Nat) (e : IcmpErr) (can : Bool) : M Bool := do
  match i with
  | none => pure false
  | some i =>
    let _ ← load i
    if !can then pure false
    else match icmpOf l3 e with
      | none => pure false
      | some (t, c) =>
        emit (.icmp i t c)
        pure true

/-- mod/icmp_wrapper.c:158-172 `icmp64_send`: the protocol is the one of the packet. -/
def icmpSend' (i : Nat) (e : IcmpErr) (can : Bool) : M Bool := do
  let c ← load i
  match c.l3 with
  | none => pure false
  | some l3 => icmpSend l3 (some i) e can

/-! ## The packets that the TCP table keeps -/

/-- Circumstances of the release of a packet or of a probe. `can`: the ICMP error can be sent; `oom`, `route`, `fails`: the probe's. -/
structure RelCh where
  can : Bool
  oom : Bool
  route : Option RouteCh
  fails : Bool
deriving DecidableEq, Repr

/-- mod/db/bib/db.c:725-812 `send_probe_packet`. -/
def sendProbe (ch : RelCh) : M Unit := do
  if ch.oom then pure ()
  else
    let i ← alloc (newSkb none 0 false 60 40)
    let d ← route6 ch.route
    match d with
    | none => kfree (some i)
    | some d =>
      skbDstSet i (some d)
      let _ ← take i
      dstRelease (some d)
      emit (.probe i ch.fails)

/-- What the table lets go: mod/db/bib/db.c:304-315 `kill_stored_pkt`, 817-836 `post_fate`, 425-440 `release_session`;
mod/db/bib/pkt_queue.c:21-26 `send_icmp_error`, 130-150 `pktqueue_rm`, 182-188 `pktqueue_put_node`. -/
def release (ch : RelCh) : Bib.Event → M Unit
  | .freed i => kfree (some i)
  | .icmpErr i => do
    let _ ← icmpSend' i .PORT_UNREACHABLE ch.can
    kfree (some i)
  | .probe _ => sendProbe ch

def releaseAll (ch : Nat → RelCh) : List Bib.Event → M Unit
  | [] => pure ()
  | e :: rest => do
    release (ch rest.length) e
    releaseAll ch rest

/-- One operation of the TCP table. -/
def tableOp (e : Bib.Env) (o : Bib.Op) (ch : Nat → RelCh) : M Bib.Result := do
  let h ← get
  match Bib.step .TCP h.table e o with
  | .ub u => ub u
  | .ok r =>
    set { h with table := r.1 }
    releaseAll ch r.2.1
    pure r.2.2

/-! ## Steps 1 to 3 of NAT64 -/

/-- Circumstances of `filtering_and_updating`. `early`: pool4 is empty, so a route has to be found; `op`: the operation of the TCP table,
if it gets there; `post`: what happens otherwise. -/
structure FuCh where
  pre : Sub
  early : Option FlowCh
  op : Option (Bib.Env × Bib.Op)
  rel : Nat → RelCh
  post : Sub

/-- Which operation of the TCP table (mod/steps/filtering_and_updating.c:455, 477); mod/db/bib/db.c:1870 and pkt_queue.c:127: the packet
that might be kept is the original one. -/
def pickOp (s : St) : Bib.Op → Option Bib.Op
  | .tcp6 m sg s6 d6 d4 => if s.pin.l3 = .v6 then some (.tcp6 m sg s6 d6 d4) else none
  | .tcp4 sg s4 d4 d6 _ =>
    match s.pin.l3, s.pin.orig with
    | .v4, some i => some (.tcp4 sg s4 d4 d6 i)
    | _, _ => none
  | _ => none

/-- What becomes of the result of the table operation (see `Nat64.result4`, `Nat64.result6`). -/
def verdOf (s : St) : Except Nat64.Stop (Option Bib.BibKey) → Verd × St
  | .ok _ => (.cont, s)
  | .error (.untranslatable _ i) => sub s (some (false, i))
  | .error (.drop _ i) => sub s (some (true, i))
  | .error .stolen => (.stolen, s)

def resultOf (l3 : L3) (r : Bib.Result) : Except Nat64.Stop (Option Bib.BibKey) :=
  match l3 with
  | .v6 => Nat64.result6 r
  | .v4 => Nat64.result4 r

/-- pool4 is empty: mod/steps/filtering_and_updating.c:522-537, for the packets from IPv6. -/
def early (s : St) : Option FlowCh → M (Verd × St)
  | some f => if s.pin.l3 = .v6 then predictRoute64 s f else pure (.cont, s)
  | none => pure (.cont, s)

/-- mod/steps/filtering_and_updating.c:490-587 `filtering_and_updating`. -/
def fu (s : St) (ch : FuCh) : M (Verd × St) := do
  let (v, s) := sub s ch.pre
  if v ≠ .cont then pure (v, s)
  else
    let (v, s) ← early s ch.early
    if v ≠ .cont then pure (v, s)
    else match ch.op with
      | none => pure (sub s ch.post)
      | some (e, o) =>
        match pickOp s o with
        | none => pure (sub s ch.post)
        | some o =>
          let r ← tableOp e o ch.rel
          pure (verdOf s (resultOf s.pin.l3 r))

/-! ## The whole -/

/-- Circumstances of one pass through the translator. `pool4`: the destination is in pool4
(mod/steps/handling_hairpinning_nat64.c:32-33). -/
structure PassCh where
  tuple : Sub
  fu : FuCh
  compute : Sub
  xlat : XlatCh
  pool4 : Bool
  fails : Nat → Bool

/-- Filtering and updating, and the outgoing tuple; nothing for SIIT. -/
def fuCompute (s : St) (ch : PassCh) : M (Verd × St) :=
  if s.nat64 then do
    let (v, s) ← fu s ch.fu
    pure (if v = .cont then sub s ch.compute else (v, s))
  else pure (.cont, s)

def translateIf (v : Verd) (s : St) (ch : XlatCh) : M (Verd × St) :=
  if v = .cont then translate s ch else pure (v, s)

def sendIf (v : Verd) (s : St) (fails : Nat → Bool) : M Verd := if v = .cont then send s fails else pure v

/-- mod/steps/handling_hairpinning_nat64.c:44-75 `handling_hairpinning_nat64`, handling_hairpinning_siit.c:13-38
`handling_hairpinning_siit`. -/
def hairpin (old : St) (oom : Bool) (ch : PassCh) : M Verd := do
  match ← create old.nat64 oom with
  | none => pure .drop
  | some s =>
    let (v, s) ← fuCompute { s with pin := old.pout, hairpin := true } ch
    let (v, s) ← translateIf v s ch.xlat
    let v ← sendIf v s ch.fails
    destroy s
    pure v

/-- mod/steps/handling_hairpinning_nat64.c:17-34 `is_hairpin_nat64`, handling_hairpinning_siit.c:8-11 `is_hairpin_siit`. -/
def isHairpin (s : St) (ch : PassCh) : Bool :=
  if s.nat64 then s.pout.l3 = .v4 && ch.pool4 else s.hairpin

/-- mod/core.c:28-69 `core_common`, up to the translated packet. -/
def steps (s : St) (ch : PassCh) : M (Verd × St) := do
  let (v, s) := if s.nat64 then sub s ch.tuple else (.cont, s)
  if v ≠ .cont then pure (v, s)
  else
    let (v, s) ← fuCompute s ch
    translateIf v s ch.xlat

/-- mod/core.c:55-66. -/
def deliver (s : St) (ch : PassCh) (oom2 : Bool) (ch2 : PassCh) : M Verd :=
  if isHairpin s ch then do
    let o ← skbOf s.pout
    skbDstDrop o
    let v ← hairpin s oom2 ch2
    kfree (some o)
    pure v
  else send s ch.fails

/-- mod/core.c:28-69 `core_common`. -/
def common (s : St) (ch : PassCh) (oom2 : Bool) (ch2 : PassCh) : M (Verd × St) := do
  let (v, s) ← steps s ch
  if v ≠ .cont then pure (v, s)
  else
    let v ← deliver s ch oom2 ch2
    if v ≠ .cont then pure (v, s)
    else
      kfree s.pin.skb
      pure (.stolen, s)

/-- Circumstances of a packet. `found`: there is an instance; `valid`: `validate_xlator`; `init`: `pkt_init_ipv4`, `pkt_init_ipv6`, with
the positions they find; `can`: an ICMP error can be sent. -/
structure HookCh where
  nat64 : Bool
  oom : Bool
  found : Bool
  valid : Sub
  init : Sub
  l4 : Nat
  payload : Nat
  one : PassCh
  oom2 : Bool
  two : PassCh
  can : Bool

/-- mod/packet.c:328-388 `pkt_init_ipv6`, 507-552 `pkt_init_ipv4`. -/
def pktInit (s : St) (l3 : L3) (i : Nat) (ch : HookCh) : M (Verd × St) := do
  let s := { s with pin := withSkb s.pin (some i) }
  let c ← load i
  match ch.init with
  | some x => pure (sub s (some x))
  | none =>
    store i { c with th := c.data + ch.l4 }
    pure (.cont, { s with pin := ⟨some i, l3, false, ch.payload, some i⟩ })

/-- mod/core.c:71-84 `send_icmp4_error`, 119-132 `send_icmp6_error`. -/
def sendError (s : St) (l3 : L3) (v : Verd) (can : Bool) : M Unit := do
  match s.icmp with
  | none => pure ()
  | some e =>
    if v = .untr then pure ()
    else
      let _ ← icmpSend l3 s.pin.skb e can
      pure ()

/-- `core_4to6` and `core_6to4`, up to the ICMP error. -/
def coreBody (s : St) (l3 : L3) (i : Nat) (ch : HookCh) : M (Verd × St) := do
  let (v, s) := sub s ch.valid
  if v ≠ .cont then pure (v, s)
  else
    let (v, s) ← pktInit s l3 i ch
    if v ≠ .cont then pure (v, s) else common s ch.one ch.oom2 ch.two

/-- mod/core.c:86-117 `core_4to6`, 134-166 `core_6to4`. -/
def core (s : St) (l3 : L3) (i : Nat) (ch : HookCh) : M (Verd × St) := do
  let (v, s) ← coreBody s l3 i ch
  sendError s l3 v ch.can
  pure (v, s)

/-- Where the packet comes from. -/
inductive Kind | netfilter | iptables
deriving DecidableEq, Repr

/-- mod/kernel_hook_netfilter.c:33-52 `verdict2netfilter`, kernel_hook_iptables.c:69-88 `verdict2iptables`. -/
def nfOf (k : Kind) : Verd → Nf
  | .stolen => .stolen
  | .untr => match k with | .netfilter => .accept | .iptables => .xtContinue
  | .drop => .drop
  | .cont => match k with | .netfilter => .accept | .iptables => .xtContinue

/-- mod/xlator.c:865-868 `xlator_put`. -/
def put : M Unit := do
  let h ← get
  if h.insts = 0 then ub .useAfterFree else set { h with insts := h.insts - 1 }

/-- mod/xlator.c:772-813 `xlator_find`: on success the caller gets a reference. -/
def find (found : Bool) : M Bool := do
  let h ← get
  if found then set { h with insts := h.insts + 1 }
  pure found

/-- mod/kernel_hook_netfilter.c:58-79 `hook_ipv6`, 86-107 `hook_ipv4`; kernel_hook_iptables.c:94-116 `target_ipv6`, 123-145
`target_ipv4`; with their `find_instance` (10-31; 11-33). -/
def hook (k : Kind) (l3 : L3) (i : Nat) (ch : HookCh) : M Nf := do
  match ← create ch.nat64 ch.oom with
  | none => pure .drop
  | some s =>
    if ← find ch.found then
      let (v, s) ← core s l3 i ch
      put
      destroy s
      pure (nfOf k v)
    else
      destroy s
      pure (nfOf k .untr)

/-! ## Histories -/

/-- What can happen. `packet`: the kernel has a packet for the hook; `table`: something else makes the TCP table do something (an
administrator, joold, the timer). -/
inductive Op
  | packet (k : Kind) (l3 : L3) (c : Skb) (ch : HookCh)
  | table (e : Bib.Env) (o : Bib.Op) (ch : Nat → RelCh)

/-- A packet from the kernel: its `next` and its references to routes, if any, are not the translator's business. The
hook's verdict says to whom it belongs afterwards. -/
def arrive (k : Kind) (l3 : L3) (c : Skb) (ch : HookCh) : M Unit := do
  let i ← alloc { c with l3 := some l3, next := none, dst := none }
  let v ← hook k l3 i ch
  if v = .stolen then pure ()
  else
    let c ← take i
    emit (.back i c v)

def step : Op → M Unit
  | .packet k l3 c ch => arrive k l3 c ch
  | .table e o ch => do
    let _ ← tableOp e o ch
    pure ()

def run : List Op → M Unit
  | [] => pure ()
  | o :: rest => do
    step o
    run rest

/-- Nothing has happened yet. -/
def Heap.init : Heap :=
  { skb := fun _ => none, top := 0, dst := fun _ => 0, xlations := 0, insts := 0, table := Bib.init, log := [] }

end Jool.Life
