import Verif.Model.Siit
import Verif.Model.WireErr
/-
A SIIT instance, from bytes to bytes: the model of the addresses (Verif.Model.Siit) joined with the models of the bytes of one packet (Verif.Model.Wire,
Verif.Model.WireErr), in the order of `src/mod/common/core.c` and of the first step of `src/mod/common/rfc7915`.

Simplifications:
- What is decided by routes, MTUs and memory is a parameter (`Env.fail`), and so is the source address that the kernel selects (`Env.saddr`).
- As in Verif.Model.Wire: `allocate_slow` is not here, neither are IPv4 packets of protocol 58 nor IPv6 packets of next header 1.
- The second pass of a hairpin packet is `pass46` with `flag`; Verif.Model.WholeSiitTurn joins it to the first one.
-/
namespace Jool.WholeSiit
open Jool.Pkt (Byte L4 Meta Acc at8)
open Jool.Siit (Inst View Res)

/-- What becomes of a packet. `untranslatable`: it stays with the kernel. -/
inductive Fate
  | untranslatable
  | drop
  | hairpin (o : List Byte)
  | sent (o : List Byte)

/-- What is not modelled. `fail`: why the packet stops after its addresses are known (no route, too big, no memory); `saddr`: the address that the kernel
selects if there is no source; `sendFails`: `dst_output` returned an error. -/
structure Env (A : Type) where
  fail : Option Fate
  saddr : Option A
  sendFails : Bool

/-- `pkt_is_icmp4_error`, `pkt_is_icmp6_error` (mod/packet.h:393-403) of the packet inside. -/
def innerError (f : Byte → Bool) (a : Acc) (i : Meta) : Bool := decide (i.proto = L4.icmp) && f (at8 a.skb.data i.l4)

/-- What mod/steps/compute_outgoing_tuple_siit.c:86-165 reads of a packet, and of the packet inside of it. -/
def view4 (a : Acc) : View Addr4 :=
  let h := Wire.ip4 a.skb.data
  ⟨true, a.inner.isSome, h.src, h.dst, h.ttl, if a.inner.isSome then (Wire.ip4 (a.skb.data.drop a.m.pay)).dst else 0#32⟩
def inView4 (a : Acc) (i : Meta) : View Addr4 :=
  let h := Wire.ip4 (a.skb.data.drop a.m.pay)
  ⟨false, innerError Icmp.isIcmp4Error a i, h.src, h.dst, h.ttl, 0#32⟩

/-- What mod/steps/compute_outgoing_tuple_siit.c:9-84 reads. -/
def view6 (a : Acc) : View Addr6 :=
  let h := Wire.ip6 a.skb.data
  ⟨true, a.inner.isSome, h.src, h.dst, h.hop, 0#128⟩
def inView6 (a : Acc) (i : Meta) : View Addr6 :=
  let h := Wire.ip6 (a.skb.data.drop a.m.pay)
  ⟨false, innerError Icmp.isIcmp6Error a i, h.src, h.dst, h.hop, 0#128⟩

/-- The addresses of the packet, those of the packet inside of it, and whether it is a hairpin. -/
inductive Flow (A : Type)
  | stop (f : Fate)
  | go (src dst : A) (inside : Option (A × A)) (hairpin : Bool)

/-- What the verdicts of the addresses are for the packet. -/
def after (r : Res A) (k : A → A → Bool → Outcome (Flow A)) : Outcome (Flow A) :=
  match r with
  | .untranslatable _ => .ok (.stop .untranslatable)
  | .drop _ => .ok (.stop .drop)
  | .cont s d h => k s d h

/-- The ICMP types: mod/rfc7915/4to6.c:137-218 `xlat46_icmp_type`, mod/rfc7915/6to4.c:129-193 `xlat64_icmp_type`. -/
def typed (x : Byte → Byte → Option (Byte × Byte)) (a : Acc) : Bool :=
  decide (a.m.proto ≠ L4.icmp) || (x (at8 a.skb.data a.m.l4) (at8 a.skb.data (a.m.l4 + 1))).isSome

/-- mod/rfc7915/4to6.c:220-247 `compute_flowix46`, with 38-87. `rnd`: random bytes for RFC 6791 (`rnd2`: same, for the packet inside). -/
def flow46 (s : Inst) (flag : Bool) (rnd rnd2 : Nat → BitVec 8) (a : Acc) : Outcome (Flow Addr6) :=
  (Siit.addrs46 s (view4 a) flag rnd).bind (fun r => after r (fun src dst h =>
    if typed Icmp.xlat46Type a then
      match a.inner with
      | none => .ok (.go src dst none h)
      | some i => (Siit.addrs46 s (inView4 a i) h rnd2).bind (fun r => after r (fun is id h => .ok (.go src dst (some (is, id)) h)))
    else .ok (.stop .drop)))

/-- mod/rfc7915/6to4.c:196-235 `compute_flowix64`, with 31-79. -/
def flow64 (s : Inst) (flag : Bool) (rnd rnd2 : BitVec 32) (a : Acc) : Outcome (Flow Addr4) :=
  (Siit.addrs64 s (view6 a) flag rnd).bind (fun r => after r (fun src dst h =>
    if typed Icmp.xlat64Type a then
      match a.inner with
      | none => .ok (.go src dst none h)
      | some i => (Siit.addrs64 s (inView6 a i) h rnd2).bind (fun r => after r (fun is id h => .ok (.go src dst (some (is, id)) h)))
    else .ok (.stop .drop)))

/-- mod/rfc7915/4to6.c:263-286: a packet without source address. Only errors may not have one. -/
def from46 (e : Env Addr6) (err : Bool) (src : Addr6) : Option Addr6 := if src = 0#128 then (if err then e.saddr else none) else some src

/-- mod/rfc7915/6to4.c:319-332, 237-292. -/
def from64 (e : Env Addr4) (src : Addr4) : Option Addr4 := if src = 0#32 then e.saddr else some src

/-- There are no ports to assign, nor identifiers. -/
def siit (x : Wire.Ctx) (flag : Bool) : Wire.Ctx := { x with nat64 := false, hairpin := flag, ports := none, id := none }
def siitErr (y : Wire.ErrCtx) : Wire.ErrCtx := { y with ports := none }

/-- mod/core.c:47-68, for a packet that was translated (or not). -/
def leave (sendFails hairpin : Bool) : Option (List Byte) → Fate
  | none => .drop
  | some o => if hairpin then .hairpin o else if sendFails then .drop else .sent o

/-- mod/core.c:28-69 `core_common`, from IPv4. `flag`: this is the second pass of a hairpin packet (mod/steps/handling_hairpinning_siit.c:13-37). -/
def pass46 (s : Inst) (x : Wire.Ctx) (y : Wire.ErrCtx) (e : Env Addr6) (flag : Bool) (rnd rnd2 : Nat → BitVec 8) (p : Build.P) (a : Acc) : Outcome Fate :=
  (flow46 s flag rnd rnd2 a).bind (fun f =>
    match f with
    | .stop f => .ok f
    | .go src dst inside _ =>
      match e.fail with
      | some f => .ok f
      | none =>
        match from46 e a.inner.isSome src with
        | none => .ok .drop
        | some src =>
          (match inside, a.inner with
          | some (is, id), some i => Wire.translateErr46 (siit x flag) (siitErr y) src dst is id p a i
          | _, _ => Wire.translate46 (siit x flag) src dst p a).map (leave e.sendFails false))

/-- mod/core.c:28-69 `core_common`, from IPv6. `sel2`: what `__ip_select_ident` picks for the packet inside; `segleft`: see `Wire.translate64`. -/
def pass64 (s : Inst) (x : Wire.Ctx) (y : Wire.ErrCtx) (e : Env Addr4) (rnd rnd2 : BitVec 32) (sel2 : BitVec 16) (segleft : Option Nat) (p : Build.P) (a : Acc) : Outcome Fate :=
  (flow64 s false rnd rnd2 a).bind (fun f =>
    match f with
    | .stop f => .ok f
    | .go src dst inside h =>
      match e.fail with
      | some f => .ok f
      | none =>
        match from64 e src with
        | none => .ok .drop
        | some src =>
          (match inside, a.inner with
          | some (is, id), some i => Wire.translateErr64 (siit x false) (siitErr y) src dst is id sel2 segleft p a i
          | _, _ => Wire.translate64 (siit x false) src dst segleft p a).map (leave e.sendFails h))

end Jool.WholeSiit
