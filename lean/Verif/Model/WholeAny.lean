import Verif.Model.Whole
import Verif.Model.WireSlow
/-
A NAT64 instance and IPv4 packets of any size: as Verif.Model.Whole, but the packet may turn out to be too big (Verif.Model.WireSlow), and what leaves may be several
packets, which are handed to the network one by one.

Simplifications: those of Verif.Model.Whole and Verif.Model.WireSlow. `Nat64.Ctx.sendFails` has no meaning here; `fails` says which of the packets `dst_output` refuses.
-/
namespace Jool.WholeAny
open Jool.Pkt (Byte Acc)
open Jool.Nat64 (Stop St Fu Tuple)
open Jool.Bib (Event)
open Jool.Whole (pkt4 assign)

/-- What becomes of an IPv4 packet. -/
inductive Fate
  | stop (e : Stop)
  /-- `JSTAT46_BAD_MTU`. -/
  | badMtu
  /-- Dropped; a Fragmentation Needed with that MTU is sent. -/
  | tooBig (mtu : Nat)
  /-- The translation of its headers drops it. -/
  | cut
  | sent (os : List (List Byte))
  /-- `JSTAT_DST_OUTPUT`. The network got these. -/
  | broken (os : List (List Byte))

structure Res where
  st : St
  ev : List Event
  fate : Fate

/-- mod/steps/send_packet.c:33-51 `sendpkt_send`: the first `dst_output` that fails ends it. -/
def handOver (fails : Nat → Bool) : Nat → List (List Byte) → List (List Byte) × Bool
  | _, [] => ([], true)
  | i, o :: os => if fails i then ([], false) else (o :: (handOver fails (i + 1) os).1, (handOver fails (i + 1) os).2)

/-- mod/core.c:28-68 `core_common`, behind `translating_the_packet`. -/
def leave (fails : Nat → Bool) : Wire.Fate → Fate
  | .badMtu => .badMtu
  | .tooBig m => .tooBig m
  | .dropped => .cut
  | .sent os => if (handOver fails 0 os).2 then .sent (handOver fails 0 os).1 else .broken (handOver fails 0 os).1

/-- mod/core.c:28-68 `core_common`, from IPv4, from step 3 on. -/
def end4 (cfg : Nat64.Cfg) (P : Prefix6) (c : Nat64.Ctx) (x : Wire.Ctx) (nexthop lim : BitVec 32) (fails : Nat → Bool) (p : Build.P) (a : Acc) (t : Tuple T4) (f : Fu) : Outcome Res :=
  match f.res with
  | .error e => .ok ⟨f.st, f.ev, .stop e⟩
  | .ok known =>
    match Nat64.compute4 P f.st t known with
    | .error e => .ok ⟨f.st, f.ev, .stop e⟩
    | .ok o =>
      match c.fail with
      | some e => .ok ⟨f.st, f.ev, .stop e⟩
      | none =>
        match Nat64.saddr6 cfg P (pkt4 a) o with
        | none => .ok ⟨f.st, f.ev, .stop (.drop "46_SRC" none)⟩
        | some src => (Wire.forward46 (assign x o.src.port o.dst.port) src o.dst.addr nexthop lim p a).map (fun w => ⟨f.st, f.ev, leave fails w⟩)

/-- mod/core.c:28-68 `core_common`, from IPv4, for a packet that was accepted. -/
def pass4 (cfg : Nat64.Cfg) (P : Prefix6) (s : St) (c : Nat64.Ctx) (x : Wire.Ctx) (nexthop lim : BitVec 32) (fails : Nat → Bool) (p : Build.P) (a : Acc) : Outcome Res :=
  match Nat64.tuple4 (pkt4 a) with
  | .error e => .ok ⟨s, [], .stop e⟩
  | .ok t => (Nat64.fu4 cfg P s c (pkt4 a) t).bind (end4 cfg P c x nexthop lim fails p a t)

end Jool.WholeAny
