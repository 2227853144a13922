import Verif.Model.WholeSiit
import Verif.Model.WholeAny
/-
A SIIT instance and IPv4 packets of any size: as Verif.Model.WholeSiit, but the packet may turn out to be too big (Verif.Model.WireSlow), and what leaves may be several
packets.

Simplifications: those of Verif.Model.WholeSiit (`Env.fail`: no route, no memory; `Env.sendFails` has no meaning here) and of Verif.Model.WireSlow.
-/
namespace Jool.WholeSiitAny
open Jool.Pkt (Byte Acc)
open Jool.Siit (Inst)
open Jool.WholeSiit (Env flow46 from46 siit siitErr)
open Jool.WholeAny (handOver)

/-- What becomes of an IPv4 packet. -/
inductive Fate
  | untranslatable
  | drop
  /-- `JSTAT46_BAD_MTU`. -/
  | badMtu
  /-- Dropped; a Fragmentation Needed with that MTU is sent. -/
  | tooBig (mtu : Nat)
  | sent (os : List (List Byte))
  /-- `JSTAT_DST_OUTPUT`. The network got these. -/
  | broken (os : List (List Byte))

/-- The verdicts of the steps before. -/
def stopped : WholeSiit.Fate → Fate
  | .untranslatable => .untranslatable
  | .drop => .drop
  | .hairpin o => .sent [o]
  | .sent o => .sent [o]

/-- mod/core.c:47-68 for packets from IPv4, which are never hairpins at this point (mod/steps/handling_hairpinning_siit.c:3-11). -/
def hand (fails : Nat → Bool) (os : List (List Byte)) : Fate := if (handOver fails 0 os).2 then .sent (handOver fails 0 os).1 else .broken (handOver fails 0 os).1

/-- The same, if the MTUs were looked at. -/
def leave (fails : Nat → Bool) : Wire.Fate → Fate
  | .badMtu => .badMtu
  | .tooBig m => .tooBig m
  | .dropped => .drop
  | .sent os => hand fails os

/-- mod/core.c:28-69 `core_common`, from IPv4, with mod/rfc7915/4to6.c:562-765 `ttp46_alloc_skb`: errors always are one packet (4to6.c:675-680). -/
def pass46 (s : Inst) (x : Wire.Ctx) (y : Wire.ErrCtx) (e : Env Addr6) (nexthop lim : BitVec 32) (fails : Nat → Bool) (flag : Bool) (rnd rnd2 : Nat → BitVec 8) (p : Build.P) (a : Acc) : Outcome Fate :=
  (flow46 s flag rnd rnd2 a).bind (fun f =>
    match f with
    | .stop f => .ok (stopped f)
    | .go src dst inside _ =>
      match e.fail with
      | some f => .ok (stopped f)
      | none =>
        match from46 e a.inner.isSome src with
        | none => .ok .drop
        | some src =>
          match inside, a.inner with
          | some (is, id), some i =>
            if (Mtu.umin nexthop lim).toNat < 1280 then .ok .badMtu
            else (Wire.translateErr46 (siit x flag) (siitErr y) src dst is id p a i).map (fun w => match w with
              | none => .drop
              | some o => hand fails [o])
          | _, _ => (Wire.forward46 (siit x flag) src dst nexthop lim p a).map (leave fails))

end Jool.WholeSiitAny
