import Verif.Model.Whole
/-
A NAT64 instance, from bytes to bytes: IPv6 packets whose destination is in pool4 (hairpinning). The packet that the first pass leaves in memory (Verif.Model.Build) is what
the second pass begins with: nobody parses it again, nobody computes what the hardware would, and its tuple is the one that the first pass computed.

Simplifications:
- Those of Verif.Model.Whole: not ICMP errors.
- The second pass does not split the packet.
-/
namespace Jool.Wire
open Jool.Pkt (Byte L4 Acc)
open Jool.Csum (Summed)

/-- `translate64`, up to the packet in memory (`state->out`) and its `ip_summed`. Nothing has left yet. -/
def build64 (x : Ctx) (s4 d4 : BitVec 32) (segleft : Option Nat) (p : Build.P) (a : Acc) : Outcome (Option (Build.P × Summed)) :=
  let d := a.skb.data
  match Pkt.last6 a.skb 0 with
  | none => .ub .outOfBounds
  | some last =>
    match l364 x s4 d4 segleft last.1 a none with
    | none => .ok none
    | some _ =>
      match if Pkt.isFirst6 d a.m then seg64 x s4 d4 a else some (d.drop a.m.l4, x.sm) with
      | none => .ok none
      | some (seg, sm) => do
        let r ← Build.xlat64 (given x (vals x (fun f => (l364 x s4 d4 segleft last.1 a f).getD (List.replicate 20 0#8)) [0#8, 0#8, 0#8, 0#8, 0#8, 0#8, 0#8, 0#8] seg)) p
        pure (r.map (fun s => (s.pout, sm)))

end Jool.Wire

namespace Jool.WholeTurn
open Jool.Pkt (Byte L4 Acc)
open Jool.Csum (Summed)
open Jool.Nat64 (Stop St Fu Tuple)
open Jool.Bib (Event)
open Jool.Whole (pkt6 pkt4 assign)

/-- What becomes of an IPv6 packet. `stop2`: the second pass refuses it; if that calls for an ICMP error, it gets lost (Verif.Props.Nat64Hairpin). `noMemory`: there is none
for the second `struct xlation`. -/
inductive Fate
  | stop (e : Stop)
  | stop2 (e : Stop)
  | noMemory
  | cut
  | sent4 (o : List Byte)
  | sent6 (o : List Byte)

structure Res where
  st : St
  ev : List Event
  fate : Fate

/-- mod/steps/handling_hairpinning_nat64.c:53 `new->in = old->out`: what mod/packet.h:244-258 `pkt_fill` left (6to4.c:499-502). -/
def again (q : Build.P) : Acc := ⟨⟨q.skb.bytes, q.skb.headlen⟩, ⟨q.frag, q.proto, q.skb.th - q.skb.data, q.pay⟩, none⟩

/-- mod/steps/handling_hairpinning_nat64.c:54: `is_hairpin`. The IPv4 header has no options: 4to6.c:774-810 finds no source route. `e`: what the memory of the new packet holds. -/
def turned (x : Wire.Ctx) (e : Build.Env) (sm : Summed) (s d : BitVec 16) : Wire.Ctx :=
  { assign x s d with hairpin := true, sm := sm, route := false, env := e }

/-- mod/steps/send_packet.c:8-51. -/
def leave (sendFails : Bool) (st : St) (ev : List Event) : Option (List Byte) → Res
  | none => ⟨st, ev, .cut⟩
  | some o => ⟨st, ev, if sendFails then .stop2 (.drop "DST_OUTPUT" none) else .sent6 o⟩

/-- mod/steps/handling_hairpinning_nat64.c:59-68, behind `filtering_and_updating`. -/
def end4 (cfg : Nat64.Cfg) (P : Prefix6) (c : Nat64.Ctx) (x : Wire.Ctx) (e : Build.Env) (sm : Summed) (q : Build.P) (t : Tuple T4) (f : Fu) : Outcome Res :=
  match f.res with
  | .error e => .ok ⟨f.st, f.ev, .stop2 e⟩
  | .ok known =>
    match Nat64.compute4 P f.st t known with
    | .error e => .ok ⟨f.st, f.ev, .stop2 e⟩
    | .ok o =>
      match c.fail with
      | some e => .ok ⟨f.st, f.ev, .stop2 e⟩
      | none =>
        match Nat64.saddr6 cfg P (pkt4 (again q)) o with
        | none => .ok ⟨f.st, f.ev, .stop2 (.drop "46_SRC" none)⟩
        | some src => (Wire.translate46 (turned x e sm o.src.port o.dst.port) src o.dst.addr q (again q)).map (leave c.sendFails f.st f.ev)

/-- mod/steps/handling_hairpinning_nat64.c:44-75 `handling_hairpinning_nat64`. `t`: the tuple of the packet. -/
def turn (cfg : Nat64.Cfg) (P : Prefix6) (s : St) (c : Option Nat64.Ctx) (x : Wire.Ctx) (e : Build.Env) (sm : Summed) (q : Build.P) (t : Tuple T4) : Outcome Res :=
  match c with
  | none => .ok ⟨s, [], .noMemory⟩
  | some c => (Nat64.fu4 cfg P s c (pkt4 (again q)) t).bind (end4 cfg P c x e sm q t)

/-- mod/core.c:28-68 `core_common`, from IPv6, from step 3 on. `c2`, `e2`: the circumstances of the second pass. -/
def end6 (cfg : Nat64.Cfg) (P : Prefix6) (c : Nat64.Ctx) (c2 : Option Nat64.Ctx) (x : Wire.Ctx) (e2 : Build.Env) (segleft : Option Nat) (p : Build.P) (a : Acc) (t : Tuple T6) (f : Fu) :
    Outcome Res :=
  match f.res with
  | .error e => .ok ⟨f.st, f.ev, .stop e⟩
  | .ok known =>
    match Nat64.compute6 P f.st t known with
    | .error e => .ok ⟨f.st, f.ev, .stop e⟩
    | .ok o =>
      match c.fail with
      | some e => .ok ⟨f.st, f.ev, .stop e⟩
      | none =>
        let y := assign x o.src.port o.dst.port
        if Pool4.contains cfg.own f.st.pool4 o.proto o.dst then
          (Wire.build64 y (f.saddr.getD o.src.addr) o.dst.addr segleft p a).bind (fun w =>
            match w with
            | none => .ok ⟨f.st, f.ev, .cut⟩
            | some (q, sm) => (turn cfg P f.st c2 x e2 sm q o).map (fun r => { r with ev := f.ev ++ r.ev }))
        else
          (Wire.translate64 y (f.saddr.getD o.src.addr) o.dst.addr segleft p a).map (fun w =>
            match w with
            | none => ⟨f.st, f.ev, .cut⟩
            | some b => ⟨f.st, f.ev, if c.sendFails then .stop (.drop "DST_OUTPUT" none) else .sent4 b⟩)

/-- mod/core.c:28-68 `core_common`, from IPv6, for a packet that was accepted. -/
def pass6 (cfg : Nat64.Cfg) (P : Prefix6) (s : St) (c : Nat64.Ctx) (c2 : Option Nat64.Ctx) (x : Wire.Ctx) (e2 : Build.Env) (segleft : Option Nat) (p : Build.P) (a : Acc) : Outcome Res :=
  match Nat64.tuple6 (pkt6 a) with
  | .error e => .ok ⟨s, [], .stop e⟩
  | .ok t => (Nat64.fu6 cfg P s c (pkt6 a) t).bind (end6 cfg P c c2 x e2 segleft p a t)

end Jool.WholeTurn
