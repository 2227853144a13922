import Verif.Model.WholeSiit
import Verif.Model.WholeTurn
/-
A SIIT instance, from bytes to bytes: IPv6 packets that turn around (hairpinning of EAM nodes), with both passes. As in Verif.Model.WholeTurn, the second pass begins with what the
first one left in memory: nobody validates it.

Simplifications:
- Those of Verif.Model.WholeSiit. The second pass of an ICMP error is not joined to the first one (`Fate.one (.hairpin o)`).
- The second pass does not split the packet.
-/
namespace Jool.WholeSiitTurn
open Jool.Pkt (Byte L4 Meta Acc)
open Jool.Csum (Summed)
open Jool.Siit (Inst)
open Jool.WholeSiit (Env flow64 from64 siit siitErr pass46)
open Jool.WholeTurn (again)

/-- What becomes of a packet: in its only pass (`one`), or in the second one (`two`). `noMemory`: there is none for the second `struct xlation`. -/
inductive Fate
  | one (f : WholeSiit.Fate)
  | noMemory
  | two (f : WholeSiit.Fate)

/-- What is not modelled of the second pass: its routes and addresses, what the new memory holds, random numbers. -/
structure Second where
  err : Wire.ErrCtx
  env : Env Addr6
  mem : Build.Env
  rnd : Nat → BitVec 8
  rnd2 : Nat → BitVec 8

/-- The IPv4 header that was written has no options (mod/rfc7915/4to6.c:774-810 finds no source route), and its `ip_summed` is what the first pass left. -/
def ctx2 (x : Wire.Ctx) (t : Second) (sm : Summed) : Wire.Ctx := { x with sm := sm, route := false, env := t.mem }

/-- mod/steps/handling_hairpinning_siit.c:13-36 `handling_hairpinning_siit`: `new->in = old->out`, `new->is_hairpin = true`. -/
def turn (s : Inst) (x : Wire.Ctx) (t : Option Second) (sm : Summed) (q : Build.P) : Outcome Fate :=
  match t with
  | none => .ok .noMemory
  | some t => (pass46 s (ctx2 x t sm) t.err t.env true t.rnd t.rnd2 q (again q)).map .two

/-- mod/core.c:28-69 `core_common`, from IPv6, with both passes. -/
def pass64 (s : Inst) (x : Wire.Ctx) (y : Wire.ErrCtx) (e : Env Addr4) (t : Option Second) (rnd rnd2 : BitVec 32) (sel2 : BitVec 16) (segleft : Option Nat) (p : Build.P) (a : Acc) :
    Outcome Fate :=
  (flow64 s false rnd rnd2 a).bind (fun f =>
    match f with
    | .stop f => .ok (.one f)
    | .go src dst inside h =>
      match e.fail with
      | some f => .ok (.one f)
      | none =>
        match from64 e src with
        | none => .ok (.one .drop)
        | some src =>
          match inside, a.inner with
          | some (is, id), some i =>
            (Wire.translateErr64 (siit x false) (siitErr y) src dst is id sel2 segleft p a i).map (fun w => .one (WholeSiit.leave e.sendFails h w))
          | _, _ =>
            if h then
              (Wire.build64 (siit x false) src dst segleft p a).bind (fun w =>
                match w with
                | none => .ok (.one .drop)
                | some (q, sm) => turn s x t sm q)
            else (Wire.translate64 (siit x false) src dst segleft p a).map (fun w => .one (WholeSiit.leave e.sendFails false w)))

end Jool.WholeSiitTurn
