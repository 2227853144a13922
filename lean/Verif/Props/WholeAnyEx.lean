import Verif.Props.WholeAny
import Verif.Props.WholeEx
/-
C90: a big answer, through the instance of Verif.Props.WholeEx.
-/
namespace Jool.WholeAny.Ex
open Jool.Pkt (Byte L4 Acc)
open Jool.Build (place place_holds got)
open Jool.Nat64Spec
open Jool.WireSpec
open Jool.WholeSpec
open Jool.Nat64.Ex (n1 srv srv6 P96 cfg ctx pool st talked)
open Jool.Pool4 (exA)
open Jool.Whole (pkt4)

/-- From port 80 of the server to port 61002 of the address in pool4: 1400 bytes. `flags`: DF is 64. -/
def big (flags : Byte) : Pkt.Skb :=
  ⟨[0x45#8, 0#8, 5#8, 0x94#8, 1#8, 2#8, flags, 0#8, 64#8, 17#8, 0#8, 0#8] ++ Csum.be32 srv ++ Csum.be32 exA ++ ([0#8, 80#8, 238#8, 74#8, 5#8, 0x80#8, 7#8, 7#8] ++ List.replicate 1400 9#8), 1428⟩

def acc (flags : Byte) : Acc := got (Pkt.init4 (big flags))

theorem arrives : Arrives4 (big 0#8) (acc 0#8) (place (acc 0#8) 16) :=
  ⟨by decide +kernel, by decide +kernel, place_holds 16 (by decide +kernel), by decide +kernel, by decide +kernel, by decide +kernel, by decide +kernel⟩

theorem arrivesDf : Arrives4 (big 64#8) (acc 64#8) (place (acc 64#8) 16) :=
  ⟨by decide +kernel, by decide +kernel, place_holds 16 (by decide +kernel), by decide +kernel, by decide +kernel, by decide +kernel, by decide +kernel⟩

theorem is4 : Is4 (big 0#8).data .udp ⟨srv, 80⟩ ⟨exA, 61002⟩ := ⟨by decide +kernel, by decide +kernel, by decide +kernel, by decide +kernel, by decide +kernel, by decide +kernel⟩
theorem is4Df : Is4 (big 64#8).data .udp ⟨srv, 80⟩ ⟨exA, 61002⟩ := ⟨by decide +kernel, by decide +kernel, by decide +kernel, by decide +kernel, by decide +kernel, by decide +kernel⟩

def sent6 : Outcome Nat64.Res → Bool
  | .ok r => match r.out with
    | .sent6 _ => true
    | _ => false
  | .ub _ => false

theorem sent6_ok {r : Outcome Nat64.Res} (h : sent6 r = true) : ∃ r0 q, r = .ok r0 ∧ r0.out = .sent6 q := by
  unfold sent6 at h
  split at h
  · rename_i r0
    split at h
    · rename_i q hq; exact ⟨r0, q, rfl, hq⟩
    · cases h
  · cases h

/-- Without DF it arrives in several pieces, which are a datagram from the server to the node (`fate46_partial`, `out46_partial`). -/
example : ∃ r os, pass4 cfg P96 (st talked) ctx Wire.exCtx 1500#32 1280#32 (fun _ => false) (place (acc 0#8) 16) (acc 0#8) = .ok r ∧ r.fate = .sent os ∧ 2 ≤ os.length ∧
    ∃ b ∈ bibs (st talked) .UDP, b.src4 = ⟨exA, 61002⟩ ∧ ∃ S, Gets6 Wire.exCtx 1280 (big 0#8).data .udp S b.src6 os := by
  obtain ⟨r0, q, h1, h2⟩ := sent6_ok (r := Nat64.core4 cfg (st talked) ctx (pkt4 (acc 0#8))) (by decide +kernel)
  obtain ⟨r, h3, -, -, -, -, -, h4⟩ := fate46_partial (x := Wire.exCtx) (nexthop := 1500#32) (lim := 1280#32) (fails := fun _ => false) Whole.Ex.active arrives is4 h1 h2 rfl
  obtain ⟨os, ho⟩ := (h4 (fun _ => rfl)).2 ⟨by decide, fun h => absurd h.1 (by decide +kernel), rfl, by decide +kernel⟩
  obtain ⟨-, b, hb, -, a6, hd, -, g1, g2, -⟩ := out46_partial Whole.Ex.active rfl arrives is4 h3 ho
  exact ⟨r, os, h3, ho, g2.2 ⟨by decide +kernel, by decide +kernel⟩, b, hb, hd, _, g1⟩

/-- With DF, and a link of 1400 bytes: the server is told that 1380 fit. -/
example : ∃ r, pass4 cfg P96 (st talked) ctx Wire.exCtx 1400#32 1280#32 (fun _ => false) (place (acc 64#8) 16) (acc 64#8) = .ok r ∧ r.fate = .tooBig 1380 := by
  obtain ⟨r0, q, h1, h2⟩ := sent6_ok (r := Nat64.core4 cfg (st talked) ctx (pkt4 (acc 64#8))) (by decide +kernel)
  obtain ⟨r, h3, -, -, -, h4, -⟩ := fate46_partial (x := Wire.exCtx) (nexthop := 1400#32) (lim := 1280#32) (fails := fun _ => false) Whole.Ex.active arrivesDf is4Df h1 h2 rfl
  exact ⟨r, h3, (h4 1380).2 ⟨by decide, ⟨by decide +kernel, by decide +kernel⟩, rfl⟩⟩

/-- The second of three packets is refused: the network gets one. -/
example : leave (fun i => i == 1) (.sent [[1#8], [2#8], [3#8]]) = .broken [[1#8]] := rfl

end Jool.WholeAny.Ex
