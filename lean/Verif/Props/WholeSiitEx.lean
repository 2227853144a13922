import Verif.Props.WholeSiitTalk
/-
C82, C83: packets through the instance of `Props/SiitExample.lean`.
-/
namespace Jool.WholeSiit
open Jool.Pkt (Byte L4 Meta Acc)
open Jool.Siit
open Jool.Eam (Entry)
open Jool.WireSpec
open Jool.WholeSiitSpec
open Jool.Build (Holds place place_holds got)
open Jool.Wire (exCtx exErr insideOf)

/-- 2001:db8::1 to 8.8.8.8, as 2001:db8::1 knows it: port 5000 to port 53, 4 bytes. -/
def exGo : Pkt.Skb := ⟨[96#8, 0#8, 0#8, 0#8, 0#8, 12#8, 17#8, 64#8, 32#8, 1#8, 13#8, 184#8, 0#8, 0#8, 0#8, 0#8, 0#8, 0#8, 0#8, 0#8, 0#8, 0#8, 0#8, 1#8, 0#8, 100#8, 255#8, 155#8, 0#8, 0#8, 0#8, 0#8, 0#8, 0#8, 0#8, 0#8, 8#8, 8#8, 8#8, 8#8, 19#8, 136#8, 0#8, 53#8, 0#8, 12#8, 7#8, 7#8, 1#8, 2#8, 3#8, 4#8], 52⟩

/-- The answer. -/
def exCome : Pkt.Skb := ⟨[69#8, 0#8, 0#8, 32#8, 0#8, 0#8, 0#8, 0#8, 64#8, 17#8, 168#8, 188#8, 8#8, 8#8, 8#8, 8#8, 192#8, 0#8, 2#8, 1#8, 0#8, 53#8, 19#8, 136#8, 0#8, 12#8, 7#8, 7#8, 1#8, 2#8, 3#8, 4#8], 32⟩

/-- 9.9.9.9 tells 192.0.2.1 that 8.8.8.8 is unreachable. -/
def exComplaint4 : Pkt.Skb := ⟨[69#8, 0#8, 0#8, 60#8, 0#8, 0#8, 0#8, 0#8, 64#8, 1#8, 166#8, 174#8, 9#8, 9#8, 9#8, 9#8, 192#8, 0#8, 2#8, 1#8, 3#8, 1#8, 222#8, 40#8, 0#8, 0#8, 0#8, 0#8, 69#8, 0#8, 0#8, 32#8, 0#8, 0#8, 0#8, 0#8, 60#8, 17#8, 172#8, 188#8, 192#8, 0#8, 2#8, 1#8, 8#8, 8#8, 8#8, 8#8, 19#8, 136#8, 0#8, 53#8, 0#8, 12#8, 7#8, 7#8, 1#8, 2#8, 3#8, 4#8], 60⟩

/-- A router tells 8.8.8.8 that 2001:db8::1 is unreachable. Its address, 2001:db8:99::1, has no translation. -/
def exComplaint6 : Pkt.Skb := ⟨[96#8, 0#8, 0#8, 0#8, 0#8, 60#8, 58#8, 64#8, 32#8, 1#8, 13#8, 184#8, 0#8, 153#8, 0#8, 0#8, 0#8, 0#8, 0#8, 0#8, 0#8, 0#8, 0#8, 1#8, 0#8, 100#8, 255#8, 155#8, 0#8, 0#8, 0#8, 0#8, 0#8, 0#8, 0#8, 0#8, 8#8, 8#8, 8#8, 8#8, 1#8, 0#8, 242#8, 61#8, 0#8, 0#8, 0#8, 0#8, 96#8, 0#8, 0#8, 0#8, 0#8, 12#8, 17#8, 60#8, 0#8, 100#8, 255#8, 155#8, 0#8, 0#8, 0#8, 0#8, 0#8, 0#8, 0#8, 0#8, 8#8, 8#8, 8#8, 8#8, 32#8, 1#8, 13#8, 184#8, 0#8, 0#8, 0#8, 0#8, 0#8, 0#8, 0#8, 0#8, 0#8, 0#8, 0#8, 1#8, 0#8, 53#8, 19#8, 136#8, 0#8, 12#8, 7#8, 7#8, 1#8, 2#8, 3#8, 4#8], 100⟩

/-- 2001:db8::1 to 2001:db8::2, by its IPv4 address. -/
def exTurn : Pkt.Skb := ⟨[96#8, 0#8, 0#8, 0#8, 0#8, 12#8, 17#8, 64#8, 32#8, 1#8, 13#8, 184#8, 0#8, 0#8, 0#8, 0#8, 0#8, 0#8, 0#8, 0#8, 0#8, 0#8, 0#8, 1#8, 0#8, 100#8, 255#8, 155#8, 0#8, 0#8, 0#8, 0#8, 0#8, 0#8, 0#8, 0#8, 192#8, 0#8, 2#8, 2#8, 19#8, 136#8, 0#8, 53#8, 0#8, 12#8, 7#8, 7#8, 1#8, 2#8, 3#8, 4#8], 52⟩

/-- Nothing fails. -/
def fine (A : Type) : Env A := ⟨none, none, false⟩

def exX6 : Addr6 := 0x20010db8000000000000000000000001#128
def exX4 : Addr4 := 0xC0000201#32
def exY6 : Addr6 := 0x0064ff9b000000000000000008080808#128
def exY4 : Addr4 := 0x08080808#32

theorem exPairs : ∃ M, Ok (exInst .off) M ∧ Pair (exInst .off) M exX6 exX4 ∧ Pair (exInst .off) M exY6 exY4 := by
  obtain ⟨M, h⟩ := exInst_ok .off
  refine ⟨M, h, ⟨⟨.eamt exX, (siit64_spec h _ _ _).1 (by decide +kernel)⟩, ⟨.eamt exX, (siit46_spec h _ _ _ _).1 (by decide +kernel)⟩, by decide, by decide⟩,
    ⟨⟨.rfc6052 exPool, (siit64_spec h _ _ _).1 (by decide +kernel)⟩, ⟨.rfc6052 exPool, (siit46_spec h _ _ _ _).1 (by decide +kernel)⟩, by decide, by decide⟩⟩

/-- C82: the datagram leaves. -/
example : ∃ o, pass64 (exInst .off) exCtx exErr (fine _) 0#32 0#32 7#16 none (place (got (Pkt.init6 exGo)) 16) (got (Pkt.init6 exGo)) = .ok (.sent o) ∧
    Sent64 (siit exCtx false) exX4 exY4 exGo.data none 40 17 o := by
  obtain ⟨M, h, P, Q⟩ := exPairs
  exact go_partial 0#32 0#32 7#16 h P Q ⟨by decide +kernel, by decide +kernel, place_holds 16 (by decide +kernel)⟩ (by decide +kernel) (.last (by decide +kernel)) (by decide) (by decide +kernel)
    (by decide) (by decide +kernel) (by decide +kernel) ⟨rfl, by decide +kernel, by decide⟩ rfl rfl

/-- C82: the answer arrives. -/
example : ∃ o, pass46 (exInst .off) exCtx exErr (fine _) false (fun _ => 0#8) (fun _ => 0#8) (place (got (Pkt.init4 exCome)) 16) (got (Pkt.init4 exCome)) = .ok (.sent o) ∧
    Sent46 (siit exCtx false) exY6 exX6 exCome.data o := by
  obtain ⟨M, h, P, Q⟩ := exPairs
  exact come_partial _ _ h (by decide) P Q ⟨by decide +kernel, by decide +kernel, place_holds 16 (by decide +kernel), by decide +kernel, by decide +kernel⟩ (by decide +kernel) (by decide +kernel)
    (by decide +kernel) (by decide +kernel) (by decide +kernel) ⟨rfl, fun _ => by decide +kernel, by decide +kernel, by decide +kernel⟩ rfl rfl

/-- C82: the complaint arrives. -/
example : ∃ o, pass46 (exInst .off) exCtx exErr (fine _) false (fun _ => 0#8) (fun _ => 0#8) (place (got (Pkt.init4 exComplaint4)) 16) (got (Pkt.init4 exComplaint4)) = .ok (.sent o) ∧
    ErrSent46 (siit exCtx false) (siitErr exErr) 0x0064ff9b000000000000000009090909#128 exX6 exX6 exY6 exComplaint4.data o := by
  obtain ⟨M, h, P, Q⟩ := exPairs
  refine complaint46_partial (i := insideOf (got (Pkt.init4 exComplaint4))) _ _ h (by decide) P Q
    ⟨by decide +kernel, by decide +kernel, place_holds 16 (by decide +kernel), by decide +kernel, by decide +kernel⟩ (by decide +kernel) (by decide +kernel)
    (by decide +kernel) (by decide +kernel) (by decide +kernel) (.inl ⟨.rfc6052 exPool, (siit46_spec h _ _ _ _).1 (by decide +kernel)⟩) (by decide) (by decide +kernel) (by decide +kernel) (by decide +kernel)
    ⟨rfl, fun _ => by decide +kernel, ⟨1, 0, (Icmp.icmp46_table _ _ _ _).1 (by decide +kernel)⟩, by decide +kernel, fun _ => by decide +kernel, by decide +kernel,
      by decide +kernel, by decide +kernel⟩ rfl rfl

/-- C82: and the other one; 198.51.100.64 stands in for the router. -/
example : ∃ o, pass64 (exInst .off) exCtx exErr (fine _) 0#32 0#32 7#16 none (place (got (Pkt.init6 exComplaint6)) 16) (got (Pkt.init6 exComplaint6)) = .ok (.sent o) ∧
    ErrSent64 (siit exCtx false) (siitErr exErr) 0xC6336440#32 exY4 exY4 exX4 exComplaint6.data 40 none 40 17 o := by
  obtain ⟨M, h, P, Q⟩ := exPairs
  refine complaint64_partial (i := insideOf (got (Pkt.init6 exComplaint6))) (mr := .rfc6791) 0#32 0#32 7#16 h P Q
    ⟨by decide +kernel, by decide +kernel, place_holds 16 (by decide +kernel)⟩ (by decide +kernel) (by decide +kernel) (.last (by decide +kernel)) (.last (by decide +kernel)) (by decide)
    (by decide) (by decide +kernel) (.inr ⟨rfl, (siit64_spec h _ _ _).1 (by decide +kernel), rfl, by decide +kernel⟩) (by decide) (by decide +kernel) (by decide +kernel) (by decide +kernel)
    ⟨rfl, by decide +kernel, ⟨3, 1, (Icmp.icmp64_table _ _ _ _).1 (by decide +kernel)⟩, by decide +kernel, fun _ => by decide +kernel, by decide, by decide +kernel⟩ rfl rfl

/-- C83: the other node gets the datagram, from 64:ff9b::192.0.2.1. -/
example : ∃ m, pass64 (exInst .intrinsic) exCtx exErr (fine _) 0#32 0#32 7#16 none (place (got (Pkt.init6 exTurn)) 16) (got (Pkt.init6 exTurn)) = .ok (.hairpin m) ∧
    ∃ a', Pkt.init4 ⟨m, m.length⟩ = some a' ∧ ∀ p', Holds p' a' → ∃ o, pass46 (exInst .intrinsic) exCtx exErr (fine _) true (fun _ => 0#8) (fun _ => 0#8) p' a' = .ok (.sent o) ∧
      Back6 1 true 0x0064ff9b0000000000000000c0000201#128 0x20010db8000000000000000000000002#128 exTurn.data none 40 17 o (l6 m) := by
  obtain ⟨M, h, X, Y, x1, y1, x2, y2⟩ := exInst_nodes
  have hX4 : X.a4 ≠ 0#32 := by
    intro q
    exact X.fine (by
      rw [q]
      exact (off_iff h _).1 (by decide +kernel))
  obtain ⟨m, k1, k2⟩ := hairpin_partial (x := exCtx) (y := exErr) (s0 := exTurn) (a := got (Pkt.init6 exTurn)) (p := place (got (Pkt.init6 exTurn)) 16) (e := fine _) (fh := none) (L := 40) (n := 17)
    0#32 0#32 7#16 h rfl rfl X Y hX4 (by rw [x2]; decide) ⟨by decide +kernel, by decide +kernel, place_holds 16 (by decide +kernel)⟩ (by decide +kernel) (.last (by decide +kernel)) (by decide)
    (by decide +kernel) (by decide) (by rw [x1]; decide +kernel) (by rw [y2]; decide +kernel) ⟨rfl, by decide +kernel, by decide⟩ rfl (by decide)
  refine ⟨m, k1, ?_⟩
  obtain ⟨a', j1, j2⟩ := k2 m.length (Nat.le_refl _)
  refine ⟨a', j1, ?_⟩
  intro p' hp'
  obtain ⟨o, g1, g2, -⟩ := j2 p' (fine _) exCtx exErr (fun _ => 0#8) (fun _ => 0#8) hp' rfl rfl rfl
  rw [x2, y1] at g2
  exact ⟨o, g1, g2⟩

/-- C83: the datagram of `exGo` may go through another translator, and be what it was. -/
example (s6 d6 : BitVec 128) (m : List Byte) (h : Wire.translate64 exCtx exX4 exY4 none (place (got (Pkt.init6 exGo)) 16) (got (Pkt.init6 exGo)) = .ok (some m)) :
    ∃ a', Pkt.init4 ⟨m, m.length⟩ = some a' ∧ ∀ p', Holds p' a' → ∃ o, Wire.translate46 exCtx s6 d6 p' a' = .ok (some o) ∧ Back6 2 true s6 d6 exGo.data none 40 17 o (l6 m) := by
  obtain ⟨a', k1, k2⟩ := Wire.there64_partial (x := exCtx) (y := exCtx) (s0 := exGo) (s6 := s6) (d6 := d6) (fh := none) (l := 40) (n := 17) (by decide +kernel) (by decide +kernel) (place_holds 16 (by decide +kernel))
    (by decide +kernel) (.last (by decide +kernel)) (by decide) (by decide +kernel) (by decide) ⟨rfl, rfl⟩ ⟨rfl, rfl⟩ (by decide) h (Nat.le_refl _)
  refine ⟨a', k1, ?_⟩
  intro p' hp'
  obtain ⟨r, g1, g2, g3⟩ := k2 p' hp'
  cases r with
  | none => exact absurd rfl (g2.2 ⟨rfl, fun _ => by decide +kernel⟩)
  | some o => exact ⟨o, g1, (g3 o rfl).1⟩

end Jool.WholeSiit
