import Verif.Props.WireErrSix
import Verif.Props.WireEx
/-
C81: errors that fulfil the hypotheses, and the checksum that is not translated as it should.
-/
namespace Jool.Wire
open Jool.Pkt (Byte L4 Meta Acc)
open Jool.Csum (Kernel Summed)
open Jool.Build (Holds place place_holds got)
open Jool.WireSpec

/-- Links of 1500 bytes, the plateaus of RFC 1191, and nothing assigned. -/
def exErr : ErrCtx := { plateaus := [65535#16, 1492#16, 576#16], inMtu := 1500#32, outMtu := 1500#32, ports := none }

/-- The packet inside, according to the packet. -/
def insideOf (a : Acc) : Meta := a.inner.getD ⟨0, L4.other, 0, 0⟩

/-- Port unreachable, about a datagram from port 53 to port 5000. -/
def exUnreach4 : Pkt.Skb := ex4 1#8 ([3#8, 3#8, 0x58#8, 0xff#8, 0#8, 0#8, 0#8, 0#8] ++ Pkt.hdr4 28 17#8 ++ [0#8, 53#8, 19#8, 136#8, 0#8, 8#8, 7#8, 7#8])

/-- C81, 4 to 6: it leaves, as port unreachable, and the datagram inside still has its ports. -/
theorem exUnreach4_leaves (s6 d6 is6 id6 : BitVec 128) : ∃ o, translateErr46 exCtx exErr s6 d6 is6 id6 (place (got (Pkt.init4 exUnreach4)) 16) (got (Pkt.init4 exUnreach4))
      (insideOf (got (Pkt.init4 exUnreach4))) = .ok (some o) ∧ ErrSent46 exCtx exErr s6 d6 is6 id6 exUnreach4.data o ∧ byte o 40 = 1#8 ∧ byte o 41 = 4#8 := by
  have h : Pkt.init4 exUnreach4 = some (got (Pkt.init4 exUnreach4)) := by decide +kernel
  obtain ⟨r, h1, h2, h3⟩ := error46_partial (x := exCtx) (y := exErr) (i := insideOf (got (Pkt.init4 exUnreach4))) s6 d6 is6 id6 h (by decide +kernel)
    (place_holds 16 (by decide +kernel)) (by decide +kernel) (by decide +kernel) (by decide +kernel) (by decide +kernel) (by decide +kernel) (by decide +kernel) (by decide +kernel)
  cases r with
  | none =>
    exact absurd rfl (h2.2 ⟨rfl, fun _ => by decide +kernel, ⟨1, 4, (Icmp.icmp46_table _ _ _ _).1 (by decide +kernel)⟩, by decide +kernel, fun _ => by decide +kernel, by decide +kernel,
      by decide +kernel, by decide +kernel⟩)
  | some o =>
    have S := h3 o rfl
    refine ⟨o, h1, S, ?_⟩
    have := (Icmp.icmp46_table _ _ _ _).2 S.type
    rw [show byte exUnreach4.data (l4 exUnreach4.data) = 3#8 by decide +kernel, show byte exUnreach4.data (l4 exUnreach4.data + 1) = 3#8 by decide +kernel] at this
    exact (by simpa [Icmp.xlat46Type, Icmp.xlat64Type] using this : _ ∧ _).imp Eq.symm Eq.symm

/-- Port unreachable, about a datagram from port 53 to port 5000. -/
def exUnreach6 : Pkt.Skb := ⟨Pkt.hdr6 56 58#8 ++ ([1#8, 4#8, 0x52#8, 0x55#8, 0#8, 0#8, 0#8, 0#8] ++ Pkt.hdr6 8 17#8 ++ [0#8, 53#8, 19#8, 136#8, 0#8, 8#8, 7#8, 7#8]), 96⟩

/-- C81, 6 to 4. -/
theorem exUnreach6_leaves (s4 d4 is4 id4 : BitVec 32) : ∃ o, translateErr64 exCtx exErr s4 d4 is4 id4 7#16 none (place (got (Pkt.init6 exUnreach6)) 16) (got (Pkt.init6 exUnreach6))
      (insideOf (got (Pkt.init6 exUnreach6))) = .ok (some o) ∧ ErrSent64 exCtx exErr s4 d4 is4 id4 exUnreach6.data 40 none 40 17 o ∧ byte o 20 = 3#8 ∧ byte o 21 = 3#8 := by
  have h : Pkt.init6 exUnreach6 = some (got (Pkt.init6 exUnreach6)) := by decide +kernel
  obtain ⟨r, h1, h2, h3⟩ := error64_partial (x := exCtx) (y := exErr) (i := insideOf (got (Pkt.init6 exUnreach6))) s4 d4 is4 id4 7#16 none h (by decide +kernel)
    (place_holds 16 (by decide +kernel)) (by decide +kernel) (by decide +kernel) (L := 40) (fh := none) (il := 40) (n := 17) (.last (by decide +kernel)) (.last (by decide +kernel))
    (by decide) (by decide) (by decide +kernel)
  cases r with
  | none =>
    exact absurd rfl (h2.2 ⟨rfl, by decide +kernel, ⟨3, 3, (Icmp.icmp64_table _ _ _ _).1 (by decide +kernel)⟩, by decide +kernel, fun _ => by decide +kernel, by decide,
      by decide +kernel⟩)
  | some o =>
    have S := h3 o rfl
    refine ⟨o, h1, S, ?_⟩
    have := (Icmp.icmp64_table _ _ _ _).2 S.type
    rw [show byte exUnreach6.data 40 = 1#8 by decide +kernel, show byte exUnreach6.data (40 + 1) = 4#8 by decide +kernel] at this
    exact (by simpa [Icmp.xlat46Type, Icmp.xlat64Type] using this : _ ∧ _).imp Eq.symm Eq.symm

/-- **C81, defect.** A router may cut the packet that it returns. The checksum of a TCP or UDP packet inside survives that (`SumsIn46.tcp`, `SumsIn46.udp`: whatever is
missing); that of an echo does not, because the length that enters the pseudo-header is the one of what the router returned, and not the one of the packet. Here, an intact echo
request of 12 bytes, 4 of which the router removed. -/
theorem echo_inside_cut : ∃ seg rest, CsumSpec.Valid (seg ++ rest) ∧ ∀ le,
    ¬ CsumSpec.Valid (CsumSpec.ph6 Csum.exS6 Csum.exD6 (seg ++ rest).length 58#8 ++ (Csum.echo46 (Csum.generic le) 128#8 0#8 none Csum.exS6 Csum.exD6 seg ++ rest)) ∧
    CsumSpec.Valid (CsumSpec.ph6 Csum.exS6 Csum.exD6 (seg ++ rest).length 58#8 ++ Csum.echo46 (Csum.generic le) 128#8 0#8 none Csum.exS6 Csum.exD6 (seg ++ rest)) := by
  refine ⟨[8#8, 0#8, 0xe5#8, 0xeb#8, 0#8, 1#8, 0#8, 1#8], [9#8, 9#8, 9#8, 9#8], by decide +kernel, ?_⟩
  intro le
  cases le <;> decide +kernel

end Jool.Wire
