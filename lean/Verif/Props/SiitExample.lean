import Verif.Props.SiitPackets
/-
C13, C62, C63: an instance with two EAM nodes; the cases that the theorems cover, and one that the code gets wrong.
-/
namespace Jool.Siit
open Jool.PrefixSpec
open Jool.Rfc6052Spec (legal Layout)
open Jool.Eam (Entry Valid Holds In4 In6)

/-! 2001:db8::1 - 192.0.2.1, 2001:db8::2 - 192.0.2.2, and 64:ff9b::/96 for everybody else. -/
def exX : Entry := ⟨⟨0x20010db8000000000000000000000001#128, 128⟩, ⟨0xC0000201#32, 32⟩⟩
def exY : Entry := ⟨⟨0x20010db8000000000000000000000002#128, 128⟩, ⟨0xC0000202#32, 32⟩⟩
def exPool : Prefix6 := ⟨0x0064ff9b000000000000000000000000#128, 96⟩
def exTable : Eam.Eamt :=
  match Eam.run Eam.init [.add .all exX false, .add .all exY false] with
  | .ok (t, _) => t
  | .ub _ => Eam.init
/-- The translator is 198.51.100.1/24; 203.0.113.0/24 is denylisted. -/
def exInst (m : Mode) : Inst :=
  ⟨exTable, some exPool, [⟨0xCB007100#32, 24⟩], [⟨0xC6336401#32, 0xFFFFFF00#32, 24⟩], m, some ⟨0xC6336400#32, 24⟩, none,
   false⟩

theorem exTable_holds : ∃ M, Holds exTable M := by
  have n1 : ¬ In4 exY.p4 exX.p4 := fun h => absurd ((prefix4_contains_correct _ _ (by decide)).2 h.2) (by decide +kernel)
  have n2 : ¬ In6 exY.p6 exX.p6 := fun h => absurd ((prefix6_contains_correct _ _ (by decide)).2 h.2) (by decide +kernel)
  obtain ⟨t, cs, M, h1, _, h3⟩ := Eam.history_partial [.add .all exX false, .add .all exY false] Eam.holds_init
    ⟨by intro x hx; simp at hx, by
      intro c M' hs
      refine ⟨?_, fun _ _ _ => trivial⟩
      have hM : ∀ x ∈ M', x = exX := by
        cases hs <;> intro x hx <;> simp at hx
        exact hx
      intro x hx
      rw [hM x hx]
      exact ⟨fun h => absurd h n2, fun h => absurd h n1⟩⟩
  refine ⟨M, ?_⟩
  have : exTable = t := by unfold exTable; rw [h1]
  rw [this]
  exact h3

attribute [irreducible] exTable

theorem exInst_ok (m : Mode) : ∃ M, Ok (exInst m) M := by
  obtain ⟨M, h⟩ := exTable_holds
  refine ⟨M, h, ?_, ?_, ?_⟩
  · rintro p ⟨⟩; decide
  · intro p hp
    simp only [exInst, List.mem_singleton] at hp
    rw [hp]; decide
  · intro i hi
    simp only [exInst, List.mem_singleton] at hi
    rw [hi]
    decide

/-- The two of them are EAM nodes in the sense of the theorems. -/
theorem exInst_nodes : ∃ M, Ok (exInst .intrinsic) M ∧ ∃ x y : Node (exInst .intrinsic) M exPool,
    x.a6 = 0x20010db8000000000000000000000001#128 ∧ y.a6 = 0x20010db8000000000000000000000002#128 ∧
    x.face = 0x0064ff9b0000000000000000c0000201#128 ∧ y.face = 0x0064ff9b0000000000000000c0000202#128 := by
  obtain ⟨M, h⟩ := exInst_ok .intrinsic
  have no : ∀ a, Eam.contains6 exTable a = .ok false → ∀ x ∈ M, ¬ Mem6 x.p6 a := by
    intro a ha x hx hm
    obtain ⟨b, b1, b2⟩ := Eam.contains6_spec h.eam a
    have hb : b = false := by
      have : Outcome.ok b = Outcome.ok false := b1.symm.trans ha
      injection this
    rw [hb] at b2
    exact absurd (b2.2 ⟨x, hx, hm⟩) (by simp)
  have nd : ∀ a, Denylist4.contains (exInst .intrinsic).deny a = false → ¬ Denied (exInst .intrinsic) a := by
    intro a ha hd
    rw [(denied_iff h a).2 hd] at ha
    simp at ha
  refine ⟨M, h, ⟨_, 0xC0000201#32, exX, _, ?_, ?_, ?_, ⟨?_, ?_⟩, ?_⟩, ⟨_, 0xC0000202#32, exY, _, ?_, ?_, ?_, ⟨?_, ?_⟩, ?_⟩,
    rfl, rfl, rfl, rfl⟩
  · exact (siit64_spec h _ _ _).1 (by decide +kernel)
  · exact (siit46_spec h _ _ _ _).1 (by decide +kernel)
  · exact ((rfc6052_4to6_correct _ _ _).1 (by decide +kernel)).2
  · decide
  · exact no _ (by decide +kernel)
  · exact nd _ (by decide +kernel)
  · exact (siit64_spec h _ _ _).1 (by decide +kernel)
  · exact (siit46_spec h _ _ _ _).1 (by decide +kernel)
  · exact ((rfc6052_4to6_correct _ _ _).1 (by decide +kernel)).2
  · decide
  · exact no _ (by decide +kernel)
  · exact nd _ (by decide +kernel)

/-- C13 is false for sources of ICMP errors: nothing is screened then, so the packet leaves with a loopback source
(first), a denylisted one (second) or one of the translator itself (third); all of them are refused if the packet is
not an ICMP error. -/
theorem error_sources_unscreened :
    (addrs64 (exInst .off) ⟨true, true, 0x0064ff9b00000000000000007F000001#128, exX.p6.addr, 64#8, 0#128⟩ false 0#32 =
        .ok (.cont 0x7F000001#32 exX.p4.addr false) ∧
      addrs64 (exInst .off) ⟨true, false, 0x0064ff9b00000000000000007F000001#128, exX.p6.addr, 64#8, 0#128⟩ false 0#32 =
        .ok (.untranslatable .dst64)) ∧
    (addrs64 (exInst .off) ⟨true, true, 0x0064ff9b0000000000000000CB007101#128, exX.p6.addr, 64#8, 0#128⟩ false 0#32 =
        .ok (.cont 0xCB007101#32 exX.p4.addr false) ∧
      addrs64 (exInst .off) ⟨true, false, 0x0064ff9b0000000000000000CB007101#128, exX.p6.addr, 64#8, 0#128⟩ false 0#32 =
        .ok (.untranslatable .dst64)) ∧
    (addrs64 (exInst .off) ⟨true, true, 0x0064ff9b0000000000000000C6336401#128, exX.p6.addr, 64#8, 0#128⟩ false 0#32 =
        .ok (.cont 0xC6336401#32 exX.p4.addr false) ∧
      addrs64 (exInst .off) ⟨true, false, 0x0064ff9b0000000000000000C6336401#128, exX.p6.addr, 64#8, 0#128⟩ false 0#32 =
        .ok (.untranslatable .dst64)) := by
  refine ⟨⟨?_, ?_⟩, ⟨?_, ?_⟩, ⟨?_, ?_⟩⟩ <;> decide +kernel

/-- C63: without hairpinning, the packet from one node to the face of the other arrives with the real address; the
answer then does not go through the translator, and does not come from the address that the first node knows. -/
example : addrs64 (exInst .off) ⟨true, false, exX.p6.addr, 0x0064ff9b0000000000000000c0000202#128, 64#8, 0#128⟩ false 0#32
    = .ok (.cont 0xC0000201#32 0xC0000202#32 false) ∧
  addrs46 (exInst .off) ⟨true, false, 0xC0000201#32, 0xC0000202#32, 64#8, 0#32⟩ false (fun _ => 0#8)
    = .ok (.cont exX.p6.addr exY.p6.addr false) := by decide +kernel

/-- C62: a router without translatable address reports an error: the source becomes 198.51.100.64, made of the configured
prefix and the hop limit. -/
example : addrs64 (exInst .off) ⟨true, true, 0x20010db8000000990000000000000001#128, exX.p6.addr, 64#8, 0#128⟩ false 0#32
    = .ok (.cont 0xC6336440#32 0xC0000201#32 false) := by decide +kernel

end Jool.Siit
