import Verif.Props.Wire
import Verif.Props.Build
/-
C77, C78: packets that fulfil the hypotheses, and the packets that are not translated as they should.
-/
namespace Jool.Wire
open Jool.Pkt (Byte L4 Meta Acc)
open Jool.Csum (Kernel Summed)
open Jool.Build (Holds place place_holds got)
open Jool.WireSpec

/-- A stateless translator. -/
def exCtx : Ctx :=
  { K := Csum.generic true, cfg := {}, sm := Summed.none, nat64 := false, amend := false, hairpin := false, ports := none, id := none, sel := 7#16, route := false, gso := 0,
    fragList := false, env := ⟨fun _ => 0#8, 0⟩, ll := 16 }

/-- From 1.1.1.1 to 1.1.1.1, TTL 64: `k` is the protocol. -/
def ex4 (k : Byte) (seg : List Byte) : Pkt.Skb := ⟨Pkt.hdr4 (20 + seg.length) k ++ seg, 20 + seg.length⟩

/-- Port 5000 to port 53, 4 bytes of payload, and a checksum that is not zero. -/
def exUdp4 : Pkt.Skb := ex4 17#8 [19#8, 136#8, 0#8, 53#8, 0#8, 12#8, 7#8, 7#8, 1#8, 2#8, 3#8, 4#8]

/-- A packet that is translated, what it becomes, and what becomes of that. -/
theorem exUdp4_leaves (s6 d6 : BitVec 128) : ∃ o, translate46 exCtx s6 d6 (place (got (Pkt.init4 exUdp4)) 16) (got (Pkt.init4 exUdp4)) = .ok (some o) ∧
    Sent46 exCtx s6 d6 exUdp4.data o := by
  have h : Pkt.init4 exUdp4 = some (got (Pkt.init4 exUdp4)) := by decide +kernel
  obtain ⟨r, h1, h2, h3⟩ := packet46_partial (x := exCtx) s6 d6 h (by decide +kernel) (place_holds 16 (by decide +kernel)) (by decide +kernel) (by decide +kernel)
    (by decide +kernel) (by decide +kernel) (by decide +kernel)
  cases r with
  | none => exact absurd rfl (h2.2 ⟨rfl, fun _ => by decide +kernel, by decide +kernel, by decide +kernel⟩)
  | some o => exact ⟨o, h1, h3 o rfl⟩

/-- C77: it is accepted by the next translator; C78: the last one sends the datagram that it was. -/
example (s6 d6 : BitVec 128) : ∃ o a', translate46 exCtx s6 d6 (place (got (Pkt.init4 exUdp4)) 16) (got (Pkt.init4 exUdp4)) = .ok (some o) ∧
    Pkt.init6 ⟨o, o.length⟩ = some a' ∧ ∀ p', Holds p' a' → ∃ o', translate64 exCtx 0x01010101#32 0x01010101#32 none p' a' = .ok (some o') ∧ Back exUdp4.data o' := by
  have h : Pkt.init4 exUdp4 = some (got (Pkt.init4 exUdp4)) := by decide +kernel
  obtain ⟨o, h1, -⟩ := exUdp4_leaves s6 d6
  obtain ⟨a', h2, h3⟩ := back_partial (x := exCtx) (y := exCtx) (s4 := 0x01010101#32) (d4 := 0x01010101#32) h (by decide +kernel) (place_holds 16 (by decide +kernel))
    (by decide +kernel) (by decide +kernel) (by decide +kernel) (by decide +kernel) (by decide +kernel) (by decide +kernel) (by decide +kernel) ⟨rfl, rfl, rfl, rfl⟩ ⟨rfl, rfl, rfl, rfl⟩ h1 (Nat.le_refl o.length)
  refine ⟨o, a', h1, h2, ?_⟩
  intro p' hp'
  obtain ⟨r, g1, g2, g3⟩ := h3 p' none hp'
  cases r with
  | none => exact absurd rfl (g2.2 ⟨rfl, by decide +kernel⟩)
  | some o' => exact ⟨o', g1, (g3 o' rfl).1⟩

/-- C77: an IPv6 packet with destination options. -/
example (s4 d4 : BitVec 32) : ∃ o, translate64 exCtx s4 d4 none (place (got (Pkt.init6 Pkt.sample6)) 16) (got (Pkt.init6 Pkt.sample6)) = .ok (some o) ∧
    Sent64 exCtx s4 d4 Pkt.sample6.data none 48 17 o ∧ ∃ a', Pkt.init4 ⟨o, o.length⟩ = some a' ∧ a'.inner = none := by
  have h : Pkt.init6 Pkt.sample6 = some (got (Pkt.init6 Pkt.sample6)) := by decide +kernel
  have hH : Headers Pkt.sample6.data 40 (next6 Pkt.sample6.data) none 48 17 := .skip (by decide +kernel) (.last (by decide +kernel))
  obtain ⟨n, r, h0, h1, h2, h3⟩ := packet64_partial (x := exCtx) s4 d4 none h (by decide +kernel) (place_holds 16 (by decide +kernel)) (by decide +kernel) (by decide +kernel)
    (by decide +kernel) (fun fh l q => by have := (headers_unique hH q).2.2; omega)
  obtain ⟨e1, e2, e3⟩ := headers_unique h0 hH
  have hb := h0
  rw [e1, e2] at h3 h0
  subst e3
  cases r with
  | none => exact absurd rfl (h2.2 ⟨rfl, by decide +kernel, by decide +kernel⟩)
  | some o =>
    refine ⟨o, h1, h3 o rfl, ?_⟩
    exact accepted64_partial h (by decide +kernel) hb (by rw [e1, e2]; exact h3 o rfl) (by decide) o.length

/-! ## Where the translation is wrong -/

/-- **C77 does not hold of protocols that are extension headers in IPv6** (0, 43, 44, 60): the payload of the IPv4 packet becomes an extension header, with everything that
follows it. -/
theorem forged {x : Ctx} {s6 d6 : BitVec 128} {d o : List Byte} (hs : Sent46 x s6 d6 d o) (hw : off4 d = 0 ∧ mf4 d = 0) (hn : proto4 d ∈ [0, 43, 44, 60]) :
    next6 o = proto4 d ∧ o.drop 40 = d.drop (l4 d) := by
  simp only [List.mem_cons, List.not_mem_nil, or_false] at hn
  have e : l6 d = 40 := by unfold l6; rw [if_pos hw]
  have h1 := hs.head.whole hw.1 hw.2
  have h2 := hs.seg.other (by omega) (by omega) (by omega)
  rw [e] at h2
  exact ⟨by rw [h1]; unfold to6; rw [if_neg (by omega)], h2⟩

/-- Protocol 60, and 16 bytes that nobody looks at. -/
def exForged : Pkt.Skb := ex4 60#8 [17#8, 0#8, 1#8, 4#8, 0#8, 0#8, 0#8, 0#8, 19#8, 136#8, 0#8, 53#8, 0#8, 8#8, 7#8, 7#8]

/-- What leaves is a UDP datagram, with ports and checksum that the IPv4 node chose; what was validated, filtered and counted was a packet of an unknown protocol. -/
theorem forged_udp (s6 d6 : BitVec 128) : ∃ o, translate46 exCtx s6 d6 (place (got (Pkt.init4 exForged)) 16) (got (Pkt.init4 exForged)) = .ok (some o) ∧
    (got (Pkt.init4 exForged)).m.proto = L4.other ∧ Headers o 40 (next6 o) none 48 17 ∧ field o 48 2 = 5000 ∧ field o 50 2 = 53 := by
  have h : Pkt.init4 exForged = some (got (Pkt.init4 exForged)) := by decide +kernel
  obtain ⟨r, h1, h2, h3⟩ := packet46_partial (x := exCtx) s6 d6 h (by decide +kernel) (place_holds 16 (by decide +kernel)) (by decide +kernel) (by decide +kernel)
    (by decide +kernel) (by decide +kernel) (by decide +kernel)
  cases r with
  | none => exact absurd rfl (h2.2 ⟨rfl, fun _ => by decide +kernel, by decide +kernel, by decide +kernel⟩)
  | some o =>
    obtain ⟨g1, g2⟩ := forged (h3 o rfl) (by decide +kernel) (by decide +kernel)
    have e : ∀ i k, field o (40 + i) k = field (exForged.data.drop (l4 exForged.data)) i k := by
      intro i k
      rw [← field_drop, g2]
    refine ⟨o, h1, by decide +kernel, ?_, ?_, ?_⟩
    · rw [g1]
      refine .skip (by decide +kernel) ?_
      have e0 : field o 40 1 = 17 := (e 0 1).trans (by decide +kernel)
      have e1 : field o (40 + 1) 1 = 0 := (e 1 1).trans (by decide +kernel)
      rw [e0, e1]
      exact .last (by decide)
    · exact (e 8 2).trans (by decide +kernel)
    · exact (e 10 2).trans (by decide +kernel)

end Jool.Wire
