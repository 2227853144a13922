import Verif.Props.WholeErrTalk
import Verif.Props.WholeEx
import Verif.Props.WireErrEx
/-
C84: errors about the datagrams of `Props/WholeEx.lean`.
-/
namespace Jool.Whole.Ex
open Jool.Pkt (Byte L4 Acc Meta)
open Jool.Build (place place_holds got)
open Jool.Nat64Spec
open Jool.WireSpec
open Jool.WholeSpec
open Jool.Nat64.Ex (n1 srv srv6 P96 cfg ctx pool st talked)
open Jool.Pool4 (exA)
open Jool.Wire (exCtx exErr insideOf)

/-- 9.9.9.9 tells the address in pool4 that port 80 of the server, at which port 61002 aimed, is unreachable. -/
def e4 : Pkt.Skb := ⟨[69#8, 0#8, 0#8, 60#8, 0#8, 0#8, 0#8, 0#8, 64#8, 1#8, 44#8, 167#8, 9#8, 9#8, 9#8, 9#8, 203#8, 0#8, 113#8, 8#8, 3#8, 1#8, 3#8, 75#8, 0#8, 0#8, 0#8, 0#8, 69#8, 0#8, 0#8, 32#8, 0#8, 0#8, 0#8, 0#8, 60#8, 17#8, 128#8, 191#8, 203#8, 0#8, 113#8, 8#8, 192#8, 0#8, 2#8, 5#8, 238#8, 74#8, 0#8, 80#8, 0#8, 12#8, 7#8, 7#8, 1#8, 2#8, 3#8, 4#8], 60⟩

/-- A router, 2001:db8:99::1, tells the server that port 5000 of the node is unreachable. -/
def e6 : Pkt.Skb := ⟨[96#8, 0#8, 0#8, 0#8, 0#8, 60#8, 58#8, 64#8, 32#8, 1#8, 13#8, 184#8, 0#8, 153#8, 0#8, 0#8, 0#8, 0#8, 0#8, 0#8, 0#8, 0#8, 0#8, 1#8, 0#8, 100#8, 255#8, 155#8, 0#8, 0#8, 0#8, 0#8, 0#8, 0#8, 0#8, 0#8, 192#8, 0#8, 2#8, 5#8, 1#8, 0#8, 142#8, 54#8, 0#8, 0#8, 0#8, 0#8, 96#8, 0#8, 0#8, 0#8, 0#8, 12#8, 17#8, 60#8, 0#8, 100#8, 255#8, 155#8, 0#8, 0#8, 0#8, 0#8, 0#8, 0#8, 0#8, 0#8, 192#8, 0#8, 2#8, 5#8, 32#8, 1#8, 13#8, 185#8, 0#8, 0#8, 0#8, 0#8, 0#8, 0#8, 0#8, 0#8, 0#8, 0#8, 0#8, 1#8, 0#8, 80#8, 19#8, 136#8, 0#8, 12#8, 7#8, 7#8, 1#8, 2#8, 3#8, 4#8], 100⟩

def ae4 : Acc := got (Pkt.init4 e4)
def ae6 : Acc := got (Pkt.init6 e6)

theorem error4 : Error4 e4 ae4 (place ae4 16) (insideOf ae4) .udp ⟨exA, 61002⟩ ⟨srv, 80⟩ :=
  ⟨by decide +kernel, by decide +kernel, place_holds 16 (by decide +kernel), by decide +kernel, by decide +kernel, by decide +kernel,
    ⟨by decide +kernel, by decide +kernel, by decide +kernel, by decide +kernel, by decide +kernel, by decide +kernel⟩, by decide +kernel, by decide +kernel⟩

theorem error6 : Error6 e6 ae6 (place ae6 16) (insideOf ae6) 40 none 40 17 .udp ⟨srv6, 80⟩ ⟨n1, 5000⟩ :=
  ⟨by decide +kernel, by decide +kernel, place_holds 16 (by decide +kernel), by decide +kernel, by decide +kernel, .last (by decide +kernel),
    ⟨.last (by decide +kernel), rfl, by decide +kernel, by decide +kernel, by decide +kernel, by decide +kernel, by decide +kernel⟩, by decide +kernel, by decide +kernel⟩

theorem passes4 : Passes46 exCtx e4.data :=
  ⟨rfl, by decide +kernel, ⟨1, 0, (Icmp.icmp46_table _ _ _ _).1 (by decide +kernel)⟩, by decide +kernel, fun _ => by decide +kernel, by decide +kernel⟩

theorem passes6 : Passes64 exCtx none e6.data 40 :=
  ⟨rfl, by decide +kernel, ⟨3, 1, (Icmp.icmp64_table _ _ _ _).1 (by decide +kernel)⟩, by decide +kernel, fun _ => by decide +kernel, by decide +kernel⟩

/-- The node learns that its datagram, from port 5000 to port 80 of the server as it knows it, did not get there. -/
example : ∃ r o, passErr4 cfg P96 (st talked) ctx exCtx exErr (place ae4 16) ae4 (insideOf ae4) = .ok r ∧ r.fate = .sent o ∧ dst6 o = n1.toNat ∧ byte o 40 = 1#8 ∧ byte o 41 = 0#8 ∧
    ∃ q fh, Is6 q fh 40 17 .udp ⟨n1, 5000⟩ ⟨srv6, 80⟩ ∧ IcmpExt.Good 8 1280 48 (noExt46 e4.data) 0 (about4 e4.data) q (.ok (o.drop 48) (field o 44 1)) := by
  obtain ⟨r, h1, -, -, h2, h3⟩ := error46_partial (cfg := cfg) (P := P96) (c := ctx) (x := exCtx) (y := exErr) Nat64.Ex.talked_reach error4
  obtain ⟨o, ho⟩ := h2.2 ⟨by decide +kernel, by decide +kernel, by decide, rfl, rfl, passes4⟩
  obtain ⟨b, hb, hb', a6, src, f1, f2, f3, q, fh, f4, f5⟩ := h3 o ho
  have hb0 : (⟨⟨n1, 5000⟩, ⟨exA, 61002⟩⟩ : Bib.BibKey) ∈ bibs (st talked) .UDP := by decide +kernel
  have : b = ⟨⟨n1, 5000⟩, ⟨exA, 61002⟩⟩ := ((Nat64.reach_good Nat64.Ex.talked_reach).wf _).uniq4 hb hb0 hb'
  subst this
  have ha : rfc6052_4to6 P96 srv = some srv6 := by decide +kernel
  rw [ha] at f1
  cases f1
  have ht := (Icmp.icmp46_table _ _ _ _).2 f3.type
  rw [show byte e4.data (WireSpec.l4 e4.data) = 3#8 by decide +kernel, show byte e4.data (WireSpec.l4 e4.data + 1) = 1#8 by decide +kernel] at ht
  have ht := (by simpa [Icmp.xlat46Type, Icmp.xlat64Type] using ht : _ ∧ _).imp Eq.symm Eq.symm
  refine ⟨r, o, h1, ho, f3.head.dst, ht.1, ht.2, q, fh, ?_, ?_⟩
  · rw [show l6 (about4 e4.data) = 40 by decide +kernel, show to6 (proto4 (about4 e4.data)) = 17 by decide +kernel] at f4
    exact f4
  · rw [show field e4.data (WireSpec.l4 e4.data + 5) 1 * 4 = 0 by decide +kernel] at f5
    exact f5

/-- The server learns that its answer, from its port 80 to port 61002 of the address in pool4, did not get there. -/
example : ∃ r o, passErr6 cfg P96 (st talked) ctx exCtx exErr 7#16 none (place ae6 16) ae6 (insideOf ae6) = .ok r ∧ r.fate = .sent o ∧ src4 o = exA.toNat ∧ dst4 o = srv.toNat ∧
    byte o 20 = 3#8 ∧ byte o 21 = 1#8 ∧ ∃ q, Is4 q .udp ⟨srv, 80⟩ ⟨exA, 61002⟩ ∧ IcmpExt.Good 4 576 28 false 0 (e6.data.drop 48) q (.ok (o.drop 28) (field o 25 1)) := by
  obtain ⟨r, h1, -, -, h2, h3⟩ := error64_partial (cfg := cfg) (P := P96) (c := ctx) (x := exCtx) (y := exErr) (sel2 := 7#16) (segleft := none) Nat64.Ex.talked_reach error6
  have hb0 : (⟨⟨n1, 5000⟩, ⟨exA, 61002⟩⟩ : Bib.BibKey) ∈ bibs (st talked) .UDP := by decide +kernel
  have ha : rfc6052_6to4 P96 srv6 = some srv := by decide +kernel
  obtain ⟨o, ho⟩ := h2.2 ⟨by decide +kernel, by decide +kernel, rfl, passes6, _, hb0, rfl, srv, ha, fun h => nomatch h⟩
  obtain ⟨b, hb, hb', a4, f1, f2, f3, f4, q, f5, f6, f7⟩ := h3 o ho
  have : b = ⟨⟨n1, 5000⟩, ⟨exA, 61002⟩⟩ := ((Nat64.reach_good Nat64.Ex.talked_reach).wf _).uniq6 hb hb0 hb'
  subst this
  rw [ha] at f1
  cases f1
  have ht := (Icmp.icmp64_table _ _ _ _).2 f4.type
  rw [show byte e6.data 40 = 1#8 by decide +kernel, show byte e6.data (40 + 1) = 0#8 by decide +kernel] at ht
  have ht := (by simpa [Icmp.xlat46Type, Icmp.xlat64Type] using ht : _ ∧ _).imp Eq.symm Eq.symm
  have f6 := f6 (by decide +kernel)
  rw [show field e6.data (40 + 4) 1 * 8 = 0 by decide +kernel] at f6
  exact ⟨r, o, h1, f2.2 (by decide +kernel), f4.head.src, f4.head.dst, ht.1, ht.2, q, f5, f6⟩

end Jool.Whole.Ex
