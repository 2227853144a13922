import Verif.Props.Whole
import Verif.Props.WireEx
import Verif.Props.Nat64Examples
/-
C79: a datagram and its answer, byte by byte, through an instance with an address in pool4.
-/
namespace Jool.Whole.Ex
open Jool.Pkt (Byte L4 Acc)
open Jool.Build (place place_holds got)
open Jool.Nat64Spec
open Jool.WireSpec
open Jool.WholeSpec
open Jool.Nat64.Ex (n1 srv srv6 P96 cfg ctx pool st talked)
open Jool.Pool4 (exA)
open Jool.Bib (SessKey)

/-- From port 5000 of the node to port 80 of the server. -/
def d6 : Pkt.Skb :=
  ⟨[0x60#8, 0#8, 0#8, 0#8, 0#8, 12#8, 17#8, 64#8] ++ Csum.be128 n1 ++ Csum.be128 srv6 ++ [19#8, 136#8, 0#8, 80#8, 0#8, 12#8, 7#8, 7#8, 1#8, 2#8, 3#8, 4#8], 52⟩

/-- From port 80 of the server to port 61002 of the address in pool4. -/
def d4 : Pkt.Skb :=
  ⟨[0x45#8, 0#8, 0#8, 32#8, 0#8, 0#8, 0#8, 0#8, 64#8, 17#8, 0#8, 0#8] ++ Csum.be32 srv ++ Csum.be32 exA ++ [0#8, 80#8, 238#8, 74#8, 0#8, 12#8, 7#8, 7#8, 1#8, 2#8, 3#8, 4#8], 32⟩

def a6 : Acc := got (Pkt.init6 d6)
def a4 : Acc := got (Pkt.init4 d4)

theorem arrives6 : Arrives6 d6 a6 (place a6 16) :=
  ⟨by decide +kernel, by decide +kernel, place_holds 16 (by decide +kernel), by decide +kernel, by decide +kernel, by decide +kernel⟩

theorem arrives4 : Arrives4 d4 a4 (place a4 16) :=
  ⟨by decide +kernel, by decide +kernel, place_holds 16 (by decide +kernel), by decide +kernel, by decide +kernel, by decide +kernel, by decide +kernel⟩

theorem is6 : Is6 d6.data none 40 17 .udp ⟨n1, 5000⟩ ⟨srv6, 80⟩ :=
  ⟨.last (by decide +kernel), rfl, by decide +kernel, by decide +kernel, by decide +kernel, by decide +kernel, by decide +kernel⟩

theorem is4 : Is4 d4.data .udp ⟨srv, 80⟩ ⟨exA, 61002⟩ := ⟨by decide +kernel, by decide +kernel, by decide +kernel, by decide +kernel, by decide +kernel, by decide +kernel⟩

theorem pool_reach : Reach (st pool) := Nat64.Ex.reach (by decide +kernel) (by decide +kernel)
theorem active : Active cfg P96 := ⟨rfl, rfl⟩

def sent4 : Outcome Nat64.Res → Bool
  | .ok r => match r.out with
    | .sent4 _ => true
    | _ => false
  | .ub _ => false

theorem sent4_ok {r : Outcome Nat64.Res} (h : sent4 r = true) : ∃ r0 q, r = .ok r0 ∧ r0.out = .sent4 q := by
  unfold sent4 at h
  split at h
  · rename_i r0
    split at h
    · rename_i q hq; exact ⟨r0, q, rfl, hq⟩
    · cases h
  · cases h

/-- It leaves from the address in pool4 (`leaves64_partial`, `out64_partial`); and the answer arrives (`answered64_partial`). -/
example : ∃ r o, pass6 cfg P96 (st pool) ctx Wire.exCtx none (place a6 16) a6 = .ok r ∧ r.fate = .sent o ∧ Is4 o .udp ⟨exA, 61002⟩ ⟨srv, 80⟩ ∧
    ∃ r' o', pass4 cfg P96 (st talked) ctx Wire.exCtx (place a4 16) a4 = .ok r' ∧ r'.fate = .sent o' ∧ ∃ fh, Is6 o' fh 40 17 .udp ⟨srv6, 80⟩ ⟨n1, 5000⟩ := by
  obtain ⟨r0, q, h1, h2⟩ := sent4_ok (r := Nat64.core6 cfg (st pool) ctx none (pkt6 a6)) (by decide +kernel)
  obtain ⟨r, h3, h4, h5⟩ := leaves64_partial (x := Wire.exCtx) (segleft := none) pool_reach active arrives6 is6 h1 h2
  obtain ⟨o, ho⟩ := h5.2 ⟨rfl, by decide +kernel⟩
  obtain ⟨b, d, y, g1, g2, g3, g4, g5⟩ := answered64_partial pool_reach active arrives6 is6 h3 ho
  have hb : b.src4 = ⟨exA, 61002⟩ ∧ d = ⟨srv, 80⟩ := by
    obtain ⟨V, e⟩ : view4 (⟨exA, srv, .udp 61002 80⟩ : Nat64.Pkt Addr4) = some (.udp, ⟨exA, 61002⟩, ⟨srv, 80⟩) ∧ q = ⟨exA, srv, .udp 61002 80⟩ := by
      refine ⟨rfl, ?_⟩
      have : (match Nat64.core6 cfg (st pool) ctx none (pkt6 a6) with | .ok r => some r.out | .ub _ => none) = some (.sent4 ⟨exA, srv, .udp 61002 80⟩) := by decide +kernel
      rw [h1] at this
      simp only [h2, Option.some.injEq, Nat64.Out.sent4.injEq] at this
      exact this
    obtain ⟨-, -, -, V6⟩ := view6_of arrives6.accepted arrives6.inside is6
    obtain ⟨b0, -, w4, q', -, -, k3, k4, k5⟩ := pass6_sent pool_reach active V6 h3 ho
    have k5 := k5 none
    rw [h1] at k5
    cases k5
    simp only [Nat64.Out.sent4.injEq] at h2
    subst h2
    rw [e, V] at k4
    simp only [Option.some.injEq, Prod.mk.injEq, true_and] at k4
    obtain ⟨w, e1, -, e3⟩ := bytes64 (segleft := none) arrives6 is6 (assign Wire.exCtx b0.src4.port (Kind.udp.port 80 b0.src4.port)) b0.src4.addr w4
    simp only at k3
    rw [k3] at e1
    cases e1
    have J := is4_of arrives6 is6 (e3 o rfl)
    have a1 := g1.src.symm.trans J.src
    have a2 := g1.dst.symm.trans J.dst
    have a3 := g1.seg.2.1.symm.trans J.seg.2.1
    have a4 := g1.seg.2.2.symm.trans J.seg.2.2
    obtain ⟨k4, k4'⟩ := k4
    obtain ⟨⟨b1, b2⟩, ⟨b3, b4⟩⟩ := b
    obtain ⟨d1, d2⟩ := d
    obtain ⟨c1, ⟨c3, c4⟩⟩ := b0
    simp only [T4.mk.injEq] at k4 k4' ⊢
    exact ⟨⟨(addr_of a1).trans k4.1.symm, (addr_of a3).trans k4.2.symm⟩, (addr_of a2).trans k4'.1.symm, (addr_of a4).trans k4'.2.symm⟩
  rw [hb.1, hb.2] at g1
  refine ⟨r, o, h3, ho, g1, ?_⟩
  have hk : b = ⟨⟨n1, 5000⟩, ⟨exA, 61002⟩⟩ := by
    obtain ⟨b1, b2⟩ := b
    simp only at g2 hb
    rw [g2, hb.1]
  subst hk
  rw [hb.2] at g5
  obtain ⟨r', o', i1, i2, ⟨fh, i3⟩, -⟩ := g5 cfg (st talked) ctx Wire.exCtx d4 a4 (place a4 16) .udp Nat64.Ex.talked_reach active ⟨rfl, rfl, rfl⟩ arrives4 is4 rfl (by decide +kernel)
    (by decide +kernel) (fun h => nomatch h) rfl (by decide +kernel)
  have hy : y = srv6 := by
    have := g3.2 (by
      have : rfc6052_6to4 P96 srv6 = some srv := by decide +kernel
      exact (rfc6052_extract_embed P96 srv6 srv this).1 (by decide +kernel))
    exact this
  rw [hy] at i3
  exact ⟨r', o', i1, i2, fh, i3⟩

end Jool.Whole.Ex
