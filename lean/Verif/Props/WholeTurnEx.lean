import Verif.Props.WholeTurned
/-
C92: a datagram from one node to another one behind the same NAT64, byte by byte.
-/
namespace Jool.WholeTurn.Ex
open Jool.Pkt (Byte L4 Acc)
open Jool.Build (place place_holds got)
open Jool.Nat64Spec
open Jool.WireSpec
open Jool.WholeSpec
open Jool.Nat64.Ex (n1 n2 pool6 P96 cfg ctx st talked)

/-- From port 4000 of the second node to port 61002 of the address in pool4, which is port 5000 of the first node. -/
def d : Pkt.Skb :=
  ⟨[0x60#8, 0#8, 0#8, 0#8, 0#8, 12#8, 17#8, 64#8] ++ Csum.be128 n2 ++ Csum.be128 pool6 ++ [15#8, 160#8, 238#8, 74#8, 0#8, 12#8, 7#8, 7#8, 1#8, 2#8, 3#8, 4#8], 52⟩

def a : Acc := got (Pkt.init6 d)

theorem arrives : Arrives6 d a (place a 16) :=
  ⟨by decide +kernel, by decide +kernel, place_holds 16 (by decide +kernel), by decide +kernel, by decide +kernel, by decide +kernel⟩

theorem is : Is6 d.data none 40 17 .udp ⟨n2, 4000⟩ ⟨pool6, 61002⟩ :=
  ⟨.last (by decide +kernel), rfl, by decide +kernel, by decide +kernel, by decide +kernel, by decide +kernel, by decide +kernel⟩

def sent6 : Outcome Nat64.Res → Option (Nat64.Pkt Addr6)
  | .ok r => match r.out with
    | .sent6 q => some q
    | _ => none
  | .ub _ => none

theorem sent6_ok {r : Outcome Nat64.Res} {q : Nat64.Pkt Addr6} (h : sent6 r = some q) : ∃ r0, r = .ok r0 ∧ r0.out = .sent6 q := by
  unfold sent6 at h
  split at h
  · rename_i r0
    split at h
    · rename_i q' hq; cases h; exact ⟨r0, rfl, hq⟩
    · cases h
  · cases h

/-- It arrives, from port 61003 of the address in pool4 (`leaves66_partial`, `pass6_sent6`, `sent66`, `turned_partial`), whatever the checksum is (`x.sm`). -/
theorem arrived (x : Wire.Ctx) (e2 : Build.Env) : ∃ r o fh' l', pass6 cfg P96 (st talked) ctx (some ctx) x e2 none (place a 16) a = .ok r ∧ r.fate = .sent6 o ∧
    Sent66 x .udp ⟨n2, 4000⟩ ⟨pool6, 61002⟩ ⟨pool6, 61003⟩ ⟨n1, 5000⟩ 61003 d.data none 40 17 o fh' l' := by
  obtain ⟨r0, h1, h2⟩ := sent6_ok (r := Nat64.core6 cfg (st talked) ctx (some ctx) (Whole.pkt6 a)) (q := ⟨pool6, n1, .udp 61003 5000⟩) (by decide +kernel)
  obtain ⟨r, h3, h4, -⟩ := leaves66_partial (x := x) (e2 := e2) (segleft := none) Nat64.Ex.talked_reach Whole.Ex.active arrives is h1 h2
  obtain ⟨o, ho⟩ := h4.2 ⟨rfl, by decide +kernel⟩
  obtain ⟨b1, -, b2, -, a4, x1, q, sm, q6, -, -, -, -, h5, h6, V6, h8⟩ := pass6_sent6 Nat64.Ex.talked_reach Whole.Ex.active arrives is h3 ho
  rw [h1] at h8
  injection h8 with h8
  have hq : (⟨pool6, n1, .udp 61003 5000⟩ : Nat64.Pkt Addr6) = q6 := by
    have := congrArg Nat64.Res.out h8
    rw [h2] at this
    injection this
  rw [← hq] at V6
  have V : view6 (⟨pool6, n1, .udp 61003 5000⟩ : Nat64.Pkt Addr6) = some (.udp, ⟨pool6, 61003⟩, ⟨n1, 5000⟩) := rfl
  rw [V] at V6
  simp only [Option.some.injEq, Prod.mk.injEq, true_and] at V6
  obtain ⟨fh', l', H⟩ := sent66 arrives is h5 h6
  have p1 : Kind.port .udp b1.src4.port b2.src6.port = b1.src4.port := rfl
  have p2 : Kind.port .udp b2.src6.port b1.src4.port = b2.src6.port := rfl
  rw [p1] at H V6
  rw [p2, ← V6.2, ← V6.1] at H
  have p3 : b1.src4.port = 61003#16 := (congrArg T6.port V6.1).symm
  rw [p3] at H
  exact ⟨r, o, fh', l', h3, ho, H⟩

def bytes : Outcome Res → Option (List Byte)
  | .ok r => match r.fate with
    | .sent6 o => some o
    | _ => none
  | .ub _ => none

/-- The bytes: one hop less, another source, another destination, other ports, another checksum. -/
example : bytes (pass6 cfg P96 (st talked) ctx (some ctx) Wire.exCtx Wire.exCtx.env none (place a 16) a) =
    some ([0x60#8, 0#8, 0#8, 0#8, 0#8, 12#8, 17#8, 63#8] ++ Csum.be128 pool6 ++ Csum.be128 n1 ++ [238#8, 75#8, 19#8, 136#8, 0#8, 12#8, 3#8, 31#8, 1#8, 2#8, 3#8, 4#8]) := by
  decide +kernel

/-- Out of hops: nothing leaves. -/
example : bytes (pass6 cfg P96 (st talked) ctx (some ctx) Wire.exCtx Wire.exCtx.env none
    (place { a with skb := { a.skb with data := a.skb.data.set 7 1#8 } } 16) { a with skb := { a.skb with data := a.skb.data.set 7 1#8 } }) = none := by
  decide +kernel

end Jool.WholeTurn.Ex
