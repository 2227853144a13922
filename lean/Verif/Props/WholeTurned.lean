import Verif.Props.WholeTurn
/-
C92, continued: the two passes together.
-/
namespace Jool.WholeSpec
open Jool.Pkt (Byte)
open Jool.WireSpec

/-- An IPv6 packet (`d`) that a NAT64 sends to another IPv6 node (`o`). `S`, `T`: source and destination before; `S'`, `T'`: afterwards. `u`: the port (or identifier) between
the two passes. -/
structure Sent66 (x : Wire.Ctx) (k : Nat64Spec.Kind) (S T S' T' : T6) (u : BitVec 16) (d : List Byte) (fh : Option Nat) (l n : Nat) (o : List Byte) (fh' : Option Nat) (l' : Nat) :
    Prop where
  /-- The same kind of packet, from and to the right ones. -/
  is : Is6 o fh' l' n k S' T'
  version : ver o = 6
  flow : flow6 o = 0
  cls : x.cfg.resetTc = false → Wire.tosOf x.cfg = none → class6 o + (if x.cfg.dscp then class6 d % 4 else 0) = class6 d
  /-- One hop, not two. -/
  hop : hop6 o + 1 = hop6 d
  alive : 1 ≤ hop6 o
  len : 40 + len6 o = o.length
  size : o.length = l' + (d.length - l)
  /-- No other header is left; fragments remain fragments. -/
  whole : moreAt d fh = 0 → l' = 40 ∧ fh' = none
  piece : ∀ j, fh = some j → fmore d j = 1 → l' = 48 ∧ fh' = some 40 ∧ foff o 40 = 0 ∧ fmore o 40 = 1 ∧ fid o 40 = fid d j % 65536
  /-- Nothing but ports and checksum changes behind the headers. -/
  tcp : n = 6 → Only 16 (ported (some (S'.port, T'.port)) (d.drop l)) (o.drop l')
  udp : n = 17 → Only 6 (ported (some (S'.port, T'.port)) (d.drop l)) (o.drop l')
  echo : n = 58 → Only 2 (echoed (BitVec.ofNat 8 (field d l 1)) (some S'.port) (d.drop l)) (o.drop l')
  /-- The checksum is right if it was, whatever else belongs to the packet. -/
  tcpSum : n = 6 → x.sm ≠ .partial_ → ∀ extra len, len < 65536 →
    (CsumSpec.Valid (CsumSpec.ph6 S'.addr T'.addr len 6#8 ++ (o.drop l' ++ extra)) ↔ CsumSpec.Valid (CsumSpec.ph6 S.addr T.addr len 6#8 ++ (d.drop l ++ extra)))
  udpSum : n = 17 → x.sm ≠ .partial_ → ∀ extra len, len < 65536 →
    (CsumSpec.Valid (CsumSpec.ph6 S'.addr T'.addr len 17#8 ++ (o.drop l' ++ extra)) ↔ CsumSpec.Valid (CsumSpec.ph6 S.addr T.addr len 17#8 ++ (d.drop l ++ extra)))
  tcpNew : n = 6 → x.sm = .partial_ → CsumSpec.Valid (CsumSpec.ph6 S'.addr T'.addr (o.drop l').length 6#8 ++ o.drop l')
  udpNew : n = 17 → x.sm = .partial_ → CsumSpec.Valid (CsumSpec.ph6 S'.addr T'.addr (o.drop l').length 17#8 ++ o.drop l')
  echoSum : n = 58 → x.sm ≠ .partial_ → field d l 1 = 128 ∨ u ≠ 0#16 →
    (CsumSpec.Valid (CsumSpec.ph6 S'.addr T'.addr (o.drop l').length 58#8 ++ o.drop l') ↔ CsumSpec.Valid (CsumSpec.ph6 S.addr T.addr (d.drop l).length 58#8 ++ d.drop l))

end Jool.WholeSpec

namespace Jool.WholeTurn
open Jool.Pkt (Byte L4 Acc at8 isFirst6 tcpLen)
open Jool.Csum (Summed)
open Jool.Build (Holds)
open Jool.Nat64 (Port Fu Tuple)
open Jool.Nat64Spec
open Jool.WireSpec
open Jool.WholeSpec
open Jool.Wire (fhOf)
open Jool.Whole (pkt6 pkt4 assign)

set_option linter.unusedVariables false

variable {cfg : Nat64.Cfg} {P : Prefix6} {s : Nat64.St} {c : Nat64.Ctx} {c2 : Option Nat64.Ctx} {x : Wire.Ctx} {e2 : Build.Env} {segleft : Option Nat} {p : Build.P} {a : Acc} {s0 : Pkt.Skb}

theorem compute4_ports {k : Kind} {S D : T4} {st : Nat64.St} {known : Option Bib.BibKey} {t : Tuple T6} (h : Nat64.compute4 P st ⟨S, D, k.proto⟩ known = .ok t) :
    k.port t.src.port t.src.port = t.src.port ∧ k.port t.dst.port t.src.port = t.dst.port := by
  refine ⟨by cases k <;> rfl, ?_⟩
  unfold Nat64.compute4 at h
  split at h
  · cases h
  · split at h
    · cases h
    · cases h
      cases k <;> rfl

/-- The second pass of a packet that leaves. -/
theorem turn_sent {k : Kind} {S D : T4} {r : Res} {o : List Byte} {sm : Summed} {q : Build.P} (V : view4 (pkt4 (again q)) = some (k, S, D))
    (hr : turn cfg P s c2 x e2 sm q ⟨S, D, k.proto⟩ = .ok r) (ho : r.fate = .sent6 o) :
    ∃ c', c2 = some c' ∧ ∃ f q6 S' D', Nat64.fu4 cfg P s c' (pkt4 (again q)) ⟨S, D, k.proto⟩ = .ok f ∧ view6 q6 = some (k, S', D') ∧
      Wire.translate46 (turned x e2 sm S'.port D'.port) S'.addr D'.addr q (again q) = .ok (some o) ∧
      ∀ stop, Nat64.finish4 cfg P c' (pkt4 (again q)) ⟨S, D, k.proto⟩ f stop = ⟨r.st, r.ev, .sent6 q6⟩ := by
  unfold turn at hr
  cases c2 with
  | none => cases hr; cases ho
  | some c' =>
    obtain ⟨f, hf, hr⟩ := Nat64.bind_ok hr
    refine ⟨c', rfl, f, ?_⟩
    unfold end4 at hr
    cases hk : f.res with
    | error e => rw [hk] at hr; cases hr; cases ho
    | ok known =>
      rw [hk] at hr
      simp only at hr
      cases hc : Nat64.compute4 P f.st ⟨S, D, k.proto⟩ known with
      | error e => rw [hc] at hr; cases hr; cases ho
      | ok t =>
        rw [hc] at hr
        simp only at hr
        cases hfl : c'.fail with
        | some e => rw [hfl] at hr; cases hr; cases ho
        | none =>
          have hsa : Nat64.saddr6 cfg P (pkt4 (again q)) t = some t.src.addr := by simp [Nat64.saddr6, (Nat64.view4_tuple V).2.1]
          rw [hfl, hsa] at hr
          obtain ⟨w, hw, rfl⟩ := Nat64.map_ok hr
          cases w with
          | none => cases ho
          | some o' =>
            obtain ⟨q6, hq⟩ := Whole.translate4_ok (cfg := cfg) (P := P) V hfl t
            have hsf : c'.sendFails = false := by
              cases h : c'.sendFails with
              | false => rfl
              | true => simp [leave, h] at ho
            have ho' : o' = o := by simpa [leave, hsf] using ho
            subst ho'
            refine ⟨q6, _, _, hf, Nat64.translate4_view V hq, ?_, ?_⟩
            · have hports := compute4_ports hc
              rw [hports.1, hports.2]
              exact hw
            · intro stop
              unfold Nat64.finish4
              rw [hk]
              simp only
              rw [hc]
              simp only
              rw [hq]
              simp only
              unfold Nat64.send
              simp [leave, hsf]

/-- The second pass of a packet that the tables let through. -/
theorem turn_core {c' : Nat64.Ctx} {k : Kind} {S D : T4} {sm : Summed} {q : Build.P} {f : Fu} {stop : Nat64.Stop → Nat64.Out} {q6 : Nat64.Pkt Addr6} {S' D' : T6}
    (hst : ∀ e q, stop e ≠ .sent6 q) (V : view4 (pkt4 (again q)) = some (k, S, D)) (hf : Nat64.fu4 cfg P s c' (pkt4 (again q)) ⟨S, D, k.proto⟩ = .ok f)
    (ho : (Nat64.finish4 cfg P c' (pkt4 (again q)) ⟨S, D, k.proto⟩ f stop).out = .sent6 q6) (V6 : view6 q6 = some (k, S', D')) {w : Option (List Byte)}
    (hw : Wire.translate46 (turned x e2 sm S'.port D'.port) S'.addr D'.addr q (again q) = .ok w) :
    ∃ r, turn cfg P s (some c') x e2 sm q ⟨S, D, k.proto⟩ = .ok r ∧ r.st = f.st ∧ ∀ o, r.fate = .sent6 o ↔ w = some o := by
  unfold Nat64.finish4 at ho
  cases hk : f.res with
  | error e => rw [hk] at ho; exact absurd ho (hst _ _)
  | ok known =>
    rw [hk] at ho
    simp only at ho
    cases hcm : Nat64.compute4 P f.st ⟨S, D, k.proto⟩ known with
    | error e => rw [hcm] at ho; exact absurd ho (hst _ _)
    | ok t =>
      rw [hcm] at ho
      simp only at ho
      cases hq : Nat64.translate4 cfg P c' (pkt4 (again q)) t with
      | error e => rw [hq] at ho; exact absurd ho (hst _ _)
      | ok q' =>
        rw [hq] at ho
        simp only at ho
        have hfl : c'.fail = none := by
          cases h : c'.fail with
          | none => rfl
          | some e => unfold Nat64.translate4 at hq; rw [h] at hq; cases hq
        have hsf : c'.sendFails = false := by
          cases h : c'.sendFails with
          | false => rfl
          | true => unfold Nat64.send at ho; rw [h] at ho; cases ho
        have hqq : q' = q6 := by
          unfold Nat64.send at ho; rw [hsf] at ho
          simpa using ho
        subst hqq
        have e2 := Nat64.translate4_view V hq
        rw [V6] at e2
        simp only [Option.some.injEq, Prod.mk.injEq, true_and] at e2
        obtain ⟨rfl, rfl⟩ := e2
        have hsa : Nat64.saddr6 cfg P (pkt4 (again q)) t = some t.src.addr := by simp [Nat64.saddr6, (Nat64.view4_tuple V).2.1]
        have hports := compute4_ports hcm
        rw [hports.1, hports.2] at hw
        unfold turn
        simp only
        rw [hf]
        show ∃ r, end4 cfg P c' x _ sm q ⟨S, D, k.proto⟩ f = .ok r ∧ _
        unfold end4
        rw [hk]
        simp only
        rw [hcm]
        simp only
        rw [hfl]
        simp only
        rw [hsa]
        simp only
        rw [hw]
        refine ⟨_, rfl, ?_, fun o => ?_⟩
        · cases w <;> rfl
        · cases w with
          | none => simp [leave]
          | some w => simp [leave, hsf]

/-- The first pass, up to the outgoing tuple. -/
theorem first {k : Kind} {S D : T6} {f : Fu} {known : Option Bib.BibKey} {t : Tuple T4} (hs : Reach s) (V : view6 (pkt6 a) = some (k, S, D))
    (hf : Nat64.fu6 cfg P s c (pkt6 a) ⟨S, D, k.proto⟩ = .ok f) (hk : f.res = .ok known) (hc : Nat64.compute6 P f.st ⟨S, D, k.proto⟩ known = .ok t) (hfl : c.fail = none) :
    ∃ q4, Nat64.translate6 c (pkt6 a) t f.saddr = .ok q4 ∧ ∃ b ∈ bibs f.st k.proto, ∃ a4, b.src6 = S ∧ rfc6052_6to4 P D.addr = some a4 ∧
      t = ⟨b.src4, ⟨a4, k.port D.port b.src4.port⟩, k.proto⟩ ∧ f.saddr.getD b.src4.addr = b.src4.addr ∧ view4 q4 = some (k, b.src4, ⟨a4, k.port D.port b.src4.port⟩) := by
  obtain ⟨q, hq⟩ := Whole.translate6_ok V hfl t f.saddr
  have g := Nat64.reach_good hs
  obtain ⟨a4, m, b, sess, ha, -, C, -, rfl, V4, -⟩ := Nat64.pass6 g V (Nat64.fu6_cases g hf) hk hc hq
  have e2 := Nat64.translate6_view V hq
  rw [V4] at e2
  simp only [Option.some.injEq, Prod.mk.injEq, true_and] at e2
  have e3 : b.src4.addr = f.saddr.getD b.src4.addr := congrArg T4.addr e2.1
  exact ⟨q, hq, b, C.mem, a4, C.src, ha, rfl, e3.symm, V4⟩

/-- Both passes of a packet that leaves. -/
theorem pass6_sent6 {fh : Option Nat} {l n : Nat} {k : Kind} {S D : T6} {r : Res} {o : List Byte} (hs : Reach s) (hA : Active cfg P) (A : Arrives6 s0 a p)
    (I : Is6 s0.data fh l n k S D) (hr : pass6 cfg P s c c2 x e2 segleft p a = .ok r) (ho : r.fate = .sent6 o) :
    ∃ b1 ∈ bibs r.st k.proto, ∃ b2 ∈ bibs r.st k.proto, ∃ a4 x1 q sm q6, b1.src6 = S ∧ rfc6052_6to4 P D.addr = some a4 ∧ b2.src4 = ⟨a4, k.port D.port b1.src4.port⟩ ∧
      rfc6052_4to6 P b1.src4.addr = some x1 ∧
      Wire.build64 (assign x b1.src4.port (k.port D.port b1.src4.port)) b1.src4.addr a4 segleft p a = .ok (some (q, sm)) ∧
      Wire.translate46 (turned x e2 sm (k.port b1.src4.port b2.src6.port) b2.src6.port) x1 b2.src6.addr q (again q) = .ok (some o) ∧
      view6 q6 = some (k, ⟨x1, k.port b1.src4.port b2.src6.port⟩, b2.src6) ∧ Nat64.core6 cfg s c c2 (pkt6 a) = .ok ⟨r.st, r.ev, .sent6 q6⟩ := by
  obtain ⟨-, -, -, V⟩ := Whole.view6_of A.accepted A.inside I
  have ht := (Nat64.view6_tuple V).1
  unfold pass6 at hr
  rw [ht] at hr
  obtain ⟨f, hf, hr⟩ := Nat64.bind_ok hr
  unfold end6 at hr
  cases hk : f.res with
  | error e => rw [hk] at hr; cases hr; cases ho
  | ok known =>
    rw [hk] at hr
    simp only at hr
    cases hc : Nat64.compute6 P f.st ⟨S, D, k.proto⟩ known with
    | error e => rw [hc] at hr; cases hr; cases ho
    | ok t =>
      rw [hc] at hr
      simp only at hr
      cases hfl : c.fail with
      | some e => rw [hfl] at hr; cases hr; cases ho
      | none =>
        rw [hfl] at hr
        simp only at hr
        obtain ⟨q4, hq4, b, hb, a4, hbs, ha4, rfl, hsa, V4⟩ := first hs V hf hk hc hfl
        simp only [hsa] at hr
        cases hh : Pool4.contains cfg.own f.st.pool4 k.proto ⟨a4, k.port D.port b.src4.port⟩ with
        | false =>
          rw [hh] at hr
          simp only [Bool.false_eq_true, if_false] at hr
          obtain ⟨w, -, rfl⟩ := Nat64.map_ok hr
          cases w with
          | none => cases ho
          | some o' =>
            simp only at ho
            split at ho <;> cases ho
        | true =>
          rw [hh] at hr
          simp only [if_true] at hr
          obtain ⟨w, hw, hr⟩ := Nat64.bind_ok hr
          cases w with
          | none => cases hr; cases ho
          | some w =>
            obtain ⟨q, sm⟩ := w
            simp only at hr
            obtain ⟨r', hr', rfl⟩ := Nat64.map_ok hr
            have hport : k.port (k.port D.port b.src4.port) b.src4.port = k.port D.port b.src4.port := by cases k <;> rfl
            have hp := middle_pkt A I hw hq4 (by rw [hport]; exact V4)
            obtain ⟨c', rfl, f', q6, S', D', hf', V6, hx, hfin⟩ := turn_sent (by rw [hp]; exact V4) hr' ho
            have hcore4 : Nat64.core4 cfg f.st c' q4 = .ok ⟨r'.st, r'.ev, .sent6 q6⟩ := by
              unfold Nat64.core4
              rw [hA.1, hA.2]
              simp only [Bool.not_true, Bool.false_eq_true, if_false]
              unfold Nat64.common4
              rw [(Nat64.view4_tuple V4).1]
              simp only
              rw [← hp, hf']
              show Outcome.ok (Nat64.finish4 ..) = _
              rw [hfin]
            obtain ⟨-, b2, hb2, hbd, -, x1, hx1, V6'⟩ := Nat64.translated46 hA.2 V4 hcore4 rfl
            rw [V6] at V6'
            simp only [Option.some.injEq, Prod.mk.injEq, true_and] at V6'
            obtain ⟨rfl, rfl⟩ := V6'
            have hb1 : b ∈ bibs r'.st k.proto := by
              have hsent : (Nat64.finish4 cfg P c' (pkt4 (again q)) ⟨b.src4, ⟨a4, k.port D.port b.src4.port⟩, k.proto⟩ f' Nat64.Stop.out).out = .sent6 q6 := by rw [hfin]
              have hst : r'.st = f'.st := by
                have := (Nat64.finish4_st cfg P c' (pkt4 (again q)) ⟨b.src4, ⟨a4, k.port D.port b.src4.port⟩, k.proto⟩ f' Nat64.Stop.out).1
                rw [hfin] at this
                exact this
              obtain ⟨known', o', hk', _, _⟩ := Nat64.finish4_sent (fun e q => (Nat64.out_not_sent e).2.1 q) hsent
              obtain ⟨_, _, _, _, _, htree, _⟩ := Nat64.fu4_view (by rw [hp]; exact V4) (Nat64.fu4_cases hf') hk'
              rw [hst]
              unfold bibs BibSpec.bibs
              rw [htree]; exact hb
            refine ⟨b, hb1, b2, hb2, a4, x1, q, sm, q6, hbs, ha4, hbd, hx1, hw, hx, V6, ?_⟩
            unfold Nat64.core6
            rw [hA.1, hA.2]
            simp only [Bool.not_true, Bool.false_eq_true, if_false]
            unfold Nat64.common6
            rw [ht]
            simp only
            rw [hf]
            show (match f.res with | .error e => _ | .ok known => _) = _
            rw [hk]
            simp only
            rw [hc]
            simp only
            rw [hq4]
            simp only [hh, if_true]
            unfold Nat64.hairpin
            simp only
            rw [← hp, hf']
            show Outcome.ok _ = _
            simp only [hfin]

/-! ## The bytes -/

theorem is6_of {k : Kind} {S D : T4} {y : Wire.Ctx} {u v : Port} {s6 d6 : BitVec 128} {o : List Byte} (hp : y.ports = some (u, v)) (hid : y.id = some u) (A : Arrives4 s0 a p)
    (I : Is4 s0.data k S D) (h : Sent46 y s6 d6 s0.data o) : ∃ fh, Is6 o fh (l6 s0.data) (to6 (proto4 s0.data)) k ⟨s6, u⟩ ⟨d6, k.port v u⟩ ∧
      (mf4 s0.data = 0 → fh = none) ∧ (mf4 s0.data ≠ 0 → fh = some 40) := by
  obtain ⟨-, hc, -⟩ := Whole.view4_of A.accepted A.inside I
  have h1 := Whole.not58 I
  have hto : to6 (proto4 s0.data) ∉ [0, 43, 44, 60] := by
    simp only [List.mem_cons, List.not_mem_nil, or_false]
    unfold to6
    split <;> omega
  have hs := h.seg
  rw [hp, hid] at hs
  have hseg : Says 128 129 58 (to6 (proto4 s0.data)) (o.drop (l6 s0.data)) k u (k.port v u) :=
    Whole.says_out (u1 := 128#8) (u2 := 129#8) hs I.first ⟨fun _ => hc.tcp trivial, fun _ => hc.udp trivial, hc.echo⟩ (by decide) (by intro q; rw [q]; rfl) (by intro q; rw [q]; rfl)
      (by intro q; rw [q]; rfl) I.seg
  by_cases hw : mf4 s0.data = 0
  · have e : l6 s0.data = 40 := by unfold l6; rw [if_pos ⟨I.first, hw⟩]
    refine ⟨none, ⟨?_, rfl, h.head.src, h.head.dst, hseg⟩, fun _ => rfl, fun q => absurd hw q⟩
    rw [h.head.whole I.first hw, e]
    exact .last hto
  · have hw' : ¬ (off4 s0.data = 0 ∧ mf4 s0.data = 0) := fun q => hw q.2
    have e : l6 s0.data = 40 + 8 := by unfold l6; rw [if_neg hw']
    obtain ⟨g1, g2, g3, g4, g5, g6, g7⟩ := h.head.piece hw'
    refine ⟨some 40, ⟨?_, ?_, h.head.src, h.head.dst, hseg⟩, fun q => absurd q hw, fun _ => rfl⟩
    · rw [g1, e, ← g2]
      exact .frag (by show fnext o 40 ∉ _; rw [g2]; exact hto)
    · show foff o 40 = 0
      rw [g5, I.first]

theorem only_ported {k : Nat} {A B : List Byte} {u v : Port} (hk : 4 ≤ k) (hl : 4 ≤ A.length) (h : Only k A B) : Only k (ported (some (u, v)) A) (ported (some (u, v)) B) := by
  have hb : 4 ≤ B.length := by rw [h.1]; exact hl
  refine ⟨by rw [Wire.ported_length hb, Wire.ported_length hl, h.1], ?_⟩
  intro i q1 q2
  unfold ported
  simp only
  by_cases hi : i < 4
  · rw [List.getElem?_append_left (by simpa using hi), List.getElem?_append_left (by simpa using hi)]
  · rw [List.getElem?_append_right (by simp; omega), List.getElem?_append_right (by simp; omega), List.getElem?_drop, List.getElem?_drop]
    have := h.2 (4 + (i - [BitVec.ofNat 8 (u.toNat / 256), BitVec.ofNat 8 u.toNat, BitVec.ofNat 8 (v.toNat / 256), BitVec.ofNat 8 v.toNat].length)) (by simp; omega) (by simp; omega)
    exact this

theorem ported_twice {k : Nat} {ps : Option (Port × Port)} {u v : Port} {seg mid out : List Byte} (hk : 4 ≤ k) (hl : 4 ≤ seg.length) (h1 : Only k (ported ps seg) mid)
    (h2 : Only k (ported (some (u, v)) mid) out) : Only k (ported (some (u, v)) seg) out := by
  have h3 := only_ported (u := u) (v := v) hk (by rw [Wire.ported_length hl]; exact hl) h1
  have e : ported (some (u, v)) (ported ps seg) = ported (some (u, v)) seg := by
    cases ps with
    | none => rfl
    | some q =>
      obtain ⟨y, z⟩ := q
      unfold ported
      simp
  rw [e] at h3
  exact Wire.Only.trans h3 h2

theorem echoed_at {t : Byte} {u : Port} {seg : List Byte} (h : 8 ≤ seg.length) (i : Nat) :
    (echoed t (some u) seg)[i]? = if i = 0 then some t else if i = 1 then some 0#8 else if i = 4 then some (BitVec.ofNat 8 (u.toNat / 256)) else if i = 5 then some (BitVec.ofNat 8 u.toNat)
      else seg[i]? := by
  match seg, h with
  | b0 :: b1 :: b2 :: b3 :: b4 :: b5 :: r, _ =>
    unfold echoed
    match i with
    | 0 => rfl
    | 1 => rfl
    | 2 => rfl
    | 3 => rfl
    | 4 => rfl
    | 5 => rfl
    | i + 6 => simp

theorem echoed_again {t u : Byte} {i j : Port} {seg mid out : List Byte} (h : 8 ≤ seg.length) (h1 : Only 2 (echoed t (some i) seg) mid) (h2 : Only 2 (echoed u (some j) mid) out) :
    Only 2 (echoed u (some j) seg) out := by
  have hl : mid.length = seg.length := by rw [h1.1, Wire.echoed_length _ _ h]
  refine ⟨by rw [h2.1, Wire.echoed_length _ _ (by omega), Wire.echoed_length _ _ h, hl], ?_⟩
  intro m q1 q2
  rw [h2.2 m q1 q2, echoed_at (by omega), echoed_at h]
  by_cases m0 : m = 0
  · simp [m0]
  by_cases m1 : m = 1
  · simp [m1]
  by_cases m4 : m = 4
  · simp [m4]
  by_cases m5 : m = 5
  · simp [m5]
  simp only [m0, m1, m4, m5, if_false]
  rw [h1.2 m q1 q2, echoed_at h]
  simp only [m0, m1, m4, m5, if_false]

set_option maxHeartbeats 1000000 in
/-- **C92.** The bytes that both passes together make of a packet. -/
theorem sent66 {fh : Option Nat} {l n : Nat} {k : Kind} {S D : T6} {u v u' v' : Port} {s4 d4 : BitVec 32} {s6 d6 : Addr6} {q : Build.P} {sm : Summed} {o : List Byte}
    (A : Arrives6 s0 a p) (I : Is6 s0.data fh l n k S D) (hb : Wire.build64 (assign x u v) s4 d4 segleft p a = .ok (some (q, sm)))
    (hw : Wire.translate46 (turned x e2 sm u' v') s6 d6 q (again q) = .ok (some o)) :
    ∃ fh' l', Sent66 x k S D ⟨s6, u'⟩ ⟨d6, k.port v' u'⟩ u s0.data fh l n o fh' l' := by
  have I4 := middle_is4 A I hb
  obtain ⟨w, hw', -, H⟩ := middle (segleft := segleft) A I (assign x u v) s4 d4
  rw [hb] at hw'
  injection hw' with hw'
  obtain ⟨hsm, A4, head, hlen, seg, hsum⟩ := H q sm hw'.symm
  obtain ⟨hfh, hl4, hc, V6⟩ := Whole.view6_of A.accepted A.inside I
  have h1 := Whole.not1 I
  have hl20 : WireSpec.l4 q.skb.bytes = 20 := by unfold WireSpec.l4; rw [head.words]
  obtain ⟨w2, e1, -, e3⟩ := Whole.bytes46 A4 I4 (turned x e2 sm u' v') s6 d6
  rw [hw] at e1
  injection e1 with e1
  have hS := e3 o e1.symm
  obtain ⟨fh', hIs, hm0, hm1⟩ := is6_of (y := turned x e2 sm u' v') rfl rfl A4 I4 hS
  obtain ⟨hd2, size2, seg2, sum2⟩ := hS
  simp only at hIs hm0 hm1 hd2 size2 seg2 sum2
  rw [hl20] at size2 seg2 sum2
  have hto : to6 (proto4 q.skb.bytes) = n := by
    rw [head.proto]
    rcases h1 with rfl | rfl | rfl <;> rfl
  have hp6 : n = 6 → proto4 q.skb.bytes = 6 := by rintro rfl; rw [head.proto]; rfl
  have hp17 : n = 17 → proto4 q.skb.bytes = 17 := by rintro rfl; rw [head.proto]; rfl
  have hp1 : n = 58 → proto4 q.skb.bytes = 1 := by rintro rfl; rw [head.proto]; rfl
  have hmore := head.more
  have hoff := I4.first
  have hsrc : BitVec.ofNat 32 (src4 q.skb.bytes) = s4 := by rw [head.src]; simp
  have hdst : BitVec.ofNat 32 (dst4 q.skb.bytes) = d4 := by rw [head.dst]; simp
  have hsrc6 : BitVec.ofNat 128 (src6 s0.data) = S.addr := by rw [I.src]; simp
  have hdst6 : BitVec.ofNat 128 (dst6 s0.data) = D.addr := by rw [I.dst]; simp
  rw [hsrc, hdst] at sum2
  rw [hsrc6, hdst6] at hsum
  rw [hto] at hIs
  have hport : n ≠ 58 → k.port v' u' = v' := by
    intro e
    cases k with
    | udp => rfl
    | tcp => rfl
    | request => exact absurd I.seg.1 e
    | reply => exact absurd I.seg.1 e
  have htype : n = 58 → field (s0.data.drop l) 0 1 = field s0.data l 1 := by
    intro e
    rw [Wire.field_drop, Nat.add_zero]
  have hraw : (q.skb.bytes.drop 20).length = (s0.data.drop l).length := by rw [List.length_drop, List.length_drop, hlen]; omega
  refine ⟨fh', l6 q.skb.bytes, hIs, hd2.version, hd2.flow, ?_, ?_, ?_, hd2.len, ?_, ?_, ?_, ?_, ?_, ?_, ?_, ?_, ?_, ?_, ?_⟩
  · intro q1 q2
    have t1 := head.tos
    have t2 := hd2.cls
    have e1 : (turned x e2 sm u' v').cfg = x.cfg := rfl
    have e2 : (assign x u v).cfg = x.cfg := rfl
    rw [e1, q1, if_neg (by decide)] at t2
    rw [e2, q2] at t1
    rw [t2]
    exact t1
  · have t1 := head.ttl
    have t2 := hd2.hop
    have e1 : (turned x e2 sm u' v').hairpin = true := rfl
    rw [e1, if_pos rfl] at t2
    omega
  · have t1 := head.alive
    have t2 := hd2.hop
    have e1 : (turned x e2 sm u' v').hairpin = true := rfl
    rw [e1, if_pos rfl] at t2
    omega
  · rw [size2, hlen]; omega
  · intro q0
    rw [← hmore] at q0
    exact ⟨by unfold l6; rw [if_pos ⟨hoff, q0⟩], hm0 q0⟩
  · rintro j rfl q1
    have hm : mf4 q.skb.bytes = 1 := by rw [hmore]; exact q1
    have hw : ¬ (off4 q.skb.bytes = 0 ∧ mf4 q.skb.bytes = 0) := by omega
    obtain ⟨g1, g2, g3, g4, g5, g6, g7⟩ := hd2.piece hw
    exact ⟨by unfold l6; rw [if_neg hw], hm1 (by omega), by rw [g5, hoff], by rw [g6, hm], by rw [g7, head.ident j rfl]⟩
  · intro e
    have c1 := (hc.tcp trivial e).1
    simp only [hport (by omega)]
    exact ported_twice (by decide) (by omega) (seg.tcp I.first e) (seg2.tcp hoff (hp6 e))
  · intro e
    have c1 := hc.udp trivial e
    simp only [hport (by omega)]
    exact ported_twice (by decide) (by omega) (seg.udp I.first e) (seg2.udp hoff (hp17 e))
  · intro e
    have c1 := hc.echo e
    obtain ⟨t, ht, g1⟩ := seg.echo I.first e
    obtain ⟨t', ht', g2⟩ := seg2.echo hoff (hp1 e)
    have g3 : field (q.skb.bytes.drop 20) 0 1 = t.toNat := by rw [Wire.only_field g1 (by omega), Whole.echoed_type]
    have et : t' = BitVec.ofNat 8 (field s0.data l 1) := by
      rw [← htype e]
      rw [g3] at ht'
      rcases ht with ⟨q1, rfl⟩ | ⟨q1, rfl⟩ <;> rcases ht' with ⟨q2, rfl⟩ | ⟨q2, rfl⟩ <;> rw [q1] <;> first | rfl | (exact absurd q2 (by decide))
    rw [← et]
    exact echoed_again c1 g1 g2
  · intro e hx extra len hlen'
    obtain ⟨-, y⟩ := hsum hx
    rw [sum2.tcp hoff (hp6 e) (fun z => hx (hsm.mp z)) extra len hlen']
    exact y.tcp I.first e hx extra len hlen'
  · intro e hx extra len hlen'
    obtain ⟨-, y⟩ := hsum hx
    rw [sum2.udp hoff (hp17 e) (fun z => hx (hsm.mp z)) (y.udpSome I.first e hx) extra len hlen']
    exact y.udp I.first e hx extra len hlen'
  · intro e hx
    exact sum2.tcpNew hoff (hp6 e) (hsm.mpr hx)
  · intro e hx
    exact sum2.udpNew hoff (hp17 e) (Or.inl (hsm.mpr hx))
  · intro e hx hz
    obtain ⟨-, y⟩ := hsum hx
    have c1 := hc.echo e
    obtain ⟨t, ht, g1⟩ := seg.echo I.first e
    have nz : ∃ b ∈ q.skb.bytes.drop 20, b ≠ 0#8 := by
      have g : ∀ i b, i ≠ 2 → i ≠ 3 → (echoed t (some u) (s0.data.drop l))[i]? = some b → b ∈ q.skb.bytes.drop 20 := by
        intro i b n1 n2 h
        have := g1.2 i n1 n2
        exact List.mem_of_getElem? (this.trans h)
      rcases hz with hz | hz
      · refine ⟨t, g 0 t (by decide) (by decide) (by rw [echoed_at c1]; rfl), ?_⟩
        rw [htype e, hz] at ht
        rcases ht with ⟨-, rfl⟩ | ⟨q1, -⟩
        · decide
        · exact absurd q1 (by decide)
      · by_cases h4 : BitVec.ofNat 8 (u.toNat / 256) = 0#8
        · refine ⟨_, g 5 _ (by decide) (by decide) (by rw [echoed_at c1]; rfl), ?_⟩
          intro h5
          apply hz
          apply BitVec.eq_of_toNat_eq
          have a1 := congrArg BitVec.toNat h4
          have a2 := congrArg BitVec.toNat h5
          have a3 := u.isLt
          simp only [BitVec.toNat_ofNat] at a1 a2 ⊢
          omega
        · exact ⟨_, g 4 _ (by decide) (by decide) (by rw [echoed_at c1]; rfl), h4⟩
    rw [sum2.echo hoff (hp1 e) nz]
    exact y.echo I.first e nz

/-- **C92.** Two nodes behind the same NAT64, from bytes to bytes. If the bytes which one of them sends leave as an IPv6 packet, then both have BIB entries; the first packet went to
the address which contains the pool4 address of the second node, and the second packet comes from the address which contains the pool4 address of the first one; it goes to the
IPv6 transport address of the second one; and otherwise it is the packet that was sent. What the tables say is what C52 says. Missing: ICMP errors, fragments that are not the
first one, packets which the kernel holds in several pieces. -/
theorem turned_partial {fh : Option Nat} {l n : Nat} {k : Kind} {S D : T6} {r : Res} {o : List Byte} (hs : Reach s) (hA : Active cfg P) (A : Arrives6 s0 a p)
    (I : Is6 s0.data fh l n k S D) (hr : pass6 cfg P s c c2 x e2 segleft p a = .ok r) (ho : r.fate = .sent6 o) :
    ∃ b1 ∈ bibs r.st k.proto, ∃ b2 ∈ bibs r.st k.proto, ∃ a4 x1, b1.src6 = S ∧ rfc6052_6to4 P D.addr = some a4 ∧ b2.src4 = ⟨a4, k.port D.port b1.src4.port⟩ ∧
      rfc6052_4to6 P b1.src4.addr = some x1 ∧
      (∃ fh' l', Sent66 x k S D ⟨x1, k.port b1.src4.port b2.src6.port⟩ b2.src6 b1.src4.port s0.data fh l n o fh' l') ∧
      ∃ q6, Nat64.core6 cfg s c c2 (pkt6 a) = .ok ⟨r.st, r.ev, .sent6 q6⟩ := by
  obtain ⟨b1, h1, b2, h2, a4, x1, q, sm, q6, g1, g2, g3, g4, g5, g6, g7, g8⟩ := pass6_sent6 hs hA A I hr ho
  obtain ⟨fh', l', H⟩ := sent66 A I g5 g6
  refine ⟨b1, h1, b2, h2, a4, x1, g1, g2, g3, g4, ⟨fh', l', ?_⟩, q6, g8⟩
  have e : k.port b2.src6.port (k.port b1.src4.port b2.src6.port) = b2.src6.port := by cases k <;> rfl
  rw [e] at H
  exact H

theorem leaves64_of {fh : Option Nat} {l n : Nat} {k : Kind} {S D : T6} (I : Is6 s0.data fh l n k S D) : Leaves64 segleft s0.data l n ↔ segleft = none ∧ 2 ≤ hop6 s0.data := by
  constructor
  · intro q; exact ⟨q.route, q.hop⟩
  · intro q
    refine ⟨q.1, q.2, ?_⟩
    intro h58
    have sg := I.seg
    cases k with
    | udp => have := sg.1; omega
    | tcp => have := sg.1; omega
    | request => left; have := sg.2.1; rw [Wire.field_drop, Nat.add_zero] at this; exact this
    | reply => right; have := sg.2.1; rw [Wire.field_drop, Nat.add_zero] at this; exact this

/-- The second pass lets everything through: there is no source route, it does not count hops, and the checksum may be missing. -/
theorem leaves46_turned {k : Kind} {S D : T4} {e : Build.Env} {sm : Summed} (I : Is4 s0.data k S D) (u v : Port) : Leaves46 (turned x e sm u v) s0.data := by
  refine ⟨rfl, nofun, fun _ _ _ => Or.inl rfl, ?_⟩
  intro h1
  have sg := I.seg
  cases k with
  | udp => have := sg.1; omega
  | tcp => have := sg.1; omega
  | request => left; have := sg.2.1; rw [Wire.field_drop, Nat.add_zero] at this; exact this
  | reply => right; have := sg.2.1; rw [Wire.field_drop, Nat.add_zero] at this; exact this

/-- **C92.** Whatever the tables let through twice does leave, unless it is out of hops or has a source route; the second pass loses nothing. -/
theorem leaves66_partial {fh : Option Nat} {l n : Nat} {k : Kind} {S D : T6} {r0 : Nat64.Res} {q6 : Nat64.Pkt Addr6} (hs : Reach s) (hA : Active cfg P) (A : Arrives6 s0 a p)
    (I : Is6 s0.data fh l n k S D) (hr : Nat64.core6 cfg s c c2 (pkt6 a) = .ok r0) (ho : r0.out = .sent6 q6) :
    ∃ r, pass6 cfg P s c c2 x e2 segleft p a = .ok r ∧ ((∃ o, r.fate = .sent6 o) ↔ segleft = none ∧ 2 ≤ hop6 s0.data) ∧ ((∃ o, r.fate = .sent6 o) → r.st = r0.st) ∧
      (¬ (segleft = none ∧ 2 ≤ hop6 s0.data) → r.fate = .cut) := by
  obtain ⟨-, -, -, V⟩ := Whole.view6_of A.accepted A.inside I
  have ht := (Nat64.view6_tuple V).1
  rcases Nat64.core6_common hr with ⟨_, _, w, h'⟩ | ⟨P', _, hP', hc⟩
  · rw [ho] at h'; cases h'
  · rw [hA.2] at hP'; cases hP'
    unfold Nat64.common6 at hc
    rw [ht] at hc
    simp only at hc
    obtain ⟨f, hf, hc⟩ := Nat64.bind_ok hc
    cases hk : f.res with
    | error e => rw [hk] at hc; cases hc; cases e <;> cases ho
    | ok known =>
      rw [hk] at hc
      simp only at hc
      cases hcm : Nat64.compute6 P f.st ⟨S, D, k.proto⟩ known with
      | error e => rw [hcm] at hc; cases hc; cases e <;> cases ho
      | ok t =>
        rw [hcm] at hc
        simp only at hc
        cases hfl : c.fail with
        | some e =>
          have : Nat64.translate6 c (pkt6 a) t f.saddr = .error e := by unfold Nat64.translate6; rw [hfl]
          rw [this] at hc
          cases hc
          cases e <;> cases ho
        | none =>
          obtain ⟨q4, hq4, b, hb, a4, hbs, ha4, rfl, hsa, V4⟩ := first hs V hf hk hcm hfl
          rw [hq4] at hc
          simp only at hc
          cases hh : Pool4.contains cfg.own f.st.pool4 k.proto ⟨a4, k.port D.port b.src4.port⟩ with
          | false =>
            rw [hh] at hc
            simp only [Bool.false_eq_true, if_false] at hc
            cases hc
            have := Nat64.send_sent6 ho
            cases this
          | true =>
            rw [hh] at hc
            simp only [if_true] at hc
            obtain ⟨r1, hr1, rfl⟩ := Nat64.map_ok hc
            unfold Nat64.hairpin at hr1
            cases c2 with
            | none => cases hr1; cases ho
            | some c' =>
              simp only at hr1
              obtain ⟨f', hf', rfl⟩ := Nat64.map_ok hr1
              have hpass : pass6 cfg P s c (some c') x e2 segleft p a =
                  (Wire.build64 (assign x b.src4.port (k.port D.port b.src4.port)) b.src4.addr a4 segleft p a).bind (fun w =>
                    match w with
                    | none => .ok ⟨f.st, f.ev, .cut⟩
                    | some (q, sm) => (turn cfg P f.st (some c') x e2 sm q ⟨b.src4, ⟨a4, k.port D.port b.src4.port⟩, k.proto⟩).map (fun r => { r with ev := f.ev ++ r.ev })) := by
                unfold pass6
                rw [ht]
                simp only
                rw [hf]
                show end6 cfg P c (some c') x _ segleft p a ⟨S, D, k.proto⟩ f = _
                unfold end6
                rw [hk]
                simp only
                rw [hcm]
                simp only
                rw [hfl]
                simp only [hh, if_true, hsa]
                rfl
              obtain ⟨w, hw, hlv, H⟩ := middle (segleft := segleft) A I (assign x b.src4.port (k.port D.port b.src4.port)) b.src4.addr a4
              rw [leaves64_of I] at hlv
              rw [hpass, hw]
              cases w with
              | none =>
                refine ⟨_, rfl, ?_, ?_, fun _ => rfl⟩
                · rw [← hlv]
                  constructor
                  · rintro ⟨o, q⟩; cases q
                  · intro q; exact absurd rfl q
                · rintro ⟨o, q⟩; cases q
              | some w =>
                obtain ⟨q, sm⟩ := w
                obtain ⟨-, A4, -⟩ := H q sm rfl
                have I4 := middle_is4 A I hw
                have hport : k.port (k.port D.port b.src4.port) b.src4.port = k.port D.port b.src4.port := by cases k <;> rfl
                have hp := middle_pkt A I hw hq4 (by rw [hport]; exact V4)
                have hcore4 : Nat64.core4 cfg f.st c' q4 = .ok (Nat64.finish4 cfg P c' q4 ⟨b.src4, ⟨a4, k.port D.port b.src4.port⟩, k.proto⟩ f' Nat64.Stop.out) := by
                  unfold Nat64.core4
                  rw [hA.1, hA.2]
                  simp only [Bool.not_true, Bool.false_eq_true, if_false]
                  unfold Nat64.common4
                  rw [(Nat64.view4_tuple V4).1]
                  simp only
                  rw [hf']
                  rfl
                have ho4 : (Nat64.finish4 cfg P c' q4 ⟨b.src4, ⟨a4, k.port D.port b.src4.port⟩, k.proto⟩ f' Nat64.Stop.out).out = .sent6 q6 := by
                  have h2 := Nat64.quiet_finish4 cfg P c' q4 ⟨b.src4, ⟨a4, k.port D.port b.src4.port⟩, k.proto⟩ f'
                  have h1 : (Nat64.finish4 cfg P c' q4 ⟨b.src4, ⟨a4, k.port D.port b.src4.port⟩, k.proto⟩ f' Nat64.Stop.out2).out = .sent6 q6 := ho
                  rw [h1] at h2
                  generalize (Nat64.finish4 cfg P c' q4 ⟨b.src4, ⟨a4, k.port D.port b.src4.port⟩, k.proto⟩ f' Nat64.Stop.out).out = z at h2 ⊢
                  cases z with
                  | sent6 z => exact h2.symm
                  | _ => cases h2
                obtain ⟨-, b2, -, -, -, x1, -, V6⟩ := Nat64.translated46 hA.2 V4 hcore4 ho4
                obtain ⟨w2, e1, e2', -⟩ := Whole.bytes46 A4 I4 (turned x e2 sm (k.port b.src4.port b2.src6.port) b2.src6.port) x1 b2.src6.addr
                rw [← hp] at V4 hf' ho4
                obtain ⟨r, i1, i2, i3⟩ := turn_core (x := x) (e2 := e2) (sm := sm) (fun e q => (Nat64.out_not_sent e).2.1 q) V4 hf' ho4 V6 e1
                show ∃ r, Outcome.map _ (turn cfg P f.st (some c') x e2 sm q ⟨b.src4, ⟨a4, k.port D.port b.src4.port⟩, k.proto⟩) = .ok r ∧ _
                rw [i1]
                have hsome : ∃ o, r.fate = .sent6 o := by
                  cases w2 with
                  | none => exact absurd rfl (e2'.2 (leaves46_turned I4 _ _))
                  | some o => exact ⟨o, (i3 o).2 rfl⟩
                have hlv' := hlv.1 (by simp)
                refine ⟨_, rfl, ⟨fun _ => hlv', fun _ => hsome⟩, fun _ => ?_, fun q => absurd hlv' q⟩
                show r.st = (Nat64.finish4 ..).st
                rw [i2, (Nat64.finish4_st ..).1]

/-- **C92.** A datagram between two nodes with BIB entries arrives, whatever is in it (see C52 for the conditions; there is no address-dependent filtering here). -/
theorem delivered_partial {fh : Option Nat} {l n : Nat} {c' : Nat64.Ctx} {b1 b2 : Bib.BibKey} {x1 : Addr6} {m : Bib.Masks} {sa : Option Addr4} {D : T6} (hs : Reach s) (hA : Active cfg P)
    (A : Arrives6 s0 a p) (I : Is6 s0.data fh l n .udp b1.src6 D) (hc : Smooth c) (hc' : Smooth c') (hsrc : prefix6Contains P b1.src6.addr = false)
    (hm : Nat64.findMasks s c .UDP = .ok (.ok (m, sa))) (hb1 : b1 ∈ bibs s .UDP) (hb2 : b2 ∈ bibs s .UDP) (hu : Usable s c b1)
    (hD : rfc6052_4to6 P b2.src4.addr = some D.addr) (hDp : D.port = b2.src4.port)
    (hp : Pool4.contains cfg.own s.pool4 .UDP b2.src4 = true) (hf : c'.env.cfg.dropByAddr = false)
    (hx : rfc6052_4to6 P b1.src4.addr = some x1) (hseg : segleft = none) (hhop : 2 ≤ hop6 s0.data) :
    ∃ r o fh' l', pass6 cfg P s c (some c') x e2 segleft p a = .ok r ∧ r.fate = .sent6 o ∧ bibs r.st .UDP = bibs s .UDP ∧
      Sent66 x .udp b1.src6 D ⟨x1, b1.src4.port⟩ b2.src6 b1.src4.port s0.data fh l n o fh' l' := by
  obtain ⟨-, -, -, V⟩ := Whole.view6_of A.accepted A.inside I
  obtain ⟨r0, q6, hr0, ho0, V6, hbib⟩ := Nat64.hairpin_delivered hs hA V hc hc' hsrc hm hb1 hb2 hu hD hDp hp hf hx
  obtain ⟨r, hr, hiff, hst, -⟩ := leaves66_partial (x := x) (e2 := e2) (segleft := segleft) hs hA A I hr0 ho0
  obtain ⟨o, ho⟩ := hiff.2 ⟨hseg, hhop⟩
  obtain ⟨b1', -, b2', -, a4, x1', q, sm, q6', -, -, -, -, h5, h6, V6', h8⟩ := pass6_sent6 hs hA A I hr ho
  rw [hr0] at h8
  injection h8 with h8
  have hq : q6 = q6' := by
    have := congrArg Nat64.Res.out h8
    rw [ho0] at this
    injection this
  rw [← hq, V6] at V6'
  simp only [Option.some.injEq, Prod.mk.injEq, true_and, T6.mk.injEq] at V6'
  obtain ⟨⟨rfl, hport⟩, hsix⟩ := V6'
  obtain ⟨fh', l', H⟩ := sent66 A I h5 h6
  have hport' : Kind.port .udp b1'.src4.port b2'.src6.port = b1'.src4.port := rfl
  have hport2 : Kind.port .udp b2'.src6.port b1'.src4.port = b2'.src6.port := rfl
  rw [hport'] at hport H
  rw [hport2, ← hsix, ← hport] at H
  exact ⟨r, o, fh', l', hr, ho, by rw [hst ⟨o, ho⟩]; exact hbib, H⟩

theorem turn_not4 {sm : Summed} {q : Build.P} {t : Tuple T4} {r : Res} (h : turn cfg P s c2 x e2 sm q t = .ok r) (o : List Byte) : r.fate ≠ .sent4 o := by
  unfold turn at h
  cases c2 with
  | none => cases h; nofun
  | some c' =>
    obtain ⟨f, -, h⟩ := Nat64.bind_ok h
    unfold end4 at h
    split at h
    · cases h; nofun
    · split at h
      · cases h; nofun
      · split at h
        · cases h; nofun
        · split at h
          · cases h; nofun
          · obtain ⟨w, -, rfl⟩ := Nat64.map_ok h
            cases w with
            | none => nofun
            | some w =>
              unfold leave
              simp only
              split <;> nofun

/-- **C92.** Packets that do not turn around: C79. -/
theorem straight_partial {r : Res} {o : List Byte} (hr : pass6 cfg P s c c2 x e2 segleft p a = .ok r) (ho : r.fate = .sent4 o) :
    Whole.pass6 cfg P s c x segleft p a = .ok ⟨r.st, r.ev, .sent o⟩ := by
  unfold pass6 at hr
  unfold Whole.pass6
  cases ht : Nat64.tuple6 (pkt6 a) with
  | error e => rw [ht] at hr; cases hr; cases ho
  | ok t0 =>
    rw [ht] at hr
    simp only at hr ⊢
    obtain ⟨f, hf, hr⟩ := Nat64.bind_ok hr
    rw [hf]
    show Whole.end6 cfg P c x segleft p a t0 f = _
    unfold end6 at hr
    unfold Whole.end6
    cases hk : f.res with
    | error e => rw [hk] at hr; cases hr; cases ho
    | ok known =>
      rw [hk] at hr
      simp only at hr ⊢
      cases hc : Nat64.compute6 P f.st t0 known with
      | error e => rw [hc] at hr; cases hr; cases ho
      | ok t =>
        rw [hc] at hr
        simp only at hr ⊢
        cases hfl : c.fail with
        | some e => rw [hfl] at hr; cases hr; cases ho
        | none =>
          rw [hfl] at hr
          simp only at hr ⊢
          cases hh : Pool4.contains cfg.own f.st.pool4 t.proto t.dst with
          | true =>
            rw [hh] at hr
            simp only [if_true] at hr
            obtain ⟨w, hw, hr⟩ := Nat64.bind_ok hr
            cases w with
            | none => cases hr; cases ho
            | some w =>
              obtain ⟨q, sm⟩ := w
              simp only at hr
              obtain ⟨r', hr', rfl⟩ := Nat64.map_ok hr
              exact absurd ho (turn_not4 hr' o)
          | false =>
            rw [hh] at hr
            simp only [Bool.false_eq_true, if_false] at hr ⊢
            obtain ⟨w, hw, rfl⟩ := Nat64.map_ok hr
            rw [hw]
            cases w with
            | none => cases ho
            | some o' =>
              cases hsf : c.sendFails with
              | true => simp [hsf] at ho
              | false =>
                have ho' : o' = o := by simpa [hsf] using ho
                subst ho'
                show Outcome.ok (Whole.leave c f _ (some o')) = _
                simp [Whole.leave, hsf]

end Jool.WholeTurn
