import Verif.Model.Whole
import Verif.Props.Wire
import Verif.Props.Nat64Back
/-
C79: conversations through a NAT64, said about the bytes that arrive and the bytes that leave.
-/
namespace Jool.WholeSpec
open Jool.Pkt (Byte Acc)
open Jool.Nat64 (Port)
open Jool.Nat64Spec (Kind)
open Jool.WireSpec

/-- The transport header `seg`, whose protocol is `n`, is one of a packet of this kind, from port `s` to port `d`. (Echoes: the identifier is both.) `req`, `rep`: the types
of echo requests and replies; `icmp`: the number of that protocol. -/
def Says (req rep icmp n : Nat) (seg : List Byte) (k : Kind) (s d : Port) : Prop :=
  match k with
  | .udp => n = 17 ∧ field seg 0 2 = s.toNat ∧ field seg 2 2 = d.toNat
  | .tcp syn fin rst => n = 6 ∧ field seg 0 2 = s.toNat ∧ field seg 2 2 = d.toNat ∧ (syn = true ↔ field seg 13 1 / 2 % 2 = 1) ∧ (fin = true ↔ field seg 13 1 % 2 = 1) ∧
      (rst = true ↔ field seg 13 1 / 4 % 2 = 1)
  | .request => n = icmp ∧ field seg 0 1 = req ∧ field seg 4 2 = s.toNat ∧ d = s
  | .reply => n = icmp ∧ field seg 0 1 = rep ∧ field seg 4 2 = s.toNat ∧ d = s

/-- The bytes `d` are an IPv6 packet of this kind, from `S` to `D`. `fh`, `l`: where its fragment header and its transport header are. -/
structure Is6 (d : List Byte) (fh : Option Nat) (l n : Nat) (k : Kind) (S D : T6) : Prop where
  chain : Headers d 40 (next6 d) fh l n
  first : offAt d fh = 0
  src : src6 d = S.addr.toNat
  dst : dst6 d = D.addr.toNat
  seg : Says 128 129 58 n (d.drop l) k S.port D.port

/-- The bytes `d` are an IPv4 packet of this kind, from `S` to `D`. -/
structure Is4 (d : List Byte) (k : Kind) (S D : T4) : Prop where
  first : off4 d = 0
  src : src4 d = S.addr.toNat
  dst : dst4 d = D.addr.toNat
  seg : Says 8 0 1 (proto4 d) (d.drop (l4 d)) k S.port D.port

/-- A packet that arrives, is accepted, and is in memory as the kernel leaves it. `tcp`: its TCP header is not shorter than the smallest one. -/
structure Arrives6 (s0 : Pkt.Skb) (a : Acc) (p : Build.P) : Prop where
  accepted : Pkt.init6 s0 = some a
  inside : s0.linear ≤ s0.data.length
  held : Build.Holds p a
  tcp : a.m.proto = .tcp → offAt s0.data (Wire.fhOf a.m) = 0 → 5 ≤ field s0.data (a.m.l4 + 12) 1 / 16
  noError : a.inner = none
  size : s0.data.length - a.m.l4 ≤ 65515

structure Arrives4 (s0 : Pkt.Skb) (a : Acc) (p : Build.P) : Prop where
  accepted : Pkt.init4 s0 = some a
  inside : s0.linear ≤ s0.data.length
  held : Build.Holds p a
  words : 5 ≤ words4 s0.data
  tcp : off4 s0.data = 0 → proto4 s0.data = 6 → 5 ≤ field s0.data (l4 s0.data + 12) 1 / 16
  noError : a.inner = none
  size : s0.data.length < 65536

end Jool.WholeSpec

namespace Jool.Whole
open Jool.Pkt (Byte L4 Acc at8 at16)
open Jool.Nat64 (Port Fu Tuple)
open Jool.Nat64Spec
open Jool.WireSpec
open Jool.WholeSpec
open Jool.Wire (fhOf)
open Jool.Bib (SessKey Answerable)

set_option linter.unusedVariables false

/-! ## What is written says what was assigned -/

theorem field_be {u : BitVec 16} (rest : List Byte) : field ([BitVec.ofNat 8 (u.toNat / 256), BitVec.ofNat 8 u.toNat] ++ rest) 0 2 = u.toNat := by
  have := u.isLt
  unfold field
  simp only [List.drop_zero, List.cons_append, List.nil_append, List.take_succ_cons, List.take_zero, value, List.length_cons, List.length_nil, BitVec.toNat_ofNat]
  omega

theorem ported_src (u v : BitVec 16) (seg : List Byte) : field (ported (some (u, v)) seg) 0 2 = u.toNat := by
  show field ([_, _] ++ ([_, _] ++ _)) 0 2 = _
  exact field_be _

theorem ported_dst (u v : BitVec 16) (seg : List Byte) : field (ported (some (u, v)) seg) 2 2 = v.toNat := by
  show field ([_, _] ++ ([_, _] ++ _)) (2 + 0) 2 = _
  rw [← Wire.field_drop]
  exact field_be _

theorem echoed_id (t : Byte) (u : BitVec 16) {seg : List Byte} (h : 8 ≤ seg.length) : field (echoed t (some u) seg) 4 2 = u.toNat := by
  show field (_ ++ [_, _] ++ _) (4 + 0) 2 = _
  rw [← Wire.field_drop, List.append_assoc, List.drop_left' (by simp; omega)]
  exact field_be _

theorem echoed_type (t : Byte) (i : Option (BitVec 16)) (seg : List Byte) : field (echoed t i seg) 0 1 = t.toNat := by
  unfold field echoed
  simp [value]

theorem says_out {u v : Port} {t1 t2 : Nat} {u1 u2 : Byte} {first : Prop} {n icmp n' icmp' : Nat} {seg out : List Byte} {k : Kind} {s d : Port}
    (h : Segment (some (u, v)) (some u) t1 t2 u1 u2 first n icmp seg out) (hf : first) (hc : Complete first n icmp seg) (ht : t1 ≠ t2)
    (h6 : n = 6 → n' = 6) (h17 : n = 17 → n' = 17) (h1 : n = icmp → n' = icmp') (hy : Says t1 t2 icmp n seg k s d) :
    Says u1.toNat u2.toNat icmp' n' out k u (k.port v u) := by
  cases k with
  | udp =>
    obtain ⟨y1, y2, y3⟩ := hy
    have o := h.udp hf y1
    refine ⟨h17 y1, ?_, ?_⟩
    · rw [Wire.only_field o (by omega), ported_src]
    · rw [Wire.only_field o (by omega), ported_dst]; rfl
  | tcp syn fin rst =>
    obtain ⟨y1, y2, y3, y4⟩ := hy
    have o := h.tcp hf y1
    have hl := (hc.tcp hf y1).1
    refine ⟨h6 y1, ?_, ?_, ?_⟩
    · rw [Wire.only_field o (by omega), ported_src]
    · rw [Wire.only_field o (by omega), ported_dst]; rfl
    · rw [Wire.only_field o (by omega), Wire.ported_field (by omega) (by omega)]
      exact y4
  | request =>
    obtain ⟨y1, y2, y3, y4⟩ := hy
    obtain ⟨t, e, o⟩ := h.echo hf y1
    have hl := hc.echo y1
    have ht : t = u1 := by
      rcases e with ⟨_, e⟩ | ⟨e, _⟩
      · exact e
      · rw [y2] at e; exact absurd e ht
    refine ⟨h1 y1, ?_, ?_, rfl⟩
    · rw [Wire.only_field o (by omega), echoed_type, ht]
    · rw [Wire.only_field o (by omega), echoed_id _ _ hl]
  | reply =>
    obtain ⟨y1, y2, y3, y4⟩ := hy
    obtain ⟨t, e, o⟩ := h.echo hf y1
    have hl := hc.echo y1
    have ht : t = u2 := by
      rcases e with ⟨e, _⟩ | ⟨_, e⟩
      · rw [y2] at e; exact absurd e.symm ht
      · exact e
    refine ⟨h1 y1, ?_, ?_, rfl⟩
    · rw [Wire.only_field o (by omega), echoed_type, ht]
    · rw [Wire.only_field o (by omega), echoed_id _ _ hl]

/-! ## What is read is what the bytes say -/

theorem port_of {d : List Byte} {i : Nat} {v : Port} (h : i + 1 < d.length) (e : field d i 2 = v.toNat) : port d i = v := by
  unfold port
  rw [← field2' d h, e, BitVec.ofNat_toNat, BitVec.setWidth_eq]
where
  field2' (d : List Byte) {i : Nat} (h : i + 1 < d.length) : field d i 2 = at16 d i := Wire.field2 d h

theorem bit_of {b : Byte} {v : Bool} {i : Nat} (h : v = true ↔ b.toNat / 2 ^ i % 2 = 1) : bit b i = v := by
  unfold bit
  rw [BitVec.getLsbD, Nat.testBit_eq_decide_div_mod_eq]
  cases v with
  | true => simpa using h
  | false => simpa using h

theorem addr_of {n : Nat} {v w : BitVec n} (h : v.toNat = w.toNat) : v = w := BitVec.eq_of_toNat_eq h

/-- The transport header, for one and the other. -/
theorem l4_of {A : Type} {a : Acc} {req rep icmp n : Nat} {k : Kind} {s d : Port}
    (hp : a.m.proto = if n = 6 then L4.tcp else if n = 17 then L4.udp else if n = icmp then L4.icmp else L4.other) (hi : icmp ≠ 6 ∧ icmp ≠ 17)
    (hc : Complete True n icmp (a.skb.data.drop a.m.l4)) (hr : req < 256 ∧ rep < 256) (hy : Says req rep icmp n (a.skb.data.drop a.m.l4) k s d) :
    match k with
    | .udp => l4 A a = .udp s d
    | .tcp syn fin rst => l4 A a = .tcp s d syn fin rst
    | .request => (∃ c, l4 A a = .icmp (BitVec.ofNat 8 req) c s none) ∧ d = s
    | .reply => (∃ c, l4 A a = .icmp (BitVec.ofNat 8 rep) c s none) ∧ d = s := by
  obtain ⟨c1, c2, c3⟩ := hc
  have hsl : (a.skb.data.drop a.m.l4).length = a.skb.data.length - a.m.l4 := List.length_drop
  unfold l4
  cases k with
  | udp =>
    obtain ⟨rfl, y2, y3⟩ := hy
    have hl := c2 trivial rfl
    rw [Wire.field_drop] at y2 y3
    rw [Nat.add_zero] at y2
    have hp' : a.m.proto = L4.udp := hp
    simp only [hp']
    rw [port_of (by omega) y2, port_of (by omega) y3]
  | tcp syn fin rst =>
    obtain ⟨rfl, y2, y3, y4, y5, y6⟩ := hy
    have hl := (c1 trivial rfl).1
    rw [Wire.field_drop] at y2 y3 y4 y5 y6
    rw [Wire.field1 _ (by omega)] at y4 y5 y6
    rw [Nat.add_zero] at y2
    have hp' : a.m.proto = L4.tcp := hp
    simp only [hp']
    rw [port_of (by omega) y2, port_of (by omega) y3, bit_of (i := 1) y4, bit_of (i := 0) (by simpa using y5), bit_of (i := 2) y6]
  | request =>
    obtain ⟨rfl, y2, y3, y4⟩ := hy
    have hl := c3 rfl
    rw [Wire.field_drop] at y2 y3
    rw [Wire.field1 _ (by omega)] at y2
    simp only [hp, if_neg hi.1, if_neg hi.2, if_true]
    rw [port_of (by omega) y3]
    refine ⟨⟨at8 a.skb.data (a.m.l4 + 1), ?_⟩, y4⟩
    rw [← y2, BitVec.ofNat_toNat, BitVec.setWidth_eq]
    rfl
  | reply =>
    obtain ⟨rfl, y2, y3, y4⟩ := hy
    have hl := c3 rfl
    rw [Wire.field_drop] at y2 y3
    rw [Wire.field1 _ (by omega)] at y2
    simp only [hp, if_neg hi.1, if_neg hi.2, if_true]
    rw [port_of (by omega) y3]
    refine ⟨⟨at8 a.skb.data (a.m.l4 + 1), ?_⟩, y4⟩
    rw [← y2, BitVec.ofNat_toNat, BitVec.setWidth_eq]
    rfl

theorem same6 {k : Kind} {S D : T6} (e : D.port = S.port) : some (k, (⟨S.addr, S.port⟩ : T6), (⟨D.addr, S.port⟩ : T6)) = some (k, S, D) := by
  cases S; cases D; cases e; rfl

theorem same4 {k : Kind} {S D : T4} (e : D.port = S.port) : some (k, (⟨S.addr, S.port⟩ : T4), (⟨D.addr, S.port⟩ : T4)) = some (k, S, D) := by
  cases S; cases D; cases e; rfl

theorem view6_of {s0 : Pkt.Skb} {a : Acc} {fh : Option Nat} {l n : Nat} {k : Kind} {S D : T6} (h : Pkt.init6 s0 = some a) (hin : s0.linear ≤ s0.data.length)
    (hd : Is6 s0.data fh l n k S D) : fh = fhOf a.m ∧ l = a.m.l4 ∧ Complete True n 58 (s0.data.drop l) ∧ view6 (pkt6 a) = some (k, S, D) := by
  have A := Pkt.init6_ok h
  have hD := A.data
  have h40 : 40 ≤ a.skb.data.length := by have := A.len; rw [hD]; omega
  obtain ⟨n', hH, -, hP⟩ := Wire.headers6 h h40
  rw [hD] at hH
  obtain ⟨rfl, rfl, rfl⟩ := Wire.headers_unique hd.chain hH
  obtain ⟨-, -, -, hc, -⟩ := Wire.complete6 h hin hP
  obtain ⟨-, -, q3, q4⟩ := Wire.read6 (d := s0.data) (by rw [← hD]; exact h40)
  have hf := hd.first
  have hc' : Complete True n'.toNat 58 (s0.data.drop a.m.l4) := ⟨fun _ => hc.tcp hf, fun _ => hc.udp hf, hc.echo⟩
  refine ⟨rfl, rfl, hc', ?_⟩
  have hs : (Wire.ip6 a.skb.data).src = S.addr := addr_of (by rw [hD, q3, hd.src])
  have hdd : (Wire.ip6 a.skb.data).dst = D.addr := addr_of (by rw [hD, q4, hd.dst])
  rw [Wire.proto6_toNat] at hP
  have L := l4_of (A := Addr6) (req := 128) (rep := 129) hP (by decide) (by rw [hD]; exact hc') (by decide) (by rw [hD]; exact hd.seg)
  unfold view6 pkt6
  rw [hs, hdd]
  cases k with
  | udp => simp only at L ⊢; rw [L]
  | tcp syn fin rst => simp only at L ⊢; rw [L]
  | request =>
    obtain ⟨⟨c, L⟩, e⟩ := L
    simp only
    rw [L]
    simp only [BitVec.ofNat_eq_ofNat, if_true]
    exact same6 e
  | reply =>
    obtain ⟨⟨c, L⟩, e⟩ := L
    simp only
    rw [L]
    simp only [BitVec.ofNat_eq_ofNat, if_true, if_neg (show ¬ (129#8 = 128#8) by decide)]
    exact same6 e

theorem view4_of {s0 : Pkt.Skb} {a : Acc} {k : Kind} {S D : T4} (h : Pkt.init4 s0 = some a) (hin : s0.linear ≤ s0.data.length)
    (hd : Is4 s0.data k S D) : a.m.l4 = WireSpec.l4 s0.data ∧ Complete True (proto4 s0.data) 1 (s0.data.drop (WireSpec.l4 s0.data)) ∧ view4 (pkt4 a) = some (k, S, D) := by
  have A := Pkt.init4_ok h
  have hD := A.data
  obtain ⟨h20, hl, hc, -⟩ := Wire.complete4 h hin
  have hP := A.proto
  rw [Wire.proto4_of h20] at hP
  obtain ⟨q3, q4⟩ : (Wire.ip4 s0.data).src.toNat = src4 s0.data ∧ (Wire.ip4 s0.data).dst.toNat = dst4 s0.data := (Wire.read4 h20).2.2.2.2.2.2
  have hf := hd.first
  have hc' : Complete True (proto4 s0.data) 1 (s0.data.drop (WireSpec.l4 s0.data)) := ⟨fun _ => hc.tcp hf, fun _ => hc.udp hf, hc.echo⟩
  refine ⟨hl, hc', ?_⟩
  have hs : (Wire.ip4 a.skb.data).src = S.addr := addr_of (by rw [hD, q3, hd.src])
  have hdd : (Wire.ip4 a.skb.data).dst = D.addr := addr_of (by rw [hD, q4, hd.dst])
  have L := l4_of (A := Addr4) (req := 8) (rep := 0) hP (by decide) (by rw [hD, hl]; exact hc') (by decide) (by rw [hD, hl]; exact hd.seg)
  unfold view4 pkt4
  rw [hs, hdd]
  cases k with
  | udp => simp only at L ⊢; rw [L]
  | tcp syn fin rst => simp only at L ⊢; rw [L]
  | request =>
    obtain ⟨⟨c, L⟩, e⟩ := L
    simp only
    rw [L]
    simp only [BitVec.ofNat_eq_ofNat, if_true]
    exact same4 e
  | reply =>
    obtain ⟨⟨c, L⟩, e⟩ := L
    simp only
    rw [L]
    simp only [BitVec.ofNat_eq_ofNat, if_true, if_neg (show ¬ (0#8 = 8#8) by decide)]
    exact same4 e

/-! ## The tables and the bytes agree -/

theorem translate6_ok {c : Nat64.Ctx} {p : Nat64.Pkt Addr6} {k : Kind} {S D : T6} (h : view6 p = some (k, S, D)) (hc : c.fail = none) (o : Tuple T4) (sa : Option Addr4) :
    ∃ q, Nat64.translate6 c p o sa = .ok q := by
  obtain ⟨src, dst, l⟩ := p
  unfold Nat64.translate6
  rw [hc]
  unfold view6 at h
  cases l with
  | udp s d => exact ⟨_, rfl⟩
  | tcp s d a b c => exact ⟨_, rfl⟩
  | icmp t c id i =>
    dsimp only at h ⊢
    split at h
    · rename_i ht; subst ht; exact ⟨_, rfl⟩
    · split at h
      · rename_i ht; subst ht; exact ⟨_, rfl⟩
      · cases h
  | other => exact ⟨_, rfl⟩

theorem translate4_ok {cfg : Nat64.Cfg} {P : Prefix6} {c : Nat64.Ctx} {p : Nat64.Pkt Addr4} {k : Kind} {S D : T4} (h : view4 p = some (k, S, D)) (hc : c.fail = none) (o : Tuple T6) :
    ∃ q, Nat64.translate4 cfg P c p o = .ok q := by
  have hs : Nat64.saddr6 cfg P p o = some o.src.addr := by simp [Nat64.saddr6, (Nat64.view4_tuple h).2.1]
  obtain ⟨src, dst, l⟩ := p
  unfold Nat64.translate4
  rw [hc, hs]
  unfold view4 at h
  cases l with
  | udp s d => exact ⟨_, rfl⟩
  | tcp s d a b c => exact ⟨_, rfl⟩
  | icmp t c id i =>
    dsimp only at h ⊢
    split at h
    · rename_i ht; subst ht; exact ⟨_, rfl⟩
    · split at h
      · rename_i ht; subst ht; exact ⟨_, rfl⟩
      · cases h
  | other => exact ⟨_, rfl⟩

variable {cfg : Nat64.Cfg} {P : Prefix6} {s : Nat64.St} {c : Nat64.Ctx} {x : Wire.Ctx} {segleft : Option Nat} {p : Build.P} {a : Acc} {s0 : Pkt.Skb}

/-- A packet whose bytes leave is one that the tables let through. -/
theorem pass6_sent {k : Kind} {S D : T6} {r : Res} {o : List Byte} (hs : Reach s) (hA : Active cfg P) (V : view6 (pkt6 a) = some (k, S, D))
    (hr : pass6 cfg P s c x segleft p a = .ok r) (ho : r.fate = .sent o) : ∃ b ∈ bibs r.st k.proto, ∃ a4 q, b.src6 = S ∧ rfc6052_6to4 P D.addr = some a4 ∧
      Wire.translate64 (assign x b.src4.port (k.port D.port b.src4.port)) b.src4.addr a4 segleft p a = .ok (some o) ∧
      view4 q = some (k, b.src4, ⟨a4, k.port D.port b.src4.port⟩) ∧ ∀ c2, Nat64.core6 cfg s c c2 (pkt6 a) = .ok ⟨r.st, r.ev, .sent4 q⟩ := by
  have ht := (Nat64.view6_tuple V).1
  have hr0 := hr
  unfold pass6 at hr
  rw [ht] at hr
  obtain ⟨f, hf, hr⟩ := Nat64.bind_ok hr
  unfold end6 at hr
  cases hk : f.res with
  | error e => rw [hk] at hr; cases hr; cases ho
  | ok known =>
    rw [hk] at hr
    simp only at hr
    cases hc : Nat64.compute6 P f.st ⟨S, D, k.proto⟩ known with
    | error e => rw [hc] at hr; cases hr; cases ho
    | ok t =>
      rw [hc] at hr
      simp only at hr
      cases hfl : c.fail with
      | some e => rw [hfl] at hr; cases hr; cases ho
      | none =>
        rw [hfl] at hr
        obtain ⟨w, hw, rfl⟩ := Nat64.map_ok hr
        cases w with
        | none => cases ho
        | some o' =>
          obtain ⟨q, hq⟩ := translate6_ok V hfl t f.saddr
          cases hh : Pool4.contains cfg.own f.st.pool4 t.proto t.dst with
          | true => simp only [leave, hh, if_true] at ho; cases ho
          | false =>
            have hsf : c.sendFails = false := by
              cases h : c.sendFails with
              | false => rfl
              | true => simp [leave, hh, h] at ho
            have ho' : o' = o := by simpa [leave, hh, hsf] using ho
            subst ho'
            have hcore : ∀ c2, Nat64.core6 cfg s c c2 (pkt6 a) = .ok ⟨f.st, f.ev, .sent4 q⟩ := by
              intro c2
              unfold Nat64.core6
              rw [hA.1, hA.2]
              simp only [Bool.not_true, Bool.false_eq_true, if_false]
              unfold Nat64.common6
              rw [ht]
              simp only
              rw [hf]
              show (match f.res with | .error e => _ | .ok known => _) = _
              rw [hk]
              simp only
              rw [hc]
              simp only
              rw [hq]
              simp only [hh]
              unfold Nat64.send
              simp [hsf]
            obtain ⟨b, hb, hbs, a4, ha, V4, -⟩ := Nat64.translated64 hs hA.2 V (hcore none) rfl
            obtain ⟨a4', m, b', sess, ha', -, -, -, rfl, V4', -⟩ := Nat64.pass6 (Nat64.reach_good hs) V (Nat64.fu6_cases (Nat64.reach_good hs) hf) hk hc hq
            rw [ha] at ha'
            cases ha'
            rw [V4] at V4'
            have e : b.src4 = b'.src4 := by simp only [Option.some.injEq, Prod.mk.injEq, true_and] at V4'; exact V4'.1
            have e2 := Nat64.translate6_view V hq
            rw [V4] at e2
            simp only [Option.some.injEq, Prod.mk.injEq, true_and] at e2
            refine ⟨b, hb, a4, q, hbs, ha, ?_, V4, hcore⟩
            rw [← e] at hw e2
            simp only at hw e2
            have e3 : b.src4.addr = f.saddr.getD b.src4.addr := congrArg T4.addr e2.1
            rw [← e3] at hw
            exact hw

theorem finish4_not4 (t : Tuple T4) (f : Fu) (p : Nat64.Pkt Addr4) (q : Nat64.Pkt Addr4) : (Nat64.finish4 cfg P c p t f Nat64.Stop.out2).out ≠ .sent4 q := by
  unfold Nat64.finish4
  split
  · rename_i e _; cases e <;> simp [Nat64.Stop.out2]
  · split
    · rename_i e _; cases e <;> simp [Nat64.Stop.out2]
    · split
      · rename_i e _; cases e <;> simp [Nat64.Stop.out2]
      · unfold Nat64.send
        split <;> simp

theorem hairpin_not4 {c2 : Option Nat64.Ctx} {q q' : Nat64.Pkt Addr4} {t : Tuple T4} {r : Nat64.Res} (h : Nat64.hairpin cfg P s c2 q' t = .ok r) : r.out ≠ .sent4 q := by
  unfold Nat64.hairpin at h
  cases c2 with
  | none => cases h; simp
  | some c =>
    obtain ⟨f, -, rfl⟩ := Nat64.map_ok h
    exact finish4_not4 _ _ _ _

/-- A packet that the tables let through: what becomes of its bytes. -/
theorem core6_pass {k : Kind} {S D : T6} {c2 : Option Nat64.Ctx} {r0 : Nat64.Res} {q : Nat64.Pkt Addr4} (hs : Reach s) (hA : Active cfg P)
    (V : view6 (pkt6 a) = some (k, S, D)) (hr : Nat64.core6 cfg s c c2 (pkt6 a) = .ok r0) (ho : r0.out = .sent4 q) :
    ∃ (b : Bib.BibKey) (a4 : Addr4), ∀ w, Wire.translate64 (assign x b.src4.port (k.port D.port b.src4.port)) b.src4.addr a4 segleft p a = .ok w →
      ∃ r, pass6 cfg P s c x segleft p a = .ok r ∧ r.st = r0.st ∧ ∀ o, r.fate = .sent o ↔ w = some o := by
  have ht := (Nat64.view6_tuple V).1
  have g := Nat64.reach_good hs
  rcases Nat64.core6_common hr with ⟨_, _, w, h'⟩ | ⟨P', _, hP', hc⟩
  · rw [ho] at h'; cases h'
  · rw [hA.2] at hP'; cases hP'
    unfold Nat64.common6 at hc
    rw [ht] at hc
    simp only at hc
    obtain ⟨f, hf, hc⟩ := Nat64.bind_ok hc
    cases hk : f.res with
    | error e => rw [hk] at hc; cases hc; cases e <;> cases ho
    | ok known =>
      rw [hk] at hc
      simp only at hc
      cases hcm : Nat64.compute6 P f.st ⟨S, D, k.proto⟩ known with
      | error e => rw [hcm] at hc; cases hc; cases e <;> cases ho
      | ok t =>
        rw [hcm] at hc
        simp only at hc
        cases hq : Nat64.translate6 c (pkt6 a) t f.saddr with
        | error e => rw [hq] at hc; cases hc; cases e <;> cases ho
        | ok q' =>
          rw [hq] at hc
          simp only at hc
          have hfl : c.fail = none := by
            cases h : c.fail with
            | none => rfl
            | some e => unfold Nat64.translate6 at hq; rw [h] at hq; cases hq
          obtain ⟨a4, m, b, sess, ha, -, -, -, rfl, V4, -⟩ := Nat64.pass6 g V (Nat64.fu6_cases g hf) hk hcm hq
          have e2 := Nat64.translate6_view V hq
          rw [V4] at e2
          simp only [Option.some.injEq, Prod.mk.injEq, true_and] at e2
          have e3 : b.src4.addr = f.saddr.getD b.src4.addr := congrArg T4.addr e2.1
          cases hh : Pool4.contains cfg.own f.st.pool4 k.proto ⟨a4, k.port D.port b.src4.port⟩ with
          | true =>
            rw [hh] at hc
            simp only [if_true] at hc
            obtain ⟨r1, h1, rfl⟩ := Nat64.map_ok hc
            have ho' : r1.out = .sent4 q := ho
            exact absurd ho' (hairpin_not4 h1)
          | false =>
            rw [hh] at hc
            simp only [Bool.false_eq_true, if_false] at hc
            cases hc
            have hsf : c.sendFails = false := by
              cases h : c.sendFails with
              | false => rfl
              | true => unfold Nat64.send at ho; rw [h] at ho; cases ho
            refine ⟨b, a4, fun w hw => ?_⟩
            unfold pass6
            rw [ht]
            simp only
            rw [hf]
            show ∃ r, end6 cfg P c x segleft p a ⟨S, D, k.proto⟩ f = .ok r ∧ _
            unfold end6
            rw [hk]
            simp only
            rw [hcm]
            simp only
            rw [hfl]
            simp only
            rw [← e3, hw]
            refine ⟨_, rfl, ?_, fun o => ?_⟩
            · cases w <;> rfl
            · cases w with
              | none => simp [leave]
              | some w => simp [leave, hh, hsf]

theorem pass4_core {k : Kind} {S D : T4} {r0 : Nat64.Res} {q : Nat64.Pkt Addr6} {k' : Kind} {S' D' : T6} (hA : Active cfg P)
    (V : view4 (pkt4 a) = some (k, S, D)) (hr : Nat64.core4 cfg s c (pkt4 a) = .ok r0) (ho : r0.out = .sent6 q) (V6 : view6 q = some (k', S', D')) :
    k' = k ∧ ∀ w, Wire.translate46 (assign x S'.port D'.port) S'.addr D'.addr p a = .ok w →
      ∃ r, pass4 cfg P s c x p a = .ok r ∧ r.st = r0.st ∧ ∀ o, r.fate = .sent o ↔ w = some o := by
  have ht := (Nat64.view4_tuple V).1
  rcases Nat64.core4_common hr with ⟨_, _, w, h'⟩ | ⟨P', _, hP', hc⟩
  · rw [ho] at h'; cases h'
  · rw [hA.2] at hP'; cases hP'
    unfold Nat64.common4 at hc
    rw [ht] at hc
    simp only at hc
    obtain ⟨f, hf, hc⟩ := Nat64.map_ok hc
    unfold Nat64.finish4 at hc
    cases hk : f.res with
    | error e => rw [hk] at hc; cases hc; cases e <;> cases ho
    | ok known =>
      rw [hk] at hc
      simp only at hc
      cases hcm : Nat64.compute4 P f.st ⟨S, D, k.proto⟩ known with
      | error e => rw [hcm] at hc; cases hc; cases e <;> cases ho
      | ok t =>
        rw [hcm] at hc
        simp only at hc
        cases hq : Nat64.translate4 cfg P c (pkt4 a) t with
        | error e => rw [hq] at hc; cases hc; cases e <;> cases ho
        | ok q' =>
          rw [hq] at hc
          simp only at hc
          cases hc
          have hfl : c.fail = none := by
            cases h : c.fail with
            | none => rfl
            | some e => unfold Nat64.translate4 at hq; rw [h] at hq; cases hq
          have hsf : c.sendFails = false := by
            cases h : c.sendFails with
            | false => rfl
            | true => unfold Nat64.send at ho; rw [h] at ho; cases ho
          have hqq : q' = q := by
            unfold Nat64.send at ho; rw [hsf] at ho
            simpa using ho
          subst hqq
          have e2 := Nat64.translate4_view V hq
          rw [V6] at e2
          simp only [Option.some.injEq, Prod.mk.injEq] at e2
          obtain ⟨rfl, rfl, rfl⟩ := e2
          have hsa : Nat64.saddr6 cfg P (pkt4 a) t = some t.src.addr := by simp [Nat64.saddr6, (Nat64.view4_tuple V).2.1]
          have hports : k'.port t.src.port t.src.port = t.src.port ∧ k'.port t.dst.port t.src.port = t.dst.port := by
            refine ⟨by cases k' <;> rfl, ?_⟩
            unfold Nat64.compute4 at hcm
            split at hcm
            · cases hcm
            · split at hcm
              · cases hcm
              · cases hcm
                cases k' <;> rfl
          refine ⟨rfl, fun w hw => ?_⟩
          rw [hports.1, hports.2] at hw
          unfold pass4
          rw [ht]
          simp only
          rw [hf]
          show ∃ r, end4 cfg P c x p a ⟨S, D, k'.proto⟩ f = .ok r ∧ _
          unfold end4
          rw [hk]
          simp only
          rw [hcm]
          simp only
          rw [hfl]
          simp only
          rw [hsa]
          simp only
          rw [hw]
          refine ⟨_, rfl, ?_, fun o => ?_⟩
          · cases w <;> rfl
          · cases w with
            | none => simp [leave]
            | some w => simp [leave, hsf]

theorem pass4_sent {k : Kind} {S D : T4} {r : Res} {o : List Byte} (hA : Active cfg P) (V : view4 (pkt4 a) = some (k, S, D))
    (hr : pass4 cfg P s c x p a = .ok r) (ho : r.fate = .sent o) : ∃ q S' D', view6 q = some (k, S', D') ∧
      Wire.translate46 (assign x S'.port D'.port) S'.addr D'.addr p a = .ok (some o) ∧ Nat64.core4 cfg s c (pkt4 a) = .ok ⟨r.st, r.ev, .sent6 q⟩ := by
  have ht := (Nat64.view4_tuple V).1
  unfold pass4 at hr
  rw [ht] at hr
  obtain ⟨f, hf, hr⟩ := Nat64.bind_ok hr
  unfold end4 at hr
  cases hk : f.res with
  | error e => rw [hk] at hr; cases hr; cases ho
  | ok known =>
    rw [hk] at hr
    simp only at hr
    cases hc : Nat64.compute4 P f.st ⟨S, D, k.proto⟩ known with
    | error e => rw [hc] at hr; cases hr; cases ho
    | ok t =>
      rw [hc] at hr
      simp only at hr
      cases hfl : c.fail with
      | some e => rw [hfl] at hr; cases hr; cases ho
      | none =>
        have hsa : Nat64.saddr6 cfg P (pkt4 a) t = some t.src.addr := by simp [Nat64.saddr6, (Nat64.view4_tuple V).2.1]
        rw [hfl, hsa] at hr
        obtain ⟨w, hw, rfl⟩ := Nat64.map_ok hr
        cases w with
        | none => cases ho
        | some o' =>
          obtain ⟨q, hq⟩ := translate4_ok (cfg := cfg) (P := P) V hfl t
          have hsf : c.sendFails = false := by
            cases h : c.sendFails with
            | false => rfl
            | true => simp [leave, h] at ho
          have ho' : o' = o := by simpa [leave, hsf] using ho
          subst ho'
          refine ⟨q, _, _, Nat64.translate4_view V hq, ?_, ?_⟩
          · have hports : k.port t.src.port t.src.port = t.src.port ∧ k.port t.dst.port t.src.port = t.dst.port := by
              refine ⟨by cases k <;> rfl, ?_⟩
              unfold Nat64.compute4 at hc
              split at hc
              · cases hc
              · split at hc
                · cases hc
                · cases hc
                  cases k <;> rfl
            rw [hports.1, hports.2]
            exact hw
          · unfold Nat64.core4
            rw [hA.1, hA.2]
            simp only [Bool.not_true, Bool.false_eq_true, if_false]
            unfold Nat64.common4
            rw [ht]
            simp only
            rw [hf]
            show Outcome.ok (Nat64.finish4 ..) = _
            unfold Nat64.finish4
            rw [hk]
            simp only
            rw [hc]
            simp only
            rw [hq]
            simp only
            unfold Nat64.send
            simp [leave, hsf]

/-! ## From IPv6 -/

theorem not1 {d : List Byte} {fh : Option Nat} {l n : Nat} {k : Kind} {S D : T6} (h : Is6 d fh l n k S D) : n = 6 ∨ n = 17 ∨ n = 58 := by
  have := h.seg
  cases k with
  | udp => exact Or.inr (Or.inl this.1)
  | tcp => exact Or.inl this.1
  | request => exact Or.inr (Or.inr this.1)
  | reply => exact Or.inr (Or.inr this.1)

theorem not58 {d : List Byte} {k : Kind} {S D : T4} (h : Is4 d k S D) : proto4 d = 6 ∨ proto4 d = 17 ∨ proto4 d = 1 := by
  have := h.seg
  cases k with
  | udp => exact Or.inr (Or.inl this.1)
  | tcp => exact Or.inl this.1
  | request => exact Or.inr (Or.inr this.1)
  | reply => exact Or.inr (Or.inr this.1)

/-- The translation of the bytes of a packet that is not an error: `packet64_partial` for packets whose kind is known. -/
theorem bytes64 {fh : Option Nat} {l n : Nat} {k : Kind} {S D : T6} (A : Arrives6 s0 a p) (I : Is6 s0.data fh l n k S D) (y : Wire.Ctx) (s4 d4 : BitVec 32) :
    ∃ w, Wire.translate64 y s4 d4 segleft p a = .ok w ∧ (w ≠ none ↔ Leaves64 segleft s0.data l n) ∧ ∀ o, w = some o → Sent64 y s4 d4 s0.data fh l n o := by
  have h1 := not1 I
  obtain ⟨n', w, hH, h2, h3, h4⟩ := Wire.packet64_partial (x := y) s4 d4 segleft A.accepted A.inside A.held A.tcp A.noError A.size (by
    intro fh' l' q
    have := (Wire.headers_unique I.chain q).2.2
    omega)
  obtain ⟨rfl, rfl, rfl⟩ := Wire.headers_unique I.chain hH
  exact ⟨w, h2, h3, h4⟩

theorem bytes46 {k : Kind} {S D : T4} (A : Arrives4 s0 a p) (I : Is4 s0.data k S D) (y : Wire.Ctx) (s6 d6 : BitVec 128) :
    ∃ w, Wire.translate46 y s6 d6 p a = .ok w ∧ (w ≠ none ↔ Leaves46 y s0.data) ∧ ∀ o, w = some o → Sent46 y s6 d6 s0.data o :=
  Wire.packet46_partial s6 d6 A.accepted A.inside A.held A.words A.tcp A.noError A.size (by have := not58 I; omega)

/-- What leaves is an IPv4 packet of the same kind, from and to where it was said. -/
theorem is4_of {fh : Option Nat} {l n : Nat} {k : Kind} {S D : T6} {u v : Port} {s4 d4 : BitVec 32} {o : List Byte} (A : Arrives6 s0 a p) (I : Is6 s0.data fh l n k S D)
    (h : Sent64 (assign x u v) s4 d4 s0.data fh l n o) : Is4 o k ⟨s4, u⟩ ⟨d4, k.port v u⟩ := by
  obtain ⟨-, -, hc, -⟩ := view6_of A.accepted A.inside I
  have hl : WireSpec.l4 o = 20 := by unfold WireSpec.l4; rw [h.head.words]
  refine ⟨by rw [h.head.off, I.first], h.head.src, h.head.dst, ?_⟩
  rw [hl, h.head.proto]
  have h1 := not1 I
  exact says_out (u1 := 8#8) (u2 := 0#8) h.seg I.first ⟨fun _ => hc.tcp trivial, fun _ => hc.udp trivial, hc.echo⟩ (by decide) (by rintro rfl; rfl) (by rintro rfl; rfl) (by rintro rfl; rfl) I.seg

/-- What leaves is an IPv6 packet of the same kind, from and to where it was said. -/
theorem is6_of {k : Kind} {S D : T4} {u v : Port} {s6 d6 : BitVec 128} {o : List Byte} (A : Arrives4 s0 a p) (I : Is4 s0.data k S D)
    (h : Sent46 (assign x u v) s6 d6 s0.data o) : ∃ fh, Is6 o fh (l6 s0.data) (to6 (proto4 s0.data)) k ⟨s6, u⟩ ⟨d6, k.port v u⟩ := by
  obtain ⟨-, hc, -⟩ := view4_of A.accepted A.inside I
  have h1 := not58 I
  have hto : to6 (proto4 s0.data) ∉ [0, 43, 44, 60] := by
    simp only [List.mem_cons, List.not_mem_nil, or_false]
    unfold to6
    split <;> omega
  have hseg : Says 128 129 58 (to6 (proto4 s0.data)) (o.drop (l6 s0.data)) k u (k.port v u) :=
    says_out (u1 := 128#8) (u2 := 129#8) h.seg I.first ⟨fun _ => hc.tcp trivial, fun _ => hc.udp trivial, hc.echo⟩ (by decide) (by intro q; rw [q]; rfl) (by intro q; rw [q]; rfl)
      (by intro q; rw [q]; rfl) I.seg
  by_cases hw : off4 s0.data = 0 ∧ mf4 s0.data = 0
  · have e : l6 s0.data = 40 := by unfold l6; rw [if_pos hw]
    refine ⟨none, ?_, rfl, h.head.src, h.head.dst, hseg⟩
    rw [h.head.whole hw.1 hw.2, e]
    exact .last hto
  · have e : l6 s0.data = 40 + 8 := by unfold l6; rw [if_neg hw]
    obtain ⟨g1, g2, g3, g4, g5, g6, g7⟩ := h.head.piece hw
    refine ⟨some 40, ?_, ?_, h.head.src, h.head.dst, hseg⟩
    · rw [g1, e, ← g2]
      exact .frag (by show fnext o 40 ∉ _; rw [g2]; exact hto)
    · show foff o 40 = 0
      rw [g5, I.first]

/-- **C79.** The bytes that leave a NAT64 for an IPv6 packet are an IPv4 packet of the same kind; it comes from the IPv4 transport address of a BIB entry whose IPv6 transport
address is the source in the bytes that arrived; it goes to the IPv4 address which the destination contains, to the same port; and all the rest is C77. Missing: ICMP errors,
fragments that are not the first one, packets which the kernel holds in several pieces. -/
theorem out64_partial {fh : Option Nat} {l n : Nat} {k : Kind} {S D : T6} {r : Res} {o : List Byte} (hs : Reach s) (hA : Active cfg P) (A : Arrives6 s0 a p)
    (I : Is6 s0.data fh l n k S D) (hr : pass6 cfg P s c x segleft p a = .ok r) (ho : r.fate = .sent o) :
    ∃ b ∈ bibs r.st k.proto, ∃ a4, b.src6 = S ∧ rfc6052_6to4 P D.addr = some a4 ∧ Is4 o k b.src4 ⟨a4, k.port D.port b.src4.port⟩ ∧
      Sent64 (assign x b.src4.port (k.port D.port b.src4.port)) b.src4.addr a4 s0.data fh l n o := by
  obtain ⟨rfl, rfl, -, V⟩ := view6_of A.accepted A.inside I
  obtain ⟨b, hb, a4, q, h1, h2, h3, h4, h5⟩ := pass6_sent hs hA V hr ho
  obtain ⟨w, e1, -, e3⟩ := bytes64 (segleft := segleft) A I (assign x b.src4.port (k.port D.port b.src4.port)) b.src4.addr a4
  rw [h3] at e1
  cases e1
  have hS := e3 o rfl
  refine ⟨b, hb, a4, h1, h2, ?_, hS⟩
  have := is4_of A I hS
  have e : k.port (k.port D.port b.src4.port) b.src4.port = k.port D.port b.src4.port := by cases k <;> rfl
  rw [e] at this
  exact this

/-- **C79.** Whatever the tables let through does leave, unless it is out of hops or has a source route; and the tables are the same. -/
theorem leaves64_partial {fh : Option Nat} {l n : Nat} {k : Kind} {S D : T6} {c2 : Option Nat64.Ctx} {r0 : Nat64.Res} {q : Nat64.Pkt Addr4} (hs : Reach s) (hA : Active cfg P)
    (A : Arrives6 s0 a p) (I : Is6 s0.data fh l n k S D) (hr : Nat64.core6 cfg s c c2 (pkt6 a) = .ok r0) (ho : r0.out = .sent4 q) :
    ∃ r, pass6 cfg P s c x segleft p a = .ok r ∧ r.st = r0.st ∧ ((∃ o, r.fate = .sent o) ↔ segleft = none ∧ 2 ≤ hop6 s0.data) := by
  obtain ⟨rfl, rfl, -, V⟩ := view6_of A.accepted A.inside I
  obtain ⟨b, a4, h⟩ := core6_pass (x := x) (segleft := segleft) (p := p) hs hA V hr ho
  obtain ⟨w, e1, e2, -⟩ := bytes64 (segleft := segleft) A I (assign x b.src4.port (k.port D.port b.src4.port)) b.src4.addr a4
  obtain ⟨r, h1, h2, h3⟩ := h w e1
  refine ⟨r, h1, h2, ?_⟩
  have hL : Leaves64 segleft s0.data a.m.l4 n ↔ segleft = none ∧ 2 ≤ hop6 s0.data := by
    constructor
    · intro q; exact ⟨q.route, q.hop⟩
    · intro q
      refine ⟨q.1, q.2, ?_⟩
      intro h58
      have sg := I.seg
      cases k with
      | udp => have := sg.1; omega
      | tcp => have := sg.1; omega
      | request => left; have := sg.2.1; rw [Wire.field_drop, Nat.add_zero] at this; exact this
      | reply => right; have := sg.2.1; rw [Wire.field_drop, Nat.add_zero] at this; exact this
  rw [← hL, ← e2]
  constructor
  · rintro ⟨o, q⟩
    rw [(h3 o).1 q]; simp
  · intro q
    cases w with
    | none => exact absurd rfl q
    | some o => exact ⟨o, (h3 o).2 rfl⟩

theorem leaves46_iff {k : Kind} {S D : T4} (I : Is4 s0.data k S D) (u v : Port) : Leaves46 (assign x u v) s0.data ↔ x.route = false ∧ 2 ≤ ttl4 s0.data := by
  constructor
  · intro q; exact ⟨q.route, q.ttl rfl⟩
  · intro q
    refine ⟨q.1, fun _ => q.2, fun _ _ _ => Or.inl rfl, ?_⟩
    intro h1
    have sg := I.seg
    cases k with
    | udp => have := sg.1; omega
    | tcp => have := sg.1; omega
    | request => left; have := sg.2.1; rw [Wire.field_drop, Nat.add_zero] at this; exact this
    | reply => right; have := sg.2.1; rw [Wire.field_drop, Nat.add_zero] at this; exact this

/-! ## From IPv4 -/

/-- **C79.** The bytes that leave a NAT64 for an IPv4 packet are an IPv6 packet of the same kind; it goes to the IPv6 transport address of the BIB entry whose IPv4 transport
address is the destination in the bytes that arrived; it comes from the address that contains the source, from the same port. -/
theorem out46_partial {k : Kind} {S D : T4} {r : Res} {o : List Byte} (hA : Active cfg P) (A : Arrives4 s0 a p) (I : Is4 s0.data k S D)
    (hr : pass4 cfg P s c x p a = .ok r) (ho : r.fate = .sent o) :
    Pool4.contains cfg.own s.pool4 k.proto D = true ∧ ∃ b ∈ bibs s k.proto, b ∈ bibs r.st k.proto ∧ ∃ a6, b.src4 = D ∧ rfc6052_4to6 P S.addr = some a6 ∧
      (∃ fh, Is6 o fh (l6 s0.data) (to6 (proto4 s0.data)) k ⟨a6, k.port S.port b.src6.port⟩ b.src6) ∧
      Sent46 (assign x (k.port S.port b.src6.port) b.src6.port) a6 b.src6.addr s0.data o := by
  obtain ⟨-, -, V⟩ := view4_of A.accepted A.inside I
  obtain ⟨q, S', D', V6, h1, h2⟩ := pass4_sent hA V hr ho
  obtain ⟨hp, b, hb, hbd, hb', a6, ha, V6'⟩ := Nat64.translated46 hA.2 V h2 rfl
  rw [V6] at V6'
  simp only [Option.some.injEq, Prod.mk.injEq, true_and] at V6'
  obtain ⟨rfl, rfl⟩ := V6'
  obtain ⟨w, e1, -, e3⟩ := bytes46 A I (assign x (k.port S.port b.src6.port) b.src6.port) a6 b.src6.addr
  simp only at h1
  rw [h1] at e1
  cases e1
  have hS := e3 o rfl
  refine ⟨hp, b, hb', hb, a6, hbd, ha, ?_, hS⟩
  obtain ⟨fh, H⟩ := is6_of A I hS
  refine ⟨fh, ?_⟩
  have e : k.port b.src6.port (k.port S.port b.src6.port) = b.src6.port := by cases k <;> rfl
  rw [e] at H
  exact H

/-- **C79.** Whatever the tables let through does leave, unless it is out of hops or has a source route. -/
theorem leaves46_partial {k : Kind} {S D : T4} {r0 : Nat64.Res} {q : Nat64.Pkt Addr6} (hA : Active cfg P) (A : Arrives4 s0 a p) (I : Is4 s0.data k S D)
    (hr : Nat64.core4 cfg s c (pkt4 a) = .ok r0) (ho : r0.out = .sent6 q) :
    ∃ r, pass4 cfg P s c x p a = .ok r ∧ r.st = r0.st ∧ ((∃ o, r.fate = .sent o) ↔ x.route = false ∧ 2 ≤ ttl4 s0.data) := by
  obtain ⟨-, -, V⟩ := view4_of A.accepted A.inside I
  obtain ⟨-, b, -, -, -, a6, -, V6⟩ := Nat64.translated46 hA.2 V hr ho
  obtain ⟨-, h⟩ := pass4_core (x := x) (p := p) hA V hr ho V6
  obtain ⟨w, e1, e2, -⟩ := bytes46 A I (assign x (k.port S.port b.src6.port) b.src6.port) a6 b.src6.addr
  obtain ⟨r, h1, h2, h3⟩ := h w e1
  refine ⟨r, h1, h2, ?_⟩
  rw [← leaves46_iff I (k.port S.port b.src6.port) b.src6.port, ← e2]
  constructor
  · rintro ⟨o, q⟩
    rw [(h3 o).1 q]; simp
  · intro q
    cases w with
    | none => exact absurd rfl q
    | some o => exact ⟨o, (h3 o).2 rfl⟩

/-! ## There and back -/

/-- **C79.** A conversation that an IPv6 node starts: some bytes `s0` leave as some bytes `o`. From then on, as long as the session is listed, whatever bytes arrive the other way
leave as an IPv6 packet to the node, at the address and port in `s0`, from the address and port which `s0` was sent to. (If that address has bits which no IPv4 address
determines, it is the one without them.) -/
theorem answered64_partial {fh : Option Nat} {l n : Nat} {k : Kind} {S D : T6} {r : Res} {o : List Byte} (hs : Reach s) (hA : Active cfg P) (A : Arrives6 s0 a p)
    (I : Is6 s0.data fh l n k S D) (hr : pass6 cfg P s c x segleft p a = .ok r) (ho : r.fate = .sent o) :
    ∃ (b : Bib.BibKey) (d : T4) (y : Addr6), Is4 o k b.src4 d ∧ b.src6 = S ∧ (y = D.addr ↔ Rfc6052Spec.Canonical P.len D.addr) ∧ rfc6052_6to4 P y = rfc6052_6to4 P D.addr ∧
      ∀ cfg' s' c' x' s0' a' p' k', Reach s' → Active cfg' P → Smooth c' → Arrives4 s0' a' p' → Is4 s0'.data k' d b.src4 → k'.proto = k.proto →
        SessKey.mk b d ∈ sessions s' k.proto → Pool4.contains cfg'.own s'.pool4 k.proto b.src4 = true → (k.proto = .TCP → Answerable ((s'.tables .TCP).info ⟨b, d⟩)) →
        x'.route = false → 2 ≤ ttl4 s0'.data →
        ∃ r' o', pass4 cfg' P s' c' x' p' a' = .ok r' ∧ r'.fate = .sent o' ∧ (∃ fh', Is6 o' fh' (l6 s0'.data) (to6 (proto4 s0'.data)) k' ⟨y, D.port⟩ S) ∧
          Sent46 (assign x' D.port S.port) y S.addr s0'.data o' := by
  obtain ⟨rfl, rfl, -, V⟩ := view6_of A.accepted A.inside I
  obtain ⟨b0, hb0, a4, q, h1, h2, h3, h4, h5⟩ := pass6_sent hs hA V hr ho
  obtain ⟨b, hb, a4', g1, g2, g3, g4⟩ := out64_partial hs hA A I hr ho
  obtain ⟨b', d, V4, hbs, y, hy1, hy2, hback⟩ := Nat64.roundtrip64 hs hA.2 V (h5 none) rfl
  rw [h4] at V4
  simp only [Option.some.injEq, Prod.mk.injEq, true_and] at V4
  obtain ⟨v1, v2⟩ := V4
  have hS : Is4 o k b'.src4 d := by
    rw [← v1, ← v2]
    obtain ⟨w, e1, -, e3⟩ := bytes64 (segleft := segleft) A I (assign x b0.src4.port (k.port D.port b0.src4.port)) b0.src4.addr a4
    rw [h3] at e1
    cases e1
    have := is4_of A I (e3 o rfl)
    have e : k.port (k.port D.port b0.src4.port) b0.src4.port = k.port D.port b0.src4.port := by cases k <;> rfl
    rw [e] at this
    exact this
  refine ⟨b', d, y, hS, hbs, hy1, hy2, ?_⟩
  intro cfg' s' c' x' s0' a' p' k' hs' hA' hc' A' I' hk hse hp hans hro htt
  obtain ⟨-, -, V'⟩ := view4_of A'.accepted A'.inside I'
  obtain ⟨r0, p0, hr0, ho0, V6⟩ := hback cfg' s' c' (pkt4 a') k' hs' hA' hc' V' hk hse hp hans
  obtain ⟨-, hpass⟩ := pass4_core (x := x') (p := p') hA' V' hr0 ho0 V6
  obtain ⟨w, e1, e2, e3⟩ := bytes46 A' I' (assign x' D.port S.port) y S.addr
  obtain ⟨r', i1, -, i3⟩ := hpass w e1
  cases w with
  | none => exact absurd rfl (e2.2 ((leaves46_iff I' _ _).2 ⟨hro, htt⟩))
  | some o' =>
    have H := e3 o' rfl
    refine ⟨r', o', i1, (i3 o').2 rfl, ?_, H⟩
    obtain ⟨fh', J⟩ := is6_of A' I' H
    have e : k'.port S.port D.port = S.port := by
      have sg := I.seg
      cases k <;> cases k' <;> first | rfl | exact sg.2.2.2 | exact absurd hk (by simp [Kind.proto])
    rw [e] at J
    exact ⟨fh', J⟩

/-- **C79.** A conversation that an IPv4 node starts: some bytes `s0` leave as some bytes `o`. From then on, as long as the BIB entry is listed, whatever bytes are sent the
other way and leave, leave from where `s0` was sent to, to where it came from. -/
theorem answered46_partial {k : Kind} {S D : T4} {r : Res} {o : List Byte} (hA : Active cfg P) (A : Arrives4 s0 a p) (I : Is4 s0.data k S D)
    (hr : pass4 cfg P s c x p a = .ok r) (ho : r.fate = .sent o) :
    ∃ b ∈ bibs r.st k.proto, ∃ d : T6, (∃ fh, Is6 o fh (l6 s0.data) (to6 (proto4 s0.data)) k d b.src6) ∧ b.src4 = D ∧
      ∀ cfg' s' c' x' segleft' s0' a' p' k' fh' l' n' r' o', Reach s' → Active cfg' P → Arrives6 s0' a' p' → Is6 s0'.data fh' l' n' k' b.src6 d → k'.proto = k.proto →
        b ∈ bibs s' k.proto → Usable s' c' b → pass6 cfg' P s' c' x' segleft' p' a' = .ok r' → r'.fate = .sent o' →
        Is4 o' k' D S ∧ Sent64 (assign x' D.port S.port) D.addr S.addr s0'.data fh' l' n' o' := by
  obtain ⟨-, -, V⟩ := view4_of A.accepted A.inside I
  obtain ⟨q, S', D', V6, h1, h2⟩ := pass4_sent hA V hr ho
  obtain ⟨b, hb, d, V6', hbd, hback⟩ := Nat64.roundtrip46 hA.2 V h2 rfl
  rw [V6] at V6'
  simp only [Option.some.injEq, Prod.mk.injEq, true_and] at V6'
  obtain ⟨rfl, rfl⟩ := V6'
  obtain ⟨w, e1, -, e3⟩ := bytes46 A I (assign x S'.port b.src6.port) S'.addr b.src6.addr
  rw [h1] at e1
  cases e1
  have hS := e3 o rfl
  refine ⟨b, hb, S', ?_, hbd, ?_⟩
  · obtain ⟨fh, H⟩ := is6_of A I hS
    obtain ⟨-, b2, hb2, -, -, a6, -, V6b⟩ := Nat64.translated46 hA.2 V h2 rfl
    rw [V6] at V6b
    simp only [Option.some.injEq, Prod.mk.injEq, true_and] at V6b
    have e : k.port b.src6.port S'.port = b.src6.port := by
      rw [V6b.1, V6b.2]
      cases k <;> rfl
    rw [e] at H
    exact ⟨fh, H⟩
  · intro cfg' s' c' x' segleft' s0' a' p' k' fh' l' n' r' o' hs' hA' A' I' hk hb' hu hr' ho'
    obtain ⟨rfl, rfl, -, V'⟩ := view6_of A'.accepted A'.inside I'
    obtain ⟨b0, hb0, a4, q', g1, g2, g3, g4, g5⟩ := pass6_sent hs' hA' V' hr' ho'
    have hv := hback cfg' s' c' none (pkt6 a') k' _ q' hs' hA'.2 V' hk hb' hu (g5 none) rfl
    rw [g4] at hv
    simp only [Option.some.injEq, Prod.mk.injEq, true_and] at hv
    obtain ⟨rfl, rfl⟩ := hv
    obtain ⟨w, e1, -, e3⟩ := bytes64 (segleft := segleft') A' I' (assign x' b0.src4.port (k'.port S'.port b0.src4.port)) b0.src4.addr a4
    rw [g3] at e1
    cases e1
    have H := e3 o' rfl
    refine ⟨?_, H⟩
    have := is4_of A' I' H
    have e : k'.port (k'.port S'.port b0.src4.port) b0.src4.port = k'.port S'.port b0.src4.port := by cases k' <;> rfl
    rw [e] at this
    exact this

end Jool.Whole
