import Verif.Model.WholeErr
import Verif.Props.Whole
import Verif.Props.WireErrSix
import Verif.Props.WholeSiit
import Verif.Props.Nat64Errors
/-
C84: ICMP errors through a NAT64, from the bytes that arrive to the bytes that leave.
-/
namespace Jool.WholeSpec
open Jool.Pkt (Byte Meta Acc)
open Jool.Nat64 (Port)
open Jool.Nat64Spec (Kind)
open Jool.WireSpec

/-- The packet inside of an ICMPv4 error. -/
def about4 (d : List Byte) : List Byte := d.drop (l4 d + 8)

/-- An ICMPv4 error that arrives, is accepted, and is in memory as the kernel leaves it; it is about a packet of this kind, from `S` to `D`. `tcp`: the TCP header of
that packet is not shorter than the smallest one; `ext`: the length field, if there is one, covers the IPv4 header (see C81). -/
structure Error4 (s0 : Pkt.Skb) (a : Acc) (p : Build.P) (i : Meta) (k : Kind) (S D : T4) : Prop where
  accepted : Pkt.init4 s0 = some a
  inside : s0.linear ≤ s0.data.length
  held : Build.Holds p a
  words : 5 ≤ words4 s0.data
  size : s0.data.length < 65536
  inner : a.inner = some i
  about : Is4 (about4 s0.data) k S D
  tcp : proto4 (about4 s0.data) = 6 → 5 ≤ field (about4 s0.data) (l4 (about4 s0.data) + 12) 1 / 16
  ext : field s0.data (l4 s0.data + 5) 1 ≠ 0 → l4 (about4 s0.data) ≤ field s0.data (l4 s0.data + 5) 1 * 4 + l6 (about4 s0.data)

/-- The same for ICMPv6. `L`: where the ICMPv6 header is. -/
structure Error6 (s0 : Pkt.Skb) (a : Acc) (p : Build.P) (i : Meta) (L : Nat) (fh : Option Nat) (il n : Nat) (k : Kind) (S D : T6) : Prop where
  accepted : Pkt.init6 s0 = some a
  inside : s0.linear ≤ s0.data.length
  held : Build.Holds p a
  size : s0.data.length < 65536
  inner : a.inner = some i
  chain : Headers s0.data 40 (next6 s0.data) none L 58
  about : Is6 (s0.data.drop (L + 8)) fh il n k S D
  tcp : n = 6 → 5 ≤ field (s0.data.drop (L + 8)) (il + 12) 1 / 16
  ext : ext6 (byte s0.data L) = true → field s0.data (L + 4) 1 ≠ 0 → il ≤ field s0.data (L + 4) 1 * 8 + 20

/-- What the translation of the headers of an error requires: no source route, hops left, a type (and pointer) that RFC 7915 translates, a correct checksum if nobody
verified it, and a length field that does not point beyond the end. -/
structure Passes46 (x : Wire.Ctx) (d : List Byte) : Prop where
  route : x.route = false
  ttl : 2 ≤ ttl4 d
  type : ∃ t c, IcmpSpec.Rfc46 (byte d (l4 d)) (byte d (l4 d + 1)) t c
  pointer : byte d (l4 d) = 12#8 → IcmpSpec.field4 (field d (l4 d + 4) 1) ≠ none
  sum : x.sm = .none → CsumSpec.Valid (d.drop (l4 d))
  ext : field d (l4 d + 5) 1 * 4 ≤ (about4 d).length

structure Passes64 (x : Wire.Ctx) (segleft : Option Nat) (d : List Byte) (l : Nat) : Prop where
  segments : segleft = none
  hop : 2 ≤ hop6 d
  type : ∃ t c, IcmpSpec.Rfc64 (byte d l) (byte d (l + 1)) t c
  pointer : byte d l = 4#8 → byte d (l + 1) = 0#8 → IcmpSpec.field6 (field d (l + 4) 4) ≠ none
  sum : x.sm = .none → CsumSpec.Valid (CsumSpec.ph6 (BitVec.ofNat 128 (src6 d)) (BitVec.ofNat 128 (dst6 d)) (d.drop l).length 58#8 ++ d.drop l)
  ext : ext6 (byte d l) = true → field d (l + 4) 1 * 8 ≤ (d.drop (l + 8)).length

end Jool.WholeSpec

namespace Jool.Whole
open Jool.Pkt (Byte L4 Meta Acc at8 at16)
open Jool.Nat64 (Port Fu Tuple)
open Jool.Nat64Spec
open Jool.WireSpec
open Jool.WholeSpec
open Jool.Wire (fhOf)
open Jool.Bib (SessKey Answerable)

set_option linter.unusedVariables false

/-! ## What is written in the packet inside -/

/-- `says_out`, if the identifier of echoes is not the source port of the others. -/
theorem says_in {u v w : Port} {t1 t2 : Nat} {u1 u2 : Byte} {n icmp n' icmp' : Nat} {seg out : List Byte} {k : Kind} {s d : Port}
    (h : Segment (some (u, v)) (some w) t1 t2 u1 u2 True n icmp seg out) (hi : icmp ≠ 6 ∧ icmp ≠ 17) (hc : Complete True n icmp seg) (ht : t1 ≠ t2)
    (h6 : n = 6 → n' = 6) (h17 : n = 17 → n' = 17) (h1 : n = icmp → n' = icmp') (hy : Says t1 t2 icmp n seg k s d) :
    Says u1.toNat u2.toNat icmp' n' out k (k.port u w) (k.port v w) := by
  have tu : n = 6 ∨ n = 17 → Segment (some (u, v)) (some u) t1 t2 u1 u2 True n icmp seg out :=
    fun q => ⟨h.subsequent, h.other, h.tcp, h.udp, fun _ e => by omega⟩
  have ec : n = icmp → Segment (some (w, v)) (some w) t1 t2 u1 u2 True n icmp seg out :=
    fun q => ⟨h.subsequent, h.other, fun _ e => absurd (q.symm.trans e) hi.1, fun _ e => absurd (q.symm.trans e) hi.2, h.echo⟩
  cases k with
  | udp => exact says_out (tu (.inr hy.1)) trivial hc ht h6 h17 h1 hy
  | tcp a b c => exact says_out (tu (.inl hy.1)) trivial hc ht h6 h17 h1 hy
  | request => exact says_out (ec hy.1) trivial hc ht h6 h17 h1 hy
  | reply => exact says_out (ec hy.1) trivial hc ht h6 h17 h1 hy

/-! ## What is read of the packet inside -/

theorem port_drop (d : List Byte) (k j : Nat) : port (d.drop k) j = port d (k + j) := by
  unfold port
  rw [Wire.at16_drop]

/-- The transport header of a packet, without the TCP flags. -/
def bare {A : Type} : Nat64.L4 A → Nat64.InL4
  | .tcp s d _ _ _ => .tcp s d
  | .udp s d => .udp s d
  | .icmp t c id _ => .icmp t c id
  | .other => .other

theorem inL4_eq {a : Acc} {i : Meta} (A : Type) (h : i.l4 = a.m.pay + (Wire.insideAcc a i).m.l4) : inL4 a i = bare (l4 A (Wire.insideAcc a i)) := by
  have e : (Wire.insideAcc a i).m.proto = i.proto := rfl
  have hd : (Wire.insideAcc a i).skb.data = a.skb.data.drop a.m.pay := rfl
  unfold inL4 l4
  simp only [e, hd, port_drop, Wire.at8_drop]
  rw [h]
  simp only [Nat.add_assoc]
  cases i.proto <;> rfl

/-- `l4_of`, without the TCP flags. -/
theorem bare_of {A : Type} {a : Acc} {req rep icmp n : Nat} {k : Kind} {s d : Port}
    (hp : a.m.proto = if n = 6 then L4.tcp else if n = 17 then L4.udp else if n = icmp then L4.icmp else L4.other) (hi : icmp ≠ 6 ∧ icmp ≠ 17)
    (hc : Complete True n icmp (a.skb.data.drop a.m.l4)) (hr : req < 256 ∧ rep < 256) (hy : Says req rep icmp n (a.skb.data.drop a.m.l4) k s d) :
    match k with
    | .udp => bare (l4 A a) = .udp s d
    | .tcp _ _ _ => bare (l4 A a) = .tcp s d
    | .request => (∃ c, bare (l4 A a) = .icmp (BitVec.ofNat 8 req) c s) ∧ d = s
    | .reply => (∃ c, bare (l4 A a) = .icmp (BitVec.ofNat 8 rep) c s) ∧ d = s := by
  have L := l4_of (A := A) hp hi hc hr hy
  cases k with
  | udp => simp only at L ⊢; rw [L]; rfl
  | tcp a b c => simp only at L ⊢; rw [L]; rfl
  | request => obtain ⟨⟨c, L⟩, e⟩ := L; exact ⟨⟨c, by rw [L]; rfl⟩, e⟩
  | reply => obtain ⟨⟨c, L⟩, e⟩ := L; exact ⟨⟨c, by rw [L]; rfl⟩, e⟩

variable {cfg : Nat64.Cfg} {P : Prefix6} {s : Nat64.St} {c : Nat64.Ctx} {x : Wire.Ctx} {y : Wire.ErrCtx} {sel2 : BitVec 16} {segleft : Option Nat} {p : Build.P} {a : Acc}
  {i : Meta} {s0 : Pkt.Skb} {k : Kind}

theorem error4_type {t : Byte} (h : Icmp.isIcmp4Error t = true) : t = 3 ∨ t = 4 ∨ t = 5 ∨ t = 11 ∨ t = 12 := by
  revert h; revert t; decide

theorem error6_type {t : Byte} (h : Icmp.isIcmp6Error t = true) : t = 1 ∨ t = 2 ∨ t = 3 ∨ t = 4 := by
  revert h; revert t; decide

section
variable {S D : T4}

theorem e4_arrives (E : Error4 s0 a p i k S D) : WholeSiitSpec.Arrives4 s0 a p := ⟨E.accepted, E.inside, E.held, E.words, E.size⟩

/-- Where the parts are. -/
theorem e4_parts (E : Error4 s0 a p i k S D) : (Wire.insideAcc a i).skb.data = about4 s0.data ∧ 20 ≤ s0.data.length ∧ 20 ≤ (about4 s0.data).length ∧ a.m.l4 = WireSpec.l4 s0.data ∧
    (Wire.insideAcc a i).m.l4 = WireSpec.l4 (about4 s0.data) ∧ Complete True (proto4 (about4 s0.data)) 1 ((about4 s0.data).drop (WireSpec.l4 (about4 s0.data))) := by
  have I := Wire.inPkt4 E.accepted E.inside E.inner
  have hD := (Pkt.init4_ok E.accepted).data
  obtain ⟨hpay, -, hl, -, -⟩ := WholeSiit.pay4 (e4_arrives E) E.inner
  have hk : (Wire.insideAcc a i).skb.data = about4 s0.data := by
    show a.skb.data.drop a.m.pay = _
    rw [hD, hpay]; rfl
  have h20 := (Wire.complete4 E.accepted E.inside).1
  obtain ⟨p1, p2, p3, p4, p5, p6, p7, p8, p9, p10⟩ := I
  rw [hk] at p1 p4 p5 p6 p7
  rw [Wire.ihl4_words p1] at p6
  have C := Wire.complete_in p1 p4 p5 p6 p7
  have f0 := E.about.first
  exact ⟨hk, h20, p1, hl, p6, ⟨fun _ => C.tcp f0, fun _ => C.udp f0, C.echo⟩⟩

theorem e4_quoted (E : Error4 s0 a p i k S D) : quoted4 (err4 a i) = some (k.noFlags, S, D) := by
  obtain ⟨hk, h20, g20, hl, hil, C⟩ := e4_parts E
  have I := Wire.inPkt4 E.accepted E.inside E.inner
  have herr := ((Pkt.init4_ok E.accepted).inner i E.inner).2.1
  have hD := (Pkt.init4_ok E.accepted).data
  have hP := I.proto
  rw [hk, Wire.proto4_of g20] at hP
  have B := bare_of (A := Addr4) (a := Wire.insideAcc a i) (req := 8) (rep := 0) hP (by decide) (by rw [hk, hil]; exact C) (by decide) (by rw [hk, hil]; exact E.about.seg)
  rw [← inL4_eq Addr4 I.il4] at B
  have hdr : a.skb.data.drop a.m.pay = about4 s0.data := hk
  obtain ⟨q3, q4⟩ : (Wire.ip4 (about4 s0.data)).src.toNat = src4 (about4 s0.data) ∧ (Wire.ip4 (about4 s0.data)).dst.toNat = dst4 (about4 s0.data) := (Wire.read4 g20).2.2.2.2.2.2
  have hs : (Wire.ip4 (about4 s0.data)).src = S.addr := addr_of (by rw [q3, E.about.src])
  have hd : (Wire.ip4 (about4 s0.data)).dst = D.addr := addr_of (by rw [q4, E.about.dst])
  unfold quoted4 err4
  simp only
  rw [hdr, hs, hd, hD, if_pos (error4_type herr)]
  unfold inView4
  cases k with
  | udp => simp only at B ⊢; rw [B]; rfl
  | tcp a b c => simp only at B ⊢; rw [B]; rfl
  | request =>
    obtain ⟨⟨c, B⟩, e⟩ := B
    simp only
    rw [B]
    simp only [BitVec.ofNat_eq_ofNat, if_true]
    exact same4 e
  | reply =>
    obtain ⟨⟨c, B⟩, e⟩ := B
    simp only
    rw [B]
    simp only [BitVec.ofNat_eq_ofNat, if_true, if_neg (show ¬ (0#8 = 8#8) by decide)]
    exact same4 e

theorem e4_proto (E : Error4 s0 a p i k S D) : proto4 (about4 s0.data) = 6 ∨ proto4 (about4 s0.data) = 17 ∨ proto4 (about4 s0.data) = 1 := not58 E.about

theorem e4_echo (E : Error4 s0 a p i k S D) (h1 : proto4 (about4 s0.data) = 1) :
    field (about4 s0.data) (WireSpec.l4 (about4 s0.data)) 1 = 8 ∨ field (about4 s0.data) (WireSpec.l4 (about4 s0.data)) 1 = 0 := by
  have sg := E.about.seg
  cases k with
  | udp => have := sg.1; omega
  | tcp => have := sg.1; omega
  | request => left; have := sg.2.1; rw [Wire.field_drop, Nat.add_zero] at this; exact this
  | reply => right; have := sg.2.1; rw [Wire.field_drop, Nat.add_zero] at this; exact this

theorem leavesErr46_iff (E : Error4 s0 a p i k S D) (u v : Port) : ErrLeaves46 (assign x u v) s0.data ↔ Passes46 x s0.data := by
  constructor
  · intro q; exact ⟨q.route, q.ttl rfl, q.type, q.pointer, q.sum, q.ext⟩
  · intro q
    exact ⟨q.route, fun _ => q.ttl, q.type, q.pointer, q.sum, fun _ _ => .inl rfl, e4_echo E, q.ext⟩

theorem bytesErr46 (E : Error4 s0 a p i k S D) (u v : Port) (y' : Wire.ErrCtx) (s6 d6 is6 id6 : BitVec 128) :
    ∃ w, Wire.translateErr46 (assign x u v) y' s6 d6 is6 id6 p a i = .ok w ∧ (w ≠ none ↔ Passes46 x s0.data) ∧
      ∀ o, w = some o → ErrSent46 (assign x u v) y' s6 d6 is6 id6 s0.data o := by
  have hp := e4_proto E
  obtain ⟨w, h1, h2, h3⟩ := Wire.error46_partial (x := assign x u v) (y := y') s6 d6 is6 id6 E.accepted E.inside E.held E.words E.inner E.size
    (by show proto4 (about4 s0.data) ≠ 58; omega) E.tcp
    (by
      intro q
      rcases e4_echo E q with e | e
      · show field (about4 s0.data) (WireSpec.l4 (about4 s0.data)) 1 ∉ _; rw [e]; decide
      · show field (about4 s0.data) (WireSpec.l4 (about4 s0.data)) 1 ∉ _; rw [e]; decide)
    E.ext
  exact ⟨w, h1, h2.trans (leavesErr46_iff E u v), h3⟩

/-- What becomes of the packet inside is an IPv6 packet of the same kind. -/
theorem quote46 (E : Error4 s0 a p i k S D) {u v : Port} {is6 id6 : BitVec 128} {q : List Byte}
    (h : Inside46 (assign x u v) (turned y u v) is6 id6 (about4 s0.data) q) :
    ∃ fh, Is6 q fh (l6 (about4 s0.data)) (to6 (proto4 (about4 s0.data))) k ⟨is6, k.port v u⟩ ⟨id6, u⟩ := by
  obtain ⟨hk, h20, g20, hl, hil, C⟩ := e4_parts E
  have hp := e4_proto E
  have hto : to6 (proto4 (about4 s0.data)) ∉ [0, 43, 44, 60] := by
    simp only [List.mem_cons, List.not_mem_nil, or_false]
    unfold to6
    split <;> omega
  have hseg : Says 128 129 58 (to6 (proto4 (about4 s0.data))) (q.drop (l6 (about4 s0.data))) k (k.port v u) (k.port u u) :=
    says_in (u1 := 128#8) (u2 := 129#8) h.seg (by decide) C (by decide) (by intro q; rw [q]; rfl) (by intro q; rw [q]; rfl) (by intro q; rw [q]; rfl) E.about.seg
  have e : k.port u u = u := by cases k <;> rfl
  rw [e] at hseg
  have hsh := h.shape
  by_cases hw : off4 (about4 s0.data) = 0 ∧ mf4 (about4 s0.data) = 0
  · have e : l6 (about4 s0.data) = 40 := by unfold l6; rw [if_pos hw]
    refine ⟨none, ?_, rfl, hsh.src, hsh.dst, hseg⟩
    rw [hsh.whole hw.1 hw.2, e]
    exact .last hto
  · have e : l6 (about4 s0.data) = 40 + 8 := by unfold l6; rw [if_neg hw]
    obtain ⟨g1, g2, g3, g4, g5, g6, g7⟩ := hsh.piece hw
    refine ⟨some 40, ?_, ?_, hsh.src, hsh.dst, hseg⟩
    · rw [g1, e, ← g2]
      exact .frag (by show fnext q 40 ∉ _; rw [g2]; exact hto)
    · show foff q 40 = 0
      rw [g5, E.about.first]

theorem noFlags_proto (k : Kind) : k.noFlags.proto = k.proto := by cases k <;> rfl

/-- The IPv6 address of the sender of an error, as it is configured: the one that contains the IPv4 address of the sender; or the address which the packet was sent to. -/
def senderOf (cfg : Nat64.Cfg) (d : List Byte) (D : T4) : Addr4 := if cfg.srcIcmp6errsBetter then BitVec.ofNat 32 (src4 d) else D.addr

/-- **C84.** An ICMPv4 error, whatever it is. The tables stay as they are. It leaves if and only if the packet inside comes from a pool4 address which a BIB entry has, and
its headers can be translated. What leaves goes to the node of that entry; the packet inside is the one that the node sent. Missing: errors inside of errors, packets
inside which are neither TCP nor UDP nor echoes, and what C81 misses. -/
theorem error46_partial (hs : Reach s) (E : Error4 s0 a p i k S D) : ∃ r, passErr4 cfg P s c x y p a i = .ok r ∧ r.st = s ∧ r.ev = [] ∧
    ((∃ o, r.fate = .sent o) ↔ Pool4.contains cfg.own s.pool4 k.proto S = true ∧ (∃ b ∈ bibs s k.proto, b.src4 = S) ∧ Rfc6052Spec.legal P.len ∧ c.fail = none ∧ c.sendFails = false ∧
      Passes46 x s0.data) ∧
    ∀ o, r.fate = .sent o → ∃ b ∈ bibs s k.proto, b.src4 = S ∧ ∃ a6 src, rfc6052_4to6 P D.addr = some a6 ∧ rfc6052_4to6 P (senderOf cfg s0.data D) = some src ∧
      ErrSent46 (assign x (k.port D.port b.src6.port) b.src6.port) (turned y (k.port D.port b.src6.port) b.src6.port) src b.src6.addr b.src6.addr a6 s0.data o ∧
      ∃ q fh, Is6 q fh (l6 (about4 s0.data)) (to6 (proto4 (about4 s0.data))) k b.src6 ⟨a6, k.port D.port b.src6.port⟩ ∧
        IcmpExt.Good 8 1280 48 (noExt46 s0.data) (field s0.data (WireSpec.l4 s0.data + 5) 1 * 4) (about4 s0.data) q (.ok (o.drop 48) (field o 44 1)) := by
  obtain ⟨hk, h20, g20, hl, hil, C⟩ := e4_parts E
  obtain ⟨ht, he⟩ := Nat64.quoted4_tuple (e4_quoted E)
  rw [noFlags_proto] at ht
  unfold passErr4
  rw [ht]
  dsimp only
  cases hp : Pool4.contains cfg.own s.pool4 k.proto S with
  | false =>
    have hfu : Nat64.fu4 cfg P s c (err4 a i) ⟨D, S, k.proto⟩ = .ok (Fu.stop s (.untranslatable "POOL4_MISMATCH" none)) := by simp [Nat64.fu4, hp]
    rw [hfu]
    exact ⟨_, rfl, rfl, rfl, ⟨(fun ⟨o, q⟩ => nomatch q), fun q => absurd q.1 (by simp)⟩, fun o q => nomatch q⟩
  | true =>
    have hfu : Nat64.fu4 cfg P s c (err4 a i) ⟨D, S, k.proto⟩ = .ok { st := s, ev := [], res := .ok none } := by simp [Nat64.fu4, hp, he]
    rw [hfu]
    dsimp only [Outcome.bind]
    unfold endErr4
    dsimp only
    unfold Nat64.compute4
    dsimp only
    cases hfi : Bib.find4 (s.tables k.proto) S with
    | none =>
      refine ⟨_, rfl, rfl, rfl, ⟨(fun ⟨o, q⟩ => nomatch q), fun q => ?_⟩, fun o q => nomatch q⟩
      obtain ⟨b, hb, hbs⟩ := q.2.1
      exact absurd hbs (Bib.find4_none hfi b hb)
    | some b =>
      obtain ⟨hb, hbs⟩ := Bib.find4_some hfi
      dsimp only
      cases ha : rfc6052_4to6 P D.addr with
      | none =>
        refine ⟨_, rfl, rfl, rfl, ⟨(fun ⟨o, q⟩ => nomatch q), fun q => ?_⟩, fun o q => nomatch q⟩
        obtain ⟨z, hz, -⟩ := rfc6052_roundtrip P D.addr q.2.2.1
        rw [ha] at hz; cases hz
      | some a6 =>
        have hleg := ((rfc6052_4to6_correct _ _ _).1 ha).1
        dsimp only
        cases hf : c.fail with
        | some e => exact ⟨_, rfl, rfl, rfl, ⟨(fun ⟨o, q⟩ => nomatch q), fun q => nomatch q.2.2.2.1⟩, fun o q => nomatch q⟩
        | none =>
          dsimp only
          obtain ⟨src, hsrc, -⟩ := rfc6052_roundtrip P (senderOf cfg s0.data D) hleg
          have hsa : Nat64.saddr6 cfg P (err4 a i) ⟨⟨a6, if k.proto = .ICMP then b.src6.port else D.port⟩, b.src6, k.proto⟩ = some src := by
            unfold Nat64.saddr6
            rw [he, Bool.and_true, ← hsrc]
            unfold senderOf
            have : (err4 a i).src = BitVec.ofNat 32 (src4 s0.data) := by
              show (Wire.ip4 a.skb.data).src = _
              rw [(Pkt.init4_ok E.accepted).data]
              exact (WholeSiit.ip4_view h20).1
            rw [this]
            split
            · rfl
            · exact ha.symm
          rw [hsa]
          dsimp only
          rw [Nat64.Kind.port_if]
          obtain ⟨w, w1, w2, w3⟩ := bytesErr46 (x := x) E (k.port D.port b.src6.port) b.src6.port (turned y (k.port D.port b.src6.port) b.src6.port) src b.src6.addr b.src6.addr a6
          rw [w1]
          dsimp only [Outcome.map]
          cases w with
          | none =>
            refine ⟨_, rfl, rfl, rfl, ⟨(fun ⟨o, q⟩ => nomatch q), fun q => ?_⟩, fun o q => nomatch q⟩
            exact absurd rfl (w2.2 q.2.2.2.2.2)
          | some o =>
            cases hsf : c.sendFails with
            | true =>
              refine ⟨_, rfl, rfl, rfl, ⟨fun ⟨o, q⟩ => ?_, fun q => nomatch q.2.2.2.2.1⟩, fun o q => ?_⟩
              · simp [leave, hsf] at q
              · simp [leave, hsf] at q
            | false =>
              refine ⟨_, rfl, rfl, rfl, ⟨fun _ => ⟨rfl, ⟨b, hb, hbs⟩, hleg, rfl, rfl, w2.1 (by simp)⟩, fun _ => ⟨o, by simp [leave, hsf]⟩⟩, fun o' q => ?_⟩
              have ho : o = o' := by simpa [leave, hsf] using q
              subst ho
              have T := w3 o rfl
              refine ⟨b, hb, hbs, a6, src, rfl, hsrc, T, ?_⟩
              obtain ⟨q, hq, hg⟩ := T.inside
              obtain ⟨fh, hI⟩ := quote46 E hq
              have e : k.port b.src6.port (k.port D.port b.src6.port) = b.src6.port := by cases k <;> rfl
              rw [e] at hI
              exact ⟨q, fh, hI, hg⟩

end

section
variable {S D : T6} {L il n : Nat} {fh : Option Nat}

theorem e6_parts (E : Error6 s0 a p i L fh il n k S D) : (Wire.insideAcc a i).skb.data = s0.data.drop (L + 8) ∧ 40 ≤ s0.data.length ∧ 40 ≤ (s0.data.drop (L + 8)).length ∧ a.m.l4 = L ∧
    fhOf (Wire.insideAcc a i).m = fh ∧ (Wire.insideAcc a i).m.l4 = il ∧ (∃ b : Byte, b.toNat = n ∧ (Wire.insideAcc a i).m.proto = PktSpec.proto6 b) ∧
    Complete True n 58 ((s0.data.drop (L + 8)).drop il) ∧ Icmp.isIcmp6Error (at8 s0.data L) = true := by
  obtain ⟨hD, h40, hfh, hl, hpay, h8, hlast, herr⟩ := Wire.errHdr64 E.accepted E.inside E.held E.inner E.chain
  obtain ⟨n', I⟩ := Wire.inPkt6 E.accepted E.inside E.inner
  have hk : (Wire.insideAcc a i).skb.data = s0.data.drop (L + 8) := by
    show a.skb.data.drop a.m.pay = _
    rw [hD, hpay]
  have g40 := I.full
  have gh := I.headers
  rw [hk] at g40 gh
  obtain ⟨rfl, rfl, rfl⟩ := Wire.headers_unique E.about.chain gh
  have C := Wire.complete_in6 I.hdr I.pay I.proto True
  rw [hk] at C
  exact ⟨hk, h40, g40, hl, rfl, rfl, ⟨n', rfl, I.proto⟩, C, herr⟩

theorem e6_quoted (E : Error6 s0 a p i L fh il n k S D) : quoted6 (err6 a i) = some (k.noFlags, S, D) := by
  obtain ⟨hk, h40, g40, hl, hfh, hil, ⟨nb, hnb, hP⟩, C, herr⟩ := e6_parts E
  obtain ⟨n', I⟩ := Wire.inPkt6 E.accepted E.inside E.inner
  have hD := (Pkt.init6_ok E.accepted).data
  rw [Wire.proto6_toNat, hnb] at hP
  have B := bare_of (A := Addr6) (a := Wire.insideAcc a i) (req := 128) (rep := 129) hP (by decide) (by rw [hk, hil]; exact C) (by decide)
    (by rw [hk, hil]; exact E.about.seg)
  rw [← inL4_eq Addr6 I.il4] at B
  have hdr : a.skb.data.drop a.m.pay = s0.data.drop (L + 8) := hk
  obtain ⟨-, -, q3, q4⟩ := Wire.read6 g40
  have hs : (Wire.ip6 (s0.data.drop (L + 8))).src = S.addr := addr_of (by rw [q3, E.about.src])
  have hd : (Wire.ip6 (s0.data.drop (L + 8))).dst = D.addr := addr_of (by rw [q4, E.about.dst])
  unfold quoted6 err6
  simp only
  rw [hdr, hs, hd, hD, hl, if_pos (error6_type herr)]
  unfold inView6
  cases k with
  | udp => simp only at B ⊢; rw [B]; rfl
  | tcp a b c => simp only at B ⊢; rw [B]; rfl
  | request =>
    obtain ⟨⟨c, B⟩, e⟩ := B
    simp only
    rw [B]
    simp only [BitVec.ofNat_eq_ofNat, if_true]
    exact same6 e
  | reply =>
    obtain ⟨⟨c, B⟩, e⟩ := B
    simp only
    rw [B]
    simp only [BitVec.ofNat_eq_ofNat, if_true, if_neg (show ¬ (129#8 = 128#8) by decide)]
    exact same6 e

theorem e6_echo (E : Error6 s0 a p i L fh il n k S D) (h1 : n = 58) : field (s0.data.drop (L + 8)) il 1 = 128 ∨ field (s0.data.drop (L + 8)) il 1 = 129 := by
  have sg := E.about.seg
  cases k with
  | udp => have := sg.1; omega
  | tcp => have := sg.1; omega
  | request => left; have := sg.2.1; rw [Wire.field_drop, Nat.add_zero] at this; exact this
  | reply => right; have := sg.2.1; rw [Wire.field_drop, Nat.add_zero] at this; exact this

theorem bytesErr64 (E : Error6 s0 a p i L fh il n k S D) (u v : Port) (y' : Wire.ErrCtx) (s4 d4 is4 id4 : BitVec 32) :
    ∃ w, Wire.translateErr64 (assign x u v) y' s4 d4 is4 id4 sel2 segleft p a i = .ok w ∧ (w ≠ none ↔ Passes64 x segleft s0.data L) ∧
      ∀ o, w = some o → ErrSent64 (assign x u v) y' s4 d4 is4 id4 s0.data L fh il n o := by
  have hp := not1 E.about
  obtain ⟨w, h1, h2, h3⟩ := Wire.error64_partial (x := assign x u v) (y := y') s4 d4 is4 id4 sel2 segleft E.accepted E.inside E.held E.inner E.size E.chain E.about.chain
    (by omega) E.tcp E.ext
  refine ⟨w, h1, h2.trans ⟨?_, ?_⟩, h3⟩
  · intro q; exact ⟨q.segments, q.hop, q.type, q.pointer, q.sum, q.ext⟩
  · intro q; exact ⟨q.segments, q.hop, q.type, q.pointer, q.sum, e6_echo E, q.ext⟩

/-- What becomes of the packet inside is an IPv4 packet of the same kind. -/
theorem quote64 (E : Error6 s0 a p i L fh il n k S D) {u v : Port} {is4 id4 : BitVec 32} {q : List Byte}
    (h : Inside64 (assign x u v) (turned y u v) is4 id4 (s0.data.drop (L + 8)) fh il n q) : Is4 q k ⟨is4, k.port v u⟩ ⟨id4, u⟩ := by
  obtain ⟨hk, h40, g40, hl, hfh, hil, -, C, herr⟩ := e6_parts E
  have e : WireSpec.l4 q = 20 := by unfold WireSpec.l4; rw [h.words]
  refine ⟨by rw [h.off, E.about.first], h.src, h.dst, ?_⟩
  rw [e, h.proto]
  have hp := not1 E.about
  have hseg : Says 8 0 1 (to4 n) (q.drop 20) k (k.port v u) (k.port u u) :=
    says_in (u1 := 8#8) (u2 := 0#8) h.seg (by decide) C (by decide) (by rintro rfl; rfl) (by rintro rfl; rfl) (by rintro rfl; rfl) E.about.seg
  have e : k.port u u = u := by cases k <;> rfl
  rw [e] at hseg
  exact hseg

/-- **C84.** An ICMPv6 error, whatever it is. The tables stay as they are. It leaves (or returns, if it is a hairpin) if and only if: it does not come from pool6, it goes to
pool6, the packet inside was sent to a node that has a BIB entry, by an address that contains an IPv4 address, and the headers can be translated. What leaves comes from the
IPv4 address of that entry and goes to the sender of the packet inside, which is the one that was sent to the node. -/
theorem error64_partial (hs : Reach s) (E : Error6 s0 a p i L fh il n k S D) : ∃ r, passErr6 cfg P s c x y sel2 segleft p a i = .ok r ∧ r.st = s ∧ r.ev = [] ∧
    ((∃ o, r.fate = .sent o ∨ ∃ t, r.fate = .hairpin o t) ↔ prefix6Contains P (BitVec.ofNat 128 (src6 s0.data)) = false ∧ prefix6Contains P (BitVec.ofNat 128 (dst6 s0.data)) = true ∧
      c.fail = none ∧ Passes64 x segleft s0.data L ∧ ∃ b ∈ bibs s k.proto, b.src6 = D ∧ ∃ a4, rfc6052_6to4 P S.addr = some a4 ∧
        (c.sendFails = true → Pool4.contains cfg.own s.pool4 k.proto ⟨a4, k.port S.port b.src4.port⟩ = true)) ∧
    ∀ o, (r.fate = .sent o ∨ ∃ t, r.fate = .hairpin o t) → ∃ b ∈ bibs s k.proto, b.src6 = D ∧ ∃ a4, rfc6052_6to4 P S.addr = some a4 ∧
      (r.fate = .sent o ↔ Pool4.contains cfg.own s.pool4 k.proto ⟨a4, k.port S.port b.src4.port⟩ = false) ∧
      (∀ t, r.fate = .hairpin o t → t = ⟨b.src4, ⟨a4, k.port S.port b.src4.port⟩, k.proto⟩) ∧
      ErrSent64 (assign x b.src4.port (k.port S.port b.src4.port)) (turned y b.src4.port (k.port S.port b.src4.port)) b.src4.addr a4 a4 b.src4.addr s0.data L fh il n o ∧
      ∃ q, Is4 q k ⟨a4, k.port S.port b.src4.port⟩ b.src4 ∧
        (ext6 (byte s0.data L) = true → IcmpExt.Good 4 576 28 false (field s0.data (L + 4) 1 * 8) (s0.data.drop (L + 8)) q (.ok (o.drop 28) (field o 25 1))) ∧
        (ext6 (byte s0.data L) = false → o.drop 28 = q.take 548) := by
  have g := Nat64.reach_good hs
  obtain ⟨hk, h40, g40, hl, hfh, hil, -, C, herr⟩ := e6_parts E
  obtain ⟨ht, he⟩ := Nat64.quoted6_tuple (e6_quoted E)
  rw [noFlags_proto] at ht
  have hD := (Pkt.init6_ok E.accepted).data
  have hsrc : (err6 a i).src = BitVec.ofNat 128 (src6 s0.data) := by
    show (Wire.ip6 a.skb.data).src = _
    rw [hD]
    exact (WholeSiit.ip6_view h40).1
  have hdst : (err6 a i).dst = BitVec.ofNat 128 (dst6 s0.data) := by
    show (Wire.ip6 a.skb.data).dst = _
    rw [hD]
    exact (WholeSiit.ip6_view h40).2.1
  unfold passErr6
  rw [ht]
  dsimp only
  cases hp : prefix6Contains P (BitVec.ofNat 128 (src6 s0.data)) with
  | true =>
    have hfu : Nat64.fu6 cfg P s c (err6 a i) ⟨D, S, k.proto⟩ = .ok (Fu.stop s (.drop "HAIRPIN_LOOP" none)) := by simp [Nat64.fu6, hsrc, hp]
    rw [hfu]
    exact ⟨_, rfl, rfl, rfl, ⟨(by rintro ⟨o, q | ⟨t, q⟩⟩ <;> cases q), fun q => nomatch q.1⟩, (by rintro o (q | ⟨t, q⟩) <;> cases q)⟩
  | false =>
    cases hp2 : prefix6Contains P (BitVec.ofNat 128 (dst6 s0.data)) with
    | false =>
      have hfu : Nat64.fu6 cfg P s c (err6 a i) ⟨D, S, k.proto⟩ = .ok (Fu.stop s (.untranslatable "POOL6_MISMATCH" none)) := by simp [Nat64.fu6, hsrc, hp, hdst, hp2]
      rw [hfu]
      exact ⟨_, rfl, rfl, rfl, ⟨(by rintro ⟨o, q | ⟨t, q⟩⟩ <;> cases q), fun q => nomatch q.2.1⟩, (by rintro o (q | ⟨t, q⟩) <;> cases q)⟩
    | true =>
      have hfu : Nat64.fu6 cfg P s c (err6 a i) ⟨D, S, k.proto⟩ = .ok { st := s, ev := [], res := .ok none } := by simp [Nat64.fu6, hsrc, hp, hdst, hp2, he]
      rw [hfu]
      dsimp only [Outcome.bind]
      unfold endErr6
      dsimp only
      unfold Nat64.compute6
      dsimp only
      cases hfi : Bib.find6 (s.tables k.proto) D with
      | none =>
        refine ⟨_, rfl, rfl, rfl, ⟨(by rintro ⟨o, q | ⟨t, q⟩⟩ <;> cases q), fun q => ?_⟩, (by rintro o (q | ⟨t, q⟩) <;> cases q)⟩
        obtain ⟨b, hb, hbs, -⟩ := q.2.2.2.2
        exact absurd hbs (Bib.find6_none hfi b (((g.wf _).same b).2 hb))
      | some b =>
        obtain ⟨hb, hbs⟩ := Bib.find6_some hfi
        have hb4 := ((g.wf _).same b).1 hb
        dsimp only
        cases ha : rfc6052_6to4 P S.addr with
        | none =>
          refine ⟨_, rfl, rfl, rfl, ⟨(by rintro ⟨o, q | ⟨t, q⟩⟩ <;> cases q), fun q => ?_⟩, (by rintro o (q | ⟨t, q⟩) <;> cases q)⟩
          obtain ⟨b, -, -, a4, e, -⟩ := q.2.2.2.2
          cases e
        | some a4 =>
          dsimp only
          cases hf : c.fail with
          | some e => exact ⟨_, rfl, rfl, rfl, ⟨(by rintro ⟨o, q | ⟨t, q⟩⟩ <;> cases q), fun q => nomatch q.2.2.1⟩, (by rintro o (q | ⟨t, q⟩) <;> cases q)⟩
          | none =>
            dsimp only [Option.getD]
            rw [Nat64.Kind.port_if]
            obtain ⟨w, w1, w2, w3⟩ := bytesErr64 (x := x) (sel2 := sel2) (segleft := segleft) E b.src4.port (k.port S.port b.src4.port)
              (turned y b.src4.port (k.port S.port b.src4.port)) b.src4.addr a4 a4 b.src4.addr
            rw [w1]
            dsimp only [Outcome.map]
            cases w with
            | none =>
              refine ⟨_, rfl, rfl, rfl, ⟨(by rintro ⟨o, q | ⟨t, q⟩⟩ <;> cases q), fun q => ?_⟩, (by rintro o (q | ⟨t, q⟩) <;> cases q)⟩
              exact absurd rfl (w2.2 q.2.2.2.1)
            | some o =>
              have T := w3 o rfl
              have L0 := w2.1 (by simp)
              have rest : ∃ q, Is4 q k ⟨a4, k.port S.port b.src4.port⟩ b.src4 ∧
                  (ext6 (byte s0.data L) = true → IcmpExt.Good 4 576 28 false (field s0.data (L + 4) 1 * 8) (s0.data.drop (L + 8)) q (.ok (o.drop 28) (field o 25 1))) ∧
                  (ext6 (byte s0.data L) = false → o.drop 28 = q.take 548) := by
                obtain ⟨q, hq, hg⟩ := T.inside
                have hI := quote64 E hq
                rw [Nat64.Kind.port_port] at hI
                exact ⟨q, hI, hg⟩
              cases hh : Pool4.contains cfg.own s.pool4 k.proto ⟨a4, k.port S.port b.src4.port⟩ with
              | true =>
                refine ⟨_, rfl, rfl, rfl, ⟨fun _ => ⟨rfl, rfl, rfl, L0, b, hb4, hbs, a4, rfl, fun _ => hh⟩, fun _ => ⟨o, .inr ⟨_, rfl⟩⟩⟩, fun o' q => ?_⟩
                have ho : o = o' := by
                  rcases q with q | ⟨t, q⟩
                  · simp [leave] at q
                  · simp [leave] at q; exact q.1
                subst ho
                refine ⟨b, hb4, hbs, a4, rfl, ?_, ?_, T, rest⟩
                · simp [leave, hh]
                · intro t q; simp [leave] at q; exact q.symm
              | false =>
                cases hsf : c.sendFails with
                | true =>
                  refine ⟨_, rfl, rfl, rfl, ⟨?_, ?_⟩, ?_⟩
                  · rintro ⟨o, q | ⟨t, q⟩⟩ <;> simp [leave, hsf] at q
                  · rintro ⟨-, -, -, -, b', hb', hbs', a4', e, q⟩
                    have : b' = b := (g.wf _).uniq6 hb' hb4 (hbs'.trans hbs.symm)
                    subst this
                    cases e
                    rw [hh] at q
                    exact absurd (q rfl) (by simp)
                  · rintro o (q | ⟨t, q⟩) <;> simp [leave, hsf] at q
                | false =>
                  refine ⟨_, rfl, rfl, rfl, ⟨fun _ => ⟨rfl, rfl, rfl, L0, b, hb4, hbs, a4, rfl, fun q => nomatch q⟩, fun _ => ⟨o, .inl (by simp [leave, hsf])⟩⟩, fun o' q => ?_⟩
                  have ho : o = o' := by
                    rcases q with q | ⟨t, q⟩
                    · simpa [leave, hsf] using q
                    · simp [leave, hsf] at q
                  subst ho
                  refine ⟨b, hb4, hbs, a4, rfl, ?_, ?_, T, rest⟩
                  · simp [leave, hsf, hh]
                  · intro t q; simp [leave, hsf] at q

end

end Jool.Whole
