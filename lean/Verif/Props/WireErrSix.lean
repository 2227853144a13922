import Verif.Props.WireErr
/-
C81: ICMP errors, from bytes to bytes, from IPv6 to IPv4.
-/
namespace Jool.WireSpec
open Jool.Pkt (Byte L4)

/-- Checksums of the packet inside of an error, 6 to 4. An echo is only right if the router cut nothing. -/
structure SumsIn64 (s6 d6 : BitVec 128) (s4 d4 : BitVec 32) (proto : Nat) (seg out : List Byte) : Prop where
  tcp : proto = 6 → ∀ extra len, len < 65536 →
    (CsumSpec.Valid (CsumSpec.ph4 s4 d4 len 6#8 ++ (out ++ extra)) ↔ CsumSpec.Valid (CsumSpec.ph6 s6 d6 len 6#8 ++ (seg ++ extra)))
  udp : proto = 17 → ∀ extra len, len < 65536 →
    (CsumSpec.Valid (CsumSpec.ph4 s4 d4 len 17#8 ++ (out ++ extra)) ↔ CsumSpec.Valid (CsumSpec.ph6 s6 d6 len 17#8 ++ (seg ++ extra)))
  udpSome : proto = 17 → field out 6 2 ≠ 0
  echo : proto = 58 → (∃ b ∈ out, b ≠ 0#8) → (CsumSpec.Valid out ↔ CsumSpec.Valid (CsumSpec.ph6 s6 d6 seg.length 58#8 ++ seg))

/-- RFC 7915 section 5.3: the packet `k` inside of an ICMPv6 error (fragment header at `fh`, transport header `n` at `l`) becomes `q`. -/
structure Inside64 (x : Wire.Ctx) (y : Wire.ErrCtx) (s4 d4 : BitVec 32) (k : List Byte) (fh : Option Nat) (l n : Nat) (q : List Byte) : Prop where
  version : ver q = 4
  words : words4 q = 5
  tos : tos4 q = match Wire.tosOf x.cfg with | none => class6 k | some t => t.toNat
  off : off4 q = offAt k fh
  more : fh = none → mf4 q = 0
  dont : fh = none → (df4 q = 1 ↔ 1260 < len4 q)
  ttl : ttl4 q = hop6 k
  proto : proto4 q = to4 n
  src : src4 q = s4.toNat
  dst : dst4 q = d4.toNat
  hsum : CsumSpec.Valid (q.take 20)
  len : (len4 q + l) % 65536 = (40 + len6 k + 20) % 65536
  size : q.length = 20 + (k.length - l)
  seg : Segment y.ports x.id 128 129 8#8 0#8 True n 58 (k.drop l) (q.drop 20)
  sums : x.sm ≠ .partial_ → SumsIn64 (BitVec.ofNat 128 (src6 k)) (BitVec.ofNat 128 (dst6 k)) s4 d4 n (k.drop l) (q.drop 20)

/-- Errors with a length field (RFC 4884 section 4): unreachable, time exceeded. -/
def ext6 (t : Byte) : Bool := decide (t = 1#8 ∨ t = 3#8)

/-- RFC 7915 section 5.2: the second word of the ICMPv4 header. `l`: where the ICMPv6 header is. -/
structure Second64 (y : Wire.ErrCtx) (d : List Byte) (l : Nat) (o : List Byte) : Prop where
  unused : ext6 (byte d l) = true → field o 24 1 = 0 ∧ field o 26 2 = 0
  mtu : byte d l = 2#8 → field o 24 2 = 0 ∧ (20 ≤ field d (l + 4) 4 → 20 ≤ y.inMtu.toNat → min (field d (l + 4) 4 - 20) (min y.outMtu.toNat (y.inMtu.toNat - 20)) < 2 ^ 16 →
    field o 26 2 = min (field d (l + 4) 4 - 20) (min y.outMtu.toNat (y.inMtu.toNat - 20)))
  pointer : byte d l = 4#8 → byte d (l + 1) = 0#8 → some (field o 24 1) = (IcmpSpec.field6 (field d (l + 4) 4)).map IcmpSpec.start4 ∧ field o 25 3 = 0
  protocol : byte d l = 4#8 → byte d (l + 1) = 1#8 → field o 24 4 = 0

/-- From IPv6 (`d`, whose ICMPv6 header is at `l`) to IPv4 (`o`), if `d` is an ICMP error: all of it. The packet inside has its fragment header at `fh` and its
transport header `n` at `il`. -/
structure ErrSent64 (x : Wire.Ctx) (y : Wire.ErrCtx) (s4 d4 is4 id4 : BitVec 32) (d : List Byte) (l : Nat) (fh : Option Nat) (il n : Nat) (o : List Byte) : Prop where
  head : Header64 x.cfg.dscp (Wire.tosOf x.cfg) s4 d4 d none 58 o
  dont : df4 o = 0
  small : o.length ≤ 576
  type : IcmpSpec.Rfc64 (byte d l) (byte d (l + 1)) (byte o 20) (byte o 21)
  second : Second64 y d l o
  sum : CsumSpec.Valid (o.drop 20)
  inside : ∃ q, Inside64 x y is4 id4 (d.drop (l + 8)) fh il n q ∧
    (ext6 (byte d l) = true → IcmpExt.Good 4 576 28 false (field d (l + 4) 1 * 8) (d.drop (l + 8)) q (.ok (o.drop 28) (field o 25 1))) ∧
    (ext6 (byte d l) = false → o.drop 28 = q.take 548)

/-- Which ICMPv6 errors go through. -/
structure ErrLeaves64 (x : Wire.Ctx) (segleft : Option Nat) (d : List Byte) (l il n : Nat) : Prop where
  segments : segleft = none
  hop : 2 ≤ hop6 d
  type : ∃ t c, IcmpSpec.Rfc64 (byte d l) (byte d (l + 1)) t c
  pointer : byte d l = 4#8 → byte d (l + 1) = 0#8 → IcmpSpec.field6 (field d (l + 4) 4) ≠ none
  sum : x.sm = .none → CsumSpec.Valid (CsumSpec.ph6 (BitVec.ofNat 128 (src6 d)) (BitVec.ofNat 128 (dst6 d)) (d.drop l).length 58#8 ++ d.drop l)
  echo : n = 58 → field (d.drop (l + 8)) il 1 = 128 ∨ field (d.drop (l + 8)) il 1 = 129
  ext : ext6 (byte d l) = true → field d (l + 4) 1 * 8 ≤ (d.drop (l + 8)).length

end Jool.WireSpec

namespace Jool.Wire
open Jool.Pkt (Byte L4 Meta Acc at8 at16 first4 fragmented4 ihl4 isFirst6 tcpLen)
open Jool.Csum (Kernel Summed put setPorts store)
open Jool.Build (Holds behind transport head64 inside64)
open Jool.WireSpec

set_option linter.unusedVariables false

theorem headers_drop {d : List Byte} {p off nh l n : Nat} {f : Option Nat} (h : Headers d (p + off) nh f l n) : p ≤ l ∧ Headers (d.drop p) off nh (f.map (· - p)) (l - p) n := by
  generalize ho : p + off = o at h
  induction h generalizing off with
  | last hn =>
    subst ho
    refine ⟨by omega, ?_⟩
    rw [show p + off - p = off by omega]
    exact Headers.last hn
  | frag hn =>
    subst ho
    refine ⟨by omega, ?_⟩
    rw [← field_drop] at hn ⊢
    rw [Option.map_some, show p + off - p = off by omega, show p + off + 8 - p = off + 8 by omega]
    exact Headers.frag hn
  | skip hn _ ih =>
    subst ho
    obtain ⟨h1, h2⟩ := ih (off := off + 8 * (field d (p + off + 1) 1 + 1)) (by omega)
    refine ⟨h1, Headers.skip hn ?_⟩
    rw [field_drop, field_drop]
    exact h2

section

variable {x : Ctx} {y : ErrCtx} {a : Acc} {s0 : Pkt.Skb} {p : Build.P} {i : Meta}

/-- The packet inside is a packet. -/
structure InPkt6 (a : Acc) (i : Meta) (n : Byte) : Prop where
  full : 40 ≤ (insideAcc a i).skb.data.length
  headers : Headers (insideAcc a i).skb.data 40 (next6 (insideAcc a i).skb.data) (fhOf (insideAcc a i).m) (insideAcc a i).m.l4 n.toNat
  last : Pkt.last6 a.skb a.m.pay = some (n, i.l4)
  first : isFirst6 (insideAcc a i).skb.data (insideAcc a i).m = true
  fh : (insideAcc a i).m.fh = 0 ∨ (insideAcc a i).m.fh + 8 ≤ (insideAcc a i).skb.data.length
  hdr : Pkt.HdrEnd (insideAcc a i).skb.data (insideAcc a i).m true
  pay : (insideAcc a i).m.pay ≤ (insideAcc a i).skb.data.length
  proto : (insideAcc a i).m.proto = PktSpec.proto6 n
  noError : (insideAcc a i).m.proto = L4.icmp → Icmp.isIcmp6Error (at8 (insideAcc a i).skb.data (insideAcc a i).m.l4) = true → False
  il4 : i.l4 = a.m.pay + (insideAcc a i).m.l4
  ipay : i.pay = a.m.pay + (insideAcc a i).m.pay
  le : (insideAcc a i).m.l4 ≤ (insideAcc a i).m.pay

theorem inPkt6 (h : Pkt.init6 s0 = some a) (hin : s0.linear ≤ s0.data.length) (hi : a.inner = some i) : ∃ n, InPkt6 a i n := by
  have A := Pkt.init6_ok h
  obtain ⟨-, -, I⟩ := A.inner i hi
  have hwi := A.within hin
  have hpay := I.pay
  have hfull := I.full
  have hD := A.data
  obtain ⟨m1, m2, m3, -, hH⟩ := Pkt.summarize6_meta I.sum
  rw [I.first] at hH
  obtain ⟨n, hch, hpr, hhd⟩ : ∃ n : Byte, PktSpec.Chain s0.data (a.m.pay + 40) (at8 s0.data (a.m.pay + 6)) i.l4 n ∧ i.proto = PktSpec.proto6 n ∧
      Headers s0.data (a.m.pay + 40) (at8 s0.data (a.m.pay + 6)).toNat (fhOf i) i.l4 n.toNat := by
    have hs := I.sum
    unfold Pkt.summarize6 at hs
    split at hs
    · obtain ⟨n, hc, h1, h2, -⟩ := walk6_headers hs (by omega)
      exact ⟨n, hc, h1, h2 rfl⟩
    · cases hs
  have hlen : (a.skb.data.drop a.m.pay).length = s0.data.length - a.m.pay := by rw [List.length_drop, hD]
  have hfhp : i.fh ≠ 0 → a.m.pay + 40 ≤ i.fh := by
    intro hne
    have key : ∀ {d : List Byte} {off nh l n : Nat} {f : Option Nat}, Headers d off nh f l n → ∀ k, f = some k → off ≤ k := by
      intro d off nh l n f hh
      induction hh with
      | last _ => intro k e; cases e
      | frag _ => intro k e; cases e; omega
      | skip _ _ ih => intro k e; have := ih k e; omega
    exact key hhd i.fh (by unfold fhOf; rw [if_neg hne])
  have hfo : fhOf (insideAcc a i).m = (fhOf i).map (· - a.m.pay) := by
    unfold fhOf
    show (if i.fh - a.m.pay = 0 then none else some (i.fh - a.m.pay)) = _
    by_cases h0 : i.fh = 0
    · rw [if_pos (by omega), if_pos h0]; rfl
    · have := hfhp h0
      rw [if_neg (by omega), if_neg h0]; rfl
  refine ⟨n, ⟨?_, ?_, ?_, ?_, ?_, ?_, ?_, hpr, ?_, ?_, ?_, ?_⟩⟩
  · show 40 ≤ (a.skb.data.drop a.m.pay).length
    omega
  · rw [hfo]
    show Headers (a.skb.data.drop a.m.pay) 40 (next6 (a.skb.data.drop a.m.pay)) _ (i.l4 - a.m.pay) n.toNat
    unfold next6
    rw [field_drop, hD, ← at8_field (by omega)]
    exact (headers_drop hhd).2
  · unfold Pkt.last6
    rw [if_pos (by omega), hD]
    exact (Pkt.iter_complete hch (by omega)).1
  · have hf := I.first
    unfold isFirst6 at hf ⊢
    show (decide (i.fh - a.m.pay = 0) || Pkt.first6 (a.skb.data.drop a.m.pay) (i.fh - a.m.pay)) = true
    by_cases h0 : i.fh = 0
    · rw [h0]; simp
    · have := hfhp h0
      rw [Bool.or_eq_true] at hf ⊢
      rcases hf with q | q
      · exact absurd (of_decide_eq_true q) h0
      · refine Or.inr ?_
        unfold Pkt.first6 at q ⊢
        rw [at16_drop, hD, show a.m.pay + (i.fh - a.m.pay + 2) = i.fh + 2 by omega]
        exact q
  · show i.fh - a.m.pay = 0 ∨ i.fh - a.m.pay + 8 ≤ (a.skb.data.drop a.m.pay).length
    by_cases h0 : i.fh = 0
    · left; omega
    · have := hfhp h0
      right; omega
  · unfold Pkt.HdrEnd at hH ⊢
    simp only [if_true, insideAcc] at hH ⊢
    cases hp : i.proto <;> rw [hp] at hH <;> simp only at hH ⊢
    · rw [List.length_drop, hD]
      refine ⟨by omega, ?_⟩
      have : tcpLen (s0.data.drop a.m.pay) (i.l4 - a.m.pay) = tcpLen s0.data i.l4 := by
        unfold tcpLen
        rw [at8_drop, show a.m.pay + (i.l4 - a.m.pay + 12) = i.l4 + 12 by omega]
      rw [this]
      omega
    · omega
    · omega
    · omega
  · show i.pay - a.m.pay ≤ (a.skb.data.drop a.m.pay).length
    omega
  · intro hp q
    have := (I.noError hp).2
    have e : at8 (insideAcc a i).skb.data (insideAcc a i).m.l4 = at8 s0.data i.l4 := by
      show at8 (a.skb.data.drop a.m.pay) (i.l4 - a.m.pay) = _
      rw [at8_drop, hD, show a.m.pay + (i.l4 - a.m.pay) = i.l4 by omega]
    rw [e, this] at q
    cases q
  · show i.l4 = a.m.pay + (i.l4 - a.m.pay)
    omega
  · show i.pay = a.m.pay + (i.pay - a.m.pay)
    omega
  · show i.l4 - a.m.pay ≤ i.pay - a.m.pay
    omega

theorem complete_in6 {d : List Byte} {m : Meta} {n : Byte} (hd : Pkt.HdrEnd d m true) (hp : m.pay ≤ d.length) (hpr : m.proto = PktSpec.proto6 n) (P : Prop) :
    Complete P n.toNat 58 (d.drop m.l4) := by
  rw [proto6_toNat] at hpr
  unfold Pkt.HdrEnd at hd
  rw [hpr, if_pos rfl] at hd
  refine ⟨?_, ?_, ?_⟩
  · intro _ q
    simp only [q, if_true] at hd
    unfold tcpLen at hd
    rw [List.length_drop, field_drop, ← at8_field (by omega)]
    omega
  · intro _ q
    simp [q] at hd
    rw [List.length_drop]
    omega
  · intro q
    simp [q] at hd
    rw [List.length_drop]
    omega

theorem segIn64_some {s4 d4 : BitVec 32} {n : Byte} {e : Acc} {d : List Byte} (hD : e.skb.data = d) (hn : e.m.proto = PktSpec.proto6 n)
    (hc : Complete True n.toNat 58 (d.drop e.m.l4)) (hne : e.m.proto = L4.icmp → Icmp.isIcmp6Error (at8 d e.m.l4) = true → False) :
    seg64 x s4 d4 e ≠ none ↔ (n.toNat = 58 → field d e.m.l4 1 = 128 ∨ field d e.m.l4 1 = 129) := by
  rw [proto6_toNat] at hn
  unfold seg64
  rw [hD]
  by_cases h6 : n.toNat = 6
  · simp [hn, h6]
  by_cases h17 : n.toNat = 17
  · simp [hn, h17]
  by_cases h1 : n.toNat = 58
  · have hn' : e.m.proto = L4.icmp := by rw [hn]; simp [h1]
    have h8 := hc.echo h1
    rw [List.length_drop] at h8
    have hfd : field d e.m.l4 1 = (at8 d e.m.l4).toNat := (at8_field (by omega)).symm
    simp only [hn', h1, hfd, true_implies, at8_drop, Nat.add_zero, ne_eq, Option.map_eq_none_iff]
    constructor
    · intro q
      cases hx : Icmp.xlat64Type (at8 d e.m.l4) (at8 d (e.m.l4 + 1)) with
      | none => exact absurd hx q
      | some t =>
        rcases (echo_types64 hx (hne hn')).2 with ⟨q, -⟩ | ⟨q, -⟩
        · exact Or.inl (by rw [q]; rfl)
        · exact Or.inr (by rw [q]; rfl)
    · rintro q hx
      rcases q with q | q
      · rw [show at8 d e.m.l4 = 128#8 from BitVec.eq_of_toNat_eq q] at hx; cases hx
      · rw [show at8 d e.m.l4 = 129#8 from BitVec.eq_of_toNat_eq q] at hx; cases hx
  · simp [hn, h6, h17, h1]

/-- Without anything left to the hardware. -/
theorem segmentIn64 {s4 d4 : BitVec 32} {seg : List Byte} {sm : Summed} {n : Byte} (hf : isFirst6 a.skb.data a.m = true) (hfh : a.m.fh = 0 ∨ a.m.fh + 8 ≤ a.skb.data.length)
    (hd : Pkt.HdrEnd a.skb.data a.m true) (hpay : a.m.pay ≤ a.skb.data.length) (hpr : a.m.proto = PktSpec.proto6 n)
    (hne : a.m.proto = L4.icmp → Icmp.isIcmp6Error (at8 a.skb.data a.m.l4) = true → False) (hs : seg64 x s4 d4 a = some (seg, sm)) :
    Segment x.ports x.id 128 129 8#8 0#8 True n.toNat 58 (a.skb.data.drop a.m.l4) seg ∧
    (x.sm ≠ .partial_ → SumsIn64 (ip6 a.skb.data).src (ip6 a.skb.data).dst s4 d4 n.toNat (a.skb.data.drop a.m.l4) seg) := by
  have ho := (first6_off hfh).1 hf
  have hs' : (if isFirst6 a.skb.data a.m = true then seg64 x s4 d4 a else some (a.skb.data.drop a.m.l4, x.sm)) = some (seg, sm) := by rw [if_pos hf]; exact hs
  obtain ⟨g1, g2⟩ := segment64_core (out := finished x.K sm a.m.proto seg) (by rw [hf]; exact hd) hpay hfh hne hpr hs' (by rw [if_pos hf])
  have hpr' := hpr
  rw [proto6_toNat] at hpr
  have h6 : n.toNat = 6 → a.m.proto = L4.tcp := by intro q; rw [hpr, if_pos q]
  have h17 : n.toNat = 17 → a.m.proto = L4.udp := by intro q; rw [hpr, if_neg (by omega), if_pos q]
  have hlong : ∀ n, a.m.proto = L4.tcp ∧ n = 20 ∨ a.m.proto = L4.udp ∧ n = 8 → n ≤ (a.skb.data.drop a.m.l4).length := by
    rintro n (⟨q, rfl⟩ | ⟨q, rfl⟩)
    · unfold Pkt.HdrEnd at hd
      simp only [q, if_true] at hd
      rw [List.length_drop]
      omega
    · unfold Pkt.HdrEnd at hd
      simp only [q, if_true] at hd
      rw [List.length_drop]
      omega
  have hput : ∀ k, a.m.proto = L4.tcp ∧ k = 16 ∨ a.m.proto = L4.udp ∧ k = 6 → Only k (ported x.ports (a.skb.data.drop a.m.l4)) seg := by
    rintro k (⟨q, rfl⟩ | ⟨q, rfl⟩)
    · unfold seg64 at hs
      simp only [q] at hs
      have := hlong 20 (Or.inl ⟨q, rfl⟩)
      obtain ⟨ck, h1, h2⟩ := xlat64_put x.K Csum.tcp false x.sm x.ports (ip6 a.skb.data).src (ip6 a.skb.data).dst (a.skb.data.drop a.m.l4) s4 d4
      have hpl := Csum.setPorts_length x.ports (l := a.skb.data.drop a.m.l4) (by omega)
      cases hs
      have h2' : (Csum.tcp64 x.K x.sm x.ports (ip6 a.skb.data).src (ip6 a.skb.data).dst (a.skb.data.drop a.m.l4) s4 d4).seg = _ := h2
      rw [h2', ← setPorts_ported]
      exact only_put (by show 16 + 2 ≤ _; omega) h1
    · unfold seg64 at hs
      simp only [q] at hs
      have := hlong 8 (Or.inr ⟨q, rfl⟩)
      obtain ⟨ck, h1, h2⟩ := xlat64_put x.K Csum.udp true x.sm x.ports (ip6 a.skb.data).src (ip6 a.skb.data).dst (a.skb.data.drop a.m.l4) s4 d4
      have hpl := Csum.setPorts_length x.ports (l := a.skb.data.drop a.m.l4) (by omega)
      cases hs
      have h2' : (Csum.udp64 x.K x.sm x.ports (ip6 a.skb.data).src (ip6 a.skb.data).dst (a.skb.data.drop a.m.l4) s4 d4).seg = _ := h2
      rw [h2', ← setPorts_ported]
      exact only_put (by show 6 + 2 ≤ _; omega) h1
  have hfo : a.m.proto ≠ L4.tcp → a.m.proto ≠ L4.udp → finished x.K sm a.m.proto seg = seg := fun q1 q2 => finished_other q1 q2
  have hn6 : n.toNat ≠ 6 → a.m.proto ≠ L4.tcp := by
    intro q q'
    rw [hpr, if_neg q] at q'
    split at q'
    · cases q'
    · split at q' <;> cases q'
  have hn17 : n.toNat ≠ 17 → a.m.proto ≠ L4.udp := by
    intro q q'
    rw [hpr] at q'
    split at q'
    · cases q'
    · split at q' <;> cases q'
  refine ⟨⟨fun q => absurd trivial q, fun q1 q2 q3 => ?_, fun _ q => hput 16 (Or.inl ⟨h6 q, rfl⟩), fun _ q => hput 6 (Or.inr ⟨h17 q, rfl⟩), fun _ q => ?_⟩, fun hx => ?_⟩
  · rw [← hfo (hn6 q1) (hn17 q2)]
    exact g1.other q1 q2 q3
  · rw [← hfo (hn6 (by omega)) (hn17 (by omega))]
    exact g1.echo ho q
  · have hsm : finished x.K sm a.m.proto seg = seg := by
      cases hp : a.m.proto with
      | tcp =>
        unfold seg64 at hs
        simp only [hp] at hs
        cases hs
        unfold finished
        refine if_neg ?_
        unfold Csum.tcp64 Csum.xlat64
        simp only [if_pos hx]
        decide
      | udp =>
        unfold seg64 at hs
        simp only [hp] at hs
        cases hs
        unfold finished
        refine if_neg ?_
        unfold Csum.udp64 Csum.xlat64
        simp only [if_pos hx]
        decide
      | icmp => exact finished_other (by decide) (by decide)
      | other => exact finished_other (by decide) (by decide)
    rw [hsm] at g2
    exact ⟨fun q => g2.tcp ho q hx, fun q => g2.udp ho q hx, fun q => g2.udpSome ho q hx, fun q => g2.echo ho q⟩

theorem ttp64_error {m : BitVec 16} {t c : Byte} {w : BitVec 32} (he : Icmp.isIcmp6Error t = true) :
    match Icmp.ttp64 none m t c w with
    | .ok t' c' w' => IcmpSpec.Rfc64 t c t' c' ∧ t' ≠ 0#8 ∧ (ext6 t = true → w' = 0) ∧ (t = 2#8 → w' = (0 : BitVec 16) ++ m) ∧
        (t = 4#8 → c = 0#8 → some (Icmp.pointer4 w') = (IcmpSpec.field6 w.toNat).map IcmpSpec.start4 ∧ w'.toNat % 2 ^ 24 = 0) ∧ (t = 4#8 → c = 1#8 → w' = 0)
    | .drop => (¬ ∃ t' c', IcmpSpec.Rfc64 t c t' c') ∨ t = 4#8 ∧ c = 0#8 ∧ IcmpSpec.field6 w.toNat = none
    | .dead => False := by
  cases hx : Icmp.xlat64Type t c with
  | none =>
    have : Icmp.ttp64 none m t c w = .drop := by unfold Icmp.ttp64; rw [hx]
    rw [this]
    exact Or.inl ((Icmp.icmp64_dropped t c).1 hx)
  | some r =>
    obtain ⟨t', c'⟩ := r
    have hr := (Icmp.icmp64_table t c t' c').1 hx
    cases hr
    case echoRequest => cases he
    case echoReply => cases he
    case headerField =>
      cases hq : Icmp.ttp64 none m 4#8 0#8 w with
      | ok t'' c'' w' =>
        obtain ⟨rfl, rfl, e3, e4⟩ := Icmp.pointer64_header none m w t'' c'' w' hq
        exact ⟨IcmpSpec.Rfc64.headerField, by decide, nofun, nofun, fun _ _ => ⟨e3, e4⟩, nofun⟩
      | drop =>
        refine Or.inr ⟨rfl, rfl, ?_⟩
        have hp := Icmp.pointer64 w
        cases hx : Icmp.ptr64 w with
        | none =>
          rw [hx] at hp
          cases hf : IcmpSpec.field6 w.toNat with
          | none => rfl
          | some v => rw [hf] at hp; cases hp
        | some v =>
          exfalso
          have : Icmp.ttp64 none m 4#8 0#8 w = (match Icmp.ptr64 w with
            | none => Icmp.Hdr.drop
            | some p => Icmp.Hdr.ok 12#8 0#8 (p <<< 24)) := rfl
          rw [hq, hx] at this
          cases this
      | dead => exact absurd hq (Icmp.ttp64_not_dead _ _ _ _ _)
    case unreachable h => rcases h with rfl | rfl | rfl <;> exact ⟨(Icmp.icmp64_table _ _ _ _).1 rfl, by decide, fun _ => rfl, nofun, nofun, nofun⟩
    case prohibited => exact ⟨(Icmp.icmp64_table _ _ _ _).1 rfl, by decide, fun _ => rfl, nofun, nofun, nofun⟩
    case port => exact ⟨(Icmp.icmp64_table _ _ _ _).1 rfl, by decide, fun _ => rfl, nofun, nofun, nofun⟩
    case tooBig => exact ⟨(Icmp.icmp64_table _ _ _ _).1 rfl, by decide, nofun, fun _ => rfl, nofun, nofun⟩
    case timeExceeded => exact ⟨(Icmp.icmp64_table _ _ _ _).1 rfl, by decide, fun _ => rfl, nofun, nofun, nofun⟩
    case nextHeader => exact ⟨(Icmp.icmp64_table _ _ _ _).1 rfl, by decide, nofun, nofun, nofun, fun _ _ => rfl⟩

theorem error64_out {K : Kernel} {sm : Summed} {seg out : List Byte} {s6 d6 : BitVec 128} (h : 8 ≤ out.length) (hz : at8 out 0 ≠ 0#8) :
    ∃ ck, ck.length = 2 ∧ CsumSpec.Valid (put out 2 ck) ∧
      Csum.error64 K sm s6 d6 seg out = if Csum.validate6 K sm s6 d6 seg = true then some (put out 2 ck) else none := by
  refine ⟨_, Csum.store_length K.le (Csum.csumFold (K.part (put out 2 [0#8, 0#8]) 0#32)), ?_, rfl⟩
  rw [Csum.valid_iff K.le]
  refine ⟨Csum.S_fresh K rfl (by omega), Csum.put_nonzero ?_⟩
  intro q
  match out, h with
  | b :: b' :: l, _ => exact hz (q b (by unfold put; simp))

theorem validate6_all (K : Kernel) (sm : Summed) (s6 d6 : BitVec 128) (seg : List Byte) :
    Csum.validate6 K sm s6 d6 seg = true ↔ (sm = .none → CsumSpec.Valid (CsumSpec.ph6 s6 d6 seg.length 58#8 ++ seg)) := by
  by_cases h : sm = .none
  · rw [h, Csum.validate6_iff]
    simp
  · unfold Csum.validate6
    rw [if_pos h]
    simp [h]

/-- An ICMPv4 error: what `head64` is, once the checksums are there. -/
def err64 (K : Kernel) (h4 : Hdr.Ip4) (t c : Byte) (ck : List Byte) (w : BitVec 32) (f : Option Nat) (l : List Byte) : List Byte :=
  bytes4 K { h4 with totLen := BitVec.ofNat 16 (28 + l.length), fragOff := 0#16 } ++ ([t, c] ++ ck ++ (Csum.be32 w).take 1 ++ [match f with
    | some f => BitVec.ofNat 8 f
    | none => at8 (Csum.be32 w) 1] ++ (Csum.be32 w).drop 2 ++ l)

theorem ipHeader_any {K : Kernel} {A C : List Byte} {p q p' q' : Byte} (hA : A.length = 10) : Csum.ipHeader K (A ++ ([p, q] ++ C)) = Csum.ipHeader K (A ++ ([p', q'] ++ C)) := by
  have key : ∀ ck : List Byte, ck.length = 2 → put (A ++ ([p, q] ++ C)) 10 ck = put (A ++ ([p', q'] ++ C)) 10 ck := by
    intro ck hc
    unfold put
    rw [List.take_left' hA, List.take_left' hA, ← List.drop_drop, ← List.drop_drop, List.drop_left' hA, List.drop_left' hA]
    rfl
  unfold Csum.ipHeader
  rw [key [0#8, 0#8] rfl, key _ (Csum.store_length _ _)]

theorem bytes4_shape (K : Kernel) (h : Hdr.Ip4) : ∃ p q, bytes4 K h = [0x45#8, h.tos] ++ Csum.be16 h.totLen ++ Csum.be16 h.id ++ Csum.be16 h.fragOff ++ [h.ttl, h.proto] ++ ([p, q] ++
    (Csum.be32 h.src ++ Csum.be32 h.dst)) := by
  unfold bytes4 Csum.ipHeader
  generalize hc : Csum.store K.le _ = c
  have hc' : c.length = 2 := by rw [← hc]; exact Csum.store_length _ _
  match c, hc' with
  | [p, q], _ => exact ⟨p, q, rfl⟩

theorem icmp_vals {x : Ctx} {l3 : Option (List Byte) → List Byte} {fr : List Byte} {t c : Byte} {w : BitVec 32} : (vals x l3 fr (icmpHdr t c w)).icmp = icmpHdr t c w := by
  show fit 8 (icmpHdr t c w) = _
  rw [fit_of (by unfold icmpHdr; rw [List.length_append, Csum.be32_length]; simp)]
  exact List.take_of_length_le (by unfold icmpHdr; rw [List.length_append, Csum.be32_length]; simp)

theorem head64_eq {h4 : Hdr.Ip4} {fr : List Byte} {t c : Byte} {w : BitVec 32} {f : Option Nat} {l : List Byte} {same : Bool}
    (hs : same = true → h4.fragOff = 0#16) (hd : h4.fragOff = 0#16 ∨ h4.fragOff = 0x4000#16) :
    Csum.ipHeader x.K ((head64 (vals x (fun _ => bytes4 x.K h4) fr (icmpHdr t c w)) l.length same f ++ l).take 20) = bytes4 x.K { h4 with totLen := BitVec.ofNat 16 (28 + l.length), fragOff := 0#16 } ∧
    (head64 (vals x (fun _ => bytes4 x.K h4) fr (icmpHdr t c w)) l.length same f ++ l).drop 20 = (err64 x.K h4 t c [0#8, 0#8] w f l).drop 20 := by
  obtain ⟨p, q, e⟩ := bytes4_shape x.K h4
  have e6 : (if same then at8 (bytes4 x.K h4) 6 else at8 (bytes4 x.K h4) 6 &&& 0xbf#8) = 0#8 := by
    have : at8 (bytes4 x.K h4) 6 = h4.fragOff.extractLsb' 8 8 := by rw [e]; rfl
    rw [this]
    cases same with
    | true => rw [hs rfl]; rfl
    | false => rcases hd with hd | hd <;> rw [hd] <;> rfl
  have e7 : h4.fragOff.extractLsb' 0 8 = 0#8 := by
    rcases hd with hd | hd <;> rw [hd] <;> rfl
  obtain ⟨b0, b1, b2, b3, ew, -, -⟩ := word_replaced w
  obtain ⟨u, v, hH⟩ : ∃ u v, head64 (vals x (fun _ => bytes4 x.K h4) fr (icmpHdr t c w)) l.length same f ++ l =
      ([0x45#8, h4.tos] ++ Csum.be16 (BitVec.ofNat 16 (28 + l.length)) ++ Csum.be16 h4.id ++ [0#8, 0#8] ++ [h4.ttl, h4.proto] ++ ([u, v] ++ (Csum.be32 h4.src ++ Csum.be32 h4.dst))) ++
      ([t, c] ++ [0#8, 0#8] ++ (Csum.be32 w).take 1 ++ [match f with
    | some f => BitVec.ofNat 8 f
    | none => at8 (Csum.be32 w) 1] ++ (Csum.be32 w).drop 2 ++ l) := by
    unfold head64
    simp only [icmp_vals]
    unfold vals
    simp only [e6, two_be16]
    rw [e]
    unfold icmpHdr
    rw [ew]
    have e7' : Csum.be16 h4.fragOff = [h4.fragOff.extractLsb' 8 8, 0#8] := by rw [← e7]; rfl
    rw [e7']
    generalize Csum.be16 (BitVec.ofNat 16 (28 + l.length)) = N
    generalize hI : Csum.be16 h4.id = I
    generalize hL : Csum.be16 h4.totLen = L
    generalize hS : Csum.be32 h4.src ++ Csum.be32 h4.dst = S
    have hI' : I.length = 2 := by rw [← hI]; rfl
    have hL' : L.length = 2 := by rw [← hL]; rfl
    match I, hI', L, hL' with
    | [i0, i1], _, [l0, l1], _ =>
    clear e e6 e7 e7' hs
    simp only [List.cons_append, List.nil_append, List.append_assoc, List.take_succ_cons, List.take_zero, List.drop_succ_cons, List.drop_zero]
    cases same with
    | true => refine ⟨p, q, ?_⟩; cases f <;> rfl
    | false => refine ⟨0#8, 0#8, ?_⟩; cases f <;> rfl
  rw [hH]
  constructor
  · rw [List.take_left' (by simp [Csum.be16_length, Csum.be32_length]), ipHeader_any (p' := 0#8) (q' := 0#8) (by simp [Csum.be16_length])]
    unfold bytes4
    have e0 : Csum.be16 0#16 = [0#8, 0#8] := by decide
    simp only [e0]
    simp only [List.append_assoc, List.cons_append, List.nil_append]
  · rw [List.drop_left' (by simp [Csum.be16_length, Csum.be32_length])]
    unfold err64
    rw [List.drop_left' (bytes4_length _ _)]

theorem err64_drop {K : Kernel} {h4 : Hdr.Ip4} {t c : Byte} {ck : List Byte} {w : BitVec 32} {f : Option Nat} {l : List Byte} (hc : ck.length = 2) :
    (err64 K h4 t c ck w f l).drop 28 = l ∧ (err64 K h4 t c ck w f l).length = 28 + l.length ∧ at8 ((err64 K h4 t c ck w f l).drop 20) 0 = t ∧
    bytes4 K { h4 with totLen := BitVec.ofNat 16 (28 + l.length), fragOff := 0#16 } ++ put ((err64 K h4 t c [0#8, 0#8] w f l).drop 20) 2 ck = err64 K h4 t c ck w f l := by
  obtain ⟨b0, b1, b2, b3, e, -, -⟩ := word_replaced w
  unfold err64
  rw [show (28 : Nat) = 20 + 8 by rfl, ← List.drop_drop, List.drop_left' (bytes4_length _ _), List.drop_left' (bytes4_length _ _), List.length_append, bytes4_length, e]
  match ck, hc with
  | [_, _], _ =>
    refine ⟨rfl, ?_, rfl, rfl⟩
    simp
    omega

theorem err64_fields {K : Kernel} {h4 : Hdr.Ip4} {t c : Byte} {ck : List Byte} {w : BitVec 32} {f : Option Nat} {l : List Byte} (hc : ck.length = 2) (hf : ∀ k, f = some k → k < 256) :
    byte (err64 K h4 t c ck w f l) 20 = t ∧ byte (err64 K h4 t c ck w f l) 21 = c ∧ (∀ k, f = some k → field (err64 K h4 t c ck w f l) 25 1 = k) ∧
    (w = 0 → field (err64 K h4 t c ck w f l) 24 1 = 0 ∧ field (err64 K h4 t c ck w f l) 26 2 = 0) ∧ (f = none → field (err64 K h4 t c ck w f l) 24 4 = w.toNat) := by
  obtain ⟨b0, b1, b2, b3, e, e1, e2⟩ := word_replaced w
  have hd : ∀ j n, field (err64 K h4 t c ck w f l) (20 + j) n = field ((err64 K h4 t c ck w f l).drop 20) j n := by
    intro j n
    rw [field_drop]
  have hb : ∀ j, byte (err64 K h4 t c ck w f l) (20 + j) = byte ((err64 K h4 t c ck w f l).drop 20) j := by
    intro j
    unfold byte
    rw [hd]
  have hdr : (err64 K h4 t c ck w f l).drop 20 = [t, c] ++ ck ++ [b0] ++ [match f with
    | some f => BitVec.ofNat 8 f
    | none => b1] ++ [b2, b3] ++ l := by
    unfold err64
    rw [List.drop_left' (bytes4_length _ _), e]
    rfl
  rw [show (21 : Nat) = 20 + 1 by rfl, show (24 : Nat) = 20 + 4 by rfl, show (25 : Nat) = 20 + 5 by rfl, show (26 : Nat) = 20 + 6 by rfl, show byte (err64 K h4 t c ck w f l) 20 = byte (err64 K h4 t c ck w f l) (20 + 0) by rfl]
  simp only [hb, hd, hdr]
  match ck, hc with
  | [k0, k1], _ =>
    refine ⟨?_, ?_, ?_, ?_, ?_⟩
    · show BitVec.ofNat 8 (value [t]) = t
      rw [value1]
      exact BitVec.eq_of_toNat_eq (by simp)
    · show BitVec.ofNat 8 (value [c]) = c
      rw [value1]
      exact BitVec.eq_of_toNat_eq (by simp)
    · intro k hk
      subst hk
      show value [BitVec.ofNat 8 k] = k
      rw [value1, BitVec.toNat_ofNat]
      have := hf k rfl
      omega
    · intro hw
      have : Csum.be32 w = [0#8, 0#8, 0#8, 0#8] := by rw [hw]; rfl
      rw [e] at this
      simp only [List.cons.injEq] at this
      obtain ⟨rfl, rfl, rfl, rfl, -⟩ := this
      refine ⟨?_, ?_⟩
      · show value [0#8] = 0
        simp [value]
      · show value [0#8, 0#8] = 0
        simp [value]
    · intro hn
      subst hn
      rw [← e1, ← value_four]
      rfl

theorem ext64_err {s4 d4 : BitVec 32} {segleft : Option Nat} {last : Byte} {len n : Nat} {h4 : Hdr.Ip4} (h : ext64 x s4 d4 segleft last a len = .ok h4) (hn : n ≤ 1260) :
    ext64 x s4 d4 segleft last a n = .ok { h4 with totLen := BitVec.ofNat 16 n, fragOff := 0#16 } ∧ (h4.fragOff = 0#16 ∨ h4.fragOff = 0x4000#16) ∧ (n = len → h4.fragOff = 0#16) ∧
    segleft = none ∧ 2 ≤ (ip6 a.skb.data).hop.toNat := by
  have hz : ∀ m, m ≤ 1260 → Hdr.fragOff64 none { inner := false, totLen := 0, fragList := x.fragList, gso := x.gso, tcp := false, hdrsLen := 28, len := m } = 0#16 := by
    intro m hm
    unfold Hdr.fragOff64
    have : Hdr.dfFlag { inner := false, totLen := 0, fragList := x.fragList, gso := x.gso, tcp := false, hdrsLen := 28, len := m } = false := by
      unfold Hdr.dfFlag
      simp only [Bool.false_eq_true, if_false, Bool.not_false, if_true]
      split
      · rfl
      · split
        · rfl
        · exact decide_eq_false (by omega)
    rw [this]
    decide
  unfold ext64 Hdr.ext64 at h ⊢
  split at h
  · cases h
  · rename_i hh
    cases segleft with
    | some l => cases h
    | none =>
      simp only at h
      cases h
      rw [if_neg hh]
      refine ⟨?_, ?_, ?_, rfl, by omega⟩
      · simp only [hz n hn]
      · simp only [Hdr.fragOff64]
        cases Hdr.dfFlag _ <;> decide
      · rintro rfl
        exact hz n hn

theorem err64_header {s4 d4 : BitVec 32} {segleft : Option Nat} {d : List Byte} {h4 : Hdr.Ip4} {len : Nat} {t cd : Byte} {ck : List Byte} {f : Option Nat} {w : BitVec 32} {l : List Byte}
    (hD : a.skb.data = d) (hd : 40 ≤ d.length) (hx : ext64 x s4 d4 segleft 58#8 a len = .ok h4) (hk : ck.length = 2) (hl : l.length ≤ 548) :
    Header64 x.cfg.dscp (tosOf x.cfg) s4 d4 d none 58 (err64 x.K h4 t cd ck w f l) ∧ df4 (err64 x.K h4 t cd ck w f l) = 0 := by
  have hx' := (ext64_err (n := 28 + l.length) hx (by omega)).1
  have hl2 := (err64_drop (K := x.K) (h4 := h4) (t := t) (c := cd) (f := f) (w := w) (l := l) hk).2.1
  obtain ⟨R, hR⟩ : ∃ R, R = [t, cd] ++ ck ++ (Csum.be32 w).take 1 ++ [match f with
    | some f => BitVec.ofNat 8 f
    | none => at8 (Csum.be32 w) 1] ++ (Csum.be32 w).drop 2 ++ l := ⟨_, rfl⟩
  have e : err64 x.K h4 t cd ck w f l = bytes4 x.K { h4 with totLen := BitVec.ofNat 16 (28 + l.length), fragOff := 0#16 } ++ R := by rw [hR]; rfl
  rw [e] at hl2 ⊢
  rw [List.length_append, bytes4_length] at hl2
  unfold ext64 at hx'
  rw [hD] at hx'
  obtain ⟨h1, -, -⟩ := header64_of (K := x.K) (m := { l4 := 0, pay := 0, proto := L4.icmp, fh := 0 }) (r := R) hd hx' (Or.inl rfl) (by show 28 + l.length = _; omega) (by omega)
  refine ⟨h1, ?_⟩
  obtain ⟨-, -, -, -, -, -, -, e8, -⟩ := fields4 x.K { h4 with totLen := BitVec.ofNat 16 (28 + l.length), fragOff := 0#16 } R
  have hlt : df4 (bytes4 x.K { h4 with totLen := BitVec.ofNat 16 (28 + l.length), fragOff := 0#16 } ++ R) < 2 := Nat.mod_lt _ (by omega)
  have h0 : ¬ HdrSpec.dont4 0#16 := by unfold HdrSpec.dont4; decide
  have h1 : ¬ df4 (bytes4 x.K { h4 with totLen := BitVec.ofNat 16 (28 + l.length), fragOff := 0#16 } ++ R) = 1 := fun q => h0 (e8.1 q)
  omega

theorem word_field {d : List Byte} {k : Nat} (h : k + 8 ≤ d.length) : (word d k).toNat = field d (k + 4) 4 := by
  have hl : ((d.drop (k + 4)).take 4).length = 4 := by rw [List.length_take, List.length_drop]; omega
  unfold word
  rw [BitVec.toNat_ofNat, Nat.mod_eq_of_lt (show _ < 2 ^ 32 from num_lt hl), ← value_num]
  rfl

theorem len6_eq {d : List Byte} (h : 40 ≤ d.length) : (ip6 d).payloadLen = BitVec.ofNat 16 (len6 d) ∧ len6 d < 65536 := by
  have : len6 d = at16 d 4 := by unfold len6; rw [field2 d (by omega)]
  rw [this]
  refine ⟨rfl, ?_⟩
  unfold at16
  have h1 := (at8 d 4).isLt
  have h2 := (at8 d (4 + 1)).isLt
  omega

theorem insideOf64 {s4 d4 : BitVec 32} {sel2 : BitVec 16} {e : Acc} {k seg : List Byte} {sm : Summed} {n : Byte} {di : Hdr.DfIn} (hk : e.skb.data = k) (p1 : 40 ≤ k.length)
    (p3 : isFirst6 k e.m = true) (p4 : Pkt.HdrEnd k e.m true) (p5 : e.m.pay ≤ k.length) (p6 : e.m.fh = 0 ∨ e.m.fh + 8 ≤ k.length) (p7 : e.m.proto = PktSpec.proto6 n) (p10 : e.m.l4 ≤ e.m.pay)
    (hne : e.m.proto = L4.icmp → Icmp.isIcmp6Error (at8 k e.m.l4) = true → False) (htcp : e.m.proto = L4.tcp → 20 ≤ tcpLen e.skb.data e.m.l4)
    (hs : seg64 (inCtx x y) s4 d4 e = some (seg, sm)) :
    Inside64 x y s4 d4 k (fhOf e.m) e.m.l4 n.toNat (bytes4 x.K (Hdr.int64 x.cfg (ip6 k) none n (hdrs64 e).1 (hdrs64 e).2 (dfInside e) sel2 s4 d4) ++ seg) ∧
      behind (vals (inCtx x y) (fun _ => bytes4 x.K (Hdr.int64 x.cfg (ip6 k) none n (hdrs64 e).1 (hdrs64 e).2 (dfInside e) sel2 s4 d4)) (List.replicate 8 0#8) seg) true e.skb.data e.m = seg := by
  obtain ⟨k4, hk4⟩ : ∃ k4, k4 = Hdr.int64 x.cfg (ip6 k) none n (hdrs64 e).1 (hdrs64 e).2 (dfInside e) sel2 s4 d4 := ⟨_, rfl⟩
  rw [← hk4]
  have hv1 := sized (inCtx x y) (seg := seg) (l3 := fun _ => bytes4 x.K k4) (fun _ => bytes4_length x.K k4) (fr := List.replicate 8 0#8) (by rfl)
  have hbe : behind (vals (inCtx x y) (fun _ => bytes4 x.K k4) (List.replicate 8 0#8) seg) true e.skb.data e.m = seg := by
    have := behind64_of (x := inCtx x y) (s4 := s4) (d4 := d4) (sm := sm) (seg := seg) (l3 := fun _ => bytes4 x.K k4) (fr := List.replicate 8 0#8) (a := e)
      (by rw [hk, p3]; exact p4) (fun _ => htcp) (by rw [hk]; exact p5) (by rw [hk, p3]; exact hs)
    rw [hk, p3] at this
    rw [hk]
    exact this
  have hsl : seg.length = k.length - e.m.l4 := by
    rw [← hbe, hk]
    refine behind_length hv1 p10 p5 ?_ nofun
    intro _
    have H := p4
    unfold Pkt.HdrEnd at H
    have T := htcp
    rw [hk] at T
    cases hp : e.m.proto <;> rw [hp] at H <;> simp only [if_true] at H <;> unfold Build.Enough
    · have := T hp
      show 20 ≤ _
      omega
    · show e.m.pay - e.m.l4 = 8
      omega
    · show e.m.pay - e.m.l4 = 8
      omega
    · show e.m.pay - e.m.l4 = 0
      omega
  have hI := segmentIn64 (x := inCtx x y) (a := e) (s4 := s4) (d4 := d4) (seg := seg) (sm := sm) (n := n) (by rw [hk]; exact p3) (by rw [hk]; exact p6) (by rw [hk]; exact p4)
    (by rw [hk]; exact p5) p7 (by rw [hk]; exact hne) hs
  rw [hk] at hI
  obtain ⟨I1, I2⟩ := hI
  have hoff := (first6_off p6).1 p3
  obtain ⟨r1, r2, r3, r4⟩ := read6 p1
  obtain ⟨e1, e2, e3, e4, e5, e6, e7, e8, e9, e10, e11, e12, e13⟩ := fields4 x.K k4 seg
  have hqd : (bytes4 x.K k4 ++ seg).drop 20 = seg := List.drop_left' (bytes4_length _ _)
  have hfo : k4.fragOff = Hdr.fragOff64 none (dfInside e) := by rw [hk4]; rfl
  have hkt : k4.totLen = BitVec.ofNat 16 40 + (ip6 k).payloadLen - BitVec.ofNat 16 (hdrs64 e).1 + BitVec.ofNat 16 (hdrs64 e).2 := by rw [hk4]; rfl
  obtain ⟨g1, g2, -, g4, -⟩ := Hdr.nofrag64 (dfInside e) 0
  have hdfi : Hdr.dfFlag (dfInside e) = decide (1260 < k4.totLen.toNat) := by
    rw [hkt]
    unfold Hdr.dfFlag dfInside
    simp only [if_true, hk]
  refine ⟨⟨e1, e2, ?_, ?_, ?_, ?_, ?_, ?_, ?_, ?_, e13, ?_, ?_, ?_, ?_⟩, hbe⟩
  · rw [e3, hk4]
    show (Hdr.xlatTos x.cfg (ip6 k)).toNat = _
    unfold Hdr.xlatTos tosOf
    cases x.cfg.resetTos
    · simp [r1]
    · simp
  · rw [e6, hfo, g1, hoff]
  · intro _
    have hlt := mf4_lt (bytes4 x.K k4 ++ seg)
    rw [hfo] at e7
    have : ¬ mf4 (bytes4 x.K k4 ++ seg) = 1 := fun q => g2 (e7.1 q)
    omega
  · intro _
    rw [e8, e4, hfo, g4, hdfi, decide_eq_true_iff]
  · rw [e9, hk4, ← r2]
    rfl
  · rw [e10, hk4]
    show (Hdr.xlatProto n).toNat = _
    unfold Hdr.xlatProto to4
    by_cases hp : n = 58#8
    · rw [hp]; rfl
    · have : ¬ n.toNat = 58 := fun h => hp (BitVec.eq_of_toNat_eq h)
      rw [if_neg this, if_neg (by simpa using hp)]
  · rw [e11, hk4]; rfl
  · rw [e12, hk4]; rfl
  · obtain ⟨l1, l2⟩ := len6_eq p1
    rw [e4, hkt, l1]
    show (BitVec.toNat (BitVec.ofNat 16 40 + BitVec.ofNat 16 (len6 k) - BitVec.ofNat 16 e.m.pay + BitVec.ofNat 16 (20 + (e.m.pay - e.m.l4))) + e.m.l4) % 65536 = _
    simp only [BitVec.toNat_sub, BitVec.toNat_add, BitVec.toNat_ofNat]
    omega
  · rw [List.length_append, bytes4_length, hsl]
  · rw [hqd]
    exact I1
  · rw [hqd, ← r3, ← r4, BitVec.ofNat_toNat, BitVec.ofNat_toNat, BitVec.setWidth_eq, BitVec.setWidth_eq]
    exact I2

theorem errSentOf64 {s4 d4 is4 id4 : BitVec 32} {segleft : Option Nat} {d k q : List Byte} {L len il n : Nat} {fh : Option Nat} {h4 : Hdr.Ip4} {t c : Byte} {w : BitVec 32} {ck l : List Byte} {f : Nat}
    (hk : k = d.drop (L + 8)) (hD : a.skb.data = d) (h40 : 40 ≤ d.length) (h8 : L + 8 ≤ d.length) (hx : ext64 x s4 d4 segleft 58#8 a len = .ok h4)
    (hq : Inside64 x y is4 id4 k fh il n q) (hgood : IcmpExt.Good 4 576 28 false (if ext6 (byte d L) then field d (L + 4) 1 * 8 else 0) k q (.ok l f)) (k1 : ck.length = 2)
    (k2 : CsumSpec.Valid ((err64 x.K h4 t c ck w (if ext6 (byte d L) then some f else none) l).drop 20))
    (t1 : IcmpSpec.Rfc64 (byte d L) (byte d (L + 1)) t c) (t3 : ext6 (byte d L) = true → w = 0)
    (t4 : byte d L = 2#8 → w = (0 : BitVec 16) ++ Mtu.mtu4 (word d L) y.inMtu y.outMtu)
    (t5 : byte d L = 4#8 → byte d (L + 1) = 0#8 → some (Icmp.pointer4 w) = (IcmpSpec.field6 (word d L).toNat).map IcmpSpec.start4 ∧ w.toNat % 2 ^ 24 = 0)
    (t6 : byte d L = 4#8 → byte d (L + 1) = 1#8 → w = 0) :
    ErrSent64 x y s4 d4 is4 id4 d L fh il n (err64 x.K h4 t c ck w (if ext6 (byte d L) then some f else none) l) := by
  obtain ⟨hl1, hf1, -, hipl⟩ := good_small hgood
  obtain ⟨F, hF⟩ : ∃ F, F = if ext6 (byte d L) then some f else none := ⟨_, rfl⟩
  rw [← hF] at k2 ⊢
  obtain ⟨o1, o2, -, -⟩ := err64_drop (K := x.K) (h4 := h4) (t := t) (c := c) (f := F) (w := w) (l := l) k1
  obtain ⟨f1, f2, f3, f4, f5⟩ := err64_fields (K := x.K) (h4 := h4) (t := t) (c := c) (w := w) (l := l) (f := F) k1 (by
    intro j hj
    rw [hF] at hj
    split at hj
    · cases hj; exact hf1
    · cases hj)
  obtain ⟨g1, g2⟩ := err64_header (f := F) (t := t) (cd := c) (w := w) (l := l) hD h40 hx k1 (by omega)
  have hnone : ext6 (byte d L) = false → F = none := by intro q; rw [hF, q]; rfl
  generalize hO : err64 x.K h4 t c ck w F l = o at *
  have hwv := word_field (d := d) (k := L) h8
  have hsplit : ∀ v, field o 24 4 = v → field o 24 1 = v / 2 ^ 24 ∧ field o 25 3 = v % 2 ^ 24 ∧ field o 24 2 = v / 2 ^ 16 ∧ field o 26 2 = v % 2 ^ 16 := by
    intro v hv
    have hl : ((o.drop 24).take 4).length = 4 := by rw [List.length_take, List.length_drop]; omega
    have e1 : field o 24 1 = value (((o.drop 24).take 4).take 1) := by unfold field; rw [List.take_take]; rfl
    have e2 : field o 25 3 = value (((o.drop 24).take 4).drop 1) := by unfold field; rw [List.drop_take, List.drop_drop]
    have e3 : field o 24 2 = value (((o.drop 24).take 4).take 2) := by unfold field; rw [List.take_take]; rfl
    have e4 : field o 26 2 = value (((o.drop 24).take 4).drop 2) := by unfold field; rw [List.drop_take, List.drop_drop]
    rw [e1, e2, e3, e4, ← hv]
    unfold field
    generalize (o.drop 24).take 4 = B at hl
    match B, hl with
    | [b0, b1, b2, b3], _ =>
      have h0 := b0.isLt
      have h1 := b1.isLt
      have h2 := b2.isLt
      have h3 := b3.isLt
      simp only [value, List.length_cons, List.length_nil, List.take_succ_cons, List.take_zero, List.drop_succ_cons, List.drop_zero]
      omega
  refine ⟨g1, g2, by omega, by rw [f1, f2]; exact t1, ⟨?_, ?_, ?_, ?_⟩, k2, q, ?_, ?_, ?_⟩
  · intro q
    exact f4 (t3 q)
  · intro q
    have hw := t4 q
    obtain ⟨-, -, v3, v4⟩ := hsplit w.toNat (f5 (hnone (by unfold ext6; rw [q]; decide)))
    have hwn : w.toNat = (Mtu.mtu4 (word d L) y.inMtu y.outMtu).toNat := by
      rw [hw, BitVec.toNat_append]
      simp
    have hmlt := (Mtu.mtu4 (word d L) y.inMtu y.outMtu).isLt
    rw [v3, v4, hwn]
    refine ⟨by omega, fun q1 q2 q3 => ?_⟩
    rw [← hwv] at q1 q3 ⊢
    rw [Nat.mod_eq_of_lt hmlt]
    exact Mtu.mtu4_rfc_partial _ _ _ q1 q2 q3
  · intro q1 q2
    obtain ⟨v1, v2, -, -⟩ := hsplit w.toNat (f5 (hnone (by unfold ext6; rw [q1]; decide)))
    obtain ⟨u1, u2⟩ := t5 q1 q2
    rw [v1, v2, ← hwv, ← u1]
    exact ⟨rfl, u2⟩
  · intro q1 q2
    rw [f5 (hnone (by unfold ext6; rw [q1]; decide)), t6 q1 q2]
    rfl
  · rw [← hk]
    exact hq
  · intro q
    rw [q, if_pos rfl] at hgood hF
    rw [o1, f3 f hF, ← hk]
    exact hgood
  · intro q
    rw [q] at hgood
    simp only [Bool.false_eq_true, if_false] at hgood
    rw [o1]
    cases hgood with
    | plain h => rfl
    | removed h1 h2 h3 => cases h1
    | kept dd _ h1 h2 h3 h4 h5 h6 h7 => omega

theorem ext6_iff (t : Byte) : ext6 t = true ↔ t = 1#8 ∨ t = 3#8 := decide_eq_true_iff

theorem tcp_of6 {k : List Byte} {e : Acc} {n : Byte} (hk : e.skb.data = k) (hpr : e.m.proto = PktSpec.proto6 n) (hC : Complete True n.toNat 58 (k.drop e.m.l4))
    (htcp : n.toNat = 6 → 5 ≤ field k (e.m.l4 + 12) 1 / 16) : e.m.proto = L4.tcp → 20 ≤ tcpLen e.skb.data e.m.l4 := by
  intro q
  rw [proto6_toNat] at hpr
  have q6 : n.toNat = 6 := by
    rw [q] at hpr
    by_cases q6 : n.toNat = 6
    · exact q6
    · rw [if_neg q6] at hpr
      split at hpr
      · cases hpr
      · split at hpr <;> cases hpr
  have h1 := hC.tcp trivial q6
  rw [List.length_drop, field_drop] at h1
  have h2 := htcp q6
  rw [hk]
  unfold tcpLen
  rw [at8_field (by omega)]
  omega

/-- What is known about the packet, and about the packet inside. -/
theorem errHdr64 {L : Nat} (h : Pkt.init6 s0 = some a) (hin : s0.linear ≤ s0.data.length) (hh : Holds p a) (hi : a.inner = some i)
    (hH : Headers s0.data 40 (next6 s0.data) none L 58) :
    a.skb.data = s0.data ∧ 40 ≤ s0.data.length ∧ a.m.fh = 0 ∧ a.m.l4 = L ∧ a.m.pay = L + 8 ∧ L + 8 ≤ s0.data.length ∧ Pkt.last6 a.skb 0 = some (58#8, L) ∧
      Icmp.isIcmp6Error (at8 s0.data L) = true := by
  have A := Pkt.init6_ok h
  have hD := A.data
  have h40 : 40 ≤ a.skb.data.length := by have := A.len; rw [hD]; omega
  obtain ⟨n, hH', hC, hP⟩ := headers6 h h40
  rw [hD] at hH'
  obtain ⟨u1, u2, u3⟩ := headers_unique hH hH'
  have hn : n = 58#8 := BitVec.eq_of_toNat_eq u3.symm
  subst hn
  have hfh : a.m.fh = 0 := by
    unfold fhOf at u1
    by_cases q : a.m.fh = 0
    · exact q
    · rw [if_neg q] at u1; cases u1
  obtain ⟨hpi, herr, -⟩ := A.inner i hi
  obtain ⟨-, hm1, hm2, -, hd⟩ := Pkt.summarize6_meta A.sum
  have hlin := holds_linear hh
  have hpay := A.pay
  have h8 := (A.icmp hpi).2.1
  obtain ⟨hit, -⟩ := Pkt.iter_complete (lin := a.skb.linear) hC (by omega)
  refine ⟨hD, by rw [← hD]; exact h40, hfh, u2.symm, ?_, by omega, ?_, by rw [u2]; exact herr⟩
  · unfold Pkt.HdrEnd at hd
    rw [hpi] at hd
    have : isFirst6 s0.data a.m = true := by unfold isFirst6; rw [hfh]; rfl
    rw [this] at hd
    simp only [if_true] at hd
    omega
  · unfold Pkt.last6
    rw [if_pos (by have := A.ip; omega), u2]
    exact hit

/-- Every accepted error has a packet inside, whose headers can be read. -/
theorem inside6_headers {L : Nat} (h : Pkt.init6 s0 = some a) (hin : s0.linear ≤ s0.data.length) (hh : Holds p a) (hi : a.inner = some i)
    (hH : Headers s0.data 40 (next6 s0.data) none L 58) : ∃ fh il n, Headers (s0.data.drop (L + 8)) 40 (next6 (s0.data.drop (L + 8))) fh il n := by
  obtain ⟨hD, -, -, -, hpay, -⟩ := errHdr64 h hin hh hi hH
  obtain ⟨n, P⟩ := inPkt6 h hin hi
  have hk : (insideAcc a i).skb.data = s0.data.drop (L + 8) := by
    show a.skb.data.drop a.m.pay = _
    rw [hD, hpay]
  have := P.headers
  rw [hk] at this
  exact ⟨_, _, _, this⟩

set_option maxHeartbeats 1000000 in
/-- **C81.** Whatever an accepted ICMPv6 error without fragment header is, its translation touches no memory outside of the packets; it is known which errors go
through; and those that do become the ICMPv4 error that RFC 7915 describes, from the first to the last byte. `L`: where the ICMPv6 header is; the packet inside has its
fragment header at `fh` and its transport header `n` at `il` (`inside6_headers`). Missing: errors that carry a fragment header (`Jool.Build.fragment_header_misread`), errors
about protocol 1, TCP headers that claim to be shorter than 20 bytes, and length fields that do not even cover the IPv6 headers inside. -/
theorem error64_partial (s4 d4 is4 id4 : BitVec 32) (sel2 : BitVec 16) (segleft : Option Nat) {L il n : Nat} {fh : Option Nat} (h : Pkt.init6 s0 = some a)
    (hin : s0.linear ≤ s0.data.length) (hh : Holds p a) (hi : a.inner = some i) (hlen : s0.data.length < 65536) (hH : Headers s0.data 40 (next6 s0.data) none L 58)
    (hI : Headers (s0.data.drop (L + 8)) 40 (next6 (s0.data.drop (L + 8))) fh il n) (h1 : n ≠ 1) (htcp : n = 6 → 5 ≤ field (s0.data.drop (L + 8)) (il + 12) 1 / 16)
    (hext : ext6 (byte s0.data L) = true → field s0.data (L + 4) 1 ≠ 0 → il ≤ field s0.data (L + 4) 1 * 8 + 20) :
    ∃ r, translateErr64 x y s4 d4 is4 id4 sel2 segleft p a i = .ok r ∧ (r ≠ none ↔ ErrLeaves64 x segleft s0.data L il n) ∧
      ∀ o, r = some o → ErrSent64 x y s4 d4 is4 id4 s0.data L fh il n o := by
  obtain ⟨hD, h40, hfh, hl, hpay, h8, hlast, herr⟩ := errHdr64 h hin hh hi hH
  obtain ⟨n', P⟩ := inPkt6 h hin hi
  have hk : (insideAcc a i).skb.data = s0.data.drop (L + 8) := by
    show a.skb.data.drop a.m.pay = _
    rw [hD, hpay]
  obtain ⟨p1, p2, p3, p4, p5, p6, p7, p8, p9, p10, p11, p12⟩ := P
  obtain ⟨e, he⟩ : ∃ e, e = insideAcc a i := ⟨_, rfl⟩
  rw [← he] at p1 p2 p4 p5 p6 p7 p8 p9 p10 p11 p12 hk
  obtain ⟨k, hkk⟩ : ∃ k, k = s0.data.drop (L + 8) := ⟨_, rfl⟩
  rw [← hkk] at hk hI htcp
  rw [hk] at p1 p2 p4 p5 p6 p7 p9
  obtain ⟨rfl, rfl, rfl⟩ := headers_unique hI p2
  have hkl : k.length = s0.data.length - (L + 8) := by rw [hkk, List.length_drop]
  have pC := complete_in6 p6 p7 p8 True
  have htcp' := tcp_of6 hk p8 pC htcp
  have hseg := segIn64_some (x := inCtx x y) (s4 := is4) (d4 := id4) hk p8 pC p9
  have hT := ttp64_error (m := Mtu.mtu4 (word s0.data L) y.inMtu y.outMtu) (t := at8 s0.data L) (c := at8 s0.data (L + 1)) (w := word s0.data L) herr
  have hic : icmp64 y a = Icmp.ttp64 none (Mtu.mtu4 (word s0.data L) y.inMtu y.outMtu) (at8 s0.data L) (at8 s0.data (L + 1)) (word s0.data L) := by
    unfold icmp64
    simp only [hD, hl]
  have b0 : byte s0.data L = at8 s0.data L := byte_eq (by omega)
  have b1 : byte s0.data (L + 1) = at8 s0.data (L + 1) := byte_eq (by omega)
  have hwf := word_field (d := s0.data) (k := L) h8
  rw [← hic, ← b0, ← b1] at hT
  unfold translateErr64
  simp only [← he, hlast, p3, hD, hk]
  have hhop := (read6 h40).2.1
  cases hx : ext64 x s4 d4 segleft 58#8 a (28 + (20 + (s0.data.length - i.l4))) with
  | srcRoute =>
    unfold ext64 Hdr.ext64 at hx
    split at hx
    · cases hx
    · split at hx <;> cases hx
  | ttl =>
    refine ⟨none, rfl, ⟨fun q => absurd rfl q, fun q => ?_⟩, nofun⟩
    exfalso
    have := q.hop
    unfold ext64 Hdr.ext64 at hx
    rw [hD, if_neg (by omega)] at hx
    split at hx <;> cases hx
  | segmentsLeft l =>
    refine ⟨none, rfl, ⟨fun q => absurd rfl q, fun q => ?_⟩, nofun⟩
    exfalso
    rw [q.segments] at hx
    unfold ext64 Hdr.ext64 at hx
    split at hx <;> cases hx
  | ok h4 =>
    obtain ⟨-, x1, x2, x3, x4⟩ := ext64_err (n := 0) hx (by omega)
    rw [hD, hhop] at x4
    simp only
    cases hicm : icmp64 y a with
    | dead => rw [hicm] at hT; exact hT.elim
    | drop =>
      rw [hicm] at hT
      refine ⟨none, rfl, ⟨fun q => absurd rfl q, fun q => ?_⟩, nofun⟩
      rcases hT with hT | ⟨hT1, hT2, hT3⟩
      · exact absurd q.type hT
      · rw [hwf] at hT3
        exact absurd hT3 (q.pointer hT1 hT2)
    | ok t c w =>
      rw [hicm] at hT
      obtain ⟨t1, t0, t3, t4, t5, t6⟩ := hT
      simp only
      cases hs : seg64 (inCtx x y) is4 id4 e with
      | none =>
        rw [hs] at hseg
        refine ⟨none, rfl, ⟨fun q => absurd rfl q, fun q => ?_⟩, nofun⟩
        exact absurd rfl (hseg.2 (by rw [hkk]; exact q.echo))
      | some sq =>
        obtain ⟨seg, sm⟩ := sq
        have hsok := hseg.1 (by rw [hs]; simp)
        simp only
        obtain ⟨hIn, hbe⟩ := insideOf64 (x := x) (y := y) (sel2 := sel2) (di := dfInside e) hk p1 p4 p6 p7 p5 p8 p12 p9 htcp' hs
        obtain ⟨k4, hk4⟩ : ∃ k4, k4 = Hdr.int64 x.cfg (ip6 k) none n' (hdrs64 e).1 (hdrs64 e).2 (dfInside e) sel2 is4 id4 := ⟨_, rfl⟩
        rw [← hk4] at hIn hbe
        have hv0 := sized x (seg := icmpHdr t c w) (l3 := fun _ => bytes4 x.K h4) (fun _ => bytes4_length x.K h4) (fr := List.replicate 8 0#8) (by rfl)
        have hv1 := sized (inCtx x y) (seg := seg) (l3 := fun _ => bytes4 x.K k4) (fun _ => bytes4_length x.K k4) (fr := List.replicate 8 0#8) (by rfl)
        obtain ⟨g, hg⟩ : ∃ g, g = givenErr x (vals x (fun _ => bytes4 x.K h4) (List.replicate 8 0#8) (icmpHdr t c w))
          (vals (inCtx x y) (fun _ => bytes4 x.K k4) (List.replicate 8 0#8) seg) := ⟨_, rfl⟩
        have g0 : g.vals 0 = vals x (fun _ => bytes4 x.K h4) (List.replicate 8 0#8) (icmpHdr t c w) := by rw [hg]; rfl
        have g1 : g.vals 1 = vals (inCtx x y) (fun _ => bytes4 x.K k4) (List.replicate 8 0#8) seg := by rw [hg]; rfl
        have hq : inside64 (g.vals 1) a.skb.data i = bytes4 x.K k4 ++ seg := by
          unfold inside64
          rw [behind_inside (by rw [← he]; exact p10) (by rw [← he]; exact p11), ← he, g1, hbe]
          rfl
        obtain ⟨q, hqq⟩ : ∃ q, q = bytes4 x.K k4 ++ seg := ⟨_, rfl⟩
        rw [← hqq] at hq hIn
        have hql := hIn.size
        have hf4 : (at8 s0.data (L + 4)).toNat = field s0.data (L + 4) 1 := at8_field (by omega)
        have E := Build.error64_partial (g := g) (p := p) (i := i) (by rw [g0]; exact hv0) (by rw [g1]; exact hv1) h hh hi hfh
          (by
            intro m o hm
            rw [p3] at hm
            cases hm
            intro q1
            apply h1
            rw [q1]
            rfl)
          (by
            intro q6
            have := htcp' (by rw [he]; exact q6)
            rw [hk] at this
            rw [hD, p10]
            unfold tcpLen at this ⊢
            rw [hkk, at8_drop, ← hpay] at this
            rw [Nat.add_assoc]
            exact this)
          (by rw [hD]; omega) (has := ext6 (byte s0.data L)) (by rw [ext6_iff, hD, hl, b0]) (ipl := if ext6 (byte s0.data L) then field s0.data (L + 4) 1 * 8 else 0)
          (by rw [hD, hl, hf4])
          (by
            rw [hq, hql, hD, hpay, ← hkk]
            intro q1 q2
            split at q1
            · rename_i q3
              rw [if_pos q3] at q2 ⊢
              have := hext q3 (by omega)
              omega
            · omega)
        obtain ⟨r, hgood, hr⟩ := E
        rw [hq, hD, hpay, ← hkk] at hgood
        rw [← hk4, ← hg]
        cases hr' : r with
        | ub => rw [hr'] at hr; exact hr.elim
        | drop =>
          rw [hr'] at hr hgood
          simp only at hr
          rw [hr]
          refine ⟨none, rfl, ⟨fun q => absurd rfl q, fun q => ?_⟩, nofun⟩
          cases hgood with
          | big hb =>
            split at hb
            · rename_i q3
              have := q.ext q3
              rw [← hkk] at this
              omega
            · omega
        | ok l f =>
          rw [hr'] at hr hgood
          simp only at hr
          obtain ⟨sx, hx1, -, -, hIs⟩ := hr
          rw [hx1]
          obtain ⟨hl1, hf1, -, hipl⟩ := good_small hgood
          have hsame : decide (l.length = (inside64 (g.vals 1) a.skb.data i).length) = true → h4.fragOff = 0#16 := by
            intro hd
            have hd := of_decide_eq_true hd
            rw [hq, hql] at hd
            refine (ext64_err (n := 28 + l.length) hx (by omega)).2.2.1 ?_
            rw [p10, hpay]
            omega
          rw [g0] at hIs
          obtain ⟨y1, y2⟩ := head64_eq (x := x) (h4 := h4) (fr := List.replicate 8 0#8) (t := t) (c := c) (w := w) (f := if ext6 (byte s0.data L) then some f else none) (l := l) hsame x1
          obtain ⟨z1, z2, z3, -⟩ := err64_drop (K := x.K) (h4 := h4) (t := t) (c := c) (f := if ext6 (byte s0.data L) then some f else none) (w := w) (l := l) (ck := [0#8, 0#8]) rfl
          obtain ⟨F, hF⟩ : ∃ F, F = if ext6 (byte s0.data L) then some f else none := ⟨_, rfl⟩
          rw [← hF] at y1 y2 z1 z2 z3 hIs
          obtain ⟨B, hB⟩ : ∃ B, B = (err64 x.K h4 t c [0#8, 0#8] w F l).drop 20 := ⟨_, rfl⟩
          have hBl : B.length = 8 + l.length := by rw [hB, List.length_drop, z2]; omega
          obtain ⟨ck, k1, k2, k3⟩ := error64_out (K := x.K) (sm := x.sm) (seg := s0.data.drop L) (out := B) (s6 := (ip6 s0.data).src) (d6 := (ip6 s0.data).dst) (by omega)
            (by rw [hB, z3]; exact t0)
          obtain ⟨-, -, -, z4⟩ := err64_drop (K := x.K) (h4 := h4) (t := t) (c := c) (f := F) (w := w) (l := l) k1
          have hex : (Csum.error64 x.K x.sm (ip6 s0.data).src (ip6 s0.data).dst (s0.data.drop a.m.l4) (sx.pout.skb.bytes.drop 20)).map (Csum.ipHeader x.K (sx.pout.skb.bytes.take 20) ++ ·) =
              if Csum.validate6 x.K x.sm (ip6 s0.data).src (ip6 s0.data).dst (s0.data.drop L) = true then some (err64 x.K h4 t c ck w F l) else none := by
            rw [hIs.bytes, y1, y2, ← hB, hl, k3]
            split
            · show some (_ ++ put B 2 ck) = _
              rw [hB, z4]
            · rfl
          show ∃ r, Outcome.ok ((Csum.error64 x.K x.sm (ip6 s0.data).src (ip6 s0.data).dst (s0.data.drop a.m.l4) (sx.pout.skb.bytes.drop 20)).map
            (Csum.ipHeader x.K (sx.pout.skb.bytes.take 20) ++ ·)) = Outcome.ok r ∧ _
          rw [hex]
          have hsd : (ip6 s0.data).src = BitVec.ofNat 128 (src6 s0.data) ∧ (ip6 s0.data).dst = BitVec.ofNat 128 (dst6 s0.data) := by
            obtain ⟨-, -, r3, r4⟩ := read6 h40
            rw [← r3, ← r4]
            exact ⟨by simp, by simp⟩
          rw [hsd.1, hsd.2]
          by_cases hval : Csum.validate6 x.K x.sm (BitVec.ofNat 128 (src6 s0.data)) (BitVec.ofNat 128 (dst6 s0.data)) (s0.data.drop L) = true
          · rw [if_pos hval]
            rw [validate6_all] at hval
            refine ⟨_, rfl, ⟨fun _ => ⟨x3, x4, ⟨t, c, t1⟩, ?_, hval, ?_, ?_⟩, fun _ => by simp⟩, ?_⟩
            · intro q q' q''
              have := (t5 q q').1
              rw [hwf, q''] at this
              cases this
            · rw [← hkk]
              exact hsok
            · intro q
              rw [← hkk]
              rw [if_pos q] at hipl
              exact hipl
            · intro o ho
              cases ho
              rw [hF]
              refine errSentOf64 hkk hD h40 h8 hx hIn hgood k1 ?_ t1 t3 t4 t5 t6
              rw [← hF, ← z4, List.drop_left' (bytes4_length _ _), ← hB]
              exact k2
          · rw [if_neg hval]
            refine ⟨none, rfl, ⟨fun q => absurd rfl q, fun q => ?_⟩, nofun⟩
            exact absurd ((validate6_all _ _ _ _ _).2 q.sum) hval

end

end Jool.Wire
