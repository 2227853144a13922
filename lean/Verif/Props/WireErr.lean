import Verif.Model.WireErr
import Verif.Props.Wire
import Verif.Props.Mtu
/-
C81: ICMP errors, from bytes to bytes. From IPv4 to IPv6 here; the other way is in Verif.Props.WireErrSix.
-/
namespace Jool.WireSpec
open Jool.Pkt (Byte L4)

/-- A byte of a packet. -/
def byte (d : List Byte) (i : Nat) : Byte := BitVec.ofNat 8 (field d i 1)

/-- Checksums of the packet inside of an error, 4 to 6. `extra`: what the router cut. An echo is only right if nothing was. -/
structure SumsIn46 (s4 d4 : BitVec 32) (s6 d6 : BitVec 128) (proto : Nat) (seg out : List Byte) : Prop where
  tcp : proto = 6 → ∀ extra len, len < 65536 →
    (CsumSpec.Valid (CsumSpec.ph6 s6 d6 len 6#8 ++ (out ++ extra)) ↔ CsumSpec.Valid (CsumSpec.ph4 s4 d4 len 6#8 ++ (seg ++ extra)))
  udp : proto = 17 → field seg 6 2 ≠ 0 → ∀ extra len, len < 65536 →
    (CsumSpec.Valid (CsumSpec.ph6 s6 d6 len 17#8 ++ (out ++ extra)) ↔ CsumSpec.Valid (CsumSpec.ph4 s4 d4 len 17#8 ++ (seg ++ extra)))
  echo : proto = 1 → (∃ b ∈ seg, b ≠ 0#8) → (CsumSpec.Valid (CsumSpec.ph6 s6 d6 out.length 58#8 ++ out) ↔ CsumSpec.Valid seg)

/-- RFC 7915 section 4.3: the packet `k` inside of an ICMPv4 error becomes `q`. Its hop limit stays, its length field is that of the packet that caused the error. -/
structure Inside46 (x : Wire.Ctx) (y : Wire.ErrCtx) (s6 d6 : BitVec 128) (k q : List Byte) : Prop where
  shape : Shape46 x.cfg.resetTc s6 d6 k q
  hop : hop6 q = ttl4 k
  len : (40 + len6 q + l4 k) % 65536 = (len4 k + l6 k) % 65536
  size : q.length = l6 k + (k.length - l4 k)
  seg : Segment y.ports x.id 8 0 128#8 129#8 True (proto4 k) 1 (k.drop (l4 k)) (q.drop (l6 k))
  sums : x.sm ≠ .partial_ → SumsIn46 (BitVec.ofNat 32 (src4 k)) (BitVec.ofNat 32 (dst4 k)) s6 d6 (proto4 k) (k.drop (l4 k)) (q.drop (l6 k))

/-- Errors whose translation has no room for a length field (RFC 4884 section 4). -/
def noExt46 (d : List Byte) : Bool := decide (byte d (l4 d) = 12#8 ∨ byte d (l4 d) = 3#8 ∧ (byte d (l4 d + 1) = 2#8 ∨ byte d (l4 d + 1) = 4#8))

/-- RFC 7915 section 4.2: the second word of the ICMPv6 header. -/
structure Second46 (y : Wire.ErrCtx) (d o : List Byte) : Prop where
  unused : noExt46 d = false → field o 45 3 = 0
  protocol : byte d (l4 d) = 3#8 → byte d (l4 d + 1) = 2#8 → field o 44 4 = 6
  mtu : byte d (l4 d) = 3#8 → byte d (l4 d + 1) = 4#8 → y.plateaus.Pairwise (fun a b => b.toNat < a.toNat) → y.inMtu.toNat < 2 ^ 32 - 20 →
    ∃ a, MtuSpec.Asked y.plateaus (BitVec.ofNat 16 (field d (l4 d + 6) 2)) (BitVec.ofNat 16 (len4 (d.drop (l4 d + 8)))) a ∧
      field o 44 4 = max 1280 (min (a + 20) (min y.outMtu.toNat (y.inMtu.toNat + 20)))
  minimum : byte d (l4 d) = 3#8 → byte d (l4 d + 1) = 4#8 → 1280 ≤ field o 44 4
  pointer : byte d (l4 d) = 12#8 → some (field o 44 4) = (IcmpSpec.field4 (field d (l4 d + 4) 1)).map IcmpSpec.start6

/-- From IPv4 (`d`) to IPv6 (`o`), if `d` is an ICMP error: all of it. -/
structure ErrSent46 (x : Wire.Ctx) (y : Wire.ErrCtx) (s6 d6 is6 id6 : BitVec 128) (d o : List Byte) : Prop where
  head : Header46 x.cfg.resetTc x.hairpin s6 d6 d o
  small : o.length ≤ 1280
  type : IcmpSpec.Rfc46 (byte d (l4 d)) (byte d (l4 d + 1)) (byte o 40) (byte o 41)
  second : Second46 y d o
  sum : CsumSpec.Valid (CsumSpec.ph6 s6 d6 (o.length - 40) 58#8 ++ o.drop 40)
  inside : ∃ q, Inside46 x y is6 id6 (d.drop (l4 d + 8)) q ∧
    IcmpExt.Good 8 1280 48 (noExt46 d) (field d (l4 d + 5) 1 * 4) (d.drop (l4 d + 8)) q (.ok (o.drop 48) (field o 44 1))

/-- Which ICMPv4 errors go through. -/
structure ErrLeaves46 (x : Wire.Ctx) (d : List Byte) : Prop where
  route : x.route = false
  ttl : x.hairpin = false → 2 ≤ ttl4 d
  type : ∃ t c, IcmpSpec.Rfc46 (byte d (l4 d)) (byte d (l4 d + 1)) t c
  pointer : byte d (l4 d) = 12#8 → IcmpSpec.field4 (field d (l4 d + 4) 1) ≠ none
  sum : x.sm = .none → CsumSpec.Valid (d.drop (l4 d))
  udp : proto4 (d.drop (l4 d + 8)) = 17 → field (d.drop (l4 d + 8)) (l4 (d.drop (l4 d + 8)) + 6) 2 = 0 →
    x.nat64 = true ∨ mf4 (d.drop (l4 d + 8)) = 0 ∧ x.amend = true
  echo : proto4 (d.drop (l4 d + 8)) = 1 → field (d.drop (l4 d + 8)) (l4 (d.drop (l4 d + 8))) 1 = 8 ∨ field (d.drop (l4 d + 8)) (l4 (d.drop (l4 d + 8))) 1 = 0
  ext : field d (l4 d + 5) 1 * 4 ≤ (d.drop (l4 d + 8)).length

end Jool.WireSpec

namespace Jool.Wire
open Jool.Pkt (Byte L4 Meta Acc at8 at16 first4 fragmented4 ihl4 isFirst6 tcpLen)
open Jool.Csum (Kernel Summed put setPorts store)
open Jool.Build (Holds behind transport head46 inside46 above46)
open Jool.WireSpec

set_option linter.unusedVariables false

theorem byte_eq {d : List Byte} {i : Nat} (h : i + 1 ≤ d.length) : byte d i = at8 d i := by
  unfold byte
  rw [← at8_field h]
  exact BitVec.eq_of_toNat_eq (by simp)

theorem at16_drop (d : List Byte) (k i : Nat) : at16 (d.drop k) i = at16 d (k + i) := by
  unfold at16
  rw [at8_drop, at8_drop, Nat.add_assoc]

section

variable {x : Ctx} {y : ErrCtx} {a : Acc} {s0 : Pkt.Skb} {p : Build.P} {i : Meta}

/-- The packet inside is a packet. -/
structure InPkt4 (a : Acc) (i : Meta) : Prop where
  full : 20 ≤ (insideAcc a i).skb.data.length
  words : 5 ≤ words4 (insideAcc a i).skb.data
  first : first4 (insideAcc a i).skb.data 0 = true
  hdr : Pkt.HdrEnd (insideAcc a i).skb.data (insideAcc a i).m true
  pay : (insideAcc a i).m.pay ≤ (insideAcc a i).skb.data.length
  l4 : (insideAcc a i).m.l4 = ihl4 (insideAcc a i).skb.data 0
  proto : (insideAcc a i).m.proto = PktSpec.proto4 (at8 (insideAcc a i).skb.data 9)
  il4 : i.l4 = a.m.pay + (insideAcc a i).m.l4
  ipay : i.pay = a.m.pay + (insideAcc a i).m.pay
  le : (insideAcc a i).m.l4 ≤ (insideAcc a i).m.pay

theorem inPkt4 (h : Pkt.init4 s0 = some a) (hin : s0.linear ≤ s0.data.length) (hi : a.inner = some i) : InPkt4 a i := by
  have A := Pkt.init4_ok h
  obtain ⟨-, -, I⟩ := A.inner i hi
  have hwi := A.within hin
  have hpay := I.pay
  have hfull := I.full
  have hl4 := I.l4
  have hH := I.hdr
  have hD := A.data
  have e8 : at8 (a.skb.data.drop a.m.pay) 0 = at8 s0.data a.m.pay := by rw [at8_drop, hD]; rfl
  have hih : ihl4 (a.skb.data.drop a.m.pay) 0 = ihl4 s0.data a.m.pay := by unfold ihl4; rw [e8]
  have hlp : i.l4 ≤ i.pay := by
    unfold Pkt.HdrEnd at hH
    simp only [if_true] at hH
    cases hp : i.proto <;> rw [hp] at hH <;> simp only at hH <;> omega
  have hlen : (a.skb.data.drop a.m.pay).length = s0.data.length - a.m.pay := by rw [List.length_drop, hD]
  refine ⟨?_, ?_, ?_, ?_, ?_, ?_, ?_, ?_, ?_, ?_⟩
  · show 20 ≤ (a.skb.data.drop a.m.pay).length
    omega
  · show 5 ≤ words4 (a.skb.data.drop a.m.pay)
    unfold words4
    rw [← at8_field (by omega), e8]
    have := I.ihl
    unfold ihl4 at this
    omega
  · show first4 (a.skb.data.drop a.m.pay) 0 = true
    unfold first4
    rw [at16_drop, hD]
    exact I.first
  · unfold Pkt.HdrEnd at hH ⊢
    simp only [if_true, insideAcc] at hH ⊢
    cases hp : i.proto <;> rw [hp] at hH <;> simp only at hH ⊢
    · rw [List.length_drop, hD]
      refine ⟨by omega, ?_⟩
      have : tcpLen (s0.data.drop a.m.pay) (i.l4 - a.m.pay) = tcpLen s0.data i.l4 := by
        unfold tcpLen
        rw [at8_drop]
        congr 3
        congr 1
        omega
      rw [this]
      omega
    · omega
    · omega
    · omega
  · show i.pay - a.m.pay ≤ (a.skb.data.drop a.m.pay).length
    omega
  · show i.l4 - a.m.pay = ihl4 (a.skb.data.drop a.m.pay) 0
    omega
  · show i.proto = PktSpec.proto4 (at8 (a.skb.data.drop a.m.pay) 9)
    rw [at8_drop, hD]
    exact I.proto
  · show i.l4 = a.m.pay + (i.l4 - a.m.pay)
    omega
  · show i.pay = a.m.pay + (i.pay - a.m.pay)
    omega
  · show i.l4 - a.m.pay ≤ i.pay - a.m.pay
    omega

/-- The model of the memory sees the packet inside where it is; the others see it alone. -/
theorem behind_inside {w : Build.Vals} (hl : i.l4 = a.m.pay + (insideAcc a i).m.l4) (hp : i.pay = a.m.pay + (insideAcc a i).m.pay) :
    behind w true a.skb.data i = behind w true (insideAcc a i).skb.data (insideAcc a i).m := by
  unfold behind
  simp only [if_true]
  show transport w i.proto _ ++ _ = transport w i.proto (((a.skb.data.drop a.m.pay).drop (insideAcc a i).m.l4).take _) ++ (a.skb.data.drop a.m.pay).drop (insideAcc a i).m.pay
  rw [List.drop_drop, List.drop_drop, ← hl, ← hp]
  have : (insideAcc a i).m.pay - (insideAcc a i).m.l4 = i.pay - i.l4 := by omega
  rw [this]

/-- Without anything left to the hardware. -/
theorem segmentIn46 {s6 d6 : BitVec 128} {seg : List Byte} {sm : Summed} (hd20 : 20 ≤ a.skb.data.length) (hf : first4 a.skb.data 0 = true)
    (hd : Pkt.HdrEnd a.skb.data a.m true) (hpay : a.m.pay ≤ a.skb.data.length) (hl : a.m.l4 = ihl4 a.skb.data 0) (hpr : a.m.proto = PktSpec.proto4 (at8 a.skb.data 9))
    (hne : a.m.proto = L4.icmp → Icmp.isIcmp4Error (at8 a.skb.data a.m.l4) = true → False)
    (hlen : a.skb.data.length < 65536) (hs : seg46 x s6 d6 a = some (seg, sm)) :
    Segment x.ports x.id 8 0 128#8 129#8 True (proto4 a.skb.data) 1 (a.skb.data.drop (l4 a.skb.data)) seg ∧
    (x.sm ≠ .partial_ → SumsIn46 (ip4 a.skb.data).src (ip4 a.skb.data).dst s6 d6 (proto4 a.skb.data) (a.skb.data.drop (l4 a.skb.data)) seg) := by
  have ho := (first4_off hd20).1 hf
  have hs' : (if first4 a.skb.data 0 = true then seg46 x s6 d6 a else some (a.skb.data.drop a.m.l4, x.sm)) = some (seg, sm) := by rw [if_pos hf]; exact hs
  obtain ⟨g1, g2⟩ := segment46_core (out := finished x.K sm a.m.proto seg) hd20 (by rw [hf]; exact hd) hpay hl hpr hne hlen hs' (by rw [if_pos hf])
  have hpr' := hpr
  rw [proto4_of hd20] at hpr
  have hl' := hl
  rw [ihl4_words hd20] at hl
  have h6 : proto4 a.skb.data = 6 → a.m.proto = L4.tcp := by intro q; rw [hpr, if_pos q]
  have h17 : proto4 a.skb.data = 17 → a.m.proto = L4.udp := by intro q; rw [hpr, if_neg (by omega), if_pos q]
  have hlong : ∀ n, a.m.proto = L4.tcp ∧ n = 20 ∨ a.m.proto = L4.udp ∧ n = 8 → n ≤ (a.skb.data.drop (l4 a.skb.data)).length := by
    rintro n (⟨q, rfl⟩ | ⟨q, rfl⟩)
    · unfold Pkt.HdrEnd at hd
      simp only [q, if_true] at hd
      rw [List.length_drop, ← hl]
      omega
    · unfold Pkt.HdrEnd at hd
      simp only [q, if_true] at hd
      rw [List.length_drop, ← hl]
      omega
  have hput : ∀ k, a.m.proto = L4.tcp ∧ k = 16 ∨ a.m.proto = L4.udp ∧ k = 6 → Only k (ported x.ports (a.skb.data.drop (l4 a.skb.data))) seg := by
    rintro k (⟨q, rfl⟩ | ⟨q, rfl⟩)
    · unfold seg46 at hs
      simp only [q, hl] at hs
      have := hlong 20 (Or.inl ⟨q, rfl⟩)
      obtain ⟨ck, h1, h2⟩ := tcp46_put x.K x.sm x.ports (ip4 a.skb.data).src (ip4 a.skb.data).dst (a.skb.data.drop (l4 a.skb.data)) s6 d6
      have hpl := Csum.setPorts_length x.ports (l := a.skb.data.drop (l4 a.skb.data)) (by omega)
      cases hs
      rw [h2, ← setPorts_ported]
      exact only_put (by omega) h1
    · unfold seg46 at hs
      simp only [q, hl] at hs
      have := hlong 8 (Or.inr ⟨q, rfl⟩)
      cases hu : Csum.udp46 x.K x.sm x.nat64 (Hdr.mf4 (ip4 a.skb.data)) x.amend x.ports (ip4 a.skb.data).src (ip4 a.skb.data).dst (a.skb.data.drop (l4 a.skb.data)) [] s6 d6 with
      | none => rw [hu] at hs; cases hs
      | some w =>
        rw [hu] at hs
        cases hs
        obtain ⟨ck, h1, h2⟩ := udp46_put hu
        have hpl := Csum.setPorts_length x.ports (l := a.skb.data.drop (l4 a.skb.data)) (by omega)
        rw [h2, ← setPorts_ported]
        exact only_put (by omega) h1
  by_cases hsm : sm = Summed.partial_
  · -- only TCP and UDP are left to the hardware
    have hfo : a.m.proto ≠ L4.tcp → a.m.proto ≠ L4.udp → finished x.K sm a.m.proto seg = seg := fun q1 q2 => finished_other q1 q2
    have hn6 : proto4 a.skb.data ≠ 6 → a.m.proto ≠ L4.tcp := by
      intro q q'
      rw [hpr, if_neg q] at q'
      split at q'
      · cases q'
      · split at q' <;> cases q'
    have hn17 : proto4 a.skb.data ≠ 17 → a.m.proto ≠ L4.udp := by
      intro q q'
      rw [hpr] at q'
      split at q'
      · cases q'
      · split at q' <;> cases q'
    refine ⟨⟨fun q => absurd trivial q, fun q1 q2 q3 => ?_, fun _ q => hput 16 (Or.inl ⟨h6 q, rfl⟩), fun _ q => hput 6 (Or.inr ⟨h17 q, rfl⟩), fun _ q => ?_⟩, fun hx => ⟨fun q => ?_, fun q hz => ?_, fun q => ?_⟩⟩
    · rw [← hfo (hn6 q1) (hn17 q2)]
      exact g1.other q1 q2 q3
    · rw [← hfo (hn6 (by omega)) (hn17 (by omega))]
      exact g1.echo ho q
    · exfalso
      unfold seg46 at hs
      simp only [h6 q] at hs
      cases hs
      unfold Csum.tcp46 at hsm
      rw [if_pos hx] at hsm
      exact hx hsm
    · exfalso
      unfold seg46 at hs
      simp only [h17 q, hl] at hs
      have h8 := hlong 8 (Or.inr ⟨h17 q, rfl⟩)
      cases hu : Csum.udp46 x.K x.sm x.nat64 (Hdr.mf4 (ip4 a.skb.data)) x.amend x.ports (ip4 a.skb.data).src (ip4 a.skb.data).dst (a.skb.data.drop (l4 a.skb.data)) [] s6 d6 with
      | none => rw [hu] at hs; cases hs
      | some w =>
        rw [hu] at hs
        cases hs
        unfold Csum.udp46 at hu
        simp only at hu
        rw [if_neg (show ¬ Csum.load x.K.le (a.skb.data.drop (l4 a.skb.data)) Csum.udp.off = 0#16 from
          fun q => hz ((field_zero h8).2 ((load_zero _ (by show 6 + 2 ≤ _; omega)).1 q))), if_pos hx] at hu
        cases hu
        exact hx hsm
    · rw [← hfo (hn6 (by omega)) (hn17 (by omega))]
      exact g2.echo ho q
  · have hfo : finished x.K sm a.m.proto seg = seg := by
      unfold finished
      rw [if_neg hsm]
    rw [hfo] at g1 g2
    exact ⟨⟨fun q => absurd trivial q, g1.other, fun _ q => g1.tcp ho q, fun _ q => g1.udp ho q, fun _ q => g1.echo ho q⟩,
      fun hx => ⟨fun q => g2.tcp ho q hx, fun q hz => g2.udp ho q hx hz, fun q => g2.echo ho q⟩⟩

/-! ## The ICMP header -/

theorem ttp46_error {m : BitVec 32} {t c : Byte} {w : BitVec 32} (he : Icmp.isIcmp4Error t = true) :
    match Icmp.ttp46 none m t c w with
    | .ok t' c' w' => IcmpSpec.Rfc46 t c t' c' ∧ (t = 12#8 → some w'.toNat = (IcmpSpec.field4 (Icmp.pointer4 w)).map IcmpSpec.start6) ∧
        (t = 3#8 → c = 2#8 → w' = 6) ∧ (t = 3#8 → c = 4#8 → w' = m) ∧ (¬ (t = 12#8 ∨ t = 3#8 ∧ (c = 2#8 ∨ c = 4#8)) → w' = 0)
    | .drop => (¬ ∃ t' c', IcmpSpec.Rfc46 t c t' c') ∨ t = 12#8 ∧ IcmpSpec.field4 (Icmp.pointer4 w) = none
    | .dead => False := by
  cases hx : Icmp.xlat46Type t c with
  | none =>
    have : Icmp.ttp46 none m t c w = .drop := by unfold Icmp.ttp46; rw [hx]
    rw [this]
    exact Or.inl ((Icmp.icmp46_dropped t c).1 hx)
  | some r =>
    obtain ⟨t', c'⟩ := r
    have hr := (Icmp.icmp46_table t c t' c').1 hx
    by_cases ht : t = 12#8
    · subst ht
      cases hq : Icmp.ttp46 none m 12#8 c w with
      | ok t'' c'' w' =>
        obtain ⟨e1, e2, e3⟩ := Icmp.pointer46_header none m w 12#8 c t'' c'' w' rfl hq
        have : Icmp.xlat46Type 12#8 c = some (t'', c'') := by
          unfold Icmp.ttp46 at hq
          rw [hx] at hq ⊢
          simp at hq
          split at hq
          · split at hq
            · cases hq
            · cases hq; rfl
          · cases hq
        exact ⟨(Icmp.icmp46_table _ _ _ _).1 this, fun _ => e3, fun q => absurd q (by decide), fun q => absurd q (by decide), fun q => absurd (Or.inl rfl) q⟩
      | drop =>
        refine Or.inr ⟨rfl, ?_⟩
        unfold Icmp.ttp46 at hq
        rw [hx] at hq
        simp at hq
        split at hq
        · split at hq
          · rename_i hn
            have := Icmp.pointer46 w
            rw [hn] at this
            cases hf : IcmpSpec.field4 (Icmp.pointer4 w) with
            | none => rfl
            | some v => rw [hf] at this; cases this
          · cases hq
        · cases hq
      | dead => exact Icmp.ttp46_not_dead _ _ _ _ _ hq
    · cases hr
      case echoRequest => cases he
      case echoReply => cases he
      case unreachable h => rcases h with rfl | rfl <;> exact ⟨(Icmp.icmp46_table _ _ _ _).1 rfl, nofun, nofun, nofun, fun _ => rfl⟩
      case protocol => exact ⟨(Icmp.icmp46_table _ _ _ _).1 rfl, nofun, fun _ _ => rfl, nofun, fun q => absurd (Or.inr ⟨rfl, Or.inl rfl⟩) q⟩
      case paramProblem => exact absurd rfl ht
      case timeExceeded => exact ⟨(Icmp.icmp46_table _ _ _ _).1 rfl, nofun, nofun, nofun, fun _ => rfl⟩
      case fragNeeded => exact ⟨(Icmp.icmp46_table _ _ _ _).1 rfl, nofun, nofun, fun _ _ => rfl, fun q => absurd (Or.inr ⟨rfl, Or.inr rfl⟩) q⟩
      case unknown h => rcases h with rfl | rfl | rfl <;> exact ⟨(Icmp.icmp46_table _ _ _ _).1 rfl, nofun, nofun, nofun, fun _ => rfl⟩
      case prohibited h => rcases h with rfl | rfl <;> exact ⟨(Icmp.icmp46_table _ _ _ _).1 rfl, nofun, nofun, nofun, fun _ => rfl⟩
      case tos h => rcases h with rfl | rfl <;> exact ⟨(Icmp.icmp46_table _ _ _ _).1 rfl, nofun, nofun, nofun, fun _ => rfl⟩
      all_goals exact ⟨(Icmp.icmp46_table _ _ _ _).1 rfl, nofun, nofun, nofun, fun _ => rfl⟩

theorem value_four {b0 b1 b2 b3 : Byte} : value [b0, b1, b2, b3] = b0.toNat * 16777216 + value [b1, b2, b3] := by
  simp [value]

theorem word_pointer {d : List Byte} {k : Nat} (h : k + 8 ≤ d.length) : Icmp.pointer4 (word d k) = field d (k + 4) 1 := by
  have hl : ((d.drop (k + 4)).take 4).length = 4 := by rw [List.length_take, List.length_drop]; omega
  have hn := num_lt hl
  unfold Icmp.pointer4 word
  rw [BitVec.toNat_ofNat, Nat.mod_eq_of_lt (show _ < 2 ^ 32 from hn), ← value_num]
  have e : field d (k + 4) 1 = value (((d.drop (k + 4)).take 4).take 1) := by
    unfold field
    rw [List.take_take]
    rfl
  rw [e]
  generalize (d.drop (k + 4)).take 4 = L at hl
  match L, hl with
  | [b0, b1, b2, b3], _ =>
    rw [value_four]
    show _ = value [b0]
    rw [value1]
    have h1 := b1.isLt
    have h2 := b2.isLt
    have h3 := b3.isLt
    simp only [value, List.length_cons, List.length_nil]
    omega

/-- The second word, whose first byte is replaced. -/
theorem word_replaced (w : BitVec 32) : ∃ b0 b1 b2 b3, Csum.be32 w = [b0, b1, b2, b3] ∧ b0.toNat * 16777216 + value [b1, b2, b3] = w.toNat ∧
    value [b1, b2, b3] < 16777216 := by
  have hv := value_be32 w
  match hB : Csum.be32 w, (show (Csum.be32 w).length = 4 from Csum.be32_length w) with
  | [b0, b1, b2, b3], _ =>
    rw [hB, value_four] at hv
    have h1 := b1.isLt
    have h2 := b2.isLt
    have h3 := b3.isLt
    refine ⟨b0, b1, b2, b3, rfl, hv, ?_⟩
    simp only [value, List.length_cons, List.length_nil]
    omega

theorem common46_len {c : Hdr.Cfg} {h : Hdr.Ip4} {outer hairpin slow : Bool} {pl : BitVec 16} {s d : BitVec 128} {h6 : Hdr.Ip6} {f : Option Hdr.Frag}
    (hc : Hdr.common46 c h outer hairpin slow pl s d = .ok (h6, f)) (pl' : BitVec 16) :
    Hdr.common46 c h outer hairpin slow pl' s d = .ok ({ h6 with payloadLen := pl' }, f) := by
  unfold Hdr.common46 at hc ⊢
  simp only at hc ⊢
  split at hc
  · rename_i q
    rw [if_pos q]
    split at hc
    · cases hc
    · rename_i q'
      rw [if_neg q']
      cases hc
      rfl
  · rename_i q
    rw [if_neg q]
    cases hc
    rfl

theorem common46_inner (c : Hdr.Cfg) (h : Hdr.Ip4) (hairpin : Bool) (pl : BitVec 16) (s d : BitVec 128) : ∃ h6 f, Hdr.common46 c h false hairpin false pl s d = .ok (h6, f) ∧ h6.hop = h.ttl := by
  unfold Hdr.common46
  simp only [Bool.false_and, Bool.false_eq_true, if_false]
  exact ⟨_, _, rfl, rfl⟩

theorem error46_out {K : Kernel} {sm : Summed} {seg out : List Byte} {s6 d6 : BitVec 128} (h : 8 ≤ out.length) :
    ∃ ck, ck.length = 2 ∧ CsumSpec.Valid (CsumSpec.ph6 s6 d6 out.length 58#8 ++ put out 2 ck) ∧
      Csum.error46 K sm seg out s6 d6 = if Csum.validate4 K sm seg = true then some (put out 2 ck) else none := by
  refine ⟨_, Csum.store_length K.le (K.magic6 s6 d6 out.length 58#8 (K.part (put out 2 [0#8, 0#8]) 0#32)), ?_, rfl⟩
  rw [Csum.ph6_eq, Csum.valid_iff K.le]
  refine ⟨?_, Csum.pseudo6_nonzero (by decide) _⟩
  rw [Csum.S_append _ (by rw [Csum.pseudo6_length]), Csum.S_put_zero _ _ _ _ rfl (by omega) (Csum.store_length _ _),
    Csum.store_cast, Csum.magic6_cast, Csum.part_cast]
  have : ((0#32).toNat : Csum.Z) = 0 := by simp
  rw [this]
  ring

theorem validate4_all (K : Kernel) (sm : Summed) (seg : List Byte) : Csum.validate4 K sm seg = true ↔ (sm = .none → CsumSpec.Valid seg) := by
  by_cases h : sm = .none
  · rw [h, Csum.validate4_iff]
    simp
  · unfold Csum.validate4
    rw [if_pos h]
    simp [h]

/-! ## 4 to 6 -/

/-- The bytes of an error, once its checksum is known. -/
def err46 (h6 : Hdr.Ip6) (t c : Byte) (ck : List Byte) (f : Nat) (w : BitVec 32) (l : List Byte) : List Byte :=
  bytes6 { h6 with payloadLen := BitVec.ofNat 16 (8 + l.length) } ++ ([t, c] ++ ck ++ [BitVec.ofNat 8 f] ++ (Csum.be32 w).drop 1 ++ l)

theorem head46_eq {x : Ctx} {h6 : Hdr.Ip6} {fr : List Byte} {t c : Byte} {w : BitVec 32} {f : Nat} (l : List Byte) :
    head46 (vals x (fun _ => bytes6 h6) fr (icmpHdr t c w)) l.length f ++ l = err46 h6 t c [0#8, 0#8] f w l := by
  unfold head46 err46
  rw [two_be16]
  have e : (vals x (fun _ => bytes6 h6) fr (icmpHdr t c w)).icmp = icmpHdr t c w := by
    show fit 8 (icmpHdr t c w) = _
    rw [fit_of (by unfold icmpHdr; rw [List.length_append, Csum.be32_length]; simp)]
    exact List.take_of_length_le (by unfold icmpHdr; rw [List.length_append, Csum.be32_length]; simp)
  rw [e]
  unfold icmpHdr
  generalize Csum.be32 w = W
  simp only [List.append_assoc]
  rfl

theorem err46_put {h6 : Hdr.Ip6} {t c : Byte} {ck : List Byte} {f : Nat} {w : BitVec 32} {l : List Byte} (hc : ck.length = 2) :
    (err46 h6 t c [0#8, 0#8] f w l).take 40 ++ put ((err46 h6 t c [0#8, 0#8] f w l).drop 40) 2 ck = err46 h6 t c ck f w l := by
  unfold err46
  rw [List.take_left' (bytes6_length _), List.drop_left' (bytes6_length _)]
  congr 1
  match ck, hc with
  | [_, _], _ => rfl

theorem err46_drop {h6 : Hdr.Ip6} {t c : Byte} {ck : List Byte} {f : Nat} {w : BitVec 32} {l : List Byte} (hc : ck.length = 2) :
    (err46 h6 t c ck f w l).drop 48 = l ∧ (err46 h6 t c ck f w l).length = 48 + l.length := by
  obtain ⟨b0, b1, b2, b3, e, -, -⟩ := word_replaced w
  unfold err46
  rw [e]
  match ck, hc with
  | [_, _], _ =>
    refine ⟨rfl, ?_⟩
    rw [List.length_append, bytes6_length]
    simp
    omega

theorem err46_fields {h6 : Hdr.Ip6} {t c : Byte} {ck : List Byte} {f : Nat} {w : BitVec 32} {l : List Byte} (hc : ck.length = 2) (hf : f < 256) :
    byte (err46 h6 t c ck f w l) 40 = t ∧ byte (err46 h6 t c ck f w l) 41 = c ∧ field (err46 h6 t c ck f w l) 44 1 = f ∧
    (w = 0 → field (err46 h6 t c ck f w l) 45 3 = 0) ∧ (f = 0 → w.toNat < 16777216 → field (err46 h6 t c ck f w l) 44 4 = w.toNat) := by
  obtain ⟨b0, b1, b2, b3, e, e1, e2⟩ := word_replaced w
  unfold err46
  rw [e]
  match ck, hc with
  | [k0, k1], _ =>
    refine ⟨?_, ?_, ?_, ?_, ?_⟩
    · show BitVec.ofNat 8 (value [t]) = t
      rw [value1]
      exact BitVec.eq_of_toNat_eq (by simp)
    · show BitVec.ofNat 8 (value [c]) = c
      rw [value1]
      exact BitVec.eq_of_toNat_eq (by simp)
    · show value [BitVec.ofNat 8 f] = f
      rw [value1, BitVec.toNat_ofNat]
      omega
    · intro hw
      show value [b1, b2, b3] = 0
      have : w.toNat = 0 := by rw [hw]; rfl
      omega
    · intro h0 hw
      show value [BitVec.ofNat 8 f, b1, b2, b3] = w.toNat
      rw [h0, value_four, show (BitVec.ofNat 8 0).toNat = 0 from rfl, Nat.zero_mul, Nat.zero_add]
      have hb : b0.toNat = 0 := by
        rcases Nat.eq_zero_or_pos b0.toNat with q | q
        · exact q
        · have := Nat.mul_le_mul_right 16777216 q
          omega
      rw [hb, Nat.zero_mul, Nat.zero_add] at e1
      exact e1

theorem err46_header {c : Hdr.Cfg} {hairpin : Bool} {s6 d6 : BitVec 128} {d : List Byte} {h6 : Hdr.Ip6} {f0 : Option Hdr.Frag} {t cd : Byte} {ck : List Byte} {f : Nat} {w : BitVec 32}
    {l : List Byte} (hd : 20 ≤ d.length) (hc : Hdr.common46 c (ip4 d) true hairpin false 0#16 s6 d6 = .ok (h6, f0)) (hnf : fragmented4 d 0 = false) (hk : ck.length = 2)
    (hl : l.length ≤ 1232) : Header46 c.resetTc hairpin s6 d6 d (err46 h6 t cd ck f w l) := by
  have hl2 := (err46_drop (h6 := h6) (t := t) (c := cd) (f := f) (w := w) (l := l) hk).2
  obtain ⟨c2, -⟩ := Hdr.common46_cases hc
  have hf0 : f0 = none := by
    simp only at c2
    rw [needsFrag_eq, hnf] at c2
    exact c2
  subst hf0
  obtain ⟨R, hR⟩ : ∃ R, R = [t, cd] ++ ck ++ [BitVec.ofNat 8 f] ++ (Csum.be32 w).drop 1 ++ l := ⟨_, rfl⟩
  have hRl : R.length = 8 + l.length := by
    have e : err46 h6 t cd ck f w l = bytes6 { h6 with payloadLen := BitVec.ofNat 16 (8 + l.length) } ++ R := by rw [hR]; rfl
    rw [e, List.length_append, bytes6_length] at hl2
    omega
  have e : err46 h6 t cd ck f w l = top46 { h6 with payloadLen := BitVec.ofNat 16 (8 + l.length) } none ++ R := by
    rw [hR]
    unfold err46 top46
    rw [List.append_nil]
  rw [e]
  refine (header46_of hd ?_ (by omega)).1
  have e2 : (top46 { h6 with payloadLen := BitVec.ofNat 16 (8 + l.length) } none).length - 40 + R.length = 8 + l.length := by
    rw [top46_length, hRl]
    simp
  rw [e2]
  exact common46_len hc _

theorem good_small {unit max ohl : Nat} {force : Bool} {ipl : Nat} {inPay old l : List Byte} {f : Nat} (h : IcmpExt.Good unit max ohl force ipl inPay old (.ok l f)) :
    l.length ≤ max - ohl ∧ f < 256 ∧ (force = true → f = 0) ∧ ipl ≤ inPay.length := by
  cases h with
  | plain h => exact ⟨by rw [List.length_take]; omega, by omega, fun _ => rfl, by omega⟩
  | removed h1 h2 h3 => exact ⟨by rw [List.length_take]; omega, by omega, fun _ => rfl, by omega⟩
  | kept d _ h1 h2 h3 h4 h5 h6 h7 => exact ⟨by omega, h6.2.1, fun q => (by rw [h3] at q; cases q), by omega⟩

theorem complete_in {d : List Byte} {m : Meta} (h20 : 20 ≤ d.length) (hd : Pkt.HdrEnd d m true) (hp : m.pay ≤ d.length) (hl : m.l4 = l4 d) (hpr : m.proto = PktSpec.proto4 (at8 d 9)) :
    Complete (off4 d = 0) (proto4 d) 1 (d.drop (l4 d)) := by
  rw [proto4_of h20] at hpr
  unfold Pkt.HdrEnd at hd
  rw [hpr, if_pos rfl] at hd
  refine ⟨?_, ?_, ?_⟩
  · intro _ q
    simp only [q, if_true] at hd
    unfold tcpLen at hd
    rw [List.length_drop, field_drop, ← at8_field (by omega), ← hl]
    omega
  · intro _ q
    simp [q] at hd
    rw [List.length_drop]
    omega
  · intro q
    simp [q] at hd
    rw [List.length_drop]
    omega

theorem isIcmp4Error_iff (t : Byte) : Icmp.isIcmp4Error t = true ↔ t.toNat ∈ [3, 4, 5, 11, 12] := by
  unfold Icmp.isIcmp4Error
  revert t
  decide

theorem noExt46_eq {d : List Byte} (h : l4 d + 2 ≤ d.length) : IcmpExt.shouldRemove (at8 d (l4 d)) (at8 d (l4 d + 1)) = noExt46 d := by
  unfold noExt46
  rw [Bool.eq_iff_iff, IcmpExt.shouldRemove_spec, decide_eq_true_iff, byte_eq (by omega), byte_eq (by omega)]

theorem mtu6_small (plateaus pkt inMtu outMtu totLen) : (Mtu.mtu6 plateaus pkt inMtu outMtu totLen).toNat < 16777216 := by
  have h1 : ∀ (b : BitVec 16), (b.setWidth 32 : BitVec 32).toNat < 65536 := by
    intro b
    have := b.isLt
    rw [BitVec.toNat_setWidth]
    omega
  have hmin : ∀ a b : BitVec 32, (Mtu.umin a b).toNat ≤ a.toNat := by
    intro a b
    unfold Mtu.umin
    split <;> omega
  obtain ⟨P, hP, e⟩ : ∃ P : BitVec 32, P.toNat < 65536 ∧ Mtu.mtu6 plateaus pkt inMtu outMtu totLen =
      if (Mtu.umin (P + 20) (Mtu.umin outMtu (inMtu + 20))).toNat < 1280 then 1280 else Mtu.umin (P + 20) (Mtu.umin outMtu (inMtu + 20)) := by
    refine ⟨_, ?_, rfl⟩
    split
    · split
      · exact h1 _
      · exact h1 _
    · exact h1 _
  rw [e]
  generalize Mtu.umin outMtu (inMtu + 20) = Q
  have hm := hmin (P + 20) Q
  have ha := Mtu.add20 P
  split
  · show 1280 < 16777216
    omega
  · omega

theorem start6_small {n : Nat} {w : BitVec 32} (h : some w.toNat = (IcmpSpec.field4 n).map IcmpSpec.start6) : w.toNat < 16777216 := by
  cases hf : IcmpSpec.field4 n with
  | none => rw [hf] at h; cases h
  | some g =>
    rw [hf] at h
    simp only [Option.map_some, Option.some.injEq] at h
    rw [h]
    cases g <;> decide

theorem totLen_eq {d : List Byte} (h : 20 ≤ d.length) : (ip4 d).totLen = BitVec.ofNat 16 (len4 d) := by
  unfold len4
  rw [field2 d (by omega)]
  rfl

theorem len4_lt {d : List Byte} (h : 20 ≤ d.length) : len4 d < 65536 := by
  unfold len4
  rw [field2 d (by omega)]
  unfold at16
  have h1 := (at8 d 2).isLt
  have h2 := (at8 d (2 + 1)).isLt
  omega

theorem len46_eq {e : Acc} {k6 : Nat} {k : List Byte} (hk : e.skb.data = k) (h20 : 20 ≤ k.length) (hl : e.m.l4 = l4 k) (hle : e.m.l4 ≤ e.m.pay)
    (h6 : k6 = (len46 e).toNat) (hn : l6 k = 40 + if Hdr.needsFrag (ip4 k) = true then 8 else 0) : (40 + k6 + l4 k) % 65536 = (len4 k + l6 k) % 65536 := by
  have r := totLen_eq h20
  have r' := len4_lt h20
  unfold len46 at h6
  rw [hk] at h6
  rw [hn]
  revert h6
  generalize hF : (if Hdr.needsFrag (ip4 k) = true then 8 else 0 : Nat) = F
  intro h6
  rw [h6, r, ← hl]
  simp only [BitVec.toNat_sub, BitVec.toNat_add, BitVec.toNat_ofNat]
  omega

theorem tcp_of {k : List Byte} {e : Acc} (h20 : 20 ≤ k.length) (hk : e.skb.data = k) (hl : e.m.l4 = l4 k) (hpr : e.m.proto = PktSpec.proto4 (at8 k 9)) (hoff : off4 k = 0)
    (hC : Complete (off4 k = 0) (proto4 k) 1 (k.drop (l4 k))) (htcp : proto4 k = 6 → 5 ≤ field k (l4 k + 12) 1 / 16) : e.m.proto = L4.tcp → 20 ≤ tcpLen e.skb.data e.m.l4 := by
  intro q
  rw [proto4_of h20] at hpr
  have q6 : proto4 k = 6 := by
    rw [q] at hpr
    by_cases q6 : proto4 k = 6
    · exact q6
    · rw [if_neg q6] at hpr
      split at hpr
      · cases hpr
      · split at hpr <;> cases hpr
  have h1 := hC.tcp hoff q6
  rw [List.length_drop, field_drop] at h1
  have h2 := htcp q6
  rw [hk, hl]
  unfold tcpLen
  rw [at8_field (by omega)]
  omega

theorem insideOf46 {s6 d6 : BitVec 128} {e : Acc} {k seg : List Byte} {sm : Summed} {k6 : Hdr.Ip6} {fk : Option Hdr.Frag} (hk : e.skb.data = k) (p1 : 20 ≤ k.length)
    (p3 : first4 k 0 = true) (p4 : Pkt.HdrEnd k e.m true) (p5 : e.m.pay ≤ k.length) (p6 : e.m.l4 = ihl4 k 0) (p7 : e.m.proto = PktSpec.proto4 (at8 k 9)) (p10 : e.m.l4 ≤ e.m.pay)
    (hne : e.m.proto = L4.icmp → Icmp.isIcmp4Error (at8 k e.m.l4) = true → False) (htcp : e.m.proto = L4.tcp → 20 ≤ tcpLen e.skb.data e.m.l4) (hlen : k.length < 65536)
    (hck : Hdr.common46 x.cfg (ip4 k) false x.hairpin false (len46 e) s6 d6 = .ok (k6, fk)) (hhop : k6.hop = (ip4 k).ttl) (hs : seg46 (inCtx x y) s6 d6 e = some (seg, sm)) :
    Inside46 x y s6 d6 k (top46 k6 fk ++ seg) ∧ fk.isSome = fragmented4 k 0 ∧
      behind (vals (inCtx x y) (fun _ => bytes6 k6) (bytesFrag (fk.getD ⟨0, 0, 0, 0⟩)) seg) true e.skb.data e.m = seg := by
  have p6' := p6
  rw [ihl4_words p1] at p6'
  obtain ⟨c2, -, -, -, -⟩ := Hdr.common46_cases hck
  simp only at c2
  have hfr : fk.isSome = fragmented4 k 0 := by
    rw [c2, ← needsFrag_eq]
    cases Hdr.needsFrag (ip4 k) <;> rfl
  have hv1 := sized (inCtx x y) (seg := seg) (l3 := fun _ => bytes6 k6) (fun _ => bytes6_length k6) (bytesFrag_length (fk.getD ⟨0, 0, 0, 0⟩))
  have hbe : behind (vals (inCtx x y) (fun _ => bytes6 k6) (bytesFrag (fk.getD ⟨0, 0, 0, 0⟩)) seg) true e.skb.data e.m = seg := by
    have := behind46_of (x := inCtx x y) (s6 := s6) (d6 := d6) (sm := sm) (seg := seg) (l3 := fun _ => bytes6 k6) (fr := bytesFrag (fk.getD ⟨0, 0, 0, 0⟩)) (a := e)
      (by rw [hk, p3]; exact p4) (fun _ => htcp) (by rw [hk]; exact p5) (by rw [hk, p3]; exact hs)
    rw [hk, p3] at this
    rw [hk]
    exact this
  have hsl : seg.length = k.length - l4 k := by
    rw [← hbe, hk, ← p6']
    refine behind_length hv1 p10 p5 ?_ nofun
    intro _
    have H := p4
    unfold Pkt.HdrEnd at H
    have T := htcp
    rw [hk] at T
    cases hp : e.m.proto <;> rw [hp] at H <;> simp only [if_true] at H <;> unfold Build.Enough
    · have := T hp
      show 20 ≤ _
      omega
    · show e.m.pay - e.m.l4 = 8
      omega
    · show e.m.pay - e.m.l4 = 8
      omega
    · show e.m.pay - e.m.l4 = 0
      omega
  obtain ⟨S, htl, hSl, hSh⟩ := shape46_of (r := seg) p1 hck
  have hqd : (top46 k6 fk ++ seg).drop (l6 k) = seg := by rw [List.drop_left' htl]
  have hI := segmentIn46 (x := inCtx x y) (a := e) (s6 := s6) (d6 := d6) (seg := seg) (sm := sm) (by rw [hk]; exact p1) (by rw [hk]; exact p3) (by rw [hk]; exact p4)
    (by rw [hk]; exact p5) (by rw [hk]; exact p6) (by rw [hk]; exact p7) (by rw [hk]; exact hne) (by rw [hk]; exact hlen) hs
  rw [hk] at hI
  obtain ⟨I1, I2⟩ := hI
  refine ⟨⟨S, ?_, ?_, ?_, ?_, ?_⟩, hfr, hbe⟩
  · rw [hSh, hhop]
    exact (read4 p1).2.2.2.2.1
  · refine len46_eq hk p1 p6' p10 hSl ?_
    rw [← htl, top46_length, hfr, needsFrag_eq]
  · rw [List.length_append, htl, hsl]
  · rw [hqd]
    exact I1
  · rw [hqd]
    have e1 : (ip4 k).src = BitVec.ofNat 32 (src4 k) := by rw [← (read4 p1).2.2.2.2.2.2.1]; simp
    have e2 : (ip4 k).dst = BitVec.ofNat 32 (dst4 k) := by rw [← (read4 p1).2.2.2.2.2.2.2]; simp
    rw [← e1, ← e2]
    exact I2

theorem errSentOf46 {s6 d6 is6 id6 : BitVec 128} {d k q : List Byte} {h6 : Hdr.Ip6} {f0 : Option Hdr.Frag} {t c : Byte} {w : BitVec 32} {ck l : List Byte} {f : Nat}
    (hk : k = d.drop (l4 d + 8)) (h20 : 20 ≤ d.length) (h8 : l4 d + 8 ≤ d.length) (p1 : 20 ≤ k.length) (hcm : Hdr.common46 x.cfg (ip4 d) true x.hairpin false 0#16 s6 d6 = .ok (h6, f0))
    (hnf : fragmented4 d 0 = false) (hq : Inside46 x y is6 id6 k q) (hgood : IcmpExt.Good 8 1280 48 (noExt46 d) (field d (l4 d + 5) 1 * 4) k q (.ok l f)) (k1 : ck.length = 2)
    (k2 : CsumSpec.Valid (CsumSpec.ph6 s6 d6 (8 + l.length) 58#8 ++ (err46 h6 t c ck f w l).drop 40))
    (t1 : IcmpSpec.Rfc46 (byte d (l4 d)) (byte d (l4 d + 1)) t c)
    (t2 : byte d (l4 d) = 12#8 → some w.toNat = (IcmpSpec.field4 (field d (l4 d + 4) 1)).map IcmpSpec.start6)
    (t3 : byte d (l4 d) = 3#8 → byte d (l4 d + 1) = 2#8 → w = 6)
    (t4 : byte d (l4 d) = 3#8 → byte d (l4 d + 1) = 4#8 → w = Mtu.mtu6 y.plateaus (BitVec.ofNat 16 (at16 d (l4 d + 6))) y.inMtu y.outMtu (ip4 k).totLen)
    (t5 : ¬ (byte d (l4 d) = 12#8 ∨ byte d (l4 d) = 3#8 ∧ (byte d (l4 d + 1) = 2#8 ∨ byte d (l4 d + 1) = 4#8)) → w = 0) :
    ErrSent46 x y s6 d6 is6 id6 d (err46 h6 t c ck f w l) := by
  obtain ⟨hl1, hf1, hf2, hipl⟩ := good_small hgood
  obtain ⟨o1, o2⟩ := err46_drop (h6 := h6) (t := t) (c := c) (f := f) (w := w) (l := l) k1
  obtain ⟨f1, f2, f3, f4, f5⟩ := err46_fields (h6 := h6) (t := t) (c := c) (w := w) (l := l) k1 hf1
  have hforce : noExt46 d = true → w.toNat < 16777216 → field (err46 h6 t c ck f w l) 44 4 = w.toNat := fun q q' => f5 (hf2 q) q'
  refine ⟨err46_header h20 hcm hnf k1 (by omega), by omega, by rw [f1, f2]; exact t1, ⟨?_, ?_, ?_, ?_, ?_⟩, ?_, q, ?_, ?_⟩
  · intro q
    refine f4 (t5 ?_)
    unfold noExt46 at q
    exact of_decide_eq_false q
  · intro q1 q2
    have := t3 q1 q2
    rw [hforce (by unfold noExt46; rw [decide_eq_true_iff]; exact Or.inr ⟨q1, Or.inl q2⟩) (by rw [this]; decide), this]
    rfl
  · intro q1 q2 hpl hmtu
    have hw := t4 q1 q2
    rw [totLen_eq p1, hk] at hw
    rw [hforce (by unfold noExt46; rw [decide_eq_true_iff]; exact Or.inr ⟨q1, Or.inr q2⟩) (by rw [hw]; exact mtu6_small _ _ _ _ _), hw, field2 _ (by omega)]
    exact Mtu.mtu6_rfc_partial hpl _ _ _ _ hmtu
  · intro q1 q2
    have hw := t4 q1 q2
    rw [hforce (by unfold noExt46; rw [decide_eq_true_iff]; exact Or.inr ⟨q1, Or.inr q2⟩) (by rw [hw]; exact mtu6_small _ _ _ _ _), hw]
    exact Mtu.mtu6_minimum _ _ _ _ _
  · intro q1
    have hw := t2 q1
    rw [hforce (by unfold noExt46; rw [decide_eq_true_iff]; exact Or.inl q1) (start6_small hw)]
    exact hw
  · rw [o2, show 48 + l.length - 40 = 8 + l.length by omega]
    exact k2
  · rw [← hk]
    exact hq
  · rw [o1, f3, ← hk]
    exact hgood

set_option maxHeartbeats 1000000 in
/-- **C81.** Whatever an accepted ICMPv4 error is, its translation touches no memory outside of the packets; it is known which errors go through; and those that do become
the ICMPv6 error that RFC 7915 describes, from the first to the last byte: IPv6 header, type, code, second word, checksum, the packet inside with all of its headers and
checksums, and the extension of RFC 4884 if there is room for it. Missing: errors inside of errors, errors about protocol 58, TCP headers that claim to be shorter than
20 bytes, and length fields that do not even cover the IPv4 header inside. -/
theorem error46_partial (s6 d6 is6 id6 : BitVec 128) (h : Pkt.init4 s0 = some a) (hin : s0.linear ≤ s0.data.length) (hh : Holds p a) (hihl : 5 ≤ words4 s0.data) (hi : a.inner = some i)
    (hlen : s0.data.length < 65536) (h58 : proto4 (s0.data.drop (l4 s0.data + 8)) ≠ 58)
    (htcp : proto4 (s0.data.drop (l4 s0.data + 8)) = 6 → 5 ≤ field (s0.data.drop (l4 s0.data + 8)) (l4 (s0.data.drop (l4 s0.data + 8)) + 12) 1 / 16)
    (hnest : proto4 (s0.data.drop (l4 s0.data + 8)) = 1 → field (s0.data.drop (l4 s0.data + 8)) (l4 (s0.data.drop (l4 s0.data + 8))) 1 ∉ [3, 4, 5, 11, 12])
    (hext : field s0.data (l4 s0.data + 5) 1 ≠ 0 → l4 (s0.data.drop (l4 s0.data + 8)) ≤ field s0.data (l4 s0.data + 5) 1 * 4 + l6 (s0.data.drop (l4 s0.data + 8))) :
    ∃ r, translateErr46 x y s6 d6 is6 id6 p a i = .ok r ∧ (r ≠ none ↔ ErrLeaves46 x s0.data) ∧ ∀ o, r = some o → ErrSent46 x y s6 d6 is6 id6 s0.data o := by
  have A := Pkt.init4_ok h
  have hD := A.data
  obtain ⟨hpi, herr, -⟩ := A.inner i hi
  obtain ⟨h20, hl, hc, hfr⟩ := complete4 h hin
  have hnf := (A.icmp hpi).1
  have h1 : proto4 s0.data = 1 := by
    have := A.proto
    rw [hpi, proto4_of h20] at this
    by_cases q6 : proto4 s0.data = 6
    · rw [if_pos q6] at this; cases this
    · rw [if_neg q6] at this
      by_cases q17 : proto4 s0.data = 17
      · rw [if_pos q17] at this; cases this
      · rw [if_neg q17] at this
        by_cases q1 : proto4 s0.data = 1
        · exact q1
        · rw [if_neg q1] at this; cases this
  have h8 := hc.echo h1
  rw [List.length_drop] at h8
  have hpay : a.m.pay = l4 s0.data + 8 := by
    have hH := A.hdr
    unfold Pkt.HdrEnd at hH
    rw [(first4_off h20).2 (hfr h1).1, hpi] at hH
    simp only [if_true] at hH
    omega
  have P := inPkt4 h hin hi
  have hk : (insideAcc a i).skb.data = s0.data.drop (l4 s0.data + 8) := by
    show a.skb.data.drop a.m.pay = _
    rw [hD, hpay]
  obtain ⟨p1, p2, p3, p4, p5, p6, p7, p8, p9, p10⟩ := P
  obtain ⟨e, he⟩ : ∃ e, e = insideAcc a i := ⟨_, rfl⟩
  rw [← he] at p1 p2 p3 p4 p5 p6 p7 p8 p9 p10 hk
  obtain ⟨k, hkk⟩ : ∃ k, k = s0.data.drop (l4 s0.data + 8) := ⟨_, rfl⟩
  rw [← hkk] at hk h58 htcp hnest hext
  rw [hk] at p1 p2 p3 p4 p5 p6 p7
  have p6' := p6
  rw [ihl4_words p1] at p6'
  have pC := complete_in p1 p4 p5 p6' p7
  have hkl : k.length = s0.data.length - (l4 s0.data + 8) := by rw [hkk, List.length_drop]
  have hproto := p7
  rw [proto4_of p1] at hproto
  have hoff := (first4_off p1).1 p3
  have icmp1 : e.m.proto = L4.icmp → proto4 k = 1 := by
    intro q
    rw [q] at hproto
    by_cases q6 : proto4 k = 6
    · rw [if_pos q6] at hproto; cases hproto
    · rw [if_neg q6] at hproto
      by_cases q17 : proto4 k = 17
      · rw [if_pos q17] at hproto; cases hproto
      · rw [if_neg q17] at hproto
        by_cases q1 : proto4 k = 1
        · exact q1
        · rw [if_neg q1] at hproto; cases hproto
  have hne : e.m.proto = L4.icmp → Icmp.isIcmp4Error (at8 k e.m.l4) = true → False := by
    intro q q'
    have q1 := icmp1 q
    have := pC.echo q1
    rw [List.length_drop] at this
    rw [isIcmp4Error_iff, p6', at8_field (by omega)] at q'
    exact hnest q1 q'
  have htcp' := tcp_of p1 hk p6' p7 hoff pC htcp
  have hseg := seg46_core (x := inCtx x y) is6 id6 hk p1 p6' p7 pC (fun _ => hoff) hne
  simp only [p3, true_implies] at hseg
  -- what the code looks at
  have hptr := word_pointer (d := s0.data) (k := l4 s0.data) (by omega)
  have hT := ttp46_error (m := Mtu.mtu6 y.plateaus (BitVec.ofNat 16 (at16 s0.data (l4 s0.data + 6))) y.inMtu y.outMtu (ip4 k).totLen) (t := at8 s0.data (l4 s0.data))
    (c := at8 s0.data (l4 s0.data + 1)) (w := word s0.data (l4 s0.data)) (by rw [← hl]; exact herr)
  have hic : icmp46 y a = Icmp.ttp46 none (Mtu.mtu6 y.plateaus (BitVec.ofNat 16 (at16 s0.data (l4 s0.data + 6))) y.inMtu y.outMtu (ip4 k).totLen) (at8 s0.data (l4 s0.data))
      (at8 s0.data (l4 s0.data + 1)) (word s0.data (l4 s0.data)) := by
    unfold icmp46
    simp only [hD, hl, hpay, hkk]
  rw [← hic, hptr] at hT
  have b0 : byte s0.data (l4 s0.data) = at8 s0.data (l4 s0.data) := byte_eq (by omega)
  have b1 : byte s0.data (l4 s0.data + 1) = at8 s0.data (l4 s0.data + 1) := byte_eq (by omega)
  rw [← b0, ← b1] at hT
  unfold translateErr46
  simp only [← he, hD, hk]
  by_cases hrt : x.route = true
  · rw [if_pos hrt]
    refine ⟨none, rfl, ⟨fun q => absurd rfl q, fun q => ?_⟩, nofun⟩
    have := q.route
    rw [hrt] at this
    cases this
  rw [if_neg hrt]
  have hrt : x.route = false := by simpa using hrt
  have hlive := (read4 h20).2.2.2.2.1
  cases hcm : Hdr.common46 x.cfg (ip4 s0.data) true x.hairpin false 0#16 s6 d6 with
  | segmentsLeft l =>
    unfold Hdr.common46 at hcm
    simp only at hcm
    split at hcm
    · split at hcm <;> cases hcm
    · cases hcm
  | srcRoute =>
    unfold Hdr.common46 at hcm
    simp only at hcm
    split at hcm
    · split at hcm <;> cases hcm
    · cases hcm
  | ttl =>
    refine ⟨none, rfl, ⟨fun q => absurd rfl q, fun q => ?_⟩, nofun⟩
    exfalso
    unfold Hdr.common46 at hcm
    simp only [Bool.true_and] at hcm
    split at hcm
    · rename_i q1
      split at hcm
      · have := q.ttl (by simpa using q1)
        omega
      · cases hcm
    · cases hcm
  | ok hf =>
    obtain ⟨h6, f0⟩ := hf
    have httl : x.hairpin = false → 2 ≤ ttl4 s0.data := by
      intro q
      obtain ⟨-, -, -, c4, -⟩ := Hdr.common46_cases hcm
      have := c4 (by rw [q]; rfl)
      omega
    simp only
    cases hicm : icmp46 y a with
    | dead => rw [hicm] at hT; exact hT.elim
    | drop =>
      rw [hicm] at hT
      refine ⟨none, rfl, ⟨fun q => absurd rfl q, fun q => ?_⟩, nofun⟩
      rcases hT with hT | ⟨hT1, hT2⟩
      · exact absurd q.type hT
      · exact absurd hT2 (q.pointer hT1)
    | ok t c w =>
      rw [hicm] at hT
      obtain ⟨t1, t2, t3, t4, t5⟩ := hT
      simp only
      obtain ⟨k6, fk, hck, hhop⟩ := common46_inner x.cfg (ip4 k) x.hairpin (len46 e) is6 id6
      rw [hck]
      simp only
      cases hs : seg46 (inCtx x y) is6 id6 e with
      | none =>
        rw [hs] at hseg
        refine ⟨none, rfl, ⟨fun q => absurd rfl q, fun q => ?_⟩, nofun⟩
        exact absurd rfl (hseg.2 ⟨fun _ => by rw [hkk]; exact q.udp, by rw [hkk]; exact q.echo⟩)
      | some sq =>
        obtain ⟨seg, sm⟩ := sq
        have hsok := hseg.1 (by rw [hs]; simp)
        simp only
        obtain ⟨hI, hfr, hbe⟩ := insideOf46 (x := x) (y := y) hk p1 p3 p4 p5 p6 p7 p10 hne htcp' (by omega) hck hhop hs
        have hv0 := sized x (seg := icmpHdr t c w) (l3 := fun _ => bytes6 h6) (fun _ => bytes6_length h6) (fr := List.replicate 8 0#8) (by rfl)
        have hv1 := sized (inCtx x y) (seg := seg) (l3 := fun _ => bytes6 k6) (fun _ => bytes6_length k6) (bytesFrag_length (fk.getD ⟨0, 0, 0, 0⟩))
        obtain ⟨g, hg⟩ : ∃ g, g = givenErr x (vals46 x y h6 k6 fk t c w seg).1 (vals46 x y h6 k6 fk t c w seg).2 := ⟨_, rfl⟩
        have g0 : g.vals 0 = vals x (fun _ => bytes6 h6) (List.replicate 8 0#8) (icmpHdr t c w) := by rw [hg]; rfl
        have g1 : g.vals 1 = vals (inCtx x y) (fun _ => bytes6 k6) (bytesFrag (fk.getD ⟨0, 0, 0, 0⟩)) seg := by rw [hg]; rfl
        have hf0 : fragmented4 s0.data a.m.pay = fragmented4 k 0 := by
          unfold fragmented4
          rw [hkk, at16_drop, hpay]
        have hq : inside46 (g.vals 1) a.skb.data a.m.pay i = top46 k6 fk ++ seg := by
          unfold inside46
          rw [behind_inside (by rw [← he]; exact p8) (by rw [← he]; exact p9), ← he, g1, hbe, hD, hf0, ← hfr]
          unfold above46 top46 vals
          cases fk <;> rfl
        obtain ⟨q, hqq⟩ : ∃ q, q = top46 k6 fk ++ seg := ⟨_, rfl⟩
        rw [← hqq] at hq hI
        have hql := hI.size
        have hlk : l4 k ≤ k.length := by rw [← p6']; omega
        have E := Build.error46_partial (g := g) (p := p) (i := i) (by rw [g0]; exact hv0) (by rw [g1]; exact hv1) h hh (by rw [hD, ihl4_words h20]; unfold l4; omega) hi
          (by
            intro q58
            apply h58
            rw [hD] at q58
            have : at8 k 9 = 58#8 := by rw [hkk, at8_drop, ← hpay]; exact q58
            unfold proto4
            rw [← at8_field (by omega), this]
            rfl)
          (by
            intro q6
            have := htcp' (by rw [he]; exact q6)
            rw [hk] at this
            rw [hD, p8]
            unfold tcpLen at this ⊢
            rw [hkk, at8_drop, ← hpay] at this
            rw [Nat.add_assoc]
            exact this)
          (by
            rintro ⟨q1, q2⟩
            refine hne (by rw [he]; exact q1) ?_
            rw [hkk, at8_drop, ← hpay, ← p8, ← hD]
            exact q2)
          (by rw [hD]; omega)
          (by
            rw [hq, hql, hD, hl, hpay, ← hkk, at8_field (by omega)]
            intro q1 q2
            have := hext (by omega)
            omega)
        obtain ⟨r, hgood, hr⟩ := E
        have hn46 := noExt46_eq (d := s0.data) (by omega)
        have hf5 : (at8 s0.data (l4 s0.data + 5)).toNat = field s0.data (l4 s0.data + 5) 1 := at8_field (by omega)
        rw [hq, hD, hl, hpay, ← hkk, hn46, hf5] at hgood
        rw [← hg]
        cases hr' : r with
        | ub => rw [hr'] at hr; exact hr.elim
        | drop =>
          rw [hr'] at hr hgood
          simp only at hr
          rw [hr]
          refine ⟨none, rfl, ⟨fun q => absurd rfl q, fun q => ?_⟩, nofun⟩
          have := q.ext
          rw [← hkk] at this
          cases hgood
          omega
        | ok l f =>
          rw [hr'] at hr hgood
          simp only at hr
          obtain ⟨sx, hx1, -, -, hIs⟩ := hr
          rw [hx1]
          rw [g0, head46_eq] at hIs
          obtain ⟨hl1, hf1, hf2, hipl⟩ := good_small hgood
          obtain ⟨B, hB⟩ : ∃ B, B = err46 h6 t c [0#8, 0#8] f w l := ⟨_, rfl⟩
          have hBl : B.length = 48 + l.length := by rw [hB]; exact (err46_drop (by rfl)).2
          obtain ⟨ck, k1, k2, k3⟩ := error46_out (K := x.K) (sm := x.sm) (seg := s0.data.drop (l4 s0.data)) (out := B.drop 40) (s6 := s6) (d6 := d6)
            (by rw [List.length_drop]; omega)
          have hex : (Csum.error46 x.K x.sm (s0.data.drop a.m.l4) (sx.pout.skb.bytes.drop 40) s6 d6).map (sx.pout.skb.bytes.take 40 ++ ·) =
              if Csum.validate4 x.K x.sm (s0.data.drop (l4 s0.data)) = true then some (err46 h6 t c ck f w l) else none := by
            rw [hIs.bytes, ← hB, hl, k3]
            split
            · show some (B.take 40 ++ put (B.drop 40) 2 ck) = _
              rw [hB, err46_put k1]
            · rfl
          show ∃ r, Outcome.ok ((Csum.error46 x.K x.sm (s0.data.drop a.m.l4) (sx.pout.skb.bytes.drop 40) s6 d6).map (sx.pout.skb.bytes.take 40 ++ ·)) = Outcome.ok r ∧ _
          rw [hex]
          by_cases hval : Csum.validate4 x.K x.sm (s0.data.drop (l4 s0.data)) = true
          · rw [if_pos hval]
            rw [validate4_all] at hval
            refine ⟨_, rfl, ⟨fun _ => ⟨hrt, httl, ⟨t, c, t1⟩, ?_, hval, ?_, ?_, ?_⟩, fun _ => by simp⟩, ?_⟩
            · intro q q'
              have := t2 q
              rw [q'] at this
              cases this
            · rw [← hkk]
              exact hsok.1 hoff
            · rw [← hkk]
              exact hsok.2
            · rw [← hkk]
              exact hipl
            · intro o ho
              cases ho
              refine errSentOf46 hkk h20 (by omega) p1 hcm hnf hI hgood k1 ?_ t1 t2 t3 t4 t5
              have e40 : (err46 h6 t c ck f w l).drop 40 = put (B.drop 40) 2 ck := by
                rw [← err46_put k1, ← hB, List.drop_left' (by rw [List.length_take]; omega)]
              rw [e40]
              rw [List.length_drop, hBl, show 48 + l.length - 40 = 8 + l.length by omega] at k2
              exact k2
          · rw [if_neg hval]
            refine ⟨none, rfl, ⟨fun q => absurd rfl q, fun q => ?_⟩, nofun⟩
            exact absurd ((validate4_all _ _ _).2 q.sum) hval

end

end Jool.Wire
