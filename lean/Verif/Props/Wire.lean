import Verif.Props.WireSix
/-
C77: what leaves is a packet. C78: two translators, one behind the other. Everything is said about bytes: those of the packet that arrives and those of the packet
that leaves.
-/
namespace Jool.WireSpec
open Jool.Pkt (Byte L4)

/-- The transport header is all there. -/
structure Complete (first : Prop) (proto icmp : Nat) (seg : List Byte) : Prop where
  tcp : first → proto = 6 → 20 ≤ seg.length ∧ field seg 12 1 / 16 * 4 ≤ seg.length
  udp : first → proto = 17 → 8 ≤ seg.length
  echo : proto = icmp → 8 ≤ seg.length

/-- Which IPv4 packets go through: RFC 7915 sections 4.1, 4.2, 4.5, and the setting for datagrams without checksum. -/
structure Leaves46 (x : Wire.Ctx) (d : List Byte) : Prop where
  route : x.route = false
  ttl : x.hairpin = false → 2 ≤ ttl4 d
  udp : off4 d = 0 → proto4 d = 17 → field d (l4 d + 6) 2 = 0 → x.nat64 = true ∨ mf4 d = 0 ∧ x.amend = true
  echo : proto4 d = 1 → field d (l4 d) 1 = 8 ∨ field d (l4 d) 1 = 0

/-- Which IPv6 packets go through. -/
structure Leaves64 (segleft : Option Nat) (d : List Byte) (l n : Nat) : Prop where
  route : segleft = none
  hop : 2 ≤ hop6 d
  echo : n = 58 → field d l 1 = 128 ∨ field d l 1 = 129

/-- From IPv4 (`d`) to IPv6 (`o`): all of it. -/
structure Sent46 (x : Wire.Ctx) (s6 d6 : BitVec 128) (d o : List Byte) : Prop where
  head : Header46 x.cfg.resetTc x.hairpin s6 d6 d o
  size : o.length = l6 d + (d.length - l4 d)
  seg : Segment x.ports x.id 8 0 128#8 129#8 (off4 d = 0) (proto4 d) 1 (d.drop (l4 d)) (o.drop (l6 d))
  sums : Sums46 x.sm (BitVec.ofNat 32 (src4 d)) (BitVec.ofNat 32 (dst4 d)) s6 d6 (off4 d = 0) (proto4 d) (d.drop (l4 d)) (o.drop (l6 d))

/-- From IPv6 (`d`) to IPv4 (`o`): all of it. `fh`, `l`, `n`: where the fragment header and the transport header are, and what kind of transport header it is. -/
structure Sent64 (x : Wire.Ctx) (s4 d4 : BitVec 32) (d : List Byte) (fh : Option Nat) (l n : Nat) (o : List Byte) : Prop where
  head : Header64 x.cfg.dscp (Wire.tosOf x.cfg) s4 d4 d fh n o
  size : o.length = 20 + (d.length - l)
  df : fh = none → x.fragList = false → x.gso = 0 → (df4 o = 1 ↔ 1260 < o.length)
  seg : Segment x.ports x.id 128 129 8#8 0#8 (offAt d fh = 0) n 58 (d.drop l) (o.drop 20)
  sums : Sums64 x.sm (BitVec.ofNat 128 (src6 d)) (BitVec.ofNat 128 (dst6 d)) s4 d4 (offAt d fh = 0) n (d.drop l) (o.drop 20)

/-- An IPv4 packet that went through two translators: `d` before, `o` afterwards. -/
structure Back (d o : List Byte) : Prop where
  version : ver o = 4
  words : words4 o = 5
  tos : tos4 o = tos4 d
  len : len4 o = o.length
  size : o.length = 20 + (d.length - l4 d)
  off : off4 o = off4 d
  more : mf4 o = mf4 d
  ident : ¬ (off4 d = 0 ∧ mf4 d = 0) → id4 o = id4 d
  ttl : ttl4 o + 2 = ttl4 d
  alive : 1 ≤ ttl4 o
  proto : proto4 o = proto4 d
  src : src4 o = src4 d
  dst : dst4 o = dst4 d
  sum : CsumSpec.Valid (o.take 20)
  same : off4 d ≠ 0 ∨ proto4 d ∉ [1, 6, 17] → o.drop 20 = d.drop (l4 d)
  tcp : proto4 d = 6 → Only 16 (d.drop (l4 d)) (o.drop 20)
  udp : proto4 d = 17 → Only 6 (d.drop (l4 d)) (o.drop 20)
  echo : proto4 d = 1 → Only 2 (echoed (BitVec.ofNat 8 (field d (l4 d) 1)) none (d.drop (l4 d))) (o.drop 20)

/-- Its checksums. -/
structure BackSums (s4 d4 : BitVec 32) (d o : List Byte) : Prop where
  tcp : off4 d = 0 → proto4 d = 6 → ∀ extra len, len < 65536 →
    (CsumSpec.Valid (CsumSpec.ph4 s4 d4 len 6#8 ++ (o.drop 20 ++ extra)) ↔ CsumSpec.Valid (CsumSpec.ph4 s4 d4 len 6#8 ++ (d.drop (l4 d) ++ extra)))
  udp : off4 d = 0 → proto4 d = 17 → field d (l4 d + 6) 2 ≠ 0 → ∀ extra len, len < 65536 →
    (CsumSpec.Valid (CsumSpec.ph4 s4 d4 len 17#8 ++ (o.drop 20 ++ extra)) ↔ CsumSpec.Valid (CsumSpec.ph4 s4 d4 len 17#8 ++ (d.drop (l4 d) ++ extra)))
  udpSome : off4 d = 0 → proto4 d = 17 → field o 26 2 ≠ 0
  echo : proto4 d = 1 → (∃ b ∈ d.drop (l4 d), b ≠ 0#8) → (∃ b ∈ o.drop 20, b ≠ 0#8) → (CsumSpec.Valid (o.drop 20) ↔ CsumSpec.Valid (d.drop (l4 d)))

end Jool.WireSpec

namespace Jool.Wire
open Jool.Pkt (Byte L4 Meta Acc at8 at16 first4 fragmented4 ihl4 isFirst6 tcpLen)
open Jool.Csum (Kernel Summed put setPorts store)
open Jool.Build (Holds)
open Jool.WireSpec

set_option linter.unusedVariables false

/-! ## Accepted packets are complete -/

theorem field_drop (d : List Byte) (k i n : Nat) : field (d.drop k) i n = field d (k + i) n := by
  unfold field
  rw [List.drop_drop]

theorem complete4 {s0 : Pkt.Skb} {a : Acc} (h : Pkt.init4 s0 = some a) (hin : s0.linear ≤ s0.data.length) :
    20 ≤ s0.data.length ∧ a.m.l4 = l4 s0.data ∧ Complete (off4 s0.data = 0) (proto4 s0.data) 1 (s0.data.drop (l4 s0.data)) ∧
    (proto4 s0.data = 1 → off4 s0.data = 0 ∧ mf4 s0.data = 0) := by
  have A := Pkt.init4_ok h
  have hd := A.hdr
  have hpay := A.pay
  have hwi := A.within hin
  have hip := A.ip
  have hic := A.icmp
  have hpr := A.proto
  have hl := A.l4
  have hd20 : 20 ≤ s0.data.length := by omega
  rw [ihl4_words hd20] at hl
  rw [proto4_of hd20] at hpr
  generalize s0.data = d at *
  have hsl : (d.drop (l4 d)).length = d.length - l4 d := List.length_drop
  have hfr : proto4 d = 1 → off4 d = 0 ∧ mf4 d = 0 := by
    intro h1
    have := (hic (by rw [hpr, h1]; rfl)).1
    unfold fragmented4 at this
    unfold off4 mf4
    rw [field2 d (by omega)]
    simp only [Nat.zero_add, bne_eq_false_iff_eq] at this
    omega
  refine ⟨hd20, hl, ⟨?_, ?_, ?_⟩, hfr⟩
  · intro hf hp
    rw [hp] at hpr
    simp only [if_true] at hpr
    unfold Pkt.HdrEnd at hd
    rw [(first4_off hd20).2 hf] at hd
    simp only [hpr, if_true] at hd
    unfold tcpLen at hd
    rw [field_drop, ← at8_field (by omega)]
    rw [← hl]
    rw [← hl] at hsl
    omega
  · intro hf hp
    rw [hp] at hpr
    unfold Pkt.HdrEnd at hd
    rw [(first4_off hd20).2 hf] at hd
    simp [hpr] at hd
    omega
  · intro hp
    have hf := (hfr hp).1
    rw [hp] at hpr
    unfold Pkt.HdrEnd at hd
    rw [(first4_off hd20).2 hf] at hd
    simp [hpr] at hd
    omega

theorem complete6 {s0 : Pkt.Skb} {a : Acc} {n : Byte} (h : Pkt.init6 s0 = some a) (hin : s0.linear ≤ s0.data.length) (hn : a.m.proto = PktSpec.proto6 n) :
    40 ≤ s0.data.length ∧ s0.data.length = 40 + len6 s0.data ∧ (a.m.fh = 0 ∨ a.m.fh + 8 ≤ s0.data.length) ∧
    Complete (offAt s0.data (fhOf a.m) = 0) n.toNat 58 (s0.data.drop a.m.l4) ∧ (n.toNat = 58 → offAt s0.data (fhOf a.m) = 0 ∧ moreAt s0.data (fhOf a.m) = 0) := by
  have A := Pkt.init6_ok h
  obtain ⟨-, hm1, hm2, -, hd⟩ := Pkt.summarize6_meta A.sum
  have hpay := A.pay
  have hwi := A.within hin
  have hip := A.ip
  have hic := A.icmp
  have hlen := A.len
  rw [proto6_toNat] at hn
  generalize s0.data = d at *
  have hfo := first6_off (d := d) (m := a.m) (by omega)
  have hsl : (d.drop a.m.l4).length = d.length - a.m.l4 := List.length_drop
  have hfr : n.toNat = 58 → offAt d (fhOf a.m) = 0 ∧ moreAt d (fhOf a.m) = 0 := by
    intro h1
    have := (hic (by rw [hn, h1]; rfl)).1
    unfold fhOf
    by_cases h0 : a.m.fh = 0
    · rw [if_pos h0]; exact ⟨rfl, rfl⟩
    · rw [if_neg h0]
      rcases this with q | q
      · exact absurd q h0
      · unfold Pkt.fragmented6 at q
        unfold offAt moreAt foff fmore
        simp only
        rw [field2 d (by omega)]
        simp only [Bool.or_eq_false_iff, bne_eq_false_iff_eq, beq_eq_false_iff_ne] at q
        omega
  refine ⟨by omega, by rw [hlen]; unfold len6; rw [field2 d (by omega)], by omega, ⟨?_, ?_, ?_⟩, hfr⟩
  · intro hf hp
    rw [hp] at hn
    simp only [if_true] at hn
    unfold Pkt.HdrEnd at hd
    rw [hfo.2 hf] at hd
    simp only [hn, if_true] at hd
    unfold tcpLen at hd
    rw [field_drop, ← at8_field (by omega)]
    omega
  · intro hf hp
    rw [hp] at hn
    unfold Pkt.HdrEnd at hd
    rw [hfo.2 hf] at hd
    simp [hn] at hd
    omega
  · intro hp
    have := (hic (by rw [hn, hp]; rfl)).2.1
    omega

/-! ## Whatever is complete is accepted -/

theorem walk6_final {d : List Byte} {off fh : Nat} {nh : Byte} {first : Bool} (hn : nh.toNat ∉ [0, 43, 44, 60]) (hoff : off ≤ d.length)
    (hc : Complete (first = true) nh.toNat 58 (d.drop off)) (hicmp : nh.toNat = 58 → first = true) :
    ∃ pay, Pkt.walk6 d off nh fh first = some ⟨fh, PktSpec.proto6 nh, off, pay⟩ ∧ pay ≤ d.length := by
  have hsl : (d.drop off).length = d.length - off := List.length_drop
  have h44 : ¬ nh = 44#8 := by rintro rfl; exact hn (by decide)
  have hx : ¬ (nh = 0#8 ∨ nh = 43#8 ∨ nh = 60#8) := by rintro (rfl | rfl | rfl) <;> exact hn (by decide)
  obtain ⟨c1, c2, c3⟩ := hc
  unfold Pkt.walk6 PktSpec.proto6
  by_cases h6 : nh = 6#8
  · subst h6
    simp only [if_true]
    cases first with
    | false => exact ⟨off, rfl, hoff⟩
    | true =>
      obtain ⟨e1, e2⟩ := c1 rfl rfl
      rw [field_drop, ← at8_field (by omega)] at e2
      simp only [if_true]
      rw [if_pos (by omega)]
      refine ⟨_, rfl, ?_⟩
      unfold tcpLen
      omega
  · rw [if_neg h6, if_neg h6]
    by_cases h17 : nh = 17#8
    · subst h17
      simp only [if_true]
      refine ⟨_, rfl, ?_⟩
      cases first with
      | false => exact hoff
      | true =>
        have := c2 rfl rfl
        simp only [if_true]
        omega
    · rw [if_neg h17, if_neg h17]
      by_cases h58 : nh = 58#8
      · subst h58
        simp only [if_true]
        refine ⟨_, rfl, ?_⟩
        have := c3 rfl
        split <;> omega
      · rw [if_neg h58, if_neg h58, if_neg h44, if_neg hx]
        exact ⟨off, rfl, hoff⟩

theorem pull_some {s : Pkt.Skb} {n : Nat} (h : n ≤ s.data.length) : Pkt.pull s n = some { s with linear := max s.linear n } := by
  unfold Pkt.pull
  rw [if_pos h]

/-- An IPv6 packet with nothing but a fragment header, at most, between the IPv6 header and the transport header. -/
theorem accept6 {o : List Byte} (lin : Nat) {n : Byte} {m : Meta} (hlen : o.length = 40 + len6 o) (hn : n.toNat ∉ [0, 43, 44, 60])
    (hm : m.fh = 0 ∧ m.l4 = 40 ∧ next6 o = n.toNat ∨ m.fh = 40 ∧ m.l4 = 48 ∧ next6 o = 44 ∧ fnext o 40 = n.toNat ∧ 48 ≤ o.length)
    (hc : Complete (offAt o (fhOf m) = 0) n.toNat 58 (o.drop m.l4))
    (hicmp : n.toNat = 58 → offAt o (fhOf m) = 0 ∧ moreAt o (fhOf m) = 0 ∧ field o m.l4 1 ≥ 128) :
    ∃ a, Pkt.init6 ⟨o, lin⟩ = some a ∧ a.inner = none ∧ a.m.fh = m.fh ∧ a.m.l4 = m.l4 ∧ a.m.proto = PktSpec.proto6 n := by
  have h40 : 40 ≤ o.length := by omega
  have hfo := first6_off (d := o) (m := m) (by rcases hm with q | q <;> omega)
  have e6 : next6 o = (at8 o 6).toNat := (at8_field (by omega)).symm
  have hsum : ∃ pay, Pkt.summarize6 o 0 = some ⟨m.fh, PktSpec.proto6 n, m.l4, pay⟩ ∧ pay ≤ o.length := by
    unfold Pkt.summarize6
    rw [if_pos (by omega)]
    simp only [Nat.zero_add]
    rcases hm with ⟨m1, m2, m3⟩ | ⟨m1, m2, m3, m4, m5⟩
    · have : at8 o 6 = n := BitVec.eq_of_toNat_eq (by rw [← e6, m3])
      have hz : offAt o (fhOf m) = 0 := by unfold fhOf; rw [if_pos m1]; rfl
      rw [this, m1, m2]
      refine walk6_final hn h40 ?_ (fun _ => rfl)
      rw [m2] at hc
      exact ⟨fun _ => hc.tcp hz, fun _ => hc.udp hz, hc.echo⟩
    · have : at8 o 6 = 44#8 := BitVec.eq_of_toNat_eq (by rw [← e6, m3]; rfl)
      have h8 : at8 o 40 = n := BitVec.eq_of_toNat_eq (by rw [← m4]; exact at8_field (by omega))
      rw [this]
      unfold Pkt.walk6
      rw [if_neg (by decide), if_neg (by decide), if_neg (by decide), if_pos rfl, if_neg (by decide), dif_pos (by omega), h8, m1, m2]
      have hfi : isFirst6 o m = Pkt.first6 o 40 := by unfold isFirst6; simp [m1]
      rw [hfi] at hfo
      refine walk6_final hn m5 ?_ (fun q => hfo.2 (hicmp q).1)
      rw [m2] at hc
      exact ⟨fun q => hc.tcp (hfo.1 q), fun q => hc.udp (hfo.1 q), hc.echo⟩
  obtain ⟨pay, hsum, hpay⟩ := hsum
  unfold Pkt.init6
  rw [pull_some h40]
  simp only
  have e16 : at16 o 4 = len6 o := by unfold len6; rw [field2 o (by omega)]
  rw [if_neg (by rw [e16]; omega), hsum]
  simp only
  by_cases hi : n.toNat = 58
  · have hp : PktSpec.proto6 n = L4.icmp := by rw [proto6_toNat, hi]; rfl
    obtain ⟨g1, g2, g3⟩ := hicmp hi
    have h8 := hc.echo hi
    have hsl : (o.drop m.l4).length = o.length - m.l4 := List.length_drop
    have hh : Pkt.handleIcmp6 ⟨o, max lin 40⟩ ⟨m.fh, PktSpec.proto6 n, m.l4, pay⟩ = some (none, ⟨o, max lin 40⟩) := by
      unfold Pkt.handleIcmp6
      rw [if_neg, if_neg (by simp only; omega), if_neg]
      · rw [← at8_field (by omega)] at g3
        generalize at8 o m.l4 = t at *
        unfold Icmp.isIcmp6Error
        revert g3; revert t; decide
      · simp only
        rintro ⟨q1, q2⟩
        unfold fhOf at g1 g2
        rw [if_neg q1] at g1 g2
        rcases hm with q | q
        · exact q1 q.1
        · rcases q2 with q2 | q2
          · omega
          · unfold Pkt.fragmented6 at q2
            unfold offAt foff at g1
            unfold moreAt fmore at g2
            simp only at g1 g2
            rw [field2 o (by omega)] at g1 g2
            simp only [Bool.or_eq_true, bne_iff_ne, beq_iff_eq] at q2
            omega
    rw [if_pos hp, hh]
    simp only
    rw [pull_some hpay]
    exact ⟨_, rfl, rfl, rfl, rfl, rfl⟩
  · have hp : PktSpec.proto6 n ≠ L4.icmp := by
      rw [proto6_toNat]
      split
      · decide
      · split
        · decide
        · decide
    rw [if_neg hp]
    simp only
    rw [pull_some hpay]
    exact ⟨_, rfl, rfl, rfl, rfl, rfl⟩

theorem accept4 {o : List Byte} (lin : Nat) (h20 : 20 ≤ o.length) (hl : l4 o ≤ o.length) (hc : Complete (off4 o = 0) (proto4 o) 1 (o.drop (l4 o)))
    (hicmp : proto4 o = 1 → off4 o = 0 ∧ mf4 o = 0 ∧ (field o (l4 o) 1 = 8 ∨ field o (l4 o) 1 = 0)) :
    ∃ a, Pkt.init4 ⟨o, lin⟩ = some a ∧ a.inner = none := by
  have hsl : (o.drop (l4 o)).length = o.length - l4 o := List.length_drop
  have hp4 := proto4_of h20
  have ep : (at8 o 9).toNat = proto4 o := at8_field (by omega)
  have hfo := first4_off h20
  obtain ⟨c1, c2, c3⟩ := hc
  unfold Pkt.init4
  rw [pull_some h20]
  simp only
  have hsum : ∃ m s, Pkt.summarize4 ⟨o, max lin 20⟩ = some (m, none, s) ∧ m.pay ≤ s.data.length := by
    unfold Pkt.summarize4
    simp only [ihl4_words h20]
    by_cases h6 : at8 o 9 = 6#8
    · rw [if_pos h6]
      rw [h6] at ep
      by_cases hf : first4 o 0 = true
      · rw [if_pos hf]
        obtain ⟨e1, e2⟩ := c1 (hfo.1 hf) ep.symm
        rw [field_drop, ← at8_field (by omega)] at e2
        rw [if_pos (by omega)]
        refine ⟨_, _, rfl, ?_⟩
        simp only [tcpLen]
        omega
      · rw [if_neg hf]
        exact ⟨_, _, rfl, hl⟩
    · rw [if_neg h6]
      by_cases h17 : at8 o 9 = 17#8
      · rw [if_pos h17]
        rw [h17] at ep
        refine ⟨_, _, rfl, ?_⟩
        simp only
        split
        · rename_i hf
          have := c2 (hfo.1 hf) ep.symm
          omega
        · exact hl
      · rw [if_neg h17]
        by_cases h1 : at8 o 9 = 1#8
        · rw [if_pos h1]
          rw [h1] at ep
          obtain ⟨g1, g2, g3⟩ := hicmp ep.symm
          have h8 := c3 ep.symm
          have hh : ∀ m : Meta, m.l4 = l4 o → Pkt.handleIcmp4 ⟨o, max lin 20⟩ m = some (none, ⟨o, max lin 20⟩) := by
            intro m hm
            unfold Pkt.handleIcmp4
            rw [if_neg, if_neg (by rw [hm]; simp only; omega), if_neg]
            · rw [← at8_field (by omega)] at g3
              simp only [hm]
              generalize at8 o (l4 o) = t at *
              unfold Icmp.isIcmp4Error
              rcases g3 with g3 | g3
              · have : t = 8#8 := BitVec.eq_of_toNat_eq g3
                rw [this]; decide
              · have : t = 0#8 := BitVec.eq_of_toNat_eq g3
                rw [this]; decide
            · unfold fragmented4
              unfold off4 at g1
              unfold mf4 at g2
              rw [field2 o (by omega)] at g1 g2
              simp only [Nat.zero_add, bne_iff_ne, ne_eq, Decidable.not_not]
              omega
          rw [hh _ rfl]
          refine ⟨_, _, rfl, ?_⟩
          simp only
          split <;> omega
        · rw [if_neg h1]
          exact ⟨_, _, rfl, hl⟩
  obtain ⟨m, s, hs, hp⟩ := hsum
  rw [hs]
  simp only
  rw [pull_some hp]
  exact ⟨_, rfl, rfl⟩

/-! ## Segments stay complete -/

theorem only_field {k i n : Nat} {old new : List Byte} (h : Only k old new) (hi : i + n ≤ k ∨ k + 2 ≤ i) : field new i n = field old i n := by
  unfold field
  congr 1
  apply List.ext_getElem?
  intro j
  rw [List.getElem?_take, List.getElem?_take]
  split
  · rw [List.getElem?_drop, List.getElem?_drop]
    exact h.2 _ (by omega) (by omega)
  · rfl

theorem ported_field {ports : Option (BitVec 16 × BitVec 16)} {seg : List Byte} {i n : Nat} (h : 4 ≤ seg.length) (hi : 4 ≤ i) : field (ported ports seg) i n = field seg i n := by
  cases ports with
  | none => rfl
  | some q =>
    obtain ⟨u, v⟩ := q
    unfold field ported
    simp only
    obtain ⟨j, rfl⟩ := Nat.exists_eq_add_of_le hi
    rw [← List.drop_drop, List.drop_left' (by rfl), List.drop_drop]

theorem ported_length {ports : Option (BitVec 16 × BitVec 16)} {seg : List Byte} (h : 4 ≤ seg.length) : (ported ports seg).length = seg.length := by
  rw [← setPorts_ported, Csum.setPorts_length ports h]

theorem segment_complete {ports : Option (BitVec 16 × BitVec 16)} {id : Option (BitVec 16)} {t1 t2 : Nat} {u1 u2 : Byte} {first : Prop} {proto icmp : Nat} {seg out : List Byte}
    (h : Segment ports id t1 t2 u1 u2 first proto icmp seg out) (hc : Complete first proto icmp seg) (hi : proto = icmp → first) :
    out.length = seg.length ∧ Complete first proto icmp out ∧ (proto = icmp → proto ≠ 6 → proto ≠ 17 → field out 0 1 = u1.toNat ∨ field out 0 1 = u2.toNat) := by
  obtain ⟨c1, c2, c3⟩ := hc
  have hlen : out.length = seg.length := by
    by_cases hf : first
    · by_cases h6 : proto = 6
      · rw [(h.tcp hf h6).1, ported_length (by have := c1 hf h6; omega)]
      · by_cases h17 : proto = 17
        · rw [(h.udp hf h17).1, ported_length (by have := c2 hf h17; omega)]
        · by_cases h1 : proto = icmp
          · obtain ⟨t, _, ht⟩ := h.echo hf h1
            rw [ht.1, echoed_length _ _ (c3 h1)]
          · rw [h.other h6 h17 h1]
    · rw [h.subsequent hf]
  refine ⟨hlen, ⟨?_, ?_, ?_⟩, ?_⟩
  · intro hf h6
    obtain ⟨e1, e2⟩ := c1 hf h6
    rw [only_field (h.tcp hf h6) (by omega), ported_field (by omega) (by omega), hlen]
    exact ⟨e1, e2⟩
  · intro hf h17
    rw [hlen]
    exact c2 hf h17
  · intro h1
    rw [hlen]
    exact c3 h1
  · intro h1 _ _
    obtain ⟨t, ht, hO⟩ := h.echo (hi h1) h1
    rw [only_field hO (by omega)]
    have : field (echoed t id seg) 0 1 = t.toNat := by
      rw [← value1]; rfl
    rw [this]
    rcases ht with ⟨_, rfl⟩ | ⟨_, rfl⟩
    · exact Or.inl rfl
    · exact Or.inr rfl

/-! ## C77, from IPv4 to IPv6 -/

section

variable {x : Ctx} {a : Acc} {s0 : Pkt.Skb} {p : Build.P}

theorem at8_drop (d : List Byte) (k i : Nat) : at8 (d.drop k) i = at8 d (k + i) := by
  unfold at8
  simp [List.getD_eq_getElem?_getD]

theorem canCompute_iff (n m a : Bool) : Csum.canCompute n m a = true ↔ n = true ∨ m = false ∧ a = true := by
  cases n <;> cases m <;> cases a <;> decide

/-- Which segments are translated. -/
theorem seg46_core (s6 d6 : BitVec 128) {d : List Byte} (hD : a.skb.data = d) (h20 : 20 ≤ d.length) (hl : a.m.l4 = l4 d) (hpr : a.m.proto = PktSpec.proto4 (at8 d 9))
    (hc : Complete (off4 d = 0) (proto4 d) 1 (d.drop (l4 d))) (hfr : proto4 d = 1 → off4 d = 0) (hne : a.m.proto = L4.icmp → Icmp.isIcmp4Error (at8 d a.m.l4) = true → False) :
    (first4 d 0 = true → seg46 x s6 d6 a ≠ none) ↔
      (off4 d = 0 → proto4 d = 17 → field d (l4 d + 6) 2 = 0 → x.nat64 = true ∨ mf4 d = 0 ∧ x.amend = true) ∧
      (proto4 d = 1 → field d (l4 d) 1 = 8 ∨ field d (l4 d) 1 = 0) := by
  rw [proto4_of h20] at hpr
  rw [first4_off h20]
  unfold seg46
  rw [hD, hl]
  by_cases h6 : proto4 d = 6
  · simp [hpr, h6]
  by_cases h17 : proto4 d = 17
  · simp only [hpr, h17, if_true, if_neg (show ¬ (17 = 6) by omega)]
    constructor
    · intro q
      refine ⟨fun hf _ hz => ?_, fun q' => by omega⟩
      have h8 := hc.udp hf h17
      have := q hf
      have hz' : Csum.load x.K.le (d.drop (l4 d)) Csum.udp.off = 0#16 := (load_zero _ (by show 6 + 2 ≤ _; omega)).2 ((field_zero h8).1 (by rw [field_drop]; exact hz))
      unfold Csum.udp46 at this
      simp only at this
      rw [if_pos hz'] at this
      by_cases hcc : Csum.canCompute x.nat64 (Hdr.mf4 (ip4 d)) x.amend = true
      · rcases (canCompute_iff _ _ _).1 hcc with q1 | ⟨q1, q2⟩
        · exact Or.inl q1
        · refine Or.inr ⟨?_, q2⟩
          have := (Hdr.mf4_iff (ip4 d)).2
          rw [(read4 h20).2.2.2.1] at this
          have hm := mf4_lt d
          by_cases q : mf4 d = 1
          · rw [this q] at q1; cases q1
          · omega
      · rw [if_neg hcc] at this
        simp at this
    · rintro ⟨q, -⟩ hf hno
      have h8 := hc.udp hf h17
      rw [Option.map_eq_none_iff] at hno
      unfold Csum.udp46 at hno
      simp only at hno
      split at hno
      · rename_i hz
        have hz' := (field_zero h8).2 ((load_zero _ (by show 6 + 2 ≤ _; omega)).1 hz)
        rw [field_drop] at hz'
        rw [if_pos] at hno
        · cases hno
        · rw [canCompute_iff]
          rcases q hf trivial hz' with q1 | ⟨q1, q2⟩
          · exact Or.inl q1
          · refine Or.inr ⟨?_, q2⟩
            have := (Hdr.mf4_iff (ip4 d)).1
            rw [(read4 h20).2.2.2.1] at this
            by_cases q' : Hdr.mf4 (ip4 d) = true
            · have := this q'; omega
            · simpa using q'
      · split at hno
        · cases hno
        · rw [if_neg (by simp)] at hno
          cases hno
  by_cases h1 : proto4 d = 1
  · have hf := hfr h1
    have hpr' : a.m.proto = L4.icmp := by rw [hpr]; simp [h1]
    have hne : Icmp.isIcmp4Error (at8 d (l4 d)) = true → False := by
      intro q
      rw [← hl] at q
      exact hne hpr' q
    have h8 := hc.echo h1
    rw [List.length_drop] at h8
    have hfd : field d (l4 d) 1 = (at8 d (l4 d)).toNat := (at8_field (by omega)).symm
    simp only [hpr', hf, h1, hfd, true_implies, at8_drop, Nat.add_zero, ne_eq, Option.map_eq_none_iff]
    constructor
    · intro q
      refine ⟨fun q' => absurd q' (by omega), ?_⟩
      cases hx : Icmp.xlat46Type (at8 d (l4 d)) (at8 d (l4 d + 1)) with
      | none => exact absurd hx q
      | some t =>
        rcases (echo_types46 hx hne).2 with ⟨q, -⟩ | ⟨q, -⟩
        · exact Or.inl (by rw [q]; rfl)
        · exact Or.inr (by rw [q]; rfl)
    · rintro ⟨-, q⟩ hx
      rcases q with q | q
      · rw [show at8 d (l4 d) = 8#8 from BitVec.eq_of_toNat_eq q] at hx; cases hx
      · rw [show at8 d (l4 d) = 0#8 from BitVec.eq_of_toNat_eq q] at hx; cases hx
  · simp [hpr, h6, h17, h1]

theorem seg46_some (s6 d6 : BitVec 128) (h : Pkt.init4 s0 = some a) (hin : s0.linear ≤ s0.data.length) (hi : a.inner = none) :
    (first4 s0.data 0 = true → seg46 x s6 d6 a ≠ none) ↔
      (off4 s0.data = 0 → proto4 s0.data = 17 → field s0.data (l4 s0.data + 6) 2 = 0 → x.nat64 = true ∨ mf4 s0.data = 0 ∧ x.amend = true) ∧
      (proto4 s0.data = 1 → field s0.data (l4 s0.data) 1 = 8 ∨ field s0.data (l4 s0.data) 1 = 0) := by
  obtain ⟨h20, hl, hc, hfr⟩ := complete4 h hin
  have A := Pkt.init4_ok h
  refine seg46_core s6 d6 A.data h20 hl A.proto hc (fun q => (hfr q).1) ?_
  intro hp q
  obtain ⟨i, hi'⟩ := (A.icmp hp).2 q
  rw [hi] at hi'
  cases hi'

/-- **C77.** Whatever an accepted IPv4 packet is, the translation touches no memory outside of the packets; and if something leaves, it is the IPv6 packet that
RFC 7915 describes: every field of the headers, every byte of the segment, and its checksum. Missing: ICMP errors (C81), packets that have to be split (C88; this is
`ttp46_alloc_skb`'s fast path), TCP headers that claim to be shorter than 20 bytes (`Jool.Pkt.reads4_outside`), and protocol 58: `compute_flowix46` takes that payload for
ICMPv4 and reads it. -/
theorem packet46_partial (s6 d6 : BitVec 128) (h : Pkt.init4 s0 = some a) (hin : s0.linear ≤ s0.data.length) (hh : Holds p a) (hihl : 5 ≤ words4 s0.data)
    (htcp : off4 s0.data = 0 → proto4 s0.data = 6 → 5 ≤ field s0.data (l4 s0.data + 12) 1 / 16) (hi : a.inner = none) (hlen : s0.data.length < 65536)
    (h58 : proto4 s0.data ≠ 58) : ∃ r, translate46 x s6 d6 p a = .ok r ∧ (r ≠ none ↔ Leaves46 x s0.data) ∧ ∀ o, r = some o → Sent46 x s6 d6 s0.data o := by
  obtain ⟨h20, hl, hc, hfr⟩ := complete4 h hin
  have A := Pkt.init4_ok h
  have hD := A.data
  have hpr := A.proto
  rw [proto4_of h20] at hpr
  obtain ⟨r, hr, hlv, hs⟩ := sent46 (x := x) s6 d6 h hh (by rw [hD, ihl4_words h20]; unfold l4; omega) (by
    intro hf hp
    rw [hD, first4_off h20] at hf
    rw [hD]
    have h6 : proto4 s0.data = 6 := by
      rw [hpr] at hp
      by_cases q : proto4 s0.data = 6
      · exact q
      · rw [if_neg q] at hp
        split at hp
        · cases hp
        · split at hp <;> cases hp
    have h1 := htcp hf h6
    obtain ⟨e1, e2⟩ := hc.tcp hf h6
    rw [List.length_drop] at e1
    unfold tcpLen
    rw [hl, at8_field (by omega)]
    omega) hi
  refine ⟨r, hr, ?_, ?_⟩
  · rw [hlv, hD, seg46_some s6 d6 h hin hi, (read4 h20).2.2.2.2.1]
    exact ⟨fun ⟨q1, q2, q3, q4⟩ => ⟨q1, q2, q3, q4⟩, fun ⟨q1, q2, q3, q4⟩ => ⟨q1, q2, q3, q4⟩⟩
  intro o ho
  obtain ⟨h6, f, seg, sm, k1, k2, k3, k4⟩ := hs o ho
  obtain ⟨g1, g2⟩ := segment46_of (out := if first4 a.skb.data 0 = true then finished x.K sm a.m.proto seg else seg) h hin hi (by rw [hD]; exact hlen) k2 rfl
  rw [hD] at g1 g2 k1 k3 k4
  have hol : (if first4 s0.data 0 = true then finished x.K sm a.m.proto seg else seg).length = seg.length := by
    rw [(segment_complete g1 hc (fun q => (hfr q).1)).1, List.length_drop, k3, hl]
  generalize hr' : (if first4 s0.data 0 = true then finished x.K sm a.m.proto seg else seg) = out at *
  rw [← hol] at k1 k3
  have hl20 : 20 ≤ l4 s0.data := by unfold l4; omega
  obtain ⟨b1, b2⟩ := header46_of h20 k1 (by omega)
  rw [← k4] at b1
  have hdrop : o.drop (l6 s0.data) = out := by rw [k4, List.drop_left' b2]
  obtain ⟨-, -, -, -, -, -, q7, q8⟩ := read4 h20
  refine ⟨b1, ?_, by rw [hdrop]; exact g1, ?_⟩
  · rw [k4, List.length_append, b2, k3, hl]
  · rw [hdrop, ← q7, ← q8, BitVec.ofNat_toNat, BitVec.ofNat_toNat, BitVec.setWidth_eq, BitVec.setWidth_eq]
    exact g2

theorem off6_46 {resetTc hairpin : Bool} {s6 d6 : BitVec 128} {d o : List Byte} (b : Header46 resetTc hairpin s6 d6 d o) {m : Meta}
    (hm : (off4 d = 0 ∧ mf4 d = 0) ∧ m.fh = 0 ∨ ¬ (off4 d = 0 ∧ mf4 d = 0) ∧ m.fh = 40) : offAt o (fhOf m) = off4 d ∧ moreAt o (fhOf m) = mf4 d := by
  rcases hm with ⟨⟨h1, h2⟩, h3⟩ | ⟨h1, h3⟩
  · unfold fhOf
    rw [if_pos h3, h1, h2]
    exact ⟨rfl, rfl⟩
  · unfold fhOf
    rw [if_neg (by omega), h3]
    obtain ⟨_, _, _, _, g1, g2, _⟩ := b.piece h1
    exact ⟨g1, g2⟩

/-- **C77.** Another translator accepts it, and finds the same transport header. Missing: `forged`. -/
theorem accepted46_partial {s6 d6 : BitVec 128} {o : List Byte} (h : Pkt.init4 s0 = some a) (hin : s0.linear ≤ s0.data.length)
    (hs : Sent46 x s6 d6 s0.data o) (hn : proto4 s0.data ∉ [0, 43, 44, 58, 60]) (lin : Nat) :
    ∃ a', Pkt.init6 ⟨o, lin⟩ = some a' ∧ a'.inner = none ∧ a'.m.l4 = l6 s0.data ∧ a'.m.proto = a.m.proto := by
  obtain ⟨h20, hl, hc, hfr⟩ := complete4 h hin
  have A := Pkt.init4_ok h
  have hpr := A.proto
  rw [proto4_of h20] at hpr
  generalize s0.data = d at *
  obtain ⟨b, size, sg, _⟩ := hs
  obtain ⟨k1, k2, k3⟩ := segment_complete sg hc (fun q => (hfr q).1)
  have hp256 : proto4 d < 256 := by
    unfold proto4
    rw [field1 d (by omega)]
    exact (at8 d 9).isLt
  have hto : (BitVec.ofNat 8 (to6 (proto4 d))).toNat = to6 (proto4 d) := by
    rw [BitVec.toNat_ofNat]
    apply Nat.mod_eq_of_lt
    unfold to6
    split <;> omega
  simp only [List.mem_cons, List.not_mem_nil, or_false, not_or] at hn
  obtain ⟨n0, n43, n44, n58, n60⟩ := hn
  have key : ∀ m : Meta, (off4 d = 0 ∧ mf4 d = 0) ∧ m.fh = 0 ∧ m.l4 = 40 ∨ ¬ (off4 d = 0 ∧ mf4 d = 0) ∧ m.fh = 40 ∧ m.l4 = 48 → 
      ∃ a', Pkt.init6 ⟨o, lin⟩ = some a' ∧ a'.inner = none ∧ a'.m.l4 = m.l4 ∧ a'.m.proto = PktSpec.proto6 (BitVec.ofNat 8 (to6 (proto4 d))) := by
    intro m hm
    have hl6 : l6 d = m.l4 := by
      unfold l6
      rcases hm with ⟨q, _, q'⟩ | ⟨q, _, q'⟩
      · rw [if_pos q, q']
      · rw [if_neg q, q']
    obtain ⟨o1, o2⟩ := off6_46 b (m := m) (by rcases hm with ⟨q1, q2, _⟩ | ⟨q1, q2, _⟩ <;> simp only [q1, q2] <;> simp)
    rw [hl6] at k1 k2 k3 size
    obtain ⟨a', e1, e2, e3, e4, e5⟩ := accept6 (o := o) lin (n := BitVec.ofNat 8 (to6 (proto4 d))) (m := m) (by have := b.len; omega) (by
        rw [hto]
        simp only [List.mem_cons, List.not_mem_nil, or_false]
        unfold to6
        split <;> omega) (by
        rw [hto]
        rcases hm with ⟨⟨q1, q2⟩, q3, q4⟩ | ⟨q1, q3, q4⟩
        · exact Or.inl ⟨q3, q4, b.whole q1 q2⟩
        · obtain ⟨g1, g2, _⟩ := b.piece q1
          exact Or.inr ⟨q3, q4, g1, g2, by omega⟩) (by
        rw [hto, o1]
        refine ⟨fun hf q => k2.tcp hf ?_, fun hf q => k2.udp hf ?_, fun q => k2.echo ?_⟩
        all_goals
          unfold to6 at q
          split at q <;> omega) (by
        rw [hto, o1, o2]
        intro q
        have h1 : proto4 d = 1 := by
          unfold to6 at q
          split at q
          · assumption
          · exact absurd q n58
        refine ⟨(hfr h1).1, (hfr h1).2, ?_⟩
        have := k3 h1 (by omega) (by omega)
        rw [field_drop, Nat.add_zero] at this
        rcases this with q | q <;> rw [q] <;> decide)
    exact ⟨a', e1, e2, e4, e5⟩
  have hp6 : PktSpec.proto6 (BitVec.ofNat 8 (to6 (proto4 d))) = a.m.proto := by
    rw [proto6_toNat, hto, hpr]
    unfold to6
    by_cases h1 : proto4 d = 1
    · simp [h1]
    · simp [h1, n58]
  rw [← hp6]
  by_cases hw : off4 d = 0 ∧ mf4 d = 0
  · have e : l6 d = 40 := by unfold l6; rw [if_pos hw]
    rw [e]
    exact key ⟨0, L4.other, 40, 40⟩ (Or.inl ⟨hw, rfl, rfl⟩)
  · have e : l6 d = 48 := by unfold l6; rw [if_neg hw]
    rw [e]
    exact key ⟨40, L4.other, 48, 48⟩ (Or.inr ⟨hw, rfl, rfl⟩)

/-! ## C77, from IPv6 to IPv4 -/

/-- Which segments are translated. -/
theorem seg64_some (s4 d4 : BitVec 32) {n : Byte} (h : Pkt.init6 s0 = some a) (hin : s0.linear ≤ s0.data.length) (hi : a.inner = none) (hn : a.m.proto = PktSpec.proto6 n) :
    (isFirst6 s0.data a.m = true → seg64 x s4 d4 a ≠ none) ↔ (n.toNat = 58 → field s0.data a.m.l4 1 = 128 ∨ field s0.data a.m.l4 1 = 129) := by
  obtain ⟨h40, -, hfh, hc, hfr⟩ := complete6 h hin hn
  have A := Pkt.init6_ok h
  have hD := A.data
  have hic := A.icmp
  rw [first6_off hfh]
  rw [proto6_toNat] at hn
  unfold seg64
  rw [hD]
  generalize s0.data = d at *
  by_cases h6 : n.toNat = 6
  · simp [hn, h6]
  by_cases h17 : n.toNat = 17
  · simp [hn, h17]
  by_cases h1 : n.toNat = 58
  · obtain ⟨hf, hm⟩ := hfr h1
    have hn' : a.m.proto = L4.icmp := by rw [hn]; simp [h1]
    have hne : Icmp.isIcmp6Error (at8 d a.m.l4) = true → False := by
      intro q
      obtain ⟨i, hi'⟩ := (hic hn').2.2 q
      rw [hi] at hi'
      cases hi'
    have h8 := hc.echo h1
    rw [List.length_drop] at h8
    have hfd : field d a.m.l4 1 = (at8 d a.m.l4).toNat := (at8_field (by omega)).symm
    simp only [hn', hf, h1, hfd, true_implies, at8_drop, Nat.add_zero, ne_eq, Option.map_eq_none_iff]
    constructor
    · intro q
      cases hx : Icmp.xlat64Type (at8 d a.m.l4) (at8 d (a.m.l4 + 1)) with
      | none => exact absurd hx q
      | some t =>
        rcases (echo_types64 hx hne).2 with ⟨q, -⟩ | ⟨q, -⟩
        · exact Or.inl (by rw [q]; rfl)
        · exact Or.inr (by rw [q]; rfl)
    · rintro q hx
      rcases q with q | q
      · rw [show at8 d a.m.l4 = 128#8 from BitVec.eq_of_toNat_eq q] at hx; cases hx
      · rw [show at8 d a.m.l4 = 129#8 from BitVec.eq_of_toNat_eq q] at hx; cases hx
  · simp [hn, h6, h17, h1]

/-- **C77.** Whatever an accepted IPv6 packet is, the translation touches no memory outside of the packets; and if something leaves, it is the IPv4 packet that
RFC 7915 describes. Missing: ICMP errors; TCP headers that claim to be shorter than 20 bytes (`Jool.Pkt.reads6_tcp`); the TOS on kernels 6.18 and newer
(`Jool.Hdr.tos64_ecn`); and payloads that are ICMPv4, which `compute_flowix64` takes for ICMPv6. -/
theorem packet64_partial (s4 d4 : BitVec 32) (segleft : Option Nat) (h : Pkt.init6 s0 = some a) (hin : s0.linear ≤ s0.data.length) (hh : Holds p a)
    (htcp : a.m.proto = L4.tcp → offAt s0.data (fhOf a.m) = 0 → 5 ≤ field s0.data (a.m.l4 + 12) 1 / 16) (hi : a.inner = none) (hlen : s0.data.length - a.m.l4 ≤ 65515)
    (h1 : ∀ fh l, ¬ Headers s0.data 40 (next6 s0.data) fh l 1) : ∃ n r, Headers s0.data 40 (next6 s0.data) (fhOf a.m) a.m.l4 n ∧ translate64 x s4 d4 segleft p a = .ok r ∧
      (r ≠ none ↔ Leaves64 segleft s0.data a.m.l4 n) ∧ ∀ o, r = some o → Sent64 x s4 d4 s0.data (fhOf a.m) a.m.l4 n o := by
  have A := Pkt.init6_ok h
  have hD := A.data
  have h40 : 40 ≤ a.skb.data.length := by have := A.len; rw [hD]; omega
  obtain ⟨n, hH, hC, hP⟩ := headers6 h h40
  obtain ⟨-, hl6, hfh, hc, hfr⟩ := complete6 h hin hP
  obtain ⟨h40', hm1, hm2, -, -⟩ := Pkt.summarize6_meta A.sum
  obtain ⟨n', r, c1, c2, c3, hlv, hs⟩ := sent64 (x := x) s4 d4 segleft h hh (by
    intro hf hp
    rw [hD, first6_off hfh] at hf
    have h1 := htcp hp hf
    have h6 : n.toNat = 6 := by
      rw [hP, proto6_toNat] at hp
      by_cases q : n.toNat = 6
      · exact q
      · rw [if_neg q] at hp
        split at hp
        · cases hp
        · split at hp <;> cases hp
    obtain ⟨e1, e2⟩ := hc.tcp hf h6
    rw [List.length_drop] at e1
    unfold tcpLen
    rw [hD, at8_field (by omega)]
    omega) hi
  obtain ⟨-, rfl⟩ := Pkt.chain_unique hC c1
  rw [hD] at hH
  refine ⟨n.toNat, r, hH, c3, ?_, ?_⟩
  · rw [hlv, hD, seg64_some s4 d4 h hin hi hP, (read6 (by rw [← hD]; exact h40)).2.1]
    exact ⟨fun ⟨q1, q2, q3⟩ => ⟨q1, q2, q3⟩, fun ⟨q1, q2, q3⟩ => ⟨q1, q2, q3⟩⟩
  intro o ho
  obtain ⟨h4, seg, sm, k1, k2, k3, k4⟩ := hs o ho
  obtain ⟨g1, g2⟩ := segment64_of (out := if isFirst6 a.skb.data a.m = true then finished x.K sm a.m.proto seg else seg) h hin hi hP k2 rfl
  rw [hD] at g1 g2 k1 k3 k4 h40
  have hol : (if isFirst6 s0.data a.m = true then finished x.K sm a.m.proto seg else seg).length = seg.length := by
    rw [(segment_complete g1 hc (fun q => (hfr q).1)).1, List.length_drop, k3]
  generalize hr' : (if isFirst6 s0.data a.m = true then finished x.K sm a.m.proto seg else seg) = out at *
  rw [← hol] at k3
  have hb := bytes4_length x.K h4
  have hdi : (dfIn x a).len = 20 + out.length := by
    unfold dfIn
    simp only
    rw [hD, k3]
  have hdrop : o.drop 20 = out := by rw [k4, List.drop_left' hb]
  have hol' : o.length = 20 + out.length := by rw [k4, List.length_append, hb]
  obtain ⟨q1, q2, q3, q4⟩ := read6 h40
  refine ⟨?_, by rw [hol', k3], ?_, by rw [hdrop]; exact g1, ?_⟩
  · rw [k4]
    exact (header64_of h40 k1 hfh hdi (by omega)).1
  · intro hn i2 i3
    have hf0 : a.m.fh = 0 := by
      unfold fhOf at hn
      by_cases q : a.m.fh = 0
      · exact q
      · rw [if_neg q] at hn; cases hn
    rw [if_pos hf0] at k1
    have hfo : h4.fragOff = Hdr.fragOff64 none (dfIn x a) := by
      unfold Hdr.ext64 at k1
      split at k1
      · cases k1
      · split at k1
        · cases k1
        · cases k1; rfl
    obtain ⟨-, -, -, -, -, -, -, e8, -⟩ := fields4 x.K h4 out
    rw [← k4, hfo] at e8
    rw [e8, (Hdr.nofrag64 (dfIn x a) 0).2.2.2.2 rfl i2 i3, hdi, hol']
  · rw [hdrop, ← q3, ← q4, BitVec.ofNat_toNat, BitVec.ofNat_toNat, BitVec.setWidth_eq, BitVec.setWidth_eq]
    exact g2

/-- **C77.** Another translator accepts it. Missing: IPv6 packets whose payload is ICMPv4. -/
theorem accepted64_partial {s4 d4 : BitVec 32} {o : List Byte} {n : Nat} (h : Pkt.init6 s0 = some a) (hin : s0.linear ≤ s0.data.length)
    (hH : Headers s0.data 40 (next6 s0.data) (fhOf a.m) a.m.l4 n) (hs : Sent64 x s4 d4 s0.data (fhOf a.m) a.m.l4 n o) (h1 : n ≠ 1) (lin : Nat) :
    ∃ a', Pkt.init4 ⟨o, lin⟩ = some a' ∧ a'.inner = none := by
  have A := Pkt.init6_ok h
  have h40 : 40 ≤ a.skb.data.length := by have := A.len; rw [A.data]; omega
  obtain ⟨n', hH', hC, hP⟩ := headers6 h h40
  rw [A.data] at hH'
  obtain ⟨-, -, rfl⟩ := headers_unique hH hH'
  obtain ⟨-, -, hfh, hc, hfr⟩ := complete6 h hin hP
  obtain ⟨b, size, -, sg, -⟩ := hs
  generalize s0.data = d at *
  obtain ⟨k1, k2, k3⟩ := segment_complete sg hc (fun q => (hfr q).1)
  have hl : l4 o = 20 := by unfold l4; rw [b.words]
  refine accept4 lin (by omega) (by omega) ?_ ?_
  · rw [hl, b.proto, b.off]
    refine ⟨fun hf q => k2.tcp hf ?_, fun hf q => k2.udp hf ?_, fun q => k2.echo ?_⟩
    all_goals
      unfold to4 at q
      split at q <;> omega
  · rw [hl, b.proto, b.off, b.more]
    intro q
    have h58 : n'.toNat = 58 := by
      unfold to4 at q
      split at q
      · assumption
      · exact absurd q h1
    refine ⟨(hfr h58).1, (hfr h58).2, ?_⟩
    have := k3 h58 (by omega) (by omega)
    rw [field_drop] at this
    exact this

end

/-! ## C78: there and back -/

theorem Only.trans {k : Nat} {A B C : List Byte} (h1 : Only k A B) (h2 : Only k B C) : Only k A C :=
  ⟨h2.1.trans h1.1, fun i q1 q2 => (h2.2 i q1 q2).trans (h1.2 i q1 q2)⟩

theorem echoed_get {t : Byte} {seg : List Byte} (h : 8 ≤ seg.length) (i : Nat) :
    (echoed t none seg)[i]? = if i = 0 then some t else if i = 1 then some 0#8 else seg[i]? := by
  match seg, h with
  | b0 :: b1 :: b2 :: b3 :: b4 :: b5 :: r, _ =>
    have e : echoed t none (b0 :: b1 :: b2 :: b3 :: b4 :: b5 :: r) = t :: 0#8 :: b2 :: b3 :: b4 :: b5 :: r := rfl
    rw [e]
    match i with
    | 0 => rfl
    | 1 => rfl
    | i + 2 => simp

theorem echoed_twice {t u : Byte} {seg mid out : List Byte} (h : 8 ≤ seg.length) (h1 : Only 2 (echoed t none seg) mid) (h2 : Only 2 (echoed u none mid) out) :
    Only 2 (echoed u none seg) out := by
  have hl : mid.length = seg.length := by rw [h1.1, echoed_length _ _ h]
  refine ⟨by rw [h2.1, echoed_length _ _ (by omega), echoed_length _ _ h, hl], ?_⟩
  intro i q1 q2
  rw [h2.2 i q1 q2, echoed_get (by omega), echoed_get h]
  by_cases h0 : i = 0
  · rw [if_pos h0, if_pos h0]
  · rw [if_neg h0, if_neg h0]
    by_cases h1' : i = 1
    · rw [if_pos h1', if_pos h1']
    · rw [if_neg h1', if_neg h1', h1.2 i q1 q2, echoed_get h, if_neg h0, if_neg h1']

section

variable {x y : Ctx} {a : Acc} {s0 : Pkt.Skb} {p : Build.P}

/-- **C78.** An IPv4 packet that one translator sends through IPv6 and another one brings back (464XLAT, two SIITs) is the packet it was, except for two hops, options,
the DF bit and the identification of packets that are not fragments. Missing: ICMP errors, splits, and the configurations that do not keep the TOS. -/
theorem back_partial {s6 d6 : BitVec 128} {s4 d4 : BitVec 32} {m : List Byte} (h : Pkt.init4 s0 = some a) (hin : s0.linear ≤ s0.data.length) (hh : Holds p a)
    (hihl : 5 ≤ words4 s0.data) (htcp : off4 s0.data = 0 → proto4 s0.data = 6 → 5 ≤ field s0.data (l4 s0.data + 12) 1 / 16) (hi : a.inner = none)
    (hlen : s0.data.length < 65536) (hn : proto4 s0.data ∉ [0, 43, 44, 58, 60]) (hs4 : s4.toNat = src4 s0.data) (hd4 : d4.toNat = dst4 s0.data)
    (hx : x.ports = none ∧ x.id = none ∧ x.hairpin = false ∧ x.cfg.resetTc = false) (hy : y.ports = none ∧ y.id = none ∧ y.cfg.resetTos = false ∧ y.cfg.dscp = false)
    (ht : translate46 x s6 d6 p a = .ok (some m)) {lin : Nat} (hlin : lin ≤ m.length) :
    ∃ a', Pkt.init6 ⟨m, lin⟩ = some a' ∧ ∀ p' segleft, Holds p' a' → ∃ r, translate64 y s4 d4 segleft p' a' = .ok r ∧
      (r ≠ none ↔ segleft = none ∧ 3 ≤ ttl4 s0.data) ∧ ∀ o, r = some o → Back s0.data o ∧ (x.sm ≠ .partial_ → y.sm ≠ .partial_ → BackSums s4 d4 s0.data o) := by
  obtain ⟨r, hr, -, hsent⟩ := packet46_partial (x := x) s6 d6 h hin hh hihl htcp hi hlen (by simp only [List.mem_cons, not_or] at hn; exact hn.2.2.2.1)
  rw [ht] at hr
  cases hr
  have S := hsent m rfl
  obtain ⟨a', ha', hi', hl', hp'⟩ := accepted46_partial h hin S hn lin
  refine ⟨a', ha', ?_⟩
  intro p' segleft hh'
  obtain ⟨h20, hl, hc, hfr⟩ := complete4 h hin
  have hl20 : 20 ≤ l4 s0.data := by unfold l4; omega
  obtain ⟨k1, k2, k3⟩ := segment_complete S.seg hc (fun q => (hfr q).1)
  obtain ⟨x1, x2, x3, x4⟩ := hx
  obtain ⟨y1, y2, y3, y4⟩ := hy
  obtain ⟨b, size, sg, sums⟩ := S
  rw [x1, x2] at sg
  rw [x3, x4] at b
  have hsl : (s0.data.drop (l4 s0.data)).length = s0.data.length - l4 s0.data := List.length_drop
  -- what the second translator finds in the packet
  have hfnd : ∃ n, Headers m 40 (next6 m) (fhOf a'.m) a'.m.l4 n ∧ n = to6 (proto4 s0.data) ∧ offAt m (fhOf a'.m) = off4 s0.data ∧ moreAt m (fhOf a'.m) = mf4 s0.data ∧
      (¬ (off4 s0.data = 0 ∧ mf4 s0.data = 0) → fhOf a'.m = some 40) := by
    have A := Pkt.init6_ok ha'
    have h40 : 40 ≤ a'.skb.data.length := by
      have := b.len
      rw [A.data]
      show 40 ≤ m.length
      omega
    obtain ⟨n, hH, -, -⟩ := headers6 ha' h40
    rw [A.data] at hH
    simp only [List.mem_cons, List.not_mem_nil, or_false, not_or] at hn
    have hto : to6 (proto4 s0.data) ∉ [0, 43, 44, 60] := by
      simp only [List.mem_cons, List.not_mem_nil, or_false]
      unfold to6
      split <;> omega
    by_cases hw : off4 s0.data = 0 ∧ mf4 s0.data = 0
    · have hnx := b.whole hw.1 hw.2
      have hL := Headers.last (d := m) (off := 40) hto
      rw [← hnx] at hL
      obtain ⟨e1, e2, e3⟩ := headers_unique hH hL
      refine ⟨_, hH, by rw [e3, hnx], ?_, ?_, fun q => absurd hw q⟩
      · rw [e1, hw.1]; rfl
      · rw [e1, hw.2]; rfl
    · obtain ⟨g1, g2, g3, g4, g5, g6, g7⟩ := b.piece hw
      have hL := Headers.frag (d := m) (off := 40) (by rw [← g2] at hto; exact hto)
      rw [← g1] at hL
      obtain ⟨e1, e2, e3⟩ := headers_unique hH hL
      refine ⟨_, hH, by rw [e3]; exact g2, ?_, ?_, fun _ => e1⟩
      · rw [e1]; exact g5
      · rw [e1]; exact g6
  obtain ⟨n, hH, hnn, ho', hm', hfh'⟩ := hfnd
  obtain ⟨n2, r, hH2, hr2, hlv2, hS2⟩ := packet64_partial (x := y) (s0 := ⟨m, lin⟩) s4 d4 segleft ha' hlin hh' (by
    intro hp hf
    have hf' : off4 s0.data = 0 := by rw [← ho']; exact hf
    have h6 : proto4 s0.data = 6 := by
      rw [hp', (Pkt.init4_ok h).proto, proto4_of h20] at hp
      by_cases q : proto4 s0.data = 6
      · exact q
      · rw [if_neg q] at hp
        split at hp
        · cases hp
        · split at hp <;> cases hp
    show 5 ≤ field m (a'.m.l4 + 12) 1 / 16
    rw [hl', ← field_drop, only_field (sg.tcp hf' h6) (by omega)]
    show 5 ≤ field (s0.data.drop (l4 s0.data)) 12 1 / 16
    rw [field_drop]
    exact htcp hf' h6) hi' (by
    show m.length - _ ≤ 65515
    rw [hl']
    omega) (by
    intro fh l q
    obtain ⟨-, -, e⟩ := headers_unique hH q
    rw [hnn] at e
    unfold to6 at e
    split at e
    · omega
    · exact absurd e (by assumption))
  obtain ⟨-, -, rfl⟩ := headers_unique hH hH2
  refine ⟨r, hr2, ?_, ?_⟩
  · rw [hlv2]
    have hhop := b.hop
    constructor
    · rintro ⟨q1, q2, -⟩
      have q2 : 2 ≤ hop6 m := q2
      simp at hhop
      exact ⟨q1, by omega⟩
    · rintro ⟨q1, q2⟩
      refine ⟨q1, ?_, ?_⟩
      · show 2 ≤ hop6 m
        simp at hhop
        omega
      · intro q3
        rw [hnn] at q3
        have h1 : proto4 s0.data = 1 := by
          unfold to6 at q3
          split at q3
          · assumption
          · exact absurd q3 (by simp only [List.mem_cons, not_or] at hn; exact hn.2.2.2.1)
        have := k3 h1 (by omega) (by omega)
        rw [field_drop, Nat.add_zero] at this
        show field m a'.m.l4 1 = 128 ∨ field m a'.m.l4 1 = 129
        rw [hl']
        rcases this with q | q <;> rw [q] <;> decide
  intro o ho
  obtain ⟨b2, size2, -, sg2, sums2⟩ := hS2 o ho
  rw [y4] at b2
  rw [y1, y2] at sg2
  simp only [ho', hl', hnn] at b2 sg2 sums2 size2
  simp only [List.mem_cons, List.not_mem_nil, or_false, not_or] at hn
  have h58 : proto4 s0.data ≠ 58 := hn.2.2.2.1
  have hseg : ∀ q : proto4 s0.data = 1, Only 2 (echoed (BitVec.ofNat 8 (field s0.data (l4 s0.data) 1)) none (s0.data.drop (l4 s0.data))) (o.drop 20) := by
    intro q
    obtain ⟨t, e1, e2⟩ := sg.echo (hfr q).1 q
    obtain ⟨u, e3, e4⟩ := sg2.echo (hfr q).1 (by unfold to6; rw [if_pos q])
    have e5 : field (m.drop (l6 s0.data)) 0 1 = t.toNat := by
      rw [only_field e2 (by omega), ← value1]; rfl
    rw [e5] at e3
    have h8 := hc.echo q
    have e6 : field (s0.data.drop (l4 s0.data)) 0 1 = field s0.data (l4 s0.data) 1 := by rw [field_drop, Nat.add_zero]
    rw [e6] at e1
    have : BitVec.ofNat 8 (field s0.data (l4 s0.data) 1) = u := by
      rcases e1 with ⟨i1, rfl⟩ | ⟨i1, rfl⟩
      · rcases e3 with ⟨i2, rfl⟩ | ⟨i2, rfl⟩
        · rw [i1]
        · exact absurd i2 (by decide)
      · rcases e3 with ⟨i2, rfl⟩ | ⟨i2, rfl⟩
        · exact absurd i2 (by decide)
        · rw [i1]
    rw [this]
    exact echoed_twice h8 e2 e4
  have hto6 : proto4 s0.data ≠ 1 → to6 (proto4 s0.data) = proto4 s0.data := fun q => by unfold to6; rw [if_neg q]
  have hsub : off4 s0.data ≠ 0 → o.drop 20 = s0.data.drop (l4 s0.data) := fun q => (sg2.subsequent q).trans (sg.subsequent q)
  have hb : Back s0.data o := by
    refine ⟨b2.version, b2.words, ?_, b2.len, ?_, b2.off.trans ho', by rw [b2.more, hm'], ?_, ?_, b2.alive, ?_, by rw [b2.src, hs4], by rw [b2.dst, hd4], b2.sum, ?_, ?_, ?_, hseg⟩
    · have e1 := b2.tos
      have e2 := b.cls
      unfold tosOf at e1
      rw [y3] at e1
      simp only [Bool.false_eq_true, if_false, Nat.add_zero] at e1 e2
      rw [e1, e2]
    · rw [size2, size]
      omega
    · intro q
      rw [b2.ident 40 (hfh' q), (b.piece q).2.2.2.2.2.2]
      apply Nat.mod_eq_of_lt
      unfold id4
      rw [field2 _ (by omega)]
      unfold at16
      have i1 := (at8 s0.data 4).isLt
      have i2 := (at8 s0.data (4 + 1)).isLt
      omega
    · have e1 := b2.ttl
      have e2 := b.hop
      simp only [Bool.false_eq_true, if_false] at e2
      omega
    · rw [b2.proto]
      unfold to4 to6
      by_cases q : proto4 s0.data = 1
      · rw [if_pos q, q]; rfl
      · rw [if_neg q, if_neg h58]
    · intro q
      by_cases hf : off4 s0.data = 0
      · have q' : proto4 s0.data ∉ [1, 6, 17] := by
          rcases q with q | q
          · exact absurd hf q
          · exact q
        simp only [List.mem_cons, List.not_mem_nil, or_false, not_or] at q'
        obtain ⟨q1, q6, q17⟩ := q'
        rw [hto6 q1] at sg2
        exact (sg2.other q6 q17 h58).trans (sg.other q6 q17 q1)
      · exact hsub hf
    · intro q
      by_cases hf : off4 s0.data = 0
      · rw [hto6 (by omega)] at sg2
        exact Only.trans (sg.tcp hf q) (sg2.tcp hf q)
      · rw [hsub hf]; exact ⟨rfl, fun _ _ _ => rfl⟩
    · intro q
      by_cases hf : off4 s0.data = 0
      · rw [hto6 (by omega)] at sg2
        exact Only.trans (sg.udp hf q) (sg2.udp hf q)
      · rw [hsub hf]; exact ⟨rfl, fun _ _ _ => rfl⟩
  refine ⟨hb, ?_⟩
  intro sx sy
  have as4 : BitVec.ofNat 32 (src4 s0.data) = s4 := by rw [← hs4, BitVec.ofNat_toNat, BitVec.setWidth_eq]
  have ad4 : BitVec.ofNat 32 (dst4 s0.data) = d4 := by rw [← hd4, BitVec.ofNat_toNat, BitVec.setWidth_eq]
  have as6 : BitVec.ofNat 128 (src6 m) = s6 := by rw [b.src, BitVec.ofNat_toNat, BitVec.setWidth_eq]
  have ad6 : BitVec.ofNat 128 (dst6 m) = d6 := by rw [b.dst, BitVec.ofNat_toNat, BitVec.setWidth_eq]
  rw [as4, ad4] at sums
  rw [as6, ad6] at sums2
  refine ⟨?_, ?_, ?_, ?_⟩
  · intro hf q extra len hlen'
    rw [hto6 (by omega)] at sums2
    exact (sums2.tcp hf q sy extra len hlen').trans (sums.tcp hf q sx extra len hlen')
  · intro hf q hz extra len hlen'
    rw [hto6 (by omega)] at sums2
    exact (sums2.udp hf q sy extra len hlen').trans (sums.udp hf q sx (by rw [field_drop]; exact hz) extra len hlen')
  · intro hf q
    rw [hto6 (by omega)] at sums2
    have := sums2.udpSome hf q sy
    rw [field_drop] at this
    exact this
  · intro q z1 z2
    have e58 : to6 (proto4 s0.data) = 58 := by unfold to6; rw [if_pos q]
    rw [e58] at sums2
    exact (sums2.echo (hfr q).1 rfl z2).trans (sums.echo (hfr q).1 q z1)

end

end Jool.Wire
