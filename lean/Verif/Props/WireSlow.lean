import Verif.Model.WireSlow
import Verif.Props.Wire
/-
C88: IPv4 packets that do not fit. Everything is said about bytes: those of the packet that arrives and those of the packets that leave.
-/
namespace Jool.WireSpec
open Jool.Pkt (Byte L4)

/-- One of the IPv6 packets that an IPv4 packet `d` is split in (RFC 7915 section 4.1, RFC 8200 section 4.5). `before`: how much of the segment is in the previous ones. -/
structure Piece46 (resetTc hairpin : Bool) (s d' : BitVec 128) (mpl : Nat) (d : List Byte) (before : Nat) (last : Prop) (o : List Byte) : Prop where
  version : ver o = 6
  cls : class6 o = if resetTc then 0 else tos4 d
  flow : flow6 o = 0
  len : 40 + len6 o = o.length
  hop : hop6 o + (if hairpin then 0 else 1) = ttl4 d
  alive : hairpin = false → 1 ≤ hop6 o
  src : src6 o = s.toNat
  dst : dst6 o = d'.toNat
  next : next6 o = 44
  proto : fnext o 40 = to6 (proto4 d)
  reserved : freserved o 40 = 0
  res : fres o 40 = 0
  off : foff o 40 * 8 = off4 d * 8 + before
  inner : ¬ last → fmore o 40 = 1
  outer : last → fmore o 40 = mf4 d
  ident : fid o 40 = id4 d
  some_ : 48 < o.length
  fits : o.length ≤ mpl
  full : ¬ last → mpl < o.length + 8

/-- All of them, in order. -/
def Pieces46 (resetTc hairpin : Bool) (s d' : BitVec 128) (mpl : Nat) (d : List Byte) : Nat → List (List Byte) → Prop
  | _, [] => True
  | n, o :: os => Piece46 resetTc hairpin s d' mpl d n (os = []) o ∧ Pieces46 resetTc hairpin s d' mpl d (n + (o.length - 48)) os

/-- What the receiver gets when it puts the pieces together. -/
def joined (os : List (List Byte)) : List Byte := (os.map (fun o => o.drop 48)).flatten

/-- The datagram has no checksum. -/
def Bare (d : List Byte) : Prop := off4 d = 0 ∧ proto4 d = 17 ∧ field d (l4 d + 6) 2 = 0

/-- An IPv4 packet `d` that leaves as several IPv6 packets. If it is a datagram without checksum, the one that it gets is that of the first piece. -/
structure Split46 (x : Wire.Ctx) (s6 d6 : BitVec 128) (mpl : Nat) (d : List Byte) (os : List (List Byte)) : Prop where
  several : 2 ≤ os.length
  pieces : Pieces46 x.cfg.resetTc x.hairpin s6 d6 mpl d 0 os
  size : (joined os).length = d.length - l4 d
  seg : Segment x.ports x.id 8 0 128#8 129#8 (off4 d = 0) (proto4 d) 1 (d.drop (l4 d)) (joined os)
  sums : ¬ Bare d → Sums46 x.sm (BitVec.ofNat 32 (src4 d)) (BitVec.ofNat 32 (dst4 d)) s6 d6 (off4 d = 0) (proto4 d) (d.drop (l4 d)) (joined os)
  bare : Bare d → ∀ o, os.head? = some o → CsumSpec.Valid (CsumSpec.ph6 s6 d6 (o.drop 48).length 17#8 ++ o.drop 48)

end Jool.WireSpec

namespace Jool.Wire
open Jool.Pkt (Byte L4 Meta Acc at8 at16 first4 fragmented4 ihl4 isFirst6 tcpLen)
open Jool.Csum (Kernel Summed put setPorts store)
open Jool.Build (Holds behind fragments two ipv6)
open Jool.WireSpec

set_option linter.unusedVariables false

/-! ## A segment in two parts -/

theorem put_append {l : List Byte} {k : Nat} {ck : List Byte} (h : k + 2 ≤ l.length) (r : List Byte) : put l k ck ++ r = put (l ++ r) k ck := by
  unfold put
  rw [List.take_append_of_le_length (by omega), List.drop_append_of_le_length h, List.append_assoc]

theorem setPorts_append (ports : Option (BitVec 16 × BitVec 16)) {l : List Byte} (h : 4 ≤ l.length) (r : List Byte) : setPorts ports l ++ r = setPorts ports (l ++ r) := by
  unfold setPorts
  cases ports with
  | none => rfl
  | some q => simp only; rw [List.drop_append_of_le_length h, List.append_assoc]

theorem tcp46_puts (K : Kernel) (sm : Summed) (ports : Option (BitVec 16 × BitVec 16)) (s4 d4 : BitVec 32) (seg : List Byte) (more : List (List Byte)) (s6 d6 : BitVec 128) :
    ∃ ck, ck.length = 2 ∧ (Csum.tcp46 K sm ports s4 d4 seg more s6 d6).seg = put (setPorts ports seg) 16 ck := by
  unfold Csum.tcp46
  split
  · exact ⟨_, Csum.store_length _ _, rfl⟩
  · split
    · exact ⟨_, Csum.store_length _ _, rfl⟩
    · exact ⟨_, Csum.store_length _ _, rfl⟩

theorem udp46_puts {K : Kernel} {sm : Summed} {n m a : Bool} {ports : Option (BitVec 16 × BitVec 16)} {s4 d4 : BitVec 32} {seg : List Byte} {more : List (List Byte)} {s6 d6 : BitVec 128}
    {o : Csum.Out} (h : Csum.udp46 K sm n m a ports s4 d4 seg more s6 d6 = some o) : ∃ ck, ck.length = 2 ∧ o.seg = put (setPorts ports seg) 6 ck := by
  unfold Csum.udp46 at h
  split at h
  · split at h
    · cases h
      exact ⟨_, Csum.store_length _ _, rfl⟩
    · cases h
  · split at h
    · cases h
      exact ⟨_, Csum.store_length _ _, rfl⟩
    · split at h
      · cases h
        exact ⟨_, Csum.store_length _ _, rfl⟩
      · cases h
        exact ⟨_, Csum.store_length _ _, rfl⟩

theorem load_take {le : Bool} {l : List Byte} {k per : Nat} (h : k + 2 ≤ per) : Csum.load le (l.take per) k = Csum.load le l k := by
  unfold Csum.load
  simp only [List.getD_eq_getElem?_getD]
  rw [List.getElem?_take_of_lt (by omega), List.getElem?_take_of_lt (by omega)]

/-- A datagram is dropped because of its checksum, whether it is split or not. -/
theorem udp46_none (K : Kernel) (sm : Summed) (n m a : Bool) (ports : Option (BitVec 16 × BitVec 16)) (s4 d4 : BitVec 32) (seg seg' : List Byte) (more more' : List (List Byte))
    (s6 d6 : BitVec 128) (h : Csum.load K.le seg 6 = Csum.load K.le seg' 6) :
    Csum.udp46 K sm n m a ports s4 d4 seg more s6 d6 = none ↔ Csum.udp46 K sm n m a ports s4 d4 seg' more' s6 d6 = none := by
  have key : ∀ (s : List Byte) (w : List (List Byte)), Csum.udp46 K sm n m a ports s4 d4 s w s6 d6 = none ↔ Csum.load K.le s 6 = 0#16 ∧ ¬ Csum.canCompute n m a = true := by
    intro s w
    unfold Csum.udp46
    simp only
    by_cases hz : Csum.load K.le s Csum.udp.off = 0#16
    · rw [if_pos hz]
      by_cases hc : Csum.canCompute n m a = true
      · rw [if_pos hc]
        exact ⟨nofun, fun q => absurd hc q.2⟩
      · rw [if_neg hc]
        exact ⟨fun _ => ⟨hz, hc⟩, fun _ => rfl⟩
    · rw [if_neg hz]
      constructor
      · intro q
        split at q
        · cases q
        · split at q <;> cases q
      · exact fun q => absurd q.1 hz
  rw [key, key, h]

section

variable {x : Ctx} {a : Acc} {s0 : Pkt.Skb} {p : Build.P}

theorem segSlow46_none (s6 d6 : BitVec 128) {per : Nat} (h8 : 8 ≤ per) : segSlow46 x s6 d6 per a = none ↔ seg46 x s6 d6 a = none := by
  unfold segSlow46 seg46
  simp only
  cases a.m.proto with
  | tcp => simp
  | udp =>
    simp only [Option.map_eq_none_iff]
    exact udp46_none _ _ _ _ _ _ _ _ _ _ _ _ _ _ (load_take (by omega))
  | icmp => simp only [Option.map_eq_none_iff]
  | other => simp

/-- What is written in the first piece. -/
theorem behindSlow46 {s6 d6 : BitVec 128} {seg : List Byte} {sm : Summed} {l3 : Option (List Byte) → List Byte} {fr : List Byte} {per : Nat} (hper : 60 ≤ per)
    (hbig : per < a.skb.data.length - a.m.l4) (hd : Pkt.HdrEnd a.skb.data a.m (first4 a.skb.data 0))
    (htcp : first4 a.skb.data 0 = true → a.m.proto = L4.tcp → 20 ≤ tcpLen a.skb.data a.m.l4) (hp : a.m.pay ≤ a.skb.data.length)
    (hs : (if first4 a.skb.data 0 = true then segSlow46 x s6 d6 per a else some (a.skb.data.drop a.m.l4, Summed.none)) = some (seg, sm)) :
    behind (vals x l3 fr seg) (first4 a.skb.data 0) a.skb.data a.m = seg := by
  by_cases hf : first4 a.skb.data 0 = true
  · rw [if_pos hf] at hs
    rw [hf] at hd ⊢
    unfold Pkt.HdrEnd at hd
    simp only [if_true] at hd
    have hsl : (a.skb.data.drop a.m.l4).length = a.skb.data.length - a.m.l4 := List.length_drop
    have htl : ((a.skb.data.drop a.m.l4).take per).length = per := by rw [List.length_take]; omega
    have htd : (a.skb.data.drop a.m.l4).take per ++ (a.skb.data.drop a.m.l4).drop per = a.skb.data.drop a.m.l4 := List.take_append_drop _ _
    cases hpr : a.m.proto <;> rw [hpr] at hd <;> unfold segSlow46 at hs <;> simp only [hpr] at hs hd
    · have h20 := htcp hf hpr
      obtain ⟨ck, h1, h2⟩ := tcp46_puts x.K x.sm x.ports (ip4 a.skb.data).src (ip4 a.skb.data).dst ((a.skb.data.drop a.m.l4).take per)
        (Hdr.chunks per ((a.skb.data.drop a.m.l4).drop per)) s6 d6
      cases hs
      refine behind_first (by omega) ?_
      rw [hpr]
      refine transport_tcp (by omega) (by omega) h1 ?_
      rw [h2, put_append (by rw [Csum.setPorts_length _ (by omega)]; omega), setPorts_append _ (by omega), htd]
    · cases hu : Csum.udp46 x.K x.sm x.nat64 (Hdr.mf4 (ip4 a.skb.data)) x.amend x.ports (ip4 a.skb.data).src (ip4 a.skb.data).dst ((a.skb.data.drop a.m.l4).take per)
        (Hdr.chunks per ((a.skb.data.drop a.m.l4).drop per)) s6 d6 with
      | none => rw [hu] at hs; cases hs
      | some o =>
        rw [hu] at hs
        cases hs
        obtain ⟨ck, h1, h2⟩ := udp46_puts hu
        refine behind_first (by omega) ?_
        rw [hpr]
        refine transport_udp (by omega) (by omega) h1 ?_
        rw [h2, put_append (by rw [Csum.setPorts_length _ (by omega)]; omega), setPorts_append _ (by omega), htd]
    · cases hu : Icmp.xlat46Type (at8 (a.skb.data.drop a.m.l4) 0) (at8 (a.skb.data.drop a.m.l4) 1) with
      | none => rw [hu] at hs; cases hs
      | some t =>
        rw [hu] at hs
        cases hs
        refine behind_first (by omega) ?_
        rw [hpr]
        have : a.m.pay - a.m.l4 = 8 := by omega
        rw [this]
        exact transport_icmp (by omega) (Csum.store_length _ _) rfl
    · cases hs
      refine behind_first (by omega) ?_
      rw [hpr]
      have : a.m.pay - a.m.l4 = 0 := by omega
      rw [this]
      rfl
  · rw [if_neg hf] at hs
    have hf' : first4 a.skb.data 0 = false := by simpa using hf
    rw [hf'] at hd ⊢
    cases hs
    unfold Pkt.HdrEnd at hd
    simp only [Bool.false_eq_true, if_false] at hd
    unfold behind
    simp [hd]

/-- The segment of all the pieces. -/
theorem segmentSlow46 {s6 d6 : BitVec 128} {seg out : List Byte} {sm : Summed} {per : Nat} (hper : 60 ≤ per) (h8 : per % 8 = 0) (hbig : per < a.skb.data.length - a.m.l4)
    (hd20 : 20 ≤ a.skb.data.length)
    (hd : Pkt.HdrEnd a.skb.data a.m (first4 a.skb.data 0)) (hpay : a.m.pay ≤ a.skb.data.length) (hl : a.m.l4 = ihl4 a.skb.data 0) (hpr : a.m.proto = PktSpec.proto4 (at8 a.skb.data 9))
    (hne : a.m.proto = L4.icmp → Icmp.isIcmp4Error (at8 a.skb.data a.m.l4) = true → False)
    (hlen : a.skb.data.length < 65536)
    (hs : (if first4 a.skb.data 0 = true then segSlow46 x s6 d6 per a else some (a.skb.data.drop a.m.l4, Summed.none)) = some (seg, sm))
    (ho : out = (if first4 a.skb.data 0 = true then finished x.K sm a.m.proto (seg.take per) else seg.take per) ++ seg.drop per) :
    Segment x.ports x.id 8 0 128#8 129#8 (off4 a.skb.data = 0) (proto4 a.skb.data) 1 (a.skb.data.drop (l4 a.skb.data)) out ∧
    (¬ Bare a.skb.data →
      Sums46 x.sm (ip4 a.skb.data).src (ip4 a.skb.data).dst s6 d6 (off4 a.skb.data = 0) (proto4 a.skb.data) (a.skb.data.drop (l4 a.skb.data)) out) ∧
    (Bare a.skb.data → CsumSpec.Valid (CsumSpec.ph6 s6 d6 per 17#8 ++ out.take per)) := by
  rw [ihl4_words hd20] at hl
  rw [proto4_of hd20] at hpr
  rw [hl] at hs hbig
  generalize hD : a.skb.data = d at *
  have hsl : (d.drop (l4 d)).length = d.length - l4 d := List.length_drop
  have htl : ((d.drop (l4 d)).take per).length = per := by rw [List.length_take]; omega
  have htd : (d.drop (l4 d)).take per ++ (d.drop (l4 d)).drop per = d.drop (l4 d) := List.take_append_drop _ _
  have hmf : (Hdr.chunks per ((d.drop (l4 d)).drop per)).flatten = (d.drop (l4 d)).drop per := Hdr.chunks_flatten _ _
  have hmn : Hdr.chunks per ((d.drop (l4 d)).drop per) ≠ [] := by
    intro q
    rw [q] at hmf
    have := congrArg List.length hmf
    rw [List.length_drop] at this
    simp at this
    omega
  have hme : ∀ f ∈ ((d.drop (l4 d)).take per :: Hdr.chunks per ((d.drop (l4 d)).drop per)).dropLast, f.length % 2 = 0 := by
    intro f hf
    rw [List.dropLast_cons_of_ne_nil hmn] at hf
    rcases List.mem_cons.1 hf with rfl | hf
    · rw [htl]; omega
    · rw [Hdr.chunks_dropLast per _ f hf]; omega
  by_cases hf : off4 d = 0
  · have hf4 := (first4_off hd20).2 hf
    rw [if_pos hf4] at hs ho
    rw [hf4] at hd
    unfold Pkt.HdrEnd at hd
    simp only [if_true] at hd
    by_cases h6 : proto4 d = 6
    · rw [if_pos h6] at hpr
      simp only [hpr] at hd
      unfold segSlow46 at hs
      simp only [hpr, hD, hl] at hs
      rw [if_neg (fun q => hmn q.2)] at hs
      generalize hcs : Hdr.chunks per ((d.drop (l4 d)).drop per) = cs at *
      obtain ⟨ck, h1, h2⟩ := tcp46_puts x.K x.sm x.ports (ip4 d).src (ip4 d).dst ((d.drop (l4 d)).take per) cs s6 d6
      have hpl := Csum.setPorts_length x.ports (l := (d.drop (l4 d)).take per) (by omega)
      cases hs
      have hsz : (Csum.tcp46 x.K x.sm x.ports (ip4 d).src (ip4 d).dst ((d.drop (l4 d)).take per) cs s6 d6).seg.length = per := by
        rw [h2, Csum.put_length _ _ _ (by omega) h1, hpl, htl]
      have ho : out = (Csum.tcp46 x.K x.sm x.ports (ip4 d).src (ip4 d).dst ((d.drop (l4 d)).take per) cs s6 d6).seg ++ (d.drop (l4 d)).drop per := by
        rw [ho]
        unfold finished
        rw [if_neg (by decide), List.take_append_drop]
      have hO : Only 16 (ported x.ports (d.drop (l4 d))) out := by
        rw [ho, h2, put_append (by omega), setPorts_append _ (by omega), htd, ← setPorts_ported]
        exact only_put (by rw [Csum.setPorts_length _ (by omega)]; omega) h1
      have hB : ¬ Bare d := fun q => by have := q.2.1; omega
      refine ⟨⟨fun q => absurd hf q, fun q => absurd h6 q, fun _ _ => hO, fun _ q => by omega, fun _ q => by omega⟩,
        fun _ => ⟨?_, ?_, fun _ q => by omega, fun _ q => by omega, fun _ q => by omega⟩, fun q => absurd q hB⟩
      · intro _ _ hsm extra len hlen'
        have := Csum.tcp46_valid x.K hsm x.ports (ip4 d).src (ip4 d).dst (seg := (d.drop (l4 d)).take per) (by omega) cs s6 d6 ((d.drop (l4 d)).drop per ++ extra) hlen'
        rw [← List.append_assoc ((d.drop (l4 d)).take per), htd] at this
        rw [ho, List.append_assoc]
        exact this
      · intro _ _ hsm
        have e : out.length = (d.drop (l4 d)).length := by
          rw [ho, List.length_append, hsz, List.length_drop]
          omega
        have := Csum.tcp46_list_valid x.K x.ports (ip4 d).src (ip4 d).dst (seg := (d.drop (l4 d)).take per) (by omega) hmn hme (by rw [hmf, htd]; omega) s6 d6
        rw [hmf, htd] at this
        rw [e, ho, hsm]
        exact this
    · rw [if_neg h6] at hpr
      by_cases h17 : proto4 d = 17
      · rw [if_pos h17] at hpr
        simp only [hpr] at hd
        unfold segSlow46 at hs
        simp only [hpr, hD, hl] at hs
        generalize hcs : Hdr.chunks per ((d.drop (l4 d)).drop per) = cs at *
        cases hu : Csum.udp46 x.K x.sm x.nat64 (Hdr.mf4 (ip4 d)) x.amend x.ports (ip4 d).src (ip4 d).dst ((d.drop (l4 d)).take per) cs s6 d6 with
        | none => rw [hu] at hs; cases hs
        | some w =>
          rw [hu, Option.map_some] at hs
          cases hs
          obtain ⟨ck, h1, h2⟩ := udp46_puts hu
          have hpl := Csum.setPorts_length x.ports (l := (d.drop (l4 d)).take per) (by omega)
          have hsz : w.seg.length = per := by rw [h2, Csum.put_length _ _ _ (by omega) h1, hpl, htl]
          rw [hpr, List.take_left' hsz, List.drop_left' hsz] at ho
          have h8' : 8 ≤ (d.drop (l4 d)).length := by omega
          have hl0 : Csum.load x.K.le ((d.drop (l4 d)).take per) 6 = 0#16 ↔ field (d.drop (l4 d)) 6 2 = 0 := by
            rw [load_take (by omega), field_zero h8']
            exact load_zero _ (by omega)
          obtain ⟨ck', g1, g2⟩ := finished_put (K := x.K)
            (sm := if Csum.load x.K.le ((d.drop (l4 d)).take per) 6 = 0#16 ∨ x.sm = Summed.partial_ ∧ cs = [] then Summed.partial_ else Summed.none)
            (l := Csum.setPorts x.ports ((d.drop (l4 d)).take per)) (ck := ck) (k := 6) (by omega) h1 (Or.inr ⟨rfl, rfl⟩)
          have hO : Only 6 (ported x.ports (d.drop (l4 d))) out := by
            rw [ho, h2, g2, put_append (by omega), setPorts_append _ (by omega), htd, ← setPorts_ported]
            exact only_put (by rw [Csum.setPorts_length _ (by omega)]; omega) g1
          have e : out.length = (d.drop (l4 d)).length := by rw [hO.1, ← setPorts_ported, Csum.setPorts_length _ (by omega)]
          have hB : Bare d ↔ field (d.drop (l4 d)) 6 2 = 0 := by
            unfold Bare
            rw [field_drop]
            simp [hf, h17]
          refine ⟨⟨fun q => absurd hf q, fun _ q => absurd h17 q, fun _ q => by omega, fun _ _ => hO, fun _ q => by omega⟩, ?_, ?_⟩
          · intro hnb
            have hz : ¬ field (d.drop (l4 d)) 6 2 = 0 := fun q => hnb (hB.2 q)
            have hnz : ¬ Csum.load x.K.le ((d.drop (l4 d)).take per) 6 = 0#16 := fun q => hz (hl0.1 q)
            rw [if_neg (fun q => q.elim hnz (fun q => hmn q.2))] at ho
            have ho : out = w.seg ++ (d.drop (l4 d)).drop per := ho
            refine ⟨fun _ q => by omega, fun _ q => by omega, ?_, ?_, fun _ q => by omega⟩
            · intro _ _ hsm _ extra len hlen'
              have hz' : (((d.drop (l4 d)).take per).drop 6).take 2 ≠ [0#8, 0#8] := fun q => hnz ((load_zero _ (by omega)).2 q)
              obtain ⟨w', k1, k2⟩ := Csum.udp46_valid x.K hsm x.nat64 (Hdr.mf4 (ip4 d)) x.amend x.ports (ip4 d).src (ip4 d).dst (seg := (d.drop (l4 d)).take per) (by omega) hz'
                cs s6 d6 ((d.drop (l4 d)).drop per ++ extra) hlen'
              rw [hu] at k1
              cases k1
              rw [← List.append_assoc ((d.drop (l4 d)).take per), htd] at k2
              rw [ho, List.append_assoc]
              exact k2
            · intro _ _ hsm
              rcases hsm with hsm | hsm
              · obtain ⟨w', k1, k2⟩ := Csum.udp46_list_valid x.K x.nat64 (Hdr.mf4 (ip4 d)) x.amend x.ports (ip4 d).src (ip4 d).dst (seg := (d.drop (l4 d)).take per) (by omega) hnz hmn hme
                  (by rw [hmf, htd]; omega) s6 d6
                rw [← hsm, hu] at k1
                cases k1
                rw [hmf, htd] at k2
                rw [e, ho]
                exact k2
              · exact absurd hsm hz
          · intro hb
            have hz := hl0.2 (hB.1 hb)
            rw [if_pos (Or.inl hz)] at ho
            unfold Csum.udp46 at hu
            simp only at hu
            rw [if_pos (show Csum.load x.K.le ((d.drop (l4 d)).take per) Csum.udp.off = 0#16 from hz)] at hu
            split at hu
            · cases hu
              have key := Csum.partial6_valid x.K Csum.udp_ok x.ports (seg := (d.drop (l4 d)).take per) (by rw [htl]; show 8 ≤ per; omega) (by omega) s6 d6
              have hfl : (Csum.finish x.K 6 (put (setPorts x.ports ((d.drop (l4 d)).take per)) 6
                  (store x.K.le (~~~ x.K.magic6 s6 d6 ((d.drop (l4 d)).take per).length 17#8 0#32)))).length = per := by
                unfold Csum.finish
                rw [Csum.put_length _ _ _ (by rw [Csum.put_length _ _ _ (by omega) (Csum.store_length _ _)]; omega) (Csum.store_length _ _),
                  Csum.put_length _ _ _ (by omega) (Csum.store_length _ _), hpl, htl]
              have ho : out = Csum.finish x.K 6 (put (setPorts x.ports ((d.drop (l4 d)).take per)) 6
                  (store x.K.le (~~~ x.K.magic6 s6 d6 ((d.drop (l4 d)).take per).length 17#8 0#32))) ++ (d.drop (l4 d)).drop per := ho
              rw [ho, List.take_left' hfl]
              have key' : CsumSpec.Valid (CsumSpec.ph6 s6 d6 ((d.drop (l4 d)).take per).length 17#8 ++ Csum.finish x.K 6 (put (setPorts x.ports ((d.drop (l4 d)).take per)) 6
                  (store x.K.le (~~~ x.K.magic6 s6 d6 ((d.drop (l4 d)).take per).length 17#8 0#32)))) := key
              rw [htl] at key' ⊢
              exact key'
            · cases hu
      · rw [if_neg h17] at hpr
        have hB : ¬ Bare d := fun q => by have := q.2.1; omega
        have hfin : out = seg := by
          rw [ho, finished_other, List.take_append_drop]
          · rw [hpr]; split <;> decide
          · rw [hpr]; split <;> decide
        by_cases h1 : proto4 d = 1
        · rw [if_pos h1] at hpr
          simp only [hpr] at hd
          unfold segSlow46 at hs
          simp only [hpr, hD, hl] at hs
          have h8 : 8 ≤ (d.drop (l4 d)).length := by omega
          have e0 : at8 (d.drop (l4 d)) 0 = at8 d (l4 d) := by
            unfold at8
            simp [List.getD_eq_getElem?_getD]
          cases hu : Icmp.xlat46Type (at8 (d.drop (l4 d)) 0) (at8 (d.drop (l4 d)) 1) with
          | none => rw [hu] at hs; cases hs
          | some t =>
            rw [hu] at hs
            cases hs
            obtain ⟨t, c⟩ := t
            rw [e0] at hu
            obtain ⟨rfl, ht'⟩ := echo_types46 hu (by rw [← hl]; exact hne hpr)
            have eo : out = Csum.echo46 x.K t 0#8 x.id s6 d6 (d.drop (l4 d)) := hfin
            have hO : Only 2 (echoed t x.id (d.drop (l4 d))) out := by
              rw [eo]
              unfold Csum.echo46
              rw [echo_put _ _ (Csum.store_length _ _) _ h8]
              exact only_put (by rw [echoed_length _ _ h8]; omega) (Csum.store_length _ _)
            refine ⟨⟨fun q => absurd hf q, fun _ _ q => absurd h1 q, fun _ q => by omega, fun _ q => by omega, fun _ _ => ⟨t, ?_, hO⟩⟩,
              fun _ => ⟨fun _ q => by omega, fun _ q => by omega, fun _ q => by omega, fun _ q => by omega, ?_⟩, fun q => absurd q hB⟩
            · rw [← at8_field (by omega), e0]
              rcases ht' with ⟨q1, q2⟩ | ⟨q1, q2⟩
              · exact Or.inl ⟨by rw [q1]; rfl, q2⟩
              · exact Or.inr ⟨by rw [q1]; rfl, q2⟩
            · rintro _ _ ⟨b, hb, hb0⟩
              have e : out.length = (d.drop (l4 d)).length := by rw [hO.1, echoed_length _ _ h8]
              rw [e, eo, Csum.echo46_valid_partial x.K t 0#8 x.id s6 d6 h8]
              constructor
              · rintro (q | q)
                · exact q
                · exact absurd (q b hb) hb0
              · exact Or.inl
        · rw [if_neg h1] at hpr
          unfold segSlow46 at hs
          simp only [hpr, hD, hl] at hs
          cases hs
          exact ⟨⟨fun _ => hfin, fun _ _ _ => hfin, fun _ q => absurd q h6, fun _ q => absurd q h17, fun _ q => absurd q h1⟩,
            fun _ => ⟨fun _ q => absurd q h6, fun _ q => absurd q h6, fun _ q => absurd q h17, fun _ q => absurd q h17, fun _ q => absurd q h1⟩, fun q => absurd q hB⟩
  · have hf4 : ¬ first4 d 0 = true := fun q => hf ((first4_off hd20).1 q)
    rw [if_neg hf4] at hs ho
    cases hs
    rw [List.take_append_drop] at ho
    exact ⟨⟨fun _ => ho, fun _ _ _ => ho, fun q => absurd q hf, fun q => absurd q hf, fun q => absurd q hf⟩,
      fun _ => ⟨fun q => absurd q hf, fun q => absurd q hf, fun q => absurd q hf, fun q => absurd q hf, fun q => absurd q hf⟩, fun q => absurd q.1 hf⟩

end

/-! ## The pieces -/

theorem at16_bytesFrag (f : Hdr.Frag) : at16 (bytesFrag f) 2 = f.fragOff.toNat := by
  have h : field (bytesFrag f) 2 2 = f.fragOff.toNat := by rw [← value_be16]; rfl
  rw [← h, field2 _ (by rw [bytesFrag_length]; omega)]

/-- One of the fragments of `Build.fragments`: the fields of its headers, and what they carry. -/
theorem fragment_top (h6 : Hdr.Ip6) (f : Hdr.Frag) (n : Nat) (c : List Byte) :
    ipv6 (bytes6 h6 ++ ((bytesFrag f).take 2 ++ two n ++ (bytesFrag f).drop 4)) c =
      top46 { h6 with payloadLen := BitVec.ofNat 16 (8 + c.length) } (some { f with fragOff := BitVec.ofNat 16 n }) ++ c := by
  unfold ipv6
  have hl : (bytes6 h6 ++ ((bytesFrag f).take 2 ++ two n ++ (bytesFrag f).drop 4)).length + c.length - 40 = 8 + c.length := by
    simp only [List.length_append, List.length_take, List.length_drop, bytes6_length, bytesFrag_length]
    show 40 + (min 2 8 + 2 + (8 - 4)) + c.length - 40 = _
    omega
  rw [hl, two_be16, two_be16]
  generalize BitVec.ofNat 16 (8 + c.length) = u
  generalize BitVec.ofNat 16 n = v
  rfl

theorem fragments_drop (v : Build.Vals) (hv : v.Sized 40) (more : Bool) : ∀ (cs : List (List Byte)) (off : Nat), joined (fragments v more off cs) = cs.flatten
  | [], _ => rfl
  | c :: cs, off => by
    have ih := fragments_drop v hv more cs (off + c.length)
    unfold joined at ih ⊢
    unfold fragments
    rw [List.map_cons, List.flatten_cons, List.flatten_cons, ih]
    congr 1
    unfold ipv6
    rw [List.drop_left']
    have h1 := hv.l3 none
    have h2 := hv.frag
    simp only [List.length_append, List.length_take, List.length_drop, h1, h2]
    show min 4 (40 + (min 2 8 + 2 + (8 - 4))) + 2 + (40 + (min 2 8 + 2 + (8 - 4)) - 6) = 48
    rfl

theorem fragments_length (v : Build.Vals) (more : Bool) : ∀ (cs : List (List Byte)) (off : Nat), (fragments v more off cs).length = cs.length
  | [], _ => rfl
  | c :: cs, off => by
    unfold fragments
    rw [List.length_cons, List.length_cons, fragments_length v more cs]

theorem pieces_of {x : Ctx} {s6 d6 : BitVec 128} {pl : BitVec 16} {d sg : List Byte} {h6 : Hdr.Ip6} {f : Hdr.Frag} {mpl : Nat} (hd : 20 ≤ d.length)
    (hc : Hdr.common46 x.cfg (ip4 d) true x.hairpin true pl s6 d6 = .ok (h6, some f)) :
    ∀ (cs : List (List Byte)) (before : Nat), before % 8 = 0 → (∀ c ∈ cs, c ≠ [] ∧ 48 + c.length ≤ mpl) → (∀ c ∈ cs.dropLast, c.length % 8 = 0 ∧ mpl < 48 + c.length + 8) →
      off4 d * 8 + before + cs.flatten.length ≤ 65527 →
      Pieces46 x.cfg.resetTc x.hairpin s6 d6 mpl d before
        (fragments (vals x (fun _ => bytes6 h6) (bytesFrag f) sg) (decide (mf4 d = 1)) (off4 d * 8 + before) cs)
  | [], _, _, _, _, _ => trivial
  | c :: cs, before, hb, h1, h2, h3 => by
    obtain ⟨hcn, hcm⟩ := h1 c List.mem_cons_self
    have hc1 : 0 < c.length := List.length_pos_iff.2 hcn
    rw [List.flatten_cons, List.length_append] at h3
    have hmf := mf4_lt d
    unfold fragments Pieces46
    have htop := fragment_top h6 f (off4 d * 8 + before + if (cs.isEmpty && !decide (mf4 d = 1)) = true then 0 else 1) c
    have e : ipv6 ((vals x (fun _ => bytes6 h6) (bytesFrag f) sg).l3 none ++
        ((vals x (fun _ => bytes6 h6) (bytesFrag f) sg).frag.take 2 ++ two (off4 d * 8 + before + if (cs.isEmpty && !decide (mf4 d = 1)) = true then 0 else 1) ++
          (vals x (fun _ => bytes6 h6) (bytesFrag f) sg).frag.drop 4)) c = _ := htop
    rw [e]
    have hsz : (top46 { h6 with payloadLen := BitVec.ofNat 16 (8 + c.length) } (some { f with
        fragOff := BitVec.ofNat 16 (off4 d * 8 + before + if (cs.isEmpty && !decide (mf4 d = 1)) = true then 0 else 1) }) ++ c).length = 48 + c.length := by
      rw [List.length_append, top46_length]; rfl
    have hempty : fragments (vals x (fun _ => bytes6 h6) (bytesFrag f) sg) (decide (mf4 d = 1)) (off4 d * 8 + before + c.length) cs = [] ↔ cs = [] := by
      rw [← List.length_eq_zero_iff, fragments_length, List.length_eq_zero_iff]
    rw [hsz]
    constructor
    · generalize hn : off4 d * 8 + before + (if (cs.isEmpty && !decide (mf4 d = 1)) = true then 0 else 1) = n at *
      have hnl : n < 65536 := by rw [← hn]; split <;> omega
      have hnb : (BitVec.ofNat 16 n).toNat = n := ofNat_lt16 hnl
      obtain ⟨c1, c2, c3, c4, c5, c6, c7, -⟩ := Hdr.common46_cases hc
      obtain ⟨f1, f2⟩ := Hdr.frag46 hc
      obtain ⟨t1, t2, t3, t4⟩ := Hdr.tc46 hc
      obtain ⟨r1, r2, r3, r4, r5, r6, r7, r8⟩ := read4 hd
      obtain ⟨g1, g2, g3, g4, g5, g6, g7⟩ := f2 f rfl
      obtain ⟨e1, e2, e3, e4, e5, e6, e7, e8⟩ := fields6 { h6 with payloadLen := BitVec.ofNat 16 (8 + c.length) } (some { f with fragOff := BitVec.ofNat 16 n }) c
      obtain ⟨x1, x2, x3, x4, x5, x6⟩ := fieldsFrag { h6 with payloadLen := BitVec.ofNat 16 (8 + c.length) } { f with fragOff := BitVec.ofNat 16 n } c
      simp only at c3 c6 c7 g5 t1 t2 t3 t4
      have hto : (Hdr.xlatNext (ip4 d).proto).toNat = to6 (proto4 d) := by
        unfold Hdr.xlatNext to6
        rw [← r6]
        by_cases hp : (ip4 d).proto = 1#8
        · rw [hp]; rfl
        · have : ¬ (ip4 d).proto.toNat = 1 := fun h => hp (BitVec.eq_of_toNat_eq h)
          rw [if_neg this, if_neg (by simpa using hp)]
      refine ⟨e1, ?_, ?_, ?_, ?_, ?_, ?_, ?_, ?_, ?_, ?_, ?_, ?_, ?_, ?_, ?_, ?_, ?_, ?_⟩
      · rw [e2]
        show (Hdr.trafficClass h6).toNat = _
        rw [t1]
        cases x.cfg.resetTc
        · exact r1
        · rfl
      · rw [e3]
        show h6.flowLbl0.toNat % 16 * 65536 + h6.flowLbl1.toNat * 256 + h6.flowLbl2.toNat = 0
        rw [t2, t3, t4]; rfl
      · rw [e4, hsz]
        show 40 + (BitVec.ofNat 16 (8 + c.length)).toNat = _
        rw [ofNat_lt16 (by omega)]
        omega
      · rw [e6]
        show h6.hop.toNat + _ = _
        rw [c3, ← r5]
        cases hh : x.hairpin with
        | true => rfl
        | false =>
          have := c4 (by rw [hh]; rfl)
          have := (ip4 d).ttl.isLt
          simp only [Bool.not_false, Bool.and_self, if_true, Bool.false_eq_true, if_false, BitVec.toNat_sub]
          simp
          omega
      · intro hh
        rw [e6]
        show 1 ≤ h6.hop.toNat
        rw [c3, hh]
        have := c4 (by rw [hh]; rfl)
        have := (ip4 d).ttl.isLt
        simp [BitVec.toNat_sub]
        omega
      · rw [e7]; exact congrArg _ c6
      · rw [e8]; exact congrArg _ c7
      · rw [e5]; exact congrArg BitVec.toNat g5
      · rw [x1]
        show f.next.toNat = _
        rw [g6]; exact hto
      · rw [x2]
        show f.reserved.toNat = 0
        rw [g4]; rfl
      · rw [x4]
        show (BitVec.ofNat 16 n).toNat / 2 % 4 = 0
        rw [hnb, ← hn]
        split <;> omega
      · rw [x3]
        show (BitVec.ofNat 16 n).toNat / 8 * 8 = _
        rw [hnb, ← hn]
        split <;> omega
      · intro hl
        rw [x5]
        show (BitVec.ofNat 16 n).toNat % 2 = 1
        have : cs.isEmpty = false := by
          cases cs with
          | nil => exact absurd (hempty.2 rfl) hl
          | cons => rfl
        rw [hnb, ← hn, this]
        simp
        omega
      · intro hl
        rw [x5]
        show (BitVec.ofNat 16 n).toNat % 2 = _
        rw [hempty.1 hl] at hn
        rw [hnb, ← hn]
        by_cases hm : mf4 d = 1
        · simp [hm]; omega
        · simp [hm]; omega
      · rw [x6]
        show f.id.toNat = _
        rw [g3, r2]
      · omega
      · omega
      · intro hl
        rw [hsz]
        exact (h2 c (by rw [List.dropLast_cons_of_ne_nil (fun q => hl (hempty.2 q))]; exact List.mem_cons_self)).2
    · have ih := pieces_of (mpl := mpl) (sg := sg) hd hc cs (before + c.length)
      have : before + (48 + c.length - 48) = before + c.length := by omega
      rw [this]
      rw [Nat.add_assoc] at ih ⊢
      cases cs with
      | nil => exact trivial
      | cons c' cs' =>
        refine ih ?_ (fun q hq => h1 q (List.mem_cons_of_mem _ hq)) (fun q hq => h2 q (by rw [List.dropLast_cons_cons]; exact List.mem_cons_of_mem _ hq)) (by omega)
        have := (h2 c (by rw [List.dropLast_cons_cons]; exact List.mem_cons_self)).1
        omega

/-! ## All of it -/

section

variable {x : Ctx} {a : Acc} {s0 : Pkt.Skb} {p : Build.P}

theorem finished_length {K : Kernel} {sm : Summed} {proto : L4} {l : List Byte} (h : 18 ≤ l.length) : (finished K sm proto l).length = l.length := by
  unfold finished
  split
  · cases proto
    · exact Csum.put_length _ _ _ (by omega) (Csum.store_length _ _)
    · exact Csum.put_length _ _ _ (by omega) (Csum.store_length _ _)
    · rfl
    · rfl
  · rfl

/-- The first piece is completed by the hardware: it is as if the segment had been like that. -/
theorem leave_fragments {K : Kernel} {sm : Summed} {proto : L4} {h6 : Hdr.Ip6} {f : Hdr.Frag} {sg c : List Byte} {cs : List (List Byte)} {more : Bool} {off : Nat} {bs : List (List Byte)}
    {b : List Byte} (hc : 18 ≤ c.length) (hb : b :: bs = fragments (vals x (fun _ => bytes6 h6) (bytesFrag f) sg) more off (c :: cs)) :
    leave K sm proto 48 b :: bs = fragments (vals x (fun _ => bytes6 h6) (bytesFrag f) sg) more off (finished K sm proto c :: cs) := by
  unfold fragments at hb ⊢
  injection hb with hb1 hb2
  rw [hb2, finished_length hc]
  congr 1
  rw [hb1]
  have e1 := fragment_top h6 f (off + if (cs.isEmpty && !more) = true then 0 else 1) c
  have e2 := fragment_top h6 f (off + if (cs.isEmpty && !more) = true then 0 else 1) (finished K sm proto c)
  rw [finished_length hc] at e2
  refine Eq.trans (congrArg _ e1) (Eq.trans ?_ e2.symm)
  exact leave_append (by rw [top46_length]; rfl)

/-- An accepted TCP segment with a proper data offset. -/
theorem tcpOk4 (h : Pkt.init4 s0 = some a) (hin : s0.linear ≤ s0.data.length)
    (htcp : off4 s0.data = 0 → proto4 s0.data = 6 → 5 ≤ field s0.data (l4 s0.data + 12) 1 / 16) :
    first4 a.skb.data 0 = true → a.m.proto = L4.tcp → 20 ≤ tcpLen a.skb.data a.m.l4 := by
  obtain ⟨h20, hl, hcomp, -⟩ := complete4 h hin
  have A := Pkt.init4_ok h
  have hD := A.data
  have hpr := A.proto
  intro hf hp
  rw [hD, first4_off h20] at hf
  rw [hD]
  have h6 : proto4 s0.data = 6 := by
    rw [hpr, proto4_of h20] at hp
    by_cases q : proto4 s0.data = 6
    · exact q
    · rw [if_neg q] at hp
      split at hp
      · cases hp
      · split at hp <;> cases hp
  have h1 := htcp hf h6
  obtain ⟨e1, e2⟩ := hcomp.tcp hf h6
  rw [List.length_drop] at e1
  unfold tcpLen
  rw [hl, at8_field (by omega)]
  omega

set_option maxHeartbeats 1000000 in
/-- 4 to 6, several packets: no access outside of the packets, which packets go through, and the bytes that leave. -/
theorem slow46_sent (s6 d6 : BitVec 128) {mpl : Nat} (hmpl : 1280 ≤ mpl) (h : Pkt.init4 s0 = some a) (hin : s0.linear ≤ s0.data.length) (hh : Holds p a) (hihl : 5 ≤ words4 s0.data)
    (htcp : off4 s0.data = 0 → proto4 s0.data = 6 → 5 ≤ field s0.data (l4 s0.data + 12) 1 / 16) (hi : a.inner = none) (hlen : s0.data.length < 65536)
    (hbig : (mpl - 48) / 8 * 8 < s0.data.length - l4 s0.data) (hoff : off4 s0.data * 8 + (s0.data.length - l4 s0.data) ≤ 65527) :
    ∃ r, slow46 x s6 d6 mpl p a = .ok r ∧ (r ≠ none ↔ Leaves46 x s0.data) ∧ ∀ os, r = some os → Split46 x s6 d6 mpl s0.data os := by
  obtain ⟨h20, hl, hcomp, hfr⟩ := complete4 h hin
  have A := Pkt.init4_ok h
  have hD := A.data
  have hpr := A.proto
  have hpay := A.pay
  have hwi := A.within hin
  have htcp' := tcpOk4 h hin htcp
  have hihl' : 20 ≤ ihl4 a.skb.data 0 := by rw [hD, ihl4_words h20]; unfold l4; omega
  have hne : a.m.proto = L4.icmp → Icmp.isIcmp4Error (at8 s0.data a.m.l4) = true → False := by
    intro hp q
    obtain ⟨i, hi'⟩ := (A.icmp hp).2 q
    rw [hi] at hi'
    cases hi'
  have hss := seg46_some (x := x) s6 d6 h hin hi
  generalize hper : (mpl - 48) / 8 * 8 = per at *
  have hper2 : 1232 ≤ per ∧ per % 8 = 0 := by omega
  have hns := segSlow46_none (x := x) (a := a) s6 d6 (per := per) (by omega)
  unfold slow46
  simp only [hper]
  by_cases hrt : x.route = true
  · rw [if_pos hrt]
    refine ⟨none, rfl, ?_, nofun⟩
    simp only [ne_eq, not_true_eq_false, false_iff]
    intro q
    rw [q.route] at hrt
    cases hrt
  rw [if_neg hrt]
  have hrt : x.route = false := by simpa using hrt
  have r5 := (read4 h20).2.2.2.2.1
  cases hc : Hdr.common46 x.cfg (ip4 a.skb.data) true x.hairpin true (BitVec.ofNat 16 (8 + ((a.skb.data.drop a.m.l4).take per).length)) s6 d6 with
  | ttl =>
    refine ⟨none, rfl, ?_, nofun⟩
    have : x.hairpin = false ∧ (ip4 a.skb.data).ttl.toNat ≤ 1 := by
      unfold Hdr.common46 at hc
      simp only [Bool.true_and] at hc
      split at hc
      · rename_i q
        split at hc
        · exact ⟨by simpa using q, by assumption⟩
        · cases hc
      · cases hc
    rw [hD, r5] at this
    simp only [ne_eq, not_true_eq_false, false_iff]
    intro q
    have := q.ttl this.1
    omega
  | segmentsLeft l =>
    unfold Hdr.common46 at hc
    simp only at hc
    split at hc
    · split at hc <;> cases hc
    · cases hc
  | srcRoute =>
    unfold Hdr.common46 at hc
    simp only at hc
    split at hc
    · split at hc <;> cases hc
    · cases hc
  | ok hf =>
    obtain ⟨h6, f⟩ := hf
    obtain ⟨f1, -⟩ := Hdr.frag46 hc
    obtain ⟨f, rfl⟩ := Option.isSome_iff_exists.1 (f1.2 (Or.inr (Or.inr rfl)))
    simp only
    cases hs : (if first4 a.skb.data 0 = true then segSlow46 x s6 d6 per a else some (a.skb.data.drop a.m.l4, Summed.none)) with
    | none =>
      refine ⟨none, rfl, ?_, nofun⟩
      simp only [ne_eq, not_true_eq_false, false_iff]
      intro q
      split at hs
      · rename_i q'
        rw [hD] at q'
        exact hss.2 ⟨q.udp, q.echo⟩ q' (hns.1 hs)
      · cases hs
    | some q =>
      obtain ⟨seg, sm⟩ := q
      simp only [Option.getD_some]
      have hlv : Leaves46 x s0.data := by
        have := hss.1 (by
          intro q' q''
          rw [← hD] at q'
          rw [if_pos q', hns.2 q''] at hs
          cases hs)
        refine ⟨hrt, ?_, this.1, this.2⟩
        intro q
        rw [← r5, ← hD]
        have c4 := (Hdr.common46_cases hc).2.2.2.1
        have := c4 (by rw [q]; rfl)
        omega
      have hv := sized x (seg := seg) (l3 := fun _ => bytes6 h6) (fun _ => bytes6_length h6) (bytesFrag_length f)
      obtain ⟨-, f2⟩ := Hdr.frag46 hc
      obtain ⟨g1, g2, g3, g4, g5, g6, g7⟩ := f2 f rfl
      obtain ⟨-, -, r3, r4, -⟩ := read4 h20
      rw [hD] at g1 g2
      rw [r3] at g1
      rw [r4] at g2
      have hd := A.hdr
      obtain ⟨s, bl, cs, e, -, -, hb, hfl, hsz, hdl, htwo⟩ := Build.slow46_partial (g := given x (vals x (fun _ => bytes6 h6) (bytesFrag f) seg)) hv h hh hihl' htcp' hi hmpl
        (by rw [hper, hD, hl]; exact hbig) (by
          show at16 (bytesFrag f) 2 / 2 % 4 = 0
          rw [at16_bytesFrag]; exact g7)
      have hbe : behind ((given x (vals x (fun _ => bytes6 h6) (bytesFrag f) seg)).vals 0) (first4 a.skb.data 0) a.skb.data a.m = seg :=
        behindSlow46 (by omega) (by rw [hD, hl]; exact hbig) (by rw [hD]; exact hd) htcp' (by rw [hD]; omega) hs
      rw [hbe] at hfl
      have hb : s.pout.skb.bytes :: bl.map Build.Buf.bytes = fragments (vals x (fun _ => bytes6 h6) (bytesFrag f) seg) (decide (at16 (bytesFrag f) 2 % 2 = 1))
        (at16 (bytesFrag f) 2 / 8 * 8) cs := hb
      have ho8 : at16 (bytesFrag f) 2 / 8 * 8 = off4 s0.data * 8 := by
        rw [at16_bytesFrag, ← g1]; rfl
      have hm8 : decide (at16 (bytesFrag f) 2 % 2 = 1) = decide (mf4 s0.data = 1) := by
        rw [at16_bytesFrag]
        exact decide_eq_decide.2 g2
      rw [ho8, hm8] at hb
      have hsl : seg.length = s0.data.length - l4 s0.data := by
        obtain ⟨hle, hen⟩ := Build.accepted4_hdr h htcp'
        rw [← hbe, ← hl, ← hD]
        refine behind_length hv hle (by rw [hD]; omega) hen ?_
        intro hf1
        unfold Pkt.HdrEnd at hd
        rw [← hD, hf1] at hd
        exact hd
      rw [e]
      refine ⟨_, rfl, ⟨fun _ => hlv, fun _ q => by cases q⟩, ?_⟩
      intro os hos
      have hos := Option.some.inj hos
      beta_reduce at hos
      cases cs with
      | nil => unfold fragments at hb; cases hb
      | cons c cs =>
        have hne2 : cs ≠ [] := by
          intro q
          rw [q] at htwo
          simp at htwo
        have hcl : c.length = per := by
          have := hdl c (by rw [List.dropLast_cons_of_ne_nil hne2]; exact List.mem_cons_self)
          have := (hsz c List.mem_cons_self).2
          omega
        rw [List.flatten_cons] at hfl
        have hct : c = seg.take per := by rw [← hfl, List.take_left' hcl]
        have hcd : cs.flatten = seg.drop per := by rw [← hfl, List.drop_left' hcl]
        let c' := if first4 a.skb.data 0 = true then finished x.K sm a.m.proto c else c
        have hc' : c'.length = per := by
          show (if first4 a.skb.data 0 = true then finished x.K sm a.m.proto c else c).length = per
          split
          · rw [finished_length (by omega), hcl]
          · exact hcl
        have hos' : os = fragments (vals x (fun _ => bytes6 h6) (bytesFrag f) seg) (decide (mf4 s0.data = 1)) (off4 s0.data * 8) (c' :: cs) := by
          rw [← hos]
          show _ = fragments _ _ _ ((if first4 a.skb.data 0 = true then finished x.K sm a.m.proto c else c) :: cs)
          by_cases hf1 : first4 a.skb.data 0 = true
          · rw [if_pos hf1, if_pos hf1]
            exact leave_fragments (by omega) hb
          · rw [if_neg hf1, if_neg hf1]
            exact hb
        have hj : joined os = c' ++ seg.drop per := by
          rw [hos', fragments_drop _ hv, List.flatten_cons, hcd]
        obtain ⟨k1, k2, k3⟩ := segmentSlow46 (x := x) (a := a) (s6 := s6) (d6 := d6) (seg := seg) (out := joined os) (sm := sm) (per := per) (by omega) hper2.2
          (by rw [hD, hl]; exact hbig) (by rw [hD]; omega) (by rw [hD]; exact hd) (by rw [hD]; omega) (by rw [hD]; exact A.l4) (by rw [hD]; exact A.proto)
          (by rw [hD]; exact hne) (by rw [hD]; exact hlen) hs (by rw [hj, ← hct])
        rw [hD] at k1 k2 k3
        have hjl : (joined os).length = s0.data.length - l4 s0.data := by
          have hle : per ≤ seg.length := by rw [← hfl, List.length_append, hcl]; exact Nat.le_add_right _ _
          rw [hj, List.length_append, hc', List.length_drop, Nat.add_sub_cancel' hle]
          exact hsl
        obtain ⟨-, -, -, -, -, -, q7, q8⟩ := read4 h20
        refine ⟨?_, ?_, hjl, k1, ?_, ?_⟩
        · rw [hos', fragments_length, List.length_cons]
          have := List.length_pos_iff.2 hne2
          omega
        · rw [hos']
          refine pieces_of h20 (by rw [hD] at hc; exact hc) (c' :: cs) 0 rfl ?_ ?_ ?_
          · intro q hq
            rcases List.mem_cons.1 hq with rfl | hq
            · exact ⟨fun z => by rw [z] at hc'; simp at hc'; omega, by omega⟩
            · exact hsz q (List.mem_cons_of_mem _ hq)
          · intro q hq
            rw [List.dropLast_cons_of_ne_nil hne2] at hq
            rcases List.mem_cons.1 hq with rfl | hq
            · exact ⟨by rw [hc']; exact hper2.2, by omega⟩
            · exact hdl q (by rw [List.dropLast_cons_of_ne_nil hne2]; exact List.mem_cons_of_mem _ hq)
          · rw [List.flatten_cons, hcd, ← hj, hjl]
            omega
        · intro q
          rw [← q7, ← q8, BitVec.ofNat_toNat, BitVec.ofNat_toNat, BitVec.setWidth_eq, BitVec.setWidth_eq]
          exact k2 q
        · intro q o ho
          have hod : o.drop 48 = (joined os).take per := by
            rw [hos'] at ho
            unfold fragments at ho
            have ho := Option.some.inj ho
            have e1 := fragment_top h6 f (off4 s0.data * 8 + if (cs.isEmpty && !decide (mf4 s0.data = 1)) = true then 0 else 1) c'
            rw [← ho, hj, List.take_left' hc']
            refine (congrArg (List.drop 48) e1).trans ?_
            exact List.drop_left' (by rw [top46_length]; rfl)
          have : ((joined os).take per).length = per := by rw [List.length_take]; omega
          rw [hod, this]
          exact k3 q

theorem df4_read {d : List Byte} (h : 20 ≤ d.length) : Hdr.df4 (ip4 d) = true ↔ df4 d = 1 := by
  rw [Hdr.df4_iff]
  show (BitVec.ofNat 16 (at16 d 6)).toNat / 16384 % 2 = 1 ↔ _
  unfold df4
  have : at16 d 6 < 65536 := by
    unfold at16
    have h1 := (at8 d 6).isLt
    have h2 := (at8 d (6 + 1)).isLt
    omega
  rw [field2 d (by omega), BitVec.toNat_ofNat, Nat.mod_eq_of_lt this]

theorem l6_needs {d : List Byte} (h : 20 ≤ d.length) : 40 + (if Hdr.needsFrag (ip4 d) = true then 8 else 0) = l6 d := by
  obtain ⟨-, -, r3, r4, -⟩ := read4 h
  have hm := mf4_lt d
  have : Hdr.needsFrag (ip4 d) = true ↔ ¬ (off4 d = 0 ∧ mf4 d = 0) := by
    rw [Hdr.needsFrag_iff, r3, r4]
    omega
  unfold l6
  by_cases q : off4 d = 0 ∧ mf4 d = 0
  · rw [if_pos q, if_neg (fun z => this.1 z q)]
  · rw [if_neg q, if_pos (this.2 q)]

/-- **C88.** What becomes of an IPv4 packet, whatever its size is. `n`: how long it would be as one IPv6 packet. It is not sent if the next hop is no IPv6 link, or if it must
not be split and is too big for the next hop; its sender is told what fits. If it is translated, it leaves as one packet that fits, or (without DF) as the fragments
that RFC 7915 and RFC 8200 describe: all the fields of all the headers, and every byte of the segment; each of them fits, and the checksum of the reassembled segment is right
if it was right, unless the datagram had none. Missing: as in `packet46_partial`, GRO and lists of fragments; and fragments beyond the 65535th byte (`Jool.Hdr.slow_wraps`). -/
theorem forward46_partial (s6 d6 : BitVec 128) (nexthop lim : BitVec 32) (h : Pkt.init4 s0 = some a) (hin : s0.linear ≤ s0.data.length) (hh : Holds p a) (hihl : 5 ≤ words4 s0.data)
    (htcp : off4 s0.data = 0 → proto4 s0.data = 6 → 5 ≤ field s0.data (l4 s0.data + 12) 1 / 16) (hi : a.inner = none) (hlen : s0.data.length < 65536)
    (hoff : off4 s0.data * 8 + (s0.data.length - l4 s0.data) ≤ 65527) (h58 : proto4 s0.data ≠ 58)
    {n mpl : Nat} (hn : n = l6 s0.data + (s0.data.length - l4 s0.data)) (hmpl : mpl = min nexthop.toNat lim.toNat) :
    ∃ r, forward46 x s6 d6 nexthop lim p a = .ok r ∧
      (r = .badMtu ↔ mpl < 1280) ∧
      (∀ m, r = .tooBig m ↔ 1280 ≤ mpl ∧ df4 s0.data = 1 ∧ nexthop.toNat < n ∧ m = nexthop.toNat - 20) ∧
      ((∃ os, r = .sent os) ↔ 1280 ≤ mpl ∧ ¬ (df4 s0.data = 1 ∧ nexthop.toNat < n) ∧ Leaves46 x s0.data) ∧
      ∀ os, r = .sent os → (∀ o ∈ os, o.length ≤ nexthop.toNat ∧ (df4 s0.data = 0 → o.length ≤ lim.toNat)) ∧
        (df4 s0.data = 1 ∨ n ≤ mpl → ∃ o, os = [o] ∧ Sent46 x s6 d6 s0.data o) ∧
        (df4 s0.data = 0 → mpl < n → Split46 x s6 d6 mpl s0.data os) := by
  obtain ⟨h20, hl, hcomp, hfr⟩ := complete4 h hin
  have A := Pkt.init4_ok h
  have hD := A.data
  have hpay := A.pay
  have hwi := A.within hin
  have hpl : a.m.l4 ≤ a.m.pay := by
    obtain ⟨hle, -⟩ := Build.accepted4_hdr h (tcpOk4 h hin htcp)
    exact hle
  have hdf2 : df4 s0.data < 2 := Nat.mod_lt _ (by omega)
  have hex : ∀ m, Hdr.exceeds46 (ip4 s0.data) { len := s0.data.length, headlen := a.skb.linear, l3 := a.m.l4, l4 := a.m.pay - a.m.l4, gso := 0, frags := [] } m = true ↔ m < n := by
    intro m
    unfold Hdr.exceeds46
    simp only [ne_eq, not_true_eq_false, if_false, decide_eq_true_eq]
    rw [l6_needs h20, hn, ← hl]
    omega
  have hmin : (Mtu.umin nexthop lim).toNat = mpl := by
    rw [hmpl]
    unfold Mtu.umin
    split <;> omega
  unfold forward46
  simp only
  rw [hD, hi]
  simp only [Option.isSome_none]
  unfold Hdr.path46
  simp only [hmin, Bool.false_eq_true, if_false]
  by_cases hbad : mpl < 1280
  · rw [if_pos hbad]
    refine ⟨.badMtu, rfl, ⟨fun _ => hbad, fun _ => rfl⟩, fun m => ⟨nofun, fun q => by omega⟩, ⟨nofun, fun q => by omega⟩, nofun⟩
  rw [if_neg hbad]
  have hfn : (Mtu.ownFn nexthop).toNat = nexthop.toNat - 20 := by
    have h2 : (nexthop - 20).toNat = nexthop.toNat - 20 := by
      have := nexthop.isLt
      rw [BitVec.toNat_sub]; simp; omega
    unfold Mtu.ownFn Mtu.umax
    rw [if_neg]
    · exact h2
    · rw [h2]
      show ¬ (nexthop.toNat - 20 < (576 : BitVec 32).toNat)
      have : (576 : BitVec 32).toNat = 576 := rfl
      omega
  obtain ⟨rf, hrf, hlvf, hsf⟩ := packet46_partial (x := x) s6 d6 h hin hh hihl htcp hi hlen h58
  have fast : ¬ (df4 s0.data = 1 ∧ nexthop.toNat < n) → (df4 s0.data = 1 ∨ n ≤ mpl) → ∃ r, (translate46 x s6 d6 p a >>= fun r => pure (match r with
        | none => Fate.dropped
        | some o => Fate.sent [o])) = Outcome.ok r ∧
      (r = .badMtu ↔ mpl < 1280) ∧
      (∀ m, r = .tooBig m ↔ 1280 ≤ mpl ∧ df4 s0.data = 1 ∧ nexthop.toNat < n ∧ m = nexthop.toNat - 20) ∧
      ((∃ os, r = .sent os) ↔ 1280 ≤ mpl ∧ ¬ (df4 s0.data = 1 ∧ nexthop.toNat < n) ∧ Leaves46 x s0.data) ∧
      ∀ os, r = .sent os → (∀ o ∈ os, o.length ≤ nexthop.toNat ∧ (df4 s0.data = 0 → o.length ≤ lim.toNat)) ∧
        (df4 s0.data = 1 ∨ n ≤ mpl → ∃ o, os = [o] ∧ Sent46 x s6 d6 s0.data o) ∧
        (df4 s0.data = 0 → mpl < n → Split46 x s6 d6 mpl s0.data os) := by
    intro hno hfits
    rw [hrf]
    refine ⟨_, rfl, ?_, ?_, ?_, ?_⟩
    · cases rf with
      | none => exact ⟨nofun, fun q => by omega⟩
      | some o => exact ⟨nofun, fun q => by omega⟩
    · intro m
      cases rf with
      | none => exact ⟨nofun, fun q => absurd ⟨q.2.1, q.2.2.1⟩ hno⟩
      | some o => exact ⟨nofun, fun q => absurd ⟨q.2.1, q.2.2.1⟩ hno⟩
    · cases rf with
      | none => exact ⟨nofun, fun q => absurd rfl (hlvf.2 q.2.2)⟩
      | some o => exact ⟨fun _ => ⟨by omega, hno, hlvf.1 nofun⟩, fun _ => ⟨[o], rfl⟩⟩
    · intro os hos
      cases rf with
      | none => cases hos
      | some o =>
        cases hos
        have hS := hsf o rfl
        have hsz := hS.size
        refine ⟨?_, fun _ => ⟨o, rfl, hS⟩, fun q1 q2 => by omega⟩
        intro o' ho'
        rw [List.mem_singleton.1 ho', hsz, ← hn]
        have : df4 s0.data = 1 ∨ df4 s0.data = 0 := by omega
        refine ⟨?_, fun q => by omega⟩
        rcases this with q | q
        · exact Nat.le_of_not_lt (fun z => hno ⟨q, z⟩)
        · omega
  by_cases hdf : df4 s0.data = 1
  · rw [if_pos ((df4_read h20).2 hdf)]
    by_cases hbig : nexthop.toNat < n
    · rw [if_pos ((hex _).2 hbig)]
      refine ⟨.tooBig (Mtu.ownFn nexthop).toNat, rfl, ⟨nofun, fun q => by omega⟩, ?_, ⟨nofun, fun q => absurd ⟨hdf, hbig⟩ q.2.1⟩, nofun⟩
      intro m
      rw [hfn]
      refine ⟨fun q => ?_, fun q => ?_⟩
      · injection q with q
        exact ⟨by omega, hdf, hbig, q.symm⟩
      · rw [q.2.2.2]
    · rw [if_neg (fun z => hbig ((hex _).1 z))]
      exact fast (fun q => hbig q.2) (Or.inl hdf)
  · rw [if_neg (fun z => hdf ((df4_read h20).1 z))]
    by_cases hbig : mpl < n
    · rw [if_pos ((hex _).2 hbig)]
      simp only [hmin]
      have hl6 : l6 s0.data ≤ 48 ∧ 40 ≤ l6 s0.data := by unfold l6; split <;> omega
      have hm : mpl ≤ nexthop.toNat ∧ mpl ≤ lim.toNat := by omega
      obtain ⟨rs, hrs, hlvs, hss⟩ := slow46_sent (x := x) s6 d6 (mpl := mpl) (by omega) h hin hh hihl htcp hi hlen (by omega) hoff
      rw [hrs]
      refine ⟨_, rfl, ?_, ?_, ?_, ?_⟩
      · cases rs with
        | none => exact ⟨nofun, fun q => by omega⟩
        | some o => exact ⟨nofun, fun q => by omega⟩
      · intro m
        cases rs with
        | none => exact ⟨nofun, fun q => absurd q.2.1 hdf⟩
        | some o => exact ⟨nofun, fun q => absurd q.2.1 hdf⟩
      · cases rs with
        | none => exact ⟨nofun, fun q => absurd rfl (hlvs.2 q.2.2)⟩
        | some os => exact ⟨fun _ => ⟨by omega, fun q => hdf q.1, hlvs.1 nofun⟩, fun _ => ⟨os, rfl⟩⟩
      · intro os hos
        cases rs with
        | none => cases hos
        | some os' =>
          cases hos
          have hS := hss os rfl
          refine ⟨?_, fun q => by omega, fun _ _ => hS⟩
          have key : ∀ (l : List (List Byte)) (k : Nat), Pieces46 x.cfg.resetTc x.hairpin s6 d6 mpl s0.data k l → ∀ o ∈ l, o.length ≤ mpl := by
            intro l
            induction l with
            | nil => intro k _ o ho; cases ho
            | cons b t ih =>
              intro k hk o ho
              rcases List.mem_cons.1 ho with rfl | ho
              · exact hk.1.fits
              · exact ih _ hk.2 o ho
          intro o ho
          have := key os 0 hS.pieces o ho
          exact ⟨by omega, fun _ => by omega⟩
    · rw [if_neg (fun z => hbig ((hex _).1 z))]
      exact fast (fun q => hdf q.1) (Or.inr (by omega))

end

end Jool.Wire
