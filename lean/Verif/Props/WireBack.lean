import Verif.Props.Wire
import Verif.Props.Build
/-
C83: an IPv6 packet that one translator sends through IPv4 and another one (or the same one: hairpinning) brings back.
-/
namespace Jool.WireSpec
open Jool.Pkt (Byte)

/-- It is still a fragment of something. Atomic fragments are not. -/
def Piece (d : List Byte) (fh : Option Nat) : Prop := ¬ (offAt d fh = 0 ∧ moreAt d fh = 0)

/-- An IPv6 packet that went through two translators: `d` before, `o` afterwards. `fh`, `l`, `n`: see `Sent64`. `lost`: how many hops. `tc`: whether there is a traffic class left
to speak of. `L`: where the transport header is now. -/
structure Back6 (lost : Nat) (tc : Bool) (s6 d6 : BitVec 128) (d : List Byte) (fh : Option Nat) (l n : Nat) (o : List Byte) (L : Nat) : Prop where
  version : ver o = 6
  cls : tc = true → class6 o = class6 d
  flow : flow6 o = 0
  len : 40 + len6 o = o.length
  size : o.length = L + (d.length - l)
  hop : hop6 o + lost = hop6 d
  alive : 1 ≤ hop6 o
  src : src6 o = s6.toNat
  dst : dst6 o = d6.toNat
  whole : ¬ Piece d fh → L = 40 ∧ next6 o = n
  piece : ∀ k, fh = some k → Piece d fh → L = 48 ∧ next6 o = 44 ∧ fnext o 40 = n ∧ freserved o 40 = 0 ∧ fres o 40 = 0 ∧ foff o 40 = foff d k ∧ fmore o 40 = fmore d k ∧
    fid o 40 = fid d k % 65536
  same : offAt d fh ≠ 0 ∨ n ∉ [6, 17, 58] → o.drop L = d.drop l
  tcp : n = 6 → Only 16 (d.drop l) (o.drop L)
  udp : n = 17 → Only 6 (d.drop l) (o.drop L)
  echo : n = 58 → Only 2 (echoed (BitVec.ofNat 8 (field d l 1)) none (d.drop l)) (o.drop L)

/-- Its checksums. -/
structure Back6Sums (s6 d6 : BitVec 128) (d : List Byte) (fh : Option Nat) (l n : Nat) (o : List Byte) (L : Nat) : Prop where
  tcp : offAt d fh = 0 → n = 6 → ∀ extra len, len < 65536 →
    (CsumSpec.Valid (CsumSpec.ph6 s6 d6 len 6#8 ++ (o.drop L ++ extra)) ↔
      CsumSpec.Valid (CsumSpec.ph6 (BitVec.ofNat 128 (src6 d)) (BitVec.ofNat 128 (dst6 d)) len 6#8 ++ (d.drop l ++ extra)))
  udp : offAt d fh = 0 → n = 17 → ∀ extra len, len < 65536 →
    (CsumSpec.Valid (CsumSpec.ph6 s6 d6 len 17#8 ++ (o.drop L ++ extra)) ↔
      CsumSpec.Valid (CsumSpec.ph6 (BitVec.ofNat 128 (src6 d)) (BitVec.ofNat 128 (dst6 d)) len 17#8 ++ (d.drop l ++ extra)))
  echo : n = 58 → (∃ b ∈ (d.drop l).drop 4, b ≠ 0#8) → (CsumSpec.Valid (CsumSpec.ph6 s6 d6 (o.drop L).length 58#8 ++ o.drop L) ↔
      CsumSpec.Valid (CsumSpec.ph6 (BitVec.ofNat 128 (src6 d)) (BitVec.ofNat 128 (dst6 d)) (d.drop l).length 58#8 ++ d.drop l))

end Jool.WireSpec

namespace Jool.Wire
open Jool.Pkt (Byte L4 Meta Acc)
open Jool.Build (Holds)
open Jool.WireSpec

theorem headers_last {d : List Byte} {off nh l n : Nat} {fh : Option Nat} (h : Headers d off nh fh l n) : n ∉ [0, 43, 44, 60] := by
  induction h with
  | last h => exact h
  | frag h => exact h
  | skip _ _ ih => exact ih

section
variable {x y : Ctx} {a : Acc} {s0 : Pkt.Skb} {p : Build.P} {s4 d4 : BitVec 32} {s6 d6 : BitVec 128} {d m o : List Byte} {fh : Option Nat} {l n : Nat}

theorem proto_back (hn : n ∉ [0, 43, 44, 60]) (h1 : n ≠ 1) : to6 (to4 n) = n ∧ to4 n ∉ [0, 43, 44, 58, 60] := by
  simp only [List.mem_cons, List.not_mem_nil, or_false, not_or] at hn ⊢
  unfold to6 to4
  by_cases q : n = 58
  · rw [if_pos q, q]
    exact ⟨rfl, by omega⟩
  · rw [if_neg q, if_neg h1]
    exact ⟨rfl, by omega⟩

/-- The echo has the type it had. -/
theorem echo_back (hc : n = 58 → 8 ≤ (d.drop l).length) (S : Segment none none 128 129 8#8 0#8 (offAt d fh = 0) n 58 (d.drop l) (m.drop 20))
    (T : Segment none none 8 0 128#8 129#8 (offAt d fh = 0) (to4 n) 1 (m.drop 20) out) (hfr : n = 58 → offAt d fh = 0) (q : n = 58) :
    Only 2 (echoed (BitVec.ofNat 8 (field d l 1)) none (d.drop l)) out := by
  obtain ⟨t, e1, e2⟩ := S.echo (hfr q) q
  obtain ⟨u, e3, e4⟩ := T.echo (hfr q) (by unfold to4; rw [if_pos q])
  have e5 : field (m.drop 20) 0 1 = t.toNat := by
    rw [only_field e2 (by omega), ← value1]; rfl
  rw [e5] at e3
  have e6 : field (d.drop l) 0 1 = field d l 1 := by rw [field_drop, Nat.add_zero]
  rw [e6] at e1
  have : BitVec.ofNat 8 (field d l 1) = u := by
    rcases e1 with ⟨i1, rfl⟩ | ⟨i1, rfl⟩
    · rcases e3 with ⟨i2, rfl⟩ | ⟨i2, rfl⟩
      · rw [i1]
      · exact absurd i2 (by decide)
    · rcases e3 with ⟨i2, rfl⟩ | ⟨i2, rfl⟩
      · exact absurd i2 (by decide)
      · rw [i1]
  rw [this]
  exact echoed_twice (hc q) e2 e4

theorem back6 (hn : n ∉ [0, 43, 44, 60]) (h1 : n ≠ 1) (hc : n = 58 → 8 ≤ (d.drop l).length) (hfr : n = 58 → offAt d fh = 0)
    (hx : x.ports = none ∧ x.id = none) (hy : y.ports = none ∧ y.id = none)
    (S : Sent64 x s4 d4 d fh l n m) (T : Sent46 y s6 d6 m o) :
    Back6 (if y.hairpin then 1 else 2) (!x.cfg.dscp && !x.cfg.resetTos && !y.cfg.resetTc) s6 d6 d fh l n o (l6 m) := by
  obtain ⟨b, size, -, sg, -⟩ := S
  obtain ⟨c, size2, sg2, -⟩ := T
  obtain ⟨hto, -⟩ := proto_back hn h1
  rw [hx.1, hx.2] at sg
  rw [hy.1, hy.2] at sg2
  have hl : l4 m = 20 := by unfold l4; rw [b.words]
  have hoff : off4 m = offAt d fh := b.off
  have hmf : mf4 m = moreAt d fh := b.more
  rw [hl, hoff, b.proto] at sg2
  have hsub : offAt d fh ≠ 0 → o.drop (l6 m) = d.drop l := fun q => (sg2.subsequent q).trans (sg.subsequent q)
  have hto4 : n ≠ 58 → to4 n = n := fun q => by unfold to4; rw [if_neg q]
  have ht := b.ttl
  have hh := c.hop
  have hal := b.alive
  refine ⟨c.version, ?_, c.flow, c.len, ?_, ?_, ?_, c.src, c.dst, ?_, ?_, ?_, ?_, ?_, echo_back hc sg sg2 hfr⟩
  · intro q
    simp only [Bool.and_eq_true, Bool.not_eq_true'] at q
    obtain ⟨⟨q1, q2⟩, q3⟩ := q
    have e1 := b.tos
    have e2 := c.cls
    unfold tosOf at e1
    rw [q1, q2] at e1
    rw [q3] at e2
    simp only [Bool.false_eq_true, if_false, Nat.add_zero] at e1 e2
    rw [e2, e1]
  · rw [size2, hl, size]
    omega
  · cases q : y.hairpin <;> rw [q] at hh <;> simp only [Bool.false_eq_true, if_false, if_true] at hh ⊢ <;> omega
  · cases q : y.hairpin
    · exact c.alive q
    · rw [q] at hh
      simp only [if_true] at hh
      omega
  · intro q
    unfold Piece at q
    rw [Classical.not_not] at q
    refine ⟨?_, ?_⟩
    · unfold l6
      rw [hoff, hmf, if_pos q]
    · rw [c.whole (hoff.trans q.1) (hmf.trans q.2), b.proto, hto]
  · intro k hk q
    have q' : ¬ (off4 m = 0 ∧ mf4 m = 0) := by rw [hoff, hmf]; exact q
    obtain ⟨g1, g2, g3, g4, g5, g6, g7⟩ := c.piece q'
    refine ⟨?_, g1, ?_, g3, g4, ?_, ?_, ?_⟩
    · unfold l6
      rw [if_neg q']
    · rw [g2, b.proto, hto]
    · rw [g5, hoff, hk]; rfl
    · rw [g6, hmf, hk]; rfl
    · rw [g7, b.ident k hk]
  · intro q
    by_cases hf : offAt d fh = 0
    · have q' : n ∉ [6, 17, 58] := by
        rcases q with q | q
        · exact absurd hf q
        · exact q
      simp only [List.mem_cons, List.not_mem_nil, or_false, not_or] at q'
      obtain ⟨q6, q17, q58⟩ := q'
      rw [hto4 q58] at sg2
      exact (sg2.other q6 q17 h1).trans (sg.other q6 q17 q58)
    · exact hsub hf
  · intro q
    by_cases hf : offAt d fh = 0
    · rw [hto4 (by omega)] at sg2
      exact Only.trans (sg.tcp hf q) (sg2.tcp hf q)
    · rw [hsub hf]; exact ⟨rfl, fun _ _ _ => rfl⟩
  · intro q
    by_cases hf : offAt d fh = 0
    · rw [hto4 (by omega)] at sg2
      exact Only.trans (sg.udp hf q) (sg2.udp hf q)
    · rw [hsub hf]; exact ⟨rfl, fun _ _ _ => rfl⟩

theorem echo_some {seg mid : List Byte} {t : Byte} (h : 8 ≤ seg.length) (e : Only 2 (echoed t none seg) mid) (q : ∃ b ∈ seg.drop 4, b ≠ 0#8) : ∃ b ∈ mid, b ≠ 0#8 := by
  obtain ⟨b, hb, hb0⟩ := q
  obtain ⟨i, hi⟩ := List.getElem?_of_mem hb
  rw [List.getElem?_drop] at hi
  have := e.2 (4 + i) (by omega) (by omega)
  rw [echoed_get h, if_neg (by omega), if_neg (by omega), hi] at this
  exact ⟨b, List.mem_of_getElem? this, hb0⟩

theorem back6_sums (hc : n = 58 → 8 ≤ (d.drop l).length) (hfr : n = 58 → offAt d fh = 0) (hx : x.ports = none ∧ x.id = none) (hxs : x.sm ≠ .partial_) (hys : y.sm ≠ .partial_)
    (S : Sent64 x s4 d4 d fh l n m) (T : Sent46 y s6 d6 m o) : Back6Sums s6 d6 d fh l n o (l6 m) := by
  obtain ⟨b, size, -, sg, sm⟩ := S
  obtain ⟨c, size2, sg2, sm2⟩ := T
  rw [hx.1, hx.2] at sg
  have hl : l4 m = 20 := by unfold l4; rw [b.words]
  have as4 : BitVec.ofNat 32 (src4 m) = s4 := by rw [b.src, BitVec.ofNat_toNat, BitVec.setWidth_eq]
  have ad4 : BitVec.ofNat 32 (dst4 m) = d4 := by rw [b.dst, BitVec.ofNat_toNat, BitVec.setWidth_eq]
  have hoff : off4 m = offAt d fh := b.off
  rw [hl, hoff, b.proto, as4, ad4] at sm2
  have hto4 : n ≠ 58 → to4 n = n := fun q => by unfold to4; rw [if_neg q]
  refine ⟨?_, ?_, ?_⟩
  · intro hf q extra len hlen
    rw [hto4 (by omega)] at sm2
    exact (sm2.tcp hf q hys extra len hlen).trans (sm.tcp hf q hxs extra len hlen)
  · intro hf q extra len hlen
    rw [hto4 (by omega)] at sm2
    exact (sm2.udp hf q hys (sm.udpSome hf q hxs) extra len hlen).trans (sm.udp hf q hxs extra len hlen)
  · intro q hs
    obtain ⟨t, -, e2⟩ := sg.echo (hfr q) q
    have hm := echo_some (hc q) e2 hs
    exact (sm2.echo (hfr q) (by unfold to4; rw [if_pos q]) hm).trans (sm.echo (hfr q) q hm)

/-- What the second translator needs to know of the packet in the middle. -/
theorem middle (hn : n ∉ [0, 43, 44, 60]) (h1 : n ≠ 1) (hlen : d.length - l ≤ 65515) (htcp : n = 6 → offAt d fh = 0 → 5 ≤ field d (l + 12) 1 / 16) (hx : x.ports = none ∧ x.id = none)
    (S : Sent64 x s4 d4 d fh l n m) : 5 ≤ words4 m ∧ m.length < 65536 ∧ proto4 m ≠ 58 ∧ (off4 m = 0 → proto4 m = 6 → 5 ≤ field m (l4 m + 12) 1 / 16) := by
  have b := S.head
  have size := S.size
  have hl : l4 m = 20 := by unfold l4; rw [b.words]
  obtain ⟨hto, hnm⟩ := proto_back hn h1
  have sg := S.seg
  rw [hx.1, hx.2] at sg
  refine ⟨by rw [b.words], by omega, ?_, ?_⟩
  · rw [b.proto]
    simp only [List.mem_cons, List.not_mem_nil, or_false, not_or] at hnm
    exact hnm.2.2.2.1
  · intro q1 q2
    have q3 : n = 6 := by
      rw [b.proto] at q2
      unfold to4 at q2
      split at q2
      · omega
      · exact q2
    have q4 : offAt d fh = 0 := b.off.symm.trans q1
    rw [hl, ← field_drop, only_field (sg.tcp q4 q3) (by omega)]
    show 5 ≤ field (d.drop l) 12 1 / 16
    rw [field_drop]
    exact htcp q3 q4

theorem middle_leaves (h1 : n ≠ 1) (hfr : n = 58 → offAt d fh = 0) (hx : x.ports = none ∧ x.id = none) (hxs : x.sm ≠ .partial_) (S : Sent64 x s4 d4 d fh l n m) :
    Leaves46 y m ↔ y.route = false ∧ (y.hairpin = false → 3 ≤ hop6 d) := by
  have b := S.head
  have hl : l4 m = 20 := by unfold l4; rw [b.words]
  have sg := S.seg
  rw [hx.1, hx.2] at sg
  have ht := b.ttl
  constructor
  · rintro ⟨q1, q2, -, -⟩
    refine ⟨q1, fun q => ?_⟩
    have := q2 q
    omega
  · rintro ⟨q1, q2⟩
    refine ⟨q1, fun q => ?_, ?_, ?_⟩
    · have := q2 q
      omega
    · intro g1 g2 g3
      have g4 : n = 17 := by
        rw [b.proto] at g2
        unfold to4 at g2
        split at g2
        · omega
        · exact g2
      have := S.sums.udpSome (b.off.symm.trans g1) g4 hxs
      rw [field_drop, ← hl] at this
      exact absurd g3 this
    · intro g
      have g4 : n = 58 := by
        rw [b.proto] at g
        unfold to4 at g
        split at g
        · assumption
        · exact absurd g h1
      obtain ⟨t, e1, e2⟩ := sg.echo (hfr g4) g4
      have e5 : field (m.drop 20) 0 1 = t.toNat := by
        rw [only_field e2 (by omega), ← value1]; rfl
      rw [field_drop, Nat.add_zero, ← hl] at e5
      rw [e5]
      rcases e1 with ⟨-, rfl⟩ | ⟨-, rfl⟩
      · exact .inl rfl
      · exact .inr rfl

/-- What is known of an accepted packet. -/
theorem start64 (h : Pkt.init6 s0 = some a) (hin : s0.linear ≤ s0.data.length) (hH : Headers s0.data 40 (next6 s0.data) fh l n) :
    fh = fhOf a.m ∧ l = a.m.l4 ∧ n ∉ [0, 43, 44, 60] ∧ (n = 58 → 8 ≤ (s0.data.drop l).length) ∧ (n = 58 → offAt s0.data fh = 0) ∧ (a.m.proto = L4.tcp → n = 6) := by
  have O := Pkt.init6_ok h
  have hD := O.data
  have h40 : 40 ≤ s0.data.length := by have := O.len; omega
  obtain ⟨n', hH', -, hP⟩ := headers6 h (by rw [hD]; exact h40)
  rw [hD] at hH'
  obtain ⟨rfl, rfl, rfl⟩ := headers_unique hH hH'
  obtain ⟨-, -, -, hc, hfr⟩ := complete6 h hin hP
  refine ⟨rfl, rfl, headers_last hH, hc.echo, fun q => (hfr q).1, ?_⟩
  intro q1
  rw [hP, proto6_toNat] at q1
  by_cases q : n'.toNat = 6
  · exact q
  · rw [if_neg q] at q1
    split at q1
    · cases q1
    · split at q1 <;> cases q1

/-- **C83.** What one translator makes of an IPv6 packet is a packet that the other one accepts, it is known whether it goes through, and what leaves is the IPv6 packet that was
sent: same data, same transport header except for the checksum, same place in the datagram; one or two hops closer to the end. Extension headers and the flow label are gone. Missing:
ICMP errors, splits, and packets whose checksum is still to be computed. -/
theorem there64_partial (h : Pkt.init6 s0 = some a) (hin : s0.linear ≤ s0.data.length) (hh : Holds p a) (hi : a.inner = none) (hH : Headers s0.data 40 (next6 s0.data) fh l n)
    (h1 : n ≠ 1) (hlen : s0.data.length - l ≤ 65515) (htcp : n = 6 → offAt s0.data fh = 0 → 5 ≤ field s0.data (l + 12) 1 / 16)
    (hx : x.ports = none ∧ x.id = none) (hy : y.ports = none ∧ y.id = none) (hxs : x.sm ≠ .partial_) {segleft : Option Nat}
    (ht : translate64 x s4 d4 segleft p a = .ok (some m)) {lin : Nat} (hlin : lin ≤ m.length) :
    ∃ a', Pkt.init4 ⟨m, lin⟩ = some a' ∧ ∀ p', Holds p' a' → ∃ r, translate46 y s6 d6 p' a' = .ok r ∧
      (r ≠ none ↔ y.route = false ∧ (y.hairpin = false → 3 ≤ hop6 s0.data)) ∧
      ∀ o, r = some o → Back6 (if y.hairpin then 1 else 2) (!x.cfg.dscp && !x.cfg.resetTos && !y.cfg.resetTc) s6 d6 s0.data fh l n o (l6 m) ∧
        (y.sm ≠ .partial_ → Back6Sums s6 d6 s0.data fh l n o (l6 m)) := by
  obtain ⟨rfl, rfl, hn, hc, hfr, ht6⟩ := start64 h hin hH
  obtain ⟨n2, r, w0, w1, w2, w3⟩ := packet64_partial (x := x) s4 d4 segleft h hin hh (fun q1 q2 => htcp (ht6 q1) q2) hi hlen (fun fh l q => by
    obtain ⟨-, -, e⟩ := headers_unique hH q
    exact h1 e)
  obtain ⟨-, -, rfl⟩ := headers_unique hH w0
  rw [ht] at w1
  cases w1
  have S := w3 m rfl
  obtain ⟨a', ha', hi'⟩ := accepted64_partial h hin hH S h1 lin
  refine ⟨a', ha', ?_⟩
  intro p' hp'
  obtain ⟨m1, m2, m3, m4⟩ := middle hn h1 hlen htcp hx S
  obtain ⟨r, v1, v2, v3⟩ := packet46_partial (x := y) (s0 := ⟨m, lin⟩) s6 d6 ha' hlin hp' m1 m4 hi' m2 m3
  refine ⟨r, v1, v2.trans (middle_leaves h1 hfr hx hxs S), ?_⟩
  intro o ho
  have T := v3 o ho
  exact ⟨back6 hn h1 hc hfr hx hy S T, fun q => back6_sums hc hfr hx hxs q S T⟩

end

end Jool.Wire
