import Verif.Props.WireSlowEx
/-
C91: IPv4 packets that the first of two stateless translators splits, and the second translates back, piece by piece.
-/
namespace Jool.WireSpec
open Jool.Pkt (Byte)

/-- One of the IPv4 packets that arrive for the IPv4 packet `d`. `before`: how much of the segment is in the previous ones. -/
structure BackPiece (d : List Byte) (before : Nat) (last : Prop) (q : List Byte) : Prop where
  version : ver q = 4
  words : words4 q = 5
  tos : tos4 q = tos4 d
  len : len4 q = q.length
  ident : id4 q = id4 d
  off : off4 q * 8 = off4 d * 8 + before
  inner : ¬ last → mf4 q = 1
  outer : last → mf4 q = mf4 d
  dont : df4 q = 0
  ttl : ttl4 q + 2 = ttl4 d
  alive : 1 ≤ ttl4 q
  proto : proto4 q = proto4 d
  src : src4 q = src4 d
  dst : dst4 q = dst4 d
  sum : CsumSpec.Valid (q.take 20)
  some_ : 20 < q.length

/-- All of them, in order. -/
def BackPieces (d : List Byte) : Nat → List (List Byte) → Prop
  | _, [] => True
  | n, q :: qs => BackPiece d n (qs = []) q ∧ BackPieces d (n + (q.length - 20)) qs

/-- What the receiver gets when it puts IPv4 fragments without options together. -/
def joined4 (qs : List (List Byte)) : List Byte := (qs.map (fun q => q.drop 20)).flatten

/-- The IPv4 packet `d` arrives in pieces. -/
structure BackSplit (d : List Byte) (qs : List (List Byte)) : Prop where
  several : 2 ≤ qs.length
  pieces : BackPieces d 0 qs
  size : (joined4 qs).length = d.length - l4 d
  same : off4 d ≠ 0 ∨ proto4 d ∉ [6, 17] → joined4 qs = d.drop (l4 d)
  tcp : proto4 d = 6 → Only 16 (d.drop (l4 d)) (joined4 qs)
  udp : proto4 d = 17 → Only 6 (d.drop (l4 d)) (joined4 qs)

/-- The checksum is right if it was. `extra`: what other fragments carry, if `d` is one. -/
structure BackSplitSums (s4 d4 : BitVec 32) (d : List Byte) (qs : List (List Byte)) : Prop where
  tcp : off4 d = 0 → proto4 d = 6 → ∀ extra len, len < 65536 →
    (CsumSpec.Valid (CsumSpec.ph4 s4 d4 len 6#8 ++ (joined4 qs ++ extra)) ↔ CsumSpec.Valid (CsumSpec.ph4 s4 d4 len 6#8 ++ (d.drop (l4 d) ++ extra)))
  udp : off4 d = 0 → proto4 d = 17 → ∀ extra len, len < 65536 →
    (CsumSpec.Valid (CsumSpec.ph4 s4 d4 len 17#8 ++ (joined4 qs ++ extra)) ↔ CsumSpec.Valid (CsumSpec.ph4 s4 d4 len 17#8 ++ (d.drop (l4 d) ++ extra)))
  udpSome : off4 d = 0 → proto4 d = 17 → field (joined4 qs) 6 2 ≠ 0

/-- Each of these is made of the respective one of those. -/
inductive Each (R : List Byte → List Byte → Prop) : List (List Byte) → List (List Byte) → Prop
  | nil : Each R [] []
  | cons {o q os qs} : R o q → Each R os qs → Each R (o :: os) (q :: qs)

end Jool.WireSpec

namespace Jool.Wire
open Jool.Pkt (Byte L4 Meta Acc at8 at16 first4 fragmented4 ihl4 isFirst6 tcpLen)
open Jool.Build (Holds)
open Jool.WireSpec

set_option linter.unusedVariables false

/-- A translator that accepts the IPv6 packet `o` makes `q` of it, however `o` lies in memory. -/
def Makes (y : Ctx) (s4 d4 : BitVec 32) (o q : List Byte) : Prop :=
  ∃ lin a p, lin ≤ o.length ∧ Pkt.init6 ⟨o, lin⟩ = some a ∧ Holds p a ∧ translate64 y s4 d4 none p a = .ok (some q)

theorem field_left {l r : List Byte} {i n : Nat} (h : i + n ≤ l.length) : field (l ++ r) i n = field l i n := by
  unfold field
  rw [List.drop_append_of_le_length (by omega), List.take_append_of_le_length (by rw [List.length_drop]; omega)]

section
variable {x y : Ctx} {a : Acc} {s0 : Pkt.Skb} {p : Build.P} {s4 d4 : BitVec 32} {s6 d6 : BitVec 128} {d o : List Byte} {before mpl : Nat} {last : Prop}

/-- What the second translator finds in a piece. -/
theorem piece_headers (b : Piece46 false false s6 d6 mpl d before last o) (hn : proto4 d ∉ [0, 1, 43, 44, 58, 60]) : Headers o 40 (next6 o) (some 40) 48 (proto4 d) := by
  simp only [List.mem_cons, List.not_mem_nil, or_false, not_or] at hn
  have hto : to6 (proto4 d) = proto4 d := by unfold to6; rw [if_neg (by omega)]
  have hp : field o 40 1 = _ := b.proto
  rw [hto] at hp
  have hL := Headers.frag (d := o) (off := 40) (by rw [hp]; simp only [List.mem_cons, List.not_mem_nil, or_false, not_or]; omega)
  rw [hp] at hL
  rw [b.next]
  exact hL

/-- One piece through the second translator. -/
theorem piece_through (b : Piece46 false false s6 d6 mpl d before last o) (h20 : 20 ≤ d.length) (hn : proto4 d ∉ [0, 1, 43, 44, 58, 60])
    (h1 : off4 d = 0 → before = 0 → Complete True (proto4 d) 58 (o.drop 48) ∧ (proto4 d = 6 → 5 ≤ field o 60 1 / 16)) (hsz : o.length - 48 ≤ 65515) {lin : Nat} (hlin : lin ≤ o.length) :
    ∃ a, Pkt.init6 ⟨o, lin⟩ = some a ∧ ∀ p segleft, Holds p a → ∃ r, translate64 y s4 d4 segleft p a = .ok r ∧ (r ≠ none ↔ segleft = none ∧ 3 ≤ ttl4 d) ∧
      ∀ q, r = some q → Sent64 y s4 d4 o (some 40) 48 (proto4 d) q := by
  have hH := piece_headers b hn
  have hn' := hn
  simp only [List.mem_cons, List.not_mem_nil, or_false, not_or] at hn
  have hto : to6 (proto4 d) = proto4 d := by unfold to6; rw [if_neg (by omega)]
  have hp := b.proto
  rw [hto] at hp
  have hp256 : proto4 d < 256 := by
    unfold proto4
    rw [field1 d (by omega)]
    exact (at8 d 9).isLt
  have hpn : (BitVec.ofNat 8 (proto4 d)).toNat = proto4 d := by rw [BitVec.toNat_ofNat]; exact Nat.mod_eq_of_lt hp256
  have hoff : foff o 40 = 0 ↔ off4 d = 0 ∧ before = 0 := by have := b.off; omega
  have hso := b.some_
  obtain ⟨a, e1, e2, e3, e4, e5⟩ := accept6 (o := o) lin (n := BitVec.ofNat 8 (proto4 d)) (m := ⟨40, L4.other, 48, 48⟩) (by have := b.len; omega)
    (by rw [hpn]; simp only [List.mem_cons, List.not_mem_nil, or_false]; omega)
    (Or.inr ⟨rfl, rfl, b.next, by rw [hpn]; exact hp, by omega⟩)
    (by
      rw [hpn]
      show Complete (foff o 40 = 0) _ _ (o.drop 48)
      rw [hoff]
      refine ⟨fun hf q => ?_, fun hf q => ?_, fun q => absurd q (by omega)⟩
      · exact (h1 hf.1 hf.2).1.tcp trivial q
      · exact (h1 hf.1 hf.2).1.udp trivial q)
    (by rw [hpn]; intro q; omega)
  have hfh : fhOf a.m = some 40 := by unfold fhOf; rw [if_neg (by rw [e3]; decide), e3]
  have hl : a.m.l4 = 48 := e4
  refine ⟨a, e1, ?_⟩
  intro p segleft hh
  obtain ⟨n, r, hH2, hr, hlv, hS⟩ := packet64_partial (x := y) (s0 := ⟨o, lin⟩) s4 d4 segleft e1 hlin hh (by
    intro hp6 hf
    have h6 : proto4 d = 6 := by
      rw [e5, proto6_toNat, hpn] at hp6
      by_cases q : proto4 d = 6
      · exact q
      · rw [if_neg q] at hp6
        split at hp6
        · cases hp6
        · split at hp6 <;> cases hp6
    rw [hfh] at hf
    obtain ⟨f1, f2⟩ := hoff.1 hf
    show 5 ≤ field o (a.m.l4 + 12) 1 / 16
    rw [hl]
    exact (h1 f1 f2).2 h6) e2 (by show o.length - _ ≤ _; rw [hl]; exact hsz) (by
    intro fh l q
    obtain ⟨-, -, e⟩ := headers_unique hH q
    omega)
  obtain ⟨-, -, rfl⟩ := headers_unique hH hH2
  refine ⟨r, hr, ?_, ?_⟩
  · rw [hlv]
    have hhop := b.hop
    simp only [Bool.false_eq_true, if_false] at hhop
    constructor
    · rintro ⟨q1, q2, -⟩
      have q2 : 2 ≤ hop6 o := q2
      exact ⟨q1, by omega⟩
    · rintro ⟨q1, q2⟩
      exact ⟨q1, by show 2 ≤ hop6 o; omega, fun q => absurd q (by omega)⟩
  · intro q hq
    have := hS q hq
    rw [hfh, hl] at this
    exact this

theorem made (b : Piece46 false false s6 d6 mpl d before last o) (h20 : 20 ≤ d.length) (hn : proto4 d ∉ [0, 1, 43, 44, 58, 60])
    (h1 : off4 d = 0 → before = 0 → Complete True (proto4 d) 58 (o.drop 48) ∧ (proto4 d = 6 → 5 ≤ field o 60 1 / 16)) (hsz : o.length - 48 ≤ 65515) {q : List Byte}
    (h : Makes y s4 d4 o q) : Sent64 y s4 d4 o (some 40) 48 (proto4 d) q := by
  obtain ⟨lin, a, p, hlin, ha, hh, ht⟩ := h
  obtain ⟨a', ha', k⟩ := piece_through (y := y) (s4 := s4) (d4 := d4) b h20 hn h1 hsz hlin
  rw [ha] at ha'
  cases ha'
  obtain ⟨r, hr, -, hS⟩ := k p none hh
  rw [ht] at hr
  cases hr
  exact hS q rfl

/-- The headers of what it becomes. -/
theorem back_piece (b : Piece46 false false s6 d6 mpl d before last o) (h20 : 20 ≤ d.length) (hn : proto4 d ∉ [0, 1, 43, 44, 58, 60]) (hs4 : s4.toNat = src4 d) (hd4 : d4.toNat = dst4 d)
    (hy : y.cfg.resetTos = false ∧ y.cfg.dscp = false) {q : List Byte} (S : Sent64 y s4 d4 o (some 40) 48 (proto4 d) q) : BackPiece d before last q := by
  obtain ⟨c, size, -, -, -⟩ := S
  simp only [List.mem_cons, List.not_mem_nil, or_false, not_or] at hn
  have hid : id4 d < 65536 := by
    unfold id4
    rw [field2 _ (by omega)]
    unfold at16
    have i1 := (at8 d 4).isLt
    have i2 := (at8 d (4 + 1)).isLt
    omega
  have hso := b.some_
  have ht := c.ttl
  have hh := b.hop
  simp only [Bool.false_eq_true, if_false] at hh
  refine ⟨c.version, c.words, ?_, c.len, ?_, ?_, ?_, ?_, c.dont 40 rfl, by omega, c.alive, ?_, by rw [c.src, hs4], by rw [c.dst, hd4], c.sum, by omega⟩
  · have e1 := c.tos
    have e2 := b.cls
    unfold tosOf at e1
    rw [hy.1, hy.2] at e1
    simp only [Bool.false_eq_true, if_false, Nat.add_zero] at e1 e2
    rw [e1, e2]
  · rw [c.ident 40 rfl, b.ident]
    exact Nat.mod_eq_of_lt hid
  · rw [c.off]
    exact b.off
  · intro hl
    rw [c.more]
    exact b.inner hl
  · intro hl
    rw [c.more]
    exact b.outer hl
  · rw [c.proto]
    unfold to4
    rw [if_neg (by omega)]

theorem joined4_cons (q : List Byte) (qs : List (List Byte)) : joined4 (q :: qs) = q.drop 20 ++ joined4 qs := rfl

theorem each_nil {R : List Byte → List Byte → Prop} {os qs : List (List Byte)} (h : Each R os qs) : os = [] ↔ qs = [] := by cases h <;> simp
theorem each_length {R : List Byte → List Byte → Prop} {os qs : List (List Byte)} (h : Each R os qs) : os.length = qs.length := by induction h <;> simp_all

/-- All the pieces but the first. -/
theorem back_rest (h20 : 20 ≤ d.length) (hn : proto4 d ∉ [0, 1, 43, 44, 58, 60]) (hs4 : s4.toNat = src4 d) (hd4 : d4.toNat = dst4 d) (hy : y.cfg.resetTos = false ∧ y.cfg.dscp = false)
    {os qs : List (List Byte)} (E : Each (Makes y s4 d4) os qs) : ∀ {before : Nat}, 0 < before → Pieces46 false false s6 d6 mpl d before os → (joined os).length ≤ 65515 →
      BackPieces d before qs ∧ joined4 qs = joined os := by
  induction E with
  | nil => exact fun _ _ _ => ⟨trivial, rfl⟩
  | @cons o q os qs m E ih =>
    intro before hb hp hl
    obtain ⟨p1, p2⟩ := hp
    rw [joined_cons, List.length_append, List.length_drop] at hl
    have S := made p1 h20 hn (fun _ q => absurd q (by omega)) (by omega) m
    have B := back_piece p1 h20 hn hs4 hd4 hy S
    have hso := p1.some_
    have size := S.size
    obtain ⟨i1, i2⟩ := ih (before := before + (o.length - 48)) (by omega) p2 (by omega)
    refine ⟨⟨?_, ?_⟩, ?_⟩
    · rw [each_nil E] at B
      exact B
    · rw [show q.length - 20 = o.length - 48 by omega]
      exact i1
    · rw [joined_cons, joined4_cons, i2]
      congr 1
      refine S.seg.subsequent ?_
      have := p1.off
      show ¬ foff o 40 = 0
      omega

/-- What the first piece needs to be accepted. -/
theorem first_complete {os : List (List Byte)} (S : Split46 x s6 d6 mpl d (o :: os)) (hmpl : 1280 ≤ mpl) (hx : x.ports = none ∧ x.id = none ∧ x.hairpin = false ∧ x.cfg.resetTc = false)
    (hc : Complete (off4 d = 0) (proto4 d) 1 (d.drop (l4 d))) (htcp : off4 d = 0 → proto4 d = 6 → 5 ≤ field d (l4 d + 12) 1 / 16) (hn : proto4 d ∉ [0, 1, 43, 44, 58, 60]) :
    1272 < o.length ∧ (off4 d = 0 → Complete True (proto4 d) 58 (o.drop 48) ∧ (proto4 d = 6 → 5 ≤ field o 60 1 / 16)) := by
  simp only [List.mem_cons, List.not_mem_nil, or_false, not_or] at hn
  have hne : os ≠ [] := by
    intro q
    have := S.several
    rw [q] at this
    simp at this
  obtain ⟨p1, -⟩ := S.pieces
  have hbig := p1.full hne
  have hol : 1272 < o.length := by omega
  refine ⟨hol, fun hf => ?_⟩
  have hfld : ∀ {i n}, i + n ≤ 1000 → field (joined (o :: os)) i n = field (o.drop 48) i n := by
    intro i n h
    rw [joined_cons, field_left (by rw [List.length_drop]; omega)]
  have sg := S.seg
  rw [hx.1, hx.2.1] at sg
  have h12 : proto4 d = 6 → field (o.drop 48) 12 1 = field (d.drop (l4 d)) 12 1 := by
    intro h6
    rw [← hfld (by omega), only_field (sg.tcp hf h6) (by omega)]
    rfl
  have hlen : (o.drop 48).length = o.length - 48 := List.length_drop
  refine ⟨⟨fun _ h6 => ?_, fun _ h17 => by omega, fun q => absurd q (by omega)⟩, fun h6 => ?_⟩
  · have : field (o.drop 48) 12 1 < 256 := by
      rw [field1 _ (by omega)]
      exact (at8 (o.drop 48) 12).isLt
    exact ⟨by omega, by omega⟩
  · have e : field o 60 1 = field (o.drop 48) 12 1 := by rw [field_drop]
    rw [e, h12 h6, field_drop]
    exact htcp hf h6

/-- What arrives, all of it. -/
theorem back_split {os qs : List (List Byte)} (S : Split46 x s6 d6 mpl d os) (hmpl : 1280 ≤ mpl) (hx : x.ports = none ∧ x.id = none ∧ x.hairpin = false ∧ x.cfg.resetTc = false)
    (hy : y.ports = none ∧ y.id = none ∧ y.cfg.resetTos = false ∧ y.cfg.dscp = false) (h20 : 20 ≤ d.length) (hlen : d.length - l4 d ≤ 65515)
    (hc : Complete (off4 d = 0) (proto4 d) 1 (d.drop (l4 d))) (htcp : off4 d = 0 → proto4 d = 6 → 5 ≤ field d (l4 d + 12) 1 / 16) (hn : proto4 d ∉ [0, 1, 43, 44, 58, 60])
    (hs4 : s4.toNat = src4 d) (hd4 : d4.toNat = dst4 d) (E : Each (Makes y s4 d4) os qs) :
    BackSplit d qs ∧ (x.sm ≠ .partial_ → y.sm ≠ .partial_ → ¬ Bare d → BackSplitSums s4 d4 d qs) := by
  cases E with
  | nil => exact absurd S.several (by simp)
  | @cons o q os qs m E =>
    obtain ⟨hol, hfirst⟩ := first_complete S hmpl hx hc htcp hn
    have sev := S.several
    have size := S.size
    obtain ⟨p1, p2⟩ := S.pieces
    have sg := S.seg
    have sums := S.sums
    rw [hx.2.2.1, hx.2.2.2] at p1 p2
    rw [hx.1, hx.2.1] at sg
    have size' := size
    rw [joined_cons, List.length_append, List.length_drop] at size'
    have T := made p1 h20 hn (fun hf _ => hfirst hf) (by omega) m
    have B := back_piece p1 h20 hn hs4 hd4 ⟨hy.2.2.1, hy.2.2.2⟩ T
    obtain ⟨i1, i2⟩ := back_rest h20 hn hs4 hd4 ⟨hy.2.2.1, hy.2.2.2⟩ E (before := 0 + (o.length - 48)) (by omega) p2 (by omega)
    have sg2 := T.seg
    have sums2 := T.sums
    have size2 := T.size
    rw [hy.1, hy.2.1] at sg2
    have hoff0 : offAt o (some 40) = off4 d := by
      have := p1.off
      show foff o 40 = _
      omega
    rw [hoff0] at sg2 sums2
    have hn2 := hn
    simp only [List.mem_cons, List.not_mem_nil, or_false, not_or] at hn2
    have hlq : (q.drop 20).length = (o.drop 48).length := by rw [List.length_drop, List.length_drop]; omega
    have hol48 : (o.drop 48).length = o.length - 48 := List.length_drop
    -- the first piece differs from what it was at most in the checksum
    have only : ∀ {k : Nat}, k + 2 ≤ 1000 → Only k (o.drop 48) (q.drop 20) → Only k (joined (o :: os)) (joined4 (q :: qs)) := by
      intro k hk h
      rw [joined_cons, joined4_cons, i2]
      refine ⟨by rw [List.length_append, List.length_append, h.1], ?_⟩
      intro i g1 g2
      by_cases hi : i < (o.drop 48).length
      · rw [List.getElem?_append_left (by omega), List.getElem?_append_left hi]
        exact h.2 i g1 g2
      · rw [List.getElem?_append_right (by omega), List.getElem?_append_right (by omega), hlq]
    have hsame : q.drop 20 = o.drop 48 → joined4 (q :: qs) = joined (o :: os) := by
      intro e
      rw [joined_cons, joined4_cons, i2, e]
    refine ⟨⟨?_, ⟨?_, ?_⟩, ?_, ?_, ?_, ?_⟩, ?_⟩
    · have := each_length E
      simp only [List.length_cons] at sev ⊢
      omega
    · rw [each_nil E] at B
      exact B
    · rw [show 0 + (q.length - 20) = 0 + (o.length - 48) by omega]
      exact i1
    · rw [← size, joined_cons, joined4_cons, i2, List.length_append, List.length_append, hlq]
    · intro h
      by_cases hf : off4 d = 0
      · have h' : proto4 d ∉ [6, 17] := by
          rcases h with h | h
          · exact absurd hf h
          · exact h
        simp only [List.mem_cons, List.not_mem_nil, or_false, not_or] at h'
        rw [hsame (sg2.other h'.1 h'.2 (by omega))]
        exact sg.other h'.1 h'.2 (by omega)
      · rw [hsame (sg2.subsequent hf)]
        exact sg.subsequent hf
    · intro h6
      by_cases hf : off4 d = 0
      · exact Only.trans (sg.tcp hf h6) (only (by omega) (sg2.tcp hf h6))
      · rw [hsame (sg2.subsequent hf), sg.subsequent hf]
        exact ⟨rfl, fun _ _ _ => rfl⟩
    · intro h17
      by_cases hf : off4 d = 0
      · exact Only.trans (sg.udp hf h17) (only (by omega) (sg2.udp hf h17))
      · rw [hsame (sg2.subsequent hf), sg.subsequent hf]
        exact ⟨rfl, fun _ _ _ => rfl⟩
    · intro sx sy hb
      have as4 : BitVec.ofNat 32 (src4 d) = s4 := by rw [← hs4, BitVec.ofNat_toNat, BitVec.setWidth_eq]
      have ad4 : BitVec.ofNat 32 (dst4 d) = d4 := by rw [← hd4, BitVec.ofNat_toNat, BitVec.setWidth_eq]
      have as6 : BitVec.ofNat 128 (src6 o) = s6 := by rw [p1.src, BitVec.ofNat_toNat, BitVec.setWidth_eq]
      have ad6 : BitVec.ofNat 128 (dst6 o) = d6 := by rw [p1.dst, BitVec.ofNat_toNat, BitVec.setWidth_eq]
      have sums := sums hb
      rw [as4, ad4] at sums
      rw [as6, ad6] at sums2
      refine ⟨?_, ?_, ?_⟩
      · intro hf h6 extra len hl
        have e1 := sums2.tcp hf h6 sy (joined os ++ extra) len hl
        have e2 := sums.tcp hf h6 sx extra len hl
        rw [joined_cons] at e2
        rw [joined4_cons, i2]
        rw [List.append_assoc] at e2 ⊢
        exact e1.trans e2
      · intro hf h17 extra len hl
        have hz : field (d.drop (l4 d)) 6 2 ≠ 0 := by
          intro z
          rw [field_drop] at z
          exact hb ⟨hf, h17, z⟩
        have e1 := sums2.udp hf h17 sy (joined os ++ extra) len hl
        have e2 := sums.udp hf h17 sx hz extra len hl
        rw [joined_cons] at e2
        rw [joined4_cons, i2]
        rw [List.append_assoc] at e2 ⊢
        exact e1.trans e2
      · intro hf h17
        have := sums2.udpSome hf h17 sy
        rw [joined4_cons, field_left (by omega)]
        exact this

end

section
variable {x y : Ctx} {a : Acc} {s0 : Pkt.Skb} {p : Build.P} {s4 d4 : BitVec 32} {s6 d6 : BitVec 128} {nexthop lim : BitVec 32} {os : List (List Byte)}

/-- **C91.** Each of the pieces is accepted by the second translator, and leaves it unless the packet lived too briefly. -/
theorem far_leaves_partial (h : Pkt.init4 s0 = some a) (hin : s0.linear ≤ s0.data.length) (hh : Holds p a) (hihl : 5 ≤ words4 s0.data)
    (htcp : off4 s0.data = 0 → proto4 s0.data = 6 → 5 ≤ field s0.data (l4 s0.data + 12) 1 / 16) (hi : a.inner = none) (hlen : s0.data.length < 65536)
    (hoff : off4 s0.data * 8 + (s0.data.length - l4 s0.data) ≤ 65527) (hn : proto4 s0.data ∉ [0, 1, 43, 44, 58, 60]) (hdf : df4 s0.data = 0)
    (hbig : min nexthop.toNat lim.toNat < l6 s0.data + (s0.data.length - l4 s0.data))
    (hx : x.ports = none ∧ x.id = none ∧ x.hairpin = false ∧ x.cfg.resetTc = false) (ht : forward46 x s6 d6 nexthop lim p a = .ok (.sent os)) :
    ∀ o ∈ os, ∀ lin ≤ o.length, ∃ a', Pkt.init6 ⟨o, lin⟩ = some a' ∧ ∀ p' segleft, Holds p' a' → ∃ r, translate64 y s4 d4 segleft p' a' = .ok r ∧
      (r ≠ none ↔ segleft = none ∧ 3 ≤ ttl4 s0.data) := by
  obtain ⟨r, hr, -, -, k3, k4⟩ := forward46_partial (x := x) s6 d6 nexthop lim h hin hh hihl htcp hi hlen hoff
    (by simp only [List.mem_cons, not_or] at hn; exact hn.2.2.2.2.1) rfl rfl
  rw [ht] at hr
  cases hr
  obtain ⟨hmpl, -, -⟩ := k3.1 ⟨os, rfl⟩
  have S := (k4 os rfl).2.2 hdf hbig
  obtain ⟨h20, hl, hc, hfr⟩ := complete4 h hin
  have hl20 : 20 ≤ l4 s0.data := by unfold l4; omega
  have size := S.size
  have P := S.pieces
  rw [hx.2.2.1, hx.2.2.2] at P
  cases os with
  | nil => intro o ho; cases ho
  | cons o1 os =>
    obtain ⟨hol, hfirst⟩ := first_complete S hmpl hx hc htcp hn
    obtain ⟨p1, p2⟩ := P
    rw [joined_cons, List.length_append, List.length_drop] at size
    have key : ∀ (l : List (List Byte)) (k : Nat), 0 < k → Pieces46 false false s6 d6 (min nexthop.toNat lim.toNat) s0.data k l → (joined l).length ≤ 65515 → ∀ o ∈ l, ∀ lin ≤ o.length,
        ∃ a', Pkt.init6 ⟨o, lin⟩ = some a' ∧ ∀ p' segleft, Holds p' a' → ∃ r, translate64 y s4 d4 segleft p' a' = .ok r ∧ (r ≠ none ↔ segleft = none ∧ 3 ≤ ttl4 s0.data) := by
      intro l
      induction l with
      | nil => intro _ _ _ _ o ho; cases ho
      | cons o2 l ih =>
        intro k hk hp hj o ho lin hlin
        obtain ⟨g1, g2⟩ := hp
        rw [joined_cons, List.length_append, List.length_drop] at hj
        rcases List.mem_cons.1 ho with rfl | ho
        · obtain ⟨a', e1, e2⟩ := piece_through (y := y) (s4 := s4) (d4 := d4) g1 h20 hn (fun _ z => absurd z (by omega)) (by omega) hlin
          refine ⟨a', e1, fun p' sl hp' => ?_⟩
          obtain ⟨r, w1, w2, -⟩ := e2 p' sl hp'
          exact ⟨r, w1, w2⟩
        · exact ih _ (by omega) g2 (by omega) o ho lin hlin
    intro o ho lin hlin
    rcases List.mem_cons.1 ho with rfl | ho
    · obtain ⟨a', e1, e2⟩ := piece_through (y := y) (s4 := s4) (d4 := d4) p1 h20 hn (fun hf _ => hfirst hf) (by omega) hlin
      refine ⟨a', e1, fun p' sl hp' => ?_⟩
      obtain ⟨r, w1, w2, -⟩ := e2 p' sl hp'
      exact ⟨r, w1, w2⟩
    · exact key os _ (by omega) p2 (by omega) o ho lin hlin

/-- **C91.** What the second translator makes of the pieces are fragments of the packet, and put together they are its segment. The checksum is right if it was. Missing: datagrams
without checksum (`Jool.Wire.bare_right`), and pings (`far_ping`). -/
theorem far_partial {qs : List (List Byte)} (h : Pkt.init4 s0 = some a) (hin : s0.linear ≤ s0.data.length) (hh : Holds p a) (hihl : 5 ≤ words4 s0.data)
    (htcp : off4 s0.data = 0 → proto4 s0.data = 6 → 5 ≤ field s0.data (l4 s0.data + 12) 1 / 16) (hi : a.inner = none) (hlen : s0.data.length < 65536)
    (hoff : off4 s0.data * 8 + (s0.data.length - l4 s0.data) ≤ 65527) (hn : proto4 s0.data ∉ [0, 1, 43, 44, 58, 60]) (hdf : df4 s0.data = 0)
    (hbig : min nexthop.toNat lim.toNat < l6 s0.data + (s0.data.length - l4 s0.data)) (hs4 : s4.toNat = src4 s0.data) (hd4 : d4.toNat = dst4 s0.data)
    (hx : x.ports = none ∧ x.id = none ∧ x.hairpin = false ∧ x.cfg.resetTc = false) (hy : y.ports = none ∧ y.id = none ∧ y.cfg.resetTos = false ∧ y.cfg.dscp = false)
    (ht : forward46 x s6 d6 nexthop lim p a = .ok (.sent os)) (E : Each (Makes y s4 d4) os qs) :
    BackSplit s0.data qs ∧ (x.sm ≠ .partial_ → y.sm ≠ .partial_ → ¬ Bare s0.data → BackSplitSums s4 d4 s0.data qs) := by
  obtain ⟨r, hr, -, -, k3, k4⟩ := forward46_partial (x := x) s6 d6 nexthop lim h hin hh hihl htcp hi hlen hoff
    (by simp only [List.mem_cons, not_or] at hn; exact hn.2.2.2.2.1) rfl rfl
  rw [ht] at hr
  cases hr
  obtain ⟨hmpl, -, -⟩ := k3.1 ⟨os, rfl⟩
  obtain ⟨h20, hl, hc, hfr⟩ := complete4 h hin
  have hl20 : 20 ≤ l4 s0.data := by unfold l4; omega
  exact back_split ((k4 os rfl).2.2 hdf hbig) hmpl hx hy h20 (by omega) hc htcp hn hs4 hd4 E

/-- **C91.** If it lived long enough, all of it arrives. -/
theorem far_arrives_partial (h : Pkt.init4 s0 = some a) (hin : s0.linear ≤ s0.data.length) (hh : Holds p a) (hihl : 5 ≤ words4 s0.data)
    (htcp : off4 s0.data = 0 → proto4 s0.data = 6 → 5 ≤ field s0.data (l4 s0.data + 12) 1 / 16) (hi : a.inner = none) (hlen : s0.data.length < 65536)
    (hoff : off4 s0.data * 8 + (s0.data.length - l4 s0.data) ≤ 65527) (hn : proto4 s0.data ∉ [0, 1, 43, 44, 58, 60]) (hdf : df4 s0.data = 0)
    (hbig : min nexthop.toNat lim.toNat < l6 s0.data + (s0.data.length - l4 s0.data)) (hs4 : s4.toNat = src4 s0.data) (hd4 : d4.toNat = dst4 s0.data)
    (hx : x.ports = none ∧ x.id = none ∧ x.hairpin = false ∧ x.cfg.resetTc = false) (hy : y.ports = none ∧ y.id = none ∧ y.cfg.resetTos = false ∧ y.cfg.dscp = false)
    (ht : forward46 x s6 d6 nexthop lim p a = .ok (.sent os)) (httl : 3 ≤ ttl4 s0.data) :
    ∃ qs, Each (Makes y s4 d4) os qs ∧ BackSplit s0.data qs ∧ (x.sm ≠ .partial_ → y.sm ≠ .partial_ → ¬ Bare s0.data → BackSplitSums s4 d4 s0.data qs) := by
  have L := far_leaves_partial (y := y) (s4 := s4) (d4 := d4) h hin hh hihl htcp hi hlen hoff hn hdf hbig hx ht
  have key : ∀ l : List (List Byte), (∀ o ∈ l, o ∈ os) → ∃ qs, Each (Makes y s4 d4) l qs := by
    intro l
    induction l with
    | nil => exact fun _ => ⟨[], .nil⟩
    | cons o l ih =>
      intro hl
      obtain ⟨qs, E⟩ := ih (fun o' ho' => hl o' (List.mem_cons_of_mem _ ho'))
      obtain ⟨a', e1, e2⟩ := L o (hl o List.mem_cons_self) o.length (Nat.le_refl _)
      have A := Pkt.init6_ok e1
      have hw : Holds (Build.place a' 16) a' := Build.place_holds 16 (by rw [A.data]; exact A.within (Nat.le_refl _))
      obtain ⟨r, w1, w2⟩ := e2 _ none hw
      have := w2.2 ⟨rfl, httl⟩
      cases r with
      | none => exact absurd rfl this
      | some q => exact ⟨q :: qs, .cons ⟨o.length, a', _, Nat.le_refl _, e1, hw, w1⟩ E⟩
  obtain ⟨qs, E⟩ := key os (fun _ h => h)
  exact ⟨qs, E, far_partial h hin hh hihl htcp hi hlen hoff hn hdf hbig hs4 hd4 hx hy ht E⟩

/-- **C91.** A big ping gets nowhere: whatever it is split in, the second translator refuses. -/
theorem far_ping (h : Pkt.init4 s0 = some a) (hin : s0.linear ≤ s0.data.length) (hh : Holds p a) (hihl : 5 ≤ words4 s0.data)
    (hi : a.inner = none) (hlen : s0.data.length < 65536) (hoff : off4 s0.data * 8 + (s0.data.length - l4 s0.data) ≤ 65527) (hp : proto4 s0.data = 1) (hdf : df4 s0.data = 0)
    (hbig : min nexthop.toNat lim.toNat < l6 s0.data + (s0.data.length - l4 s0.data)) (ht : forward46 x s6 d6 nexthop lim p a = .ok (.sent os)) :
    2 ≤ os.length ∧ ∀ o ∈ os, ∀ lin ≤ o.length, Pkt.init6 ⟨o, lin⟩ = none := by
  obtain ⟨r, hr, -, -, k3, k4⟩ := forward46_partial (x := x) s6 d6 nexthop lim h hin hh hihl (fun _ q => absurd q (by omega)) hi hlen hoff (by omega) rfl rfl
  rw [ht] at hr
  cases hr
  have S := (k4 os rfl).2.2 hdf hbig
  refine ⟨S.several, ?_⟩
  -- a fragment of an ICMPv6 message is not accepted
  have one : ∀ {o : List Byte} {before : Nat} {last : Prop} {lin : Nat}, Piece46 x.cfg.resetTc x.hairpin s6 d6 (min nexthop.toNat lim.toNat) s0.data before last o → (last → 0 < before) →
      lin ≤ o.length → Pkt.init6 ⟨o, lin⟩ = none := by
    intro o before last lin b hb hlin
    cases e : Pkt.init6 ⟨o, lin⟩ with
    | none => rfl
    | some a' =>
      exfalso
      have A := Pkt.init6_ok e
      have hso := b.some_
      have h40 : 40 ≤ a'.skb.data.length := by rw [A.data]; show 40 ≤ o.length; omega
      obtain ⟨n, hH, -, hP⟩ := headers6 e h40
      rw [A.data] at hH
      have hto : to6 (proto4 s0.data) = 58 := by rw [hp]; rfl
      have hpr : field o 40 1 = _ := b.proto
      rw [hto] at hpr
      have hL := Headers.frag (d := o) (off := 40) (by rw [hpr]; decide)
      rw [hpr, ← b.next] at hL
      obtain ⟨e1, -, e3⟩ := headers_unique hH hL
      obtain ⟨-, -, -, -, hfr⟩ := complete6 e hlin hP
      obtain ⟨f1, f2⟩ := hfr e3
      rw [e1] at f1 f2
      have f1 : foff o 40 = 0 := f1
      have f2 : fmore o 40 = 0 := f2
      have ho := b.off
      by_cases hl : last
      · have := hb hl
        omega
      · rw [b.inner hl] at f2
        cases f2
  have sev := S.several
  have P := S.pieces
  cases os with
  | nil => intro o ho; cases ho
  | cons o1 os =>
    obtain ⟨p1, p2⟩ := P
    have hne : os ≠ [] := by
      intro q
      rw [q] at sev
      simp at sev
    have key : ∀ (l : List (List Byte)) (k : Nat), 0 < k → Pieces46 x.cfg.resetTc x.hairpin s6 d6 (min nexthop.toNat lim.toNat) s0.data k l → ∀ o ∈ l, ∀ lin ≤ o.length, Pkt.init6 ⟨o, lin⟩ = none := by
      intro l
      induction l with
      | nil => intro _ _ _ o ho; cases ho
      | cons o2 l ih =>
        intro k hk hp' o ho lin hlin
        obtain ⟨g1, g2⟩ := hp'
        rcases List.mem_cons.1 ho with rfl | ho
        · exact one g1 (fun _ => hk) hlin
        · exact ih _ (by omega) g2 o ho lin hlin
    intro o ho lin hlin
    rcases List.mem_cons.1 ho with rfl | ho
    · exact one p1 (fun q => absurd q hne) hlin
    · exact key os _ (by have := p1.some_; omega) p2 o ho lin hlin

end

/-! ## A datagram that arrives in pieces, and a ping that does not arrive -/

open Jool.Build (place place_holds got)

example (s6 d6 : BitVec 128) : ∃ os qs, forward46 exCtx s6 d6 1500#32 1280#32 (place (got (Pkt.init4 (exBig 0#8 [7#8, 7#8] 7#8))) 16) (got (Pkt.init4 (exBig 0#8 [7#8, 7#8] 7#8))) = .ok (.sent os) ∧
    Each (Makes exCtx 0x01010101#32 0x01010101#32) os qs ∧ BackSplit (exBig 0#8 [7#8, 7#8] 7#8).data qs ∧
    BackSplitSums 0x01010101#32 0x01010101#32 (exBig 0#8 [7#8, 7#8] 7#8).data qs := by
  have h : Pkt.init4 (exBig 0#8 [7#8, 7#8] 7#8) = some (got (Pkt.init4 (exBig 0#8 [7#8, 7#8] 7#8))) := by decide +kernel
  obtain ⟨r, h1, -, -, h4, -⟩ := forward46_partial (x := exCtx) (n := 1448) s6 d6 1500#32 1280#32 h (by decide +kernel) (place_holds 16 (by decide +kernel)) (by decide +kernel) (by decide +kernel)
    (by decide +kernel) (by decide +kernel) (by decide +kernel) (by decide +kernel) (by decide +kernel) rfl
  obtain ⟨os, rfl⟩ := h4.2 ⟨by decide, by decide +kernel, rfl, fun _ => by decide +kernel, by decide +kernel, by decide +kernel⟩
  obtain ⟨qs, k1, k2, k3⟩ := far_arrives_partial (y := exCtx) (s4 := 0x01010101#32) (d4 := 0x01010101#32) h (by decide +kernel) (place_holds 16 (by decide +kernel)) (by decide +kernel)
    (by decide +kernel) (by decide +kernel) (by decide +kernel) (by decide +kernel) (by decide +kernel) (by decide +kernel) (by decide +kernel) (by decide +kernel) (by decide +kernel)
    ⟨rfl, rfl, rfl, rfl⟩ ⟨rfl, rfl, rfl, rfl⟩ h1 (by decide +kernel)
  exact ⟨os, qs, h1, k1, k2, k3 (by decide) (by decide) (fun q => absurd q.2.2 (by decide +kernel))⟩

/-- An echo request of 1428 bytes. -/
def exPing : Pkt.Skb :=
  ⟨[0x45#8, 0#8, 5#8, 0x94#8, 1#8, 2#8, 0#8, 0#8, 64#8, 1#8, 0#8, 0#8] ++ List.replicate 8 1#8 ++ ([8#8, 0#8, 7#8, 7#8, 0#8, 1#8, 0#8, 2#8] ++ List.replicate 1400 7#8), 1428⟩

example (s6 d6 : BitVec 128) : ∃ os, forward46 exCtx s6 d6 1500#32 1280#32 (place (got (Pkt.init4 exPing)) 16) (got (Pkt.init4 exPing)) = .ok (.sent os) ∧ 2 ≤ os.length ∧
    ∀ o ∈ os, Pkt.init6 ⟨o, o.length⟩ = none := by
  have h : Pkt.init4 exPing = some (got (Pkt.init4 exPing)) := by decide +kernel
  obtain ⟨r, h1, -, -, h4, -⟩ := forward46_partial (x := exCtx) (n := 1448) s6 d6 1500#32 1280#32 h (by decide +kernel) (place_holds 16 (by decide +kernel)) (by decide +kernel) (by decide +kernel)
    (by decide +kernel) (by decide +kernel) (by decide +kernel) (by decide +kernel) (by decide +kernel) rfl
  obtain ⟨os, rfl⟩ := h4.2 ⟨by decide, by decide +kernel, rfl, fun _ => by decide +kernel, by decide +kernel, by decide +kernel⟩
  obtain ⟨k1, k2⟩ := far_ping h (by decide +kernel) (place_holds 16 (by decide +kernel)) (by decide +kernel) (by decide +kernel) (by decide +kernel) (by decide +kernel) (by decide +kernel)
    (by decide +kernel) (by decide +kernel) h1
  exact ⟨os, h1, k1, fun o ho => k2 o ho _ (Nat.le_refl _)⟩

end Jool.Wire
