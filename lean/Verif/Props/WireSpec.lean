import Verif.Lemmas.WireSent
import Verif.Props.Icmp
/-
C77: what leaves is a packet. Everything is said about bytes: those of the packet that arrives and those of the packet that leaves.
-/
namespace Jool.WireSpec
open Jool.Pkt (Byte L4)

/-! ## Fields of headers, as the RFCs define them -/

/-- The number that some bytes are in network order. -/
def value : List Byte → Nat
  | [] => 0
  | b :: t => b.toNat * 256 ^ t.length + value t

/-- `n` bytes from `i` on. -/
def field (l : List Byte) (i n : Nat) : Nat := value ((l.drop i).take n)

/-- RFC 791. Offsets in units of 8 bytes. -/
def ver (d : List Byte) : Nat := field d 0 1 / 16
def words4 (d : List Byte) : Nat := field d 0 1 % 16
def tos4 (d : List Byte) : Nat := field d 1 1
def len4 (d : List Byte) : Nat := field d 2 2
def id4 (d : List Byte) : Nat := field d 4 2
def df4 (d : List Byte) : Nat := field d 6 2 / 16384 % 2
def mf4 (d : List Byte) : Nat := field d 6 2 / 8192 % 2
def off4 (d : List Byte) : Nat := field d 6 2 % 8192
def ttl4 (d : List Byte) : Nat := field d 8 1
def proto4 (d : List Byte) : Nat := field d 9 1
def src4 (d : List Byte) : Nat := field d 12 4
def dst4 (d : List Byte) : Nat := field d 16 4

/-- RFC 8200. -/
def class6 (o : List Byte) : Nat := field o 0 2 / 16 % 256
def flow6 (o : List Byte) : Nat := field o 0 4 % 1048576
def len6 (o : List Byte) : Nat := field o 4 2
def next6 (o : List Byte) : Nat := field o 6 1
def hop6 (o : List Byte) : Nat := field o 7 1
def src6 (o : List Byte) : Nat := field o 8 16
def dst6 (o : List Byte) : Nat := field o 24 16

/-- The fragment header at `k` (RFC 8200 section 4.5). -/
def fnext (o : List Byte) (k : Nat) : Nat := field o k 1
def freserved (o : List Byte) (k : Nat) : Nat := field o (k + 1) 1
def foff (o : List Byte) (k : Nat) : Nat := field o (k + 2) 2 / 8
def fres (o : List Byte) (k : Nat) : Nat := field o (k + 2) 2 / 2 % 4
def fmore (o : List Byte) (k : Nat) : Nat := field o (k + 2) 2 % 2
def fid (o : List Byte) (k : Nat) : Nat := field o (k + 4) 4

/-- RFC 7915: ICMP is another protocol. -/
def to6 (p : Nat) : Nat := if p = 1 then 58 else p
def to4 (p : Nat) : Nat := if p = 58 then 1 else p

/-- Where the checksum of a transport header is. -/
def sumAt : L4 → Nat
  | .tcp => 16
  | .udp => 6
  | _ => 2

/-- Two segments are the same except for the two bytes at `k`. -/
def Only (k : Nat) (old new : List Byte) : Prop := new.length = old.length ∧ ∀ i, i ≠ k → i ≠ k + 1 → new[i]? = old[i]?

/-- The segment with the ports that NAT64 assigned. -/
def ported (ports : Option (BitVec 16 × BitVec 16)) (seg : List Byte) : List Byte := match ports with
  | none => seg
  | some (s, d) => [BitVec.ofNat 8 (s.toNat / 256), BitVec.ofNat 8 s.toNat, BitVec.ofNat 8 (d.toNat / 256), BitVec.ofNat 8 d.toNat] ++ seg.drop 4

/-- An echo with another type, code zero, and the identifier that NAT64 assigned. -/
def echoed (t : Byte) (id : Option (BitVec 16)) (seg : List Byte) : List Byte := [t, 0#8] ++ (seg.drop 2).take 2 ++ (match id with
  | none => (seg.drop 4).take 2
  | some i => [BitVec.ofNat 8 (i.toNat / 256), BitVec.ofNat 8 i.toNat]) ++ seg.drop 6

/-- Where the transport header of an IPv4 packet begins, and where it does after the translation. -/
def l4 (d : List Byte) : Nat := words4 d * 4
def l6 (d : List Byte) : Nat := if off4 d = 0 ∧ mf4 d = 0 then 40 else 48

/-- RFC 7915 section 4.1: the headers of the IPv6 packet `o` that an IPv4 packet `d` becomes. -/
structure Header46 (resetTc hairpin : Bool) (s d' : BitVec 128) (d o : List Byte) : Prop where
  version : ver o = 6
  cls : class6 o = if resetTc then 0 else tos4 d
  flow : flow6 o = 0
  len : 40 + len6 o = o.length
  hop : hop6 o + (if hairpin then 0 else 1) = ttl4 d
  alive : hairpin = false → 1 ≤ hop6 o
  src : src6 o = s.toNat
  dst : dst6 o = d'.toNat
  whole : off4 d = 0 → mf4 d = 0 → next6 o = to6 (proto4 d)
  piece : ¬ (off4 d = 0 ∧ mf4 d = 0) → next6 o = 44 ∧ fnext o 40 = to6 (proto4 d) ∧ freserved o 40 = 0 ∧ fres o 40 = 0 ∧ foff o 40 = off4 d ∧ fmore o 40 = mf4 d ∧
    fid o 40 = id4 d

/-- The same without what differs if the packet is inside of an ICMP error: length and hop limit. -/
structure Shape46 (resetTc : Bool) (s d' : BitVec 128) (d o : List Byte) : Prop where
  version : ver o = 6
  cls : class6 o = if resetTc then 0 else tos4 d
  flow : flow6 o = 0
  src : src6 o = s.toNat
  dst : dst6 o = d'.toNat
  whole : off4 d = 0 → mf4 d = 0 → next6 o = to6 (proto4 d)
  piece : ¬ (off4 d = 0 ∧ mf4 d = 0) → next6 o = 44 ∧ fnext o 40 = to6 (proto4 d) ∧ freserved o 40 = 0 ∧ fres o 40 = 0 ∧ foff o 40 = off4 d ∧ fmore o 40 = mf4 d ∧
    fid o 40 = id4 d

/-- The transport segment: `seg` becomes `out`. `t1`, `t2`: what echo requests and replies are, in the one protocol; `u1`, `u2`: in the other one. -/
structure Segment (ports : Option (BitVec 16 × BitVec 16)) (id : Option (BitVec 16)) (t1 t2 : Nat) (u1 u2 : Byte) (first : Prop) (proto icmp : Nat) (seg out : List Byte) : Prop where
  subsequent : ¬ first → out = seg
  other : proto ≠ 6 → proto ≠ 17 → proto ≠ icmp → out = seg
  tcp : first → proto = 6 → Only 16 (ported ports seg) out
  udp : first → proto = 17 → Only 6 (ported ports seg) out
  echo : first → proto = icmp → ∃ t, (field seg 0 1 = t1 ∧ t = u1 ∨ field seg 0 1 = t2 ∧ t = u2) ∧ Only 2 (echoed t id seg) out

/-- Checksums, 4 to 6. `extra`: what the other fragments carry, if there are any. -/
structure Sums46 (sm : Csum.Summed) (s4 d4 : BitVec 32) (s6 d6 : BitVec 128) (first : Prop) (proto : Nat) (seg out : List Byte) : Prop where
  tcp : first → proto = 6 → sm ≠ .partial_ → ∀ extra len, len < 65536 →
    (CsumSpec.Valid (CsumSpec.ph6 s6 d6 len 6#8 ++ (out ++ extra)) ↔ CsumSpec.Valid (CsumSpec.ph4 s4 d4 len 6#8 ++ (seg ++ extra)))
  tcpNew : first → proto = 6 → sm = .partial_ → CsumSpec.Valid (CsumSpec.ph6 s6 d6 out.length 6#8 ++ out)
  udp : first → proto = 17 → sm ≠ .partial_ → field seg 6 2 ≠ 0 → ∀ extra len, len < 65536 →
    (CsumSpec.Valid (CsumSpec.ph6 s6 d6 len 17#8 ++ (out ++ extra)) ↔ CsumSpec.Valid (CsumSpec.ph4 s4 d4 len 17#8 ++ (seg ++ extra)))
  udpNew : first → proto = 17 → sm = .partial_ ∨ field seg 6 2 = 0 → CsumSpec.Valid (CsumSpec.ph6 s6 d6 out.length 17#8 ++ out)
  echo : first → proto = 1 → (∃ b ∈ seg, b ≠ 0#8) → (CsumSpec.Valid (CsumSpec.ph6 s6 d6 out.length 58#8 ++ out) ↔ CsumSpec.Valid seg)

end Jool.WireSpec

namespace Jool.Wire
open Jool.Pkt (Byte L4 Meta Acc at8 at16 first4 fragmented4 ihl4 isFirst6 tcpLen)
open Jool.Csum (Kernel Summed put setPorts store)
open Jool.Build (Holds)
open Jool.WireSpec

set_option linter.unusedVariables false

theorem num_acc : ∀ (l : List Byte) (k : Nat), l.foldl (fun a b => a * 256 + b.toNat) k = k * 256 ^ l.length + num l
  | [], k => by simp [num]
  | b :: t, k => by
    unfold num
    rw [List.foldl_cons, List.foldl_cons, num_acc t, num_acc t, List.length_cons, Nat.pow_succ]
    ring

theorem value_num : ∀ l : List Byte, value l = num l
  | [] => rfl
  | b :: t => by
    unfold value
    rw [value_num t]
    show _ = t.foldl _ (0 * 256 + b.toNat)
    rw [num_acc, Nat.zero_mul, Nat.zero_add]

theorem field1 (l : List Byte) {i : Nat} (h : i < l.length) : field l i 1 = (at8 l i).toNat := by
  unfold field at8
  rw [List.drop_eq_getElem_cons h, List.take_succ_cons, List.take_zero]
  unfold value value
  simp [List.getD_eq_getElem?_getD, h]

theorem field2 (l : List Byte) {i : Nat} (h : i + 1 < l.length) : field l i 2 = at16 l i := by
  unfold field at16 at8
  rw [List.drop_eq_getElem_cons (by omega), List.drop_eq_getElem_cons (by omega), List.take_succ_cons, List.take_succ_cons, List.take_zero]
  unfold value value value
  simp [List.getD_eq_getElem?_getD, h, show i < l.length by omega]

theorem value_be16 (v : BitVec 16) : value (Csum.be16 v) = v.toNat := by rw [value_num, num_be16]
theorem value_be32 (v : BitVec 32) : value (Csum.be32 v) = v.toNat := by rw [value_num, num_be32]
theorem value_be128 (v : BitVec 128) : value (Csum.be128 v) = v.toNat := by rw [value_num, num_be128]

theorem trafficClass_toNat (h : Hdr.Ip6) : (Hdr.trafficClass h).toNat = h.priority.toNat * 16 + h.flowLbl0.toNat / 16 := by
  unfold Hdr.trafficClass
  have h1 := h.priority.isLt
  have h2 := h.flowLbl0.isLt
  rw [BitVec.toNat_or, BitVec.toNat_shiftLeft, BitVec.toNat_setWidth, BitVec.toNat_ushiftRight, Nat.shiftLeft_eq, Nat.shiftRight_eq_div_pow]
  have e : h.priority.toNat % 2 ^ 8 * 2 ^ 4 % 2 ^ 8 = h.priority.toNat * 2 ^ 4 := by omega
  rw [e, Hdr.or_add 4 _ _ (by omega)]

theorem version_toNat (p : BitVec 4) : (6#4 ++ p).toNat = 96 + p.toNat := by
  have := p.isLt
  revert p; decide

theorem value1 (b : Byte) : value [b] = b.toNat := by
  simp [value]

/-- The fields of an IPv6 packet that was written. -/
theorem fields6 (h : Hdr.Ip6) (f : Option Hdr.Frag) (r : List Byte) :
    ver (top46 h f ++ r) = 6 ∧ class6 (top46 h f ++ r) = (Hdr.trafficClass h).toNat ∧
    flow6 (top46 h f ++ r) = h.flowLbl0.toNat % 16 * 65536 + h.flowLbl1.toNat * 256 + h.flowLbl2.toNat ∧
    len6 (top46 h f ++ r) = h.payloadLen.toNat ∧ next6 (top46 h f ++ r) = h.next.toNat ∧ hop6 (top46 h f ++ r) = h.hop.toNat ∧
    src6 (top46 h f ++ r) = h.src.toNat ∧ dst6 (top46 h f ++ r) = h.dst.toNat := by
  have h1 := h.priority.isLt
  have h2 := h.flowLbl0.isLt
  have h3 := h.flowLbl1.isLt
  have h4 := h.flowLbl2.isLt
  have e0 : field (top46 h f ++ r) 0 1 = 96 + h.priority.toNat := by
    rw [← version_toNat, ← value1]; rfl
  have e1 : field (top46 h f ++ r) 0 2 = (96 + h.priority.toNat) * 256 + h.flowLbl0.toNat := by
    have : field (top46 h f ++ r) 0 2 = value [6#4 ++ h.priority, h.flowLbl0] := rfl
    rw [this, ← version_toNat]
    simp [value]
  have e2 : field (top46 h f ++ r) 0 4 = (96 + h.priority.toNat) * 16777216 + h.flowLbl0.toNat * 65536 + h.flowLbl1.toNat * 256 + h.flowLbl2.toNat := by
    have : field (top46 h f ++ r) 0 4 = value [6#4 ++ h.priority, h.flowLbl0, h.flowLbl1, h.flowLbl2] := rfl
    rw [this, ← version_toNat]
    simp [value]
    omega
  refine ⟨?_, ?_, ?_, ?_, ?_, ?_, ?_, ?_⟩
  · unfold ver; rw [e0]; omega
  · unfold class6; rw [e1, trafficClass_toNat]; omega
  · unfold flow6; rw [e2]; omega
  · rw [← value_be16]; rfl
  · rw [← value1]; rfl
  · rw [← value1]; rfl
  · rw [← value_be128]; rfl
  · rw [← value_be128]; rfl

theorem fieldsFrag (h : Hdr.Ip6) (f : Hdr.Frag) (r : List Byte) :
    fnext (top46 h (some f) ++ r) 40 = f.next.toNat ∧ freserved (top46 h (some f) ++ r) 40 = f.reserved.toNat ∧
    foff (top46 h (some f) ++ r) 40 = HdrSpec.offset6 f.fragOff ∧ fres (top46 h (some f) ++ r) 40 = f.fragOff.toNat / 2 % 4 ∧
    fmore (top46 h (some f) ++ r) 40 = f.fragOff.toNat % 2 ∧ fid (top46 h (some f) ++ r) 40 = f.id.toNat := by
  have e : field (top46 h (some f) ++ r) 42 2 = f.fragOff.toNat := by rw [← value_be16]; rfl
  refine ⟨?_, ?_, ?_, ?_, ?_, ?_⟩
  · rw [← value1]; rfl
  · rw [← value1]; rfl
  · unfold foff HdrSpec.offset6; rw [e]
  · unfold fres; rw [e]
  · unfold fmore; rw [e]
  · rw [← value_be32]; rfl

/-- The fields of an IPv4 packet that was read. -/
theorem read4 {d : List Byte} (h : 20 ≤ d.length) :
    (ip4 d).tos.toNat = tos4 d ∧ (ip4 d).id.toNat = id4 d ∧ HdrSpec.offset4 (ip4 d).fragOff = off4 d ∧ (HdrSpec.more4 (ip4 d).fragOff ↔ mf4 d = 1) ∧
    (ip4 d).ttl.toNat = ttl4 d ∧ (ip4 d).proto.toNat = proto4 d ∧ (ip4 d).src.toNat = src4 d ∧ (ip4 d).dst.toNat = dst4 d := by
  have h16 : ∀ k, at16 d k < 65536 := by
    intro k
    unfold at16
    have h1 := (at8 d k).isLt
    have h2 := (at8 d (k + 1)).isLt
    omega
  have e16 : ∀ k, k + 1 < 20 → (BitVec.ofNat 16 (at16 d k)).toNat = field d k 2 := by
    intro k hk
    rw [field2 d (by omega), BitVec.toNat_ofNat]
    exact Nat.mod_eq_of_lt (h16 k)
  have e32 : ∀ k, k + 4 ≤ 20 → (BitVec.ofNat 32 (num ((d.drop k).take 4))).toNat = field d k 4 := by
    intro k hk
    unfold field
    rw [value_num, BitVec.toNat_ofNat]
    exact Nat.mod_eq_of_lt (num_lt (n := 4) (by rw [List.length_take, List.length_drop]; omega))
  refine ⟨?_, ?_, ?_, ?_, ?_, ?_, ?_, ?_⟩
  · exact (field1 d (by omega)).symm
  · exact e16 4 (by omega)
  · show (BitVec.ofNat 16 (at16 d 6)).toNat % 8192 = _
    rw [e16 6 (by omega)]; rfl
  · show (BitVec.ofNat 16 (at16 d 6)).toNat / 8192 % 2 = 1 ↔ _
    rw [e16 6 (by omega)]; rfl
  · exact (field1 d (by omega)).symm
  · exact (field1 d (by omega)).symm
  · exact e32 12 (by omega)
  · exact e32 16 (by omega)

theorem first4_off {d : List Byte} (h : 20 ≤ d.length) : first4 d 0 = true ↔ off4 d = 0 := by
  unfold first4 off4
  rw [field2 d (by omega)]
  simp

theorem ihl4_words {d : List Byte} (h : 20 ≤ d.length) : ihl4 d 0 = l4 d := by
  unfold ihl4 l4 words4
  rw [field1 d (by omega)]

theorem ofNat_lt16 {n : Nat} (h : n < 65536) : (BitVec.ofNat 16 n).toNat = n := by
  rw [BitVec.toNat_ofNat]
  exact Nat.mod_eq_of_lt h

theorem mf4_lt (d : List Byte) : mf4 d < 2 := Nat.mod_lt _ (by omega)

theorem shape46_of {c : Hdr.Cfg} {outer hairpin : Bool} {pl : BitVec 16} {s6 d6 : BitVec 128} {d r : List Byte} {h6 : Hdr.Ip6} {f : Option Hdr.Frag} (hd : 20 ≤ d.length)
    (hc : Hdr.common46 c (ip4 d) outer hairpin false pl s6 d6 = .ok (h6, f)) :
    Shape46 c.resetTc s6 d6 d (top46 h6 f ++ r) ∧ (top46 h6 f).length = l6 d ∧ len6 (top46 h6 f ++ r) = pl.toNat ∧ hop6 (top46 h6 f ++ r) = h6.hop.toNat := by
  obtain ⟨c1, c2, c3, c4, c5, c6, c7, -⟩ := Hdr.common46_cases hc
  obtain ⟨f1, f2⟩ := Hdr.frag46 hc
  obtain ⟨t1, t2, t3, t4⟩ := Hdr.tc46 hc
  obtain ⟨r1, r2, r3, r4, r5, r6, r7, r8⟩ := read4 hd
  obtain ⟨e1, e2, e3, e4, e5, e6, e7, e8⟩ := fields6 h6 f r
  have hl := top46_length h6 f
  have hto : (Hdr.xlatNext (ip4 d).proto).toNat = to6 (proto4 d) := by
    unfold Hdr.xlatNext to6
    rw [← r6]
    by_cases hp : (ip4 d).proto = 1#8
    · rw [hp]; rfl
    · have : ¬ (ip4 d).proto.toNat = 1 := fun h => hp (BitVec.eq_of_toNat_eq h)
      rw [if_neg this, if_neg (by simpa using hp)]
  simp only at f1 f2 c2 c3 c5 c6 c7
  rw [r3, r4] at f1
  have hm := mf4_lt d
  have hw : f.isSome = false ↔ off4 d = 0 ∧ mf4 d = 0 := by
    constructor
    · intro hs
      have : ¬ (off4 d ≠ 0 ∨ mf4 d = 1 ∨ false = true) := by rw [← f1, hs]; simp
      simp only [Bool.false_eq_true, or_false, not_or, ne_eq, Decidable.not_not] at this
      omega
    · intro hs
      cases hfs : f.isSome with
      | false => rfl
      | true =>
        have := f1.1 hfs
        simp only [Bool.false_eq_true, or_false] at this
        omega
  refine ⟨⟨e1, ?_, ?_, ?_, ?_, ?_, ?_⟩, ?_, ?_, ?_⟩
  · rw [e2, t1]
    cases c.resetTc
    · exact r1
    · rfl
  · rw [e3, t2, t3, t4]; rfl
  · rw [e7, c6]
  · rw [e8, c7]
  · intro h1 h2
    rw [e5, c2, hw.2 ⟨h1, h2⟩]
    exact hto
  · intro hn
    have hs : f.isSome = true := by
      cases hfs : f.isSome with
      | true => rfl
      | false => exact absurd (hw.1 hfs) hn
    obtain ⟨g, rfl⟩ := Option.isSome_iff_exists.1 hs
    obtain ⟨g1, g2, g3, g4, g5, g6, g7⟩ := f2 g rfl
    obtain ⟨x1, x2, x3, x4, x5, x6⟩ := fieldsFrag h6 g r
    refine ⟨by rw [e5, g5]; rfl, by rw [x1, g6]; exact hto, by rw [x2, g4]; rfl, by rw [x4, g7], by rw [x3, g1, r3], ?_, by rw [x6, g3, r2]⟩
    rw [x5]
    rw [r4] at g2
    unfold HdrSpec.more6 at g2
    omega
  · rw [hl]
    unfold l6
    by_cases h0 : off4 d = 0 ∧ mf4 d = 0
    · rw [if_pos h0, hw.2 h0]; rfl
    · rw [if_neg h0, if_pos]
      cases hfs : f.isSome with
      | true => rfl
      | false => exact absurd (hw.1 hfs) h0
  · rw [e4, c5]
  · exact e6

theorem header46_of {c : Hdr.Cfg} {hairpin : Bool} {s6 d6 : BitVec 128} {d r : List Byte} {h6 : Hdr.Ip6} {f : Option Hdr.Frag} (hd : 20 ≤ d.length)
    (hc : Hdr.common46 c (ip4 d) true hairpin false (BitVec.ofNat 16 ((top46 h6 f).length - 40 + r.length)) s6 d6 = .ok (h6, f)) (hr : r.length ≤ 65527) :
    Header46 c.resetTc hairpin s6 d6 d (top46 h6 f ++ r) ∧ (top46 h6 f).length = l6 d := by
  obtain ⟨S, hl6, hle, hho⟩ := shape46_of (r := r) hd hc
  obtain ⟨c1, c2, c3, c4, c5, c6, c7, -⟩ := Hdr.common46_cases hc
  obtain ⟨r1, r2, r3, r4, r5, r6, r7, r8⟩ := read4 hd
  simp only at c3 c5
  have hl := top46_length h6 f
  refine ⟨⟨S.version, S.cls, S.flow, ?_, ?_, ?_, S.src, S.dst, S.whole, S.piece⟩, hl6⟩
  · rw [hle, ofNat_lt16 (by rw [hl]; split <;> omega), List.length_append]
    omega
  · rw [hho, c3, ← r5]
    cases hairpin with
    | true => rfl
    | false =>
      have := c4 rfl
      have := (ip4 d).ttl.isLt
      simp only [Bool.not_false, Bool.and_self, if_true, Bool.false_eq_true, if_false, BitVec.toNat_sub]
      simp
      omega
  · intro hh
    rw [hho, c3, hh]
    have := c4 (by rw [hh]; rfl)
    have := (ip4 d).ttl.isLt
    simp [BitVec.toNat_sub]
    omega

/-! ## The segment -/

theorem be16_two (v : BitVec 16) : Csum.be16 v = [BitVec.ofNat 8 (v.toNat / 256), BitVec.ofNat 8 v.toNat] := by
  rw [← Csum.bytes2]
  show [BitVec.ofNat 8 (v.toNat / 256 ^ 1), BitVec.ofNat 8 (v.toNat / 256 ^ 0)] = _
  rw [Nat.pow_one, Nat.pow_zero, Nat.div_one]

theorem setPorts_ported (ports : Option (BitVec 16 × BitVec 16)) (seg : List Byte) : Csum.setPorts ports seg = ported ports seg := by
  unfold Csum.setPorts ported
  cases ports with
  | none => rfl
  | some q =>
    obtain ⟨u, v⟩ := q
    simp only [be16_two]
    rfl

theorem only_put {l ck : List Byte} {k : Nat} (h : k + 2 ≤ l.length) (hc : ck.length = 2) : Only k l (Csum.put l k ck) := by
  refine ⟨Csum.put_length _ _ _ h hc, ?_⟩
  intro i h1 h2
  unfold Csum.put
  have e1 : (l.take k).length = k := by simp; omega
  by_cases hi : i < k
  · rw [List.append_assoc, List.getElem?_append_left (by omega), List.getElem?_take_of_lt hi]
  · rw [List.getElem?_append_right (by simp [hc]; omega), List.getElem?_drop]
    congr 1
    simp [hc]
    omega

theorem echo_put (t : Byte) (ck : List Byte) (hc : ck.length = 2) (id : Option (BitVec 16)) {seg : List Byte} (h : 8 ≤ seg.length) :
    Csum.echo t 0#8 ck id seg = Csum.put (echoed t id seg) 2 ck := by
  obtain ⟨b0, b1, b2, b3, t4, rfl⟩ : ∃ b0 b1 b2 b3 t4, seg = b0 :: b1 :: b2 :: b3 :: t4 := by
    match seg, h with
    | b0 :: b1 :: b2 :: b3 :: t4, _ => exact ⟨_, _, _, _, _, rfl⟩
  match ck, hc with
  | [x, y], _ =>
    cases id with
    | none => rfl
    | some v =>
      unfold Csum.echo
      simp only [be16_two]
      rfl

theorem echoed_length (t : Byte) (id : Option (BitVec 16)) {seg : List Byte} (h : 8 ≤ seg.length) : (echoed t id seg).length = seg.length := by
  unfold echoed
  cases id <;> simp <;> omega

theorem finished_put {K : Kernel} {sm : Summed} {proto : L4} {l ck : List Byte} {k : Nat} (h : k + 2 ≤ l.length) (hc : ck.length = 2)
    (hk : proto = L4.tcp ∧ k = 16 ∨ proto = L4.udp ∧ k = 6) : ∃ ck', ck'.length = 2 ∧ finished K sm proto (Csum.put l k ck) = Csum.put l k ck' := by
  unfold finished
  split
  · rcases hk with ⟨rfl, rfl⟩ | ⟨rfl, rfl⟩
    · exact ⟨_, Csum.store_length _ _, by unfold Csum.finish; exact Csum.put_put _ _ _ _ h hc⟩
    · exact ⟨_, Csum.store_length _ _, by unfold Csum.finish; exact Csum.put_put _ _ _ _ h hc⟩
  · exact ⟨ck, hc, rfl⟩

theorem finished_other {K : Kernel} {sm : Summed} {proto : L4} {seg : List Byte} (h1 : proto ≠ L4.tcp) (h2 : proto ≠ L4.udp) : finished K sm proto seg = seg := by
  unfold finished
  split
  · cases proto
    · exact absurd rfl h1
    · exact absurd rfl h2
    · rfl
    · rfl
  · rfl

theorem at8_field {d : List Byte} {i : Nat} (h : i + 1 ≤ d.length) : (at8 d i).toNat = field d i 1 := (field1 d h).symm

theorem field_zero {seg : List Byte} (h : 8 ≤ seg.length) : field seg 6 2 = 0 ↔ (seg.drop 6).take 2 = [0#8, 0#8] := by
  unfold field
  match (seg.drop 6).take 2, (show ((seg.drop 6).take 2).length = 2 by simp; omega) with
  | [a, b], _ =>
    have ha := a.isLt
    have hb := b.isLt
    simp only [value, List.length_cons, List.length_nil, List.cons.injEq, and_true]
    constructor
    · intro e
      exact ⟨BitVec.eq_of_toNat_eq (by simp; omega), BitVec.eq_of_toNat_eq (by simp; omega)⟩
    · rintro ⟨rfl, rfl⟩; rfl

theorem proto4_of {d : List Byte} (h : 20 ≤ d.length) : PktSpec.proto4 (at8 d 9) = (if proto4 d = 6 then L4.tcp else if proto4 d = 17 then L4.udp else if proto4 d = 1 then L4.icmp else L4.other) := by
  unfold PktSpec.proto4 proto4
  rw [← at8_field (by omega)]
  have e : ∀ (v : Byte) (n : Nat) (hn : n < 256), (v.toNat = n) ↔ (v = BitVec.ofNat 8 n) := by
    intro v n hn
    constructor
    · intro h; exact BitVec.eq_of_toNat_eq (by rw [h, BitVec.toNat_ofNat, Nat.mod_eq_of_lt hn])
    · rintro rfl; rw [BitVec.toNat_ofNat, Nat.mod_eq_of_lt hn]
  simp only [e _ 6 (by omega), e _ 17 (by omega), e _ 1 (by omega)]

theorem load_zero (le : Bool) {l : List Byte} {k : Nat} (h : k + 2 ≤ l.length) : Csum.load le l k = 0#16 ↔ (l.drop k).take 2 = [0#8, 0#8] := by
  have e1 : (l.drop k).take 2 = [l.getD k 0#8, l.getD (k + 1) 0#8] := by
    rw [List.drop_eq_getElem_cons (by omega), List.drop_eq_getElem_cons (by omega)]
    simp only [List.getD_eq_getElem?_getD]
    rw [List.getElem?_eq_getElem (by omega), List.getElem?_eq_getElem (by omega)]
    rfl
  rw [e1]
  have e := Csum.load_toNat le l k
  have z : ∀ x : Byte, x.toNat = 0 → x = 0#8 := fun x h => BitVec.eq_of_toNat_eq (by simpa using h)
  constructor
  · intro h0
    rw [h0] at e
    simp only [Csum.w16, BitVec.toNat_ofNat, Nat.zero_mod] at e
    rw [z (l.getD k 0#8) (by split at e <;> omega), z (l.getD (k + 1) 0#8) (by split at e <;> omega)]
  · intro h0
    injection h0 with h1 h0
    injection h0 with h2 h0
    rw [h1, h2] at e
    apply BitVec.eq_of_toNat_eq
    rw [e]
    cases le <;> rfl

theorem echo_types46 {t c t' c' : Byte} (h : Icmp.xlat46Type t c = some (t', c')) (hn : Icmp.isIcmp4Error t = true → False) :
    c' = 0#8 ∧ (t = 8#8 ∧ t' = 128#8 ∨ t = 0#8 ∧ t' = 129#8) := by
  have h' := (Icmp.icmp46_table _ _ _ _).1 h
  cases h'
  case echoRequest => exact ⟨rfl, Or.inl ⟨rfl, rfl⟩⟩
  case echoReply => exact ⟨rfl, Or.inr ⟨rfl, rfl⟩⟩
  all_goals exact absurd rfl hn

section

variable {x : Ctx} {a : Acc} {s0 : Pkt.Skb}

theorem segment46_core {s6 d6 : BitVec 128} {seg out : List Byte} {sm : Summed} (hd20 : 20 ≤ a.skb.data.length)
    (hd : Pkt.HdrEnd a.skb.data a.m (first4 a.skb.data 0)) (hpay : a.m.pay ≤ a.skb.data.length) (hl : a.m.l4 = ihl4 a.skb.data 0) (hpr : a.m.proto = PktSpec.proto4 (at8 a.skb.data 9))
    (hne : a.m.proto = L4.icmp → Icmp.isIcmp4Error (at8 a.skb.data a.m.l4) = true → False)
    (hlen : a.skb.data.length < 65536)
    (hs : (if first4 a.skb.data 0 = true then seg46 x s6 d6 a else some (a.skb.data.drop a.m.l4, x.sm)) = some (seg, sm))
    (ho : out = if first4 a.skb.data 0 = true then finished x.K sm a.m.proto seg else seg) :
    Segment x.ports x.id 8 0 128#8 129#8 (off4 a.skb.data = 0) (proto4 a.skb.data) 1 (a.skb.data.drop (l4 a.skb.data)) out ∧
    Sums46 x.sm (ip4 a.skb.data).src (ip4 a.skb.data).dst s6 d6 (off4 a.skb.data = 0) (proto4 a.skb.data) (a.skb.data.drop (l4 a.skb.data)) out := by
  rw [ihl4_words hd20] at hl
  rw [proto4_of hd20] at hpr
  rw [hl] at hs
  generalize hD : a.skb.data = d at *
  have hsl : (d.drop (l4 d)).length = d.length - l4 d := List.length_drop
  by_cases hf : off4 d = 0
  · have hf4 := (first4_off hd20).2 hf
    rw [if_pos hf4] at hs ho
    rw [hf4] at hd
    unfold Pkt.HdrEnd at hd
    simp only [if_true] at hd
    by_cases h6 : proto4 d = 6
    · rw [if_pos h6] at hpr
      simp only [hpr] at hd
      unfold seg46 at hs
      simp only [hpr, hD, hl] at hs
      have h20 : 20 ≤ (d.drop (l4 d)).length := by omega
      obtain ⟨ck, h1, h2⟩ := tcp46_put x.K x.sm x.ports (ip4 d).src (ip4 d).dst (d.drop (l4 d)) s6 d6
      have hpl := Csum.setPorts_length x.ports (l := d.drop (l4 d)) (by omega)
      cases hs
      have hO : Only 16 (ported x.ports (d.drop (l4 d))) out := by
        rw [ho, h2, hpr]
        obtain ⟨ck', g1, g2⟩ := finished_put (K := x.K) (sm := (Csum.tcp46 x.K x.sm x.ports (ip4 d).src (ip4 d).dst (d.drop (l4 d)) [] s6 d6).summed) (l := Csum.setPorts x.ports (d.drop (l4 d)))
          (ck := ck) (k := 16) (by omega) h1 (Or.inl ⟨rfl, rfl⟩)
        rw [g2, ← setPorts_ported]
        exact only_put (by omega) g1
      refine ⟨⟨fun q => absurd hf q, fun q => absurd h6 q, fun _ _ => hO, fun _ q => by omega, fun _ q => by omega⟩,
        ⟨?_, ?_, fun _ q => by omega, fun _ q => by omega, fun _ q => by omega⟩⟩
      · intro _ _ hsm extra len hlen'
        have : out = (Csum.tcp46 x.K x.sm x.ports (ip4 d).src (ip4 d).dst (d.drop (l4 d)) [] s6 d6).seg := by
          rw [ho]
          unfold finished Csum.tcp46
          simp [hsm]
        rw [this]
        exact Csum.tcp46_valid x.K hsm x.ports _ _ h20 [] s6 d6 extra hlen'
      · intro _ _ hsm
        have e : out.length = (d.drop (l4 d)).length := by rw [hO.1, ← setPorts_ported, hpl]
        rw [e, ho, hpr, hsm]
        have : (Csum.tcp46 x.K Summed.partial_ x.ports (ip4 d).src (ip4 d).dst (d.drop (l4 d)) [] s6 d6).summed = Summed.partial_ := by
          unfold Csum.tcp46; simp
        rw [this]
        exact Csum.tcp46_partial_valid x.K x.ports _ _ h20 (by omega) s6 d6
    · rw [if_neg h6] at hpr
      by_cases h17 : proto4 d = 17
      · rw [if_pos h17] at hpr
        simp only [hpr] at hd
        unfold seg46 at hs
        simp only [hpr, hD, hl] at hs
        have h8 : 8 ≤ (d.drop (l4 d)).length := by omega
        cases hu : Csum.udp46 x.K x.sm x.nat64 (Hdr.mf4 (ip4 d)) x.amend x.ports (ip4 d).src (ip4 d).dst (d.drop (l4 d)) [] s6 d6 with
        | none => rw [hu] at hs; cases hs
        | some w =>
          rw [hu] at hs
          cases hs
          obtain ⟨ck, h1, h2⟩ := udp46_put hu
          have hpl := Csum.setPorts_length x.ports (l := d.drop (l4 d)) (by omega)
          have hO : Only 6 (ported x.ports (d.drop (l4 d))) out := by
            rw [ho, h2, hpr]
            obtain ⟨ck', g1, g2⟩ := finished_put (K := x.K) (sm := w.summed) (l := Csum.setPorts x.ports (d.drop (l4 d))) (ck := ck) (k := 6) (by omega) h1 (Or.inr ⟨rfl, rfl⟩)
            rw [g2, ← setPorts_ported]
            exact only_put (by omega) g1
          have hl0 : Csum.load x.K.le (d.drop (l4 d)) 6 = 0#16 ↔ field (d.drop (l4 d)) 6 2 = 0 := by
            rw [field_zero h8]
            exact load_zero _ (by omega)
          refine ⟨⟨fun q => absurd hf q, fun _ q => absurd h17 q, fun _ q => by omega, fun _ _ => hO, fun _ q => by omega⟩,
            ⟨fun _ q => by omega, fun _ q => by omega, ?_, ?_, fun _ q => by omega⟩⟩
          · intro _ _ hsm hz extra len hlen'
            have hz' := fun q => hz ((field_zero h8).2 q)
            obtain ⟨w', k1, k2⟩ := Csum.udp46_valid x.K hsm x.nat64 (Hdr.mf4 (ip4 d)) x.amend x.ports (ip4 d).src (ip4 d).dst h8 hz' [] s6 d6 extra hlen'
            rw [hu] at k1
            cases k1
            have : out = w.seg := by
              rw [ho]
              unfold finished
              rw [if_neg]
              unfold Csum.udp46 at hu
              simp only at hu
              rw [if_neg (show ¬ Csum.load x.K.le (d.drop (l4 d)) Csum.udp.off = 0#16 from fun q => hz (hl0.1 q)), if_pos hsm] at hu
              cases hu
              exact hsm
            rw [this]
            exact k2
          · intro _ _ hsm
            have e : out.length = (d.drop (l4 d)).length := by rw [hO.1, ← setPorts_ported, hpl]
            have hw : w.summed = Summed.partial_ := by
              unfold Csum.udp46 at hu
              split at hu
              · split at hu
                · cases hu; rfl
                · cases hu
              · rename_i hne
                rcases hsm with hsm | hsm
                · rw [hsm] at hu
                  simp only [ne_eq, not_true_eq_false, if_false] at hu
                  cases hu; rfl
                · exact absurd (hl0.2 hsm) hne
            rw [e, ho, hpr, hw]
            exact Csum.udp46_partial_valid x.K x.sm x.nat64 _ x.amend x.ports _ _ h8 (by omega) s6 d6 hu hw
      · rw [if_neg h17] at hpr
        by_cases h1 : proto4 d = 1
        · rw [if_pos h1] at hpr
          simp only [hpr] at hd
          unfold seg46 at hs
          simp only [hpr, hD, hl] at hs
          have h8 : 8 ≤ (d.drop (l4 d)).length := by omega
          have e0 : at8 (d.drop (l4 d)) 0 = at8 d (l4 d) := by
            unfold at8
            simp [List.getD_eq_getElem?_getD]
          cases hu : Icmp.xlat46Type (at8 (d.drop (l4 d)) 0) (at8 (d.drop (l4 d)) 1) with
          | none => rw [hu] at hs; cases hs
          | some t =>
            rw [hu] at hs
            cases hs
            obtain ⟨t, c⟩ := t
            rw [e0] at hu
            obtain ⟨rfl, ht'⟩ := echo_types46 hu (by rw [← hl]; exact hne hpr)
            have eo : out = Csum.echo46 x.K t 0#8 x.id s6 d6 (d.drop (l4 d)) := by
              rw [ho, hpr, finished_other (by decide) (by decide)]
            have hO : Only 2 (echoed t x.id (d.drop (l4 d))) out := by
              rw [eo]
              unfold Csum.echo46
              rw [echo_put _ _ (Csum.store_length _ _) _ h8]
              exact only_put (by rw [echoed_length _ _ h8]; omega) (Csum.store_length _ _)
            refine ⟨⟨fun q => absurd hf q, fun _ _ q => absurd h1 q, fun _ q => by omega, fun _ q => by omega, fun _ _ => ⟨t, ?_, hO⟩⟩,
              ⟨fun _ q => by omega, fun _ q => by omega, fun _ q => by omega, fun _ q => by omega, ?_⟩⟩
            · rw [← at8_field (by omega), e0]
              rcases ht' with ⟨q1, q2⟩ | ⟨q1, q2⟩
              · exact Or.inl ⟨by rw [q1]; rfl, q2⟩
              · exact Or.inr ⟨by rw [q1]; rfl, q2⟩
            · rintro _ _ ⟨b, hb, hb0⟩
              have e : out.length = (d.drop (l4 d)).length := by rw [hO.1, echoed_length _ _ h8]
              rw [e, eo, Csum.echo46_valid_partial x.K t 0#8 x.id s6 d6 h8]
              constructor
              · rintro (q | q)
                · exact q
                · exact absurd (q b hb) hb0
              · exact Or.inl
        · rw [if_neg h1] at hpr
          unfold seg46 at hs
          simp only [hpr, hD, hl] at hs
          cases hs
          rw [hpr, finished_other (by decide) (by decide)] at ho
          exact ⟨⟨fun _ => ho, fun _ _ _ => ho, fun _ q => absurd q h6, fun _ q => absurd q h17, fun _ q => absurd q h1⟩,
            ⟨fun _ q => absurd q h6, fun _ q => absurd q h6, fun _ q => absurd q h17, fun _ q => absurd q h17, fun _ q => absurd q h1⟩⟩
  · have hf4 : ¬ first4 d 0 = true := fun q => hf ((first4_off hd20).1 q)
    rw [if_neg hf4] at hs ho
    cases hs
    exact ⟨⟨fun _ => ho, fun _ _ _ => ho, fun q => absurd q hf, fun q => absurd q hf, fun q => absurd q hf⟩,
      ⟨fun q => absurd q hf, fun q => absurd q hf, fun q => absurd q hf, fun q => absurd q hf, fun q => absurd q hf⟩⟩

theorem segment46_of {s6 d6 : BitVec 128} {seg out : List Byte} {sm : Summed} (h : Pkt.init4 s0 = some a) (hin : s0.linear ≤ s0.data.length) (hi : a.inner = none)
    (hlen : a.skb.data.length < 65536)
    (hs : (if first4 a.skb.data 0 = true then seg46 x s6 d6 a else some (a.skb.data.drop a.m.l4, x.sm)) = some (seg, sm))
    (ho : out = if first4 a.skb.data 0 = true then finished x.K sm a.m.proto seg else seg) :
    Segment x.ports x.id 8 0 128#8 129#8 (off4 a.skb.data = 0) (proto4 a.skb.data) 1 (a.skb.data.drop (l4 a.skb.data)) out ∧
    Sums46 x.sm (ip4 a.skb.data).src (ip4 a.skb.data).dst s6 d6 (off4 a.skb.data = 0) (proto4 a.skb.data) (a.skb.data.drop (l4 a.skb.data)) out := by
  have A := Pkt.init4_ok h
  have hpay := A.pay
  have hwi := A.within hin
  have hip := A.ip
  have hD := A.data
  refine segment46_core (by rw [hD]; omega) (by rw [hD]; exact A.hdr) (by rw [hD]; omega) (by rw [hD]; exact A.l4) (by rw [hD]; exact A.proto) ?_ hlen hs ho
  intro hp he
  rw [hD] at he
  obtain ⟨i, hi'⟩ := (A.icmp hp).2 he
  rw [hi] at hi'
  cases hi'

end

end Jool.Wire
