import Verif.Props.WireSpec
/-
C77, from IPv6 to IPv4: the specification of the packet that leaves, and how the fields get there.
-/
namespace Jool.WireSpec
open Jool.Pkt (Byte L4)

/-- RFC 8200: the headers from `off` on, the first of which is of type `nh`: they end at `l4`, with something of type `n`. `fh`: where the fragment header is.
Nothing but the transport header may follow a fragment header. -/
inductive Headers (d : List Byte) : Nat → Nat → Option Nat → Nat → Nat → Prop
  | last {off nh} : nh ∉ [0, 43, 44, 60] → Headers d off nh none off nh
  | frag {off} : field d off 1 ∉ [0, 43, 44, 60] → Headers d off 44 (some off) (off + 8) (field d off 1)
  | skip {off nh fh l4 n} : nh ∈ [0, 43, 60] → Headers d (off + 8 * (field d (off + 1) 1 + 1)) (field d off 1) fh l4 n → Headers d off nh fh l4 n

/-- The fragment offset: zero if there is no fragment header. -/
def offAt (d : List Byte) : Option Nat → Nat
  | none => 0
  | some k => foff d k
def moreAt (d : List Byte) : Option Nat → Nat
  | none => 0
  | some k => fmore d k

/-- RFC 7915 section 5.1: the header of the IPv4 packet `o` that an IPv6 packet `d` becomes. `tos`: what is configured (`none`: copy). `noEcn`: the kernel is 6.18 or
newer, and the bits of ECN get lost (C58). -/
structure Header64 (noEcn : Bool) (tos : Option Byte) (s d' : BitVec 32) (d : List Byte) (fh : Option Nat) (n : Nat) (o : List Byte) : Prop where
  version : ver o = 4
  words : words4 o = 5
  tos : tos4 o + (if noEcn then (match tos with | none => class6 d | some t => t.toNat) % 4 else 0) = match tos with | none => class6 d | some t => t.toNat
  len : len4 o = o.length
  off : off4 o = offAt d fh
  more : mf4 o = moreAt d fh
  dont : ∀ k, fh = some k → df4 o = 0
  ident : ∀ k, fh = some k → id4 o = fid d k % 65536
  ttl : ttl4 o + 1 = hop6 d
  alive : 1 ≤ ttl4 o
  proto : proto4 o = to4 n
  src : src4 o = s.toNat
  dst : dst4 o = d'.toNat
  sum : CsumSpec.Valid (o.take 20)

/-- Checksums, 6 to 4. -/
structure Sums64 (sm : Csum.Summed) (s6 d6 : BitVec 128) (s4 d4 : BitVec 32) (first : Prop) (proto : Nat) (seg out : List Byte) : Prop where
  tcp : first → proto = 6 → sm ≠ .partial_ → ∀ extra len, len < 65536 →
    (CsumSpec.Valid (CsumSpec.ph4 s4 d4 len 6#8 ++ (out ++ extra)) ↔ CsumSpec.Valid (CsumSpec.ph6 s6 d6 len 6#8 ++ (seg ++ extra)))
  tcpNew : first → proto = 6 → sm = .partial_ → CsumSpec.Valid (CsumSpec.ph4 s4 d4 out.length 6#8 ++ out)
  udp : first → proto = 17 → sm ≠ .partial_ → ∀ extra len, len < 65536 →
    (CsumSpec.Valid (CsumSpec.ph4 s4 d4 len 17#8 ++ (out ++ extra)) ↔ CsumSpec.Valid (CsumSpec.ph6 s6 d6 len 17#8 ++ (seg ++ extra)))
  udpNew : first → proto = 17 → sm = .partial_ → CsumSpec.Valid (CsumSpec.ph4 s4 d4 out.length 17#8 ++ out)
  udpSome : first → proto = 17 → sm ≠ .partial_ → field out 6 2 ≠ 0
  echo : first → proto = 58 → (∃ b ∈ out, b ≠ 0#8) → (CsumSpec.Valid out ↔ CsumSpec.Valid (CsumSpec.ph6 s6 d6 seg.length 58#8 ++ seg))

end Jool.WireSpec

namespace Jool.Wire
open Jool.Pkt (Byte L4 Meta Acc at8 at16 first4 fragmented4 ihl4 isFirst6 tcpLen)
open Jool.Csum (Kernel Summed put setPorts store)
open Jool.Build (Holds)
open Jool.WireSpec

set_option linter.unusedVariables false

/-! ## The chain of headers -/

theorem headers_unique {d : List Byte} {off nh l l' n n' : Nat} {f f' : Option Nat} (h : Headers d off nh f l n) : Headers d off nh f' l' n' → f = f' ∧ l = l' ∧ n = n' := by
  induction h with
  | last hn =>
    intro h'
    cases h' with
    | last _ => exact ⟨rfl, rfl, rfl⟩
    | frag _ => simp at hn
    | skip hs _ => simp at hn hs; omega
  | frag hn =>
    intro h'
    cases h' with
    | last hn' => simp at hn'
    | frag _ => exact ⟨rfl, rfl, rfl⟩
    | skip hs _ => simp at hs
  | skip hs _ ih =>
    intro h'
    cases h' with
    | last hn => simp at hn hs; omega
    | frag _ => simp at hs
    | skip _ h' => exact ih h'

def fhOf (m : Meta) : Option Nat := if m.fh = 0 then none else some m.fh

theorem nat8 (v : Byte) {n : Nat} (hn : n < 256) : v.toNat = n ↔ v = BitVec.ofNat 8 n := by
  constructor
  · intro h; exact BitVec.eq_of_toNat_eq (by rw [h, BitVec.toNat_ofNat, Nat.mod_eq_of_lt hn])
  · rintro rfl; rw [BitVec.toNat_ofNat, Nat.mod_eq_of_lt hn]

theorem proto6_toNat (v : Byte) : PktSpec.proto6 v = if v.toNat = 6 then L4.tcp else if v.toNat = 17 then L4.udp else if v.toNat = 58 then L4.icmp else L4.other := by
  unfold PktSpec.proto6
  simp only [nat8 v (show 6 < 256 by omega), nat8 v (show 17 < 256 by omega), nat8 v (show 58 < 256 by omega)]

theorem walk6_headers {d : List Byte} {off : Nat} {nh : Byte} {fh : Nat} {first : Bool} {m : Meta} (h : Pkt.walk6 d off nh fh first = some m) (h0 : off ≠ 0) :
    ∃ n : Byte, PktSpec.Chain d off nh m.l4 n ∧ m.proto = PktSpec.proto6 n ∧ (fh = 0 → Headers d off nh.toNat (fhOf m) m.l4 n.toNat) ∧ (fh ≠ 0 → m.fh = fh ∧ m.l4 = off ∧ n = nh ∧ nh.toNat ∉ [0, 43, 44, 60]) := by
  fun_induction Pkt.walk6 d off nh fh first with
  | case1 => cases h; exact ⟨6#8, PktSpec.Chain.done (by decide), rfl, fun e => by subst e; exact Headers.last (by decide), fun _ => ⟨rfl, rfl, rfl, by decide⟩⟩
  | case2 => cases h
  | case3 => cases h; exact ⟨6#8, PktSpec.Chain.done (by decide), rfl, fun e => by subst e; exact Headers.last (by decide), fun _ => ⟨rfl, rfl, rfl, by decide⟩⟩
  | case4 => cases h; exact ⟨17#8, PktSpec.Chain.done (by decide), rfl, fun e => by subst e; exact Headers.last (by decide), fun _ => ⟨rfl, rfl, rfl, by decide⟩⟩
  | case5 => cases h; exact ⟨58#8, PktSpec.Chain.done (by decide), rfl, fun e => by subst e; exact Headers.last (by decide), fun _ => ⟨rfl, rfl, rfl, by decide⟩⟩
  | case6 => cases h
  | case7 off fh first h1 h2 h3 h4 h5 ih =>
    obtain ⟨n, a0, a1, a2, a3⟩ := ih h (by omega)
    have h4' : fh = 0 := by simpa using h1
    obtain ⟨b1, b2, rfl, b4⟩ := a3 (by omega)
    refine ⟨_, PktSpec.Chain.frag a0, a1, fun _ => ?_, fun q => absurd h4' q⟩
    have e : fhOf m = some off := by unfold fhOf; rw [b1, if_neg h0]
    rw [e, b2, ← field1 d (by omega)]
    exact Headers.frag (by rw [field1 d (by omega)]; exact b4)
  | case8 => cases h
  | case9 => cases h
  | case10 off nh fh first h1 h2 h3 h4 h5 h6 h7 ih =>
    obtain ⟨n, a0, a1, a2, a3⟩ := ih h (by omega)
    have h6' : fh = 0 := by simpa using h6
    refine ⟨n, PktSpec.Chain.opt (by simpa using h5) (by rw [Nat.mul_comm]; exact a0), a1, fun e => ?_, fun q => absurd h6' q⟩
    refine Headers.skip ?_ ?_
    · rcases h5 with rfl | rfl | rfl <;> decide
    · rw [field1 d (by omega), field1 d (by omega), Nat.mul_comm]
      exact a2 e
  | case11 => cases h
  | case12 off nh fh first h1 h2 h3 h4 h5 =>
    cases h
    have hn : nh.toNat ∉ [0, 43, 44, 60] := by
      simp only [List.mem_cons, List.not_mem_nil, or_false, nat8 nh (show 0 < 256 by omega), nat8 nh (show 43 < 256 by omega), nat8 nh (show 44 < 256 by omega), nat8 nh (show 60 < 256 by omega)]
      rintro (q | q | q | q)
      · exact h5 (Or.inl q)
      · exact h5 (Or.inr (Or.inl q))
      · exact h4 q
      · exact h5 (Or.inr (Or.inr q))
    refine ⟨nh, PktSpec.Chain.done ?_, by simp [PktSpec.proto6, h1, h2, h3], fun e => by subst e; exact Headers.last hn, fun _ => ⟨rfl, rfl, rfl, hn⟩⟩
    simp only [List.mem_cons, List.not_mem_nil, or_false]
    rintro (q | q | q | q)
    · exact h5 (Or.inl q)
    · exact h5 (Or.inr (Or.inl q))
    · exact h5 (Or.inr (Or.inr q))
    · exact h4 q

theorem headers6 {s : Pkt.Skb} {a : Acc} (h : Pkt.init6 s = some a) (h40 : 40 ≤ a.skb.data.length) :
    ∃ n : Byte, Headers a.skb.data 40 (next6 a.skb.data) (fhOf a.m) a.m.l4 n.toNat ∧ PktSpec.Chain a.skb.data 40 (at8 a.skb.data 6) a.m.l4 n ∧ a.m.proto = PktSpec.proto6 n := by
  have A := Pkt.init6_ok h
  have hs := A.sum
  rw [← A.data] at hs
  unfold Pkt.summarize6 at hs
  split at hs
  · obtain ⟨n, hc, h1, h2, -⟩ := walk6_headers hs (by omega)
    refine ⟨n, ?_, hc, h1⟩
    have := h2 rfl
    unfold next6
    rw [field1 _ (by omega)]
    exact this
  · cases hs

/-! ## Fields -/

theorem fields4 (K : Kernel) (h : Hdr.Ip4) (r : List Byte) :
    ver (bytes4 K h ++ r) = 4 ∧ words4 (bytes4 K h ++ r) = 5 ∧ tos4 (bytes4 K h ++ r) = h.tos.toNat ∧ len4 (bytes4 K h ++ r) = h.totLen.toNat ∧
    id4 (bytes4 K h ++ r) = h.id.toNat ∧ off4 (bytes4 K h ++ r) = HdrSpec.offset4 h.fragOff ∧ (mf4 (bytes4 K h ++ r) = 1 ↔ HdrSpec.more4 h.fragOff) ∧
    (df4 (bytes4 K h ++ r) = 1 ↔ HdrSpec.dont4 h.fragOff) ∧ ttl4 (bytes4 K h ++ r) = h.ttl.toNat ∧ proto4 (bytes4 K h ++ r) = h.proto.toNat ∧
    src4 (bytes4 K h ++ r) = h.src.toNat ∧ dst4 (bytes4 K h ++ r) = h.dst.toNat ∧ CsumSpec.Valid ((bytes4 K h ++ r).take 20) := by
  have hv : CsumSpec.Valid (bytes4 K h) := Csum.ipHeader_valid K (by simp [Csum.be16_length, Csum.be32_length]) (show (0x45#8 : Byte) ≠ 0#8 by decide)
  have hl := bytes4_length K h
  obtain ⟨x, y, e⟩ : ∃ x y, bytes4 K h = [0x45#8, h.tos] ++ Csum.be16 h.totLen ++ Csum.be16 h.id ++ Csum.be16 h.fragOff ++ [h.ttl, h.proto, x, y] ++ Csum.be32 h.src ++ Csum.be32 h.dst := by
    unfold bytes4 Csum.ipHeader
    generalize hc : Csum.store K.le _ = c
    have hc' : c.length = 2 := by rw [← hc]; exact Csum.store_length _ _
    match c, hc' with
    | [x, y], _ => exact ⟨x, y, rfl⟩
  have ef : field (bytes4 K h ++ r) 6 2 = h.fragOff.toNat := by rw [e, ← value_be16]; rfl
  have e0 : field (bytes4 K h ++ r) 0 1 = 69 := by rw [e]; rfl
  refine ⟨?_, ?_, ?_, ?_, ?_, ?_, ?_, ?_, ?_, ?_, ?_, ?_, ?_⟩
  · unfold ver; rw [e0]
  · unfold words4; rw [e0]
  · rw [e, ← value1]; rfl
  · rw [e, ← value_be16]; rfl
  · rw [e, ← value_be16]; rfl
  · unfold off4 HdrSpec.offset4; rw [ef]
  · unfold mf4 HdrSpec.more4; rw [ef]
  · unfold df4 HdrSpec.dont4; rw [ef]
  · rw [e, ← value1]; rfl
  · rw [e, ← value1]; rfl
  · rw [e, ← value_be32]; rfl
  · rw [e, ← value_be32]; rfl
  · rw [List.take_left' hl]; exact hv

/-- The fields of an IPv6 packet that was read. -/
theorem read6 {d : List Byte} (h : 40 ≤ d.length) :
    (Hdr.trafficClass (ip6 d)).toNat = class6 d ∧ (ip6 d).hop.toNat = hop6 d ∧ (ip6 d).src.toNat = src6 d ∧ (ip6 d).dst.toNat = dst6 d := by
  have e128 : ∀ k, k + 16 ≤ 40 → (BitVec.ofNat 128 (num ((d.drop k).take 16))).toNat = field d k 16 := by
    intro k hk
    unfold field
    rw [value_num, BitVec.toNat_ofNat]
    exact Nat.mod_eq_of_lt (num_lt (n := 16) (by rw [List.length_take, List.length_drop]; omega))
  refine ⟨?_, ?_, ?_, ?_⟩
  · rw [trafficClass_toNat]
    unfold class6
    rw [field2 d (by omega)]
    show ((at8 d 0).setWidth 4).toNat * 16 + (at8 d 1).toNat / 16 = _
    have h1 := (at8 d 0).isLt
    have h2 := (at8 d 1).isLt
    rw [BitVec.toNat_setWidth]
    unfold at16
    simp only [Nat.zero_add]
    omega
  · exact (field1 d (by omega)).symm
  · exact e128 8 (by omega)
  · exact e128 24 (by omega)

theorem readFrag {d : List Byte} {k : Nat} (h : k + 8 ≤ d.length) :
    HdrSpec.offset6 (frag ((d.drop k).take 8)).fragOff = foff d k ∧ (HdrSpec.more6 (frag ((d.drop k).take 8)).fragOff ↔ fmore d k = 1) ∧ (frag ((d.drop k).take 8)).id.toNat = fid d k := by
  have hl : ((d.drop k).take 8).length = 8 := by simp; omega
  have e1 : field ((d.drop k).take 8) 2 2 = field d (k + 2) 2 := by
    unfold field
    rw [List.drop_take, List.take_take, List.drop_drop]
    rfl
  have e2 : field ((d.drop k).take 8) 4 4 = field d (k + 4) 4 := by
    unfold field
    rw [List.drop_take, List.take_take, List.drop_drop]
    rfl
  generalize (d.drop k).take 8 = l at *
  have f1 : (frag l).fragOff.toNat = field l 2 2 := by
    rw [field2 l (by omega)]
    show (BitVec.ofNat 16 (at16 l 2)).toNat = _
    rw [BitVec.toNat_ofNat]
    unfold at16
    have h1 := (at8 l 2).isLt
    have h2 := (at8 l (2 + 1)).isLt
    omega
  have f2 : (frag l).id.toNat = field l 4 4 := by
    unfold field
    show (BitVec.ofNat 32 (num ((l.drop 4).take 4))).toNat = _
    rw [value_num, BitVec.toNat_ofNat]
    exact Nat.mod_eq_of_lt (num_lt (n := 4) (by rw [List.length_take, List.length_drop]; omega))
  refine ⟨?_, ?_, ?_⟩
  · unfold HdrSpec.offset6 foff; rw [f1, e1]
  · unfold HdrSpec.more6 fmore; rw [f1, e1]
  · unfold fid; rw [f2, e2]

/-- What is configured about the TOS. -/
def tosOf (c : Hdr.Cfg) : Option Byte := if c.resetTos then some c.newTos else none

theorem header64_of {c : Hdr.Cfg} {K : Kernel} {s4 d4 : BitVec 32} {d r : List Byte} {h4 : Hdr.Ip4} {segleft : Option Nat} {di : Hdr.DfIn} {sel : BitVec 16} {m : Meta} {n : Byte}
    (hd : 40 ≤ d.length)
    (hx : Hdr.ext64 c (ip6 d) (if m.fh = 0 then none else some (frag ((d.drop m.fh).take 8))) n segleft di sel s4 d4 = .ok h4)
    (hm : m.fh = 0 ∨ m.fh + 8 ≤ d.length) (hdi : di.len = 20 + r.length) (hlen : r.length ≤ 65515) :
    Header64 c.dscp (tosOf c) s4 d4 d (fhOf m) n.toNat (bytes4 K h4 ++ r) ∧
    (fhOf m = none → di.inner = false → di.fragList = false → di.gso = 0 → (df4 (bytes4 K h4 ++ r) = 1 ↔ 1260 < 20 + r.length)) ∧ segleft = none := by
  obtain ⟨t1, t2⟩ := Hdr.hop64_decrement hx
  have htos := Hdr.tos64_exact hx
  obtain ⟨r1, r2, r3, r4⟩ := read6 hd
  obtain ⟨e1, e2, e3, e4, e5, e6, e7, e8, e9, e10, e11, e12, e13⟩ := fields4 K h4 r
  have hl := bytes4_length K h4
  generalize hf : (if m.fh = 0 then none else some (frag ((d.drop m.fh).take 8))) = f at hx
  have hcases : segleft = none ∧ h4.totLen = BitVec.ofNat 16 di.len ∧ h4.id = Hdr.id64 f sel ∧ h4.fragOff = Hdr.fragOff64 f di ∧ h4.proto = Hdr.xlatProto n ∧ h4.src = s4 ∧ h4.dst = d4 := by
    unfold Hdr.ext64 at hx
    split at hx
    · cases hx
    · split at hx
      · cases hx
      · cases hx
        exact ⟨rfl, rfl, rfl, rfl, rfl, rfl, rfl⟩
  obtain ⟨x0, x1, x2, x3, x4, x5, x6⟩ := hcases
  have hlt := mf4_lt (bytes4 K h4 ++ r)
  have hdf : df4 (bytes4 K h4 ++ r) < 2 := Nat.mod_lt _ (by omega)
  have hpr : proto4 (bytes4 K h4 ++ r) = to4 n.toNat := by
    rw [e10, x4]
    unfold Hdr.xlatProto to4
    by_cases hp : n = 58#8
    · rw [hp]; rfl
    · have : ¬ n.toNat = 58 := fun h => hp (BitVec.eq_of_toNat_eq h)
      rw [if_neg this, if_neg (by simpa using hp)]
  have hts : tos4 (bytes4 K h4 ++ r) + (if c.dscp then (match tosOf c with | none => class6 d | some t => t.toNat) % 4 else 0) =
      match tosOf c with | none => class6 d | some t => t.toNat := by
    rw [e3]
    unfold tosOf
    cases hrt : c.resetTos
    · rw [hrt] at htos
      simp only [Bool.false_eq_true, if_false] at htos ⊢
      rw [← r1]
      exact htos
    · rw [hrt] at htos
      simp only [if_true] at htos ⊢
      exact htos
  have hln : len4 (bytes4 K h4 ++ r) = (bytes4 K h4 ++ r).length := by
    rw [e4, x1, hdi, ofNat_lt16 (by omega), List.length_append, hl]
  by_cases hfh : m.fh = 0
  · rw [if_pos hfh] at hf
    subst hf
    have hfo : fhOf m = none := by unfold fhOf; rw [if_pos hfh]
    obtain ⟨g1, g2, g3, g4, g5⟩ := Hdr.nofrag64 di sel
    rw [hfo]
    rw [x3] at e6 e7 e8
    refine ⟨⟨e1, e2, hts, hln, ?_, ?_, ?_, ?_, ?_, ?_, hpr, ?_, ?_, e13⟩, ?_, x0⟩
    · rw [e6, g1]; rfl
    · show _ = 0
      have : ¬ mf4 (bytes4 K h4 ++ r) = 1 := fun q => g2 (e7.1 q)
      omega
    · intro k hk; cases hk
    · intro k hk; cases hk
    · rw [e9, ← r2]; omega
    · rw [e9]; omega
    · rw [e11, x5]
    · rw [e12, x6]
    · intro _ i1 i2 i3
      rw [e8, g5 i1 i2 i3, hdi]
  · rw [if_neg hfh] at hf
    subst hf
    have hfo : fhOf m = some m.fh := by unfold fhOf; rw [if_neg hfh]
    obtain ⟨g1, g2, g3, g4⟩ := Hdr.frag64 (frag ((d.drop m.fh).take 8)) di sel
    obtain ⟨q1, q2, q3⟩ := readFrag (d := d) (k := m.fh) (by omega)
    rw [hfo]
    rw [x3] at e6 e7 e8
    refine ⟨⟨e1, e2, hts, hln, ?_, ?_, ?_, ?_, ?_, ?_, hpr, ?_, ?_, e13⟩, ?_, x0⟩
    · rw [e6, g1, q1]; rfl
    · show _ = fmore d m.fh
      rw [g2, q2] at e7
      have : fmore d m.fh < 2 := Nat.mod_lt _ (by omega)
      omega
    · intro k hk
      have : ¬ df4 (bytes4 K h4 ++ r) = 1 := fun q => g3 (e8.1 q)
      omega
    · intro k hk
      cases hk
      rw [e5, x2, g4, q3]
    · rw [e9, ← r2]; omega
    · rw [e9]; omega
    · rw [e11, x5]
    · rw [e12, x6]
    · intro q; cases q

theorem echo_types64 {t c t' c' : Byte} (h : Icmp.xlat64Type t c = some (t', c')) (hn : Icmp.isIcmp6Error t = true → False) :
    c' = 0#8 ∧ (t = 128#8 ∧ t' = 8#8 ∨ t = 129#8 ∧ t' = 0#8) := by
  have h' := (Icmp.icmp64_table _ _ _ _).1 h
  cases h'
  case echoRequest => exact ⟨rfl, Or.inl ⟨rfl, rfl⟩⟩
  case echoReply => exact ⟨rfl, Or.inr ⟨rfl, rfl⟩⟩
  all_goals exact absurd rfl hn

theorem first6_off {d : List Byte} {m : Meta} (h : m.fh = 0 ∨ m.fh + 8 ≤ d.length) : isFirst6 d m = true ↔ offAt d (fhOf m) = 0 := by
  unfold isFirst6 fhOf
  by_cases h0 : m.fh = 0
  · simp [h0, offAt]
  · rw [if_neg h0]
    unfold Pkt.first6 offAt foff
    simp only [h0, decide_false, Bool.false_or]
    rw [field2 d (by omega)]
    simp

section

variable {x : Ctx} {a : Acc} {s0 : Pkt.Skb}

theorem segment64_core {s4 d4 : BitVec 32} {seg out : List Byte} {sm : Summed} {n : Byte} (hd : Pkt.HdrEnd a.skb.data a.m (isFirst6 a.skb.data a.m)) (hpay : a.m.pay ≤ a.skb.data.length)
    (hfh : a.m.fh = 0 ∨ a.m.fh + 8 ≤ a.skb.data.length)
    (hne : a.m.proto = L4.icmp → Icmp.isIcmp6Error (at8 a.skb.data a.m.l4) = true → False)
    (hn : a.m.proto = PktSpec.proto6 n)
    (hs : (if isFirst6 a.skb.data a.m = true then seg64 x s4 d4 a else some (a.skb.data.drop a.m.l4, x.sm)) = some (seg, sm))
    (ho : out = if isFirst6 a.skb.data a.m = true then finished x.K sm a.m.proto seg else seg) :
    Segment x.ports x.id 128 129 8#8 0#8 (offAt a.skb.data (fhOf a.m) = 0) n.toNat 58 (a.skb.data.drop a.m.l4) out ∧
    Sums64 x.sm (ip6 a.skb.data).src (ip6 a.skb.data).dst s4 d4 (offAt a.skb.data (fhOf a.m) = 0) n.toNat (a.skb.data.drop a.m.l4) out := by
  rw [proto6_toNat] at hn
  have hfo := first6_off (d := a.skb.data) (m := a.m) hfh
  generalize hD : a.skb.data = d at *
  have hsl : (d.drop a.m.l4).length = d.length - a.m.l4 := List.length_drop
  by_cases hf : offAt d (fhOf a.m) = 0
  · have hf6 := hfo.2 hf
    rw [if_pos hf6] at hs ho
    rw [hf6] at hd
    unfold Pkt.HdrEnd at hd
    simp only [if_true] at hd
    by_cases h6 : n.toNat = 6
    · rw [if_pos h6] at hn
      simp only [hn] at hd
      unfold seg64 at hs
      simp only [hn, hD] at hs
      have h20 : 20 ≤ (d.drop a.m.l4).length := by omega
      obtain ⟨ck, h1, h2⟩ := xlat64_put x.K Csum.tcp false x.sm x.ports (ip6 d).src (ip6 d).dst (d.drop a.m.l4) s4 d4
      have hpl := Csum.setPorts_length x.ports (l := d.drop a.m.l4) (by omega)
      cases hs
      have hO : Only 16 (ported x.ports (d.drop a.m.l4)) out := by
        rw [ho, hn]
        unfold Csum.tcp64
        rw [h2]
        obtain ⟨ck', g1, g2⟩ := finished_put (K := x.K) (sm := (Csum.xlat64 x.K Csum.tcp false x.sm x.ports (ip6 d).src (ip6 d).dst (d.drop a.m.l4) s4 d4).summed) (proto := L4.tcp)
          (l := Csum.setPorts x.ports (d.drop a.m.l4)) (ck := ck) (k := 16) (by omega) h1 (Or.inl ⟨rfl, rfl⟩)
        have e16 : Csum.tcp.off = 16 := rfl
        rw [e16, g2, ← setPorts_ported]
        exact only_put (by omega) g1
      refine ⟨⟨fun q => absurd hf q, fun q => absurd h6 q, fun _ _ => hO, fun _ q => by omega, fun _ q => by omega⟩,
        ⟨?_, ?_, fun _ q => by omega, fun _ q => by omega, fun _ q => by omega, fun _ q => by omega⟩⟩
      · intro _ _ hsm extra len hlen'
        have : out = (Csum.tcp64 x.K x.sm x.ports (ip6 d).src (ip6 d).dst (d.drop a.m.l4) s4 d4).seg := by
          rw [ho]
          unfold finished Csum.tcp64 Csum.xlat64
          simp [hsm]
        rw [this]
        exact Csum.tcp64_valid x.K hsm x.ports _ _ h20 s4 d4 extra hlen'
      · intro _ _ hsm
        have e : out.length = (d.drop a.m.l4).length := by rw [hO.1, ← setPorts_ported, hpl]
        rw [e, ho, hn, hsm]
        have : (Csum.tcp64 x.K Summed.partial_ x.ports (ip6 d).src (ip6 d).dst (d.drop a.m.l4) s4 d4).summed = Summed.partial_ := by
          unfold Csum.tcp64 Csum.xlat64; simp
        rw [this]
        exact Csum.xlat64_partial_valid x.K Csum.tcp_ok false x.ports _ _ h20 s4 d4
    · rw [if_neg h6] at hn
      by_cases h17 : n.toNat = 17
      · rw [if_pos h17] at hn
        simp only [hn] at hd
        unfold seg64 at hs
        simp only [hn, hD] at hs
        have h8 : 8 ≤ (d.drop a.m.l4).length := by omega
        obtain ⟨ck, h1, h2⟩ := xlat64_put x.K Csum.udp true x.sm x.ports (ip6 d).src (ip6 d).dst (d.drop a.m.l4) s4 d4
        have hpl := Csum.setPorts_length x.ports (l := d.drop a.m.l4) (by omega)
        cases hs
        have hO : Only 6 (ported x.ports (d.drop a.m.l4)) out := by
          rw [ho, hn]
          unfold Csum.udp64
          rw [h2]
          obtain ⟨ck', g1, g2⟩ := finished_put (K := x.K) (sm := (Csum.xlat64 x.K Csum.udp true x.sm x.ports (ip6 d).src (ip6 d).dst (d.drop a.m.l4) s4 d4).summed) (proto := L4.udp)
            (l := Csum.setPorts x.ports (d.drop a.m.l4)) (ck := ck) (k := 6) (by omega) h1 (Or.inr ⟨rfl, rfl⟩)
          have e6 : Csum.udp.off = 6 := rfl
          rw [e6, g2, ← setPorts_ported]
          exact only_put (by omega) g1
        have heq : x.sm ≠ Summed.partial_ → out = (Csum.udp64 x.K x.sm x.ports (ip6 d).src (ip6 d).dst (d.drop a.m.l4) s4 d4).seg := by
          intro hsm
          rw [ho]
          unfold finished Csum.udp64 Csum.xlat64
          simp [hsm]
        refine ⟨⟨fun q => absurd hf q, fun _ q => absurd h17 q, fun _ q => by omega, fun _ _ => hO, fun _ q => by omega⟩,
          ⟨fun _ q => by omega, fun _ q => by omega, ?_, ?_, ?_, fun _ q => by omega⟩⟩
        · intro _ _ hsm extra len hlen'
          rw [heq hsm]
          exact Csum.udp64_valid x.K hsm x.ports _ _ h8 s4 d4 extra hlen'
        · intro _ _ hsm
          have e : out.length = (d.drop a.m.l4).length := by rw [hO.1, ← setPorts_ported, hpl]
          rw [e, ho, hn, hsm]
          have : (Csum.udp64 x.K Summed.partial_ x.ports (ip6 d).src (ip6 d).dst (d.drop a.m.l4) s4 d4).summed = Summed.partial_ := by
            unfold Csum.udp64 Csum.xlat64; simp
          rw [this]
          exact Csum.xlat64_partial_valid x.K Csum.udp_ok true x.ports _ _ h8 s4 d4
        · intro _ _ hsm q
          have e : out.length = (d.drop a.m.l4).length := by rw [hO.1, ← setPorts_ported, hpl]
          rw [field_zero (by omega), heq hsm] at q
          exact Csum.udp64_nonzero x.K hsm x.ports _ _ h8 s4 d4 q
      · rw [if_neg h17] at hn
        by_cases h1 : n.toNat = 58
        · rw [if_pos h1] at hn
          simp only [hn] at hd
          unfold seg64 at hs
          simp only [hn, hD] at hs
          have h8 : 8 ≤ (d.drop a.m.l4).length := by omega
          have e0 : at8 (d.drop a.m.l4) 0 = at8 d a.m.l4 := by
            unfold at8
            simp [List.getD_eq_getElem?_getD]
          cases hu : Icmp.xlat64Type (at8 (d.drop a.m.l4) 0) (at8 (d.drop a.m.l4) 1) with
          | none => rw [hu] at hs; cases hs
          | some t =>
            rw [hu] at hs
            cases hs
            obtain ⟨t, c⟩ := t
            rw [e0] at hu
            obtain ⟨rfl, ht'⟩ := echo_types64 hu (hne hn)
            have eo : out = Csum.echo64 x.K t 0#8 x.id (ip6 d).src (ip6 d).dst (d.drop a.m.l4) := by
              rw [ho, hn, finished_other (by decide) (by decide)]
            have hO : Only 2 (echoed t x.id (d.drop a.m.l4)) out := by
              rw [eo]
              unfold Csum.echo64
              rw [echo_put _ _ (Csum.store_length _ _) _ h8]
              exact only_put (by rw [echoed_length _ _ h8]; omega) (Csum.store_length _ _)
            refine ⟨⟨fun q => absurd hf q, fun _ _ q => absurd h1 q, fun _ q => by omega, fun _ q => by omega, fun _ _ => ⟨t, ?_, hO⟩⟩,
              ⟨fun _ q => by omega, fun _ q => by omega, fun _ q => by omega, fun _ q => by omega, fun _ q => by omega, ?_⟩⟩
            · rw [← at8_field (by omega), e0]
              rcases ht' with ⟨q1, q2⟩ | ⟨q1, q2⟩
              · exact Or.inl ⟨by rw [q1]; rfl, q2⟩
              · exact Or.inr ⟨by rw [q1]; rfl, q2⟩
            · rintro _ _ ⟨b, hb, hb0⟩
              rw [eo] at hb ⊢
              rw [Csum.echo64_valid_partial x.K t 0#8 x.id _ _ h8]
              exact ⟨fun q => q.1, fun q => ⟨q, fun z => hb0 (z b hb)⟩⟩
        · rw [if_neg h1] at hn
          unfold seg64 at hs
          simp only [hn, hD] at hs
          cases hs
          rw [hn, finished_other (by decide) (by decide)] at ho
          exact ⟨⟨fun _ => ho, fun _ _ _ => ho, fun _ q => absurd q h6, fun _ q => absurd q h17, fun _ q => absurd q h1⟩,
            ⟨fun _ q => absurd q h6, fun _ q => absurd q h6, fun _ q => absurd q h17, fun _ q => absurd q h17, fun _ q => absurd q h17, fun _ q => absurd q h1⟩⟩
  · have hf6 : ¬ isFirst6 d a.m = true := fun q => hf (hfo.1 q)
    rw [if_neg hf6] at hs ho
    cases hs
    exact ⟨⟨fun _ => ho, fun _ _ _ => ho, fun q => absurd q hf, fun q => absurd q hf, fun q => absurd q hf⟩,
      ⟨fun q => absurd q hf, fun q => absurd q hf, fun q => absurd q hf, fun q => absurd q hf, fun q => absurd q hf, fun q => absurd q hf⟩⟩

theorem segment64_of {s4 d4 : BitVec 32} {seg out : List Byte} {sm : Summed} {n : Byte} (h : Pkt.init6 s0 = some a) (hin : s0.linear ≤ s0.data.length) (hi : a.inner = none)
    (hn : a.m.proto = PktSpec.proto6 n)
    (hs : (if isFirst6 a.skb.data a.m = true then seg64 x s4 d4 a else some (a.skb.data.drop a.m.l4, x.sm)) = some (seg, sm))
    (ho : out = if isFirst6 a.skb.data a.m = true then finished x.K sm a.m.proto seg else seg) :
    Segment x.ports x.id 128 129 8#8 0#8 (offAt a.skb.data (fhOf a.m) = 0) n.toNat 58 (a.skb.data.drop a.m.l4) out ∧
    Sums64 x.sm (ip6 a.skb.data).src (ip6 a.skb.data).dst s4 d4 (offAt a.skb.data (fhOf a.m) = 0) n.toNat (a.skb.data.drop a.m.l4) out := by
  have A := Pkt.init6_ok h
  obtain ⟨-, hm1, hm2, -, hd⟩ := Pkt.summarize6_meta A.sum
  have hpay := A.pay
  have hwi := A.within hin
  have hD := A.data
  refine segment64_core (by rw [hD]; exact hd) (by rw [hD]; omega) (by rw [hD]; omega) ?_ hn hs ho
  intro hp he
  rw [hD] at he
  obtain ⟨i, hi'⟩ := (A.icmp hp).2.2 he
  rw [hi] at hi'
  cases hi'

end

end Jool.Wire
