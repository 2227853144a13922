import Verif.Lemmas.Wire
/-
The bytes that leave: new headers, and the segment of `Csum`.
-/
namespace Jool.Wire
open Jool.Pkt (Byte L4 Meta Acc at8 at16 first4 fragmented4 ihl4 isFirst6 tcpLen)
open Jool.Csum (Kernel Summed put setPorts store)
open Jool.Build (transport behind Holds two ipv6 ipv4 above46)

set_option linter.unusedVariables false

/-- The segment after the hardware is done with it. -/
def finished (K : Kernel) (sm : Summed) (proto : L4) (seg : List Byte) : List Byte :=
  if sm = Summed.partial_ then
    match proto with
    | L4.tcp => Csum.finish K 16 seg
    | L4.udp => Csum.finish K 6 seg
    | _ => seg
  else seg

theorem leave_append {K : Kernel} {sm : Summed} {proto : L4} {A seg : List Byte} {n : Nat} (h : A.length = n) : leave K sm proto n (A ++ seg) = A ++ finished K sm proto seg := by
  unfold leave finished
  rw [List.take_left' h, List.drop_left' h]
  split
  · cases proto <;> rfl
  · rfl

theorem bytes6_length (h : Hdr.Ip6) : (bytes6 h).length = 40 := rfl

theorem bytesFrag_length (f : Hdr.Frag) : (bytesFrag f).length = 8 := rfl

theorem bytes4_length (K : Kernel) (h : Hdr.Ip4) : (bytes4 K h).length = 20 := by
  unfold bytes4 Csum.ipHeader
  rw [Csum.put_length _ _ _ (by simp [Csum.be16_length, Csum.be32_length]) (Csum.store_length _ _)]
  simp [Csum.be16_length, Csum.be32_length]

theorem sized (x : Ctx) {l3 : Option (List Byte) → List Byte} {fr seg : List Byte} {n : Nat} (h3 : ∀ f, (l3 f).length = n) (hf : fr.length = 8) : (vals x l3 fr seg).Sized n :=
  ⟨h3, hf, by
    intro l e
    unfold vals at e
    simp only at e
    cases hp : x.ports with
    | none => rw [hp] at e; cases e
    | some q => rw [hp] at e; cases e; rfl, fit_length _ _, fit_length _ _, fit_length _ _, rfl, rfl⟩

theorem needsFrag_eq (d : List Byte) : Hdr.needsFrag (ip4 d) = fragmented4 d 0 := by
  rw [Bool.eq_iff_iff, Hdr.needsFrag_iff]
  unfold fragmented4 HdrSpec.offset4 HdrSpec.more4 ip4
  have h1 := (at8 d (0 + 6)).isLt
  have h2 := (at8 d (0 + 6 + 1)).isLt
  have e : (BitVec.ofNat 16 (at16 d 6)).toNat = at16 d (0 + 6) := by
    rw [BitVec.toNat_ofNat]
    unfold at16
    simp only [Nat.zero_add] at *
    omega
  simp only [e, bne_iff_ne, ne_eq]
  omega

/-- The headers above the transport header. -/
def top46 (h6 : Hdr.Ip6) (f : Option Hdr.Frag) : List Byte := bytes6 h6 ++ match f with
  | some f => bytesFrag f
  | none => []

theorem top46_length (h6 : Hdr.Ip6) (f : Option Hdr.Frag) : (top46 h6 f).length = 40 + if f.isSome then 8 else 0 := by
  unfold top46
  cases f <;> simp [bytes6_length, bytesFrag_length]

theorem ipv6_top {h6 : Hdr.Ip6} {f : Option Hdr.Frag} {rest : List Byte} (h : h6.payloadLen = BitVec.ofNat 16 ((top46 h6 f).length - 40 + rest.length)) :
    ipv6 (top46 h6 f) rest = top46 h6 f ++ rest := by
  unfold ipv6
  have hl := top46_length h6 f
  have e : (top46 h6 f).length + rest.length - 40 = (top46 h6 f).length - 40 + rest.length := by omega
  rw [e, two_be16, ← h]
  rfl

theorem behind_length {v : Build.Vals} {k : Nat} (hv : v.Sized k) {first : Bool} {d : List Byte} {m : Meta} (hle : m.l4 ≤ m.pay) (hp : m.pay ≤ d.length)
    (hen : first = true → Build.Enough m.proto (m.pay - m.l4)) (hnf : first = false → m.pay = m.l4) : (behind v first d m).length = d.length - m.l4 := by
  have hl : ((d.drop m.l4).take (m.pay - m.l4)).length = m.pay - m.l4 := by
    rw [List.length_take, List.length_drop]
    omega
  unfold behind
  rw [List.length_append, List.length_drop]
  cases first with
  | true =>
    rw [if_pos rfl, ← Build.l4New_spec hv _ (by rw [hl]; exact hen rfl), Build.l4New_len hv (by rw [hl]; exact hen rfl), hl]
    omega
  | false =>
    have := hnf rfl
    simp
    omega

section

variable {x : Ctx} {a : Acc} {s0 : Pkt.Skb} {p : Build.P}

theorem holds_linear (hh : Holds p a) : a.skb.linear ≤ a.skb.data.length := by
  have := hh.frame.length
  omega

/-- 4 to 6: no access outside of the packets, and the bytes that leave. -/
theorem sent46 (s6 d6 : BitVec 128) (h : Pkt.init4 s0 = some a) (hh : Holds p a) (hihl : 20 ≤ ihl4 a.skb.data 0)
    (htcp : first4 a.skb.data 0 = true → a.m.proto = L4.tcp → 20 ≤ tcpLen a.skb.data a.m.l4) (hi : a.inner = none) :
    ∃ r, translate46 x s6 d6 p a = .ok r ∧
      (r ≠ none ↔ x.route = false ∧ (x.hairpin = false → 2 ≤ (ip4 a.skb.data).ttl.toNat) ∧ (first4 a.skb.data 0 = true → seg46 x s6 d6 a ≠ none)) ∧ ∀ o, r = some o →
      ∃ h6 f seg sm, Hdr.common46 x.cfg (ip4 a.skb.data) true x.hairpin false (BitVec.ofNat 16 ((top46 h6 f).length - 40 + seg.length)) s6 d6 = .ok (h6, f) ∧
        (if first4 a.skb.data 0 = true then seg46 x s6 d6 a else some (a.skb.data.drop a.m.l4, x.sm)) = some (seg, sm) ∧
        seg.length = a.skb.data.length - a.m.l4 ∧
        o = top46 h6 f ++ if first4 a.skb.data 0 = true then finished x.K sm a.m.proto seg else seg := by
  unfold translate46
  simp only
  by_cases hrt : x.route = true
  · rw [if_pos hrt]
    exact ⟨none, rfl, by simp [hrt], nofun⟩
  rw [if_neg hrt]
  have hrt : x.route = false := by simpa using hrt
  cases hc : Hdr.common46 x.cfg (ip4 a.skb.data) true x.hairpin false
    (BitVec.ofNat 16 ((40 + if Hdr.needsFrag (ip4 a.skb.data) = true then 8 else 0) - 40 + (a.skb.data.length - a.m.l4))) s6 d6 with
  | ttl =>
    refine ⟨none, rfl, ?_, nofun⟩
    have : x.hairpin = false ∧ (ip4 a.skb.data).ttl.toNat ≤ 1 := by
      unfold Hdr.common46 at hc
      simp only [Bool.true_and] at hc
      split at hc
      · rename_i q
        split at hc
        · exact ⟨by simpa using q, by assumption⟩
        · cases hc
      · cases hc
    simp only [ne_eq, not_true_eq_false, false_iff]
    rintro ⟨-, q, -⟩
    have := q this.1
    omega
  | segmentsLeft l =>
    unfold Hdr.common46 at hc
    simp only at hc
    split at hc
    · split at hc <;> cases hc
    · cases hc
  | srcRoute =>
    unfold Hdr.common46 at hc
    simp only at hc
    split at hc
    · split at hc <;> cases hc
    · cases hc
  | ok hf =>
    obtain ⟨h6, f⟩ := hf
    simp only
    cases hs : (if first4 a.skb.data 0 = true then seg46 x s6 d6 a else some (a.skb.data.drop a.m.l4, x.sm)) with
    | none =>
      refine ⟨none, rfl, ?_, nofun⟩
      simp only [ne_eq, not_true_eq_false, false_iff]
      rintro ⟨-, -, q⟩
      split at hs
      · rename_i q'
        exact q q' hs
      · cases hs
    | some q =>
      obtain ⟨seg, sm⟩ := q
      simp only
      have hlv : x.route = false ∧ (x.hairpin = false → 2 ≤ (ip4 a.skb.data).ttl.toNat) ∧ (first4 a.skb.data 0 = true → seg46 x s6 d6 a ≠ none) := by
        refine ⟨hrt, ?_, ?_⟩
        · intro q
          unfold Hdr.common46 at hc
          simp only [q] at hc
          rw [if_pos (show (true && !false) = true from rfl)] at hc
          split at hc
          · cases hc
          · omega
        · intro q q'
          rw [if_pos q, q'] at hs
          cases hs
      obtain ⟨c2, c3, -, -, c5, -⟩ := Hdr.common46_cases hc
      simp only at c2 c3 c5
      have hfr : f.isSome = fragmented4 a.skb.data 0 := by
        rw [c2, ← needsFrag_eq]
        cases Hdr.needsFrag (ip4 a.skb.data) <;> rfl
      have hv := sized x (seg := seg) (l3 := fun _ => bytes6 h6) (fun _ => bytes6_length h6) (bytesFrag_length (f.getD ⟨0, 0, 0, 0⟩))
      obtain ⟨s, e, hp, hb, hIs⟩ := Build.fast46_partial (g := given x (vals x (fun _ => bytes6 h6) (bytesFrag (f.getD ⟨0, 0, 0, 0⟩)) seg)) hv h hh hihl htcp hi
      have hbe : behind ((given x (vals x (fun _ => bytes6 h6) (bytesFrag (f.getD ⟨0, 0, 0, 0⟩)) seg)).vals 0) (first4 a.skb.data 0) a.skb.data a.m = seg :=
        behind46 h htcp (holds_linear hh) hs
      have hab : above46 ((given x (vals x (fun _ => bytes6 h6) (bytesFrag (f.getD ⟨0, 0, 0, 0⟩)) seg)).vals 0) (fragmented4 a.skb.data 0) = top46 h6 f := by
        rw [← hfr]
        unfold above46 top46 given vals
        cases f <;> rfl
      have hsl : seg.length = a.skb.data.length - a.m.l4 := by
        have A := Pkt.init4_ok h
        obtain ⟨hle, hen⟩ := Build.accepted4_hdr h htcp
        have hpay := A.pay
        have hlin := holds_linear hh
        have hd := A.hdr
        rw [← A.data] at hd
        rw [← hbe]
        refine behind_length hv hle (by omega) hen ?_
        intro hf1
        unfold Pkt.HdrEnd at hd
        rw [hf1] at hd
        exact hd
      have hl3 : (40 + if Hdr.needsFrag (ip4 a.skb.data) = true then 8 else 0) = (top46 h6 f).length := by
        rw [top46_length, hfr, needsFrag_eq]
      rw [hab, hbe] at hIs
      rw [hl3, ← hsl] at hc c5
      refine ⟨_, by rw [e]; rfl, ⟨fun _ => hlv, fun _ q => by cases q⟩, ?_⟩
      intro o ho
      have ho := Option.some.inj ho
      beta_reduce at ho
      refine ⟨h6, f, seg, sm, hc, rfl, hsl, ?_⟩
      rw [← ho, hIs.bytes, ipv6_top c5, hl3]
      by_cases hf1 : first4 a.skb.data 0 = true
      · rw [if_pos hf1, if_pos hf1, leave_append rfl]
      · rw [if_neg hf1, if_neg hf1]

theorem ipv4_top {K : Kernel} {h4 : Hdr.Ip4} {rest : List Byte} (h : h4.totLen = BitVec.ofNat 16 (20 + rest.length)) : ipv4 (bytes4 K h4) rest = bytes4 K h4 ++ rest := by
  unfold ipv4
  rw [bytes4_length, two_be16, ← h]
  unfold bytes4 Csum.ipHeader
  generalize store K.le _ = ck
  rfl

theorem l364_some {s4 d4 : BitVec 32} {segleft : Option Nat} {last : Byte} {l : List Byte} (h : l364 x s4 d4 segleft last a none = some l) (f : Option (List Byte)) :
    ∃ h4, Hdr.ext64 x.cfg (ip6 a.skb.data) (f.map frag) last segleft (dfIn x a) x.sel s4 d4 = .ok h4 ∧ l364 x s4 d4 segleft last a f = some (bytes4 x.K h4) := by
  unfold l364 Hdr.ext64 at *
  split at h
  · rename_i h4 hx
    split at hx
    · cases hx
    · rename_i ht
      rw [if_neg ht]
      cases segleft with
      | some l => cases hx
      | none => exact ⟨_, rfl, rfl⟩
  · cases h

/-- 6 to 4: no access outside of the packets, and the bytes that leave. -/
theorem sent64 (s4 d4 : BitVec 32) (segleft : Option Nat) (h : Pkt.init6 s0 = some a) (hh : Holds p a)
    (htcp : isFirst6 a.skb.data a.m = true → a.m.proto = L4.tcp → 20 ≤ tcpLen a.skb.data a.m.l4) (hi : a.inner = none) :
    ∃ n r, PktSpec.Chain a.skb.data 40 (at8 a.skb.data 6) a.m.l4 n ∧ a.m.proto = PktSpec.proto6 n ∧ translate64 x s4 d4 segleft p a = .ok r ∧
      (r ≠ none ↔ segleft = none ∧ 2 ≤ (ip6 a.skb.data).hop.toNat ∧ (isFirst6 a.skb.data a.m = true → seg64 x s4 d4 a ≠ none)) ∧ ∀ o, r = some o →
      ∃ h4 seg sm, Hdr.ext64 x.cfg (ip6 a.skb.data) (if a.m.fh = 0 then none else some (frag ((a.skb.data.drop a.m.fh).take 8))) n segleft (dfIn x a) x.sel s4 d4 = .ok h4 ∧
        (if isFirst6 a.skb.data a.m = true then seg64 x s4 d4 a else some (a.skb.data.drop a.m.l4, x.sm)) = some (seg, sm) ∧
        seg.length = a.skb.data.length - a.m.l4 ∧
        o = bytes4 x.K h4 ++ if isFirst6 a.skb.data a.m = true then finished x.K sm a.m.proto seg else seg := by
  have A := Pkt.init6_ok h
  obtain ⟨n, hch, hpn⟩ := Pkt.summarize6_chain A.sum
  rw [← A.data] at hch
  obtain ⟨h40, hle, hfh, hen, hicf⟩ := Build.accepted6_hdr h htcp
  have hpay := A.pay
  have hlin := holds_linear hh
  obtain ⟨hit, -⟩ := Pkt.iter_complete (lin := a.skb.linear) hch (by omega)
  have hlast : Pkt.last6 a.skb 0 = some (n, a.m.l4) := by
    unfold Pkt.last6
    rw [if_pos (by have := A.ip; omega)]
    exact hit
  refine ⟨n, ?_⟩
  unfold translate64
  simp only [hlast]
  cases hx : l364 x s4 d4 segleft n a none with
  | none =>
    refine ⟨none, hch, hpn, rfl, ?_, nofun⟩
    simp only [ne_eq, not_true_eq_false, false_iff]
    rintro ⟨q1, q2, -⟩
    rw [q1] at hx
    unfold l364 Hdr.ext64 at hx
    rw [if_neg (by omega)] at hx
    cases hx
  | some l =>
    simp only
    have hlv : segleft = none ∧ 2 ≤ (ip6 a.skb.data).hop.toNat := by
      unfold l364 Hdr.ext64 at hx
      split at hx
      · rename_i h4 hx'
        split at hx'
        · cases hx'
        · cases segleft with
          | some l => cases hx'
          | none => exact ⟨rfl, by omega⟩
      · cases hx
    cases hs : (if isFirst6 a.skb.data a.m = true then seg64 x s4 d4 a else some (a.skb.data.drop a.m.l4, x.sm)) with
    | none =>
      refine ⟨none, hch, hpn, rfl, ?_, nofun⟩
      simp only [ne_eq, not_true_eq_false, false_iff]
      rintro ⟨-, -, q⟩
      split at hs
      · rename_i q'
        exact q q' hs
      · cases hs
    | some q =>
      have hlv2 : isFirst6 a.skb.data a.m = true → seg64 x s4 d4 a ≠ none := by
        intro q1 q2
        rw [if_pos q1, q2] at hs
        cases hs
      obtain ⟨seg, sm⟩ := q
      simp only
      have hv := sized x (seg := seg) (l3 := fun f => (l364 x s4 d4 segleft n a f).getD (List.replicate 20 0#8)) (n := 20)
        (fun f => by
          obtain ⟨h4, -, e⟩ := l364_some hx f
          rw [e]
          exact bytes4_length _ _) (fr := [0#8, 0#8, 0#8, 0#8, 0#8, 0#8, 0#8, 0#8]) rfl
      obtain ⟨s, e, hp, hb, hIs⟩ := Build.fast64_partial (g := given x (vals x (fun f => (l364 x s4 d4 segleft n a f).getD (List.replicate 20 0#8))
        [0#8, 0#8, 0#8, 0#8, 0#8, 0#8, 0#8, 0#8] seg)) hv h hh htcp hi
      have hbe : behind ((given x (vals x (fun f => (l364 x s4 d4 segleft n a f).getD (List.replicate 20 0#8)) [0#8, 0#8, 0#8, 0#8, 0#8, 0#8, 0#8, 0#8] seg)).vals 0)
          (isFirst6 a.skb.data a.m) a.skb.data a.m = seg := behind64 h htcp hlin hs
      have hsl : seg.length = a.skb.data.length - a.m.l4 := by
        have hd := (Pkt.summarize6_meta A.sum).2.2.2.2
        rw [← A.data] at hd
        rw [← hbe]
        refine behind_length hv hle (by omega) hen ?_
        intro hf1
        unfold Pkt.HdrEnd at hd
        rw [hf1] at hd
        exact hd
      obtain ⟨h4, e1, e2⟩ := l364_some hx (if a.m.fh = 0 then none else some ((a.skb.data.drop a.m.fh).take 8))
      have el3 : ((given x (vals x (fun f => (l364 x s4 d4 segleft n a f).getD (List.replicate 20 0#8)) [0#8, 0#8, 0#8, 0#8, 0#8, 0#8, 0#8, 0#8] seg)).vals 0).l3
          (if a.m.fh = 0 then none else some ((a.skb.data.drop a.m.fh).take 8)) = bytes4 x.K h4 := by
        show (l364 x s4 d4 segleft n a _).getD _ = _
        rw [e2]
        rfl
      rw [hbe, el3] at hIs
      have htot : h4.totLen = BitVec.ofNat 16 (20 + seg.length) := by
        unfold Hdr.ext64 at e1
        split at e1
        · cases e1
        · split at e1
          · cases e1
          · cases e1
            rw [hsl]
            rfl
      refine ⟨_, hch, hpn, by rw [e]; rfl, ⟨fun _ => ⟨hlv.1, hlv.2, hlv2⟩, fun _ q => by cases q⟩, ?_⟩
      intro o ho
      have ho := Option.some.inj ho
      beta_reduce at ho
      refine ⟨h4, seg, sm, ?_, rfl, hsl, ?_⟩
      · rw [← e1]
        congr 1
        split <;> rfl
      · rw [← ho, hIs.bytes, ipv4_top htot]
        by_cases hf1 : isFirst6 a.skb.data a.m = true
        · rw [if_pos hf1, if_pos hf1, leave_append (bytes4_length _ _)]
        · rw [if_neg hf1, if_neg hf1]

end

end Jool.Wire
