import Verif.Model.Wire
import Verif.Props.Build
import Verif.Props.Csum
import Verif.Props.Header
/-
Bytes and numbers; what the model of the memory and the model of the checksums say is the same packet.
-/
namespace Jool.Wire
open Jool.Pkt (Byte L4 Meta Acc at8 at16 first4 fragmented4 ihl4 isFirst6 tcpLen)
open Jool.Csum (Kernel Summed put setPorts store)
open Jool.Build (transport behind Holds two)

set_option linter.unusedVariables false

/-! ## Numbers -/

theorem num_nil : num [] = 0 := rfl

theorem num_append_one (l : List Byte) (b : Byte) : num (l ++ [b]) = num l * 256 + b.toNat := by
  unfold num
  rw [List.foldl_append]
  rfl

theorem num_bytes (n v : Nat) : num (CsumSpec.bytes n v) = v % 256 ^ n := by
  induction n generalizing v with
  | zero => simp [CsumSpec.bytes, num_nil, Nat.mod_one]
  | succ n ih =>
    have e : CsumSpec.bytes (n + 1) v = CsumSpec.bytes n (v / 256) ++ [BitVec.ofNat 8 v] := by
      unfold CsumSpec.bytes
      rw [List.range_succ_eq_map, List.reverse_cons, List.map_append, ← List.map_reverse, List.map_map]
      simp only [List.map_cons, List.map_nil, Nat.pow_zero, Nat.div_one]
      congr 1
      apply List.map_congr_left
      intro i hi
      simp only [Function.comp, Nat.pow_succ']
      rw [Nat.div_div_eq_div_mul]
    have h2 : v % 256 ^ (n + 1) = v % 256 + 256 * (v / 256 % 256 ^ n) := by rw [Nat.pow_succ', Nat.mod_mul]
    have h3 : (BitVec.ofNat 8 v).toNat = v % 256 := BitVec.toNat_ofNat _ _
    rw [e, num_append_one, ih, h2, h3]
    omega

theorem num_be32 (v : BitVec 32) : num (Csum.be32 v) = v.toNat := by
  rw [← Csum.bytes4, num_bytes]
  exact Nat.mod_eq_of_lt v.isLt

theorem num_be128 (v : BitVec 128) : num (Csum.be128 v) = v.toNat := by
  rw [← Csum.bytes16, num_bytes]
  exact Nat.mod_eq_of_lt v.isLt

theorem num_be16 (v : BitVec 16) : num (Csum.be16 v) = v.toNat := by
  rw [← Csum.bytes2, num_bytes]
  exact Nat.mod_eq_of_lt v.isLt

theorem num_two (a b : Byte) : num [a, b] = a.toNat * 256 + b.toNat := by
  simp [num]

theorem two_be16 (n : Nat) : two n = Csum.be16 (BitVec.ofNat 16 n) := by
  unfold two Csum.be16
  congr 1
  · apply BitVec.eq_of_toNat_eq
    simp only [BitVec.toNat_ofNat, BitVec.extractLsb'_toNat, Nat.shiftRight_eq_div_pow]
    omega
  · congr 1
    apply BitVec.eq_of_toNat_eq
    simp only [BitVec.toNat_ofNat, BitVec.extractLsb'_toNat, Nat.shiftRight_eq_div_pow]
    omega

theorem be16_at (d : List Byte) (k : Nat) : Csum.be16 (BitVec.ofNat 16 (at16 d k)) = [at8 d k, at8 d (k + 1)] := by
  rw [← two_be16]
  unfold two at16
  have h1 := (at8 d k).isLt
  have h2 := (at8 d (k + 1)).isLt
  congr 1
  · apply BitVec.eq_of_toNat_eq
    rw [BitVec.toNat_ofNat]
    omega
  · congr 1
    apply BitVec.eq_of_toNat_eq
    rw [BitVec.toNat_ofNat]
    omega

theorem bytes_num {n : Nat} {l : List Byte} (h : l.length = n) : CsumSpec.bytes n (num l) = l := by
  induction n generalizing l with
  | zero => rw [List.eq_nil_of_length_eq_zero h]; rfl
  | succ n ih =>
    obtain ⟨l', b, rfl⟩ : ∃ l' b, l = l' ++ [b] := ⟨l.dropLast, l.getLast (by intro e; rw [e] at h; cases h), (List.dropLast_append_getLast _).symm⟩
    have hl' : l'.length = n := by simpa using h
    have hb := b.isLt
    have e : ∀ v, CsumSpec.bytes (n + 1) v = CsumSpec.bytes n (v / 256) ++ [BitVec.ofNat 8 v] := by
      intro v
      unfold CsumSpec.bytes
      rw [List.range_succ_eq_map, List.reverse_cons, List.map_append, ← List.map_reverse, List.map_map]
      simp only [List.map_cons, List.map_nil, Nat.pow_zero, Nat.div_one]
      congr 1
      apply List.map_congr_left
      intro i hi
      simp only [Function.comp, Nat.pow_succ']
      rw [Nat.div_div_eq_div_mul]
    rw [e, num_append_one]
    have e1 : (num l' * 256 + b.toNat) / 256 = num l' := by omega
    rw [e1, ih hl']
    congr 2
    apply BitVec.eq_of_toNat_eq
    rw [BitVec.toNat_ofNat]
    omega

theorem num_lt {n : Nat} {l : List Byte} (h : l.length = n) : num l < 256 ^ n := by
  rw [← bytes_num h, num_bytes]
  exact Nat.mod_lt _ (Nat.pow_pos (by omega))

/-! ## The transport segment -/

theorem fit_length (n : Nat) (l : List Byte) : (fit n l).length = n := by
  unfold fit
  rw [List.length_take, List.length_append, List.length_replicate]
  omega

theorem fit_of {n : Nat} {l : List Byte} (h : n ≤ l.length) : fit n l = l.take n := by
  unfold fit
  rw [List.take_append_of_le_length h]

theorem fit_put {l : List Byte} {off : Nat} {ck : List Byte} (h : off ≤ l.length) (hc : ck.length = 2) : fit 2 ((put l off ck).drop off) = ck := by
  have e : (put l off ck).drop off = ck ++ l.drop (off + 2) := by
    unfold put
    rw [List.append_assoc]
    exact List.drop_left' (by rw [List.length_take]; omega)
  rw [e, fit_of (by rw [List.length_append]; omega), List.take_left' hc]

/-- New ports and a new checksum: as bytes of a header and payload, or as a change of the segment. -/
theorem put_ports {ports : Option (BitVec 16 × BitVec 16)} {seg ck : List Byte} {off n : Nat} (h4 : 4 ≤ off) (hn : off + 2 ≤ n) (hs : n ≤ seg.length) :
    (ports.map (fun p => Csum.be16 p.1 ++ Csum.be16 p.2)).getD ((seg.take n).take 4) ++ (((seg.take n).drop 4).take (off - 4)) ++ ck ++ (seg.take n).drop (off + 2) ++ seg.drop n =
      put (setPorts ports seg) off ck := by
  have e1 : (seg.take n).drop (off + 2) ++ seg.drop n = seg.drop (off + 2) := by
    conv_rhs => rw [← List.take_append_drop n seg]
    rw [List.drop_append_of_le_length (by rw [List.length_take]; omega)]
  have e2 : ((seg.take n).drop 4).take (off - 4) = (seg.drop 4).take (off - 4) := by
    rw [List.drop_take, List.take_take, Nat.min_eq_left (by omega)]
  rw [List.append_assoc, e1, e2]
  unfold put
  cases ports with
  | none =>
    simp only [Option.map_none, Option.getD_none, setPorts]
    rw [List.take_take, Nat.min_eq_left (by omega)]
    have e3 : seg.take 4 ++ (seg.drop 4).take (off - 4) = seg.take off := by
      have : off = 4 + (off - 4) := by omega
      conv_rhs => rw [this, List.take_add]
    rw [e3]
  | some q =>
    have hl : (Csum.be16 q.1 ++ Csum.be16 q.2).length = 4 := rfl
    simp only [Option.map_some, Option.getD_some, setPorts]
    generalize Csum.be16 q.1 ++ Csum.be16 q.2 = B at hl
    rw [List.take_append, List.drop_append, List.take_of_length_le (l := B) (by omega), List.drop_of_length_le (l := B) (by omega), hl, List.nil_append, List.drop_drop]
    have : 4 + (off + 2 - 4) = off + 2 := by omega
    rw [this]

/-- A transport header of the model of the memory, if the segment is `o`. -/
theorem transport_tcp {x : Ctx} {l3 : Option (List Byte) → List Byte} {fr seg ck o : List Byte} {n : Nat} (hn : 20 ≤ n) (hs : n ≤ seg.length) (hc : ck.length = 2)
    (ho : o = put (setPorts x.ports seg) 16 ck) : transport (vals x l3 fr o) L4.tcp (seg.take n) ++ seg.drop n = o := by
  have hl := Csum.setPorts_length x.ports (l := seg) (by omega)
  have e : (vals x l3 fr o).tcp = ck := by
    unfold vals
    simp only
    rw [ho]
    exact fit_put (by omega) hc
  unfold transport
  simp only [e]
  rw [ho]
  exact put_ports (off := 16) (by omega) (by omega) hs

theorem transport_udp {x : Ctx} {l3 : Option (List Byte) → List Byte} {fr seg ck o : List Byte} {n : Nat} (hn : n = 8) (hs : n ≤ seg.length) (hc : ck.length = 2)
    (ho : o = put (setPorts x.ports seg) 6 ck) : transport (vals x l3 fr o) L4.udp (seg.take n) ++ seg.drop n = o := by
  have hl := Csum.setPorts_length x.ports (l := seg) (by omega)
  have e : (vals x l3 fr o).udp = ck := by
    unfold vals
    simp only
    rw [ho]
    exact fit_put (by omega) hc
  unfold transport
  simp only [e]
  rw [ho]
  exact put_ports (off := 6) (by omega) (by omega) hs

theorem transport_icmp {x : Ctx} {l3 : Option (List Byte) → List Byte} {fr seg ck o : List Byte} {t c : Byte} {id : Option (BitVec 16)} (hs : 8 ≤ seg.length) (hc : ck.length = 2)
    (ho : o = Csum.echo t c ck id seg) : transport (vals x l3 fr o) L4.icmp (seg.take 8) ++ seg.drop 8 = o := by
  have h1 := Csum.echo_length t c ck hc id hs
  have h2 := Csum.echo_drop t c ck hc id hs
  unfold transport vals
  simp only
  rw [fit_of (by rw [ho, h1]; exact hs), ← h2, ← ho, List.take_append_drop]

/-! ## The segments of `Csum` -/

theorem tcp46_put (K : Kernel) (sm : Summed) (ports : Option (BitVec 16 × BitVec 16)) (s4 d4 : BitVec 32) (seg : List Byte) (s6 d6 : BitVec 128) :
    ∃ ck, ck.length = 2 ∧ (Csum.tcp46 K sm ports s4 d4 seg [] s6 d6).seg = put (setPorts ports seg) 16 ck := by
  unfold Csum.tcp46
  split
  · exact ⟨_, Csum.store_length _ _, rfl⟩
  · split
    · exact ⟨_, Csum.store_length _ _, rfl⟩
    · exact ⟨_, Csum.store_length _ _, rfl⟩

theorem udp46_put {K : Kernel} {sm : Summed} {n m a : Bool} {ports : Option (BitVec 16 × BitVec 16)} {s4 d4 : BitVec 32} {seg : List Byte} {s6 d6 : BitVec 128} {o : Csum.Out}
    (h : Csum.udp46 K sm n m a ports s4 d4 seg [] s6 d6 = some o) : ∃ ck, ck.length = 2 ∧ o.seg = put (setPorts ports seg) 6 ck := by
  unfold Csum.udp46 at h
  split at h
  · split at h
    · cases h
      exact ⟨_, Csum.store_length _ _, rfl⟩
    · cases h
  · split at h
    · cases h
      exact ⟨_, Csum.store_length _ _, rfl⟩
    · split at h
      · cases h
        exact ⟨_, Csum.store_length _ _, rfl⟩
      · cases h
        exact ⟨_, Csum.store_length _ _, rfl⟩

theorem xlat64_put (K : Kernel) (g : Csum.Geo) (m : Bool) (sm : Summed) (ports : Option (BitVec 16 × BitVec 16)) (s6 d6 : BitVec 128) (seg : List Byte) (s4 d4 : BitVec 32) :
    ∃ ck, ck.length = 2 ∧ (Csum.xlat64 K g m sm ports s6 d6 seg s4 d4).seg = put (setPorts ports seg) g.off ck := by
  unfold Csum.xlat64
  simp only
  split
  · exact ⟨_, Csum.store_length _ _, rfl⟩
  · exact ⟨_, Csum.store_length _ _, rfl⟩

theorem behind_first {v : Build.Vals} {d o : List Byte} {m : Meta} (hle : m.l4 ≤ m.pay)
    (ht : transport v m.proto ((d.drop m.l4).take (m.pay - m.l4)) ++ (d.drop m.l4).drop (m.pay - m.l4) = o) : behind v true d m = o := by
  unfold behind
  rw [if_pos rfl, ← ht, List.drop_drop]
  have : m.l4 + (m.pay - m.l4) = m.pay := by omega
  rw [this]

section

variable {x : Ctx} {a : Acc} {s0 : Pkt.Skb}

/-- The segment that the model of the checksums describes is what the model of the memory writes. -/
theorem behind46_of {s6 d6 : BitVec 128} {seg : List Byte} {sm : Summed} {l3 : Option (List Byte) → List Byte} {fr : List Byte} (hd : Pkt.HdrEnd a.skb.data a.m (first4 a.skb.data 0))
    (htcp : first4 a.skb.data 0 = true → a.m.proto = L4.tcp → 20 ≤ tcpLen a.skb.data a.m.l4) (hp : a.m.pay ≤ a.skb.data.length)
    (hs : (if first4 a.skb.data 0 = true then seg46 x s6 d6 a else some (a.skb.data.drop a.m.l4, x.sm)) = some (seg, sm)) :
    behind (vals x l3 fr seg) (first4 a.skb.data 0) a.skb.data a.m = seg := by
  by_cases hf : first4 a.skb.data 0 = true
  · rw [if_pos hf] at hs
    rw [hf] at hd ⊢
    unfold Pkt.HdrEnd at hd
    simp only [if_true] at hd
    have hsl : (a.skb.data.drop a.m.l4).length = a.skb.data.length - a.m.l4 := List.length_drop
    cases hpr : a.m.proto <;> rw [hpr] at hd <;> unfold seg46 at hs <;> simp only [hpr] at hs hd
    · have h20 := htcp hf hpr
      obtain ⟨ck, h1, h2⟩ := tcp46_put x.K x.sm x.ports (ip4 a.skb.data).src (ip4 a.skb.data).dst (a.skb.data.drop a.m.l4) s6 d6
      cases hs
      refine behind_first (by omega) ?_
      rw [hpr]
      exact transport_tcp (by omega) (by omega) h1 h2
    · cases hu : Csum.udp46 x.K x.sm x.nat64 (Hdr.mf4 (ip4 a.skb.data)) x.amend x.ports (ip4 a.skb.data).src (ip4 a.skb.data).dst (a.skb.data.drop a.m.l4) [] s6 d6 with
      | none => rw [hu] at hs; cases hs
      | some o =>
        rw [hu] at hs
        cases hs
        obtain ⟨ck, h1, h2⟩ := udp46_put hu
        refine behind_first (by omega) ?_
        rw [hpr]
        exact transport_udp (by omega) (by omega) h1 h2
    · cases hu : Icmp.xlat46Type (at8 (a.skb.data.drop a.m.l4) 0) (at8 (a.skb.data.drop a.m.l4) 1) with
      | none => rw [hu] at hs; cases hs
      | some t =>
        rw [hu] at hs
        cases hs
        refine behind_first (by omega) ?_
        rw [hpr]
        have : a.m.pay - a.m.l4 = 8 := by omega
        rw [this]
        exact transport_icmp (by omega) (Csum.store_length _ _) rfl
    · cases hs
      refine behind_first (by omega) ?_
      rw [hpr]
      have : a.m.pay - a.m.l4 = 0 := by omega
      rw [this]
      rfl
  · rw [if_neg hf] at hs
    have hf' : first4 a.skb.data 0 = false := by simpa using hf
    rw [hf'] at hd ⊢
    cases hs
    unfold Pkt.HdrEnd at hd
    simp only [Bool.false_eq_true, if_false] at hd
    unfold behind
    simp [hd]

theorem behind46 {s6 d6 : BitVec 128} {seg : List Byte} {sm : Summed} {l3 : Option (List Byte) → List Byte} {fr : List Byte} (h : Pkt.init4 s0 = some a)
    (htcp : first4 a.skb.data 0 = true → a.m.proto = L4.tcp → 20 ≤ tcpLen a.skb.data a.m.l4) (hin : a.skb.linear ≤ a.skb.data.length)
    (hs : (if first4 a.skb.data 0 = true then seg46 x s6 d6 a else some (a.skb.data.drop a.m.l4, x.sm)) = some (seg, sm)) :
    behind (vals x l3 fr seg) (first4 a.skb.data 0) a.skb.data a.m = seg :=
  have A := Pkt.init4_ok h
  behind46_of (by rw [A.data]; exact A.hdr) htcp (Nat.le_trans A.pay hin) hs

theorem behind64_of {s4 d4 : BitVec 32} {seg : List Byte} {sm : Summed} {l3 : Option (List Byte) → List Byte} {fr : List Byte} (hd : Pkt.HdrEnd a.skb.data a.m (isFirst6 a.skb.data a.m))
    (htcp : isFirst6 a.skb.data a.m = true → a.m.proto = L4.tcp → 20 ≤ tcpLen a.skb.data a.m.l4) (hp : a.m.pay ≤ a.skb.data.length)
    (hs : (if isFirst6 a.skb.data a.m = true then seg64 x s4 d4 a else some (a.skb.data.drop a.m.l4, x.sm)) = some (seg, sm)) :
    behind (vals x l3 fr seg) (isFirst6 a.skb.data a.m) a.skb.data a.m = seg := by
  by_cases hf : isFirst6 a.skb.data a.m = true
  · rw [if_pos hf] at hs
    rw [hf] at hd ⊢
    unfold Pkt.HdrEnd at hd
    simp only [if_true] at hd
    have hsl : (a.skb.data.drop a.m.l4).length = a.skb.data.length - a.m.l4 := List.length_drop
    cases hpr : a.m.proto <;> rw [hpr] at hd <;> unfold seg64 at hs <;> simp only [hpr] at hs hd
    · have h20 := htcp hf hpr
      obtain ⟨ck, h1, h2⟩ := xlat64_put x.K Csum.tcp false x.sm x.ports (ip6 a.skb.data).src (ip6 a.skb.data).dst (a.skb.data.drop a.m.l4) s4 d4
      cases hs
      refine behind_first (by omega) ?_
      rw [hpr]
      exact transport_tcp (by omega) (by omega) h1 h2
    · obtain ⟨ck, h1, h2⟩ := xlat64_put x.K Csum.udp true x.sm x.ports (ip6 a.skb.data).src (ip6 a.skb.data).dst (a.skb.data.drop a.m.l4) s4 d4
      cases hs
      refine behind_first (by omega) ?_
      rw [hpr]
      exact transport_udp (by omega) (by omega) h1 h2
    · cases hu : Icmp.xlat64Type (at8 (a.skb.data.drop a.m.l4) 0) (at8 (a.skb.data.drop a.m.l4) 1) with
      | none => rw [hu] at hs; cases hs
      | some t =>
        rw [hu] at hs
        cases hs
        refine behind_first (by omega) ?_
        rw [hpr]
        have : a.m.pay - a.m.l4 = 8 := by omega
        rw [this]
        exact transport_icmp (by omega) (Csum.store_length _ _) rfl
    · cases hs
      refine behind_first (by omega) ?_
      rw [hpr]
      have : a.m.pay - a.m.l4 = 0 := by omega
      rw [this]
      rfl
  · rw [if_neg hf] at hs
    have hf' : isFirst6 a.skb.data a.m = false := by simpa using hf
    rw [hf'] at hd ⊢
    cases hs
    unfold Pkt.HdrEnd at hd
    simp only [Bool.false_eq_true, if_false] at hd
    unfold behind
    simp [hd]

theorem behind64 {s4 d4 : BitVec 32} {seg : List Byte} {sm : Summed} {l3 : Option (List Byte) → List Byte} {fr : List Byte} (h : Pkt.init6 s0 = some a)
    (htcp : isFirst6 a.skb.data a.m = true → a.m.proto = L4.tcp → 20 ≤ tcpLen a.skb.data a.m.l4) (hin : a.skb.linear ≤ a.skb.data.length)
    (hs : (if isFirst6 a.skb.data a.m = true then seg64 x s4 d4 a else some (a.skb.data.drop a.m.l4, x.sm)) = some (seg, sm)) :
    behind (vals x l3 fr seg) (isFirst6 a.skb.data a.m) a.skb.data a.m = seg :=
  have A := Pkt.init6_ok h
  behind64_of (by rw [A.data]; exact (Pkt.summarize6_meta A.sum).2.2.2.2) htcp (Nat.le_trans A.pay hin) hs

end

end Jool.Wire
