import Verif.Model.WholeTurn
import Verif.Props.WholeEx
/-
C92: two nodes behind the same NAT64, said about the bytes that one sends and the bytes that the other one gets.
-/
namespace Jool.Build
open Jool.Pkt (Byte L4 Meta Acc at8 isFirst6 HdrEnd tcpLen)

set_option linter.unusedVariables false

/-- What `state->out` says about a packet that was translated is what `pkt_fill` wrote. -/
theorem xlat64_kept {g : Given} {p : P} {a : Acc} {s0 : Pkt.Skb} (hv0 : (g.vals 0).Sized 20) (h : Pkt.init6 s0 = some a) (hh : Holds p a)
    (htcp : isFirst6 a.skb.data a.m = true → a.m.proto = L4.tcp → 20 ≤ tcpLen a.skb.data a.m.l4) (hi : a.inner = none) :
    ∃ s, xlat64 g p = .ok (some s) ∧ s.pout.proto = a.m.proto ∧ s.pout.inner = false ∧ s.pout.frag = 0 ∧ s.pout.pay = 20 + (a.m.pay - a.m.l4) ∧ s.pout.pay ≤ s.pout.skb.headlen := by
  have A := Pkt.init6_ok h
  have hpay := A.pay
  obtain ⟨h40, hle, hfh, hen, hicf⟩ := accepted6_hdr h htcp
  have fi := hh.frame
  have hne : ¬ (p.proto = L4.icmp ∧ Icmp.isIcmp6Error (at8 a.skb.data a.m.l4) = true) := by
    rintro ⟨h1, h2⟩
    rw [hh.proto] at h1
    rw [A.data] at h2
    obtain ⟨i, h3⟩ := (A.icmp h1).2.2 h2
    rw [hi] at h3
    cases h3
  have hic : p.proto = L4.icmp → a.m.l4 < a.skb.linear := by
    intro h1
    rw [hh.proto] at h1
    have := hen (hicf h1)
    rw [h1] at this
    simp only [Enough] at this
    omega
  have herr : (isFirst6 a.skb.data a.m && (decide (p.proto = L4.icmp) && Icmp.isIcmp6Error (at8 a.skb.data a.m.l4))) = false := by
    by_cases c : p.proto = L4.icmp
    · cases c2 : Icmp.isIcmp6Error (at8 a.skb.data a.m.l4)
      · simp
      · exact absurd ⟨c, c2⟩ hne
    · simp [c]
  obtain ⟨o, nb, pre, halloc, hpre, fo, hod, hon, hot, hop, hoi, hopay, hbase⟩ := alloc64_ok (e := g.env) (m := a.m) fi hh.th hh.pay hh.frag h40 hle hpay hfh hic
    (err := false) herr.symm (n := 0#8) (x := a.m.pay) nofun (fun _ => rfl) rfl
  simp only [Bool.false_eq_true, if_false, Nat.add_zero] at hpre fo
  have hofr : o.frag = 0 := by
    unfold alloc64 at halloc
    simp only [bind_eq] at halloc
    obtain ⟨_, -, halloc⟩ := Nat64.bind_ok halloc
    obtain ⟨_, -, halloc⟩ := Nat64.bind_ok halloc
    obtain ⟨_, -, halloc⟩ := Nat64.bind_ok halloc
    obtain ⟨_, -, halloc⟩ := Nat64.bind_ok halloc
    obtain ⟨_, -, halloc⟩ := Nat64.bind_ok halloc
    injection halloc with halloc
    rw [← halloc]
  have hfr := fragHdr_ok fi rfl hh.frag hfh
  unfold xlat64
  rw [bind_eq, halloc, ok_bind]
  obtain ⟨m, w, o1⟩ := ext64_ok hv0 (s := ⟨p, o⟩) hfr (⟨fo, hod, hon, hot⟩ : Outgoing o nb _ _ 20) (by omega)
  rw [bind_eq, w, ok_bind]
  have hff : fragHdr (S.outMem ⟨p, o⟩ m).pin = .ok (frag6 a.skb.data a.m) := hfr
  rw [bind_eq, hff, ok_bind, firstFrag6_ok]
  have hhd : o.pay ≤ o.skb.headlen := by
    have := fo.tail
    unfold Buf.headlen
    omega
  cases hf : isFirst6 a.skb.data a.m
  · exact ⟨_, rfl, hop.trans hh.proto, hoi, hofr, hopay, hhd⟩
  · have hen' := hen hf
    have hl4l : (S.outMem ⟨p, o⟩ m).pin.l4len = a.m.pay - a.m.l4 := by
      show p.skb.data + p.pay - p.skb.th = _
      rw [hh.th, hh.pay]; omega
    obtain ⟨m2, w2, f2⟩ := l464_simple (g := g) (lvl := 0) hv0 (s := S.outMem ⟨p, o⟩ m) (ti := a.m.l4) («to» := 20) fi o1.frame hh.th o1.th hl4l (by omega) (by omega)
      (by show Enough p.proto _; rw [hh.proto]; exact hen') (p.skb.len + 1) hne
    rw [if_pos rfl, w2]
    exact ⟨_, rfl, hop.trans hh.proto, hoi, hofr, hopay, hhd⟩

end Jool.Build

namespace Jool.Wire
open Jool.Pkt (Byte L4 Meta Acc at8 at16 first4 fragmented4 ihl4 isFirst6 tcpLen)
open Jool.Csum (Kernel Summed)
open Jool.Build (Holds)
open Jool.WireSpec

set_option linter.unusedVariables false

variable {x : Ctx} {a : Acc} {s0 : Pkt.Skb} {p : Build.P}

/-- What leaves is what is in memory, plus what the hardware does. -/
theorem translate64_build (s4 d4 : BitVec 32) (segleft : Option Nat) : translate64 x s4 d4 segleft p a =
    (build64 x s4 d4 segleft p a).map (fun r => r.map (fun q => if isFirst6 a.skb.data a.m = true then leave x.K q.2 a.m.proto 20 q.1.skb.bytes else q.1.skb.bytes)) := by
  unfold translate64 build64
  simp only
  cases h1 : Pkt.last6 a.skb 0 with
  | none => rfl
  | some last =>
    simp only
    cases h2 : l364 x s4 d4 segleft last.1 a none with
    | none => rfl
    | some l =>
      simp only
      cases h3 : (if isFirst6 a.skb.data a.m = true then seg64 x s4 d4 a else some (a.skb.data.drop a.m.l4, x.sm)) with
      | none => rfl
      | some q =>
        obtain ⟨seg, sm⟩ := q
        simp only [Build.bind_eq]
        cases Build.xlat64 _ p with
        | ub e => rfl
        | ok r => cases r <;> rfl

theorem build64_summed {s4 d4 : BitVec 32} {segleft : Option Nat} {q : Build.P} {sm : Summed} (h : build64 x s4 d4 segleft p a = .ok (some (q, sm))) :
    sm = .partial_ ↔ x.sm = .partial_ := by
  unfold build64 at h
  simp only at h
  split at h
  · cases h
  · split at h
    · cases h
    · split at h
      · cases h
      · rename_i seg sm' hs
        rw [Build.bind_eq] at h
        obtain ⟨r, hr, h⟩ := Nat64.bind_ok h
        have : sm' = sm := by
          cases r with
          | none => cases h
          | some r =>
            injection h with h
            injection h with h
            injection h
        subst this
        split at hs
        · unfold seg64 at hs
          simp only at hs
          split at hs
          · injection hs with hs
            injection hs with _ hs
            rw [← hs]
            unfold Csum.tcp64 Csum.xlat64
            simp only
            split
            · rename_i q; simp [q]
            · rename_i q; simpa using q
          · injection hs with hs
            injection hs with _ hs
            rw [← hs]
            unfold Csum.udp64 Csum.xlat64
            simp only
            split
            · rename_i q; simp [q]
            · rename_i q; simpa using q
          · cases ht : Icmp.xlat64Type (at8 (a.skb.data.drop a.m.l4) 0) (at8 (a.skb.data.drop a.m.l4) 1) with
            | none => rw [ht] at hs; cases hs
            | some t => rw [ht] at hs; injection hs with hs; injection hs with _ hs; rw [hs]
          · injection hs with hs; injection hs with _ hs; rw [hs]
        · injection hs with hs; injection hs with _ hs; rw [hs]

/-- The packet in memory is the one that would leave, but its checksum may be missing. -/
theorem leave_facts {K : Kernel} {sm : Summed} {pr : L4} {b o : List Byte} (h : leave K sm pr 20 b = o) (hl : 20 ≤ b.length) (ht : pr = .tcp → 38 ≤ b.length)
    (hu : pr = .udp → 28 ≤ b.length) : b.length = o.length ∧ b.take 20 = o.take 20 ∧ (sm ≠ .partial_ → b = o) ∧ (pr = .tcp → Only 16 (b.drop 20) (o.drop 20)) ∧
      (pr = .udp → Only 6 (b.drop 20) (o.drop 20)) ∧ (pr ≠ .tcp → pr ≠ .udp → b = o) := by
  have hf : ∀ k, k + 2 ≤ (b.drop 20).length → ∀ o, b.take 20 ++ Csum.finish K k (b.drop 20) = o →
      b.length = o.length ∧ b.take 20 = o.take 20 ∧ Only k (b.drop 20) (o.drop 20) := by
    rintro k hk o rfl
    have h20 : (b.take 20).length = 20 := by rw [List.length_take]; omega
    have hO : Only k (b.drop 20) (Csum.finish K k (b.drop 20)) := by
      unfold Csum.finish
      exact only_put hk (Csum.store_length _ _)
    refine ⟨?_, by rw [List.take_left' h20], by rw [List.drop_left' h20]; exact hO⟩
    rw [List.length_append, hO.1, h20, List.length_drop]
    omega
  by_cases hs : sm = .partial_
  · unfold leave at h
    rw [if_pos hs] at h
    cases pr with
    | tcp =>
      obtain ⟨h1, h2, h3⟩ := hf 16 (by rw [List.length_drop]; have := ht rfl; omega) o h
      exact ⟨h1, h2, fun q => absurd hs q, fun _ => h3, nofun, fun q => absurd rfl q⟩
    | udp =>
      obtain ⟨h1, h2, h3⟩ := hf 6 (by rw [List.length_drop]; have := hu rfl; omega) o h
      exact ⟨h1, h2, fun q => absurd hs q, nofun, fun _ => h3, fun _ q => absurd rfl q⟩
    | icmp => cases h; exact ⟨rfl, rfl, fun _ => rfl, nofun, nofun, fun _ _ => rfl⟩
    | other => cases h; exact ⟨rfl, rfl, fun _ => rfl, nofun, nofun, fun _ _ => rfl⟩
  · unfold leave at h
    rw [if_neg hs] at h
    subst h
    exact ⟨rfl, rfl, fun _ => rfl, fun _ => ⟨rfl, fun _ _ _ => rfl⟩, fun _ => ⟨rfl, fun _ _ _ => rfl⟩, fun _ _ => rfl⟩

theorem Only.symm {k : Nat} {A B : List Byte} (h : Only k A B) : Only k B A := ⟨h.1.symm, fun i q1 q2 => (h.2 i q1 q2).symm⟩

theorem field_take20 {b o : List Byte} (h : b.take 20 = o.take 20) {i n : Nat} (hi : i + n ≤ 20) : field b i n = field o i n := by
  have e : ∀ l : List Byte, (l.drop i).take n = ((l.take 20).drop i).take n := by
    intro l
    rw [List.drop_take, List.take_take, Nat.min_eq_left (by omega)]
  unfold field
  rw [e b, e o, h]

/-- An IPv4 header is its first 20 bytes and the length of the packet. -/
theorem header64_take {noEcn : Bool} {tos : Option Byte} {s d' : BitVec 32} {d : List Byte} {fh : Option Nat} {n : Nat} {o b : List Byte} (h : Header64 noEcn tos s d' d fh n o)
    (h1 : b.take 20 = o.take 20) (h2 : b.length = o.length) : Header64 noEcn tos s d' d fh n b := by
  have e := @field_take20 b o h1
  obtain ⟨a1, a2, a3, a4, a5, a6, a7, a8, a9, a10, a11, a12, a13, a14⟩ := h
  refine ⟨?_, ?_, ?_, ?_, ?_, ?_, ?_, ?_, ?_, ?_, ?_, ?_, ?_, ?_⟩
  · unfold ver; rw [e (by omega)]; exact a1
  · unfold words4; rw [e (by omega)]; exact a2
  · unfold tos4; rw [e (by omega)]; exact a3
  · unfold len4; rw [e (by omega), h2]; exact a4
  · unfold off4; rw [e (by omega)]; exact a5
  · unfold mf4; rw [e (by omega)]; exact a6
  · unfold df4; rw [e (by omega)]; exact a7
  · unfold id4; rw [e (by omega)]; exact a8
  · unfold ttl4; rw [e (by omega)]; exact a9
  · unfold ttl4; rw [e (by omega)]; exact a10
  · unfold proto4; rw [e (by omega)]; exact a11
  · unfold src4; rw [e (by omega)]; exact a12
  · unfold dst4; rw [e (by omega)]; exact a13
  · rw [h1]; exact a14

/-- Whatever the checksum is, the segment is the one it has to be. -/
theorem segment_raw {ports : Option (BitVec 16 × BitVec 16)} {id : Option (BitVec 16)} {t1 t2 : Nat} {u1 u2 : Byte} {first : Prop} {n icmp : Nat} {seg out raw : List Byte}
    (h : Segment ports id t1 t2 u1 u2 first n icmp seg out) (hf : first) (hi : icmp ≠ 6 ∧ icmp ≠ 17) (ht : n = 6 → Only 16 raw out) (hu : n = 17 → Only 6 raw out)
    (ho : n ≠ 6 → n ≠ 17 → raw = out) : Segment ports id t1 t2 u1 u2 first n icmp seg raw := by
  refine ⟨fun q => absurd hf q, fun q1 q2 q3 => (ho q1 q2).trans (h.other q1 q2 q3), fun _ q => Only.trans (h.tcp hf q) (Only.symm (ht q)), fun _ q => Only.trans (h.udp hf q) (Only.symm (hu q)), fun _ q => ?_⟩
  rw [ho (by rw [q]; exact hi.1) (by rw [q]; exact hi.2)]
  exact h.echo hf q

/-- The packet in memory, and what is known about it. -/
theorem build64_mem {s4 d4 : BitVec 32} {segleft : Option Nat} {q : Build.P} {sm : Summed} (h : Pkt.init6 s0 = some a) (hh : Holds p a)
    (htcp : isFirst6 a.skb.data a.m = true → a.m.proto = L4.tcp → 20 ≤ tcpLen a.skb.data a.m.l4) (hi : a.inner = none) (hb : build64 x s4 d4 segleft p a = .ok (some (q, sm))) :
    q.proto = a.m.proto ∧ q.inner = false ∧ q.frag = 0 ∧ q.pay = 20 + (a.m.pay - a.m.l4) ∧ q.pay ≤ q.skb.headlen ∧ ∃ bs, Build.Is q bs 20 := by
  unfold build64 at hb
  simp only at hb
  split at hb
  · cases hb
  · rename_i last _
    split at hb
    · cases hb
    · rename_i l hx
      split at hb
      · cases hb
      · rename_i seg sm' hs
        have hv := sized x (seg := seg) (l3 := fun f => (l364 x s4 d4 segleft last.1 a f).getD (List.replicate 20 0#8)) (n := 20)
          (fun f => by
            obtain ⟨h4, -, e⟩ := l364_some hx f
            rw [e]
            exact bytes4_length _ _) (fr := [0#8, 0#8, 0#8, 0#8, 0#8, 0#8, 0#8, 0#8]) rfl
        obtain ⟨s, e, k1, k2, k3, k4, k5⟩ := Build.xlat64_kept (g := given x (vals x (fun f => (l364 x s4 d4 segleft last.1 a f).getD (List.replicate 20 0#8))
          [0#8, 0#8, 0#8, 0#8, 0#8, 0#8, 0#8, 0#8] seg)) hv h hh htcp hi
        obtain ⟨s', e', -, -, hIs⟩ := Build.fast64_partial (g := given x (vals x (fun f => (l364 x s4 d4 segleft last.1 a f).getD (List.replicate 20 0#8))
          [0#8, 0#8, 0#8, 0#8, 0#8, 0#8, 0#8, 0#8] seg)) hv h hh htcp hi
        rw [e] at e'
        injection e' with e'
        injection e' with e'
        rw [← e'] at hIs
        rw [e] at hb
        injection hb with hb
        injection hb with hb
        injection hb with hb _
        rw [← hb]
        exact ⟨k1, k2, k3, k4, k5, _, hIs⟩

theorem handleIcmp4_same {s : Pkt.Skb} {m : Pkt.Meta} {r : Option Pkt.Meta × Pkt.Skb} (h : Pkt.handleIcmp4 s m = some r) (hi : r.1 = none) : r.2 = s := by
  unfold Pkt.handleIcmp4 at h
  by_cases h1 : Pkt.fragmented4 s.data 0
  · rw [if_pos h1] at h; cases h
  · rw [if_neg h1] at h
    by_cases h2 : m.l4 + 8 > s.data.length
    · rw [if_pos h2] at h; cases h
    · rw [if_neg h2] at h
      by_cases h3 : Icmp.isIcmp4Error (at8 s.data m.l4)
      · rw [if_pos h3] at h
        cases h4 : Pkt.validateInner4 s m.pay with
        | none => rw [h4] at h; cases h
        | some v => rw [h4] at h; cases h; cases hi
      · rw [if_neg h3] at h
        cases h
        rfl

/-- What `pkt_init_ipv4` does to the linear area, if the packet is not an error. -/
theorem init4_linear {s : Pkt.Skb} {a : Acc} (h : Pkt.init4 s = some a) (hi : a.inner = none) : a.skb.linear = max (max s.linear 20) a.m.pay ∧ a.m.fh = 0 := by
  unfold Pkt.init4 at h
  cases h1 : Pkt.pull s 20 with
  | none => rw [h1] at h; cases h
  | some s1 =>
    rw [h1] at h
    simp only at h
    have e1 : s1.linear = max s.linear 20 := by
      unfold Pkt.pull at h1
      split at h1
      · cases h1; rfl
      · cases h1
    cases h2 : Pkt.summarize4 s1 with
    | none => rw [h2] at h; cases h
    | some r =>
      rw [h2] at h
      simp only at h
      cases h3 : Pkt.pull r.2.2 r.1.pay with
      | none => rw [h3] at h; cases h
      | some s3 =>
        rw [h3] at h
        cases h
        have e3 : s3.linear = max r.2.2.linear r.1.pay := by
          unfold Pkt.pull at h3
          split at h3
          · cases h3; rfl
          · cases h3
        have e2 : r.2.2 = s1 ∧ r.1.fh = 0 := by
          unfold Pkt.summarize4 at h2
          simp only at h2
          split at h2
          · split at h2
            · split at h2
              · cases h2; exact ⟨rfl, rfl⟩
              · cases h2
            · cases h2; exact ⟨rfl, rfl⟩
          · split at h2
            · cases h2; exact ⟨rfl, rfl⟩
            · split at h2
              · split at h2
                · cases h2
                · rename_i r' hr'
                  cases h2
                  refine ⟨?_, rfl⟩
                  simp only at hi
                  exact handleIcmp4_same hr' hi
              · cases h2; exact ⟨rfl, rfl⟩
        simp only
        rw [e3, e2.1, e1]
        exact ⟨rfl, e2.2⟩

/-- `accepted64_partial`, whatever the checksum is. -/
theorem accepted64_raw {noEcn : Bool} {tos : Option Byte} {s4 d4 : BitVec 32} {o : List Byte} {n : Nat} {ports : Option (BitVec 16 × BitVec 16)} {id : Option (BitVec 16)}
    (h : Pkt.init6 s0 = some a) (hin : s0.linear ≤ s0.data.length) (hH : Headers s0.data 40 (next6 s0.data) (fhOf a.m) a.m.l4 n)
    (b : Header64 noEcn tos s4 d4 s0.data (fhOf a.m) n o) (size : o.length = 20 + (s0.data.length - a.m.l4))
    (sg : Segment ports id 128 129 8#8 0#8 (offAt s0.data (fhOf a.m) = 0) n 58 (s0.data.drop a.m.l4) (o.drop 20)) (h1 : n ≠ 1) (lin : Nat) :
    ∃ a', Pkt.init4 ⟨o, lin⟩ = some a' ∧ a'.inner = none := by
  have A := Pkt.init6_ok h
  have h40 : 40 ≤ a.skb.data.length := by have := A.len; rw [A.data]; omega
  obtain ⟨n', hH', hC, hP⟩ := headers6 h h40
  rw [A.data] at hH'
  obtain ⟨-, -, rfl⟩ := headers_unique hH hH'
  obtain ⟨-, -, hfh, hc, hfr⟩ := complete6 h hin hP
  generalize s0.data = d at *
  obtain ⟨k1, k2, k3⟩ := segment_complete sg hc (fun q => (hfr q).1)
  have hl : l4 o = 20 := by unfold l4; rw [b.words]
  refine accept4 lin (by omega) (by omega) ?_ ?_
  · rw [hl, b.proto, b.off]
    refine ⟨fun hf q => k2.tcp hf ?_, fun hf q => k2.udp hf ?_, fun q => k2.echo ?_⟩
    all_goals
      unfold to4 at q
      split at q <;> omega
  · rw [hl, b.proto, b.off, b.more]
    intro q
    have h58 : n'.toNat = 58 := by
      unfold to4 at q
      split at q
      · assumption
      · exact absurd q h1
    refine ⟨(hfr h58).1, (hfr h58).2, ?_⟩
    have := k3 h58 (by omega) (by omega)
    rw [field_drop] at this
    exact this

end Jool.Wire

namespace Jool.WholeTurn
open Jool.Pkt (Byte L4 Acc at8 isFirst6 tcpLen)
open Jool.Csum (Summed)
open Jool.Build (Holds)
open Jool.Nat64 (Port Fu Tuple)
open Jool.Nat64Spec
open Jool.WireSpec
open Jool.WholeSpec
open Jool.Wire (fhOf)
open Jool.Whole (pkt6 pkt4 assign)

set_option linter.unusedVariables false

variable {cfg : Nat64.Cfg} {P : Prefix6} {s : Nat64.St} {c : Nat64.Ctx} {x : Wire.Ctx} {segleft : Option Nat} {p : Build.P} {a : Acc} {s0 : Pkt.Skb}

set_option maxHeartbeats 1000000 in
/-- **C92.** Between the two passes. The packet in memory is the IPv4 packet that RFC 7915 describes, except that its checksum may not be there yet, and what the translator
remembers about it is what it would find out if it had received the packet. -/
theorem middle {fh : Option Nat} {l n : Nat} {k : Kind} {S D : T6} (A : Arrives6 s0 a p) (I : Is6 s0.data fh l n k S D) (y : Wire.Ctx) (s4 d4 : BitVec 32) :
    ∃ w, Wire.build64 y s4 d4 segleft p a = .ok w ∧ (w ≠ none ↔ Leaves64 segleft s0.data l n) ∧ ∀ q sm, w = some (q, sm) →
      (sm = .partial_ ↔ y.sm = .partial_) ∧ Arrives4 ⟨q.skb.bytes, q.skb.headlen⟩ (again q) q ∧ Header64 y.cfg.dscp (Wire.tosOf y.cfg) s4 d4 s0.data fh n q.skb.bytes ∧
      q.skb.bytes.length = 20 + (s0.data.length - l) ∧ Segment y.ports y.id 128 129 8#8 0#8 (offAt s0.data fh = 0) n 58 (s0.data.drop l) (q.skb.bytes.drop 20) ∧
      (y.sm ≠ .partial_ → Wire.translate64 y s4 d4 segleft p a = .ok (some q.skb.bytes) ∧
        Sums64 y.sm (BitVec.ofNat 128 (src6 s0.data)) (BitVec.ofNat 128 (dst6 s0.data)) s4 d4 (offAt s0.data fh = 0) n (s0.data.drop l) (q.skb.bytes.drop 20)) := by
  obtain ⟨hfh, hl4, hc, -⟩ := Whole.view6_of A.accepted A.inside I
  subst hfh hl4
  have h1 := Whole.not1 I
  have AO := Pkt.init6_ok A.accepted
  have hD := AO.data
  have h40 : 40 ≤ a.skb.data.length := by have := AO.len; rw [hD]; omega
  obtain ⟨n', hH, -, hP⟩ := Wire.headers6 A.accepted h40
  rw [hD] at hH
  obtain ⟨-, -, rfl⟩ := Wire.headers_unique I.chain hH
  obtain ⟨-, hl6, hfh, hc', hfr⟩ := Wire.complete6 A.accepted A.inside hP
  obtain ⟨h40', hm1, hm2, -, hEnd⟩ := Pkt.summarize6_meta AO.sum
  have hfirst : isFirst6 a.skb.data a.m = true := by rw [hD, Wire.first6_off hfh]; exact I.first
  have hP' := hP
  rw [Wire.proto6_toNat] at hP'
  have h6 : a.m.proto = .tcp ↔ n'.toNat = 6 := by
    rw [hP']
    split
    · simp [*]
    · split
      · simp [*]
      · split <;> simp [*]
  have h17 : a.m.proto = .udp ↔ n'.toNat = 17 := by
    rw [hP']
    split
    · simp [*]
    · split
      · simp [*]
      · split <;> simp [*]
  have htl : n'.toNat = 6 → tcpLen a.skb.data a.m.l4 = field s0.data (a.m.l4 + 12) 1 / 16 * 4 := by
    intro q
    obtain ⟨e1, e2⟩ := hc.tcp trivial q
    rw [List.length_drop] at e1
    unfold tcpLen
    rw [hD, Wire.at8_field (by omega)]
  have htcp : isFirst6 a.skb.data a.m = true → a.m.proto = L4.tcp → 20 ≤ tcpLen a.skb.data a.m.l4 := by
    intro _ q
    have := A.tcp q I.first
    rw [htl (h6.mp q)]
    omega
  obtain ⟨w0, e0, lv, sent⟩ := Whole.bytes64 (segleft := segleft) A I y s4 d4
  rw [Wire.translate64_build] at e0
  obtain ⟨w, hb, hw⟩ := Nat64.map_ok e0
  refine ⟨w, hb, ?_, ?_⟩
  · rw [← lv, ← hw]
    cases w <;> simp
  rintro q sm rfl
  obtain ⟨k1, k2, k3, k4, k5, bs, k6⟩ := Wire.build64_mem A.accepted A.held htcp A.noError hb
  have hsm := Wire.build64_summed hb
  have hso := sent _ hw.symm
  simp only [hfirst, if_true] at hso
  have hin : q.skb.headlen ≤ q.skb.bytes.length := by
    have e1 := k6.len
    rw [← k6.bytes] at e1
    unfold Build.Buf.len at e1
    omega
  rw [← hD, hfirst] at hEnd
  have hp6 : n'.toNat = 6 → q.pay = 20 + field s0.data (a.m.l4 + 12) 1 / 16 * 4 := by
    intro e
    unfold Pkt.HdrEnd at hEnd
    rw [if_pos rfl, h6.mpr e] at hEnd
    have h2 := htl e
    have := hEnd.2
    omega
  have hp8 : n'.toNat ≠ 6 → q.pay = 28 := by
    intro e
    unfold Pkt.HdrEnd at hEnd
    rw [if_pos rfl, hP', if_neg e] at hEnd
    by_cases e2 : n'.toNat = 17
    · rw [if_pos e2] at hEnd
      have : a.m.pay = a.m.l4 + 8 := hEnd
      omega
    · rw [if_neg e2, if_pos (by omega)] at hEnd
      have : a.m.pay = a.m.l4 + 8 := hEnd
      omega
  obtain ⟨f1, f2, f3, f4, f5, f6⟩ := Wire.leave_facts (K := y.K) (sm := sm) (pr := a.m.proto) rfl (b := q.skb.bytes)
    (by omega) (fun e => by have h1 := hp6 (h6.mp e); have h2 := A.tcp e I.first; omega) (fun e => by have h1 := hp8 (by have := h17.mp e; omega); omega)
  have hlv : q.skb.bytes.length = 20 + (s0.data.length - a.m.l4) := by rw [f1, hso.size]
  have head := Wire.header64_take hso.head f2 f1
  have seg : Segment y.ports y.id 128 129 8#8 0#8 (offAt s0.data (fhOf a.m) = 0) n'.toNat 58 (s0.data.drop a.m.l4) (q.skb.bytes.drop 20) :=
    Wire.segment_raw hso.seg I.first (by decide) (fun e => f4 (h6.mpr e)) (fun e => f5 (h17.mpr e)) (fun e1 e2 => by
      have := f6 (fun e => e1 (h6.mp e)) (fun e => e2 (h17.mp e))
      rw [← this])
  have htw : n'.toNat = 6 → field q.skb.bytes (20 + 12) 1 = field s0.data (a.m.l4 + 12) 1 := by
    intro e
    have h2 := (hc.tcp trivial e).1
    rw [← Wire.field_drop, ← Wire.field_drop, Wire.only_field (seg.tcp I.first e) (by omega), Wire.ported_field (by omega) (by omega)]
  have hw5 : words4 q.skb.bytes = 5 := head.words
  have hl20 : WireSpec.l4 q.skb.bytes = 20 := by unfold WireSpec.l4; rw [hw5]
  have hto : ∀ m, m = 6 ∨ m = 17 → (proto4 q.skb.bytes = m ↔ n'.toNat = m) := by
    intro m hm
    rw [head.proto]
    unfold to4
    split <;> omega
  refine ⟨hsm, ?_, head, hlv, seg, ?_⟩
  · obtain ⟨a', ha', hi'⟩ := Wire.accepted64_raw A.accepted A.inside hH head hlv seg (by omega) q.skb.headlen
    have AA := Pkt.init4_ok ha'
    obtain ⟨g1, g2⟩ := Wire.init4_linear ha' hi'
    have h20 : 20 ≤ q.skb.bytes.length := by omega
    have g3 := AA.l4
    have g4 := AA.proto
    have g5 := AA.hdr
    have hf4 : Pkt.first4 q.skb.bytes 0 = true := by rw [Wire.first4_off h20, head.off]; exact I.first
    simp only at g1 g3 g4 g5
    rw [Wire.ihl4_words h20, hl20] at g3
    rw [Wire.proto4_of h20] at g4
    rw [hf4] at g5
    have t6 := hto 6 (by omega)
    have t17 := hto 17 (by omega)
    have hpr : a'.m.proto = a.m.proto := by
      rw [g4, hP', head.proto]
      rcases h1 with e | e | e <;> rw [e] <;> rfl
    have hpay : a'.m.pay = q.pay := by
      unfold Pkt.HdrEnd at g5
      rw [if_pos rfl, hpr] at g5
      by_cases e : n'.toNat = 6
      · rw [h6.mpr e] at g5
        have g6 := g5.2
        rw [g6, hp6 e, g3]
        unfold tcpLen
        rw [Wire.at8_field (by have := g5.1; omega), htw e]
      · have e2 : a.m.proto = .udp ∨ a.m.proto = .icmp := by
          rw [hP', if_neg e]
          split
          · exact Or.inl rfl
          · rw [if_pos (by omega)]; exact Or.inr rfl
        rw [hp8 e]
        rcases e2 with e2 | e2 <;> rw [e2] at g5 <;> simp only at g5 <;> omega
    have heq : a' = again q := by
      obtain ⟨⟨dd, ll⟩, ⟨m1, m2, m3, m4⟩, ii⟩ := a'
      have e1 : dd = q.skb.bytes := AA.data
      simp only at g1 g2 g3 hpr hpay hi'
      have e2 : ll = q.skb.headlen := by omega
      subst e1 e2 g2 g3 hi' hpay
      unfold again
      rw [k3, k1, k6.th, hpr, Nat.add_sub_cancel_left]
    rw [heq] at ha'
    have hsz := A.size
    refine ⟨ha', hin, ⟨k6.inside, k6.order, rfl, rfl, k6.nh, ?_, rfl, k2, rfl, rfl⟩, by show 5 ≤ words4 q.skb.bytes; omega, ?_, rfl, ?_⟩
    · show q.skb.th = q.skb.data + (q.skb.th - q.skb.data)
      rw [k6.th]; omega
    · intro _ e
      show 5 ≤ field q.skb.bytes (WireSpec.l4 q.skb.bytes + 12) 1 / 16
      have e6 := t6.mp e
      rw [hl20, htw e6]
      exact A.tcp (h6.mpr e6) I.first
    · show q.skb.bytes.length < 65536
      omega
  · intro hne
    have e := f3 (fun e => hne (hsm.mp e))
    rw [← e] at hso
    refine ⟨?_, hso.sums⟩
    rw [Wire.translate64_build, hb]
    show Outcome.ok _ = _
    simp only [Option.map_some]
    rw [if_pos hfirst, ← e]

/-- Two packets of the same kind between the same transport addresses are the same, if their codes are zero. -/
theorem view4_unique {p q : Nat64.Pkt Addr4} {k : Kind} {S D : T4} (h : view4 p = some (k, S, D)) (h' : view4 q = some (k, S, D))
    (hp : ∀ t c i j, p.l4 = .icmp t c i j → c = 0#8 ∧ j = none) (hq : ∀ t c i j, q.l4 = .icmp t c i j → c = 0#8 ∧ j = none) : p = q := by
  obtain ⟨s1, d1, l1⟩ := p
  obtain ⟨s2, d2, l2⟩ := q
  have hcode : ∀ {s1 d1} {l1 : Nat64.L4 Addr4} {k : Kind} {S D : T4}, view4 ⟨s1, d1, l1⟩ = some (k, S, D) → (∀ t c i j, l1 = .icmp t c i j → c = 0#8 ∧ j = none) →
      s1 = S.addr ∧ d1 = D.addr ∧ l1 = match k with
        | .udp => .udp S.port D.port
        | .tcp a b c => .tcp S.port D.port a b c
        | .request => .icmp 8 0#8 S.port none
        | .reply => .icmp 0 0#8 S.port none := by
    intro s1 d1 l1 k S D h hc
    unfold view4 at h
    cases l1 with
    | udp a b => cases h; exact ⟨rfl, rfl, rfl⟩
    | tcp a b x y z => cases h; exact ⟨rfl, rfl, rfl⟩
    | other => cases h
    | icmp t c i j =>
      obtain ⟨rfl, rfl⟩ := hc _ _ _ _ rfl
      dsimp only at h
      split at h
      · rename_i e; cases h; exact ⟨rfl, rfl, by rw [e]⟩
      · split at h
        · rename_i e; cases h; exact ⟨rfl, rfl, by rw [e]⟩
        · cases h
  obtain ⟨rfl, rfl, rfl⟩ := hcode h hp
  obtain ⟨e1, e2, e3⟩ := hcode h' hq
  rw [e1, e2, e3]

/-- What the second pass reads is what the first pass wrote. -/
theorem middle_is4 {fh : Option Nat} {l n : Nat} {k : Kind} {S D : T6} {u v : Port} {s4 d4 : BitVec 32} {q : Build.P} {sm : Summed} (A : Arrives6 s0 a p) (I : Is6 s0.data fh l n k S D)
    (hb : Wire.build64 (assign x u v) s4 d4 segleft p a = .ok (some (q, sm))) : Is4 q.skb.bytes k ⟨s4, u⟩ ⟨d4, k.port v u⟩ := by
  obtain ⟨w, hw, -, H⟩ := middle (segleft := segleft) A I (assign x u v) s4 d4
  rw [hb] at hw
  injection hw with hw
  obtain ⟨-, -, head, -, seg, -⟩ := H q sm hw.symm
  obtain ⟨-, -, hc, -⟩ := Whole.view6_of A.accepted A.inside I
  have hl : WireSpec.l4 q.skb.bytes = 20 := by unfold WireSpec.l4; rw [head.words]
  refine ⟨by rw [head.off, I.first], head.src, head.dst, ?_⟩
  rw [hl, head.proto]
  have h1 := Whole.not1 I
  exact Whole.says_out (u1 := 8#8) (u2 := 0#8) seg I.first ⟨fun _ => hc.tcp trivial, fun _ => hc.udp trivial, hc.echo⟩ (by decide) (by rintro rfl; rfl) (by rintro rfl; rfl) (by rintro rfl; rfl) I.seg

/-- What the second pass sees is the packet that the model of the tables passes on. -/
theorem middle_pkt {fh : Option Nat} {l n : Nat} {k : Kind} {S D : T6} {u v : Port} {s4 d4 : BitVec 32} {q : Build.P} {sm : Summed} {t : Tuple T4} {sa : Option Addr4}
    {q4 : Nat64.Pkt Addr4} (A : Arrives6 s0 a p) (I : Is6 s0.data fh l n k S D) (hb : Wire.build64 (assign x u v) s4 d4 segleft p a = .ok (some (q, sm)))
    (hq : Nat64.translate6 c (pkt6 a) t sa = .ok q4) (hv : view4 q4 = some (k, ⟨s4, u⟩, ⟨d4, k.port v u⟩)) : pkt4 (again q) = q4 := by
  have I4 := middle_is4 A I hb
  obtain ⟨w, hw, -, H⟩ := middle (segleft := segleft) A I (assign x u v) s4 d4
  rw [hb] at hw
  injection hw with hw
  obtain ⟨-, A4, head, hlen, seg, -⟩ := H q sm hw.symm
  obtain ⟨hl4, hc4, V4⟩ := Whole.view4_of A4.accepted A4.inside I4
  obtain ⟨rfl, rfl, hc, V6⟩ := Whole.view6_of A.accepted A.inside I
  have hl20 : WireSpec.l4 q.skb.bytes = 20 := by unfold WireSpec.l4; rw [head.words]
  refine view4_unique V4 hv ?_ ?_
  · intro ty cd i j e
    have hpr := (Pkt.init4_ok A4.accepted).proto
    simp only at hpr hl4 hc4
    rw [hl20] at hl4 hc4
    unfold pkt4 Whole.l4 at e
    simp only at e
    split at e
    · cases e
    · cases e
    · rename_i hic
      injection e with e1 e2 e3 e4
      refine ⟨?_, e4.symm⟩
      have h20 : 20 ≤ q.skb.bytes.length := by omega
      rw [hic, Wire.proto4_of h20] at hpr
      have hp1 : proto4 q.skb.bytes = 1 := by
        split at hpr
        · cases hpr
        · split at hpr
          · cases hpr
          · split at hpr
            · assumption
            · cases hpr
      have hn : n = 58 := by
        have h1 := Whole.not1 I
        rw [head.proto] at hp1
        unfold to4 at hp1
        split at hp1 <;> omega
      have h8 := hc.echo hn
      obtain ⟨ty', -, ho⟩ := seg.echo I.first hn
      have g := ho.2 1 (by decide) (by decide)
      have e0 : (echoed ty' (assign x u v).id (s0.data.drop a.m.l4))[1]? = some 0#8 := by
        unfold echoed
        rfl
      rw [e0, List.getElem?_drop] at g
      rw [← e2, hl4]
      show q.skb.bytes.getD 21 0#8 = 0#8
      rw [List.getD_eq_getElem?_getD, show (21 : Nat) = 20 + 1 from rfl, g]
      rfl
    · cases e
  · intro ty cd i j e
    unfold Nat64.translate6 at hq
    cases hf : c.fail with
    | some e => rw [hf] at hq; cases hq
    | none =>
      rw [hf] at hq
      dsimp only at hq
      unfold view6 at V6
      cases hl : (pkt6 a).l4 with
      | udp s d => rw [hl] at hq; cases hq; cases e
      | tcp s d a b c => rw [hl] at hq; cases hq; cases e
      | other => rw [hl] at V6; cases V6
      | icmp t1 c1 i1 j1 =>
        rw [hl] at hq V6
        dsimp only at hq V6
        have ht : t1 = 128 ∨ t1 = 129 := by
          split at V6
          · left; assumption
          · split at V6
            · right; assumption
            · cases V6
        rcases ht with rfl | rfl
        · have e1 : Icmp.xlat64Type 128 c1 = some (8, 0) := rfl
          rw [e1] at hq
          cases hq
          cases e
          exact ⟨rfl, rfl⟩
        · have e1 : Icmp.xlat64Type 129 c1 = some (0, 0) := rfl
          rw [e1] at hq
          cases hq
          cases e
          exact ⟨rfl, rfl⟩

end Jool.WholeTurn
