import Verif.Lemmas.BuildFast
/-
From IPv6 to IPv4.
-/
namespace Jool.Build
open Jool.Pkt (Byte L4 Acc Meta at8 at16 first6 isFirst6 innerProto tcpLen HdrEnd)

theorem lastGo_ok {b : Buf} {base hl : Nat} {bs : List Byte} (f : Frame b base hl bs) {n : Byte} {o : Nat} :
    ∀ fuel off nh pos, Pkt.iter bs hl off nh = some (n, o) → hl < off + fuel → 0 < fuel → pos = base + off → lastGo b fuel pos nh = .ok (n, base + o)
  | 0, _, _, _, _, _, hz, _ => by omega
  | fuel + 1, off, nh, pos, h, hf, hz, hp => by
    rw [Pkt.iter] at h
    unfold lastGo
    split at h
    · rename_i c
      rw [if_pos c]
      split at h
      · rename_i h2
        have e0 : at8 ((bs.drop off).take 2) 0 = at8 bs off := by rw [at8_take (by omega), at8_drop]; rfl
        have e1 : at8 ((bs.drop off).take 2) 1 = at8 bs (off + 1) := by rw [at8_take (by omega), at8_drop]
        rw [bind_eq, read_ok f hp h2, ok_bind, e0, e1]
        exact lastGo_ok f fuel _ _ _ h (by omega) (by omega) (by omega)
      · cases h
    · rename_i c
      rw [if_neg c]
      split at h
      · rename_i c2
        rw [if_pos c2]
        split at h
        · rename_i h2
          have e0 : at8 ((bs.drop off).take 8) 0 = at8 bs off := by rw [at8_take (by omega), at8_drop]; rfl
          rw [bind_eq, read_ok f hp h2, ok_bind, e0]
          exact lastGo_ok f fuel _ _ _ h (by omega) (by omega) (by omega)
        · cases h
      · rename_i c2
        rw [if_neg c2]
        cases h
        rw [hp]; rfl

theorem last_ok {b : Buf} {base : Nat} {s : Pkt.Skb} (f : Frame b base s.linear s.data) {n : Byte} {o off pos : Nat} (h : Pkt.last6 s off = some (n, o))
    (hp : pos = base + off) : last b pos = .ok (n, base + o) := by
  have h1 := f.tail; have h2 := f.room
  unfold Pkt.last6 at h
  split at h
  · rename_i c
    unfold last
    rw [bind_eq, read_ok f hp c, ok_bind, at8_take (by omega), at8_drop]
    exact lastGo_ok f _ _ _ _ h (by omega) (by omega) (by omega)
  · cases h

/-- The fragment header of a packet. -/
def frag6 (bs : List Byte) (m : Meta) : Option (List Byte) := if m.fh = 0 then none else some (slice bs m.fh (m.fh + 8))

theorem fragHdr_ok {p : P} {base hl : Nat} {bs : List Byte} (f : Frame p.skb base hl bs) (hd : p.skb.data = base) {m : Meta} (hf : p.frag = m.fh) (hr : m.fh = 0 ∨ m.fh + 8 ≤ hl) :
    fragHdr p = .ok (frag6 bs m) := by
  unfold fragHdr frag6
  rw [hf]
  by_cases c : m.fh = 0
  · rw [if_pos c, if_pos c]; rfl
  · rw [if_neg c, if_neg c]
    rw [bind_eq, read_ok f (off := m.fh) (n := 8) (by omega) (by omega), ok_bind]
    unfold slice
    rw [Nat.add_sub_cancel_left]; rfl

theorem firstFrag6_ok (bs : List Byte) (m : Meta) : firstFrag6 (frag6 bs m) = isFirst6 bs m := by
  unfold frag6 isFirst6
  by_cases c : m.fh = 0
  · simp [c, firstFrag6]
  · simp only [c, if_false, decide_false, Bool.false_or, firstFrag6, slice, first6]
    rw [at16_take (by omega), at16_drop]

/-- What the allocation leaves, 6 to 4. `x`: the end of the headers that go away; `err`: whether there is a packet inside. -/
theorem alloc64_ok {e : Env} {p : P} {s : Pkt.Skb} {m : Meta} (f : Frame p.skb p.skb.data s.linear s.data) (ht : p.skb.th = p.skb.data + m.l4) (hpay : p.pay = m.pay)
    (hfr : p.frag = m.fh) (h40 : 40 ≤ m.l4) (hp : m.l4 ≤ m.pay) (hpl : m.pay ≤ s.linear) (hfh : m.fh = 0 ∨ m.fh + 8 ≤ s.linear)
    (hic : p.proto = L4.icmp → m.l4 < s.linear)
    {err : Bool} (herr : err = (isFirst6 s.data m && (decide (p.proto = L4.icmp) && Icmp.isIcmp6Error (at8 s.data m.l4))))
    {n : Byte} {x k : Nat} (hx : err = true → Pkt.last6 s m.pay = some (n, x) ∧ m.pay + 40 ≤ x ∧ x ≤ s.linear) (hx' : err = false → x = m.pay)
    (hk : k = 20 + (m.pay - m.l4) + if err = true then 20 else 0) :
    ∃ o nb pre, alloc64 e p = .ok o ∧ pre.length = k ∧ Frame o.skb nb (k + (s.linear - x)) (pre ++ s.data.drop x) ∧ o.skb.data = nb ∧ o.skb.nh = nb ∧
      o.skb.th = nb + 20 ∧ o.proto = p.proto ∧ o.inner = false ∧ o.pay = 20 + (m.pay - m.l4) ∧ p.skb.data ≤ nb := by
  have hxl : x ≤ s.linear ∧ k ≤ x := by
    cases herr2 : err
    · have := hx' herr2
      rw [herr2] at hk
      simp only [Bool.false_eq_true, if_false] at hk
      omega
    · have := hx herr2
      rw [herr2] at hk
      simp only [if_true] at hk
      omega
  obtain ⟨pre, hpre, fo⟩ := copy_frame f rfl e p.skb.data hxl.1 (k := k) (by omega)
  have hl4len : p.l4len = m.pay - m.l4 := by unfold P.l4len P.payload; omega
  have htail := fo.tail
  refine ⟨⟨{ pskbCopy e p.skb p.skb.data with data := p.skb.data + x - k, nh := p.skb.data + x - k, th := p.skb.data + x - k + 20 }, p.proto, false, 0, 20 + (m.pay - m.l4)⟩,
    p.skb.data + x - k, pre, ?_, hpre, fo.move _ _ _, rfl, rfl, rfl, rfl, rfl, rfl, by omega⟩
  have hhas : hasInner6 p = .ok err := by
    unfold hasInner6
    rw [bind_eq, fragHdr_ok f rfl hfr hfh, ok_bind, firstFrag6_ok, isError6_ok f ht hic, herr]
    cases isFirst6 s.data m <;> rfl
  unfold alloc64
  simp only [bind_eq, hhas, ok_bind, hl4len, hpay]
  generalize hB : pskbCopy e p.skb p.skb.data = B at *
  have hBd : B.data = p.skb.data := by rw [← hB]; rfl
  rw [pull'_ok (by unfold Buf.headlen; omega)]
  simp only [ok_bind]
  have step : ∀ b : Buf, b.data = p.skb.data + x - (k - (20 + (m.pay - m.l4))) → (push b (m.pay - m.l4)).bind (fun b =>
      (push b 20).bind fun b => (pure (⟨{ b with nh := b.data, th := b.data + 20 }, p.proto, false, 0, 20 + (m.pay - m.l4)⟩ : P) : Outcome P)) =
      Outcome.ok (⟨{ b with data := p.skb.data + x - k, nh := p.skb.data + x - k, th := p.skb.data + x - k + 20 }, p.proto, false, 0, 20 + (m.pay - m.l4)⟩ : P) := by
    intro b hbd
    rw [push_ok (by omega)]
    simp only [ok_bind]
    rw [push_ok (by show _ ≤ _ - _; omega)]
    simp only [ok_bind]
    have : b.data - (m.pay - m.l4) - 20 = p.skb.data + x - k := by omega
    rw [this]
    rfl
  cases herr2 : err
  · have := hx' herr2
    rw [herr2] at hk
    simp only [alloc64InnerIf, Bool.false_eq_true, if_false] at hk ⊢
    simp only [ok_bind]
    rw [step _ (by show _ + _ = _; omega)]
  · obtain ⟨h1, h2, h3⟩ := hx herr2
    rw [herr2] at hk
    simp only [alloc64InnerIf, if_true] at hk ⊢
    have hpp : p.payload = p.skb.data + m.pay := by unfold P.payload; omega
    unfold alloc64Inner
    rw [bind_eq, last_ok f h1 hpp, ok_bind]
    simp only [bind_eq]
    have hsub : p.skb.data + x - p.payload = x - m.pay := by omega
    rw [hsub, pull'_ok (by show _ ≤ B.tail - (B.data + _); omega), ok_bind, push_ok (by show _ ≤ _ + _ + _; omega)]
    simp only [ok_bind]
    rw [step _ (by show _ + _ + _ - _ = _; omega)]

theorem becomeInner6_ok {s : S} {bi : Nat} {sk : Pkt.Skb} {bo ho : Nat} {os : List Byte} (fi : Frame s.pin.skb bi sk.linear sk.data) (fo : Frame s.pout.skb bo ho os)
    (hdi : s.pin.skb.data = bi) (hdo : s.pout.skb.data = bo) (hpi : s.pin.pay ≤ sk.linear) (hpo : s.pout.pay ≤ ho) {nx : Byte} {x : Nat} {q : L4} {n : Nat}
    (hx : Pkt.last6 sk s.pin.pay = some (nx, x)) (hle : s.pin.pay ≤ x)
    (hq : q = innerProto nx) (hn : n = hdrLen sk.data x q) (ht : q = L4.tcp → x + 13 ≤ sk.linear) :
    becomeInner6 s true = .ok (some ⟨inIn s.pin q (x - s.pin.pay) n, inIn s.pout q 20 n⟩) := by
  have hpp : s.pin.payload = bi + s.pin.pay := by unfold P.payload; omega
  unfold becomeInner6
  have hsub : bi + x - s.pin.payload = x - s.pin.pay := by omega
  have hadd : s.pin.pay + (x - s.pin.pay) = x := by omega
  simp only [bind_eq, last_ok fi hx hpp, ok_bind, hsub]
  rw [movePointersIn_ok fi hdi hpi (by rw [← hq, hadd]; exact ht), hadd, ← hq, ← hn]
  simp only [ok_bind, Bool.not_true, Bool.false_eq_true, if_false]
  rw [movePointersOut_ok fo hdo hpo, inIn_l4len]
  rfl

/-- The headers of the packet inside, and the one of the ICMP error. -/
def inner64 (g : Given) (is os : List Byte) (to po : Nat) (q : L4) (x n : Nat) : List Byte :=
  patch (patch (patch os to (g.vals 0).icmp) po ((g.vals 1).l3 none)) (po + 20) (l4New (g.vals 1) q ((is.drop x).take n))

theorem l464_error {g : Given} {s : S} {bi : Nat} {sk : Pkt.Skb} {bo ho : Nat} {os : List Byte} {ti to x n : Nat} {nx : Byte} {q : L4}
    (hv0 : (g.vals 0).Sized 20) (hv1 : (g.vals 1).Sized 20) (fi : Frame s.pin.skb bi sk.linear sk.data) (hdi : s.pin.skb.data = bi) (hti : s.pin.skb.th = bi + ti)
    (fo : Outgoing s.pout bo ho os to) (hii : s.pin.inner = false) (hio : s.pout.inner = false) (hpi : s.pin.pay = ti + 8) (hpo : s.pout.pay = to + 8)
    (hfr : s.pin.frag = 0)
    (hp : s.pin.proto = L4.icmp) (herr : Icmp.isIcmp6Error (at8 sk.data ti) = true) (h40 : s.pin.pay + 40 ≤ sk.linear)
    (hx : Pkt.last6 sk s.pin.pay = some (nx, x)) (hle : s.pin.pay + 40 ≤ x) (hq : q = innerProto nx) (hn : n = hdrLen sk.data x q)
    (he : Enough q n) (hri : x + n ≤ sk.linear) (hro : s.pout.pay + 20 + n ≤ ho)
    (hne : ¬ (q = L4.icmp ∧ Icmp.isIcmp6Error (at8 sk.data x) = true)) (fuel : Nat) :
    ∃ s3 m3, s3 = s.outMem m3 ∧ Outgoing s3.pout bo ho (inner64 g sk.data os to s.pout.pay q x n) to ∧
      l464 g (fuel + 2) 0 s = (finish64 g (g.vals 0) s3).bind fun r => match r with
        | none => .ok none
        | some s => (writeOut s (s.pout.skb.th + 2) (g.vals 0).sum).bind fun s => .ok (some s) := by
  have hos := fo.frame.hl_le
  have his := fi.hl_le
  have hic := hv0.icmp
  have hcl : ((sk.data.drop x).take n).length = n := copied_length fi hri
  have hq13 : q = L4.tcp → x + 13 ≤ sk.linear := by
    intro h; rw [h] at he; simp only [Enough] at he; omega
  rw [l464]
  have hne0 : at8 ((sk.data.drop ti).take 8) 0 = at8 sk.data ti := by rw [at8_take (by omega), at8_drop]; rfl
  simp only [hp, bind_eq, read_ok fi hti (n := 8) (by omega), ok_bind, hne0]
  obtain ⟨m1, w1, o1⟩ := fo.write (pos := s.pout.skb.th) (off := to) (l := (g.vals 0).icmp) fo.th (by omega)
  rw [w1]; simp only [ok_bind]
  rw [if_pos herr]
  have hpk : peekIf (s.outMem m1) peek6 = .ok (some (s.outMem m1)) := by
    unfold peekIf
    have : (s.outMem m1).pin.inner = false := hii
    rw [this]; rfl
  rw [hpk]; simp only [ok_bind]
  have hb : becomeInner6 (s.outMem m1) true = .ok (some ⟨inIn s.pin q (x - s.pin.pay) n, inIn (s.outMem m1).pout q 20 n⟩) :=
    becomeInner6_ok (s := s.outMem m1) fi o1.frame hdi o1.data (by show s.pin.pay ≤ _; omega) (by show s.pout.pay ≤ ho; omega) hx (by show s.pin.pay ≤ x; omega) hq hn hq13
  rw [hb]; simp only [ok_bind]
  have hpp : s.pin.payload = bi + s.pin.pay := by unfold P.payload; omega
  have hpo' : (s.outMem m1).pout.payload = bo + s.pout.pay := by
    show s.pout.skb.data + s.pout.pay = _
    rw [fo.data]
  -- the header of the packet inside
  generalize hT : (⟨inIn s.pin q (x - s.pin.pay) n, inIn (s.outMem m1).pout q 20 n⟩ : S) = T
  obtain ⟨m2, w2, f2⟩ : ∃ m, int64 (g.vals 1) T = .ok (T.outMem m) ∧
      Frame (T.outMem m).pout.skb bo ho (patch (patch os to (g.vals 0).icmp) s.pout.pay ((g.vals 1).l3 none)) := by
    have fT : Frame T.pout.skb bo ho (patch os to (g.vals 0).icmp) := by rw [← hT]; exact o1.frame.move _ _ _
    have hnh : T.pout.skb.nh = bo + s.pout.pay := by rw [← hT]; exact hpo'
    obtain ⟨m, w, f⟩ := writeOut_mem fT (l := (g.vals 1).l3 none) hnh (by rw [hv1.l3]; omega)
    refine ⟨m, ?_, f⟩
    unfold int64
    have hr : read T.pin.skb T.pin.skb.nh 40 = .ok ((sk.data.drop s.pin.pay).take 40) := by rw [← hT]; exact read_ok (fi.move _ _ _) hpp (by omega)
    have hf0 : fragHdr T.pin = .ok none := by
      unfold fragHdr
      have : T.pin.frag = 0 := by rw [← hT]; exact hfr
      rw [if_pos this]; rfl
    simp only [bind_eq, hr, ok_bind, hf0]
    exact w
  rw [w2]; simp only [ok_bind]
  have hTp : T.pin = inIn s.pin q (x - s.pin.pay) n := by rw [← hT]
  -- the transport header of the packet inside
  obtain ⟨m3, w3, f3⟩ := l464_simple (g := g) (lvl := 1) hv1 (s := T.outMem m2) (bi := bi) (hi := sk.linear) (is := sk.data)
    (ti := x) (to := s.pout.pay + 20) (n := n) (by show Frame T.pin.skb _ _ _; rw [hTp]; exact fi.move _ _ _) f2
    (by show T.pin.skb.th = _; rw [hTp]; show s.pin.payload + (x - s.pin.pay) = _; omega)
    (by show T.pout.skb.th = _; rw [← hT]; show (s.outMem m1).pout.payload + 20 = _; omega) (by show T.pin.l4len = n; rw [hTp]; exact inIn_l4len _ _ _ _) hri hro
    (by show Enough T.pin.proto n; rw [hTp]; exact he) fuel (by show ¬ (T.pin.proto = _ ∧ _); rw [hTp]; exact hne)
  rw [w3]; simp only [ok_bind]
  have hrest : restoreOuter ((T.outMem m2).outMem m3) (backup (s.outMem m1).pin) (backup (s.outMem m1).pout) true =
      .ok (s.outMem m3) := by rw [← hT]; exact restoreOuter_ok (s := s.outMem m1) hii hio m3 q (x - s.pin.pay) n 20 n
  rw [hrest]; simp only [ok_bind]
  refine ⟨s.outMem m3, m3, rfl, ⟨?_, fo.data, fo.nh, fo.th⟩, rfl⟩
  have hpr : (T.outMem m2).pin.proto = q := by show T.pin.proto = q; rw [hTp]; rfl
  rw [hpr] at f3
  subst hT
  exact ⟨f3.tail, f3.room, f3.from_⟩

/-- An IPv4 packet: the header, with the length, and the rest. -/
def packet4 (hdr rest : List Byte) : List Byte := patch hdr 2 (be16 (hdr.length + rest.length)) ++ rest

theorem packet4_length {hdr rest : List Byte} (h : 20 ≤ hdr.length) : (packet4 hdr rest).length = hdr.length + rest.length := by
  unfold packet4
  rw [List.length_append, patch_length (by rw [be16_length]; omega)]

theorem packet4_patch {hdr A B new : List Byte} {off : Nat} (h : 20 ≤ hdr.length) (ho : off = hdr.length + A.length) (hn : new.length ≤ B.length) :
    patch (packet4 hdr (A ++ B)) off new = packet4 hdr (A ++ new ++ B.drop new.length) := by
  have hp : (patch hdr 2 (be16 (hdr.length + (A ++ B).length))).length = hdr.length := patch_length (by rw [be16_length]; omega)
  have e : (A ++ B).length = (A ++ new ++ B.drop new.length).length := by
    simp only [List.length_append, List.length_drop]; omega
  unfold packet4
  rw [patch_right (k := A.length) (by omega), patch_at (A := A) rfl, e]

theorem ext64_ok {v : Vals} (hv : v.Sized 20) {s : S} {bo ho : Nat} {os : List Byte} {to : Nat} {fh : Option (List Byte)} (hf : fragHdr s.pin = .ok fh)
    (fo : Outgoing s.pout bo ho os to) (hro : 20 ≤ ho) :
    ∃ m, ext64 v s = .ok (s.outMem m) ∧ Outgoing (s.outMem m).pout bo ho (packet4 (v.l3 fh) (os.drop 20)) to := by
  have hl := hv.l3 fh
  have hos := fo.frame.hl_le
  unfold ext64
  rw [bind_eq, hf, ok_bind]
  obtain ⟨m, w, o1⟩ := fo.write (pos := s.pout.skb.nh) (off := 0) (l := v.l3 fh) fo.nh (by omega)
  rw [bind_eq, w, ok_bind]
  have e : patch os 0 (v.l3 fh) = v.l3 fh ++ os.drop 20 := by
    have := patch_at (A := []) (B := os) (new := v.l3 fh) (off := 0) rfl
    rw [hl] at this
    simpa using this
  rw [e] at o1
  have hlen := o1.frame.len o1.data
  rw [hlen]
  obtain ⟨m2, w2, o2⟩ := o1.write (pos := (s.outMem m).pout.skb.nh + 2) (off := 2) (l := be16 ((v.l3 fh ++ os.drop 20).length)) (by rw [o1.nh])
    (by rw [be16_length]; omega)
  refine ⟨m2, w2, ?_⟩
  rw [patch_left (by rw [be16_length]; omega), List.length_append] at o2
  exact o2

/-- The outgoing packet, 6 to 4, if it is not an ICMP error. -/
def plain64 (v : Vals) (bs : List Byte) (m : Meta) : List Byte :=
  packet4 (v.l3 (frag6 bs m)) ((if isFirst6 bs m = true then l4New v m.proto (slice bs m.l4 m.pay) else []) ++ bs.drop m.pay)

/-- The outgoing packet, 6 to 4, if it is an ICMP error and its contents are neither changed nor cut: `i` is the packet inside. -/
def error64 (v w : Vals) (bs : List Byte) (i : Meta) : List Byte :=
  packet4 (v.l3 none) (v.icmp ++ (w.l3 none ++ (l4New w i.proto (slice bs i.l4 i.pay) ++ bs.drop i.pay)))

section
variable {g : Given} {p : P} {a : Acc} {s0 : Pkt.Skb} (hv0 : (g.vals 0).Sized 20) (h : Pkt.init6 s0 = some a) (hh : Holds p a)
  (htcp : isFirst6 a.skb.data a.m = true → a.m.proto = L4.tcp → 20 ≤ tcpLen a.skb.data a.m.l4)
include hv0 h hh htcp

omit hv0 hh in
theorem accepted6_hdr : 40 ≤ a.m.l4 ∧ a.m.l4 ≤ a.m.pay ∧ (a.m.fh = 0 ∨ a.m.fh + 8 ≤ a.skb.linear) ∧
    (isFirst6 a.skb.data a.m = true → Enough a.m.proto (a.m.pay - a.m.l4)) ∧
    (a.m.proto = L4.icmp → isFirst6 a.skb.data a.m = true) := by
  have A := Pkt.init6_ok h
  have hpay := A.pay
  obtain ⟨h1, h2, h3, _, hd⟩ := Pkt.summarize6_meta A.sum
  rw [← A.data] at hd
  refine ⟨by omega, h2, by omega, ?_, ?_⟩
  · intro hf
    rw [hf] at hd
    simp only [HdrEnd, if_true] at hd
    cases hp : a.m.proto <;> rw [hp] at hd <;> simp only at hd
    · have := htcp hf hp
      simp only [Enough]; omega
    · simp only [Enough]; omega
    · simp only [Enough]; omega
    · simp only [Enough]; omega
  · intro hi
    have := (A.icmp hi).1
    rw [← A.data] at this
    unfold isFirst6
    rcases this with h4 | h4
    · simp [h4]
    · unfold Pkt.fragmented6 at h4
      simp only [Bool.or_eq_false_iff, bne_eq_false_iff_eq] at h4
      unfold first6
      simp [h4.1]

/-- A packet that is not an error. -/
theorem xlat64_plain (hi : a.inner = none) :
    ∃ s base hl, xlat64 g p = .ok (some s) ∧ s.pin = p ∧ Outgoing s.pout base hl (plain64 (g.vals 0) a.skb.data a.m) 20 ∧ p.skb.data ≤ base := by
  have A := Pkt.init6_ok h
  have hpay := A.pay
  obtain ⟨h40, hle, hfh, hen, hicf⟩ := accepted6_hdr h htcp
  have fi := hh.frame
  have hne : ¬ (p.proto = L4.icmp ∧ Icmp.isIcmp6Error (at8 a.skb.data a.m.l4) = true) := by
    rintro ⟨h1, h2⟩
    rw [hh.proto] at h1
    rw [A.data] at h2
    obtain ⟨i, h3⟩ := (A.icmp h1).2.2 h2
    rw [hi] at h3
    cases h3
  have hic : p.proto = L4.icmp → a.m.l4 < a.skb.linear := by
    intro h1
    rw [hh.proto] at h1
    have := hen (hicf h1)
    rw [h1] at this
    simp only [Enough] at this
    omega
  have herr : (isFirst6 a.skb.data a.m && (decide (p.proto = L4.icmp) && Icmp.isIcmp6Error (at8 a.skb.data a.m.l4))) = false := by
    by_cases c : p.proto = L4.icmp
    · cases c2 : Icmp.isIcmp6Error (at8 a.skb.data a.m.l4)
      · simp
      · exact absurd ⟨c, c2⟩ hne
    · simp [c]
  have hpl : a.skb.data.length = a.skb.linear + p.skb.pages.length := fi.length
  obtain ⟨o, nb, pre, halloc, hpre, fo, hod, hon, hot, hop, hoi, hopay, hbase⟩ := alloc64_ok (e := g.env) (m := a.m) fi hh.th hh.pay hh.frag h40 hle hpay hfh hic
    (err := false) herr.symm (n := 0#8) (x := a.m.pay) nofun (fun _ => rfl) rfl
  simp only [Bool.false_eq_true, if_false, Nat.add_zero] at hpre fo
  have hfr := fragHdr_ok fi rfl hh.frag hfh
  unfold xlat64
  rw [bind_eq, halloc, ok_bind]
  obtain ⟨m, w, o1⟩ := ext64_ok hv0 (s := ⟨p, o⟩) hfr (⟨fo, hod, hon, hot⟩ : Outgoing o nb _ _ 20) (by omega)
  rw [bind_eq, w, ok_bind]
  have hff : fragHdr (S.outMem ⟨p, o⟩ m).pin = .ok (frag6 a.skb.data a.m) := hfr
  rw [bind_eq, hff, ok_bind, firstFrag6_ok]
  have hhl := hv0.l3 (frag6 a.skb.data a.m)
  have hdrop : (pre ++ a.skb.data.drop a.m.pay).drop 20 = pre.drop 20 ++ a.skb.data.drop a.m.pay := by
    rw [List.drop_append_of_le_length (by omega)]
  rw [hdrop] at o1
  cases hf : isFirst6 a.skb.data a.m
  · have hA := (Pkt.summarize6_meta A.sum).2.2.2.2
    rw [← A.data, hf] at hA
    simp only [HdrEnd, Bool.false_eq_true, if_false] at hA
    have : pre.drop 20 = [] := List.drop_of_length_le (by omega)
    rw [this] at o1
    refine ⟨_, nb, 20 + (a.m.pay - a.m.l4) + (a.skb.linear - a.m.pay), rfl, rfl, ?_, hbase⟩
    unfold plain64
    rw [hf]
    exact o1
  · have hen' := hen hf
    have hl4l : (S.outMem ⟨p, o⟩ m).pin.l4len = a.m.pay - a.m.l4 := by
      show p.skb.data + p.pay - p.skb.th = _
      rw [hh.th, hh.pay]; omega
    obtain ⟨m2, w2, f2⟩ := l464_simple (g := g) (lvl := 0) hv0 (s := S.outMem ⟨p, o⟩ m) (ti := a.m.l4) (to := 20) fi o1.frame hh.th o1.th hl4l (by omega) (by omega)
      (by show Enough p.proto _; rw [hh.proto]; exact hen') (p.skb.len + 1) hne
    rw [if_pos rfl, w2]
    refine ⟨_, nb, 20 + (a.m.pay - a.m.l4) + (a.skb.linear - a.m.pay), rfl, rfl, ⟨?_, o1.data, o1.nh, o1.th⟩, hbase⟩
    have hsl : (slice a.skb.data a.m.l4 a.m.pay).length = a.m.pay - a.m.l4 := slice_length hle (by omega)
    have hnl : (l4New (g.vals 0) a.m.proto (slice a.skb.data a.m.l4 a.m.pay)).length = a.m.pay - a.m.l4 := by
      rw [l4New_len hv0 (by rw [hsl]; exact hen'), hsl]
    have e := packet4_patch (hdr := (g.vals 0).l3 (frag6 a.skb.data a.m)) (A := []) (B := pre.drop 20 ++ a.skb.data.drop a.m.pay)
      (new := l4New (g.vals 0) a.m.proto (slice a.skb.data a.m.l4 a.m.pay)) (off := 20) (by omega) (by simp [hhl]) (by rw [hnl, List.length_append, List.length_drop]; omega)
    have hdd : (pre.drop 20 ++ a.skb.data.drop a.m.pay).drop (l4New (g.vals 0) a.m.proto (slice a.skb.data a.m.l4 a.m.pay)).length = a.skb.data.drop a.m.pay := by
      apply List.drop_left'
      rw [hnl, List.length_drop]; omega
    rw [hdd] at e
    unfold plain64
    rw [hf, if_pos rfl]
    simp only [List.nil_append] at e
    rw [← e]
    have hpr : (S.outMem ⟨p, o⟩ m).pin.proto = a.m.proto := hh.proto
    rw [hpr] at f2
    exact f2

/-- An ICMP error, up to its end. -/
theorem xlat64_error {i : Meta} (hv1 : (g.vals 1).Sized 20) (hi : a.inner = some i) (hfh0 : a.m.fh = 0)
    (h1 : ∀ n o, Pkt.last6 a.skb a.m.pay = some (n, o) → n ≠ 1#8) (hit : i.proto = L4.tcp → 20 ≤ tcpLen a.skb.data i.l4) :
    ∃ s3 base hl, Outgoing s3.pout base hl (error64 (g.vals 0) (g.vals 1) a.skb.data i) 20 ∧ s3.pin = p ∧ s3.pout.pay = 28 ∧ 28 ≤ hl ∧ p.skb.data ≤ base ∧
      xlat64 g p = (finish64 g (g.vals 0) s3).bind fun r => match r with
        | none => .ok none
        | some s => (writeOut s (s.pout.skb.th + 2) (g.vals 0).sum).bind fun s => .ok (some s) := by
  have A := Pkt.init6_ok h
  have hpay := A.pay
  obtain ⟨h40, hle, hfh, hen, hicf⟩ := accepted6_hdr h htcp
  obtain ⟨hpi, herr, I⟩ := A.inner i hi
  obtain ⟨nx, hlast, hprn, _, hqn⟩ := Pkt.walkers_agree_inner_partial h hi
  rw [← A.data] at herr I
  have hq : i.proto = innerProto nx := (hqn (h1 _ _ hlast)).symm
  have hff := hicf hpi
  have hen' := hen hff
  rw [hpi] at hen'
  simp only [Enough] at hen'
  have fi := hh.frame
  have hpp : p.proto = L4.icmp := hh.proto.trans hpi
  have hpl : a.skb.data.length = a.skb.linear + p.skb.pages.length := fi.length
  obtain ⟨i1, i2, _, _, hiH⟩ := Pkt.summarize6_meta I.sum
  have hipay := I.pay
  have hien : Enough i.proto (i.pay - i.l4) ∧ i.pay - i.l4 = hdrLen a.skb.data i.l4 i.proto := by
    rw [I.first] at hiH
    unfold HdrEnd at hiH
    simp only [if_true] at hiH
    cases hp : i.proto <;> rw [hp] at hiH <;> simp only at hiH
    · have := hit hp
      exact ⟨by simp only [Enough]; omega, by simp only [hdrLen]; omega⟩
    · exact ⟨by simp only [Enough]; omega, by simp only [hdrLen]; omega⟩
    · exact ⟨by simp only [Enough]; omega, by simp only [hdrLen]; omega⟩
    · exact ⟨by simp only [Enough]; omega, by simp only [hdrLen]; omega⟩
  obtain ⟨hie, hin⟩ := hien
  obtain ⟨o, nb, pre, halloc, hpre, fo, hod, hon, hot, hop, hoi, hopay, hbase⟩ := alloc64_ok (e := g.env) (m := a.m) fi hh.th hh.pay hh.frag h40 hle hpay hfh (fun _ => by omega)
    (err := true) (by rw [hff, hpp, herr]; rfl) (n := nx) (x := i.l4) (fun _ => ⟨hlast, by omega, by omega⟩) nofun rfl
  simp only [if_true] at hpre fo
  have hfr := fragHdr_ok fi rfl hh.frag hfh
  have hfr0 : frag6 a.skb.data a.m = none := by unfold frag6; rw [if_pos hfh0]
  rw [hfr0] at hfr
  unfold xlat64
  rw [bind_eq, halloc, ok_bind]
  obtain ⟨m, w, o1⟩ := ext64_ok hv0 (s := ⟨p, o⟩) hfr (⟨fo, hod, hon, hot⟩ : Outgoing o nb _ _ 20) (by omega)
  rw [bind_eq, w, ok_bind]
  have hff' : fragHdr (S.outMem ⟨p, o⟩ m).pin = .ok none := hfr
  rw [bind_eq, hff', ok_bind]
  have hft : firstFrag6 none = true := rfl
  rw [if_pos hft]
  have hhl := hv0.l3 none
  have hhl2 := hv1.l3 none
  have hdrop : (pre ++ a.skb.data.drop i.l4).drop 20 = pre.drop 20 ++ a.skb.data.drop i.l4 := by
    rw [List.drop_append_of_le_length (by omega)]
  rw [hdrop] at o1
  have hpl20 : (pre.drop 20).length = 28 := by rw [List.length_drop]; omega
  generalize pre.drop 20 = Q at *
  have hsl : (slice a.skb.data i.l4 i.pay).length = i.pay - i.l4 := slice_length i2 (by omega)
  have hnl : (l4New (g.vals 1) i.proto (slice a.skb.data i.l4 i.pay)).length = i.pay - i.l4 := by
    rw [l4New_len hv1 (by rw [hsl]; exact hie), hsl]
  have hpin : (S.outMem ⟨p, o⟩ m).pin.pay = a.m.pay := hh.pay
  have hpout : (S.outMem ⟨p, o⟩ m).pout.pay = 28 := by
    show o.pay = 28
    omega
  have hI : inner64 g a.skb.data (packet4 ((g.vals 0).l3 none) (Q ++ a.skb.data.drop i.l4)) 20 28 i.proto i.l4 (i.pay - i.l4) =
      error64 (g.vals 0) (g.vals 1) a.skb.data i := by
    have hD : (a.skb.data.drop i.l4).length = a.skb.data.length - i.l4 := List.length_drop
    unfold inner64 error64
    have e1 := packet4_patch (hdr := (g.vals 0).l3 none) (A := []) (B := Q ++ a.skb.data.drop i.l4) (new := (g.vals 0).icmp) (off := 20)
      (by omega) (by rw [hhl]; rfl) (by rw [hv0.icmp, List.length_append]; omega)
    rw [List.nil_append, List.nil_append] at e1
    rw [e1]
    have e2 := packet4_patch (hdr := (g.vals 0).l3 none) (A := (g.vals 0).icmp) (B := (Q ++ a.skb.data.drop i.l4).drop (g.vals 0).icmp.length)
      (new := (g.vals 1).l3 none) (off := 28) (by omega) (by rw [hhl, hv0.icmp])
      (by rw [hhl2, hv0.icmp, List.length_drop, List.length_append]; omega)
    rw [e2]
    have e3 : ((Q ++ a.skb.data.drop i.l4).drop (g.vals 0).icmp.length).drop ((g.vals 1).l3 none).length = a.skb.data.drop i.l4 := by
      rw [List.drop_drop, hv0.icmp, hhl2]
      exact List.drop_left' hpl20
    rw [e3]
    have e4 := packet4_patch (hdr := (g.vals 0).l3 none) (A := (g.vals 0).icmp ++ (g.vals 1).l3 none)
      (B := a.skb.data.drop i.l4) (new := l4New (g.vals 1) i.proto (slice a.skb.data i.l4 i.pay)) (off := 28 + 20) (by omega)
      (by rw [hhl, List.length_append, hv0.icmp, hhl2]) (by rw [hnl, hD]; omega)
    have e6 : (a.skb.data.drop i.l4).drop (l4New (g.vals 1) i.proto (slice a.skb.data i.l4 i.pay)).length = a.skb.data.drop i.pay := by
      rw [List.drop_drop, hnl]
      congr 1; omega
    rw [e6] at e4
    refine Eq.trans e4 ?_
    simp only [List.append_assoc]
  obtain ⟨s3, m3, hs3, o3, key⟩ := l464_error (g := g) (s := S.outMem ⟨p, o⟩ m) (bi := p.skb.data) (sk := a.skb) (ti := a.m.l4) (to := 20)
    (x := i.l4) (n := i.pay - i.l4) (nx := nx) (q := i.proto) hv0 hv1 fi rfl hh.th o1 hh.inner hoi
    (by rw [hpin]; omega) (by rw [hpout]) (by show p.frag = 0; rw [hh.frag]; exact hfh0) hpp herr (by rw [hpin]; omega)
    (by rw [hpin]; exact hlast) (by rw [hpin]; omega) hq hin hie (by omega) (by rw [hpout]; omega)
    (by
      rintro ⟨c1, c2⟩
      have := (I.noError c1).2
      rw [this] at c2
      cases c2) p.skb.len
  rw [hpout, hI] at o3
  refine ⟨s3, nb, _, o3, by rw [hs3]; rfl, by rw [hs3]; exact hpout, by omega, hbase, key⟩

end

end Jool.Build
