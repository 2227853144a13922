import Verif.Lemmas.BuildL4
import Verif.Props.IcmpExt
/-
Moving to the packet inside of an error, and back; the end of an error.
-/
namespace Jool.Build
open Jool.Pkt (Byte L4 at8 at16 ihl4 fragmented4 first4 innerProto tcpLen)

/-- The length of the transport header at an offset, going by the protocol. -/
def hdrLen (bs : List Byte) (off : Nat) : L4 → Nat
  | L4.tcp => tcpLen bs off
  | L4.udp => 8
  | L4.icmp => 8
  | L4.other => 0

/-- The packet inside. -/
def inIn (p : P) (proto : L4) (l3 n : Nat) : P :=
  ⟨{ p.skb with data := p.payload, nh := p.payload, th := p.payload + l3 }, proto, true, p.frag, l3 + n⟩

theorem inIn_l4len (p : P) (proto : L4) (l3 n : Nat) : (inIn p proto l3 n).l4len = n := by
  show p.payload + (l3 + n) - (p.payload + l3) = n
  omega

theorem movePointersIn_ok {p : P} {bi hi : Nat} {is : List Byte} (fi : Frame p.skb bi hi is) (hd : p.skb.data = bi) (hp : p.pay ≤ hi) {protocol : Byte} {l3 : Nat}
    (ht : innerProto protocol = L4.tcp → p.pay + l3 + 13 ≤ hi) :
    movePointersIn p protocol l3 = .ok (some (inIn p (innerProto protocol) l3 (hdrLen is (p.pay + l3) (innerProto protocol)))) := by
  unfold movePointersIn
  rw [bind_eq, pull_ok (by rw [fi.headlen hd]; exact hp), ok_bind]
  cases hq : innerProto protocol <;> simp only
  · have hrd : rd8 ({ p.skb with data := p.skb.data + p.pay, nh := p.skb.data + p.pay, th := p.skb.data + p.pay + l3 } : Buf) (p.skb.data + p.pay + l3 + 12) = _ :=
      rd8_ok (fi.move _ _ _) (off := p.pay + l3 + 12) (by omega) (by have := ht hq; omega)
    rw [bind_eq, hrd]; rfl
  · rfl
  · rfl
  · rfl

theorem movePointersOut_ok {i o : P} {bo ho : Nat} {os : List Byte} (fo : Frame o.skb bo ho os) (hd : o.skb.data = bo) (hp : o.pay ≤ ho) (l3 : Nat) :
    movePointersOut i o l3 = .ok (some (inIn o i.proto l3 i.l4len)) := by
  unfold movePointersOut
  rw [bind_eq, pull_ok (by rw [fo.headlen hd]; exact hp), ok_bind]
  rfl

theorem becomeInner4_ok {s : S} {bi hi : Nat} {is : List Byte} {bo ho : Nat} {os : List Byte} (fi : Frame s.pin.skb bi hi is) (fo : Frame s.pout.skb bo ho os)
    (hdi : s.pin.skb.data = bi) (hdo : s.pout.skb.data = bo) (hpi : s.pin.pay + 20 ≤ hi) (hpo : s.pout.pay ≤ ho) {q : L4} {l3 n : Nat}
    (hq : q = innerProto (at8 is (s.pin.pay + 9))) (hl3 : l3 = ihl4 is s.pin.pay) (hn : n = hdrLen is (s.pin.pay + l3) q)
    (ht : q = L4.tcp → s.pin.pay + l3 + 13 ≤ hi) :
    becomeInner4 s true = .ok (some ⟨inIn s.pin q l3 n, inIn s.pout q (40 + if fragmented4 is s.pin.pay = true then 8 else 0) n⟩) := by
  have hpp : s.pin.payload = bi + s.pin.pay := by unfold P.payload; omega
  unfold becomeInner4
  simp only [bind_eq, rd8_ok fi (pos := s.pin.payload + 9) (off := s.pin.pay + 9) (by omega) (by omega), ok_bind,
    ihl_ok fi hpp (by omega)]
  rw [movePointersIn_ok fi hdi (by omega) (by rw [← hq, ← hl3]; exact ht), ← hl3, ← hq, ← hn]
  simp only [ok_bind, Bool.not_true, Bool.false_eq_true, if_false]
  have hnf : needFrag (inIn s.pin q l3 n).skb s.pin.payload = _ := needFrag_ok (fi.move _ _ _) hpp (by omega)
  simp only [hnf, ok_bind]
  rw [movePointersOut_ok fo hdo hpo, inIn_l4len]
  rfl

/-- What was moved comes back. -/
theorem restore_ok {p : P} (hi : p.inner = false) (m : List Byte) (q : L4) (l3 n : Nat) :
    restore { inIn p q l3 n with skb := { (inIn p q l3 n).skb with mem := m } } (backup p) = .ok { p with skb := { p.skb with mem := m } } := by
  unfold restore
  rw [bind_eq, push_ok (by show p.pay ≤ p.skb.data + p.pay; omega), ok_bind]
  cases p with
  | mk skb proto inner frag pay =>
    cases skb
    simp only at hi
    simp only [hi, inIn, backup, P.payload, pure_eq, Outcome.ok.injEq, P.mk.injEq, Buf.mk.injEq, true_and, and_true]
    omega

theorem restoreOuter_ok {s : S} (hi : s.pin.inner = false) (ho : s.pout.inner = false) (m : List Byte) (q : L4) (l3 n l3' n' : Nat) :
    restoreOuter (S.outMem ⟨inIn s.pin q l3 n, inIn s.pout q l3' n'⟩ m) (backup s.pin) (backup s.pout) true = .ok (s.outMem m) := by
  unfold restoreOuter
  have h1 : restore (S.outMem ⟨inIn s.pin q l3 n, inIn s.pout q l3' n'⟩ m).pin (backup s.pin) = .ok s.pin := restore_ok hi s.pin.skb.mem q l3 n
  have h2 : restore (S.outMem ⟨inIn s.pin q l3 n, inIn s.pout q l3' n'⟩ m).pout (backup s.pout) = _ := restore_ok ho m q l3' n'
  simp only [bind_eq, h1, h2, ok_bind, if_true]
  rfl

theorem common46_ok {v : Vals} (hv : v.Sized 40) {s : S} {bi hi : Nat} {is : List Byte} {bo ho : Nat} {os : List Byte} {ni no : Nat} (fi : Frame s.pin.skb bi hi is)
    (fo : Frame s.pout.skb bo ho os) (hni : s.pin.skb.nh = bi + ni) (hno : s.pout.skb.nh = bo + no) (hri : ni + 8 ≤ hi)
    {many fr : Bool} (hfr : fr = (fragmented4 is ni || many)) (hro : no + 40 + (if fr = true then 8 else 0) ≤ ho) :
    ∃ m, common46 v s many = .ok (s.outMem m) ∧
      Frame (s.outMem m).pout.skb bo ho (patch os no (v.l3 none ++ if fr = true then v.frag else [])) := by
  have h3 := hv.l3 none
  have hf := hv.frag
  have hos := fo.hl_le
  obtain ⟨m, w, f⟩ := writeOut_mem fo (l := v.l3 none) hno (by omega)
  unfold common46
  have hnf : needFrag (s.outMem m).pin.skb (s.outMem m).pin.skb.nh = _ := needFrag_ok fi hni hri
  simp only [bind_eq, w, ok_bind, hnf]
  rw [← hfr]
  by_cases hc : fr = true
  · rw [if_pos hc] at hro
    rw [if_pos hc, if_pos hc]
    obtain ⟨m2, w2, f2⟩ := writeOut_mem f (pos := s.pout.skb.nh + 40) (off := no + 40) (l := v.frag) (by omega) (by omega)
    refine ⟨m2, w2, ?_⟩
    have : patch (patch os no (v.l3 none)) (no + 40) v.frag = patch os no (v.l3 none ++ v.frag) := by
      have e : patch os no (v.l3 none) = (os.take no ++ v.l3 none) ++ os.drop (no + 40) := by unfold patch; rw [h3]
      rw [e, patch_right (k := 0) (by rw [List.length_append, List.length_take]; omega)]
      unfold patch
      simp only [List.take_zero, List.nil_append, List.drop_drop, List.length_append, hf, h3, List.append_assoc, Nat.zero_add, Nat.add_assoc]
    rw [this] at f2
    exact f2
  · rw [if_neg hc, if_neg hc]
    refine ⟨m, rfl, ?_⟩
    rw [List.append_nil]; exact f

/-! ## The end of an error -/

theorem trim_frame {b : Buf} {base hl : Nat} {bs : List Byte} (f : Frame b base hl bs) (hd : b.data = base) (n : Nat) :
    Frame (trim b n) base (min hl n) (bs.take n) ∧ (trim b n).data = b.data ∧ (trim b n).nh = b.nh ∧ (trim b n).th = b.th := by
  have hlen := f.len hd
  have hh := f.headlen hd
  have h1 := f.tail; have h2 := f.room
  unfold trim
  by_cases c : b.len ≤ n
  · rw [if_pos c]
    have := f.hl_le
    rw [Nat.min_eq_left (by omega), List.take_of_length_le (by omega)]
    exact ⟨f, rfl, rfl, rfl⟩
  · rw [if_neg c]
    by_cases c2 : n < b.headlen
    · rw [if_pos c2]
      refine ⟨⟨?_, ?_, ?_⟩, rfl, rfl, rfl⟩
      · show b.data + n = _; omega
      · show b.data + n ≤ b.mem.length; omega
      · rw [← f.from_]
        unfold Buf.from
        simp only [List.append_nil, hd]
        rw [List.take_append_of_le_length (by simp only [List.length_take, List.length_drop]; omega), List.take_take]
        congr 1; omega
    · rw [if_neg c2]
      refine ⟨⟨?_, h2, ?_⟩, rfl, rfl, rfl⟩
      · show b.tail = _; omega
      · rw [← f.from_]
        unfold Buf.from
        have hX : ((b.mem.drop base).take (b.tail - base)).length = hl := by simp only [List.length_take, List.length_drop]; omega
        show List.take (b.tail - base) (b.mem.drop base) ++ b.pages.take (n - b.headlen) = _
        generalize (b.mem.drop base).take (b.tail - base) = X at *
        rw [List.take_append, List.take_of_length_le (l := X) (by omega), hX, hh]

/-- An outgoing packet: its bytes, and the offset of its transport header. -/
structure Outgoing (o : P) (base hl : Nat) (bs : List Byte) (th : Nat) : Prop where
  frame : Frame o.skb base hl bs
  data : o.skb.data = base
  nh : o.skb.nh = base
  th : o.skb.th = base + th

theorem Outgoing.write {s : S} {bo ho : Nat} {os : List Byte} {to : Nat} (f : Outgoing s.pout bo ho os to) {pos off : Nat} {l : List Byte} (hp : pos = bo + off)
    (h : off + l.length ≤ ho) :
    ∃ m, writeOut s pos l = .ok (s.outMem m) ∧ Outgoing (s.outMem m).pout bo ho (patch os off l) to := by
  obtain ⟨m, w, f'⟩ := writeOut_mem f.frame hp h
  exact ⟨m, w, f', f.data, f.nh, f.th⟩

theorem extension_ok {g : Given} {a : IcmpExt.Args} {ipl : Nat} {s : S} {bi hi : Nat} {is : List Byte} {bo ho : Nat} {os : List Byte} {to : Nat}
    (fi : Frame s.pin.skb bi hi is) (hdi : s.pin.skb.data = bi) (fo : Outgoing s.pout bo ho os to) (hpo : s.pout.pay ≤ ho) :
    match IcmpExt.handle a ipl (is.drop s.pin.pay) s.pout.pay (os.drop s.pout.pay) with
    | .drop => extension g a ipl s = .ok none
    | .ub => extension g a ipl s = .ub .outOfBounds
    | .ok l f => ∃ s' bo' ho', extension g a ipl s = .ok (some (s', f)) ∧ Outgoing s'.pout bo' ho' (os.take s.pout.pay ++ l) to ∧ s'.pin = s.pin ∧
        s.pout.pay ≤ ho' ∧ s'.pout.pay = s.pout.pay ∧ (bo' = bo ∨ bo' = g.ll) := by
  have hl := fo.frame.hl_le
  unfold extension
  simp only [fi.bytes hdi, fo.frame.bytes fo.data]
  cases hh : IcmpExt.handle a ipl (is.drop s.pin.pay) s.pout.pay (os.drop s.pout.pay) with
  | drop => rfl
  | ub => rfl
  | ok l f =>
    simp only
    by_cases c : ipl = 0 ∨ ipl = (is.drop s.pin.pay).length
    · rw [if_pos c]
      refine ⟨s, bo, ho, rfl, ?_, rfl, hpo, rfl, Or.inl rfl⟩
      rw [IcmpExt.handle_none c] at hh
      injection hh with h1 h2
      rw [← h1, List.take_append_drop]
      exact fo
    · rw [if_neg c]
      have ht : (os.take s.pout.pay).length = s.pout.pay := by rw [List.length_take]; omega
      have htd : s.pout.skb.th - s.pout.skb.data = to := by rw [fo.th, fo.data]; omega
      refine ⟨_, g.ll, s.pout.pay + l.length, rfl, ⟨⟨?_, ?_, ?_⟩, rfl, rfl, ?_⟩, rfl, by omega, rfl, Or.inr rfl⟩
      · show g.ll + (os.take s.pout.pay).length + l.length = _
        omega
      · show g.ll + (os.take s.pout.pay).length + l.length ≤ List.length _
        simp only [List.length_append, fresh_length]; omega
      · show (List.drop g.ll (g.env.fresh g.ll ++ os.take s.pout.pay ++ l ++ g.env.fresh g.env.slack)).take (g.ll + (os.take s.pout.pay).length + l.length - g.ll) ++ [] = _
        rw [List.append_nil, List.append_assoc, List.append_assoc, List.drop_append_of_le_length (by rw [fresh_length]; exact Nat.le_refl _),
          List.drop_of_length_le (by rw [fresh_length]; exact Nat.le_refl _), List.nil_append, ← List.append_assoc]
        apply List.take_left'
        rw [List.length_append]
        omega
      · show g.ll + (s.pout.skb.th - s.pout.skb.data) = _
        omega

theorem patch_take {l new : List Byte} {off n : Nat} (h : off + new.length ≤ n) (hl : off + new.length ≤ l.length) :
    (patch l off new).take n = patch (l.take n) off new := by
  unfold patch
  rw [List.take_append, List.take_of_length_le (by simp only [List.length_append, List.length_take]; omega), List.take_take, List.drop_take]
  simp only [List.length_append, List.length_take]
  have e1 : min off n = off := by omega
  have e2 : n - (min off l.length + new.length) = n - (off + new.length) := by omega
  rw [e1, e2]

theorem patch_again {l a b : List Byte} {off : Nat} (hab : a.length = b.length) (h : off + a.length ≤ l.length) :
    patch (patch l off a) off b = patch l off b := by
  have := patch_patch (l := l) (a := a) (b := b) (off := off) (j := 0) h (by omega)
  rw [Nat.add_zero, patch_all hab] at this
  exact this

theorem be16_length (n : Nat) : (be16 n).length = 2 := rfl

/-- The end of an error, 4 to 6: the payload is `l`, and the packet is cut. -/
def ended46 (os : List Byte) (po to : Nat) (l : List Byte) (f : Nat) : List Byte :=
  let x := (os.take po ++ l).take 1280
  patch (patch x (to + 4) [BitVec.ofNat 8 f]) 4 (be16 (x.length - 40))

theorem finish46_ok {g : Given} {s : S} {bi hi : Nat} {is : List Byte} {bo ho : Nat} {os : List Byte} {ti to : Nat}
    (fi : Frame s.pin.skb bi hi is) (hdi : s.pin.skb.data = bi) (hti : s.pin.skb.th = bi + ti) (fo : Outgoing s.pout bo ho os to) (hpo : s.pout.pay ≤ ho)
    (hi8 : ti + 8 ≤ hi) (hto : 40 ≤ to) (hto8 : to + 8 ≤ s.pout.pay) (hpo2 : s.pout.pay ≤ 1280) :
    match IcmpExt.handle ⟨1280, 3, IcmpExt.shouldRemove (at8 is ti) (at8 is (ti + 1))⟩ ((at8 is (ti + 5)).toNat * 4) (is.drop s.pin.pay) s.pout.pay (os.drop s.pout.pay) with
    | .drop => finish46 g s = .ok none
    | .ub => finish46 g s = .ub .outOfBounds
    | .ok l f => ∃ s' bo' ho', finish46 g s = .ok (some s') ∧ Outgoing s'.pout bo' ho' (ended46 os s.pout.pay to l f) to ∧ s'.pin = s.pin ∧
        s.pout.pay ≤ ho' ∧ (bo' = bo ∨ bo' = g.ll) := by
  unfold finish46
  have e0 : at8 ((is.drop ti).take 8) 0 = at8 is ti := by rw [at8_take (by omega), at8_drop]; rfl
  have e1 : at8 ((is.drop ti).take 8) 1 = at8 is (ti + 1) := by rw [at8_take (by omega), at8_drop]
  have e5 : at8 ((is.drop ti).take 8) 5 = at8 is (ti + 5) := by rw [at8_take (by omega), at8_drop]
  simp only [bind_eq, read_ok fi hti hi8, ok_bind, e0, e1, e5]
  have hx := extension_ok (g := g) (a := ⟨1280, 3, IcmpExt.shouldRemove (at8 is ti) (at8 is (ti + 1))⟩) (ipl := (at8 is (ti + 5)).toNat * 4) fi hdi fo hpo
  revert hx
  cases IcmpExt.handle ⟨1280, 3, IcmpExt.shouldRemove (at8 is ti) (at8 is (ti + 1))⟩ ((at8 is (ti + 5)).toNat * 4) (is.drop s.pin.pay) s.pout.pay (os.drop s.pout.pay) with
  | drop => intro hx; simp only at hx ⊢; rw [hx]; rfl
  | ub => intro hx; simp only at hx ⊢; rw [hx]; rfl
  | ok l f =>
    rintro ⟨s', bo', ho', hx, o1, hp1, hh1, hpay, hb⟩
    simp only [hx, ok_bind]
    generalize hz : os.take s.pout.pay ++ l = z at *
    have hzl : s.pout.pay ≤ z.length := Nat.le_trans hh1 o1.frame.hl_le
    obtain ⟨m1, w1, o2⟩ := o1.write (pos := s'.pout.skb.th + 4) (off := to + 4) (l := [BitVec.ofNat 8 f]) (by rw [o1.th]; omega) (by simp only [List.length_singleton]; omega)
    rw [w1]; simp only [ok_bind]
    have hl2 := o2.frame.len o2.data
    rw [patch_length (by simp only [List.length_singleton]; omega)] at hl2
    rw [hl2]
    obtain ⟨m2, w2, o3⟩ := o2.write (pos := (s'.outMem m1).pout.skb.nh + 4) (off := 4) (l := be16 (z.length - 40)) (by rw [o2.nh]) (by rw [be16_length]; omega)
    rw [w2]; simp only [ok_bind]
    have hl3 := o3.frame.len o3.data
    rw [patch_length (by rw [be16_length, patch_length (by simp only [List.length_singleton]; omega)]; omega), patch_length (by simp only [List.length_singleton]; omega)] at hl3
    rw [hl3]
    by_cases c : z.length ≤ 1280
    · rw [if_pos c]
      refine ⟨_, bo', ho', rfl, ?_, hp1, hh1, hb⟩
      rw [ended46, hz, List.take_of_length_le c]
      exact o3
    · rw [if_neg c]
      obtain ⟨t1, t2, t3, t4⟩ := trim_frame o3.frame o3.data 1280
      have o4 : Outgoing (skbTrim ((s'.outMem m1).outMem m2) 1280).pout bo' (min ho' 1280) _ to := ⟨t1, t2.trans o3.data, t3.trans o3.nh, t4.trans o3.th⟩
      have hl4 := o4.frame.len o4.data
      rw [patch_take (by rw [be16_length]; omega) (by rw [be16_length, patch_length (by simp only [List.length_singleton]; omega)]; omega),
        patch_take (by simp only [List.length_singleton]; omega) (by simp only [List.length_singleton]; omega)] at o4 hl4
      have ht : (z.take 1280).length = 1280 := by rw [List.length_take]; omega
      rw [patch_length (by rw [be16_length, patch_length (by simp only [List.length_singleton]; omega)]; omega),
        patch_length (by simp only [List.length_singleton]; omega), ht] at hl4
      rw [hl4]
      obtain ⟨m4, w4, o5⟩ := o4.write (pos := (skbTrim ((s'.outMem m1).outMem m2) 1280).pout.skb.nh + 4) (off := 4) (l := be16 (1280 - 40)) (by rw [o4.nh]) (by rw [be16_length]; omega)
      rw [w4]
      refine ⟨_, bo', min ho' 1280, rfl, ?_, hp1, by omega, hb⟩
      rw [patch_again (a := be16 (z.length - 40)) (b := be16 (1280 - 40)) ((be16_length _).trans (be16_length _).symm) (by rw [be16_length, patch_length (by simp only [List.length_singleton]; omega)]; omega)] at o5
      rw [ended46, hz]
      simp only [ht]
      exact o5

/-- An IPv4 packet whose length changed. -/
def updated (v : Vals) (os : List Byte) : List Byte :=
  if at16 os 2 = os.length then os
  else patch (patch (patch os 2 (be16 os.length)) 6 [at8 os 6 &&& 0xbf#8]) 10 v.ipsum

theorem updated_length {v : Vals} {k : Nat} (hv : v.Sized k) {os : List Byte} (h : 20 ≤ os.length) : (updated v os).length = os.length := by
  unfold updated
  split
  · rfl
  · have h1 : (patch os 2 (be16 os.length)).length = os.length := patch_length (by rw [be16_length]; omega)
    have h2 : (patch (patch os 2 (be16 os.length)) 6 [at8 os 6 &&& 0xbf#8]).length = os.length := by
      rw [patch_length (by rw [h1, List.length_singleton]; omega), h1]
    rw [patch_length (by rw [h2, hv.ipsum]; omega), h2]

theorem updateTotalLength_ok {v : Vals} {k : Nat} (hv : v.Sized k) {s : S} {bo ho : Nat} {os : List Byte} {to : Nat} (fo : Outgoing s.pout bo ho os to) (h20 : 20 ≤ ho) :
    ∃ m, updateTotalLength v s = .ok (s.outMem m) ∧ Outgoing (s.outMem m).pout bo ho (updated v os) to := by
  have hl := fo.frame.hl_le
  have hlen := fo.frame.len fo.data
  unfold updateTotalLength
  simp only [bind_eq, read_ok fo.frame (pos := s.pout.skb.nh) (off := 0) (n := 20) (by rw [fo.nh]; rfl) (by omega), ok_bind, List.drop_zero]
  rw [at16_take (by omega), at8_take (by omega), hlen]
  unfold updated
  by_cases c : at16 os 2 = os.length
  · rw [if_pos c, if_pos c]
    exact ⟨s.pout.skb.mem, rfl, fo⟩
  · rw [if_neg c, if_neg c]
    obtain ⟨m1, w1, o1⟩ := fo.write (pos := s.pout.skb.nh + 2) (off := 2) (l := be16 os.length) (by rw [fo.nh]) (by rw [be16_length]; omega)
    rw [w1]; simp only [ok_bind]
    obtain ⟨m2, w2, o2⟩ := o1.write (pos := (s.outMem m1).pout.skb.nh + 6) (off := 6) (l := [at8 os 6 &&& 0xbf#8]) (by rw [o1.nh]) (by rw [List.length_singleton]; omega)
    rw [w2]; simp only [ok_bind]
    obtain ⟨m3, w3, o3⟩ := o2.write (pos := ((s.outMem m1).outMem m2).pout.skb.nh + 10) (off := 10) (l := v.ipsum) (by rw [o2.nh]) (by rw [hv.ipsum]; omega)
    exact ⟨m3, w3, o3⟩

/-- No more than 576 bytes. -/
def cut576 (v : Vals) (os : List Byte) : List Byte := if os.length ≤ 576 then os else updated v (os.take 576)

theorem trim576_ok {v : Vals} {k : Nat} (hv : v.Sized k) {s : S} {bo ho : Nat} {os : List Byte} {to n : Nat} (fo : Outgoing s.pout bo ho os to) (h20 : 20 ≤ n)
    (hn : n ≤ 576) (hho : n ≤ ho) :
    ∃ s' ho', trim576 v s = .ok s' ∧ Outgoing s'.pout bo ho' (cut576 v os) to ∧ s'.pin = s.pin ∧ n ≤ ho' := by
  unfold trim576 cut576
  rw [fo.frame.len fo.data]
  by_cases c : os.length ≤ 576
  · rw [if_pos c, if_pos c]
    exact ⟨s, ho, rfl, fo, rfl, hho⟩
  · rw [if_neg c, if_neg c]
    obtain ⟨t1, t2, t3, t4⟩ := trim_frame fo.frame fo.data 576
    have o4 : Outgoing (skbTrim s 576).pout bo (min ho 576) _ to := ⟨t1, t2.trans fo.data, t3.trans fo.nh, t4.trans fo.th⟩
    obtain ⟨m, w, o⟩ := updateTotalLength_ok hv o4 (by omega)
    exact ⟨_, _, w, o, rfl, by omega⟩

/-- The end of an error that might have an extension, 6 to 4. -/
def ended64 (v : Vals) (os : List Byte) (po to : Nat) (l : List Byte) (f : Nat) : List Byte :=
  cut576 v (updated v (patch (os.take po ++ l) (to + 5) [BitVec.ofNat 8 f]))

/-- Whether the error has a length field. -/
def hasLen (t : Byte) : Prop := t = 1#8 ∨ t = 3#8

instance (t : Byte) : Decidable (hasLen t) := by unfold hasLen; infer_instance

/-- The end of an error, 6 to 4, without a length field. -/
theorem finish64_plain {g : Given} {v : Vals} (hv : v.Sized 20) {s : S} {bi hi : Nat} {is : List Byte} {bo ho : Nat} {os : List Byte} {ti to : Nat}
    (fi : Frame s.pin.skb bi hi is) (hti : s.pin.skb.th = bi + ti) (fo : Outgoing s.pout bo ho os to) (hpo : s.pout.pay ≤ ho)
    (hi8 : ti + 8 ≤ hi) (hpo20 : 20 ≤ s.pout.pay) (hpo2 : s.pout.pay ≤ 576) (hl : ¬ hasLen (at8 is ti)) :
    ∃ s' ho', finish64 g v s = .ok (some s') ∧ Outgoing s'.pout bo ho' (cut576 v os) to ∧ s'.pin = s.pin ∧ s.pout.pay ≤ ho' := by
  unfold finish64
  have e0 : at8 ((is.drop ti).take 8) 0 = at8 is ti := by rw [at8_take (by omega), at8_drop]; rfl
  simp only [bind_eq, read_ok fi hti hi8, ok_bind, e0]
  unfold hasLen at hl
  rw [if_neg hl]
  obtain ⟨s', ho', w, o, p, h⟩ := trim576_ok hv fo hpo20 hpo2 hpo
  rw [w]
  exact ⟨s', ho', rfl, o, p, h⟩

/-- The end of an error, 6 to 4. -/
theorem finish64_ok {g : Given} {v : Vals} (hv : v.Sized 20) {s : S} {bi hi : Nat} {is : List Byte} {bo ho : Nat} {os : List Byte} {ti to : Nat}
    (fi : Frame s.pin.skb bi hi is) (hdi : s.pin.skb.data = bi) (hti : s.pin.skb.th = bi + ti) (fo : Outgoing s.pout bo ho os to) (hpo : s.pout.pay ≤ ho)
    (hi8 : ti + 8 ≤ hi) (hto : 20 ≤ to) (hto8 : to + 8 ≤ s.pout.pay) (hpo2 : s.pout.pay ≤ 576) (hl : hasLen (at8 is ti)) :
    match IcmpExt.handle ⟨576, 2, false⟩ ((at8 is (ti + 4)).toNat * 8) (is.drop s.pin.pay) s.pout.pay (os.drop s.pout.pay) with
    | .drop => finish64 g v s = .ok none
    | .ub => finish64 g v s = .ub .outOfBounds
    | .ok l f => ∃ s' bo' ho', finish64 g v s = .ok (some s') ∧ Outgoing s'.pout bo' ho' (ended64 v os s.pout.pay to l f) to ∧ s'.pin = s.pin ∧
        s.pout.pay ≤ ho' ∧ (bo' = bo ∨ bo' = g.ll) := by
  unfold finish64
  have e0 : at8 ((is.drop ti).take 8) 0 = at8 is ti := by rw [at8_take (by omega), at8_drop]; rfl
  have e4 : at8 ((is.drop ti).take 8) 4 = at8 is (ti + 4) := by rw [at8_take (by omega), at8_drop]
  simp only [bind_eq, read_ok fi hti hi8, ok_bind, e0, e4]
  unfold hasLen at hl
  rw [if_pos hl]
  have hx := extension_ok (g := g) (a := ⟨576, 2, false⟩) (ipl := (at8 is (ti + 4)).toNat * 8) fi hdi fo hpo
  revert hx
  cases IcmpExt.handle ⟨576, 2, false⟩ ((at8 is (ti + 4)).toNat * 8) (is.drop s.pin.pay) s.pout.pay (os.drop s.pout.pay) with
  | drop => intro hx; simp only at hx ⊢; rw [hx]; rfl
  | ub => intro hx; simp only at hx ⊢; rw [hx]; rfl
  | ok l f =>
    rintro ⟨s', bo', ho', hx, o1, hp1, hh1, hpay, hb⟩
    simp only [hx, ok_bind]
    generalize hz : os.take s.pout.pay ++ l = z at *
    have hzl : s.pout.pay ≤ z.length := Nat.le_trans hh1 o1.frame.hl_le
    obtain ⟨m1, w1, o2⟩ := o1.write (pos := s'.pout.skb.th + 5) (off := to + 5) (l := [BitVec.ofNat 8 f]) (by rw [o1.th]; omega) (by simp only [List.length_singleton]; omega)
    rw [w1]; simp only [ok_bind]
    obtain ⟨m2, w2, o3⟩ := updateTotalLength_ok hv o2 (by omega)
    rw [w2]; simp only [ok_bind]
    obtain ⟨s4, ho4, w4, o4, p4, h4⟩ := trim576_ok hv o3 (n := s.pout.pay) (by omega) hpo2 hh1
    rw [w4]
    refine ⟨s4, bo', ho4, rfl, ?_, p4.trans hp1, h4, hb⟩
    rw [ended64, hz]
    exact o4

end Jool.Build
