import Verif.Lemmas.BuildError
import Verif.Lemmas.BuildAlloc
import Verif.Props.Packet
/-
From IPv4 to IPv6, in one packet.
-/
namespace Jool.Build
open Jool.Pkt (Byte L4 Acc Meta at8 at16 ihl4 fragmented4 first4 innerProto tcpLen HdrEnd)

/-- `p` is what packet.c leaves of the accepted packet `a`, in some buffer. -/
structure Holds (p : P) (a : Acc) : Prop where
  room : p.skb.tail ≤ p.skb.mem.length
  order : p.skb.data ≤ p.skb.tail
  linear : p.skb.headlen = a.skb.linear
  bytes : p.skb.bytes = a.skb.data
  nh : p.skb.nh = p.skb.data
  th : p.skb.th = p.skb.data + a.m.l4
  proto : p.proto = a.m.proto
  inner : p.inner = false
  frag : p.frag = a.m.fh
  pay : p.pay = a.m.pay

theorem Holds.frame {p : P} {a : Acc} (h : Holds p a) : Frame p.skb p.skb.data a.skb.linear a.skb.data := by
  have h1 := h.linear
  have h2 := h.order
  refine ⟨?_, h.room, h.bytes⟩
  unfold Buf.headlen at h1
  omega

theorem patch_at {A B new : List Byte} {off : Nat} (h : off = A.length) : patch (A ++ B) off new = A ++ new ++ B.drop new.length := by
  rw [patch_right (k := 0) (by omega)]
  unfold patch
  simp

/-- `bs`, from `i` to `j`. -/
def slice (bs : List Byte) (i j : Nat) : List Byte := (bs.drop i).take (j - i)

theorem slice_length {bs : List Byte} {i j : Nat} (h : i ≤ j) (hj : j ≤ bs.length) : (slice bs i j).length = j - i := by
  simp only [slice, List.length_take, List.length_drop]; omega

/-- The new headers of one packet, 4 to 6: the IPv6 header and, if the IPv4 packet is a fragment, the fragment header. -/
def hdr46 (v : Vals) (fr : Bool) : List Byte := v.l3 none ++ if fr = true then v.frag else []

theorem hdr46_length {v : Vals} (hv : v.Sized 40) (fr : Bool) : (hdr46 v fr).length = 40 + if fr = true then 8 else 0 := by
  unfold hdr46
  rw [List.length_append, hv.l3]
  cases fr
  · rfl
  · simp only [if_true, hv.frag]

/-- An IPv6 packet: the headers, with the length, and the rest. -/
def packet6 (hdr rest : List Byte) : List Byte := patch hdr 4 (be16 (hdr.length + rest.length - 40)) ++ rest

theorem ext46_ok {v : Vals} (hv : v.Sized 40) {s : S} {bi hi : Nat} {is : List Byte} {bo ho : Nat} {os : List Byte} {to : Nat} (fi : Frame s.pin.skb bi hi is)
    (hni : s.pin.skb.nh = bi) (fo : Outgoing s.pout bo ho os to) (hri : 8 ≤ hi) {many fr : Bool} (hfr : fr = (fragmented4 is 0 || many))
    (hro : 40 + (if fr = true then 8 else 0) ≤ ho) :
    ∃ m, ext46 v s many = .ok (s.outMem m) ∧ Outgoing (s.outMem m).pout bo ho (packet6 (hdr46 v fr) (os.drop (hdr46 v fr).length)) to := by
  have hl := hdr46_length hv fr
  have hos := fo.frame.hl_le
  obtain ⟨m, w, f⟩ := common46_ok hv (s := s) (ni := 0) (no := 0) fi fo.frame hni fo.nh (by omega) hfr (by omega)
  have o1 : Outgoing (s.outMem m).pout bo ho _ to := ⟨f, fo.data, fo.nh, fo.th⟩
  unfold ext46
  rw [bind_eq, w, ok_bind]
  have e : patch os 0 (v.l3 none ++ if fr = true then v.frag else []) = hdr46 v fr ++ os.drop (hdr46 v fr).length := by
    show patch os 0 (hdr46 v fr) = _
    have := patch_at (A := []) (B := os) (new := hdr46 v fr) (off := 0) rfl
    simpa using this
  rw [e] at o1
  have hlen := o1.frame.len o1.data
  rw [hlen]
  obtain ⟨m2, w2, o2⟩ := o1.write (pos := (s.outMem m).pout.skb.nh + 4) (off := 4) (l := be16 ((hdr46 v fr ++ os.drop (hdr46 v fr).length).length - 40)) (by rw [o1.nh])
    (by rw [be16_length]; omega)
  refine ⟨m2, w2, ?_⟩
  rw [patch_left (by rw [be16_length]; omega), List.length_append] at o2
  exact o2

/-- The outgoing packet, 4 to 6, if it is not an ICMP error. -/
def plain46 (v : Vals) (bs : List Byte) (m : Meta) : List Byte :=
  packet6 (hdr46 v (fragmented4 bs 0)) ((if first4 bs 0 = true then l4New v m.proto (slice bs m.l4 m.pay) else []) ++ bs.drop m.pay)

/-- The outgoing packet, 4 to 6, if it is an ICMP error and its contents are neither changed nor cut: `i` is the packet inside. -/
def error46 (v w : Vals) (bs : List Byte) (m i : Meta) : List Byte :=
  packet6 (hdr46 v (fragmented4 bs 0)) (v.icmp ++ (hdr46 w (fragmented4 bs m.pay) ++ (l4New w i.proto (slice bs i.l4 i.pay) ++ bs.drop i.pay)))

theorem packet6_length {hdr rest : List Byte} (h : 40 ≤ hdr.length) : (packet6 hdr rest).length = hdr.length + rest.length := by
  unfold packet6
  rw [List.length_append, patch_length (by rw [be16_length]; omega)]

/-- The replacement of bytes behind the headers. -/
theorem packet6_patch {hdr A B new : List Byte} {off : Nat} (h : 40 ≤ hdr.length) (ho : off = hdr.length + A.length) (hn : new.length ≤ B.length) :
    patch (packet6 hdr (A ++ B)) off new = packet6 hdr (A ++ new ++ B.drop new.length) := by
  have hp : (patch hdr 4 (be16 (hdr.length + (A ++ B).length - 40))).length = hdr.length := patch_length (by rw [be16_length]; omega)
  have e : (A ++ B).length = (A ++ new ++ B.drop new.length).length := by
    simp only [List.length_append, List.length_drop]; omega
  unfold packet6
  rw [patch_right (k := A.length) (by omega), patch_at (A := A) rfl, e]

section
variable {g : Given} {p : P} {a : Acc} {s0 : Pkt.Skb} (hv0 : (g.vals 0).Sized 40) (h : Pkt.init4 s0 = some a) (hh : Holds p a)
  (hihl : 20 ≤ ihl4 a.skb.data 0) (htcp : first4 a.skb.data 0 = true → a.m.proto = L4.tcp → 20 ≤ tcpLen a.skb.data a.m.l4)
include hv0 h hh hihl htcp

omit hv0 hh hihl in
theorem accepted4_hdr : a.m.l4 ≤ a.m.pay ∧ (first4 a.skb.data 0 = true → Enough a.m.proto (a.m.pay - a.m.l4)) := by
  have A := Pkt.init4_ok h
  have hd := A.hdr
  rw [← A.data] at hd
  unfold HdrEnd at hd
  cases hf : first4 a.skb.data 0
  · rw [hf] at hd
    simp only [Bool.false_eq_true, if_false] at hd
    exact ⟨by omega, nofun⟩
  · rw [hf] at hd
    simp only [if_true] at hd
    cases hp : a.m.proto <;> rw [hp] at hd <;> simp only at hd
    · have := htcp hf hp
      exact ⟨by omega, fun _ => by simp only [Enough]; omega⟩
    · exact ⟨by omega, fun _ => by simp only [Enough]; omega⟩
    · exact ⟨by omega, fun _ => by simp only [Enough]; omega⟩
    · exact ⟨by omega, fun _ => by simp only [Enough]; omega⟩

/-- A packet that is not an error. -/
theorem xlat46_plain (hi : a.inner = none) :
    ∃ s base hl, xlat46 g p = .ok (some s) ∧ s.pin = p ∧ Outgoing s.pout base hl (plain46 (g.vals 0) a.skb.data a.m) (40 + if fragmented4 a.skb.data 0 = true then 8 else 0) ∧
      p.skb.data ≤ base := by
  have A := Pkt.init4_ok h
  have hA := A.hdr
  have hpay := A.pay
  have hl4 := A.l4
  rw [← A.data] at hA hl4
  obtain ⟨hle, hen⟩ := accepted4_hdr h htcp
  have fi := hh.frame
  have hne : ¬ (p.proto = L4.icmp ∧ Icmp.isIcmp4Error (at8 a.skb.data a.m.l4) = true) := by
    rintro ⟨h1, h2⟩
    rw [hh.proto] at h1
    rw [A.data] at h2
    obtain ⟨i, h3⟩ := (A.icmp h1).2 h2
    rw [hi] at h3
    cases h3
  have hic : p.proto = L4.icmp → a.m.l4 < a.skb.linear := by
    intro h1
    rw [hh.proto] at h1
    have hf := Pkt.first4_of_not_fragmented (A.icmp h1).1
    rw [← A.data] at hf
    have := hen hf
    rw [h1] at this
    simp only [Enough] at this
    omega
  have herr : (decide (p.proto = L4.icmp) && Icmp.isIcmp4Error (at8 a.skb.data a.m.l4)) = false := by
    by_cases c : p.proto = L4.icmp
    · cases c2 : Icmp.isIcmp4Error (at8 a.skb.data a.m.l4)
      · simp
      · exact absurd ⟨c, c2⟩ hne
    · simp [c]
  have hpl : a.skb.data.length = a.skb.linear + p.skb.pages.length := fi.length
  obtain ⟨o, nb, pre, halloc, hpre, fo, hod, hon, hot, hop, hoi, hopay, hbase⟩ := allocFast_ok (e := g.env) fi rfl hh.nh hh.th hl4 (by omega)
    (by rw [hh.pay]; exact hle) (by rw [hh.pay]; exact hpay) hic (fun h1 h2 => absurd ⟨h1, h2⟩ hne) (err := false) (fr := fragmented4 a.skb.data 0) herr.symm rfl rfl rfl rfl rfl
  simp only [Bool.false_eq_true, if_false, Nat.add_zero] at hpre fo
  unfold xlat46
  rw [bind_eq, halloc, ok_bind]
  generalize hL : (40 + if fragmented4 a.skb.data 0 = true then 8 else 0) = L at *
  rw [hh.pay] at hpre fo
  have hL40 : 40 ≤ L := by omega
  obtain ⟨m, w, o1⟩ := ext46_ok hv0 (s := ⟨p, o⟩) (many := false) (fr := fragmented4 a.skb.data 0) fi hh.nh (⟨fo, hod, hon, hot⟩ : Outgoing o nb _ _ L) (by have := A.ip; omega)
    (by simp) (by omega)
  rw [bind_eq, w, ok_bind]
  have hff : firstFrag4 (S.outMem ⟨p, o⟩ m).pin.skb (S.outMem ⟨p, o⟩ m).pin.skb.nh = .ok (first4 a.skb.data 0) :=
    firstFrag4_ok (off := 0) fi hh.nh (by have := A.ip; omega)
  rw [bind_eq, hff, ok_bind]
  have hhl : (hdr46 (g.vals 0) (fragmented4 a.skb.data 0)).length = L := by rw [hdr46_length hv0, hL]
  rw [hhl] at o1
  have hdrop : (pre ++ a.skb.data.drop a.m.pay).drop L = pre.drop L ++ a.skb.data.drop a.m.pay := by
    rw [List.drop_append_of_le_length (by omega)]
  rw [hdrop] at o1
  cases hf : first4 a.skb.data 0
  · rw [hf] at hA
    simp only [HdrEnd, Bool.false_eq_true, if_false] at hA
    have : pre.drop L = [] := List.drop_of_length_le (by omega)
    rw [this] at o1
    refine ⟨_, nb, L + (a.m.pay - a.m.l4) + (a.skb.linear - a.m.pay), rfl, rfl, ?_, hbase⟩
    unfold plain46
    rw [hf]
    exact o1
  · have hen' := hen hf
    have hl4l : (S.outMem ⟨p, o⟩ m).pin.l4len = a.m.pay - a.m.l4 := by
      show p.skb.data + p.pay - p.skb.th = _
      rw [hh.th, hh.pay]; omega
    obtain ⟨m2, w2, f2⟩ := l446_simple (g := g) (lvl := 0) hv0 (s := S.outMem ⟨p, o⟩ m) (ti := a.m.l4) (to := L) fi o1.frame hh.th o1.th hl4l (by omega) (by omega)
      (by show Enough p.proto _; rw [hh.proto]; exact hen') (p.skb.len + 1) hne
    rw [if_pos rfl, w2]
    refine ⟨_, nb, L + (a.m.pay - a.m.l4) + (a.skb.linear - a.m.pay), rfl, rfl, ⟨?_, o1.data, o1.nh, o1.th⟩, hbase⟩
    have hsl : (slice a.skb.data a.m.l4 a.m.pay).length = a.m.pay - a.m.l4 := slice_length hle (by omega)
    have hnl : (l4New (g.vals 0) a.m.proto (slice a.skb.data a.m.l4 a.m.pay)).length = a.m.pay - a.m.l4 := by
      rw [l4New_len hv0 (by rw [hsl]; exact hen'), hsl]
    have e := packet6_patch (hdr := hdr46 (g.vals 0) (fragmented4 a.skb.data 0)) (A := []) (B := pre.drop L ++ a.skb.data.drop a.m.pay)
      (new := l4New (g.vals 0) a.m.proto (slice a.skb.data a.m.l4 a.m.pay)) (off := L) (by omega) (by simp [hhl]) (by rw [hnl, List.length_append, List.length_drop]; omega)
    have hdd : (pre.drop L ++ a.skb.data.drop a.m.pay).drop (l4New (g.vals 0) a.m.proto (slice a.skb.data a.m.l4 a.m.pay)).length = a.skb.data.drop a.m.pay := by
      apply List.drop_left'
      rw [hnl, List.length_drop]; omega
    rw [hdd] at e
    unfold plain46
    rw [hf, if_pos rfl]
    simp only [List.nil_append] at e
    rw [← e]
    have hpr : (S.outMem ⟨p, o⟩ m).pin.proto = a.m.proto := hh.proto
    rw [hpr] at f2
    exact f2

/-- An ICMP error. -/
theorem xlat46_error {i : Meta} (hv1 : (g.vals 1).Sized 40) (hi : a.inner = some i) (h58 : at8 a.skb.data (a.m.pay + 9) ≠ 58#8)
    (hit : i.proto = L4.tcp → 20 ≤ tcpLen a.skb.data i.l4) (hine : ¬ (i.proto = L4.icmp ∧ Icmp.isIcmp4Error (at8 a.skb.data i.l4) = true)) :
    match IcmpExt.handle ⟨1280, 3, IcmpExt.shouldRemove (at8 a.skb.data a.m.l4) (at8 a.skb.data (a.m.l4 + 1))⟩ ((at8 a.skb.data (a.m.l4 + 5)).toNat * 4)
      (a.skb.data.drop a.m.pay) 48 ((error46 (g.vals 0) (g.vals 1) a.skb.data a.m i).drop 48) with
    | .drop => xlat46 g p = .ok none
    | .ub => xlat46 g p = .ub .outOfBounds
    | .ok l f => ∃ s base hl, xlat46 g p = .ok (some s) ∧ s.pin = p ∧
        Outgoing s.pout base hl (patch (ended46 (error46 (g.vals 0) (g.vals 1) a.skb.data a.m i) 48 40 l f) 42 (g.vals 0).sum) 40 ∧ (p.skb.data ≤ base ∨ base = g.ll) := by
  have A := Pkt.init4_ok h
  have hA := A.hdr
  have hpay := A.pay
  have hl4 := A.l4
  obtain ⟨hpi, herr, I⟩ := A.inner i hi
  have hnf := (A.icmp hpi).1
  have hff := Pkt.first4_of_not_fragmented hnf
  rw [hff] at hA
  rw [← A.data] at hA hl4 hnf hff herr I
  simp only [HdrEnd, hpi, if_true] at hA
  obtain ⟨hle, hen⟩ := accepted4_hdr h htcp
  have fi := hh.frame
  have hpp : p.proto = L4.icmp := hh.proto.trans hpi
  have hpl : a.skb.data.length = a.skb.linear + p.skb.pages.length := fi.length
  have hil4 := I.l4
  have hipay := I.pay
  have hihl2 := I.ihl
  -- the packet inside
  have hq : i.proto = innerProto (at8 a.skb.data (a.m.pay + 9)) := by
    rw [I.proto]
    unfold innerProto PktSpec.proto4
    simp [h58]
  have hiH := I.hdr
  have hien : i.l4 ≤ i.pay ∧ Enough i.proto (i.pay - i.l4) ∧ i.pay - i.l4 = hdrLen a.skb.data i.l4 i.proto := by
    unfold HdrEnd at hiH
    simp only [if_true] at hiH
    cases hp : i.proto <;> rw [hp] at hiH <;> simp only at hiH
    · have := hit hp
      exact ⟨by omega, by simp only [Enough]; omega, by simp only [hdrLen]; omega⟩
    · exact ⟨by omega, by simp only [Enough]; omega, by simp only [hdrLen]; omega⟩
    · exact ⟨by omega, by simp only [Enough]; omega, by simp only [hdrLen]; omega⟩
    · exact ⟨by omega, by simp only [Enough]; omega, by simp only [hdrLen]; omega⟩
  obtain ⟨hile, hie, hin⟩ := hien
  obtain ⟨o, nb, pre, halloc, hpre, fo, hod, hon, hot, hop, hoi, hopay, hbase⟩ := allocFast_ok (e := g.env) fi rfl hh.nh hh.th hl4 (by omega)
    (by rw [hh.pay]; exact hle) (by rw [hh.pay]; exact hpay) (fun _ => by omega) (fun _ _ => by rw [hh.pay]; omega) (err := true) (fr := false)
    (ifr := fragmented4 a.skb.data p.pay) (by rw [hpp, herr]; rfl) hnf.symm rfl rfl rfl rfl
  simp only [Bool.false_eq_true, if_false, Nat.add_zero, if_true] at hpre fo hot hopay
  rw [hh.pay] at hpre fo hopay
  generalize hLI : (40 + if fragmented4 a.skb.data a.m.pay = true then 8 else 0) = LI at *
  have hLI40 : 40 ≤ LI := by omega
  unfold xlat46
  rw [bind_eq, halloc, ok_bind]
  have hhl : (hdr46 (g.vals 0) (fragmented4 a.skb.data 0)).length = 40 := by rw [hdr46_length hv0, hnf]; rfl
  have hhl2 : (hdr46 (g.vals 1) (fragmented4 a.skb.data a.m.pay)).length = LI := by rw [hdr46_length hv1, hLI]
  obtain ⟨m, w, o1⟩ := ext46_ok hv0 (s := ⟨p, o⟩) (many := false) (fr := fragmented4 a.skb.data 0) fi hh.nh (⟨fo, hod, hon, hot⟩ : Outgoing o nb _ _ 40) (by have := A.ip; omega)
    (by simp) (by rw [hnf]; simp only [Bool.false_eq_true, if_false]; omega)
  rw [bind_eq, w, ok_bind]
  have hff' : firstFrag4 (S.outMem ⟨p, o⟩ m).pin.skb (S.outMem ⟨p, o⟩ m).pin.skb.nh = .ok true := by
    rw [← hff]
    exact firstFrag4_ok (off := 0) fi hh.nh (by have := A.ip; omega)
  rw [bind_eq, hff', ok_bind, if_pos rfl]
  rw [hhl] at o1
  have hx : a.m.pay + ihl4 a.skb.data a.m.pay = i.l4 := by omega
  rw [hx] at o1
  have hdrop : (pre ++ a.skb.data.drop i.l4).drop 40 = pre.drop 40 ++ a.skb.data.drop i.l4 := by
    rw [List.drop_append_of_le_length (by omega)]
  rw [hdrop] at o1
  have hpl40 : (pre.drop 40).length = 8 + LI := by rw [List.length_drop]; omega
  generalize pre.drop 40 = Q at *
  have hsl : (slice a.skb.data i.l4 i.pay).length = i.pay - i.l4 := slice_length hile (by omega)
  have hnl : (l4New (g.vals 1) i.proto (slice a.skb.data i.l4 i.pay)).length = i.pay - i.l4 := by
    rw [l4New_len hv1 (by rw [hsl]; exact hie), hsl]
  have hpin : (S.outMem ⟨p, o⟩ m).pin.pay = a.m.pay := hh.pay
  have hpout : (S.outMem ⟨p, o⟩ m).pout.pay = 48 := by
    show o.pay = 48
    omega
  have hI : inner46 g a.skb.data (packet6 (hdr46 (g.vals 0) (fragmented4 a.skb.data 0)) (Q ++ a.skb.data.drop i.l4)) 40 a.m.pay 48 =
      error46 (g.vals 0) (g.vals 1) a.skb.data a.m i := by
    have hD : (a.skb.data.drop i.l4).length = a.skb.data.length - i.l4 := List.length_drop
    unfold inner46 error46
    simp only [← hq, hx, ← hin]
    have e1 := packet6_patch (hdr := hdr46 (g.vals 0) (fragmented4 a.skb.data 0)) (A := []) (B := Q ++ a.skb.data.drop i.l4) (new := (g.vals 0).icmp) (off := 40)
      (by omega) (by rw [hhl]; rfl) (by rw [hv0.icmp, List.length_append]; omega)
    rw [List.nil_append, List.nil_append] at e1
    rw [e1]
    have e2 := packet6_patch (hdr := hdr46 (g.vals 0) (fragmented4 a.skb.data 0)) (A := (g.vals 0).icmp) (B := (Q ++ a.skb.data.drop i.l4).drop (g.vals 0).icmp.length)
      (new := hdr46 (g.vals 1) (fragmented4 a.skb.data a.m.pay)) (off := 48) (by omega) (by rw [hhl, hv0.icmp])
      (by rw [hhl2, hv0.icmp, List.length_drop, List.length_append]; omega)
    have e2' : patch (packet6 (hdr46 (g.vals 0) (fragmented4 a.skb.data 0)) ((g.vals 0).icmp ++ (Q ++ a.skb.data.drop i.l4).drop (g.vals 0).icmp.length)) 48
      ((g.vals 1).l3 none ++ if fragmented4 a.skb.data a.m.pay = true then (g.vals 1).frag else []) = _ := e2
    rw [e2']
    have e3 : ((Q ++ a.skb.data.drop i.l4).drop (g.vals 0).icmp.length).drop (hdr46 (g.vals 1) (fragmented4 a.skb.data a.m.pay)).length = a.skb.data.drop i.l4 := by
      rw [List.drop_drop, hv0.icmp, hhl2]
      exact List.drop_left' hpl40
    rw [e3]
    have e4 := packet6_patch (hdr := hdr46 (g.vals 0) (fragmented4 a.skb.data 0)) (A := (g.vals 0).icmp ++ hdr46 (g.vals 1) (fragmented4 a.skb.data a.m.pay))
      (B := a.skb.data.drop i.l4) (new := l4New (g.vals 1) i.proto (slice a.skb.data i.l4 i.pay)) (off := 48 + LI) (by omega)
      (by rw [hhl, List.length_append, hv0.icmp, hhl2]; omega) (by rw [hnl, hD]; omega)
    have e5 : ((g.vals 1).l3 none ++ if fragmented4 a.skb.data a.m.pay = true then (g.vals 1).frag else []).length = LI := hhl2
    rw [e5]
    have e6 : (a.skb.data.drop i.l4).drop (l4New (g.vals 1) i.proto (slice a.skb.data i.l4 i.pay)).length = a.skb.data.drop i.pay := by
      rw [List.drop_drop, hnl]
      congr 1; omega
    rw [e6] at e4
    refine Eq.trans e4 ?_
    simp only [List.append_assoc]
  have key := l446_error (g := g) (s := S.outMem ⟨p, o⟩ m) (bi := p.skb.data) (hi := a.skb.linear) (is := a.skb.data) (ti := a.m.l4) (to := 40)
    (l3 := ihl4 a.skb.data a.m.pay) (n := i.pay - i.l4) (q := i.proto) (fr := fragmented4 a.skb.data a.m.pay) hv0 hv1 fi rfl hh.th o1 hh.inner hoi
    (by rw [hpin]; exact hA) (by rw [hpout]) hpp herr (by rw [hpin]; omega) (by omega) (by omega) (by rw [hpin]; exact hq) (by rw [hpin])
    (by rw [hpin, hx]; exact hin) (by rw [hpin]) hie (by rw [hpin]; omega) (by rw [hpout]; omega)
    (by rw [hpin, hx]; exact hine) p.skb.len
  rw [hpin, hpout, hI] at key
  revert key
  cases IcmpExt.handle ⟨1280, 3, IcmpExt.shouldRemove (at8 a.skb.data a.m.l4) (at8 a.skb.data (a.m.l4 + 1))⟩ ((at8 a.skb.data (a.m.l4 + 5)).toNat * 4)
      (a.skb.data.drop a.m.pay) 48 ((error46 (g.vals 0) (g.vals 1) a.skb.data a.m i).drop 48) with
  | drop => exact id
  | ub => exact id
  | ok l f =>
    rintro ⟨s', bo', ho', k1, k2, k3, k4⟩
    refine ⟨s', bo', ho', k1, k3, k2, ?_⟩
    rcases k4 with k4 | k4
    · exact Or.inl (by omega)
    · exact Or.inr k4

end

end Jool.Build
