import Verif.Lemmas.BuildFast
import Verif.Props.Header
/-
From IPv4 to IPv6, in several packets.
-/
namespace Jool.Build
open Jool.Pkt (Byte L4 Acc Meta at8 at16 ihl4 fragmented4 first4 innerProto tcpLen HdrEnd)
open Jool.Hdr (chunks)

/-- A packet of the slow path, before its headers are written. -/
def Blank1 (base : Nat) (b : Buf) (c : List Byte) : Prop :=
  ∃ pre, pre.length = 48 ∧ Frame b base (48 + c.length) (pre ++ c) ∧ b.data = base ∧ b.nh = base ∧ b.th = base + 48

def Blank (base : Nat) : List Buf → List (List Byte) → Prop
  | [], [] => True
  | b :: bs, c :: cs => Blank1 base b c ∧ Blank base bs cs
  | _, _ => False

theorem put_ok {b : Buf} {n : Nat} (h : b.tail + n ≤ b.mem.length) : put b n = .ok { b with tail := b.tail + n } := by
  unfold put
  rw [if_neg (by omega)]

theorem slowOne_ok {e : Env} {p : P} {base hl l4 : Nat} {bs : List Byte} (f : Frame p.skb base hl bs) (hd : p.skb.data = base) (ht : p.skb.th = base + l4) {off n : Nat}
    (hn : l4 + off + n ≤ bs.length) :
    ∃ b, slowOne e p off n = .ok (some b) ∧ Blank1 base b ((bs.drop (l4 + off)).take n) := by
  have hlen := f.len hd
  have hm : (allocSkb e (p.skb.data + 48 + n)).mem.length = p.skb.data + 48 + n + e.slack := fresh_length _ _
  have hcl : ((bs.drop (l4 + off)).take n).length = n := by simp only [List.length_take, List.length_drop]; omega
  unfold slowOne
  simp only [bind_eq]
  generalize hB : allocSkb e (p.skb.data + 48 + n) = B at *
  have hBt : B.tail = 0 := by rw [← hB]; rfl
  have hBd : B.data = 0 := by rw [← hB]; rfl
  have hBp : B.pages = [] := by rw [← hB]; rfl
  unfold reserve
  rw [put_ok (by show B.tail + p.skb.data + 40 ≤ B.mem.length; omega)]
  simp only [ok_bind]
  rw [put_ok (by show B.tail + p.skb.data + 40 + 8 ≤ B.mem.length; omega)]
  simp only [ok_bind]
  rw [put_ok (by show B.tail + p.skb.data + 40 + 8 + n ≤ B.mem.length; omega)]
  simp only [ok_bind]
  have hth : p.skb.th - p.skb.data + off = l4 + off := by omega
  have hcb : copyBits p.skb (p.skb.th - p.skb.data + off) n = some ((bs.drop (l4 + off)).take n) := by
    unfold copyBits
    rw [hth, if_neg (by omega), f.bytes hd]
  rw [hcb]
  simp only
  unfold write
  have hpos : B.tail + p.skb.data + 40 + 8 + ((bs.drop (l4 + off)).take n).length ≤ B.mem.length := by omega
  rw [if_pos hpos]
  simp only [ok_bind]
  refine ⟨_, rfl, (B.mem.drop base).take 48, ?_, ⟨?_, ?_, ?_⟩, ?_, ?_, ?_⟩
  · simp only [List.length_take, List.length_drop]; omega
  · show B.tail + p.skb.data + 40 + 8 + n = _; omega
  · show B.tail + p.skb.data + 40 + 8 + n ≤ List.length _
    simp only [List.length_append, List.length_take, List.length_drop] at hcl ⊢; omega
  · unfold Buf.from
    show List.take (B.tail + p.skb.data + 40 + 8 + n - base) (List.drop base (B.mem.take (B.tail + p.skb.data + 40 + 8) ++ (bs.drop (l4 + off)).take n ++ B.mem.drop _)) ++ B.pages = _
    rw [hBp, List.append_nil, List.append_assoc, List.drop_append_of_le_length (by rw [List.length_take]; omega), List.drop_take]
    have e1 : B.tail + p.skb.data + 40 + 8 - base = 48 := by omega
    rw [e1, ← List.append_assoc]
    apply List.take_left'
    rw [List.length_append, hcl]
    simp only [List.length_take, List.length_drop]
    omega
  · show B.data + p.skb.data = base; omega
  · show B.data + p.skb.data = base; omega
  · show B.data + p.skb.data + 48 = base + 48; omega

theorem slowGo_ok {e : Env} {p : P} {base hl l4 : Nat} {bs : List Byte} (f : Frame p.skb base hl bs) (hd : p.skb.data = base) (ht : p.skb.th = base + l4) {per : Nat}
    (hper : 0 < per) : ∀ fuel off left, left = bs.length - (l4 + off) → left < fuel →
    ∃ bl, slowGo e p per fuel left off = .ok (some bl) ∧ Blank base bl (chunks per (bs.drop (l4 + off)))
  | 0, _, _, _, h => by omega
  | fuel + 1, off, left, hleft, hfuel => by
    have hdl : (bs.drop (l4 + off)).length = left := by rw [List.length_drop]; omega
    unfold slowGo
    by_cases c : left = 0
    · rw [if_pos c]
      refine ⟨[], rfl, ?_⟩
      have : bs.drop (l4 + off) = [] := List.eq_nil_of_length_eq_zero (by omega)
      rw [this, chunks, dif_neg (by simp), if_pos rfl]
      trivial
    · rw [if_neg c]
      simp only [bind_eq]
      by_cases c2 : per < left
      · rw [if_pos c2]
        obtain ⟨b, h1, h2⟩ := slowOne_ok (e := e) f hd ht (off := off) (n := per) (by omega)
        rw [h1]; simp only [ok_bind]
        obtain ⟨bl, h3, h4⟩ := slowGo_ok f hd ht hper fuel (off + per) (left - per) (by omega) (by omega)
        rw [h3]
        refine ⟨b :: bl, rfl, ?_⟩
        rw [chunks, dif_pos ⟨hper, by omega⟩, List.drop_drop]
        rw [← Nat.add_assoc] at h4
        exact ⟨h2, h4⟩
      · rw [if_neg c2]
        obtain ⟨b, h1, h2⟩ := slowOne_ok (e := e) f hd ht (off := off) (n := left) (by omega)
        rw [h1]; simp only [ok_bind, Nat.sub_self]
        have h3 : slowGo e p per fuel 0 (off + left) = .ok (some []) := by
          cases fuel with
          | zero => omega
          | succ k => unfold slowGo; rfl
        rw [h3]
        refine ⟨[b], rfl, ?_⟩
        rw [chunks, dif_neg (by omega), if_neg (by intro h; rw [h] at hdl; exact c hdl.symm)]
        rw [List.take_of_length_le (by omega)] at h2
        exact ⟨h2, trivial⟩

/-- The fragments that follow the first one: the headers are `hdr`, except for the length and the field of the offset. -/
def fills (hdr : List Byte) (mf : Bool) : BitVec 16 → List (List Byte) → List (List Byte)
  | _, [] => []
  | off, c :: cs =>
    (patch (patch hdr 4 (be16 (c.length + 8))) 42 (be16 ((off &&& 0xfff8#16) ||| (if !cs.isEmpty || mf then 1#16 else 0#16)).toNat) ++ c) ::
      fills hdr mf (off + BitVec.ofNat 16 c.length) cs

theorem Blank.isEmpty {base : Nat} : ∀ {bl : List Buf} {cs : List (List Byte)}, Blank base bl cs → bl.isEmpty = cs.isEmpty
  | [], [], _ => rfl
  | _ :: _, _ :: _, _ => rfl
  | [], _ :: _, h => by cases h
  | _ :: _, [], h => by cases h

theorem fillGo_ok {base : Nat} {hdr : List Byte} (hh : hdr.length = 48) {mf : Bool} : ∀ (cs : List (List Byte)) (bl : List Buf) (off : BitVec 16), Blank base bl cs →
    ∃ bl', fillGo hdr mf off bl = .ok bl' ∧ bl'.map Buf.bytes = fills hdr mf off cs ∧ ∀ b ∈ bl', b.data = base
  | [], [], _, _ => ⟨[], rfl, rfl, nofun⟩
  | c :: cs, [], _, h => by cases h
  | [], _ :: _, _, h => by cases h
  | c :: cs, b :: bl, off, h => by
    obtain ⟨⟨pre, hpre, f, hd, hn, ht⟩, hb⟩ := h
    unfold fillGo
    simp only [bind_eq]
    obtain ⟨m1, w1, f1, _⟩ := write_ok f (pos := b.nh) (off := 0) (l := hdr) (by omega) (by omega)
    rw [w1]; simp only [ok_bind]
    have e1 : patch (pre ++ c) 0 hdr = hdr ++ c := by rw [patch_left (by omega), patch_all (by omega)]
    rw [e1] at f1
    have hl1 : ({ b with mem := m1 } : Buf).len = 48 + c.length := by rw [f1.len hd, List.length_append]; omega
    rw [hl1]
    have hs : 48 + c.length - 40 = c.length + 8 := by omega
    rw [hs]
    obtain ⟨m2, w2, f2, _⟩ := write_ok f1 (pos := b.nh + 4) (off := 4) (l := be16 (c.length + 8)) (by omega) (by rw [be16_length]; omega)
    have w2' : write { b with mem := m1 } (({ b with mem := m1 } : Buf).nh + 4) (be16 (c.length + 8)) = _ := w2
    rw [w2']; simp only [ok_bind]
    rw [patch_left (by rw [be16_length]; omega)] at f2
    rw [hb.isEmpty]
    obtain ⟨m3, w3, f3, _⟩ := write_ok f2 (pos := b.nh + 42) (off := 42)
      (l := be16 ((off &&& 0xfff8#16) ||| (if (!cs.isEmpty || mf) = true then 1#16 else 0#16)).toNat) (by omega) (by rw [be16_length]; omega)
    have hp4 : (patch hdr 4 (be16 (c.length + 8))).length = 48 := by rw [patch_length (by rw [be16_length]; omega), hh]
    rw [patch_left (by rw [be16_length, hp4]; omega)] at f3
    have w3' : write { b with mem := m2 } (({ b with mem := m2 } : Buf).nh + 42) _ = _ := w3
    rw [w3']; simp only [ok_bind]
    have hp42 : (patch (patch hdr 4 (be16 (c.length + 8))) 42 (be16 ((off &&& 0xfff8#16) ||| (if (!cs.isEmpty || mf) = true then 1#16 else 0#16)).toNat)).length = 48 := by
      rw [patch_length (by rw [be16_length, hp4]; omega), hp4]
    have hl3 : ({ b with mem := m3 } : Buf).len = 48 + c.length := by
      rw [f3.len hd, List.length_append, hp42]
    have hl3' : 48 + c.length - 48 = c.length := by omega
    have hl3'' : ({ mem := m3, data := b.data, tail := b.tail, pages := b.pages, nh := b.nh, th := b.th } : Buf).len - 48 = c.length := by
      show ({ b with mem := m3 } : Buf).len - 48 = _
      omega
    rw [hl3'']
    obtain ⟨bl', h1, h2, h3⟩ := fillGo_ok hh cs bl (off + BitVec.ofNat 16 c.length) hb
    rw [h1]
    refine ⟨_, rfl, ?_, ?_⟩
    · rw [List.map_cons, h2]
      exact congrArg (· :: fills hdr mf (off + BitVec.ofNat 16 c.length) cs) (f3.bytes hd)
    · intro x hx
      rcases List.mem_cons.1 hx with hx | hx
      · rw [hx]; exact hd
      · exact h3 x hx

/-- All the fragments: `payload` is what follows the IPv6 header and the fragment header. -/
def slow46 (v : Vals) (per : Nat) (payload : List Byte) : List (List Byte) :=
  let fo := BitVec.ofNat 16 (at16 v.frag 2)
  let hdr := patch (patch (v.l3 none ++ v.frag) 4 (be16 (per + 8))) 42 (be16 (fo ||| 1#16).toNat)
  (hdr ++ payload.take per) :: fills hdr (fo &&& 1#16 != 0#16) ((fo &&& 0xfff8#16) + BitVec.ofNat 16 per) (chunks per (payload.drop per))

/-- What follows the headers of layer 3, 4 to 6, if the packet is not an ICMP error. -/
def rest46 (v : Vals) (bs : List Byte) (m : Meta) : List Byte :=
  (if first4 bs 0 = true then l4New v m.proto (slice bs m.l4 m.pay) else []) ++ bs.drop m.pay

theorem Blank.cons {base : Nat} {bl : List Buf} {c : List Byte} {cs : List (List Byte)} (h : Blank base bl (c :: cs)) :
    ∃ b bl', bl = b :: bl' ∧ Blank1 base b c ∧ Blank base bl' cs := by
  cases bl with
  | nil => cases h
  | cons b bl' => exact ⟨b, bl', rfl, h.1, h.2⟩

section
variable {g : Given} {p : P} {a : Acc} {s0 : Pkt.Skb} (hv0 : (g.vals 0).Sized 40) (h : Pkt.init4 s0 = some a) (hh : Holds p a)
  (hihl : 20 ≤ ihl4 a.skb.data 0) (htcp : first4 a.skb.data 0 = true → a.m.proto = L4.tcp → 20 ≤ tcpLen a.skb.data a.m.l4)
include hv0 h hh hihl htcp

theorem xlat46_slow (hi : a.inner = none) {mpl per : Nat} (hmpl : 1280 ≤ mpl) (hper : per = (mpl - 48) / 8 * 8) (hbig : per < a.skb.data.length - a.m.l4) :
    ∃ s bl, xlat46Slow g mpl p = .ok (some (s, bl)) ∧ s.pin = p ∧ (s.pout.skb :: bl).map Buf.bytes = slow46 (g.vals 0) per (rest46 (g.vals 0) a.skb.data a.m) ∧
      ∀ b ∈ s.pout.skb :: bl, b.data = p.skb.data := by
  have A := Pkt.init4_ok h
  have hpay := A.pay
  have hl4 := A.l4
  rw [← A.data] at hl4
  obtain ⟨hle, hen⟩ := accepted4_hdr h htcp
  have fi := hh.frame
  have hpl : a.skb.data.length = a.skb.linear + p.skb.pages.length := fi.length
  have hne : ¬ (p.proto = L4.icmp ∧ Icmp.isIcmp4Error (at8 a.skb.data a.m.l4) = true) := by
    rintro ⟨h1, h2⟩
    rw [hh.proto] at h1
    rw [A.data] at h2
    obtain ⟨i, h3⟩ := (A.icmp h1).2 h2
    rw [hi] at h3
    cases h3
  have hper2 : 1232 ≤ per := by omega
  have hlen := fi.len rfl
  have hl3len : p.l3len = a.m.l4 := by unfold P.l3len; rw [hh.th, hh.nh]; omega
  have hl4len : p.l4len = a.m.pay - a.m.l4 := by
    show p.skb.data + p.pay - p.skb.th = _
    rw [hh.th, hh.pay]; omega
  -- a transport header has at most 60 bytes
  have hn60 : a.m.pay - a.m.l4 ≤ 60 := by
    have hd := A.hdr
    rw [← A.data] at hd
    unfold HdrEnd at hd
    cases hf : first4 a.skb.data 0 <;> rw [hf] at hd
    · simp only [Bool.false_eq_true, if_false] at hd; omega
    · simp only [if_true] at hd
      cases hp : a.m.proto <;> rw [hp] at hd <;> simp only at hd
      · have : tcpLen a.skb.data a.m.l4 ≤ 60 := by
          unfold tcpLen
          have := (at8 a.skb.data (a.m.l4 + 12)).isLt
          omega
        omega
      · omega
      · omega
      · omega
  unfold xlat46Slow allocSlow
  simp only [bind_eq, hl3len, hlen, hl4len, ← hper]
  obtain ⟨bl, hgo, hbl⟩ := slowGo_ok (e := g.env) fi rfl hh.th (per := per) (by omega) (a.skb.data.length - a.m.l4 + 1) 0 (a.skb.data.length - a.m.l4) (by omega) (by omega)
  rw [hgo]
  simp only [ok_bind]
  rw [Nat.add_zero, chunks, dif_pos ⟨by omega, by rw [List.length_drop]; exact hbig⟩] at hbl
  obtain ⟨b0, bl', rfl, ⟨pre, hpre, f0, d0, n0, t0⟩, hbl'⟩ := hbl.cons
  have hc0 : ((a.skb.data.drop a.m.l4).take per).length = per := by simp only [List.length_take, List.length_drop]; omega
  rw [hc0] at f0
  have hne' : (chunks per ((a.skb.data.drop a.m.l4).drop per)).isEmpty = false := by
    obtain ⟨x, y, cs, hx⟩ := Hdr.chunks_two per (by omega) (a.skb.data.drop a.m.l4) (by rw [List.length_drop]; exact hbig)
    rw [chunks, dif_pos ⟨by omega, by rw [List.length_drop]; exact hbig⟩] at hx
    injection hx with _ hx
    rw [hx]; rfl
  have hbe := hbl'.isEmpty
  rw [hne'] at hbe
  simp only [pure_eq, ok_bind, hbe, Bool.not_false]
  generalize hO : (⟨b0, p.proto, false, 40, 48 + (a.m.pay - a.m.l4)⟩ : P) = O
  have hOs : O.skb = b0 := by rw [← hO]
  obtain ⟨m1, w1, o1⟩ := ext46_ok hv0 (s := ⟨p, O⟩) (many := true) (fr := true) (bo := p.skb.data) (ho := 48 + per) (os := pre ++ (a.skb.data.drop a.m.l4).take per) (to := 48) fi hh.nh
    (by show Outgoing O _ _ _ _; exact ⟨by rw [hOs]; exact f0, by rw [hOs]; exact d0, by rw [hOs]; exact n0, by rw [hOs]; exact t0⟩) (by have := A.ip; omega) (by simp)
    (by simp only [if_true]; omega)
  rw [w1]; simp only [ok_bind]
  have hhl : (hdr46 (g.vals 0) true).length = 48 := by rw [hdr46_length hv0]; rfl
  have hl3v := hv0.l3 none
  have hfrv := hv0.frag
  rw [hhl, List.drop_left' hpre] at o1
  generalize hC : (a.skb.data.drop a.m.l4).take per = C at *
  -- the headers of the first fragment
  have hp6 : packet6 (hdr46 (g.vals 0) true) C = patch (hdr46 (g.vals 0) true) 4 (be16 (per + 8)) ++ C := by
    unfold packet6
    rw [hhl, hc0]
    congr 3
    omega
  rw [hp6] at o1
  have hh4 : (patch (hdr46 (g.vals 0) true) 4 (be16 (per + 8))).length = 48 := by rw [patch_length (by rw [be16_length]; omega), hhl]
  unfold autofill
  rw [hbe]
  simp only [Bool.false_eq_true, if_false, bind_eq]
  have hr1 := read_ok o1.frame (pos := (S.outMem ⟨p, O⟩ m1).pout.skb.nh + 42) (off := 42) (n := 2) (by rw [o1.nh]) (by omega)
  rw [hr1]; simp only [ok_bind]
  have hfo : at16 (((patch (hdr46 (g.vals 0) true) 4 (be16 (per + 8)) ++ C).drop 42).take 2) 0 = at16 (g.vals 0).frag 2 := by
    have e : (patch (hdr46 (g.vals 0) true) 4 (be16 (per + 8)) ++ C).drop 42 = (g.vals 0).frag.drop 2 ++ C := by
      rw [List.drop_append_of_le_length (by omega)]
      congr 1
      have hd46 : hdr46 (g.vals 0) true = (g.vals 0).l3 none ++ (g.vals 0).frag := rfl
      rw [hd46, patch_left (by rw [be16_length]; omega)]
      have e2 : 42 = (patch ((g.vals 0).l3 none) 4 (be16 (per + 8))).length + 2 := by rw [patch_length (by rw [be16_length]; omega)]; omega
      rw [e2, List.drop_length_add_append]
    rw [e, at16_take (by omega)]
    unfold at16 at8
    simp only [List.getD_eq_getElem?_getD]
    rw [List.getElem?_append_left (by rw [List.length_drop]; omega), List.getElem?_append_left (by rw [List.length_drop]; omega), List.getElem?_drop, List.getElem?_drop]
  rw [hfo]
  have hl1 := o1.frame.len o1.data
  rw [List.length_append, hh4, hc0] at hl1
  have hl1' : (S.outMem ⟨p, O⟩ m1).pout.skb.len - 48 = per := by omega
  rw [hl1']
  generalize hFO : BitVec.ofNat 16 (at16 (g.vals 0).frag 2) = fo at *
  obtain ⟨m2, w2, o2⟩ := o1.write (pos := (S.outMem ⟨p, O⟩ m1).pout.skb.nh + 42) (off := 42) (l := be16 (fo ||| 1#16).toNat) (by rw [o1.nh]) (by rw [be16_length]; omega)
  rw [w2]; simp only [ok_bind]
  rw [patch_left (by rw [be16_length]; omega)] at o2
  generalize hH : patch (patch (hdr46 (g.vals 0) true) 4 (be16 (per + 8))) 42 (be16 (fo ||| 1#16).toNat) = H at *
  have hHl : H.length = 48 := by rw [← hH, patch_length (by rw [be16_length]; omega), hh4]
  have hr2 := read_ok o2.frame (pos := ((S.outMem ⟨p, O⟩ m1).outMem m2).pout.skb.nh) (off := 0) (n := 48) o2.nh (by omega)
  rw [hr2]; simp only [ok_bind, List.drop_zero]
  rw [List.take_left' hHl]
  obtain ⟨bl2, hfill, hfb, hfd⟩ := fillGo_ok (mf := fo &&& 1#16 != 0#16) hHl (chunks per ((a.skb.data.drop a.m.l4).drop per)) bl' ((fo &&& 0xfff8#16) + BitVec.ofNat 16 per) hbl'
  rw [hfill]; simp only [pure_eq, ok_bind]
  have hff : firstFrag4 ((S.outMem ⟨p, O⟩ m1).outMem m2).pin.skb ((S.outMem ⟨p, O⟩ m1).outMem m2).pin.skb.nh = .ok (first4 a.skb.data 0) :=
    firstFrag4_ok (off := 0) fi hh.nh (by have := A.ip; omega)
  rw [hff]; simp only [ok_bind]
  have hspec : slow46 (g.vals 0) per (rest46 (g.vals 0) a.skb.data a.m) =
      (H ++ (rest46 (g.vals 0) a.skb.data a.m).take per) :: fills H (fo &&& 1#16 != 0#16) ((fo &&& 0xfff8#16) + BitVec.ofNat 16 per) (chunks per ((rest46 (g.vals 0) a.skb.data a.m).drop per)) := by
    unfold slow46
    simp only [hFO]
    have : (g.vals 0).l3 none ++ (g.vals 0).frag = hdr46 (g.vals 0) true := rfl
    rw [this, hH]
  rw [hspec]
  cases hf : first4 a.skb.data 0
  · have hd := A.hdr
    rw [← A.data, hf] at hd
    simp only [HdrEnd, Bool.false_eq_true, if_false] at hd
    have hR : rest46 (g.vals 0) a.skb.data a.m = a.skb.data.drop a.m.l4 := by
      unfold rest46
      rw [hf, hd]; rfl
    rw [hR, hC]
    refine ⟨_, bl2, rfl, rfl, ?_, ?_⟩
    · rw [List.map_cons, hfb]
      exact congrArg (· :: _) (o2.frame.bytes o2.data)
    · intro x hx
      rcases List.mem_cons.1 hx with hx | hx
      · rw [hx]; exact o2.data
      · exact hfd x hx
  · have hen' := hen hf
    rw [if_pos rfl]
    obtain ⟨m3, w3, f3⟩ := l446_simple (g := g) (lvl := 0) hv0 (s := (S.outMem ⟨p, O⟩ m1).outMem m2) (ti := a.m.l4) (to := 48) fi o2.frame hh.th o2.th hl4len (by omega) (by omega)
      (by show Enough p.proto _; rw [hh.proto]; exact hen') (a.skb.data.length + 1) hne
    rw [w3]; simp only [ok_bind]
    have hpr : ((S.outMem ⟨p, O⟩ m1).outMem m2).pin.proto = a.m.proto := hh.proto
    rw [hpr] at f3
    have hsl : (slice a.skb.data a.m.l4 a.m.pay).length = a.m.pay - a.m.l4 := slice_length hle (by omega)
    have hnl : (l4New (g.vals 0) a.m.proto (slice a.skb.data a.m.l4 a.m.pay)).length = a.m.pay - a.m.l4 := by
      rw [l4New_len hv0 (by rw [hsl]; exact hen'), hsl]
    have hR : rest46 (g.vals 0) a.skb.data a.m = l4New (g.vals 0) a.m.proto (slice a.skb.data a.m.l4 a.m.pay) ++ a.skb.data.drop a.m.pay := by
      unfold rest46
      rw [hf]; rfl
    have hRd : (rest46 (g.vals 0) a.skb.data a.m).drop per = (a.skb.data.drop a.m.l4).drop per := by
      rw [hR, List.drop_append, hnl, List.drop_of_length_le (by omega), List.nil_append, List.drop_drop, List.drop_drop]
      congr 1; omega
    have hRt : patch (H ++ C) 48 (l4New (g.vals 0) a.m.proto (slice a.skb.data a.m.l4 a.m.pay)) = H ++ (rest46 (g.vals 0) a.skb.data a.m).take per := by
      rw [patch_at hHl.symm, hR, List.take_append, hnl, List.take_of_length_le (by omega), List.append_assoc]
      congr 2
      rw [← hC, List.drop_take, List.drop_drop]
      congr 2; omega
    have f3' : Frame (((S.outMem ⟨p, O⟩ m1).outMem m2).outMem m3).pout.skb p.skb.data (48 + per) (patch (H ++ C) 48 (l4New (g.vals 0) a.m.proto (slice a.skb.data a.m.l4 a.m.pay))) := f3
    rw [hRt] at f3'
    rw [hRd]
    refine ⟨_, bl2, rfl, rfl, ?_, ?_⟩
    · rw [List.map_cons, hfb]
      exact congrArg (· :: _) (f3'.bytes o2.data)
    · intro x hx
      rcases List.mem_cons.1 hx with hx | hx
      · rw [hx]; exact o2.data
      · exact hfd x hx

end

end Jool.Build
