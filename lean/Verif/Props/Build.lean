import Verif.Lemmas.BuildSlow
import Verif.Lemmas.BuildSix
import Verif.Props.IcmpExt
/-
C76: the memory of a packet while it is translated. Every header is written where the new packet has room for it, nothing else is touched, and the outgoing
packet is exactly the new headers followed by what the incoming packet had behind its own.
-/
namespace Jool.Build
open Jool.Pkt (Byte L4 Meta Acc at8 at16 first4 fragmented4 ihl4 isFirst6 tcpLen HdrEnd)
open Jool.PktSpec

set_option linter.unusedVariables false

/-! ## What the packets have to be -/

/-- Two bytes, the highest one first. -/
def two (n : Nat) : List Byte := [BitVec.ofNat 8 (n / 256), BitVec.ofNat 8 n]

/-- An IPv6 packet. `hdr`: its headers (the first 40 bytes are the IPv6 header); the length field (4, 5) is what comes behind those 40 bytes. -/
def ipv6 (hdr rest : List Byte) : List Byte := hdr.take 4 ++ two (hdr.length + rest.length - 40) ++ hdr.drop 6 ++ rest

/-- An IPv4 packet. The length field (2, 3) counts everything. -/
def ipv4 (hdr rest : List Byte) : List Byte := hdr.take 2 ++ two (hdr.length + rest.length) ++ hdr.drop 4 ++ rest

/-- A transport header that was `h`: new ports (NAT64) and checksum; the rest of it stays. ICMP headers are new. -/
def transport (v : Vals) (proto : L4) (h : List Byte) : List Byte := match proto with
  | L4.tcp => v.ports.getD (h.take 4) ++ (h.drop 4).take 12 ++ v.tcp ++ h.drop 18
  | L4.udp => v.ports.getD (h.take 4) ++ (h.drop 4).take 2 ++ v.udp ++ h.drop 8
  | L4.icmp => v.icmp
  | L4.other => []

/-- The new headers before the transport header, 4 to 6. -/
def above46 (v : Vals) (fragment : Bool) : List Byte := v.l3 none ++ if fragment then v.frag else []

/-- What follows them. Only first fragments have a transport header. -/
def behind (v : Vals) (first : Bool) (bs : List Byte) (m : Meta) : List Byte :=
  (if first then transport v m.proto ((bs.drop m.l4).take (m.pay - m.l4)) else []) ++ bs.drop m.pay

/-- The outgoing packet `o` is `bs`, all of its linear part is inside of its memory, and the positions of its headers are right. -/
structure Is (o : P) (bs : List Byte) (l3 : Nat) : Prop where
  bytes : o.skb.bytes = bs
  len : o.skb.len = bs.length
  order : o.skb.data ≤ o.skb.tail
  inside : o.skb.tail ≤ o.skb.mem.length
  nh : o.skb.nh = o.skb.data
  th : o.skb.th = o.skb.data + l3

theorem Outgoing.is {o : P} {base hl : Nat} {bs : List Byte} {th : Nat} (h : Outgoing o base hl bs th) : Is o bs th := by
  have h1 := h.frame.tail
  have h2 := h.data
  exact ⟨h.frame.bytes h2, h.frame.len h2, by omega, h.frame.room, h.nh.trans h2.symm, by rw [h2]; exact h.th⟩

theorem packet6_spec (hdr rest : List Byte) : packet6 hdr rest = ipv6 hdr rest := by
  unfold packet6 ipv6 patch
  rfl

theorem packet4_spec (hdr rest : List Byte) : packet4 hdr rest = ipv4 hdr rest := by
  unfold packet4 ipv4 patch
  rfl

theorem portsNew_spec {v : Vals} {k : Nat} (hv : v.Sized k) (h : List Byte) : portsNew v h = v.ports.getD (h.take 4) ++ h.drop 4 := by
  unfold portsNew
  split
  · rename_i e
    rw [e]; simp
  · rename_i l e
    rw [e]
    simp [patch, hv.ports l e]

theorem l4New_spec {v : Vals} {k : Nat} (hv : v.Sized k) (proto : L4) {h : List Byte} (he : Enough proto h.length) : l4New v proto h = transport v proto h := by
  have hg : 4 ≤ h.length → (v.ports.getD (h.take 4)).length = 4 := by
    intro h4
    cases e : v.ports with
    | none => simp; omega
    | some l => simp [hv.ports l e]
  cases proto <;> simp only [Enough] at he <;> unfold l4New transport <;> simp only
  · have := hg (by omega)
    rw [portsNew_spec hv, patch_right (k := 12) (by omega)]
    unfold patch
    rw [hv.tcp, List.drop_drop]
    simp [List.append_assoc]
  · have := hg (by omega)
    rw [portsNew_spec hv, patch_right (k := 2) (by omega)]
    unfold patch
    rw [hv.udp, List.drop_drop]
    simp [List.append_assoc]

/-! ## One outgoing packet, no ICMP errors -/

/-- **C76.** 4 to 6, one packet that is not an ICMP error: no access outside of the memory of the packets; the outgoing packet is the new headers (with the
right length) and the rest of the incoming one, which is not touched; there is at least as much room before it as there was. -/
theorem fast46_partial {g : Given} {p : P} {a : Acc} {s0 : Pkt.Skb} (hv : (g.vals 0).Sized 40) (h : Pkt.init4 s0 = some a) (hh : Holds p a)
    (hihl : 20 ≤ ihl4 a.skb.data 0) (htcp : first4 a.skb.data 0 = true → a.m.proto = L4.tcp → 20 ≤ tcpLen a.skb.data a.m.l4) (hi : a.inner = none) :
    ∃ s, xlat46 g p = .ok (some s) ∧ s.pin = p ∧ p.skb.data ≤ s.pout.skb.data ∧
      Is s.pout (ipv6 (above46 (g.vals 0) (fragmented4 a.skb.data 0)) (behind (g.vals 0) (first4 a.skb.data 0) a.skb.data a.m))
        (above46 (g.vals 0) (fragmented4 a.skb.data 0)).length := by
  obtain ⟨s, base, hl, e, hp, o, hb⟩ := xlat46_plain hv h hh hihl htcp hi
  obtain ⟨hle, hen⟩ := accepted4_hdr h htcp
  have A := Pkt.init4_ok h
  have hpay := A.pay
  have hpl := hh.frame.length
  refine ⟨s, e, hp, by rw [o.data]; exact hb, ?_⟩
  have hx := o.is
  have e1 : (above46 (g.vals 0) (fragmented4 a.skb.data 0)).length = 40 + if fragmented4 a.skb.data 0 = true then 8 else 0 := hdr46_length hv _
  have e2 : plain46 (g.vals 0) a.skb.data a.m = ipv6 (above46 (g.vals 0) (fragmented4 a.skb.data 0)) (behind (g.vals 0) (first4 a.skb.data 0) a.skb.data a.m) := by
    unfold plain46
    rw [packet6_spec]
    congr 2
    by_cases hf : first4 a.skb.data 0 = true
    · rw [if_pos hf, if_pos hf]
      exact l4New_spec hv _ (by rw [slice_length hle (by omega)]; exact hen hf)
    · rw [if_neg hf, if_neg hf]
  rw [e1, ← e2]
  exact hx

/-- **C76.** 6 to 4, a packet that is not an ICMP error. -/
theorem fast64_partial {g : Given} {p : P} {a : Acc} {s0 : Pkt.Skb} (hv : (g.vals 0).Sized 20) (h : Pkt.init6 s0 = some a) (hh : Holds p a)
    (htcp : isFirst6 a.skb.data a.m = true → a.m.proto = L4.tcp → 20 ≤ tcpLen a.skb.data a.m.l4) (hi : a.inner = none) :
    ∃ s, xlat64 g p = .ok (some s) ∧ s.pin = p ∧ p.skb.data ≤ s.pout.skb.data ∧
      Is s.pout (ipv4 ((g.vals 0).l3 (if a.m.fh = 0 then none else some ((a.skb.data.drop a.m.fh).take 8))) (behind (g.vals 0) (isFirst6 a.skb.data a.m) a.skb.data a.m)) 20 := by
  obtain ⟨s, base, hl, e, hp, o, hb⟩ := xlat64_plain hv h hh htcp hi
  obtain ⟨_, hle, _, hen, _⟩ := accepted6_hdr h htcp
  have A := Pkt.init6_ok h
  have hpay := A.pay
  have hpl := hh.frame.length
  refine ⟨s, e, hp, by rw [o.data]; exact hb, ?_⟩
  have e2 : plain64 (g.vals 0) a.skb.data a.m =
      ipv4 ((g.vals 0).l3 (if a.m.fh = 0 then none else some ((a.skb.data.drop a.m.fh).take 8))) (behind (g.vals 0) (isFirst6 a.skb.data a.m) a.skb.data a.m) := by
    unfold plain64
    rw [packet4_spec]
    have ef : frag6 a.skb.data a.m = if a.m.fh = 0 then none else some ((a.skb.data.drop a.m.fh).take 8) := by
      unfold frag6 slice
      rw [Nat.add_sub_cancel_left]
    rw [ef]
    congr 2
    by_cases hf : isFirst6 a.skb.data a.m = true
    · rw [if_pos hf, if_pos hf]
      exact l4New_spec hv _ (by rw [slice_length hle (by omega)]; exact hen hf)
    · rw [if_neg hf, if_neg hf]
  rw [← e2]
  exact o.is

/-! ## ICMP errors -/

/-- An ICMP error, 4 to 6, without what follows its two headers. `n`: how much that is; `f`: the length field of RFC 4884. -/
def head46 (v : Vals) (n f : Nat) : List Byte :=
  (v.l3 none).take 4 ++ two (8 + n) ++ (v.l3 none).drop 6 ++ v.icmp.take 2 ++ v.sum ++ [BitVec.ofNat 8 f] ++ v.icmp.drop 5

/-- What the packet inside of an error becomes if nothing is changed or cut. -/
def inside46 (w : Vals) (bs : List Byte) (pay : Nat) (i : Meta) : List Byte :=
  above46 w (fragmented4 bs pay) ++ behind w true bs i

def inside64 (w : Vals) (bs : List Byte) (i : Meta) : List Byte := w.l3 none ++ behind w true bs i

theorem trimmed {a : IcmpExt.Args} {ipl ohl : Nat} {inPay old : List Byte} {l : List Byte} {f : Nat} (h : IcmpExt.handle a ipl inPay ohl old = .ok l f) :
    IcmpExt.trim a.max ohl (IcmpExt.store8 (IcmpExt.handle a ipl inPay ohl old)) = .ok (l.take (a.max - ohl)) (f % 256) := by
  rw [h]; rfl

theorem ofNat8_mod (f : Nat) : BitVec.ofNat 8 (f % 256) = BitVec.ofNat 8 f := by
  apply BitVec.eq_of_toNat_eq
  simp [BitVec.toNat_ofNat]

theorem icmp_patch46 {ic sum : List Byte} {b : Byte} (hi : ic.length = 8) (hs : sum.length = 2) :
    patch (patch ic 4 [b]) 2 sum = ic.take 2 ++ sum ++ [b] ++ ic.drop 5 := by
  unfold patch
  simp only [hs, List.length_singleton]
  rw [List.append_assoc (ic.take 4), List.take_append_of_le_length (by rw [List.length_take]; omega), List.take_take,
    List.drop_append, List.drop_of_length_le (by rw [List.length_take]; omega), List.length_take, List.nil_append]
  have : 2 + 2 - min 4 ic.length = 0 := by omega
  rw [this]
  simp

theorem ended46_spec {v : Vals} (hv : v.Sized 40) {R l : List Byte} {f n : Nat} (hx : n = (l.take 1232).length) :
    patch (ended46 (packet6 (hdr46 v false) (v.icmp ++ R)) 48 40 l f) 42 v.sum = head46 v n f ++ l.take 1232 := by
  have hh : hdr46 v false = v.l3 none := by unfold hdr46; simp
  have h40 := hv.l3 none
  have h8 := hv.icmp
  unfold packet6
  rw [hh]
  generalize hP : patch (v.l3 none) 4 (be16 ((v.l3 none).length + (v.icmp ++ R).length - 40)) = P
  have hPl : P.length = 40 := by rw [← hP, patch_length (by rw [be16_length]; omega), h40]
  have e1 : (P ++ (v.icmp ++ R)).take 48 = P ++ v.icmp := by
    rw [← List.append_assoc]
    exact List.take_left' (by rw [List.length_append]; omega)
  have e2 : ((P ++ v.icmp) ++ l).take 1280 = P ++ (v.icmp ++ l.take 1232) := by
    rw [List.append_assoc, List.take_append, List.take_append, hPl, h8, List.take_of_length_le (l := P) (by omega), List.take_of_length_le (l := v.icmp) (by omega)]
  unfold ended46
  simp only [e1, e2]
  rw [patch_right (k := 4) (by omega), patch_left (a := v.icmp) (by rw [List.length_singleton]; omega), patch_left (a := P) (by rw [be16_length]; omega), ← hP,
    patch_again ((be16_length _).trans (be16_length _).symm) (by rw [be16_length]; omega), patch_right (k := 2) (by rw [patch_length (by rw [be16_length]; omega)]; omega),
    patch_left (a := patch v.icmp 4 _) (by rw [patch_length (by rw [List.length_singleton]; omega), hv.sum]; omega), icmp_patch46 h8 hv.sum]
  have e3 : (patch (v.l3 none) 4 (be16 ((v.l3 none).length + (v.icmp ++ R).length - 40)) ++ (v.icmp ++ l.take 1232)).length - 40 = 8 + n := by
    rw [List.length_append, patch_length (by rw [be16_length]; omega), List.length_append]
    omega
  rw [e3]
  unfold head46 patch two be16
  simp only [List.append_assoc, List.length_cons, List.length_nil]

/-- **C76.** 4 to 6, an ICMP error: two IP headers and two other headers are written, perhaps the packet is written again because of an extension (RFC 4884),
perhaps it is cut; nothing outside of the memory of the packets is touched. The outgoing packet is the new headers followed by `l`, which is what C41 says about the
packet inside after its own translation; the length is right. -/
theorem error46_partial {g : Given} {p : P} {a : Acc} {s0 : Pkt.Skb} {i : Meta} (hv : (g.vals 0).Sized 40) (hw : (g.vals 1).Sized 40) (h : Pkt.init4 s0 = some a) (hh : Holds p a)
    (hihl : 20 ≤ ihl4 a.skb.data 0) (hi : a.inner = some i) (h58 : at8 a.skb.data (a.m.pay + 9) ≠ 58#8)
    (htcp : i.proto = L4.tcp → 20 ≤ tcpLen a.skb.data i.l4) (hnest : ¬ (i.proto = L4.icmp ∧ Icmp.isIcmp4Error (at8 a.skb.data i.l4) = true))
    (hsize : a.skb.data.length ≤ 65535)
    (hext : 0 < (at8 a.skb.data (a.m.l4 + 5)).toNat * 4 → (at8 a.skb.data (a.m.l4 + 5)).toNat * 4 < (a.skb.data.drop a.m.pay).length →
      (a.skb.data.drop a.m.pay).length - (at8 a.skb.data (a.m.l4 + 5)).toNat * 4 ≤ (inside46 (g.vals 1) a.skb.data a.m.pay i).length) :
    ∃ r, IcmpExt.Good 8 1280 48 (IcmpExt.shouldRemove (at8 a.skb.data a.m.l4) (at8 a.skb.data (a.m.l4 + 1))) ((at8 a.skb.data (a.m.l4 + 5)).toNat * 4) (a.skb.data.drop a.m.pay)
        (inside46 (g.vals 1) a.skb.data a.m.pay i) r ∧
      match r with
      | .ub => False
      | .drop => xlat46 g p = .ok none
      | .ok l f => ∃ s, xlat46 g p = .ok (some s) ∧ s.pin = p ∧ (p.skb.data ≤ s.pout.skb.data ∨ s.pout.skb.data = g.ll) ∧ Is s.pout (head46 (g.vals 0) l.length f ++ l) 40 := by
  have A := Pkt.init4_ok h
  obtain ⟨hpi, herr, I⟩ := A.inner i hi
  have hnf := (A.icmp hpi).1
  rw [← A.data] at hnf I
  have hm := xlat46_error (g := g) hv h hh hihl (fun _ e => by rw [hpi] at e; cases e) hw hi h58 htcp hnest
  have hpl := hh.frame.length
  have hiH := I.hdr
  have hil4 := I.l4
  have hipay := I.pay
  have hien : i.l4 ≤ i.pay ∧ Enough i.proto (i.pay - i.l4) := by
    unfold HdrEnd at hiH
    simp only [if_true] at hiH
    cases hp : i.proto <;> rw [hp] at hiH <;> simp only at hiH
    · have := htcp hp
      exact ⟨by omega, by simp only [Enough]; omega⟩
    · exact ⟨by omega, by simp only [Enough]; omega⟩
    · exact ⟨by omega, by simp only [Enough]; omega⟩
    · exact ⟨by omega, by simp only [Enough]; omega⟩
  obtain ⟨hle, hen⟩ := hien
  have hsl := slice_length hle (show i.pay ≤ a.skb.data.length by omega)
  have h40 := hv.l3 none
  have hI : hdr46 (g.vals 1) (fragmented4 a.skb.data a.m.pay) ++ (l4New (g.vals 1) i.proto (slice a.skb.data i.l4 i.pay) ++ a.skb.data.drop i.pay) =
      inside46 (g.vals 1) a.skb.data a.m.pay i := by
    rw [l4New_spec hw _ (by rw [hsl]; exact hen)]
    rfl
  have hE : error46 (g.vals 0) (g.vals 1) a.skb.data a.m i = packet6 (hdr46 (g.vals 0) false) ((g.vals 0).icmp ++ inside46 (g.vals 1) a.skb.data a.m.pay i) := by
    unfold error46
    rw [hnf, hI]
  have hhl : (hdr46 (g.vals 0) false).length = 40 := by rw [hdr46_length hv]; rfl
  have hD : (error46 (g.vals 0) (g.vals 1) a.skb.data a.m i).drop 48 = inside46 (g.vals 1) a.skb.data a.m.pay i := by
    rw [hE]
    unfold packet6
    rw [← List.append_assoc]
    exact List.drop_left' (by rw [List.length_append, patch_length (by rw [be16_length]; omega), hv.icmp, hhl])
  have hIl : (inside46 (g.vals 1) a.skb.data a.m.pay i).length ≤ a.skb.data.length + 48 := by
    rw [← hI, List.length_append, List.length_append, hdr46_length hw, l4New_len hw (by rw [hsl]; exact hen), hsl, List.length_drop]
    split <;> omega
  have G := IcmpExt.good_of (a := ⟨1280, 3, IcmpExt.shouldRemove (at8 a.skb.data a.m.l4) (at8 a.skb.data (a.m.l4 + 1))⟩) (ohl := 48) (by unfold IcmpExt.Args.Ok; simp)
    (ipl := (at8 a.skb.data (a.m.l4 + 5)).toNat * 4) (inPay := a.skb.data.drop a.m.pay) (old := inside46 (g.vals 1) a.skb.data a.m.pay i) hext (by omega)
    (by rw [List.length_drop]; omega)
  refine ⟨_, G, ?_⟩
  rw [hD] at hm
  cases hr : IcmpExt.handle ⟨1280, 3, IcmpExt.shouldRemove (at8 a.skb.data a.m.l4) (at8 a.skb.data (a.m.l4 + 1))⟩ ((at8 a.skb.data (a.m.l4 + 5)).toNat * 4) (a.skb.data.drop a.m.pay) 48
    (inside46 (g.vals 1) a.skb.data a.m.pay i) with
  | drop => rw [hr] at hm; exact hm
  | ub =>
    rw [hr] at G
    exact nomatch G
  | ok l f =>
    rw [hr] at hm
    obtain ⟨s, base, hl, e, hp, o, hb⟩ := hm
    refine ⟨s, e, hp, by rw [o.data]; exact hb, ?_⟩
    have hx := o.is
    rw [hE, ended46_spec hv rfl] at hx
    have ef : head46 (g.vals 0) (l.take 1232).length (f % 256) = head46 (g.vals 0) (l.take 1232).length f := by
      unfold head46
      rw [ofNat8_mod]
    show Is s.pout (head46 (g.vals 0) (l.take (1280 - 48)).length (f % 256) ++ l.take (1280 - 48)) 40
    rw [ef]
    exact hx

/-- An ICMP error, 6 to 4, without what follows its two headers. `n`: how much that is; `same`: whether that is as much as in the first place (otherwise DF is cleared
and the header checksum is computed again); `f`: the length field of RFC 4884, if the error has one. -/
def head64 (v : Vals) (n : Nat) (same : Bool) (f : Option Nat) : List Byte :=
  (v.l3 none).take 2 ++ two (28 + n) ++ ((v.l3 none).drop 4).take 2 ++ [if same then at8 (v.l3 none) 6 else at8 (v.l3 none) 6 &&& 0xbf#8] ++
    ((v.l3 none).drop 7).take 3 ++ (if same then ((v.l3 none).drop 10).take 2 else v.ipsum) ++ (v.l3 none).drop 12 ++
    v.icmp.take 2 ++ v.sum ++ (v.icmp.drop 4).take 1 ++ (match f with
      | some f => [BitVec.ofNat 8 f]
      | none => (v.icmp.drop 5).take 1) ++ v.icmp.drop 6

/-- The IPv4 header of an error. -/
def ip64 (v : Vals) (n : Nat) (same : Bool) : List Byte :=
  (v.l3 none).take 2 ++ (be16 n ++ (((v.l3 none).drop 4).take 2 ++ ([if same then at8 (v.l3 none) 6 else at8 (v.l3 none) 6 &&& 0xbf#8] ++
    (((v.l3 none).drop 7).take 3 ++ ((if same then ((v.l3 none).drop 10).take 2 else v.ipsum) ++ (v.l3 none).drop 12)))))

theorem ip64_length {v : Vals} (hv : v.Sized 20) (n : Nat) (same : Bool) : (ip64 v n same).length = 20 := by
  have h := hv.l3 none
  have h2 := hv.ipsum
  unfold ip64
  cases same <;> simp [be16_length, h, h2]

theorem at8_append {A B : List Byte} {k j : Nat} (h : k = A.length + j) : at8 (A ++ B) k = at8 B j := by
  unfold at8
  simp only [List.getD_eq_getElem?_getD]
  rw [List.getElem?_append_right (by omega)]
  congr 2
  omega

theorem at16_be16 {A B : List Byte} {k n : Nat} (h : A.length = k) (hn : n < 65536) : at16 (A ++ (be16 n ++ B)) k = n := by
  unfold at16
  rw [at8_append (A := A) (k := k) (j := 0) (by omega), at8_append (A := A) (k := k + 1) (j := 1) (by omega)]
  show (BitVec.ofNat 8 (n / 256)).toNat * 256 + (BitVec.ofNat 8 n).toNat = n
  rw [BitVec.toNat_ofNat, BitVec.toNat_ofNat]
  omega

theorem ip64_first {v : Vals} (hv : v.Sized 20) (n : Nat) : patch (v.l3 none) 2 (be16 n) = ip64 v n true := by
  have h := hv.l3 none
  unfold patch ip64
  simp only [if_true, be16_length]
  generalize v.l3 none = L at *
  match L, h with
  | [_, _, _, _, _, _, _, _, _, _, _, _, _, _, _, _, _, _, _, _], _ => rfl

theorem ip64_len16 {v : Vals} (hv : v.Sized 20) {n : Nat} (hn : n < 65536) (same : Bool) (r : List Byte) : at16 (ip64 v n same ++ r) 2 = n := by
  have h := hv.l3 none
  unfold ip64
  rw [List.append_assoc, List.append_assoc]
  exact at16_be16 (by rw [List.length_take]; omega) hn

theorem ip64_updated {v : Vals} (hv : v.Sized 20) {n : Nat} (hn : n < 65536) (same : Bool) (r : List Byte) :
    updated v (ip64 v n same ++ r) = if n = 20 + r.length then ip64 v n same ++ r else ip64 v (20 + r.length) false ++ r := by
  have h := hv.l3 none
  have hl := ip64_length hv n same
  have hs := hv.ipsum
  unfold updated
  rw [ip64_len16 hv hn, List.length_append, hl]
  by_cases c : n = 20 + r.length
  · rw [if_pos c, if_pos c]
  · rw [if_neg c, if_neg c]
    have e6 : at8 (ip64 v n same ++ r) 6 &&& 0xbf#8 = at8 (v.l3 none) 6 &&& 0xbf#8 := by
      have : at8 (ip64 v n same ++ r) 6 = if same = true then at8 (v.l3 none) 6 else at8 (v.l3 none) 6 &&& 0xbf#8 := by
        unfold ip64
        simp only [List.append_assoc]
        rw [at8_append (j := 4) (by rw [List.length_take]; omega), at8_append (j := 2) (by rw [be16_length]),
          at8_append (j := 0) (by rw [List.length_take, List.length_drop]; omega)]
        rfl
      rw [this]
      split
      · rfl
      · rw [BitVec.and_assoc]; rfl
    rw [e6]
    generalize hz : be16 (20 + r.length) = Z
    have hzl : Z.length = 2 := by rw [← hz, be16_length]
    unfold ip64
    rw [hz]
    have hA : ((v.l3 none).take 2).length = 2 := by rw [List.length_take]; omega
    have hB : (((v.l3 none).drop 4).take 2).length = 2 := by rw [List.length_take, List.length_drop]; omega
    have hC : (((v.l3 none).drop 7).take 3).length = 3 := by rw [List.length_take, List.length_drop]; omega
    have hc : (if same = true then ((v.l3 none).drop 10).take 2 else v.ipsum).length = 2 := by
      split
      · rw [List.length_take, List.length_drop]; omega
      · exact hs
    generalize (v.l3 none).take 2 = A at *
    generalize ((v.l3 none).drop 4).take 2 = B at *
    generalize ((v.l3 none).drop 7).take 3 = C at *
    generalize (v.l3 none).drop 12 = D at *
    generalize (if same = true then ((v.l3 none).drop 10).take 2 else v.ipsum) = E at *
    generalize (if same = true then at8 (v.l3 none) 6 else at8 (v.l3 none) 6 &&& 0xbf#8) = F at *
    generalize at8 (v.l3 none) 6 &&& 0xbf#8 = F2 at *
    generalize v.ipsum = E2 at *
    generalize hbn : be16 n = N
    have hN : N.length = 2 := by rw [← hbn, be16_length]
    simp only [Bool.false_eq_true, if_false]
    match A, B, C, E, E2, N, Z, hA, hB, hC, hc, hs, hN, hzl with
    | [_, _], [_, _], [_, _, _], [_, _], [_, _], [_, _], [_, _], _, _, _, _, _, _, _ => rfl

theorem patch_mid {ip ic X new : List Byte} {off k : Nat} (hip : ip.length = 20) (ho : off = 20 + k) (hk : k + new.length ≤ ic.length) :
    patch (ip ++ (ic ++ X)) off new = ip ++ (patch ic k new ++ X) := by
  rw [patch_right (k := k) (by omega), patch_left hk]

/-- The end of an error: the lengths of the first packet (`N`) and of the last one decide whether the header is written again. -/
theorem cut64 {v : Vals} (hv : v.Sized 20) {N : Nat} (hN : N < 65536) {ic l : List Byte} (hic : ic.length = 8) (hl : l.length < 65508)
    (hN2 : N = 28 + l.length ∨ l.length ≤ 548) :
    cut576 v (updated v (ip64 v N true ++ (ic ++ l))) = ip64 v (28 + (l.take 548).length) (decide (N = 28 + (l.take 548).length)) ++ (ic ++ l.take 548) := by
  rw [ip64_updated hv hN, List.length_append, hic]
  have hr : 20 + (8 + l.length) = 28 + l.length := by omega
  rw [hr]
  have key : ∀ b : Bool, cut576 v (ip64 v (28 + l.length) b ++ (ic ++ l)) =
      if l.length ≤ 548 then ip64 v (28 + l.length) b ++ (ic ++ l) else ip64 v 576 false ++ (ic ++ l.take 548) := by
    intro b
    unfold cut576
    simp only [List.length_append, ip64_length hv, hic]
    by_cases c : l.length ≤ 548
    · rw [if_pos c, if_pos (by omega)]
    · rw [if_neg c, if_neg (by omega)]
      have et : (ip64 v (28 + l.length) b ++ (ic ++ l)).take 576 = ip64 v (28 + l.length) b ++ (ic ++ l.take 548) := by
        rw [List.take_append, List.take_append, ip64_length hv, hic, List.take_of_length_le (l := ip64 v (28 + l.length) b) (by rw [ip64_length hv]; omega),
          List.take_of_length_le (l := ic) (by omega)]
      rw [et, ip64_updated hv (by omega), List.length_append, List.length_take, hic, if_neg (by omega)]
      congr 2
      omega
  by_cases c : N = 28 + l.length
  · rw [if_pos c, c, key true]
    by_cases d : l.length ≤ 548
    · rw [if_pos d, List.take_of_length_le d]
      simp
    · rw [if_neg d, List.length_take]
      have : min 548 l.length = 548 := by omega
      rw [this]
      have : decide (28 + l.length = 28 + 548) = false := decide_eq_false (by omega)
      rw [this]
  · rw [if_neg c, key false]
    by_cases d : l.length ≤ 548
    · rw [if_pos d, List.take_of_length_le d, decide_eq_false c]
    · rw [if_neg d, List.length_take]
      have : min 548 l.length = 548 := by omega
      rw [this]
      omega

/-- A packet that is written again because of its extension is not too long. -/
theorem handle_short {a : IcmpExt.Args} {ohl : Nat} (ha : a.Ok ohl) {ipl : Nat} {inPay old l : List Byte} {f : Nat}
    (hold : 0 < ipl → ipl < inPay.length → inPay.length - ipl ≤ old.length) (hb : old.length < 536870912) (hi : inPay.length < 536870912)
    (h : IcmpExt.handle a ipl inPay ohl old = .ok l f) : l = old ∨ l.length ≤ a.max - ohl := by
  by_cases hp : ipl = 0 ∨ ipl = inPay.length
  · rw [IcmpExt.handle_none hp] at h
    cases h
    exact Or.inl rfl
  · by_cases hbig : inPay.length < ipl
    · rw [IcmpExt.handle_big hbig] at h
      cases h
    · have h0 : 0 < ipl := by omega
      have h1 : ipl < inPay.length := by omega
      by_cases hr : a.force = true ∨ a.max < ohl + 128 + (inPay.length - ipl)
      · rw [IcmpExt.handle_removed ha h0 h1 hr (hold h0 h1) hb hi] at h
        cases h
        exact Or.inr (by rw [List.length_take]; omega)
      · have hf : a.force = false := by
          cases h : a.force
          · rfl
          · exact absurd (Or.inl h) hr
        obtain ⟨d, f, e, g1, g2, g3, g4⟩ := IcmpExt.handle_fits ha h0 h1 hf (by omega) (hold h0 h1) hb hi
        rw [e] at h
        cases h
        exact Or.inr (by omega)

theorem head64_spec {v : Vals} (hv : v.Sized 20) (n : Nat) (same : Bool) (f : Option Nat) (l : List Byte) :
    ip64 v (28 + n) same ++ (patch (match f with
      | some f => patch v.icmp 5 [BitVec.ofNat 8 f]
      | none => v.icmp) 2 v.sum ++ l) = head64 v n same f ++ l := by
  have h8 := hv.icmp
  have hs := hv.sum
  unfold head64 ip64 two be16
  simp only [List.append_assoc]
  generalize v.icmp = I at *
  generalize v.sum = Z at *
  match I, Z, h8, hs with
  | [_, _, _, _, _, _, _, _], [_, _], _, _ => cases f <;> rfl

/-- **C76.** 6 to 4, an ICMP error. `ipl` counts the bytes of the packet inside, if the type of error has a length field (1, 3); otherwise there is no extension. -/
theorem error64_partial {g : Given} {p : P} {a : Acc} {s0 : Pkt.Skb} {i : Meta} (hv : (g.vals 0).Sized 20) (hw : (g.vals 1).Sized 20) (h : Pkt.init6 s0 = some a) (hh : Holds p a)
    (hi : a.inner = some i) (hfh : a.m.fh = 0) (h1 : ∀ n o, Pkt.last6 a.skb a.m.pay = some (n, o) → n ≠ 1#8) (htcp : i.proto = L4.tcp → 20 ≤ tcpLen a.skb.data i.l4)
    (hsize : a.skb.data.length ≤ 65535) {has : Bool} (hhas : has = true ↔ at8 a.skb.data a.m.l4 = 1#8 ∨ at8 a.skb.data a.m.l4 = 3#8) {ipl : Nat}
    (hipl : ipl = if has then (at8 a.skb.data (a.m.l4 + 4)).toNat * 8 else 0)
    (hext : 0 < ipl → ipl < (a.skb.data.drop a.m.pay).length → (a.skb.data.drop a.m.pay).length - ipl ≤ (inside64 (g.vals 1) a.skb.data i).length) :
    ∃ r, IcmpExt.Good 4 576 28 false ipl (a.skb.data.drop a.m.pay) (inside64 (g.vals 1) a.skb.data i) r ∧
      match r with
      | .ub => False
      | .drop => xlat64 g p = .ok none
      | .ok l f => ∃ s, xlat64 g p = .ok (some s) ∧ s.pin = p ∧ (p.skb.data ≤ s.pout.skb.data ∨ s.pout.skb.data = g.ll) ∧
          Is s.pout (head64 (g.vals 0) l.length (decide (l.length = (inside64 (g.vals 1) a.skb.data i).length)) (if has then some f else none) ++ l) 20 := by
  have A := Pkt.init6_ok h
  have hpay := A.pay
  obtain ⟨hpi, herr, I⟩ := A.inner i hi
  rw [← A.data] at herr I
  obtain ⟨h40, hle, _, hen, hicf⟩ := accepted6_hdr h (fun _ e => by rw [hpi] at e; cases e)
  have hff := hicf hpi
  have hen' := hen hff
  rw [hpi] at hen'
  simp only [Enough] at hen'
  obtain ⟨s3, base, hl, o3, hp3, hpo3, hhl, hbase, hx⟩ := xlat64_error (g := g) hv h hh (fun _ e => by rw [hpi] at e; cases e) hw hi hfh h1 htcp
  have hpl := hh.frame.length
  obtain ⟨i1, i2, _, _, hiH⟩ := Pkt.summarize6_meta I.sum
  have hipay := I.pay
  have hien : Enough i.proto (i.pay - i.l4) := by
    rw [I.first] at hiH
    unfold HdrEnd at hiH
    simp only [if_true] at hiH
    cases hp : i.proto <;> rw [hp] at hiH <;> simp only at hiH
    · have := htcp hp
      simp only [Enough]; omega
    · simp only [Enough]; omega
    · simp only [Enough]; omega
    · simp only [Enough]; omega
  have hsl := slice_length (bs := a.skb.data) (i := i.l4) (j := i.pay) (by omega) (by omega)
  have hI : (g.vals 1).l3 none ++ (l4New (g.vals 1) i.proto (slice a.skb.data i.l4 i.pay) ++ a.skb.data.drop i.pay) = inside64 (g.vals 1) a.skb.data i := by
    rw [l4New_spec hw _ (by rw [hsl]; exact hien)]
    rfl
  have h20 := hv.l3 none
  have h8 := hv.icmp
  generalize hR : inside64 (g.vals 1) a.skb.data i = R at *
  have hRl : R.length ≤ a.skb.data.length - 48 := by
    rw [← hI, List.length_append, List.length_append, hw.l3, l4New_len hw (by rw [hsl]; exact hien), hsl, List.length_drop]
    omega
  have hE : error64 (g.vals 0) (g.vals 1) a.skb.data i = ip64 (g.vals 0) (28 + R.length) true ++ ((g.vals 0).icmp ++ R) := by
    unfold error64 packet4
    rw [hI, ip64_first hv, List.length_append, h20, h8]
    congr 2
    omega
  have hD : (error64 (g.vals 0) (g.vals 1) a.skb.data i).drop 28 = R := by
    rw [hE, ← List.append_assoc]
    exact List.drop_left' (by rw [List.length_append, ip64_length hv, h8])
  have hT : (error64 (g.vals 0) (g.vals 1) a.skb.data i).take 28 = ip64 (g.vals 0) (28 + R.length) true ++ (g.vals 0).icmp := by
    rw [hE, ← List.append_assoc]
    exact List.take_left' (by rw [List.length_append, ip64_length hv, h8])
  have fi := hh.frame
  rw [← hp3] at fi
  have hpp : s3.pin.skb.th = p.skb.data + a.m.l4 := by rw [hp3]; exact hh.th
  have hpp2 : s3.pin.skb.data = p.skb.data := by rw [hp3]
  rw [hpp2] at fi
  have hpip : s3.pin.pay = a.m.pay := by rw [hp3]; exact hh.pay
  have hOk : IcmpExt.Args.Ok ⟨576, 2, false⟩ 28 := by unfold IcmpExt.Args.Ok; decide
  have G := IcmpExt.good_of (a := ⟨576, 2, false⟩) (ohl := 28) hOk (ipl := ipl) (inPay := a.skb.data.drop a.m.pay) (old := R) hext (by omega) (by rw [List.length_drop]; omega)
  refine ⟨_, G, ?_⟩
  -- the last write
  have last : ∀ {s' : S} {bo ho : Nat} {n : Nat} {same : Bool} {f : Option Nat} {l : List Byte},
      finish64 g (g.vals 0) s3 = .ok (some s') → s'.pin = p → 28 ≤ ho → (p.skb.data ≤ bo ∨ bo = g.ll) →
      Outgoing s'.pout bo ho (ip64 (g.vals 0) (28 + n) same ++ ((match f with
        | some f => patch (g.vals 0).icmp 5 [BitVec.ofNat 8 f]
        | none => (g.vals 0).icmp) ++ l)) 20 →
      ∃ s, xlat64 g p = .ok (some s) ∧ s.pin = p ∧ (p.skb.data ≤ s.pout.skb.data ∨ s.pout.skb.data = g.ll) ∧ Is s.pout (head64 (g.vals 0) n same f ++ l) 20 := by
    intro s' bo ho n same f l e hp' hho hb o
    obtain ⟨m, w, o2⟩ := o.write (pos := s'.pout.skb.th + 2) (off := 22) (l := (g.vals 0).sum) (by rw [o.th]) (by rw [hv.sum]; omega)
    rw [hx, e, ok_bind]
    simp only
    rw [w, ok_bind]
    have hic : (match f with
        | some f => patch (g.vals 0).icmp 5 [BitVec.ofNat 8 f]
        | none => (g.vals 0).icmp).length = 8 := by
      cases f
      · exact h8
      · exact (patch_length (by rw [List.length_singleton]; omega)).trans h8
    rw [patch_mid (k := 2) (ip64_length hv _ _) rfl (by rw [hv.sum, hic]; omega), head64_spec hv] at o2
    exact ⟨_, rfl, hp', by rw [show (s'.outMem m).pout.skb.data = bo from o2.data]; exact hb, o2.is⟩
  cases hhs : has
  · -- no length field
    have hnl : ¬ hasLen (at8 a.skb.data a.m.l4) := fun x => by
      have := hhas.2 x
      rw [hhs] at this
      cases this
    rw [hhs] at hipl
    simp only [Bool.false_eq_true, if_false] at hipl
    obtain ⟨s', ho', e, o, hp', hho⟩ := finish64_plain (g := g) hv fi hpp o3 (by omega) (by omega) (by omega) (by omega) hnl
    have hcut := cut64 hv (N := 28 + R.length) (by omega) (l := R) h8 (by omega) (Or.inl rfl)
    rw [ip64_updated hv (by omega), List.length_append, h8, if_pos (by omega), ← hE] at hcut
    rw [hcut] at o
    rw [IcmpExt.handle_none (Or.inl hipl)]
    have := last (f := none) e (hp'.trans hp3) (by omega) (Or.inl hbase) o
    show ∃ s, xlat64 g p = .ok (some s) ∧ s.pin = p ∧ _ ∧ Is s.pout (head64 (g.vals 0) (R.take (576 - 28)).length _ none ++ R.take (576 - 28)) 20
    have ed : decide (28 + R.length = 28 + (R.take 548).length) = decide ((R.take 548).length = R.length) := by
      apply decide_eq_decide.2
      omega
    rw [ed] at this
    exact this
  · have hl : hasLen (at8 a.skb.data a.m.l4) := hhas.1 hhs
    rw [hhs] at hipl
    simp only [if_true] at hipl
    have hm := finish64_ok (g := g) hv fi hpp2 hpp o3 (by omega) (by omega) (by omega) (by omega) (by omega) hl
    rw [hpo3, hD, hpip, ← hipl] at hm
    cases hr : IcmpExt.handle ⟨576, 2, false⟩ ipl (a.skb.data.drop a.m.pay) 28 R with
    | drop =>
      rw [hr] at hm
      simp only at hm
      show xlat64 g p = _
      rw [hx, hm, ok_bind]
    | ub =>
      rw [hr] at G
      exact nomatch G
    | ok l f =>
      rw [hr] at hm
      obtain ⟨s', bo, ho, e, o, hp', hho, hbo⟩ := hm
      have hsh := handle_short hOk hext (by omega) (by rw [List.length_drop]; omega) hr
      have hle2 : l = R ∨ l.length ≤ 548 := hsh
      have hl2 : l.length < 65508 := by
        rcases hle2 with rfl | x
        · omega
        · omega
      have hN2 : 28 + R.length = 28 + l.length ∨ l.length ≤ 548 := hle2.imp (fun x => by rw [x]) id
      have hcut := cut64 hv (N := 28 + R.length) (by omega) (ic := patch (g.vals 0).icmp 5 [BitVec.ofNat 8 f]) (l := l)
        (by rw [patch_length (by rw [List.length_singleton]; omega), h8]) hl2 hN2
      have hend : ended64 (g.vals 0) (error64 (g.vals 0) (g.vals 1) a.skb.data i) 28 20 l f =
          ip64 (g.vals 0) (28 + (l.take 548).length) (decide (28 + R.length = 28 + (l.take 548).length)) ++ (patch (g.vals 0).icmp 5 [BitVec.ofNat 8 f] ++ l.take 548) := by
        unfold ended64
        rw [hT, List.append_assoc, patch_mid (k := 5) (ip64_length hv _ _) rfl (by rw [List.length_singleton]; omega), hcut]
      rw [hend] at o
      have := last (f := some f) e (hp'.trans hp3) (by omega) (hbo.imp (fun x => by rw [x]; exact hbase) id) o
      show ∃ s, xlat64 g p = .ok (some s) ∧ s.pin = p ∧ _ ∧ Is s.pout (head64 (g.vals 0) (l.take (576 - 28)).length _ (some (f % 256)) ++ l.take (576 - 28)) 20
      have ed : decide (28 + R.length = 28 + (l.take 548).length) = decide ((l.take 548).length = R.length) := by
        apply decide_eq_decide.2
        omega
      rw [ed] at this
      have ef : ∀ n b, head64 (g.vals 0) n b (some (f % 256)) = head64 (g.vals 0) n b (some f) := by
        intro n b
        unfold head64
        simp only [ofNat8_mod]
      rw [ef]
      exact this

/-! ## Several outgoing packets -/

/-- The fragments that carry the pieces `cs`: each of them has the IPv6 header (with its own length) and the fragment header (`v.frag` with its own offset, and with
"more fragments" unless it is the last one of a packet that had none). `off`: in bytes. -/
def fragments (v : Vals) (more : Bool) : Nat → List (List Byte) → List (List Byte)
  | _, [] => []
  | off, c :: cs =>
    ipv6 (v.l3 none ++ (v.frag.take 2 ++ two (off + if cs.isEmpty && !more then 0 else 1) ++ v.frag.drop 4)) c :: fragments v more (off + c.length) cs

theorem two_mod (n : Nat) : two (n % 65536) = two n := by
  have e1 : BitVec.ofNat 8 (n % 65536 / 256) = BitVec.ofNat 8 (n / 256) := by
    apply BitVec.eq_of_toNat_eq
    simp only [BitVec.toNat_ofNat]; omega
  have e2 : BitVec.ofNat 8 (n % 65536) = BitVec.ofNat 8 n := by
    apply BitVec.eq_of_toNat_eq
    simp only [BitVec.toNat_ofNat]; omega
  unfold two
  rw [e1, e2]

theorem field_or {x : BitVec 16} {off : Nat} (h : x = BitVec.ofNat 16 off) (h8 : off % 8 = 0) (b : Bool) :
    two ((x &&& 0xfff8#16) ||| (if b = true then 1#16 else 0#16)).toNat = two (off + if b = true then 1 else 0) := by
  have ha := Hdr.and_fff8 x
  have hx : x.toNat = off % 65536 := by rw [h, BitVec.toNat_ofNat]
  have hx8 : x.toNat / 8 * 8 = x.toNat := by omega
  rw [hx8] at ha
  have hs : (x &&& 0xfff8#16) = x := BitVec.eq_of_toNat_eq ha
  rw [hs]
  cases b
  · simp only [Bool.false_eq_true, if_false, BitVec.or_zero, Nat.add_zero]
    rw [hx, two_mod]
  · simp only [if_true]
    rw [BitVec.toNat_or]
    have e : x.toNat ||| (1#16).toNat = x.toNat + 1 := by
      have := Hdr.or_add 1 (x.toNat / 2) 1 (by omega)
      have hh : x.toNat / 2 * 2 ^ 1 = x.toNat := by omega
      rw [hh] at this
      exact this
    rw [e, hx, ← two_mod (off + 1)]
    congr 1
    omega

theorem patch_frag {l3 fr x y : List Byte} (h3 : l3.length = 40) (hf : fr.length = 8) (hx : x.length = 2) (hy : y.length = 2) (z : List Byte) (hz : z.length = 2) (w : List Byte) (hw : w.length = 2) :
    patch (patch (patch (patch (l3 ++ fr) 4 z) 42 w) 4 x) 42 y = l3.take 4 ++ (x ++ (l3.drop 6 ++ (fr.take 2 ++ (y ++ fr.drop 4)))) := by
  have hl : ∀ q : List Byte, q.length = 2 → (patch l3 4 q).length = 40 := fun q hq => by rw [patch_length (by omega), h3]
  have hl2 : ∀ q : List Byte, q.length = 2 → (patch fr 2 q).length = 8 := fun q hq => by rw [patch_length (by omega), hf]
  rw [patch_left (by omega), patch_right (k := 2) (by rw [hl z hz]), patch_left (by rw [hl z hz]; omega), patch_right (k := 2) (by rw [patch_again (by omega) (by omega), hl x hx]),
    patch_again (by omega) (by omega), patch_again (by omega) (by omega)]
  unfold patch
  rw [hx, hy]
  simp only [List.append_assoc]

theorem fills_spec {v : Vals} (hv : v.Sized 40) {z w : List Byte} (hz : z.length = 2) (hw : w.length = 2) {mf : Bool} {per : Nat} (h8 : per % 8 = 0) :
    ∀ (cs : List (List Byte)) (x : BitVec 16) (off : Nat), x = BitVec.ofNat 16 off → off % 8 = 0 → (∀ c ∈ cs.dropLast, c.length = per) →
      fills (patch (patch (v.l3 none ++ v.frag) 4 z) 42 w) mf x cs = fragments v mf off cs
  | [], _, _, _, _, _ => rfl
  | c :: cs, x, off, hx, ho, hc => by
    unfold fills fragments
    have h3 := hv.l3 none
    have hf := hv.frag
    congr 1
    · have := field_or hx ho (!cs.isEmpty || mf)
      have e : (if (cs.isEmpty && !mf) = true then 0 else 1) = (if (!cs.isEmpty || mf) = true then 1 else 0 : Nat) := by
        cases cs.isEmpty <;> cases mf <;> rfl
      rw [e, ← this]
      rw [patch_frag h3 hf (be16_length _) (be16_length _) z hz w hw]
      unfold ipv6
      have hlen : (v.l3 none ++ (v.frag.take 2 ++ two ((x &&& 0xfff8#16) ||| (if (!cs.isEmpty || mf) = true then 1#16 else 0#16)).toNat ++ v.frag.drop 4)).length + c.length - 40 = c.length + 8 := by
        simp only [List.length_append, List.length_take, List.length_drop, h3, hf]
        show 40 + (min 2 8 + 2 + (8 - 4)) + c.length - 40 = _
        omega
      rw [hlen, List.take_append_of_le_length (by omega), List.drop_append_of_le_length (by omega)]
      simp only [List.append_assoc]
      rfl
    · cases cs with
      | nil => rfl
      | cons d cs =>
        have hcl : c.length = per := hc c (by rw [List.dropLast_cons_cons]; exact List.mem_cons_self)
        apply fills_spec hv hz hw h8 (d :: cs)
        · rw [hx]
          apply BitVec.eq_of_toNat_eq
          simp
        · omega
        · intro y hy
          exact hc y (by rw [List.dropLast_cons_cons]; exact List.mem_cons_of_mem _ hy)

/-- **C76.** 4 to 6, several packets: the rest of the packet (its transport header translated, as if there was only one outgoing packet) is cut in pieces which are as long as they may be
and a multiple of 8 bytes; the fragments carry them in order; the incoming packet is not touched, and there is as much room before every fragment. -/
theorem slow46_partial {g : Given} {p : P} {a : Acc} {s0 : Pkt.Skb} (hv : (g.vals 0).Sized 40) (h : Pkt.init4 s0 = some a) (hh : Holds p a)
    (hihl : 20 ≤ ihl4 a.skb.data 0) (htcp : first4 a.skb.data 0 = true → a.m.proto = L4.tcp → 20 ≤ tcpLen a.skb.data a.m.l4) (hi : a.inner = none)
    {mpl : Nat} (hmpl : 1280 ≤ mpl) (hbig : (mpl - 48) / 8 * 8 < a.skb.data.length - a.m.l4) (hres : at16 (g.vals 0).frag 2 / 2 % 4 = 0) :
    ∃ s bl cs, xlat46Slow g mpl p = .ok (some (s, bl)) ∧ s.pin = p ∧ (∀ b ∈ s.pout.skb :: bl, b.data = p.skb.data) ∧
      (s.pout.skb :: bl).map Buf.bytes = fragments (g.vals 0) (decide (at16 (g.vals 0).frag 2 % 2 = 1)) (at16 (g.vals 0).frag 2 / 8 * 8) cs ∧
      cs.flatten = behind (g.vals 0) (first4 a.skb.data 0) a.skb.data a.m ∧ (∀ c ∈ cs, c ≠ [] ∧ 48 + c.length ≤ mpl) ∧
      (∀ c ∈ cs.dropLast, c.length % 8 = 0 ∧ mpl < 48 + c.length + 8) ∧ 2 ≤ cs.length := by
  generalize hper : (mpl - 48) / 8 * 8 = per at *
  have hper2 : 1232 ≤ per := by omega
  obtain ⟨s, bl, e, hp, hb, hd⟩ := xlat46_slow hv h hh hihl htcp hi hmpl hper.symm hbig
  obtain ⟨hle, hen⟩ := accepted4_hdr h htcp
  have A := Pkt.init4_ok h
  have hpay := A.pay
  have hpl := hh.frame.length
  have hR : rest46 (g.vals 0) a.skb.data a.m = behind (g.vals 0) (first4 a.skb.data 0) a.skb.data a.m := by
    unfold rest46 behind
    congr 1
    by_cases hf : first4 a.skb.data 0 = true
    · rw [if_pos hf, if_pos hf]
      exact l4New_spec hv _ (by rw [slice_length hle (by omega)]; exact hen hf)
    · rw [if_neg hf, if_neg hf]
  have hRl : per < (rest46 (g.vals 0) a.skb.data a.m).length := by
    unfold rest46
    rw [List.length_append, List.length_drop]
    by_cases hf : first4 a.skb.data 0 = true
    · rw [if_pos hf, l4New_len hv (by rw [slice_length hle (by omega)]; exact hen hf), slice_length hle (by omega)]
      omega
    · have hd := A.hdr
      rw [← A.data] at hd
      unfold HdrEnd at hd
      rw [if_neg hf] at hd
      rw [if_neg hf]
      simp only [List.length_nil]
      omega
  rw [← hR]
  generalize rest46 (g.vals 0) a.skb.data a.m = R at *
  have hch : Hdr.chunks per R = R.take per :: Hdr.chunks per (R.drop per) := by rw [Hdr.chunks, dif_pos ⟨by omega, hRl⟩]
  have hdl := Hdr.chunks_dropLast per R
  refine ⟨s, bl, Hdr.chunks per R, e, hp, hd, ?_, Hdr.chunks_flatten per R, ?_, ?_, ?_⟩
  · rw [hb, hch]
    rw [hch] at hdl
    have hne : ∃ d ds, Hdr.chunks per (R.drop per) = d :: ds := by
      obtain ⟨x, y, zs, hz⟩ := Hdr.chunks_two per (by omega) R hRl
      rw [hch] at hz
      injection hz with _ hz
      exact ⟨y, zs, hz⟩
    obtain ⟨d, ds, hds⟩ := hne
    rw [hds] at hdl ⊢
    rw [List.dropLast_cons_cons] at hdl
    have hfo := (show at16 (g.vals 0).frag 2 < 65536 by unfold at16; have := (at8 (g.vals 0).frag 2).isLt; have := (at8 (g.vals 0).frag (2 + 1)).isLt; omega)
    generalize hf : at16 (g.vals 0).frag 2 = fo at *
    have hbn : (BitVec.ofNat 16 fo).toNat = fo := by rw [BitVec.toNat_ofNat]; omega
    have h1 : ((BitVec.ofNat 16 fo &&& 1#16) != 0#16) = decide (fo % 2 = 1) := by
      have ht : (BitVec.ofNat 16 fo &&& 1#16).toNat = fo % 2 := by
        rw [BitVec.toNat_and, hbn]
        exact Nat.and_one_is_mod fo
      by_cases c : fo % 2 = 1
      · rw [decide_eq_true c, bne_iff_ne]
        intro h0
        rw [h0] at ht
        simp at ht
        omega
      · rw [decide_eq_false c]
        have : BitVec.ofNat 16 fo &&& 1#16 = 0#16 := BitVec.eq_of_toNat_eq (by rw [ht]; simp; omega)
        rw [this]; rfl
    unfold slow46
    simp only [hf, hds, h1]
    unfold fragments
    have htk : (R.take per).length = per := by rw [List.length_take]; omega
    congr 1
    · have hor : be16 (BitVec.ofNat 16 fo ||| 1#16).toNat = two (fo / 8 * 8 + 1) := by
        rw [BitVec.toNat_or, hbn]
        have := Hdr.or_add 1 (fo / 2) 1 (by omega)
        have h2 : fo ||| 1 = fo / 8 * 8 + 1 := by
          by_cases c : fo % 2 = 0
          · have e : fo / 2 * 2 ^ 1 = fo := by omega
            rw [e] at this
            omega
          · have e : fo / 2 * 2 ^ 1 = fo - 1 := by omega
            have h3 : fo = (fo / 2 * 2 ^ 1) ||| 1 := by rw [this]; omega
            have h4 : fo ||| 1 = fo := by
              conv => lhs; rw [h3]
              rw [Nat.or_assoc, Nat.or_self, ← h3]
            omega
        show be16 (fo ||| 1) = _
        rw [h2]; rfl
      rw [hor]
      have h3 := hv.l3 none
      have hfl := hv.frag
      rw [patch_left (by rw [be16_length]; omega), patch_right (k := 2) (by rw [patch_length (by rw [be16_length]; omega)]; omega)]
      unfold patch ipv6
      have hlen : ((g.vals 0).l3 none ++ ((g.vals 0).frag.take 2 ++ two (fo / 8 * 8 + 1) ++ (g.vals 0).frag.drop 4)).length + (R.take per).length - 40 = per + 8 := by
        simp only [List.length_append, List.length_take, List.length_drop, h3, hfl]
        show 40 + (min 2 8 + 2 + (8 - 4)) + min per R.length - 40 = _
        omega
      simp only [List.isEmpty_cons, Bool.false_and, Bool.false_eq_true, if_false]
      rw [hlen, List.take_append_of_le_length (by omega), List.drop_append_of_le_length (by omega)]
      simp only [List.append_assoc]
      rfl
    · apply fills_spec hv (be16_length _) (be16_length _) (per := per) (by omega)
      · rw [htk]
        apply BitVec.eq_of_toNat_eq
        rw [BitVec.toNat_add, Hdr.and_fff8, hbn]
        simp
      · omega
      · intro y hy
        exact hdl y (List.mem_cons_of_mem _ hy)
  · intro c hc
    have := Hdr.chunks_le per (by omega) R c hc
    exact ⟨Hdr.chunks_ne per R c hc, by omega⟩
  · intro c hc
    have := hdl c hc
    omega
  · obtain ⟨x, y, zs, hz⟩ := Hdr.chunks_two per (by omega) R hRl
    rw [hz]
    simp

/-! ## Examples -/

/-- Some values. -/
def someVals (n : Nat) : Vals :=
  ⟨fun _ => List.replicate n 0xee#8, [17#8, 0#8, 0#8, 0#8, 1#8, 2#8, 3#8, 4#8], some [1#8, 2#8, 3#8, 4#8], [5#8, 6#8], [7#8, 8#8], List.replicate 8 0xcc#8, [9#8, 10#8], [11#8, 12#8]⟩

def someGiven (n : Nat) : Given := ⟨⟨fun _ => 0xaa#8, 0⟩, fun _ => someVals n, false, 16⟩

theorem someVals_sized (n : Nat) : (someVals n).Sized n :=
  ⟨fun _ => List.length_replicate, rfl, fun l h => by cases h; rfl, rfl, rfl, List.length_replicate, rfl, rfl⟩

/-- An accepted packet in memory, with `room` bytes before it and none behind it. -/
def place (a : Acc) (room : Nat) : P :=
  ⟨⟨List.replicate room 0#8 ++ a.skb.data.take a.skb.linear, room, room + a.skb.linear, a.skb.data.drop a.skb.linear, room, room + a.m.l4⟩, a.m.proto, false, a.m.fh, a.m.pay⟩

theorem place_holds {a : Acc} (room : Nat) (h : a.skb.linear ≤ a.skb.data.length) : Holds (place a room) a where
  room := by
    show room + a.skb.linear ≤ (List.replicate room 0#8 ++ a.skb.data.take a.skb.linear).length
    rw [List.length_append, List.length_replicate, List.length_take]; omega
  order := Nat.le_add_right _ _
  linear := Nat.add_sub_cancel_left ..
  bytes := by
    show (List.drop room (List.replicate room 0#8 ++ a.skb.data.take a.skb.linear)).take (room + a.skb.linear - room) ++ a.skb.data.drop a.skb.linear = _
    rw [List.drop_left' List.length_replicate, Nat.add_sub_cancel_left, List.take_of_length_le (by rw [List.length_take]; omega), List.take_append_drop]
  nh := rfl
  th := rfl
  proto := rfl
  inner := rfl
  frag := rfl
  pay := rfl

/-- The result of the validation, if there is one. -/
def got (o : Option Acc) : Acc := o.getD ⟨⟨[], 0⟩, ⟨0, L4.other, 0, 0⟩, none⟩

/-- A UDP packet over IPv4, the payload of which is in a page. -/
def udp4 : Pkt.Skb := ⟨Pkt.hdr4 32 17#8 ++ List.replicate 12 7#8, 28⟩

/-- `fast46_partial` applies to it. -/
example : ∃ s, xlat46 (someGiven 40) (place (got (Pkt.init4 udp4)) 16) = .ok (some s) ∧ s.pin = place (got (Pkt.init4 udp4)) 16 ∧ 16 ≤ s.pout.skb.data ∧
    Is s.pout (List.replicate 4 0xee#8 ++ [0#8, 12#8] ++ List.replicate 34 0xee#8 ++ [1#8, 2#8, 3#8, 4#8, 7#8, 7#8, 7#8, 8#8] ++ [7#8, 7#8, 7#8, 7#8]) 40 := by
  have h : Pkt.init4 udp4 = some (got (Pkt.init4 udp4)) := by decide +kernel
  obtain ⟨s, h1, h2, h3, h4⟩ := fast46_partial (g := someGiven 40) (someVals_sized 40) h (place_holds 16 (by decide +kernel)) (by decide +kernel)
    (fun _ e => absurd e (by decide +kernel)) (by decide +kernel)
  refine ⟨s, h1, h2, h3, ?_⟩
  have e : ipv6 (above46 ((someGiven 40).vals 0) (fragmented4 (got (Pkt.init4 udp4)).skb.data 0))
      (behind ((someGiven 40).vals 0) (first4 (got (Pkt.init4 udp4)).skb.data 0) (got (Pkt.init4 udp4)).skb.data (got (Pkt.init4 udp4)).m) =
      List.replicate 4 0xee#8 ++ [0#8, 12#8] ++ List.replicate 34 0xee#8 ++ [1#8, 2#8, 3#8, 4#8, 7#8, 7#8, 7#8, 8#8] ++ [7#8, 7#8, 7#8, 7#8] := by decide +kernel
  rw [e] at h4
  exact h4

/-- `fast64_partial` applies to a UDP packet over IPv6 with an extension header. -/
example : ∃ s, xlat64 (someGiven 20) (place (got (Pkt.init6 Pkt.sample6)) 16) = .ok (some s) ∧
    Is s.pout (List.replicate 2 0xee#8 ++ [0#8, 36#8] ++ List.replicate 16 0xee#8 ++ [1#8, 2#8, 3#8, 4#8, 7#8, 7#8, 7#8, 8#8] ++ List.replicate 8 7#8) 20 := by
  have h : Pkt.init6 Pkt.sample6 = some (got (Pkt.init6 Pkt.sample6)) := by decide +kernel
  obtain ⟨s, h1, _, _, h4⟩ := fast64_partial (g := someGiven 20) (someVals_sized 20) h (place_holds 16 (by decide +kernel))
    (fun _ e => absurd e (by decide +kernel)) (by decide +kernel)
  refine ⟨s, h1, ?_⟩
  have e : ipv4 (((someGiven 20).vals 0).l3 (if (got (Pkt.init6 Pkt.sample6)).m.fh = 0 then none
        else some (((got (Pkt.init6 Pkt.sample6)).skb.data.drop (got (Pkt.init6 Pkt.sample6)).m.fh).take 8)))
      (behind ((someGiven 20).vals 0) (isFirst6 (got (Pkt.init6 Pkt.sample6)).skb.data (got (Pkt.init6 Pkt.sample6)).m) (got (Pkt.init6 Pkt.sample6)).skb.data
        (got (Pkt.init6 Pkt.sample6)).m) =
      List.replicate 2 0xee#8 ++ [0#8, 36#8] ++ List.replicate 16 0xee#8 ++ [1#8, 2#8, 3#8, 4#8, 7#8, 7#8, 7#8, 8#8] ++ List.replicate 8 7#8 := by decide +kernel
  rw [e] at h4
  exact h4

/-- The hypotheses of `error46_partial` hold of an error with a UDP packet. -/
example : ∃ a i, Pkt.init4 Pkt.sample4 = some a ∧ Holds (place a 16) a ∧ 20 ≤ ihl4 a.skb.data 0 ∧ a.inner = some i ∧ at8 a.skb.data (a.m.pay + 9) ≠ 58#8 ∧
    i.proto = L4.udp ∧ a.skb.data.length ≤ 65535 ∧ (at8 a.skb.data (a.m.l4 + 5)).toNat * 4 = 0 :=
  ⟨got (Pkt.init4 Pkt.sample4), ⟨0, L4.udp, 48, 56⟩, by decide +kernel, place_holds 16 (by decide +kernel), by decide +kernel, by decide +kernel, by decide +kernel, rfl,
    by decide +kernel, by decide +kernel⟩

/-- An ICMPv6 error with a UDP packet: the hypotheses of `error64_partial`. -/
def error6 : Pkt.Skb := ⟨Pkt.hdr6 56 58#8 ++ [1#8, 4#8, 0#8, 0#8, 0#8, 0#8, 0#8, 0#8] ++ Pkt.hdr6 100 17#8 ++ List.replicate 8 7#8, 96⟩

example : ∃ a i, Pkt.init6 error6 = some a ∧ Holds (place a 16) a ∧ a.inner = some i ∧ a.m.fh = 0 ∧ Pkt.last6 a.skb a.m.pay = some (17#8, 88) ∧ i.proto = L4.udp ∧
    a.skb.data.length ≤ 65535 :=
  ⟨got (Pkt.init6 error6), ⟨0, L4.udp, 88, 96⟩, by decide +kernel, place_holds 16 (by decide +kernel), by decide +kernel, by decide +kernel, by decide +kernel, rfl,
    by decide +kernel⟩

/-- A packet that has to be fragmented: the hypotheses of `slow46_partial`. -/
def big4 : Pkt.Skb := ⟨Pkt.hdr4 1428 17#8 ++ List.replicate 1408 7#8, 28⟩

example : ∃ a, Pkt.init4 big4 = some a ∧ Holds (place a 16) a ∧ 20 ≤ ihl4 a.skb.data 0 ∧ a.m.proto = L4.udp ∧ a.inner = none ∧
    (1280 - 48) / 8 * 8 < a.skb.data.length - a.m.l4 ∧ at16 ((someGiven 40).vals 0).frag 2 / 2 % 4 = 0 :=
  ⟨got (Pkt.init4 big4), by decide +kernel, place_holds 16 (by decide +kernel), by decide +kernel, by decide +kernel, by decide +kernel, by decide +kernel, by decide +kernel⟩

/-! ## Where it does not hold -/

/-- The translation accesses memory outside of the packet. -/
def Bad46 (s : Pkt.Skb) : Prop := ∃ a, Pkt.init4 s = some a ∧ Holds (place a 16) a ∧ xlat46 (someGiven 40) (place a 16) = .ub .outOfBounds
def Bad64 (s : Pkt.Skb) : Prop := ∃ a, Pkt.init6 s = some a ∧ Holds (place a 16) a ∧ xlat64 (someGiven 20) (place a 16) = .ub .outOfBounds

/-- **C76, defect.** An ICMPv4 error with a packet of protocol 58 and nothing else: the validation does not ask for a header behind it, the translator writes one. -/
theorem inner58_overflow : Bad46 ⟨Pkt.hdr4 48 1#8 ++ [3#8, 3#8, 0#8, 0#8, 0#8, 0#8, 0#8, 0#8] ++ Pkt.hdr4 100 58#8, 20⟩ :=
  ⟨got (Pkt.init4 ⟨Pkt.hdr4 48 1#8 ++ [3#8, 3#8, 0#8, 0#8, 0#8, 0#8, 0#8, 0#8] ++ Pkt.hdr4 100 58#8, 20⟩), by decide +kernel, place_holds 16 (by decide +kernel), by decide +kernel⟩

/-- **C76, defect.** An ICMPv6 error with a packet of next header 1. -/
theorem inner1_overflow : Bad64 ⟨Pkt.hdr6 48 58#8 ++ [1#8, 0#8, 0#8, 0#8, 0#8, 0#8, 0#8, 0#8] ++ Pkt.hdr6 100 1#8, 40⟩ :=
  ⟨got (Pkt.init6 ⟨Pkt.hdr6 48 58#8 ++ [1#8, 0#8, 0#8, 0#8, 0#8, 0#8, 0#8, 0#8] ++ Pkt.hdr6 100 1#8, 40⟩), by decide +kernel, place_holds 16 (by decide +kernel), by decide +kernel⟩

/-- **C76, defect.** A TCP header with data offset zero, in a page: only the bytes that it says are moved to the linear area, and the translator writes 18 bytes. -/
theorem tcp_offset_overflow : Bad46 ⟨Pkt.hdr4 40 6#8 ++ List.replicate 20 0#8, 20⟩ :=
  ⟨got (Pkt.init4 ⟨Pkt.hdr4 40 6#8 ++ List.replicate 20 0#8, 20⟩), by decide +kernel, place_holds 16 (by decide +kernel), by decide +kernel⟩

/-- **C76, defect.** An ICMPv4 error inside of an ICMPv4 error: another IPv6 header is written, for which there is no room. -/
theorem nested_overflow : Bad46 Pkt.nested4 :=
  ⟨got (Pkt.init4 Pkt.nested4), by decide +kernel, place_holds 16 (by decide +kernel), by decide +kernel⟩

/-- An ICMPv6 error that has a fragment header of its own, although it is not a fragment; behind the packet inside there is nothing. -/
def atomic6 (nh : Byte) (rest : List Byte) : Pkt.Skb :=
  ⟨Pkt.hdr6 (56 + rest.length) 44#8 ++ [58#8, 0#8, 0#8, 0#8, 0#8, 0#8, 0#8, 0#8] ++ [1#8, 0#8, 0#8, 0#8, 0#8, 0#8, 0#8, 0#8] ++ Pkt.hdr6 100 nh ++ rest, 40⟩

/-- **C76, defect.** The translator looks for the fragment header of the packet inside as far from its start as the one of the error is from the start of the error. Here that is
outside of the packet. -/
theorem fragment_header_overread : Bad64 (atomic6 59#8 []) :=
  ⟨got (Pkt.init6 (atomic6 59#8 [])), by decide +kernel, place_holds 16 (by decide +kernel), by decide +kernel⟩

/-- The same, but the values show what was read. -/
def showing : Given := { someGiven 20 with vals := fun _ => { someVals 20 with l3 := fun f => List.replicate 12 0#8 ++ f.getD (List.replicate 8 0#8) } }

/-- **C76, defect.** And here it is the UDP header of the packet inside. -/
theorem fragment_header_misread : ∃ a s, Pkt.init6 (atomic6 17#8 (List.replicate 8 7#8)) = some a ∧ Holds (place a 16) a ∧ xlat64 showing (place a 16) = .ok (some s) ∧
    (s.pout.skb.bytes.drop 40).take 8 = List.replicate 8 7#8 := by
  have h : Pkt.init6 (atomic6 17#8 (List.replicate 8 7#8)) = some (got (Pkt.init6 (atomic6 17#8 (List.replicate 8 7#8)))) := by decide +kernel
  have h2 : (match xlat64 showing (place (got (Pkt.init6 (atomic6 17#8 (List.replicate 8 7#8)))) 16) with
    | .ok (some s) => decide ((s.pout.skb.bytes.drop 40).take 8 = List.replicate 8 7#8)
    | _ => false) = true := by decide +kernel
  split at h2
  · rename_i s e
    exact ⟨_, s, h, place_holds 16 (by decide +kernel), e, of_decide_eq_true h2⟩
  · cases h2

end Jool.Build
