import Verif.Lemmas.BuildBasic
/-
What the functions of the transport headers write.
-/
namespace Jool.Build
open Jool.Pkt (Byte L4 at8 at16 ihl4 fragmented4 first4)

theorem patch_patch {l a b : List Byte} {off j : Nat} (h : off + a.length ≤ l.length) (hj : j + b.length ≤ a.length) :
    patch (patch l off a) (off + j) b = patch l off (patch a j b) := by
  have h1 : patch (patch l off a) (off + j) b = patch (l.take off ++ (a ++ l.drop (off + a.length))) (off + j) b := by
    conv => lhs; arg 1; unfold patch
    rw [List.append_assoc]
  rw [h1, patch_right (k := j) (by rw [List.length_take]; omega), patch_left hj]
  have h2 : patch l off (patch a j b) = l.take off ++ patch a j b ++ l.drop (off + (patch a j b).length) := rfl
  rw [h2, patch_length hj, List.append_assoc]

theorem patch_nil (l : List Byte) (off : Nat) : patch l off [] = l := by
  unfold patch; simp

/-- Only the memory of the outgoing packet. -/
def S.outMem (s : S) (m : List Byte) : S := { s with pout := { s.pout with skb := { s.pout.skb with mem := m } } }

theorem writeOut_mem {s : S} {base hl : Nat} {bs : List Byte} (f : Frame s.pout.skb base hl bs) {pos off : Nat} {l : List Byte} (hp : pos = base + off)
    (h : off + l.length ≤ hl) :
    ∃ m, writeOut s pos l = .ok (s.outMem m) ∧ Frame (s.outMem m).pout.skb base hl (patch bs off l) := writeOut_ok f hp h

/-- The lengths of the values. -/
structure Vals.Sized (v : Vals) (l3 : Nat) : Prop where
  l3 : ∀ f, (v.l3 f).length = l3
  frag : v.frag.length = 8
  ports : ∀ l, v.ports = some l → l.length = 4
  tcp : v.tcp.length = 2
  udp : v.udp.length = 2
  icmp : v.icmp.length = 8
  sum : v.sum.length = 2
  ipsum : v.ipsum.length = 2

/-- The ports of a transport header. -/
def portsNew (v : Vals) (h : List Byte) : List Byte := match v.ports with
  | none => h
  | some l => patch h 0 l

/-- The transport header that becomes of `h`. -/
def l4New (v : Vals) (proto : L4) (h : List Byte) : List Byte := match proto with
  | L4.tcp => patch (portsNew v h) 16 v.tcp
  | L4.udp => patch (portsNew v h) 6 v.udp
  | L4.icmp => v.icmp
  | L4.other => []

theorem portsNew_length {v : Vals} {k : Nat} (hv : v.Sized k) {h : List Byte} (hh : 4 ≤ h.length) : (portsNew v h).length = h.length := by
  unfold portsNew
  split
  · rfl
  · rename_i l e
    exact patch_length (by have := hv.ports l e; omega)

theorem l4New_length {v : Vals} {k : Nat} (hv : v.Sized k) {proto : L4} {h : List Byte} (ht : proto = L4.tcp → 20 ≤ h.length)
    (hu : proto = L4.udp → 8 ≤ h.length) (hi : proto = L4.icmp → h.length = 8) (ho : proto = L4.other → h.length = 0) :
    (l4New v proto h).length = h.length := by
  unfold l4New
  split
  · have := ht rfl
    rw [patch_length (by rw [portsNew_length hv (by omega), hv.tcp]; omega), portsNew_length hv (by omega)]
  · have := hu rfl
    rw [patch_length (by rw [portsNew_length hv (by omega), hv.udp]; omega), portsNew_length hv (by omega)]
  · rw [hi rfl, hv.icmp]
  · rw [ho rfl]; rfl

theorem writePorts_ok {v : Vals} {k : Nat} (hv : v.Sized k) {s : S} {bo ho : Nat} {os h : List Byte} {to : Nat}
    (fo : Frame s.pout.skb bo ho (patch os to h)) (hto : s.pout.skb.th = bo + to) (hh : 4 ≤ h.length) (hr : to + h.length ≤ ho) (hos : ho ≤ os.length) :
    ∃ m, writePorts v s = .ok (s.outMem m) ∧ Frame (s.outMem m).pout.skb bo ho (patch os to (portsNew v h)) := by
  unfold writePorts
  cases e : v.ports with
  | none =>
    have hn : portsNew v h = h := by unfold portsNew; rw [e]
    rw [hn]
    exact ⟨s.pout.skb.mem, rfl, fo⟩
  | some l =>
    have hn : portsNew v h = patch h 0 l := by unfold portsNew; rw [e]
    rw [hn]
    have h4 := hv.ports l e
    obtain ⟨m, hw, f⟩ := writeOut_mem fo (pos := s.pout.skb.th) (off := to) (l := l) hto (by omega)
    have := patch_patch (l := os) (a := h) (b := l) (off := to) (j := 0) (by omega) (by omega)
    rw [Nat.add_zero] at this
    rw [this] at f
    exact ⟨m, hw, f⟩

section
variable {g : Given} {v : Vals} {k : Nat} (hv : v.Sized k) {s : S} {bi hi : Nat} {is : List Byte} {bo ho : Nat} {os : List Byte} {ti to n : Nat}
  (fi : Frame s.pin.skb bi hi is) (fo : Frame s.pout.skb bo ho os) (hti : s.pin.skb.th = bi + ti) (hto : s.pout.skb.th = bo + to)
  (hn : s.pin.l4len = n) (hri : ti + n ≤ hi) (hro : to + n ≤ ho)
include hv fi fo hti hto hn hri hro

omit hv fo hti hto hn hro in
theorem copied_length : ((is.drop ti).take n).length = n := by
  have := fi.hl_le
  simp only [List.length_take, List.length_drop]; omega

theorem xlatTcp_ok (h20 : 20 ≤ n) : ∃ m, xlatTcp g v s = .ok (s.outMem m) ∧
    Frame (s.outMem m).pout.skb bo ho (patch os to (l4New v L4.tcp ((is.drop ti).take n))) := by
  have hlen := copied_length fi hri
  have hos := fo.hl_le
  unfold xlatTcp
  simp only [bind_eq, hn, read_ok fi hti hri, ok_bind]
  obtain ⟨m1, w1, f1⟩ := writeOut_mem fo (l := (is.drop ti).take n) hto (by omega)
  rw [w1]; simp only [ok_bind]
  obtain ⟨m2, w2, f2⟩ := writePorts_ok hv (s := s.outMem m1) f1 hto (by omega) (by omega) hos
  rw [w2]; simp only [ok_bind]
  have hp := portsNew_length hv (h := (is.drop ti).take n) (by omega)
  obtain ⟨m3, w3, f3⟩ := writeOut_mem f2 (pos := s.pout.skb.th + 16) (off := to + 16) (l := v.tcp) (by omega) (by rw [hv.tcp]; omega)
  rw [patch_patch (by omega) (by rw [hv.tcp]; omega)] at f3
  have r1 : read ((s.outMem m1).outMem m2).pin.skb ((s.outMem m1).outMem m2).pin.skb.th 20 = _ := read_ok fi hti (by omega)
  have r2 := read_ok f2 (pos := ((s.outMem m1).outMem m2).pout.skb.th) (off := to) (n := 20) hto (by omega)
  refine ⟨m3, ?_, f3⟩
  simp only [r1, r2, ok_bind]
  split <;> exact w3

theorem xlatUdp_ok (h8 : 8 ≤ n) : ∃ m, xlatUdp g v s = .ok (s.outMem m) ∧
    Frame (s.outMem m).pout.skb bo ho (patch os to (l4New v L4.udp ((is.drop ti).take n))) := by
  have hlen := copied_length fi hri
  have hos := fo.hl_le
  unfold xlatUdp
  simp only [bind_eq, hn, read_ok fi hti hri, ok_bind]
  obtain ⟨m1, w1, f1⟩ := writeOut_mem fo (l := (is.drop ti).take n) hto (by omega)
  rw [w1]; simp only [ok_bind]
  obtain ⟨m2, w2, f2⟩ := writePorts_ok hv (s := s.outMem m1) f1 hto (by omega) (by omega) hos
  rw [w2]; simp only [ok_bind]
  have hp := portsNew_length hv (h := (is.drop ti).take n) (by omega)
  obtain ⟨m3, w3, f3⟩ := writeOut_mem f2 (pos := s.pout.skb.th + 6) (off := to + 6) (l := v.udp) (by omega) (by rw [hv.udp]; omega)
  rw [patch_patch (by omega) (by rw [hv.udp]; omega)] at f3
  have r1 : read ((s.outMem m1).outMem m2).pin.skb ((s.outMem m1).outMem m2).pin.skb.th 8 = _ := read_ok fi hti (by omega)
  have r2 := read_ok f2 (pos := ((s.outMem m1).outMem m2).pout.skb.th) (off := to) (n := 8) hto (by omega)
  refine ⟨m3, ?_, f3⟩
  simp only [r1, r2, ok_bind]
  split <;> exact w3

end

/-- How long a transport header has to be. -/
def Enough (proto : L4) (n : Nat) : Prop := match proto with
  | L4.tcp => 20 ≤ n
  | L4.udp => n = 8
  | L4.icmp => n = 8
  | L4.other => n = 0

theorem l4New_len {v : Vals} {k : Nat} (hv : v.Sized k) {proto : L4} {h : List Byte} (he : Enough proto h.length) : (l4New v proto h).length = h.length := by
  cases proto <;> simp only [Enough] at he
  · exact l4New_length hv (fun _ => he) nofun nofun nofun
  · exact l4New_length hv nofun (fun _ => by omega) nofun nofun
  · exact l4New_length hv nofun nofun (fun _ => he) nofun
  · exact l4New_length hv nofun nofun nofun (fun _ => he)

section
variable {g : Given} {lvl k : Nat} (hv : (g.vals lvl).Sized k) {s : S} {bi hi : Nat} {is : List Byte} {bo ho : Nat} {os : List Byte} {ti to n : Nat}
  (fi : Frame s.pin.skb bi hi is) (fo : Frame s.pout.skb bo ho os) (hti : s.pin.skb.th = bi + ti) (hto : s.pout.skb.th = bo + to)
  (hn : s.pin.l4len = n) (hri : ti + n ≤ hi) (hro : to + n ≤ ho) (he : Enough s.pin.proto n)
include hv fi fo hti hto hn hri hro he

/-- A packet that is not an error, 4 to 6. -/
theorem l446_simple (fuel : Nat) (hne : ¬ (s.pin.proto = L4.icmp ∧ Icmp.isIcmp4Error (at8 is ti) = true)) :
    ∃ m, l446 g (fuel + 1) lvl s = .ok (some (s.outMem m)) ∧
      Frame (s.outMem m).pout.skb bo ho (patch os to (l4New (g.vals lvl) s.pin.proto ((is.drop ti).take n))) := by
  unfold l446
  cases hp : s.pin.proto <;> rw [hp] at he hne <;> simp only [Enough] at he <;> simp only
  · obtain ⟨m, w, f⟩ := xlatTcp_ok (g := g) hv fi fo hti hto hn hri hro he
    rw [w]; exact ⟨m, rfl, f⟩
  · obtain ⟨m, w, f⟩ := xlatUdp_ok (g := g) hv fi fo hti hto hn hri hro (by omega)
    rw [w]; exact ⟨m, rfl, f⟩
  · obtain ⟨m, w, f⟩ := writeOut_mem fo (l := (g.vals lvl).icmp) hto (by rw [hv.icmp]; omega)
    simp only [bind_eq, read_ok fi hti (n := 8) (by omega), ok_bind, w]
    rw [if_neg (by rw [at8_take (by omega), at8_drop]; exact fun h => hne ⟨rfl, h⟩)]
    exact ⟨m, rfl, f⟩
  · refine ⟨s.pout.skb.mem, rfl, ?_⟩
    rw [l4New, patch_nil]; exact fo

/-- A packet that is not an error, 6 to 4. -/
theorem l464_simple (fuel : Nat) (hne : ¬ (s.pin.proto = L4.icmp ∧ Icmp.isIcmp6Error (at8 is ti) = true)) :
    ∃ m, l464 g (fuel + 1) lvl s = .ok (some (s.outMem m)) ∧
      Frame (s.outMem m).pout.skb bo ho (patch os to (l4New (g.vals lvl) s.pin.proto ((is.drop ti).take n))) := by
  unfold l464
  cases hp : s.pin.proto <;> rw [hp] at he hne <;> simp only [Enough] at he <;> simp only
  · obtain ⟨m, w, f⟩ := xlatTcp_ok (g := g) hv fi fo hti hto hn hri hro he
    rw [w]; exact ⟨m, rfl, f⟩
  · obtain ⟨m, w, f⟩ := xlatUdp_ok (g := g) hv fi fo hti hto hn hri hro (by omega)
    rw [w]; exact ⟨m, rfl, f⟩
  · obtain ⟨m, w, f⟩ := writeOut_mem fo (l := (g.vals lvl).icmp) hto (by rw [hv.icmp]; omega)
    simp only [bind_eq, read_ok fi hti (n := 8) (by omega), ok_bind, w]
    rw [if_neg (by rw [at8_take (by omega), at8_drop]; exact fun h => hne ⟨rfl, h⟩)]
    exact ⟨m, rfl, f⟩
  · refine ⟨s.pout.skb.mem, rfl, ?_⟩
    rw [l4New, patch_nil]; exact fo

end

end Jool.Build
