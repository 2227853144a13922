import Verif.Lemmas.BuildInner
/-
ICMP errors.
-/
namespace Jool.Build
open Jool.Pkt (Byte L4 at8 at16 ihl4 fragmented4 first4 innerProto tcpLen)

theorem ended46_length {os : List Byte} {po to : Nat} {l : List Byte} {f : Nat} (hpo : po ≤ os.length) (ht : 40 ≤ to) (hto : to + 8 ≤ po) (hpo2 : po ≤ 1280) :
    (ended46 os po to l f).length = min (po + l.length) 1280 := by
  have h1 : (os.take po).length = po := by rw [List.length_take]; omega
  have h2 : ((os.take po ++ l).take 1280).length = min (po + l.length) 1280 := by rw [List.length_take, List.length_append]; omega
  unfold ended46
  rw [patch_length (by rw [be16_length, patch_length (by rw [List.length_singleton]; omega)]; omega), patch_length (by rw [List.length_singleton]; omega), h2]

/-- The headers of the packet inside, and the one of the ICMP error. -/
def inner46 (g : Given) (is os : List Byte) (to pi po : Nat) : List Byte :=
  let q := innerProto (at8 is (pi + 9))
  let l3 := pi + ihl4 is pi
  let hdr := (g.vals 1).l3 none ++ if fragmented4 is pi = true then (g.vals 1).frag else []
  patch (patch (patch os to (g.vals 0).icmp) po hdr) (po + hdr.length) (l4New (g.vals 1) q ((is.drop l3).take (hdrLen is l3 q)))

theorem l446_error {g : Given} {s : S} {bi hi : Nat} {is : List Byte} {bo ho : Nat} {os : List Byte} {ti to l3 n : Nat} {q : L4} {fr : Bool}
    (hv0 : (g.vals 0).Sized 40) (hv1 : (g.vals 1).Sized 40) (fi : Frame s.pin.skb bi hi is) (hdi : s.pin.skb.data = bi) (hti : s.pin.skb.th = bi + ti)
    (fo : Outgoing s.pout bo ho os to) (hii : s.pin.inner = false) (hio : s.pout.inner = false) (hpi : s.pin.pay = ti + 8) (hpo : s.pout.pay = to + 8)
    (hp : s.pin.proto = L4.icmp) (herr : Icmp.isIcmp4Error (at8 is ti) = true) (h20 : s.pin.pay + 20 ≤ hi) (hto40 : 40 ≤ to) (hto2 : to ≤ 1272)
    (hq : q = innerProto (at8 is (s.pin.pay + 9))) (hl3 : l3 = ihl4 is s.pin.pay) (hn : n = hdrLen is (s.pin.pay + l3) q)
    (hfr : fr = fragmented4 is s.pin.pay)
    (he : Enough q n) (hri : s.pin.pay + l3 + n ≤ hi) (hro : s.pout.pay + (40 + if fr = true then 8 else 0) + n ≤ ho)
    (hne : ¬ (q = L4.icmp ∧ Icmp.isIcmp4Error (at8 is (s.pin.pay + l3)) = true)) (fuel : Nat) :
    match IcmpExt.handle ⟨1280, 3, IcmpExt.shouldRemove (at8 is ti) (at8 is (ti + 1))⟩ ((at8 is (ti + 5)).toNat * 4) (is.drop s.pin.pay) s.pout.pay
      ((inner46 g is os to s.pin.pay s.pout.pay).drop s.pout.pay) with
    | .drop => l446 g (fuel + 2) 0 s = .ok none
    | .ub => l446 g (fuel + 2) 0 s = .ub .outOfBounds
    | .ok l f => ∃ s' bo' ho', l446 g (fuel + 2) 0 s = .ok (some s') ∧
        Outgoing s'.pout bo' ho' (patch (ended46 (inner46 g is os to s.pin.pay s.pout.pay) s.pout.pay to l f) (to + 2) (g.vals 0).sum) to ∧ s'.pin = s.pin ∧
        (bo' = bo ∨ bo' = g.ll) := by
  have hos := fo.frame.hl_le
  have his := fi.hl_le
  have hic := hv0.icmp
  have hcl : ((is.drop (s.pin.pay + l3)).take n).length = n := copied_length fi hri
  have hq13 : q = L4.tcp → s.pin.pay + l3 + 13 ≤ hi := by
    intro h; rw [h] at he; simp only [Enough] at he; omega
  rw [l446]
  have hne0 : at8 ((is.drop ti).take 8) 0 = at8 is ti := by rw [at8_take (by omega), at8_drop]; rfl
  simp only [hp, bind_eq, read_ok fi hti (n := 8) (by omega), ok_bind, hne0]
  obtain ⟨m1, w1, o1⟩ := fo.write (pos := s.pout.skb.th) (off := to) (l := (g.vals 0).icmp) fo.th (by omega)
  rw [w1]; simp only [ok_bind]
  rw [if_pos herr]
  have hpk : peekIf (s.outMem m1) peek4 = .ok (some (s.outMem m1)) := by
    unfold peekIf
    have : (s.outMem m1).pin.inner = false := hii
    rw [this]; rfl
  rw [hpk]; simp only [ok_bind]
  have hb : becomeInner4 (s.outMem m1) true = .ok (some ⟨inIn s.pin q l3 n, inIn (s.outMem m1).pout q (40 + if fragmented4 is s.pin.pay = true then 8 else 0) n⟩) :=
    becomeInner4_ok (s := s.outMem m1) fi o1.frame hdi o1.data h20 (by show s.pout.pay ≤ ho; omega) hq hl3 hn hq13
  rw [hb]; simp only [ok_bind]
  rw [← hfr]
  generalize hL : (40 + if fr = true then 8 else 0) = L at *
  have hpp : s.pin.payload = bi + s.pin.pay := by unfold P.payload; omega
  have hpo' : (s.outMem m1).pout.payload = bo + s.pout.pay := by
    show s.pout.skb.data + s.pout.pay = _
    rw [fo.data]
  -- the header of the packet inside
  obtain ⟨m2, w2, f2⟩ : ∃ m, int46 (g.vals 1) ⟨inIn s.pin q l3 n, inIn (s.outMem m1).pout q L n⟩ =
      .ok (S.outMem ⟨inIn s.pin q l3 n, inIn (s.outMem m1).pout q L n⟩ m) ∧
      Frame (S.outMem ⟨inIn s.pin q l3 n, inIn (s.outMem m1).pout q L n⟩ m).pout.skb bo ho
        (patch (patch os to (g.vals 0).icmp) s.pout.pay ((g.vals 1).l3 none ++ if fr = true then (g.vals 1).frag else [])) := by
    obtain ⟨m, w, f⟩ := common46_ok hv1 (s := ⟨inIn s.pin q l3 n, inIn (s.outMem m1).pout q L n⟩) (ni := s.pin.pay) (no := s.pout.pay) (fi.move _ _ _)
      (o1.frame.move _ _ _) hpp hpo' (by omega) (many := false) (fr := fr) (by rw [Bool.or_false]; exact hfr) (by omega)
    refine ⟨m, ?_, f⟩
    unfold int46
    have hr : read (inIn s.pin q l3 n).skb (inIn s.pin q l3 n).skb.nh 20 = _ := read_ok (fi.move _ _ _) hpp (by omega)
    simp only [bind_eq, hr, ok_bind]
    exact w
  rw [w2]; simp only [ok_bind]
  -- the transport header of the packet inside
  obtain ⟨m3, w3, f3⟩ := l446_simple (g := g) (lvl := 1) hv1 (s := S.outMem ⟨inIn s.pin q l3 n, inIn (s.outMem m1).pout q L n⟩ m2) (bi := bi) (hi := hi) (is := is)
    (ti := s.pin.pay + l3) (to := s.pout.pay + L) (n := n) (fi.move _ _ _) f2 (by show s.pin.payload + l3 = _; omega)
    (by show (s.outMem m1).pout.payload + L = _; omega) (inIn_l4len _ _ _ _) hri hro he fuel hne
  have e01 : (0 + 1 : Nat) = 1 := rfl
  rw [w3]; simp only [ok_bind]
  -- back
  have hrest : restoreOuter (S.outMem (S.outMem ⟨inIn s.pin q l3 n, inIn (s.outMem m1).pout q L n⟩ m2) m3) (backup s.pin) (backup (s.outMem m1).pout) true =
      .ok (s.outMem m3) := restoreOuter_ok (s := s.outMem m1) hii hio m3 q l3 n L n
  have hrest' : restoreOuter (S.outMem (S.outMem ⟨inIn s.pin q l3 n, inIn (s.outMem m1).pout q L n⟩ m2) m3) (backup (s.outMem m1).pin) (backup (s.outMem m1).pout) true =
      .ok (s.outMem m3) := hrest
  rw [hrest']; simp only [ok_bind]
  have hhl : ((g.vals 1).l3 none ++ if fr = true then (g.vals 1).frag else []).length = L := by
    rw [List.length_append, hv1.l3]
    subst hL
    cases fr
    · rfl
    · simp only [if_true, hv1.frag]
  have hI : inner46 g is os to s.pin.pay s.pout.pay = patch (patch (patch os to (g.vals 0).icmp) s.pout.pay ((g.vals 1).l3 none ++ if fr = true then (g.vals 1).frag else []))
      (s.pout.pay + L) (l4New (g.vals 1) q ((is.drop (s.pin.pay + l3)).take n)) := by
    unfold inner46
    simp only [← hq, ← hl3, ← hfr, ← hn, hhl]
  have o3 : Outgoing (s.outMem m3).pout bo ho (inner46 g is os to s.pin.pay s.pout.pay) to := by
    rw [hI]
    exact ⟨⟨f3.tail, f3.room, f3.from_⟩, fo.data, fo.nh, fo.th⟩
  have hfin := finish46_ok (g := g) (s := s.outMem m3) (bi := bi) (hi := hi) (is := is) (ti := ti) fi hdi hti o3 (by show s.pout.pay ≤ ho; omega) (by omega) hto40
    (by show to + 8 ≤ s.pout.pay; omega) (by show s.pout.pay ≤ 1280; omega)
  revert hfin
  show (match IcmpExt.handle _ _ (is.drop s.pin.pay) s.pout.pay ((inner46 g is os to s.pin.pay s.pout.pay).drop s.pout.pay) with | .drop => _ | .ub => _ | .ok l f => _) → _
  have hIl : s.pout.pay ≤ (inner46 g is os to s.pin.pay s.pout.pay).length := by
    have := o3.frame.hl_le; omega
  cases IcmpExt.handle _ _ (is.drop s.pin.pay) s.pout.pay ((inner46 g is os to s.pin.pay s.pout.pay).drop s.pout.pay) with
  | drop => intro h; simp only at h ⊢; rw [h]; rfl
  | ub => intro h; simp only at h ⊢; rw [h]; rfl
  | ok l f =>
    rintro ⟨s', bo', ho', hf, o4, hp4, hh4, hb4⟩
    have hh4' : s.pout.pay ≤ ho' := hh4
    simp only [hf, ok_bind]
    obtain ⟨m5, w5, o5⟩ := o4.write (pos := s'.pout.skb.th + 2) (off := to + 2) (l := (g.vals 0).sum) (by rw [o4.th]; omega) (by rw [hv0.sum]; omega)
    rw [w5]
    exact ⟨_, bo', ho', rfl, o5, hp4, hb4⟩

end Jool.Build
