import Verif.Lemmas.LifeBasic
/-
Who owns what while a packet is translated (`Verif.Model.Life`).
-/
namespace Jool.Life

variable {E : UB → Prop}

/-- What the functions keep of the state of the translation; `v`: the verdict. -/
structure Ke (s : St) (v : Verd) (s' : St) : Prop where
  nat : s'.nat64 = s.nat64
  skb : s'.pin.skb = s.pin.skb
  l3 : s'.pin.l3 = s.pin.l3
  orig : s'.pin.orig = s.pin.orig
  hp : s.nat64 = true → s'.hairpin = s.hairpin
  hp6 : s'.hairpin = true → s.hairpin = true ∨ s.pin.l3 = .v6
  ic : v = .cont → s'.icmp = s.icmp

theorem Ke.refl (s : St) (v : Verd) : Ke s v s := ⟨rfl, rfl, rfl, rfl, fun _ => rfl, .inl, fun _ => rfl⟩

theorem Ke.trans {a b c : St} {v : Verd} (x : Ke a .cont b) (y : Ke b v c) : Ke a v c :=
  ⟨y.nat.trans x.nat, y.skb.trans x.skb, y.l3.trans x.l3, y.orig.trans x.orig,
    fun h => (y.hp (x.nat.trans h)).trans (x.hp h),
    fun h => (y.hp6 h).elim x.hp6 (fun h' => .inr (x.l3 ▸ h')), fun h => (y.ic h).trans (x.ic rfl)⟩

theorem Ke.to {a b : St} {v : Verd} (w : Verd) (x : Ke a v b) (h : w = .cont → v = .cont) : Ke a w b :=
  ⟨x.nat, x.skb, x.l3, x.orig, x.hp, x.hp6, fun h' => x.ic (h h')⟩

/-- `sub` continues, and changes nothing, or it does not, and maybe there is an ICMP error to send. -/
theorem sub_cases (s : St) (x : Sub) : sub s x = (.cont, s) ∨
    ∃ v ic, sub s x = (v, { s with icmp := ic }) ∧ (v = .drop ∨ v = .untr) := by
  rcases x with _ | ⟨_ | _, _ | i⟩
  · exact .inl rfl
  · exact .inr ⟨.untr, s.icmp, rfl, .inr rfl⟩
  · exact .inr ⟨.untr, some i, rfl, .inr rfl⟩
  · exact .inr ⟨.drop, s.icmp, rfl, .inl rfl⟩
  · exact .inr ⟨.drop, some i, rfl, .inl rfl⟩

theorem Ke.icmp (s : St) {v : Verd} (ic : Option Nat64.IcmpErr) (h : v = .drop ∨ v = .untr) : Ke s v { s with icmp := ic } :=
  ⟨rfl, rfl, rfl, rfl, fun _ => rfl, .inl, fun hv => by rcases h with h | h <;> rw [h] at hv <;> cases hv⟩

/-! ### Routes -/

theorem route4_spec {h : Heap} {o : Own} {sd} (j : Nat) (v : Inv h o sd) (r : Option RouteCh) :
    wp E (route4 r) (fun d k => Inv k o (d.toList ++ sd) ∧ Same j h k) h := by
  unfold route4
  cases r with
  | none => exact ⟨v, Same.refl _ _⟩
  | some r =>
    refine wp_seq (dstHold_spec j v r.dst) (fun _ k q => ?_)
    split
    · refine wp_seq (dstRelease_spec j (some r.dst) q.1) (fun _ k' q' => ?_)
      exact ⟨q'.1, q.2.trans q'.2⟩
    · exact q

theorem route6_spec {h : Heap} {o : Own} {sd} (j : Nat) (v : Inv h o sd) (r : Option RouteCh) :
    wp E (route6 r) (fun d k => Inv k o (d.toList ++ sd) ∧ Same j h k) h := by
  unfold route6
  cases r with
  | none => exact ⟨v, Same.refl _ _⟩
  | some r =>
    refine wp_seq (dstHold_spec j v r.dst) (fun _ k q => ?_)
    split
    · refine wp_seq (dstRelease_spec j (some r.dst) q.1) (fun _ k' q' => ?_)
      exact ⟨q'.1, q.2.trans q'.2⟩
    · exact q

/-! ### The packet inside of an ICMP error -/

theorem wp_skbOf {p : Pkt} {i : Nat} (hi : p.skb = some i) {Q : Nat → Heap → Prop} {h : Heap} :
    wp E (skbOf p) Q h ↔ Q i h := by
  unfold skbOf; rw [hi]; exact Iff.rfl

/-- After `pull`. -/
def pulled (c : Skb) (n : Nat) (l3 : Nat) : Skb :=
  { c with data := c.data + n, len := c.len - n, nh := ((c.data + n : Nat) : Int), th := ((c.data + n : Nat) : Int) + l3 }

theorem backup_spec {h : Heap} {o : Own} {sd} {p : Pkt} {i : Nat} {c : Skb} (hi : p.skb = some i)
    (v : Inv h o sd) (hm : (i, c) ∈ o) :
    wp E (backup p) (fun b k => k = h ∧ b = ⟨p.payload, c.nh - c.data, c.th - c.data, p.payload⟩) h := by
  unfold backup
  rw [wp_bind, wp_skbOf hi, wp_bind, v.load hm]
  exact ⟨rfl, rfl⟩

theorem movePointers_spec {h : Heap} {o : Own} {sd} {p : Pkt} {i : Nat} {c : Skb} (j : Nat) (hi : p.skb = some i)
    (v : Inv h ((i, c) :: o) sd) (l3 l4 : Nat) :
    wp E (movePointers p l3 l4) (fun r k => Same j h k ∧
      ((r = (false, p) ∧ Inv k ((i, c) :: o) sd) ∨
       (r = (true, { p with inner := true, payload := l3 + l4 }) ∧ p.payload ≤ c.len ∧
         Inv k ((i, pulled c p.payload l3) :: o) sd))) h := by
  unfold movePointers
  rw [wp_bind, wp_skbOf hi, wp_bind]
  unfold pull
  rw [wp_bind, v.load (List.mem_cons_self ..)]
  by_cases hl : p.payload ≤ c.len
  · rw [if_pos hl]
    refine wp_seq (store_spec j v rfl) (fun _ k q => ?_)
    rw [wp_pure]
    simp only [if_true]
    rw [wp_bind, q.1.load (List.mem_cons_self ..)]
    refine wp_seq (store_spec j q.1 rfl) (fun _ k' q' => ?_)
    exact ⟨q.2.trans q'.2, .inr ⟨rfl, hl, q'.1⟩⟩
  · rw [if_neg hl, wp_pure]
    exact ⟨Same.refl _ _, .inl ⟨rfl, v⟩⟩

theorem restore_spec {h : Heap} {o : Own} {sd} {p : Pkt} {i : Nat} {c : Skb} {n l3 m : Nat} (j : Nat) (hi : p.skb = some i)
    (hn : n ≤ c.len) (v : Inv h ((i, pulled c n l3) :: o) sd) :
    wp E (restore p ⟨n, c.nh - c.data, c.th - c.data, m⟩) (fun q k => Same j h k ∧ Inv k ((i, c) :: o) sd ∧
      q = { p with payload := m, inner := false }) h := by
  unfold restore
  rw [wp_bind, wp_skbOf hi, wp_bind]
  unfold push
  rw [wp_bind, v.load (List.mem_cons_self ..)]
  rw [if_pos (by simp [pulled])]
  refine wp_mono (store_spec j v rfl) (fun _ k q => ?_)
  rw [wp_bind, q.1.load (List.mem_cons_self ..)]
  refine wp_seq (store_spec j q.1 rfl) (fun _ k' q' => ?_)
  refine ⟨q.2.trans q'.2, ?_, rfl⟩
  convert q'.1 using 3
  obtain ⟨a1, a2, a3, a4, a5, a6, a7, a8, a9⟩ := c
  simp only [pulled, Skb.mk.injEq, true_and]
  simp only at hn
  refine ⟨by omega, by omega, by omega, by omega⟩

/-- Only the positions of the headers differ. -/
structure Moved (c c' : Skb) : Prop where
  l3 : c'.l3 = c.l3
  mark : c'.mark = c.mark
  next : c'.next = c.next
  dst : c'.dst = c.dst
  page : c'.nullPage = c.nullPage

theorem Moved.refl (c : Skb) : Moved c c := ⟨rfl, rfl, rfl, rfl, rfl⟩
theorem Moved.trans {a b c : Skb} (x : Moved a b) (y : Moved b c) : Moved a c :=
  ⟨y.l3.trans x.l3, y.mark.trans x.mark, y.next.trans x.next, y.dst.trans x.dst, y.page.trans x.page⟩
theorem Moved.pulled (c : Skb) (n l : Nat) : Moved c (pulled c n l) := ⟨rfl, rfl, rfl, rfl, rfl⟩

theorem innerAddrs_spec {h : Heap} {o : Own} {sd} {s : St} {i : Nat} {c : Skb} (j : Nat) (hi : s.pin.skb = some i)
    (v : Inv h ((i, c) :: o) sd) (ch : InnerCh) :
    wp E (innerAddrs s ch) (fun r k => Same j h k ∧ Inv k ((i, c) :: o) sd ∧ Ke s r.1 r.2 ∧ r.1 ≠ .stolen ∧
      r.2.pout = s.pout ∧ r.2.dst = s.dst ∧ r.2.hairpin = s.hairpin ∧ r.2.flowx = s.flowx) h := by
  unfold innerAddrs becomeInner
  rw [wp_bind, wp_bind]
  refine wp_mono (backup_spec hi v (List.mem_cons_self ..)) (fun b k q => ?_)
  obtain ⟨rfl, rfl⟩ := q
  simp only [Bool.false_eq_true, if_false]
  rw [wp_bind, wp_pure, wp_bind]
  refine wp_mono (movePointers_spec j hi v _ _) (fun r k' q => ?_)
  obtain ⟨sm, ⟨rfl, v'⟩ | ⟨rfl, hl, v'⟩⟩ := q
  · simp only [Bool.not_false, if_true]
    rw [wp_pure]
    exact ⟨sm, v', ⟨rfl, rfl, rfl, rfl, fun _ => rfl, .inl, fun _ => rfl⟩, by simp, rfl, rfl, rfl, rfl⟩
  · simp only [Bool.not_true, Bool.false_eq_true, if_false]
    rw [wp_pure]
    simp only [ne_eq, not_true_eq_false, if_false]
    unfold restoreOuter
    rcases sub_cases { s with pin := { s.pin with inner := true, payload := ch.l3in + ch.l4in } } ch.res with
      he | ⟨w, ic, he, hw⟩ <;> rw [he]
    · rw [wp_bind, wp_bind]
      refine wp_mono (restore_spec j hi hl v') (fun q k'' w => ?_)
      obtain ⟨sm', v'', rfl⟩ := w
      exact ⟨sm.trans sm', v'', ⟨rfl, rfl, rfl, rfl, fun _ => rfl, .inl, fun _ => rfl⟩, by simp, rfl, rfl, rfl, rfl⟩
    · rw [wp_bind, wp_bind]
      refine wp_mono (restore_spec j hi hl v') (fun q k'' z => ?_)
      obtain ⟨sm', v'', rfl⟩ := z
      refine ⟨sm.trans sm', v'', ⟨rfl, rfl, rfl, rfl, fun _ => rfl, .inl, fun hc => ?_⟩, ?_, rfl, rfl, rfl, rfl⟩
      · simp only at hc; rcases hw with hw | hw <;> rw [hw] at hc <;> cases hc
      · simp only; rcases hw with hw | hw <;> rw [hw] <;> simp

theorem swap2 {h : Heap} {a b : Nat × Skb} {o : Own} {sd} (v : Inv h (a :: b :: o) sd) : Inv h (b :: a :: o) sd :=
  v.perm (List.Perm.swap ..)

theorem translateInner_spec {h : Heap} {o : Own} {sd} {s : St} {i o1 : Nat} {c d : Skb} (j : Nat) (hi : s.pin.skb = some i)
    (ho : s.pout.skb = some o1) (v : Inv h ((o1, d) :: (i, c) :: o) sd) (ch : InnerCh) :
    wp E (translateInner s ch) (fun r k => Same j h k ∧ (∃ c' d', Inv k ((o1, d') :: (i, c') :: o) sd ∧ Moved c c' ∧
        Moved d d' ∧ (r.1 ≠ .drop → c' = c ∧ d' = d)) ∧ Ke s r.1 r.2 ∧ (r.1 = .cont ∨ r.1 = .drop) ∧
      r.2.pout.skb = some o1 ∧ r.2.pout.l3 = s.pout.l3 ∧ r.2.pout.orig = s.pout.orig ∧ r.2.dst = s.dst ∧
      r.2.hairpin = s.hairpin) h := by
  unfold translateInner becomeInner
  rw [wp_bind, wp_bind]
  refine wp_mono (backup_spec hi v (by simp : (i, c) ∈ _)) (fun b k q => ?_)
  obtain ⟨rfl, rfl⟩ := q
  simp only [if_true]
  rw [wp_bind]
  refine wp_mono (backup_spec ho v (List.mem_cons_self ..)) (fun b k q => ?_)
  obtain ⟨rfl, rfl⟩ := q
  rw [wp_bind]
  refine wp_mono (movePointers_spec j hi (swap2 v) _ _) (fun r k' q => ?_)
  obtain ⟨sm, ⟨rfl, v'⟩ | ⟨rfl, hl, v'⟩⟩ := q
  · simp only [Bool.not_false, if_true]
    rw [wp_pure]
    exact ⟨sm, ⟨c, d, swap2 v', .refl _, .refl _, fun _ => ⟨rfl, rfl⟩⟩,
      ⟨rfl, rfl, rfl, rfl, fun _ => rfl, .inl, fun _ => rfl⟩, .inr rfl, ho, rfl, rfl, rfl, rfl⟩
  · simp only [Bool.not_true, Bool.false_eq_true, if_false]
    rw [wp_bind]
    refine wp_mono (movePointers_spec j ho (swap2 v') _ _) (fun r k'' q => ?_)
    obtain ⟨sm', ⟨rfl, w⟩ | ⟨rfl, hl', w⟩⟩ := q
    · simp only [Bool.false_eq_true, if_false]
      rw [wp_pure]
      exact ⟨sm.trans sm', ⟨_, _, w, .pulled .., .refl _, fun hn => absurd rfl hn⟩,
        ⟨rfl, rfl, rfl, rfl, fun _ => rfl, .inl, fun _ => rfl⟩, .inr rfl, ho, rfl, rfl, rfl, rfl⟩
    · simp only [if_true]
      rw [wp_pure]
      simp only [ne_eq, not_true_eq_false, if_false]
      unfold restoreOuter
      rcases sub_cases { s with
          pin := { s.pin with inner := true, payload := ch.l3in + ch.l4in },
          pout := { s.pout with inner := true, payload := ch.l3out + ch.l4in } } ch.res with
        he | ⟨x, ic, he, hx⟩ <;> rw [he]
      · rw [wp_bind, wp_bind]
        refine wp_mono (restore_spec j hi hl (swap2 w)) (fun q k3 z => ?_)
        obtain ⟨sm3, v3, rfl⟩ := z
        simp only [if_true]
        rw [wp_bind]
        refine wp_mono (restore_spec j ho hl' (swap2 v3)) (fun q k4 z => ?_)
        obtain ⟨sm4, v4, rfl⟩ := z
        exact ⟨((sm.trans sm').trans sm3).trans sm4, ⟨c, d, v4, .refl _, .refl _, fun _ => ⟨rfl, rfl⟩⟩,
          ⟨rfl, rfl, rfl, rfl, fun _ => rfl, .inl, fun _ => rfl⟩, .inl rfl, ho, rfl, rfl, rfl, rfl⟩
      · rw [wp_bind, wp_bind]
        refine wp_mono (restore_spec j hi hl (swap2 w)) (fun q k3 z => ?_)
        obtain ⟨sm3, v3, rfl⟩ := z
        simp only [if_true]
        rw [wp_bind]
        refine wp_mono (restore_spec j ho hl' (swap2 v3)) (fun q k4 z => ?_)
        obtain ⟨sm4, v4, rfl⟩ := z
        refine ⟨((sm.trans sm').trans sm3).trans sm4, ⟨c, d, v4, .refl _, .refl _, fun _ => ⟨rfl, rfl⟩⟩,
          ⟨rfl, rfl, rfl, rfl, fun _ => rfl, .inl, fun hc => ?_⟩, ?_, ho, rfl, rfl, rfl, rfl⟩
        · simp only at hc; rcases hx with hx | hx <;> rw [hx] at hc <;> simp at hc
        · simp only; rcases hx with hx | hx <;> rw [hx] <;> simp

/-! ### From IPv6 -/

theorem not_stolen {v : Verd} (h : v = .drop ∨ v = .untr) : v ≠ .stolen ∧ v ≠ .cont := by
  rcases h with rfl | rfl <;> exact ⟨by simp, by simp⟩

theorem computeFlow64_spec {h : Heap} {o : Own} {sd} {s : St} {i : Nat} {c : Skb} (j : Nat) (hi : s.pin.skb = some i)
    (h6 : s.pin.l3 = .v6) (v : Inv h ((i, c) :: o) sd) (ch : FlowCh) :
    wp E (computeFlow64 s ch) (fun r k => Same j h k ∧ Inv k ((i, c) :: o) sd ∧ Ke s r.1 r.2 ∧ r.1 ≠ .stolen ∧
      r.2.pout = s.pout ∧ r.2.dst = s.dst) h := by
  unfold computeFlow64
  rcases sub_cases s ch.flow with he | ⟨x, ic, he, hx⟩ <;> rw [he]
  · simp only [ne_eq, not_true_eq_false, if_false]
    have ke : Ke s .cont (if (ch.eam && !s.nat64) = true then { s with hairpin := true } else s) := by
      split
      · rename_i hc
        simp only [Bool.and_eq_true, Bool.not_eq_true'] at hc
        exact ⟨rfl, rfl, rfl, rfl, fun hn => absurd (hc.2.symm.trans hn) (by simp), fun _ => .inr h6, fun _ => rfl⟩
      · exact Ke.refl _ _
    have po : (if (ch.eam && !s.nat64) = true then { s with hairpin := true } else s).pout = s.pout := by split <;> rfl
    have ds : (if (ch.eam && !s.nat64) = true then { s with hairpin := true } else s).dst = s.dst := by split <;> rfl
    generalize (if (ch.eam && !s.nat64) = true then { s with hairpin := true } else s) = s1 at ke po ds
    cases ch.inner with
    | none => exact ⟨Same.refl _ _, v, ke, by simp, po, ds⟩
    | some ic =>
      dsimp only
      split
      · exact ⟨Same.refl _ _, v, ke, by simp, po, ds⟩
      · refine wp_mono (innerAddrs_spec j (ke.skb.trans hi) v ic) (fun r k q => ?_)
        obtain ⟨a, b, d, e, f, g, _, _⟩ := q
        exact ⟨a, b, ke.trans d, e, f.trans po, g.trans ds⟩
  · dsimp only; rw [if_pos (not_stolen hx).2, wp_pure]
    exact ⟨Same.refl _ _, v, Ke.icmp s ic hx, (not_stolen hx).1, rfl, rfl⟩

/-- What the search for a route leaves. -/
structure Routed (j : Nat) (h : Heap) (own : Own) (sd : List Nat) (s : St) (v : Verd) (s' : St) (k : Heap) : Prop where
  same : Same j h k
  inv : Inv k own (s'.dst.toList ++ sd)
  ke : Ke s v s'
  ns : v ≠ .stolen
  pout : s'.pout = s.pout

theorem predictRoute64'_spec {h : Heap} {o : Own} {sd} {s : St} (j : Nat) (hd : s.dst = none) (v : Inv h o sd) (ch : FlowCh) :
    wp E (predictRoute64' s ch) (fun r k => Routed j h o sd s r.1 r.2 k ∧
      (r.1 = .cont → r.2.hairpin = false → r.2.dst.isSome = true)) h := by
  unfold predictRoute64'
  by_cases hp : s.hairpin = true
  · rw [if_pos hp, wp_pure]
    rcases sub_cases s ch.saddr with he | ⟨x, ic, he, hx⟩ <;> rw [he]
    · exact ⟨⟨Same.refl _ _, by rw [hd]; exact v, Ke.refl _ _, by simp, rfl⟩, fun _ hf => by rw [hp] at hf; cases hf⟩
    · exact ⟨⟨Same.refl _ _, by show Inv h o (s.dst.toList ++ sd); rw [hd]; exact v, Ke.icmp s ic hx, (not_stolen hx).1, rfl⟩,
        fun hc => absurd hc (not_stolen hx).2⟩
  · rw [if_neg hp]
    refine wp_seq (route4_spec j v ch.route) (fun d k q => ?_)
    cases d with
    | none =>
      exact ⟨⟨q.2, by show Inv k o (s.dst.toList ++ sd); rw [hd]; exact q.1,
        (Ke.refl s .cont).to _ (by simp), by simp, rfl⟩, fun hc => by cases hc⟩
    | some d =>
      dsimp only
      have k0 : Ke s .cont { s with dst := some d } := ⟨rfl, rfl, rfl, rfl, fun _ => rfl, .inl, fun _ => rfl⟩
      rcases sub_cases { s with dst := some d } ch.saddr with he | ⟨x, ic, he, hx⟩ <;> rw [he]
      · simp only [ne_eq, not_true_eq_false, if_false]
        exact ⟨⟨q.2, q.1, k0, by simp, rfl⟩, fun _ _ => rfl⟩
      · dsimp only; rw [if_pos (not_stolen hx).2]
        refine wp_seq (dstRelease_spec j (some d) q.1) (fun _ k' q' => ?_)
        refine ⟨⟨q.2.trans q'.2, q'.1, ?_, (not_stolen hx).1, rfl⟩, fun hc => absurd hc (not_stolen hx).2⟩
        exact ⟨rfl, rfl, rfl, rfl, fun _ => rfl, .inl, fun hc => absurd hc (not_stolen hx).2⟩

theorem predictRoute64_spec {h : Heap} {o : Own} {sd} {s : St} {i : Nat} {c : Skb} (j : Nat) (hi : s.pin.skb = some i)
    (h6 : s.pin.l3 = .v6) (v : Inv h ((i, c) :: o) (s.dst.toList ++ sd)) (ch : FlowCh) :
    wp E (predictRoute64 s ch) (fun r k => Routed j h ((i, c) :: o) sd s r.1 r.2 k ∧
      (r.1 = .cont → r.2.hairpin = false → r.2.dst.isSome = true)) h := by
  unfold predictRoute64
  have first : wp E (flow64 s ch)
      (fun r k => Same j h k ∧ Inv k ((i, c) :: o) (s.dst.toList ++ sd) ∧ Ke s r.1 r.2 ∧ r.1 ≠ .stolen ∧
        r.2.pout = s.pout ∧ r.2.dst = s.dst) h := by
    unfold flow64
    split
    · exact ⟨Same.refl _ _, v, Ke.refl _ _, by simp, rfl, rfl⟩
    · refine wp_seq (computeFlow64_spec j hi h6 v ch) (fun r k q => ?_)
      obtain ⟨a, b, d, e, f, g⟩ := q
      refine ⟨a, b, ?_, e, ?_, ?_⟩ <;> dsimp only
      · split
        · exact ⟨d.nat, d.skb, d.l3, d.orig, d.hp, d.hp6, d.ic⟩
        · exact d
      · split <;> exact f
      · split <;> exact g
  refine wp_seq first (fun r k q => ?_)
  obtain ⟨w, s1⟩ := r
  obtain ⟨a, b, d, e, f, g⟩ := q
  dsimp only at *
  by_cases hw : w = .cont
  · subst hw
    simp only [ne_eq, not_true_eq_false, if_false]
    cases hs : s1.dst with
    | none =>
      dsimp only
      rw [← g, hs] at b
      refine wp_mono (predictRoute64'_spec j hs b ch) (fun r k' q => ?_)
      obtain ⟨q, q2⟩ := q
      exact ⟨⟨a.trans q.same, q.inv, d.trans q.ke, q.ns, q.pout.trans f⟩, q2⟩
    | some x =>
      exact ⟨⟨a, by dsimp only; rw [g]; exact b, d, e, f⟩, fun _ _ => by rw [hs]; rfl⟩
  · rw [if_pos hw, wp_pure]
    exact ⟨⟨a, by dsimp only; rw [g]; exact b, d, e, f⟩, fun hc => absurd hc hw⟩

/-- The outgoing packets. `m`: the mark of the incoming packet; `l3`: their protocol; `must`: they have to have a route; `pl`:
the mark and the protocol have to be right. -/
structure Outs (m : BitVec 32) (l3 : L3) (must pl : Prop) (np : Bool) (l : Own) : Prop where
  dst : must → ∀ p ∈ l, p.2.dst.isSome = true
  plain : pl → ∀ p ∈ l, p.2.mark = m ∧ p.2.l3 = some l3
  page : np = false → ∀ p ∈ l, p.2.nullPage = false

theorem chain1 {i : Nat} {c : Skb} (h : c.next = none) : Chain (some i) [(i, c)] := ⟨rfl, by rw [h]; trivial⟩

/-- What the allocation of the outgoing packets leaves. `c`: the incoming packet. -/
structure Alloced (j : Nat) (h : Heap) (i : Nat) (c : Skb) (o : Own) (sd : List Nat) (s : St) (l3 : L3) (np one : Bool)
    (v : Verd) (s' : St) (k : Heap) : Prop where
  same : Same j h k
  ke : Ke s v s'
  ns : v ≠ .stolen
  bad : v ≠ .cont → Inv k ((i, c) :: o) (s'.dst.toList ++ sd)
  ok : v = .cont → s'.pout.l3 = l3 ∧ s'.pout.orig = s.pin.orig ∧ ∃ l, l ≠ [] ∧ Chain s'.pout.skb l ∧
    Inv k (l ++ (i, c) :: o) (s'.dst.toList ++ sd) ∧ Outs c.mark l3 (s'.hairpin = false ∨ l3 = .v6) True np l ∧
    (one = true → ∃ p, l = [p])

theorem alloc64_spec {h : Heap} {o : Own} {sd} {s : St} {i : Nat} {c : Skb} (j : Nat) (hi : s.pin.skb = some i)
    (h6 : s.pin.l3 = .v6) (v : Inv h ((i, c) :: o) (s.dst.toList ++ sd)) (ch : Ch64) :
    wp E (alloc64 s ch) (fun r k => Alloced j h i c o sd s .v4 ch.nullPage true r.1 r.2 k) h := by
  unfold alloc64
  refine wp_seq (predictRoute64_spec j hi h6 v ch.flow) (fun r k q => ?_)
  obtain ⟨w, s1⟩ := r
  obtain ⟨q, q2⟩ := q
  dsimp only at *
  by_cases hw : w ≠ .cont
  · rw [if_pos hw, wp_pure]
    exact ⟨q.same, q.ke, q.ns, fun _ => q.inv, fun hc => absurd hc hw⟩
  · have hw : w = .cont := by simpa using hw
    subst hw
    simp only [ne_eq, not_true_eq_false, if_false]
    have hq2 := q2 rfl
    have sz : ((if s1.dst.isNone = true then (Verd.cont, s1) else sub s1 ch.size) = (.cont, s1)) ∨
        ∃ v ic, (if s1.dst.isNone = true then (Verd.cont, s1) else sub s1 ch.size) = (v, { s1 with icmp := ic }) ∧
          (v = .drop ∨ v = .untr) := by
      split
      · exact .inl rfl
      · exact sub_cases _ _
    rcases sz with he | ⟨x, ic, he, hx⟩ <;> rw [he]
    · simp only [not_true_eq_false, if_false]
      split
      · refine wp_seq (dstRelease_spec j s1.dst q.inv) (fun _ k' q' => ?_)
        exact ⟨q.same.trans q'.2, q.ke.trans ⟨rfl, rfl, rfl, rfl, fun _ => rfl, .inl, fun _ => rfl⟩, by simp,
          fun _ => q'.1, fun hc => by cases hc⟩
      · rw [wp_bind, wp_skbOf (q.ke.skb.trans hi), wp_bind, q.inv.load (List.mem_cons_self ..)]
        refine wp_seq (alloc_spec j q.inv _ rfl) (fun o1 k' q' => ?_)
        obtain ⟨-, v', sm'⟩ := q'
        cases hd : s1.dst with
        | none =>
          dsimp only
          rw [hd] at v'
          rw [wp_pure]
          refine ⟨q.same.trans sm', q.ke.trans ⟨rfl, rfl, rfl, rfl, fun _ => rfl, .inl, fun _ => rfl⟩, by simp,
            fun hc => absurd rfl hc, fun _ => ⟨rfl, q.ke.orig, [(o1, newSkb (some .v4) c.mark ch.nullPage ch.outLen 20)], ?_, chain1 rfl, v', ?_, fun _ => ⟨_, rfl⟩⟩⟩
          · simp
          · refine ⟨fun hf => ?_, fun _ p hp => ?_, fun hn p hp => ?_⟩
            · have := hq2 (hf.resolve_right (by simp))
              rw [hd] at this
              cases this
            · rw [List.mem_singleton.mp hp]; exact ⟨rfl, rfl⟩
            · rw [List.mem_singleton.mp hp]; exact hn
        | some d =>
          dsimp only
          rw [hd] at v'
          refine wp_seq (skbDstSet_spec j (some d) v' rfl) (fun _ k2 q2 => ?_)
          refine ⟨(q.same.trans sm').trans q2.2, q.ke.trans ⟨rfl, rfl, rfl, rfl, fun _ => rfl, .inl, fun _ => rfl⟩, by simp,
            fun hc => absurd rfl hc, fun _ => ⟨rfl, q.ke.orig,
              [(o1, { newSkb (some .v4) c.mark ch.nullPage ch.outLen 20 with dst := some d })], ?_, chain1 rfl, q2.1, ?_, fun _ => ⟨_, rfl⟩⟩⟩
          · simp
          · refine ⟨fun hf p hp => ?_, fun _ p hp => ?_, fun hn p hp => ?_⟩
            · rw [List.mem_singleton.mp hp]; rfl
            · rw [List.mem_singleton.mp hp]; exact ⟨rfl, rfl⟩
            · rw [List.mem_singleton.mp hp]; exact hn
    · dsimp only; rw [if_pos (not_stolen hx).2]
      refine wp_seq (dstRelease_spec j s1.dst q.inv) (fun _ k' q' => ?_)
      refine ⟨q.same.trans q'.2, q.ke.trans ?_, (not_stolen hx).1, fun _ => q'.1, fun hc => absurd hc (not_stolen hx).2⟩
      exact ⟨rfl, rfl, rfl, rfl, fun _ => rfl, .inl, fun hc => absurd hc (not_stolen hx).2⟩

/-! ### From IPv4 -/

theorem computeFlow46_spec {h : Heap} {o : Own} {sd} {s : St} {i : Nat} {c : Skb} (j : Nat) (hi : s.pin.skb = some i)
    (v : Inv h ((i, c) :: o) sd) (ch : Ch46) :
    wp E (computeFlow46 s ch) (fun r k => Same j h k ∧ Inv k ((i, c) :: o) sd ∧ Ke s r.1 r.2 ∧ r.1 ≠ .stolen ∧
      r.2.pout = s.pout ∧ r.2.dst = s.dst ∧ r.2.hairpin = s.hairpin) h := by
  unfold computeFlow46
  rcases sub_cases s ch.flow with he | ⟨x, ic, he, hx⟩ <;> rw [he]
  · simp only [ne_eq, not_true_eq_false, if_false]
    cases ch.inner with
    | none => exact ⟨Same.refl _ _, v, Ke.refl _ _, by simp, rfl, rfl, rfl⟩
    | some ic =>
      dsimp only
      split
      · exact ⟨Same.refl _ _, v, Ke.refl _ _, by simp, rfl, rfl, rfl⟩
      · refine wp_mono (innerAddrs_spec j hi v ic) (fun r k q => ?_)
        obtain ⟨a, b, d, e, f, g, g', _⟩ := q
        exact ⟨a, b, d, e, f, g, g'⟩
  · dsimp only; rw [if_pos (not_stolen hx).2, wp_pure]
    exact ⟨Same.refl _ _, v, Ke.icmp s ic hx, (not_stolen hx).1, rfl, rfl, rfl⟩

theorem predictRoute46_spec {h : Heap} {o : Own} {sd} {s : St} (j : Nat) (v : Inv h o sd) (ch : Ch46) :
    wp E (predictRoute46 s ch) (fun r k => Routed j h o sd s r.1 r.2 k ∧ (r.1 = .cont → r.2.dst.isSome = true) ∧
      r.2.hairpin = s.hairpin) h := by
  unfold predictRoute46
  refine wp_seq (route6_spec j v ch.route) (fun d k q => ?_)
  cases d with
  | none =>
    exact ⟨⟨q.2, q.1, ⟨rfl, rfl, rfl, rfl, fun _ => rfl, .inl, fun _ => rfl⟩, by simp, rfl⟩, fun hc => (by cases hc), rfl⟩
  | some d =>
    dsimp only
    rcases sub_cases { s with dst := some d } ch.saddr with he | ⟨x, ic, he, hx⟩ <;> rw [he]
    · simp only [ne_eq, not_true_eq_false, if_false]
      exact ⟨⟨q.2, q.1, ⟨rfl, rfl, rfl, rfl, fun _ => rfl, .inl, fun _ => rfl⟩, by simp, rfl⟩, fun _ => rfl, rfl⟩
    · dsimp only
      rw [if_pos (not_stolen hx).2]
      refine wp_seq (dstRelease_spec j (some d) q.1) (fun _ k' q' => ?_)
      refine ⟨⟨q.2.trans q'.2, q'.1, ?_, (not_stolen hx).1, rfl⟩, fun hc => absurd hc (not_stolen hx).2, rfl⟩
      exact ⟨rfl, rfl, rfl, rfl, fun _ => rfl, .inl, fun hc => absurd hc (not_stolen hx).2⟩

/-- A packet from IPv4, as allocated. -/
def Fresh6 (m : BitVec 32) (np : Bool) (p : Nat × Skb) : Prop :=
  p.2.dst = none ∧ p.2.mark = m ∧ p.2.l3 = some .v6 ∧ (np = false → p.2.nullPage = false)

/-- What the allocations leave, before the route is set. -/
structure Alloced' (j : Nat) (h : Heap) (i : Nat) (c : Skb) (o : Own) (sd : List Nat) (s : St) (np one : Bool)
    (v : Verd) (s' : St) (k : Heap) : Prop where
  same : Same j h k
  ke : Ke s v s'
  ns : v ≠ .stolen
  dst : s'.dst = s.dst
  hp : s'.hairpin = s.hairpin
  bad : v ≠ .cont → Inv k ((i, c) :: o) sd
  ok : v = .cont → s'.pout.l3 = .v6 ∧ s'.pout.orig = s.pin.orig ∧ ∃ l, l ≠ [] ∧ Chain s'.pout.skb l ∧
    Inv k (l ++ (i, c) :: o) sd ∧ (∀ p ∈ l, Fresh6 c.mark np p) ∧ (one = true → ∃ p, l = [p])

theorem allocFast_spec {h : Heap} {o : Own} {sd} {s : St} {i : Nat} {c : Skb} (j : Nat) (hi : s.pin.skb = some i)
    (v : Inv h ((i, c) :: o) sd) (ch : Ch46) (one : Bool) :
    wp E (allocFast s ch) (fun r k => Alloced' j h i c o sd s ch.nullPage one r.1 r.2 k) h := by
  unfold allocFast
  split
  · exact ⟨Same.refl _ _, ⟨rfl, rfl, rfl, rfl, fun _ => rfl, .inl, fun _ => rfl⟩, by simp, rfl, rfl, fun _ => v,
      fun hc => (by cases hc)⟩
  · rw [wp_bind, wp_skbOf hi, wp_bind, v.load (List.mem_cons_self ..)]
    refine wp_seq (alloc_spec j v _ rfl) (fun o1 k q => ?_)
    refine ⟨q.2.2, ⟨rfl, rfl, rfl, rfl, fun _ => rfl, .inl, fun _ => rfl⟩, by simp, rfl, rfl, fun hc => absurd rfl hc,
      fun _ => ⟨rfl, rfl, [(o1, newSkb (some .v6) c.mark ch.nullPage ch.outLen 40)], ?_, ?_, q.2.1, ?_, fun _ => ⟨_, rfl⟩⟩⟩
    · simp
    · exact (⟨rfl, trivial⟩ : Chain (some o1) [(o1, newSkb (some .v6) c.mark ch.nullPage ch.outLen 40)])
    · intro p hp
      rw [List.mem_singleton.mp hp]
      exact ⟨rfl, rfl, rfl, id⟩

theorem Chain.snoc {y : Nat × Skb} : ∀ {l : Own} {head : Option Nat} {x : Nat × Skb},
    Chain head (l ++ [x]) → y.2.next = Option.none → Chain head (l ++ [(x.1, { x.2 with next := Option.some y.1 }), y]) := by
  intro l
  induction l with
  | nil =>
    intro head x c hy
    cases head with
    | none => exact absurd c (by simp [Chain])
    | some i =>
      obtain ⟨rfl, c⟩ := c
      exact ⟨rfl, rfl, by rw [hy]; trivial⟩
  | cons p l ih =>
    intro head x c hy
    cases head with
    | none => exact absurd c (by simp [Chain])
    | some i =>
      obtain ⟨q, l', e, c'⟩ := c.some
      cases e
      exact ⟨rfl, ih c' hy⟩

theorem Chain.last : ∀ {l : Own} {head : Option Nat} {x : Nat × Skb}, Chain head (l ++ [x]) → x.2.next = Option.none := by
  intro l
  induction l with
  | nil =>
    intro head x c
    cases head with
    | none => exact absurd c (by simp [Chain])
    | some i =>
      obtain ⟨rfl, c⟩ := c
      cases hn : x.2.next with
      | none => rfl
      | some n => rw [hn] at c; exact absurd c (by simp [Chain])
  | cons p l ih =>
    intro head x c
    cases head with
    | none => exact absurd c (by simp [Chain])
    | some i =>
      obtain ⟨q, l', e, c'⟩ := c.some
      cases e
      exact ih c'

/-- The loop, once there is a packet: `l ++ [x]` is what there is. -/
theorem slowLoop_spec {o : Own} {sd} {i : Nat} {c : Skb} (j : Nat) (ch : Ch46) (np : Bool) : ∀ (fs : List FragCh) (h : Heap)
    (s : St) (l : Own) (x : Nat × Skb), s.pin.skb = some i → Chain s.pout.skb (l ++ [x]) →
    Inv h (l ++ [x] ++ (i, c) :: o) sd → (∀ p ∈ l ++ [x], Fresh6 c.mark np p) → s.pout.l3 = .v6 → s.pout.orig = s.pin.orig →
    wp E (slowLoop ch s (some x.1) fs) (fun r k => Alloced' j h i c o sd s np false r.1 r.2 k) h := by
  intro fs
  induction fs with
  | nil =>
    intro h s l x hi hc v hf h3 ho
    unfold slowLoop
    refine ⟨Same.refl _ _, Ke.refl _ _, by simp, rfl, rfl, fun hn => absurd rfl hn, fun _ => ⟨h3, ho, _, by simp, hc, v, hf,
      fun hn => by cases hn⟩⟩
  | cons f fs ih =>
    intro h s l x hi hc v hf h3 ho
    unfold slowLoop
    split
    · refine wp_seq (kfreeList_spec j hc v) (fun _ k q => ?_)
      exact ⟨q.2, ⟨rfl, rfl, rfl, rfl, fun _ => rfl, .inl, fun _ => rfl⟩, by simp, rfl, rfl, fun _ => q.1, fun hn => (by cases hn)⟩
    · rw [wp_bind, wp_skbOf hi, wp_bind, v.load (c := c) (by simp)]
      refine wp_seq (alloc_spec j v _ rfl) (fun o1 k q => ?_)
      obtain ⟨-, v', sm⟩ := q
      have v2 : Inv k ((x.1, x.2) :: ((o1, newSkb (some .v6) c.mark false ch.outLen 40) :: (l ++ (i, c) :: o))) sd := by
        refine v'.perm ?_
        rw [List.append_assoc]
        refine (List.Perm.cons _ List.perm_middle).trans (List.Perm.swap ..)
      have hl : wp E (link s (some x.1) o1 ch) (fun s' k' => s' = s ∧ Same j h k' ∧
          Inv k' (l ++ [(x.1, { x.2 with next := some o1 })] ++ [(o1, newSkb (some .v6) c.mark false ch.outLen 40)] ++ (i, c) :: o) sd) k := by
        unfold link
        rw [wp_bind, v2.load (List.mem_cons_self ..)]
        refine wp_seq (store_spec j v2 rfl) (fun _ k' q => ?_)
        refine ⟨rfl, sm.trans q.2, q.1.perm ?_⟩
        simp only [List.append_assoc, List.singleton_append]
        exact ((List.Perm.swap ..).trans ((List.Perm.cons _ List.perm_middle.symm).trans (List.perm_middle.symm))).trans
          ((List.perm_middle).trans ((List.Perm.cons _ (List.perm_middle)).trans ((List.Perm.swap ..).trans
            ((List.Perm.cons _ List.perm_middle.symm).trans List.perm_middle.symm))))
      refine wp_seq hl (fun s' k' q => ?_)
      obtain ⟨rfl, sm', v3⟩ := q
      have hc' : Chain s'.pout.skb (l ++ [(x.1, { x.2 with next := some o1 })] ++ [(o1, newSkb (some .v6) c.mark false ch.outLen 40)]) := by
        have := hc.snoc (y := (o1, newSkb (some .v6) c.mark false ch.outLen 40)) rfl
        simpa using this
      have hf' : ∀ p ∈ l ++ [(x.1, { x.2 with next := some o1 })] ++ [(o1, newSkb (some .v6) c.mark false ch.outLen 40)],
          Fresh6 c.mark np p := by
        intro p hp
        simp only [List.mem_append, List.mem_singleton] at hp
        rcases hp with (hp | rfl) | rfl
        · exact hf p (by simp [hp])
        · exact hf x (by simp)
        · exact ⟨rfl, rfl, rfl, fun _ => rfl⟩
      split
      · refine wp_seq (kfreeList_spec j hc' v3) (fun _ k2 q => ?_)
        exact ⟨sm'.trans q.2, ⟨rfl, rfl, rfl, rfl, fun _ => rfl, .inl, fun _ => rfl⟩, by simp, rfl, rfl, fun _ => q.1,
          fun hn => (by cases hn)⟩
      · refine wp_mono (ih k' s' _ _ hi hc' v3 hf' h3 ho) (fun r k2 q => ?_)
        exact ⟨sm'.trans q.same, q.ke, q.ns, q.dst, q.hp, q.bad, q.ok⟩

end Jool.Life
