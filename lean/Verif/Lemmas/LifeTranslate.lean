import Verif.Lemmas.LifeXlat
/-
Who owns what after a packet was translated, and after its translation was sent (`Verif.Model.Life`).
-/
namespace Jool.Life

variable {E : UB → Prop}

theorem slow_spec {h : Heap} {o : Own} {sd} {s : St} {i : Nat} {c : Skb} (j : Nat) (hi : s.pin.skb = some i)
    (hp : s.pout.skb = none) (v : Inv h ((i, c) :: o) sd) (ch : Ch46) (np : Bool) (f : FragCh) (fs : List FragCh) :
    wp E (slowLoop ch s none (f :: fs)) (fun r k => Alloced' j h i c o sd s np false r.1 r.2 k) h := by
  unfold slowLoop
  split
  · have hc : Chain s.pout.skb [] := by rw [hp]; trivial
    refine wp_seq (kfreeList_spec j hc v) (fun _ k q => ?_)
    exact ⟨q.2, ⟨rfl, rfl, rfl, rfl, fun _ => rfl, .inl, fun _ => rfl⟩, by simp, rfl, rfl, fun _ => q.1, fun hn => (by cases hn)⟩
  · rw [wp_bind, wp_skbOf hi, wp_bind, v.load (List.mem_cons_self ..)]
    refine wp_seq (alloc_spec j v _ rfl) (fun o1 k q => ?_)
    obtain ⟨-, v', sm⟩ := q
    unfold link
    rw [wp_bind, wp_pure]
    have hc : Chain (some o1) ([] ++ [(o1, newSkb (some .v6) c.mark false ch.outLen 40)]) := chain1 rfl
    split
    · refine wp_seq (kfreeList_spec j hc v') (fun _ k2 q => ?_)
      exact ⟨sm.trans q.2, ⟨rfl, rfl, rfl, rfl, fun _ => rfl, .inl, fun _ => rfl⟩, by simp, rfl, rfl, fun _ => q.1,
        fun hn => (by cases hn)⟩
    · refine wp_mono (slowLoop_spec (i := i) (c := c) (o := o) (sd := sd) j ch np fs k
        { s with pout := ⟨some o1, .v6, false, ch.hdrs, s.pin.orig⟩ } []
        (o1, newSkb (some .v6) c.mark false ch.outLen 40) hi hc v' ?_ rfl rfl) (fun r k2 q => ?_)
      · intro p hp
        simp only [List.nil_append, List.mem_singleton] at hp
        rw [hp]
        exact ⟨rfl, rfl, rfl, fun _ => rfl⟩
      · exact ⟨sm.trans q.same, ⟨q.ke.nat, q.ke.skb, q.ke.l3, q.ke.orig, q.ke.hp, q.ke.hp6, q.ke.ic⟩, q.ns, q.dst, q.hp, q.bad, q.ok⟩

/-- All packets get the route. -/
def withDst (d : Nat) (l : Own) : Own := l.map (fun p => (p.1, { p.2 with dst := some d }))

theorem chain_withDst (d : Nat) : ∀ {l : Own} {head : Option Nat}, Chain head l → Chain head (withDst d l) := by
  intro l
  induction l with
  | nil => intro head c; exact c
  | cons p l ih =>
    intro head c
    cases head with
    | none => exact absurd c (by simp [Chain])
    | some i =>
      obtain ⟨q, l', e, c'⟩ := c.some
      cases e
      exact ⟨rfl, ih c'⟩

theorem autofillGo_spec {sd} (j d : Nat) : ∀ (l : Own) (head : Option Nat) (n : Nat) (h : Heap) (o : Own), Chain head l →
    l.length ≤ n → (∀ p ∈ l, p.2.dst = none) → Inv h (l ++ o) sd →
    wp E (autofillGo d n head) (fun _ k => Inv k (withDst d l ++ o) sd ∧ Same j h k) h := by
  intro l
  induction l with
  | nil =>
    intro head n h o c _ _ v
    cases head with
    | some i => exact absurd c (by simp [Chain])
    | none => unfold autofillGo; exact ⟨v, Same.refl _ _⟩
  | cons p l ih =>
    intro head n h o c hn hd v
    cases head with
    | none => exact absurd c (by simp [Chain])
    | some i =>
      obtain ⟨x, l', e, c'⟩ := c.some
      cases e
      obtain ⟨n, rfl⟩ : ∃ m, n = m + 1 := ⟨n - 1, by simp at hn; omega⟩
      unfold autofillGo
      rw [wp_bind, v.load (c := x) (by simp)]
      refine wp_seq (dstHold_spec j v d) (fun _ k q => ?_)
      refine wp_seq (skbDstSet_spec j (some d) q.1 (hd (i, x) (by simp))) (fun _ k' q' => ?_)
      refine wp_mono (ih x.next n k' ((i, { x with dst := some d }) :: o) c' (by simpa using hn)
        (fun p hp => hd p (by simp [hp])) (q'.1.perm List.perm_middle.symm)) (fun _ k2 q2 => ?_)
      exact ⟨q2.1.perm List.perm_middle, (q.2.trans q'.2).trans q2.2⟩

theorem autofill_spec {h : Heap} {l o : Own} {sd} {s : St} {d : Nat} (j : Nat) (hd : s.dst = some d) (hl : l ≠ [])
    (hc : Chain s.pout.skb l) (hn : ∀ p ∈ l, p.2.dst = none) (v : Inv h (l ++ o) (s.dst.toList ++ sd)) :
    wp E (autofill s) (fun s' k => s' = { s with dst := none } ∧ Inv k (withDst d l ++ o) sd ∧ Same j h k) h := by
  unfold autofill
  cases hp : s.pout.skb with
  | none => rw [hp] at hc; exact absurd hc.none hl
  | some i =>
    rw [hp] at hc
    obtain ⟨x, l', rfl, c'⟩ := hc.some
    rw [wp_bind, wp_skbOf hp, hd]
    rw [hd] at v
    dsimp only
    refine wp_seq (skbDstSet_spec j (some d) v (hn (i, x) (by simp))) (fun _ k q => ?_)
    rw [wp_bind, q.1.load (List.mem_cons_self ..), wp_bind, wp_get]
    have len := q.1.len
    have : (l' ++ o).length = l'.length + o.length := List.length_append
    have : ((i, { x with dst := some d }) :: (l' ++ o)).length ≤ k.top := len
    rw [List.length_cons] at this
    refine wp_seq (autofillGo_spec j d l' x.next k.top k ((i, { x with dst := some d }) :: o) c' (by omega)
      (fun p hp => hn p (by simp [hp])) (q.1.perm List.perm_middle.symm)) (fun _ k' q' => ?_)
    exact ⟨rfl, q'.1.perm List.perm_middle, q.2.trans q'.2⟩

theorem allocate46_spec {h : Heap} {o : Own} {sd} {s : St} {i : Nat} {c : Skb} (j : Nat) (hi : s.pin.skb = some i)
    (hp : s.pout.skb = none) (v : Inv h ((i, c) :: o) sd) (ch : Ch46) :
    wp E (allocate46 s ch) (fun r k => Alloced' j h i c o sd s ch.nullPage ch.isError r.1 r.2 k) h := by
  unfold allocate46
  rcases sub_cases s ch.mtu with he | ⟨x, ic, he, hx⟩ <;> rw [he]
  · dsimp only
    by_cases hE : ch.isError = true
    · rw [if_pos hE]
      exact allocFast_spec j hi v ch _
    · have hE : ch.isError = false := by simpa using hE
      rw [hE]
      simp only [Bool.false_eq_true, if_false]
      cases ch.mode with
      | tooBig =>
        exact ⟨Same.refl _ _, Ke.icmp s _ (.inl rfl), by simp, rfl, rfl, fun _ => v, fun hn => (by cases hn)⟩
      | fast => exact allocFast_spec j hi v ch _
      | slow f fs => exact slow_spec j hi hp v ch _ f fs
  · rcases hx with rfl | rfl
    · exact ⟨Same.refl _ _, Ke.icmp s ic (.inl rfl), by simp, rfl, rfl, fun _ => v, fun hn => (by cases hn)⟩
    · exact ⟨Same.refl _ _, Ke.icmp s ic (.inr rfl), by simp, rfl, rfl, fun _ => v, fun hn => (by cases hn)⟩

theorem alloc46_spec {h : Heap} {o : Own} {sd} {s : St} {i : Nat} {c : Skb} (j : Nat) (hi : s.pin.skb = some i)
    (hp : s.pout.skb = none) (hd : s.dst = none) (v : Inv h ((i, c) :: o) sd) (ch : Ch46) :
    wp E (alloc46 s ch) (fun r k => Alloced j h i c o sd s .v6 ch.nullPage ch.isError r.1 r.2 k) h := by
  unfold alloc46
  refine wp_seq (computeFlow46_spec j hi v ch) (fun r k q => ?_)
  obtain ⟨w, s1⟩ := r
  obtain ⟨sm, v1, ke, ns, po, ds, hh⟩ := q
  dsimp only at *
  by_cases hw : w ≠ .cont
  · rw [if_pos hw, wp_pure]
    exact ⟨sm, ke, ns, fun _ => by dsimp only; rw [ds, hd]; exact v1, fun hc => absurd hc hw⟩
  have hw : w = .cont := by simpa using hw
  subst hw
  rw [if_neg (by simp)]
  refine wp_seq (predictRoute46_spec j v1 ch) (fun r k2 q => ?_)
  obtain ⟨w, s2⟩ := r
  obtain ⟨q, hs, hh2⟩ := q
  dsimp only at *
  have ke2 := ke.trans q.ke
  by_cases hw : w ≠ .cont
  · rw [if_pos hw, wp_pure]
    exact ⟨sm.trans q.same, ke2, q.ns, fun _ => q.inv, fun hc => absurd hc hw⟩
  have hw : w = .cont := by simpa using hw
  subst hw
  rw [if_neg (by simp)]
  obtain ⟨d, hd2⟩ := Option.isSome_iff_exists.mp (hs rfl)
  refine wp_seq (allocate46_spec j (ke2.skb.trans hi) (by rw [q.pout, po, hp]) q.inv ch) (fun r k3 a => ?_)
  obtain ⟨w, s3⟩ := r
  dsimp only at *
  have ke3 := ke2.trans a.ke
  by_cases hw : w ≠ .cont
  · rw [if_pos hw]
    have b := a.bad hw
    rw [← a.dst] at b
    refine wp_seq (dstRelease_spec j s3.dst b) (fun _ k4 q4 => ?_)
    exact ⟨((sm.trans q.same).trans a.same).trans q4.2,
      ⟨ke3.nat, ke3.skb, ke3.l3, ke3.orig, ke3.hp, ke3.hp6, ke3.ic⟩, a.ns, fun _ => q4.1, fun hc => absurd hc hw⟩
  have hw : w = .cont := by simpa using hw
  subst hw
  rw [if_neg (by simp)]
  obtain ⟨p3, po3, l, hl, hc, v3, hf, one⟩ := a.ok rfl
  rw [← a.dst] at v3
  refine wp_seq (autofill_spec j (a.dst.trans hd2) hl hc (fun p hp => (hf p hp).1) v3) (fun s4 k4 q4 => ?_)
  obtain ⟨rfl, v4, sm4⟩ := q4
  refine ⟨((sm.trans q.same).trans a.same).trans sm4, ⟨ke3.nat, ke3.skb, ke3.l3, ke3.orig, ke3.hp, ke3.hp6, ke3.ic⟩, by simp,
    fun hn => absurd rfl hn, fun _ => ⟨p3, po3.trans ke2.orig, withDst d l, ?_, chain_withDst d hc, v4, ⟨?_, ?_, ?_⟩, ?_⟩⟩
  · cases l with
    | nil => exact absurd rfl hl
    | cons a l => simp [withDst]
  · intro _ p hp
    obtain ⟨x, -, rfl⟩ := List.mem_map.mp hp
    rfl
  · intro _ p hp
    obtain ⟨x, hx, rfl⟩ := List.mem_map.mp hp
    exact ⟨(hf x hx).2.1, (hf x hx).2.2.1⟩
  · intro hn p hp
    obtain ⟨x, hx, rfl⟩ := List.mem_map.mp hp
    exact (hf x hx).2.2.2 hn
  · intro h1
    obtain ⟨p, rfl⟩ := one h1
    exact ⟨_, rfl⟩

/-! ### The rest of the translation -/

/-- No leak is to be expected from the headers of layer 4. -/
def L4Ch.Fine (ch : L4Ch) : Prop := ch.ie ≠ some .copyFails

theorem fixIe_spec {h : Heap} {o : Own} {sd} {s : St} {o1 : Nat} {d : Skb} (j : Nat) (ho : s.pout.skb = some o1)
    (v : Inv h ((o1, d) :: o) sd) (ie : IeCh) :
    wp E (fixIe s ie) (fun r k => Same j h k ∧ Ke s r.1 r.2 ∧ r.2.dst = s.dst ∧ r.2.hairpin = s.hairpin ∧
      r.2.pout.l3 = s.pout.l3 ∧ r.2.pout.orig = s.pout.orig ∧
      ((r.1 = .drop ∧ r.2.pout.skb = some o1 ∧ ∃ lk, Inv k ((o1, d) :: (lk ++ o)) sd ∧ (ie ≠ .copyFails → lk = [])) ∨
       (r.1 = .cont ∧ ∃ o2 d2, r.2.pout.skb = some o2 ∧ Inv k ((o2, d2) :: o) sd ∧ d2.dst = d.dst ∧ d2.next = none ∧
         d2.nullPage = false))) h := by
  cases ie with
  | oom =>
    exact ⟨Same.refl _ _, Ke.to _ (Ke.refl s .cont) (by simp), rfl, rfl, rfl, rfl, .inl ⟨rfl, ho, [], v, fun _ => rfl⟩⟩
  | copyFails =>
    unfold fixIe
    refine wp_seq (alloc_spec j v _ rfl) (fun x k q => ?_)
    exact ⟨q.2.2, Ke.to _ (Ke.refl s .cont) (by simp), rfl, rfl, rfl, rfl,
      .inl ⟨rfl, ho, [_], swap2 q.2.1, fun hn => absurd rfl hn⟩⟩
  | ok len =>
    unfold fixIe
    rw [wp_bind, wp_skbOf ho, wp_bind, v.load (List.mem_cons_self ..)]
    refine wp_seq (alloc_spec j v _ rfl) (fun x k q => ?_)
    obtain ⟨-, v1, sm⟩ := q
    have fin : ∀ k' e, e = d.dst → Same j h k' →
        Inv k' ((x, { newSkb none 0 false len (d.th - d.data) with dst := e }) :: (o1, d) :: o) sd →
        wp E (do kfree (some o1); pure (Verd.cont, { s with pout := withSkb s.pout (some x) })) (fun r k => Same j h k ∧ Ke s r.1 r.2 ∧ r.2.dst = s.dst ∧ r.2.hairpin = s.hairpin ∧
      r.2.pout.l3 = s.pout.l3 ∧ r.2.pout.orig = s.pout.orig ∧
      ((r.1 = .drop ∧ r.2.pout.skb = some o1 ∧ ∃ lk, Inv k ((o1, d) :: (lk ++ o)) sd ∧ (IeCh.ok len ≠ .copyFails → lk = [])) ∨
       (r.1 = .cont ∧ ∃ o2 d2, r.2.pout.skb = some o2 ∧ Inv k ((o2, d2) :: o) sd ∧ d2.dst = d.dst ∧ d2.next = none ∧
         d2.nullPage = false))) k' := by
      intro k' e he sm' v'
      refine wp_seq (kfree_spec j (swap2 v')) (fun _ k2 q2 => ?_)
      exact ⟨sm'.trans q2.2, ⟨rfl, rfl, rfl, rfl, fun _ => rfl, .inl, fun _ => rfl⟩, rfl, rfl, rfl, rfl,
        .inr ⟨rfl, x, _, rfl, q2.1, he, rfl, rfl⟩⟩
    cases hd : d.dst with
    | none =>
      dsimp only
      refine wp_seq (skbDstSet_spec j none v1 rfl) (fun _ k' q' => ?_)
      have := fin k' none hd.symm (sm.trans q'.2) q'.1
      rw [hd] at this
      exact this
    | some e =>
      dsimp only
      refine wp_seq (dstHold_spec j v1 e) (fun _ k' q' => ?_)
      refine wp_seq (skbDstSet_spec j (some e) q'.1 rfl) (fun _ k2 q2 => ?_)
      have := fin k2 (some e) hd.symm ((sm.trans q'.2).trans q2.2) q2.1
      rw [hd] at this
      exact this

/-- What the translation of the layer 4 header leaves. -/
structure L4ed (j : Nat) (h : Heap) (i : Nat) (c : Skb) (o : Own) (sd : List Nat) (s : St) (l3 : L3) (must pl fine : Prop)
    (np one : Bool) (v : Verd) (s' : St) (k : Heap) : Prop where
  same : Same j h k
  ke : Ke s v s'
  ns : v ≠ .stolen
  dst : s'.dst = s.dst
  hp : s'.hairpin = s.hairpin
  pl3 : s'.pout.l3 = s.pout.l3
  por : s'.pout.orig = s.pout.orig
  own : ∃ l c' lk, l ≠ [] ∧ Chain s'.pout.skb l ∧ Inv k (l ++ (i, c') :: (lk ++ o)) sd ∧ Moved c c' ∧ (v ≠ .drop → c' = c) ∧
    (fine → lk = []) ∧ (v = .cont → lk = []) ∧ Outs c.mark l3 must pl np l ∧ (one = true → ∃ p, l = [p])

theorem xlatL4_spec {h : Heap} {l o : Own} {sd} {s : St} {i : Nat} {c : Skb} {l3 : L3} {must : Prop} {np one : Bool} (j : Nat)
    (hi : s.pin.skb = some i) (hl : l ≠ []) (hc : Chain s.pout.skb l) (v : Inv h (l ++ (i, c) :: o) sd)
    (ho : Outs c.mark l3 must True np l) (ch : L4Ch) (h1 : ch.inner.isSome = true → ∃ p, l = [p]) (h2 : one = true → ∃ p, l = [p]) :
    wp E (xlatL4 s ch) (fun r k => L4ed j h i c o sd s l3 must (ch.ie = none) ch.Fine np one r.1 r.2 k) h := by
  have ho' : Outs c.mark l3 must (ch.ie = none) np l := ⟨ho.dst, fun _ => ho.plain trivial, ho.page⟩
  unfold xlatL4
  rcases (sub_cases s ch.pre).symm with ⟨x, ic, he, hx⟩ | he <;> rw [he]
  · dsimp only
    rw [if_pos (not_stolen hx).2, wp_pure]
    exact ⟨Same.refl _ _, Ke.icmp s ic hx, (not_stolen hx).1, rfl, rfl, rfl, rfl,
      ⟨l, c, [], hl, hc, v, .refl _, fun _ => rfl, fun _ => rfl, fun _ => rfl, ho', h2⟩⟩
  dsimp only
  rw [if_neg (by simp)]
  have post : ∀ (s' : St) (k : Heap) (l' : Own), Same j h k → Ke s .cont s' → s'.dst = s.dst → s'.hairpin = s.hairpin →
      s'.pout.l3 = s.pout.l3 → s'.pout.orig = s.pout.orig → l' ≠ [] → Chain s'.pout.skb l' → Inv k (l' ++ (i, c) :: o) sd →
      Outs c.mark l3 must (ch.ie = none) np l' → (one = true → ∃ p, l' = [p]) →
      L4ed j h i c o sd s l3 must (ch.ie = none) ch.Fine np one (sub s' ch.post).1 (sub s' ch.post).2 k := by
    intro s' k l' a1 a2 a3 a4 a5 a6 a7 a8 a9 a10 a11
    rcases sub_cases s' ch.post with he | ⟨x, ic, he, hx⟩ <;> rw [he]
    · exact ⟨a1, a2, by simp, a3, a4, a5, a6, l', c, [], a7, a8, a9, .refl _, fun _ => rfl, fun _ => rfl, fun _ => rfl, a10, a11⟩
    · exact ⟨a1, a2.trans (Ke.icmp s' ic hx), (not_stolen hx).1, a3, a4, a5, a6, l', c, [], a7, a8, a9, .refl _, fun _ => rfl,
        fun _ => rfl, fun _ => rfl, a10, a11⟩
  cases hin : ch.inner with
  | none =>
    unfold xlatInner
    rw [wp_bind, wp_pure]
    dsimp only
    rw [if_neg (by simp)]
    have e : xlatIe s none ch.ie = pure (.cont, s) := by cases ch.ie <;> rfl
    rw [e, wp_bind, wp_pure]
    dsimp only
    rw [if_neg (by simp), wp_pure]
    exact post s h l (Same.refl _ _) (Ke.refl _ _) rfl rfl rfl rfl hl hc v ho' h2
  | some inn =>
    obtain ⟨⟨o1, d⟩, rfl⟩ := h1 (by rw [hin]; rfl)
    have hpo : s.pout.skb = some o1 := by
      cases hs : s.pout.skb with
      | none => rw [hs] at hc; exact absurd hc.none (by simp)
      | some x => rw [hs] at hc; rw [hc.1]
    have hnx : d.next = none := Chain.last (l := []) hc
    have hd := ho.dst
    unfold xlatInner
    refine wp_seq (translateInner_spec j hi hpo v inn) (fun r k q => ?_)
    obtain ⟨w, s1⟩ := r
    obtain ⟨sm, ⟨c', d', v1, mc, md, hcd⟩, ke, hw, po, pl3, por, ds, hh⟩ := q
    dsimp only at *
    rcases hw.symm with rfl | rfl
    · rw [if_pos (by simp), wp_pure]
      refine ⟨sm, ke, by simp, ds, hh, pl3, por, [(o1, d')], c', [], by simp, ?_, v1, mc, fun hn => absurd rfl hn, fun _ => rfl,
        fun _ => rfl, ⟨?_, ?_, ?_⟩, fun _ => ⟨_, rfl⟩⟩
      · dsimp only; rw [po]; exact chain1 (md.next.trans hnx)
      · intro hm p hp
        rw [List.mem_singleton.mp hp]
        have := ho.dst hm (o1, d) (by simp)
        exact md.dst ▸ this
      · intro _ p hp
        rw [List.mem_singleton.mp hp]
        have := ho.plain trivial (o1, d) (by simp)
        exact ⟨md.mark.trans this.1, md.l3.trans this.2⟩
      · intro hn p hp
        rw [List.mem_singleton.mp hp]
        exact md.page.trans (ho.page hn (o1, d) (by simp))
    rw [if_neg (by simp)]
    obtain ⟨rfl, rfl⟩ := hcd (by simp)
    cases hie : ch.ie with
    | none =>
      unfold xlatIe
      rw [wp_bind, wp_pure]
      dsimp only
      rw [if_neg (by simp), wp_pure]
      have := post s1 k [(o1, d')] sm ke ds hh pl3 por (by simp) (by rw [po]; exact chain1 hnx) v1 ho' (fun _ => ⟨_, rfl⟩)
      rw [hie] at this
      exact this
    | some ie =>
      unfold xlatIe
      refine wp_seq (fixIe_spec j po v1 ie) (fun r k2 q => ?_)
      obtain ⟨w, s2⟩ := r
      obtain ⟨sm2, ke2, ds2, hh2, pl2, por2, q⟩ := q
      dsimp only at *
      rcases q with ⟨rfl, po2, lk, v2, hlk⟩ | ⟨rfl, o2, d2, po2, v2, e1, e2, e3⟩
      · rw [if_pos (by simp), wp_pure]
        refine ⟨sm.trans sm2, ke.trans ke2, by simp, ds2.trans ds, hh2.trans hh, pl2.trans pl3, por2.trans por, [(o1, d')], c', lk,
          by simp, ?_, ?_, .refl _, fun _ => rfl, fun hf => ?_, fun hn => (by cases hn), hie ▸ ho', fun _ => ⟨_, rfl⟩⟩
        · dsimp only; rw [po2]; exact chain1 hnx
        · exact v2.perm (List.Perm.cons _ List.perm_middle)
        · refine hlk (fun hx => hf ?_)
          rw [hie, hx]
      · rw [if_neg (by simp), wp_pure]
        have := post s2 k2 [(o2, d2)] (sm.trans sm2) (ke.trans ke2) (ds2.trans ds) (hh2.trans hh) (pl2.trans pl3) (por2.trans por)
          (by simp) (by rw [po2]; exact chain1 e2) v2 ⟨?_, ?_, ?_⟩ (fun _ => ⟨_, rfl⟩)
        · rw [hie] at this
          exact this
        · intro hm p hp
          rw [List.mem_singleton.mp hp]
          have := ho.dst hm (o1, d') (by simp)
          exact e1 ▸ this
        · intro hn
          rw [hie] at hn; cases hn
        · intro _ p hp
          rw [List.mem_singleton.mp hp]
          exact e3

theorem hasNullPage_spec {o : Own} {sd} : ∀ (l : Own) (head : Option Nat) (n : Nat) (h : Heap), Chain head l →
    l.length ≤ n → Inv h (l ++ o) sd →
    wp E (hasNullPage n head) (fun b k => k = h ∧ (b = true → ∃ p ∈ l, p.2.nullPage = true)) h := by
  intro l
  induction l generalizing o with
  | nil =>
    intro head n h c _ v
    cases head with
    | some i => exact absurd c (by simp [Chain])
    | none => unfold hasNullPage; exact ⟨rfl, fun hn => (by cases hn)⟩
  | cons p l ih =>
    intro head n h c hn v
    cases head with
    | none => exact absurd c (by simp [Chain])
    | some i =>
      obtain ⟨x, l', e, c'⟩ := c.some
      cases e
      obtain ⟨n, rfl⟩ : ∃ m, n = m + 1 := ⟨n - 1, by simp at hn; omega⟩
      unfold hasNullPage
      rw [wp_bind, v.load (c := x) (by simp)]
      split
      · rename_i hx
        exact ⟨rfl, fun _ => ⟨(i, x), by simp, hx⟩⟩
      · refine wp_mono (ih (o := (i, x) :: o) x.next n h c' (by simpa using hn) (v.perm List.perm_middle.symm)) (fun b k q => ?_)
        refine ⟨q.1, fun hb => ?_⟩
        obtain ⟨p, hp, hq⟩ := q.2 hb
        exact ⟨p, by simp [hp], hq⟩

theorem kfreeOut_spec {h : Heap} {l o : Own} {sd} {s : St} (j : Nat) (hc : Chain s.pout.skb l) (v : Inv h (l ++ o) sd) :
    wp E (kfreeOut s) (fun s' k => s' = { s with pout := withSkb s.pout none } ∧ Same j h k ∧
      ∃ lk, Inv k (lk ++ o) sd ∧ ((∀ p ∈ l, p.2.nullPage = false) → lk = [])) h := by
  unfold kfreeOut
  have len := v.len
  rw [List.length_append] at len
  rw [wp_bind, wp_get]
  refine wp_seq (hasNullPage_spec l _ h.top h hc (by omega) v) (fun b k q => ?_)
  obtain ⟨rfl, hb⟩ := q
  cases b with
  | true =>
    simp only [if_true]
    refine ⟨rfl, Same.refl _ _, l, v, fun hn => ?_⟩
    obtain ⟨p, hp, hq⟩ := hb rfl
    rw [hn p hp] at hq
    cases hq
  | false =>
    simp only [Bool.false_eq_true, if_false]
    refine wp_seq (kfreeList_spec j hc v) (fun _ k2 q => ?_)
    exact ⟨rfl, q.2, [], q.1, fun _ => rfl⟩

/-- What the translation of a packet leaves. `fine`: it is known not to leak. -/
structure Xlated (j : Nat) (h : Heap) (i : Nat) (c : Skb) (o : Own) (sd : List Nat) (s : St) (l3 : L3) (pl fine : Prop)
    (v : Verd) (s' : St) (k : Heap) : Prop where
  same : Same j h k
  ke : Ke s v s'
  ns : v ≠ .stolen
  bad : v ≠ .cont → ∃ c' lk, Inv k ((i, c') :: (lk ++ o)) (s'.dst.toList ++ sd) ∧ Moved c c' ∧ (v ≠ .drop → c' = c) ∧
    (fine → lk = [])
  ok : v = .cont → s'.pout.l3 = l3 ∧ s'.pout.orig = s.pin.orig ∧ ∃ l, l ≠ [] ∧ Chain s'.pout.skb l ∧
    Inv k (l ++ (i, c) :: o) (s'.dst.toList ++ sd) ∧ Outs c.mark l3 (s'.hairpin = false ∨ l3 = .v6) pl true l ∧
    (l3 = .v4 → ∃ p, l = [p])

/-- No leak is to be expected from the layer 4 header, if there is one. -/
def FineL4 (l4 : Option L4Ch) : Prop := ∀ l, l4 = some l → l.ie ≠ some .copyFails
/-- There are no ICMP extensions to be moved. -/
def PlainL4 (l4 : Option L4Ch) : Prop := ∀ l, l4 = some l → l.ie = none

theorem Outs.weaken {m l3 must pl np pl'} {l : Own} (x : Outs m l3 must pl np l) (h : pl' → pl) : Outs m l3 must pl' true l :=
  ⟨x.dst, fun hp => x.plain (h hp), fun hn => (by cases hn)⟩

theorem afterAlloc_spec {h0 h : Heap} {o : Own} {sd} {s0 s : St} {i : Nat} {c : Skb} {l3 : L3} {np one : Bool} (j : Nat)
    (hi : s0.pin.skb = some i) (a : Alloced j h0 i c o sd s0 l3 np one .cont s h) (sb : Sub) (l4 : Option L4Ch)
    (h1 : ∀ x, l4 = some x → x.inner.isSome = true → one = true) (h4 : l3 = .v4 → one = true) :
    wp E (afterAlloc s sb l4) (fun r k => Xlated j h0 i c o sd s0 l3 (PlainL4 l4) (np = false ∧ FineL4 l4) r.1 r.2 k) h := by
  obtain ⟨p3, por, l, hl, hc, v, ho, hone⟩ := a.ok rfl
  unfold afterAlloc
  rcases (sub_cases s sb).symm with ⟨x, ic, he, hx⟩ | he <;> rw [he]
  · dsimp only
    rw [if_pos (not_stolen hx).2]
    refine wp_seq (kfreeOut_spec (s := { s with icmp := ic }) j hc v) (fun s' k q => ?_)
    obtain ⟨rfl, sm, lk, v', hlk⟩ := q
    have ke := a.ke.trans (Ke.icmp s ic hx)
    exact ⟨a.same.trans sm, ⟨ke.nat, ke.skb, ke.l3, ke.orig, ke.hp, ke.hp6, ke.ic⟩, (not_stolen hx).1,
      fun _ => ⟨c, lk, v'.perm List.perm_middle, .refl _, fun _ => rfl, fun hf => hlk (ho.page hf.1)⟩,
      fun hn => absurd hn (not_stolen hx).2⟩
  · dsimp only
    rw [if_neg (by simp)]
    cases l4 with
    | none =>
      exact ⟨a.same, a.ke, by simp, fun hn => absurd rfl hn, fun _ => ⟨p3, por, l, hl, hc, v, ho.weaken (fun _ => trivial),
        fun h => hone (h4 h)⟩⟩
    | some l4 =>
      refine wp_seq (xlatL4_spec (one := one) j (a.ke.skb.trans hi) hl hc v ho l4 (fun hs => hone (h1 l4 rfl hs)) hone)
        (fun r k q => ?_)
      obtain ⟨w, s1⟩ := r
      obtain ⟨l', c', lk, hl', hc', v', mc, hcc, hlk, hlk', ho', hone'⟩ := q.own
      dsimp only at *
      by_cases hw : w ≠ .cont
      · rw [if_pos hw]
        refine wp_seq (kfreeOut_spec j hc' v') (fun s' k2 q2 => ?_)
        obtain ⟨rfl, sm2, lk2, v2, hlk2⟩ := q2
        have ke := a.ke.trans q.ke
        refine ⟨(a.same.trans q.same).trans sm2, ⟨ke.nat, ke.skb, ke.l3, ke.orig, ke.hp, ke.hp6, ke.ic⟩, q.ns,
          fun _ => ⟨c', lk2 ++ lk, ?_, mc, hcc, fun hf => ?_⟩, fun hn => absurd hn hw⟩
        · dsimp only
          rw [q.dst]
          refine v2.perm ?_
          rw [List.append_assoc]
          exact List.perm_middle
        · rw [hlk2 (ho'.page hf.1), hlk (hf.2 l4 rfl)]
          rfl
      · have hw : w = .cont := by simpa using hw
        subst hw
        rw [if_neg (by simp), wp_pure]
        have e1 := hcc (by simp)
        have e2 := hlk' rfl
        subst e1
        subst e2
        refine ⟨a.same.trans q.same, a.ke.trans q.ke, by simp, fun hn => absurd rfl hn,
          fun _ => ⟨q.pl3.trans p3, q.por.trans por, l', hl', hc', ?_, ?_, fun h => hone' (h4 h)⟩⟩
        · dsimp only
          rw [q.dst]
          exact v'
        · dsimp only
          rw [q.hp]
          exact ho'.weaken (fun hp => hp l4 rfl)

/-- There are no ICMP extensions to be moved. -/
def XlatCh.Plain (ch : XlatCh) : Prop := PlainL4 ch.six.l4 ∧ PlainL4 ch.four.l4
/-- What is known to leak does not happen: a page is missing (#352), or an ICMP extension cannot be copied. -/
def XlatCh.Fine (ch : XlatCh) : Prop :=
  ch.six.nullPage = false ∧ FineL4 ch.six.l4 ∧ ch.four.nullPage = false ∧ FineL4 ch.four.l4

def L3.other : L3 → L3
  | .v4 => .v6
  | .v6 => .v4

theorem Xlated.weaken {j h i c o sd s l3 pl fine v s' k} {pl' fine' : Prop} (x : Xlated j h i c o sd s l3 pl fine v s' k)
    (a : pl' → pl) (b : fine' → fine) : Xlated j h i c o sd s l3 pl' fine' v s' k := by
  refine ⟨x.same, x.ke, x.ns, fun hn => ?_, fun hv => ?_⟩
  · obtain ⟨c', lk, p, q, r, t⟩ := x.bad hn
    exact ⟨c', lk, p, q, r, fun hf => t (b hf)⟩
  · obtain ⟨p, q, l, r, t, u, w, z⟩ := x.ok hv
    exact ⟨p, q, l, r, t, u, w.weaken a, z⟩

theorem translate_spec {h : Heap} {o : Own} {sd} {s : St} {i : Nat} {c : Skb} (j : Nat) (hi : s.pin.skb = some i)
    (hp : s.pout.skb = none) (hd : s.pin.l3 = .v4 → s.dst = none) (v : Inv h ((i, c) :: o) (s.dst.toList ++ sd)) (ch : XlatCh) :
    wp E (translate s ch) (fun r k => Xlated j h i c o sd s s.pin.l3.other ch.Plain ch.Fine r.1 r.2 k) h := by
  unfold translate
  cases h3 : s.pin.l3 with
  | v6 =>
    dsimp only
    refine wp_seq (alloc64_spec j hi h3 v ch.six) (fun r k q => ?_)
    obtain ⟨w, s1⟩ := r
    dsimp only at *
    by_cases hw : w ≠ .cont
    · rw [if_pos hw, wp_pure]
      exact ⟨q.same, q.ke, q.ns, fun _ => ⟨c, [], q.bad hw, .refl _, fun _ => rfl, fun _ => rfl⟩, fun hn => absurd hn hw⟩
    · have hw : w = .cont := by simpa using hw
      subst hw
      rw [if_neg (by simp)]
      refine wp_mono (afterAlloc_spec j hi q ch.six.l3 ch.six.l4 (fun _ _ _ => rfl) (fun _ => rfl)) (fun r k2 q2 => ?_)
      exact q2.weaken (fun x => x.1) (fun x => ⟨x.1, x.2.1⟩)
  | v4 =>
    dsimp only
    rw [hd h3] at v
    refine wp_seq (alloc46_spec j hi hp (hd h3) v ch.four) (fun r k q => ?_)
    obtain ⟨w, s1⟩ := r
    dsimp only at *
    by_cases hw : w ≠ .cont
    · rw [if_pos hw, wp_pure]
      exact ⟨q.same, q.ke, q.ns, fun _ => ⟨c, [], q.bad hw, .refl _, fun _ => rfl, fun _ => rfl⟩, fun hn => absurd hn hw⟩
    · have hw : w = .cont := by simpa using hw
      subst hw
      rw [if_neg (by simp)]
      refine wp_mono (afterAlloc_spec j hi q ch.four.l3 ch.four.l4 (fun x hx hs => ?_) (fun hn => (by cases hn))) (fun r k2 q2 => ?_)
      · unfold Ch46.isError
        rw [hx]
        exact hs
      · exact q2.weaken (fun x => x.2) (fun x => ⟨x.2.2.1, x.2.2.2⟩)

/-! ### Sending -/

/-- What was sent: a beginning of the list, the last one of which might have failed. -/
structure Sent (l : Own) (v : Verd) (evs : List Ev) : Prop where
  cd : v = .cont ∨ v = .drop
  mem : ∀ e ∈ evs, ∃ p ∈ l, ∃ f, e = .sent p.1 { p.2 with next := none } f ∧ (v = .cont → f = false)
  all : v = .cont → evs.length = l.length
  fail : v = .drop → ∃ i c, Ev.sent i c true ∈ evs

/-- Like `Same`, but there are these events. -/
structure Sending (j : Nat) (h k : Heap) (evs : List Ev) : Prop where
  xl : k.xlations = h.xlations
  inst : k.insts = h.insts
  log : k.log.filter (about j) = evs ++ h.log.filter (about j)
  le : h.top ≤ k.top

theorem Same.sending {j : Nat} {h k : Heap} (s : Same j h k) : Sending j h k [] := ⟨s.xl, s.inst, s.log, s.le⟩
theorem Sending.trans {j : Nat} {a b c : Heap} {e f : List Ev} (x : Sending j a b e) (y : Sending j b c f) :
    Sending j a c (f ++ e) :=
  ⟨y.xl.trans x.xl, y.inst.trans x.inst, by rw [y.log, x.log, List.append_assoc], Nat.le_trans x.le y.le⟩
theorem Sending.then {j : Nat} {a b c : Heap} {e : List Ev} (x : Sending j a b e) (y : Same j b c) : Sending j a c e := by
  simpa using x.trans y.sending
theorem Same.then {j : Nat} {a b c : Heap} {e : List Ev} (x : Same j a b) (y : Sending j b c e) : Sending j a c e := by
  simpa using x.sending.trans y

theorem send1_spec {h : Heap} {o : Own} {sd} {i : Nat} {c : Skb} (j : Nat) (fails : Bool) (hd : c.dst.isSome = true)
    (v : Inv h ((i, c) :: o) sd) :
    wp E (send1 i fails) (fun w k => Inv k o sd ∧ w = (if fails then .drop else .cont) ∧ Sending j h k [.sent i c fails]) h := by
  unfold send1
  rw [wp_bind, v.load (List.mem_cons_self ..)]
  obtain ⟨d, hd⟩ := Option.isSome_iff_exists.mp hd
  rw [hd]
  dsimp only
  refine wp_seq (take_spec j v) (fun x k q => ?_)
  obtain ⟨rfl, q, sm⟩ := q
  rw [hd] at q
  refine wp_seq (dstRelease_spec j (some d) q) (fun _ k2 q2 => ?_)
  rw [wp_bind, wp_emit, wp_pure]
  refine ⟨⟨q2.1.nd, q2.1.cell, q2.1.st, q2.1.dead, q2.1.top, q2.1.dst, q2.1.re⟩, rfl, ?_⟩
  have sm' := sm.trans q2.2
  refine ⟨sm'.xl, sm'.inst, ?_, sm'.le⟩
  have := sm'.log
  rw [← this]
  rfl

theorem sendGo_spec {o : Own} {sd} (j : Nat) (fails : Nat → Bool) : ∀ (l : Own) (head : Option Nat) (n : Nat) (h : Heap),
    Chain head l → l.length ≤ n → (∀ p ∈ l, p.2.dst.isSome = true) → Inv h (l ++ o) sd →
    wp E (sendGo fails n head) (fun v k => Inv k o sd ∧ ∃ evs, Sent l v evs ∧ Sending j h k evs) h := by
  intro l
  induction l with
  | nil =>
    intro head n h c _ _ v
    cases head with
    | some i => exact absurd c (by simp [Chain])
    | none =>
      unfold sendGo
      exact ⟨v, [], ⟨.inl rfl, by simp, fun _ => rfl, fun hn => (by cases hn)⟩, rfl, rfl, rfl, Nat.le_refl _⟩
  | cons p l ih =>
    intro head n h c hn hd v
    cases head with
    | none => exact absurd c (by simp [Chain])
    | some i =>
      obtain ⟨x, l', e, c'⟩ := c.some
      cases e
      obtain ⟨n, rfl⟩ : ∃ m, n = m + 1 := ⟨n - 1, by simp at hn; omega⟩
      unfold sendGo
      rw [wp_bind, v.load (c := x) (by simp)]
      refine wp_seq (store_spec j v rfl) (fun _ k q => ?_)
      refine wp_seq (send1_spec (c := { x with next := none }) j (fails i) (hd (i, x) (by simp)) q.1) (fun w k2 q2 => ?_)
      obtain ⟨v2, hw, sn⟩ := q2
      have sn' := q.2.then sn
      by_cases hf : fails i = true
      · rw [hf] at hw sn'
        simp only [if_true] at hw
        subst hw
        rw [if_pos (by simp)]
        refine wp_seq (kfreeList_spec j c' v2) (fun _ k3 q3 => ?_)
        refine ⟨q3.1, _, ⟨.inr rfl, ?_, fun hc => (by cases hc), fun _ => ⟨_, _, List.mem_singleton.mpr rfl⟩⟩, sn'.then q3.2⟩
        intro e he
        exact ⟨(i, x), by simp, true, List.mem_singleton.mp he, fun hc => (by cases hc)⟩
      · have hf : fails i = false := by simpa using hf
        rw [hf] at hw sn'
        simp only [Bool.false_eq_true, if_false] at hw
        subst hw
        rw [if_neg (by simp)]
        refine wp_mono (ih x.next n k2 c' (by simpa using hn) (fun p hp => hd p (by simp [hp])) v2) (fun w k3 q3 => ?_)
        obtain ⟨v3, evs, st, sn3⟩ := q3
        refine ⟨v3, evs ++ [.sent i { x with next := none } false], ⟨st.cd, ?_, ?_, ?_⟩, sn'.trans sn3⟩
        · intro e he
          rcases List.mem_append.mp he with he | he
          · obtain ⟨p, hp, f, hp'⟩ := st.mem e he
            exact ⟨p, by simp [hp], f, hp'⟩
          · exact ⟨(i, x), by simp, false, List.mem_singleton.mp he, fun _ => rfl⟩
        · intro hc
          simp [st.all hc]
        · intro hn
          obtain ⟨i', c', hm⟩ := st.fail hn
          exact ⟨i', c', by simp [hm]⟩

theorem send_spec {h : Heap} {l o : Own} {sd} {s : St} (j : Nat) (fails : Nat → Bool) (hc : Chain s.pout.skb l)
    (hd : ∀ p ∈ l, p.2.dst.isSome = true) (v : Inv h (l ++ o) sd) :
    wp E (send s fails) (fun v k => Inv k o sd ∧ ∃ evs, Sent l v evs ∧ Sending j h k evs) h := by
  unfold send
  rw [wp_bind, wp_get]
  have len := v.len
  rw [List.length_append] at len
  exact sendGo_spec j fails l _ h.top h hc (by omega) hd v

end Jool.Life
