import Verif.Lemmas.LifeHook

/-! The whole hook, and histories of packets. -/

namespace Jool.Life

open Jool.BibSpec (storedPkts released After)

/-- What `core_4to6` and `core_6to4` leave before the ICMP error. -/
structure Cored (i : Nat) (c : Skb) (h : Heap) (o : Own) (sd : List Nat) (l3 : L3) (pl fine : Prop) (v : Verd) (s' : St)
    (k : Heap) : Prop where
  nc : v ≠ .cont
  skb : s'.pin.skb = some i ∨ s'.pin.skb = none
  go : v ≠ .stolen → ∃ c' lk evs, Inv k ((i, c') :: (lk ++ o)) (s'.dst.toList ++ sd) ∧ Moved c c' ∧
    (v ≠ .drop → ∃ th, c' = { c with th := th }) ∧ (fine → lk = []) ∧ Sending i h k evs ∧
    (∀ e ∈ evs, ∃ x c1 f, e = .sent x c1 f ∧ Good2 c.mark l3 pl c1) ∧
    (evs ≠ [] → v = .drop ∧ s'.icmp = none ∧ ∃ x c1, Ev.sent x c1 true ∈ evs)
  st : v = .stolen → s'.icmp = none ∧ ∃ lk evs, Inv k (lk ++ o) (s'.dst.toList ++ sd) ∧ (fine → lk = []) ∧ Sending i h k evs ∧
    ((i ∈ storedPkts k.table ∧ evs = []) ∨
     (i ∉ ids (lk ++ o) ∧ i ∉ storedPkts k.table ∧ evs ≠ [] ∧ ∀ e ∈ evs, ∃ x c1, e = .sent x c1 false ∧ Good2 c.mark l3 pl c1))

theorem Cored.early {i : Nat} {c : Skb} {h : Heap} {o : Own} {sd} {l3 : L3} {pl fine : Prop} {v : Verd} {s' : St}
    (hv : v = .drop ∨ v = .untr) (hs : s'.pin.skb = some i ∨ s'.pin.skb = none) (hd : s'.dst = none)
    (w : Inv h ((i, c) :: o) sd) : Cored i c h o sd l3 pl fine v s' h := by
  refine ⟨(not_stolen hv).2, hs, fun _ => ⟨c, [], [], by rw [hd]; exact w, .refl _, fun _ => ⟨c.th, rfl⟩, fun _ => rfl,
    (Same.refl _ _).sending, by simp, fun hx => absurd rfl hx⟩, fun hn => absurd hn (not_stolen hv).1⟩

theorem coreBody_spec {h : Heap} {o : Own} {sd} {i : Nat} {c : Skb} (nat64 : Bool) (l3 : L3) (hd : c.dst = none)
    (v : Inv h ((i, c) :: o) sd) (ch : HookCh) (hok : ch.Ok) :
    wp Trap (coreBody (St.zero nat64) l3 i ch) (fun r k => Cored i c h o sd l3 ch.Plain ch.Fine r.1 r.2 k) h := by
  unfold coreBody
  rcases (sub_cases (St.zero nat64) ch.valid).symm with ⟨x, ic, he, hx⟩ | he <;> rw [he] <;> dsimp only
  · rw [if_pos (not_stolen hx).2, wp_pure]
    exact .early hx (.inr rfl) rfl v
  rw [if_neg (by simp)]
  unfold pktInit
  rw [wp_bind, wp_bind, v.load (List.mem_cons_self ..)]
  cases hi : ch.init with
  | some x =>
    dsimp only
    rw [wp_pure]
    rcases (sub_cases { St.zero nat64 with pin := withSkb (St.zero nat64).pin (some i) } (some x)).symm with ⟨x, ic, he, hx⟩ | he <;> rw [he] <;> dsimp only
    · rw [if_pos (not_stolen hx).2, wp_pure]
      exact .early hx (.inl rfl) rfl v
    · rcases x with ⟨_ | _, _⟩ <;> cases he
  | none =>
    dsimp only
    refine wp_seq (store_spec i v (by rfl)) (fun _ k q => ?_)
    rw [wp_pure]
    dsimp only
    rw [if_neg (by simp)]
    refine wp_mono (common_spec (i := i) (c := { c with th := c.data + ch.l4 }) rfl rfl rfl rfl rfl hd q.1 ch.one hok.1 ch.oom2 ch.two hok.2)
      (fun r k2 q2 => ?_)
    have q2 := q2.pre q.2
    refine ⟨q2.nc, .inl q2.skb, fun hn => ?_, fun hn => q2.st hn⟩
    obtain ⟨c', lk, evs, a1, a2, a3, a4, a5, a6, a7⟩ := q2.go hn
    exact ⟨c', lk, evs, a1, ⟨a2.l3, a2.mark, a2.next, a2.dst, a2.page⟩, fun hd => ⟨_, a3 hd⟩, a4, a5, a6, a7⟩

/-- What the hook leaves. -/
structure Hooked (i : Nat) (c : Skb) (h : Heap) (o : Own) (sd : List Nat) (l3 : L3) (pl fine can : Prop) (v : Verd)
    (k : Heap) : Prop where
  nc : v ≠ .cont
  xl : k.xlations = h.xlations
  inst : k.insts = h.insts
  top : h.top ≤ k.top
  go : v ≠ .stolen → ∃ c' lk evs, Inv k ((i, c') :: (lk ++ o)) sd ∧ Moved c c' ∧ (fine → lk = []) ∧
    k.log.filter (about i) = evs ++ h.log.filter (about i) ∧
    (v ≠ .drop → (∃ th, c' = { c with th := th }) ∧ evs = []) ∧
    (evs = [] ∨ (can ∧ ∃ e t cd, icmpOf l3 e = some (t, cd) ∧ evs = [.icmp i t cd]) ∨
      ((∀ e ∈ evs, ∃ x c1 f, e = .sent x c1 f ∧ Good2 c.mark l3 pl c1) ∧ ∃ x c1, Ev.sent x c1 true ∈ evs))
  st : v = .stolen → ∃ lk evs, Inv k (lk ++ o) sd ∧ (fine → lk = []) ∧
    k.log.filter (about i) = evs ++ h.log.filter (about i) ∧
    ((i ∈ storedPkts k.table ∧ evs = []) ∨
     (i ∉ ids (lk ++ o) ∧ i ∉ storedPkts k.table ∧ evs ≠ [] ∧ ∀ e ∈ evs, ∃ x c1, e = .sent x c1 false ∧ Good2 c.mark l3 pl c1))

/-- The same, with the reference of the translation still held. -/
theorem core_spec {h : Heap} {o : Own} {sd} {i : Nat} {c : Skb} (nat64 : Bool) (l3 : L3) (hd : c.dst = none)
    (v : Inv h ((i, c) :: o) sd) (ch : HookCh) (hok : ch.Ok) :
    wp Trap (core (St.zero nat64) l3 i ch) (fun r k => Hooked i c h o (r.2.dst.toList ++ sd) l3 ch.Plain ch.Fine (ch.can = true) r.1 k)
      h := by
  unfold core
  refine wp_seq (coreBody_spec nat64 l3 hd v ch hok) (fun r k q => ?_)
  obtain ⟨w, s⟩ := r
  dsimp only at *
  -- no error is sent
  have quiet : (w = .stolen ∨ w = .untr ∨ s.icmp = none ∨ s.pin.skb = none ∨ True) →
      Hooked i c h o (s.dst.toList ++ sd) l3 ch.Plain ch.Fine (ch.can = true) w k := by
    intro _
    by_cases hw : w = .stolen
    · obtain ⟨-, lk, evs, a1, a2, a3, a4⟩ := q.st hw
      exact ⟨q.nc, a3.xl, a3.inst, a3.le, fun hn => absurd hw hn, fun _ => ⟨lk, evs, a1, a2, a3.log, a4⟩⟩
    · obtain ⟨c', lk, evs, a1, a2, a3, a4, a5, a6, a7⟩ := q.go hw
      refine ⟨q.nc, a5.xl, a5.inst, a5.le, fun _ => ⟨c', lk, evs, a1, a2, a4, a5.log, fun hd => ⟨a3 hd, ?_⟩, ?_⟩, fun hn => absurd hn hw⟩
      · by_contra hx; exact hd (a7 hx).1
      · by_cases hx : evs = []
        · exact .inl hx
        · exact .inr (.inr ⟨a6, (a7 hx).2.2⟩)
  have quiet := quiet (by simp)
  unfold sendError
  cases hic : s.icmp with
  | none =>
    dsimp only
    rw [wp_bind, wp_pure, wp_pure]
    exact quiet
  | some e =>
    dsimp only
    have hns : w ≠ .stolen := fun hw => by
      have := (q.st hw).1
      rw [hic] at this; cases this
    by_cases hu : w = .untr
    · rw [if_pos hu, wp_bind, wp_pure, wp_pure]
      exact quiet
    · rw [if_neg hu, wp_bind, wp_bind]
      have hwd : w = .drop := by
        have := q.nc
        cases w <;> simp_all
      rcases q.skb with hs | hs
      · rw [hs]
        obtain ⟨c', lk, evs, a1, a2, a3, a4, a5, a6, a7⟩ := q.go hns
        have he : evs = [] := by
          by_contra hx
          have := (a7 hx).2.1
          rw [hic] at this; cases this
        subst he
        refine wp_mono (icmpSend_spec a1 (c := c') (List.mem_cons_self ..) l3 e ch.can) (fun b k2 q2 => ?_)
        rw [wp_pure, wp_pure]
        obtain ⟨b1, b2, b3, b4⟩ := q2
        rcases b4 with ⟨-, rfl⟩ | ⟨t, cd, b4, b5, b6⟩
        · exact quiet
        · refine ⟨q.nc, b6.xl.trans a5.xl, b6.inst.trans a5.inst, Nat.le_trans a5.le b6.le, fun _ => ⟨c', lk, [.icmp i t cd], b1, a2, a4, ?_,
            fun hn => absurd hwd hn, .inr (.inl ⟨b5, e, t, cd, b4, rfl⟩)⟩, fun hn => absurd hn hns⟩
          rw [b6.log, a5.log]
          rfl
      · rw [hs]
        exact quiet

theorem hook_spec {h : Heap} {o : Own} {sd} {i : Nat} {c : Skb} (kd : Kind) (l3 : L3) (hd : c.dst = none)
    (v : Inv h ((i, c) :: o) sd) (ch : HookCh) (hok : ch.Ok) :
    wp Trap (hook kd l3 i ch) (fun nf k => ∃ w, nf = nfOf kd w ∧ Hooked i c h o sd l3 ch.Plain ch.Fine (ch.can = true) w k) h := by
  unfold hook
  rw [wp_bind]
  have nothing : ∀ w, w = .drop ∨ w = .untr → ∀ k : Heap, k = h → Hooked i c h o sd l3 ch.Plain ch.Fine (ch.can = true) w k := by
    intro w hw k hk
    subst hk
    exact ⟨(not_stolen hw).2, rfl, rfl, Nat.le_refl _, fun _ => ⟨c, [], [], v, .refl _, fun _ => rfl, rfl, fun _ => ⟨⟨c.th, rfl⟩, rfl⟩, .inl rfl⟩,
      fun hn => absurd hn (not_stolen hw).1⟩
  cases ch.oom with
  | true =>
    rw [wp_create_oom]
    dsimp only
    rw [wp_pure]
    exact ⟨.drop, rfl, nothing _ (.inl rfl) _ rfl⟩
  | false =>
    rw [wp_create]
    dsimp only
    have v1 := Inv.xl v (h.xlations + 1)
    unfold find
    rw [wp_bind, wp_bind, wp_get]
    cases ch.found with
    | false =>
      simp only [Bool.false_eq_true, if_false]
      rw [wp_pure]
      show wp Trap (do destroy (St.zero ch.nat64); pure (nfOf kd .untr)) _ _
      refine wp_seq (destroy_spec (s := St.zero ch.nat64) i v1 (Nat.succ_ne_zero _)) (fun _ k q => ?_)
      rw [wp_pure]
      obtain ⟨a, b, c', d, e, f⟩ := q
      exact ⟨.untr, rfl, by simp, b, c', f, fun _ => ⟨c, [], [], a, .refl _, fun _ => rfl, e, fun _ => ⟨⟨c.th, rfl⟩, rfl⟩, .inl rfl⟩, by simp⟩
    | true =>
      simp only [if_true]
      rw [wp_bind, wp_set, wp_pure]
      have v2 : Inv { h with xlations := h.xlations + 1, insts := h.insts + 1 } ((i, c) :: o) sd :=
        ⟨v.nd, v.cell, v.st, v.dead, v.top, v.dst, v.re⟩
      refine wp_seq (core_spec ch.nat64 l3 hd v2 ch hok) (fun r k q => ?_)
      obtain ⟨w, s⟩ := r
      dsimp only at *
      unfold put
      rw [wp_bind, wp_bind, wp_get]
      have hx := q.xl
      have hi := q.inst
      dsimp only at hx hi
      rw [if_neg (by omega), wp_set]
      by_cases hw : w = .stolen
      · obtain ⟨lk, evs, a1, a2, a3, a4⟩ := q.st hw
        have a1' : Inv { k with insts := k.insts - 1 } (lk ++ o) (s.dst.toList ++ sd) :=
          ⟨a1.nd, a1.cell, a1.st, a1.dead, a1.top, a1.dst, a1.re⟩
        refine wp_seq (destroy_spec (s := s) i a1' (by show k.xlations ≠ 0; omega)) (fun _ k2 q2 => ?_)
        rw [wp_pure]
        obtain ⟨b1, b2, b3, b4, b5, b6⟩ := q2
        dsimp only at b2 b3 b4 b5 b6
        refine ⟨w, rfl, q.nc, by omega, by omega, Nat.le_trans q.top b6, fun hn => absurd hw hn, fun _ => ⟨lk, evs, b1, a2, b5.trans a3, ?_⟩⟩
        rw [b4]
        exact a4
      · obtain ⟨c', lk, evs, a1, a2, a3, a4, a5, a6⟩ := q.go hw
        have a1' : Inv { k with insts := k.insts - 1 } ((i, c') :: (lk ++ o)) (s.dst.toList ++ sd) :=
          ⟨a1.nd, a1.cell, a1.st, a1.dead, a1.top, a1.dst, a1.re⟩
        refine wp_seq (destroy_spec (s := s) i a1' (by show k.xlations ≠ 0; omega)) (fun _ k2 q2 => ?_)
        rw [wp_pure]
        obtain ⟨b1, b2, b3, b4, b5, b6⟩ := q2
        dsimp only at b2 b3 b4 b5 b6
        exact ⟨w, rfl, q.nc, by omega, by omega, Nat.le_trans q.top b6, fun _ => ⟨c', lk, evs, b1, a2, a3, b5.trans a4, a5, a6⟩,
          fun hn => absurd hn hw⟩

/-! ### Histories -/

/-- What is assumed of an event. A request does not bring a packet. -/
def Op.Ok : Op → Prop
  | .packet _ _ _ ch => ch.Ok
  | .table _ o _ => o.Ok ∧ o.pkt = none

/-- What is known to leak does not happen. -/
def Op.Fine : Op → Prop
  | .packet _ _ _ ch => ch.Fine
  | .table _ _ _ => True

/-- Whatever was sent meanwhile has a route, and is not in a list. -/
def LogOk (h k : Heap) : Prop :=
  ∀ x c f, Ev.sent x c f ∈ k.log → Ev.sent x c f ∈ h.log ∨ (c.next = none ∧ c.dst.isSome = true)

theorem LogOk.of {i : Nat} {h k : Heap} {evs : List Ev} (hl : k.log.filter (about i) = evs ++ h.log.filter (about i))
    (he : ∀ x c f, Ev.sent x c f ∈ evs → c.next = none ∧ c.dst.isSome = true) : LogOk h k := by
  intro x c f hm
  have : Ev.sent x c f ∈ k.log.filter (about i) := List.mem_filter.mpr ⟨hm, rfl⟩
  rw [hl] at this
  rcases List.mem_append.mp this with h1 | h1
  · exact .inr (he x c f h1)
  · exact .inl (List.mem_filter.mp h1).1

theorem LogOk.trans {a b c : Heap} (x : LogOk a b) (y : LogOk b c) : LogOk a c := by
  intro i s f hm
  rcases y i s f hm with h | h
  · exact x i s f h
  · exact .inr h

theorem LogOk.same {i : Nat} {h k : Heap} (s : Same i h k) : LogOk h k := .of (evs := []) s.log (by simp)

theorem step_spec {h : Heap} {own : Own} (o : Op) (hok : o.Ok) (v : Inv h own []) :
    wp Trap (step o) (fun _ k => k.xlations = h.xlations ∧ k.insts = h.insts ∧ LogOk h k ∧
      ∃ lk, Inv k (lk ++ own) [] ∧ (o.Fine → lk = [])) h := by
  cases o with
  | packet kd l3 c ch =>
    unfold step arrive
    refine wp_seq (alloc_spec 0 v { c with l3 := some l3, next := none, dst := none } rfl) (fun i k q => ?_)
    obtain ⟨-, v1, sm⟩ := q
    refine wp_seq (hook_spec kd l3 rfl v1 ch hok) (fun nf k2 q2 => ?_)
    obtain ⟨w, rfl, q2⟩ := q2
    by_cases hw : w = .stolen
    · rw [if_pos (by rw [hw]; rfl), wp_pure]
      obtain ⟨lk, evs, a1, a2, a3, a4⟩ := q2.st hw
      refine ⟨q2.xl.trans sm.xl, q2.inst.trans sm.inst, (LogOk.same sm).trans (.of a3 fun x c1 f hm => ?_), lk, a1, a2⟩
      rcases a4 with ⟨-, rfl⟩ | ⟨-, -, -, a4⟩
      · cases hm
      · obtain ⟨_, _, he, g⟩ := a4 _ hm
        cases he
        exact ⟨g.1, g.2.1⟩
    · rw [if_neg (by cases w <;> cases kd <;> simp_all [nfOf])]
      obtain ⟨c', lk, evs, a1, a2, a3, a4, -, a5⟩ := q2.go hw
      refine wp_seq (take_spec 0 a1) (fun x k3 q3 => ?_)
      obtain ⟨rfl, b1, b2⟩ := q3
      rw [a2.dst] at b1
      refine ⟨b2.xl.trans (q2.xl.trans sm.xl), b2.inst.trans (q2.inst.trans sm.inst),
        (LogOk.same sm).trans ((LogOk.of a4 fun x c1 f hm => ?_).trans ((LogOk.same b2).trans fun x c1 f hm => ?_)), lk, ⟨b1.nd, b1.cell, b1.st, b1.dead, b1.top, b1.dst, b1.re⟩, a3⟩
      · rcases a5 with rfl | ⟨-, _, _, _, -, rfl⟩ | ⟨a5, -⟩
        · cases hm
        · simp at hm
        · obtain ⟨_, _, _, he, g⟩ := a5 _ hm
          cases he
          exact ⟨g.1, g.2.1⟩
      · exact .inl (by
          have : Ev.sent x c1 f ∈ Ev.back _ _ _ :: k3.log := hm
          simpa using this)
  | table e o ch =>
    unfold step
    refine wp_seq (tableOp_spec v e o hok.1 ch (fun i hi => by rw [hok.2] at hi; cases hi) h.top
      (.inr fun hm => by
        obtain ⟨c, hc, -⟩ := v.st _ hm
        rw [v.top _ (Nat.le_refl _)] at hc; cases hc)) (fun r k q => ?_)
    rw [wp_pure]
    obtain ⟨sm, ⟨v1, -⟩ | ⟨i, c, own', -, hi, -⟩⟩ := q
    · exact ⟨sm.xl, sm.inst, .same sm, [], v1, fun _ => rfl⟩
    · rw [hok.2] at hi; cases hi

theorem run_spec (ops : List Op) (hok : ∀ o ∈ ops, o.Ok) : ∀ {h : Heap} {own : Own}, Inv h own [] →
    wp Trap (run ops) (fun _ k => k.xlations = h.xlations ∧ k.insts = h.insts ∧ LogOk h k ∧ ∃ lk, Inv k (lk ++ own) [] ∧
      ((∀ o ∈ ops, o.Fine) → lk = [])) h := by
  induction ops with
  | nil => exact fun v => ⟨rfl, rfl, fun _ _ _ hm => .inl hm, [], v, fun _ => rfl⟩
  | cons o ops ih =>
    intro h own v
    unfold run
    refine wp_seq (step_spec o (hok o (by simp)) v) (fun _ k q => ?_)
    obtain ⟨x, y, z, lk, v1, f⟩ := q
    refine wp_mono (ih (fun o ho => hok o (by simp [ho])) v1) (fun _ k2 q2 => ?_)
    obtain ⟨x', y', z', lk', v2, f'⟩ := q2
    refine ⟨x'.trans x, y'.trans y, z.trans z', lk' ++ lk, by rw [List.append_assoc]; exact v2, fun hf => ?_⟩
    rw [f (hf o (by simp)), f' (fun o ho => hf o (by simp [ho]))]
    rfl

theorem Inv.init : Inv Heap.init [] [] :=
  ⟨by decide, by simp, by decide, fun _ _ _ => rfl, fun _ _ => rfl, fun _ => rfl, [], [], by simp, rfl⟩

end Jool.Life
