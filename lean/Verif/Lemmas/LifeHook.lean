import Verif.Lemmas.LifeTable
/-
Who owns what after the hooks (`Verif.Model.Life`).
-/
namespace Jool.Life
open Jool.BibSpec (storedPkts released After)

/-! ### Filtering and updating -/

/-- What is assumed of the parameters: the pool behaves as promised (see `Bib.Masks.Ok`). -/
def FuCh.Ok (ch : FuCh) : Prop := ∀ x, ch.op = some x → x.2.Ok

/-- What filtering and updating leaves. `i`: the original packet. -/
structure Fud (i : Nat) (c : Skb) (h : Heap) (own : Own) (sd : List Nat) (s : St) (v : Verd) (s' : St) (k : Heap) : Prop where
  same : Same i h k
  ke : Ke s v s'
  pout : s'.pout = s.pout
  dst4 : s.pin.l3 = .v4 → s'.dst = s.dst
  ics : v = .stolen → s'.icmp = s.icmp
  go : v ≠ .stolen → Inv k own (s'.dst.toList ++ sd)
  st : v = .stolen → i ∈ storedPkts k.table ∧ ∃ own', own.Perm ((i, c) :: own') ∧ Inv k own' (s'.dst.toList ++ sd)

theorem early_spec {h : Heap} {o : Own} {sd} {s : St} {p : Nat} {cp : Skb} (j : Nat) (hi : s.pin.skb = some p)
    (v : Inv h ((p, cp) :: o) (s.dst.toList ++ sd)) (ch : Option FlowCh) :
    wp Trap (early s ch) (fun r k => Routed j h ((p, cp) :: o) sd s r.1 r.2 k ∧ (s.pin.l3 = .v4 → r.2.dst = s.dst)) h := by
  unfold early
  cases ch with
  | none => exact ⟨⟨Same.refl _ _, v, Ke.refl _ _, by simp, rfl⟩, fun _ => rfl⟩
  | some f =>
    dsimp only
    split
    · rename_i h6
      exact wp_mono (predictRoute64_spec j hi h6 v f) (fun r k q => ⟨q.1, fun h4 => by rw [h6] at h4; cases h4⟩)
    · exact ⟨⟨Same.refl _ _, v, Ke.refl _ _, by simp, rfl⟩, fun _ => rfl⟩

theorem verdOf_cases (s : St) (x : Except Nat64.Stop (Option Bib.BibKey)) :
    (verdOf s x = (.cont, s)) ∨ (x = .error .stolen ∧ verdOf s x = (.stolen, s)) ∨
    ∃ v ic, verdOf s x = (v, { s with icmp := ic }) ∧ (v = .drop ∨ v = .untr) := by
  rcases x with (⟨w, i⟩ | ⟨w, i⟩ | _) | b
  · rcases sub_cases s (some (false, i)) with h | h
    · exact .inl h
    · exact .inr (.inr h)
  · rcases sub_cases s (some (true, i)) with h | h
    · exact .inl h
    · exact .inr (.inr h)
  · exact .inr (.inl ⟨rfl, rfl⟩)
  · exact .inl rfl

theorem result4_stolen {r : Bib.Result} (h : Nat64.result4 r = .error .stolen) : r = .stolen := by
  cases r with
  | stolen => rfl
  | err e => cases e <;> simp [Nat64.result4] at h
  | drop w => simp only [Nat64.result4] at h; split at h <;> simp at h
  | _ => simp [Nat64.result4] at h

theorem result6_stolen {r : Bib.Result} (h : Nat64.result6 r = .error .stolen) : r = .stolen := by
  cases r <;> simp [Nat64.result6] at h ⊢

theorem fu_spec {h : Heap} {o : Own} {sd} {s : St} {p i : Nat} {cp c : Skb} (hi : s.pin.skb = some p)
    (ho : s.pin.orig = some i) (hm : (i, c) ∈ (p, cp) :: o) (hd : c.dst = none)
    (v : Inv h ((p, cp) :: o) (s.dst.toList ++ sd)) (ch : FuCh) (hok : ch.Ok) :
    wp Trap (fu s ch) (fun r k => Fud i c h ((p, cp) :: o) sd s r.1 r.2 k) h := by
  have sub' : ∀ (s1 : St) (k : Heap) (x : Sub), Same i h k → Ke s .cont s1 → s1.pout = s.pout →
      (s.pin.l3 = .v4 → s1.dst = s.dst) → Inv k ((p, cp) :: o) (s1.dst.toList ++ sd) →
      Fud i c h ((p, cp) :: o) sd s (sub s1 x).1 (sub s1 x).2 k := by
    intro s1 k x a1 a2 a3 a4 a5
    rcases sub_cases s1 x with he | ⟨y, ic, he, hy⟩ <;> rw [he]
    · exact ⟨a1, a2, a3, a4, fun hn => (by cases hn), fun _ => a5, fun hn => (by cases hn)⟩
    · exact ⟨a1, a2.trans (Ke.icmp s1 ic hy), a3, a4, fun hn => absurd hn (not_stolen hy).1, fun _ => a5,
        fun hn => absurd hn (not_stolen hy).1⟩
  unfold fu
  rcases (sub_cases s ch.pre).symm with ⟨x, ic, he, hx⟩ | he
  · have := sub' s h ch.pre (Same.refl _ _) (Ke.refl _ _) rfl (fun _ => rfl) v
    rw [he] at this ⊢
    dsimp only
    rw [if_pos (not_stolen hx).2, wp_pure]
    exact this
  rw [he]
  dsimp only
  rw [if_neg (by simp)]
  refine wp_seq (early_spec i hi v ch.early) (fun r k q => ?_)
  obtain ⟨w, s1⟩ := r
  obtain ⟨q, q4⟩ := q
  dsimp only at *
  by_cases hw : w ≠ .cont
  · rw [if_pos hw, wp_pure]
    exact ⟨q.same, q.ke, q.pout, q4, fun hn => absurd hn q.ns, fun _ => q.inv, fun hn => absurd hn q.ns⟩
  have hw : w = .cont := by simpa using hw
  subst hw
  rw [if_neg (by simp)]
  cases hop : ch.op with
  | none =>
    dsimp only
    rw [wp_pure]
    exact sub' s1 k ch.post q.same q.ke q.pout q4 q.inv
  | some x =>
    obtain ⟨e, o'⟩ := x
    dsimp only
    cases hpk : pickOp s1 o' with
    | none =>
      dsimp only
      rw [wp_pure]
      exact sub' s1 k ch.post q.same q.ke q.pout q4 q.inv
    | some o2 =>
      dsimp only
      have ok2 : o2.Ok := by
        have := hok _ hop
        unfold pickOp at hpk
        cases o' <;> dsimp only at hpk
        all_goals first
          | (cases hpk; done)
          | (split at hpk
             · cases hpk; first | exact this | trivial
             · cases hpk)
      have pk2 : ∀ x, o2.pkt = some x → x = i := by
        intro x hx
        unfold pickOp at hpk
        cases o' <;> dsimp only at hpk
        all_goals first
          | (cases hpk; done)
          | (split at hpk
             · cases hpk
               first
                 | (cases hx; done)
                 | (rename_i hor; rw [q.ke.orig, ho] at hor; cases hor; cases hx; rfl)
             · cases hpk)
      have sh : (s1.pin.l3 = .v6 → ∃ m sg s6 d6 d4, o2 = .tcp6 m sg s6 d6 d4) := by
        intro h6
        unfold pickOp at hpk
        cases o' <;> dsimp only at hpk
        all_goals first
          | (cases hpk; done)
          | (rw [h6] at hpk; simp at hpk; exact ⟨_, _, _, _, _, hpk.symm⟩)
          | (rw [h6] at hpk; simp at hpk)
      refine wp_seq (tableOp_spec q.inv e o2 ok2 ch.rel (fun x hx => ⟨c, pk2 x hx ▸ hm, hd⟩) i
        (.inl (List.mem_map_of_mem (f := Prod.fst) hm))) (fun r k2 q2 => ?_)
      obtain ⟨sm2, q2⟩ := q2
      rw [wp_pure]
      have stolen_iff : (resultOf s1.pin.l3 r) = .error .stolen → r = .stolen := by
        cases s1.pin.l3
        · exact result4_stolen
        · exact result6_stolen
      have stolen_fwd : r = .stolen → (resultOf s1.pin.l3 r) = .error .stolen := by
        rintro rfl
        cases s1.pin.l3 <;> rfl
      generalize (resultOf s1.pin.l3 r) = y at stolen_iff stolen_fwd ⊢
      rcases q2 with ⟨v2, hns⟩ | ⟨x, c2, own', rfl, hx, pm, hd2, v2, hst⟩
      · rcases verdOf_cases s1 y with he | ⟨hy, he⟩ | ⟨w, ic, he, hw⟩ <;> rw [he]
        · exact ⟨q.same.trans sm2, q.ke, q.pout, q4, fun hn => (by cases hn), fun _ => v2, fun hn => (by cases hn)⟩
        · obtain ⟨hn, hn6⟩ := hns (stolen_iff hy)
          cases h3 : s1.pin.l3 with
          | v6 =>
            obtain ⟨_, _, _, _, _, e2⟩ := sh h3
            exact absurd e2 (hn6 _ _ _ _ _)
          | v4 =>
            exfalso
            unfold pickOp at hpk
            rw [h3] at hpk
            cases o' <;> dsimp only at hpk
            all_goals first
              | (cases hpk; done)
              | (split at hpk <;> first | (cases hpk; done) | (cases hpk; cases hn))
        · exact ⟨q.same.trans sm2, q.ke.trans (Ke.icmp s1 ic hw), q.pout, q4, fun hn => absurd hn (not_stolen hw).1,
            fun _ => v2, fun hn => absurd hn (not_stolen hw).1⟩
      · have hxi := pk2 x hx
        subst hxi
        have hcc : c2 = c := by
          have h1 := q.inv.cell (x, c2) (pm.mem_iff.mpr (by simp))
          have h2 := q.inv.cell (x, c) hm
          rw [h1] at h2
          cases h2
          rfl
        subst hcc
        have hy : verdOf s1 y = (.stolen, s1) := by
          rw [stolen_fwd rfl]
          rfl
        rw [hy]
        exact ⟨q.same.trans sm2, q.ke.to _ (fun hn => (by cases hn)), q.pout, q4, fun _ => q.ke.ic rfl, fun hn => absurd rfl hn,
          fun _ => ⟨hst, own', pm, v2⟩⟩

theorem fuCompute_spec {h : Heap} {o : Own} {sd} {s : St} {p i : Nat} {cp c : Skb} (hi : s.pin.skb = some p)
    (ho : s.pin.orig = some i) (hm : (i, c) ∈ (p, cp) :: o) (hd : c.dst = none)
    (v : Inv h ((p, cp) :: o) (s.dst.toList ++ sd)) (ch : PassCh) (hok : ch.fu.Ok) :
    wp Trap (fuCompute s ch) (fun r k => Fud i c h ((p, cp) :: o) sd s r.1 r.2 k) h := by
  unfold fuCompute
  split
  · refine wp_seq (fu_spec hi ho hm hd v ch.fu hok) (fun r k q => ?_)
    obtain ⟨w, s1⟩ := r
    dsimp only at *
    rw [wp_pure]
    by_cases hw : w = .cont
    · subst hw
      rw [if_pos rfl]
      rcases sub_cases s1 ch.compute with he | ⟨y, ic, he, hy⟩ <;> rw [he]
      · exact q
      · exact ⟨q.same, q.ke.trans (Ke.icmp s1 ic hy), q.pout, q.dst4, fun hn => absurd hn (not_stolen hy).1,
          fun _ => q.go (by simp), fun hn => absurd hn (not_stolen hy).1⟩
    · rw [if_neg hw]
      exact q
  · exact ⟨Same.refl _ _, Ke.refl _ _, rfl, fun _ => rfl, fun _ => rfl, fun _ => v, fun hn => (by cases hn)⟩

/-! ### The second pass -/

/-- Everything that was sent has `P`, and nothing went wrong if the verdict is to continue. -/
structure Deliv (P : Skb → Prop) (v : Verd) (evs : List Ev) : Prop where
  mem : ∀ e ∈ evs, ∃ x c f, e = .sent x c f ∧ P c ∧ (v = .cont → f = false)
  cont : v = .cont → evs ≠ []
  fail : evs ≠ [] → v = .cont ∨ (v = .drop ∧ ∃ x c, Ev.sent x c true ∈ evs)

theorem Deliv.nil (P : Skb → Prop) {v : Verd} (h : v ≠ .cont) : Deliv P v [] :=
  ⟨by simp, fun hn => absurd hn h, fun hn => absurd rfl hn⟩

/-- What is promised of the packets that are sent. -/
def Good (m : BitVec 32) (l3 : L3) (pl : Prop) (c : Skb) : Prop :=
  c.next = none ∧ c.dst.isSome = true ∧ (pl → c.mark = m ∧ c.l3 = some l3)

theorem deliv_of_sent {l : Own} {v : Verd} {evs : List Ev} {m l3} {must pl : Prop} (hl : l ≠ []) (st : Sent l v evs)
    (ou : Outs m l3 must pl true l) (hm : must) : Deliv (Good m l3 pl) v evs := by
  refine ⟨fun e he => ?_, fun hv => ?_, fun hne => ?_⟩
  · obtain ⟨p, hp, f, he, hf⟩ := st.mem e he
    exact ⟨p.1, _, f, he, ⟨rfl, ou.dst hm p hp, fun h => ou.plain h p hp⟩, hf⟩
  · intro hn
    have := st.all hv
    rw [hn] at this
    cases l with
    | nil => exact hl rfl
    | cons a l => simp at this
  · rcases st.cd with h | h
    · exact .inl h
    · exact .inr ⟨h, st.fail h⟩

/-- What the second pass leaves. `o1`: the packet between the passes; `i`: the original one. -/
structure Hairpinned (i : Nat) (c : Skb) (h : Heap) (o1 : Nat) (d1 : Skb) (o : Own) (sd : List Nat) (pl fine : Prop) (v : Verd)
    (k : Heap) : Prop where
  evs : ∃ evs, Sending i h k evs ∧ Deliv (Good d1.mark .v6 pl) v evs
  go : v ≠ .stolen → ∃ d' lk, Inv k ((o1, d') :: (i, c) :: (lk ++ o)) sd ∧ (fine → lk = [])
  st : v = .stolen → i ∈ storedPkts k.table ∧ ∃ d' lk, Inv k ((o1, d') :: (lk ++ o)) sd ∧ (fine → lk = [])

theorem destroy_spec {h : Heap} {own : Own} {sd} {s : St} (j : Nat) (v : Inv h own (s.dst.toList ++ sd)) (hx : h.xlations ≠ 0) :
    wp Trap (destroy s) (fun _ k => Inv k own sd ∧ k.xlations = h.xlations - 1 ∧ k.insts = h.insts ∧ k.table = h.table ∧
      k.log.filter (about j) = h.log.filter (about j) ∧ h.top ≤ k.top) h := by
  unfold destroy
  have tb : wp Trap (dstRelease s.dst) (fun _ k => (Inv k own sd ∧ Same j h k) ∧ k.table = h.table) h := by
    have := dstRelease_spec (E := Trap) j s.dst v
    unfold wp at this ⊢
    cases hd : s.dst with
    | none => rw [hd] at this; exact ⟨this, rfl⟩
    | some d =>
      rw [hd] at this
      by_cases h0 : h.dst d = 0
      · have e : dstRelease (some d) h = .ub .useAfterFree := by
          show (if h.dst d = 0 then Outcome.ub UB.useAfterFree else
            Outcome.ok ((), { h with dst := upd h.dst d (h.dst d - 1) })) = _
          rw [if_pos h0]
        rw [e] at this ⊢
        exact this
      · rw [dstRelease_eq h0] at this ⊢
        exact ⟨this, rfl⟩
  refine wp_seq tb (fun _ k q => ?_)
  obtain ⟨⟨q1, q2⟩, q3⟩ := q
  rw [wp_bind, wp_get, if_neg (by rw [q2.xl]; exact hx), wp_set]
  exact ⟨⟨q1.nd, q1.cell, q1.st, q1.dead, q1.top, q1.dst, q1.re⟩, by show k.xlations - 1 = _; rw [q2.xl], q2.inst, q3, q2.log, q2.le⟩

theorem finish {h k : Heap} {own : Own} {sd} {s : St} {i : Nat} {evs : List Ev} (w : Verd)
    (v : Inv k own (s.dst.toList ++ sd)) (sn : Sending i { h with xlations := h.xlations + 1 } k evs) :
    wp Trap (do destroy s; pure w) (fun w' k' => w' = w ∧ Inv k' own sd ∧ k'.table = k.table ∧ Sending i h k' evs) k := by
  have hx : k.xlations = h.xlations + 1 := sn.xl
  refine wp_seq (destroy_spec i v (by omega)) (fun _ k' q => ?_)
  obtain ⟨a, b, c, d, e, f⟩ := q
  exact ⟨rfl, a, d, (by show k'.xlations = h.xlations; omega), c.trans sn.inst, e.trans sn.log, Nat.le_trans sn.le f⟩

theorem Inv.xl {h : Heap} {own : Own} {sd} (v : Inv h own sd) (n : Nat) : Inv { h with xlations := n } own sd :=
  ⟨v.nd, v.cell, v.st, v.dead, v.top, v.dst, v.re⟩

theorem wp_create {Q : Option St → Heap → Prop} {nat64 : Bool} {h : Heap} :
    wp Trap (create nat64 false) Q h ↔ Q (some (St.zero nat64)) { h with xlations := h.xlations + 1 } := Iff.rfl
theorem wp_create_oom {Q : Option St → Heap → Prop} {nat64 : Bool} {h : Heap} : wp Trap (create nat64 true) Q h ↔ Q none h := Iff.rfl

theorem hairpin_spec {h : Heap} {o : Own} {sd} {old : St} {o1 i : Nat} {d1 c : Skb} (hi : old.pout.skb = some o1)
    (ho : old.pout.orig = some i) (h4 : old.pout.l3 = .v4) (hd : c.dst = none)
    (v : Inv h ((o1, d1) :: (i, c) :: o) sd) (oom : Bool) (ch : PassCh) (hok : ch.fu.Ok) :
    wp Trap (hairpin old oom ch) (fun w k => Hairpinned i c h o1 d1 o sd ch.xlat.Plain ch.xlat.Fine w k) h := by
  unfold hairpin
  rw [wp_bind]
  cases oom with
  | true =>
    rw [wp_create_oom]
    exact ⟨⟨[], (Same.refl _ _).sending, .nil _ (by simp)⟩, fun _ => ⟨d1, [], v, fun _ => rfl⟩, fun hn => (by cases hn)⟩
  | false =>
    rw [wp_create]
    dsimp only
    refine wp_seq (fuCompute_spec (i := i) (c := c) (sd := sd) (s := { St.zero old.nat64 with pin := old.pout, hairpin := true })
      hi ho (by simp) hd (v.xl _) ch hok) (fun r k q => ?_)
    obtain ⟨w, s1⟩ := r
    dsimp only at *
    by_cases hw : w ≠ .cont
    · unfold translateIf
      rw [if_neg hw, wp_bind, wp_pure]
      dsimp only
      unfold sendIf
      rw [if_neg hw, wp_bind, wp_pure]
      by_cases hs : w = .stolen
      · obtain ⟨hst, own', pm, v2⟩ := q.st hs
        refine wp_mono (finish w v2 q.same.sending) (fun w' k' q' => ?_)
        obtain ⟨rfl, v3, tb, sn⟩ := q'
        refine ⟨⟨[], sn, .nil _ hw⟩, fun hn => absurd hs hn, fun _ => ⟨tb ▸ hst, d1, [], ?_, fun _ => rfl⟩⟩
        exact v3.perm (List.Perm.cons_inv ((List.Perm.swap ..).trans pm)).symm
      · refine wp_mono (finish w (q.go hs) q.same.sending) (fun w' k' q' => ?_)
        obtain ⟨rfl, v3, tb, sn⟩ := q'
        exact ⟨⟨[], sn, .nil _ hw⟩, fun _ => ⟨d1, [], v3, fun _ => rfl⟩, fun hn => absurd hn hs⟩
    · have hw : w = .cont := by simpa using hw
      subst hw
      unfold translateIf
      rw [if_pos rfl]
      have h3 : s1.pin.l3 = .v4 := q.ke.l3.trans h4
      refine wp_seq (translate_spec i (q.ke.skb.trans hi) (by rw [q.pout]; rfl) (fun _ => q.dst4 h4) (q.go (by simp)) ch.xlat)
        (fun r k2 q2 => ?_)
      obtain ⟨w, s2⟩ := r
      dsimp only at *
      by_cases hw : w ≠ .cont
      · unfold sendIf
        rw [if_neg hw, wp_bind, wp_pure]
        obtain ⟨c', lk, v2, -, -, hf⟩ := q2.bad hw
        refine wp_mono (finish w v2 (q.same.trans q2.same).sending) (fun w' k' q' => ?_)
        obtain ⟨rfl, v3, tb, sn⟩ := q'
        exact ⟨⟨[], sn, .nil _ hw⟩, fun _ => ⟨c', lk, v3.perm (List.Perm.cons _ List.perm_middle), hf⟩,
          fun hn => absurd hn q2.ns⟩
      · have hw : w = .cont := by simpa using hw
        subst hw
        unfold sendIf
        rw [if_pos rfl]
        obtain ⟨-, -, l, hl, hc, v2, ou, -⟩ := q2.ok rfl
        have e6 : s1.pin.l3.other = .v6 := by rw [h3]; rfl
        rw [e6] at ou
        refine wp_seq (send_spec i ch.fails hc (ou.dst (.inr rfl)) v2) (fun w k3 q3 => ?_)
        obtain ⟨v3, evs, st, sn⟩ := q3
        refine wp_mono (finish w v3 ((q.same.trans q2.same).then sn)) (fun w' k' q' => ?_)
        obtain ⟨rfl, v4, tb, sn'⟩ := q'
        refine ⟨⟨evs, sn', deliv_of_sent hl st ou (.inr rfl)⟩, fun _ => ⟨d1, [], v4, fun _ => rfl⟩, fun hn => ?_⟩
        rcases st.cd with h | h <;> rw [h] at hn <;> cases hn

/-! ### The first pass -/

/-- What the steps before the packet is sent leave. -/
structure Stepped (i : Nat) (c : Skb) (h : Heap) (o : Own) (sd : List Nat) (s : St) (pl fine : Prop) (v : Verd) (s' : St)
    (k : Heap) : Prop where
  same : Same i h k
  ke : Ke s v s'
  ics : v = .stolen → s'.icmp = s.icmp
  st : v = .stolen → i ∈ storedPkts k.table ∧ Inv k o (s'.dst.toList ++ sd)
  bad : v ≠ .cont → v ≠ .stolen → ∃ c' lk, Inv k ((i, c') :: (lk ++ o)) (s'.dst.toList ++ sd) ∧ Moved c c' ∧
    (v ≠ .drop → c' = c) ∧ (fine → lk = [])
  ok : v = .cont → s'.pout.l3 = s.pin.l3.other ∧ s'.pout.orig = s.pin.orig ∧ ∃ l, l ≠ [] ∧ Chain s'.pout.skb l ∧
    Inv k (l ++ (i, c) :: o) (s'.dst.toList ++ sd) ∧
    Outs c.mark s.pin.l3.other (s'.hairpin = false ∨ s.pin.l3.other = .v6) pl true l ∧ (s.pin.l3.other = .v4 → ∃ p, l = [p])

theorem steps_spec {h : Heap} {o : Own} {sd} {s : St} {i : Nat} {c : Skb} (hi : s.pin.skb = some i)
    (ho : s.pin.orig = some i) (hp : s.pout.skb = none) (hs : s.dst = none) (hd : c.dst = none)
    (v : Inv h ((i, c) :: o) sd) (ch : PassCh) (hok : ch.fu.Ok) :
    wp Trap (steps s ch) (fun r k => Stepped i c h o sd s ch.xlat.Plain ch.xlat.Fine r.1 r.2 k) h := by
  unfold steps
  have tup : (if s.nat64 = true then sub s ch.tuple else (.cont, s)) = (.cont, s) ∨
      ∃ v ic, (if s.nat64 = true then sub s ch.tuple else (.cont, s)) = (v, { s with icmp := ic }) ∧ (v = .drop ∨ v = .untr) := by
    split
    · exact sub_cases _ _
    · exact .inl rfl
  rcases tup.symm with ⟨x, ic, he, hx⟩ | he <;> rw [he]
  · dsimp only
    rw [if_pos (not_stolen hx).2, wp_pure]
    refine ⟨Same.refl _ _, Ke.icmp s ic hx, fun hn => absurd hn (not_stolen hx).1, fun hn => absurd hn (not_stolen hx).1,
      fun _ _ => ⟨c, [], ?_, .refl _, fun _ => rfl, fun _ => rfl⟩, fun hn => absurd hn (not_stolen hx).2⟩
    show Inv h ((i, c) :: o) (s.dst.toList ++ sd)
    rw [hs]
    exact v
  dsimp only
  rw [if_neg (by simp)]
  have v0 : Inv h ((i, c) :: o) (s.dst.toList ++ sd) := by rw [hs]; exact v
  refine wp_seq (fuCompute_spec (i := i) (c := c) hi ho (by simp) hd v0 ch hok) (fun r k q => ?_)
  obtain ⟨w, s1⟩ := r
  dsimp only at *
  by_cases hw : w ≠ .cont
  · unfold translateIf
    rw [if_neg hw, wp_pure]
    refine ⟨q.same, q.ke, q.ics, fun hn => ?_, fun _ hn => ⟨c, [], q.go hn, .refl _, fun _ => rfl, fun _ => rfl⟩,
      fun hn => absurd hn hw⟩
    obtain ⟨a, own', pm, v'⟩ := q.st hn
    exact ⟨a, v'.perm (List.Perm.cons_inv pm).symm⟩
  · have hw : w = .cont := by simpa using hw
    subst hw
    unfold translateIf
    rw [if_pos rfl]
    have hd1 : s1.pin.l3 = .v4 → s1.dst = none := fun h4 => (q.dst4 (q.ke.l3 ▸ h4)).trans hs
    refine wp_mono (translate_spec i (q.ke.skb.trans hi) (by rw [q.pout]; exact hp) hd1 (q.go (by simp)) ch.xlat)
      (fun r k2 q2 => ?_)
    have e3 := q.ke.l3
    rw [e3] at q2
    refine ⟨q.same.trans q2.same, q.ke.trans q2.ke, fun hn => absurd hn q2.ns, fun hn => absurd hn q2.ns, fun hn _ => q2.bad hn,
      fun hc => ?_⟩
    obtain ⟨p3, po, l, hl, hc', v2, ou, one⟩ := q2.ok hc
    exact ⟨p3, po.trans q.ke.orig, l, hl, hc', v2, ou, one⟩

/-- What is promised of the packets that are sent. `l3`: the protocol of the incoming packet. -/
def Good2 (m : BitVec 32) (l3 : L3) (pl : Prop) (c : Skb) : Prop :=
  c.next = none ∧ c.dst.isSome = true ∧ (pl → c.mark = m ∧ c.l3.isSome = true ∧ (l3 = .v4 → c.l3 = some .v6))

theorem Deliv.weaken {P Q : Skb → Prop} {v : Verd} {evs : List Ev} (d : Deliv P v evs) (h : ∀ c, P c → Q c) : Deliv Q v evs := by
  refine ⟨fun e he => ?_, d.cont, d.fail⟩
  obtain ⟨x, c, f, h1, h2, h3⟩ := d.mem e he
  exact ⟨x, c, f, h1, h c h2, h3⟩

/-- What sending leaves, with or without a second pass. -/
structure Delivered (i : Nat) (c : Skb) (h : Heap) (o : Own) (sd : List Nat) (l3 : L3) (pl fine : Prop) (v : Verd)
    (k : Heap) : Prop where
  evs : ∃ evs, Sending i h k evs ∧ Deliv (Good2 c.mark l3 pl) v evs
  go : v ≠ .stolen → ∃ lk, Inv k ((i, c) :: (lk ++ o)) sd ∧ (fine → lk = [])
  st : v = .stolen → i ∈ storedPkts k.table ∧ ∃ lk, Inv k (lk ++ o) sd ∧ (fine → lk = [])

theorem kfree_table {h : Heap} {i : Nat} {c : Skb} {o : Own} {sd} (j : Nat) (v : Inv h ((i, c) :: o) sd) :
    wp Trap (kfree (some i)) (fun _ k => (Inv k o sd ∧ Same j h k) ∧ k.table = h.table) h := by
  have := kfree_spec (E := Trap) j v
  unfold wp at this ⊢
  have hi := v.cell (i, c) (by simp)
  have e : kfree (some i) h = dstRelease c.dst { h with skb := upd h.skb i none } := by
    show (take i h).bind _ = _
    unfold take
    rw [hi]
    rfl
  rw [e] at this ⊢
  cases hd : c.dst with
  | none => rw [hd] at this; exact ⟨this, rfl⟩
  | some d =>
    rw [hd] at this
    by_cases h0 : h.dst d = 0
    · have e : dstRelease (some d) { h with skb := upd h.skb i none } = .ub .useAfterFree := by
        show (if h.dst d = 0 then Outcome.ub UB.useAfterFree else _) = _
        rw [if_pos h0]
      rw [e] at this ⊢
      exact this
    · have e := dstRelease_eq (h := { h with skb := upd h.skb i none }) h0
      rw [e] at this ⊢
      exact ⟨this, rfl⟩

theorem deliver_spec {h0 h : Heap} {o : Own} {sd} {s0 s : St} {i : Nat} {c : Skb} {pl fine : Prop} (ho : s0.pin.orig = some i)
    (hp0 : s0.hairpin = false) (hd : c.dst = none) (q : Stepped i c h0 o sd s0 pl fine .cont s h) (ch : PassCh) (oom2 : Bool)
    (ch2 : PassCh) (hok : ch2.fu.Ok) :
    wp Trap (deliver s ch oom2 ch2) (fun w k => Delivered i c h o (s.dst.toList ++ sd) s0.pin.l3 (pl ∧ ch2.xlat.Plain)
      ch2.xlat.Fine w k) h := by
  obtain ⟨p3, po, l, hl, hc, v, ou, one⟩ := q.ok rfl
  unfold deliver
  by_cases hh : isHairpin s ch = true
  · rw [if_pos hh]
    have h4 : s0.pin.l3.other = .v4 := by
      unfold isHairpin at hh
      split at hh
      · simp only [Bool.and_eq_true, decide_eq_true_eq] at hh
        rw [← p3]
        exact hh.1
      · rcases q.ke.hp6 hh with h | h
        · rw [hp0] at h; cases h
        · rw [h]; rfl
    obtain ⟨⟨o1, d1⟩, rfl⟩ := one h4
    have hpo : s.pout.skb = some o1 := by
      cases hs : s.pout.skb with
      | none => rw [hs] at hc; exact absurd hc.none (by simp)
      | some x => rw [hs] at hc; rw [hc.1]
    rw [wp_bind, wp_skbOf hpo]
    refine wp_seq (skbDstDrop_spec i v) (fun _ k q1 => ?_)
    refine wp_seq (hairpin_spec (i := i) (c := c) hpo (po.trans ho) (p3.trans h4) hd q1.1 oom2 ch2 hok) (fun w k2 q2 => ?_)
    obtain ⟨evs, sn, dl⟩ := q2.evs
    have mk : pl → d1.mark = c.mark := fun hp => (ou.plain hp (o1, d1) (by simp)).1
    have h6 : s0.pin.l3 = .v6 := by
      cases hx : s0.pin.l3 with
      | v4 => rw [hx] at h4; cases h4
      | v6 => rfl
    have dl' : Deliv (Good2 c.mark s0.pin.l3 (pl ∧ ch2.xlat.Plain)) w evs := by
      refine dl.weaken (fun x hx => ⟨hx.1, hx.2.1, fun hp => ?_⟩)
      obtain ⟨a, b⟩ := hx.2.2 hp.2
      exact ⟨a.trans (mk hp.1), by rw [b]; rfl, fun h => by rw [h6] at h; cases h⟩
    by_cases hs : w = .stolen
    · obtain ⟨a, d', lk, v2, hlk⟩ := q2.st hs
      refine wp_seq (kfree_table i v2) (fun _ k3 q3 => ?_)
      exact ⟨⟨evs, (q1.2.then sn).then q3.1.2, dl'⟩, fun hn => absurd hs hn, fun _ => ⟨q3.2 ▸ a, lk, q3.1.1, hlk⟩⟩
    · obtain ⟨d', lk, v2, hlk⟩ := q2.go hs
      refine wp_seq (kfree_table i v2) (fun _ k3 q3 => ?_)
      exact ⟨⟨evs, (q1.2.then sn).then q3.1.2, dl'⟩, fun _ => ⟨lk, q3.1.1, hlk⟩, fun hn => absurd hn hs⟩
  · rw [if_neg hh]
    have must : s.hairpin = false ∨ s0.pin.l3.other = .v6 := by
      left
      unfold isHairpin at hh
      split at hh
      · rename_i hn
        exact (q.ke.hp (q.ke.nat ▸ hn)).trans hp0
      · simpa using hh
    refine wp_mono (send_spec i ch.fails hc (ou.dst must) v) (fun w k q2 => ?_)
    obtain ⟨v2, evs, st, sn⟩ := q2
    refine ⟨⟨evs, sn, (deliv_of_sent hl st ou must).weaken (fun x hx => ⟨hx.1, hx.2.1, fun hp => ?_⟩)⟩,
      fun _ => ⟨[], v2, fun _ => rfl⟩, fun hn => ?_⟩
    · obtain ⟨a, b⟩ := hx.2.2 hp.1
      refine ⟨a, by rw [b]; rfl, fun h => ?_⟩
      rw [b, h]
      rfl
    · rcases st.cd with h | h <;> rw [h] at hn <;> cases hn

/-- What the translation of a packet leaves, on the whole. -/
structure Done (i : Nat) (c : Skb) (h : Heap) (o : Own) (sd : List Nat) (s : St) (l3 : L3) (pl fine : Prop) (v : Verd) (s' : St)
    (k : Heap) : Prop where
  nc : v ≠ .cont
  skb : s'.pin.skb = s.pin.skb
  go : v ≠ .stolen → ∃ c' lk evs, Inv k ((i, c') :: (lk ++ o)) (s'.dst.toList ++ sd) ∧ Moved c c' ∧ (v ≠ .drop → c' = c) ∧
    (fine → lk = []) ∧ Sending i h k evs ∧ (∀ e ∈ evs, ∃ x c1 f, e = .sent x c1 f ∧ Good2 c.mark l3 pl c1) ∧
    (evs ≠ [] → v = .drop ∧ s'.icmp = s.icmp ∧ ∃ x c1, Ev.sent x c1 true ∈ evs)
  st : v = .stolen → s'.icmp = s.icmp ∧ ∃ lk evs, Inv k (lk ++ o) (s'.dst.toList ++ sd) ∧ (fine → lk = []) ∧ Sending i h k evs ∧
    ((i ∈ storedPkts k.table ∧ evs = []) ∨
     (i ∉ ids (lk ++ o) ∧ i ∉ storedPkts k.table ∧ evs ≠ [] ∧ ∀ e ∈ evs, ∃ x c1, e = .sent x c1 false ∧ Good2 c.mark l3 pl c1))

theorem common_spec {h : Heap} {o : Own} {sd} {s : St} {i : Nat} {c : Skb} (hi : s.pin.skb = some i)
    (ho : s.pin.orig = some i) (hp : s.pout.skb = none) (hs : s.dst = none) (hh : s.hairpin = false) (hd : c.dst = none)
    (v : Inv h ((i, c) :: o) sd) (ch : PassCh) (hok : ch.fu.Ok) (oom2 : Bool) (ch2 : PassCh) (hok2 : ch2.fu.Ok) :
    wp Trap (common s ch oom2 ch2) (fun r k => Done i c h o sd s s.pin.l3 (ch.xlat.Plain ∧ ch2.xlat.Plain)
      (ch.xlat.Fine ∧ ch2.xlat.Fine) r.1 r.2 k) h := by
  unfold common
  refine wp_seq (steps_spec hi ho hp hs hd v ch hok) (fun r k q => ?_)
  obtain ⟨w, s1⟩ := r
  dsimp only at *
  by_cases hw : w ≠ .cont
  · rw [if_pos hw, wp_pure]
    refine ⟨hw, q.ke.skb, fun hn => ?_, fun hn => ?_⟩
    · obtain ⟨c', lk, a, b, d, e⟩ := q.bad hw hn
      exact ⟨c', lk, [], a, b, d, fun hf => e hf.1, q.same.sending, by simp, fun hx => absurd rfl hx⟩
    · obtain ⟨a, b⟩ := q.st hn
      exact ⟨q.ics hn, [], [], b, fun _ => rfl, q.same.sending, .inl ⟨a, rfl⟩⟩
  have hw : w = .cont := by simpa using hw
  subst hw
  rw [if_neg (by simp)]
  refine wp_seq (deliver_spec ho hh hd q ch oom2 ch2 hok2) (fun w k2 q2 => ?_)
  obtain ⟨evs, sn, dl⟩ := q2.evs
  by_cases hw : w ≠ .cont
  · rw [if_pos hw, wp_pure]
    refine ⟨hw, q.ke.skb, fun hn => ?_, fun hn => ?_⟩
    · obtain ⟨lk, a, b⟩ := q2.go hn
      refine ⟨c, lk, evs, a, .refl _, fun _ => rfl, fun hf => b hf.2, q.same.then sn, fun e he => ?_, fun hx => ?_⟩
      · obtain ⟨x, c1, f, h1, h2, -⟩ := dl.mem e he
        exact ⟨x, c1, f, h1, h2⟩
      · rcases dl.fail hx with h | h
        · exact absurd h hw
        · exact ⟨h.1, q.ke.ic rfl, h.2⟩
    · obtain ⟨a, lk, b, d⟩ := q2.st hn
      refine ⟨q.ke.ic rfl, lk, evs, b, fun hf => d hf.2, q.same.then sn, .inl ⟨a, ?_⟩⟩
      by_contra hx
      rcases dl.fail hx with h | h
      · exact hw h
      · have h' : Verd.stolen = Verd.drop := hn ▸ h.1
        cases h'
  have hw : w = .cont := by simpa using hw
  subst hw
  rw [if_neg (by simp)]
  obtain ⟨lk, a, b⟩ := q2.go (by simp)
  rw [q.ke.skb, hi]
  refine wp_seq (kfree_table i a) (fun _ k3 q3 => ?_)
  refine ⟨by simp, q.ke.skb, fun hn => absurd rfl hn, fun _ => ⟨q.ke.ic rfl, lk, evs, q3.1.1, fun hf => b hf.2,
    (q.same.then sn).then q3.1.2, .inr ⟨?_, ?_, dl.cont rfl, fun e he => ?_⟩⟩⟩
  · exact (List.nodup_cons.mp (List.nodup_append.mp a.nd).1).1
  · rw [q3.2]
    exact a.notStored (by simp)
  · obtain ⟨x, c1, f, h1, h2, h3⟩ := dl.mem e he
    have h3 := h3 rfl
    subst h3
    exact ⟨x, c1, h1, h2⟩

/-! ### The hook -/

/-- What is assumed of the parameters: the pool behaves as promised. -/
def HookCh.Ok (ch : HookCh) : Prop := ch.one.fu.Ok ∧ ch.two.fu.Ok
/-- What is known to leak does not happen. -/
def HookCh.Fine (ch : HookCh) : Prop := ch.one.xlat.Fine ∧ ch.two.xlat.Fine
/-- No ICMP extension has to be moved. -/
def HookCh.Plain (ch : HookCh) : Prop := ch.one.xlat.Plain ∧ ch.two.xlat.Plain

theorem Done.pre {i : Nat} {c : Skb} {h0 h : Heap} {o : Own} {sd} {s : St} {l3 : L3} {pl fine : Prop} {v : Verd} {s' : St} {k : Heap}
    (sm : Same i h0 h) (d : Done i c h o sd s l3 pl fine v s' k) : Done i c h0 o sd s l3 pl fine v s' k := by
  refine ⟨d.nc, d.skb, fun hn => ?_, fun hn => ?_⟩
  · obtain ⟨c', lk, evs, a1, a2, a3, a4, a5, a6⟩ := d.go hn
    exact ⟨c', lk, evs, a1, a2, a3, a4, sm.then a5, a6⟩
  · obtain ⟨a, lk, evs, a1, a2, a3, a4⟩ := d.st hn
    exact ⟨a, lk, evs, a1, a2, sm.then a3, a4⟩

end Jool.Life
