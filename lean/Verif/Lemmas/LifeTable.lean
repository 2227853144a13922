import Verif.Lemmas.LifeTranslate
/-
Who owns what when the TCP table keeps packets and lets them go (`Verif.Model.Life`).
-/
namespace Jool.Life
open Jool.Bib (WF)
open Jool.BibSpec (storedPkts released After)

variable {E : UB → Prop}

/-! ### The table by itself -/

theorem tcp6_not_stolen {t : Bib.Table} {e : Bib.Env} {m sg s6 d6 d4} {r} (h : WF t) (hm : m.Ok)
    (hr : Bib.step .TCP t e (.tcp6 m sg s6 d6 d4) = .ok r) : r.2.2 ≠ .stolen := by
  intro hs
  have hr' : Bib.tcp6 e t m sg s6 d6 d4 = .ok r := by simpa [Bib.step] using hr
  have a := (Bib.tcp6_ok h hm hr' none).good.bal (fun _ => true)
  have b := (Bib.tcp6_ok h hm hr' (some 0)).good.bal (fun _ => true)
  simp only [hs, if_true, Bib.w] at a b
  omega

theorem tcp4_stolen {t : Bib.Table} {e : Bib.Env} {sg s4 d4 d6 skb} {r}
    (hr : Bib.step .TCP t e (.tcp4 sg s4 d4 d6 skb) = .ok r) (hs : r.2.2 = .stolen) : r.2.1 = [] := by
  have hr : Bib.tcp4 e t sg s4 d4 d6 skb = .ok r := by simpa [Bib.step] using hr
  unfold Bib.tcp4 at hr
  split at hr
  · cases hr; rfl
  · dsimp only at hr
    split at hr
    · unfold Bib.tcpCollision at hr
      dsimp only at hr
      split at hr
      · split at hr
        · cases hr
        · cases hr; cases hs
      · cases hr; cases hs
    · repeat' split at hr
      all_goals first
        | (cases hr; rfl)
        | (cases hr; unfold Bib.storeType1; repeat' split
           all_goals rfl)

theorem After.snoc {p : Proto} {e : Bib.Env} {o : Bib.Op} {r} (ho : o.Ok) : ∀ {hist t ev}, After p hist t ev →
    Bib.step p t e o = .ok r → ∃ ev', After p (hist ++ [(e, o)]) r.1 ev' := by
  intro hist t ev ha hs
  have hrun : ∀ (pre : List (Bib.Env × Bib.Op)) (t0 t : Bib.Table) (ev : List Bib.Event), Bib.run p t0 pre = .ok (t, ev) →
      Bib.step p t e o = .ok r → ∃ ev', Bib.run p t0 (pre ++ [(e, o)]) = .ok (r.1, ev') := by
    intro pre
    induction pre with
    | nil =>
      intro t0 t ev h1 h2
      simp only [Bib.run, Outcome.ok.injEq, Prod.mk.injEq] at h1
      obtain ⟨rfl, _⟩ := h1
      exact ⟨r.2.1 ++ [], by simp only [List.nil_append, Bib.run, h2]⟩
    | cons y pre ihp =>
      intro t0 t ev h1 h2
      obtain ⟨en', o'⟩ := y
      simp only [Bib.run] at h1
      cases hs' : Bib.step p t0 en' o' with
      | ub u' => simp [hs'] at h1
      | ok r' =>
        simp only [hs'] at h1
        cases hq : Bib.run p r'.1 pre with
        | ub u' => simp [hq] at h1
        | ok q =>
          simp only [hq, Outcome.ok.injEq, Prod.mk.injEq] at h1
          obtain ⟨ev'', h3⟩ := ihp r'.1 t q.2 (by rw [hq, ← h1.1]) h2
          exact ⟨r'.2.1 ++ ev'', by simp only [List.cons_append, Bib.run, hs', h3]⟩
  obtain ⟨ev', h3⟩ := hrun hist Bib.init t ev ha.2 hs
  refine ⟨ev', ?_, h3⟩
  intro x hx
  rcases List.mem_append.mp hx with hx | hx
  · exact ha.1 x hx
  · rw [List.mem_singleton.mp hx]
    exact ho

/-- The packets that are in the table, and the ones that it let go, are the ones that were there, and the one that it kept. -/
theorem table_perm {p : Proto} {t : Bib.Table} {e : Bib.Env} {o : Bib.Op} {r} (h : WF t) (ho : o.Ok)
    (hr : Bib.step p t e o = .ok r) :
    (storedPkts r.1 ++ released r.2.1).Perm (storedPkts t ++ (if r.2.2 = .stolen then o.pkt else none).toList) := by
  have g := (Bib.step_ok h ho hr).1
  rw [List.perm_iff_count]
  intro x
  have := g.bal (· == x)
  rw [← Bib.held_count g.wf, ← Bib.held_count h, ← Bib.out_count] at this
  rw [List.count_append, List.count_append, List.count_eq_countP, List.count_eq_countP, List.count_eq_countP, this]
  congr 1
  cases (if r.2.2 = Bib.Result.stolen then o.pkt else none) with
  | none => rfl
  | some y => simp [Bib.w, List.count_singleton]

/-! ### What the table lets go -/

/-- The only way to go wrong: the known defects of the TCP table (C27). -/
def Trap (u : UB) : Prop :=
  u = .useAfterFree ∧ ∃ hist t ev e o, After .TCP hist t ev ∧ o.Ok ∧ (Bib.UpgradeTrap t e o ∨ Bib.UnknownTrap t o)

theorem cells_of {h : Heap} : ∀ {l : List Nat}, (∀ i ∈ l, ∃ c, h.skb i = some c ∧ c.dst = none) →
    ∃ rs : Own, ids rs = l ∧ ∀ p ∈ rs, h.skb p.1 = some p.2 ∧ p.2.dst = none := by
  intro l
  induction l with
  | nil => exact fun _ => ⟨[], rfl, by simp⟩
  | cons i l ih =>
    intro hl
    obtain ⟨c, hc⟩ := hl i (by simp)
    obtain ⟨rs, h1, h2⟩ := ih (fun j hj => hl j (by simp [hj]))
    refine ⟨(i, c) :: rs, by simp [h1], ?_⟩
    intro p hp
    rcases List.mem_cons.mp hp with rfl | hp
    · exact hc
    · exact h2 p hp

theorem routes_none {l : Own} (h : ∀ p ∈ l, p.2.dst = none) : routes l = [] := by
  unfold routes
  rw [List.filterMap_eq_nil_iff]
  exact h

/-- The table changes: it keeps `kept` and lets `rs` go. -/
theorem table_set {h : Heap} {kept own : Own} {sd : List Nat} {t : Bib.Table} {rel : List Nat} (v : Inv h (kept ++ own) sd)
    (hk : ∀ p ∈ kept, p.2.dst = none) (hp : (storedPkts t ++ rel).Perm (storedPkts h.table ++ ids kept))
    (ha : ∃ hist ev, After .TCP hist t ev) :
    ∃ rs, ids rs = rel ∧ Inv { h with table := t } (rs ++ own) sd := by
  have hst : ∀ i ∈ storedPkts t ++ rel, ∃ c, h.skb i = some c ∧ c.dst = none := by
    intro i hi
    rcases List.mem_append.mp (hp.mem_iff.mp hi) with hi | hi
    · exact v.st i hi
    · obtain ⟨p, hp, rfl⟩ := List.mem_map.mp hi
      exact ⟨p.2, v.cell p (by simp [hp]), hk p hp⟩
  obtain ⟨rs, hrs, hc⟩ := cells_of (l := rel) (fun i hi => hst i (List.mem_append_right _ hi))
  refine ⟨rs, hrs, ?_, ?_, fun i hi => hst i (List.mem_append_left _ hi), ?_, v.top, ?_, ha⟩
  · have e : (ids (rs ++ own) ++ storedPkts t).Perm (ids (kept ++ own) ++ storedPkts h.table) := by
      rw [ids_append, ids_append, hrs]
      rw [List.perm_iff_count] at hp ⊢
      intro x
      have := hp x
      simp only [List.count_append] at this ⊢
      omega
    exact e.nodup_iff.mpr v.nd
  · intro p hp'
    rcases List.mem_append.mp hp' with hp' | hp'
    · exact (hc p hp').1
    · exact v.cell p (by simp [hp'])
  · intro i hi hs
    rw [ids_append, hrs, List.mem_append, not_or] at hi
    refine v.dead i (fun hm => ?_) (fun hm => ?_)
    · rw [ids_append] at hm
      rcases List.mem_append.mp hm with hm | hm
      · have := hp.mem_iff.mpr (List.mem_append_right _ hm)
        rcases List.mem_append.mp this with hx | hx
        · exact hs hx
        · exact hi.1 hx
      · exact hi.2 hm
    · have := hp.mem_iff.mpr (List.mem_append_left _ hm)
      rcases List.mem_append.mp this with hx | hx
      · exact hs hx
      · exact hi.1 hx
  · intro d
    have := v.dst d
    rw [routes_append, routes_none hk] at this
    rw [routes_append, routes_none (fun p hp => (hc p hp).2)]
    exact this

theorem icmpSend_spec {h : Heap} {o : Own} {sd} {i : Nat} {c : Skb} (v : Inv h o sd) (hm : (i, c) ∈ o) (l3 : L3)
    (e : Nat64.IcmpErr) (can : Bool) :
    wp E (icmpSend l3 (some i) e can) (fun b k => Inv k o sd ∧ k.table = h.table ∧ (∀ j, j ≠ i → Same j h k) ∧
      ((b = false ∧ k = h) ∨ ∃ t cd, icmpOf l3 e = some (t, cd) ∧ can = true ∧
        Sending i h k [.icmp i t cd])) h := by
  unfold icmpSend
  rw [wp_bind, v.load hm]
  cases can with
  | false => exact ⟨v, rfl, fun _ _ => Same.refl _ _, .inl ⟨rfl, rfl⟩⟩
  | true =>
    simp only [Bool.not_true, Bool.false_eq_true, if_false]
    cases hx : icmpOf l3 e with
    | none => exact ⟨v, rfl, fun _ _ => Same.refl _ _, .inl ⟨rfl, rfl⟩⟩
    | some x =>
      dsimp only
      rw [wp_bind, wp_emit, wp_pure]
      refine ⟨⟨v.nd, v.cell, v.st, v.dead, v.top, v.dst, v.re⟩, rfl, fun j hj => ⟨rfl, rfl, ?_, Nat.le_refl _⟩,
        .inr ⟨x.1, x.2, rfl, trivial, rfl, rfl, ?_, Nat.le_refl _⟩⟩
      · rw [List.filter_cons_of_neg]
        simp only [about, beq_iff_eq]
        exact fun hn => hj hn.symm
      · rw [List.filter_cons_of_pos]
        · rfl
        · simp [about]

theorem sendProbe_spec {h : Heap} {o : Own} {sd} (j : Nat) (v : Inv h o sd) (ch : RelCh) :
    wp E (sendProbe ch) (fun _ k => Inv k o sd ∧ Same j h k) h := by
  unfold sendProbe
  split
  · exact ⟨v, Same.refl _ _⟩
  · refine wp_seq (alloc_spec j v _ rfl) (fun i k q => ?_)
    obtain ⟨-, v1, sm⟩ := q
    refine wp_seq (route6_spec j v1 ch.route) (fun d k2 q2 => ?_)
    have sm2 := sm.trans q2.2
    cases d with
    | none => exact wp_mono (kfree_spec j q2.1) (fun _ _ q => ⟨q.1, sm2.trans q.2⟩)
    | some d =>
      dsimp only
      refine wp_seq (skbDstSet_spec j (some d) q2.1 rfl) (fun _ k3 q3 => ?_)
      refine wp_seq (take_spec j q3.1) (fun x k4 q4 => ?_)
      obtain ⟨rfl, v4, sm4⟩ := q4
      refine wp_seq (dstRelease_spec j (some d) v4) (fun _ k5 q5 => ?_)
      rw [wp_emit]
      have s5 := ((sm2.trans q3.2).trans sm4).trans q5.2
      exact ⟨⟨q5.1.nd, q5.1.cell, q5.1.st, q5.1.dead, q5.1.top, q5.1.dst, q5.1.re⟩, s5.xl, s5.inst, s5.log, s5.le⟩

theorem releaseAll_spec {own : Own} {sd} (j : Nat) (ch : Nat → RelCh) : ∀ (ev : List Bib.Event) (rs : Own) (h : Heap),
    ids rs = released ev → j ∉ released ev → Inv h (rs ++ own) sd →
    wp E (releaseAll ch ev) (fun _ k => Inv k own sd ∧ Same j h k) h := by
  intro ev
  induction ev with
  | nil =>
    intro rs h hi _ v
    have : rs = [] := by
      cases rs with
      | nil => rfl
      | cons a l => simp [released] at hi
    subst this
    unfold releaseAll
    exact ⟨v, Same.refl _ _⟩
  | cons e ev ih =>
    intro rs h hi hj v
    unfold releaseAll
    have one : ∀ i, released (e :: ev) = i :: released ev → (∀ c rs' k, Same j h k → Inv k ((i, c) :: (rs' ++ own)) sd →
        wp E (release (ch ev.length) e) (fun _ k2 => Inv k2 (rs' ++ own) sd ∧ Same j h k2) k) →
        wp E (do release (ch ev.length) e; releaseAll ch ev) (fun _ k => Inv k own sd ∧ Same j h k) h := by
      intro i he hw
      rw [he] at hi hj
      cases rs with
      | nil => simp at hi
      | cons p rs' =>
        simp only [ids_cons, List.cons.injEq] at hi
        obtain ⟨rfl, hi⟩ := hi
        refine wp_seq (hw p.2 rs' h (Same.refl _ _) v) (fun _ k q => ?_)
        refine wp_mono (ih rs' k hi (fun hm => hj (by simp [hm])) q.1) (fun _ k2 q2 => ⟨q2.1, q.2.trans q2.2⟩)
    cases e with
    | freed i =>
      refine one i rfl (fun c rs' k sm v => ?_)
      unfold release
      exact wp_mono (kfree_spec j v) (fun _ _ q => ⟨q.1, sm.trans q.2⟩)
    | icmpErr i =>
      refine one i rfl (fun c rs' k sm v => ?_)
      have hji : j ≠ i := by
        rintro rfl
        exact hj (by simp [released])
      unfold release icmpSend'
      rw [wp_bind, wp_bind, v.load (List.mem_cons_self ..)]
      cases hl : c.l3 with
      | none =>
        dsimp only
        rw [wp_pure]
        exact wp_mono (kfree_spec j v) (fun _ _ q => ⟨q.1, sm.trans q.2⟩)
      | some l3 =>
        dsimp only
        refine wp_mono (icmpSend_spec v (List.mem_cons_self ..) l3 .PORT_UNREACHABLE _) (fun b k2 q => ?_)
        exact wp_mono (kfree_spec j q.1) (fun _ _ q' => ⟨q'.1, (sm.trans (q.2.2.1 j hji)).trans q'.2⟩)
    | probe i =>
      refine wp_seq (sendProbe_spec j v _) (fun _ k q => ?_)
      exact wp_mono (ih rs k hi hj q.1) (fun _ k2 q2 => ⟨q2.1, q.2.trans q2.2⟩)

theorem tableOp_spec {h : Heap} {own : Own} {sd} (v : Inv h own sd) (e : Bib.Env) (o : Bib.Op) (ho : o.Ok) (ch : Nat → RelCh)
    (hp : ∀ i, o.pkt = some i → ∃ c, (i, c) ∈ own ∧ c.dst = none) (j : Nat) (hj : j ∈ ids own ∨ j ∉ storedPkts h.table) :
    wp Trap (tableOp e o ch) (fun r k => Same j h k ∧ (Inv k own sd ∧ (r = .stolen → o.pkt = none ∧ ∀ m sg s6 d6 d4, o ≠ .tcp6 m sg s6 d6 d4) ∨
      ∃ i c own', r = .stolen ∧ o.pkt = some i ∧ own.Perm ((i, c) :: own') ∧ c.dst = none ∧ Inv k own' sd ∧
        i ∈ storedPkts k.table)) h := by
  unfold tableOp
  rw [wp_bind, wp_get]
  obtain ⟨hist, evh, ha⟩ := v.re
  have wf : WF h.table := (Bib.After.inv ha).wf
  cases hr : Bib.step .TCP h.table e o with
  | ub u =>
    obtain ⟨h1, -, h2⟩ := Bib.ub_causes ha e o ho u hr
    exact ⟨h1, hist, h.table, evh, e, o, ha, ho, h2⟩
  | ok r =>
    dsimp only
    rw [wp_bind, wp_set]
    have hp' := table_perm wf ho hr
    have haf : ∃ hist ev, After .TCP hist r.1 ev := by
      obtain ⟨ev', h'⟩ := After.snoc ho ha hr
      exact ⟨_, ev', h'⟩
    by_cases hst : r.2.2 = .stolen ∧ ∃ i, o.pkt = some i
    · obtain ⟨hst, i, hi⟩ := hst
      obtain ⟨c, hc, hd⟩ := hp i hi
      obtain ⟨a, b, rfl⟩ := List.append_of_mem hc
      have pm : (a ++ (i, c) :: b).Perm ((i, c) :: (a ++ b)) := List.perm_middle
      have ev0 : r.2.1 = [] := by
        cases o <;> simp only [Bib.Op.pkt, reduceCtorEq] at hi
        exact tcp4_stolen hr hst
      rw [hst, hi, ev0] at hp'
      simp only [if_true, Option.toList_some] at hp'
      obtain ⟨rs, hrs, v'⟩ := table_set (kept := [(i, c)]) (own := a ++ b) (t := r.1) (rel := []) (v.perm pm)
        (by simpa using hd) (by simpa [released] using hp') haf
      have : rs = [] := by
        cases rs with
        | nil => rfl
        | cons x l => simp at hrs
      subst this
      rw [ev0]
      unfold releaseAll
      rw [wp_bind, wp_pure, wp_pure]
      refine ⟨⟨rfl, rfl, rfl, Nat.le_refl _⟩, .inr ⟨i, c, a ++ b, hst, hi, pm, hd, v', ?_⟩⟩
      have := hp'.mem_iff (a := i)
      simpa [released] using this
    · have hn : (if r.2.2 = .stolen then o.pkt else none) = none := by
        split
        · rename_i hs
          cases hk : o.pkt with
          | none => rfl
          | some i => exact absurd ⟨hs, i, hk⟩ hst
        · rfl
      rw [hn] at hp'
      obtain ⟨rs, hrs, v'⟩ := table_set (kept := []) (own := own) v (by simp) (by simpa using hp') haf
      have hjr : j ∉ released r.2.1 := by
        intro hm
        have hs : j ∈ storedPkts h.table := by
          have := hp'.mem_iff.mp (List.mem_append_right _ hm)
          simpa using this
        exact hj.elim (fun x => v.notStored x hs) (fun x => x hs)
      refine wp_seq (releaseAll_spec j ch r.2.1 rs _ hrs hjr v') (fun _ k q => ?_)
      rw [wp_pure]
      refine ⟨⟨q.2.xl, q.2.inst, q.2.log, q.2.le⟩, .inl ⟨q.1, fun hs => ⟨?_, ?_⟩⟩⟩
      · cases hk : o.pkt with
        | none => rfl
        | some i => exact absurd ⟨hs, i, hk⟩ hst
      · rintro m sg s6 d6 d4 rfl
        exact tcp6_not_stolen wf ho hr hs

end Jool.Life
