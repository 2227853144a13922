import Verif.Lemmas.BibFate
/-
`find_bib_session6` for packets, case by case, and operations which keep the BIB as it is.
-/
namespace Jool.Bib

/-- No other node is using the address. -/
def Free (t : Table) (src6 : T6) (a : T4) : Prop := ∀ c ∈ t.tree4, c.src6 ≠ src6 → c.src4 ≠ a

instance (t src6 a) : Decidable (Free t src6 a) := by unfold Free; infer_instance

/-- The first address of the pool's sequence that no other node is using. -/
def firstFree (t : Table) (src6 : T6) (m : Masks) : Option T4 :=
  (m.cands.map Prod.fst).find? (fun a => decide (Free t src6 a))

inductive Find6 (e : Env) (p : Proto) (t : Table) (m : Masks) (src6 dst6 : T6) (dst4 : T4) :
    Table × List Event × Outcome (Except Errno Found) → Prop
  /-- The node has an entry. -/
  | live (b : BibKey) (hb : b ∈ t.tree4) (hs : b.src6 = src6)
      (hm : ¬ (m.dynamic = true ∧ m.owns b.src4 = false)) :
      Find6 e p t m src6 dst6 dst4 (t, [], .ok (.ok ⟨.live b,
        if patchDst4 p dst4 b.src4 ∈ t.sess b then some ⟨b, patchDst4 p dst4 b.src4⟩ else none,
        b.src4, patchDst4 p dst4 b.src4⟩))
  /-- The node has an entry that it must not use anymore. -/
  | evicted (b : BibKey) (hb : b ∈ t.tree4) (hs : b.src6 = src6)
      (hm : m.dynamic = true ∧ m.owns b.src4 = false) :
      Find6 e p t m src6 dst6 dst4 ((detachBib t b).1, (detachBib t b).2,
        match firstFree t src6 m with
        | none => .ok (.error .ENOENT)
        | some a => .ok (.ok ⟨.null, none, a, patchDst4 p dst4 a⟩))
  /-- A stored packet becomes a session. -/
  | upgraded (n : QNode) (hp : p = .TCP) (h6 : find6 t src6 = none) (hn : n ∈ t.queue) (hd : n.dst6 = dst6)
      (ho : m.owns n.src4 = true) (h4 : find4 t n.src4 = none) (ho1 : e.oom.upSess = false) :
      Find6 e p t m src6 dst6 dst4
        (addSess e.now (addBib { t with queue := t.queue.erase n, pktCount := t.pktCount - 1 }
          ⟨src6, n.src4⟩ false) ⟨⟨src6, n.src4⟩, n.dst4⟩ n.dst6 .V4_INIT none .SYN4, [.freed n.skb],
         .ok (.ok ⟨.live ⟨src6, n.src4⟩, some ⟨⟨src6, n.src4⟩, n.dst4⟩, n.src4, n.dst4⟩))
  /-- A stored packet is lost while trying. -/
  | lost (n : QNode) (hp : p = .TCP) (h6 : find6 t src6 = none) (hn : n ∈ t.queue) (hd : n.dst6 = dst6)
      (ho : m.owns n.src4 = true) (old : OldBib)
      (hold : (old = .null ∧ e.oom.upBib = true) ∨
        (old = .dangling ∧ (e.oom.upSess = true ∨ ∃ c ∈ t.tree4, c.src4 = n.src4))) :
      Find6 e p t m src6 dst6 dst4
        ({ t with queue := t.queue.erase n, pktCount := t.pktCount - 1 }, [.freed n.skb],
        match firstFree t src6 m with
        | none => .ok (.error .ENOENT)
        | some a => .ok (.ok ⟨old, none, a, patchDst4 p dst4 a⟩))
  /-- The node has no entry. -/
  | fresh (h6 : find6 t src6 = none)
      (hq : p = .TCP → ∀ n ∈ t.queue, n.dst6 = dst6 → m.owns n.src4 = true →
        ∃ n' ∈ t.queue, n'.dst6 = dst6 ∧ m.owns n'.src4 = false) :
      Find6 e p t m src6 dst6 dst4 (t, [],
        match firstFree t src6 m with
        | none => .ok (.error .ENOENT)
        | some a => .ok (.ok ⟨.null, none, a, patchDst4 p dst4 a⟩))

theorem find?_congr' {α} {p q : α → Bool} {l : List α} (h : ∀ a ∈ l, p a = q a) : l.find? p = l.find? q := by
  induction l with
  | nil => rfl
  | cons a l ih =>
    simp only [List.find?_cons, h a (by simp)]
    rw [ih (fun x hx => h x (by simp [hx]))]

theorem findNew_masks {p : Proto} {t t' : Table} {m : Masks} {old : OldBib} {src6 : T6} {src4 dst4 : T4}
    (h : WF t') (hm : m.Ok) (hf : ∀ a, find4 t' a = none ↔ Free t src6 a) :
    findNew p t' (some m) old src4 dst4 =
      match firstFree t src6 m with
      | none => .ok (.error .ENOENT)
      | some a => .ok (.ok ⟨old, none, a, patchDst4 p dst4 a⟩) := by
  obtain ⟨o, ho1, ho2⟩ := findAvailable_correct h m.cands none none hm (by simp)
  have : o = firstFree t src6 m := by
    rw [ho2]
    apply find?_congr'
    intro a _
    rw [Bool.eq_iff_iff]
    simp [hf]
  unfold findNew
  simp only [ho1, this]
  cases firstFree t src6 m <;> rfl

theorem free_of_none {t : Table} (h : WF t) {s : T6} (h6 : find6 t s = none) (a : T4) :
    find4 t a = none ↔ Free t s a := by
  constructor
  · intro h4 c hc _ he
    have := (h.find4_iff c).2 hc
    rw [he, h4] at this; cases this
  · intro hf
    cases h4 : find4 t a with
    | none => rfl
    | some c =>
      obtain ⟨hc, he⟩ := find4_some h4
      exfalso
      refine hf c hc ?_ he
      exact find6_none h6 c ((h.same c).2 hc)

theorem findBibSession6_cases {e : Env} {p : Proto} {t : Table} {m : Masks} {src6 dst6 : T6} {dst4 : T4}
    (h : WF t) (hm : m.Ok) :
    Find6 e p t m src6 dst6 dst4 (findBibSession6 e p t (some m) src6 dst6 default dst4) := by
  unfold findBibSession6
  cases hf : find6 t src6 with
  | some b =>
    obtain ⟨hb6, hbs⟩ := find6_some hf
    have hb := (h.same b).1 hb6
    simp only
    split
    · rename_i hi
      refine Find6.live b hb hbs ?_
      rintro ⟨h1, h2⟩
      simp [issue216, h1, h2] at hi
    · rename_i hi
      have h6 : find6 (detachBib t b).1 src6 = none := hbs ▸ find6_detach h hb
      simp only [h6]
      rw [findNew_masks (t := t) (src6 := src6) (h.detachBib b hb) hm]
      · refine .evicted b hb hbs ?_
        simpa [issue216] using hi
      · intro a
        have d := detachBib_eq t b
        constructor
        · intro h4 c hc hne he
          refine find4_none h4 c ?_ he
          rw [d.t4, List.Nodup.mem_erase_iff (sorted_nodup h.s4)]
          exact ⟨by rintro rfl; exact hne hbs, hc⟩
        · intro hfr
          cases h4 : find4 (detachBib t b).1 a with
          | none => rfl
          | some c =>
            exfalso
            obtain ⟨hc, he⟩ := find4_some h4
            rw [d.t4, List.Nodup.mem_erase_iff (sorted_nodup h.s4)] at hc
            exact hfr c hc.2 (fun hs => hc.1 (h.uniq6 hc.2 hb (hs.trans hbs.symm))) he
  | none =>
    simp only
    have N : ∀ (t' : Table) old, SameTables t t' → findNew p t' (some m) old default dst4 =
        match firstFree t src6 m with
        | none => .ok (.error .ENOENT)
        | some a => .ok (.ok ⟨old, none, a, patchDst4 p dst4 a⟩) := by
      intro t' old st
      refine findNew_masks ?_ hm ?_
      · exact h.congr st.t4 st.t6 st.se st.ls (fun _ _ => by rw [st.inf])
      · intro a
        rw [← free_of_none h hf]
        unfold find4; rw [st.t4]
    by_cases hp : p = .TCP
    · cases hq : pktqueueFind t.queue dst6 (some m) with
      | none =>
        have hu : upgrade e p t (some m) src6 dst6 = (t, [], .failed .null) := by
          simp [upgrade, hp, hq]
        rw [hu]
        simp only
        rw [N t _ (.refl t)]
        refine .fresh hf ?_
        intro _ n hn hnd hno
        unfold pktqueueFind at hq
        cases hx : t.queue.find? (fun n => decide (n.dst6 = dst6)) with
        | none =>
          exfalso
          have := List.find?_eq_none.1 hx n hn
          simp [hnd] at this
        | some n' =>
          simp only [hx] at hq
          refine ⟨n', List.mem_of_find?_eq_some hx, by simpa using List.find?_some hx, ?_⟩
          cases hoo : m.owns n'.src4 with
          | false => rfl
          | true => simp [hoo] at hq
      | some n =>
        obtain ⟨hn, hnd, hno⟩ := pktqueueFind_mem hq
        have hno := hno m rfl
        have st : SameTables t { t with queue := t.queue.erase n, pktCount := t.pktCount - 1 } :=
          ⟨rfl, rfl, rfl, rfl, rfl, rfl⟩
        have L : ∀ old, ((old = .null ∧ e.oom.upBib = true) ∨
            (old = .dangling ∧ (e.oom.upSess = true ∨ ∃ c ∈ t.tree4, c.src4 = n.src4))) →
            upgrade e p t (some m) src6 dst6 = ({ t with queue := t.queue.erase n, pktCount := t.pktCount - 1 },
              [.freed n.skb], .failed old) →
            Find6 e p t m src6 dst6 dst4 (match (upgrade e p t (some m) src6 dst6).2.2 with
              | .done k => ((upgrade e p t (some m) src6 dst6).1, (upgrade e p t (some m) src6 dst6).2.1,
                .ok (.ok ⟨.live k.bib, some k, k.bib.src4, k.dst4⟩))
              | .failed old => ((upgrade e p t (some m) src6 dst6).1, (upgrade e p t (some m) src6 dst6).2.1,
                findNew p (upgrade e p t (some m) src6 dst6).1 (some m) old default dst4)) := by
          intro old ho hu
          rw [hu]
          simp only
          rw [N _ _ st]
          exact .lost n hp hf hn hnd hno old ho
        have h6' : find6 { t with queue := t.queue.erase n, pktCount := t.pktCount - 1 } src6 = none := hf
        cases ho1 : e.oom.upBib with
        | true => exact L .null (.inl ⟨rfl, ho1⟩) (by simp [upgrade, hp, hq, ho1])
        | false =>
          cases ho2 : e.oom.upSess with
          | true => exact L .dangling (.inr ⟨rfl, .inl ho2⟩) (by simp [upgrade, hp, hq, ho1, ho2])
          | false =>
            cases h4 : find4 { t with queue := t.queue.erase n, pktCount := t.pktCount - 1 } n.src4 with
            | some c =>
              exact L .dangling (.inr ⟨rfl, .inr ⟨c, find4_some h4⟩⟩)
                (by simp [upgrade, hp, hq, ho1, ho2, h6', h4])
            | none =>
              have hu : upgrade e p t (some m) src6 dst6 = (addSess e.now (addBib { t with queue := t.queue.erase n, pktCount := t.pktCount - 1 }
                  ⟨src6, n.src4⟩ false) ⟨⟨src6, n.src4⟩, n.dst4⟩ n.dst6 .V4_INIT none .SYN4, [.freed n.skb],
                  .done ⟨⟨src6, n.src4⟩, n.dst4⟩) := by
                simp [upgrade, hp, hq, ho1, ho2, h6', h4]
              rw [hu]
              exact .upgraded n hp hf hn hnd hno h4 ho2
    · have hu : upgrade e p t (some m) src6 dst6 = (t, [], .failed .null) := by
        simp [upgrade, hp]
      rw [hu]
      simp only
      rw [N t _ (.refl t)]
      exact .fresh hf (fun h => absurd h hp)

/-! ### Fates that do not remove -/

structure KeepsBib (t t' : Table) : Prop where
  t4 : t'.tree4 = t.tree4
  t6 : t'.tree6 = t.tree6
  se : t'.sess = t.sess
  st : t'.isStatic = t.isStatic

theorem KeepsBib.trans {a b c : Table} (h : KeepsBib a b) (h' : KeepsBib b c) : KeepsBib a c :=
  ⟨h'.t4.trans h.t4, h'.t6.trans h.t6, h'.se.trans h.se, h'.st.trans h.st⟩

theorem decideFate_keeps {e : Env} {probes : Bool} {cb : SessCtl → SessCtl × Fate} {t : Table}
    {k : SessKey} (hr : (decideFate e probes cb t k).removed = false) :
    KeepsBib t (decideFate e probes cb t k).t := by
  revert hr
  unfold decideFate
  generalize cb (ctlOf t k) = r
  have hed : setInfo t k { t.info k with state := r.1.state, updateTime := r.1.updateTime }
    = edited t k r.1 := rfl
  simp only [hed]
  clear hed
  have k0 : KeepsBib t (edited t k r.1) := ⟨rfl, rfl, rfl, rfl⟩
  revert k0
  generalize edited t k r.1 = t0
  intro k0
  have H : ∃ r1 : Table × List Event, (if !r.1.hasStored then killStored t0 k else (t0, [])) = r1 ∧
      KeepsBib t r1.1 := by
    refine ⟨_, rfl, ?_⟩
    split
    · obtain ⟨a, b, c, _, f, _⟩ := killStored_eq t0 k
      exact k0.trans ⟨a, b, c, f⟩
    · exact k0
  obtain ⟨r1, hr1, k1⟩ := H
  simp only [hr1]
  cases hf : r.2 with
  | TIMER_EST => intro _; exact k1.trans ⟨rfl, rfl, rfl, rfl⟩
  | TIMER_TRANS => intro _; exact k1.trans ⟨rfl, rfl, rfl, rfl⟩
  | PROBE =>
    intro _
    obtain ⟨a, b, c, _, f, _⟩ := handleProbe_eq e.oom probes r1.1 k
    exact (k1.trans ⟨a, b, c, f⟩).trans ⟨rfl, rfl, rfl, rfl⟩
  | RM => intro h; simp at h
  | PRESERVE => intro _; exact k1
  | DROP => intro _; exact k1
  | TIMER_SLOW =>
    intro _
    cases hτ : r.1.timer with
    | none => exact k1
    | some τ => exact k1.trans ⟨rfl, rfl, rfl, rfl⟩

theorem mem_reapBib {t : Table} (h : t.tree4.Nodup) {b c : BibKey} (hne : c ≠ b) :
    c ∈ (reapBib t b).tree4 ↔ c ∈ t.tree4 := by
  unfold reapBib
  split
  · show c ∈ t.tree4.erase b ↔ _
    rw [List.Nodup.mem_erase_iff h]
    exact ⟨fun h => h.2, fun h => ⟨hne, h⟩⟩
  · exact Iff.rfl

/-- Only the session's own BIB entry can go. -/
theorem decideFate_mem {e : Env} {probes : Bool} {cb : SessCtl → SessCtl × Fate} {t : Table}
    {k : SessKey} (w : WF t) {c : BibKey} (hne : c ≠ k.bib) :
    c ∈ (decideFate e probes cb t k).t.tree4 ↔ c ∈ t.tree4 := by
  cases hr : (decideFate e probes cb t k).removed with
  | false => rw [(decideFate_keeps hr).t4]
  | true =>
    revert hr
    unfold decideFate
    generalize cb (ctlOf t k) = r
    have hed : setInfo t k { t.info k with state := r.1.state, updateTime := r.1.updateTime }
      = edited t k r.1 := rfl
    simp only [hed]
    clear hed
    have k0 : (edited t k r.1).tree4 = t.tree4 := rfl
    revert k0
    generalize edited t k r.1 = t0
    intro k0
    have H : ∃ r1 : Table × List Event, (if !r.1.hasStored then killStored t0 k else (t0, [])) = r1 ∧
        r1.1.tree4 = t.tree4 := by
      refine ⟨_, rfl, ?_⟩
      split
      · exact (killStored_eq t0 k).1.trans k0
      · exact k0
    obtain ⟨r1, hr1, k1⟩ := H
    simp only [hr1]
    cases hf : r.2 with
    | RM =>
      intro _
      simp only [rmSess_eq]
      have : ∀ t1 : Table, t1.tree4 = t.tree4 → (c ∈ (reapBib (unlink t1 k) k.bib).tree4 ↔ c ∈ t.tree4) := by
        intro t1 h1
        rw [mem_reapBib (t := unlink t1 k) (by show t1.tree4.Nodup; rw [h1]; exact sorted_nodup w.s4) hne]
        show c ∈ t1.tree4 ↔ _
        rw [h1]
      apply this
      cases hs : (r1.1.info k).stored with
      | none => exact k1
      | some s => exact (handleProbe_eq e.oom probes r1.1 k).1.trans k1
    | _ => intro h; simp at h

/-- Packets of an existing TCP session: what remains, and the only way to fail. -/
theorem tcpCollision_cases {e : Env} {t : Table} {ev} {k : SessKey} {seg : Seg} :
    (∃ r, tcpCollision e (TcpSM.stateMachine e.cfg.handleRst seg) t ev k = .ok r ∧ KeepsBib t r.1 ∧
      (∀ k', k' ≠ k → (Live t k → WF t → r.1.info k' = t.info k')) ∧
      (r.2.2 = .cont k.bib (some k) ∨ r.2.2 = .drop "SO_EXISTS")) ∨
    (tcpCollision e (TcpSM.stateMachine e.cfg.handleRst seg) t ev k = .ub .useAfterFree ∧
      (t.info k).state = .unknown) := by
  have F := decideFate_eff (e := e) (probes := false) (cb := TcpSM.stateMachine e.cfg.handleRst seg) (t := t)
    (k := k)
  have K := decideFate_keeps (e := e) (probes := false) (cb := TcpSM.stateMachine e.cfg.handleRst seg)
    (t := t) (k := k)
  have O := fun hw hl => (decideFate_ok (e := e) (probes := false)
    (cb := TcpSM.stateMachine e.cfg.handleRst seg) (t := t) (k := k) hw hl).others
  unfold tcpCollision
  revert F K O
  generalize decideFate e false (TcpSM.stateMachine e.cfg.handleRst seg) t k = d
  intro F K O
  simp only
  cases ht : d.translate with
  | false =>
    rw [if_neg (by simp)]
    have hd : d.removed = false := by
      have h1 := F.removed; have h2 := F.translate
      rw [ht] at h2
      rw [h1]
      simp only [ne_eq, decide_not, Bool.false_eq, Bool.not_eq_false', decide_eq_true_eq] at h2
      rw [h2]; rfl
    exact .inl ⟨_, rfl, K hd, fun k' hne hl hw => O hw hl k' hne, .inr rfl⟩
  | true =>
    rw [if_pos rfl]
    cases hd : d.removed with
    | false =>
      rw [if_neg (by simp)]
      exact .inl ⟨_, rfl, K hd, fun k' hne hl hw => O hw hl k' hne, .inl rfl⟩
    | true =>
      rw [if_pos rfl]
      refine .inr ⟨rfl, ?_⟩
      have h1 := F.removed
      rw [hd] at h1
      have h2 : (TcpSM.stateMachine e.cfg.handleRst seg (ctlOf t k)).2 = .RM := by
        simpa using h1.symm
      cases hst : (t.info k).state with
      | unknown => rfl
      | _ =>
        exfalso
        have : (ctlOf t k).state = (t.info k).state := rfl
        rw [hst] at this
        simp only [TcpSM.stateMachine, this, TcpSM.establishedState, TcpSM.v4InitState, TcpSM.v6InitState,
          TcpSM.v4FinRcvState, TcpSM.v6FinRcvState, TcpSM.transState] at h2
        repeat' split at h2
        all_goals simp at h2

end Jool.Bib
