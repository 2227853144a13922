import Verif.Props.BibMapping
/-
What the BIB tells the rest of the NAT64 pipeline about a packet that continues.
-/
namespace Jool.Bib
open BibSpec

/-- A packet from IPv6 (from `s` to `d6`, which is `d4` in IPv4) continues with the entry `b`. -/
structure Cont6 (p : Proto) (t : Table) (m : Masks) (s d6 : T6) (d4 : T4) (t' : Table) (b : BibKey) (o : Option SessKey) :
    Prop where
  mem : b ∈ t'.tree4
  src : b.src6 = s
  usable : m.dynamic = true → (∀ a ∈ m.cands.map Prod.fst, m.owns a = true) → m.owns b.src4 = true
  sess : ∀ k, o = some k → k.bib = b ∧ Live t' k ∧
    (k.dst4 = patchDst4 p d4 b.src4 ∨ (p = .TCP ∧ ∃ n ∈ t.queue, n.dst6 = d6 ∧ k.dst4 = n.dst4))

theorem live_addSess_self {now} {t : Table} {k : SessKey} {d6 st sto τ} (hb : k.bib ∈ t.tree4) :
    Live (addSess now t k d6 st sto τ) k := by
  refine ⟨hb, ?_⟩
  simp only [addSess, setInfo, upd_same]
  exact (mem_insBy _ _ _ _).2 (.inl rfl)

theorem commit_live {now : Nat} {t : Table} {f : Found} {s d : T6} {st : TcpState} {τ : TimerType} {c}
    (hf : ∀ b, f.oldBib = .live b → b ∈ t.tree4 ∧ b.src6 = s)
    (hc : commitAdd6 now t f s d st τ = .ok c) :
    Live c.1 c.2 ∧ c.2.dst4 = f.dst4 ∧ c.2.bib.src6 = s ∧
      ((f.oldBib = .live c.2.bib) ∨ (f.oldBib = .null ∧ c.2.bib = ⟨s, f.src4⟩)) := by
  unfold commitAdd6 at hc
  cases hb : f.oldBib with
  | dangling => simp [hb] at hc
  | live b =>
    simp only [hb, Outcome.ok.injEq] at hc; subst hc
    exact ⟨live_addSess_self (hf b hb).1, rfl, (hf b hb).2, .inl rfl⟩
  | null =>
    simp only [hb, Outcome.ok.injEq] at hc; subst hc
    exact ⟨live_addSess_self (mem_addBib.2 (.inl rfl)), rfl, rfl, .inr ⟨rfl, rfl⟩⟩

theorem collision_live {e : Env} {cb} {t : Table} {ev k r} (w : WF t) (hk : Live t k)
    (h : tcpCollision e cb t ev k = .ok r) {b o} (hr : r.2.2 = .cont b o) :
    b = k.bib ∧ o = some k ∧ ∀ k', Live r.1 k' ↔ Live t k' := by
  unfold tcpCollision at h
  simp only at h
  split at h
  · split at h
    · cases h
    · rename_i hrm
      cases h; injection hr with h1 h2
      exact ⟨h1.symm, h2.symm, (decideFate_ok w hk).kept (by simpa using hrm)⟩
  · cases h; cases hr

theorem firstFree_mem {t : Table} {s : T6} {m : Masks} {a : T4} (h : firstFree t s m = some a) :
    a ∈ m.cands.map Prod.fst := List.mem_of_find?_eq_some h

/-- What `find_bib_session6` prepares. -/
theorem found6 {e : Env} {p : Proto} {t : Table} {m : Masks} {s d6 : T6} {d4 : T4} (w : WF t)
    {q : Table × List Event × Outcome (Except Errno Found)} (F : Find6 e p t m s d6 d4 q) {f : Found}
    (hq : q.2.2 = .ok (.ok f)) :
    WF q.1 ∧ (∀ b, f.oldBib = .live b → b ∈ q.1.tree4 ∧ b.src6 = s ∧
        (m.dynamic = true → m.owns b.src4 = true)) ∧
      (f.oldSess = none → f.oldBib = .null → f.src4 ∈ m.cands.map Prod.fst) ∧
      (f.oldSess = none → ∀ b, f.oldBib = .live b → f.dst4 = patchDst4 p d4 b.src4) ∧
      (f.oldSess = none → f.oldBib = .null → f.dst4 = patchDst4 p d4 f.src4) ∧
      (∀ k, f.oldSess = some k → f.oldBib = .live k.bib ∧ Live q.1 k ∧
        (k.dst4 = patchDst4 p d4 k.bib.src4 ∨ (p = .TCP ∧ ∃ n ∈ t.queue, n.dst6 = d6 ∧ k.dst4 = n.dst4))) := by
  cases F with
  | live b hb hs hm =>
    simp only [Outcome.ok.injEq, Except.ok.injEq] at hq
    subst hq
    refine ⟨w, ?_, by simp, ?_, by simp, ?_⟩
    · rintro c hc
      injection hc with hc; subst hc
      refine ⟨hb, hs, fun hd => ?_⟩
      cases ho : m.owns b.src4 with
      | true => rfl
      | false => exact absurd ⟨hd, ho⟩ hm
    · rintro _ c hc
      injection hc with hc; subst hc; rfl
    · intro k hk
      dsimp only at hk
      split at hk
      · rename_i hin
        cases hk
        exact ⟨rfl, ⟨hb, hin⟩, .inl rfl⟩
      · cases hk
  | evicted b hb hs hm =>
    dsimp only at hq
    split at hq
    · cases hq
    · rename_i a ha
      simp only [Outcome.ok.injEq, Except.ok.injEq] at hq
      subst hq
      refine ⟨w.detachBib b hb, by simp, fun _ _ => firstFree_mem ha, by simp, fun _ _ => rfl, by simp⟩
  | upgraded n hp h6 hn hd ho h4 ho1 =>
    simp only [Outcome.ok.injEq, Except.ok.injEq] at hq
    subst hq
    have w1 : WF { t with queue := t.queue.erase n, pktCount := t.pktCount - 1 } :=
      w.congr rfl rfl rfl rfl (fun _ _ => rfl)
    have hb : (⟨s, n.src4⟩ : BibKey) ∈ (addBib { t with queue := t.queue.erase n, pktCount := t.pktCount - 1 }
      ⟨s, n.src4⟩ false).tree4 := mem_addBib.2 (.inl rfl)
    refine ⟨?_, ?_, by simp, by simp, by simp, ?_⟩
    · exact (Good.addPair w1 e.now (b := ⟨s, n.src4⟩) h6 h4 _ _ _ _).wf
    · rintro c hc
      injection hc with hc; subst hc
      exact ⟨hb, rfl, fun _ => ho⟩
    · intro k hk
      injection hk with hk; subst hk
      exact ⟨rfl, live_addSess_self hb, .inr ⟨hp, n, hn, hd, rfl⟩⟩
  | lost n hp h6 hn hd ho old hold =>
    dsimp only at hq
    split at hq
    · cases hq
    · rename_i a ha
      simp only [Outcome.ok.injEq, Except.ok.injEq] at hq
      subst hq
      refine ⟨w.congr rfl rfl rfl rfl (fun _ _ => rfl), ?_, fun _ _ => firstFree_mem ha, ?_, fun _ _ => rfl, by simp⟩
      · rintro c hc
        dsimp only at hc
        rcases hold with ⟨h, _⟩ | ⟨h, _⟩ <;> rw [h] at hc <;> cases hc
      · rintro _ c hc
        dsimp only at hc
        rcases hold with ⟨h, _⟩ | ⟨h, _⟩ <;> rw [h] at hc <;> cases hc
  | fresh h6 hq' =>
    dsimp only at hq
    split at hq
    · cases hq
    · rename_i a ha
      simp only [Outcome.ok.injEq, Except.ok.injEq] at hq
      subst hq
      exact ⟨w, by simp, fun _ _ => firstFree_mem ha, by simp, fun _ _ => rfl, by simp⟩

theorem add6_cont {p : Proto} {t : Table} (w : WF t) {e : Env} {m : Masks} (hm : m.Ok) {s d6 : T6} {d4 : T4} {r}
    (hr : add6 e p t m s d6 d4 = .ok r) {b o} (hc : r.2.2 = .cont b o) : Cont6 p t m s d6 d4 r.1 b o ∧ o ≠ none := by
  unfold add6 at hr
  split at hr
  · cases hr; cases hc
  · have F := findBibSession6_cases (e := e) (p := p) (src6 := s) (dst6 := d6) (dst4 := d4) w hm
    generalize findBibSession6 e p t (some m) s d6 default d4 = q at hr F
    dsimp only at hr
    cases hq : q.2.2 with
    | ub u => rw [hq] at hr; cases hr
    | ok x =>
      rw [hq] at hr
      cases x with
      | error er => cases hr; cases hc
      | ok f =>
        obtain ⟨w1, L, N, D1, D2, S⟩ := found6 w F hq
        dsimp only at hr
        cases hs : f.oldSess with
        | some k =>
          rw [hs] at hr
          simp only [Outcome.ok.injEq] at hr
          subst hr
          simp only [Result.cont.injEq] at hc
          obtain ⟨rfl, rfl⟩ := hc
          obtain ⟨h1, h2, h3⟩ := S k hs
          obtain ⟨l1, l2, l3⟩ := L _ h1
          refine ⟨⟨l1, l2, fun hd _ => l3 hd, ?_⟩, by simp⟩
          intro k' hk'
          injection hk' with hk'; subst hk'
          exact ⟨rfl, h2, h3⟩
        | none =>
          rw [hs] at hr
          dsimp only at hr
          cases hcm : commitAdd6 e.now q.1 f s d6 .ESTABLISHED .EST with
          | ub u => rw [hcm] at hr; cases hr
          | ok c =>
            rw [hcm] at hr
            simp only [Outcome.ok.injEq] at hr
            subst hr
            simp only [Result.cont.injEq] at hc
            obtain ⟨rfl, rfl⟩ := hc
            obtain ⟨c1, c2, c3, c4⟩ := commit_live (fun b hb => ⟨(L b hb).1, (L b hb).2.1⟩) hcm
            refine ⟨⟨c1.1, c3, fun hd ho => ?_, ?_⟩, by simp⟩
            · rcases c4 with c4 | ⟨c4, c5⟩
              · exact (L _ c4).2.2 hd
              · rw [c5]; exact ho _ (N hs c4)
            · intro k' hk'
              injection hk' with hk'; subst hk'
              refine ⟨rfl, c1, .inl ?_⟩
              rcases c4 with c4 | ⟨c4, c5⟩
              · rw [c2, D1 hs _ c4]
              · rw [c2, D2 hs c4, c5]

theorem tcp6_cont {t : Table} (w : WF t) {e : Env} {m : Masks} (hm : m.Ok) {sg : Seg} {s d6 : T6} {d4 : T4} {r}
    (hr : tcp6 e t m sg s d6 d4 = .ok r) {b o} (hc : r.2.2 = .cont b o) :
    Cont6 .TCP t m s d6 d4 r.1 b o ∧ (o = none → sg.syn = false) := by
  unfold tcp6 at hr
  split at hr
  · cases hr; cases hc
  · have F := findBibSession6_cases (e := e) (p := .TCP) (src6 := s) (dst6 := d6) (dst4 := d4) w hm
    generalize findBibSession6 e .TCP t (some m) s d6 default d4 = q at hr F
    dsimp only at hr
    cases hq : q.2.2 with
    | ub u => rw [hq] at hr; cases hr
    | ok x =>
      rw [hq] at hr
      cases x with
      | error er => cases hr; cases hc
      | ok f =>
        obtain ⟨w1, L, N, D1, D2, S⟩ := found6 w F hq
        dsimp only at hr
        cases hs : f.oldSess with
        | some k =>
          rw [hs] at hr
          dsimp only at hr
          obtain ⟨h1, h2, h3⟩ := S k hs
          obtain ⟨l1, l2, l3⟩ := L _ h1
          obtain ⟨rfl, rfl, hl⟩ := collision_live w1 h2 hr hc
          refine ⟨⟨((hl k).2 h2).1, l2, fun hd _ => l3 hd, ?_⟩, by simp⟩
          intro k' hk'
          injection hk' with hk'; subst hk'
          exact ⟨rfl, (hl _).2 h2, h3⟩
        | none =>
          rw [hs] at hr
          dsimp only at hr
          split at hr
          · rename_i hsyn
            cases hb : f.oldBib with
            | null => rw [hb] at hr; cases hr; cases hc
            | dangling => rw [hb] at hr; cases hr
            | live b' =>
              rw [hb] at hr
              simp only [Outcome.ok.injEq] at hr
              subst hr
              simp only [Result.cont.injEq] at hc
              obtain ⟨rfl, rfl⟩ := hc
              obtain ⟨l1, l2, l3⟩ := L _ hb
              exact ⟨⟨l1, l2, fun hd _ => l3 hd, by simp⟩, fun _ => by simpa using hsyn⟩
          · cases hcm : commitAdd6 e.now q.1 f s d6 .V6_INIT .TRANS with
            | ub u => rw [hcm] at hr; cases hr
            | ok c =>
              rw [hcm] at hr
              simp only [Outcome.ok.injEq] at hr
              subst hr
              simp only [Result.cont.injEq] at hc
              obtain ⟨rfl, rfl⟩ := hc
              obtain ⟨c1, c2, c3, c4⟩ := commit_live (fun b hb => ⟨(L b hb).1, (L b hb).2.1⟩) hcm
              refine ⟨⟨c1.1, c3, fun hd ho => ?_, ?_⟩, by simp⟩
              · rcases c4 with c4 | ⟨c4, c5⟩
                · exact (L _ c4).2.2 hd
                · rw [c5]; exact ho _ (N hs c4)
              · intro k' hk'
                injection hk' with hk'; subst hk'
                refine ⟨rfl, c1, .inl ?_⟩
                rcases c4 with c4 | ⟨c4, c5⟩
                · rw [c2, D1 hs _ c4]
                · rw [c2, D2 hs c4, c5]

/-! ### From IPv4 -/

theorem add4_cont {t : Table} {e : Env} {src4 dst4 : T4} {d6 : T6} {r}
    (hr : add4 e t src4 dst4 d6 = .ok r) {b o} (hc : r.2.2 = .cont b o) :
    b ∈ t.tree4 ∧ r.1.tree4 = t.tree4 ∧ b.src4 = src4 ∧ o = some ⟨b, dst4⟩ := by
  unfold add4 at hr
  split at hr
  · cases hr; cases hc
  · cases hf : find4 t src4 with
    | none => rw [hf] at hr; cases hr; cases hc
    | some b' =>
      rw [hf] at hr
      obtain ⟨h1, h2⟩ := find4_some hf
      dsimp only at hr
      split at hr
      · cases hr; cases hc; exact ⟨h1, rfl, h2, rfl⟩
      · split at hr
        · cases hr; cases hc
        · cases hr; cases hc; exact ⟨h1, rfl, h2, rfl⟩

theorem decideFate_tree {e : Env} {probes cb} {t : Table} {k : SessKey}
    (h : (decideFate e probes cb t k).removed = false) : (decideFate e probes cb t k).t.tree4 = t.tree4 := by
  revert h
  unfold decideFate
  generalize cb (ctlOf t k) = x
  dsimp only
  have K : ∀ t' : Table, (if !x.1.hasStored then killStored t' k else (t', [])).1.tree4 = t'.tree4 := by
    intro t'
    split
    · exact (killStored_eq t' k).1
    · rfl
  cases x.2 with
  | RM => intro h; cases h
  | TIMER_EST => intro _; exact K _
  | TIMER_TRANS => intro _; exact K _
  | PROBE => intro _; exact (handleProbe_eq _ _ _ _).1.trans (K _)
  | PRESERVE => intro _; exact K _
  | DROP => intro _; exact K _
  | TIMER_SLOW =>
    intro _
    dsimp only
    unfold queueUnsorted
    cases x.1.timer with
    | none => exact K _
    | some τ => exact K _

theorem tcp4_cont {t : Table} {e : Env} {sg : Seg} {src4 dst4 : T4} {d6 : T6} {skb : Nat} {r}
    (hr : tcp4 e t sg src4 dst4 d6 skb = .ok r) {b o} (hc : r.2.2 = .cont b o) :
    b ∈ t.tree4 ∧ r.1.tree4 = t.tree4 ∧ b.src4 = src4 ∧
      (o = some ⟨b, dst4⟩ ∨ (o = none ∧ sg.syn = false)) := by
  unfold tcp4 at hr
  split at hr
  · cases hr; cases hc
  · cases hf : find4 t src4 with
    | none =>
      simp only [hf] at hr
      split at hr
      · cases hr; cases hc
      · split at hr
        · cases hr; cases hc
        · unfold storeType1 at hr
          simp only [Outcome.ok.injEq] at hr
          subst hr
          repeat' split at hc
          all_goals cases hc
    | some b' =>
      obtain ⟨h1, h2⟩ := find4_some hf
      simp only [hf] at hr
      by_cases hin : dst4 ∈ t.sess b'
      · rw [if_pos hin] at hr
        dsimp only at hr
        unfold tcpCollision at hr
        dsimp only at hr
        split at hr
        · split at hr
          · cases hr
          · rename_i hrm
            cases hr; cases hc
            exact ⟨h1, decideFate_tree (by simpa using hrm), h2, .inl rfl⟩
        · cases hr; cases hc
      · rw [if_neg hin] at hr
        dsimp only at hr
        split at hr
        · rename_i hsyn
          cases hr; cases hc; exact ⟨h1, rfl, h2, .inr ⟨rfl, by simpa using hsyn⟩⟩
        · split at hr
          · cases hr; cases hc
          · split at hr
            · split at hr
              · cases hr; cases hc
              · cases hr; cases hc
            · cases hr; cases hc; exact ⟨h1, rfl, h2, .inl rfl⟩

/-- The session is neither corrupted nor holding a packet that was received before. -/
def Answerable (i : SessInfo) : Prop := i.state ≠ .unknown ∧ (i.state = .V4_INIT → i.stored = none)

theorem machine4 (hr : Bool) (sg : Seg) (hl : sg.l3 = .V4) (c : SessCtl) (h1 : c.state ≠ .unknown)
    (h2 : c.state = .V4_INIT → c.hasStored = false) :
    (TcpSM.stateMachine hr sg c).2 ≠ .RM ∧ (TcpSM.stateMachine hr sg c).2 ≠ .DROP := by
  unfold TcpSM.stateMachine
  cases hs : c.state with
  | unknown => exact absurd hs h1
  | ESTABLISHED => unfold TcpSM.establishedState; simp only [hl]; repeat' split
                   all_goals simp
  | V6_INIT => unfold TcpSM.v6InitState; simp only [hl]; repeat' split
               all_goals simp
  | V4_INIT => unfold TcpSM.v4InitState; simp [hl, h2 hs]
  | V4_FIN_RCV => unfold TcpSM.v4FinRcvState; simp only [hl]; repeat' split
                  all_goals simp
  | V6_FIN_RCV => unfold TcpSM.v6FinRcvState; simp only [hl]; repeat' split
                  all_goals simp
  | V4_FIN_V6_FIN_RCV => simp
  | TRANS => dsimp only; unfold TcpSM.transState; repeat' split
             all_goals simp

/-- An IPv4 packet of a session is translated with it. -/
theorem tcp4_known {t : Table} (w : WF t) {e : Env} (hm : e.oom.new = false) {sg : Seg} (hl : sg.l3 = .V4) {b : BibKey}
    {dst4 : T4} (hk : Live t ⟨b, dst4⟩) (ha : Answerable (t.info ⟨b, dst4⟩)) (d6 : T6) (skb : Nat) :
    ∃ r, tcp4 e t sg b.src4 dst4 d6 skb = .ok r ∧ r.2.2 = .cont b (some ⟨b, dst4⟩) ∧ r.1.tree4 = t.tree4 ∧
      ∀ k', Live r.1 k' ↔ Live t k' := by
  unfold tcp4
  simp only [hm, Bool.false_eq_true, if_false, (w.find4_iff b).2 hk.1, if_pos hk.2]
  unfold tcpCollision
  have M := machine4 e.cfg.handleRst sg hl (ctlOf t ⟨b, dst4⟩) ha.1 (by
    intro h
    have := ha.2 h
    simp [ctlOf, this])
  have D := decideFate_ok (e := e) (probes := false) (cb := TcpSM.stateMachine e.cfg.handleRst sg) w hk
  have T := @decideFate_tree e false (TcpSM.stateMachine e.cfg.handleRst sg) t ⟨b, dst4⟩
  have R : (decideFate e false (TcpSM.stateMachine e.cfg.handleRst sg) t ⟨b, dst4⟩).translate = true ∧
      (decideFate e false (TcpSM.stateMachine e.cfg.handleRst sg) t ⟨b, dst4⟩).removed = false := by
    revert M
    unfold decideFate
    generalize TcpSM.stateMachine e.cfg.handleRst sg (ctlOf t ⟨b, dst4⟩) = x
    intro M
    dsimp only
    cases hx : x.2 <;> simp_all
  dsimp only
  rw [if_pos R.1, if_neg (by simp [R.2])]
  exact ⟨_, rfl, rfl, T R.2, D.kept R.2⟩

theorem add4_known {t : Table} (w : WF t) {e : Env} (hm : e.oom.new = false) {b : BibKey}
    {dst4 : T4} (hk : Live t ⟨b, dst4⟩) (d6 : T6) :
    ∃ r, add4 e t b.src4 dst4 d6 = .ok r ∧ r.2.2 = .cont b (some ⟨b, dst4⟩) ∧ r.1.tree4 = t.tree4 ∧
      ∀ k', Live r.1 k' ↔ Live t k' := by
  unfold add4
  simp only [hm, Bool.false_eq_true, if_false, (w.find4_iff b).2 hk.1, if_pos hk.2]
  exact ⟨_, rfl, rfl, rfl, fun _ => Iff.rfl⟩

/-! ### Histories -/

theorem run_snoc {p : Proto} {e : Env} {op : Op} : ∀ (hist : List (Env × Op)) (t t' : Table) (ev : List Event) (r),
    run p t hist = .ok (t', ev) → step p t' e op = .ok r → run p t (hist ++ [(e, op)]) = .ok (r.1, ev ++ r.2.1) := by
  intro hist
  induction hist with
  | nil =>
    intro t t' ev r h hr
    simp only [run, Outcome.ok.injEq, Prod.mk.injEq] at h
    obtain ⟨rfl, rfl⟩ := h
    simp [run, hr]
  | cons x rest ih =>
    intro t t' ev r h hr
    obtain ⟨e0, o0⟩ := x
    simp only [run, List.cons_append] at h ⊢
    cases hs : step p t e0 o0 with
    | ub u => rw [hs] at h; cases h
    | ok r0 =>
      rw [hs] at h
      dsimp only at h ⊢
      cases hq : run p r0.1 rest with
      | ub u => rw [hq] at h; cases h
      | ok q =>
        rw [hq] at h
        simp only [Outcome.ok.injEq, Prod.mk.injEq] at h
        obtain ⟨rfl, rfl⟩ := h
        rw [ih _ _ _ _ hq hr]
        simp

theorem After.snoc {p hist t ev} (h : After p hist t ev) {e : Env} {op : Op} (ho : op.Ok) {r}
    (hr : step p t e op = .ok r) : After p (hist ++ [(e, op)]) r.1 (ev ++ r.2.1) := by
  refine ⟨?_, run_snoc _ _ _ _ _ h.2 hr⟩
  intro x hx
  rcases List.mem_append.1 hx with hx | hx
  · exact h.1 x hx
  · simp only [List.mem_singleton] at hx
    subst hx; exact ho

end Jool.Bib
