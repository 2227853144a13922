import Verif.Lemmas.BibOps
/-
Every operation is a chain of a few kinds of elementary edits ("atoms"). Invariants are then proved
atom by atom.
-/
namespace Jool.Bib

/-- The IPv6 transport address that an operation speaks for. -/
def Op.src6 : Op → Option T6
  | .add6 _ s _ _ => some s
  | .tcp6 _ _ s _ _ => some s
  | .joold s => some s.src6
  | _ => none

/-- The session belongs to the flow (or the node) that the operation is about. -/
def Op.Owns : Op → SessKey → Prop
  | .add6 _ s _ _, k => k.bib.src6 = s
  | .tcp6 _ _ s _ _, k => k.bib.src6 = s
  | .add4 s d _, k => k.bib.src4 = s ∧ k.dst4 = d
  | .tcp4 _ s d _ _, k => k.bib.src4 = s ∧ k.dst4 = d
  | .joold s, k => k.bib.src6 = s.src6
  | .clean, _ => True
  | _, _ => False

/-- The operation may delete the entry `b` as a whole. -/
def Op.Detaches (t : Table) : Op → BibKey → Prop
  | .rm c, b => b = c
  | .rmRange r, b => prefix4Contains r.pfx b.src4.addr = true ∧ r.min.toNat ≤ b.src4.port.toNat ∧
      b.src4.port.toNat ≤ r.max.toNat
  | .flush, _ => True
  | .add6 m s _ _, b => b.src6 = s ∧ m.dynamic = true ∧ m.owns b.src4 = false
  | .tcp6 m _ s _ _, b => b.src6 = s ∧ m.dynamic = true ∧ m.owns b.src4 = false
  | _, _ => False

/-- Callbacks with which `decide_fate` is used. -/
inductive Cb (p : Proto) (e : Env) (op : Op) (t : Table) (k : SessKey) :
    (SessCtl → SessCtl × Fate) → Prop
  | tcp (seg : Seg) (hp : p = .TCP)
      (ho : (∃ m s6 d6 d4, op = .tcp6 m seg s6 d6 d4) ∨ (∃ s4 d4 d6 skb, op = .tcp4 seg s4 d4 d6 skb)) :
      Cb p e op t k (TcpSM.stateMachine e.cfg.handleRst seg)
  | joold (s : SessEntry) (ho : op = .joold s) : Cb p e op t k (jooldCb t s k)
  | expire (τ : TimerType) (ho : op = .clean) (hτ : (t.info k).expirer = τ)
      (ht : (t.info k).updateTime + getTimeout e.cfg p τ ≤ e.now) : Cb p e op t k (expireCb e.now p τ)

/-- States and timers of sessions created by packets. -/
def Fresh (p : Proto) (st : TcpState) (sto : Option Nat) (τ : TimerType) : Prop :=
  (p ≠ .TCP ∧ st = .ESTABLISHED ∧ τ = .EST ∧ sto = none) ∨
  (p = .TCP ∧ st = .V6_INIT ∧ τ = .TRANS ∧ sto = none) ∨
  (p = .TCP ∧ st = .V4_INIT ∧ τ = .SYN4) ∨
  (p = .TCP ∧ st = .V4_INIT ∧ τ = .TRANS ∧ sto = none)

/-- The operation is the translation of a packet. -/
def Op.isPacket : Op → Prop
  | .add6 .. | .add4 .. | .tcp6 .. | .tcp4 .. => True
  | _ => False

inductive Atom (p : Proto) (e : Env) (op : Op) : Table → Table → Prop
  | queue (t : Table) (q : List QNode) (c : Int)
      (hq : q.Sublist t.queue ∨ ∃ n, q = t.queue ++ [n] ∧ n.updateTime = e.now ∧
        e.cfg.dropExternalTcp = false ∧ ∃ sg k, op = .tcp4 sg n.src4 n.dst4 n.dst6 k) :
      Atom p e op t { t with queue := q, pktCount := c }
  | setStatic (t : Table) (c : BibKey) (hc : c ∈ t.tree4) (ho : op = .addStatic c) :
      Atom p e op t { t with isStatic := upd t.isStatic c true }
  | fate (t : Table) (probes cb) (k : SessKey) (hk : Live t k) (hcb : Cb p e op t k cb) (hs : op.Owns k) :
      Atom p e op t (decideFate e probes cb t k).t
  | touch (t : Table) (k : SessKey) (hk : Live t k) (hp : p ≠ .TCP) (ho : op.isPacket)
      (hs : op.Owns k) :
      Atom p e op t (fateTimer e.now t k .EST)
  | addBib (t : Table) (b : BibKey) (st : Bool) (h6 : find6 t b.src6 = none)
      (h4 : find4 t b.src4 = none)
      (ho : (st = true ∧ op = .addStatic b) ∨ (st = false ∧ op.src6 = some b.src6)) :
      Atom p e op t (addBib t b st)
  | addSess (t : Table) (k : SessKey) (d6 st sto τ) (hb : k.bib ∈ t.tree4)
      (hn : k.dst4 ∉ t.sess k.bib) (hw : Fresh p st sto τ) (ho : op.isPacket)
      (hs : op.Owns k) :
      Atom p e op t (addSess e.now t k d6 st sto τ)
  | addSlow (t : Table) (k : SessKey) (s τ) (hb : k.bib ∈ t.tree4) (hn : k.dst4 ∉ t.sess k.bib)
      (ho : op = .joold s) (hτ : s.timer = some τ) (hs : op.Owns k) :
      Atom p e op t (addSessSlow t k s τ)
  | detach (t : Table) (b : BibKey) (hb : b ∈ t.tree4) (ho : op.Detaches t b) :
      Atom p e op t (detachBib t b).1

inductive Chain (p : Proto) (e : Env) (op : Op) : Table → Table → Prop
  | refl (t : Table) : Chain p e op t t
  | snoc {t t1 t2 : Table} (c : Chain p e op t t1) (a : Atom p e op t1 t2) : Chain p e op t t2

variable {p : Proto} {e : Env} {op : Op}

theorem Chain.one {t t' : Table} (a : Atom p e op t t') : Chain p e op t t' := .snoc (.refl t) a

theorem Chain.trans {t t1 t2 : Table} (c : Chain p e op t t1) (c2 : Chain p e op t1 t2) :
    Chain p e op t t2 := by
  induction c2 with
  | refl => exact c
  | snoc _ a ih => exact .snoc ih a

theorem Atom.wf {t t' : Table} (h : WF t) (a : Atom p e op t t') : WF t' := by
  cases a with
  | queue => exact h.congr rfl rfl rfl rfl (fun _ _ => rfl)
  | setStatic => exact h.congr rfl rfl rfl rfl (fun _ _ => rfl)
  | fate _ _ k hk _ _ => exact (decideFate_ok h hk).good.wf
  | touch k hk _ _ _ => exact h.fateTimer _ hk _
  | addBib b st h6 h4 _ => exact h.addBib h6 h4 st
  | addSess k d6 st sto τ hb hn _ _ _ =>
    have : ∀ sto, WF (Bib.addSess e.now { t with pktCount := t.pktCount + w anyPkt sto } k d6 st sto τ) := by
      intro sto
      have hw' : WF { t with pktCount := t.pktCount + w anyPkt sto } :=
        h.congr rfl rfl rfl rfl (fun _ _ => rfl)
      cases sto with
      | none => exact (Good.addSess hw' e.now hb hn d6 st τ).wf
      | some s => exact (Good.addSessStored h e.now hb hn d6 st s τ).wf
    exact (this sto).congr rfl rfl rfl rfl (fun _ _ => rfl)
  | addSlow k s τ hb hn _ _ _ => exact (Good.addSessSlow h hb hn s τ).wf
  | detach b hb _ => exact h.detachBib b hb

theorem Chain.wf {t t' : Table} (h : WF t) (c : Chain p e op t t') : WF t' := by
  induction c with
  | refl => exact h
  | snoc _ a ih => exact a.wf ih

/-- The induction principle used for invariants. -/
theorem Chain.induct {t t' : Table} {I : Table → Prop} (h : WF t) (c : Chain p e op t t')
    (hI : ∀ t1 t2, WF t1 → I t1 → Atom p e op t1 t2 → I t2) (h0 : I t) : I t' := by
  induction c with
  | refl => exact h0
  | snoc c a ih => exact hI _ _ (c.wf h) ih a

/-! ### The operations as chains -/

theorem upgrade_chain {t : Table} {masks : Option Masks} {src6 dst6 : T6}
    (hop : op.src6 = some src6) (hpk : masks ≠ none → op.isPacket) (how : ∀ k, k.bib.src6 = src6 → op.Owns k)
    (h6 : find6 t src6 = none) :
    Chain p e op t (upgrade e p t masks src6 dst6).1 := by
  unfold upgrade
  split
  · exact .refl _
  · rename_i hp
    have hp : p = .TCP := by cases p <;> simp_all
    cases hf : pktqueueFind t.queue dst6 masks with
    | none => exact .refl _
    | some n =>
      have Q : Chain p e op t { t with queue := t.queue.erase n, pktCount := t.pktCount - 1 } :=
        .one (.queue _ _ _ (.inl List.erase_sublist))
      cases masks with
      | none => exact Q
      | some m =>
        simp only
        split
        · exact Q
        split
        · exact Q
        rw [show find6 { t with queue := t.queue.erase n, pktCount := t.pktCount - 1 } src6 = none
          from h6]
        simp only
        cases h4 : find4 { t with queue := t.queue.erase n, pktCount := t.pktCount - 1 } n.src4 with
        | some c => exact Q
        | none =>
          refine Chain.snoc (Chain.snoc Q (.addBib _ ⟨src6, n.src4⟩ false h6 h4 (.inr ⟨rfl, hop⟩))) ?_
          exact .addSess _ ⟨⟨src6, n.src4⟩, n.dst4⟩ _ _ _ _ (by simp [addBib, mem_insBy])
            (by simp [addBib, upd_same]) (.inr (.inr (.inl ⟨hp, rfl, rfl⟩)))
            (hpk (by simp)) (how _ rfl)

theorem findBibSession6_chain {t : Table} {masks : Option Masks} {src6 dst6 : T6} {src4 dst4 : T4}
    (h : WF t) (hop : op.src6 = some src6) (hpk : masks ≠ none → op.isPacket)
    (how : ∀ k, k.bib.src6 = src6 → op.Owns k)
    (hdet : ∀ m b, masks = some m → b.src6 = src6 → m.dynamic = true → m.owns b.src4 = false →
      op.Detaches t b) :
    Chain p e op t (findBibSession6 e p t masks src6 dst6 src4 dst4).1 := by
  unfold findBibSession6
  cases hf : find6 t src6 with
  | some b =>
    obtain ⟨hb6, hbs⟩ := find6_some hf
    have hb := (h.same b).1 hb6
    simp only
    split
    · exact .refl _
    · rename_i hi
      have D : Chain p e op t (detachBib t b).1 := by
        refine .one (.detach _ b hb ?_)
        cases masks with
        | none => simp [issue216] at hi
        | some m =>
          simp only [issue216, Bool.not_eq_true', Bool.not_eq_false, Bool.and_eq_true] at hi
          exact hdet m b rfl hbs hi.1 hi.2
      have h6 : find6 (detachBib t b).1 src6 = none := hbs ▸ find6_detach h hb
      simp only [h6]
      exact D
  | none =>
    have C := upgrade_chain (p := p) (e := e) (masks := masks) (dst6 := dst6) hop hpk how hf
    simp only
    cases hu : (upgrade e p t masks src6 dst6).2.2 <;> exact C

theorem commitAdd6_chain {t : Table} {masks} {f : Found} {src6 dst6 : T6} {st : TcpState}
    {τ : TimerType} {c : Table × SessKey} (hop : op.src6 = some src6) (hpk : op.isPacket) (how : ∀ k, k.bib.src6 = src6 → op.Owns k)
    (hf : FoundOk t masks src6 f) (hs : f.oldSess = none) (hw : Fresh p st none τ)
    (hc : commitAdd6 e.now t f src6 dst6 st τ = .ok c) : Chain p e op t c.1 := by
  unfold FoundOk at hf
  simp only [hs] at hf
  unfold commitAdd6 at hc
  cases hb : f.oldBib with
  | dangling => simp [hb] at hc
  | live b =>
    simp only [hb, Outcome.ok.injEq] at hc hf
    subst hc
    exact .one (.addSess _ ⟨b, f.dst4⟩ _ _ _ _ hf.1 hf.2.2 hw hpk (how _ hf.2.1))
  | null =>
    simp only [hb, Outcome.ok.injEq] at hc hf
    subst hc
    refine .snoc (.one (.addBib t ⟨src6, f.src4⟩ false hf.1 hf.2.1 (.inr ⟨rfl, hop⟩))) ?_
    exact .addSess _ ⟨⟨src6, f.src4⟩, f.dst4⟩ _ _ _ _ (by simp [addBib, mem_insBy])
            (by simp [addBib, upd_same]) hw hpk (how _ rfl)

theorem add6_chain {t : Table} {m : Masks} {src6 dst6 : T6} {dst4 : T4} {r}
    (h : WF t) (hm : m.Ok) (hp : p ≠ .TCP) (hr : add6 e p t m src6 dst6 dst4 = .ok r) :
    Chain p e (.add6 m src6 dst6 dst4) t r.1 := by
  unfold add6 at hr
  split at hr
  · cases hr; exact .refl _
  · have F := findBibSession6_ok (e := e) (p := p) (t := t) (masks := some m) (src6 := src6)
      (dst6 := dst6) (src4 := default) (dst4 := dst4) h hm
    have C := findBibSession6_chain (p := p) (e := e) (op := .add6 m src6 dst6 dst4) (t := t)
      (masks := some m) (src6 := src6) (dst6 := dst6) (src4 := default) (dst4 := dst4) h rfl (fun _ => trivial) (fun _ h => h) (by
        intro m' b hm' h1 h2 h3; injection hm' with hm'; subst hm'; exact ⟨h1, h2, h3⟩)
    revert F C hr
    generalize findBibSession6 e p t (some m) src6 dst6 default dst4 = q
    intro hr F C
    simp only at hr
    obtain ⟨x, hx⟩ := F.noUb
    rw [hx] at hr
    cases x with
    | error er => cases hr; exact C
    | ok f =>
      have ff := F.found f hx
      simp only at hr
      cases hs : f.oldSess with
      | some k =>
        simp only [hs] at hr
        cases hr
        unfold FoundOk at ff
        simp only [hs] at ff
        exact .snoc C (.touch _ k ff.1 hp trivial ff.2.1)
      | none =>
        simp only [hs] at hr
        cases hc : commitAdd6 e.now q.1 f src6 dst6 .ESTABLISHED .EST with
        | ub u => simp [hc] at hr
        | ok c =>
          simp only [hc, Outcome.ok.injEq] at hr
          subst hr
          exact C.trans (commitAdd6_chain rfl trivial (fun _ h => h) ff hs (.inl ⟨hp, rfl, rfl, rfl⟩) hc)

theorem add4_chain {t : Table} {src4 dst4 : T4} {dst6 : T6} {r} (hp : p ≠ .TCP)
    (hr : add4 e t src4 dst4 dst6 = .ok r) : Chain p e (.add4 src4 dst4 dst6) t r.1 := by
  unfold add4 at hr
  split at hr
  · cases hr; exact .refl _
  · cases hf : find4 t src4 with
    | none => simp only [hf] at hr; cases hr; exact .refl _
    | some b =>
      have hb := (find4_some hf).1
      have hbs := (find4_some hf).2
      simp only [hf] at hr
      split at hr
      · rename_i hmem
        cases hr
        exact .one (.touch _ ⟨b, dst4⟩ ⟨hb, hmem⟩ hp trivial ⟨hbs, rfl⟩)
      · rename_i hmem
        split at hr
        · cases hr; exact .refl _
        · cases hr
          exact .one (.addSess _ ⟨b, dst4⟩ _ _ _ _ hb hmem (.inl ⟨hp, rfl, rfl, rfl⟩) trivial ⟨hbs, rfl⟩)

theorem tcpCollision_chain {t0 t : Table} {ev cb} {k : SessKey} {r}
    (C : Chain p e op t0 t) (hk : Live t k) (hcb : Cb p e op t k cb) (hs : op.Owns k)
    (hr : tcpCollision e cb t ev k = .ok r) : Chain p e op t0 r.1 := by
  have D : Chain p e op t0 (decideFate e false cb t k).t := .snoc C (.fate _ false cb k hk hcb hs)
  unfold tcpCollision at hr
  simp only at hr
  split at hr
  · split at hr
    · cases hr
    · cases hr; exact D
  · cases hr; exact D

theorem tcp6_chain {t : Table} {m : Masks} {seg : Seg} {src6 dst6 : T6} {dst4 : T4} {r}
    (h : WF t) (hm : m.Ok) (hr : tcp6 e t m seg src6 dst6 dst4 = .ok r) :
    Chain .TCP e (.tcp6 m seg src6 dst6 dst4) t r.1 := by
  unfold tcp6 at hr
  split at hr
  · cases hr; exact .refl _
  · have F := findBibSession6_ok (e := e) (p := .TCP) (t := t) (masks := some m) (src6 := src6)
      (dst6 := dst6) (src4 := default) (dst4 := dst4) h hm
    have C := findBibSession6_chain (p := .TCP) (e := e) (op := .tcp6 m seg src6 dst6 dst4) (t := t)
      (masks := some m) (src6 := src6) (dst6 := dst6) (src4 := default) (dst4 := dst4) h rfl (fun _ => trivial) (fun _ h => h) (by
        intro m' b hm' h1 h2 h3; injection hm' with hm'; subst hm'; exact ⟨h1, h2, h3⟩)
    revert F C hr
    generalize findBibSession6 e .TCP t (some m) src6 dst6 default dst4 = q
    intro hr F C
    simp only at hr
    obtain ⟨x, hx⟩ := F.noUb
    rw [hx] at hr
    cases x with
    | error er => cases hr; exact C
    | ok f =>
      have ff := F.found f hx
      simp only at hr
      cases hs : f.oldSess with
      | some k =>
        simp only [hs] at hr
        unfold FoundOk at ff
        simp only [hs] at ff
        exact tcpCollision_chain C ff.1 (.tcp seg rfl (.inl ⟨_, _, _, _, rfl⟩)) ff.2.1 hr
      | none =>
        simp only [hs] at hr
        split at hr
        · cases ho : f.oldBib <;> simp only [ho] at hr <;> cases hr <;> exact C
        · cases hc : commitAdd6 e.now q.1 f src6 dst6 .V6_INIT .TRANS with
          | ub u => simp [hc] at hr
          | ok c =>
            simp only [hc, Outcome.ok.injEq] at hr
            subst hr
            exact C.trans (commitAdd6_chain rfl trivial (fun _ h => h) ff hs (.inr (.inl ⟨rfl, rfl, rfl, rfl⟩)) hc)

theorem tcp4_chain {t : Table} {seg : Seg} {src4 dst4 : T4} {dst6 : T6} {skb : Nat} {r}
    (hr : tcp4 e t seg src4 dst4 dst6 skb = .ok r) :
    Chain .TCP e (.tcp4 seg src4 dst4 dst6 skb) t r.1 := by
  unfold tcp4 at hr
  split at hr
  · cases hr; exact .refl _
  · simp only at hr
    cases hf : find4 t src4 with
    | none =>
      simp only [hf] at hr
      split at hr
      · cases hr; exact .refl _
      split at hr
      · cases hr; exact .refl _
      · rename_i hx
        cases hr
        unfold storeType1
        repeat' split
        all_goals first
          | exact .refl _
          | exact .one (.queue _ _ _ (.inr ⟨_, rfl, rfl, by simpa using hx, _, _, rfl⟩))
    | some b =>
      have hb := (find4_some hf).1
      have hbs := (find4_some hf).2
      simp only [hf] at hr
      by_cases hmem : dst4 ∈ t.sess b
      · simp only [hmem, if_true] at hr
        exact tcpCollision_chain (.refl _) (k := ⟨b, dst4⟩) ⟨hb, hmem⟩
          (.tcp seg rfl (.inr ⟨_, _, _, _, rfl⟩)) ⟨hbs, rfl⟩ hr
      · simp only [hmem, if_false] at hr
        split at hr
        · cases hr; exact .refl _
        split at hr
        · cases hr; exact .refl _
        split at hr
        · split at hr
          · cases hr; exact .refl _
          · cases hr
            exact .snoc (.one (.queue t t.queue (t.pktCount + 1) (.inl (List.Sublist.refl _))))
              (.addSess _ ⟨b, dst4⟩ _ _ _ _ hb hmem (.inr (.inr (.inl ⟨rfl, rfl, rfl⟩))) trivial ⟨hbs, rfl⟩)
        · cases hr
          exact .one (.addSess _ ⟨b, dst4⟩ _ _ _ _ hb hmem (.inr (.inr (.inr ⟨rfl, rfl, rfl, rfl⟩))) trivial ⟨hbs, rfl⟩)

theorem jooldAdd_chain {t : Table} {s : SessEntry} {r} (h : WF t) (hr : jooldAdd e p t s = .ok r) :
    Chain p e (.joold s) t r.1 := by
  unfold jooldAdd at hr
  split at hr
  · cases hr; exact .refl _
  · have F := findBibSession6_ok (e := e) (p := p) (t := t) (masks := none) (src6 := s.src6)
      (dst6 := s.dst6) (src4 := s.src4) (dst4 := s.dst4) h trivial
    have C := findBibSession6_chain (p := p) (e := e) (op := .joold s) (t := t)
      (masks := none) (src6 := s.src6) (dst6 := s.dst6) (src4 := s.src4) (dst4 := s.dst4) h rfl
      (fun h => absurd rfl h) (fun _ h => h) (by simp)
    revert F C hr
    generalize findBibSession6 e p t none s.src6 s.dst6 s.src4 s.dst4 = q
    intro hr F C
    simp only at hr
    obtain ⟨x, hx⟩ := F.noUb
    rw [hx] at hr
    cases x with
    | error er => cases hr; exact C
    | ok f =>
      have ff := F.found f hx
      simp only at hr
      unfold FoundOk at ff
      cases hs : f.oldSess with
      | some k =>
        simp only [hs, Outcome.ok.injEq] at hr ff
        subst hr
        exact .snoc C (.fate _ false _ k ff.1 (.joold s rfl) ff.2.1)
      | none =>
        simp only [hs] at hr ff
        cases hτ : s.timer with
        | none => simp only [hτ] at hr; cases hr; exact C
        | some τ =>
          simp only [hτ] at hr
          cases hb : f.oldBib with
          | dangling => simp [hb] at hr
          | live b =>
            simp only [hb, Outcome.ok.injEq] at hr ff
            subst hr
            exact .snoc C (.addSlow _ ⟨b, f.dst4⟩ s τ ff.1 ff.2.2 rfl hτ ff.2.1)
          | null =>
            simp only [hb, Outcome.ok.injEq] at hr ff
            subst hr
            refine .snoc (.snoc C (.addBib _ ⟨s.src6, f.src4⟩ false ff.1 ff.2.1 (.inr ⟨rfl, rfl⟩))) ?_
            exact .addSlow _ ⟨⟨s.src6, f.src4⟩, f.dst4⟩ s τ (by simp [addBib, mem_insBy])
              (by simp [addBib, upd_same]) rfl hτ rfl

theorem cleanLoop_chain {τ : TimerType} : ∀ (ks : List SessKey) (t : Table), WF t → ks.Nodup →
    (∀ k ∈ ks, Live t k ∧ (t.info k).expirer = τ) → Chain p e .clean t (cleanLoop e p τ t ks).1 := by
  intro ks
  induction ks with
  | nil => intro t _ _ _; exact .refl _
  | cons k ks ih =>
    intro t h hn hl
    unfold cleanLoop
    split
    · exact .refl _
    · rename_i htime
      have hk := hl k (by simp)
      have d := decideFate_ok (e := e) (probes := true) (cb := expireCb e.now p τ) h hk.1
      rw [List.nodup_cons] at hn
      have hl' : ∀ k' ∈ ks, Live (decideFate e true (expireCb e.now p τ) t k).t k' ∧
          ((decideFate e true (expireCb e.now p τ) t k).t.info k').expirer = τ := by
        intro k' hk'
        have hne : k' ≠ k := by rintro rfl; exact hn.1 hk'
        have hlk := hl k' (by simp [hk'])
        refine ⟨?_, by rw [d.others k' hne]; exact hlk.2⟩
        cases hrm : (decideFate e true (expireCb e.now p τ) t k).removed with
        | false => exact (d.kept hrm k').2 hlk.1
        | true => exact (d.gone hrm k').2 ⟨hlk.1, hne⟩
      exact (Chain.one (.fate _ true _ k hk.1 (.expire τ rfl hk.2 (by omega)) trivial)).trans
        (ih _ d.good.wf hn.2 hl')

theorem cleanList_chain {τ : TimerType} {t : Table} (h : WF t) :
    Chain p e .clean t (cleanList e p τ t).1 :=
  cleanLoop_chain _ t h (h.nd τ) (fun k hk => (h.lk τ k).1 hk)

theorem clean_chain {t : Table} {r} (h : WF t) (hr : clean e p t = .ok r) :
    Chain p e .clean t r.1 := by
  unfold clean at hr
  have c1 := cleanList_chain (p := p) (e := e) (τ := .EST) h
  have c2 := cleanList_chain (p := p) (e := e) (τ := .TRANS) (c1.wf h)
  have c3 := cleanList_chain (p := p) (e := e) (τ := .SYN4) (c2.wf (c1.wf h))
  have C := (c1.trans c2).trans c3
  simp only at hr
  split at hr
  · cases hr
    refine .snoc C (.queue _ _ _ (.inl ?_))
    have : ∀ q : List QNode, (queueClean e q).2.Sublist q := fun q => by
      conv => rhs; rw [← queueClean_split e q]
      exact List.sublist_append_right _ _
    exact this _
  · cases hr; exact C

theorem rmRangeLoop_chain (rg : Range4) : ∀ (bs : List BibKey) (t : Table), WF t → bs.Nodup →
    (∀ b ∈ bs, b ∈ t.tree4) → Chain p e (.rmRange rg) t (rmRangeLoop rg t bs).1 := by
  intro bs
  induction bs with
  | nil => intro t _ _ _; exact .refl _
  | cons b bs ih =>
    intro t h hn hb
    rw [List.nodup_cons] at hn
    unfold rmRangeLoop
    split
    · exact .refl _
    rename_i hc
    split
    · rename_i hr
      have a : Atom p e (.rmRange rg) t (detachBib t b).1 := by
        refine .detach _ b (hb b (by simp)) ?_
        simp only [Bool.and_eq_true, decide_eq_true_eq] at hr
        exact ⟨by simpa using hc, hr.1, hr.2⟩
      refine (Chain.one a).trans (ih _ (a.wf h) hn.2 ?_)
      intro b' hb'
      rw [(detachBib_eq t b).t4, List.Nodup.mem_erase_iff (sorted_nodup h.s4)]
      exact ⟨by rintro rfl; exact hn.1 hb', hb b' (by simp [hb'])⟩
    · exact ih t h hn.2 (fun b' hb' => hb b' (by simp [hb']))

theorem flush_chain : ∀ (bs : List BibKey) (t0 t : Table) (ev : List Event), WF t0 →
    Chain p e .flush t0 t → bs.Nodup → (∀ b ∈ bs, b ∈ t.tree4) →
    Chain p e .flush t0 (bs.foldl (fun (acc : Table × List Event) b =>
      let d := detachBib acc.1 b
      (d.1, acc.2 ++ d.2)) (t, ev)).1 := by
  intro bs
  induction bs with
  | nil => intro t0 t ev _ c _ _; exact c
  | cons b bs ih =>
    intro t0 t ev h c hn hb
    rw [List.nodup_cons] at hn
    have hw := c.wf h
    refine ih t0 _ _ h (.snoc c (.detach _ b (hb b (by simp)) trivial)) hn.2 ?_
    intro b' hb'
    rw [(detachBib_eq t b).t4, List.Nodup.mem_erase_iff (sorted_nodup hw.s4)]
    exact ⟨by rintro rfl; exact hn.1 hb', hb b' (by simp [hb'])⟩

theorem addStatic_chain {t : Table} {b : BibKey} {r} (h : WF t) (hr : addStatic e p t b = .ok r) :
    Chain p e (.addStatic b) t r.1 := by
  unfold addStatic at hr
  split at hr
  · cases hr; exact .refl _
  · cases hf : find6 t b.src6 with
    | some c =>
      simp only [hf] at hr
      split at hr
      · rename_i h4
        cases hr
        have hc := find6_some hf
        have : c = b := by cases b; cases c; simp_all
        exact .one (.setStatic _ c ((h.same c).1 hc.1) (by rw [this]))
      · cases hr; exact .refl _
    | none =>
      simp only [hf] at hr
      cases h4 : find4 t b.src4 with
      | some c => simp only [h4] at hr; cases hr; exact .refl _
      | none =>
        simp only [h4] at hr
        have A : Chain p e (.addStatic b) t (addBib t b true) :=
          .one (.addBib _ b true hf h4 (.inl ⟨rfl, rfl⟩))
        split at hr
        · cases hr; exact .snoc A (.queue _ _ _ (.inl List.filter_sublist))
        · cases hr; exact A

theorem step_chain {t : Table} {r} (h : WF t) (ho : op.Ok) (hr : step p t e op = .ok r) :
    Chain p e op t r.1 := by
  cases op with
  | add6 m s6 d6 d4 =>
    simp only [step] at hr
    split at hr
    · cases hr; exact .refl _
    · exact add6_chain h ho (by assumption) hr
  | add4 s4 d4 d6 =>
    simp only [step] at hr
    split at hr
    · cases hr; exact .refl _
    · exact add4_chain (by assumption) hr
  | tcp6 m sg s6 d6 d4 =>
    simp only [step] at hr
    split at hr
    · rename_i hp; subst hp; exact tcp6_chain h ho hr
    · cases hr; exact .refl _
  | tcp4 sg s4 d4 d6 skb =>
    simp only [step] at hr
    split at hr
    · rename_i hp; subst hp; exact tcp4_chain hr
    · cases hr; exact .refl _
  | joold s => exact jooldAdd_chain h hr
  | clean => exact clean_chain h hr
  | addStatic b => exact addStatic_chain h hr
  | rm b =>
    simp only [step, rmBib] at hr
    cases hf : find6 t b.src6 with
    | none => simp only [hf] at hr; cases hr; exact .refl _
    | some c =>
      have hc := find6_some hf
      simp only [hf] at hr
      split at hr
      · rename_i h4
        cases hr
        have : c = b := by cases b; cases c; simp_all
        exact .one (.detach _ c ((h.same c).1 hc.1) this)
      · cases hr; exact .refl _
  | rmRange rg =>
    simp only [step, rmRange] at hr
    cases hr
    have hs := startingPoint_sub t.tree4 (some ⟨rg.pfx.addr, rg.min⟩) true
    exact rmRangeLoop_chain rg _ t h ((sorted_nodup h.s4).sublist hs) (fun b hb => hs.subset hb)
  | flush =>
    simp only [step, flush] at hr
    cases hr
    exact flush_chain t.tree4 t t [] h (.refl _) (sorted_nodup h.s4) (fun _ h => h)

/-- Invariants over histories: `I` may depend on what the environment did so far (through `E`,
a condition on each operation and its environment). -/
theorem run_induct {I : Table → Prop} {E : Env × Op → Prop}
    (hE : ∀ x, E x → x.2.Ok)
    (hI : ∀ t x r, WF t → I t → E x → step p t x.1 x.2 = .ok r → I r.1) :
    ∀ (hist : List (Env × Op)) (t t' : Table) (ev : List Event), WF t → I t →
      (∀ x ∈ hist, E x) → run p t hist = .ok (t', ev) → WF t' ∧ I t' := by
  intro hist
  induction hist with
  | nil => intro t t' ev h i _ hr; simp only [run, Outcome.ok.injEq, Prod.mk.injEq] at hr; rw [← hr.1]; exact ⟨h, i⟩
  | cons x rest ih =>
    intro t t' ev h i he hr
    obtain ⟨en, o⟩ := x
    have hx := he (en, o) (by simp)
    simp only [run] at hr
    cases hs : step p t en o with
    | ub u => simp [hs] at hr
    | ok r =>
      simp only [hs] at hr
      cases hq : run p r.1 rest with
      | ub u => simp [hq] at hr
      | ok q =>
        simp only [hq, Outcome.ok.injEq, Prod.mk.injEq] at hr
        obtain ⟨rfl, _⟩ := hr
        exact ih r.1 q.1 q.2 (step_ok h (hE _ hx) hs).1.wf (hI t (en, o) r h i hx hs)
          (fun y hy => he y (by simp [hy])) hq

end Jool.Bib
