import Verif.Lemmas.BibGood
/-
Preservation of the structural invariant and of the accounting by every operation.
-/
namespace Jool.Bib

/-! ### `decide_fate` -/

/-- What `decide_fate` guarantees whatever the callback is. -/
structure DecidedOk (t : Table) (k : SessKey) (d : Decided) : Prop where
  good : Good t d.ev none d.t
  dyn : Dyn t → Dyn d.t
  kept : d.removed = false → ∀ k', Live d.t k' ↔ Live t k'
  gone : d.removed = true → ∀ k', Live d.t k' ↔ Live t k' ∧ k' ≠ k
  others : ∀ k', k' ≠ k → d.t.info k' = t.info k'
  queue : d.t.queue = t.queue

theorem info_rmSess (oom p) (t : Table) (k k' : SessKey) (h : k' ≠ k) :
    (rmSess oom p t k).1.info k' = t.info k' := by
  rw [rmSess_eq]
  have : ∀ (t : Table) b, (reapBib t b).info = t.info := by
    intro t b; unfold reapBib; split <;> rfl
  simp only [this]
  cases hs : (t.info k).stored with
  | none => rfl
  | some s =>
    obtain ⟨a, b, c, d, f, q, s1, s2, e⟩ := handleProbe_eq oom p t k
    show (handleProbe oom p t k).1.info k' = _
    rw [e, upd_ne _ _ h]

theorem queue_rmSess (oom p) (t : Table) (k : SessKey) :
    (rmSess oom p t k).1.queue = t.queue := by
  rw [rmSess_eq]
  have : ∀ (t : Table) b, (reapBib t b).queue = t.queue := by
    intro t b; unfold reapBib; split <;> rfl
  simp only [this]
  cases hs : (t.info k).stored with
  | none => rfl
  | some s =>
    obtain ⟨a, b, c, d, f, q, s1, s2, e⟩ := handleProbe_eq oom p t k
    exact q

/-- Fields after the callback. -/
def edited (t : Table) (k : SessKey) (c : SessCtl) : Table :=
  setInfo t k { t.info k with state := c.state, updateTime := c.updateTime }

theorem decideFate_ok {e : Env} {probes : Bool} {cb : SessCtl → SessCtl × Fate} {t : Table}
    {k : SessKey} (h : WF t) (hk : Live t k) : DecidedOk t k (decideFate e probes cb t k) := by
  unfold decideFate
  generalize cb (ctlOf t k) = r
  have hed : setInfo t k { t.info k with state := r.1.state, updateTime := r.1.updateTime }
    = edited t k r.1 := rfl
  simp only [hed]
  clear hed
  -- first edit
  have g0 : Good t [] none (edited t k r.1) := Good.setInfo h hk _ rfl rfl
  have hi0 : ∀ k', k' ≠ k → (edited t k r.1).info k' = t.info k' := by
    intro k' hne; exact upd_ne _ _ hne
  have hq0 : (edited t k r.1).queue = t.queue := rfl
  have hl0 : ∀ k', Live (edited t k r.1) k' ↔ Live t k' := fun _ => Iff.rfl
  have hd0 : Dyn t → Dyn (edited t k r.1) := fun hd => Dyn_congr rfl rfl rfl hd
  revert g0 hi0 hl0 hd0 hq0
  generalize edited t k r.1 = t0
  intro g0 hi0 hq0 hl0 hd0
  have hk0 := (hl0 k).2 hk
  -- second edit
  have H : ∃ r1 : Table × List Event, (if !r.1.hasStored then killStored t0 k else (t0, [])) = r1 ∧
      Good t r1.2 none r1.1 ∧ (∀ k', k' ≠ k → r1.1.info k' = t.info k') ∧
      (∀ k', Live r1.1 k' ↔ Live t k') ∧ (Dyn t → Dyn r1.1) ∧ r1.1.queue = t.queue := by
    refine ⟨_, rfl, ?_⟩
    split
    · obtain ⟨a, b, c, d, f, q, s1, s2, i⟩ := killStored_eq t0 k
      refine ⟨by simpa using g0.trans (Good.killStored g0.wf hk0), ?_, ?_, ?_, q.trans hq0⟩
      · intro k' hne; rw [i, upd_ne _ _ hne]; exact hi0 k' hne
      · intro k'; rw [← hl0]; simp only [Live, a, c]
      · intro hd; exact Dyn_congr a c f (hd0 hd)
    · exact ⟨g0, hi0, hl0, hd0, hq0⟩
  obtain ⟨r1, hr1, g1, hi1, hl1, hd1, hq1⟩ := H
  simp only [hr1]
  have hk1 := (hl1 k).2 hk
  have ft : ∀ (t1 : Table) (ev : List Event) (τ : TimerType), Good t ev none t1 → Live t1 k →
      (∀ k', k' ≠ k → t1.info k' = t.info k') → (∀ k', Live t1 k' ↔ Live t k') →
      (Dyn t → Dyn t1) → t1.queue = t.queue → DecidedOk t k
        { t := fateTimer e.now t1 k τ, ev := ev, translate := true, removed := false } := by
    intro t1 ev τ g hk' hi hl hd hq
    refine ⟨by simpa using g.trans (Good.fateTimer g.wf e.now hk' τ), ?_, ?_, by simp, ?_, hq⟩
    · intro hd'; exact Dyn_congr (t := t1) rfl rfl rfl (hd hd')
    · intro _ k'; rw [← hl]; exact Iff.rfl
    · intro k' hne; rw [← hi k' hne]
      simp [fateTimer, listDel, setInfo, upd_ne _ _ hne]
  cases r.2 with
  | TIMER_EST => exact ft _ _ _ g1 hk1 hi1 hl1 hd1 hq1
  | TIMER_TRANS => exact ft _ _ _ g1 hk1 hi1 hl1 hd1 hq1
  | PROBE =>
    obtain ⟨a, b, c, d, f, q, s1, s2, i⟩ := handleProbe_eq e.oom probes r1.1 k
    refine ft _ _ _ (g1.trans (Good.handleProbe g1.wf e.oom probes hk1)) ?_ ?_ ?_ ?_ (q.trans hq1)
    · simpa only [Live, a, c] using hk1
    · intro k' hne; rw [i, upd_ne _ _ hne]; exact hi1 k' hne
    · intro k'; rw [← hl1]; simp only [Live, a, c]
    · intro hd; exact Dyn_congr a c f (hd1 hd)
  | RM =>
    refine ⟨g1.trans (Good.rmSess g1.wf e.oom probes hk1), ?_, by simp, ?_, ?_, ?_⟩
    · intro hd; exact Dyn_rmSess g1.wf _ _ (hd1 hd)
    · intro _ k'; rw [← hl1]; exact Live_rmSess g1.wf e.oom probes hk1 k'
    · intro k' hne; rw [← hi1 k' hne]; exact info_rmSess _ _ _ _ _ hne
    · exact (queue_rmSess _ _ _ _).trans hq1
  | PRESERVE => exact ⟨g1, hd1, fun _ => hl1, by simp, hi1, hq1⟩
  | DROP => exact ⟨g1, hd1, fun _ => hl1, by simp, hi1, hq1⟩
  | TIMER_SLOW =>
    simp only
    cases hq : queueUnsorted r1.1 k r.1.timer true with
    | none => exact ⟨g1, hd1, fun _ => hl1, by simp, hi1, hq1⟩
    | some t2 =>
      have g2 := Good.queueUnsorted g1.wf hk1 _ hq
      cases hτ : r.1.timer with
      | none => rw [hτ] at hq; simp [queueUnsorted] at hq
      | some τ =>
        rw [hτ] at hq
        simp only [queueUnsorted, if_true, Option.some.injEq] at hq
        subst hq
        refine ⟨by simpa using g1.trans g2, ?_, ?_, by simp, ?_, hq1⟩
        · intro hd; exact Dyn_congr (t := r1.1) rfl rfl rfl (hd1 hd)
        · intro _ k'; rw [← hl1]; exact Iff.rfl
        · intro k' hne; rw [← hi1 k' hne]
          simp [setInfo, upd_ne _ _ hne, listDel]

/-! ### The candidate generator -/

/-- The contract of `mask_domain_next`'s `consecutive` flag: it announces that the candidate is
the one that follows the previous one. -/
def Consec : Option T4 → List (T4 × Bool) → Prop
  | _, [] => True
  | prev, (a, c) :: rest =>
    (c = true → ∃ q, prev = some q ∧ a.addr = q.addr ∧ a.port.toNat = q.port.toNat + 1) ∧
    Consec (some a) rest

def Masks.Ok (m : Masks) : Prop := Consec none m.cands

theorem key_succ {a q : T4} (h1 : a.addr = q.addr) (h2 : a.port.toNat = q.port.toNat + 1) :
    a.key = q.key + 1 := by simp only [T4.key, h1, h2]; omega

theorem next4_sorted {l : List BibKey} (hs : l.Pairwise (fun a b => key4 a < key4 b)) {p : BibKey}
    (hp : p ∈ l) :
    (∀ n, next4 l p = some n → n ∈ l ∧ key4 p < key4 n ∧ ∀ b ∈ l, key4 p < key4 b → key4 n ≤ key4 b) ∧
    (next4 l p = none → ∀ b ∈ l, key4 b ≤ key4 p) := by
  induction l with
  | nil => simp at hp
  | cons x l ih =>
    have hx := List.pairwise_cons.1 hs
    by_cases hxp : x = p
    · subst hxp
      have : next4 (x :: l) x = l.head? := by simp [next4]
      rw [this]
      cases l with
      | nil => simp
      | cons y l =>
        have hy := List.pairwise_cons.1 hx.2
        refine ⟨?_, by simp⟩
        intro n hn
        simp only [List.head?_cons, Option.some.injEq] at hn
        subst hn
        refine ⟨by simp, hx.1 y (by simp), ?_⟩
        intro b hb hlt
        rcases List.mem_cons.1 hb with h | hb
        · subst h; omega
        · rcases List.mem_cons.1 hb with h | hb
          · subst h; omega
          · exact Nat.le_of_lt (hy.1 b hb)
    · have hp' : p ∈ l := by
        rcases List.mem_cons.1 hp with h | h
        · exact absurd h.symm hxp
        · exact h
      have : next4 (x :: l) p = next4 l p := by simp [next4, hxp]
      rw [this]
      obtain ⟨i1, i2⟩ := ih hx.2 hp'
      have hxlt := hx.1 p hp'
      constructor
      · intro n hn
        obtain ⟨a, b, c⟩ := i1 n hn
        refine ⟨by simp [a], b, ?_⟩
        intro y hy hlt
        rcases List.mem_cons.1 hy with h | hy
        · subst h; omega
        · exact c y hy hlt
      · intro hn y hy
        rcases List.mem_cons.1 hy with h | hy
        · subst h; omega
        · exact i2 hn y hy

/-- `try_next` on consecutive addresses is a search. -/
theorem tryNext_correct {t : Table} (h : WF t) {p : BibKey} (hp : p ∈ t.tree4) {a : T4}
    (hk : a.key = p.src4.key + 1) : tryNext t.tree4 p a = find4 t a := by
  obtain ⟨h1, h2⟩ := next4_sorted h.s4 hp
  unfold tryNext
  cases hn : next4 t.tree4 p with
  | none =>
    have := h2 hn
    cases hf : find4 t a with
    | none => rfl
    | some c =>
      obtain ⟨hc, hce⟩ := find4_some hf
      have := this c hc
      simp only [key4, hce] at this
      omega
  | some n =>
    obtain ⟨hn1, hn2, hn3⟩ := h1 n hn
    simp only
    split
    · rename_i he
      subst he
      exact ((h.find4_iff n).2 hn1).symm
    · rename_i hne
      cases hf : find4 t a with
      | none => rfl
      | some c =>
        obtain ⟨hc, hce⟩ := find4_some hf
        have h3 := hn3 c hc (by simp only [key4, hce]; omega)
        exfalso
        apply hne
        apply T4.key_inj
        simp only [key4, hce] at h3 hn2
        omega

theorem findAvailable_correct {t : Table} (h : WF t) :
    ∀ (cands : List (T4 × Bool)) (prev : Option T4) (coll : Option BibKey),
      Consec prev cands → (∀ q, prev = some q → ∃ c ∈ t.tree4, coll = some c ∧ c.src4 = q) →
      ∃ o, findAvailable t coll cands = .ok o ∧
        o = (cands.map Prod.fst).find? (fun a => (find4 t a).isNone) := by
  intro cands
  induction cands with
  | nil => intro _ _ _ _; exact ⟨none, rfl, rfl⟩
  | cons x rest ih =>
    obtain ⟨a, c⟩ := x
    intro prev coll hc hcoll
    obtain ⟨hc1, hc2⟩ := hc
    have key : ∀ (r : Option BibKey), r = find4 t a →
        ∃ o, (match r with | none => Outcome.ok (some a) | some c => findAvailable t (some c) rest) = .ok o ∧
          o = (((a, c) :: rest).map Prod.fst).find? (fun a => (find4 t a).isNone) := by
      intro r hr
      subst hr
      cases hf : find4 t a with
      | none => exact ⟨some a, rfl, by simp [hf]⟩
      | some d =>
        obtain ⟨o, ho1, ho2⟩ := ih (some a) (some d) hc2 (by
          intro q hq
          simp only [Option.some.injEq] at hq
          subst hq
          exact ⟨d, (find4_some hf).1, rfl, (find4_some hf).2⟩)
        exact ⟨o, ho1, by simp [hf, ho2]⟩
    unfold findAvailable
    cases c with
    | false => exact key _ rfl
    | true =>
      obtain ⟨q, hq, h1, h2⟩ := hc1 rfl
      obtain ⟨d, hd, hde, hds⟩ := hcoll q hq
      simp only [if_true, hde]
      exact key _ (tryNext_correct h hd (by rw [hds]; exact key_succ h1 h2))

/-! ### `upgrade_pktqueue_session` -/

theorem sum_erase {α} [DecidableEq α] (f : α → Nat) {a : α} {l : List α} (h : a ∈ l) :
    ((l.erase a).map f).sum + f a = (l.map f).sum := by
  have := ((List.perm_cons_erase h).map f).sum_nat
  simp only [List.map_cons, List.sum_cons] at this
  omega

theorem pktqueueFind_mem {q : List QNode} {d : T6} {m : Option Masks} {n : QNode}
    (h : pktqueueFind q d m = some n) :
    n ∈ q ∧ n.dst6 = d ∧ ∀ mm, m = some mm → mm.owns n.src4 = true := by
  unfold pktqueueFind at h
  cases hf : q.find? (fun n => decide (n.dst6 = d)) with
  | none => simp [hf] at h
  | some x =>
    have h1 := List.mem_of_find?_eq_some hf
    have h2 := List.find?_some hf
    rw [hf] at h
    cases m with
    | none => simp at h; subst h; exact ⟨h1, by simpa using h2, by simp⟩
    | some mm =>
      simp only at h
      split at h
      · rename_i ho
        simp only [Option.some.injEq] at h
        subst h
        exact ⟨h1, by simpa using h2, by intro mm' e; injection e with e; subst e; exact ho⟩
      · simp at h

def pktSum (q : List QNode) (P : Nat → Bool) : Nat := (q.map (fun n => w P (some n.skb))).sum

theorem heldQ_eq (t : Table) (P) : heldQ t P = pktSum t.queue P := rfl

theorem pktSum_any (q : List QNode) : pktSum q anyPkt = q.length := by
  induction q with
  | nil => rfl
  | cons a l ih =>
    simp only [pktSum, List.map_cons, List.sum_cons, List.length_cons] at *
    rw [ih]; simp [w, anyPkt]; omega

/-- Changing the queue. -/
theorem Good.setQ {t : Table} (h : WF t) (q : List QNode) (c : Int) (ev : List Event)
    (new : Option Nat) (hb : ∀ P, pktSum q P + out ev P = pktSum t.queue P + w P new)
    (hc : c - q.length = t.pktCount - t.queue.length) :
    Good t ev new { t with queue := q, pktCount := c } := by
  have hw : WF { t with queue := q, pktCount := c } := h.congr rfl rfl rfl rfl (fun _ _ => rfl)
  have hs : ∀ P, heldS { t with queue := q, pktCount := c } P = heldS t P := fun P => rfl
  refine ⟨hw, ?_, ?_, rfl, rfl⟩
  · intro P
    have := hb P
    simp only [held, hs, heldQ_eq]
    omega
  · simp only [held, hs, heldQ_eq, pktSum_any]
    omega

theorem Good.dequeue {t : Table} (h : WF t) {n : QNode} (hn : n ∈ t.queue) :
    Good t [.freed n.skb] none { t with queue := t.queue.erase n, pktCount := t.pktCount - 1 } := by
  refine Good.setQ h _ _ _ _ ?_ ?_
  · intro P
    have := sum_erase (fun n : QNode => w P (some n.skb)) hn
    simp only [pktSum, out, List.map_cons, List.map_nil, List.sum_cons, List.sum_nil, Event.pkt,
      w_none]
    omega
  · rw [List.length_erase_of_mem hn]
    have := List.length_pos_of_mem hn
    omega

theorem Live_addSess {now} {t : Table} {k : SessKey} {d6 st sto τ} (hb : k.bib ∈ t.tree4) (k' : SessKey) :
    Live (addSess now t k d6 st sto τ) k' ↔ k' = k ∨ Live t k' :=
  Live_addGen (t' := addSess now t k d6 st sto τ) k hb rfl rfl k'

theorem Live_addSessSlow {t : Table} {k : SessKey} {s τ} (hb : k.bib ∈ t.tree4) (k' : SessKey) :
    Live (addSessSlow t k s τ) k' ↔ k' = k ∨ Live t k' :=
  Live_addGen (t' := addSessSlow t k s τ) k hb rfl rfl k'

/-- Tables with the same entries and sessions. -/
structure SameTables (t t' : Table) : Prop where
  t4 : t'.tree4 = t.tree4
  t6 : t'.tree6 = t.tree6
  st : t'.isStatic = t.isStatic
  se : t'.sess = t.sess
  inf : t'.info = t.info
  ls : t'.lists = t.lists

theorem SameTables.refl (t : Table) : SameTables t t := ⟨rfl, rfl, rfl, rfl, rfl, rfl⟩

structure UpgradeOk (t : Table) (src6 dst6 : T6) (masks : Option Masks)
    (r : Table × List Event × Upgrade) : Prop where
  good : Good t r.2.1 none r.1
  dyn : Dyn t → Dyn r.1
  fail : ∀ o, r.2.2 = .failed o → SameTables t r.1 ∧ (∀ b, o ≠ .live b)
  done : ∀ k, r.2.2 = .done k → Live r.1 k ∧ k.bib.src6 = src6 ∧ find6 t src6 = none ∧
    find4 t k.bib.src4 = none ∧ ∃ n ∈ t.queue, n.dst6 = dst6 ∧ n.src4 = k.bib.src4 ∧
      n.dst4 = k.dst4 ∧ (∀ m, masks = some m → m.owns n.src4 = true) ∧
      r.1.queue = t.queue.erase n ∧
      ∃ now, r.1 = addSess now (addBib { t with queue := t.queue.erase n, pktCount := t.pktCount - 1 }
        k.bib false) k n.dst6 .V4_INIT none .SYN4

theorem Good.addPair {t : Table} (h : WF t) (now) {b : BibKey} (h6 : find6 t b.src6 = none)
    (h4 : find4 t b.src4 = none) (dst4 d6 st τ) :
    Good t [] none (Bib.addSess now (Bib.addBib t b false) ⟨b, dst4⟩ d6 st none τ) := by
  have g1 := Good.addBib h h6 h4 false
  have g2 := Good.addSess g1.wf now (k := ⟨b, dst4⟩) (by simp [Bib.addBib, mem_insBy])
    (by simp [Bib.addBib, upd_same]) d6 st τ
  simpa using g1.trans g2

theorem Good.addPairSlow {t : Table} (h : WF t) {b : BibKey} (h6 : find6 t b.src6 = none)
    (h4 : find4 t b.src4 = none) (dst4 s τ) :
    Good t [] none (Bib.addSessSlow (Bib.addBib t b false) ⟨b, dst4⟩ s τ) := by
  have g1 := Good.addBib h h6 h4 false
  have g2 := Good.addSessSlow g1.wf (k := ⟨b, dst4⟩) (by simp [Bib.addBib, mem_insBy])
    (by simp [Bib.addBib, upd_same]) s τ
  simpa using g1.trans g2

theorem insBy_ne_nil {α} (f : α → Nat) (x : α) (l : List α) : insBy f x l ≠ [] := by
  cases l with
  | nil => simp [insBy]
  | cons a l => unfold insBy; split <;> simp

theorem Dyn_addGen {t t' : Table} {k : SessKey} (h4 : t'.tree4 = t.tree4)
    (hst : t'.isStatic = t.isStatic)
    (hs : t'.sess = upd t.sess k.bib (insBy T4.key k.dst4 (t.sess k.bib)))
    (hd : DynEx t (fun b => b = k.bib)) : Dyn t' := by
  intro b hb _
  rw [hst, hs]
  by_cases hbk : b = k.bib
  · subst hbk; rw [upd_same]; exact .inr (insBy_ne_nil _ _ _)
  · rw [upd_ne _ _ hbk]; exact hd b (h4 ▸ hb) hbk

theorem Dyn.ex {t : Table} {P} (h : Dyn t) : DynEx t P := fun b hb _ => h b hb (by simp)

theorem Dyn_addBib {t : Table} {b : BibKey} {st} (hd : Dyn t) :
    DynEx (addBib t b st) (fun x => x = b) := by
  intro y hy hne
  simp only [addBib, mem_insBy] at hy ⊢
  rw [upd_ne _ _ hne, upd_ne _ _ hne]
  exact hd y (hy.resolve_left hne) (by simp)

theorem upgrade_ok {e : Env} {p : Proto} {t : Table} {masks : Option Masks} {src6 dst6 : T6}
    (h : WF t) (h6 : find6 t src6 = none) :
    UpgradeOk t src6 dst6 masks (upgrade e p t masks src6 dst6) := by
  unfold upgrade
  split
  · exact ⟨Good.refl h, id, by rintro o ho; cases ho; exact ⟨.refl t, by simp⟩, by simp⟩
  · cases hf : pktqueueFind t.queue dst6 masks with
    | none => exact ⟨Good.refl h, id, by rintro o ho; cases ho; exact ⟨.refl t, by simp⟩, by simp⟩
    | some n =>
      obtain ⟨hn, hnd, hno⟩ := pktqueueFind_mem hf
      have g := Good.dequeue h hn
      have st : SameTables t { t with queue := t.queue.erase n, pktCount := t.pktCount - 1 } :=
        ⟨rfl, rfl, rfl, rfl, rfl, rfl⟩
      have F : ∀ o, (∀ b, o ≠ .live b) → UpgradeOk t src6 dst6 masks
          ({ t with queue := t.queue.erase n, pktCount := t.pktCount - 1 }, [.freed n.skb], .failed o) := by
        intro o ho
        exact ⟨g, fun hd => Dyn_congr (t := t) rfl rfl rfl hd,
          by rintro o' ho'; cases ho'; exact ⟨st, ho⟩, by simp⟩
      simp only
      cases hm : masks with
      | none => rw [hm] at F; exact F _ (by simp)
      | some m =>
        subst hm
        simp only
        split
        · exact F _ (by simp)
        split
        · exact F _ (by simp)
        rw [show find6 { t with queue := t.queue.erase n, pktCount := t.pktCount - 1 } src6 = none
          from h6]
        simp only
        cases h4 : find4 { t with queue := t.queue.erase n, pktCount := t.pktCount - 1 } n.src4 with
        | some c => exact F _ (by simp)
        | none =>
          simp only
          have g2 := Good.addPair g.wf e.now (b := ⟨src6, n.src4⟩) h6 h4 n.dst4 n.dst6 .V4_INIT .SYN4
          refine ⟨by simpa using g.trans g2, ?_, by simp, ?_⟩
          · intro hd
            exact Dyn_addGen (t := addBib _ _ false) (k := ⟨⟨src6, n.src4⟩, n.dst4⟩) rfl rfl rfl
              (Dyn_addBib (Dyn_congr (t := t) rfl rfl rfl hd))
          · intro k hk
            simp only [Upgrade.done.injEq] at hk
            subst hk
            refine ⟨?_, rfl, h6, h4, n, hn, hnd, rfl, rfl, hno, rfl, e.now, rfl⟩
            refine (Live_addSess (k := ⟨⟨src6, n.src4⟩, n.dst4⟩) ?_ _).2 (.inl rfl)
            simp [addBib, mem_insBy]

/-! ### `find_bib_session6` -/

/-- What the caller of `find_bib_session6` can rely on. -/
def FoundOk (t : Table) (masks : Option Masks) (src6 : T6) (f : Found) : Prop :=
  match f.oldSess with
  | some k => Live t k ∧ k.bib.src6 = src6 ∧ f.oldBib = .live k.bib ∧ k.dst4 = f.dst4
  | none =>
    match f.oldBib with
    | .live b => b ∈ t.tree4 ∧ b.src6 = src6 ∧ f.dst4 ∉ t.sess b
    | .null => find6 t src6 = none ∧ find4 t f.src4 = none ∧
        (∀ m, masks = some m → f.src4 ∈ m.cands.map Prod.fst)
    | .dangling => True

def Masks.optOk : Option Masks → Prop
  | none => True
  | some m => m.Ok

theorem findNew_ok {p : Proto} {t : Table} {masks : Option Masks} {old : OldBib} {src6 : T6}
    {src4 dst4 : T4} (h : WF t) (hm : Masks.optOk masks) (ho : ∀ b, old ≠ .live b)
    (h6 : find6 t src6 = none) :
    ∃ x, findNew p t masks old src4 dst4 = .ok x ∧ ∀ f, x = .ok f → FoundOk t masks src6 f ∧
      f.oldSess = none ∧ f.oldBib = old ∧ find4 t f.src4 = none := by
  have F : ∀ a d, find4 t a = none → (∀ m, masks = some m → a ∈ m.cands.map Prod.fst) →
      FoundOk t masks src6 ⟨old, none, a, d⟩ := by
    intro a d h4 hc
    unfold FoundOk
    cases old with
    | live b => exact absurd rfl (ho b)
    | null => exact ⟨h6, h4, hc⟩
    | dangling => trivial
  unfold findNew
  cases hmm : masks with
  | none =>
    rw [hmm] at F
    simp only
    cases h4 : find4 t src4 with
    | some _ => exact ⟨_, rfl, by simp⟩
    | none =>
      refine ⟨_, rfl, ?_⟩
      intro f hf
      simp only [Except.ok.injEq] at hf
      subst hf
      exact ⟨F _ _ h4 (by simp), rfl, rfl, h4⟩
  | some m =>
    rw [hmm] at F hm
    obtain ⟨o, ho1, ho2⟩ := findAvailable_correct h m.cands none none hm (by simp)
    simp only [ho1]
    cases o with
    | none => exact ⟨_, rfl, by simp⟩
    | some a =>
      refine ⟨_, rfl, ?_⟩
      intro f hf
      simp only [Except.ok.injEq] at hf
      subst hf
      have hmem := List.mem_of_find?_eq_some ho2.symm
      have hnone := List.find?_some ho2.symm
      have hnone' : find4 t a = none := by simpa using hnone
      refine ⟨F _ _ hnone' ?_, rfl, rfl, hnone'⟩
      intro m' hm'
      simp only [Option.some.injEq] at hm'
      subst hm'; exact hmem

theorem find6_detach {t : Table} (h : WF t) {b : BibKey} (hb : b ∈ t.tree4) :
    find6 (detachBib t b).1 b.src6 = none := by
  cases hf : find6 (detachBib t b).1 b.src6 with
  | none => rfl
  | some c =>
    exfalso
    obtain ⟨hc, he⟩ := find6_some hf
    rw [(detachBib_eq t b).t6, List.Nodup.mem_erase_iff (sorted_nodup h.s6)] at hc
    exact hc.1 (h.uniq6 ((h.same c).1 hc.2) hb he)

structure FindOk (t : Table) (masks : Option Masks) (src6 : T6)
    (r : Table × List Event × Outcome (Except Errno Found)) : Prop where
  good : Good t r.2.1 none r.1
  dyn : Dyn t → Dyn r.1
  noUb : ∃ x, r.2.2 = .ok x
  found : ∀ f, r.2.2 = .ok (.ok f) → FoundOk r.1 masks src6 f

theorem SameTables.find6 {t t' : Table} (h : SameTables t t') (a) : Bib.find6 t' a = Bib.find6 t a := by
  unfold Bib.find6; rw [h.t6]

theorem findBibSession6_ok {e : Env} {p : Proto} {t : Table} {masks : Option Masks} {src6 dst6 : T6}
    {src4 dst4 : T4} (h : WF t) (hm : Masks.optOk masks) :
    FindOk t masks src6 (findBibSession6 e p t masks src6 dst6 src4 dst4) := by
  unfold findBibSession6
  cases hf : find6 t src6 with
  | some b =>
    obtain ⟨hb6, hbs⟩ := find6_some hf
    have hb := (h.same b).1 hb6
    simp only
    split
    · refine ⟨Good.refl h, id, ⟨_, rfl⟩, ?_⟩
      intro f hff
      simp only [Outcome.ok.injEq, Except.ok.injEq] at hff
      subst hff
      unfold FoundOk
      simp only
      by_cases hc : patchDst4 p dst4 b.src4 ∈ t.sess b
      · rw [if_pos hc]; exact ⟨⟨hb, hc⟩, hbs, rfl, rfl⟩
      · rw [if_neg hc]; exact ⟨hb, hbs, hc⟩
    · have g := Good.detachBib h hb
      have h6 : find6 (detachBib t b).1 src6 = none := hbs ▸ find6_detach h hb
      simp only [h6]
      obtain ⟨x, hx, hx2⟩ := findNew_ok (p := p) (t := (detachBib t b).1) (masks := masks) (old := .null)
        (src4 := src4) (dst4 := dst4) g.wf hm (by simp) h6
      refine ⟨g, fun hd => Dyn_detachBib h hd, ⟨x, hx⟩, ?_⟩
      intro f hff
      rw [hx] at hff
      simp only [Outcome.ok.injEq] at hff
      exact (hx2 f hff).1
  | none =>
    have u := upgrade_ok (e := e) (p := p) (masks := masks) (dst6 := dst6) h hf
    simp only
    cases hu : (upgrade e p t masks src6 dst6).2.2 with
    | done k =>
      obtain ⟨hk, hs, _⟩ := u.done k hu
      refine ⟨u.good, u.dyn, ⟨_, rfl⟩, ?_⟩
      intro f hff
      simp only [Outcome.ok.injEq, Except.ok.injEq] at hff
      subst hff
      exact ⟨hk, hs, rfl, rfl⟩
    | failed o =>
      obtain ⟨st, ho⟩ := u.fail o hu
      obtain ⟨x, hx, hx2⟩ := findNew_ok (p := p) (t := (upgrade e p t masks src6 dst6).1)
        (masks := masks) (old := o) (src4 := src4) (dst4 := dst4) u.good.wf hm ho
        ((st.find6 src6).trans hf)
      refine ⟨u.good, u.dyn, ⟨x, hx⟩, ?_⟩
      intro f hff
      simp only at hff
      rw [hx] at hff
      simp only [Outcome.ok.injEq] at hff
      exact (hx2 f hff).1

/-! ### The operations -/

/-- Summary of an operation's effect on the table as a whole. -/
structure OpOk (t : Table) (new : Option Nat) (r : Table × List Event × Result) : Prop where
  good : Good t r.2.1 (if r.2.2 = .stolen then new else none) r.1
  dyn : Dyn t → Dyn r.1

theorem OpOk.mk' {t : Table} {new : Option Nat} {t' : Table} {ev : List Event} {res : Result}
    (hr : res ≠ .stolen) (g : Good t ev none t') (d : Dyn t → Dyn t') : OpOk t new (t', ev, res) :=
  ⟨by simpa [hr] using g, d⟩

theorem commitAdd6_ok {now : Nat} {t : Table} {masks} {f : Found} {src6 dst6 : T6} {st : TcpState}
    {τ : TimerType} {c : Table × SessKey} (h : WF t) (hf : FoundOk t masks src6 f)
    (hs : f.oldSess = none) (hc : commitAdd6 now t f src6 dst6 st τ = .ok c) :
    Good t [] none c.1 ∧ (Dyn t → Dyn c.1) ∧ Live c.1 c.2 ∧ ¬ Live t c.2 ∧ c.2.bib.src6 = src6 ∧
      c.2.dst4 = f.dst4 := by
  unfold FoundOk at hf
  simp only [hs] at hf
  unfold commitAdd6 at hc
  cases hb : f.oldBib with
  | dangling => simp [hb] at hc
  | live b =>
    simp only [hb, Outcome.ok.injEq] at hc hf
    subst hc
    refine ⟨Good.addSess h now (k := ⟨b, f.dst4⟩) hf.1 hf.2.2 dst6 st τ, ?_, ?_, ?_, hf.2.1, rfl⟩
    · intro hd; exact Dyn_addGen (t := t) (k := ⟨b, f.dst4⟩) rfl rfl rfl hd.ex
    · exact (Live_addGen (t := t) (t' := addSess now t ⟨b, f.dst4⟩ dst6 st none τ)
        ⟨b, f.dst4⟩ hf.1 rfl rfl _).2 (.inl rfl)
    · exact fun hl => hf.2.2 hl.2
  | null =>
    simp only [hb, Outcome.ok.injEq] at hc hf
    subst hc
    refine ⟨Good.addPair h now (b := ⟨src6, f.src4⟩) hf.1 hf.2.1 f.dst4 dst6 st τ, ?_, ?_, ?_, rfl, rfl⟩
    · intro hd
      exact Dyn_addGen (t := addBib t _ false) (k := ⟨⟨src6, f.src4⟩, f.dst4⟩) rfl rfl rfl
        (Dyn_addBib hd)
    · exact (Live_addGen (t := addBib t ⟨src6, f.src4⟩ false)
        (t' := addSess now (addBib t ⟨src6, f.src4⟩ false) ⟨⟨src6, f.src4⟩, f.dst4⟩ dst6 st none τ)
        ⟨⟨src6, f.src4⟩, f.dst4⟩ (by simp [addBib, mem_insBy]) rfl rfl _).2 (.inl rfl)
    · exact fun hl => not_mem_of_find (b := ⟨src6, f.src4⟩) hf.2.1 hl.1

theorem add6_ok {e : Env} {p : Proto} {t : Table} {m : Masks} {src6 dst6 : T6} {dst4 : T4} {r}
    (h : WF t) (hm : m.Ok) (hr : add6 e p t m src6 dst6 dst4 = .ok r) (new) : OpOk t new r := by
  unfold add6 at hr
  split at hr
  · cases hr; exact .mk' (by simp) (Good.refl h) id
  · have F := findBibSession6_ok (e := e) (p := p) (t := t) (masks := some m) (src6 := src6)
      (dst6 := dst6) (src4 := default) (dst4 := dst4) h hm
    revert F hr
    generalize findBibSession6 e p t (some m) src6 dst6 default dst4 = q
    intro hr F
    simp only at hr
    obtain ⟨x, hx⟩ := F.noUb
    rw [hx] at hr
    cases x with
    | error er => cases hr; exact .mk' (by simp) F.good F.dyn
    | ok f =>
      have ff := F.found f hx
      simp only at hr
      cases hs : f.oldSess with
      | some k =>
        simp only [hs] at hr
        cases hr
        unfold FoundOk at ff
        simp only [hs] at ff
        exact .mk' (by simp) (by simpa using F.good.trans (Good.fateTimer F.good.wf e.now ff.1 .EST))
          (fun hd => Dyn_congr (t := q.1) rfl rfl rfl (F.dyn hd))
      | none =>
        simp only [hs] at hr
        cases hc : commitAdd6 e.now q.1 f src6 dst6 .ESTABLISHED .EST with
        | ub u => simp [hc] at hr
        | ok c =>
          simp only [hc, Outcome.ok.injEq] at hr
          subst hr
          obtain ⟨g, d, _⟩ := commitAdd6_ok F.good.wf ff hs hc
          exact .mk' (by simp) (by simpa using F.good.trans g) (fun hd => d (F.dyn hd))

theorem add4_ok {e : Env} {t : Table} {src4 dst4 : T4} {dst6 : T6} {r}
    (h : WF t) (hr : add4 e t src4 dst4 dst6 = .ok r) (new) : OpOk t new r := by
  unfold add4 at hr
  split at hr
  · cases hr; exact .mk' (by simp) (Good.refl h) id
  · cases hf : find4 t src4 with
    | none => simp only [hf] at hr; cases hr; exact .mk' (by simp) (Good.refl h) id
    | some b =>
      have hb := (find4_some hf).1
      simp only [hf] at hr
      split at hr
      · rename_i hmem
        cases hr
        exact .mk' (by simp) (Good.fateTimer h e.now (k := ⟨b, dst4⟩) ⟨hb, hmem⟩ .EST)
          (fun hd => Dyn_congr (t := t) rfl rfl rfl hd)
      · rename_i hmem
        split at hr
        · cases hr; exact .mk' (by simp) (Good.refl h) id
        · cases hr
          exact .mk' (by simp) (Good.addSess h e.now (k := ⟨b, dst4⟩) hb hmem dst6 _ _)
            (fun hd => Dyn_addGen (t := t) (k := ⟨b, dst4⟩) rfl rfl rfl hd.ex)

theorem tcpCollision_ok {e : Env} {cb} {t0 t : Table} {ev} {k : SessKey} {r}
    (g : Good t0 ev none t) (hd : Dyn t0 → Dyn t) (hk : Live t k)
    (hr : tcpCollision e cb t ev k = .ok r) (new) : OpOk t0 new r := by
  have d := decideFate_ok (e := e) (probes := false) (cb := cb) g.wf hk
  unfold tcpCollision at hr
  simp only at hr
  split at hr
  · split at hr
    · cases hr
    · cases hr; exact .mk' (by simp) (g.trans d.good) (fun h => d.dyn (hd h))
  · cases hr; exact .mk' (by simp) (g.trans d.good) (fun h => d.dyn (hd h))

theorem tcp6_ok {e : Env} {t : Table} {m : Masks} {seg : Seg} {src6 dst6 : T6} {dst4 : T4} {r}
    (h : WF t) (hm : m.Ok) (hr : tcp6 e t m seg src6 dst6 dst4 = .ok r) (new) : OpOk t new r := by
  unfold tcp6 at hr
  split at hr
  · cases hr; exact .mk' (by simp) (Good.refl h) id
  · have F := findBibSession6_ok (e := e) (p := .TCP) (t := t) (masks := some m) (src6 := src6)
      (dst6 := dst6) (src4 := default) (dst4 := dst4) h hm
    revert F hr
    generalize findBibSession6 e .TCP t (some m) src6 dst6 default dst4 = q
    intro hr F
    simp only at hr
    obtain ⟨x, hx⟩ := F.noUb
    rw [hx] at hr
    cases x with
    | error er => cases hr; exact .mk' (by simp) F.good F.dyn
    | ok f =>
      have ff := F.found f hx
      simp only at hr
      cases hs : f.oldSess with
      | some k =>
        simp only [hs] at hr
        unfold FoundOk at ff
        simp only [hs] at ff
        exact tcpCollision_ok F.good F.dyn ff.1 hr new
      | none =>
        simp only [hs] at hr
        split at hr
        · cases ho : f.oldBib <;> simp only [ho] at hr <;> cases hr <;>
            exact .mk' (by simp) F.good F.dyn
        · cases hc : commitAdd6 e.now q.1 f src6 dst6 .V6_INIT .TRANS with
          | ub u => simp [hc] at hr
          | ok c =>
            simp only [hc, Outcome.ok.injEq] at hr
            subst hr
            obtain ⟨g, d, _⟩ := commitAdd6_ok F.good.wf ff hs hc
            exact .mk' (by simp) (by simpa using F.good.trans g) (fun hd => d (F.dyn hd))

theorem storeType1_ok {e : Env} {t : Table} {src4 dst4 : T4} {dst6 : T6} {skb : Nat} (h : WF t) :
    OpOk t (some skb) (storeType1 e t src4 dst4 dst6 skb) := by
  unfold storeType1
  split
  · exact .mk' (by simp) (Good.refl h) id
  split
  · exact .mk' (by simp) (Good.refl h) id
  split
  · exact .mk' (by simp) (Good.refl h) id
  · refine ⟨?_, fun hd => Dyn_congr (t := t) rfl rfl rfl hd⟩
    simp only [if_true]
    refine Good.setQ h _ _ _ _ ?_ ?_
    · intro P; simp [pktSum, List.map_append, List.sum_append]
    · simp only [List.length_append, List.length_singleton]; omega

theorem tcp4_ok {e : Env} {t : Table} {seg : Seg} {src4 dst4 : T4} {dst6 : T6} {skb : Nat} {r}
    (h : WF t) (hr : tcp4 e t seg src4 dst4 dst6 skb = .ok r) : OpOk t (some skb) r := by
  unfold tcp4 at hr
  split at hr
  · cases hr; exact .mk' (by simp) (Good.refl h) id
  · simp only at hr
    cases hf : find4 t src4 with
    | none =>
      simp only [hf] at hr
      split at hr
      · cases hr; exact .mk' (by simp) (Good.refl h) id
      split at hr
      · cases hr; exact .mk' (by simp) (Good.refl h) id
      · cases hr; exact storeType1_ok h
    | some b =>
      have hb := (find4_some hf).1
      simp only [hf] at hr
      by_cases hmem : dst4 ∈ t.sess b
      · simp only [hmem, if_true] at hr
        exact tcpCollision_ok (Good.refl h) id (k := ⟨b, dst4⟩) ⟨hb, hmem⟩ hr _
      · simp only [hmem, if_false] at hr
        split at hr
        · cases hr; exact .mk' (by simp) (Good.refl h) id
        split at hr
        · cases hr; exact .mk' (by simp) (Good.refl h) id
        split at hr
        · split at hr
          · cases hr; exact .mk' (by simp) (Good.refl h) id
          · cases hr
            refine ⟨?_, ?_⟩
            · simp only [if_true]
              exact Good.addSessStored h e.now (k := ⟨b, dst4⟩) hb hmem dst6 _ skb _
            · intro hd; exact Dyn_addGen (t := t) (k := ⟨b, dst4⟩) rfl rfl rfl hd.ex
        · cases hr
          exact .mk' (by simp) (Good.addSess h e.now (k := ⟨b, dst4⟩) hb hmem dst6 _ _)
            (fun hd => Dyn_addGen (t := t) (k := ⟨b, dst4⟩) rfl rfl rfl hd.ex)

theorem jooldAdd_ok {e : Env} {p : Proto} {t : Table} {s : SessEntry} {r}
    (h : WF t) (hr : jooldAdd e p t s = .ok r) (new) : OpOk t new r := by
  unfold jooldAdd at hr
  split at hr
  · cases hr; exact .mk' (by simp) (Good.refl h) id
  · have F := findBibSession6_ok (e := e) (p := p) (t := t) (masks := none) (src6 := s.src6)
      (dst6 := s.dst6) (src4 := s.src4) (dst4 := s.dst4) h trivial
    revert F hr
    generalize findBibSession6 e p t none s.src6 s.dst6 s.src4 s.dst4 = q
    intro hr F
    simp only at hr
    obtain ⟨x, hx⟩ := F.noUb
    rw [hx] at hr
    cases x with
    | error er => cases hr; exact .mk' (by simp) F.good F.dyn
    | ok f =>
      have ff := F.found f hx
      simp only at hr
      unfold FoundOk at ff
      cases hs : f.oldSess with
      | some k =>
        simp only [hs, Outcome.ok.injEq] at hr ff
        subst hr
        have d := decideFate_ok (e := e) (probes := false) (cb := jooldCb q.1 s k) F.good.wf ff.1
        exact .mk' (by simp) (F.good.trans d.good) (fun hd => d.dyn (F.dyn hd))
      | none =>
        simp only [hs] at hr ff
        cases hτ : s.timer with
        | none => simp only [hτ] at hr; cases hr; exact .mk' (by simp) F.good F.dyn
        | some τ =>
          simp only [hτ] at hr
          cases hb : f.oldBib with
          | dangling => simp [hb] at hr
          | live b =>
            simp only [hb, Outcome.ok.injEq] at hr ff
            subst hr
            exact .mk' (by simp)
              (by simpa using F.good.trans (Good.addSessSlow F.good.wf (k := ⟨b, f.dst4⟩) ff.1 ff.2.2 s τ))
              (fun hd => Dyn_addGen (t := q.1) (k := ⟨b, f.dst4⟩) rfl rfl rfl (F.dyn hd).ex)
          | null =>
            simp only [hb, Outcome.ok.injEq] at hr ff
            subst hr
            have g2 := F.good.trans
              (Good.addPairSlow F.good.wf (b := ⟨s.src6, f.src4⟩) ff.1 ff.2.1 f.dst4 s τ)
            exact .mk' (by simp) (by simpa using g2)
              (fun hd => Dyn_addGen (t := addBib q.1 _ false) (k := ⟨⟨s.src6, f.src4⟩, f.dst4⟩) rfl rfl rfl
                (Dyn_addBib (F.dyn hd)))

theorem cleanLoop_ok {e : Env} {p : Proto} {τ : TimerType} :
    ∀ (ks : List SessKey) (t : Table), WF t → ks.Nodup → (∀ k ∈ ks, Live t k) →
      Good t (cleanLoop e p τ t ks).2 none (cleanLoop e p τ t ks).1 ∧
      (Dyn t → Dyn (cleanLoop e p τ t ks).1) := by
  intro ks
  induction ks with
  | nil => intro t h _ _; exact ⟨Good.refl h, id⟩
  | cons k ks ih =>
    intro t h hn hl
    unfold cleanLoop
    split
    · exact ⟨Good.refl h, id⟩
    · have d := decideFate_ok (e := e) (probes := true) (cb := expireCb e.now p τ) h (hl k (by simp))
      rw [List.nodup_cons] at hn
      have hl' : ∀ k' ∈ ks, Live (decideFate e true (expireCb e.now p τ) t k).t k' := by
        intro k' hk'
        cases hrm : (decideFate e true (expireCb e.now p τ) t k).removed with
        | false => exact (d.kept hrm k').2 (hl k' (by simp [hk']))
        | true =>
          refine (d.gone hrm k').2 ⟨hl k' (by simp [hk']), ?_⟩
          rintro rfl; exact hn.1 hk'
      obtain ⟨g, dy⟩ := ih _ d.good.wf hn.2 hl'
      exact ⟨d.good.trans g, fun hd => dy (d.dyn hd)⟩

theorem cleanList_ok {e : Env} {p : Proto} {τ : TimerType} {t : Table} (h : WF t) :
    Good t (cleanList e p τ t).2 none (cleanList e p τ t).1 ∧ (Dyn t → Dyn (cleanList e p τ t).1) :=
  cleanLoop_ok _ t h (h.nd τ) (fun k hk => ((h.lk τ k).1 hk).1)

theorem queueClean_split (e : Env) (q : List QNode) : (queueClean e q).1 ++ (queueClean e q).2 = q := by
  induction q with
  | nil => rfl
  | cons n ns ih => unfold queueClean; split <;> simp [ih]

theorem clean_ok {e : Env} {p : Proto} {t : Table} {r} (h : WF t) (hr : clean e p t = .ok r) (new) :
    OpOk t new r := by
  unfold clean at hr
  obtain ⟨g1, d1⟩ := cleanList_ok (e := e) (p := p) (τ := .EST) h
  obtain ⟨g2, d2⟩ := cleanList_ok (e := e) (p := p) (τ := .TRANS) g1.wf
  obtain ⟨g3, d3⟩ := cleanList_ok (e := e) (p := p) (τ := .SYN4) g2.wf
  have g := (g1.trans g2).trans g3
  have d := fun hd => d3 (d2 (d1 hd))
  revert hr g d
  simp only
  generalize (cleanList e p TimerType.SYN4 (cleanList e p TimerType.TRANS (cleanList e p TimerType.EST t).1).1) = r3
  intro hr g d
  split at hr
  · cases hr
    have hq := queueClean_split e r3.1.queue
    refine .mk' (by simp) (Good.trans g ?_) (fun hd => Dyn_congr (t := r3.1) rfl rfl rfl (d hd))
    refine Good.setQ g.wf _ _ _ _ ?_ ?_
    · intro P
      conv => rhs; rw [← hq]
      simp only [pktSum, out, List.map_append, List.sum_append, List.map_map, w_none]
      rw [show (fun e : Event => w P e.pkt) ∘ (fun n : QNode => Event.icmpErr n.skb)
        = fun n => w P (some n.skb) from rfl]
      omega
    · have : r3.1.queue.length = (queueClean e r3.1.queue).1.length + (queueClean e r3.1.queue).2.length := by
        conv => lhs; rw [← hq]
        exact List.length_append
      omega
  · cases hr; exact .mk' (by simp) g d

theorem rmBib_ok {t : Table} {b : BibKey} {r} (h : WF t) (hr : rmBib t b = .ok r) (new) :
    OpOk t new r := by
  unfold rmBib at hr
  cases hf : find6 t b.src6 with
  | none => simp only [hf] at hr; cases hr; exact .mk' (by simp) (Good.refl h) id
  | some c =>
    have hc := (h.same c).1 (find6_some hf).1
    simp only [hf] at hr
    split at hr
    · cases hr; exact .mk' (by simp) (Good.detachBib h hc) (fun hd => Dyn_detachBib h hd)
    · cases hr; exact .mk' (by simp) (Good.refl h) id

theorem rmRangeLoop_ok (rg : Range4) : ∀ (bs : List BibKey) (t : Table), WF t → bs.Nodup →
    (∀ b ∈ bs, b ∈ t.tree4) →
    Good t (rmRangeLoop rg t bs).2 none (rmRangeLoop rg t bs).1 ∧
    (Dyn t → Dyn (rmRangeLoop rg t bs).1) := by
  intro bs
  induction bs with
  | nil => intro t h _ _; exact ⟨Good.refl h, id⟩
  | cons b bs ih =>
    intro t h hn hb
    rw [List.nodup_cons] at hn
    unfold rmRangeLoop
    split
    · exact ⟨Good.refl h, id⟩
    split
    · have g := Good.detachBib h (hb b (by simp))
      have hb' : ∀ b' ∈ bs, b' ∈ (detachBib t b).1.tree4 := by
        intro b' hb'
        rw [(detachBib_eq t b).t4, List.Nodup.mem_erase_iff (sorted_nodup h.s4)]
        exact ⟨by rintro rfl; exact hn.1 hb', hb b' (by simp [hb'])⟩
      obtain ⟨g2, d2⟩ := ih _ g.wf hn.2 hb'
      exact ⟨g.trans g2, fun hd => d2 (Dyn_detachBib h hd)⟩
    · exact ih t h hn.2 (fun b' hb' => hb b' (by simp [hb']))

theorem startingPoint_sub (l : List BibKey) (o incl) : (startingPoint l o incl).Sublist l := by
  unfold startingPoint
  cases o with
  | none => exact List.Sublist.refl _
  | some o => simp only; split <;> exact List.dropWhile_sublist _

theorem rmRange_ok {t : Table} {rg : Range4} {r} (h : WF t) (hr : rmRange t rg = .ok r) (new) :
    OpOk t new r := by
  unfold rmRange at hr
  cases hr
  have hs := startingPoint_sub t.tree4 (some ⟨rg.pfx.addr, rg.min⟩) true
  obtain ⟨g, d⟩ := rmRangeLoop_ok rg _ t h ((sorted_nodup h.s4).sublist hs) (fun b hb => hs.subset hb)
  exact .mk' (by simp) g d

theorem flush_fold : ∀ (bs : List BibKey) (t0 t : Table) (ev : List Event), Good t0 ev none t →
    (Dyn t0 → Dyn t) → bs.Nodup → (∀ b ∈ bs, b ∈ t.tree4) →
    let l := bs.foldl (fun (acc : Table × List Event) b =>
      let d := detachBib acc.1 b
      (d.1, acc.2 ++ d.2)) (t, ev)
    Good t0 l.2 none l.1 ∧ (Dyn t0 → Dyn l.1) := by
  intro bs
  induction bs with
  | nil => intro t0 t ev g d _ _; exact ⟨g, d⟩
  | cons b bs ih =>
    intro t0 t ev g d hn hb
    rw [List.nodup_cons] at hn
    have g1 := Good.detachBib g.wf (hb b (by simp))
    refine ih t0 _ _ (g.trans g1) (fun hd => Dyn_detachBib g.wf (d hd)) hn.2 ?_
    intro b' hb'
    rw [(detachBib_eq t b).t4, List.Nodup.mem_erase_iff (sorted_nodup g.wf.s4)]
    exact ⟨by rintro rfl; exact hn.1 hb', hb b' (by simp [hb'])⟩

theorem flush_ok {t : Table} {r} (h : WF t) (hr : flush t = .ok r) (new) : OpOk t new r := by
  unfold flush at hr
  cases hr
  obtain ⟨g, d⟩ := flush_fold t.tree4 t t [] (Good.refl h) id (sorted_nodup h.s4) (fun _ h => h)
  exact .mk' (by simp) g d

/-- Like `Good`, except that `pkt_count` may stay too high. -/
structure GoodLeak (t : Table) (ev : List Event) (new : Option Nat) (t' : Table) : Prop where
  wf : WF t'
  bal : ∀ P, held t' P + out ev P = held t P + w P new
  pk : t.pktCount - (held t anyPkt : Int) ≤ t'.pktCount - (held t' anyPkt : Int)
  sb : t'.statBib - (t'.tree4.length : Int) = t.statBib - (t.tree4.length : Int)
  sn : t'.statSess - ((all t').length : Int) = t.statSess - ((all t).length : Int)

theorem Good.leak {t ev new t'} (g : Good t ev new t') : GoodLeak t ev new t' :=
  ⟨g.wf, g.bal, Int.le_of_eq g.pk.symm, g.sb, g.sn⟩

theorem sum_filter_split {α} (f : α → Nat) (p : α → Bool) (l : List α) :
    ((l.filter p).map f).sum + ((l.filter (fun x => !p x)).map f).sum = (l.map f).sum := by
  induction l with
  | nil => rfl
  | cons a l ih =>
    cases hp : p a <;> simp [hp] <;> omega

theorem addStatic_ok {e : Env} {p : Proto} {t : Table} {b : BibKey} {r} (h : WF t)
    (hr : addStatic e p t b = .ok r) :
    GoodLeak t r.2.1 none r.1 ∧ (Dyn t → Dyn r.1) ∧ r.2.2 ≠ .stolen ∧
    ((p = .TCP → ∀ n ∈ t.queue, n.src4 ≠ b.src4) → Good t r.2.1 none r.1) := by
  unfold addStatic at hr
  split at hr
  · cases hr; exact ⟨(Good.refl h).leak, id, by simp, fun _ => Good.refl h⟩
  · cases hf : find6 t b.src6 with
    | some c =>
      simp only [hf] at hr
      split at hr
      · cases hr
        have hw : WF { t with isStatic := upd t.isStatic c true } := h.congr rfl rfl rfl rfl (fun _ _ => rfl)
        have g : Good t [] none { t with isStatic := upd t.isStatic c true } := ⟨hw, fun _ => rfl, rfl, rfl, rfl⟩
        refine ⟨g.leak, ?_, by simp, fun _ => g⟩
        intro hd y hy _
        show upd t.isStatic c true y = true ∨ _
        by_cases hyc : y = c
        · subst hyc; rw [upd_same]; exact .inl rfl
        · rw [upd_ne _ _ hyc]; exact hd y hy (by simp)
      · cases hr; exact ⟨(Good.refl h).leak, id, by simp, fun _ => Good.refl h⟩
    | none =>
      simp only [hf] at hr
      cases h4 : find4 t b.src4 with
      | some c => simp only [h4] at hr; cases hr; exact ⟨(Good.refl h).leak, id, by simp, fun _ => Good.refl h⟩
      | none =>
        simp only [h4] at hr
        have g := Good.addBib h hf h4 true
        have dy : Dyn t → Dyn (addBib t b true) := by
          intro hd y hy _
          by_cases hyb : y = b
          · subst hyb; simp [addBib, upd_same]
          · exact Dyn_addBib hd y hy hyb
        split at hr
        · cases hr
          have G : GoodLeak t ((t.queue.filter (fun n => decide (n.src4 = b.src4))).map
                (fun n => Event.freed n.skb)) none
              { addBib t b true with
                  queue := t.queue.filter (fun n => !decide (n.src4 = b.src4)) } := by
            have hs : ∀ P, heldS { addBib t b true with
                  queue := t.queue.filter (fun n => !decide (n.src4 = b.src4)) } P = heldS (addBib t b true) P :=
              fun P => rfl
            have hsp := fun P => sum_filter_split (fun n : QNode => w P (some n.skb))
              (fun n => decide (n.src4 = b.src4)) t.queue
            have hO : ∀ P, out ((t.queue.filter (fun n => decide (n.src4 = b.src4))).map
                (fun n => Event.freed n.skb)) P
                = ((t.queue.filter (fun n => decide (n.src4 = b.src4))).map
                  (fun n => w P (some n.skb))).sum := by
              intro P; unfold out; rw [List.map_map]; rfl
            have hqq : ∀ P, pktSum (addBib t b true).queue P = pktSum t.queue P := fun _ => rfl
            refine ⟨g.wf.congr rfl rfl rfl rfl (fun _ _ => rfl), ?_, ?_, g.sb, g.sn⟩
            · intro P
              have a := hsp P
              have c := g.bal P
              rw [hO]
              simp only [held, hs, heldQ_eq, hqq, w_none, out_nil] at c ⊢
              simp only [pktSum] at c ⊢
              omega
            · have a := hsp anyPkt
              have c := g.pk
              have pc : (addBib t b true).pktCount = t.pktCount := rfl
              have hss : heldS (addBib t b true) anyPkt = heldS t anyPkt := by
                simp only [pc, held, heldQ_eq, hqq] at c
                omega
              have hx := hs anyPkt
              simp only [held, heldQ_eq, hx, hss, pktSum]
              simp only [pc]
              omega
          refine ⟨G, dy, by simp, ?_⟩
          intro hno
          have hno' := hno (by assumption)
          have he : t.queue.filter (fun n => !decide (n.src4 = b.src4)) = t.queue := by
            rw [List.filter_eq_self]
            intro n hn
            simp [hno' n hn]
          refine ⟨G.wf, G.bal, ?_, G.sb, G.sn⟩
          have := g.pk
          simp only [show (addBib t b true).queue = t.queue from rfl, he]
          exact this
        · cases hr
          exact ⟨g.leak, dy, by simp, fun _ => g⟩

/-! ### Any operation, any history -/

/-- The packet which an operation carries, if the table may keep it. -/
def Op.pkt : Op → Option Nat
  | .tcp4 _ _ _ _ skb => some skb
  | _ => none

/-- Contract with the pool4 module: see `Masks.Ok`. -/
def Op.Ok : Op → Prop
  | .add6 m _ _ _ => m.Ok
  | .tcp6 m _ _ _ _ => m.Ok
  | _ => True

theorem step_ok {p : Proto} {t : Table} {e : Env} {op : Op} {r} (h : WF t) (ho : op.Ok)
    (hr : step p t e op = .ok r) :
    GoodLeak t r.2.1 (if r.2.2 = .stolen then op.pkt else none) r.1 ∧ (Dyn t → Dyn r.1) := by
  have K : ∀ {new}, OpOk t new r → new = op.pkt →
      GoodLeak t r.2.1 (if r.2.2 = .stolen then op.pkt else none) r.1 ∧ (Dyn t → Dyn r.1) := by
    intro new o hn; subst hn; exact ⟨o.good.leak, o.dyn⟩
  have I : step p t e op = .ok (t, [], .done) →
      GoodLeak t r.2.1 (if r.2.2 = .stolen then op.pkt else none) r.1 ∧ (Dyn t → Dyn r.1) := by
    intro hi; rw [hi] at hr; cases hr; exact ⟨by simpa using (Good.refl h).leak, id⟩
  cases op with
  | add6 m s6 d6 d4 =>
    simp only [step] at hr I
    split at hr
    · rename_i hp; exact I (by simp [hp])
    · exact K (add6_ok h ho hr none) rfl
  | add4 s4 d4 d6 =>
    simp only [step] at hr I
    split at hr
    · rename_i hp; exact I (by simp [hp])
    · exact K (add4_ok h hr none) rfl
  | tcp6 m sg s6 d6 d4 =>
    simp only [step] at hr I
    split at hr
    · exact K (tcp6_ok h ho hr none) rfl
    · rename_i hp; exact I (by simp [hp])
  | tcp4 sg s4 d4 d6 skb =>
    simp only [step] at hr I
    split at hr
    · exact K (tcp4_ok h hr) rfl
    · rename_i hp; exact I (by simp [hp])
  | joold s => exact K (jooldAdd_ok h hr none) rfl
  | clean => exact K (clean_ok h hr none) rfl
  | addStatic b =>
    obtain ⟨a, b, c, d⟩ := addStatic_ok h hr
    exact ⟨by simpa [c] using a, b⟩
  | rm b => exact K (rmBib_ok h hr none) rfl
  | rmRange rg => exact K (rmRange_ok h hr none) rfl
  | flush => exact K (flush_ok h hr none) rfl

end Jool.Bib
