import Verif.Lemmas.BibSorted
import Verif.Props.BibTables
/-
The expiration timers of the session table: C22, C23 and the table-wide form of C25.
-/
namespace Jool

/-! ## Specification -/
namespace TimerSpec
open Bib

/-- The clock never goes back during the history, and starts at `n` or later. -/
def Clock : Nat → List (Env × Op) → Prop
  | _, [] => True
  | n, x :: rest => n ≤ x.1.now ∧ Clock x.1.now rest

/-- The time of the last operation. -/
def lastTime : Nat → List (Env × Op) → Nat
  | n, [] => n
  | _, x :: rest => lastTime x.1.now rest

/-- Synchronization messages do not carry sessions that were updated in the future, nor inexistent
timers. -/
def Punctual (hist : List (Env × Op)) : Prop :=
  ∀ x ∈ hist, ∀ s, x.2 = .joold s → s.updateTime ≤ x.1.now ∧ s.timer ≠ none

/-- How long a session can stay idle: (RFC 6146 section 4) depends on the protocol and, for TCP, on the
timer in use. -/
def timeout (cfg : Cfg) : Proto → TimerType → Nat
  | .UDP, .EST => cfg.ttlUdp
  | .ICMP, .EST => cfg.ttlIcmp
  | .TCP, .EST => cfg.ttlTcpEst
  | .TCP, .TRANS => cfg.ttlTcpTrans
  | .TCP, .SYN4 => cfg.ttlSyn4
  | _, _ => 0

/-- The session has been idle for its whole lifetime. -/
def Expired (e : Env) (p : Proto) (i : SessInfo) : Prop :=
  i.updateTime + timeout e.cfg p i.expirer ≤ e.now

/-- States during which RFC 6146 keeps a TCP session on the established timer. -/
def EstState (s : TcpState) : Prop := s = .ESTABLISHED ∨ s = .V4_FIN_RCV ∨ s = .V6_FIN_RCV

/-- A synchronization message whose state and timer are compatible. -/
def Compatible (s : SessEntry) : Prop :=
  s.state ≠ .unknown ∧ s.timer ≠ none ∧ (s.timer = some .EST → EstState s.state) ∧
  (s.timer = some .SYN4 → s.state = .V4_INIT)

end TimerSpec

namespace Bib
open BibSpec TimerSpec

theorem timeout_eq (cfg p τ) : getTimeout cfg p τ = timeout cfg p τ := by cases p <;> cases τ <;> rfl

/-! ## C22 -/

theorem run_sorted {p : Proto} : ∀ (hist : List (Env × Op)) (n : Nat) (t t' : Table) (ev : List Event),
    WF t → Srt t n → (∀ x ∈ hist, x.2.Ok) → Clock n hist → Punctual hist →
    run p t hist = .ok (t', ev) → WF t' ∧ Srt t' (lastTime n hist) := by
  intro hist
  induction hist with
  | nil =>
    intro n t t' ev h s _ _ _ hr
    simp only [run, Outcome.ok.injEq, Prod.mk.injEq] at hr
    rw [← hr.1]; exact ⟨h, s⟩
  | cons x rest ih =>
    intro n t t' ev h s ho hc hp hr
    obtain ⟨en, o⟩ := x
    simp only [run] at hr
    cases hs : step p t en o with
    | ub u => simp [hs] at hr
    | ok r =>
      simp only [hs] at hr
      cases hq : run p r.1 rest with
      | ub u => simp [hq] at hr
      | ok q =>
        simp only [hq, Outcome.ok.injEq, Prod.mk.injEq] at hr
        obtain ⟨rfl, _⟩ := hr
        have hok := ho (en, o) (by simp)
        have c := step_chain h hok hs
        have pu : o.Punctual en := by
          cases o with
          | joold s => exact hp (en, .joold s) (by simp) s rfl
          | _ => trivial
        exact ih en.now r.1 q.1 q.2 (c.wf h) (Srt.chain h (s.mono hc.1) pu c)
          (fun y hy => ho y (by simp [hy])) hc.2 (fun y hy => hp y (by simp [hy])) hq

/-- C22: with a clock that never goes back and without synchronization messages from the future,
every session is on exactly one expiration list, every list is ordered from the oldest to the newest
update, and so is the queue of stored packets.

Missing from the full statement: arbitrary synchronization messages. `sweep_misses` shows that
they do break the order. -/
theorem lists_sorted_partial {p hist t ev} (h : After p hist t ev) (hc : Clock 0 hist)
    (hp : Punctual hist) :
    (t.lists .EST ++ t.lists .TRANS ++ t.lists .SYN4).Perm (sessions t) ∧
    (∀ τ, ∀ k ∈ t.lists τ, (t.info k).expirer = τ) ∧
    (∀ τ, (t.lists τ).Pairwise (fun a b => (t.info a).updateTime ≤ (t.info b).updateTime)) ∧
    t.queue.Pairwise (fun a b => a.updateTime ≤ b.updateTime) ∧
    (∀ k ∈ sessions t, (t.info k).updateTime ≤ lastTime 0 hist) := by
  obtain ⟨w, s⟩ := run_sorted hist 0 init t ev WF_init (Srt_init 0) h.1 hc hp h.2
  refine ⟨session_one_timer h, fun τ k hk => ((w.lk τ k).1 hk).2, s.srt, s.qs, ?_⟩
  intro k hk
  rw [mem_sessions] at hk
  exact s.le _ k ((w.lk (t.info k).expirer k).2 ⟨hk, rfl⟩)

/-! ## C23 -/

/-- C23, first half, for every history (no assumption about the clock nor about the messages): a sweep
does not touch the sessions which have not been idle for long enough. -/
theorem sweep_not_premature {p hist t ev} (h : After p hist t ev) (e : Env)
    (r : Table × List Event × Result) (hr : step p t e .clean = .ok r) (k : SessKey)
    (hk : k ∈ sessions t) (hx : ¬ Expired e p (t.info k)) :
    k ∈ sessions r.1 ∧ r.1.info k = t.info k := by
  have hw := (After.inv h).wf
  rw [mem_sessions] at hk ⊢
  refine Chain.induct (I := fun t1 => Live t1 k ∧ t1.info k = t.info k) hw
    (step_chain (op := .clean) hw trivial hr) ?_ ⟨hk, rfl⟩
  intro t1 t2 w1 ⟨l1, i1⟩ a
  cases a with
  | queue => exact ⟨l1, i1⟩
  | setStatic c hc ho => cases ho
  | fate probes cb k' hk' hcb _ =>
    cases hcb with
    | tcp seg _ ho => rcases ho with ⟨_, _, _, _, ho⟩ | ⟨_, _, _, _, ho⟩ <;> cases ho
    | joold s ho => cases ho
    | expire τ ho hτ ht =>
      have d := decideFate_ok (e := e) (probes := probes) (cb := expireCb e.now p τ) w1 hk'
      by_cases hkk : k = k'
      · subst hkk
        exfalso
        apply hx
        unfold Expired
        rw [← timeout_eq, ← i1, hτ]; exact ht
      · refine ⟨?_, by rw [d.others k hkk]; exact i1⟩
        cases hrm : (decideFate e probes (expireCb e.now p τ) t1 k').removed with
        | false => exact (d.kept hrm k).2 l1
        | true => exact (d.gone hrm k).2 ⟨l1, hkk⟩
  | touch k' hk' _ ho _ => exact ho.elim
  | addBib b st h6 h4 ho => rcases ho with ⟨_, ho⟩ | ⟨_, ho⟩ <;> cases ho
  | addSess k' d6 st sto τ hb hn hf ho _ => exact ho.elim
  | addSlow k' s τ hb hn ho hτ _ => cases ho
  | detach b hb ho => exact ho.elim

theorem clean_exact {e p t r} (h : WF t) (s : Srt t e.now) (hr : clean e p t = .ok r) :
    (∀ k, Live r.1 k → Live t k) ∧
    (∀ k, Live r.1 k → ¬ Expired e p (r.1.info k)) ∧
    (∀ k, Live t k → Expired e p (t.info k) → Probed p (t.info k).expirer (t.info k) →
      0 < e.cfg.ttlTcpTrans → Live r.1 k ∧ r.1.info k = probedInfo e (t.info k)) ∧
    (∀ k, Live t k → Expired e p (t.info k) → ¬ Probed p (t.info k).expirer (t.info k) →
      ¬ Live r.1 k) := by
  have c1 := cleanList_exact (p := p) (τ := .EST) h s
  have ch1 := cleanList_chain (p := p) (e := e) (τ := .EST) h
  have w1 := ch1.wf h
  have s1 := Srt.chain (op := .clean) h s trivial ch1
  have c2 := cleanList_exact (p := p) (τ := .TRANS) w1 s1
  have ch2 := cleanList_chain (p := p) (e := e) (τ := .TRANS) w1
  have w2 := ch2.wf w1
  have s2 := Srt.chain (op := .clean) w1 s1 trivial ch2
  have c3 := cleanList_exact (p := p) (τ := .SYN4) w2 s2
  have hr' : (∀ k, Live r.1 k ↔ Live (cleanList e p .SYN4 (cleanList e p .TRANS (cleanList e p .EST t).1).1).1 k) ∧
      r.1.info = (cleanList e p .SYN4 (cleanList e p .TRANS (cleanList e p .EST t).1).1).1.info := by
    unfold clean at hr
    simp only at hr
    split at hr <;> cases hr <;> exact ⟨fun _ => Iff.rfl, rfl⟩
  obtain ⟨hrl, hri⟩ := hr'
  revert c3 c2 c1 hrl hri
  generalize (cleanList e p .SYN4 (cleanList e p .TRANS (cleanList e p .EST t).1).1).1 = t3
  generalize (cleanList e p .TRANS (cleanList e p .EST t).1).1 = t2
  generalize (cleanList e p .EST t).1 = t1
  intro c1 c2 c3 hrl hri
  simp only at c1 c2 c3
  have ex : ∀ t k, Expired e p (t.info k) ↔ Exp e p (t.info k).expirer t k := by
    intro t k; unfold Expired Exp; rw [timeout_eq]; simp
  have np2 : ∀ i, ¬ Probed p .TRANS i := by intro i hi; cases hi.2.1
  have np3 : ∀ i, ¬ Probed p .SYN4 i := by intro i hi; cases hi.2.1
  have L3 : ∀ k, Live t3 k ↔ Live t2 k ∧ ¬ Exp e p .SYN4 t2 k := by
    intro k; rw [c3.1]; simp [np3]
  have L2 : ∀ k, Live t2 k ↔ Live t1 k ∧ ¬ Exp e p .TRANS t1 k := by
    intro k; rw [c2.1]; simp [np2]
  have I3 : ∀ k, Live t3 k → t3.info k = t2.info k := by
    intro k hk; rw [c3.2 k hk, if_neg ((L3 k).1 hk).2]
  have I2 : ∀ k, Live t2 k → t2.info k = t1.info k := by
    intro k hk; rw [c2.2 k hk, if_neg ((L2 k).1 hk).2]
  have ExpC : ∀ τ {t t' : Table} {k}, t.info k = t'.info k → (Exp e p τ t k ↔ Exp e p τ t' k) := by
    intro τ t t' k hh; unfold Exp; rw [hh]
  refine ⟨?_, ?_, ?_, ?_⟩
  · intro k hk
    rw [hrl, L3, L2, c1.1] at hk
    exact hk.1.1.1
  · intro k hk hx
    have hk3 := (hrl k).1 hk
    have hk2 := ((L3 k).1 hk3).1
    have hk1 := ((L2 k).1 hk2).1
    have n3 := ((L3 k).1 hk3).2
    have n2 := ((L2 k).1 hk2).2
    rw [hri, I3 k hk3, I2 k hk2, ex] at hx
    rw [ExpC _ (I2 k hk2)] at n3
    cases hτ : (t1.info k).expirer with
    | SYN4 => rw [hτ] at hx; exact n3 hx
    | TRANS => rw [hτ] at hx; exact n2 hx
    | EST =>
      rw [hτ] at hx
      rw [c1.2 k hk1] at hτ
      split at hτ
      · simp [probedInfo] at hτ
      · rename_i hne
        rw [ExpC (t' := t) .EST (by rw [c1.2 k hk1, if_neg hne])] at hx
        exact hne hx
  · intro k hk hx hp htr
    have hE : Exp e p .EST t k := by
      have := (ex t k).1 hx
      rw [hp.2.1] at this; exact this
    rw [hp.2.1] at hp
    have hk1 : Live t1 k := (c1.1 k).2 ⟨hk, fun hc => hc.2 hp⟩
    have i1 : t1.info k = probedInfo e (t.info k) := by rw [c1.2 k hk1, if_pos hE]
    have hk2 : Live t2 k := by
      refine (L2 k).2 ⟨hk1, ?_⟩
      rintro ⟨_, h2⟩
      rw [i1, hp.1] at h2
      simp only [probedInfo, getTimeout] at h2
      omega
    have i2 := (I2 k hk2).trans i1
    have hk3 : Live t3 k := by
      refine (L3 k).2 ⟨hk2, ?_⟩
      rintro ⟨h1, _⟩
      rw [i2] at h1; simp [probedInfo] at h1
    exact ⟨(hrl k).2 hk3, by rw [hri, I3 k hk3, i2]⟩
  · intro k hk hx hp hk'
    have hk3 := (hrl k).1 hk'
    have hk2 := ((L3 k).1 hk3).1
    have hk1 := ((L2 k).1 hk2).1
    have n3 := ((L3 k).1 hk3).2
    have n2 := ((L2 k).1 hk2).2
    have n1 := ((c1.1 k).1 hk1).2
    have hx' := (ex t k).1 hx
    by_cases hτ : (t.info k).expirer = .EST
    · rw [hτ] at hx' hp; exact n1 ⟨hx', hp⟩
    · have i1 : t1.info k = t.info k := by
        rw [c1.2 k hk1, if_neg (fun hc => hτ hc.1)]
      cases hτ' : (t.info k).expirer with
      | EST => exact hτ hτ'
      | TRANS => rw [hτ', ← ExpC _ i1] at hx'; exact n2 hx'
      | SYN4 => rw [hτ', ← ExpC _ ((I2 k hk2).trans i1)] at hx'; exact n3 hx'

/-- C23, second half. After a sweep no expired session remains: all of them were removed, except that an
established TCP connection whose established timer expired was moved to the transitory timer (and is
probed, see `sweep_notifies_partial`).

Missing from the full statement: arbitrary synchronization messages; `sweep_misses` shows that they
let expired sessions survive a sweep. -/
theorem sweep_complete_partial {p hist t ev} (h : After p hist t ev) (hc : Clock 0 hist)
    (hp : Punctual hist) (e : Env) (hn : lastTime 0 hist ≤ e.now)
    (r : Table × List Event × Result) (hr : step p t e .clean = .ok r) :
    (∀ k ∈ sessions r.1, k ∈ sessions t ∧ ¬ Expired e p (r.1.info k)) ∧
    (∀ k ∈ sessions t, Expired e p (t.info k) →
      if p = .TCP ∧ (t.info k).expirer = .EST ∧ (t.info k).state = .ESTABLISHED then
        0 < e.cfg.ttlTcpTrans →
          k ∈ sessions r.1 ∧ r.1.info k = ⟨(t.info k).dst6, .TRANS, e.now, .TRANS, none⟩
      else k ∉ sessions r.1) := by
  obtain ⟨w, s⟩ := run_sorted hist 0 init t ev WF_init (Srt_init 0) h.1 hc hp h.2
  obtain ⟨a, b, c, d⟩ := clean_exact w (s.mono hn) hr
  constructor
  · intro k hk
    rw [mem_sessions] at hk ⊢
    exact ⟨a k hk, b k hk⟩
  · intro k hk hx
    rw [mem_sessions] at hk
    split
    · rename_i hpr
      intro htr
      rw [mem_sessions]
      exact c k hk hx hpr htr
    · rename_i hpr
      rw [mem_sessions]
      exact d k hk hx hpr

/-- What the expiration of session `k` emits: the stored packet is answered with an ICMP error, an
established connection is probed. (If there is no memory for the notification, it is skipped.) -/
def notice (e : Env) (p : Proto) (k : SessKey) (i : SessInfo) : List Event :=
  match i.stored with
  | some s => if e.oom.probe then [.freed s] else [.icmpErr s]
  | none => if Probed p i.expirer i ∧ e.oom.probe = false then [.probe k] else []

theorem expire_events {e p τ t k} (hτ : (t.info k).expirer = τ) :
    (decideFate e true (expireCb e.now p τ) t k).ev = notice e p k (t.info k) := by
  have hst : (ctlOf t k).state = (t.info k).state := rfl
  have key : (Probed p τ (t.info k) ∧ expireCb e.now p τ (ctlOf t k) =
      ({ ctlOf t k with state := .TRANS, updateTime := e.now }, .PROBE)) ∨
      (¬ Probed p τ (t.info k) ∧ expireCb e.now p τ (ctlOf t k) = (ctlOf t k, .RM)) := by
    by_cases hp : Probed p τ (t.info k)
    · left
      refine ⟨hp, ?_⟩
      obtain ⟨rfl, h2, hs⟩ := hp
      rw [h2]
      simp only [expireCb, TcpSM.estExpireCb, hst, hs]
    · right
      refine ⟨hp, ?_⟩
      unfold expireCb
      split
      · unfold TcpSM.estExpireCb
        rw [hst]
        cases hs : (t.info k).state <;> simp
        exact hp ⟨rfl, rfl, hs⟩
      · rfl
  rw [← hτ] at key ⊢
  unfold decideFate notice
  rcases key with ⟨hp, hc⟩ | ⟨hp, hc⟩
  · rw [hc]
    cases hs : (t.info k).stored with
    | none => cases ho : e.oom.probe <;>
        simp [ctlOf, hs, killStored, setInfo, upd_same, handleProbe, ho, hp]
    | some x => cases ho : e.oom.probe <;>
        simp [ctlOf, hs, killStored, setInfo, upd_same, handleProbe, ho]
  · rw [hc]
    cases hs : (t.info k).stored with
    | none => simp [ctlOf, hs, killStored, setInfo, upd_same, rmSess, hp]
    | some x => cases ho : e.oom.probe <;>
        simp [ctlOf, hs, killStored, setInfo, upd_same, rmSess, handleProbe, ho]

theorem cleanLoop_events {e p τ} : ∀ (ks : List SessKey) (t : Table), WF t → ks.Nodup →
    (∀ k ∈ ks, Live t k ∧ (t.info k).expirer = τ) →
    ks.Pairwise (fun a b => (t.info a).updateTime ≤ (t.info b).updateTime) →
    ∀ k ∈ ks, Exp e p τ t k → ∀ x ∈ notice e p k (t.info k), x ∈ (cleanLoop e p τ t ks).2 := by
  intro ks
  induction ks with
  | nil => intro t _ _ _ _ k hk; simp at hk
  | cons k ks ih =>
    intro t h hn hl hs k' hk' hx x hxe
    rw [List.nodup_cons] at hn
    have hsx := List.pairwise_cons.1 hs
    have hk := hl k (by simp)
    unfold cleanLoop
    have hnt : ¬ e.now < (t.info k).updateTime + getTimeout e.cfg p τ := by
      have := hx.2
      rcases List.mem_cons.1 hk' with rfl | hk''
      · omega
      · have := hsx.1 k' hk''; omega
    simp only [hnt, if_false, List.mem_append]
    have d := decideFate_ok (e := e) (probes := true) (cb := expireCb e.now p τ) h hk.1
    have ev := expire_events (e := e) (p := p) hk.2
    rcases List.mem_cons.1 hk' with rfl | hk''
    · left; rw [ev]; exact hxe
    · right
      have hne : ∀ k1 ∈ ks, k1 ≠ k := by intro k1 hk1 he; exact hn.1 (he ▸ hk1)
      have ef := expire_effect (e := e) (p := p) (τ := τ) h hk.1
      simp only at ef
      refine ih _ d.good.wf hn.2 ?_ ?_ k' hk'' ?_ x ?_
      · intro k1 hk1
        have := hl k1 (by simp [hk1])
        rw [d.others k1 (hne k1 hk1)]
        refine ⟨?_, this.2⟩
        by_cases hp : Probed p τ (t.info k)
        · exact ((ef.1 hp).1 k1).2 this.1
        · exact (ef.2 hp k1).2 ⟨this.1, hne k1 hk1⟩
      · refine List.Pairwise.imp_of_mem ?_ hsx.2
        intro a b ha hb hab
        rw [d.others a (hne a ha), d.others b (hne b hb)]; exact hab
      · unfold Exp; rw [d.others k' (hne k' hk'')]; exact hx
      · rw [d.others k' (hne k' hk'')]; exact hxe

theorem cleanLoop_queue {e p τ} : ∀ (ks : List SessKey) (t : Table), WF t → ks.Nodup →
    (∀ k ∈ ks, Live t k ∧ (t.info k).expirer = τ) → (cleanLoop e p τ t ks).1.queue = t.queue := by
  intro ks
  induction ks with
  | nil => intro t _ _ _; rfl
  | cons k ks ih =>
    intro t h hn hl
    rw [List.nodup_cons] at hn
    have hk := hl k (by simp)
    unfold cleanLoop
    split
    · rfl
    · have d := decideFate_ok (e := e) (probes := true) (cb := expireCb e.now p τ) h hk.1
      have ef := expire_effect (e := e) (p := p) (τ := τ) h hk.1
      simp only at ef
      refine (ih _ d.good.wf hn.2 ?_).trans d.queue
      intro k1 hk1
      have hne : k1 ≠ k := by rintro rfl; exact hn.1 hk1
      have := hl k1 (by simp [hk1])
      rw [d.others k1 hne]
      refine ⟨?_, this.2⟩
      by_cases hp : Probed p τ (t.info k)
      · exact ((ef.1 hp).1 k1).2 this.1
      · exact (ef.2 hp k1).2 ⟨this.1, hne⟩

theorem queueClean_exact (e : Env) (q : List QNode)
    (hs : q.Pairwise (fun a b => a.updateTime ≤ b.updateTime)) :
    (queueClean e q).1 = q.filter (fun n => decide (n.updateTime + e.cfg.ttlSyn4 ≤ e.now)) ∧
    (queueClean e q).2 = q.filter (fun n => !decide (n.updateTime + e.cfg.ttlSyn4 ≤ e.now)) := by
  induction q with
  | nil => exact ⟨rfl, rfl⟩
  | cons n ns ih =>
    have hx := List.pairwise_cons.1 hs
    unfold queueClean
    split
    · rename_i hlt
      have : ∀ m ∈ n :: ns, ¬ (m.updateTime + e.cfg.ttlSyn4 ≤ e.now) := by
        intro m hm
        rcases List.mem_cons.1 hm with rfl | hm
        · omega
        · have := hx.1 m hm; omega
      constructor
      · symm; rw [List.filter_eq_nil_iff]; intro m hm; simpa using this m hm
      · symm; rw [List.filter_eq_self]; intro m hm; simpa using this m hm
    · rename_i hlt
      obtain ⟨i1, i2⟩ := ih hx.2
      have : n.updateTime + e.cfg.ttlSyn4 ≤ e.now := by omega
      simp only [List.filter_cons, this, decide_true, if_true, Bool.not_true, Bool.false_eq_true, if_false]
      exact ⟨by rw [i1], i2⟩

/-- C23 and C26, notifications: a sweep answers every expired stored packet with an ICMP error and
probes every expired established connection (unless memory is exhausted); the stored packets that are not
attached to a session leave the queue iff they have been kept for the SYN timeout. -/
theorem sweep_notifies_partial {p hist t ev} (h : After p hist t ev) (hc : Clock 0 hist)
    (hp : Punctual hist) (e : Env) (hn : lastTime 0 hist ≤ e.now) (ho : e.oom.probe = false)
    (r : Table × List Event × Result) (hr : step p t e .clean = .ok r) :
    (∀ k ∈ sessions t, Expired e p (t.info k) →
      (∀ s, (t.info k).stored = some s → Event.icmpErr s ∈ r.2.1) ∧
      ((t.info k).stored = none → p = .TCP → (t.info k).expirer = .EST →
        (t.info k).state = .ESTABLISHED → Event.probe k ∈ r.2.1)) ∧
    (p = .TCP → r.1.queue = t.queue.filter (fun n => !decide (n.updateTime + e.cfg.ttlSyn4 ≤ e.now)) ∧
      ∀ n ∈ t.queue, n.updateTime + e.cfg.ttlSyn4 ≤ e.now → Event.icmpErr n.skb ∈ r.2.1) := by
  obtain ⟨w, s⟩ := run_sorted hist 0 init t ev WF_init (Srt_init 0) h.1 hc hp h.2
  have s := s.mono hn
  have c1 := cleanList_exact (p := p) (τ := .EST) w s
  have ch1 := cleanList_chain (p := p) (e := e) (τ := .EST) w
  have w1 := ch1.wf w
  have s1 := Srt.chain (op := .clean) w s trivial ch1
  have c2 := cleanList_exact (p := p) (τ := .TRANS) w1 s1
  have ch2 := cleanList_chain (p := p) (e := e) (τ := .TRANS) w1
  have w2 := ch2.wf w1
  have s2 := Srt.chain (op := .clean) w1 s1 trivial ch2
  have e1 := cleanLoop_events (e := e) (p := p) (τ := .EST) (t.lists .EST) t w (w.nd .EST)
    (fun k hk => (w.lk .EST k).1 hk) (s.srt .EST)
  have e2 := cleanLoop_events (e := e) (p := p) (τ := .TRANS) _ _ w1 (w1.nd .TRANS)
    (fun k hk => (w1.lk .TRANS k).1 hk) (s1.srt .TRANS)
  have e3 := cleanLoop_events (e := e) (p := p) (τ := .SYN4) _ _ w2 (w2.nd .SYN4)
    (fun k hk => (w2.lk .SYN4 k).1 hk) (s2.srt .SYN4)
  have q1 : (cleanList e p .EST t).1.queue = t.queue := cleanLoop_queue _ t w (w.nd .EST)
    (fun k hk => (w.lk .EST k).1 hk)
  have q2 : (cleanList e p .TRANS (cleanList e p .EST t).1).1.queue = t.queue :=
    (cleanLoop_queue _ _ w1 (w1.nd .TRANS) (fun k hk => (w1.lk .TRANS k).1 hk)).trans q1
  have q3 : (cleanList e p .SYN4 (cleanList e p .TRANS (cleanList e p .EST t).1).1).1.queue = t.queue :=
    (cleanLoop_queue _ _ w2 (w2.nd .SYN4) (fun k hk => (w2.lk .SYN4 k).1 hk)).trans q2
  have hev : (∀ x, x ∈ (cleanList e p .EST t).2 ++ (cleanList e p .TRANS (cleanList e p .EST t).1).2 ++
      (cleanList e p .SYN4 (cleanList e p .TRANS (cleanList e p .EST t).1).1).2 → x ∈ r.2.1) ∧
      (p = .TCP → r.1.queue = (queueClean e t.queue).2 ∧
        ∀ n ∈ (queueClean e t.queue).1, Event.icmpErr n.skb ∈ r.2.1) := by
    simp only [step, clean] at hr
    split at hr
    · cases hr
      refine ⟨fun x hx => List.mem_append_left _ hx, fun _ => ⟨by rw [q3], ?_⟩⟩
      intro n hn
      refine List.mem_append_right _ (List.mem_map.2 ⟨n, by rw [q3]; exact hn, rfl⟩)
    · rename_i hne
      cases hr
      exact ⟨fun x hx => hx, fun hp => absurd hp hne⟩
  obtain ⟨hev, hqe⟩ := hev
  have N : ∀ k ∈ sessions t, Expired e p (t.info k) → ∀ x ∈ notice e p k (t.info k), x ∈ r.2.1 := by
    intro k hk hx x hxe
    rw [mem_sessions] at hk
    apply hev
    simp only [List.mem_append]
    have hx' : Exp e p (t.info k).expirer t k := ⟨rfl, by rw [timeout_eq]; exact hx⟩
    by_cases hτ : (t.info k).expirer = .EST
    · left; left
      rw [hτ] at hx'
      exact e1 k ((w.lk .EST k).2 ⟨hk, hτ⟩) hx' x hxe
    · have hl1 : Live (cleanList e p .EST t).1 k := (c1.1 k).2 ⟨hk, fun hc => hτ hc.1.1⟩
      have i1 : (cleanList e p .EST t).1.info k = t.info k := by
        rw [c1.2 k hl1, if_neg (fun hc => hτ hc.1)]
      by_cases hτ2 : (t.info k).expirer = .TRANS
      · left; right
        rw [hτ2] at hx'
        refine e2 k ((w1.lk .TRANS k).2 ⟨hl1, by rw [i1]; exact hτ2⟩) ?_ x (by rw [i1]; exact hxe)
        unfold Exp; rw [i1]; exact hx'
      · right
        have hτ3 : (t.info k).expirer = .SYN4 := by
          cases hh : (t.info k).expirer <;> simp_all
        have hl2 : Live (cleanList e p .TRANS (cleanList e p .EST t).1).1 k := by
          refine (c2.1 k).2 ⟨hl1, fun hc => hτ2 ?_⟩
          rw [← i1]; exact hc.1.1
        have i2 : (cleanList e p .TRANS (cleanList e p .EST t).1).1.info k = t.info k := by
          rw [c2.2 k hl2, if_neg (fun hc => hτ2 (by rw [← i1]; exact hc.1))]; exact i1
        rw [hτ3] at hx'
        refine e3 k ((w2.lk .SYN4 k).2 ⟨hl2, by rw [i2]; exact hτ3⟩) ?_ x (by rw [i2]; exact hxe)
        unfold Exp; rw [i2]; exact hx'
  constructor
  · intro k hk hx
    have n := N k hk hx
    constructor
    · intro s hs; exact n _ (by simp [notice, hs, ho])
    · intro hs hp1 hp2 hp3
      exact n _ (by simp [notice, hs, ho, Probed, hp1, hp2, hp3])
  · intro hpt
    obtain ⟨a, b⟩ := hqe hpt
    obtain ⟨q1, q2⟩ := queueClean_exact e t.queue s.qs
    refine ⟨a.trans q2, ?_⟩
    intro n hn hle
    refine b n ?_
    rw [q1, List.mem_filter]
    exact ⟨hn, by simpa using hle⟩

/-! ### Examples and the witness -/

/-- A UDP session at time 1000; at time 301000 it has expired. -/
def exUdp : Op := .add6 ⟨[(exB.src4, false)], false, fun _ => true⟩ exB.src6 ⟨1#128, 53#16⟩ ⟨1#32, 53#16⟩
def exUdp2 : Op := .add6 ⟨[(⟨0xc0000201#32, 201#16⟩, false)], false, fun _ => true⟩ ⟨0x20010db8#128, 101#16⟩
  ⟨1#128, 53#16⟩ ⟨1#32, 53#16⟩
def exAt (n : Nat) : Env := { exEnv with now := n }

/-- The hypotheses of the theorems above are satisfiable by a history with an expired session next to one
that is not. -/
example : ∃ t ev, After .UDP [(exAt 1000, exUdp), (exAt 2000, exUdp2)] t ev ∧
    Clock 0 [(exAt 1000, exUdp), (exAt 2000, exUdp2)] ∧
    Punctual [(exAt 1000, exUdp), (exAt 2000, exUdp2)] ∧ (sessions t).length = 2 ∧
    (sessions (exStep (step .UDP t (exAt 301000) .clean)).1) =
      [⟨⟨⟨0x20010db8#128, 101#16⟩, ⟨0xc0000201#32, 201#16⟩⟩, ⟨1#32, 53#16⟩⟩] := by
  refine ⟨(exOut (run .UDP init [(exAt 1000, exUdp), (exAt 2000, exUdp2)])).1,
    (exOut (run .UDP init [(exAt 1000, exUdp), (exAt 2000, exUdp2)])).2,
    ⟨?_, exOut_ok (by decide +kernel)⟩, ⟨by decide, by decide, trivial⟩, ?_, by decide +kernel,
    by decide +kernel⟩
  · intro x hx; simp at hx; rcases hx with rfl | rfl <;> exact ⟨by simp, trivial⟩
  · intro x hx s hs; simp at hx; rcases hx with rfl | rfl <;> cases hs

/-- A peer whose UDP timeout is longer announces a session that dies 400 seconds from now, so here it
looks as if it had been updated in the future. -/
def exFuture : Op := .joold ⟨exB.src6, ⟨1#128, 53#16⟩, exB.src4, ⟨1#32, 53#16⟩, .ESTABLISHED, some .EST, 101000⟩

/-- The full versions of C22 and C23 fail: after that message, a session created by a packet comes later
in the list though it is older; a sweep at a time when it has been expired for long does not see it. -/
theorem sweep_misses : ∃ t ev k, After .UDP [(exAt 1000, exFuture), (exAt 1000, exUdp2)] t ev ∧
    Clock 0 [(exAt 1000, exFuture), (exAt 1000, exUdp2)] ∧ k ∈ sessions t ∧
    ¬ (t.lists .EST).Pairwise (fun a b => (t.info a).updateTime ≤ (t.info b).updateTime) ∧
    ∃ r, step .UDP t (exAt 400000) .clean = .ok r ∧ Expired (exAt 400000) .UDP (t.info k) ∧
      k ∈ sessions r.1 ∧ r.1.info k = t.info k := by
  refine ⟨(exOut (run .UDP init [(exAt 1000, exFuture), (exAt 1000, exUdp2)])).1,
    (exOut (run .UDP init [(exAt 1000, exFuture), (exAt 1000, exUdp2)])).2,
    ⟨⟨⟨0x20010db8#128, 101#16⟩, ⟨0xc0000201#32, 201#16⟩⟩, ⟨1#32, 53#16⟩⟩,
    ⟨?_, exOut_ok (by decide +kernel)⟩, ⟨by decide, by decide, trivial⟩, by decide +kernel,
    by decide +kernel, 
    exStep (step .UDP (exOut (run .UDP init [(exAt 1000, exFuture), (exAt 1000, exUdp2)])).1 (exAt 400000) .clean),
    rfl, ?_, by decide +kernel, by decide +kernel⟩
  · intro x hx; simp at hx; rcases hx with rfl | rfl
    · trivial
    · exact ⟨by simp, trivial⟩
  · unfold Expired; decide +kernel

/-! ## C25 -/

/-- State and timer agree. -/
def Agree (i : SessInfo) : Prop :=
  i.state ≠ .unknown ∧ (i.expirer = .EST → EstState i.state) ∧ (i.expirer = .SYN4 → i.state = .V4_INIT)

theorem Fresh.agree {st sto τ} (h : Fresh .TCP st sto τ) (d6 now) : Agree ⟨d6, st, now, τ, sto⟩ := by
  rcases h with ⟨h, _⟩ | ⟨_, rfl, rfl, _⟩ | ⟨_, rfl, rfl⟩ | ⟨_, rfl, rfl, _⟩
  · exact absurd rfl h
  all_goals simp [Agree]

theorem Agree.fate {e op t k cb} (hcb : Cb .TCP e op t k cb) (ha : Agree (t.info k))
    (hop : ∀ s, op = .joold s → Compatible s) (hrm : (cb (ctlOf t k)).2 ≠ .RM) :
    Agree (fateInfo e.now (t.info k) (cb (ctlOf t k))) := by
  cases hcb with
  | tcp seg hp' ho =>
    simp only [ctlOf] at hrm ⊢
    revert ha hrm
    generalize t.info k = i
    obtain ⟨l3, syn, fin, rst⟩ := seg
    obtain ⟨d6, st, ut, τ, sto⟩ := i
    intro ha hrm
    obtain ⟨h0, h1, h2⟩ := ha
    simp only [EstState] at h0 h1 h2 hrm ⊢
    cases st <;> simp only [TcpSM.stateMachine, TcpSM.establishedState, TcpSM.v4InitState,
      TcpSM.v6InitState, TcpSM.v4FinRcvState, TcpSM.v6FinRcvState, TcpSM.transState] at hrm ⊢ <;>
      (repeat' split) <;> simp_all [Agree, fateInfo, fateTau, EstState]
  | joold s ho =>
    have hs := hop s ho
    simp only [jooldCb]
    split
    · obtain ⟨a, b, c, d⟩ := hs
      cases hτ : s.timer with
      | none => exact absurd hτ b
      | some τ =>
        rw [hτ] at c d
        simp only [Agree, fateInfo, fateTau, Option.getD_some]
        exact ⟨a, fun h => c (by rw [h]), fun h => d (by rw [h])⟩
    · simpa [Agree, fateInfo, fateTau, ctlOf] using ha
  | expire τ ho hτ ht =>
    cases τ with
    | EST =>
      simp only [expireCb, TcpSM.estExpireCb] at hrm ⊢
      cases hs : (ctlOf t k).state <;> simp only [hs] at hrm ⊢ <;> simp_all [Agree, fateInfo, fateTau]
    | TRANS => exact absurd rfl hrm
    | SYN4 => exact absurd rfl hrm

theorem Agree.atom {e op t t'} (hw : WF t) (h : ∀ k, Live t k → Agree (t.info k))
    (hop : ∀ s, op = .joold s → Compatible s) (a : Atom .TCP e op t t') :
    ∀ k, Live t' k → Agree (t'.info k) := by
  cases a with
  | queue => exact h
  | setStatic => exact h
  | fate probes cb k hk hcb _ =>
    have d := decideFate_ok (e := e) (probes := probes) (cb := cb) hw hk
    have f := decideFate_eff (e := e) (probes := probes) (cb := cb) (t := t) (k := k)
    intro k' hk'
    by_cases hrm : (cb (ctlOf t k)).2 = .RM
    · have g := (d.gone (by rw [f.removed]; simp [hrm]) k').1 hk'
      rw [d.others k' g.2]; exact h k' g.1
    · have g := (d.kept (by rw [f.removed]; simp [hrm]) k').1 hk'
      by_cases hkk : k' = k
      · subst hkk
        rw [f.info hrm]
        exact Agree.fate hcb (h k' g) hop hrm
      · rw [d.others k' hkk]; exact h k' g
  | touch k hk hp _ _ => exact absurd rfl hp
  | addBib b st h6 h4 ho =>
    intro k hk
    exact h k ((Live_addBib h4 st k).1 hk)
  | addSess k d6 st sto τ hb hn hf _ _ =>
    intro k' hk'
    rw [Live_addSess hb] at hk'
    by_cases hkk : k' = k
    · subst hkk
      simp only [addSess, setInfo, upd_same]
      exact hf.agree _ _
    · simp only [addSess, setInfo, upd_ne _ _ hkk]
      exact h k' (hk'.resolve_left hkk)
  | addSlow k s τ hb hn ho hτ _ =>
    intro k' hk'
    rw [Live_addSessSlow hb] at hk'
    by_cases hkk : k' = k
    · subst hkk
      simp only [addSessSlow, setInfo, upd_same]
      obtain ⟨a, b, c, d⟩ := hop s ho
      rw [hτ] at c d
      exact ⟨a, fun h => c (by rw [← h]), fun h => d (by rw [← h])⟩
    · simp only [addSessSlow, setInfo, upd_ne _ _ hkk]
      exact h k' (hk'.resolve_left hkk)
  | detach b hb ho =>
    intro k hk
    rw [(detachBib_eq t b).inf]
    exact h k ((Live_detachBib hw b k).1 hk).1

/-- C25: after any history (of packets in any order, timer sweeps at any time, administrator's
requests, and synchronization messages whose state and timer are compatible), a TCP session on the established
timer is ESTABLISHED, V4 FIN RCV or V6 FIN RCV; one on the SYN timer is V4 INIT; and no session
has an inexistent state. -/
theorem tcp_timer_state_agree {hist t ev} (h : After .TCP hist t ev)
    (hj : ∀ x ∈ hist, ∀ s, x.2 = .joold s → Compatible s) (k : SessKey) (hk : k ∈ sessions t) :
    (t.info k).state ≠ .unknown ∧ ((t.info k).expirer = .EST → EstState (t.info k).state) ∧
    ((t.info k).expirer = .SYN4 → (t.info k).state = .V4_INIT) := by
  rw [mem_sessions] at hk
  refine (run_induct (p := .TCP) (I := fun t => ∀ k, Live t k → Agree (t.info k))
    (E := fun x => x.2.Ok ∧ ∀ s, x.2 = .joold s → Compatible s) (fun _ h => h.1)
    ?_ hist init t ev WF_init (by intro k hk; exact absurd hk.1 (by simp [init]))
    (fun x hx => ⟨h.1 x hx, hj x hx⟩) h.2).2 k hk
  intro t x r w i he hr
  exact Chain.induct (I := fun t => ∀ k, Live t k → Agree (t.info k)) w (step_chain w he.1 hr)
    (fun _ _ w1 i1 a => Agree.atom w1 i1 he.2 a) i

/-- Consequence: when the sweep handles an expired established timer, the callback's "should not
happen" branches are not taken. -/
theorem est_expiration_no_warning {hist t ev} (h : After .TCP hist t ev)
    (hj : ∀ x ∈ hist, ∀ s, x.2 = .joold s → Compatible s) (k : SessKey) (hk : k ∈ sessions t)
    (hx : (t.info k).expirer = .EST) (now : Nat) :
    (TcpSM.estExpireCb now (ctlOf t k)).2 = .PROBE ∧ (t.info k).state = .ESTABLISHED ∨
    (TcpSM.estExpireCb now (ctlOf t k)).2 = .RM ∧
      ((t.info k).state = .V4_FIN_RCV ∨ (t.info k).state = .V6_FIN_RCV) := by
  have := (tcp_timer_state_agree h hj k hk).2.1 hx
  have hc : (ctlOf t k).state = (t.info k).state := rfl
  rcases this with h | h | h <;> simp [TcpSM.estExpireCb, hc, h]

/-- A handshake, then the IPv4 side's FIN: V4 FIN RCV on the established timer. -/
def exTcp6 : Op := .tcp6 ⟨[(exB.src4, false)], false, fun _ => true⟩ ⟨.V6, true, false, false⟩ exB.src6
  ⟨1#128, 80#16⟩ ⟨1#32, 80#16⟩
def exTcp4 (seg : Seg) : Op := .tcp4 seg exB.src4 ⟨1#32, 80#16⟩ ⟨1#128, 80#16⟩ 7

example : ∃ t ev, After .TCP [(exAt 1, exTcp6), (exAt 2, exTcp4 ⟨.V4, true, false, false⟩),
      (exAt 3, exTcp4 ⟨.V4, false, true, false⟩)] t ev ∧
    sessions t = [⟨exB, ⟨1#32, 80#16⟩⟩] ∧
    t.info ⟨exB, ⟨1#32, 80#16⟩⟩ = ⟨⟨1#128, 80#16⟩, .V4_FIN_RCV, 2, .EST, none⟩ := by
  refine ⟨(exOut (run .TCP init [(exAt 1, exTcp6), (exAt 2, exTcp4 ⟨.V4, true, false, false⟩),
      (exAt 3, exTcp4 ⟨.V4, false, true, false⟩)])).1, _,
    ⟨?_, exOut_ok (by decide +kernel)⟩, by decide +kernel, by decide +kernel⟩
  intro x hx; simp at hx; rcases hx with rfl | rfl | rfl
  · exact ⟨by simp, trivial⟩
  · trivial
  · trivial

end Bib
end Jool
