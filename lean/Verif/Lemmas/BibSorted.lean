import Verif.Lemmas.BibFate
/-
The expiration lists and the packet queue stay sorted by age.
-/
namespace Jool.Bib

/-- What a synchronization message must satisfy for the lists to stay sorted: its session was not
updated in the future, and its timer exists. -/
def Op.Punctual (e : Env) : Op → Prop
  | .joold s => s.updateTime ≤ e.now ∧ s.timer ≠ none
  | _ => True

structure Srt (t : Table) (n : Nat) : Prop where
  srt : ∀ τ, (t.lists τ).Pairwise (fun a b => (t.info a).updateTime ≤ (t.info b).updateTime)
  le : ∀ τ, ∀ k ∈ t.lists τ, (t.info k).updateTime ≤ n
  qs : t.queue.Pairwise (fun a b => a.updateTime ≤ b.updateTime)
  ql : ∀ q ∈ t.queue, q.updateTime ≤ n

theorem Srt_init (n : Nat) : Srt init n := by
  constructor <;> simp [init]

theorem Srt.mono {t : Table} {n m : Nat} (h : Srt t n) (hm : n ≤ m) : Srt t m :=
  ⟨h.srt, fun τ k hk => Nat.le_trans (h.le τ k hk) hm, h.qs, fun q hq => Nat.le_trans (h.ql q hq) hm⟩

theorem slowInsert_sorted (ut : SessKey → Nat) (k : SessKey) (l : List SessKey)
    (h : l.Pairwise (fun a b => ut a ≤ ut b)) :
    (slowInsert ut k l).Pairwise (fun a b => ut a ≤ ut b) := by
  induction l with
  | nil => simp [slowInsert]
  | cons x xs ih =>
    have hx := List.pairwise_cons.1 h
    unfold slowInsert
    split
    · rename_i ha
      rw [List.any_eq_true] at ha
      obtain ⟨y, hy, hlt⟩ := ha
      have hlt : ut y < ut k := by simpa using hlt
      rw [List.pairwise_cons]
      refine ⟨?_, ih hx.2⟩
      intro z hz
      rcases List.mem_cons.1 ((slowInsert_perm ut k xs).mem_iff.1 hz) with rfl | hz
      · rcases List.mem_cons.1 hy with rfl | hy
        · omega
        · have := hx.1 y hy; omega
      · exact hx.1 z hz
    · rename_i ha
      rw [List.pairwise_cons]
      refine ⟨?_, h⟩
      intro z hz
      have : ¬ ut z < ut k := by
        intro hlt; apply ha; rw [List.any_eq_true]; exact ⟨z, hz, by simpa using hlt⟩
      omega

/-- Moving one session: the others keep their timestamps and their relative order. -/
theorem Srt.move {t t' : Table} {n : Nat} (h : Srt t n) (k : SessKey)
    (hi : ∀ k', k' ≠ k → t'.info k' = t.info k') (hq : t'.queue = t.queue)
    (hl : ∀ τ, (t'.lists τ).Sublist ((t.lists τ).erase k) ∨
      (t'.lists τ = (t.lists τ).erase k ++ [k] ∧ (t'.info k).updateTime = n) ∨
      (t'.lists τ = slowInsert (fun x => (t'.info x).updateTime) k ((t.lists τ).erase k) ∧
        (t'.info k).updateTime ≤ n))
    (hn : ∀ τ, (t.lists τ).Nodup) : Srt t' n := by
  have ne : ∀ τ x, x ∈ (t.lists τ).erase k → x ≠ k ∧ x ∈ t.lists τ := fun τ x hx =>
    (List.Nodup.mem_erase_iff (hn τ)).1 hx
  have se : ∀ τ, ((t.lists τ).erase k).Pairwise
      (fun a b => (t'.info a).updateTime ≤ (t'.info b).updateTime) := by
    intro τ
    refine List.Pairwise.imp_of_mem ?_ ((h.srt τ).sublist List.erase_sublist)
    intro a b ha hb hab
    rw [hi a (ne τ a ha).1, hi b (ne τ b hb).1]; exact hab
  have le : ∀ τ x, x ∈ (t.lists τ).erase k → (t'.info x).updateTime ≤ n := by
    intro τ x hx
    rw [hi x (ne τ x hx).1]; exact h.le τ x (ne τ x hx).2
  refine ⟨?_, ?_, by rw [hq]; exact h.qs, by rw [hq]; exact h.ql⟩
  · intro τ
    rcases hl τ with hs | ⟨hs, hu⟩ | ⟨hs, hu⟩
    · exact (se τ).sublist hs
    · rw [hs, List.pairwise_append]
      refine ⟨se τ, by simp, ?_⟩
      intro a ha b hb
      have : b = k := by simpa using hb
      subst this
      rw [hu]; exact le τ a ha
    · rw [hs]; exact slowInsert_sorted _ _ _ (se τ)
  · intro τ x hx
    rcases hl τ with hs | ⟨hs, hu⟩ | ⟨hs, hu⟩
    · exact le τ x (hs.subset hx)
    · rw [hs, List.mem_append] at hx
      rcases hx with hx | hx
      · exact le τ x hx
      · have : x = k := by simpa using hx
        subst this; omega
    · rw [hs] at hx
      rcases List.mem_cons.1 ((slowInsert_perm _ _ _).mem_iff.1 hx) with rfl | hx
      · exact hu
      · exact le τ x hx

theorem Srt.same {t t' : Table} {n : Nat} (h : Srt t n) (hl : ∀ τ, (t'.lists τ).Sublist (t.lists τ))
    (hi : ∀ k, (t'.info k).updateTime = (t.info k).updateTime) (hq : t'.queue.Sublist t.queue) :
    Srt t' n := by
  refine ⟨fun τ => ?_, fun τ k hk => ?_, h.qs.sublist hq, fun q hq' => h.ql q (hq.subset hq')⟩
  · refine List.Pairwise.imp ?_ ((h.srt τ).sublist (hl τ))
    intro a b hab; rw [hi, hi]; exact hab
  · rw [hi]; exact h.le τ k ((hl τ).subset hk)

/-- The callbacks either renew, remove, leave alone, or move to a timestamp in the past. -/
theorem Cb.fate {p e op t k cb} (hcb : Cb p e op t k cb) (hp : op.Punctual e) :
    let r := cb (ctlOf t k)
    (r.2 = .TIMER_EST ∨ r.2 = .TIMER_TRANS ∨ r.2 = .PROBE ∨ r.2 = .RM) ∨
    ((r.2 = .PRESERVE ∨ r.2 = .DROP) ∧ r.1.updateTime = (t.info k).updateTime) ∨
    (r.2 = .TIMER_SLOW ∧ r.1.updateTime ≤ e.now ∧ ∃ τ, r.1.timer = some τ) := by
  cases hcb with
  | tcp seg hp' ho =>
    have hc : (ctlOf t k).updateTime = (t.info k).updateTime := rfl
    revert hc
    generalize ctlOf t k = s
    obtain ⟨l3, syn, fin, rst⟩ := seg
    obtain ⟨st, tm, ut, stored⟩ := s
    intro hc
    simp only at hc
    subst hc
    cases st <;> simp only [TcpSM.stateMachine, TcpSM.establishedState, TcpSM.v4InitState,
      TcpSM.v6InitState, TcpSM.v4FinRcvState, TcpSM.v6FinRcvState, TcpSM.transState] <;>
      (repeat' split) <;> simp
  | joold s ho =>
    subst ho
    simp only [Op.Punctual] at hp
    simp only [jooldCb]
    split
    · right; right
      refine ⟨rfl, hp.1, ?_⟩
      cases hτ : s.timer with
      | none => exact absurd hτ hp.2
      | some τ => exact ⟨τ, rfl⟩
    · right; left; exact ⟨.inl rfl, rfl⟩
  | expire τ ho hτ ht =>
    left
    unfold expireCb
    split
    · unfold TcpSM.estExpireCb; split <;> simp
    · simp [TcpSM.justDie]

theorem Srt.atom {p e op t t'} (hw : WF t) (h : Srt t e.now) (hp : op.Punctual e)
    (a : Atom p e op t t') : Srt t' e.now := by
  cases a with
  | queue q c hq =>
    refine ⟨h.srt, h.le, ?_, ?_⟩
    · rcases hq with hq | ⟨n, hq, hn, _⟩
      · exact h.qs.sublist hq
      · simp only [hq, List.pairwise_append]
        refine ⟨h.qs, by simp, ?_⟩
        intro a ha b hb
        have : b = n := by simpa using hb
        subst this; rw [hn]; exact h.ql a ha
    · rcases hq with hq | ⟨n, hq, hn, _⟩
      · exact fun x hx => h.ql x (hq.subset hx)
      · intro x hx
        simp only [hq, List.mem_append, List.mem_singleton] at hx
        rcases hx with hx | rfl
        · exact h.ql x hx
        · omega
  | setStatic c hc ho => exact h.same (fun _ => List.Sublist.refl _) (fun _ => rfl) (List.Sublist.refl _)
  | fate probes cb k hk hcb _ =>
    have d := decideFate_ok (e := e) (probes := probes) (cb := cb) hw hk
    have f := decideFate_eff (e := e) (probes := probes) (cb := cb) (t := t) (k := k)
    have c := hcb.fate hp
    revert d f c
    generalize decideFate e probes cb t k = d
    generalize cb (ctlOf t k) = r
    intro d f c
    rcases c with c | ⟨c, hu⟩ | ⟨c, hu, τ, hτ⟩
    · refine h.move k d.others d.queue ?_ hw.nd
      intro τ
      rw [f.lists]
      rcases c with c | c | c | c
      · have i := f.info (by simp [c])
        simp only [fateLists, c]
        split
        · right; left; refine ⟨rfl, ?_⟩; rw [i]; simp [fateInfo, fateRenews, c]
        · left; exact List.Sublist.refl _
      · have i := f.info (by simp [c])
        simp only [fateLists, c]
        split
        · right; left; refine ⟨rfl, ?_⟩; rw [i]; simp [fateInfo, fateRenews, c]
        · left; exact List.Sublist.refl _
      · have i := f.info (by simp [c])
        simp only [fateLists, c]
        split
        · right; left; refine ⟨rfl, ?_⟩; rw [i]; simp [fateInfo, fateRenews, c]
        · left; exact List.Sublist.refl _
      · simp only [fateLists, c]
        left; exact List.Sublist.refl _
    · refine h.same ?_ ?_ (by rw [d.queue]; exact List.Sublist.refl _)
      · intro τ; rw [f.lists]
        rcases c with c | c <;> simp only [fateLists, c] <;> exact List.Sublist.refl _
      · intro x
        by_cases hx : x = k
        · subst hx
          rcases c with c | c <;> rw [f.info (by simp [c])] <;> simp [fateInfo, fateRenews, c, hu]
        · rw [d.others x hx]
    · refine h.move k d.others d.queue ?_ hw.nd
      intro τ'
      rw [f.lists]
      simp only [fateLists, c, hτ]
      have i := f.info (by simp [c])
      split
      · right; right
        refine ⟨?_, ?_⟩
        · apply slowInsert_congr
          intro x
          by_cases hx : x = k
          · subst hx; rw [upd_same, i]
          · rw [upd_ne _ _ hx, d.others x hx]
        · rw [i]; simp [fateInfo, fateRenews, c, hu]
      · left; exact List.Sublist.refl _
  | touch k hk _ _ _ =>
    refine h.move k ?_ rfl ?_ hw.nd
    · intro k' hne; simp [fateTimer, listDel, setInfo, upd_ne _ _ hne]
    · intro τ
      by_cases hτ : τ = .EST
      · subst hτ
        right; left
        simp [fateTimer, listDel, setInfo, upd_same]
      · left
        simp [fateTimer, listDel, setInfo, upd_ne _ _ hτ]
  | addBib b st h6 h4 ho => exact h.same (fun _ => List.Sublist.refl _) (fun _ => rfl) (List.Sublist.refl _)
  | addSess k d6 st sto τ hb hn hf _ _ =>
    have hnl : ∀ τ, k ∉ t.lists τ := fun τ hm => hn ((hw.lk τ k).1 hm).1.2
    refine h.move k ?_ rfl ?_ hw.nd
    · intro k' hne; simp [addSess, setInfo, upd_ne _ _ hne]
    · intro τ'
      rw [List.erase_of_not_mem (hnl τ')]
      by_cases hτ : τ' = τ
      · subst hτ; right; left
        simp [addSess, setInfo, upd_same]
      · left; simp [addSess, setInfo, upd_ne _ _ hτ]
  | addSlow k s τ hb hn ho hτ _ =>
    subst ho
    have hnl : ∀ τ, k ∉ t.lists τ := fun τ hm => hn ((hw.lk τ k).1 hm).1.2
    refine h.move k ?_ rfl ?_ hw.nd
    · intro k' hne; simp [addSessSlow, setInfo, upd_ne _ _ hne]
    · intro τ'
      rw [List.erase_of_not_mem (hnl τ')]
      by_cases hτ : τ' = τ
      · subst hτ; right; right
        simp only [addSessSlow, setInfo, upd_same]
        exact ⟨trivial, hp.1⟩
      · left; simp [addSessSlow, setInfo, upd_ne _ _ hτ]
  | detach b hb ho =>
    have d := detachBib_eq t b
    exact h.same d.sl (fun k => by rw [d.inf]) (by rw [d.que]; exact List.Sublist.refl _)

/-! ### What a sweep does to each session -/

/-- Expired, as far as the sweep of list `τ` is concerned. -/
def Exp (e : Env) (p : Proto) (τ : TimerType) (t : Table) (k : SessKey) : Prop :=
  (t.info k).expirer = τ ∧ (t.info k).updateTime + getTimeout e.cfg p τ ≤ e.now

/-- The expiration of this timer in this state probes instead of removing. -/
def Probed (p : Proto) (τ : TimerType) (i : SessInfo) : Prop :=
  p = .TCP ∧ τ = .EST ∧ i.state = .ESTABLISHED

instance (p τ i) : Decidable (Probed p τ i) := by unfold Probed; infer_instance
instance (e p τ t k) : Decidable (Exp e p τ t k) := by unfold Exp; infer_instance

def probedInfo (e : Env) (i : SessInfo) : SessInfo := ⟨i.dst6, .TRANS, e.now, .TRANS, none⟩

theorem expire_effect {e p τ t k} (hw : WF t) (hk : Live t k) :
    let d := decideFate e true (expireCb e.now p τ) t k
    (Probed p τ (t.info k) → (∀ k', Live d.t k' ↔ Live t k') ∧ d.t.info k = probedInfo e (t.info k)) ∧
    (¬ Probed p τ (t.info k) → ∀ k', Live d.t k' ↔ Live t k' ∧ k' ≠ k) := by
  have d := decideFate_ok (e := e) (probes := true) (cb := expireCb e.now p τ) hw hk
  have f := decideFate_eff (e := e) (probes := true) (cb := expireCb e.now p τ) (t := t) (k := k)
  have hst : (ctlOf t k).state = (t.info k).state := rfl
  intro d'
  have cbv : (Probed p τ (t.info k) → expireCb e.now p τ (ctlOf t k) =
      ({ ctlOf t k with state := .TRANS, updateTime := e.now }, .PROBE)) ∧
      (¬ Probed p τ (t.info k) → (expireCb e.now p τ (ctlOf t k)).2 = .RM) := by
    constructor
    · rintro ⟨rfl, rfl, hs⟩
      simp only [expireCb, TcpSM.estExpireCb, hst, hs]
    · intro hn
      unfold expireCb
      split
      · unfold TcpSM.estExpireCb
        rw [hst]
        cases hs : (t.info k).state <;> simp
        exact hn ⟨rfl, rfl, hs⟩
      · rfl
  constructor
  · intro hp
    have hc := cbv.1 hp
    rw [hc] at f
    refine ⟨d.kept (by rw [f.removed]; simp), ?_⟩
    show (decideFate e true (expireCb e.now p τ) t k).t.info k = _
    rw [f.info (by simp)]
    simp [fateInfo, probedInfo, fateRenews, fateTau]
  · intro hp
    have hc := cbv.2 hp
    exact d.gone (by rw [f.removed]; simp [hc])

/-- Effect of the sweep of one list over `ks`. -/
theorem cleanLoop_exact {e p τ} : ∀ (ks : List SessKey) (t : Table), WF t → ks.Nodup →
    (∀ k ∈ ks, Live t k ∧ (t.info k).expirer = τ) →
    ks.Pairwise (fun a b => (t.info a).updateTime ≤ (t.info b).updateTime) →
    let t' := (cleanLoop e p τ t ks).1
    (∀ k, Live t' k ↔ Live t k ∧ ¬ (k ∈ ks ∧ Exp e p τ t k ∧ ¬ Probed p τ (t.info k))) ∧
    (∀ k, Live t' k → t'.info k = if k ∈ ks ∧ Exp e p τ t k then probedInfo e (t.info k) else t.info k) := by
  intro ks
  induction ks with
  | nil => intro t _ _ _ _; simp [cleanLoop]
  | cons k ks ih =>
    intro t h hn hl hs
    rw [List.nodup_cons] at hn
    have hsx := List.pairwise_cons.1 hs
    have hk := hl k (by simp)
    unfold cleanLoop
    by_cases ht : e.now < (t.info k).updateTime + getTimeout e.cfg p τ
    · simp only [ht, if_true]
      have none : ∀ k', k' ∈ k :: ks → ¬ Exp e p τ t k' := by
        rintro k' hk' ⟨_, h2⟩
        rcases List.mem_cons.1 hk' with rfl | hk'
        · omega
        · have := hsx.1 k' hk'; omega
      refine ⟨?_, ?_⟩
      · intro k'
        constructor
        · intro hl; exact ⟨hl, fun hc => none k' hc.1 hc.2.1⟩
        · exact fun hc => hc.1
      · intro k' _
        rw [if_neg (fun hc => none k' hc.1 hc.2)]
    · simp only [ht, if_false]
      have d := decideFate_ok (e := e) (probes := true) (cb := expireCb e.now p τ) h hk.1
      have ef := expire_effect (e := e) (p := p) (τ := τ) h hk.1
      simp only at ef
      revert d ef
      generalize decideFate e true (expireCb e.now p τ) t k = d'
      intro d ef
      have hex : Exp e p τ t k := ⟨hk.2, by omega⟩
      have hlive : ∀ k', k' ≠ k → (Live d'.t k' ↔ Live t k') := by
        intro k' hne
        by_cases hp : Probed p τ (t.info k)
        · exact (ef.1 hp).1 k'
        · rw [ef.2 hp]; exact ⟨fun h => h.1, fun h => ⟨h, hne⟩⟩
      have hne : ∀ k' ∈ ks, k' ≠ k := by rintro k' hk' rfl; exact hn.1 hk'
      have I := ih d'.t d.good.wf hn.2 (by
        intro k' hk'
        have := hl k' (by simp [hk'])
        rw [d.others k' (hne k' hk'), hlive k' (hne k' hk')]
        exact this) (by
        refine List.Pairwise.imp_of_mem ?_ hsx.2
        intro a b ha hb hab
        rw [d.others a (hne a ha), d.others b (hne b hb)]; exact hab)
      simp only at I
      have hexp : ∀ k', k' ≠ k → (Exp e p τ d'.t k' ↔ Exp e p τ t k') := by
        intro k' hne; unfold Exp; rw [d.others k' hne]
      constructor
      · intro k'
        rw [I.1]
        by_cases hkk : k' = k
        · subst hkk
          by_cases hp : Probed p τ (t.info k')
          · simp only [(ef.1 hp).1 k', hn.1, false_and, not_false_eq_true, and_true, hp, not_true_eq_false,
              and_false]
          · simp only [ef.2 hp k', ne_eq, not_true_eq_false, and_false, false_and, List.mem_cons, true_or,
              hex, hp, not_false_eq_true, and_self, and_true]
        · rw [hlive k' hkk, hexp k' hkk, d.others k' hkk]
          simp [hkk]
      · intro k' hk'
        rw [I.2 k' hk']
        have hlk' := ((I.1 k').1 hk').1
        by_cases hkk : k' = k
        · subst hkk
          by_cases hp : Probed p τ (t.info k')
          · simp only [hn.1, false_and, if_false, List.mem_cons, true_or, hex, true_and, if_true]
            exact (ef.1 hp).2
          · exact absurd rfl ((ef.2 hp k').1 hlk').2
        · rw [d.others k' hkk]
          simp only [hexp k' hkk, List.mem_cons, hkk, false_or]

theorem cleanList_exact {e p τ t} (h : WF t) (s : Srt t e.now) :
    let t' := (cleanList e p τ t).1
    (∀ k, Live t' k ↔ Live t k ∧ ¬ (Exp e p τ t k ∧ ¬ Probed p τ (t.info k))) ∧
    (∀ k, Live t' k → t'.info k = if Exp e p τ t k then probedInfo e (t.info k) else t.info k) := by
  have c := cleanLoop_exact (e := e) (p := p) (τ := τ) (t.lists τ) t h (h.nd τ)
    (fun k hk => (h.lk τ k).1 hk) (s.srt τ)
  simp only at c ⊢
  have mem : ∀ k, Live t k → (k ∈ t.lists τ ∧ Exp e p τ t k ↔ Exp e p τ t k) := by
    intro k hk
    rw [h.lk]
    exact ⟨fun h => h.2, fun hx => ⟨⟨hk, hx.1⟩, hx⟩⟩
  constructor
  · intro k
    show Live (cleanLoop e p τ t (t.lists τ)).1 k ↔ _
    rw [c.1]
    constructor
    · rintro ⟨hk, hc⟩
      exact ⟨hk, fun hx => hc ⟨((mem k hk).2 hx.1).1, hx⟩⟩
    · rintro ⟨hk, hc⟩
      exact ⟨hk, fun hx => hc hx.2⟩
  · intro k hk
    have hk0 := ((c.1 k).1 hk).1
    show (cleanLoop e p τ t (t.lists τ)).1.info k = _
    rw [c.2 k hk]
    simp only [mem k hk0]

theorem Srt.chain {p e op t t'} (hw : WF t) (h : Srt t e.now) (hp : op.Punctual e)
    (c : Chain p e op t t') : Srt t' e.now :=
  Chain.induct (I := fun t => Srt t e.now) hw c (fun _ _ w i a => Srt.atom w i hp a) h

end Jool.Bib
