import Verif.Lemmas.BibAtoms
/-
Exact effect of `decide_fate` on the session and on the expiration lists.
-/
namespace Jool.Bib

/-- Timer chosen by a fate (`none`: position unchanged). -/
def fateTau (r : SessCtl × Fate) : Option TimerType :=
  match r.2 with
  | .TIMER_EST => some .EST
  | .TIMER_TRANS => some .TRANS
  | .PROBE => some .TRANS
  | .TIMER_SLOW => r.1.timer
  | _ => none

/-- The fate renews the timestamp. -/
def fateRenews : Fate → Bool
  | .TIMER_EST | .TIMER_TRANS | .PROBE => true
  | _ => false

/-- Session fields after `decide_fate`, if it survives. -/
def fateInfo (now : Nat) (i : SessInfo) (r : SessCtl × Fate) : SessInfo :=
  { dst6 := i.dst6, state := r.1.state,
    updateTime := if fateRenews r.2 then now else r.1.updateTime,
    expirer := (fateTau r).getD i.expirer,
    stored := if r.1.hasStored && r.2 != .PROBE then i.stored else none }

theorem slowInsert_congr (u v : SessKey → Nat) (k : SessKey) (l : List SessKey)
    (h : ∀ x, u x = v x) : slowInsert u k l = slowInsert v k l := by
  have : u = v := funext h
  rw [this]

/-- The lists after `decide_fate`. -/
def fateLists (now : Nat) (t : Table) (k : SessKey) (r : SessCtl × Fate) : TimerType → List SessKey :=
  fun τ =>
    match r.2 with
    | .RM => (t.lists τ).erase k
    | .TIMER_SLOW =>
      match r.1.timer with
      | none => t.lists τ
      | some τ' =>
        if τ = τ' then
          slowInsert (fun x => (upd t.info k (fateInfo now (t.info k) r) x).updateTime) k ((t.lists τ).erase k)
        else (t.lists τ).erase k
    | .PRESERVE | .DROP => t.lists τ
    | _ => if some τ = fateTau r then (t.lists τ).erase k ++ [k] else (t.lists τ).erase k

structure FateEff (e : Env) (t : Table) (k : SessKey) (r : SessCtl × Fate) (d : Decided) : Prop where
  removed : d.removed = decide (r.2 = .RM)
  translate : d.translate = decide (r.2 ≠ .DROP)
  info : r.2 ≠ .RM → d.t.info k = fateInfo e.now (t.info k) r
  lists : d.t.lists = fateLists e.now t k r

theorem lists_reap (t : Table) (b) : (reapBib t b).lists = t.lists := by
  unfold reapBib; split <;> rfl

theorem lists_rmSess (oom p) (t : Table) (k : SessKey) (τ) :
    (rmSess oom p t k).1.lists τ = (t.lists τ).erase k := by
  rw [rmSess_eq]
  simp only [lists_reap]
  cases hs : (t.info k).stored with
  | none => rfl
  | some s =>
    obtain ⟨_, _, _, d, _⟩ := handleProbe_eq oom p t k
    show ((handleProbe oom p t k).1.lists τ).erase k = _
    rw [d]

theorem decideFate_eff {e : Env} {probes : Bool} {cb : SessCtl → SessCtl × Fate} {t : Table}
    {k : SessKey} : FateEff e t k (cb (ctlOf t k)) (decideFate e probes cb t k) := by
  unfold decideFate
  generalize cb (ctlOf t k) = r
  have hed : setInfo t k { t.info k with state := r.1.state, updateTime := r.1.updateTime }
    = edited t k r.1 := rfl
  simp only [hed]
  clear hed
  have i0 : (edited t k r.1).info k = { t.info k with state := r.1.state, updateTime := r.1.updateTime } := by
    simp [edited, setInfo, upd_same]
  have l0 : (edited t k r.1).lists = t.lists := rfl
  have o0 : ∀ x, x ≠ k → (edited t k r.1).info x = t.info x := by
    intro x hx; simp [edited, setInfo, upd_ne _ _ hx]
  revert i0 l0 o0
  generalize edited t k r.1 = t0
  intro i0 l0 o0
  have H : ∃ r1 : Table × List Event, (if !r.1.hasStored then killStored t0 k else (t0, [])) = r1 ∧
      r1.1.lists = t.lists ∧ (∀ x, x ≠ k → r1.1.info x = t.info x) ∧
      r1.1.info k = ⟨(t.info k).dst6, r.1.state, r.1.updateTime, (t.info k).expirer,
        if r.1.hasStored then (t.info k).stored else none⟩ := by
    refine ⟨_, rfl, ?_⟩
    cases hh : r.1.hasStored with
    | false =>
      obtain ⟨_, _, _, d, _, _, _, _, i⟩ := killStored_eq t0 k
      simp only [Bool.not_false, if_true]
      refine ⟨d.trans l0, ?_, ?_⟩
      · intro x hx; rw [i, upd_ne _ _ hx]; exact o0 x hx
      · rw [i, upd_same, i0]; simp
    | true => simp only [Bool.not_true, Bool.false_eq_true, if_false]; exact ⟨l0, o0, by rw [i0]; simp⟩
  obtain ⟨r1, hr1, l1, o1, i1⟩ := H
  simp only [hr1]
  cases hf : r.2 with
  | TIMER_EST =>
    refine ⟨by simp [hf], by simp [hf], ?_, ?_⟩
    · intro _
      simp [fateTimer, listDel, setInfo, upd_same, i1, fateInfo, hf, fateRenews, fateTau]
    · funext τ
      by_cases h : τ = .EST
      · subst h; simp [fateTimer, listDel, setInfo, upd_same, l1, fateLists, hf, fateTau]
      · simp [fateTimer, listDel, setInfo, upd_ne _ _ h, l1, fateLists, hf, fateTau, h]
  | TIMER_TRANS =>
    refine ⟨by simp [hf], by simp [hf], ?_, ?_⟩
    · intro _
      simp [fateTimer, listDel, setInfo, upd_same, i1, fateInfo, hf, fateRenews, fateTau]
    · funext τ
      by_cases h : τ = .TRANS
      · subst h; simp [fateTimer, listDel, setInfo, upd_same, l1, fateLists, hf, fateTau]
      · simp [fateTimer, listDel, setInfo, upd_ne _ _ h, l1, fateLists, hf, fateTau, h]
  | PROBE =>
    obtain ⟨_, _, _, d, _, _, _, _, i⟩ := handleProbe_eq e.oom probes r1.1 k
    refine ⟨by simp [hf], by simp [hf], ?_, ?_⟩
    · intro _
      simp [fateTimer, listDel, setInfo, upd_same, i, i1, fateInfo, hf, fateRenews, fateTau]
    · funext τ
      by_cases h : τ = .TRANS
      · subst h; simp [fateTimer, listDel, setInfo, upd_same, d, l1, fateLists, hf, fateTau]
      · simp [fateTimer, listDel, setInfo, upd_ne _ _ h, d, l1, fateLists, hf, fateTau, h]
  | RM =>
    refine ⟨by simp [hf], by simp [hf], by simp [hf], ?_⟩
    funext τ
    simp only [lists_rmSess, l1, fateLists, hf]
  | PRESERVE =>
    refine ⟨by simp [hf], by simp [hf], ?_, ?_⟩
    · intro _; simp [i1, fateInfo, hf, fateRenews, fateTau]
    · funext τ; simp [l1, fateLists, hf]
  | DROP =>
    refine ⟨by simp [hf], by simp [hf], ?_, ?_⟩
    · intro _; simp [i1, fateInfo, hf, fateRenews, fateTau]
    · funext τ; simp [l1, fateLists, hf]
  | TIMER_SLOW =>
    cases hτ : r.1.timer with
    | none =>
      refine ⟨by simp [hf], by simp [hf], ?_, ?_⟩
      · intro _; simp [queueUnsorted, i1, fateInfo, hf, fateRenews, fateTau, hτ]
      · funext τ; simp [queueUnsorted, l1, fateLists, hf, hτ]
    | some τ' =>
      refine ⟨by simp [hf], by simp [hf], ?_, ?_⟩
      · intro _
        simp [queueUnsorted, listDel, setInfo, upd_same, i1, fateInfo, hf, fateRenews, fateTau, hτ]
      · funext τ
        by_cases h : τ = τ'
        · subst h
          simp only [queueUnsorted, if_true, Option.getD_some, setInfo, listDel, upd_same, l1, fateLists,
            hf, hτ]
          apply slowInsert_congr
          intro x
          by_cases hx : x = k
          · subst hx; simp [upd_same, i1, fateInfo, hf, fateRenews]
          · simp [upd_ne _ _ hx, o1 x hx]
        · simp [queueUnsorted, setInfo, listDel, upd_ne _ _ h, l1, fateLists, hf, hτ, h]

end Jool.Bib
