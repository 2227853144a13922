import Verif.Lemmas.BibFind
import Verif.Props.BibPackets
/-
C35: applying a session received from another instance (`bib_add_session` with joold's callback).
-/
namespace Jool.Bib
open BibSpec

/-- The session that the message describes. -/
def _root_.Jool.BibSpec.described (s : SessEntry) : SessKey := ⟨⟨s.src6, s.src4⟩, s.dst4⟩

/-- ICMP sessions have the same identifier on both sides (the messages of another instance do). -/
def _root_.Jool.BibSpec.Consistent (p : Proto) (s : SessEntry) : Prop := p = .ICMP → s.dst4.port = s.src4.port

/-- Fields of the described session once the message is applied: the state, the time stamp and the timer
change, the rest does not. -/
def _root_.Jool.BibSpec.updated (i : SessInfo) (s : SessEntry) : SessInfo :=
  { i with state := s.state, updateTime := s.updateTime, expirer := s.timer.getD i.expirer }

/-- The table has the session with all of its four addresses. -/
def _root_.Jool.BibSpec.Has (t : Table) (s : SessEntry) : Prop :=
  described s ∈ sessions t ∧ (t.info (described s)).dst6 = s.dst6

/-- Both tables have the same entries and sessions, with the same fields, in the same order of expiration. -/
structure _root_.Jool.BibSpec.SameContents (t t' : Table) : Prop where
  bibs : bibs t' = bibs t
  static : t'.isStatic = t.isStatic
  sess : sessions t' = sessions t
  info : ∀ k ∈ sessions t, t'.info k = t.info k
  lists : t'.lists = t.lists

theorem SameTables.contents {t t' : Table} (h : SameTables t t') : SameContents t t' :=
  ⟨h.t4, h.st, by unfold sessions; rw [h.t4, h.se], fun k _ => by rw [h.inf], h.ls⟩

theorem SameTables.trans {a b c : Table} (h : SameTables a b) (g : SameTables b c) : SameTables a c :=
  ⟨g.t4.trans h.t4, g.t6.trans h.t6, g.st.trans h.st, g.se.trans h.se, g.inf.trans h.inf, g.ls.trans h.ls⟩

theorem patch_consistent {p : Proto} {s : SessEntry} (h : Consistent p s) : patchDst4 p s.dst4 s.src4 = s.dst4 := by
  unfold patchDst4
  split
  · rename_i hp; rw [← h hp]
  · rfl

/-- `find_bib_session6` without masks. -/
theorem findBibSession6_joold (e : Env) (p : Proto) (t : Table) (src6 dst6 : T6) (src4 dst4 : T4) :
    (∃ b, find6 t src6 = some b ∧
      findBibSession6 e p t none src6 dst6 src4 dst4 =
        (t, [], .ok (.ok ⟨.live b, if patchDst4 p dst4 b.src4 ∈ t.sess b then some ⟨b, patchDst4 p dst4 b.src4⟩ else none,
          b.src4, patchDst4 p dst4 b.src4⟩))) ∨
    (find6 t src6 = none ∧ ∃ t' ev, SameTables t t' ∧
      findBibSession6 e p t none src6 dst6 src4 dst4 = (t', ev,
        match find4 t src4 with
        | some _ => .ok (.error .EEXIST)
        | none => .ok (.ok ⟨.null, none, src4, dst4⟩))) := by
  unfold findBibSession6
  cases h6 : find6 t src6 with
  | some b => exact .inl ⟨b, rfl, by simp [issue216]⟩
  | none =>
    right
    refine ⟨rfl, ?_⟩
    have U : ∃ t' ev, upgrade e p t none src6 dst6 = (t', ev, .failed .null) ∧ SameTables t t' := by
      unfold upgrade
      split
      · exact ⟨_, _, rfl, .refl t⟩
      · cases hq : pktqueueFind t.queue dst6 none with
        | none => exact ⟨_, _, rfl, .refl t⟩
        | some n => exact ⟨_, _, rfl, ⟨rfl, rfl, rfl, rfl, rfl, rfl⟩⟩
    obtain ⟨t', ev, hu, st⟩ := U
    refine ⟨t', ev, st, ?_⟩
    simp only [hu, findNew]
    have : find4 t' src4 = find4 t src4 := by rw [find4, find4, st.t4]
    rw [this]
    cases find4 t src4 <;> rfl

theorem jooldCb_cond {t : Table} {s : SessEntry} {k : SessKey} :
    (k.bib.src6 = s.src6 ∧ (t.info k).dst6 = s.dst6 ∧ k.bib.src4 = s.src4 ∧ k.dst4 = s.dst4) ↔
      (k = described s ∧ (t.info k).dst6 = s.dst6) := by
  constructor
  · rintro ⟨a, b, c, d⟩
    refine ⟨?_, b⟩
    obtain ⟨⟨k6, k4⟩, kd⟩ := k
    simp only at a c d
    rw [a, c, d]; rfl
  · rintro ⟨h, b⟩
    refine ⟨by rw [h]; rfl, b, by rw [h]; rfl, by rw [h]; rfl⟩

/-- The lists once the described session is updated. -/
def jooldLists (t : Table) (s : SessEntry) (k : SessKey) : TimerType → List SessKey := fun τ' =>
  match s.timer with
  | none => t.lists τ'
  | some τ => if τ' = τ then
        slowInsert (fun x => (upd t.info k (updated (t.info k) s) x).updateTime) k ((t.lists τ').erase k)
        else (t.lists τ').erase k

theorem keepStored (x : Option Nat) : (if x.isSome = true then x else none) = x := by
  cases x <;> rfl

theorem decideFate_joold {e : Env} {t : Table} {s : SessEntry} {k : SessKey} (w : WF t) (hk : Live t k) :
    let d := decideFate e false (jooldCb t s k) t k
    d.t.tree4 = t.tree4 ∧ d.t.tree6 = t.tree6 ∧ d.t.sess = t.sess ∧ d.t.isStatic = t.isStatic ∧
    (∀ k', k' ≠ k → d.t.info k' = t.info k') ∧
    ((k = described s ∧ (t.info k).dst6 = s.dst6) →
      d.t.info k = updated (t.info k) s ∧ d.t.lists = jooldLists t s k) ∧
    (¬ (k = described s ∧ (t.info k).dst6 = s.dst6) → d.t.info k = t.info k ∧ d.t.lists = t.lists) := by
  intro d
  have F : FateEff e t k (jooldCb t s k (ctlOf t k)) d := decideFate_eff
  have hrm' : (jooldCb t s k (ctlOf t k)).2 ≠ .RM := by
    unfold jooldCb
    split <;> simp
  have hrm : d.removed = false := by rw [F.removed]; exact decide_eq_false hrm'
  have kb := decideFate_keeps hrm
  have hO : ∀ k', k' ≠ k → d.t.info k' = t.info k' := (decideFate_ok w hk).others
  refine ⟨kb.t4, kb.t6, kb.se, kb.st, hO, ?_, ?_⟩
  · intro hd
    have hcb : jooldCb t s k (ctlOf t k) =
        ({ ctlOf t k with state := s.state, timer := s.timer, updateTime := s.updateTime }, .TIMER_SLOW) := by
      unfold jooldCb
      rw [if_pos (jooldCb_cond.2 hd)]
    have hi : fateInfo e.now (t.info k) (jooldCb t s k (ctlOf t k)) = updated (t.info k) s := by
      rw [hcb]
      have := keepStored (t.info k).stored
      simp only [fateInfo, fateRenews, fateTau, updated, ctlOf]
      simpa using this
    constructor
    · rw [F.info hrm', hi]
    · rw [F.lists]
      funext τ'
      unfold fateLists jooldLists
      rw [hi, hcb]
      simp only
      cases s.timer <;> rfl
  · intro hn
    have hcb : jooldCb t s k (ctlOf t k) = (ctlOf t k, .PRESERVE) := by
      unfold jooldCb
      rw [if_neg (fun h => hn (jooldCb_cond.1 h))]
    constructor
    · rw [F.info hrm', hcb]
      have := keepStored (t.info k).stored
      cases hh : t.info k
      rw [hh] at this
      simp only [fateInfo, fateRenews, fateTau, ctlOf, hh]
      simpa using this
    · rw [F.lists, hcb]; rfl

/-- All outcomes of `bib_add_session`, if there is memory. -/
inductive JooldOut (e : Env) (p : Proto) (t : Table) (s : SessEntry) : Step → Prop
  | found (b : BibKey) (hb : b ∈ t.tree4) (h6 : b.src6 = s.src6)
      (hm : patchDst4 p s.dst4 b.src4 ∈ t.sess b) (k : SessKey) (hk : k = ⟨b, patchDst4 p s.dst4 b.src4⟩) :
      JooldOut e p t s (.ok ((decideFate e false (jooldCb t s k) t k).t,
        (decideFate e false (jooldCb t s k) t k).ev, .done))
  | attached (b : BibKey) (hb : b ∈ t.tree4) (h6 : b.src6 = s.src6)
      (hm : patchDst4 p s.dst4 b.src4 ∉ t.sess b) (k : SessKey) (hk : k = ⟨b, patchDst4 p s.dst4 b.src4⟩)
      (τ : TimerType) (hτ : s.timer = some τ) :
      JooldOut e p t s (.ok (addSessSlow t k s τ, [], .done))
  | created (h6 : ∀ b ∈ t.tree4, b.src6 ≠ s.src6) (h4 : ∀ b ∈ t.tree4, b.src4 ≠ s.src4) (t0 : Table)
      (ev : List Event) (st : SameTables t t0) (τ : TimerType) (hτ : s.timer = some τ) :
      JooldOut e p t s (.ok (addSessSlow (addBib t0 (described s).bib false) (described s) s τ, ev, .done))
  | refused (t0 : Table) (ev : List Event) (st : SameTables t t0) (err : Errno)
      (why : (s.timer = none ∧ err = .EINVAL ∧
          ∀ b ∈ t.tree4, b.src6 = s.src6 → patchDst4 p s.dst4 b.src4 ∉ t.sess b) ∨ (err = .EEXIST ∧ (∀ b ∈ t.tree4, b.src6 ≠ s.src6) ∧
        ∃ b ∈ t.tree4, b.src4 = s.src4)) :
      JooldOut e p t s (.ok (t0, ev, .err err))

theorem jooldAdd_out {e : Env} {p : Proto} {t : Table} {s : SessEntry} (w : WF t) (ho : e.oom.new = false) :
    JooldOut e p t s (jooldAdd e p t s) := by
  unfold jooldAdd
  rw [if_neg (by simp [ho])]
  rcases findBibSession6_joold e p t s.src6 s.dst6 s.src4 s.dst4 with ⟨b, h6, hf⟩ | ⟨h6, t0, ev, st, hf⟩
  · obtain ⟨hb6, hbs⟩ := find6_some h6
    have hb := (w.same b).1 hb6
    rw [hf]
    simp only
    by_cases hm : patchDst4 p s.dst4 b.src4 ∈ t.sess b
    · rw [if_pos hm]
      exact .found b hb hbs hm _ rfl
    · rw [if_neg hm]
      cases hτ : s.timer with
      | none => exact .refused t [] (.refl t) .EINVAL (.inl ⟨hτ, rfl, fun c hc he => by
          rw [w.uniq6 hc hb (he.trans hbs.symm)]; exact hm⟩)
      | some τ => exact .attached b hb hbs hm _ rfl τ hτ
  · rw [hf]
    have n6 : ∀ b ∈ t.tree4, b.src6 ≠ s.src6 := fun b hb => find6_none h6 b ((w.same b).2 hb)
    cases h4 : find4 t s.src4 with
    | some c => exact .refused t0 ev st .EEXIST (.inr ⟨rfl, n6, c, find4_some h4⟩)
    | none =>
      simp only
      cases hτ : s.timer with
      | none => exact .refused t0 ev st .EINVAL (.inl ⟨hτ, rfl, fun c hc he => absurd he (n6 c hc)⟩)
      | some τ => exact .created n6 (find4_none h4) t0 ev st τ hτ

theorem slowInsert_erase (u : SessKey → Nat) (k : SessKey) (l : List SessKey) (h : k ∉ l) :
    (slowInsert u k l).erase k = l := by
  induction l with
  | nil => simp [slowInsert]
  | cons x xs ih =>
    unfold slowInsert
    have hx : x ≠ k := fun he => h (he ▸ List.mem_cons_self)
    split
    · rw [List.erase_cons_tail (by simpa using hx), ih (fun hm => h (List.mem_cons_of_mem _ hm))]
    · simp

/-- The message was applied, and applying it again would only redo the same. -/
structure Settled (p : Proto) (t : Table) (s : SessEntry) (k : SessKey) : Prop where
  live : Live t k
  src6 : k.bib.src6 = s.src6
  dst4 : k.dst4 = patchDst4 p s.dst4 k.bib.src4
  info : (k = described s ∧ (t.info k).dst6 = s.dst6) → updated (t.info k) s = t.info k ∧ jooldLists t s k = t.lists

theorem Settled.again {e : Env} {p : Proto} {t : Table} {s : SessEntry} {k : SessKey} (w : WF t)
    (h : Settled p t s k) (r) (hr : jooldAdd e p t s = .ok r) : SameTables t r.1 := by
  cases ho : e.oom.new with
  | true =>
    unfold jooldAdd at hr
    rw [if_pos ho] at hr
    cases hr
    exact .refl t
  | false =>
    have J := jooldAdd_out (e := e) (p := p) (s := s) w ho
    rw [hr] at J
    cases J with
    | refused t0 ev st => exact st
    | created n6 => exact absurd h.src6 (n6 _ h.live.1)
    | attached b hb h6 hm k' hk' =>
      have : b = k.bib := w.uniq6 hb h.live.1 (h6.trans h.src6.symm)
      subst this
      rw [← h.dst4] at hm
      exact absurd h.live.2 hm
    | found b hb h6 hm k' hk' =>
      have : b = k.bib := w.uniq6 hb h.live.1 (h6.trans h.src6.symm)
      subst this
      have : k' = k := by rw [hk', ← h.dst4]
      subst this
      obtain ⟨a4, a6, as, ast, ao, au, an⟩ := decideFate_joold (e := e) (s := s) w h.live
      by_cases hc : k' = described s ∧ (t.info k').dst6 = s.dst6
      · refine ⟨a4, a6, ast, as, ?_, ?_⟩
        · funext x
          by_cases hx : x = k'
          · subst hx; rw [(au hc).1, (h.info hc).1]
          · exact ao x hx
        · rw [(au hc).2, (h.info hc).2]
      · refine ⟨a4, a6, ast, as, ?_, (an hc).2⟩
        funext x
        by_cases hx : x = k'
        · subst hx; exact (an hc).1
        · exact ao x hx

theorem Settled.updated {p : Proto} {t t' : Table} {s : SessEntry} {k : SessKey} (w : WF t) (hl : Live t k)
    (h6 : k.bib.src6 = s.src6) (hd : k.dst4 = patchDst4 p s.dst4 k.bib.src4) (h4 : t'.tree4 = t.tree4)
    (hs : t'.sess = t.sess) (hi : t'.info k = updated (t.info k) s) (ho : ∀ x, x ≠ k → t'.info x = t.info x)
    (hls : t'.lists = jooldLists t s k) : Settled p t' s k := by
  refine ⟨?_, h6, hd, fun _ => ⟨?_, ?_⟩⟩
  · unfold Live; rw [h4, hs]; exact hl
  · rw [hi]
    simp only [BibSpec.updated]
    cases s.timer <;> rfl
  · funext τ'
    rw [hls]
    unfold jooldLists
    cases hτ : s.timer with
    | none => simp only [hls, jooldLists, hτ]
    | some τ =>
      have ht' : ∀ τ'', t'.lists τ'' = if τ'' = τ then
          slowInsert (fun x => (upd t.info k (BibSpec.updated (t.info k) s) x).updateTime) k ((t.lists τ'').erase k)
          else (t.lists τ'').erase k := by
        intro τ''; rw [hls]; simp only [jooldLists, hτ]
      have nm : k ∉ (t.lists τ').erase k := by
        rw [List.Nodup.mem_erase_iff (w.nd τ')]; simp
      simp only [ht']
      by_cases he : τ' = τ
      · simp only [if_pos he]
        rw [slowInsert_erase _ _ _ nm]
        refine slowInsert_congr _ _ _ _ ?_
        intro x
        by_cases hx : x = k
        · subst hx; simp [upd_same, BibSpec.updated]
        · simp [upd_ne _ _ hx, ho x hx]
      · simp only [if_neg he]
        exact List.erase_of_not_mem nm

theorem Settled.added {p : Proto} {t : Table} {s : SessEntry} {k : SessKey} {τ : TimerType} (w : WF t)
    (hb : k.bib ∈ t.tree4) (hl : ¬ Live t k) (h6 : k.bib.src6 = s.src6)
    (hd : k.dst4 = patchDst4 p s.dst4 k.bib.src4) (hτ : s.timer = some τ) :
    Settled p (addSessSlow t k s τ) s k := by
  have hi : (addSessSlow t k s τ).info k = ⟨s.dst6, s.state, s.updateTime, τ, none⟩ := by
    simp [addSessSlow, setInfo, upd_same]
  have hu : BibSpec.updated ((addSessSlow t k s τ).info k) s = (addSessSlow t k s τ).info k := by
    rw [hi]; simp [BibSpec.updated, hτ]
  have nm : ∀ τ', k ∉ t.lists τ' := fun τ' hm => hl ((w.lk τ' k).1 hm).1
  refine ⟨(Live_addSessSlow hb k).2 (.inl rfl), h6, hd, fun _ => ⟨hu, ?_⟩⟩
  funext τ'
  unfold jooldLists
  rw [hu, hτ]
  simp only
  by_cases he : τ' = τ
  · subst he
    rw [if_pos rfl]
    simp only [addSessSlow, upd_same]
    rw [slowInsert_erase _ _ _ (by simpa [setInfo] using nm τ')]
    refine slowInsert_congr _ _ _ _ ?_
    intro x
    by_cases hx : x = k
    · subst hx; simp [upd_same]
    · simp [upd_ne _ _ hx]
  · rw [if_neg he]
    simp only [addSessSlow, upd_ne _ _ he, setInfo]
    exact List.erase_of_not_mem (nm τ')

theorem Live_same {t t' : Table} (h : SameTables t t') (k : SessKey) : Live t' k ↔ Live t k := by
  unfold Live; rw [h.t4, h.se]

theorem find6_none_of {t : Table} (w : WF t) {a : T6} (h : ∀ b ∈ t.tree4, b.src6 ≠ a) : find6 t a = none := by
  cases hf : find6 t a with
  | none => rfl
  | some c => exact absurd (find6_some hf).2 (h c ((w.same c).1 (find6_some hf).1))

theorem find4_none_of {t : Table} {a : T4} (h : ∀ b ∈ t.tree4, b.src4 ≠ a) : find4 t a = none := by
  cases hf : find4 t a with
  | none => rfl
  | some c => exact absurd (find4_some hf).2 (h c (find4_some hf).1)

theorem WF.same_tables {t t' : Table} (h : SameTables t t') (w : WF t) : WF t' := by
  refine ⟨h.t4 ▸ w.s4, h.t6 ▸ w.s6, ?_, ?_, ?_, ?_⟩
  · intro b; rw [h.t4, h.t6]; exact w.same b
  · rw [h.t4, h.se]; exact w.ss
  · rw [h.ls]; exact w.nd
  · intro τ k; rw [h.ls, h.inf, Live_same h]; exact w.lk τ k

/-! ## C35 -/

/-- **Update.** If the table has the session, the message changes its state, its time stamp and its timer,
and nothing else in the table. -/
theorem joold_update {p hist t ev} (h : After p hist t ev) (e : Env) (ho : e.oom.new = false) (s : SessEntry)
    (hc : Consistent p s) (hs : Has t s) :
    ∃ r ev', step p t e (.joold s) = .ok (r, ev', .done) ∧ bibs r = bibs t ∧ r.isStatic = t.isStatic ∧
      sessions r = sessions t ∧ r.info (described s) = updated (t.info (described s)) s ∧
      (∀ k, k ≠ described s → r.info k = t.info k) := by
  have w := (After.inv h).wf
  have hl := (mem_sessions _).1 hs.1
  have J := jooldAdd_out (e := e) (p := p) (s := s) w ho
  show ∃ r ev', jooldAdd e p t s = _ ∧ _
  have hb := hl.1
  have key : ∀ b ∈ t.tree4, b.src6 = s.src6 → b = (described s).bib := fun b hb' he => w.uniq6 hb' hb he
  generalize jooldAdd e p t s = q at J
  cases J with
  | refused t0 ev0 st err why =>
    rcases why with ⟨_, _, hm⟩ | ⟨_, n6, _⟩
    · exact absurd (by show patchDst4 p s.dst4 s.src4 ∈ _; rw [patch_consistent hc]; exact hl.2) (hm _ hb rfl)
    · exact absurd rfl (n6 _ hb)
  | created n6 => exact absurd rfl (n6 _ hb)
  | attached b hb' h6 hm k' hk' =>
    have := key b hb' h6
    subst this
    exact absurd (by show patchDst4 p s.dst4 s.src4 ∈ _; rw [patch_consistent hc]; exact hl.2) hm
  | found b hb' h6 hm k' hk' =>
    have := key b hb' h6
    subst this
    have : k' = described s := by rw [hk']; show _ = SessKey.mk _ _; congr 1; exact patch_consistent hc
    subst this
    obtain ⟨a4, a6, as, ast, ao, au, an⟩ := decideFate_joold (e := e) (s := s) w hl
    refine ⟨_, _, rfl, a4, ast, ?_, (au ⟨rfl, hs.2⟩).1, ao⟩
    unfold sessions; rw [a4, as]

/-- What is left to say of a table after the session of `s` was added. -/
structure _root_.Jool.BibSpec.Added (t : Table) (s : SessEntry) (τ : TimerType) (t' : Table) : Prop where
  sess : ∀ k, k ∈ sessions t' ↔ k = described s ∨ k ∈ sessions t
  entries : ∀ b, b ∈ bibs t' ↔ b = (described s).bib ∨ b ∈ bibs t
  static : ∀ b ∈ bibs t, t'.isStatic b = t.isStatic b
  dynamic : (described s).bib ∉ bibs t → t'.isStatic (described s).bib = false
  info : t'.info (described s) = ⟨s.dst6, s.state, s.updateTime, τ, none⟩
  others : ∀ k, k ≠ described s → t'.info k = t.info k

/-- **Addition.** If the table does not have the session, and its BIB entry is there or can be created, the
message adds it; nothing else changes. -/
theorem joold_add {p hist t ev} (h : After p hist t ev) (e : Env) (ho : e.oom.new = false) (s : SessEntry)
    (hc : Consistent p s) (τ : TimerType) (hτ : s.timer = some τ) (hn : described s ∉ sessions t)
    (hb : (described s).bib ∈ bibs t ∨ ((∀ b ∈ bibs t, b.src6 ≠ s.src6) ∧ ∀ b ∈ bibs t, b.src4 ≠ s.src4)) :
    ∃ r ev', step p t e (.joold s) = .ok (r, ev', .done) ∧ Added t s τ r := by
  have w := (After.inv h).wf
  have hn' : ¬ Live t (described s) := fun hl => hn ((mem_sessions _).2 hl)
  have J := jooldAdd_out (e := e) (p := p) (s := s) w ho
  show ∃ r ev', jooldAdd e p t s = _ ∧ _
  generalize jooldAdd e p t s = q at J
  have only : ∀ b ∈ t.tree4, b.src6 = s.src6 → b = (described s).bib ∧ (described s).bib ∈ t.tree4 := by
    intro b hb' he
    rcases hb with hb | ⟨n6, _⟩
    · exact ⟨w.uniq6 hb' hb he, hb⟩
    · exact absurd he (n6 b hb')
  cases J with
  | refused t0 ev0 st err why =>
    rcases why with ⟨hno, _⟩ | ⟨_, n6, c, hc4, he4⟩
    · rw [hτ] at hno; cases hno
    · rcases hb with hb | ⟨_, n4⟩
      · exact absurd rfl (n6 _ hb)
      · exact absurd he4 (n4 c hc4)
  | found b hb' h6 hm k' hk' =>
    obtain ⟨rfl, hb1⟩ := only b hb' h6
    refine absurd ⟨hb1, ?_⟩ hn'
    have : patchDst4 p s.dst4 s.src4 ∈ t.sess (described s).bib := hm
    rw [patch_consistent hc] at this
    exact this
  | attached b hb' h6 hm k' hk' τ' hτ' =>
    obtain ⟨rfl, hb1⟩ := only b hb' h6
    have hk : k' = described s := by rw [hk']; show _ = SessKey.mk _ _; congr 1; exact patch_consistent hc
    subst hk
    rw [hτ] at hτ'; cases hτ'
    refine ⟨_, _, rfl, ⟨?_, ?_, fun _ _ => rfl, fun hh => absurd hb1 hh, ?_, ?_⟩⟩
    · intro k; rw [mem_sessions, mem_sessions]; exact Live_addSessSlow hb1 k
    · intro b
      constructor
      · exact fun hh => .inr hh
      · rintro (rfl | hh)
        · exact hb1
        · exact hh
    · simp [addSessSlow, setInfo, upd_same]
    · intro k hk; simp [addSessSlow, setInfo, upd_ne _ _ hk]
  | created n6 n4 t0 ev0 st τ' hτ' =>
    rw [hτ] at hτ'; cases hτ'
    have h40 : find4 t0 (described s).bib.src4 = none :=
      find4_none_of (by rw [st.t4]; exact n4)
    have hmem : (described s).bib ∈ (addBib t0 (described s).bib false).tree4 := mem_addBib.2 (.inl rfl)
    refine ⟨_, _, rfl, ⟨?_, ?_, ?_, ?_, ?_, ?_⟩⟩
    · intro k
      rw [mem_sessions, mem_sessions, Live_addSessSlow hmem, Live_addBib h40, Live_same st]
    · intro b
      show b ∈ (addBib t0 _ false).tree4 ↔ _
      rw [mem_addBib, st.t4]
      exact Iff.rfl
    · intro b hb'
      have hne : b ≠ (described s).bib := fun he => n4 b hb' (by rw [he]; rfl)
      show upd t0.isStatic _ false b = _
      rw [upd_ne _ _ hne, st.st]
    · intro _; show upd t0.isStatic _ false _ = _; rw [upd_same]
    · simp [addSessSlow, setInfo, upd_same]
    · intro k hk
      simp [addSessSlow, setInfo, upd_ne _ _ hk, addBib, st.inf]

/-- **Conflict of the IPv4 address.** If some other IPv6 node of this instance owns the IPv4 transport address of
the session, the message is refused and nothing changes. -/
theorem joold_conflict {p hist t ev} (h : After p hist t ev) (e : Env) (ho : e.oom.new = false) (s : SessEntry)
    (τ : TimerType) (hτ : s.timer = some τ)
    (n6 : ∀ b ∈ bibs t, b.src6 ≠ s.src6) (h4 : ∃ b ∈ bibs t, b.src4 = s.src4) :
    ∃ r ev', step p t e (.joold s) = .ok (r, ev', .err .EEXIST) ∧ SameContents t r := by
  have w := (After.inv h).wf
  have J := jooldAdd_out (e := e) (p := p) (s := s) w ho
  show ∃ r ev', jooldAdd e p t s = _ ∧ _
  generalize jooldAdd e p t s = q at J
  cases J with
  | refused t0 ev0 st err why =>
    rcases why with ⟨hno, _⟩ | ⟨rfl, _⟩
    · rw [hτ] at hno; cases hno
    · exact ⟨t0, ev0, rfl, st.contents⟩
  | found b hb' h6 => exact absurd h6 (n6 b hb')
  | attached b hb' h6 => exact absurd h6 (n6 b hb')
  | created _ n4 => obtain ⟨b, hb, he⟩ := h4; exact absurd he (n4 b hb)

/-- **No message replaces anything**: whatever it is, every local entry and session stays, and only the session
with the four addresses of the message may change. -/
theorem joold_never_replaces {p hist t ev} (h : After p hist t ev) (e : Env) (s : SessEntry) (r)
    (hr : step p t e (.joold s) = .ok r) :
    (∀ b ∈ bibs t, b ∈ bibs r.1 ∧ r.1.isStatic b = t.isStatic b) ∧
    (∀ k ∈ sessions t, k ∈ sessions r.1 ∧
      (r.1.info k = t.info k ∨ (Has t s ∧ k = described s ∧ r.1.info k = updated (t.info k) s))) := by
  have w := (After.inv h).wf
  have hr : jooldAdd e p t s = .ok r := hr
  have same : ∀ t0, SameTables t t0 → (∀ b ∈ bibs t, b ∈ bibs t0 ∧ t0.isStatic b = t.isStatic b) ∧
      (∀ k ∈ sessions t, k ∈ sessions t0 ∧
      (t0.info k = t.info k ∨ (Has t s ∧ k = described s ∧ t0.info k = updated (t.info k) s))) := by
    intro t0 st
    refine ⟨fun b hb => ⟨by show b ∈ t0.tree4; rw [st.t4]; exact hb, by rw [st.st]⟩, ?_⟩
    intro k hk
    rw [mem_sessions] at hk ⊢
    exact ⟨(Live_same st k).2 hk, .inl (by rw [st.inf])⟩
  cases ho : e.oom.new with
  | true =>
    unfold jooldAdd at hr
    rw [if_pos ho] at hr
    cases hr
    exact same t (.refl t)
  | false =>
    have J := jooldAdd_out (e := e) (p := p) (s := s) w ho
    rw [hr] at J
    cases J with
    | refused t0 ev0 st => exact same _ st
    | found b hb' h6 hm k' hk' =>
      have hl : Live t k' := by rw [hk']; exact ⟨hb', hm⟩
      obtain ⟨a4, a6, as, ast, ao, au, an⟩ := decideFate_joold (e := e) (s := s) w hl
      refine ⟨fun b hb => ⟨?_, by rw [ast]⟩, ?_⟩
      · show b ∈ Table.tree4 _; rw [a4]; exact hb
      · intro k hk
        rw [mem_sessions] at hk ⊢
        refine ⟨?_, ?_⟩
        · unfold Live; rw [a4, as]; exact hk
        · by_cases hx : k = k'
          · subst hx
            by_cases hcc : k = described s ∧ (t.info k).dst6 = s.dst6
            · refine .inr ⟨⟨(mem_sessions _).2 (hcc.1 ▸ hk), hcc.1 ▸ hcc.2⟩, hcc.1, (au hcc).1⟩
            · exact .inl (an hcc).1
          · exact .inl (ao k hx)
    | attached b hb' h6 hm k' hk' τ' hτ' =>
      have hkb : k'.bib ∈ t.tree4 := by rw [hk']; exact hb'
      refine ⟨fun b hb => ⟨hb, rfl⟩, ?_⟩
      intro k hk
      rw [mem_sessions] at hk ⊢
      refine ⟨(Live_addSessSlow hkb k).2 (.inr hk), .inl ?_⟩
      have hx : k ≠ k' := by
        rintro rfl
        rw [hk'] at hk
        exact hm hk.2
      simp [addSessSlow, setInfo, upd_ne _ _ hx]
    | created n6 n4 t0 ev0 st τ' hτ' =>
      have h40 : find4 t0 (described s).bib.src4 = none :=
        find4_none_of (by rw [st.t4]; exact n4)
      have hmem : (described s).bib ∈ (addBib t0 (described s).bib false).tree4 := mem_addBib.2 (.inl rfl)
      refine ⟨?_, ?_⟩
      · intro b hb
        have hne : b ≠ (described s).bib := fun he => n4 b hb (by rw [he]; rfl)
        refine ⟨(mem_addBib (st := false)).2 (.inr (by rw [st.t4]; exact hb)), ?_⟩
        show upd t0.isStatic _ false b = _
        rw [upd_ne _ _ hne, st.st]
      · intro k hk
        rw [mem_sessions] at hk ⊢
        refine ⟨?_, .inl ?_⟩
        · rw [Live_addSessSlow hmem, Live_addBib h40, Live_same st]; exact .inr hk
        · have hx : k ≠ described s := by
            rintro rfl
            exact n4 _ hk.1 rfl
          simp [addSessSlow, setInfo, upd_ne _ _ hx, addBib, st.inf]

/-- **Idempotence.** Once a message was applied (successfully or not, but without running out of memory), the
same message again changes nothing, not even the order of expiration. -/
theorem joold_idempotent_partial {p hist t ev} (h : After p hist t ev) (e e' : Env) (ho : e.oom.new = false)
    (s : SessEntry) (hc : Consistent p s) (r r') (hr : step p t e (.joold s) = .ok r) (hr' : step p r.1 e' (.joold s) = .ok r') :
    SameContents r.1 r'.1 := by
  have w := (After.inv h).wf
  have w1 : WF r.1 := (step_ok (op := .joold s) w trivial hr).1.wf
  have hr : jooldAdd e p t s = .ok r := hr
  have hr' : jooldAdd e' p r.1 s = .ok r' := hr'
  apply SameTables.contents
  have J := jooldAdd_out (e := e) (p := p) (s := s) w ho
  rw [hr] at J
  cases J with
  | found b hb' h6 hm k' hk' =>
    have hl : Live t k' := by rw [hk']; exact ⟨hb', hm⟩
    obtain ⟨a4, a6, as, ast, ao, au, an⟩ := decideFate_joold (e := e) (s := s) w hl
    refine Settled.again (k := k') w1 ?_ r' hr'
    by_cases hcc : k' = described s ∧ (t.info k').dst6 = s.dst6
    · exact .updated w hl (by rw [hk']; exact h6) (by rw [hk']) a4 as (au hcc).1 ao (au hcc).2
    · refine ⟨by unfold Live; rw [a4, as]; exact hl, by rw [hk']; exact h6, by rw [hk'], ?_⟩
      rw [(an hcc).1]
      exact fun hh => absurd hh hcc
  | attached b hb' h6 hm k' hk' τ' hτ' =>
    refine Settled.again (k := k') w1 ?_ r' hr'
    refine .added w (by rw [hk']; exact hb') (by rw [hk']; exact fun hl => hm hl.2) (by rw [hk']; exact h6) (by rw [hk']) hτ'
  | created n6 n4 t0 ev0 st τ' hτ' =>
    have w0 := w.same_tables st
    have h40 : find4 t0 (described s).bib.src4 = none := find4_none_of (by rw [st.t4]; exact n4)
    have h60 : find6 t0 (described s).bib.src6 = none := find6_none_of w0 (by rw [st.t4]; exact n6)
    refine Settled.again (k := described s) w1 ?_ r' hr'
    refine .added (w0.addBib h60 h40 false) (mem_addBib.2 (.inl rfl)) ?_ rfl ?_ hτ'
    · rw [Live_addBib h40, Live_same st]
      exact fun hl => n4 _ hl.1 rfl
    · exact (patch_consistent hc).symm
  | refused t0 ev0 st err why =>
    have w0 := w.same_tables st
    cases ho' : e'.oom.new with
    | true =>
      unfold jooldAdd at hr'
      rw [if_pos ho'] at hr'
      cases hr'
      exact .refl t0
    | false =>
      have J := jooldAdd_out (e := e') (p := p) (s := s) w0 ho'
      have hr' : jooldAdd e' p t0 s = .ok r' := hr'
      rw [hr'] at J
      cases J with
      | refused t1 _ st1 => exact st1
      | found b hb h6 hm k' hk' =>
        rw [st.t4] at hb
        rw [st.se] at hm
        rcases why with ⟨_, _, hno⟩ | ⟨_, n6, _⟩
        · exact absurd hm (hno b hb h6)
        · exact absurd h6 (n6 b hb)
      | attached b hb h6 hm k' hk' τ' hτ' =>
        rw [st.t4] at hb
        rcases why with ⟨hno, _⟩ | ⟨_, n6, _⟩
        · rw [hno] at hτ'; cases hτ'
        · exact absurd h6 (n6 b hb)
      | created n6 n4 _ _ _ τ' hτ' =>
        rw [st.t4] at n4
        rcases why with ⟨hno, _⟩ | ⟨_, _, b, hb, he⟩
        · rw [hno] at hτ'; cases hτ'
        · exact absurd he (n4 b hb)

/-! ### Witnesses -/

def exJ : SessEntry := ⟨exB.src6, ⟨1#128, 53#16⟩, exB.src4, ⟨1#32, 53#16⟩, .ESTABLISHED, some .EST, 900⟩
/-- The same node, which the other instance masked with another address. -/
def exJ2 : SessEntry := { exJ with src4 := ⟨0xc0000209#32, 777#16⟩, dst4 := ⟨2#32, 53#16⟩ }
/-- Different identifiers on both sides of an ICMP session. -/
def exJicmp : SessEntry := { exJ with dst4 := ⟨1#32, 999#16⟩ }

def exJt (p : Proto) : Table := (exOut (run p init [(exAt 1000, exUdp)])).1

theorem exJt_after (p : Proto) (hp : p ≠ .TCP) : ∃ ev, After p [(exAt 1000, exUdp)] (exJt p) ev := by
  refine ⟨(exOut (run p init [(exAt 1000, exUdp)])).2, ?_, exOut_ok ?_⟩
  · intro x hx; simp at hx; subst hx; exact ⟨by simp, trivial⟩
  · cases p
    · exact absurd rfl hp
    · decide +kernel
    · decide +kernel

/-- The hypotheses of `joold_update`: a session created by a packet, then a message about it. -/
example : Has (exJt .UDP) exJ ∧ Consistent .UDP exJ ∧ ((exJt .UDP).info (described exJ)).updateTime = 1000 := by
  unfold Has Consistent; decide +kernel

/-- The hypotheses of `joold_add` (both cases) and of `joold_conflict`. -/
example : described { exJ with dst4 := ⟨2#32, 53#16⟩ } ∉ sessions (exJt .UDP) ∧
    (described { exJ with dst4 := ⟨2#32, 53#16⟩ }).bib ∈ bibs (exJt .UDP) ∧
    (∀ b ∈ bibs (exJt .UDP), b.src6 ≠ ⟨7#128, 7#16⟩) ∧ (∀ b ∈ bibs (exJt .UDP), b.src4 ≠ ⟨7#32, 7#16⟩) ∧
    ∃ b ∈ bibs (exJt .UDP), b.src4 = exB.src4 := by decide +kernel

/-- The full version of C35 fails: the message conflicts with a local entry (same IPv6 node, different IPv4
address), but instead of being refused it creates, from the local entry's address, a session which neither
instance ever announced; the caller is told that all went well. -/
theorem joold_wrong_entry : ∃ hist t ev r, After .UDP hist t ev ∧
    step .UDP t (exAt 1000) (.joold exJ2) = .ok r ∧ r.2.2 = .done ∧
    described exJ2 ∉ sessions r.1 ∧ (⟨exB, exJ2.dst4⟩ : SessKey) ∈ sessions r.1 ∧
    (⟨exB, exJ2.dst4⟩ : SessKey) ∉ sessions t := by
  obtain ⟨ev, h⟩ := exJt_after .UDP (by decide)
  refine ⟨_, _, ev, exStep (step .UDP (exJt .UDP) (exAt 1000) (.joold exJ2)), h, rfl, ?_⟩
  decide +kernel

/-- Idempotence needs the consistency of ICMP identifiers: this message creates one session the first time and
another one the second time. -/
theorem joold_icmp_twice : ∃ t ev r r', After .ICMP [] t ev ∧ step .ICMP t (exAt 1000) (.joold exJicmp) = .ok r ∧
    step .ICMP r.1 (exAt 1000) (.joold exJicmp) = .ok r' ∧ (sessions r.1).length = 1 ∧ (sessions r'.1).length = 2 := by
  refine ⟨init, [], exStep (step .ICMP init (exAt 1000) (.joold exJicmp)),
    exStep (step .ICMP (exStep (step .ICMP init (exAt 1000) (.joold exJicmp))).1 (exAt 1000) (.joold exJicmp)),
    ⟨by simp, rfl⟩, rfl, rfl, by decide +kernel, by decide +kernel⟩

end Jool.Bib
