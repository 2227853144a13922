import Verif.Lemmas.BibBasic
/-
Accounting: which packets the table holds, and preservation of the structural invariant,
for the primitive edits.
-/
namespace Jool.Bib

/-- 1 if there is a packet and it satisfies `P`. -/
def w (P : Nat → Bool) : Option Nat → Nat
  | none => 0
  | some s => if P s then 1 else 0

@[simp] theorem w_none (P : Nat → Bool) : w P none = 0 := rfl

/-- Packets held by sessions. -/
def heldS (t : Table) (P : Nat → Bool) : Nat := ((all t).map (fun k => w P (t.info k).stored)).sum
/-- Packets held by the queue. -/
def heldQ (t : Table) (P : Nat → Bool) : Nat := (t.queue.map (fun n => w P (some n.skb))).sum
def held (t : Table) (P : Nat → Bool) : Nat := heldS t P + heldQ t P

/-- Packet that leaves with an event. -/
def Event.pkt : Event → Option Nat
  | .icmpErr s => some s
  | .freed s => some s
  | .probe _ => none

def out (ev : List Event) (P : Nat → Bool) : Nat := (ev.map (fun e => w P e.pkt)).sum

@[simp] theorem out_nil (P) : out [] P = 0 := rfl
@[simp] theorem out_append (a b P) : out (a ++ b) P = out a P + out b P := by
  simp [out, List.map_append, List.sum_append]

def anyPkt : Nat → Bool := fun _ => true

/-- `t'` is a well-formed successor of `t`: the packets in `ev` left, the packet `new` entered. -/
structure Good (t : Table) (ev : List Event) (new : Option Nat) (t' : Table) : Prop where
  wf : WF t'
  bal : ∀ P, held t' P + out ev P = held t P + w P new
  pk : t'.pktCount - (held t' anyPkt : Int) = t.pktCount - (held t anyPkt : Int)
  sb : t'.statBib - (t'.tree4.length : Int) = t.statBib - (t.tree4.length : Int)
  sn : t'.statSess - ((all t').length : Int) = t.statSess - ((all t).length : Int)

theorem Good.refl {t : Table} (h : WF t) : Good t [] none t :=
  ⟨h, by simp, rfl, rfl, rfl⟩

theorem Good.trans {t t1 t2 : Table} {e1 e2 : List Event} {n : Option Nat}
    (h1 : Good t e1 n t1) (h2 : Good t1 e2 none t2) : Good t (e1 ++ e2) n t2 := by
  refine ⟨h2.wf, ?_, h2.pk.trans h1.pk, h2.sb.trans h1.sb, h2.sn.trans h1.sn⟩
  intro P
  have a := h1.bal P
  have b := h2.bal P
  simp only [out_append, w_none] at *
  omega

theorem Good.trans' {t t1 t2 : Table} {e1 e2 : List Event} {n : Option Nat}
    (h1 : Good t e1 none t1) (h2 : Good t1 e2 n t2) : Good t (e1 ++ e2) n t2 := by
  refine ⟨h2.wf, ?_, h2.pk.trans h1.pk, h2.sb.trans h1.sb, h2.sn.trans h1.sn⟩
  intro P
  have a := h1.bal P
  have b := h2.bal P
  simp only [out_append, w_none] at *
  omega

theorem sum_upd {l : List SessKey} (hn : l.Nodup) {k : SessKey} (hk : k ∈ l)
    (g : SessKey → SessInfo) (i : SessInfo) (f : SessInfo → Nat) :
    (l.map (fun x => f (upd g k i x))).sum + f (g k) = (l.map (fun x => f (g x))).sum + f i := by
  induction l with
  | nil => simp at hk
  | cons a l ih =>
    rw [List.nodup_cons] at hn
    simp only [List.map_cons, List.sum_cons]
    by_cases ha : a = k
    · subst ha
      have : (l.map (fun x => f (upd g a i x))) = l.map (fun x => f (g x)) := by
        apply List.map_congr_left
        intro x hx
        rw [upd_ne]; rintro rfl; exact hn.1 hx
      rw [this, upd_same]; omega
    · have hk' : k ∈ l := by
        rcases List.mem_cons.1 hk with h | h
        · exact absurd h.symm ha
        · exact h
      have := ih hn.2 hk'
      rw [upd_ne _ _ ha]; omega

/-- `stored` and `expirer` are all that matter. -/
theorem heldS_upd {t t' : Table} (h : WF t) {k : SessKey} (hk : Live t k) (i : SessInfo)
    (hl : t'.lists = t.lists) (hi : t'.info = upd t.info k i) (P) :
    heldS t' P + w P (t.info k).stored = heldS t P + w P i.stored := by
  have : all t' = all t := by simp [all, hl]
  unfold heldS
  rw [this, hi]
  exact sum_upd h.all_nodup ((h.mem_all k).2 hk) t.info i (fun i => w P i.stored)

theorem heldS_perm {t' : Table} {l : List SessKey} (hp : (all t').Perm l)
    (P) : heldS t' P = (l.map (fun k => w P (t'.info k).stored)).sum :=
  (hp.map _).sum_nat

theorem all_perm {t t' : Table} (h : WF t) (h' : WF t') (hl : ∀ k, Live t' k ↔ Live t k) :
    (all t').Perm (all t) := by
  rw [List.perm_ext_iff_of_nodup h'.all_nodup h.all_nodup]
  intro k; rw [h'.mem_all, h.mem_all, hl]

theorem all_perm_cons {t t' : Table} (h : WF t) (h' : WF t') (k : SessKey) (hk : ¬ Live t k)
    (hl : ∀ k', Live t' k' ↔ k' = k ∨ Live t k') : (all t').Perm (k :: all t) := by
  rw [List.perm_ext_iff_of_nodup h'.all_nodup]
  · intro k'; rw [h'.mem_all, List.mem_cons, h.mem_all, hl]
  · rw [List.nodup_cons, h.mem_all]; exact ⟨hk, h.all_nodup⟩

/-- Replacing the fields of a session without moving it nor touching its packet. -/
theorem Good.setInfo {t : Table} (h : WF t) {k : SessKey} (hk : Live t k) (i : SessInfo)
    (hi : i.expirer = (t.info k).expirer) (hs : i.stored = (t.info k).stored) :
    Good t [] none (setInfo t k i) := by
  have hw := h.setInfo k i hi
  have hS : ∀ P, heldS (Bib.setInfo t k i) P = heldS t P := by
    intro P
    have := heldS_upd (t' := Bib.setInfo t k i) h hk i rfl rfl P
    rw [hs] at this; omega
  refine ⟨hw, ?_, ?_, rfl, rfl⟩
  · intro P; simp only [held, hS, out_nil, w_none]; rfl
  · simp only [held, hS]; rfl

theorem Good.killStored {t : Table} (h : WF t) {k : SessKey} (hk : Live t k) :
    Good t (killStored t k).2 none (killStored t k).1 := by
  have hw := h.killStored k
  obtain ⟨a, b, c, d, _, q, s1, s2, e⟩ := killStored_eq t k
  have hS := heldS_upd h hk _ d e
  have hp : (Bib.killStored t k).1.pktCount = t.pktCount - out (Bib.killStored t k).2 anyPkt ∧
      ∀ P, out (Bib.killStored t k).2 P = w P (t.info k).stored := by
    unfold Bib.killStored
    cases hs : (t.info k).stored <;> simp [Bib.setInfo, out, Event.pkt, w, anyPkt]
  have hQ : ∀ P, heldQ (Bib.killStored t k).1 P = heldQ t P := by intro P; simp [heldQ, q]
  refine ⟨hw, ?_, ?_, by rw [s1, a], by rw [s2]; simp [all, d]⟩
  · intro P
    have := hS P
    rw [hp.2]
    simp only [held, hQ, w_none] at *
    omega
  · have := hS anyPkt
    rw [hp.1, hp.2]
    simp only [held, hQ, w_none] at *
    omega

theorem Good.handleProbe {t : Table} (h : WF t) (oom p) {k : SessKey} (hk : Live t k) :
    Good t (handleProbe oom p t k).2 none (handleProbe oom p t k).1 := by
  have hw := h.handleProbe oom p k
  obtain ⟨a, b, c, d, _, q, s1, s2, e⟩ := handleProbe_eq oom p t k
  have hS := heldS_upd h hk _ d e
  have hp : (Bib.handleProbe oom p t k).1.pktCount
        = t.pktCount - out (Bib.handleProbe oom p t k).2 anyPkt ∧
      ∀ P, out (Bib.handleProbe oom p t k).2 P = w P (t.info k).stored := by
    unfold Bib.handleProbe Bib.killStored
    cases hs : (t.info k).stored <;> cases p <;> cases oom.probe <;>
      simp [Bib.setInfo, out, Event.pkt, w, anyPkt]
  have hQ : ∀ P, heldQ (Bib.handleProbe oom p t k).1 P = heldQ t P := by intro P; simp [heldQ, q]
  refine ⟨hw, ?_, ?_, by rw [s1, a], by rw [s2]; simp [all, d]⟩
  · intro P
    have := hS P
    rw [hp.2]
    simp only [held, hQ, w_none] at *
    omega
  · have := hS anyPkt
    rw [hp.1, hp.2]
    simp only [held, hQ, w_none] at *
    omega

theorem Good.same_live {t t' : Table} (h : WF t) (h' : WF t') (hl : ∀ k, Live t' k ↔ Live t k)
    (hi : ∀ k, Live t k → (t'.info k).stored = (t.info k).stored)
    (hq : t'.queue = t.queue) (hp : t'.pktCount = t.pktCount)
    (hb : t'.statBib - (t'.tree4.length : Int) = t.statBib - (t.tree4.length : Int))
    (hs : t'.statSess = t.statSess) : Good t [] none t' := by
  have hper := all_perm h h' hl
  have hS : ∀ P, heldS t' P = heldS t P := by
    intro P
    rw [heldS_perm hper]
    unfold heldS
    congr 1
    apply List.map_congr_left
    intro k hk
    rw [hi k ((h.mem_all k).1 hk)]
  refine ⟨h', ?_, ?_, hb, ?_⟩
  · intro P; simp [held, hS, heldQ, hq]
  · simp [held, hS, heldQ, hq, hp]
  · rw [hs, hper.length_eq]

theorem Good.fateTimer {t : Table} (h : WF t) (now : Nat) {k : SessKey} (hk : Live t k)
    (τ : TimerType) : Good t [] none (fateTimer now t k τ) := by
  refine Good.same_live h (h.fateTimer now hk τ) (fun _ => Iff.rfl) ?_ rfl rfl rfl rfl
  intro k' _
  by_cases hkk : k' = k
  · subst hkk; simp [Bib.fateTimer, listDel, Bib.setInfo, upd_same]
  · simp [Bib.fateTimer, listDel, Bib.setInfo, upd_ne _ _ hkk]

theorem Good.queueUnsorted {t t' : Table} (h : WF t) {k : SessKey} (hk : Live t k)
    (τ : Option TimerType) (hq : queueUnsorted t k τ true = some t') : Good t [] none t' := by
  have hw := h.queueUnsorted hk τ hq
  cases τ with
  | none => simp [Bib.queueUnsorted] at hq
  | some τ =>
    simp only [Bib.queueUnsorted, if_true, Option.some.injEq] at hq
    subst hq
    refine Good.same_live h hw (fun _ => Iff.rfl) ?_ rfl rfl rfl rfl
    intro k' _
    by_cases hkk : k' = k
    · subst hkk; simp [listDel, Bib.setInfo, upd_same]
    · simp [listDel, Bib.setInfo, upd_ne _ _ hkk]

theorem Good.reapBib {t : Table} (h : WF t) {b : BibKey} (hb : b ∈ t.tree4) :
    Good t [] none (reapBib t b) := by
  have hl := Live_reapBib h b
  have hw := h.reapBib b
  refine Good.same_live h hw hl ?_ ?_ ?_ ?_ ?_
  all_goals (unfold Bib.reapBib; split)
  · intros; rfl
  · intros; rfl
  · rfl
  · rfl
  · rfl
  · rfl
  · show t.statBib - 1 - ((t.tree4.erase b).length : Int) = _
    rw [List.length_erase_of_mem hb]
    have : 0 < t.tree4.length := List.length_pos_of_mem hb
    omega
  · rfl
  · rfl
  · rfl

/-- Unlinking a session which holds no packet. -/
theorem Good.unlink {t : Table} (h : WF t) {k : SessKey} (hk : Live t k)
    (hs : (t.info k).stored = none) : Good t [] none (unlink t k) := by
  have hl := Live_unlink h hk
  have hw := h.unlink hk
  have hnk : ¬ Live (Bib.unlink t k) k := by rw [hl]; exact fun h => h.2 rfl
  have hper : (all t).Perm (k :: all (Bib.unlink t k)) := by
    refine all_perm_cons hw h k hnk ?_
    intro k'
    rw [hl]
    by_cases hkk : k' = k
    · subst hkk; simp [hk]
    · simp [hkk]
  have hS : ∀ P, heldS (Bib.unlink t k) P = heldS t P := by
    intro P
    rw [heldS_perm hper]
    simp only [List.map_cons, List.sum_cons, hs, w_none, Nat.zero_add]
    rfl
  refine ⟨hw, ?_, ?_, rfl, ?_⟩
  · intro P; simp only [held, hS, out_nil, w_none]; rfl
  · simp only [held, hS]; rfl
  · rw [hper.length_eq]
    show t.statSess - 1 - _ = _
    simp only [List.length_cons]
    omega

theorem rmSess_eq (oom p) (t : Table) (k : SessKey) :
    rmSess oom p t k =
      let r := match (t.info k).stored with
        | some _ => handleProbe oom p t k
        | none => (t, [])
      (reapBib (unlink r.1 k) k.bib, r.2) := rfl

theorem Good.rmSess {t : Table} (h : WF t) (oom p) {k : SessKey} (hk : Live t k) :
    Good t (rmSess oom p t k).2 none (rmSess oom p t k).1 := by
  rw [rmSess_eq]
  cases hs : (t.info k).stored with
  | none =>
    have g1 := Good.unlink h hk hs
    have g2 := Good.reapBib g1.wf (b := k.bib) hk.1
    exact g1.trans g2
  | some s =>
    have g0 := Good.handleProbe h oom p hk
    obtain ⟨a, b, c, d, _, q, s1, s2, e⟩ := handleProbe_eq oom p t k
    have hk' : Live (Bib.handleProbe oom p t k).1 k := by simpa [Live, a, c] using hk
    have hs' : ((Bib.handleProbe oom p t k).1.info k).stored = none := by rw [e, upd_same]
    have g1 := Good.unlink g0.wf hk' hs'
    have g2 := Good.reapBib g1.wf (b := k.bib) hk'.1
    have := (g0.trans g1).trans g2
    simpa using this

theorem Dyn_congr {t t' : Table} (h4 : t'.tree4 = t.tree4) (hs : t'.sess = t.sess)
    (hst : t'.isStatic = t.isStatic) {ex} (hd : DynEx t ex) : DynEx t' ex := by
  intro b hb he
  rw [hst, hs]
  exact hd b (h4 ▸ hb) he

theorem Dyn_rmSess {t : Table} (h : WF t) (oom p) {k : SessKey} (hd : Dyn t) :
    Dyn (rmSess oom p t k).1 := by
  rw [rmSess_eq]
  cases hs : (t.info k).stored with
  | none => exact Dyn_reap_unlink h hd
  | some s =>
    obtain ⟨a, b, c, d, f, q, s1, s2, e⟩ := handleProbe_eq oom p t k
    exact Dyn_reap_unlink (h.handleProbe oom p k) (Dyn_congr a c f hd)

/-- Which sessions survive `rm`. -/
theorem Live_rmSess {t : Table} (h : WF t) (oom p) {k : SessKey} (hk : Live t k) (k' : SessKey) :
    Live (rmSess oom p t k).1 k' ↔ Live t k' ∧ k' ≠ k := by
  rw [rmSess_eq]
  cases hs : (t.info k).stored with
  | none =>
    show Live (Bib.reapBib (Bib.unlink t k) k.bib) k' ↔ _
    rw [Live_reapBib (h.unlink hk), Live_unlink h hk]
  | some s =>
    obtain ⟨a, b, c, d, f, q, s1, s2, e⟩ := handleProbe_eq oom p t k
    have hl : ∀ x, Live (Bib.handleProbe oom p t k).1 x ↔ Live t x := by
      intro x; simp [Live, a, c]
    have hk' := (hl k).2 hk
    have hw := h.handleProbe oom p k
    show Live (Bib.reapBib (Bib.unlink (Bib.handleProbe oom p t k).1 k) k.bib) k' ↔ _
    rw [Live_reapBib (hw.unlink hk'), Live_unlink hw hk', hl]

/-! ### Adding -/

theorem not_mem_of_find {t : Table} {b : BibKey} (h4 : find4 t b.src4 = none) : b ∉ t.tree4 :=
  fun hb => find4_none h4 b hb rfl

theorem Live_addBib {t : Table} {b : BibKey} (h4 : find4 t b.src4 = none) (st : Bool) (k : SessKey) :
    Live (addBib t b st) k ↔ Live t k := by
  simp only [Live, addBib, mem_insBy]
  by_cases hb : k.bib = b
  · have := not_mem_of_find h4
    rw [hb]; simp [upd_same, this]
  · simp [hb, upd_ne _ _ hb]

theorem WF.addBib {t : Table} (h : WF t) {b : BibKey} (h6 : find6 t b.src6 = none)
    (h4 : find4 t b.src4 = none) (st : Bool) : WF (addBib t b st) := by
  have hl := Live_addBib h4 st
  constructor
  · refine insBy_sorted key4 b _ h.s4 ?_
    intro y hy he
    exact find4_none h4 y hy (T4.key_inj he)
  · refine insBy_sorted key6 b _ h.s6 ?_
    intro y hy he
    exact find6_none h6 y hy (T6.key_inj he)
  · intro y; simp only [Bib.addBib, mem_insBy, h.same]
  · intro y hy
    simp only [Bib.addBib, mem_insBy] at hy ⊢
    by_cases hyb : y = b
    · subst hyb; simp [upd_same]
    · rw [upd_ne _ _ hyb]; exact h.ss y (hy.resolve_left hyb)
  · exact h.nd
  · intro τ k; rw [hl]; exact h.lk τ k

theorem Good.addBib {t : Table} (h : WF t) {b : BibKey} (h6 : find6 t b.src6 = none)
    (h4 : find4 t b.src4 = none) (st : Bool) : Good t [] none (addBib t b st) := by
  refine Good.same_live h (h.addBib h6 h4 st) (Live_addBib h4 st) (fun _ _ => rfl) rfl rfl ?_ rfl
  show t.statBib + 1 - ((insBy key4 b t.tree4).length : Int) = _
  rw [insBy_length]; omega

theorem Live_addGen {t t' : Table} (k : SessKey) (hb : k.bib ∈ t.tree4) (h4 : t'.tree4 = t.tree4)
    (hs : t'.sess = upd t.sess k.bib (insBy T4.key k.dst4 (t.sess k.bib))) (k' : SessKey) :
    Live t' k' ↔ k' = k ∨ Live t k' := by
  simp only [Live, h4, hs]
  by_cases hbb : k'.bib = k.bib
  · rw [hbb, upd_same, mem_insBy]
    constructor
    · rintro ⟨_, h | h⟩
      · left; cases k; cases k'; simp_all
      · exact .inr ⟨hb, h⟩
    · rintro (h | h)
      · subst h; exact ⟨hb, .inl rfl⟩
      · exact ⟨hb, .inr h.2⟩
  · rw [upd_ne _ _ hbb]
    have : k' ≠ k := by rintro rfl; exact hbb rfl
    simp [this]

/-- A new session, linked to list `τ` by any means. -/
theorem Good.addGen {t t' : Table} (h : WF t) (k : SessKey) (hb : k.bib ∈ t.tree4)
    (hn : k.dst4 ∉ t.sess k.bib) (i : SessInfo) (h4 : t'.tree4 = t.tree4) (h6 : t'.tree6 = t.tree6)
    (hs : t'.sess = upd t.sess k.bib (insBy T4.key k.dst4 (t.sess k.bib)))
    (hi : t'.info = upd t.info k i)
    (hτ : (t'.lists i.expirer).Perm (k :: t.lists i.expirer))
    (ho : ∀ τ', τ' ≠ i.expirer → t'.lists τ' = t.lists τ')
    (hq : t'.queue = t.queue) (hpk : t'.pktCount = t.pktCount + w anyPkt i.stored)
    (hsb : t'.statBib = t.statBib) (hss : t'.statSess = t.statSess + 1) :
    Good t [] i.stored t' := by
  have hl := Live_addGen k hb h4 hs
  have hnk : ¬ Live t k := fun h => hn h.2
  have hnl : ∀ τ, k ∉ t.lists τ := fun τ hm => hnk ((h.lk τ k).1 hm).1
  have hw : WF t' := by
    constructor
    · rw [h4]; exact h.s4
    · rw [h6]; exact h.s6
    · rw [h4, h6]; exact h.same
    · intro b hb'
      rw [hs]
      by_cases hbb : b = k.bib
      · subst hbb
        rw [upd_same]
        refine insBy_sorted _ _ _ (h.ss _ hb) ?_
        intro y hy he
        exact hn (T4.key_inj he ▸ hy)
      · rw [upd_ne _ _ hbb]; exact h.ss b (h4 ▸ hb')
    · intro τ
      by_cases he : τ = i.expirer
      · subst he; rw [hτ.nodup_iff, List.nodup_cons]; exact ⟨hnl _, h.nd _⟩
      · rw [ho τ he]; exact h.nd τ
    · intro τ k'
      rw [hl, hi]
      by_cases hkk : k' = k
      · subst hkk
        rw [upd_same]
        by_cases he : τ = i.expirer
        · subst he; simp [hτ.mem_iff]
        · rw [ho τ he]
          constructor
          · intro hm; exact absurd hm (hnl τ)
          · rintro ⟨_, he'⟩; exact absurd he'.symm he
      · rw [upd_ne _ _ hkk]
        by_cases he : τ = i.expirer
        · subst he; rw [hτ.mem_iff, List.mem_cons, h.lk]; simp [hkk]
        · rw [ho τ he, h.lk]; simp [hkk]
  have hper := all_perm_cons h hw k hnk hl
  have hS : ∀ P, heldS t' P = heldS t P + w P i.stored := by
    intro P
    rw [heldS_perm hper, hi]
    simp only [List.map_cons, List.sum_cons, upd_same]
    have : ((all t).map (fun x => w P (upd t.info k i x).stored))
        = (all t).map (fun x => w P (t.info x).stored) := by
      apply List.map_congr_left
      intro x hx
      rw [upd_ne]; rintro rfl; exact hnk ((h.mem_all _).1 hx)
    rw [this]; unfold heldS; omega
  refine ⟨hw, ?_, ?_, by rw [h4, hsb], ?_⟩
  · intro P; simp only [held, hS, heldQ, hq, out_nil]; omega
  · simp only [held, hS, heldQ, hq, hpk]; omega
  · rw [hss, hper.length_eq, List.length_cons]; omega

theorem Good.addSess {t : Table} (h : WF t) (now) {k : SessKey} (hb : k.bib ∈ t.tree4)
    (hn : k.dst4 ∉ t.sess k.bib) (d6 st τ) :
    Good t [] none (addSess now t k d6 st none τ) := by
  refine Good.addGen (i := ⟨d6, st, now, τ, none⟩) h k hb hn rfl rfl rfl rfl ?_ ?_ rfl ?_ rfl rfl
  · simp only [Bib.addSess, Bib.setInfo, upd_same]; exact List.perm_append_singleton _ _
  · intro τ' hne; simp only [Bib.addSess, Bib.setInfo]; rw [upd_ne _ _ hne]
  · simp [Bib.addSess, Bib.setInfo]

theorem Good.addSessStored {t : Table} (h : WF t) (now) {k : SessKey} (hb : k.bib ∈ t.tree4)
    (hn : k.dst4 ∉ t.sess k.bib) (d6 st skb τ) :
    Good t [] (some skb)
      (Bib.addSess now { t with pktCount := t.pktCount + 1 } k d6 st (some skb) τ) := by
  refine Good.addGen (i := ⟨d6, st, now, τ, some skb⟩) h k hb hn rfl rfl rfl rfl ?_ ?_ rfl ?_ rfl rfl
  · simp only [Bib.addSess, Bib.setInfo, upd_same]; exact List.perm_append_singleton _ _
  · intro τ' hne; simp only [Bib.addSess, Bib.setInfo]; rw [upd_ne _ _ hne]
  · simp [Bib.addSess, Bib.setInfo, w, anyPkt]

theorem Good.addSessSlow {t : Table} (h : WF t) {k : SessKey} (hb : k.bib ∈ t.tree4)
    (hn : k.dst4 ∉ t.sess k.bib) (s τ) : Good t [] none (addSessSlow t k s τ) := by
  refine Good.addGen (i := ⟨s.dst6, s.state, s.updateTime, τ, none⟩) h k hb hn rfl rfl rfl rfl ?_ ?_
    rfl ?_ rfl rfl
  · simp only [Bib.addSessSlow, Bib.setInfo, upd_same]; exact slowInsert_perm _ _ _
  · intro τ' hne; simp only [Bib.addSessSlow, Bib.setInfo]; rw [upd_ne _ _ hne]
  · simp [Bib.addSessSlow, Bib.setInfo]

/-! ### Detaching an entry with all its sessions -/

theorem detachSess_fold (ks : List SessKey) (t : Table) :
    let t' := ks.foldl detachSess t
    t'.tree4 = t.tree4 ∧ t'.tree6 = t.tree6 ∧ t'.sess = t.sess ∧ t'.info = t.info ∧
    t'.isStatic = t.isStatic ∧ t'.queue = t.queue ∧ t'.statBib = t.statBib ∧
    t'.statSess = t.statSess - ks.length ∧
    t'.pktCount = t.pktCount - (ks.map (fun k => w anyPkt (t.info k).stored)).sum ∧
    (∀ τ, (t'.lists τ).Sublist (t.lists τ)) ∧
    ∀ τ, (t.lists τ).Nodup → ∀ k, k ∈ t'.lists τ ↔ k ∈ t.lists τ ∧ k ∉ ks := by
  induction ks generalizing t with
  | nil => simp
  | cons k ks ih =>
    have := ih (detachSess t k)
    simp only [List.foldl_cons]
    obtain ⟨a, b, c, d, e, f, g, hh, i, sl, j⟩ := this
    have hd : (detachSess t k).tree4 = t.tree4 ∧ (detachSess t k).tree6 = t.tree6 ∧
        (detachSess t k).sess = t.sess ∧ (detachSess t k).info = t.info ∧
        (detachSess t k).isStatic = t.isStatic ∧ (detachSess t k).queue = t.queue ∧
        (detachSess t k).statBib = t.statBib ∧ (detachSess t k).statSess = t.statSess - 1 ∧
        (detachSess t k).pktCount = t.pktCount - w anyPkt (t.info k).stored ∧
        (∀ τ, (detachSess t k).lists τ = (t.lists τ).erase k) := by
      unfold detachSess listDel
      cases hs : (t.info k).stored <;> simp [hs, w, anyPkt]
    obtain ⟨a', b', c', d', e', f', g', h', i', j'⟩ := hd
    refine ⟨a.trans a', b.trans b', c.trans c', d.trans d', e.trans e', f.trans f', g.trans g', ?_,
      ?_, ?_, ?_⟩
    · rw [hh, h', List.length_cons]; omega
    · rw [i, i', d']; simp only [List.map_cons, List.sum_cons]; omega
    · intro τ
      refine (sl τ).trans ?_
      rw [j']; exact List.erase_sublist
    · intro τ hn k'
      rw [j τ (by rw [j']; exact hn.erase _), j', List.Nodup.mem_erase_iff hn, List.mem_cons]
      constructor
      · rintro ⟨⟨a, b⟩, c⟩; exact ⟨b, fun h => h.elim a c⟩
      · rintro ⟨a, b⟩; exact ⟨⟨fun h => b (.inl h), a⟩, fun h => b (.inr h)⟩

structure DetachEq (t : Table) (b : BibKey) (t' : Table) : Prop where
  t4 : t'.tree4 = t.tree4.erase b
  t6 : t'.tree6 = t.tree6.erase b
  se : t'.sess = upd t.sess b []
  inf : t'.info = t.info
  stc : t'.isStatic = t.isStatic
  que : t'.queue = t.queue
  sb : t'.statBib = t.statBib - 1
  sn : t'.statSess = t.statSess - (t.sess b).length
  pk : t'.pktCount = t.pktCount - ((t.sess b).map (fun d => w anyPkt (t.info ⟨b, d⟩).stored)).sum
  sl : ∀ τ, (t'.lists τ).Sublist (t.lists τ)
  ls : ∀ τ, (t.lists τ).Nodup →
      ∀ k, k ∈ t'.lists τ ↔ k ∈ t.lists τ ∧ ¬ (k.bib = b ∧ k.dst4 ∈ t.sess b)

theorem detachBib_eq (t : Table) (b : BibKey) : DetachEq t b (detachBib t b).1 := by
  have := detachSess_fold ((t.sess b).map (SessKey.mk b))
    { t with tree6 := t.tree6.erase b, tree4 := t.tree4.erase b, statBib := t.statBib - 1 }
  obtain ⟨h4, h6, hs, hi, hst, hq, hb, hn, hp, hsl, hl⟩ := this
  constructor
  · exact h4
  · exact h6
  · show upd _ b [] = _; rw [hs]
  · exact hi
  · exact hst
  · exact hq
  · exact hb
  · rw [List.length_map] at hn; exact hn
  · refine hp.trans ?_
    rw [List.map_map]; rfl
  · exact hsl
  · intro τ hnd k
    refine (hl τ hnd k).trans ?_
    have : k ∈ (t.sess b).map (SessKey.mk b) ↔ k.bib = b ∧ k.dst4 ∈ t.sess b := by
      rw [List.mem_map]
      constructor
      · rintro ⟨d, hd, rfl⟩; exact ⟨rfl, hd⟩
      · rintro ⟨rfl, hd⟩; exact ⟨k.dst4, hd, rfl⟩
    rw [this]

theorem Live_detachBib {t : Table} (h : WF t) (b : BibKey) (k : SessKey) :
    Live (detachBib t b).1 k ↔ Live t k ∧ k.bib ≠ b := by
  have d := detachBib_eq t b
  simp only [Live, d.t4, d.se, List.Nodup.mem_erase_iff (sorted_nodup h.s4)]
  by_cases hb : k.bib = b
  · simp [hb]
  · rw [upd_ne _ _ hb]; simp [hb]

theorem WF.detachBib {t : Table} (h : WF t) (b : BibKey) (hb : b ∈ t.tree4) :
    WF (detachBib t b).1 := by
  have d := detachBib_eq t b
  have hl := Live_detachBib h b
  constructor
  · rw [d.t4]; exact h.s4.sublist List.erase_sublist
  · rw [d.t6]; exact h.s6.sublist List.erase_sublist
  · intro b'
    rw [d.t4, d.t6, List.Nodup.mem_erase_iff (sorted_nodup h.s6),
      List.Nodup.mem_erase_iff (sorted_nodup h.s4), h.same]
  · intro b' hb'
    rw [d.t4, List.Nodup.mem_erase_iff (sorted_nodup h.s4)] at hb'
    rw [d.se, upd_ne _ _ hb'.1]; exact h.ss b' hb'.2
  · intro τ; exact (h.nd τ).sublist (d.sl τ)
  · intro τ k
    rw [d.ls τ (h.nd τ), hl, d.inf, h.lk]
    constructor
    · rintro ⟨⟨a, c⟩, e⟩
      refine ⟨⟨a, ?_⟩, c⟩
      rintro rfl
      exact e ⟨rfl, a.2⟩
    · rintro ⟨⟨a, e⟩, c⟩
      exact ⟨⟨a, c⟩, fun x => e x.1⟩

theorem out_detach (t : Table) (b : BibKey) (P) :
    out (detachBib t b).2 P = ((t.sess b).map (fun d => w P (t.info ⟨b, d⟩).stored)).sum := by
  show out (((t.sess b).map (SessKey.mk b)).filterMap _) P = _
  induction t.sess b with
  | nil => rfl
  | cons a l ih =>
    simp only [List.map_cons, List.filterMap_cons, List.sum_cons, ← ih]
    cases hs : (t.info ⟨b, a⟩).stored <;> simp [out, Event.pkt]

theorem Good.detachBib {t : Table} (h : WF t) {b : BibKey} (hb : b ∈ t.tree4) :
    Good t (detachBib t b).2 none (detachBib t b).1 := by
  have d := detachBib_eq t b
  have hw := h.detachBib b hb
  have hl := Live_detachBib h b
  have hper : (all t).Perm ((t.sess b).map (SessKey.mk b) ++ all (Bib.detachBib t b).1) := by
    rw [List.perm_ext_iff_of_nodup h.all_nodup]
    · intro k
      rw [h.mem_all, List.mem_append, hw.mem_all, hl, List.mem_map]
      constructor
      · intro hk
        by_cases hkb : k.bib = b
        · left; subst hkb; exact ⟨k.dst4, hk.2, rfl⟩
        · exact .inr ⟨hk, hkb⟩
      · rintro (⟨d, hd, rfl⟩ | hk)
        · exact ⟨hb, hd⟩
        · exact hk.1
    · rw [List.nodup_append]
      refine ⟨?_, hw.all_nodup, ?_⟩
      · have := sorted_nodup (h.ss b hb)
        refine List.Pairwise.map _ ?_ this
        intro a c hne he
        exact hne (by injection he)
      · intro k hk k' hk' he
        subst he
        rw [hw.mem_all, hl] at hk'
        obtain ⟨_, _, rfl⟩ := List.mem_map.1 hk
        exact hk'.2 rfl
  have hS : ∀ P, heldS t P
      = out (Bib.detachBib t b).2 P + heldS (Bib.detachBib t b).1 P := by
    intro P
    rw [heldS_perm hper, out_detach, List.map_append, List.sum_append, List.map_map]
    rw [show heldS (Bib.detachBib t b).1 P = _ from rfl, heldS, d.inf]
    rfl
  refine ⟨hw, ?_, ?_, ?_, ?_⟩
  · intro P
    have := hS P
    simp only [held, heldQ, d.que, w_none]; omega
  · have := hS anyPkt
    have o := out_detach t b anyPkt
    simp only [held, heldQ, d.que, d.pk]; omega
  · rw [d.sb, d.t4, List.length_erase_of_mem hb]
    have : 0 < t.tree4.length := List.length_pos_of_mem hb
    omega
  · have := hper.length_eq
    rw [List.length_append, List.length_map] at this
    rw [d.sn]; omega

theorem Dyn_detachBib {t : Table} (h : WF t) {b : BibKey} (hd : Dyn t) :
    Dyn (detachBib t b).1 := by
  have d := detachBib_eq t b
  intro b' hb' _
  rw [d.t4, List.Nodup.mem_erase_iff (sorted_nodup h.s4)] at hb'
  rw [d.stc, d.se, upd_ne _ _ hb'.1]
  exact hd b' hb'.2 (by simp)

end Jool.Bib
