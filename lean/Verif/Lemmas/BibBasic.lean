import Verif.Model.Bib
/-
Structural invariant of the BIB table and its preservation by the primitive edits.
-/
namespace Jool.Bib

theorem upd_same {α β} [DecidableEq α] (f : α → β) (a : α) (b : β) : upd f a b a = b := by
  simp [upd]
theorem upd_ne {α β} [DecidableEq α] (f : α → β) {a x : α} (b : β) (h : x ≠ a) :
    upd f a b x = f x := by simp [upd, h]

theorem mem_insBy {α} (f : α → Nat) (x y : α) (l : List α) :
    y ∈ insBy f x l ↔ y = x ∨ y ∈ l := by
  induction l with
  | nil => simp [insBy]
  | cons a l ih =>
    unfold insBy
    split
    · simp
    · simp only [List.mem_cons, ih]
      constructor <;> (rintro (h | h | h) <;> simp [h])

theorem insBy_sorted {α} (f : α → Nat) (x : α) (l : List α)
    (h : l.Pairwise (fun a b => f a < f b)) (hx : ∀ y ∈ l, f y ≠ f x) :
    (insBy f x l).Pairwise (fun a b => f a < f b) := by
  induction l with
  | nil => simp [insBy]
  | cons a l ih =>
    unfold insBy
    have ha := List.pairwise_cons.1 h
    split
    · rename_i hlt
      refine List.pairwise_cons.2 ⟨?_, h⟩
      intro y hy
      rcases List.mem_cons.1 hy with rfl | hy
      · exact hlt
      · exact Nat.lt_trans hlt (ha.1 y hy)
    · rename_i hlt
      refine List.pairwise_cons.2 ⟨?_, ih ha.2 (fun y hy => hx y (by simp [hy]))⟩
      intro y hy
      rcases (mem_insBy f x y l).1 hy with rfl | hy
      · have := hx a (by simp); omega
      · exact ha.1 y hy

theorem insBy_length {α} (f : α → Nat) (x : α) (l : List α) :
    (insBy f x l).length = l.length + 1 := by
  induction l with
  | nil => rfl
  | cons a l ih => unfold insBy; split <;> simp [ih]

theorem sorted_nodup {α} {f : α → Nat} {l : List α} (h : l.Pairwise (fun a b => f a < f b)) :
    l.Nodup := by
  refine List.Pairwise.imp ?_ h
  intro a b hab he
  subst he; omega

theorem sorted_unique {α} {f : α → Nat} {l : List α} (h : l.Pairwise (fun a b => f a < f b))
    {a b : α} (ha : a ∈ l) (hb : b ∈ l) (he : f a = f b) : a = b := by
  induction l with
  | nil => simp at ha
  | cons x l ih =>
    have hx := List.pairwise_cons.1 h
    rcases List.mem_cons.1 ha with ha1 | ha1 <;> rcases List.mem_cons.1 hb with hb1 | hb1
    · rw [ha1, hb1]
    · subst ha1; have := hx.1 b hb1; omega
    · subst hb1; have := hx.1 a ha1; omega
    · exact ih hx.2 ha1 hb1

/-- The session exists in the table. -/
def Live (t : Table) (k : SessKey) : Prop := k.bib ∈ t.tree4 ∧ k.dst4 ∈ t.sess k.bib

/-- All the sessions, in the order of the expiration lists. -/
def all (t : Table) : List SessKey := t.lists .EST ++ t.lists .TRANS ++ t.lists .SYN4

/-- Structural invariant. -/
structure WF (t : Table) : Prop where
  s4 : t.tree4.Pairwise (fun a b => key4 a < key4 b)
  s6 : t.tree6.Pairwise (fun a b => key6 a < key6 b)
  same : ∀ b, b ∈ t.tree6 ↔ b ∈ t.tree4
  ss : ∀ b ∈ t.tree4, (t.sess b).Pairwise (fun a b => a.key < b.key)
  nd : ∀ τ, (t.lists τ).Nodup
  lk : ∀ τ k, k ∈ t.lists τ ↔ Live t k ∧ (t.info k).expirer = τ

/-- Every dynamic entry, except perhaps `ex`, has sessions. -/
def DynEx (t : Table) (ex : BibKey → Prop) : Prop :=
  ∀ b ∈ t.tree4, ¬ ex b → t.isStatic b = true ∨ t.sess b ≠ []

abbrev Dyn (t : Table) : Prop := DynEx t (fun _ => False)

theorem WF.all_nodup {t : Table} (h : WF t) : (all t).Nodup := by
  have hd : ∀ τ τ', τ ≠ τ' → ∀ k ∈ t.lists τ, ∀ k' ∈ t.lists τ', k ≠ k' := by
    intro τ τ' hne k hk k' hk' he
    subst he
    exact hne (((h.lk τ k).1 hk).2 ▸ ((h.lk τ' k).1 hk').2)
  simp only [all, List.nodup_append, List.mem_append]
  refine ⟨⟨h.nd _, h.nd _, hd _ _ (by decide)⟩, h.nd _, ?_⟩
  rintro k (hk | hk) k' hk'
  · exact hd _ _ (by decide) k hk k' hk'
  · exact hd _ _ (by decide) k hk k' hk'

theorem WF.mem_all {t : Table} (h : WF t) (k : SessKey) : k ∈ all t ↔ Live t k := by
  simp only [all, List.mem_append, h.lk]
  constructor
  · rintro ((h | h) | h) <;> exact h.1
  · intro hl
    cases he : (t.info k).expirer <;> simp [hl]

theorem find6_some {t : Table} {a : T6} {b : BibKey} (h : find6 t a = some b) :
    b ∈ t.tree6 ∧ b.src6 = a := by
  unfold find6 at h
  exact ⟨List.mem_of_find?_eq_some h, by simpa using List.find?_some h⟩

theorem find4_some {t : Table} {a : T4} {b : BibKey} (h : find4 t a = some b) :
    b ∈ t.tree4 ∧ b.src4 = a := by
  unfold find4 at h
  exact ⟨List.mem_of_find?_eq_some h, by simpa using List.find?_some h⟩

theorem find6_none {t : Table} {a : T6} (h : find6 t a = none) : ∀ b ∈ t.tree6, b.src6 ≠ a := by
  unfold find6 at h
  intro b hb
  simpa using (List.find?_eq_none.1 h) b hb

theorem find4_none {t : Table} {a : T4} (h : find4 t a = none) : ∀ b ∈ t.tree4, b.src4 ≠ a := by
  unfold find4 at h
  intro b hb
  simpa using (List.find?_eq_none.1 h) b hb

theorem WF.uniq4 {t : Table} (h : WF t) {a b : BibKey} (ha : a ∈ t.tree4) (hb : b ∈ t.tree4)
    (he : a.src4 = b.src4) : a = b := sorted_unique h.s4 ha hb (by simp [key4, he])

theorem WF.uniq6 {t : Table} (h : WF t) {a b : BibKey} (ha : a ∈ t.tree4) (hb : b ∈ t.tree4)
    (he : a.src6 = b.src6) : a = b :=
  sorted_unique h.s6 ((h.same a).2 ha) ((h.same b).2 hb) (by simp [key6, he])

theorem WF.find6_iff {t : Table} (h : WF t) (b : BibKey) :
    find6 t b.src6 = some b ↔ b ∈ t.tree4 := by
  constructor
  · intro hf; exact (h.same b).1 (find6_some hf).1
  · intro hb
    cases hf : find6 t b.src6 with
    | none => exact absurd rfl (find6_none hf b ((h.same b).2 hb))
    | some c =>
      have := find6_some hf
      rw [h.uniq6 ((h.same c).1 this.1) hb this.2]

theorem WF.find4_iff {t : Table} (h : WF t) (b : BibKey) :
    find4 t b.src4 = some b ↔ b ∈ t.tree4 := by
  constructor
  · intro hf; exact (find4_some hf).1
  · intro hb
    cases hf : find4 t b.src4 with
    | none => exact absurd rfl (find4_none hf b hb)
    | some c =>
      have := find4_some hf
      rw [h.uniq4 this.1 hb this.2]

theorem WF_init : WF init := by
  constructor <;> simp [init, Live]

theorem Dyn_init : Dyn init := by simp [DynEx, init]

/-! ### Changing the fields of a session -/

theorem WF.congr {t t' : Table} (h : WF t) (h4 : t'.tree4 = t.tree4) (h6 : t'.tree6 = t.tree6)
    (hs : t'.sess = t.sess) (hl : t'.lists = t.lists)
    (hi : ∀ k, Live t k → (t'.info k).expirer = (t.info k).expirer) : WF t' := by
  have hlive : ∀ k, Live t' k ↔ Live t k := by intro k; simp [Live, h4, hs]
  constructor
  · rw [h4]; exact h.s4
  · rw [h6]; exact h.s6
  · rw [h4, h6]; exact h.same
  · rw [h4, hs]; exact h.ss
  · rw [hl]; exact h.nd
  · intro τ k
    rw [hl, h.lk, hlive]
    constructor
    · rintro ⟨a, b⟩; exact ⟨a, by rw [hi k a, b]⟩
    · rintro ⟨a, b⟩; exact ⟨a, by rw [← hi k a, b]⟩

theorem WF.setInfo {t : Table} (h : WF t) (k : SessKey) (i : SessInfo)
    (hi : i.expirer = (t.info k).expirer) : WF (setInfo t k i) := by
  refine h.congr rfl rfl rfl rfl ?_
  intro k' _
  by_cases hk : k' = k
  · subst hk; simp [Bib.setInfo, upd_same, hi]
  · simp [Bib.setInfo, upd_ne _ _ hk]

/-- After removing a live session's list hook and putting it in list `τ` by any means. -/
theorem WF.relist {t t' : Table} (h : WF t) (k : SessKey) (hk : Live t k) (τ : TimerType)
    (h4 : t'.tree4 = t.tree4) (h6 : t'.tree6 = t.tree6) (hs : t'.sess = t.sess)
    (hi : ∀ k', k' ≠ k → (t'.info k').expirer = (t.info k').expirer)
    (hik : (t'.info k).expirer = τ)
    (hτ : (t'.lists τ).Perm (k :: (t.lists τ).erase k))
    (ho : ∀ τ', τ' ≠ τ → t'.lists τ' = (t.lists τ').erase k) : WF t' := by
  have hlive : ∀ k, Live t' k ↔ Live t k := by intro k; simp [Live, h4, hs]
  constructor
  · rw [h4]; exact h.s4
  · rw [h6]; exact h.s6
  · rw [h4, h6]; exact h.same
  · rw [h4, hs]; exact h.ss
  · intro τ'
    by_cases hτ' : τ' = τ
    · subst hτ'
      rw [hτ.nodup_iff, List.nodup_cons]
      exact ⟨fun hm => (List.Nodup.mem_erase_iff (h.nd _)).1 hm |>.1 rfl, (h.nd _).erase _⟩
    · rw [ho τ' hτ']; exact (h.nd _).erase _
  · intro τ' k'
    rw [hlive]
    by_cases hτ' : τ' = τ
    · subst hτ'
      rw [hτ.mem_iff, List.mem_cons, List.Nodup.mem_erase_iff (h.nd _), h.lk]
      by_cases hkk : k' = k
      · subst hkk; simp [hk, hik]
      · simp [hkk, hi k' hkk]
    · rw [ho τ' hτ', List.Nodup.mem_erase_iff (h.nd _), h.lk]
      by_cases hkk : k' = k
      · subst hkk; simp [hik]; intro _ e; exact absurd e.symm hτ'
      · simp [hkk, hi k' hkk]

theorem WF.fateTimer {t : Table} (h : WF t) (now : Nat) {k : SessKey} (hk : Live t k)
    (τ : TimerType) : WF (fateTimer now t k τ) := by
  refine h.relist k hk τ rfl rfl rfl ?_ ?_ ?_ ?_
  · intro k' hne; simp [Bib.fateTimer, listDel, Bib.setInfo, upd_ne _ _ hne]
  · simp [Bib.fateTimer, listDel, Bib.setInfo, upd_same]
  · simp only [Bib.fateTimer, listDel, Bib.setInfo, upd_same]
    exact List.perm_append_singleton _ _
  · intro τ' hne; simp [Bib.fateTimer, listDel, Bib.setInfo, upd_ne _ _ hne]

theorem slowInsert_perm (ut : SessKey → Nat) (k : SessKey) (l : List SessKey) :
    (slowInsert ut k l).Perm (k :: l) := by
  induction l with
  | nil => exact List.Perm.refl _
  | cons x xs ih =>
    unfold slowInsert
    split
    · exact (List.Perm.cons x ih).trans (List.Perm.swap k x xs)
    · exact List.Perm.refl _

theorem WF.queueUnsorted {t t' : Table} (h : WF t) {k : SessKey} (hk : Live t k)
    (τ : Option TimerType) (hq : queueUnsorted t k τ true = some t') : WF t' := by
  cases τ with
  | none => simp [Bib.queueUnsorted] at hq
  | some τ =>
    simp only [Bib.queueUnsorted, if_true, Option.some.injEq] at hq
    subst hq
    refine h.relist k hk τ rfl rfl rfl ?_ ?_ ?_ ?_
    · intro k' hne; simp [listDel, Bib.setInfo, upd_ne _ _ hne]
    · simp [listDel, Bib.setInfo, upd_same]
    · simp only [listDel, Bib.setInfo, upd_same]
      exact slowInsert_perm _ _ _
    · intro τ' hne; simp [listDel, Bib.setInfo, upd_ne _ _ hne]

theorem killStored_eq (t : Table) (k : SessKey) :
    (killStored t k).1.tree4 = t.tree4 ∧ (killStored t k).1.tree6 = t.tree6 ∧
    (killStored t k).1.sess = t.sess ∧ (killStored t k).1.lists = t.lists ∧
    (killStored t k).1.isStatic = t.isStatic ∧ (killStored t k).1.queue = t.queue ∧
    (killStored t k).1.statBib = t.statBib ∧ (killStored t k).1.statSess = t.statSess ∧
    (killStored t k).1.info = upd t.info k { t.info k with stored := none } := by
  unfold killStored
  cases hs : (t.info k).stored with
  | none =>
    simp only [true_and]
    funext x
    by_cases hx : x = k
    · subst hx; rw [upd_same]; rw [← hs]
    · rw [upd_ne _ _ hx]
  | some s => simp [setInfo]

theorem handleProbe_eq (oom : Oom) (p : Bool) (t : Table) (k : SessKey) :
    (handleProbe oom p t k).1.tree4 = t.tree4 ∧ (handleProbe oom p t k).1.tree6 = t.tree6 ∧
    (handleProbe oom p t k).1.sess = t.sess ∧ (handleProbe oom p t k).1.lists = t.lists ∧
    (handleProbe oom p t k).1.isStatic = t.isStatic ∧ (handleProbe oom p t k).1.queue = t.queue ∧
    (handleProbe oom p t k).1.statBib = t.statBib ∧ (handleProbe oom p t k).1.statSess = t.statSess ∧
    (handleProbe oom p t k).1.info = upd t.info k { t.info k with stored := none } := by
  have hk := killStored_eq t k
  unfold handleProbe
  split
  · exact hk
  · split
    · exact hk
    · cases hs : (t.info k).stored with
      | none =>
        simp only [true_and]
        funext x
        by_cases hx : x = k
        · subst hx; rw [upd_same]; rw [← hs]
        · rw [upd_ne _ _ hx]
      | some s => simp [setInfo]

theorem WF.updInfo {t t' : Table} (h : WF t) (k : SessKey) (i : SessInfo)
    (hi : i.expirer = (t.info k).expirer) (h4 : t'.tree4 = t.tree4) (h6 : t'.tree6 = t.tree6)
    (hs : t'.sess = t.sess) (hl : t'.lists = t.lists) (hinfo : t'.info = upd t.info k i) : WF t' := by
  refine h.congr h4 h6 hs hl ?_
  intro k' _
  rw [hinfo]
  by_cases hk : k' = k
  · subst hk; simp [upd_same, hi]
  · simp [upd_ne _ _ hk]

theorem WF.killStored {t : Table} (h : WF t) (k : SessKey) : WF (killStored t k).1 := by
  obtain ⟨a, b, c, d, _, _, _, _, e⟩ := killStored_eq t k
  exact h.updInfo k { t.info k with stored := none } rfl a b c d e

theorem WF.handleProbe {t : Table} (h : WF t) (oom p) (k : SessKey) :
    WF (handleProbe oom p t k).1 := by
  obtain ⟨a, b, c, d, _, _, _, _, e⟩ := handleProbe_eq oom p t k
  exact h.updInfo k { t.info k with stored := none } rfl a b c d e

/-! ### Removing a session -/

/-- The part of `rm` after the stored packet was dealt with, before reaping the BIB entry. -/
def unlink (t : Table) (k : SessKey) : Table :=
  let t := listDel (treeDel t k) k
  { t with statSess := t.statSess - 1 }

theorem Live_unlink {t : Table} (h : WF t) {k : SessKey} (hk : Live t k) (k' : SessKey) :
    Live (unlink t k) k' ↔ Live t k' ∧ k' ≠ k := by
  simp only [Live, unlink, listDel, treeDel]
  by_cases hb : k'.bib = k.bib
  · rw [hb, upd_same, List.Nodup.mem_erase_iff (sorted_nodup (h.ss _ hk.1))]
    have : k' ≠ k ↔ k'.dst4 ≠ k.dst4 := by
      constructor
      · intro hne he
        apply hne
        cases k; cases k'; simp_all
      · rintro hne rfl; exact hne rfl
    rw [this]
    constructor
    · rintro ⟨a, b, c⟩; exact ⟨⟨a, c⟩, b⟩
    · rintro ⟨⟨a, c⟩, b⟩; exact ⟨a, b, c⟩
  · rw [upd_ne _ _ hb]
    have : k' ≠ k := by rintro rfl; exact hb rfl
    simp [this]

theorem WF.unlink {t : Table} (h : WF t) {k : SessKey} (hk : Live t k) : WF (unlink t k) := by
  constructor
  · exact h.s4
  · exact h.s6
  · exact h.same
  · intro b hb
    show List.Pairwise _ (upd t.sess k.bib ((t.sess k.bib).erase k.dst4) b)
    by_cases hbb : b = k.bib
    · subst hbb; rw [upd_same]; exact (h.ss _ hb).sublist (List.erase_sublist)
    · rw [upd_ne _ _ hbb]; exact h.ss _ hb
  · intro τ; exact (h.nd τ).erase _
  · intro τ k'
    rw [Live_unlink h hk]
    show k' ∈ (t.lists τ).erase k ↔ _
    rw [List.Nodup.mem_erase_iff (h.nd τ), h.lk]
    show _ ↔ _ ∧ (t.info k').expirer = τ
    constructor
    · rintro ⟨a, b, c⟩; exact ⟨⟨b, a⟩, c⟩
    · rintro ⟨⟨b, a⟩, c⟩; exact ⟨a, b, c⟩

theorem Live_reapBib {t : Table} (h : WF t) (b : BibKey) (k : SessKey) :
    Live (reapBib t b) k ↔ Live t k := by
  unfold reapBib
  split
  · rename_i hc
    simp only [Bool.and_eq_true, Bool.not_eq_true', List.isEmpty_iff] at hc
    simp only [Live]
    rw [List.Nodup.mem_erase_iff (sorted_nodup h.s4)]
    constructor
    · rintro ⟨⟨_, a⟩, c⟩; exact ⟨a, c⟩
    · rintro ⟨a, c⟩
      refine ⟨⟨?_, a⟩, c⟩
      rintro he
      rw [he, hc.2] at c
      simp at c
  · exact Iff.rfl

theorem WF.reapBib {t : Table} (h : WF t) (b : BibKey) : WF (reapBib t b) := by
  have hl := Live_reapBib h b
  unfold Bib.reapBib at hl ⊢
  split
  · rename_i hc
    rw [if_pos hc] at hl
    constructor
    · exact h.s4.sublist List.erase_sublist
    · exact h.s6.sublist List.erase_sublist
    · intro b'
      rw [List.Nodup.mem_erase_iff (sorted_nodup h.s6), List.Nodup.mem_erase_iff (sorted_nodup h.s4),
        h.same]
    · intro b' hb'; exact h.ss _ (List.mem_of_mem_erase hb')
    · exact h.nd
    · intro τ k; rw [hl]; exact h.lk τ k
  · exact h

theorem Dyn_reap_unlink {t : Table} (h : WF t) {k : SessKey} (hd : Dyn t) :
    Dyn (Bib.reapBib (unlink t k) k.bib) := by
  intro b hb _
  unfold Bib.reapBib at hb ⊢
  split at hb
  · rename_i hc
    rw [if_pos hc]
    have hb' : b ∈ t.tree4.erase k.bib := hb
    rw [List.Nodup.mem_erase_iff (sorted_nodup h.s4)] at hb'
    have := hd b hb'.2 (by simp)
    simpa [unlink, listDel, treeDel, upd_ne _ _ hb'.1] using this
  · rename_i hc
    rw [if_neg hc]
    by_cases hbk : b = k.bib
    · subst hbk
      simp only [Bool.and_eq_true, Bool.not_eq_true', List.isEmpty_iff, not_and] at hc
      by_cases hst : (unlink t k).isStatic k.bib = true
      · exact .inl hst
      · exact .inr (hc (by simpa using hst))
    · have := hd b hb (by simp)
      simpa [unlink, listDel, treeDel, upd_ne _ _ hbk] using this

end Jool.Bib
