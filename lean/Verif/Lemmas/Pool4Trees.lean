import Verif.Lemmas.Pool4
/-
Auxiliary facts about the trees of pool4 and the operations on them.
-/
namespace Jool.Pool4

def MSet (l : List MT) (m : BitVec 32) (a : T4) : Prop := ∃ t ∈ l, t.mark = m ∧ InEs t.t.es a
def ASet (l : List AT) (a : T4) : Prop := ∃ t ∈ l, InEs t.t.es a

structure WFm (l : List MT) : Prop where
  sorted : l.Pairwise (fun a b => markKey a < markKey b)
  wf : ∀ t ∈ l, WFes t.t.es
  ne : ∀ t ∈ l, t.t.es ≠ []

structure WFa (l : List AT) : Prop where
  sorted : l.Pairwise (fun a b => addrKey a < addrKey b)
  wf : ∀ t ∈ l, WFes t.t.es
  ne : ∀ t ∈ l, t.t.es ≠ []
  addr : ∀ t ∈ l, ∀ e ∈ t.t.es, e.addr = t.addr

def Counted (l : List MT) : Prop := ∀ t ∈ l, t.t.count = total32 t.t.es

theorem markKey_inj {a b : MT} (h : markKey a = markKey b) : a.mark = b.mark := by
  simp only [markKey] at h
  have h1 := (a.mark + 0x80000000#32).isLt
  have h2 := (b.mark + 0x80000000#32).isLt
  have : a.mark + 0x80000000#32 = b.mark + 0x80000000#32 := BitVec.eq_of_toNat_eq (by omega)
  exact (BitVec.add_left_inj _).1 this

theorem markKey_congr {a b : MT} (h : a.mark = b.mark) : markKey a = markKey b := by
  simp only [markKey, h]

theorem findMark_some {l : List MT} {m : BitVec 32} {t : MT} (h : findMark l m = some t) : t ∈ l ∧ t.mark = m :=
  ⟨List.mem_of_find?_eq_some h, by simpa using List.find?_some h⟩

theorem findMark_none {l : List MT} {m : BitVec 32} (h : findMark l m = none) : ∀ t ∈ l, t.mark ≠ m := by
  simpa [findMark] using h

theorem findAddr_some {l : List AT} {m : Addr4} {t : AT} (h : findAddr l m = some t) : t ∈ l ∧ t.addr = m :=
  ⟨List.mem_of_find?_eq_some h, by simpa using List.find?_some h⟩

theorem findAddr_none {l : List AT} {m : Addr4} (h : findAddr l m = none) : ∀ t ∈ l, t.addr ≠ m := by
  simpa [findAddr] using h

/-- Two elements of a list sorted by a key with the same key are the same. -/
theorem sorted_unique {α} {f : α → Nat} {l : List α} (h : l.Pairwise (fun a b => f a < f b)) {a b : α}
    (ha : a ∈ l) (hb : b ∈ l) (he : f a = f b) : a = b := by
  induction l with
  | nil => simp at ha
  | cons x l ih =>
    obtain ⟨h1, h2⟩ := List.pairwise_cons.1 h
    rcases List.mem_cons.1 ha with ha | ha <;> rcases List.mem_cons.1 hb with hb | hb
    · rw [ha, hb]
    · have := h1 b hb; rw [ha] at he; omega
    · have := h1 a ha; rw [hb] at he; omega
    · exact ih h2 ha hb

theorem WFm.unique {l : List MT} (h : WFm l) {a b : MT} (ha : a ∈ l) (hb : b ∈ l) (he : a.mark = b.mark) : a = b :=
  sorted_unique h.sorted ha hb (markKey_congr he)

theorem WFa.unique {l : List AT} (h : WFa l) {a b : AT} (ha : a ∈ l) (hb : b ∈ l) (he : a.addr = b.addr) : a = b :=
  sorted_unique h.sorted ha hb (by simp only [addrKey, he])

theorem setIters_t (e : Entry) (t : MT) : (setIters e t).t = t.t := by unfold setIters; split <;> rfl
theorem setIters_mark (e : Entry) (t : MT) : (setIters e t).mark = t.mark := by unfold setIters; split <;> rfl

/-- The new range adds nothing to the entry it touches. -/
def Gentle (es : List E) (n : E) : Prop :=
  ∀ x ∈ es, compareRange x n = 0 → x.min ≤ n.min ∧ n.max ≤ x.max

theorem fuse_self {x n : E} (h : x.min ≤ n.min ∧ n.max ≤ x.max) : fuse x n = x := by
  obtain ⟨a, mn, mx⟩ := x
  have h1 := fuse_min ⟨a, mn, mx⟩ n
  have h2 := fuse_max ⟨a, mn, mx⟩ n
  dsimp only at h h1 h2
  have : fuse ⟨a, mn, mx⟩ n = ⟨a, (fuse ⟨a, mn, mx⟩ n).min, (fuse ⟨a, mn, mx⟩ n).max⟩ := rfl
  rw [this, h1, h2, Nat.min_eq_left h.1, Nat.max_eq_left h.2]

theorem addRange_count (kr : Kr) (t t' : Tbl) (n : E) (mv : Bool) (h : WFes t.es) (hn : OkE n)
    (hs : addRange kr t n = .done t' mv) (hg : Gentle t.es n) (hc : t.count = total32 t.es) :
    t'.count = total32 t'.es := by
  obtain ⟨_, _, _, _, h5⟩ := addRange_spec kr t t' n mv h hn hs
  rcases h5 with ⟨e, he, hz, h5⟩ | ⟨_, h5⟩
  · rw [fuse_self (hg e he hz)] at h5
    generalize total32 t.es = T at *
    generalize total32 t'.es = T' at *
    grind
  · generalize total32 t.es = T at *
    generalize total32 t'.es = T' at *
    grind

theorem createTable_count (n : E) : (createTable n).count = total32 (createTable n).es := by
  simp [createTable, total32]

/-- `add_to_mark_tree`. -/
theorem addToMark_spec {kr : Kr} {l l' : List MT} {e : Entry} {n : E} {err : Bool} (h : WFm l) (hn : OkE n)
    (hs : addToMark kr l e n = .ok (l', err)) :
    WFm l' ∧ (err = true → l' = l ∧ kr = .fail) ∧
      (err = false →
        (∀ m a, MSet l' m a ↔ MSet l m a ∨ (m = e.mark ∧ Cov n a)) ∧
        (∀ t' ∈ l', t'.mark = e.mark → ∀ g ∈ t'.t.es, g.addr = n.addr ∨ ∃ t ∈ l, t.mark = e.mark ∧ g ∈ t.t.es) ∧
        (Counted l → (∀ t ∈ l, t.mark = e.mark → Gentle t.t.es n) → Counted l')) := by
  unfold addToMark at hs
  cases hf : findMark l e.mark with
  | some t =>
    obtain ⟨ht, hm⟩ := findMark_some hf
    rw [hf] at hs
    dsimp only at hs
    cases hr : addRange kr t.t n with
    | enomem =>
      rw [hr] at hs
      simp only [Outcome.ok.injEq, Prod.mk.injEq] at hs
      obtain ⟨rfl, rfl⟩ := hs
      refine ⟨h, fun _ => ⟨rfl, ?_⟩, by simp⟩
      unfold addRange at hr
      split at hr
      · simp at hr
      · cases kr <;> simp at hr ⊢
    | done t' mv =>
      rw [hr] at hs
      dsimp only at hs
      split at hs
      · simp at hs
      · simp only [Outcome.ok.injEq, Prod.mk.injEq] at hs
        obtain ⟨rfl, rfl⟩ := hs
        obtain ⟨k1, k2, k3, k4, k5⟩ := addRange_spec kr t.t t' n mv (h.wf t ht) hn hr
        have hmark : ∀ x : MT, (if x.mark = e.mark then setIters e { x with t := t' } else x).mark = x.mark := by
          intro x; split
          · rw [setIters_mark]
          · rfl
        refine ⟨⟨?_, ?_, ?_⟩, by simp, fun _ => ⟨?_, ?_, ?_⟩⟩
        · rw [List.pairwise_map]
          refine h.sorted.imp ?_
          intro a b hab
          rw [markKey_congr (hmark a), markKey_congr (hmark b)]
          exact hab
        · intro x hx
          obtain ⟨y, hy, rfl⟩ := List.mem_map.1 hx
          split
          · rw [setIters_t]; exact k1
          · exact h.wf y hy
        · intro x hx
          obtain ⟨y, hy, rfl⟩ := List.mem_map.1 hx
          split
          · rw [setIters_t]; exact k2
          · exact h.ne y hy
        · intro m a
          constructor
          · rintro ⟨x, hx, hxm, hxa⟩
            obtain ⟨y, hy, rfl⟩ := List.mem_map.1 hx
            rw [hmark] at hxm
            split at hxa
            · rename_i hym
              rw [setIters_t] at hxa
              rcases (k3 a).1 hxa with h1 | h1
              · exact .inl ⟨t, ht, hm.trans (hym.symm.trans hxm), h1⟩
              · exact .inr ⟨hxm.symm.trans hym, h1⟩
            · exact .inl ⟨y, hy, hxm, hxa⟩
          · rintro (⟨y, hy, hym, hya⟩ | ⟨rfl, hc⟩)
            · refine ⟨_, List.mem_map.2 ⟨y, hy, rfl⟩, by rw [hmark]; exact hym, ?_⟩
              split
              · rename_i hye
                rw [setIters_t]
                have : y = t := h.unique hy ht (hye.trans hm.symm)
                subst this
                exact (k3 a).2 (.inl hya)
              · exact hya
            · refine ⟨_, List.mem_map.2 ⟨t, ht, rfl⟩, by rw [hmark]; exact hm, ?_⟩
              rw [if_pos hm, setIters_t]
              exact (k3 a).2 (.inr hc)
        · intro x hx hxm g hg
          obtain ⟨y, hy, rfl⟩ := List.mem_map.1 hx
          rw [hmark] at hxm
          rw [if_pos hxm, setIters_t] at hg
          rcases k4 g hg with h1 | h1
          · exact .inl h1
          · exact .inr ⟨t, ht, hm, h1⟩
        · intro hc hg x hx
          obtain ⟨y, hy, rfl⟩ := List.mem_map.1 hx
          split
          · rw [setIters_t]
            exact addRange_count kr t.t t' n mv (h.wf t ht) hn hr (hg t ht hm) (hc t ht)
          · exact hc y hy
  | none =>
    have hno := findMark_none hf
    rw [hf] at hs
    dsimp only at hs
    generalize hnew : setIters e ⟨e.mark, createTable n, ⟨false, true, false⟩, 0⟩ = new at hs
    have hnm : new.mark = e.mark := by rw [← hnew, setIters_mark]
    have hnt : new.t = createTable n := by rw [← hnew, setIters_t]
    by_cases hk : kr = .fail
    · subst hk
      simp only [Outcome.ok.injEq, Prod.mk.injEq] at hs
      obtain ⟨rfl, rfl⟩ := hs
      exact ⟨h, by simp, by simp⟩
    · have hs' : l' = Bib.insBy markKey new l ∧ err = false := by
        cases kr <;> simp at hs hk <;> exact ⟨hs.1.symm, hs.2⟩
      obtain ⟨rfl, rfl⟩ := hs'
      have hmem : ∀ x, x ∈ Bib.insBy markKey new l ↔ x = new ∨ x ∈ l := fun x => Bib.mem_insBy _ _ _ _
      refine ⟨⟨?_, ?_, ?_⟩, by simp, fun _ => ⟨?_, ?_, ?_⟩⟩
      · refine Bib.insBy_sorted markKey new l h.sorted ?_
        intro y hy hc
        exact hno y hy ((markKey_inj hc).trans hnm)
      · intro x hx
        rcases (hmem x).1 hx with rfl | hx
        · rw [hnt]; exact wfes_single hn
        · exact h.wf x hx
      · intro x hx
        rcases (hmem x).1 hx with rfl | hx
        · rw [hnt]; simp [createTable]
        · exact h.ne x hx
      · intro m a
        constructor
        · rintro ⟨x, hx, hxm, hxa⟩
          rcases (hmem x).1 hx with rfl | hx
          · rw [hnt] at hxa
            exact .inr ⟨hxm.symm.trans hnm, inEs_single.1 hxa⟩
          · exact .inl ⟨x, hx, hxm, hxa⟩
        · rintro (⟨x, hx, hxm, hxa⟩ | ⟨rfl, hc⟩)
          · exact ⟨x, (hmem x).2 (.inr hx), hxm, hxa⟩
          · exact ⟨new, (hmem new).2 (.inl rfl), hnm, by rw [hnt]; exact inEs_single.2 hc⟩
      · intro x hx hxm g hg
        rcases (hmem x).1 hx with rfl | hx
        · rw [hnt] at hg
          simp only [createTable, List.mem_singleton] at hg
          exact .inl (by rw [hg])
        · exact absurd hxm (hno x hx)
      · intro hc _ x hx
        rcases (hmem x).1 hx with rfl | hx
        · rw [hnt]; exact createTable_count n
        · exact hc x hx

/-- `add_to_addr_tree`. -/
theorem addToAddr_spec {kr : Kr} {l l' : List AT} {n : E} {err : Bool} (h : WFa l) (hn : OkE n)
    (hs : addToAddr kr l n = (l', err)) :
    WFa l' ∧ (err = true → l' = l ∧ kr = .fail) ∧
      (err = false → ∀ a, ASet l' a ↔ ASet l a ∨ Cov n a) := by
  unfold addToAddr at hs
  cases hf : findAddr l n.addr with
  | some t =>
    obtain ⟨ht, hm⟩ := findAddr_some hf
    rw [hf] at hs
    dsimp only at hs
    cases hr : addRange kr t.t n with
    | enomem =>
      rw [hr] at hs
      simp only [Prod.mk.injEq] at hs
      obtain ⟨rfl, rfl⟩ := hs
      refine ⟨h, fun _ => ⟨rfl, ?_⟩, by simp⟩
      unfold addRange at hr
      split at hr
      · simp at hr
      · cases kr <;> simp at hr ⊢
    | done t' mv =>
      rw [hr] at hs
      simp only [Prod.mk.injEq] at hs
      obtain ⟨rfl, rfl⟩ := hs
      obtain ⟨k1, k2, k3, k4, k5⟩ := addRange_spec kr t.t t' n mv (h.wf t ht) hn hr
      have hmark : ∀ x : AT, (if x.addr = n.addr then { x with t := t' } else x).addr = x.addr := by
        intro x; split <;> rfl
      refine ⟨⟨?_, ?_, ?_, ?_⟩, by simp, fun _ => ?_⟩
      · rw [List.pairwise_map]
        refine h.sorted.imp ?_
        intro a b hab
        simp only [addrKey, hmark] at hab ⊢
        exact hab
      · intro x hx
        obtain ⟨y, hy, rfl⟩ := List.mem_map.1 hx
        split
        · exact k1
        · exact h.wf y hy
      · intro x hx
        obtain ⟨y, hy, rfl⟩ := List.mem_map.1 hx
        split
        · exact k2
        · exact h.ne y hy
      · intro x hx g hg
        obtain ⟨y, hy, rfl⟩ := List.mem_map.1 hx
        rw [hmark]
        split at hg
        · rename_i hya
          rcases k4 g hg with h1 | h1
          · exact h1.trans hya.symm
          · exact (h.addr t ht g h1).trans (hm.trans hya.symm)
        · exact h.addr y hy g hg
      · intro a
        constructor
        · rintro ⟨x, hx, hxa⟩
          obtain ⟨y, hy, rfl⟩ := List.mem_map.1 hx
          split at hxa
          · rcases (k3 a).1 hxa with h1 | h1
            · exact .inl ⟨t, ht, h1⟩
            · exact .inr h1
          · exact .inl ⟨y, hy, hxa⟩
        · rintro (⟨y, hy, hya⟩ | hc)
          · refine ⟨_, List.mem_map.2 ⟨y, hy, rfl⟩, ?_⟩
            split
            · rename_i hye
              have : y = t := h.unique hy ht (hye.trans hm.symm)
              subst this
              exact (k3 a).2 (.inl hya)
            · exact hya
          · refine ⟨_, List.mem_map.2 ⟨t, ht, rfl⟩, ?_⟩
            rw [if_pos hm]
            exact (k3 a).2 (.inr hc)
  | none =>
    have hno := findAddr_none hf
    rw [hf] at hs
    dsimp only at hs
    by_cases hk : kr = .fail
    · subst hk
      simp only [Prod.mk.injEq] at hs
      obtain ⟨rfl, rfl⟩ := hs
      exact ⟨h, by simp, by simp⟩
    · have hs' : l' = Bib.insBy addrKey ⟨n.addr, createTable n⟩ l ∧ err = false := by
        cases kr <;> simp at hs hk <;> exact ⟨hs.1.symm, hs.2⟩
      obtain ⟨rfl, rfl⟩ := hs'
      have hmem : ∀ x, x ∈ Bib.insBy addrKey ⟨n.addr, createTable n⟩ l ↔ x = ⟨n.addr, createTable n⟩ ∨ x ∈ l :=
        fun x => Bib.mem_insBy _ _ _ _
      refine ⟨⟨?_, ?_, ?_, ?_⟩, by simp, fun _ => ?_⟩
      · refine Bib.insBy_sorted addrKey _ l h.sorted ?_
        intro y hy hc
        exact hno y hy (BitVec.eq_of_toNat_eq hc)
      · intro x hx
        rcases (hmem x).1 hx with rfl | hx
        · exact wfes_single hn
        · exact h.wf x hx
      · intro x hx
        rcases (hmem x).1 hx with rfl | hx
        · simp [createTable]
        · exact h.ne x hx
      · intro x hx g hg
        rcases (hmem x).1 hx with rfl | hx
        · simp only [createTable, List.mem_singleton] at hg
          rw [hg]
        · exact h.addr x hx g hg
      · intro a
        constructor
        · rintro ⟨x, hx, hxa⟩
          rcases (hmem x).1 hx with rfl | hx
          · exact .inr (inEs_single.1 hxa)
          · exact .inl ⟨x, hx, hxa⟩
        · rintro (⟨x, hx, hxa⟩ | hc)
          · exact ⟨x, (hmem x).2 (.inr hx), hxa⟩
          · exact ⟨_, (hmem _).2 (.inl rfl), inEs_single.2 hc⟩

structure WFp (pt : PT) : Prop where
  m : WFm pt.marks
  a : WFa pt.addrs

/-- The loop of `pool4db_add`. -/
theorem addLoop_spec (kr : Oracle) (e : Entry) (lo hi : Nat) (as : List Addr4) (pt pt' : PT) (err : Bool)
    (hok : lo ≤ hi + 1 ∧ lo ≤ 65535 ∧ hi ≤ 65535) (h : WFp pt) (hs : addLoop kr e lo hi pt as = .ok (pt', err)) :
    WFp pt' ∧ (err = true → ∃ b a, kr b a = .fail) ∧
      (err = false → ∀ m a, MSet pt'.marks m a ↔ MSet pt.marks m a ∨ (m = e.mark ∧ ∃ x ∈ as, Cov ⟨x, lo, hi⟩ a)) ∧
      (err = false → ∀ a, ASet pt'.addrs a ↔ ASet pt.addrs a ∨ ∃ x ∈ as, Cov ⟨x, lo, hi⟩ a) ∧
      (∀ m a, MSet pt.marks m a → MSet pt'.marks m a) ∧
      (∀ a, ASet pt'.addrs a → ASet pt.addrs a ∨ MSet pt'.marks e.mark a) ∧
      (as.Nodup → Counted pt.marks → (∀ x ∈ as, ∀ t ∈ pt.marks, t.mark = e.mark → Gentle t.t.es ⟨x, lo, hi⟩) →
        Counted pt'.marks) := by
  induction as generalizing pt with
  | nil =>
    simp only [addLoop, Outcome.ok.injEq, Prod.mk.injEq] at hs
    obtain ⟨rfl, rfl⟩ := hs
    simp only [h, List.not_mem_nil, false_and, exists_false, and_false, or_false]
    simp
    exact fun _ h => .inl h
  | cons x as ih =>
    have hn : OkE ⟨x, lo, hi⟩ := hok
    rw [addLoop] at hs
    cases h1 : addToMark (kr true x) pt.marks e ⟨x, lo, hi⟩ with
    | ub u => rw [h1] at hs; simp at hs
    | ok r =>
      obtain ⟨m, e1⟩ := r
      rw [h1] at hs
      obtain ⟨k1, k2, k3⟩ := addToMark_spec h.m hn h1
      cases e1 with
      | true =>
        simp only [Outcome.ok.injEq, Prod.mk.injEq] at hs
        obtain ⟨rfl, rfl⟩ := hs
        refine ⟨h, fun _ => ⟨_, _, (k2 rfl).2⟩, by simp, by simp, fun _ _ h => h, fun _ h => .inl h, fun _ hc _ => hc⟩
      | false =>
        obtain ⟨s1, s2, s3⟩ := k3 rfl
        cases h2 : addToAddr (kr false x) pt.addrs ⟨x, lo, hi⟩ with
        | mk l e2 =>
          dsimp only at hs
          rw [h2] at hs
          obtain ⟨q1, q2, q3⟩ := addToAddr_spec h.a hn h2
          cases e2 with
          | true =>
            simp only [Outcome.ok.injEq, Prod.mk.injEq] at hs
            obtain ⟨rfl, rfl⟩ := hs
            refine ⟨⟨k1, h.a⟩, fun _ => ⟨_, _, (q2 rfl).2⟩, by simp, by simp, fun m a hh => (s1 m a).2 (.inl hh),
              fun _ h => .inl h, ?_⟩
            intro _ hc hg
            exact s3 hc (hg x (List.mem_cons_self ..))
          | false =>
            dsimp only at hs
            have q3 := q3 rfl
            obtain ⟨w1, w2, w3, w4, w5, w6, w7⟩ := ih ⟨m, l⟩ ⟨k1, q1⟩ hs
            refine ⟨w1, w2, ?_, ?_, ?_, ?_, ?_⟩
            · intro he mk a
              rw [w3 he, s1]
              simp only [List.mem_cons, exists_eq_or_imp]
              constructor
              · rintro ((h | h) | h)
                · exact .inl h
                · exact .inr ⟨h.1, .inl h.2⟩
                · exact .inr ⟨h.1, .inr h.2⟩
              · rintro (h | ⟨h, h' | h'⟩)
                · exact .inl (.inl h)
                · exact .inl (.inr ⟨h, h'⟩)
                · exact .inr ⟨h, h'⟩
            · intro he a
              rw [w4 he, q3]
              simp only [List.mem_cons, exists_eq_or_imp, or_assoc]
            · intro mk a hh
              exact w5 mk a ((s1 mk a).2 (.inl hh))
            · intro a ha
              rcases w6 a ha with h1 | h1
              · rcases (q3 a).1 h1 with h2 | h2
                · exact .inl h2
                · exact .inr (w5 _ a ((s1 _ a).2 (.inr ⟨rfl, h2⟩)))
              · exact .inr h1
            · intro hnd hc hg
              obtain ⟨hx, hnd⟩ := List.nodup_cons.1 hnd
              refine w7 hnd (s3 hc (hg x (List.mem_cons_self ..))) ?_
              intro y hy t ht htm g hgm hz
              rcases s2 t ht htm g hgm with h1 | ⟨t0, ht0, hm0, hg0⟩
              · exfalso
                have := (cmp_zero.1 hz).1
                rw [h1] at this
                dsimp only at this
                exact hx (this ▸ hy)
              · exact hg y (List.mem_cons_of_mem _ hy) t0 ht0 hm0 g hg0 hz

/-! ### Removal -/

theorem removeRange_spec {kr : Addr4 → Kr} {pfx : Prefix4} {lo hi : Nat} (hlh : lo ≤ hi) (hhi : hi ≤ 65535)
    {t : Tbl} {o : Option Tbl} {err : Bool} (h : WFes t.es)
    (hs : removeRange kr pfx lo hi t = .ok (o, err)) :
    (∀ t' ∈ o, WFes t'.es ∧ t'.es ≠ [] ∧ (∀ g ∈ t'.es, ∃ e ∈ t.es, Sub g e)) ∧
      (err = true → ∃ a, kr a = .fail) ∧
      (err = false → ∀ a, (∃ t' ∈ o, InEs t'.es a) ↔ InEs t.es a ∧ ¬ RmCov pfx lo hi a) ∧
      (err = false → (∀ e ∈ t.es, ¬ Hole pfx lo hi e) → t.count = total32 t.es →
        ∀ t' ∈ o, t'.count = total32 t'.es) := by
  unfold removeRange at hs
  cases hq : removeLoop kr pfx lo hi t.count t.es with
  | ub u => rw [hq] at hs; simp [Outcome.map] at hs
  | ok q =>
    rw [hq] at hs
    simp only [Outcome.map, Outcome.ok.injEq, Prod.mk.injEq] at hs
    obtain ⟨rfl, rfl⟩ := hs
    obtain ⟨k1, k2, k3, k4, k5, k6⟩ := remove_spec kr pfx lo hi hlh hhi _ _ _ h hq
    by_cases hne : q.2.1 = []
    · rw [if_pos hne]
      refine ⟨by simp, k4, ?_, by simp⟩
      intro hf a
      have := k3 hf a
      rw [hne] at this
      rw [← this]
      simp [InEs]
    · rw [if_neg hne]
      refine ⟨?_, k4, ?_, ?_⟩
      · intro t' ht'
        simp only [Option.mem_def, Option.some.injEq] at ht'
        subst ht'
        exact ⟨k1, hne, k2⟩
      · intro hf a
        rw [← k3 hf a]
        simp
      · intro hf hh hc t' ht'
        simp only [Option.mem_def, Option.some.injEq] at ht'
        subst ht'
        have := k5 hf hh
        dsimp only
        generalize total32 t.es = T at *
        generalize total32 q.2.1 = T' at *
        grind

/-- `rm_from_mark_tree`. -/
theorem rmFromMark_spec {kr : Addr4 → Kr} {mark : BitVec 32} {pfx : Prefix4} {lo hi : Nat} (hlh : lo ≤ hi)
    (hhi : hi ≤ 65535) {l l' : List MT} {err : Bool} (h : WFm l)
    (hs : rmFromMark kr mark pfx lo hi l = .ok (l', err)) :
    WFm l' ∧ (err = true → ∃ a, kr a = .fail) ∧
      (err = false →
        (∀ m a, MSet l' m a ↔ MSet l m a ∧ ¬ (m = mark ∧ RmCov pfx lo hi a)) ∧
        (Counted l → (∀ t ∈ l, t.mark = mark → ∀ e ∈ t.t.es, ¬ Hole pfx lo hi e) → Counted l')) := by
  unfold rmFromMark at hs
  cases hf : findMark l mark with
  | none =>
    rw [hf] at hs
    simp only [Outcome.ok.injEq, Prod.mk.injEq] at hs
    obtain ⟨rfl, rfl⟩ := hs
    have hno := findMark_none hf
    refine ⟨h, by simp, fun _ => ⟨?_, fun hc _ => hc⟩⟩
    intro m a
    constructor
    · rintro ⟨t, ht, hm, ha⟩
      exact ⟨⟨t, ht, hm, ha⟩, fun hc => hno t ht (hm.trans hc.1)⟩
    · exact fun h => h.1
  | some t =>
    obtain ⟨ht, hm⟩ := findMark_some hf
    rw [hf] at hs
    dsimp only at hs
    cases hr : removeRange kr pfx lo hi t.t with
    | ub u => rw [hr] at hs; simp [Outcome.map] at hs
    | ok r =>
      rw [hr] at hs
      simp only [Outcome.map, Outcome.ok.injEq, Prod.mk.injEq] at hs
      obtain ⟨rfl, rfl⟩ := hs
      obtain ⟨k1, k2, k3, k4⟩ := removeRange_spec hlh hhi (h.wf t ht) (o := r.1) (err := r.2) hr
      have hmem : ∀ x, x ∈ l.filterMap (fun x => if x.mark = mark then r.1.map (fun t' => { x with t := t' }) else some x) ↔
          (x ∈ l ∧ x.mark ≠ mark) ∨ ∃ t' ∈ r.1, x = { t with t := t' } := by
        intro x
        rw [List.mem_filterMap]
        constructor
        · rintro ⟨y, hy, hyx⟩
          split at hyx
          · rename_i hym
            have : y = t := h.unique hy ht (hym.trans hm.symm)
            subst this
            obtain ⟨t', h1, h2⟩ := Option.map_eq_some_iff.1 hyx
            exact .inr ⟨t', h1, h2.symm⟩
          · rename_i hym
            injection hyx with hyx
            subst hyx
            exact .inl ⟨hy, hym⟩
        · rintro (⟨hx, hxm⟩ | ⟨t', h1, rfl⟩)
          · exact ⟨x, hx, by rw [if_neg hxm]⟩
          · refine ⟨t, ht, ?_⟩
            rw [if_pos hm]
            exact Option.map_eq_some_iff.2 ⟨t', h1, rfl⟩
      refine ⟨⟨?_, ?_, ?_⟩, k2, fun he => ⟨?_, ?_⟩⟩
      · rw [List.pairwise_filterMap]
        refine h.sorted.imp ?_
        intro a b hab a' ha' b' hb'
        have hk : ∀ (x x' : MT), (if x.mark = mark then r.1.map (fun t' => { x with t := t' }) else some x) = some x' →
            x'.mark = x.mark := by
          intro x x' hx
          split at hx
          · obtain ⟨t', _, h2⟩ := Option.map_eq_some_iff.1 hx
            rw [← h2]
          · injection hx with hx; rw [hx]
        rw [markKey_congr (hk a a' ha'), markKey_congr (hk b b' hb')]
        exact hab
      · intro x hx
        rcases (hmem x).1 hx with ⟨h1, _⟩ | ⟨t', h1, rfl⟩
        · exact h.wf x h1
        · exact (k1 t' h1).1
      · intro x hx
        rcases (hmem x).1 hx with ⟨h1, _⟩ | ⟨t', h1, rfl⟩
        · exact h.ne x h1
        · exact (k1 t' h1).2.1
      · intro m a
        constructor
        · rintro ⟨x, hx, hxm, hxa⟩
          rcases (hmem x).1 hx with ⟨h1, h2⟩ | ⟨t', h1, rfl⟩
          · exact ⟨⟨x, h1, hxm, hxa⟩, fun hc => h2 (hxm.trans hc.1)⟩
          · have := (k3 he a).1 ⟨t', h1, hxa⟩
            exact ⟨⟨t, ht, hxm, this.1⟩, fun hc => this.2 hc.2⟩
        · rintro ⟨⟨x, hx, hxm, hxa⟩, hn⟩
          by_cases hxk : x.mark = mark
          · have : x = t := h.unique hx ht (hxk.trans hm.symm)
            subst this
            obtain ⟨t', h1, h2⟩ := (k3 he a).2 ⟨hxa, fun hc => hn ⟨hxm.symm.trans hxk, hc⟩⟩
            exact ⟨_, (hmem _).2 (.inr ⟨t', h1, rfl⟩), hxm, h2⟩
          · exact ⟨x, (hmem x).2 (.inl ⟨hx, hxk⟩), hxm, hxa⟩
      · intro hc hh x hx
        rcases (hmem x).1 hx with ⟨h1, _⟩ | ⟨t', h1, rfl⟩
        · exact hc x h1
        · exact k4 he (hh t ht hm) (hc t ht) t' h1

/-- `rm_from_addr_tree`. -/
theorem rmFromAddr_spec {kr : Addr4 → Kr} {pfx : Prefix4} {lo hi : Nat} (hlh : lo ≤ hi) (hhi : hi ≤ 65535)
    {l l' : List AT} {err : Bool} (h : WFa l) (hs : rmFromAddr kr pfx lo hi l = .ok (l', err)) :
    WFa l' ∧ (∀ t' ∈ l', ∃ t ∈ l, t'.addr = t.addr) ∧ (err = true → ∃ a, kr a = .fail) ∧
      (err = false → ∀ a, ASet l' a ↔ ASet l a ∧ ¬ RmCov pfx lo hi a) ∧
      (∀ a, ASet l' a → ASet l a) := by
  induction l generalizing l' err with
  | nil =>
    simp only [rmFromAddr, Outcome.ok.injEq, Prod.mk.injEq] at hs
    obtain ⟨rfl, rfl⟩ := hs
    simp [h, ASet]
  | cons t ts ih =>
    have htl : WFa ts := ⟨(List.pairwise_cons.1 h.sorted).2, fun x hx => h.wf x (List.mem_cons_of_mem _ hx),
      fun x hx => h.ne x (List.mem_cons_of_mem _ hx), fun x hx => h.addr x (List.mem_cons_of_mem _ hx)⟩
    have hlt := (List.pairwise_cons.1 h.sorted).1
    have hcov : ∀ a, InEs t.t.es a → t.addr = a.addr := by
      rintro a ⟨e, he, hc, _⟩
      exact (h.addr t (List.mem_cons_self ..) e he).symm.trans hc
    have acons : ∀ (x : AT) (xs : List AT) a, ASet (x :: xs) a ↔ InEs x.t.es a ∨ ASet xs a := by
      intro x xs a; simp [ASet]
    have aapp : ∀ (x xs : List AT) a, ASet (x ++ xs) a ↔ ASet x a ∨ ASet xs a := by
      intro x xs a; simp only [ASet, List.mem_append]
      constructor
      · rintro ⟨w, h | h, h'⟩
        · exact .inl ⟨w, h, h'⟩
        · exact .inr ⟨w, h, h'⟩
      · rintro (⟨w, h, h'⟩ | ⟨w, h, h'⟩)
        · exact ⟨w, .inl h, h'⟩
        · exact ⟨w, .inr h, h'⟩
    -- gluing a well-formed replacement of the head to a well-formed tail
    have glue : ∀ (o : Option Tbl) (xs : List AT), (∀ t' ∈ o, WFes t'.es ∧ t'.es ≠ [] ∧ (∀ g ∈ t'.es, ∃ e ∈ t.t.es, Sub g e)) →
        WFa xs → (∀ t' ∈ xs, ∃ t ∈ ts, t'.addr = t.addr) →
        WFa ((o.map (fun t' => { t with t := t' })).toList ++ xs) ∧
        ∀ t' ∈ (o.map (fun t' => { t with t := t' })).toList ++ xs, ∃ t0 ∈ t :: ts, t'.addr = t0.addr := by
      intro o xs ho hx hxa
      have hmem : ∀ x, x ∈ (o.map (fun t' => { t with t := t' })).toList ++ xs ↔
          (∃ t' ∈ o, x = { t with t := t' }) ∨ x ∈ xs := by
        intro x
        cases o <;> simp
      refine ⟨⟨?_, ?_, ?_, ?_⟩, ?_⟩
      · refine List.pairwise_append.2 ⟨?_, hx.sorted, ?_⟩
        · cases o <;> simp
        · intro a ha b hb
          obtain ⟨w, hw, hwb⟩ := hxa b hb
          have : a.addr = t.addr := by
            cases o with
            | none => simp at ha
            | some q => simp at ha; rw [ha]
          have h3 := hlt w hw
          simp only [addrKey] at h3 ⊢
          rw [this, hwb]; exact h3
      · intro x hx'
        rcases (hmem x).1 hx' with ⟨t', h1, rfl⟩ | h1
        · exact (ho t' h1).1
        · exact hx.wf x h1
      · intro x hx'
        rcases (hmem x).1 hx' with ⟨t', h1, rfl⟩ | h1
        · exact (ho t' h1).2.1
        · exact hx.ne x h1
      · intro x hx' g hg
        rcases (hmem x).1 hx' with ⟨t', h1, rfl⟩ | h1
        · obtain ⟨w, hw, hs⟩ := (ho t' h1).2.2 g hg
          exact hs.1.trans (h.addr t (List.mem_cons_self ..) w hw)
        · exact hx.addr x h1 g hg
      · intro x hx'
        rcases (hmem x).1 hx' with ⟨t', h1, rfl⟩ | h1
        · exact ⟨t, List.mem_cons_self .., rfl⟩
        · obtain ⟨w, hw, hwa⟩ := hxa x h1
          exact ⟨w, List.mem_cons_of_mem _ hw, hwa⟩
    have aopt : ∀ (o : Option Tbl) a, ASet (o.map (fun t' => { t with t := t' })).toList a ↔ ∃ t' ∈ o, InEs t'.es a := by
      intro o a; cases o <;> simp [ASet]
    rw [rmFromAddr] at hs
    split at hs
    · rename_i hc
      cases hr : removeRange kr pfx lo hi t.t with
      | ub u => rw [hr] at hs; simp at hs
      | ok r =>
        obtain ⟨o, e1⟩ := r
        rw [hr] at hs
        obtain ⟨k1, k2, k3, _⟩ := removeRange_spec hlh hhi (h.wf t (List.mem_cons_self ..)) hr
        have hsubs : ∀ a, (∃ t' ∈ o, InEs t'.es a) → InEs t.t.es a := by
          rintro a ⟨t', h1, e, he, hce⟩
          obtain ⟨w, hw, hs⟩ := (k1 t' h1).2.2 e he
          exact ⟨w, hw, hs.cov hce⟩
        cases e1 with
        | true =>
          simp only [Outcome.ok.injEq, Prod.mk.injEq] at hs
          obtain ⟨rfl, rfl⟩ := hs
          obtain ⟨g1, g2⟩ := glue o ts k1 htl (fun t' ht' => ⟨t', ht', rfl⟩)
          refine ⟨g1, g2, k2, by simp, ?_⟩
          intro a ha
          rw [aapp, aopt] at ha
          rw [acons]
          exact ha.imp (hsubs a) id
        | false =>
          dsimp only at hs
          cases hq : rmFromAddr kr pfx lo hi ts with
          | ub u => rw [hq] at hs; simp [Outcome.map] at hs
          | ok q =>
            rw [hq] at hs
            simp only [Outcome.map, Outcome.ok.injEq, Prod.mk.injEq] at hs
            obtain ⟨rfl, rfl⟩ := hs
            obtain ⟨i1, i2, i3, i4, i5⟩ := ih htl (l' := q.1) (err := q.2) hq
            obtain ⟨g1, g2⟩ := glue o q.1 k1 i1 i2
            refine ⟨g1, g2, i3, ?_, ?_⟩
            · intro he a
              rw [aapp, aopt, acons, k3 rfl, i4 he]
              constructor
              · rintro (⟨h1, h2⟩ | ⟨h1, h2⟩)
                · exact ⟨.inl h1, h2⟩
                · exact ⟨.inr h1, h2⟩
              · rintro ⟨h1 | h1, h2⟩
                · exact .inl ⟨h1, h2⟩
                · exact .inr ⟨h1, h2⟩
            · intro a ha
              rw [aapp, aopt] at ha
              rw [acons]
              exact ha.imp (hsubs a) (i5 a)
    · rename_i hc
      cases hq : rmFromAddr kr pfx lo hi ts with
      | ub u => rw [hq] at hs; simp [Outcome.map] at hs
      | ok q =>
        rw [hq] at hs
        simp only [Outcome.map, Outcome.ok.injEq, Prod.mk.injEq] at hs
        obtain ⟨rfl, rfl⟩ := hs
        obtain ⟨i1, i2, i3, i4, i5⟩ := ih htl (l' := q.1) (err := q.2) hq
        obtain ⟨g1, g2⟩ := glue (some t.t) q.1 (by
          intro t' ht'
          simp only [Option.mem_def, Option.some.injEq] at ht'
          subst ht'
          exact ⟨h.wf t (List.mem_cons_self ..), h.ne t (List.mem_cons_self ..),
            fun g hg => ⟨g, hg, rfl, Nat.le_refl _, Nat.le_refl _⟩⟩) i1 i2
        refine ⟨g1, g2, i3, ?_, ?_⟩
        · intro he a
          rw [acons, acons, i4 he]
          constructor
          · rintro (h1 | ⟨h1, h2⟩)
            · exact ⟨.inl h1, fun hr => hc (by rw [hcov a h1]; exact hr.1)⟩
            · exact ⟨.inr h1, h2⟩
          · rintro ⟨h1 | h1, h2⟩
            · exact .inl h1
            · exact .inr ⟨h1, h2⟩
        · intro a ha
          rw [acons] at ha ⊢
          exact ha.imp id (i5 a)

end Jool.Pool4
