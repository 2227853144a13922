import Verif.Props.BibDump
import Verif.Props.Prefix
/-
C30: administrative removal of BIB entries (`bib_rm`, `bib_rm_range`, `bib_flush`).
-/
namespace Jool.Bib
open BibSpec PrefixSpec

/-- The entry's IPv4 transport address is in the range. -/
def _root_.Jool.BibSpec.InRange (r : Range4) (b : BibKey) : Prop :=
  Mem4 r.pfx b.src4.addr ∧ r.min.toNat ≤ b.src4.port.toNat ∧ b.src4.port.toNat ≤ r.max.toNat

/-- Exactly the entries that satisfy `P` are gone, with their sessions; everything else is as it was. -/
structure _root_.Jool.BibSpec.Removed (t t' : Table) (P : BibKey → Prop) : Prop where
  entries : ∀ b, b ∈ bibs t' ↔ b ∈ bibs t ∧ ¬ P b
  sess : ∀ k, k ∈ sessions t' ↔ k ∈ sessions t ∧ ¬ P k.bib
  info : ∀ k, t'.info k = t.info k
  stat : ∀ b ∈ bibs t', t'.isStatic b = t.isStatic b
  queue : t'.queue = t.queue

theorem takeWhile_mem {α} (key : α → Nat) (P : α → Bool) (l : List α) (hs : l.Pairwise (fun a b => key a < key b))
    (hd : ∀ x ∈ l, ∀ y ∈ l, key x < key y → P y = true → P x = true) (x : α) :
    x ∈ l.takeWhile P ↔ x ∈ l ∧ P x = true := by
  induction l with
  | nil => simp
  | cons y l ih =>
    have hy := List.pairwise_cons.1 hs
    have ih := ih hy.2 (fun a ha b hb => hd a (by simp [ha]) b (by simp [hb]))
    by_cases hP : P y = true
    · rw [List.takeWhile_cons_of_pos hP]
      simp only [List.mem_cons, ih]
      constructor
      · rintro (rfl | h)
        · exact ⟨.inl rfl, hP⟩
        · exact ⟨.inr h.1, h.2⟩
      · rintro ⟨rfl | h, h2⟩
        · exact .inl rfl
        · exact .inr ⟨h, h2⟩
    · rw [List.takeWhile_cons_of_neg hP]
      simp only [List.mem_cons, List.not_mem_nil, false_iff, not_and]
      rintro (rfl | h) h2
      · exact hP h2
      · exact hP (hd y (by simp) x (by simp [h]) (hy.1 x h) h2)

theorem detach_removed {t : Table} (w : WF t) (b : BibKey) : Removed t (detachBib t b).1 (fun c => c = b) := by
  have d := detachBib_eq t b
  refine ⟨?_, ?_, ?_, ?_, d.que⟩
  · intro c
    unfold bibs
    rw [d.t4, List.Nodup.mem_erase_iff (sorted_nodup w.s4)]
    exact And.comm
  · intro k
    rw [mem_sessions, mem_sessions, Live_detachBib w b k]
  · intro k; rw [d.inf]
  · intro c _; rw [d.stc]

theorem _root_.Jool.BibSpec.Removed.trans {t t1 t2 : Table} {P Q : BibKey → Prop} (h1 : Removed t t1 P) (h2 : Removed t1 t2 Q) :
    Removed t t2 (fun b => P b ∨ Q b) := by
  refine ⟨?_, ?_, ?_, ?_, h2.queue.trans h1.queue⟩
  · intro b; rw [h2.entries, h1.entries, not_or, and_assoc]
  · intro b; rw [h2.sess, h1.sess, not_or, and_assoc]
  · intro k; rw [h2.info, h1.info]
  · intro b hb; rw [h2.stat b hb, h1.stat b ((h2.entries b).1 hb).1]

theorem _root_.Jool.BibSpec.Removed.congr {t t' : Table} {P Q : BibKey → Prop} (h : Removed t t' P) (hpq : ∀ b, P b ↔ Q b) :
    Removed t t' Q := by
  refine ⟨?_, ?_, h.info, h.stat, h.queue⟩
  · intro b; rw [h.entries, hpq]
  · intro b; rw [h.sess, hpq]

/-- The condition only matters for entries of the table. -/
theorem _root_.Jool.BibSpec.Removed.entries_congr {t t' : Table} {P Q : BibKey → Prop} (h : Removed t t' P)
    (hpq : ∀ b ∈ t.tree4, P b ↔ Q b) : Removed t t' Q := by
  refine ⟨?_, ?_, h.info, h.stat, h.queue⟩
  · intro b; rw [h.entries]; exact and_congr_right fun hb => not_congr (hpq b hb)
  · intro k; rw [h.sess]; exact and_congr_right fun hk => not_congr (hpq _ ((mem_sessions k).1 hk).1)

theorem _root_.Jool.BibSpec.Removed.refl (t : Table) : Removed t t (fun _ => False) :=
  ⟨by simp, by simp, fun _ => rfl, fun _ _ => rfl, rfl⟩

theorem rmRangeLoop_removed (r : Range4) (l : List BibKey) (t : Table) (w : WF t) (hl : ∀ b ∈ l, b ∈ t.tree4)
    (hn : l.Nodup) :
    Removed t (rmRangeLoop r t l).1 (fun b => b ∈ l.takeWhile (fun c => prefix4Contains r.pfx c.src4.addr) ∧
      r.min.toNat ≤ b.src4.port.toNat ∧ b.src4.port.toNat ≤ r.max.toNat) := by
  induction l generalizing t with
  | nil => exact (Removed.refl t).congr (by simp)
  | cons b bs ih =>
    have hn' := List.nodup_cons.1 hn
    unfold rmRangeLoop
    cases hc : prefix4Contains r.pfx b.src4.addr with
    | false =>
      simp only [Bool.not_false, if_true]
      refine (Removed.refl t).congr ?_
      intro c
      rw [List.takeWhile_cons_of_neg (by simp [hc])]
      simp
    | true =>
      simp only [Bool.not_true, Bool.false_eq_true, if_false]
      rw [List.takeWhile_cons_of_pos (p := fun c : BibKey => prefix4Contains r.pfx c.src4.addr) hc]
      by_cases hp : (decide (r.min.toNat ≤ b.src4.port.toNat) && decide (b.src4.port.toNat ≤ r.max.toNat)) = true
      · rw [if_pos hp]
        simp only [Bool.and_eq_true, decide_eq_true_eq] at hp
        have d := detach_removed w b
        have ih := ih (detachBib t b).1 (w.detachBib b (hl b (by simp)))
          (fun c hcb => (d.entries c).2 ⟨hl c (by simp [hcb]), fun h => hn'.1 (h ▸ hcb)⟩) hn'.2
        refine (d.trans ih).congr ?_
        intro c
        simp only [List.mem_cons]
        constructor
        · rintro (rfl | ⟨h1, h2⟩)
          · exact ⟨.inl rfl, hp⟩
          · exact ⟨.inr h1, h2⟩
        · rintro ⟨h1 | h1, h2⟩
          · exact .inl h1
          · exact .inr ⟨h1, h2⟩
      · rw [if_neg hp]
        refine (ih t w (fun c hcb => hl c (by simp [hcb])) hn'.2).congr ?_
        intro c
        simp only [List.mem_cons]
        simp only [Bool.and_eq_true, decide_eq_true_eq] at hp
        constructor
        · exact fun ⟨h1, h2⟩ => ⟨.inr h1, h2⟩
        · rintro ⟨rfl | h1, h2⟩
          · exact absurd h2 hp
          · exact ⟨h1, h2⟩

/-- C30. Removing a range whose prefix is canonical (no bits beyond its length) deletes exactly the entries whose
IPv4 transport address is in the range, static or not, with their sessions.

Missing from the full property: prefixes that are not canonical, which the pool4 removal handler also passes on
(mod/nl/pool4.c:119-126: `pool4db_rm_usr` refuses them, `bib_rm_range` is called anyway). `range_removal_misses` shows
that then some entries of the range may stay. -/
theorem range_removal_partial {p hist t ev} (h : After p hist t ev) (e : Env) (r : Range4) (hc : Canonical4 r.pfx) :
    ∃ q, step p t e (.rmRange r) = .ok q ∧ q.2.2 = .done ∧ Removed t q.1 (InRange r) := by
  have w := (After.inv h).wf
  refine ⟨_, rfl, rfl, ?_⟩
  have hv : prefix4Validate r.pfx = true := (prefix4_validate_correct r.pfx).2 hc
  have hsub := startingPoint_sub t.tree4 (some ⟨r.pfx.addr, r.min⟩) true
  have hmem : ∀ b, b ∈ startingPoint t.tree4 (some ⟨r.pfx.addr, r.min⟩) true ↔
      b ∈ t.tree4 ∧ T4.key ⟨r.pfx.addr, r.min⟩ ≤ key4 b := by
    intro b
    simp only [startingPoint, if_true]
    generalize T4.key ⟨r.pfx.addr, r.min⟩ = m
    cases m with
    | zero =>
      have : ∀ l : List BibKey, l.dropWhile (fun b => decide (key4 b < 0)) = l := by
        intro l
        cases l <;> simp [List.dropWhile_cons]
      rw [this]; simp
    | succ m =>
      have := BibDump.dropWhile_mem key4 t.tree4 w.s4 m b
      simpa only [Nat.lt_succ_iff, Nat.succ_le_iff, Nat.succ_eq_add_one] using this
  have hs : (startingPoint t.tree4 (some ⟨r.pfx.addr, r.min⟩) true).Pairwise (fun a b => key4 a < key4 b) :=
    w.s4.sublist hsub
  refine (rmRangeLoop_removed r _ t w (fun b hb => hsub.subset hb) (sorted_nodup hs)).entries_congr ?_
  intro b hb
  rw [takeWhile_mem key4 _ _ hs, hmem, InRange, ← prefix4_contains_correct _ _ hc.1]
  · constructor
    · exact fun ⟨⟨_, h1⟩, h2⟩ => ⟨h1, h2⟩
    · rintro ⟨h1, h2⟩
      refine ⟨⟨⟨hb, ?_⟩, h1⟩, h2⟩
      have hr := (prefix4Contains_iff_range _ _ hv).1 h1
      simp only [key4, T4.key]
      omega
  · intro x hx y hy hlt hP
    have hx' := (hmem x).1 hx
    have hr := (prefix4Contains_iff_range _ _ hv).1 hP
    rw [prefix4Contains_iff_range _ _ hv]
    have h1 := x.src4.port.isLt; have h2 := y.src4.port.isLt; have h3 := r.min.isLt
    simp only [key4, T4.key] at hx' hlt
    omega

/-- `bib_rm`: exactly that entry; if there is no such entry, an error and no effect. -/
theorem removal_exact {p hist t ev} (h : After p hist t ev) (e : Env) (b : BibKey) :
    ∃ q, step p t e (.rm b) = .ok q ∧ Removed t q.1 (fun c => c = b) ∧ (q.2.2 = .done ↔ b ∈ bibs t) ∧
      (q.2.2 ≠ .done → q.1 = t) := by
  have w := (After.inv h).wf
  simp only [step, rmBib]
  have hno : b ∉ t.tree4 → Removed t t (fun c => c = b) := by
    intro hb
    refine ⟨?_, ?_, fun _ => rfl, fun _ _ => rfl, rfl⟩
    · intro c; exact ⟨fun hc => ⟨hc, fun hcb => hb (hcb ▸ hc)⟩, fun hc => hc.1⟩
    · intro k
      exact ⟨fun hk => ⟨hk, fun hcb => hb (hcb ▸ ((mem_sessions k).1 hk).1)⟩, fun hk => hk.1⟩
  cases hf : find6 t b.src6 with
  | none =>
    have hb : b ∉ t.tree4 := fun hb => find6_none hf b ((w.same b).2 hb) rfl
    exact ⟨_, rfl, hno hb, by simpa [bibs] using hb, fun _ => rfl⟩
  | some c =>
    obtain ⟨hc, hcs⟩ := find6_some hf
    simp only
    by_cases h4 : b.src4 = c.src4
    · have : c = b := by
        cases b; cases c
        simp only at h4 hcs
        rw [h4, hcs]
      subst this
      rw [if_pos h4]
      refine ⟨_, rfl, detach_removed w c, by simpa [bibs] using (w.same c).1 hc, by simp⟩
    · rw [if_neg h4]
      have hb : b ∉ t.tree4 := by
        intro hb
        have := w.uniq6 hb ((w.same c).1 hc) hcs.symm
        exact h4 (by rw [this])
      exact ⟨_, rfl, hno hb, by simpa [bibs] using hb, fun _ => rfl⟩

/-- `bib_flush` leaves nothing. -/
theorem flush_exact {p hist t ev} (h : After p hist t ev) (e : Env) :
    ∃ q, step p t e .flush = .ok q ∧ bibs q.1 = [] ∧ sessions q.1 = [] := by
  have w := (After.inv h).wf
  refine ⟨_, rfl, ?_⟩
  have F : ∀ (l : List BibKey) (t1 : Table) (ev : List Event), WF t1 → (∀ b ∈ l, b ∈ t1.tree4) → l.Nodup →
      Removed t1 (l.foldl (fun (acc : Table × List Event) b =>
        let d := detachBib acc.1 b
        (d.1, acc.2 ++ d.2)) (t1, ev)).1 (fun b => b ∈ l) := by
    intro l
    induction l with
    | nil => intro t1 ev _ _ _; exact (Removed.refl t1).congr (by simp)
    | cons b l ih =>
      intro t1 ev w1 hl hn
      have hn' := List.nodup_cons.1 hn
      have d := detach_removed w1 b
      have := ih (detachBib t1 b).1 (ev ++ (detachBib t1 b).2) (w1.detachBib b (hl b (by simp)))
        (fun c hcb => (d.entries c).2 ⟨hl c (by simp [hcb]), fun h => hn'.1 (h ▸ hcb)⟩) hn'.2
      exact (d.trans this).congr (by simp)
  have R := F t.tree4 t [] w (fun _ h => h) (sorted_nodup w.s4)
  constructor
  · rw [List.eq_nil_iff_forall_not_mem]
    intro b hb
    have := (R.entries b).1 hb
    exact this.2 this.1
  · rw [List.eq_nil_iff_forall_not_mem]
    intro k hk
    have := (R.sess k).1 hk
    exact this.2 ((mem_sessions k).1 this.1).1

/-- The full C30 fails: an entry on 192.0.2.1 stays after the removal of 192.0.2.5/24, ports 1-65535, of which it
is part. -/
theorem range_removal_misses : ∃ t ev, After .UDP [(exEnv, .addStatic exB)] t ev ∧
    InRange ⟨⟨0xc0000205#32, 24⟩, 1#16, 65535#16⟩ exB ∧
    bibs (exStep (step .UDP t exEnv (.rmRange ⟨⟨0xc0000205#32, 24⟩, 1#16, 65535#16⟩))).1 = [exB] := by
  refine ⟨(exOut (run .UDP init [(exEnv, .addStatic exB)])).1, _, ⟨?_, rfl⟩, ?_, by decide +kernel⟩
  · intro x hx
    simp only [List.mem_singleton] at hx
    subst hx; trivial
  · refine ⟨?_, by decide, by decide⟩
    rw [← prefix4_contains_correct _ _ (by decide)]
    decide

/-- A removal that takes one of two entries. -/
example : ∃ t ev, After .UDP [(exEnv, .addStatic exB), (exEnv, .addStatic ⟨⟨5#128, 1#16⟩, ⟨0xc0000302#32, 7#16⟩⟩)] t ev ∧
    (bibs t).length = 2 ∧ Canonical4 ⟨0xc0000200#32, 24⟩ ∧
    bibs (exStep (step .UDP t exEnv (.rmRange ⟨⟨0xc0000200#32, 24⟩, 1#16, 65535#16⟩))).1 =
      [⟨⟨5#128, 1#16⟩, ⟨0xc0000302#32, 7#16⟩⟩] := by
  refine ⟨(exOut (run .UDP init [(exEnv, .addStatic exB), (exEnv, .addStatic ⟨⟨5#128, 1#16⟩, ⟨0xc0000302#32, 7#16⟩⟩)])).1,
    _, ⟨?_, rfl⟩, by decide +kernel, ?_, by decide +kernel⟩
  · intro x hx
    simp only [List.mem_cons, List.not_mem_nil, or_false] at hx
    rcases hx with rfl | rfl <;> trivial
  · rw [← prefix4_validate_correct]; decide

end Jool.Bib
