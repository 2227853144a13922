import Verif.Props.RequestsAny
import Verif.Props.BibRemoval
/-
C69, third part: which BIB entry a removal means, and which flags of a request matter.
-/
namespace Jool.Req
open Jool.Nla Jool.NlAttr
open Jool.JooldMsg (Byte)
open Jool.BibSpec (bibs Removed)

/-- The entry has the addresses that were given. -/
def Matches (a6 : Option T6) (a4 : Option T4) (b : Bib.BibKey) : Prop :=
  (∀ x, a6 = some x → b.src6 = x) ∧ (∀ x, a4 = some x → b.src4 = x)

theorem matches_eq {t : Bib.Table} (w : Bib.WF t) {a6 : Option T6} {a4 : Option T4} (hs : a6.isSome ∨ a4.isSome) {b c : Bib.BibKey}
    (hb : b ∈ t.tree4) (hc : c ∈ t.tree4) (mb : Matches a6 a4 b) (mc : Matches a6 a4 c) : b = c := by
  rcases hs with h | h
  · obtain ⟨x, rfl⟩ := Option.isSome_iff_exists.1 h
    exact w.uniq6 hb hc ((mb.1 x rfl).trans (mc.1 x rfl).symm)
  · obtain ⟨x, rfl⟩ := Option.isSome_iff_exists.1 h
    exact w.uniq4 hb hc ((mb.2 x rfl).trans (mc.2 x rfl).symm)

/-- What `rmTarget` finds. -/
theorem rmTarget_spec {t : Bib.Table} (w : Bib.WF t) {a6 : Option T6} {a4 : Option T4} (hs : a6.isSome ∨ a4.isSome) :
    match rmTarget t a6 a4 with
    | none => ∀ b ∈ t.tree4, ¬ Matches a6 a4 b
    | some k => ∀ b ∈ t.tree4, Matches a6 a4 b ↔ b = k := by
  cases a6 with
  | none =>
    cases a4 with
    | none => rcases hs with h | h <;> cases h
    | some x4 =>
      unfold rmTarget
      dsimp only
      cases hf : Bib.find4 t x4 with
      | none => intro b hb hm; exact Bib.find4_none hf b hb (hm.2 x4 rfl)
      | some k =>
        intro b hb
        obtain ⟨hk, he⟩ := Bib.find4_some hf
        constructor
        · intro hm; exact w.uniq4 hb hk ((hm.2 x4 rfl).trans he.symm)
        · rintro rfl; exact ⟨fun _ h => (by cases h), fun _ h => by injection h with h; rw [he, h]⟩
  | some x6 =>
    cases a4 with
    | none =>
      unfold rmTarget
      dsimp only
      cases hf : Bib.find6 t x6 with
      | none => intro b hb hm; exact Bib.find6_none hf b ((w.same b).2 hb) (hm.1 x6 rfl)
      | some k =>
        intro b hb
        obtain ⟨hk, he⟩ := Bib.find6_some hf
        constructor
        · intro hm; exact w.uniq6 hb ((w.same k).1 hk) ((hm.1 x6 rfl).trans he.symm)
        · rintro rfl; exact ⟨fun _ h => (by injection h with h; rw [he, h]), fun _ h => by cases h⟩
    | some x4 =>
      unfold rmTarget
      intro b _
      constructor
      · intro hm
        have h6 := hm.1 x6 rfl
        have h4 := hm.2 x4 rfl
        cases b
        dsimp only at h6 h4
        rw [h6, h4]
      · rintro rfl; exact ⟨fun _ h => (by injection h), fun _ h => by injection h⟩

theorem removed_none {t : Bib.Table} {P : Bib.BibKey → Prop} (h : ∀ b ∈ t.tree4, ¬ P b) : Removed t t P := by
  refine ⟨?_, ?_, fun _ => rfl, fun _ _ => rfl, rfl⟩
  · intro c; exact ⟨fun hc => ⟨hc, h c hc⟩, fun hc => hc.1⟩
  · intro k
    exact ⟨fun hk => ⟨hk, h _ ((Bib.mem_sessions k).1 hk).1⟩, fun hk => hk.1⟩

/-- **BIB removals.** What is removed, with its sessions, is exactly what has all of the addresses that the client gave: at most one
entry of the table of the protocol. Success is reported if and only if there was one. Nothing else changes. -/
theorem bib_rm_exact {e : Env} {s : Nat64} {a6 : Option T6} {a4 : Option T4} {b : BitVec 8} {p : Proto} (hb : protoOf b = some p)
    (hs : a6.isSome ∨ a4.isSome) (h : RanBib p (s.bib p)) :
    ∃ s' ev a, askedN e s (.bibRm a6 a4 b) = .ok (s', ev, a) ∧ s'.pool4 = s.pool4 ∧ (∀ q, q ≠ p → s'.bib q = s.bib q)
      ∧ Removed (s.bib p) (s'.bib p) (Matches a6 a4)
      ∧ (a = .done ↔ ∃ c ∈ bibs (s.bib p), Matches a6 a4 c)
      ∧ ∀ c ∈ bibs (s.bib p), ∀ d ∈ bibs (s.bib p), Matches a6 a4 c → Matches a6 a4 d → c = d := by
  obtain ⟨hist, evs, ha⟩ := h
  have w := (Bib.After.inv ha).wf
  have ht := rmTarget_spec w hs
  have hu : ∀ c ∈ bibs (s.bib p), ∀ d ∈ bibs (s.bib p), Matches a6 a4 c → Matches a6 a4 d → c = d :=
    fun c hc d hd mc md => matches_eq w hs hc hd mc md
  unfold askedN
  dsimp only
  rw [hb]
  dsimp only
  cases hr : rmTarget (s.bib p) a6 a4 with
  | none =>
    rw [hr] at ht
    refine ⟨s, [], _, rfl, rfl, fun _ _ => rfl, removed_none ht, ⟨fun h => (by cases h), ?_⟩, hu⟩
    rintro ⟨c, hc, hm⟩
    exact absurd hm (ht c hc)
  | some k =>
    rw [hr] at ht
    dsimp only at ht ⊢
    obtain ⟨q, hq, hrm, hdone, _⟩ := Bib.removal_exact ha e.bib k
    have hq : Bib.rmBib (s.bib p) k = .ok q := hq
    have hdone' : ofBib q.2.2 = .done ↔ q.2.2 = .done := by
      have : q.2.2 = .done ∨ q.2.2 = .err .ESRCH := by
        unfold Bib.rmBib at hq
        split at hq
        · injection hq with hq; subst hq; exact Or.inr rfl
        · split at hq
          · injection hq with hq; subst hq; exact Or.inl rfl
          · injection hq with hq; subst hq; exact Or.inr rfl
      rcases this with h | h <;> rw [h]
      · exact ⟨fun _ => rfl, fun _ => rfl⟩
      · exact ⟨fun h => (by cases h), fun h => by cases h⟩
    refine ⟨(setBib s p q).1, _, ofBib q.2.2, by rw [hq]; rfl, rfl, ?_, ?_, ?_, hu⟩
    · intro q' hne; show (if q' = p then _ else _) = _; rw [if_neg hne]
    · have : (setBib s p q).1.bib p = q.1 := by show (if p = p then _ else _) = _; rw [if_pos rfl]
      rw [this]
      exact hrm.entries_congr (fun c hc => (ht c hc).symm)
    · rw [hdone', hdone]
      constructor
      · intro hk; exact ⟨k, hk, (ht k hk).2 rfl⟩
      · rintro ⟨c, hc, hm⟩; rw [← (ht c hc).1 hm]; exact hc

/-- The flags that a command looks at: additions, whether they are forced; removals and flushes of pool4, whether they are quick. -/
def Cmd.flag : Cmd → BitVec 8
  | .eamAdd | .denyAdd | .pool4Add => 2
  | .pool4Rm | .pool4Flush => 4
  | _ => 0

/-- **Flags.** Nothing but that flag matters. -/
theorem flags_exact (st : State) (e : Env) (c : Cmd) (m m' : List Byte) (h : Hdr) (f : BitVec 8) (body : List Byte)
    (hm : decHdr m = some (h, body)) (hm' : decHdr m' = some ({ h with flags := f }, body)) (hf : h.flags &&& c.flag = f &&& c.flag) :
    handle st e c m = handle st e c m' := by
  have hact : ∀ tb, act st e c h tb = act st e c { h with flags := f } tb := by
    intro tb
    have hforce : c.flag = 2 → forced h = forced { h with flags := f } := by
      intro hc; rw [hc] at hf; unfold forced; dsimp only; rw [show h.flags &&& FORCE = f &&& FORCE from hf]
    have hquick : c.flag = 4 → quick h = quick { h with flags := f } := by
      intro hc; rw [hc] at hf; unfold quick; dsimp only; rw [show h.flags &&& QUICK = f &&& QUICK from hf]
    have hS : ∀ o s, actS e h o c s = actS e { h with flags := f } o c s := by
      intro o s
      cases c <;> dsimp only [actS] <;> first | rfl | (unfold eamAdd; rw [hforce rfl]) | (unfold denyAdd; rw [hforce rfl])
    have hN : ∀ o s, actN e h o c s = actN e { h with flags := f } o c s := by
      intro o s
      cases c <;> dsimp only [actN] <;>
        first | rfl | (unfold pool4Add; rw [hforce rfl]) | (unfold pool4Rm; rw [hquick rfl]) | (unfold pool4Flush; rw [hquick rfl])
    unfold act
    simp only [hS, hN]
    rfl
  unfold handle
  rw [hm, hm']
  dsimp only
  have hs : start st e c.xt { h with flags := f } = start st e c.xt h := rfl
  rw [hs]
  simp only [hact]

/-- An entry is removed by either address or by both, and not if one of them is wrong. -/
example : exRun exSt [.pool4Add (exPool exPfx) false, .bibAdd exT6 exT4 1, .bibRm (some exT6) (some ⟨exT4.addr, 1501⟩) 1, .bibRm (some exT6) none 1]
    = .ok ([.done, .done, .error (.bib .ESRCH), .done], some []) := by decide +kernel
example : exRun exSt [.pool4Add (exPool exPfx) false, .bibAdd exT6 exT4 1, .bibRm none (some exT4) 1]
    = .ok ([.done, .done, .done], some []) := by decide +kernel

end Jool.Req
