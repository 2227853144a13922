import Verif.Lemmas.AtomicBody
/-
The invariant holds throughout every history.
-/
namespace Jool.Atomic

open Xlator
open scoped List

variable {D : Type}

theorem inv_start (sys : Sys D) : Inv sys (St.start sys) Non :=
  ⟨good_empty _, ⟨List.nodup_nil, fun _ h => by cases h⟩, fun d h => (by
      rcases h with ⟨n, hn, _⟩ | ⟨l, hl, _⟩
      · cases hn
      · cases hl),
    fun _ _ => rfl, List.nodup_nil, fun _ h => by cases h⟩

/-- The assignment of the time. -/
def St.touched (s : St D) (now : BitVec 64) : Option Nat → St D
  | none => s
  | some k => { s with cands := s.cands.map fun c => if c.clone == k then { c with time := now } else c }

theorem touched_mem {s : St D} {now : BitVec 64} {o : Option Nat} {P : Cand → Prop}
    (hP : ∀ c t, P { c with time := t } ↔ P c) :
    (∃ c ∈ (s.touched now o).cands, P c) ↔ ∃ c ∈ s.cands, P c := by
  cases o with
  | none => exact Iff.rfl
  | some k =>
    show (∃ c ∈ s.cands.map _, P c) ↔ _
    constructor
    · rintro ⟨c, hc, hp⟩
      obtain ⟨c0, hc0, e⟩ := List.mem_map.1 hc
      refine ⟨c0, hc0, ?_⟩
      rw [← e] at hp
      split at hp
      · exact (hP _ _).1 hp
      · exact hp
    · rintro ⟨c, hc, hp⟩
      refine ⟨_, List.mem_map.2 ⟨c, hc, rfl⟩, ?_⟩
      split
      · exact (hP _ _).2 hp
      · exact hp

theorem Inv.touched {sys : Sys D} {s : St D} {E : Nat → Prop} (h : Inv sys s E) (now : BitVec 64) (o : Option Nat) :
    Inv sys (s.touched now o) E := by
  cases o with
  | none => exact h
  | some k =>
    refine ⟨h.good, h.ids, h.lt, h.data, ?_, fun c hc => ?_⟩
    · have : ((s.touched now (some k)).cands.map (·.clone)) = s.cands.map (·.clone) := by
        show (List.map _ (List.map _ _)) = _
        rw [List.map_map]
        apply List.map_congr_left
        intro c _
        show (if _ then _ else _ : Cand).clone = _
        split <;> rfl
      rw [this]
      exact h.nodup
    · obtain ⟨c0, hc0, e⟩ := List.mem_map.1 hc
      have : c.clone = c0.clone := by rw [← e]; split <;> rfl
      rw [this]
      exact h.cand c0 hc0

theorem lucky_eq (sys : Sys D) (r : Req D) (s : St D) :
    requestLucky sys r s = (body sys r s).map fun q => (q.1.touched r.now q.2.2, q.2.1) := by
  unfold requestLucky
  congr 1
  funext ⟨s, code, o⟩
  cases o <;> rfl

theorem teardown_spec {sys : Sys D} : ∀ {cs : List Cand} {s : St D}, Inv sys s Non → s.cands = cs →
    ∃ s', teardown cs s = .ok s' ∧ Inv sys s' Non ∧ s'.cands = [] ∧ s'.w.table = s.w.table ∧ s'.data = s.data
  | [], s, h, hs => ⟨s, rfl, h, hs, rfl, rfl⟩
  | c :: cs, s, h, hs => by
    obtain ⟨s1, e, hi, h1, h2, h3, h4, h5, h6⟩ := destroyCand_spec h c.clone
    have hc : s1.cands = cs := by
      rw [h5, hs, List.eraseP_cons_of_pos (by simp)]
    obtain ⟨s2, e2, hi2, h7, h8, h9⟩ := teardown_spec (hi.weaken fun _ h => h.1) hc
    refine ⟨s2, ?_, hi2, h7, h8.trans h1, h9.trans h3⟩
    unfold teardown
    rw [e]
    exact e2

theorem xl_mem {s : St D} {k : Nat} {x : Xl} (h : s.xl k = some x) : (k, x) ∈ s.w.clones := by
  unfold St.xl at h
  cases hf : s.w.clones.find? (·.1 == k) with
  | none => rw [hf] at h; cases h
  | some p =>
    rw [hf] at h
    injection h with h
    have hk : p.1 = k := by simpa using List.find?_some hf
    have := List.mem_of_find?_eq_some hf
    rw [← hk, ← h]
    exact this

/-- Any step. -/
theorem inv_step {sys : Sys D} {s : St D} (h : Inv sys s Non) (o : AOp D) :
    ∃ q, astep sys s o = .ok q ∧ Inv sys q.1 Non := by
  cases o with
  | req r =>
    obtain ⟨s', code, res, e, hi, _⟩ := body_spec r h
    refine ⟨(s'.touched r.now res, code), ?_, hi.touched ..⟩
    show requestLucky sys r s = _
    rw [lucky_eq, e]
    rfl
  | sys o =>
    unfold astep
    dsimp only
    split
    · exact ⟨_, rfl, h⟩
    · rename_i hc
      have hK : ∀ c ∈ s.cands, target o ≠ some c.clone := by
        intro c hc1 e
        apply hc
        rw [List.any_eq_true]
        exact ⟨c, hc1, by simp [e]⟩
      obtain ⟨q, hq, hg⟩ := good_step h.good o
      obtain ⟨w', code⟩ := q
      rw [hq]
      exact ⟨_, rfl, h.step hq hK⟩
  | write k i f =>
    unfold astep
    dsimp only
    split
    · exact ⟨_, rfl, h⟩
    · split
      · exact ⟨_, rfl, h⟩
      · rename_i x hx
        split
        · rename_i ho
          refine ⟨_, rfl, ⟨h.good, h.ids, h.lt, fun d hd => ?_, h.nodup, h.cand⟩⟩
          have := clone_lt h.good (xl_mem hx) _ ho
          have hd : s.w.heap.next ≤ d := hd
          show (if d = Xl.nth x i then _ else _) = _
          rw [if_neg (fun e : d = Xl.nth x i => Nat.lt_irrefl _ (Nat.lt_of_lt_of_le this (e ▸ hd)))]
          exact h.data d hd
        · exact ⟨_, rfl, h⟩
  | teardown =>
    obtain ⟨s', e, hi, _⟩ := teardown_spec h rfl
    refine ⟨(s', .ok), ?_, hi⟩
    show (teardown s.cands s).map _ = _
    rw [e]
    rfl

theorem inv_run {sys : Sys D} : ∀ (ops : List (AOp D)) {s : St D}, Inv sys s Non →
    ∃ s', arun sys s ops = .ok s' ∧ Inv sys s' Non
  | [], s, h => ⟨s, rfl, h⟩
  | o :: ops, s, h => by
    obtain ⟨q, e, hi⟩ := inv_step h o
    obtain ⟨s', e', hi'⟩ := inv_run ops hi
    refine ⟨s', ?_, hi'⟩
    unfold arun
    rw [e]
    exact e'

end Jool.Atomic
