import Verif.Props.FileSpec
/-
Objects of configuration files: what `handle_object` accepts, and what it makes of the members.
-/
namespace Jool.File
open Jool.Text (Text Inet caseEq GType GVal)
open Jool.Json (Json)

theorem caseEq_iff {a b : Text} : caseEq a b = true ↔ a.map Char.toLower = b.map Char.toLower := by
  unfold caseEq
  exact beq_iff_eq

theorem caseEq_symm (a b : Text) : caseEq a b = caseEq b a := by
  rw [Bool.eq_iff_iff, caseEq_iff, caseEq_iff]
  exact ⟨Eq.symm, Eq.symm⟩

theorem caseEq_refl (a : Text) : caseEq a a = true := caseEq_iff.2 rfl

theorem caseEq_trans {a b : Text} (h : caseEq a b = true) (c : Text) : caseEq a c = caseEq b c := by
  rw [Bool.eq_iff_iff, caseEq_iff, caseEq_iff, caseEq_iff.1 h]

variable {σ : Type}

/-- The names of a table differ. -/
def Distinct (ms : List (Meta σ)) : Prop := ms.Pairwise (fun a b => caseEq a.name b.name = false)

/-- Which rows were found. -/
def flagged (F : Text → Bool) (ms : List (Meta σ)) : List (Meta σ × Bool) := ms.map (fun m => (m, F m.name))

/-- `F`, and `tag`. -/
def also (F : Text → Bool) (tag : Text) : Text → Bool := fun n => F n || caseEq tag n

/-- `F` does not distinguish capitals. -/
def Caseless (F : Text → Bool) : Prop := ∀ a b, caseEq a b = true → F a = F b

theorem Caseless.also {F : Text → Bool} (h : Caseless F) (t : Text) : Caseless (also F t) := by
  intro a b hab
  unfold File.also
  rw [h a b hab, caseEq_symm t a, caseEq_symm t b, caseEq_trans hab]

theorem find_none {ms : List (Meta σ)} {tag : Text} (h : ∀ m ∈ ms, caseEq tag m.name = false) :
    ms.find? (fun m => caseEq tag m.name) = none := by
  rw [List.find?_eq_none]
  intro m hm
  rw [h m hm]
  exact Bool.false_ne_true

theorem findTag_eq (tag : Text) (j : Json) {F : Text → Bool} (hF : Caseless F) {ms : List (Meta σ)} (hd : Distinct ms) (s : σ) :
    findTag tag j (flagged F ms) s =
      match ms.find? (fun m => caseEq tag m.name) with
      | none => (flagged F ms, s, .no)
      | some m => if F tag then (flagged F ms, s, .no) else (flagged (also F tag) ms, m.run j s) := by
  induction ms with
  | nil => rfl
  | cons m ms ih =>
    unfold Distinct at hd
    rw [List.pairwise_cons] at hd
    unfold flagged
    rw [List.map_cons, findTag]
    by_cases hm : caseEq tag m.name = true
    · rw [if_pos hm, List.find?_cons_of_pos (p := fun m : Meta σ => caseEq tag m.name) hm]
      dsimp only
      rw [hF tag m.name hm]
      by_cases hf : F m.name = true
      · rw [if_pos hf, if_pos hf]
      · rw [if_neg hf, if_neg hf, List.map_cons]
        have h1 : also F tag m.name = true := by unfold also; rw [hm, Bool.or_true]
        have h2 : ms.map (fun m => (m, F m.name)) = ms.map (fun m => (m, also F tag m.name)) := by
          apply List.map_congr_left
          intro n hn
          have := hd.1 n hn
          rw [← caseEq_trans hm] at this
          unfold also
          rw [this, Bool.or_false]
        rw [h1, h2]
    · rw [if_neg hm, List.find?_cons_of_neg (p := fun m : Meta σ => caseEq tag m.name) hm]
      have := ih hd.2
      unfold flagged at this
      rw [this]
      cases hfind : ms.find? (fun m => caseEq tag m.name) with
      | none => rfl
      | some n =>
        dsimp only
        by_cases hf : F tag = true
        · rw [if_pos hf, if_pos hf]
        · rw [if_neg hf, if_neg hf, List.map_cons]
          have : also F tag m.name = F m.name := by
            unfold also; rw [Bool.not_eq_true] at hm; rw [hm, Bool.or_false]
          rw [this]

/-- The rows of the members, in the order of the members. -/
def runAll (ms : List (Meta σ)) : List (Text × Json) → σ → σ × St
  | [], s => (s, .ok)
  | p :: ps, s =>
    match ms.find? (fun m => caseEq p.1 m.name) with
    | none => (s, .no)
    | some m =>
      match m.run p.2 s with
      | (s, .ok) => runAll ms ps s
      | r => r

theorem real_cons (p : Text × Json) (l : List (Text × Json)) :
    real (p :: l) = if caseEq p.1 "comment".toList = true then real l else p :: real l := by
  unfold real
  rw [List.filter_cons]
  by_cases h : caseEq p.1 "comment".toList = true
  · rw [if_pos h, if_neg (by rw [h]; simp)]
  · rw [if_neg h, if_pos (by simpa using h)]

/-- No tag occurs twice. -/
def Once (l : List (Text × Json)) : Prop := l.Pairwise (fun p q => caseEq p.1 q.1 = false)

theorem children_ok {ms : List (Meta σ)} (hd : Distinct ms) (l : List (Text × Json)) : ∀ {F : Text → Bool} (_ : Caseless F) (s s' : σ)
    (ms' : List (Meta σ × Bool)),
    children l (flagged F ms) s = (ms', s', .ok) ↔
      (∀ p ∈ real l, F p.1 = false) ∧ Once (real l) ∧ runAll ms (real l) s = (s', .ok)
        ∧ ms' = flagged (fun n => F n || (real l).any (fun p => caseEq p.1 n)) ms := by
  induction l with
  | nil =>
    intro F hF s s' ms'
    simp only [children, real, List.filter_nil, List.not_mem_nil, false_implies, implies_true, true_and, Once, runAll,
      List.any_nil, Bool.or_false, Prod.mk.injEq, and_true, List.Pairwise.nil]
    exact ⟨fun h => ⟨h.2, h.1.symm⟩, fun h => ⟨h.2.symm, h.1⟩⟩
  | cons p l ih =>
    intro F hF s s' ms'
    rw [children, handleChild, real_cons]
    by_cases hc : caseEq p.1 "comment".toList = true
    · rw [if_pos hc, if_pos hc]
      exact ih hF s s' ms'
    · rw [if_neg hc, if_neg hc, findTag_eq _ _ hF hd, runAll]
      cases hfind : ms.find? (fun m => caseEq p.1 m.name) with
      | none =>
        dsimp only
        constructor
        · intro h; injection h with _ h; injection h with _ h; cases h
        · rintro ⟨_, _, h, _⟩; injection h with _ h; cases h
      | some m =>
        dsimp only
        by_cases hf : F p.1 = true
        · rw [if_pos hf]
          constructor
          · intro h; injection h with _ h; injection h with _ h; cases h
          · rintro ⟨h, _⟩
            have := h p (List.mem_cons_self ..)
            rw [hf] at this; cases this
        · rw [if_neg hf]
          rw [Bool.not_eq_true] at hf
          rcases hr : m.run p.2 s with ⟨s1, st⟩
          cases st with
          | ok =>
            dsimp only
            rw [ih (hF.also p.1)]
            unfold Once
            rw [List.pairwise_cons]
            have e : (fun n => also F p.1 n || (real l).any (fun q => caseEq q.1 n))
                = (fun n => F n || (p :: real l).any (fun q => caseEq q.1 n)) := by
              funext n
              unfold also
              rw [List.any_cons, Bool.or_assoc]
            rw [e]
            constructor
            · rintro ⟨h1, h2, h3, h4⟩
              refine ⟨?_, ⟨?_, h2⟩, h3, h4⟩
              · intro q hq
                rcases List.mem_cons.1 hq with rfl | hq
                · exact hf
                · have := h1 q hq
                  unfold also at this
                  rw [Bool.or_eq_false_iff] at this
                  exact this.1
              · intro q hq
                have := h1 q hq
                unfold also at this
                rw [Bool.or_eq_false_iff] at this
                exact this.2
            · rintro ⟨h1, ⟨h2, h3⟩, h4, h5⟩
              refine ⟨?_, h3, h4, h5⟩
              intro q hq
              unfold also
              rw [h1 q (List.mem_cons_of_mem _ hq), h2 q hq]; rfl
          | nomem =>
            dsimp only
            constructor
            · intro h; injection h with _ h; injection h with _ h; cases h
            · rintro ⟨_, _, h, _⟩; injection h with _ h; cases h
          | no =>
            dsimp only
            constructor
            · intro h; injection h with _ h; injection h with _ h; cases h
            · rintro ⟨_, _, h, _⟩; injection h with _ h; cases h
          | ub u =>
            dsimp only
            constructor
            · intro h; injection h with _ h; injection h with _ h; cases h
            · rintro ⟨_, _, h, _⟩; injection h with _ h; cases h

theorem runAll_known {ms : List (Meta σ)} : ∀ {l : List (Text × Json)} {s s' : σ}, runAll ms l s = (s', .ok) →
    ∀ p ∈ l, ∃ n ∈ ms.map (·.name), caseEq p.1 n = true := by
  intro l
  induction l with
  | nil => intro s s' _ p hp; cases hp
  | cons q l ih =>
    intro s s' h p hp
    rw [runAll] at h
    cases hfind : ms.find? (fun m => caseEq q.1 m.name) with
    | none => rw [hfind] at h; injection h with _ h; cases h
    | some m =>
      rw [hfind] at h
      dsimp only at h
      rcases List.mem_cons.1 hp with rfl | hp
      · exact ⟨m.name, List.mem_map.2 ⟨m, List.mem_of_find?_eq_some hfind, rfl⟩, by simpa using List.find?_some hfind⟩
      · rcases hr : m.run q.2 s with ⟨s1, st⟩
        rw [hr] at h
        cases st with
        | ok => exact ih h p hp
        | nomem => injection h with _ h; cases h
        | no => injection h with _ h; cases h
        | ub u => injection h with _ h; cases h

theorem member_some {l : List (Text × Json)} {n : Text} : (member l n).isSome = (real l).any (fun p => caseEq p.1 n) := by
  unfold member
  rw [Option.isSome_map, Bool.eq_iff_iff, List.find?_isSome, List.any_eq_true]

/-- What `handle_object` accepts. -/
theorem handleObject_ok {ms : List (Meta σ)} (hd : Distinct ms) {j : Json} {s s' : σ} :
    handleObject j ms s = (s', .ok) ↔
      ∃ l, j = .obj l ∧ Tagged (ms.map (·.name)) l ∧ (∀ m ∈ ms, m.mandatory = true → (member l m.name).isSome = true)
        ∧ runAll ms (real l) s = (s', .ok) := by
  unfold handleObject
  cases j with
  | obj l =>
    have hc := children_ok hd l (F := fun _ => false) (fun _ _ _ => rfl) s
    have hflag : ms.map (fun m => (m, false)) = flagged (fun _ => false) ms := rfl
    simp only [hflag]
    rcases hr : children l (flagged (fun _ => false) ms) s with ⟨ms', s1, st⟩
    have key : ∀ ms' s1, children l (flagged (fun _ => false) ms) s = (ms', s1, .ok) →
        (ms'.any (fun m => m.1.mandatory && !m.2) = false ↔ ∀ m ∈ ms, m.mandatory = true → (member l m.name).isSome = true) := by
      intro ms' s1 h
      obtain ⟨_, _, _, rfl⟩ := (hc s1 ms').1 h
      rw [List.any_eq_false]
      unfold flagged
      simp only [List.mem_map, Bool.false_or, forall_exists_index, and_imp, forall_apply_eq_imp_iff₂, member_some,
        Bool.and_eq_true, Bool.not_eq_true', not_and, Bool.not_eq_false]
    cases st with
    | ok =>
      dsimp only
      obtain ⟨_, h2, h3, h4⟩ := (hc s1 ms').1 hr
      by_cases hm : ms'.any (fun m => m.1.mandatory && !m.2) = true
      · rw [if_pos hm]
        constructor
        · intro h; injection h with _ h; cases h
        · rintro ⟨l', hl, _, hM, _⟩
          injection hl with hl
          subst hl
          rw [(key ms' s1 hr).2 hM] at hm
          cases hm
      · rw [if_neg hm]
        rw [Bool.not_eq_true] at hm
        constructor
        · intro h
          injection h with h _
          subst h
          exact ⟨l, rfl, ⟨runAll_known h3, h2⟩, (key ms' s1 hr).1 hm, h3⟩
        · rintro ⟨l', hl, _, _, h⟩
          injection hl with hl
          subst hl
          rw [h3] at h
          injection h with h
          rw [h]
    | nomem | no | ub u =>
      dsimp only
      constructor
      · intro h; injection h with _ h; cases h
      · rintro ⟨l', hl, ht, _, h⟩
        injection hl with hl
        subst hl
        have := (hc s' _).2 ⟨fun _ _ => rfl, ht.2, h, rfl⟩
        rw [hr] at this
        cases this
  | _ =>
    dsimp only
    constructor
    · intro h; injection h with _ h; cases h
    · rintro ⟨l, hl, _⟩; cases hl

/-- A relation that the rows establish is established by the object. -/
theorem handleObject_rel {ms : List (Meta σ)} (R : σ → σ → St → Prop) (hrefl : ∀ s, R s s .ok) (hno : ∀ s s', R s s' .ok → R s s' .no)
    (htrans : ∀ s s1 s2 st, R s s1 .ok → R s1 s2 st → R s s2 st) (hrun : ∀ m ∈ ms, ∀ j s, R s (m.run j s).1 (m.run j s).2)
    (j : Json) (s : σ) : R s (handleObject j ms s).1 (handleObject j ms s).2 := by
  have hfind : ∀ tag j (fs : List (Meta σ × Bool)) s, (∀ x ∈ fs, x.1 ∈ ms) →
      R s (findTag tag j fs s).2.1 (findTag tag j fs s).2.2 ∧ ∀ x ∈ (findTag tag j fs s).1, x.1 ∈ ms := by
    intro tag j fs
    induction fs with
    | nil => intro s h; exact ⟨hno _ _ (hrefl s), h⟩
    | cons x fs ih =>
      intro s h
      obtain ⟨m, b⟩ := x
      have hm : m ∈ ms := h _ (List.mem_cons_self ..)
      rw [findTag]
      by_cases h1 : caseEq tag m.name = true
      · rw [if_pos h1]
        cases b with
        | true => exact ⟨hno _ _ (hrefl s), h⟩
        | false =>
          refine ⟨hrun m hm j s, ?_⟩
          intro x hx
          rcases List.mem_cons.1 hx with rfl | hx
          · exact hm
          · exact h x (List.mem_cons_of_mem _ hx)
      · rw [if_neg h1]
        have := ih s (fun x hx => h x (List.mem_cons_of_mem _ hx))
        refine ⟨this.1, ?_⟩
        intro x hx
        rcases List.mem_cons.1 hx with rfl | hx
        · exact hm
        · exact this.2 x hx
  have hch : ∀ (l : List (Text × Json)) (fs : List (Meta σ × Bool)) s, (∀ x ∈ fs, x.1 ∈ ms) →
      R s (children l fs s).2.1 (children l fs s).2.2 := by
    intro l
    induction l with
    | nil => intro fs s _; exact hrefl s
    | cons p l ih =>
      intro fs s h
      rw [children]
      have h1 : R s (handleChild p fs s).2.1 (handleChild p fs s).2.2 ∧ ∀ x ∈ (handleChild p fs s).1, x.1 ∈ ms := by
        unfold handleChild
        split
        · exact ⟨hrefl s, h⟩
        · exact hfind _ _ _ _ h
      rcases hr : handleChild p fs s with ⟨fs1, s1, st⟩
      rw [hr] at h1
      cases st with
      | ok => exact htrans _ _ _ _ h1.1 (ih fs1 s1 h1.2)
      | nomem => exact h1.1
      | no => exact h1.1
      | ub u => exact h1.1
  unfold handleObject
  cases j with
  | obj l =>
    dsimp only
    have h1 := hch l (ms.map (fun m => (m, false))) s (by
      intro x hx
      obtain ⟨m, hm, rfl⟩ := List.mem_map.1 hx
      exact hm)
    rcases hr : children l (ms.map (fun m => (m, false))) s with ⟨fs1, s1, st⟩
    rw [hr] at h1
    cases st with
    | ok =>
      dsimp only
      split
      · exact hno _ _ h1
      · exact h1
    | nomem => exact h1
    | no => exact h1
    | ub u => exact h1
  | null => exact hno _ _ (hrefl s)
  | bool b => exact hno _ _ (hrefl s)
  | num n => exact hno _ _ (hrefl s)
  | str n => exact hno _ _ (hrefl s)
  | arr n => exact hno _ _ (hrefl s)

end Jool.File
