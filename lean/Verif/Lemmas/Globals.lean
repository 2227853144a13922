import Verif.Model.Globals
/-
Facts about the table of settings and the loops over it.
-/
namespace Jool.Globals

/-- Two settings do not share memory. -/
def Apart (m n : Meta) : Prop := (∀ a g, n.get (m.put a g) = n.get g) ∧ (∀ a g, m.get (n.put a g) = m.get g)

theorem metas_apart : metas.Pairwise Apart := by
  simp only [metas, List.pairwise_cons, List.mem_cons, List.not_mem_nil, or_false, forall_eq_or_imp, forall_eq,
    Apart, implies_true, and_self, false_imp_iff, List.Pairwise.nil]

theorem metas_get_put : ∀ m ∈ metas, ∀ a g, m.get (m.put a g) = a := by
  simp only [metas, List.mem_cons, List.not_mem_nil, or_false, forall_eq_or_imp, forall_eq, implies_true, and_self]

theorem metas_ids : metas.map (·.id) = List.range' 1 32 := by rfl

/-- The loop of `update`: it succeeds iff each attribute is accepted; then each setting is what its reader makes of
its attribute, and what is not in the list does not change. -/
theorem updateLoop_spec (xt : Xt) (force : Bool) (attrs : Attrs) :
    ∀ (ms : List Meta) (g : Globals), ms.Pairwise Apart → (∀ m ∈ ms, ∀ a g, m.get (m.put a g) = a) →
      ((updateLoop xt force attrs ms g).2 = true ↔
        ∀ m ∈ ms, m.of xt = true → ∀ v, attrs m.id = some v → (m.dec force (m.get g) v).2 = true) ∧
      ((updateLoop xt force attrs ms g).2 = true →
        (∀ m ∈ ms, m.get (updateLoop xt force attrs ms g).1 =
          match m.of xt, attrs m.id with
          | true, some v => (m.dec force (m.get g) v).1
          | _, _ => m.get g) ∧
        ∀ n : Meta, (∀ m ∈ ms, ∀ a g, n.get (m.put a g) = n.get g) →
          n.get (updateLoop xt force attrs ms g).1 = n.get g) := by
  intro ms
  induction ms with
  | nil => intro g _ _; simp [updateLoop]
  | cons m ms ih =>
    intro g hp hg
    obtain ⟨hp1, hp2⟩ := List.pairwise_cons.1 hp
    have hg2 : ∀ m ∈ ms, ∀ a g, m.get (m.put a g) = a := fun n hn => hg n (List.mem_cons_of_mem _ hn)
    have hg1 := hg m List.mem_cons_self
    simp only [updateLoop]
    cases hx : m.of xt with
    | false =>
      obtain ⟨h1, h2⟩ := ih g hp2 hg2
      simp only [Bool.not_false, if_true]
      refine ⟨?_, fun hok => ?_⟩
      · rw [h1]; simp [hx]
      · obtain ⟨h3, h4⟩ := h2 hok
        refine ⟨?_, fun n hn => h4 n fun m' hm' => hn m' (List.mem_cons_of_mem _ hm')⟩
        intro n hn
        rcases List.mem_cons.1 hn with rfl | hn
        · rw [h4 n fun m' hm' => (hp1 m' hm').2, hx]
        · exact h3 n hn
    | true =>
      simp only [Bool.not_true, Bool.false_eq_true, if_false]
      cases ha : attrs m.id with
      | none =>
        obtain ⟨h1, h2⟩ := ih g hp2 hg2
        simp only
        refine ⟨?_, fun hok => ?_⟩
        · rw [h1]; simp [ha]
        · obtain ⟨h3, h4⟩ := h2 hok
          refine ⟨?_, fun n hn => h4 n fun m' hm' => hn m' (List.mem_cons_of_mem _ hm')⟩
          intro n hn
          rcases List.mem_cons.1 hn with rfl | hn
          · rw [h4 n fun m' hm' => (hp1 m' hm').2, hx, ha]
          · exact h3 n hn
      | some v =>
        simp only
        cases hd : (m.dec force (m.get g) v).2 with
        | false =>
          simp only [Bool.false_eq_true, if_false, false_iff, false_imp_iff, and_true]
          intro h
          have := h m List.mem_cons_self hx v ha
          rw [hd] at this; cases this
        | true =>
          simp only [if_true]
          obtain ⟨h1, h2⟩ := ih (m.put (m.dec force (m.get g) v).1 g) hp2 hg2
          have hsame : ∀ n ∈ ms, n.get (m.put (m.dec force (m.get g) v).1 g) = n.get g :=
            fun n hn => (hp1 n hn).1 _ _
          refine ⟨?_, fun hok => ?_⟩
          · rw [h1]
            constructor
            · intro h n hn
              rcases List.mem_cons.1 hn with rfl | hn
              · intro _ w hw; rw [ha] at hw; cases hw; exact hd
              · intro hx' w hw
                have := h n hn hx' w hw
                rwa [hsame n hn] at this
            · intro h n hn hx' w hw
              rw [hsame n hn]
              exact h n (List.mem_cons_of_mem _ hn) hx' w hw
          · obtain ⟨h3, h4⟩ := h2 hok
            refine ⟨?_, fun n hn => ?_⟩
            · intro n hn
              rcases List.mem_cons.1 hn with rfl | hn
              · rw [h4 n fun m' hm' => (hp1 m' hm').2, hg1, hx, ha]
              · rw [h3 n hn, hsame n hn]
            · rw [h4 n fun m' hm' => hn m' (List.mem_cons_of_mem _ hm')]
              exact hn m List.mem_cons_self _ _

theorem update_ok_iff (xt : Xt) (force : Bool) (attrs : Attrs) (g : Globals) :
    (update xt force attrs g).2 = true ↔
      ∀ m ∈ metas, m.of xt = true → ∀ v, attrs m.id = some v → (m.dec force (m.get g) v).2 = true :=
  (updateLoop_spec xt force attrs metas g metas_apart metas_get_put).1

theorem update_get {xt : Xt} {force : Bool} {attrs : Attrs} {g : Globals} (h : (update xt force attrs g).2 = true) :
    ∀ m ∈ metas, m.get (update xt force attrs g).1 =
      match m.of xt, attrs m.id with
      | true, some v => (m.dec force (m.get g) v).1
      | _, _ => m.get g :=
  ((updateLoop_spec xt force attrs metas g metas_apart metas_get_put).2 h).1

/-! ## Listing -/

/-- What a complete listing has. -/
def items (xt : Xt) (g : Globals) (ms : List Meta) : List (Nat × Val) :=
  (ms.filter (·.of xt)).map fun m => (m.id, m.enc (m.get g))

theorem foreachLoop_zero (xt : Xt) (g : Globals) : ∀ (ms : List Meta) (room : Nat),
    foreachLoop xt g ms 0 room = ((items xt g ms).take room, decide (room < (items xt g ms).length)) := by
  intro ms
  induction ms with
  | nil => intro room; simp [foreachLoop, items]
  | cons m ms ih =>
    intro room
    simp only [foreachLoop]
    cases hx : m.of xt with
    | false => simp [ih, items, hx]
    | true =>
      cases room with
      | zero => simp [items, hx]
      | succ room => simp [ih, items, hx, decide_eq_decide]

/-- With an offset, the listing starts after it. -/
theorem foreachLoop_offset (xt : Xt) (g : Globals) (o : Nat) (ho : o ≠ 0) (room : Nat) :
    ∀ (ms : List Meta) (pre post : List (Nat × Val)) (x : Val), items xt g ms = pre ++ (o, x) :: post →
      (∀ y ∈ pre, y.1 ≠ o) →
      foreachLoop xt g ms o room = (post.take room, decide (room < post.length)) := by
  intro ms
  induction ms with
  | nil => intro pre post x h; simp [items] at h
  | cons m ms ih =>
    intro pre post x h hpre
    simp only [foreachLoop]
    cases hx : m.of xt with
    | false =>
      simp only [Bool.not_false, if_true]
      exact ih pre post x (by simpa [items, hx] using h) hpre
    | true =>
      simp only [Bool.not_true, Bool.false_eq_true, if_false, ho, ne_eq, not_false_eq_true, if_true]
      have h' : (m.id, m.enc (m.get g)) :: items xt g ms = pre ++ (o, x) :: post := by
        simpa [items, hx] using h
      cases pre with
      | nil =>
        simp only [List.nil_append, List.cons.injEq, Prod.mk.injEq] at h'
        obtain ⟨⟨h1, h2⟩, h3⟩ := h'
        rw [if_pos h1, foreachLoop_zero, h3]
      | cons y pre =>
        simp only [List.cons_append, List.cons.injEq] at h'
        obtain ⟨h1, h3⟩ := h'
        have : m.id ≠ o := by
          have := hpre y List.mem_cons_self
          rw [← h1] at this; exact this
        rw [if_neg this]
        exact ih pre post x h3 fun y hy => hpre y (List.mem_cons_of_mem _ hy)

end Jool.Globals
