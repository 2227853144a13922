import Verif.Model.InstList
import Verif.Lemmas.XlatorRun
import Verif.Props.XlatorTable
/-
How the table of instances changes: new ones come first, the others keep their order.
-/
namespace Jool.InstList
open Jool.Xlator

structure Grows (w w' : World) : Prop where
  next : w.next ≤ w'.next
  table : ∃ new sub, w'.table = new ++ sub ∧ sub.Sublist w.table ∧ ∀ n ∈ new, w.next ≤ n.id

theorem Grows.same {w w' : World} (h1 : w.next ≤ w'.next) (h2 : w'.table = w.table) : Grows w w' :=
  ⟨h1, [], w.table, h2, List.Sublist.refl _, by simp⟩

theorem Grows.refl (w : World) : Grows w w := .same (Nat.le_refl _) rfl

theorem Grows.trans {a b c : World} (f : Grows a b) (g : Grows b c) : Grows a c := by
  obtain ⟨f1, n1, s1, f2, f3, f4⟩ := f
  obtain ⟨g1, n2, s2, g2, g3, g4⟩ := g
  rw [f2] at g3
  obtain ⟨x, y, e, hx, hy⟩ := List.sublist_append_iff.1 g3
  refine ⟨by omega, n2 ++ x, y, by rw [g2, e, List.append_assoc], hy.trans f3, fun n hn => ?_⟩
  rcases List.mem_append.1 hn with h | h
  · have := g4 n h; omega
  · exact f4 n (hx.subset h)

theorem Grows.sub {w w' : World} (h1 : w.next ≤ w'.next) (h2 : w'.table.Sublist w.table) : Grows w w' :=
  ⟨h1, [], _, rfl, h2, by simp⟩

theorem Grows.cons {w w' : World} {n : Node} {l : List Node} (h1 : w.next ≤ w'.next) (h2 : w'.table = n :: l) (h3 : l.Sublist w.table)
    (h4 : w.next ≤ n.id) : Grows w w' :=
  ⟨h1, [n], l, h2, h3, by simpa using h4⟩

theorem grows_unlink (w : World) (n : Node) : Grows w (unlink w n) := .sub (Nat.le_refl _) (List.eraseP_sublist)

theorem grows_unlinks : ∀ (l : List Node) (w : World), Grows w (l.foldl unlink w)
  | [], w => .refl w
  | n :: l, w => (grows_unlink w n).trans (grows_unlinks l _)

theorem grows_flush (xt : Flags) : ∀ (nss : List Ns) (w : World), Grows w (flush nss xt w)
  | [], w => .refl w
  | ns :: nss, w => (grows_unlinks _ w).trans (grows_flush xt nss (flushOne ns xt w))

theorem addNode_next (H : Hash) (e : Env) (x : Xl) (w : World) : w.next ≤ (addNode H e x w).1.next := by
  unfold addNode
  dsimp only
  split
  · split
    · exact Nat.le_refl _
    split
    · exact Nat.le_refl _
    · exact Nat.le_succ _
  · exact Nat.le_succ _

theorem grows_addNode (H : Hash) (e : Env) (x : Xl) (w : World) : Grows w (addNode H e x w).1 := by
  rcases addNode_spec (H := H) (e := e) (x := x) (w := w) with ⟨_, h⟩ | ⟨_, _, _, _, _, _, n, h1, _, h3⟩
  · rw [h]; exact .refl w
  · exact .cons (addNode_next H e x w) h1 (List.Sublist.refl _) (by omega)

theorem grows_destroy {f : Flags} {o : List Nat} {op : Option Nat} {u : Bool} {a b : World} (h : destroy f o op u a = .ok b) : Grows a b := by
  obtain ⟨h1, -, -, -, -, h2⟩ := destroy_same h
  exact .same (by omega) h1

theorem grows_add {H : Hash} {e : Env} {ns : Ns} {flags : Flags} {name : Name} {g : Glob} {want : Bool} {w w' : World} {code : Code}
    (h : add H e ns flags name g want w = .ok (w', code)) : Grows w w' := by
  unfold add at h
  split at h
  · injection h with h; injection h with h1 h2; subst h1; exact .refl w
  split at h
  · injection h with h; injection h with h1 h2; subst h1; exact .refl w
  obtain ⟨⟨h1, c1, x⟩, hi, h⟩ := bind_ok h
  cases x with
  | none => injection h with h; injection h with h1 h2; subst h1; exact .same (Nat.le_refl _) rfl
  | some x =>
    dsimp only at h
    have g0 : Grows w { w with heap := h1 } := .same (Nat.le_refl _) rfl
    split at h
    · obtain ⟨w2, hd, he⟩ := map_ok h
      injection he with he1 he2
      subst he1
      exact g0.trans (grows_destroy hd)
    have g1 := grows_addNode H e x { w with heap := h1 }
    revert h g1
    generalize addNode H e x { w with heap := h1 } = q
    obtain ⟨q1, q2⟩ := q
    intro h g1
    have g2 : Grows w q1 := g0.trans g1
    split at h
    · rename_i e1
      injection e1 with e1 e2
      subst e1
      split at h
      · obtain ⟨h4, _, he⟩ := map_ok h
        injection he with he1 he2
        subst he1
        exact g2.trans (.same (Nat.le_succ _) rfl)
      · injection h with h; injection h with h2 h3; subst h2
        exact g2
    · rename_i e1
      injection e1 with e1 e2
      subst e1
      obtain ⟨w2, hd, he⟩ := map_ok h
      injection he with he1 he2
      subst he1
      exact g2.trans (grows_destroy hd)

theorem grows_replace {H : Hash} {e : Env} {x : Xl} {w w' : World} {code : Code} (h : replace H e x w = .ok (w', code)) : Grows w w' := by
  unfold replace at h
  split at h
  · injection h with h; injection h with h1 h2; subst h1; exact .refl w
  split at h
  · injection h with h; injection h with h1 h2; subst h1; exact .refl w
  split at h
  · injection h with h; injection h with h1 h2; subst h1; exact .refl w
  obtain ⟨h1, hg, h⟩ := bind_ok h
  dsimp only at h
  have g0 : Grows w { w with heap := h1 } := .same (Nat.le_refl _) rfl
  split at h
  · have g1 := grows_addNode H e x { w with heap := h1 }
    revert h g1
    generalize addNode H e x { w with heap := h1 } = q
    obtain ⟨q1, q2⟩ := q
    intro h g1
    have g2 : Grows w q1 := g0.trans g1
    split at h
    · rename_i e1
      injection e1 with e1 e2
      subst e1
      injection h with h; injection h with h2 h3; subst h2
      exact g2
    · rename_i e1
      injection e1 with e1 e2
      subst e1
      obtain ⟨w2, hd, he⟩ := map_ok h
      injection he with he1 he2
      subst he1
      exact g2.trans (grows_destroy hd)
  · split at h
    · obtain ⟨w2, hd, he⟩ := map_ok h
      injection he with he1 he2
      subst he1
      exact g0.trans (grows_destroy hd)
    split at h
    · obtain ⟨w2, hd, he⟩ := map_ok h
      injection he with he1 he2
      subst he1
      exact g0.trans (grows_destroy hd)
    obtain ⟨w2, hd, he⟩ := map_ok h
    injection he with he1 he2
    subst he1
    unfold swap at hd
    obtain ⟨h3, _, he⟩ := map_ok hd
    subst he
    exact .cons (Nat.le_succ _) rfl List.eraseP_sublist (Nat.le_refl _)

theorem grows_step {H : Hash} {w : World} {o : Op} {r : World × Code} (hs : step H w o = .ok r) : Grows w r.1 := by
  obtain ⟨w', code⟩ := r
  cases o with
  | add e ns flags name gl want => exact grows_add (show add H e ns flags name gl want w = .ok (w', code) from hs)
  | init e ns flags name gl =>
    unfold step at hs
    dsimp only at hs
    split at hs
    · injection hs with hs; injection hs with h1 h2; subst h1; exact .refl w
    · obtain ⟨⟨a, b, c⟩, _, he⟩ := map_ok hs
      cases c
      · injection he with he1 he2; subst he1; exact .same (Nat.le_refl _) rfl
      · injection he with he1 he2; subst he1; exact .same (Nat.le_succ _) rfl
  | edit c gl => injection hs with hs; injection hs with h1 h2; subst h1; exact .same (Nat.le_refl _) rfl
  | rm ns xt name =>
    injection hs with hs
    show Grows w w'
    have : w' = (rm H ns xt name w).1 := by rw [hs]
    rw [this]
    unfold rm
    split
    · exact .refl w
    split
    · exact .refl w
    split
    · exact .refl w
    · exact grows_unlink w _
  | flush nss xt => injection hs with hs; injection hs with h1' h2; subst h1'; exact grows_flush xt nss w
  | replace e c =>
    unfold step at hs
    dsimp only at hs
    split at hs
    · injection hs with hs; injection hs with h1 h2; subst h1; exact .refl w
    · exact grows_replace hs
  | reap i =>
    obtain ⟨a, ha, he⟩ := map_ok hs
    injection he with he1 he2
    subst he1
    unfold reap at ha
    split at ha
    · injection ha with ha; subst ha; exact .refl _
    split at ha
    · injection ha with ha; subst ha; exact .refl _
    · exact Grows.trans (b := { w with limbo := w.limbo.eraseP (·.node.id == i) }) (.same (Nat.le_refl _) rfl) (grows_destroy ha)
  | pin ns flags name =>
    unfold step at hs
    dsimp only at hs
    split at hs
    · injection hs with hs; injection hs with h1 h2; subst h1; exact .refl w
    · injection hs with hs; injection hs with h1 h2; subst h1; exact .same (Nat.le_succ _) rfl
  | pinNf ns =>
    unfold step at hs
    dsimp only at hs
    split at hs
    · injection hs with hs; injection hs with h1 h2; subst h1; exact .refl w
    · injection hs with hs; injection hs with h1 h2; subst h1; exact .same (Nat.le_succ _) rfl
  | grab r =>
    obtain ⟨a, ha, he⟩ := map_ok hs
    injection he with he1 he2
    subst he1
    unfold grab at ha
    split at ha
    · injection ha with ha; subst ha; exact .refl _
    split at ha
    · cases ha
    · obtain ⟨b, _, hb⟩ := map_ok ha
      subst hb; exact .same (Nat.le_refl _) rfl
  | put c =>
    obtain ⟨a, ha, he⟩ := map_ok hs
    injection he with he1 he2
    subst he1
    unfold put at ha
    split at ha
    · injection ha with ha; subst ha; exact .refl _
    · obtain ⟨b, _, hb⟩ := map_ok ha
      subst hb; exact .same (Nat.le_refl _) rfl

theorem grows_run {H : Hash} : ∀ {ops : List Op} {w w' : World}, run H w ops = .ok w' → Grows w w'
  | [], w, w', h => by injection h with h; subst h; exact .refl w
  | o :: ops, w, w', h => by
    obtain ⟨r, h1, h2⟩ := bind_ok (show (step H w o).bind _ = _ from h)
    exact (grows_step h1).trans (grows_run h2)

/-! ## Order -/

/-- `n` is visited before `m`. -/
def Before (w : World) (n m : Node) : Prop :=
  bucket n.hash < bucket m.hash ∨ (bucket n.hash = bucket m.hash ∧ [n, m].Sublist w.table)

theorem pair_cases {α} [DecidableEq α] {a b : α} (hab : a ≠ b) : ∀ {l : List α}, a ∈ l → b ∈ l → [a, b].Sublist l ∨ [b, a].Sublist l
  | [], h, _ => by cases h
  | x :: l, ha, hb => by
    rcases List.mem_cons.1 ha with e | ha'
    · subst e
      rcases List.mem_cons.1 hb with e | hb'
      · exact absurd e.symm hab
      · exact .inl (List.Sublist.cons_cons _ (List.singleton_sublist.2 hb'))
    · rcases List.mem_cons.1 hb with e | hb'
      · subst e
        exact .inr (List.Sublist.cons_cons _ (List.singleton_sublist.2 ha'))
      · rcases pair_cases hab ha' hb' with h | h
        · exact .inl (h.cons _)
        · exact .inr (h.cons _)

theorem pair_asymm {α} {a b : α} : ∀ {l : List α}, l.Nodup → [a, b].Sublist l → ¬ [b, a].Sublist l
  | [], _, h => by cases h
  | x :: l, hd, h => by
    intro h'
    obtain ⟨h1, h2⟩ := List.nodup_cons.1 hd
    cases h with
    | cons _ h =>
      cases h' with
      | cons _ h' => exact pair_asymm h2 h h'
      | cons_cons _ h' => exact h1 (h.subset (by simp))
    | cons_cons _ h =>
      cases h' with
      | cons _ h' => exact h1 (h'.subset (by simp))
      | cons_cons _ h' => exact h1 (h'.subset (by simp))

theorem mem_order {w : World} {n : Node} : n ∈ order w ↔ n ∈ w.table := by
  unfold order
  simp only [List.mem_flatMap, List.mem_range, List.mem_filter, beq_iff_eq]
  constructor
  · rintro ⟨b, -, h, -⟩; exact h
  · intro h; exact ⟨bucket n.hash, Nat.mod_lt _ (by decide), h, rfl⟩

theorem order_before (w : World) : (order w).Pairwise (Before w) := by
  unfold order
  rw [List.pairwise_flatMap]
  refine ⟨fun b _ => ?_, ?_⟩
  · rw [List.pairwise_iff_forall_sublist]
    intro x y h
    have hx : x ∈ w.table.filter fun n => bucket n.hash == b := h.subset (by simp)
    have hy : y ∈ w.table.filter fun n => bucket n.hash == b := h.subset (by simp)
    simp only [List.mem_filter, beq_iff_eq] at hx hy
    exact .inr ⟨by rw [hx.2, hy.2], h.trans List.filter_sublist⟩
  · refine (List.pairwise_lt_range (n := 64)).imp ?_
    intro a b hab x hx y hy
    simp only [List.mem_filter, beq_iff_eq] at hx hy
    exact .inl (by rw [hx.2, hy.2]; exact hab)

end Jool.InstList
