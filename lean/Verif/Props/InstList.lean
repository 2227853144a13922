import Verif.Lemmas.InstList
/-
C80: the list of instances.
-/
namespace Jool.InstListSpec
open Jool.Xlator

/-- Instance `n` is of the type that is asked for. -/
def Ty (xt : Flags) (n : Node) : Prop := xtOf n.xl.flags &&& xt ≠ 0

/-- What a client sees of the instances of this type tells them apart. -/
def Distinct32 (xt : Flags) (w : World) : Prop :=
  ∀ m ∈ w.table, ∀ n ∈ w.table, Ty xt m → Ty xt n → m.xl.ns % 2 ^ 32 = n.xl.ns % 2 ^ 32 → m.xl.name = n.xl.name → m = n

/-- Anything may have happened in between. -/
def Later (H : Hash) (w w' : World) : Prop := ∃ ops, run H w ops = .ok w'

def Linked (H : Hash) : World → List (World × Nat) → Prop
  | _, [] => True
  | w, (w', _) :: rs => Later H w w' ∧ Linked H w' rs

/-- The last instance of a page is still there, untouched, when the next page is asked for. -/
def Kept (ps : List (List Node)) (reqs : List (World × Nat)) : Prop :=
  ∀ (i : Nat) (p : List Node) (n : Node) (w : World) (k : Nat), ps[i]? = some p → p.getLast? = some n → reqs[i + 1]? = some (w, k) → n ∈ w.table

end Jool.InstListSpec

namespace Jool.InstList
open Jool.Xlator Jool.InstListSpec

/-- The order in which the instances of a type are listed. -/
def listed (xt : Flags) (w : World) : List Node := (order w).filter fun n => xtOf n.xl.flags &&& xt != 0

theorem mem_listed {xt : Flags} {w : World} {n : Node} : n ∈ listed xt w ↔ n ∈ w.table ∧ Ty xt n := by
  unfold listed Ty
  simp [List.mem_filter, mem_order]

theorem listed_before (xt : Flags) (w : World) : (listed xt w).Pairwise (Before w) := (order_before w).filter _

theorem table_nodup {H : Hash} {w : World} (g : Good H w) : w.table.Nodup := by
  have := nodup_ids g.shape
  rw [List.Nodup, List.pairwise_map] at this
  exact this.imp fun h e => h (by rw [e])

theorem before_asymm {H : Hash} {w : World} (g : Good H w) {n m : Node} (h : Before w n m) : ¬ Before w m n := by
  rcases h with h | ⟨h, h'⟩
  · rintro (h2 | ⟨h2, -⟩) <;> omega
  · rintro (h2 | ⟨-, h2⟩)
    · omega
    · exact pair_asymm (table_nodup g) h' h2

theorem before_irrefl {H : Hash} {w : World} (g : Good H w) {n : Node} : ¬ Before w n n := fun h => before_asymm g h h

/-- Where an instance stands in the list. -/
theorem split_listed {H : Hash} {xt : Flags} {w : World} (g : Good H w) {n : Node} (hn : n ∈ listed xt w) :
    ∃ a r, listed xt w = a ++ n :: r ∧ (∀ m, m ∈ r ↔ m ∈ listed xt w ∧ Before w n m) ∧ n ∉ a := by
  obtain ⟨a, r, e⟩ := List.append_of_mem hn
  have hp := listed_before xt w
  rw [e, List.pairwise_append, List.pairwise_cons] at hp
  obtain ⟨-, ⟨h1, -⟩, h2⟩ := hp
  refine ⟨a, r, e, fun m => ⟨fun h => ⟨?_, h1 m h⟩, fun ⟨h, hb⟩ => ?_⟩, fun h => ?_⟩
  · rw [e]; exact List.mem_append_right _ (List.mem_cons_of_mem _ h)
  · rw [e] at h
    rcases List.mem_append.1 h with h | h
    · exact absurd (h2 m h n (by simp)) (before_asymm g hb)
    · rcases List.mem_cons.1 h with h | h
      · subst h; exact absurd hb (before_irrefl g)
      · exact h
  · exact before_irrefl g (h2 n h n (by simp))

/-! ## One request -/

theorem walk_none (xt : Flags) : ∀ (l : List Node) (room : Nat),
    walk xt room none l = ((l.filter fun n => xtOf n.xl.flags &&& xt != 0).take room,
      if (l.filter fun n => xtOf n.xl.flags &&& xt != 0).length ≤ room then .fin else .full)
  | [], room => by simp [walk]
  | n :: l, room => by
    unfold walk
    split
    · rename_i h
      rw [walk_none xt l room, List.filter_cons_of_neg (by simpa using h)]
    · rename_i h
      have hf := List.filter_cons_of_pos (p := fun n : Node => xtOf n.xl.flags &&& xt != 0) (a := n) (l := l) (by simpa using h)
      rw [hf]
      cases room with
      | zero => rfl
      | succ k =>
        simp only [walk_none xt l k, List.take_succ_cons, List.length_cons, Nat.add_le_add_iff_right]

theorem walk_some (xt : Flags) (o : Entry) : ∀ (l : List Node) (room : Nat) (a : List Node) (n : Node) (r : List Node),
    (l.filter fun n => xtOf n.xl.flags &&& xt != 0) = a ++ n :: r → (∀ m ∈ a, offsetEquals o m = false) → offsetEquals o n = true →
    walk xt room (some o) l = (r.take room, if r.length ≤ room then .fin else .full)
  | [], room, a, n, r, h, _, _ => by simp at h
  | x :: l, room, a, n, r, h, ha, hn => by
    unfold walk
    split
    · rename_i hx
      rw [List.filter_cons_of_neg (by simpa using hx)] at h
      exact walk_some xt o l room a n r h ha hn
    · rename_i hx
      rw [List.filter_cons_of_pos (by simpa using hx)] at h
      cases a with
      | nil =>
        injection h with h1 h2
        subst h1
        simp only [hn, if_true]
        rw [walk_none, h2]
      | cons y a =>
        injection h with h1 h2
        subst h1
        simp only [ha x (by simp), Bool.false_eq_true, if_false]
        exact walk_some xt o l room a n r h2 (fun m hm => ha m (List.mem_cons_of_mem _ hm)) hn

/-- No such instance: the request is refused. -/
theorem walk_lost (xt : Flags) (o : Entry) : ∀ (l : List Node) (room : Nat),
    (∀ m ∈ l, Ty xt m → offsetEquals o m = false) → walk xt room (some o) l = ([], .lost)
  | [], _, _ => rfl
  | x :: l, room, h => by
    have ih := walk_lost xt o l room fun m hm => h m (List.mem_cons_of_mem _ hm)
    unfold walk
    split
    · exact ih
    · rename_i hx
      simp only [h x (by simp) (by simpa [Ty] using hx), Bool.false_eq_true, if_false]
      exact ih

theorem offset_iff {m n : Node} : offsetEquals (entryOf n) m = true ↔ n.xl.ns % 2 ^ 32 = m.xl.ns % 2 ^ 32 ∧ n.xl.name = m.xl.name := by
  unfold offsetEquals entryOf
  rw [Bool.and_eq_true, beq_iff_eq, beq_iff_eq]
  constructor
  · rintro ⟨h1, h2⟩
    exact ⟨by simpa [BitVec.toNat_ofNat] using congrArg BitVec.toNat h1, h2⟩
  · rintro ⟨h1, h2⟩
    exact ⟨BitVec.eq_of_toNat_eq (by simpa [BitVec.toNat_ofNat] using h1), h2⟩

theorem pages_fin {xt : Flags} {off : Option Entry} {w : World} {room : Nat} {reqs : List (World × Nat)} {l : List Node} (h : serve w xt room off = .page l false) :
    pages xt off ((w, room) :: reqs) = ([l], .done) := by rw [pages, h]

theorem pages_einval {xt : Flags} {off : Option Entry} {w : World} {room : Nat} {reqs : List (World × Nat)} (h : serve w xt room off = .einval) :
    pages xt off ((w, room) :: reqs) = ([], .einval) := by rw [pages, h]

theorem pages_more {xt : Flags} {off : Option Entry} {w : World} {room : Nat} {reqs : List (World × Nat)} {l : List Node} {n : Node}
    (h : serve w xt room off = .page (l ++ [n]) true) :
    pages xt off ((w, room) :: reqs) = ((l ++ [n]) :: (pages xt (some (entryOf n)) reqs).1, (pages xt (some (entryOf n)) reqs).2) := by
  rw [pages, h]
  simp only [List.getLast?_append, List.getLast?_singleton, Option.some_or]

/-- What is sent, of the list `r` that remains. -/
theorem pages_rest {xt : Flags} {off : Option Entry} {w : World} {room : Nat} {reqs : List (World × Nat)} {r : List Node}
    (h : walk xt room off (order w) = (r.take room, if r.length ≤ room then .fin else .full)) :
    (r.length ≤ room ∧ pages xt off ((w, room) :: reqs) = ([r], .done)) ∨
    (r ≠ [] ∧ room = 0 ∧ pages xt off ((w, room) :: reqs) = ([], .einval)) ∨
    ∃ l n r', r = l ++ n :: r' ∧ (l ++ [n]).length = room ∧ pages xt off ((w, room) :: reqs) =
      ((l ++ [n]) :: (pages xt (some (entryOf n)) reqs).1, (pages xt (some (entryOf n)) reqs).2) := by
  by_cases hl : r.length ≤ room
  · left
    refine ⟨hl, pages_fin ?_⟩
    rw [if_pos hl, List.take_of_length_le hl] at h
    unfold serve
    rw [h]
  · rw [if_neg hl] at h
    right
    cases room with
    | zero =>
      left
      refine ⟨fun e => hl (by simp [e]), rfl, pages_einval ?_⟩
      unfold serve
      rw [h]
      rfl
    | succ k =>
      right
      have hk : k < r.length := by omega
      have e : r = r.take k ++ r[k] :: r.drop (k + 1) := by
        conv => lhs; rw [← List.take_append_drop k r, List.drop_eq_getElem_cons hk]
      have e2 : r.take (k + 1) = r.take k ++ [r[k]] := by rw [List.take_succ_eq_append_getElem hk]
      refine ⟨r.take k, r[k], r.drop (k + 1), e, ?_, pages_more ?_⟩
      · rw [List.length_append, List.length_take]; simp; omega
      · rw [e2] at h
        unfold serve
        rw [h]
        cases r.take k <;> rfl

/-! ## Between two requests -/

theorem later_grows {H : Hash} {w w' : World} (h : Later H w w') : Grows w w' := grows_run h.choose_spec
theorem later_good {H : Hash} {w w' : World} (h : Later H w w') (g : Good H w) : Good H w' := by
  obtain ⟨ops, h⟩ := h
  obtain ⟨w2, h2, g2⟩ := good_run ops g
  rw [h] at h2
  cases h2
  exact g2

theorem pair_app {α} {a b : α} {l r : List α} (h : [a, b].Sublist (l ++ r)) (ha : a ∉ l) : [a, b].Sublist r := by
  obtain ⟨x, y, e, hx, hy⟩ := List.sublist_append_iff.1 h
  cases x with
  | nil => simp at e; rw [e]; exact hy
  | cons z x =>
    injection e with e1 e2
    subst e1
    exact absurd (hx.subset (by simp)) ha

/-- Nothing slips in behind an instance that remains, in its bucket. -/
theorem before_back {H : Hash} {w w' : World} (g : Good H w) (hw : Grows w w') {n m : Node} (hn : n ∈ w.table) (hb : Before w' n m) :
    bucket n.hash < bucket m.hash ∨ (m ∈ w.table ∧ Before w n m) := by
  rcases hb with hb | ⟨hb, hs⟩
  · exact .inl hb
  · right
    obtain ⟨new, sub, e, h1, h2⟩ := hw.table
    rw [e] at hs
    have hnn : n ∉ new := fun h => by have := h2 n h; have := g.shape.tableLt n hn; omega
    have := (pair_app hs hnn).trans h1
    exact ⟨this.subset (by simp), .inr ⟨hb, this⟩⟩

/-- What remains behind an instance that remains, remains behind it. -/
theorem before_forth {H : Hash} {w w' : World} (g : Good H w) (hw : Grows w w') {n m : Node} (hm : m ∈ w.table)
    (hn' : n ∈ w'.table) (hm' : m ∈ w'.table) (hb : Before w n m) : Before w' n m := by
  rcases hb with hb | ⟨hb, hs⟩
  · exact .inl hb
  · have hne : n ≠ m := fun e => by subst e; exact pair_asymm (table_nodup g) hs hs
    rcases pair_cases hne hn' hm' with h | h
    · exact .inr ⟨hb, h⟩
    · rcases before_back g hw hm (.inr ⟨hb.symm, h⟩ : Before w' m n) with h2 | ⟨-, h2⟩
      · omega
      · exact absurd h2 (before_asymm g (.inr ⟨hb, hs⟩))

theorem kept_tail {p : List Node} {ps : List (List Node)} {q : World × Nat} {reqs : List (World × Nat)} (h : Kept (p :: ps) (q :: reqs)) : Kept ps reqs :=
  fun i p' n w k h1 h2 h3 => h (i + 1) p' n w k (by simpa using h1) h2 (by simpa using h3)

/-- What was listed before the page that follows `n`. -/
structure Past (H : Hash) (xt : Flags) (S : List Node) (n : Node) (w : World) : Prop where
  hash : ∀ k ∈ S, k.hash = H k.xl.ns (xtOf k.xl.flags) k.xl.name
  bucket : ∀ k ∈ S, Xlator.bucket k.hash ≤ Xlator.bucket n.hash
  fresh : ∀ k ∈ S, ∀ m ∈ listed xt w, Before w n m → ¬ SameKey k.xl m.xl

theorem listed_uniq {H : Hash} {xt : Flags} {w : World} (g : Good H w) {m n : Node} (hm : m ∈ listed xt w) (hn : n ∈ listed xt w) (h : SameKey m.xl n.xl) : m = n :=
  uniq_eq g.shape (mem_listed.1 hm).1 (mem_listed.1 hn).1 h

theorem before_le {w : World} {n m : Node} (h : Before w n m) : bucket n.hash ≤ bucket m.hash := by
  rcases h with h | h
  · omega
  · omega

/-- The past, after what happened in between. -/
theorem Past.later {H : Hash} {xt : Flags} {S : List Node} {n : Node} {w w' : World} (p : Past H xt S n w) (g : Good H w) (g' : Good H w') (hw : Grows w w')
    (hn : n ∈ w.table) : Past H xt S n w' := by
  refine ⟨p.hash, p.bucket, fun k hk m hm hb hs => ?_⟩
  obtain ⟨hm1, hm2⟩ := mem_listed.1 hm
  have e : k.hash = m.hash := by rw [p.hash k hk, g'.shape.hash m hm1, hs.1, hs.2.1, hs.2.2]
  have := p.bucket k hk
  rcases before_back g hw hn hb with h | ⟨h1, h2⟩
  · rw [e] at this; omega
  · exact p.fresh k hk m (mem_listed.2 ⟨h1, hm2⟩) h2 hs

/-- The past, one page later. -/
theorem Past.page {H : Hash} {xt : Flags} {S : List Node} {n : Node} {w : World} (p : Past H xt S n w) (g : Good H w) {l : List Node} {n' : Node} {a r' : List Node}
    (e : listed xt w = a ++ (l ++ n' :: r')) (hr : ∀ m ∈ l ++ n' :: r', Before w n m) : Past H xt (S ++ (l ++ [n'])) n' w := by
  have hp := listed_before xt w
  rw [e, ← List.append_assoc, List.pairwise_append, List.pairwise_cons, List.pairwise_append] at hp
  obtain ⟨⟨-, -, ha⟩, ⟨hp1, -⟩, hp2⟩ := hp
  have hle : ∀ k ∈ l ++ [n'], Xlator.bucket k.hash ≤ Xlator.bucket n'.hash := by
    intro k hk
    rcases List.mem_append.1 hk with hk | hk
    · exact before_le (hp2 k (List.mem_append_right _ hk) n' (by simp))
    · rw [List.mem_singleton.1 hk]; exact Nat.le_refl _
  have hin : ∀ k ∈ l ++ [n'], k ∈ listed xt w := by
    intro k hk
    rw [e]
    rcases List.mem_append.1 hk with hk | hk
    · exact List.mem_append_right _ (List.mem_append_left _ hk)
    · rw [List.mem_singleton.1 hk]; exact List.mem_append_right _ (List.mem_append_right _ (by simp))
  have hnn' : Before w n n' := hr n' (by simp)
  have hn' : n' ∈ listed xt w := hin n' (by simp)
  have after : ∀ m ∈ listed xt w, Before w n' m → m ∈ r' := by
    intro m hm hb
    obtain ⟨a2, r2, e2, h2, h3⟩ := split_listed g hn'
    have : a ++ l = a2 ∧ n' :: r' = n' :: r2 := by
      have hnot : n' ∉ a ++ l := fun h => before_irrefl g (hp2 n' h n' (by simp))
      have e3 : (a ++ l) ++ n' :: r' = a2 ++ n' :: r2 := by rw [← e2, e, List.append_assoc]
      rcases List.append_eq_append_iff.1 e3 with ⟨c, c1, c2⟩ | ⟨c, c1, c2⟩
      · cases c with
        | nil => simp at c1 c2; exact ⟨c1.symm, by rw [c2]⟩
        | cons y c =>
          injection c2 with c2 c3
          exact absurd (by rw [c1, ← c2]; simp) h3
      · cases c with
        | nil => simp at c1 c2; exact ⟨c1, by rw [c2]⟩
        | cons y c =>
          injection c2 with c2 c3
          exact absurd (by rw [c1, ← c2]; simp) hnot
    injection this.2 with _ e4
    rw [e4]
    exact (h2 m).2 ⟨hm, hb⟩
  refine ⟨fun k hk => ?_, fun k hk => ?_, fun k hk m hm hb hs => ?_⟩
  · rcases List.mem_append.1 hk with hk | hk
    · exact p.hash k hk
    · exact g.shape.hash k (mem_listed.1 (hin k hk)).1
  · rcases List.mem_append.1 hk with hk | hk
    · have := p.bucket k hk; have := before_le hnn'; omega
    · exact hle k hk
  · have hm' := after m hm hb
    rcases List.mem_append.1 hk with hk | hk
    · exact p.fresh k hk m hm (hr m (List.mem_append_right _ (List.mem_cons_of_mem _ hm'))) hs
    · have hkm := listed_uniq g (hin k hk) hm hs
      subst hkm
      rcases List.mem_append.1 hk with hk | hk
      · exact before_irrefl g (hp2 k (List.mem_append_right _ hk) k (List.mem_cons_of_mem _ hm'))
      · rw [List.mem_singleton.1 hk] at hb; exact before_irrefl g hb

/-- Instances of one page are different instances. -/
theorem listed_pairwise {H : Hash} {xt : Flags} {w : World} (g : Good H w) : (listed xt w).Pairwise fun m n => ¬ SameKey m.xl n.xl := by
  refine List.Pairwise.imp_of_mem (fun {a b} ha hb h hs => ?_) (listed_before xt w)
  have := listed_uniq g ha hb hs
  subst this
  exact before_irrefl g h

structure Result (xt : Flags) (S : List Node) (rest : List Node) (reqs : List (World × Nat)) (r : List (List Node) × End) : Prop where
  notLost : r.2 ≠ .lost
  once : r.1.flatten.Pairwise fun m n => ¬ SameKey m.xl n.xl
  fresh : ∀ k ∈ S, ∀ m ∈ r.1.flatten, ¬ SameKey k.xl m.xl
  all : r.2 = .done → ∀ m ∈ rest, (∀ q ∈ reqs, m ∈ q.1.table) → m ∈ r.1.flatten

theorem go {H : Hash} {xt : Flags} : ∀ (reqs : List (World × Nat)) (w0 : World) (n : Node) (S rest : List Node), Good H w0 → n ∈ listed xt w0 → Past H xt S n w0 →
    (∀ m ∈ rest, m ∈ listed xt w0 ∧ Before w0 n m) → Linked H w0 reqs → (∀ q ∈ reqs, Distinct32 xt q.1) → (∀ q ∈ reqs.head?, n ∈ q.1.table) →
    Kept (pages xt (some (entryOf n)) reqs).1 reqs → Result xt S rest reqs (pages xt (some (entryOf n)) reqs)
  | [], w0, n, S, rest, _, _, _, _, _, _, _, _ => ⟨by simp [pages], by simp [pages], by simp [pages], by simp [pages]⟩
  | (w, room) :: reqs, w0, n, S, rest, g0, hn0, past, hrest, hl, hd, hh, hk => by
    obtain ⟨hlw, hl2⟩ := hl
    have g := later_good hlw g0
    have gr := later_grows hlw
    obtain ⟨hn1, hn2⟩ := mem_listed.1 hn0
    have hnw : n ∈ w.table := hh (w, room) (by simp)
    have hnl : n ∈ listed xt w := mem_listed.2 ⟨hnw, hn2⟩
    have past' := past.later g0 g gr hn1
    have hrest' : ∀ m ∈ rest, (m ∈ w.table) → m ∈ listed xt w ∧ Before w n m := by
      intro m hm hmw
      obtain ⟨h1, h2⟩ := hrest m hm
      obtain ⟨h3, h4⟩ := mem_listed.1 h1
      exact ⟨mem_listed.2 ⟨hmw, h4⟩, before_forth g0 gr h3 hnw hmw h2⟩
    obtain ⟨a, r, e, hr, hna⟩ := split_listed g hnl
    have hw := walk_some xt (entryOf n) (order w) room a n r e (by
      intro m hm
      rw [Bool.eq_false_iff]
      intro h
      obtain ⟨h1, h2⟩ := offset_iff.1 h
      have hml : m ∈ listed xt w := by rw [e]; exact List.mem_append_left _ hm
      obtain ⟨m1, m2⟩ := mem_listed.1 hml
      have := hd (w, room) (by simp) n hnw m m1 hn2 m2 h1 h2
      subst this
      exact hna hm) (offset_iff.2 ⟨rfl, rfl⟩)
    have hpr : r.Pairwise fun m n => ¬ SameKey m.xl n.xl := by
      have := listed_pairwise (xt := xt) g
      rw [e, List.pairwise_append, List.pairwise_cons] at this
      exact this.2.1.2
    rcases pages_rest (reqs := reqs) hw with ⟨-, hp⟩ | ⟨-, -, hp⟩ | ⟨l, n', r', er, -, hp⟩
    · rw [hp]
      refine ⟨by simp, by simpa using hpr, fun k hk m hm => ?_, fun _ m hm hall => ?_⟩
      · have hm : m ∈ r := by simpa using hm
        obtain ⟨h1, h2⟩ := (hr m).1 hm
        exact past'.fresh k hk m h1 h2
      · have := (hr m).2 (hrest' m hm (hall (w, room) (by simp)))
        simpa using this
    · rw [hp]
      exact ⟨by simp, by simp, by simp, by simp⟩
    · have hkk := hk
      rw [hp] at hkk ⊢
      have hr2 : ∀ m ∈ l ++ n' :: r', Before w n m := fun m hm => ((hr m).1 (er ▸ hm)).2
      have e' : listed xt w = (a ++ [n]) ++ (l ++ n' :: r') := by rw [e, er]; simp
      have past2 := past'.page g e' hr2
      have hin : ∀ m ∈ l ++ n' :: r', m ∈ listed xt w := fun m hm => ((hr m).1 (er ▸ hm)).1
      have hn' : n' ∈ listed xt w := hin n' (by simp)
      have hafter : ∀ m ∈ r', m ∈ listed xt w ∧ Before w n' m := by
        intro m hm
        refine ⟨hin m (List.mem_append_right _ (List.mem_cons_of_mem _ hm)), ?_⟩
        have := listed_before xt w
        rw [e', List.pairwise_append] at this
        have := this.2.1
        rw [List.pairwise_append, List.pairwise_cons] at this
        exact this.2.1.1 m hm
      have ih := go reqs w n' (S ++ (l ++ [n'])) r' g hn' past2 hafter hl2 (fun q hq => hd q (List.mem_cons_of_mem _ hq))
        (by
          intro q hq
          refine hkk 0 (l ++ [n']) n' q.1 q.2 rfl (by simp) ?_
          simp only [Nat.zero_add, List.getElem?_cons_succ]
          rw [← List.head?_eq_getElem?]
          exact hq)
        (kept_tail hkk)
      refine ⟨ih.notLost, ?_, ?_, ?_⟩
      · simp only [List.flatten_cons]
        rw [List.pairwise_append]
        refine ⟨?_, ih.once, fun x hx y hy => ih.fresh x (List.mem_append_right _ hx) y hy⟩
        rw [er, show l ++ n' :: r' = (l ++ [n']) ++ r' by simp, List.pairwise_append] at hpr
        exact hpr.1
      · intro k hk m hm
        simp only [List.flatten_cons] at hm
        rcases List.mem_append.1 hm with hm | hm
        · have hm' : m ∈ l ++ n' :: r' := by
            rcases List.mem_append.1 hm with h | h
            · exact List.mem_append_left _ h
            · rw [List.mem_singleton.1 h]; simp
          exact past'.fresh k hk m (hin m hm') (hr2 m hm')
        · exact ih.fresh k (List.mem_append_left _ hk) m hm
      · intro hdone m hm hall
        simp only [List.flatten_cons]
        have := (hr m).2 (hrest' m hm (hall (w, room) (by simp)))
        rw [er] at this
        rcases List.mem_append.1 this with h | h
        · exact List.mem_append_left _ (List.mem_append_left _ h)
        · rcases List.mem_cons.1 h with h | h
          · rw [h]; exact List.mem_append_left _ (by simp)
          · exact List.mem_append_right _ (ih.all hdone m h fun q hq => hall q (List.mem_cons_of_mem _ hq))

/-! ## The properties -/

/-- Whatever is listed exists, and is of the type that was asked for. -/
theorem walk_mem {xt : Flags} : ∀ {l : List Node} {room : Nat} {off : Option Entry} {m : Node}, m ∈ (walk xt room off l).1 → m ∈ l ∧ Ty xt m
  | [], _, _, _, h => by simp [walk] at h
  | x :: l, room, off, m, h => by
    unfold walk at h
    split at h
    · obtain ⟨h1, h2⟩ := walk_mem h
      exact ⟨List.mem_cons_of_mem _ h1, h2⟩
    · rename_i hx
      split at h
      · split at h
        · obtain ⟨h1, h2⟩ := walk_mem h
          exact ⟨List.mem_cons_of_mem _ h1, h2⟩
        · obtain ⟨h1, h2⟩ := walk_mem h
          exact ⟨List.mem_cons_of_mem _ h1, h2⟩
      · split at h
        · simp at h
        · rcases List.mem_cons.1 h with h | h
          · subst h; exact ⟨by simp, by simpa [Ty] using hx⟩
          · obtain ⟨h1, h2⟩ := walk_mem h
            exact ⟨List.mem_cons_of_mem _ h1, h2⟩

theorem serve_mem {xt : Flags} {w : World} {room : Nat} {off : Option Entry} {l : List Node} {b : Bool} (h : serve w xt room off = .page l b) :
    ∀ m ∈ l, m ∈ w.table ∧ Ty xt m := by
  intro m hm
  have : l = (walk xt room off (order w)).1 := by
    unfold serve at h
    split at h <;> first | cases h; simp_all; done | cases h
  rw [this] at hm
  obtain ⟨h1, h2⟩ := walk_mem hm
  exact ⟨mem_order.1 h1, h2⟩

/-- **C80.** Whatever happens between the requests: every page lists instances that exist at that moment and are of the type that was asked for. -/
theorem pages_mem {xt : Flags} : ∀ {reqs : List (World × Nat)} {off : Option Entry} {i : Nat} {p : List Node}, (pages xt off reqs).1[i]? = some p →
    ∃ q, reqs[i]? = some q ∧ ∀ m ∈ p, m ∈ q.1.table ∧ Ty xt m
  | [], off, i, p, h => by simp [pages] at h
  | (w, room) :: reqs, off, i, p, h => by
    rw [pages] at h
    split at h
    · simp at h
    · simp at h
    · rename_i l hs
      cases i with
      | zero => simp at h; subst h; exact ⟨_, rfl, serve_mem hs⟩
      | succ i => simp at h
    · rename_i l hs
      cases i with
      | zero => simp at h; subst h; exact ⟨_, rfl, serve_mem hs⟩
      | succ i =>
        simp only [List.getElem?_cons_succ] at h
        obtain ⟨q, h1, h2⟩ := pages_mem h
        exact ⟨q, by simpa using h1, h2⟩

/-- **C80.** Instances are created, removed and replaced while the list is requested, page by page. As long as the last instance of every page is still there, untouched, when
the next page is requested, the list does not fail, no instance is listed twice, and if it comes to its end, it has all the instances that were there, untouched, all the time.
The program violates the rest: `replaced_missed`, `replaced_twice`, `recreated_twice`, `low_bits_forever`. -/
theorem listing_partial {H : Hash} {xt : Flags} {w : World} {room : Nat} {reqs : List (World × Nat)} (hr : Reachable H w) (hl : Linked H w reqs)
    (hd : ∀ q ∈ (w, room) :: reqs, Distinct32 xt q.1) (hk : Kept (pages xt none ((w, room) :: reqs)).1 ((w, room) :: reqs)) :
    (pages xt none ((w, room) :: reqs)).2 ≠ .lost ∧
    ((pages xt none ((w, room) :: reqs)).1.flatten.Pairwise fun m n => ¬ (m.xl.ns = n.xl.ns ∧ xtOf m.xl.flags = xtOf n.xl.flags ∧ m.xl.name = n.xl.name)) ∧
    ((pages xt none ((w, room) :: reqs)).2 = .done → ∀ m, Ty xt m → (∀ q ∈ (w, room) :: reqs, m ∈ q.1.table) →
      m ∈ (pages xt none ((w, room) :: reqs)).1.flatten) := by
  have g := hr.good
  have hpr := listed_pairwise (xt := xt) g
  rcases pages_rest (reqs := reqs) (walk_none xt (order w) room) with ⟨-, hp⟩ | ⟨-, -, hp⟩ | ⟨l, n, r, er, -, hp⟩
  · rw [hp]
    refine ⟨by simp, by simpa [listed, SameKey] using hpr, fun _ m hm hall => ?_⟩
    have : m ∈ listed xt w := mem_listed.2 ⟨hall (w, room) (by simp), hm⟩
    simpa [listed] using this
  · rw [hp]
    exact ⟨by simp, by simp, by simp⟩
  · have er : listed xt w = l ++ n :: r := er
    have hn : n ∈ listed xt w := by rw [er]; simp
    rw [hp] at hk ⊢
    have hb := listed_before xt w
    rw [er, List.pairwise_append, List.pairwise_cons] at hb
    have hin : ∀ k ∈ l ++ [n], k ∈ listed xt w := by
      intro k hk
      rw [er]
      rcases List.mem_append.1 hk with h | h
      · exact List.mem_append_left _ h
      · rw [List.mem_singleton.1 h]; simp
    have hpr' := hpr
    rw [er, show l ++ n :: r = (l ++ [n]) ++ r by simp, List.pairwise_append] at hpr'
    have hr' : ∀ m ∈ r, m ∈ listed xt w ∧ Before w n m := fun m hm => ⟨by rw [er]; exact List.mem_append_right _ (List.mem_cons_of_mem _ hm), hb.2.1.1 m hm⟩
    have past : Past H xt (l ++ [n]) n w := by
      refine ⟨fun k hk => g.shape.hash k (mem_listed.1 (hin k hk)).1, fun k hk => ?_, fun k hk m hm hbm => ?_⟩
      · rcases List.mem_append.1 hk with h | h
        · exact before_le (hb.2.2 k h n (by simp))
        · rw [List.mem_singleton.1 h]; exact Nat.le_refl _
      · have hmr : m ∈ r := by
          rw [er] at hm
          rcases List.mem_append.1 hm with h | h
          · exact absurd (hb.2.2 m h n (by simp)) (before_asymm g hbm)
          · rcases List.mem_cons.1 h with h | h
            · subst h; exact absurd hbm (before_irrefl g)
            · exact h
        exact hpr'.2.2 k hk m hmr
    have ih := go reqs w n (l ++ [n]) r g hn past hr' hl (fun q hq => hd q (List.mem_cons_of_mem _ hq))
      (by
        intro q hq
        refine hk 0 (l ++ [n]) n q.1 q.2 rfl (by simp) ?_
        simp only [Nat.zero_add, List.getElem?_cons_succ]
        rw [← List.head?_eq_getElem?]
        exact hq)
      (kept_tail hk)
    refine ⟨ih.notLost, ?_, fun hdone m hm hall => ?_⟩
    · simp only [List.flatten_cons]
      rw [List.pairwise_append]
      exact ⟨hpr'.1, ih.once, fun x hx y hy => ih.fresh x hx y hy⟩
    · simp only [List.flatten_cons]
      have : m ∈ listed xt w := mem_listed.2 ⟨hall (w, room) (by simp), hm⟩
      rw [er, show l ++ n :: r = (l ++ [n]) ++ r by simp] at this
      rcases List.mem_append.1 this with h | h
      · exact List.mem_append_left _ h
      · exact List.mem_append_right _ (ih.all hdone m h fun q hq => hall q (List.mem_cons_of_mem _ hq))

theorem walk_length {xt : Flags} {off : Option Entry} {w : World} {room : Nat} {r : List Node}
    (h : walk xt room off (order w) = (r.take room, if r.length ≤ room then .fin else .full)) (h1 : 1 ≤ room) {reqs : List (World × Nat)} :
    pages xt off ((w, room) :: reqs) = ([r], .done) ∨
    ∃ l n r', r = l ++ n :: r' ∧ pages xt off ((w, room) :: reqs) =
      ((l ++ [n]) :: (pages xt (some (entryOf n)) reqs).1, (pages xt (some (entryOf n)) reqs).2) := by
  rcases pages_rest (reqs := reqs) h with ⟨-, hp⟩ | ⟨-, h0, -⟩ | ⟨l, n, r', er, -, hp⟩
  · exact .inl hp
  · omega
  · exact .inr ⟨l, n, r', er, hp⟩

theorem quiet_go {H : Hash} {xt : Flags} {w : World} (g : Good H w) (hd : Distinct32 xt w) : ∀ (rooms : List Nat) (n : Node) (a r : List Node),
    listed xt w = a ++ n :: r → (∀ k ∈ rooms, 1 ≤ k) → r.length < rooms.length →
    (pages xt (some (entryOf n)) (rooms.map fun k => (w, k))).2 = .done ∧ (pages xt (some (entryOf n)) (rooms.map fun k => (w, k))).1.flatten = r
  | [], _, _, _, _, _, h => by simp at h
  | k :: rooms, n, a, r, e, hk, hlen => by
    have hp := listed_before xt w
    rw [e, List.pairwise_append, List.pairwise_cons] at hp
    have hnl : n ∈ listed xt w := by rw [e]; simp
    have hw := walk_some xt (entryOf n) (order w) k a n r e (by
      intro m hm
      rw [Bool.eq_false_iff]
      intro h
      obtain ⟨h1, h2⟩ := offset_iff.1 h
      have hml : m ∈ listed xt w := by rw [e]; exact List.mem_append_left _ hm
      obtain ⟨m1, m2⟩ := mem_listed.1 hml
      obtain ⟨n1, n2⟩ := mem_listed.1 hnl
      have := hd n n1 m m1 n2 m2 h1 h2
      subst this
      exact before_irrefl g (hp.2.2 n hm n (by simp))) (offset_iff.2 ⟨rfl, rfl⟩)
    rcases walk_length hw (hk k (by simp)) (reqs := rooms.map fun k => (w, k)) with hp | ⟨l, n', r', er, hp⟩
    · rw [List.map_cons, hp]; exact ⟨rfl, by simp⟩
    · rw [List.map_cons, hp]
      have := quiet_go g hd rooms n' (a ++ n :: l) r' (by rw [e, er]; simp) (fun k' h => hk k' (List.mem_cons_of_mem _ h))
        (by rw [er] at hlen; simp at hlen; omega)
      refine ⟨this.1, ?_⟩
      simp only [List.flatten_cons]
      rw [this.2, er]; simp

/-- **C80.** While nothing happens, the list, in pages of any size, has every instance of the type once, and nothing else. -/
theorem listing_quiet_partial {H : Hash} {xt : Flags} {w : World} {rooms : List Nat} (hr : Reachable H w) (hd : Distinct32 xt w) (hk : ∀ k ∈ rooms, 1 ≤ k)
    (hlen : w.table.length < rooms.length) :
    (pages xt none (rooms.map fun k => (w, k))).2 = .done ∧ (pages xt none (rooms.map fun k => (w, k))).1.flatten.Nodup ∧
    ∀ m, m ∈ (pages xt none (rooms.map fun k => (w, k))).1.flatten ↔ m ∈ w.table ∧ Ty xt m := by
  have g := hr.good
  have nd : (listed xt w).Nodup := (listed_before xt w).imp fun h e => by subst e; exact before_irrefl g h
  have main : (pages xt none (rooms.map fun k => (w, k))).2 = .done ∧ (pages xt none (rooms.map fun k => (w, k))).1.flatten = listed xt w := by
    cases rooms with
    | nil => simp at hlen
    | cons k rooms =>
      rcases walk_length (walk_none xt (order w) k) (hk k (by simp)) (reqs := rooms.map fun k => (w, k)) with hp | ⟨l, n', r', er, hp⟩
      · rw [List.map_cons, hp]; exact ⟨rfl, by simp [listed]⟩
      · have er : listed xt w = l ++ n' :: r' := er
        have hle : (listed xt w).length ≤ w.table.length := nd.length_le_of_subset fun m hm => (mem_listed.1 hm).1
        rw [List.map_cons, hp]
        have := quiet_go g hd rooms n' l r' er (fun k' h => hk k' (List.mem_cons_of_mem _ h)) (by rw [er] at hle; simp at hle hlen; omega)
        refine ⟨this.1, ?_⟩
        simp only [List.flatten_cons]
        rw [this.2, er]; simp
  rw [main.2]
  exact ⟨main.1, nd, fun m => mem_listed⟩

/-- **C80.** The list cannot continue after an instance that no longer exists: the client is told so. -/
theorem listing_lost {xt : Flags} {n : Node} {w : World} {room : Nat} {reqs : List (World × Nat)}
    (h : ∀ m ∈ w.table, Ty xt m → ¬ (m.xl.ns % 2 ^ 32 = n.xl.ns % 2 ^ 32 ∧ m.xl.name = n.xl.name)) :
    pages xt (some (entryOf n)) ((w, room) :: reqs) = ([], .lost) := by
  have : serve w xt room (some (entryOf n)) = .esrch := by
    unfold serve
    rw [walk_lost xt (entryOf n) (order w) room fun m hm ht => by
      rw [Bool.eq_false_iff]
      intro he
      obtain ⟨h1, h2⟩ := offset_iff.1 he
      exact h m (mem_order.1 hm) ht ⟨h1.symm, h2.symm⟩]
  rw [pages, this]

/-- **C80.** "Hello" says whether the instance exists. -/
theorem hello_exact {H : Hash} {w : World} (hr : Reachable H w) (ns : Ns) {xt : Flags} (hx : xtValid xt = true) {name : Name} (hn : nameValid name = true) :
    hello H w ns xt name = .ok (decide (∃ n ∈ w.table, n.xl.ns = ns ∧ xtOf n.xl.flags = xt ∧ n.xl.name = name)) := by
  have hf : xtOf (12 ||| xt) = xt ∧ xfOf (12 ||| xt) = 12 := by
    have : ∀ x : Flags, xtValid x = true → xtOf (12 ||| x) = x ∧ xfOf (12 ||| x) = 12 := by decide
    exact this xt hx
  have hv : ∀ f : Flags, xfValid (xfOf f) = true → f &&& 12 ≠ 0 := by decide
  obtain ⟨h1, h2⟩ := lookup_spec hr ns (12 ||| xt) name
  unfold hello
  cases hl : lookup H ns (12 ||| xt) name w with
  | ok n =>
    obtain ⟨-, -, k1, k2, k3, k4, -⟩ := (h1 n).1 hl
    rw [hf.1] at k3
    simp only
    rw [decide_eq_true ⟨n, k1, k2, k3, k4⟩]
  | error c =>
    have hno : ¬ ∃ n ∈ w.table, n.xl.ns = ns ∧ xtOf n.xl.flags = xt ∧ n.xl.name = name := by
      rintro ⟨n, k1, k2, k3, k4⟩
      have := (h1 n).2 ⟨hn, by rw [hf.1]; exact hx, k1, k2, by rw [hf.1]; exact k3, k4, by
        rw [hf.2]; exact hv _ (hr.good.shape.valid n k1).xf⟩
      rw [hl] at this; cases this
    rw [decide_eq_false hno]
    have hne : c ≠ .EINVAL := fun e => by
      subst e
      exact h2.1 hl ⟨hn, by rw [hf.1]; exact hx⟩
    have : c = .ESRCH := by
      unfold lookup at hl
      split at hl
      · cases hl; exact absurd rfl hne
      split at hl
      · cases hl; exact absurd rfl hne
      split at hl
      · cases hl; rfl
      · split at hl <;> cases hl; rfl
    subst this
    rfl

end Jool.InstList
