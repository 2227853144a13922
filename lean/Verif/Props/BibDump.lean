import Verif.Model.BibDump
import Verif.Props.RbTree
import Verif.Props.BibTables
/-
C31: paginated listings of BIB entries and sessions.
-/
namespace Jool.BibDump
open Jool.Bib Jool.RbTree BibSpec

/-! ## The walks -/

/-- Position of a session in the listing: by our address, then by the remote address. -/
def skey (k : SessKey) : Nat := k.bib.src4.key * 2 ^ 48 + k.dst4.key

theorem T4.key_lt (a : T4) : a.key < 2 ^ 48 := by
  have h1 := a.addr.isLt; have h2 := a.port.isLt
  simp only [T4.key]
  omega

theorem skey_lt (j k : SessKey) :
    skey j < skey k ↔ key4 j.bib < key4 k.bib ∨ (key4 j.bib = key4 k.bib ∧ j.dst4.key < k.dst4.key) := by
  have h1 := T4.key_lt j.dst4; have h2 := T4.key_lt k.dst4
  simp only [skey, key4]
  omega

theorem flat_sorted (l : List BibKey) (s : BibKey → List T4) (hl : Srt key4 l) (hs : ∀ b ∈ l, Srt T4.key (s b)) :
    Srt skey (l.flatMap (fun b => (s b).map (SessKey.mk b))) := by
  induction l with
  | nil => simp
  | cons b l ih =>
    have hb := List.pairwise_cons.1 hl
    rw [List.flatMap_cons, Srt, List.pairwise_append]
    refine ⟨?_, ih hb.2 (fun c hc => hs c (by simp [hc])), ?_⟩
    · rw [List.pairwise_map]
      refine List.Pairwise.imp ?_ (hs b (by simp))
      intro x y h
      rw [skey_lt]; exact .inr ⟨rfl, h⟩
    · intro x hx y hy
      simp only [List.mem_map, List.mem_flatMap] at hx hy
      obtain ⟨x', _, rfl⟩ := hx
      obtain ⟨c, hc, y', _, rfl⟩ := hy
      rw [skey_lt]; exact .inl (hb.1 c hc)

theorem sessionsOf_eq (S : BibKey → Tree T4) (b : BibKey) : sessionsOf S b = (inorder (S b)).map (SessKey.mk b) := by
  rw [sessionsOf, visit_first]

theorem visit_rbNext {α} (p : Loc α) (n : Nat) (h : p.rest.length ≤ n) : visit n (rbNext p) = p.rest := by
  have s := rbNext_spec p
  revert s
  cases rbNext p with
  | none => intro s; rw [visit_none, show p.rest = [] from s]
  | some q => intro s; rw [visit_spec n q (by rw [← s.2] at h; simp at h; omega), s.2]

theorem visit_slotNext {α} (c : Ctx α) (n : Nat) (h : (after c).length ≤ n) : visit n (slotNext c) = after c := by
  have s := slotNext_spec c
  revert s
  cases slotNext c with
  | none => intro s; rw [visit_none, show after c = [] from s]
  | some q => intro s; rw [visit_spec n q (by rw [← s.2] at h; simp at h; omega), s.2]

/-- The sequence of sessions that `bib_foreach_session` visits, on trees of any shape: the sessions after the
offset (from it on if it is to be included), in order; whether or not the offset still exists. -/
theorem walkSessions_correct (T : Tree BibKey) (S : BibKey → Tree T4) (hT : Srt key4 (inorder T))
    (hS : ∀ b ∈ inorder T, Srt T4.key (inorder (S b))) (offset : Option SessKey) (incl : Bool) :
    walkSessions T S (offset.map (fun k => (k.bib.src4, k.dst4))) incl =
      ((inorder T).flatMap (fun b => (inorder (S b)).map (SessKey.mk b))).dropWhile
        (fun k => match offset with
          | none => false
          | some o => decide (skey k < skey o) || (!incl && decide (skey k = skey o))) := by
  have A : ∀ l : List BibKey, l.flatMap (sessionsOf S) = l.flatMap (fun b => (inorder (S b)).map (SessKey.mk b)) := by
    intro l
    congr 1
    funext b
    exact sessionsOf_eq S b
  cases offset with
  | none =>
    simp only [walkSessions, Option.map_none, A, visit_first]
    exact (dropWhile_split (fun _ => false) [] _ (by simp) (by simp)).symm
  | some o =>
    simp only [walkSessions, Option.map_some, findSessionOffset]
    have f := find_spec (cmp4 o.bib.src4) T hT
    revert f
    cases find (fun b => taddr4Compare b.src4 o.bib.src4) T [] with
    | slot c =>
      intro f
      have f : plug c .leaf = T ∧ (∀ x ∈ before c, key4 x < o.bib.src4.key) ∧ ∀ x ∈ after c, o.bib.src4.key < key4 x := f
      have hT : inorder T = before c ++ after c := by rw [← f.1, plug_inorder]; simp [inorder]
      simp only
      rw [A, visit_slotNext c _ (by rw [hT]; simp), hT, List.flatMap_append, dropWhile_split]
      · intro k hk
        simp only [List.mem_flatMap, List.mem_map] at hk
        obtain ⟨b, hb, d, _, rfl⟩ := hk
        have : skey ⟨b, d⟩ < skey o := (skey_lt _ _).2 (.inl (f.2.1 b hb))
        simp [this]
      · intro k hk
        simp only [List.mem_flatMap, List.mem_map] at hk
        obtain ⟨b, hb, d, _, rfl⟩ := hk
        have : skey o < skey ⟨b, d⟩ := (skey_lt _ _).2 (.inl (f.2.2 b hb))
        have h1 : ¬ skey ⟨b, d⟩ < skey o := by omega
        have h2 : skey ⟨b, d⟩ ≠ skey o := by omega
        simp [h1, h2]
    | hit p =>
      intro f
      have f : p.tree = T ∧ key4 p.x = o.bib.src4.key := f
      have hTi : inorder T = p.pre ++ p.x :: p.rest := by rw [← f.1, Loc.tree_inorder]
      have hsp := hT
      rw [hTi, Srt, List.pairwise_append, List.pairwise_cons] at hsp
      have hpre : ∀ k ∈ p.pre.flatMap (fun b => (inorder (S b)).map (SessKey.mk b)), skey k < skey o := by
        intro k hk
        simp only [List.mem_flatMap, List.mem_map] at hk
        obtain ⟨b, hb, d, _, rfl⟩ := hk
        have h1 := hsp.2.2 b hb p.x (by simp)
        exact (skey_lt _ _).2 (.inl (by show key4 b < o.bib.src4.key; omega))
      have hres : ∀ k ∈ p.rest.flatMap (fun b => (inorder (S b)).map (SessKey.mk b)), skey o < skey k := by
        intro k hk
        simp only [List.mem_flatMap, List.mem_map] at hk
        obtain ⟨b, hb, d, _, rfl⟩ := hk
        have h1 := hsp.2.1.1 b hb
        exact (skey_lt _ _).2 (.inl (by show o.bib.src4.key < key4 b; omega))
      have hmid : ∀ d : T4, (skey ⟨p.x, d⟩ < skey o ↔ d.key < o.dst4.key) ∧ (skey ⟨p.x, d⟩ = skey o ↔ d.key = o.dst4.key) := by
        intro d
        have h1 : p.x.src4.key = o.bib.src4.key := f.2
        simp only [skey, h1]
        omega
      have hn : p.rest.length ≤ (inorder T).length := by rw [hTi]; simp; omega
      rw [show (inorder T).flatMap (fun b => (inorder (S b)).map (SessKey.mk b)) =
          p.pre.flatMap (fun b => (inorder (S b)).map (SessKey.mk b)) ++ ((inorder (S p.x)).map (SessKey.mk p.x) ++
          p.rest.flatMap (fun b => (inorder (S b)).map (SessKey.mk b))) by rw [hTi]; simp]
      simp only [sessionSlot_find]
      have g := find_spec (cmpS o.dst4) (S p.x) (hS p.x (by rw [hTi]; simp))
      have R : ∀ (x y : List T4), inorder (S p.x) = x ++ y → (∀ d ∈ x, d.key < o.dst4.key ∨ (incl = false ∧ d.key = o.dst4.key)) →
          (∀ d ∈ y, ¬ (d.key < o.dst4.key ∨ (incl = false ∧ d.key = o.dst4.key))) →
          y.map (SessKey.mk p.x) ++ p.rest.flatMap (fun b => (inorder (S b)).map (SessKey.mk b)) =
          (p.pre.flatMap (fun b => (inorder (S b)).map (SessKey.mk b)) ++ ((inorder (S p.x)).map (SessKey.mk p.x) ++
          p.rest.flatMap (fun b => (inorder (S b)).map (SessKey.mk b)))).dropWhile
          (fun k => decide (skey k < skey o) || (!incl && decide (skey k = skey o))) := by
        intro x y hxy hx hy
        rw [hxy, List.map_append, List.append_assoc, ← List.append_assoc (p.pre.flatMap _), dropWhile_split]
        · intro k hk
          rcases List.mem_append.1 hk with hk | hk
          · simp [hpre k hk]
          · simp only [List.mem_map] at hk
            obtain ⟨d, hd, rfl⟩ := hk
            have := hx d hd
            simpa [(hmid d).1, (hmid d).2] using this
        · intro k hk
          rcases List.mem_append.1 hk with hk | hk
          · simp only [List.mem_map] at hk
            obtain ⟨d, hd, rfl⟩ := hk
            have := hy d hd
            simp only [not_or, not_and] at this
            simpa [(hmid d).1, (hmid d).2] using this
          · have := hres k hk
            have h1 : ¬ skey k < skey o := by omega
            have h2 : skey k ≠ skey o := by omega
            simp [h1, h2]
      revert g
      cases find (fun x => taddr4Compare x o.dst4) (S p.x) [] with
      | slot c =>
        intro g
        have g : plug c .leaf = S p.x ∧ (∀ x ∈ before c, x.key < o.dst4.key) ∧ ∀ x ∈ after c, o.dst4.key < x.key := g
        have hi : inorder (S p.x) = before c ++ after c := by rw [← g.1, plug_inorder]; simp [inorder]
        rw [← R (before c) (after c) hi (fun d hd => .inl (g.2.1 d hd)) (fun d hd => by have := g.2.2 d hd; omega)]
        have s := slotNext_spec c
        simp only
        revert s
        cases slotNext c with
        | none =>
          intro s
          simp only [nextSession]
          rw [A, visit_rbNext p _ hn, show after c = [] from s]
          rfl
        | some q =>
          intro s
          have s : q.tree = plug c .leaf ∧ q.x :: q.rest = after c := s
          simp only [nextSession]
          rw [A, visit_rbNext p _ hn, visit_spec _ q (by rw [hi, ← s.2]; simp; omega), s.2]
      | hit q =>
        intro g
        have g : q.tree = S p.x ∧ q.x.key = o.dst4.key := g
        have hi : inorder (S p.x) = q.pre ++ q.x :: q.rest := by rw [← g.1, Loc.tree_inorder]
        have hq := hS p.x (by rw [hTi]; simp)
        rw [hi, Srt, List.pairwise_append, List.pairwise_cons] at hq
        simp only
        cases incl with
        | true =>
          simp only [if_true]
          rw [← R q.pre (q.x :: q.rest) hi (fun d hd => .inl (by have := hq.2.2 d hd q.x (by simp); omega)) ?_]
          · rw [A, visit_rbNext p _ hn, visit_spec _ q (by rw [hi]; simp; omega)]
          · intro d hd
            rcases List.mem_cons.1 hd with rfl | hd
            · simp; omega
            · have := hq.2.1.1 d hd; simp; omega
        | false =>
          simp only [Bool.false_eq_true, if_false]
          rw [← R (q.pre ++ [q.x]) q.rest (by rw [hi]; simp) ?_ ?_]
          · have s := rbNext_spec q
            revert s
            cases rbNext q with
            | none =>
              intro s
              simp only [nextSession]
              rw [A, visit_rbNext p _ hn, show q.rest = [] from s]
              rfl
            | some r =>
              intro s
              have s : r.tree = q.tree ∧ r.x :: r.rest = q.rest := s
              simp only [nextSession]
              rw [A, visit_rbNext p _ hn, visit_spec _ r (by rw [hi, ← s.2]; simp; omega), s.2]
          · intro d hd
            rcases List.mem_append.1 hd with hd | hd
            · have := hq.2.2 d hd q.x (by simp); exact .inl (by omega)
            · simp only [List.mem_singleton] at hd; subst hd; exact .inr ⟨rfl, g.2⟩
          · intro d hd
            have := hq.2.1.1 d hd; omega

theorem walkBib_correct (T : Tree BibKey) (hT : Srt key4 (inorder T)) (offset : Option T4) :
    walkBib T offset = startingPoint (inorder T) offset false := startingPoint_correct T hT offset false

/-! ## The dumps -/

theorem dropWhile_mem {α} (key : α → Nat) (l : List α) (hs : Srt key l) (m : Nat) (x : α) :
    x ∈ l.dropWhile (fun y => decide (key y ≤ m)) ↔ x ∈ l ∧ m < key x := by
  induction l with
  | nil => simp
  | cons y l ih =>
    have hy := List.pairwise_cons.1 hs
    rw [List.dropWhile_cons]
    by_cases h : key y ≤ m
    · rw [if_pos (by simpa using h), ih hy.2]
      simp only [List.mem_cons]
      constructor
      · exact fun ⟨a, b⟩ => ⟨.inr a, b⟩
      · rintro ⟨rfl | a, b⟩
        · omega
        · exact ⟨a, b⟩
    · rw [if_neg (by simpa using h)]
      simp only [List.mem_cons]
      constructor
      · rintro (rfl | a)
        · exact ⟨.inl rfl, by omega⟩
        · exact ⟨.inr a, by have := hy.1 x a; omega⟩
      · exact fun h => h.1

/-- What a walk function must do: list, in order, the entries of the state after the offset. -/
structure Walk {α σ} (key : α → Nat) (entries : σ → List α) (Ok : σ → Prop) (start : σ → Option α → List α) : Prop where
  first : ∀ t, Ok t → start t none = entries t
  next : ∀ t, Ok t → ∀ o, start t (some o) = (entries t).dropWhile (fun x => decide (key x ≤ key o))
  sorted : ∀ t, Ok t → Srt key (entries t)

def above {α} (key : α → Nat) (last : Option α) (x : α) : Prop :=
  match last with
  | none => True
  | some o => key o < key x

theorem Walk.mem {α σ} {key : α → Nat} {entries : σ → List α} {Ok start} (w : Walk key entries Ok start) (t : σ)
    (ht : Ok t) (o : Option α) (x : α) : x ∈ start t o ↔ x ∈ entries t ∧ above key o x := by
  cases o with
  | none => rw [w.first t ht]; simp [above]
  | some o => rw [w.next t ht, dropWhile_mem key _ (w.sorted t ht)]; rfl

theorem Walk.srt {α σ} {key : α → Nat} {entries : σ → List α} {Ok start} (w : Walk key entries Ok start) (t : σ)
    (ht : Ok t) (o : Option α) : Srt key (start t o) := by
  cases o with
  | none => rw [w.first t ht]; exact w.sorted t ht
  | some o => rw [w.next t ht]; exact (w.sorted t ht).sublist (List.dropWhile_sublist _)

/-- Listing in pages, while the table changes between requests and for any sizes of the pages. -/
theorem dump_spec {α σ} {key : α → Nat} {entries : σ → List α} {Ok start} (w : Walk key entries Ok start)
    (reqs : List (σ × Nat)) (hr : ∀ r ∈ reqs, Ok r.1) (last : Option α) :
    Srt key (dump start last reqs).1 ∧
    (∀ x ∈ (dump start last reqs).1, above key last x ∧ ∃ r ∈ reqs, x ∈ entries r.1) ∧
    ((dump start last reqs).2 = .done → ∀ x, above key last x → (∀ r ∈ reqs, x ∈ entries r.1) →
      x ∈ (dump start last reqs).1) := by
  induction reqs generalizing last with
  | nil => simp [dump]
  | cons a reqs ih =>
    obtain ⟨t, n⟩ := a
    have ht : Ok t := hr (t, n) (by simp)
    have hm := w.mem t ht last
    have hs := w.srt t ht last
    simp only [dump, serve]
    by_cases h1 : (start t last).length ≤ n
    · rw [if_pos h1]
      refine ⟨hs, ?_, ?_⟩
      · intro x hx
        have := (hm x).1 hx
        exact ⟨this.2, (t, n), by simp, this.1⟩
      · intro _ x hx hall
        exact (hm x).2 ⟨hall (t, n) (by simp), hx⟩
    · rw [if_neg h1]
      by_cases h2 : n = 0
      · rw [if_pos h2]; simp
      · rw [if_neg h2]
        simp only
        have hne : ((start t last).take n) ≠ [] := by
          intro h
          have := congrArg List.length h
          simp at this
          rcases this with h | h
          · omega
          · rw [h] at h1; simp at h1
        obtain ⟨z, hz⟩ : ∃ z, ((start t last).take n).getLast? = some z := by
          cases h : ((start t last).take n).getLast? with
          | none => exact absurd (List.getLast?_eq_none_iff.1 h) hne
          | some z => exact ⟨z, rfl⟩
        simp only [hz]
        have ih := ih (fun r hr' => hr r (by simp [hr'])) (some z)
        obtain ⟨ys, hys⟩ := List.getLast?_eq_some_iff.1 hz
        have hzm : z ∈ start t last := List.mem_of_mem_take (by rw [hys]; simp)
        have hza := ((hm z).1 hzm).2
        have htr : ∀ x, key z < key x → above key last x := by
          intro x hx
          cases last with
          | none => trivial
          | some o => have hza : key o < key z := hza; exact Nat.lt_trans hza hx
        have hle : ∀ x ∈ (start t last).take n, key x ≤ key z := by
          intro x hx
          have h3 : Srt key ((start t last).take n) := hs.sublist (List.take_sublist _ _)
          rw [hys] at hx h3
          rw [Srt, List.pairwise_append] at h3
          rcases List.mem_append.1 hx with hx | hx
          · exact Nat.le_of_lt (h3.2.2 x hx z (by simp))
          · simp only [List.mem_singleton] at hx; subst hx; exact Nat.le_refl _
        refine ⟨?_, ?_, ?_⟩
        · rw [Srt, List.pairwise_append]
          refine ⟨hs.sublist (List.take_sublist _ _), ih.1, ?_⟩
          intro x hx y hy
          have h4 : key z < key y := (ih.2.1 y hy).1
          have := hle x hx
          omega
        · intro x hx
          rcases List.mem_append.1 hx with hx | hx
          · have := (hm x).1 (List.mem_of_mem_take hx)
            exact ⟨this.2, (t, n), by simp, this.1⟩
          · obtain ⟨h4, r, hr', h5⟩ := ih.2.1 x hx
            exact ⟨htr x h4, r, by simp [hr'], h5⟩
        · intro hd x hx hall
          rw [List.mem_append]
          have hxs := (hm x).2 ⟨hall (t, n) (by simp), hx⟩
          rw [← List.take_append_drop n (start t last), List.mem_append] at hxs
          rcases hxs with h | h
          · exact .inl h
          · right
            refine ih.2.2 hd x ?_ (fun r hr' => hall r (by simp [hr']))
            have h3 := hs
            rw [← List.take_append_drop n (start t last), Srt, List.pairwise_append] at h3
            exact h3.2.2 z (by rw [hys]; simp) x h

/-- If every request has room for at least one entry, the listing ends: when the table does not change, after
at most as many requests as entries, plus one. -/
theorem dump_ends {α σ} {key : α → Nat} {entries : σ → List α} {Ok start} (w : Walk key entries Ok start)
    (t : σ) (ht : Ok t) (ns : List Nat) (hn : ∀ n ∈ ns, 0 < n) (last : Option α)
    (hl : (start t last).length < ns.length) :
    (dump start last (ns.map (fun n => (t, n)))).2 = .done ∧
    (dump start last (ns.map (fun n => (t, n)))).1 = start t last := by
  induction ns generalizing last with
  | nil => simp at hl
  | cons n ns ih =>
    simp only [List.map_cons, dump, serve]
    by_cases h1 : (start t last).length ≤ n
    · rw [if_pos h1]; exact ⟨rfl, rfl⟩
    · have hn0 := hn n (by simp)
      rw [if_neg h1, if_neg (by omega)]
      simp only
      obtain ⟨z, hz⟩ : ∃ z, ((start t last).take n).getLast? = some z := by
        cases h : ((start t last).take n).getLast? with
        | none =>
          have := congrArg List.length (List.getLast?_eq_none_iff.1 h)
          simp at this
          rcases this with h | h
          · omega
          · rw [h] at h1; simp at h1
        | some z => exact ⟨z, rfl⟩
      simp only [hz]
      -- the rest of the walk is what was left out of the page
      have hrest : start t (some z) = (start t last).drop n := by
        have hs := w.srt t ht last
        obtain ⟨ys, hys⟩ := List.getLast?_eq_some_iff.1 hz
        have hsd := hs
        rw [← List.take_append_drop n (start t last), Srt, List.pairwise_append] at hsd
        have hle : ∀ x ∈ (start t last).take n, key x ≤ key z := by
          intro x hx
          have h3 := hsd.1
          rw [hys] at hx h3
          rw [List.pairwise_append] at h3
          rcases List.mem_append.1 hx with hx | hx
          · exact Nat.le_of_lt (h3.2.2 x hx z (by simp))
          · simp only [List.mem_singleton] at hx; subst hx; exact Nat.le_refl _
        have hgt : ∀ x ∈ (start t last).drop n, key z < key x :=
          fun x hx => hsd.2.2 z (by rw [hys]; simp) x hx
        have e : (start t last).dropWhile (fun x => decide (key x ≤ key z)) = (start t last).drop n := by
          conv => lhs; rw [← List.take_append_drop n (start t last)]
          rw [dropWhile_split]
          · intro x hx; simpa using hle x hx
          · intro x hx; have := hgt x hx; simp; omega
        rw [← e, w.next t ht]
        cases last with
        | none => rw [w.first t ht]
        | some o =>
          rw [w.next t ht o]
          have hza := ((w.mem t ht (some o) z).1 (List.mem_of_mem_take (by rw [hys]; simp))).2
          have hza : key o < key z := hza
          -- dropping more in two steps
          have D : ∀ l : List α, (l.dropWhile (fun x => decide (key x ≤ key o))).dropWhile (fun x => decide (key x ≤ key z))
              = l.dropWhile (fun x => decide (key x ≤ key z)) := by
            intro l
            induction l with
            | nil => rfl
            | cons y l ih =>
              by_cases hy : key y ≤ key o
              · rw [List.dropWhile_cons, if_pos (by simpa using hy), ih, List.dropWhile_cons, if_pos]
                simp; omega
              · rw [List.dropWhile_cons, if_neg (by simpa using hy)]
          rw [D]
      have ih := ih (fun m hm => hn m (by simp [hm])) (some z) (by
        rw [hrest, List.length_drop]
        simp only [List.length_cons] at hl
        omega)
      refine ⟨ih.1, ?_⟩
      rw [ih.2, hrest, List.take_append_drop]

/-! ## C31 -/

/-- A state of one table with concrete trees. -/
structure Trees where
  tree4 : Tree BibKey
  sess : BibKey → Tree T4

/-- The trees hold what some history of operations left in the table. -/
def Trees.Of (p : Proto) (T : Trees) : Prop :=
  ∃ hist t ev, After p hist t ev ∧ inorder T.tree4 = bibs t ∧ ∀ b, b ∈ bibs t → inorder (T.sess b) = t.sess b

def bibStart (T : Trees) (o : Option BibKey) : List BibKey := walkBib T.tree4 (o.map BibKey.src4)
def sessStart (T : Trees) (o : Option SessKey) : List SessKey :=
  walkSessions T.tree4 T.sess (o.map (fun k => (k.bib.src4, k.dst4))) false

def Trees.bibs (T : Trees) : List BibKey := inorder T.tree4
def Trees.sessions (T : Trees) : List SessKey :=
  (inorder T.tree4).flatMap (fun b => (inorder (T.sess b)).map (SessKey.mk b))

theorem bibWalk (p : Proto) : Walk key4 Trees.bibs (Trees.Of p) bibStart := by
  have S : ∀ T, Trees.Of p T → Srt key4 T.bibs := by
    rintro T ⟨hist, t, ev, h, h4, _⟩
    rw [Trees.bibs, h4]
    exact (After.inv h).wf.s4
  refine ⟨?_, ?_, S⟩
  · intro T hT
    rw [bibStart, walkBib_correct _ (S T hT)]; rfl
  · intro T hT o
    rw [bibStart, walkBib_correct _ (S T hT)]; rfl

theorem sessWalk (p : Proto) : Walk skey Trees.sessions (Trees.Of p) sessStart := by
  have S4 : ∀ T, Trees.Of p T → Srt key4 (inorder T.tree4) := fun T hT => (bibWalk p).sorted T hT
  have SS : ∀ T, Trees.Of p T → ∀ b ∈ inorder T.tree4, Srt T4.key (inorder (T.sess b)) := by
    rintro T ⟨hist, t, ev, h, h4, hs⟩ b hb
    rw [h4] at hb
    rw [hs b hb]
    exact (After.inv h).wf.ss b hb
  refine ⟨?_, ?_, ?_⟩
  · intro T hT
    have := walkSessions_correct T.tree4 _ (S4 T hT) (SS T hT) none false
    rw [sessStart]
    simp only [Option.map_none] at this ⊢
    rw [this, Trees.sessions]
    exact dropWhile_split (fun _ => false) [] _ (by simp) (by simp)
  · intro T hT o
    have := walkSessions_correct T.tree4 _ (S4 T hT) (SS T hT) (some o) false
    rw [sessStart, this, Trees.sessions]
    congr 1
    funext k
    simp only [Bool.not_false, Bool.true_and]
    by_cases h1 : skey k < skey o
    · simp [h1, Nat.le_of_lt h1]
    · by_cases h2 : skey k = skey o
      · simp [h2]
      · simp [h1, h2]; omega
  · intro T hT
    exact flat_sorted _ _ (S4 T hT) (SS T hT)

/-- C31 for BIB entries. Whatever happens to the table between requests and however many entries fit in each
response: the listing has no entry twice; everything listed was in the table when it was listed; and if the listing
ends, every entry that was there all along is in it. -/
theorem bib_dump_correct (p : Proto) (reqs : List (Trees × Nat)) (hr : ∀ r ∈ reqs, Trees.Of p r.1) :
    (dump bibStart none reqs).1.Nodup ∧
    (∀ b ∈ (dump bibStart none reqs).1, ∃ r ∈ reqs, b ∈ r.1.bibs) ∧
    ((dump bibStart none reqs).2 = .done → ∀ b, (∀ r ∈ reqs, b ∈ r.1.bibs) → b ∈ (dump bibStart none reqs).1) := by
  have h := dump_spec (bibWalk p) reqs hr none
  exact ⟨sorted_nodup h.1, fun b hb => (h.2.1 b hb).2, fun hd b hall => h.2.2 hd b trivial hall⟩

/-- C31 for sessions. -/
theorem session_dump_correct (p : Proto) (reqs : List (Trees × Nat)) (hr : ∀ r ∈ reqs, Trees.Of p r.1) :
    (dump sessStart none reqs).1.Nodup ∧
    (∀ k ∈ (dump sessStart none reqs).1, ∃ r ∈ reqs, k ∈ r.1.sessions) ∧
    ((dump sessStart none reqs).2 = .done → ∀ k, (∀ r ∈ reqs, k ∈ r.1.sessions) → k ∈ (dump sessStart none reqs).1) := by
  have h := dump_spec (sessWalk p) reqs hr none
  exact ⟨sorted_nodup h.1, fun b hb => (h.2.1 b hb).2, fun hd b hall => h.2.2 hd b trivial hall⟩

/-- C31, quiet table: the listing is exactly the table, in order, if there is always room for one entry. -/
theorem bib_dump_quiet (p : Proto) (T : Trees) (hT : T.Of p) (ns : List Nat) (hn : ∀ n ∈ ns, 0 < n)
    (hl : T.bibs.length < ns.length) : dump bibStart none (ns.map (fun n => (T, n))) = (T.bibs, .done) := by
  have h := dump_ends (bibWalk p) T hT ns hn none (by rw [(bibWalk p).first T hT]; exact hl)
  rw [(bibWalk p).first T hT] at h
  exact Prod.ext h.2 h.1

theorem session_dump_quiet (p : Proto) (T : Trees) (hT : T.Of p) (ns : List Nat) (hn : ∀ n ∈ ns, 0 < n)
    (hl : T.sessions.length < ns.length) : dump sessStart none (ns.map (fun n => (T, n))) = (T.sessions, .done) := by
  have h := dump_ends (sessWalk p) T hT ns hn none (by rw [(sessWalk p).first T hT]; exact hl)
  rw [(sessWalk p).first T hT] at h
  exact Prod.ext h.2 h.1

/-- A concrete dump: three entries, one per response; the second one dies after it was listed (and is the
offset of the next request). -/
example :
    let b := fun n : Nat => BibKey.mk ⟨BitVec.ofNat 128 n, 1#16⟩ ⟨9#32, BitVec.ofNat 16 n⟩
    let t3 : Tree BibKey := .node (.node .leaf (b 1) .leaf) (b 2) (.node .leaf (b 3) .leaf)
    let t2 : Tree BibKey := .node .leaf (b 1) (.node .leaf (b 3) .leaf)
    dump bibStart none [(⟨t3, fun _ => .leaf⟩, 1), (⟨t3, fun _ => .leaf⟩, 1), (⟨t2, fun _ => .leaf⟩, 1)]
      = ([b 1, b 2, b 3], .done) := by decide +kernel

end Jool.BibDump
