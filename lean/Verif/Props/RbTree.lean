import Verif.Model.RbTree
import Verif.Lemmas.BibOps
/-
The tree walks of the BIB module, on trees of any shape, compute what the list model of the tables
(`Verif.Model.Bib`) says: searches, slots, successors, starting points, and the `allow` flag of the
address-dependent filtering.
-/
namespace Jool.RbTree
open Jool.Bib

/-- The entries before and after a position, in order. -/
def before {α} : Ctx α → List α
  | [] => []
  | .left _ _ :: c => before c
  | .right l x :: c => before c ++ inorder l ++ [x]

def after {α} : Ctx α → List α
  | [] => []
  | .left x r :: c => x :: inorder r ++ after c
  | .right _ _ :: c => after c

/-- The entries after a node. -/
def Loc.rest {α} (p : Loc α) : List α := inorder p.r ++ after p.ctx
/-- The entries before a node. -/
def Loc.pre {α} (p : Loc α) : List α := before p.ctx ++ inorder p.l

theorem plug_inorder {α} (c : Ctx α) (t : Tree α) :
    inorder (plug c t) = before c ++ inorder t ++ after c := by
  induction c generalizing t with
  | nil => simp [plug, before, after]
  | cons f c ih => cases f <;> simp [plug, ih, before, after, inorder]

theorem Loc.tree_inorder {α} (p : Loc α) : inorder p.tree = p.pre ++ p.x :: p.rest := by
  simp [Loc.tree, plug_inorder, Loc.pre, Loc.rest, inorder]

theorem leftmost_spec {α} (t : Tree α) (c : Ctx α) :
    match leftmost t c with
    | none => t = .leaf
    | some q => q.tree = plug c t ∧ q.x :: q.rest = inorder t ++ after c ∧ q.l = .leaf := by
  induction t generalizing c with
  | leaf => simp [leftmost]
  | node l x r ihl _ =>
    have := ihl (.left x r :: c)
    unfold leftmost
    cases hl : leftmost l (.left x r :: c) with
    | none =>
      rw [hl] at this
      simp only at this
      subst this
      simp [Loc.tree, Loc.rest, inorder]
    | some q =>
      rw [hl] at this
      simp only at this
      refine ⟨by simp [this.1, plug], by simp [this.2.1, after, inorder], this.2.2⟩

theorem up_spec {α} (c : Ctx α) (t : Tree α) :
    match up c t with
    | none => after c = []
    | some q => q.tree = plug c t ∧ q.x :: q.rest = after c := by
  induction c generalizing t with
  | nil => simp [up, after]
  | cons f c ih =>
    cases f with
    | left x r => simp [up, Loc.tree, plug, Loc.rest, after]
    | right l x => simpa [up, plug, after] using ih (.node l x t)

/-- `rb_next` is the successor in the in-order sequence. -/
theorem rbNext_spec {α} (p : Loc α) :
    match rbNext p with
    | none => p.rest = []
    | some q => q.tree = p.tree ∧ q.x :: q.rest = p.rest := by
  unfold rbNext
  cases hr : p.r with
  | leaf =>
    have := up_spec p.ctx (.node p.l p.x p.r)
    rw [hr] at this
    simp only
    revert this
    cases up p.ctx (.node p.l p.x .leaf) with
    | none => intro h; simpa [Loc.rest, hr, inorder] using h
    | some q => intro h; simpa [Loc.rest, hr, inorder, Loc.tree] using h
  | node a b c =>
    have := leftmost_spec p.r (.right p.l p.x :: p.ctx)
    rw [hr] at this
    simp only
    revert this
    cases leftmost (.node a b c) (.right p.l p.x :: p.ctx) with
    | none => intro h; simp at h
    | some q => intro h; exact ⟨by simpa [Loc.tree, plug, hr] using h.1, by simpa [Loc.rest, hr, after] using h.2.1⟩

/-- What a `for (; node; node = rb_next(node))` loop visits. -/
theorem visit_spec {α} (n : Nat) (p : Loc α) (h : p.rest.length < n) : visit n (some p) = p.x :: p.rest := by
  induction n generalizing p with
  | zero => omega
  | succ n ih =>
    have s := rbNext_spec p
    simp only [visit]
    revert s
    cases rbNext p with
    | none => intro s; rw [show p.rest = [] from s]; cases n <;> simp [visit]
    | some q =>
      intro s
      have s : q.tree = p.tree ∧ q.x :: q.rest = p.rest := s
      rw [ih q (by rw [← s.2] at h; simp at h; omega), s.2]

theorem visit_none {α} (n : Nat) : visit n (none : Option (Loc α)) = [] := by cases n <;> rfl

/-- Walking a whole tree visits its in-order sequence. -/
theorem visit_first {α} (t : Tree α) : visit (inorder t).length (rbFirst t) = inorder t := by
  have := leftmost_spec t []
  unfold rbFirst
  revert this
  cases leftmost t [] with
  | none => intro h; rw [visit_none, show t = .leaf from h]; rfl
  | some q =>
    intro h
    have h2 : q.x :: q.rest = inorder t := by simpa [after] using h.2.1
    rw [visit_spec _ q (by rw [← h2]; simp), h2]

/-! ## Searches -/

/-- `cmp` compares by position in the order of `key`. -/
structure Cmp {α} (key : α → Nat) (k : Nat) (cmp : α → Int) : Prop where
  neg : ∀ x, cmp x < 0 ↔ key x < k
  pos : ∀ x, 0 < cmp x ↔ k < key x

abbrev Srt {α} (key : α → Nat) (l : List α) : Prop := l.Pairwise (fun a b => key a < key b)

theorem find_aux {α} {key : α → Nat} {k : Nat} {cmp : α → Int} (hc : Cmp key k cmp) (t : Tree α) (c : Ctx α)
    (hs : Srt key (inorder (plug c t))) (hb : ∀ x ∈ before c, key x < k) (ha : ∀ x ∈ after c, k < key x) :
    match find cmp t c with
    | .hit p => p.tree = plug c t ∧ key p.x = k
    | .slot c' => plug c' .leaf = plug c t ∧ (∀ x ∈ before c', key x < k) ∧ ∀ x ∈ after c', k < key x := by
  induction t generalizing c with
  | leaf => exact ⟨rfl, hb, ha⟩
  | node l x r ihl ihr =>
    have hs' := hs
    rw [plug_inorder] at hs'
    simp only [inorder, Srt, List.pairwise_append, List.pairwise_cons] at hs'
    unfold find
    by_cases h1 : cmp x < 0
    · rw [if_pos h1]
      have hx := (hc.neg x).1 h1
      refine ihr _ hs ?_ ha
      intro y hy
      simp only [before, List.mem_append, List.mem_singleton] at hy
      rcases hy with (hy | hy) | hy
      · exact hb y hy
      · exact Nat.lt_trans (hs'.1.2.1.2.2 y hy x (by simp)) hx
      · subst hy; exact hx
    · rw [if_neg h1]
      by_cases h2 : 0 < cmp x
      · rw [if_pos h2]
        have hx := (hc.pos x).1 h2
        refine ihl _ hs hb ?_
        intro y hy
        simp only [after, List.mem_append, List.mem_cons] at hy
        rcases hy with (hy | hy) | hy
        · subst hy; exact hx
        · exact Nat.lt_trans hx (hs'.1.2.1.2.1.1 y hy)
        · exact ha y hy
      · rw [if_neg h2]
        refine ⟨rfl, ?_⟩
        have a := hc.neg x; have b := hc.pos x
        show key x = k
        omega

/-- A search finds a node with the key if there is one, and otherwise the link where a node with the
key belongs. -/
theorem find_spec {α} {key : α → Nat} {k : Nat} {cmp : α → Int} (hc : Cmp key k cmp) (t : Tree α)
    (hs : Srt key (inorder t)) :
    match find cmp t [] with
    | .hit p => p.tree = t ∧ key p.x = k
    | .slot c => plug c .leaf = t ∧ (∀ x ∈ before c, key x < k) ∧ ∀ x ∈ after c, k < key x :=
  find_aux hc t [] hs (by simp [before]) (by simp [after])

theorem insBy_split {α} (key : α → Nat) (x : α) (a b : List α) (ha : ∀ y ∈ a, key y < key x)
    (hb : ∀ y ∈ b, key x < key y) : insBy key x (a ++ b) = a ++ x :: b := by
  induction a with
  | nil =>
    cases b with
    | nil => rfl
    | cons y b => simp [insBy, hb y (by simp)]
  | cons y a ih =>
    have := ha y (by simp)
    simp only [List.cons_append, insBy]
    rw [if_neg (by omega), ih (fun z hz => ha z (by simp [hz]))]

/-- Committing a slot inserts in order. -/
theorem link_spec {α} {key : α → Nat} {x : α} {t : Tree α} {c : Ctx α} (hp : plug c .leaf = t)
    (hb : ∀ y ∈ before c, key y < key x) (ha : ∀ y ∈ after c, key x < key y) :
    inorder (link c x) = insBy key x (inorder t) := by
  subst hp
  rw [link, plug_inorder, plug_inorder]
  simp only [inorder, List.append_nil, List.nil_append]
  rw [insBy_split key x _ _ hb ha]
  simp

/-- Which entry a search returns. -/
def Found.entry {α} : Found α → Option α
  | .hit p => some p.x
  | .slot _ => none

/-- Searching a tree is searching its sequence. -/
theorem find_entry {α} {key : α → Nat} {k : Nat} {cmp : α → Int} (hc : Cmp key k cmp) (t : Tree α)
    (hs : Srt key (inorder t)) : (find cmp t []).entry = (inorder t).find? (fun x => decide (key x = k)) := by
  have h := find_spec hc t hs
  revert h
  cases find cmp t [] with
  | hit p =>
    intro h
    have h : p.tree = t ∧ key p.x = k := h
    have hm : p.x ∈ inorder t := by rw [← h.1, Loc.tree_inorder]; simp
    cases hf : (inorder t).find? (fun x => decide (key x = k)) with
    | none =>
      rw [List.find?_eq_none] at hf
      exact absurd h.2 (by simpa using hf _ hm)
    | some y =>
      have hy := List.find?_some hf
      simp only [decide_eq_true_eq] at hy
      show some p.x = some y
      rw [sorted_unique hs hm (List.mem_of_find?_eq_some hf) (h.2.trans hy.symm)]
  | slot c =>
    intro h
    have h : plug c .leaf = t ∧ (∀ x ∈ before c, key x < k) ∧ ∀ x ∈ after c, k < key x := h
    symm
    show _ = none
    rw [List.find?_eq_none]
    intro x hx
    rw [← h.1, plug_inorder] at hx
    simp only [inorder, List.append_nil, List.mem_append] at hx
    rcases hx with hx | hx
    · have := h.2.1 x hx; simp; omega
    · have := h.2.2 x hx; simp; omega

theorem cmp4 (o : T4) : Cmp key4 o.key (fun b => taddr4Compare b.src4 o) :=
  ⟨fun x => taddr4Compare_neg x.src4 o, fun x => taddr4Compare_pos x.src4 o⟩

theorem cmp6 (o : T6) : Cmp key6 o.key (fun b => taddr6Compare b.src6 o) :=
  ⟨fun x => taddr6Compare_neg x.src6 o, fun x => taddr6Compare_pos x.src6 o⟩

theorem cmpS (o : T4) : Cmp T4.key o.key (fun x => taddr4Compare x o) :=
  ⟨fun x => taddr4Compare_neg x o, fun x => taddr4Compare_pos x o⟩

/-- `find_bib4`/`find_bibtree4_slot` on a tree are `find4` on its sequence ... -/
theorem find4_correct (t : Table) (T : Tree BibKey) (h : inorder T = t.tree4) (hs : Srt key4 t.tree4) (a : T4) :
    (find (fun b => taddr4Compare b.src4 a) T []).entry = find4 t a := by
  rw [find_entry (cmp4 a) T (h ▸ hs), h, find4]
  congr 1
  funext x
  have : key4 x = a.key ↔ x.src4 = a := ⟨fun h => T4.key_inj h, fun h => by rw [key4, h]⟩
  simp [this]

/-- ... and so for `find_bib6`. -/
theorem find6_correct (t : Table) (T : Tree BibKey) (h : inorder T = t.tree6) (hs : Srt key6 t.tree6) (a : T6) :
    (find (fun b => taddr6Compare b.src6 a) T []).entry = find6 t a := by
  rw [find_entry (cmp6 a) T (h ▸ hs), h, find6]
  congr 1
  funext x
  have : key6 x = a.key ↔ x.src6 = a := ⟨fun h => T6.key_inj h, fun h => by rw [key6, h]⟩
  simp [this]

/-- When a search fails, committing its slot is `insBy`. -/
theorem slot4_correct (T : Tree BibKey) (hs : Srt key4 (inorder T)) (b : BibKey) (c : Ctx BibKey)
    (h : find (fun x => taddr4Compare x.src4 b.src4) T [] = .slot c) :
    inorder (link c b) = insBy key4 b (inorder T) := by
  have := find_spec (cmp4 b.src4) T hs
  rw [h] at this
  exact link_spec this.1 this.2.1 this.2.2

theorem slot6_correct (T : Tree BibKey) (hs : Srt key6 (inorder T)) (b : BibKey) (c : Ctx BibKey)
    (h : find (fun x => taddr6Compare x.src6 b.src6) T [] = .slot c) :
    inorder (link c b) = insBy key6 b (inorder T) := by
  have := find_spec (cmp6 b.src6) T hs
  rw [h] at this
  exact link_spec this.1 this.2.1 this.2.2

/-! ## Address-dependent filtering -/

theorem sessionSlot_find (new : T4) (t : Tree T4) (c : Ctx T4) (a : Bool) :
    (sessionSlot new t c a).1 = find (fun x => taddr4Compare x new) t c := by
  induction t generalizing c a with
  | leaf => rfl
  | node l x r ihl ihr =>
    simp only [sessionSlot, find]
    split
    · exact ihr _ _
    · split
      · exact ihl _ _
      · rfl

theorem sessionSlot_allow_aux (new : T4) (t : Tree T4) (hs : Srt T4.key (inorder t)) (c : Ctx T4) (a : Bool)
    (hn : new ∉ inorder t) :
    (sessionSlot new t c a).2 = (a || (inorder t).any (fun d => decide (d.addr = new.addr))) := by
  induction t generalizing c a with
  | leaf => simp [sessionSlot, inorder]
  | node l x r ihl ihr =>
    simp only [inorder, Srt, List.pairwise_append, List.pairwise_cons] at hs
    simp only [inorder, List.mem_append, List.mem_cons, not_or] at hn
    have key_addr : ∀ y z : T4, y.key < z.key → y.addr.toNat ≤ z.addr.toNat := by
      intro y z h
      have h1 := y.port.isLt; have h2 := z.port.isLt
      simp only [T4.key] at h
      omega
    have none_of : ∀ s : List T4, (∀ y ∈ s, y.addr ≠ new.addr) →
        s.any (fun d => decide (d.addr = new.addr)) = false := by
      intro s h
      rw [List.any_eq_false]
      intro y hy
      simpa using h y hy
    simp only [sessionSlot, inorder, List.any_append, List.any_cons]
    by_cases hx : x.addr = new.addr
    · -- already allowed
      have T : ∀ (t : Tree T4) c, (sessionSlot new t c true).2 = true := by
        intro t
        induction t with
        | leaf => intro c; rfl
        | node l x r ihl ihr =>
          intro c
          simp only [sessionSlot, Bool.true_or]
          split
          · exact ihr _
          · split
            · exact ihl _
            · rfl
      simp only [hx, decide_true, Bool.or_true, Bool.true_or]
      split
      · exact T _ _
      · split
        · exact T _ _
        · rfl
    · simp only [hx, decide_false, Bool.or_false, Bool.false_or]
      by_cases h1 : taddr4Compare x new < 0
      · rw [if_pos h1, ihr hs.2.1.2 _ _ hn.2.2]
        rw [taddr4Compare_neg] at h1
        have : x.addr.toNat < new.addr.toNat := by
          have := key_addr _ _ h1
          have h3 : x.addr.toNat ≠ new.addr.toNat := fun h => hx (BitVec.eq_of_toNat_eq h)
          omega
        rw [none_of (inorder l)]
        · simp
        · intro y hy he
          have := key_addr _ _ (hs.2.2 y hy x (by simp))
          rw [he] at this; omega
      · rw [if_neg h1]
        by_cases h2 : 0 < taddr4Compare x new
        · rw [if_pos h2, ihl hs.1 _ _ hn.1]
          rw [taddr4Compare_pos] at h2
          have : new.addr.toNat < x.addr.toNat := by
            have := key_addr _ _ h2
            have h3 : x.addr.toNat ≠ new.addr.toNat := fun h => hx (BitVec.eq_of_toNat_eq h)
            omega
          rw [none_of (inorder r)]
          · simp
          · intro y hy he
            have := key_addr _ _ (hs.2.1.1 y hy)
            rw [he] at this; omega
        · exfalso
          have := (taddr4Compare_zero x new).1 (by omega)
          exact hn.2.1 this.symm

/-- C28, the search: although it visits only one branch of the tree, `find_session_slot` finds out whether
any session of the BIB entry has the address of the new one. -/
theorem sessionSlot_allow (t : Table) (b : BibKey) (T : Tree T4) (h : inorder T = t.sess b)
    (hs : Srt T4.key (t.sess b)) (new : T4) (hn : new ∉ t.sess b) :
    (sessionSlot new T [] false).2 = adfAllow t b new := by
  rw [sessionSlot_allow_aux new T (h ▸ hs) [] false (h ▸ hn), h, adfAllow, Bool.false_or]

/-- The same search finds the session, or its place. -/
theorem sessionSlot_entry (l : List T4) (T : Tree T4) (h : inorder T = l) (hs : Srt T4.key l) (new : T4) (a : Bool) :
    (sessionSlot new T [] a).1.entry = if new ∈ l then some new else none := by
  rw [sessionSlot_find, find_entry (cmpS new) T (h ▸ hs), h]
  split
  · rename_i hm
    cases hf : l.find? (fun x => decide (x.key = new.key)) with
    | none =>
      rw [List.find?_eq_none] at hf
      exact absurd (decide_eq_true rfl) (hf _ hm)
    | some y =>
      have := List.find?_some hf
      simp only [decide_eq_true_eq] at this
      rw [T4.key_inj this]
  · rename_i hm
    rw [List.find?_eq_none]
    intro x hx
    simp only [decide_eq_true_eq]
    intro h
    exact hm (T4.key_inj h ▸ hx)

theorem sessionSlot_link (T : Tree T4) (hs : Srt T4.key (inorder T)) (new : T4) (a : Bool) (c : Ctx T4)
    (h : (sessionSlot new T [] a).1 = .slot c) : inorder (link c new) = insBy T4.key new (inorder T) := by
  rw [sessionSlot_find] at h
  have := find_spec (cmpS new) T hs
  rw [h] at this
  exact link_spec this.1 this.2.1 this.2.2

/-- A tree with a shape in which the branch taken does not visit all the sessions with the address. -/
example : let T : Tree T4 := .node (.node .leaf ⟨1#32, 1#16⟩ .leaf) ⟨1#32, 5#16⟩ (.node .leaf ⟨2#32, 1#16⟩ .leaf)
    Srt T4.key (inorder T) ∧ (sessionSlot ⟨1#32, 9#16⟩ T [] false).2 = true ∧
    (sessionSlot ⟨3#32, 9#16⟩ T [] false).2 = false ∧ (sessionSlot ⟨2#32, 0#16⟩ T [] false).2 = true := by decide

/-! ## `try_next` -/

/-- `rb_next` of a node is `next4`. -/
theorem next4_correct (l : List BibKey) (hs : Srt key4 l) (p : Loc BibKey) (h : inorder p.tree = l) :
    (rbNext p).map Loc.x = next4 l p.x := by
  have hn : next4 l p.x = p.rest.head? := by
    rw [Loc.tree_inorder] at h
    subst h
    have : ∀ (pre : List BibKey), p.x ∉ pre → (pre ++ p.x :: p.rest).dropWhile (fun b => decide (b ≠ p.x)) = p.x :: p.rest := by
      intro pre
      induction pre with
      | nil => intro _; simp
      | cons y pre ih =>
        intro hy
        simp only [List.mem_cons, not_or] at hy
        rw [List.cons_append, List.dropWhile_cons, if_pos (by simpa using fun h => hy.1 h.symm)]
        exact ih hy.2
    unfold next4
    rw [this p.pre]
    · simp
    · intro hm
      rw [Srt, List.pairwise_append] at hs
      have := hs.2.2 _ hm p.x (by simp)
      omega
  rw [hn]
  have s := rbNext_spec p
  revert s
  cases rbNext p with
  | none => intro s; rw [show p.rest = [] from s]; rfl
  | some q => intro s; rw [← s.2]; rfl

/-- `try_next`: the collision is the one of the list model; the slot is a null link in the right place. -/
theorem tryNext_correct (l : List BibKey) (hs : Srt key4 l) (p : Loc BibKey) (h : inorder p.tree = l)
    (b : BibKey) (hb : key4 b = key4 p.x + 1) :
    match tryNext p b.src4 with
    | .collision n => Bib.tryNext l p.x b.src4 = some n.x
    | .slot c => Bib.tryNext l p.x b.src4 = none ∧ plug c .leaf = p.tree ∧ inorder (link c b) = insBy key4 b l
    | .badSlot => False := by
  have hn := next4_correct l hs p h
  have s := rbNext_spec p
  have hsp := hs
  rw [← h, Loc.tree_inorder, Srt, List.pairwise_append, List.pairwise_cons] at hsp
  have hpre : ∀ y ∈ p.pre ++ [p.x], key4 y < key4 b := by
    intro y hy
    simp only [List.mem_append, List.mem_singleton] at hy
    rcases hy with hy | hy
    · have := hsp.2.2 y hy p.x (by simp); omega
    · subst hy; omega
  unfold tryNext Bib.tryNext
  rw [← hn]
  revert s
  cases hr : rbNext p with
  | none =>
    intro s
    have s : p.rest = [] := s
    simp only [Option.map_none]
    cases hpr : p.r with
    | node a x c => simp [Loc.rest, hpr, inorder] at s
    | leaf =>
      simp only [true_and]
      have hpl : plug (.right p.l p.x :: p.ctx) .leaf = p.tree := by simp [plug, Loc.tree, hpr]
      refine ⟨hpl, ?_⟩
      rw [← h]
      refine link_spec (t := p.tree) hpl ?_ ?_
      · simpa [before, Loc.pre] using hpre
      · simp only [Loc.rest, hpr, inorder, List.nil_append] at s
        simp [after, s]
  | some q =>
    intro s
    have s : q.tree = p.tree ∧ q.x :: q.rest = p.rest := s
    simp only [Option.map_some]
    by_cases hq : q.x.src4 = b.src4
    · simp [hq]
    · rw [if_neg hq, if_neg hq]
      have hrest : ∀ y ∈ p.rest, key4 b < key4 y := by
        have h1 := hsp.2.1
        rw [← s.2] at h1 ⊢
        have h2 := h1.1 q.x (by simp)
        have h3 : key4 b ≠ key4 q.x := fun h => hq (T4.key_inj h.symm)
        intro y hy
        rcases List.mem_cons.1 hy with rfl | hy
        · omega
        · have := (List.pairwise_cons.1 h1.2).1 y hy; omega
      cases hpr : p.r with
      | leaf =>
        simp only [true_and]
        have hpl : plug (.right p.l p.x :: p.ctx) .leaf = p.tree := by simp [plug, Loc.tree, hpr]
        refine ⟨hpl, ?_⟩
        rw [← h]
        refine link_spec (t := p.tree) hpl ?_ ?_
        · simpa [before, Loc.pre] using hpre
        · intro y hy; exact hrest y (by simpa [Loc.rest, hpr, inorder, after] using hy)
      | node a x c =>
        simp only
        have hl : q.l = .leaf := by
          have := leftmost_spec p.r (.right p.l p.x :: p.ctx)
          rw [show leftmost p.r (.right p.l p.x :: p.ctx) = some q by simpa [rbNext, hpr] using hr] at this
          exact this.2.2
        simp only [hl, true_and]
        have hpl : plug (.left q.x q.r :: q.ctx) .leaf = p.tree := by rw [← s.1]; simp [plug, Loc.tree, hl]
        refine ⟨hpl, ?_⟩
        rw [← h]
        have hbef : before q.ctx = p.pre ++ [p.x] := by
          have h1 := Loc.tree_inorder q
          rw [s.1, Loc.tree_inorder, ← s.2] at h1
          simp only [Loc.pre, hl, inorder, List.append_nil] at h1 ⊢
          have : (before p.ctx ++ inorder p.l ++ [p.x]) ++ (q.x :: q.rest) = before q.ctx ++ (q.x :: q.rest) := by
            simpa using h1
          exact (List.append_cancel_right this).symm
        refine link_spec (t := p.tree) hpl ?_ ?_
        · rw [before, hbef]; exact hpre
        · intro y hy
          apply hrest y
          rw [← s.2]
          simpa [after, Loc.rest] using hy

/-! ## Starting points -/

theorem dropWhile_split {α} (P : α → Bool) (a b : List α) (ha : ∀ x ∈ a, P x = true) (hb : ∀ x ∈ b, P x = false) :
    (a ++ b).dropWhile P = b := by
  induction a with
  | nil =>
    cases b with
    | nil => rfl
    | cons y b => simp [List.dropWhile_cons, hb y (by simp)]
  | cons y a ih =>
    rw [List.cons_append, List.dropWhile_cons, if_pos (ha y (by simp))]
    exact ih (fun z hz => ha z (by simp [hz]))

/-- What a loop that starts at a slot's successor visits. -/
theorem slotNext_spec {α} (c : Ctx α) :
    match slotNext c with
    | none => after c = []
    | some q => q.tree = plug c .leaf ∧ q.x :: q.rest = after c := by
  cases c with
  | nil => rfl
  | cons f c =>
    cases f with
    | left x r => exact ⟨rfl, rfl⟩
    | right l x =>
      have := rbNext_spec (⟨l, x, .leaf, c⟩ : Loc α)
      simp only [slotNext]
      revert this
      cases rbNext (⟨l, x, .leaf, c⟩ : Loc α) with
      | none => exact id
      | some q => exact id

/-- `find_starting_point` and the loop after it, on a tree, are `startingPoint` on its sequence. -/
theorem startingPoint_correct (T : Tree BibKey) (hs : Srt key4 (inorder T)) (offset : Option T4) (incl : Bool) :
    visit (inorder T).length (findStartingPoint T offset incl) = startingPoint (inorder T) offset incl := by
  cases offset with
  | none => exact visit_first T
  | some o =>
    have f := find_spec (cmp4 o) T hs
    simp only [findStartingPoint, startingPoint]
    revert f
    cases find (fun b => taddr4Compare b.src4 o) T [] with
    | hit p =>
      intro f
      have f : p.tree = T ∧ key4 p.x = o.key := f
      have hsp := hs
      rw [← f.1, Loc.tree_inorder] at hsp ⊢
      rw [Srt, List.pairwise_append, List.pairwise_cons] at hsp
      have hpre : ∀ x ∈ p.pre, key4 x < o.key := fun x hx => by
        have := hsp.2.2 x hx p.x (by simp); omega
      have hres : ∀ x ∈ p.rest, o.key < key4 x := fun x hx => by
        have := hsp.2.1.1 x hx; omega
      cases incl with
      | true =>
        simp only [if_true]
        rw [visit_spec _ p (by simp; omega), dropWhile_split]
        · simpa using hpre
        · intro x hx
          rcases List.mem_cons.1 hx with rfl | hx
          · simp [f.2]
          · have := hres x hx; simp; omega
      | false =>
        simp only [Bool.false_eq_true, if_false]
        rw [show p.pre ++ p.x :: p.rest = (p.pre ++ [p.x]) ++ p.rest by simp, dropWhile_split]
        · have s := rbNext_spec p
          revert s
          cases rbNext p with
          | none => intro s; rw [visit_none, show p.rest = [] from s]
          | some q =>
            intro s
            have s : q.tree = p.tree ∧ q.x :: q.rest = p.rest := s
            rw [visit_spec _ q (by rw [← s.2]; simp; omega), s.2]
        · intro x hx
          simp only [List.mem_append, List.mem_singleton] at hx
          rcases hx with hx | hx
          · have := hpre x hx; simp; omega
          · simp [hx, f.2]
        · intro x hx; have := hres x hx; simp; omega
    | slot c =>
      intro f
      have f : plug c .leaf = T ∧ (∀ x ∈ before c, key4 x < o.key) ∧ ∀ x ∈ after c, o.key < key4 x := f
      have hT : inorder T = before c ++ after c := by rw [← f.1, plug_inorder]; simp [inorder]
      have e : startOfSlot c o = slotNext c := by
        cases c with
        | nil => rfl
        | cons fr c =>
          cases fr with
          | left x r =>
            have h1 := f.2.2 x (by simp [after])
            simp only [startOfSlot, slotParent, slotNext]
            rw [if_neg]
            rw [taddr4Compare_neg]
            have : key4 x = x.src4.key := rfl
            omega
          | right l x =>
            have h1 := f.2.1 x (by simp [before])
            simp only [startOfSlot, slotParent, slotNext]
            rw [if_pos]
            rw [taddr4Compare_neg]
            exact h1
      simp only [e]
      have R : ∀ P : BibKey → Bool, (∀ x ∈ before c, P x = true) → (∀ x ∈ after c, P x = false) →
          visit (inorder T).length (slotNext c) = (inorder T).dropWhile P := by
        intro P h1 h2
        rw [hT, dropWhile_split P _ _ h1 h2]
        have s := slotNext_spec c
        revert s
        cases slotNext c with
        | none => intro s; rw [visit_none, show after c = [] from s]
        | some q =>
          intro s
          have s : q.tree = plug c .leaf ∧ q.x :: q.rest = after c := s
          rw [visit_spec _ q (by rw [← s.2]; simp; omega), s.2]
      cases incl with
      | true =>
        simp only [if_true]
        exact R _ (fun x hx => by simpa using f.2.1 x hx) (fun x hx => by have := f.2.2 x hx; simp; omega)
      | false =>
        simp only [Bool.false_eq_true, if_false]
        exact R _ (fun x hx => by have := f.2.1 x hx; simp; omega) (fun x hx => by have := f.2.2 x hx; simp; omega)

end Jool.RbTree
