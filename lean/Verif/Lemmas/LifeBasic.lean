import Verif.Model.Life
import Verif.Props.BibPackets
import Mathlib.Data.List.Basic
import Mathlib.Data.List.Perm.Subperm
/-
Who owns what, for the model in `Verif.Model.Life`: weakest preconditions, the invariant, and the functions of the kernel.
-/
namespace Jool.Life
open Jool.Bib (WF)
open Jool.BibSpec (storedPkts released After)

/-- `m` started with `h` ends well with `Q`, or in undefined behaviour with `E`. -/
def wp {α : Type} (E : UB → Prop) (m : M α) (Q : α → Heap → Prop) (h : Heap) : Prop :=
  match m h with
  | .ok r => Q r.1 r.2
  | .ub u => E u

variable {E : UB → Prop} {α β : Type}

@[simp] theorem wp_pure (a : α) (Q : α → Heap → Prop) (h : Heap) : wp E (pure a : M α) Q h ↔ Q a h := Iff.rfl

theorem wp_bind {m : M α} {f : α → M β} {Q : β → Heap → Prop} {h : Heap} :
    wp E (m >>= f) Q h ↔ wp E m (fun a => wp E (f a) Q) h := by
  unfold wp
  show (match (m h).bind (fun r => f r.1 r.2) with | .ok r => Q r.1 r.2 | .ub u => E u) ↔ _
  cases m h <;> rfl

theorem wp_mono {m : M α} {P Q : α → Heap → Prop} {h : Heap} (a : wp E m P h) (b : ∀ x k, P x k → Q x k) :
    wp E m Q h := by
  unfold wp at *
  cases hm : m h with
  | ok r => rw [hm] at a; exact b _ _ a
  | ub u => rw [hm] at a; exact a

/-- The usual step: first `m`, then the rest. -/
theorem wp_seq {m : M α} {f : α → M β} {P : α → Heap → Prop} {Q : β → Heap → Prop} {h : Heap} (a : wp E m P h)
    (b : ∀ x k, P x k → wp E (f x) Q k) : wp E (m >>= f) Q h :=
  wp_bind.mpr (wp_mono a b)

@[simp] theorem wp_get (Q : Heap → Heap → Prop) (h : Heap) : wp E get Q h ↔ Q h h := Iff.rfl
@[simp] theorem wp_set (k : Heap) (Q : Unit → Heap → Prop) (h : Heap) : wp E (set k) Q h ↔ Q () k := Iff.rfl
@[simp] theorem wp_emit (e : Ev) (Q : Unit → Heap → Prop) (h : Heap) :
    wp E (emit e) Q h ↔ Q () { h with log := e :: h.log } := Iff.rfl
@[simp] theorem wp_ub (u : UB) (Q : α → Heap → Prop) (h : Heap) : wp E (ub u) Q h ↔ E u := Iff.rfl

/-! ### The invariant -/

abbrev Own := List (Nat × Skb)

def ids (o : Own) : List Nat := o.map Prod.fst
def routes (o : Own) : List Nat := o.filterMap (fun p => p.2.dst)

@[simp] theorem ids_nil : ids [] = [] := rfl
@[simp] theorem ids_cons (p : Nat × Skb) (o : Own) : ids (p :: o) = p.1 :: ids o := rfl
@[simp] theorem ids_append (a b : Own) : ids (a ++ b) = ids a ++ ids b := by simp [ids]
@[simp] theorem routes_nil : routes [] = [] := rfl
theorem routes_cons (p : Nat × Skb) (o : Own) : routes (p :: o) = p.2.dst.toList ++ routes o := by
  unfold routes
  cases h : p.2.dst <;> simp [h]
@[simp] theorem routes_append (a b : Own) : routes (a ++ b) = routes a ++ routes b := by simp [routes]

/-- The allocated packets are the ones of `own`, and the ones that the table keeps; the references to routes are the ones of these packets
and `sd`. -/
structure Inv (h : Heap) (own : Own) (sd : List Nat) : Prop where
  nd : (ids own ++ storedPkts h.table).Nodup
  cell : ∀ p ∈ own, h.skb p.1 = some p.2
  st : ∀ i ∈ storedPkts h.table, ∃ c, h.skb i = some c ∧ c.dst = none
  dead : ∀ i, i ∉ ids own → i ∉ storedPkts h.table → h.skb i = none
  top : ∀ i, h.top ≤ i → h.skb i = none
  dst : ∀ d, h.dst d = (routes own).count d + sd.count d
  re : ∃ hist ev, After .TCP hist h.table ev

/-- What is said about packet `i`: its translation was sent, an ICMP error answered it. -/
def about (i : Nat) : Ev → Bool
  | .sent _ _ _ => true
  | .icmp j _ _ => j == i
  | _ => false

/-- Nothing else changed. -/
structure Same (i : Nat) (h k : Heap) : Prop where
  xl : k.xlations = h.xlations
  inst : k.insts = h.insts
  log : k.log.filter (about i) = h.log.filter (about i)
  le : h.top ≤ k.top

theorem Same.refl (i : Nat) (h : Heap) : Same i h h := ⟨rfl, rfl, rfl, Nat.le_refl _⟩
theorem Same.trans {i : Nat} {a b c : Heap} (x : Same i a b) (y : Same i b c) : Same i a c :=
  ⟨y.xl.trans x.xl, y.inst.trans x.inst, y.log.trans x.log, Nat.le_trans x.le y.le⟩

theorem Inv.perm {h : Heap} {a b : Own} {sd : List Nat} (v : Inv h a sd) (p : a.Perm b) : Inv h b sd := by
  have pi : (ids a).Perm (ids b) := p.map _
  have pr : (routes a).Perm (routes b) := p.filterMap _
  refine ⟨((pi.append_right _).nodup_iff).mp v.nd, fun x hx => v.cell x (p.mem_iff.mpr hx), v.st,
    fun i hi => v.dead i (fun hm => hi (pi.mem_iff.mp hm)), v.top, fun d => ?_, v.re⟩
  rw [v.dst d, pr.count_eq]

theorem Inv.permSd {h : Heap} {a : Own} {sd se : List Nat} (v : Inv h a sd) (p : sd.Perm se) : Inv h a se :=
  ⟨v.nd, v.cell, v.st, v.dead, v.top, fun d => by rw [v.dst d, p.count_eq], v.re⟩

theorem Inv.lt {h : Heap} {o : Own} {sd} (v : Inv h o sd) {i : Nat} (hi : i ∈ ids o) : i < h.top := by
  obtain ⟨p, hp, rfl⟩ := List.mem_map.mp hi
  by_contra hc
  have := v.top p.1 (by omega)
  rw [v.cell p hp] at this
  cases this

theorem Inv.len {h : Heap} {o : Own} {sd} (v : Inv h o sd) : o.length ≤ h.top := by
  have nd : (ids o).Nodup := (List.nodup_append.mp v.nd).1
  have : ids o ⊆ List.range h.top := fun i hi => List.mem_range.mpr (v.lt hi)
  have := (List.subperm_of_subset nd this).length_le
  simpa [ids] using this

theorem Inv.notStored {h : Heap} {o : Own} {sd} (v : Inv h o sd) {i : Nat} (hi : i ∈ ids o) : i ∉ storedPkts h.table :=
  fun hs => (List.nodup_append.mp v.nd).2.2 i hi i hs rfl

/-! ### The kernel's functions -/

theorem wp_load {i : Nat} {c : Skb} {Q : Skb → Heap → Prop} {h : Heap} (hc : h.skb i = some c) :
    wp E (load i) Q h ↔ Q c h := by
  unfold wp load; rw [hc]

theorem Inv.load {h : Heap} {i : Nat} {c : Skb} {o : Own} {sd} (v : Inv h o sd) (hm : (i, c) ∈ o)
    {Q : Skb → Heap → Prop} : wp E (load i) Q h ↔ Q c h :=
  wp_load (v.cell _ hm)

theorem alloc_spec {h : Heap} {o : Own} {sd} (j : Nat) (v : Inv h o sd) (c : Skb) (hd : c.dst = none) :
    wp E (alloc c) (fun i k => i = h.top ∧ Inv k ((i, c) :: o) sd ∧ Same j h k) h := by
  show h.top = h.top ∧ _
  refine ⟨rfl, ⟨?_, ?_, ?_, ?_, ?_, ?_, v.re⟩, rfl, rfl, rfl, Nat.le_succ _⟩
  · have hn : h.top ∉ ids o ++ storedPkts h.table := by
      intro hm
      rcases List.mem_append.mp hm with hm | hm
      · exact absurd (v.lt hm) (Nat.lt_irrefl _)
      · obtain ⟨c', hc', _⟩ := v.st _ hm
        rw [v.top _ (Nat.le_refl _)] at hc'
        cases hc'
    exact List.nodup_cons.mpr ⟨hn, v.nd⟩
  · intro p hp
    rcases List.mem_cons.mp hp with rfl | hp
    · simp [upd]
    · have := v.lt (List.mem_map_of_mem (f := Prod.fst) hp)
      have hne : p.1 ≠ h.top := by omega
      simp only [upd, hne, if_false]
      exact v.cell p hp
  · intro i hi
    obtain ⟨c', hc', hd'⟩ := v.st i hi
    have hne : i ≠ h.top := by
      rintro rfl
      rw [v.top _ (Nat.le_refl _)] at hc'
      cases hc'
    exact ⟨c', by simp only [upd, hne, if_false]; exact hc', hd'⟩
  · intro i hi hs
    simp only [ids_cons, List.mem_cons, not_or] at hi
    simp only [upd, hi.1, if_false]
    exact v.dead i hi.2 hs
  · intro i hi
    have hi : h.top + 1 ≤ i := hi
    have hne : i ≠ h.top := by omega
    simp only [upd, hne, if_false]
    exact v.top i (by omega)
  · intro d
    rw [routes_cons]
    simp only [hd, Option.toList_none, List.nil_append]
    exact v.dst d

theorem dstHold_spec {h : Heap} {o : Own} {sd} (j : Nat) (v : Inv h o sd) (d : Nat) :
    wp E (dstHold d) (fun _ k => Inv k o (d :: sd) ∧ Same j h k) h := by
  refine ⟨⟨v.nd, v.cell, v.st, v.dead, v.top, ?_, v.re⟩, rfl, rfl, rfl, Nat.le_refl _⟩
  intro e
  show upd h.dst d (h.dst d + 1) e = _
  unfold upd
  by_cases he : e = d
  · subst he
    rw [if_pos rfl, v.dst e, List.count_cons_self]
    omega
  · rw [if_neg he, v.dst e, List.count_cons_of_ne (fun x => he x.symm)]

theorem dstRelease_eq {h : Heap} {d : Nat} (hd : h.dst d ≠ 0) :
    dstRelease (some d) h = .ok ((), { h with dst := upd h.dst d (h.dst d - 1) }) := by
  show (if h.dst d = 0 then Outcome.ub UB.useAfterFree else
    Outcome.ok ((), { h with dst := upd h.dst d (h.dst d - 1) })) = _
  rw [if_neg hd]

@[simp] theorem wp_dstRelease_none {h : Heap} {Q : Unit → Heap → Prop} : wp E (dstRelease none) Q h ↔ Q () h := Iff.rfl

theorem wp_dstRelease {h : Heap} {d : Nat} {Q : Unit → Heap → Prop} (hd : h.dst d ≠ 0) :
    wp E (dstRelease (some d)) Q h ↔ Q () { h with dst := upd h.dst d (h.dst d - 1) } := by
  unfold wp; rw [dstRelease_eq hd]

theorem dstRelease_spec {h : Heap} {o : Own} {sd} (j : Nat) (r : Option Nat) (v : Inv h o (r.toList ++ sd)) :
    wp E (dstRelease r) (fun _ k => Inv k o sd ∧ Same j h k) h := by
  cases r with
  | none => exact ⟨v, Same.refl _ _⟩
  | some d =>
    have hd := v.dst d
    rw [Option.toList_some, List.singleton_append, List.count_cons_self] at hd
    rw [wp_dstRelease (by omega)]
    refine ⟨⟨v.nd, v.cell, v.st, v.dead, v.top, ?_, v.re⟩, rfl, rfl, rfl, Nat.le_refl _⟩
    intro e
    show upd h.dst d (h.dst d - 1) e = _
    unfold upd
    have he' := v.dst e
    rw [Option.toList_some, List.singleton_append] at he'
    by_cases he : e = d
    · subst he
      rw [if_pos rfl]
      omega
    · rw [if_neg he, he', List.count_cons_of_ne (fun x => he x.symm)]

theorem store_inv {h : Heap} {i : Nat} {c c' : Skb} {o : Own} {sd se : List Nat} (v : Inv h ((i, c) :: o) sd)
    (hd : ∀ d, c.dst.toList.count d + sd.count d = c'.dst.toList.count d + se.count d) :
    Inv { h with skb := upd h.skb i (some c') } ((i, c') :: o) se := by
  have nd := v.nd
  have hio : i ∉ ids o ++ storedPkts h.table := (List.nodup_cons.mp nd).1
  have hio1 : i ∉ ids o := fun hm => hio (List.mem_append_left _ hm)
  have hio2 : i ∉ storedPkts h.table := fun hm => hio (List.mem_append_right _ hm)
  have hc := v.cell (i, c) (by simp)
  refine ⟨nd, ?_, ?_, ?_, ?_, ?_, v.re⟩
  · intro p hp
    rcases List.mem_cons.mp hp with rfl | hp
    · simp [upd]
    · have hne : p.1 ≠ i := fun he => hio1 (he ▸ List.mem_map_of_mem (f := Prod.fst) hp)
      simp only [upd, hne, if_false]
      exact v.cell p (List.mem_cons_of_mem _ hp)
  · intro x hx
    have hne : x ≠ i := by
      rintro rfl
      exact hio2 hx
    simp only [upd, hne, if_false]
    exact v.st x hx
  · intro x hx hs
    simp only [ids_cons, List.mem_cons, not_or] at hx
    simp only [upd, hx.1, if_false]
    exact v.dead x (by simp only [ids_cons, List.mem_cons, not_or]; exact hx) hs
  · intro x hx
    have hne : x ≠ i := by
      rintro rfl
      rw [v.top x hx] at hc
      cases hc
    simp only [upd, hne, if_false]
    exact v.top x hx
  · intro d
    have := v.dst d
    have := hd d
    rw [routes_cons, List.count_append] at *
    simp only at *
    omega

theorem wp_store {h : Heap} {i : Nat} {c c' : Skb} {o : Own} {sd} (v : Inv h o sd) (hm : (i, c) ∈ o)
    {Q : Unit → Heap → Prop} : wp E (store i c') Q h ↔ Q () { h with skb := upd h.skb i (some c') } := by
  unfold wp store; rw [v.cell _ hm]

theorem store_spec {h : Heap} {i : Nat} {c c' : Skb} {o : Own} {sd} (j : Nat) (v : Inv h ((i, c) :: o) sd)
    (hd : c'.dst = c.dst) : wp E (store i c') (fun _ k => Inv k ((i, c') :: o) sd ∧ Same j h k) h := by
  rw [wp_store v (List.mem_cons_self ..)]
  exact ⟨store_inv v (fun d => by rw [hd]), rfl, rfl, rfl, Nat.le_refl _⟩

theorem skbDstSet_spec {h : Heap} {i : Nat} {c : Skb} {o : Own} {sd} (j : Nat) (r : Option Nat)
    (v : Inv h ((i, c) :: o) (r.toList ++ sd)) (hc : c.dst = none) :
    wp E (skbDstSet i r) (fun _ k => Inv k ((i, { c with dst := r }) :: o) sd ∧ Same j h k) h := by
  unfold skbDstSet
  rw [wp_bind, v.load (List.mem_cons_self ..), wp_store v (List.mem_cons_self ..)]
  refine ⟨store_inv v (fun d => ?_), rfl, rfl, rfl, Nat.le_refl _⟩
  simp [hc, List.count_append]

theorem skbDstDrop_spec {h : Heap} {i : Nat} {c : Skb} {o : Own} {sd} (j : Nat) (v : Inv h ((i, c) :: o) sd) :
    wp E (skbDstDrop i) (fun _ k => Inv k ((i, { c with dst := none }) :: o) sd ∧ Same j h k) h := by
  unfold skbDstDrop
  rw [wp_bind, v.load (List.mem_cons_self ..)]
  have hi := v.cell (i, c) (by simp)
  -- the reference stays counted as the packet's until the packet is written
  cases hr : c.dst with
  | none =>
    refine wp_bind.mpr ?_
    rw [wp_dstRelease_none]
    refine wp_mono (store_spec j v (by simp [hr])) (fun _ k q => q)
  | some d =>
    refine wp_bind.mpr ?_
    have hd := v.dst d
    rw [routes_cons] at hd
    simp only [hr, Option.toList_some, List.singleton_append, List.count_cons_self] at hd
    rw [wp_dstRelease (by omega)]
    unfold wp store
    rw [show ({ h with dst := upd h.dst d (h.dst d - 1) } : Heap).skb i = some c from hi]
    have w : Inv { h with skb := upd h.skb i (some { c with dst := none }) } ((i, { c with dst := none }) :: o) (d :: sd) :=
      store_inv v (fun e => by
        simp only [hr, Option.toList_some, Option.toList_none, List.count_nil]
        rw [List.count_singleton, List.count_cons]; omega)
    have := dstRelease_spec (E := fun _ => False) j (some d) w
    rw [wp_dstRelease (by show h.dst d ≠ 0; omega)] at this
    exact ⟨this.1, rfl, rfl, rfl, Nat.le_refl _⟩

/-- A packet leaves the heap; its reference is still counted. -/
theorem take_spec {h : Heap} {i : Nat} {c : Skb} {o : Own} {sd} (j : Nat) (v : Inv h ((i, c) :: o) sd) :
    wp E (take i) (fun x k => x = c ∧ Inv k o (c.dst.toList ++ sd) ∧ Same j h k) h := by
  have nd := v.nd
  have hio : i ∉ ids o ++ storedPkts h.table := (List.nodup_cons.mp nd).1
  have hio1 : i ∉ ids o := fun hm => hio (List.mem_append_left _ hm)
  have hio2 : i ∉ storedPkts h.table := fun hm => hio (List.mem_append_right _ hm)
  have hc := v.cell (i, c) (by simp)
  unfold wp take
  rw [hc]
  refine ⟨rfl, ⟨(List.nodup_cons.mp nd).2, ?_, ?_, ?_, ?_, ?_, v.re⟩, rfl, rfl, rfl, Nat.le_refl _⟩
  · intro p hp
    have hne : p.1 ≠ i := by
      rintro rfl
      exact hio1 (List.mem_map_of_mem (f := Prod.fst) hp)
    simp only [upd, hne, if_false]
    exact v.cell p (List.mem_cons_of_mem _ hp)
  · intro x hx
    have hne : x ≠ i := by
      rintro rfl
      exact hio2 hx
    simp only [upd, hne, if_false]
    exact v.st x hx
  · intro x hx hs
    by_cases hne : x = i
    · simp [upd, hne]
    · simp only [upd, hne, if_false]
      exact v.dead x (by simp only [ids_cons, List.mem_cons, not_or]; exact ⟨hne, hx⟩) hs
  · intro x hx
    by_cases hne : x = i
    · simp [upd, hne]
    · simp only [upd, hne, if_false]
      exact v.top x hx
  · intro d
    have := v.dst d
    rw [routes_cons] at this
    simp only [List.count_append] at *
    omega

theorem kfree_spec {h : Heap} {i : Nat} {c : Skb} {o : Own} {sd} (j : Nat) (v : Inv h ((i, c) :: o) sd) :
    wp E (kfree (some i)) (fun _ k => Inv k o sd ∧ Same j h k) h := by
  unfold kfree
  refine wp_seq (take_spec j v) (fun x k q => ?_)
  obtain ⟨rfl, q, s⟩ := q
  exact wp_mono (dstRelease_spec j _ q) (fun _ _ q' => ⟨q'.1, s.trans q'.2⟩)

/-! ### Lists of packets -/

/-- The list that starts at `head`. -/
def Chain : Option Nat → Own → Prop
  | none, [] => True
  | some i, (j, c) :: l => i = j ∧ Chain c.next l
  | _, _ => False

theorem Chain.none {l : Own} (c : Chain none l) : l = [] := by
  cases l with
  | nil => rfl
  | cons p l => exact absurd c (by simp [Chain])

theorem Chain.some {i : Nat} {l : Own} (c : Chain (some i) l) : ∃ x l', l = (i, x) :: l' ∧ Chain x.next l' := by
  cases l with
  | nil => exact absurd c (by simp [Chain])
  | cons p l =>
    obtain ⟨j, x⟩ := p
    obtain ⟨rfl, c⟩ := c
    exact ⟨x, l, rfl, c⟩

theorem kfreeListGo_spec {o : Own} {sd} (j : Nat) : ∀ (l : Own) (head : Option Nat) (n : Nat) (h : Heap),
    Chain head l → l.length ≤ n → Inv h (l ++ o) sd →
    wp E (kfreeListGo n head) (fun _ k => Inv k o sd ∧ Same j h k) h := by
  intro l
  induction l with
  | nil =>
    intro head n h c _ v
    cases head with
    | some i => exact absurd c (by simp [Chain])
    | none => unfold kfreeListGo; exact ⟨v, Same.refl _ _⟩
  | cons p l ih =>
    intro head n h c hn v
    cases head with
    | none => exact absurd c (by simp [Chain])
    | some i =>
      obtain ⟨x, l', e, c'⟩ := c.some
      cases e
      obtain ⟨n, rfl⟩ : ∃ m, n = m + 1 := ⟨n - 1, by simp at hn; omega⟩
      unfold kfreeListGo
      rw [wp_bind, v.load (c := x) (by simp)]
      refine wp_seq (kfree_spec j v) (fun _ k q => ?_)
      exact wp_mono (ih x.next n k c' (by simpa using hn) q.1) (fun _ _ q' => ⟨q'.1, q.2.trans q'.2⟩)

theorem kfreeList_spec {h : Heap} {l o : Own} {sd} (j : Nat) {head : Option Nat} (c : Chain head l)
    (v : Inv h (l ++ o) sd) : wp E (kfreeList head) (fun _ k => Inv k o sd ∧ Same j h k) h := by
  unfold kfreeList
  rw [wp_bind, wp_get]
  have := v.len
  rw [List.length_append] at this
  exact kfreeListGo_spec j l head h.top h c (by omega) v

end Jool.Life
