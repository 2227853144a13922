import Verif.Model.Leaks
import Verif.Props.RbTree
/-
C99: the report of memory leaks.
-/
namespace Jool.LeaksSpec
open Jool.Leaks (Name Ev)

/-- How many objects of a kind were allocated, and freed. -/
def allocs (h : List Ev) (n : Name) : Nat := h.count (.alloc n) + h.count (.untracked n)
def frees (h : List Ev) (n : Name) : Nat := h.count (.free n)

/-- The program that is observed: at any time no more objects of a kind were freed than allocated, and fewer than 2³² are in use. -/
def Sane (h : List Ev) : Prop := ∀ k n, frees (h.take k) n ≤ allocs (h.take k) n ∧ allocs (h.take k) n - frees (h.take k) n < 2 ^ 32

end Jool.LeaksSpec

namespace Jool.Leaks
open Jool.RbTree
open Jool.LeaksSpec

set_option linter.unusedVariables false

/-! ### The order of names -/

theorem strcmp_eq : ∀ (a b : Name), strcmp a b = 0 ↔ a = b
  | [], [] => by simp [strcmp]
  | [], _ :: _ => by simp [strcmp]
  | _ :: _, [] => by simp [strcmp]
  | a :: x, b :: y => by
    rw [strcmp]
    by_cases h1 : a.toNat < b.toNat
    · rw [if_pos h1]
      constructor
      · intro h; omega
      · intro h; injection h with h _; subst h; omega
    · rw [if_neg h1]
      by_cases h2 : b.toNat < a.toNat
      · rw [if_pos h2]
        constructor
        · intro h; omega
        · intro h; injection h with h _; subst h; omega
      · rw [if_neg h2, strcmp_eq x y]
        have : a = b := BitVec.eq_of_toNat_eq (by omega)
        subst this
        simp

theorem strcmp_swap : ∀ (a b : Name), 0 < strcmp a b ↔ strcmp b a < 0
  | [], [] => by simp [strcmp]
  | [], _ :: _ => by simp [strcmp]
  | _ :: _, [] => by simp [strcmp]
  | a :: x, b :: y => by
    rw [strcmp, strcmp]
    by_cases h1 : a.toNat < b.toNat
    · rw [if_pos h1, if_neg (by omega), if_pos h1]; omega
    · rw [if_neg h1]
      by_cases h2 : b.toNat < a.toNat
      · rw [if_pos h2, if_pos h2]; omega
      · rw [if_neg h2, if_neg h2, if_neg h1]; exact strcmp_swap x y

theorem strcmp_trans : ∀ {a b c : Name}, strcmp a b < 0 → strcmp b c < 0 → strcmp a c < 0
  | [], [], _, h, _ => by simp [strcmp] at h
  | [], _ :: _, [], _, g => by simp [strcmp] at g
  | [], _ :: _, _ :: _, _, _ => by simp [strcmp]
  | _ :: _, [], _, h, _ => by simp [strcmp] at h
  | _ :: _, _ :: _, [], _, g => by simp [strcmp] at g
  | a :: x, b :: y, c :: z, h, g => by
    rw [strcmp] at h g ⊢
    by_cases h1 : a.toNat < b.toNat
    · by_cases g1 : b.toNat < c.toNat
      · rw [if_pos (by omega)]; omega
      · rw [if_neg g1] at g
        by_cases g2 : c.toNat < b.toNat
        · rw [if_pos g2] at g; omega
        · rw [if_pos (by omega)]; omega
    · rw [if_neg h1] at h
      by_cases h2 : b.toNat < a.toNat
      · rw [if_pos h2] at h; omega
      · rw [if_neg h2] at h
        by_cases g1 : b.toNat < c.toNat
        · rw [if_pos (by omega)]; omega
        · rw [if_neg g1] at g
          by_cases g2 : c.toNat < b.toNat
          · rw [if_pos g2] at g; omega
          · rw [if_neg g2] at g
            rw [if_neg (by omega), if_neg (by omega)]
            exact strcmp_trans h g

/-! ### Searches -/

abbrev Sorted (l : List Entry) : Prop := l.Pairwise fun a b => strcmp a.name b.name < 0

theorem find_aux (n : Name) (t : Tree Entry) (c : Ctx Entry) (hs : Sorted (inorder (plug c t))) (hb : ∀ x ∈ before c, strcmp x.name n < 0) (ha : ∀ x ∈ after c, strcmp n x.name < 0) :
    match find (fun x => strcmp x.name n) t c with
    | .hit p => p.tree = plug c t ∧ p.x.name = n
    | .slot c' => plug c' .leaf = plug c t ∧ (∀ x ∈ before c', strcmp x.name n < 0) ∧ ∀ x ∈ after c', strcmp n x.name < 0 := by
  induction t generalizing c with
  | leaf => exact ⟨rfl, hb, ha⟩
  | node l x r ihl ihr =>
    have hs' := hs
    rw [plug_inorder] at hs'
    simp only [inorder, List.pairwise_append, List.pairwise_cons] at hs'
    unfold find
    by_cases h1 : strcmp x.name n < 0
    · rw [if_pos h1]
      refine ihr _ hs ?_ ha
      intro y hy
      simp only [before, List.mem_append, List.mem_singleton] at hy
      rcases hy with (hy | hy) | hy
      · exact hb y hy
      · exact strcmp_trans (hs'.1.2.1.2.2 y hy x (by simp)) h1
      · subst hy; exact h1
    · rw [if_neg h1]
      by_cases h2 : 0 < strcmp x.name n
      · rw [if_pos h2]
        have hx := (strcmp_swap _ _).1 h2
        refine ihl _ hs hb ?_
        intro y hy
        simp only [after, List.mem_append, List.mem_cons] at hy
        rcases hy with (hy | hy) | hy
        · subst hy; exact hx
        · exact strcmp_trans hx (hs'.1.2.1.2.1.1 y hy)
        · exact ha y hy
      · rw [if_neg h2]
        exact ⟨rfl, (strcmp_eq _ _).1 (by show strcmp x.name n = 0; omega)⟩

theorem find_spec (n : Name) (t : Tree Entry) (hs : Sorted (inorder t)) :
    match find (fun x => strcmp x.name n) t [] with
    | .hit p => p.tree = t ∧ p.x.name = n
    | .slot c => plug c .leaf = t ∧ (∀ x ∈ before c, strcmp x.name n < 0) ∧ ∀ x ∈ after c, strcmp n x.name < 0 :=
  find_aux n t [] hs (by simp [before]) (by simp [after])

/-! ### The invariant -/

/-- The entries are sorted, and they count what is in use. -/
structure Inv (t : Tree Entry) (f : Name → Nat) : Prop where
  sorted : Sorted (inorder t)
  count : ∀ x ∈ inorder t, x.count.toNat = f x.name
  rest : ∀ n, (∀ x ∈ inorder t, x.name ≠ n) → f n = 0

def upd (f : Name → Nat) (n : Name) (v : Nat) : Name → Nat := fun m => if m = n then v else f m

theorem setCount_inv {t : Tree Entry} {f : Name → Nat} (h : Inv t f) {p : Loc Entry} {n : Name} (hp : p.tree = t) (hn : p.x.name = n) (c : BitVec 32) :
    Inv (setCount p c) (upd f n c.toNat) := by
  have e1 : inorder t = p.pre ++ p.x :: p.rest := by rw [← hp]; exact p.tree_inorder
  have e2 : inorder (setCount p c) = p.pre ++ { p.x with count := c } :: p.rest := by
    have := Loc.tree_inorder (⟨p.l, { p.x with count := c }, p.r, p.ctx⟩ : Loc Entry)
    exact this
  obtain ⟨h1, h2, h3⟩ := h
  rw [e1] at h1 h2 h3
  have hd : ∀ y ∈ p.pre ++ p.rest, y.name ≠ n := by
    intro y hy e
    have hz : strcmp n n = 0 := (strcmp_eq _ _).2 rfl
    rw [Sorted, List.pairwise_append, List.pairwise_cons] at h1
    rcases List.mem_append.1 hy with q | q
    · have := h1.2.2 y q p.x (by simp)
      rw [hn, e] at this; omega
    · have := h1.2.1.1 y q
      rw [hn, e] at this; omega
  refine ⟨?_, ?_, ?_⟩
  · rw [e2]
    rw [Sorted, List.pairwise_append, List.pairwise_cons] at h1 ⊢
    refine ⟨h1.1, h1.2.1, ?_⟩
    intro y hy z hz
    rcases List.mem_cons.1 hz with q | q
    · subst q; exact h1.2.2 y hy p.x (by simp)
    · exact h1.2.2 y hy z (List.mem_cons_of_mem _ q)
  · rw [e2]
    intro y hy
    unfold upd
    rcases List.mem_append.1 hy with q | q
    · rw [if_neg (hd y (List.mem_append_left _ q))]
      exact h2 y (List.mem_append_left _ q)
    · rcases List.mem_cons.1 q with q | q
      · subst q; rw [if_pos hn]
      · rw [if_neg (hd y (List.mem_append_right _ q))]
        exact h2 y (List.mem_append_right _ (List.mem_cons_of_mem _ q))
  · rw [e2]
    intro m hm
    have hne : m ≠ n := by
      intro e
      exact hm { p.x with count := c } (by simp) (by show p.x.name = m; rw [hn, e])
    unfold upd
    rw [if_neg hne]
    apply h3
    intro y hy
    rcases List.mem_append.1 hy with q | q
    · exact hm y (List.mem_append_left _ q)
    · rcases List.mem_cons.1 q with q | q
      · subst q; rw [hn]; exact fun e => hne e.symm
      · exact hm y (List.mem_append_right _ (List.mem_cons_of_mem _ q))

theorem link_inv {t t' : Tree Entry} {f : Name → Nat} (h : Inv t f) {c : Ctx Entry} {n : Name} (hp : plug c .leaf = t) (hb : ∀ x ∈ before c, strcmp x.name n < 0) (ha : ∀ x ∈ after c, strcmp n x.name < 0)
    (ht : inorder t' = inorder (link c ⟨1, n⟩)) : Inv t' (upd f n (f n + 1)) := by
  have e1 : inorder t = before c ++ after c := by rw [← hp, plug_inorder]; simp [inorder]
  have e2 : inorder t' = before c ++ ⟨1, n⟩ :: after c := by rw [ht, link, plug_inorder]; simp [inorder]
  obtain ⟨h1, h2, h3⟩ := h
  rw [e1] at h1 h2 h3
  have hz : strcmp n n = 0 := (strcmp_eq _ _).2 rfl
  have hd : ∀ y ∈ before c ++ after c, y.name ≠ n := by
    intro y hy e
    rcases List.mem_append.1 hy with q | q
    · have := hb y q; rw [e] at this; omega
    · have := ha y q; rw [e] at this; omega
  have h0 := h3 n hd
  refine ⟨?_, ?_, ?_⟩
  · rw [e2]
    rw [Sorted, List.pairwise_append] at h1 ⊢
    rw [List.pairwise_cons]
    refine ⟨h1.1, ⟨ha, h1.2.1⟩, ?_⟩
    intro y hy z hz
    rcases List.mem_cons.1 hz with q | q
    · subst q; exact hb y hy
    · exact h1.2.2 y hy z q
  · rw [e2]
    intro y hy
    unfold upd
    rcases List.mem_append.1 hy with q | q
    · rw [if_neg (hd y (List.mem_append_left _ q))]
      exact h2 y (List.mem_append_left _ q)
    · rcases List.mem_cons.1 q with q | q
      · subst q; rw [if_pos rfl, h0]; rfl
      · rw [if_neg (hd y (List.mem_append_right _ q))]
        exact h2 y (List.mem_append_right _ q)
  · rw [e2]
    intro m hm
    have hne : m ≠ n := fun e => hm ⟨1, n⟩ (by simp) e.symm
    unfold upd
    rw [if_neg hne]
    apply h3
    intro y hy
    rcases List.mem_append.1 hy with q | q
    · exact hm y (List.mem_append_left _ q)
    · exact hm y (List.mem_append_right _ (List.mem_cons_of_mem _ q))

/-- What remains of a sane history, when `f` objects are in use. -/
def Fair (f : Name → Nat) (h : List Ev) : Prop :=
  ∀ k n, frees (h.take k) n ≤ f n + allocs (h.take k) n ∧ f n + allocs (h.take k) n - frees (h.take k) n < 2 ^ 32

theorem fair_alloc {f : Name → Nat} {n : Name} {h : List Ev} (g : Fair f (.alloc n :: h)) : f n + 1 < 2 ^ 32 ∧ Fair (upd f n (f n + 1)) h := by
  constructor
  · have := (g 1 n).2
    simpa [allocs, frees] using this
  · intro k m
    have := g (k + 1) m
    unfold upd
    by_cases e : m = n
    · subst e
      simp [allocs, frees] at this ⊢
      omega
    · have e' : ¬ n = m := fun q => e q.symm
      simp [allocs, frees, e, e'] at this ⊢
      omega

theorem fair_free {f : Name → Nat} {n : Name} {h : List Ev} (g : Fair f (.free n :: h)) : 0 < f n ∧ Fair (upd f n (f n - 1)) h := by
  have h0 : 0 < f n := by
    have := (g 1 n).1
    simp [allocs, frees] at this
    omega
  refine ⟨h0, ?_⟩
  intro k m
  have := g (k + 1) m
  unfold upd
  by_cases e : m = n
  · subst e
    simp [allocs, frees] at this ⊢
    omega
  · have e' : ¬ n = m := fun q => e q.symm
    simp [allocs, frees, e, e'] at this ⊢
    omega

theorem run_inv {t t' : Tree Entry} {h : List Ev} {ws : List Warn} (r : Run t h t' ws) : ∀ {f : Name → Nat}, Inv t f → Fair f h → (∀ n, Ev.untracked n ∉ h) →
    ws = [] ∧ Inv t' (fun n => f n + allocs h n - frees h n) := by
  induction r with
  | nil => intro f i _ _; exact ⟨rfl, by simpa [allocs, frees] using i⟩
  | @cons t e t' w h t'' ws s r ih =>
    intro f i g hu
    have hu' : ∀ n, Ev.untracked n ∉ h := fun n q => hu n (List.mem_cons_of_mem _ q)
    have go : ∀ {n}, e = .alloc n → w = [] → Inv t' (upd f n (f n + 1)) → w ++ ws = [] ∧ Inv t'' (fun m => f m + allocs (e :: h) m - frees (e :: h) m) := by
      intro n he hw hi
      subst he hw
      obtain ⟨a, b⟩ := ih hi (fair_alloc g).2 hu'
      refine ⟨by rw [a]; rfl, ?_⟩
      have : (fun m => f m + allocs (.alloc n :: h) m - frees (.alloc n :: h) m) = fun m => upd f n (f n + 1) m + allocs h m - frees h m := by
        funext m
        unfold upd
        by_cases q : m = n
        · subst q; simp [allocs, frees]; omega
        · have q' : ¬ n = m := fun x => q x.symm
          simp [allocs, frees, q, q']
      rw [this]; exact b
    have go' : ∀ {n}, e = .free n → w = [] → Inv t' (upd f n (f n - 1)) → w ++ ws = [] ∧ Inv t'' (fun m => f m + allocs (e :: h) m - frees (e :: h) m) := by
      intro n he hw hi
      subst he hw
      obtain ⟨a, b⟩ := ih hi (fair_free g).2 hu'
      refine ⟨by rw [a]; rfl, ?_⟩
      have h0 := (fair_free g).1
      have : (fun m => f m + allocs (.free n :: h) m - frees (.free n :: h) m) = fun m => upd f n (f n - 1) m + allocs h m - frees h m := by
        funext m
        unfold upd
        by_cases q : m = n
        · subst q; simp [allocs, frees]; omega
        · have q' : ¬ n = m := fun x => q x.symm
          simp [allocs, frees, q, q']
      rw [this]; exact b
    cases s with
    | @again n p hf =>
      have sp := find_spec n t i.sorted
      rw [hf] at sp
      have hc : p.x.count.toNat = f n := by rw [← sp.2]; exact i.count p.x (by rw [← sp.1, p.tree_inorder]; simp)
      refine go rfl rfl ?_
      have := setCount_inv i sp.1 sp.2 (p.x.count + 1)
      have hl := (fair_alloc g).1
      rw [show (p.x.count + 1).toNat = f n + 1 by rw [BitVec.toNat_add, hc]; simp; omega] at this
      exact this
    | @first n c _ hf ht =>
      have sp := find_spec n t i.sorted
      rw [hf] at sp
      exact go rfl rfl (link_inv i sp.1 sp.2.1 sp.2.2 ht)
    | untracked => exact absurd List.mem_cons_self (hu _)
    | @free n p hf hne =>
      have sp := find_spec n t i.sorted
      rw [hf] at sp
      have hc : p.x.count.toNat = f n := by rw [← sp.2]; exact i.count p.x (by rw [← sp.1, p.tree_inorder]; simp)
      refine go' rfl rfl ?_
      have := setCount_inv i sp.1 sp.2 (p.x.count - 1)
      have hl := (fair_free g).1
      have hb := p.x.count.isLt
      rw [show (p.x.count - 1).toNat = f n - 1 by rw [BitVec.toNat_sub, hc]; simp; omega] at this
      exact this
    | @unallocated n p hf h0 =>
      have sp := find_spec n t i.sorted
      rw [hf] at sp
      have hc : p.x.count.toNat = f n := by rw [← sp.2]; exact i.count p.x (by rw [← sp.1, p.tree_inorder]; simp)
      rw [h0] at hc
      have := (fair_free g).1
      simp at hc; omega
    | @outOfTree n c hf =>
      have sp := find_spec n t i.sorted
      rw [hf] at sp
      have : f n = 0 := by
        apply i.rest
        intro y hy e
        have hz : strcmp n n = 0 := (strcmp_eq _ _).2 rfl
        rw [← sp.1, plug_inorder] at hy
        simp only [inorder, List.append_nil, List.mem_append] at hy
        rcases hy with q | q
        · have := sp.2.1 y q; rw [e] at this; omega
        · have := sp.2.2 y q; rw [e] at this; omega
      have := (fair_free g).1
      omega

/-- **C99.** Nothing is warned about, and the report has one line for each kind of which more objects were allocated than freed, with the difference; the kinds are sorted. -/
theorem report_partial {t : Tree Entry} {h : List Ev} {ws : List Warn} (r : Run .leaf h t ws) (g : Sane h) (hu : ∀ n, Ev.untracked n ∉ h) :
    ws = [] ∧ (report t).Pairwise (fun a b => strcmp a.name b.name < 0) ∧
      ∀ n c, (∃ x ∈ report t, x.name = n ∧ x.count.toNat = c) ↔ frees h n + c = allocs h n ∧ 0 < c := by
  obtain ⟨h1, h2⟩ := run_inv r (f := fun _ => 0) ⟨by simp [inorder], by simp [inorder], fun _ _ => rfl⟩ (by intro k n; simpa using g k n) hu
  have hle : ∀ n, frees h n ≤ allocs h n := by
    intro n
    have := (g h.length n).1
    rwa [List.take_length] at this
  unfold report
  rw [visit_first]
  refine ⟨h1, h2.sorted.filter _, ?_⟩
  intro n c
  constructor
  · rintro ⟨x, hx, rfl, rfl⟩
    rw [List.mem_filter] at hx
    have a := h2.count x hx.1
    have b := hle x.name
    have c : 0 < x.count.toNat := by simpa using hx.2
    omega
  · rintro ⟨a, b⟩
    by_cases q : ∃ x ∈ inorder t, x.name = n
    · obtain ⟨x, hx, rfl⟩ := q
      have e := h2.count x hx
      refine ⟨x, List.mem_filter.2 ⟨hx, by simp; omega⟩, rfl, by omega⟩
    · have := h2.rest n (fun x hx e => q ⟨x, hx, e⟩)
      omega

/-- **C99.** In particular, "None." is printed if and only if nothing leaked. -/
theorem none_iff {t : Tree Entry} {h : List Ev} {ws : List Warn} (r : Run .leaf h t ws) (g : Sane h) (hu : ∀ n, Ev.untracked n ∉ h) : report t = [] ↔ ∀ n, allocs h n = frees h n := by
  obtain ⟨-, -, h2⟩ := report_partial r g hu
  have hle : ∀ n, frees h n ≤ allocs h n := by
    intro n
    have := (g h.length n).1
    rwa [List.take_length] at this
  constructor
  · intro e n
    rw [e] at h2
    have := h2 n (allocs h n - frees h n)
    have b := hle n
    rcases Nat.lt_or_ge (frees h n) (allocs h n) with q | q
    · obtain ⟨x, hx, -⟩ := this.2 ⟨by omega, by omega⟩
      cases hx
    · omega
  · intro e
    cases hr : report t with
    | nil => rfl
    | cons x l =>
      have := (h2 x.name x.count.toNat).1 ⟨x, by rw [hr]; simp, rfl, rfl⟩
      have q := e x.name
      omega

/-- Every history runs. -/
theorem run_total : ∀ (h : List Ev) (t : Tree Entry), ∃ t' ws, Run t h t' ws
  | [], t => ⟨t, [], .nil⟩
  | e :: h, t => by
    have : ∃ t' w, Step t e t' w := by
      cases e with
      | alloc n =>
        cases hf : find (fun x => strcmp x.name n) t [] with
        | hit p => exact ⟨_, _, .again hf⟩
        | slot c => exact ⟨_, _, .first hf rfl⟩
      | untracked n => exact ⟨_, _, .untracked⟩
      | free n =>
        cases hf : find (fun x => strcmp x.name n) t [] with
        | hit p =>
          by_cases h0 : p.x.count = 0
          · exact ⟨_, _, .unallocated hf h0⟩
          · exact ⟨_, _, .free hf h0⟩
        | slot c => exact ⟨_, _, .outOfTree hf⟩
    obtain ⟨t', w, hs⟩ := this
    obtain ⟨t'', ws, hr⟩ := run_total h t'
    exact ⟨t'', w ++ ws, .cons hs hr⟩

/-! ### What is wrong with it -/

/-- **C99 is violated** if an entry could not be allocated: an object that is freed as it should looks as if it never was allocated. -/
theorem untracked_wrong (n : Name) : Run .leaf [.untracked n, .free n] .leaf [.noTracker, .outOfTree n] := .cons .untracked (.cons (.outOfTree rfl) .nil)

/-- … and an object that leaks is not reported. -/
theorem untracked_leaks (n : Name) : Run .leaf [.untracked n] .leaf [.noTracker] ∧ report .leaf = [] := ⟨.cons .untracked .nil, rfl⟩

/-- **C99 is violated** by 2³¹ objects or more: their number is printed as a negative one. -/
theorem negative (x : Entry) (h : 2 ^ 31 ≤ x.count.toNat) : shown x < 0 := by
  unfold shown
  rw [BitVec.toInt_eq_toNat_cond, if_neg (by omega)]
  have := x.count.isLt
  omega

theorem positive (x : Entry) (h : x.count.toNat < 2 ^ 31) : shown x = x.count.toNat := by
  unfold shown
  rw [BitVec.toInt_eq_toNat_cond, if_pos (by omega)]

/-! ### Cases -/

/-- Three objects of kind `b`, one of kind `a`, two frees. -/
def history : List Ev := [.alloc [98], .alloc [97], .alloc [98], .free [97], .alloc [98], .free [98]]

def final : Tree Entry := .node (.node .leaf ⟨0, [97]⟩ .leaf) ⟨2, [98]⟩ .leaf

example : Run .leaf history final [] :=
  .cons (w := []) (.first (t' := .node .leaf ⟨1, [98]⟩ .leaf) rfl rfl)
    (.cons (w := []) (.first (t' := .node (.node .leaf ⟨1, [97]⟩ .leaf) ⟨1, [98]⟩ .leaf) rfl rfl)
      (.cons (w := []) (.again rfl) (.cons (w := []) (.free rfl (by decide)) (.cons (w := []) (.again rfl) (.cons (w := []) (.free rfl (by decide)) .nil)))))

theorem history_sane : Sane history := by
  intro k n
  have key : ∀ k, k ≤ 6 → frees (history.take k) n ≤ allocs (history.take k) n ∧ allocs (history.take k) n - frees (history.take k) n < 2 ^ 32 := by
    intro k hk
    have : k = 0 ∨ k = 1 ∨ k = 2 ∨ k = 3 ∨ k = 4 ∨ k = 5 ∨ k = 6 := by omega
    by_cases h1 : [97#8] = n
    · subst h1
      rcases this with rfl | rfl | rfl | rfl | rfl | rfl | rfl <;> decide
    · by_cases h2 : [98#8] = n
      · subst h2
        rcases this with rfl | rfl | rfl | rfl | rfl | rfl | rfl <;> decide
      · rcases this with rfl | rfl | rfl | rfl | rfl | rfl | rfl <;> simp [history, allocs, frees, h1, h2]
  rcases Nat.lt_or_ge k 7 with q | q
  · exact key k (by omega)
  · have e : history.take k = history.take 6 := by
      rw [List.take_of_length_le (by show 6 ≤ k; omega), List.take_of_length_le (by decide)]
    rw [e]; exact key 6 (by omega)

example (r : Run .leaf history final []) : ∃ x ∈ report final, x.name = [98] ∧ x.count.toNat = 2 :=
  ((report_partial r history_sane (by intro n; simp [history])).2.2 [98] 2).2 (by decide)

example : report final = [⟨2, [98]⟩] := by decide

end Jool.Leaks
