import Verif.Model.Cmd
/-
C89: the commands of `jool` and `jool_siit`: abbreviations, errors, completion.
-/
namespace Jool.CmdSpec
open Jool.Cmd

/-- The option exists in this program. -/
def Usable (xt : Xt) (n : Node) : Prop := xt &&& n.xt ≠ 0

/-- The option exists in this program, and may be abbreviated. -/
def Visible (xt : Xt) (n : Node) : Prop := Usable xt n ∧ n.hidden = false

instance (xt : Xt) (n : Node) : Decidable (Usable xt n) := by unfold Usable; infer_instance
instance (xt : Xt) (n : Node) : Decidable (Visible xt n) := by unfold Visible; infer_instance

/-- Some option is called exactly like this. -/
def Named (xt : Xt) (level : List Node) (t : Tok) : Prop := ∃ n ∈ level, Usable xt n ∧ n.label = t

/-- The options which `t` may abbreviate, in order. -/
def candidates (xt : Xt) (level : List Node) (t : Tok) : List Node := level.filter fun n => decide (Visible xt n ∧ t <+: n.label)

/-- `t` means option `n`: it is its name, or abbreviates that one only and is no name. -/
def Means (xt : Xt) (level : List Node) (t : Tok) (n : Node) : Prop :=
  (n ∈ level ∧ Usable xt n ∧ n.label = t) ∨ (¬ Named xt level t ∧ candidates xt level t = [n])

/-- The names of the visible options. -/
def names (xt : Xt) (level : List Node) : List Tok := (level.filter fun n => decide (Visible xt n)).map Node.label

/-- What a command line does. -/
inductive Does (xt : Xt) : List Node → List Tok → Act → Prop
  | more (level) : Does xt level [] (.more (names xt level))
  | unexpected (level t ts) (hn : ¬ Named xt level t) (hc : candidates xt level t = []) : Does xt level (t :: ts) (.unexpected t (names xt level))
  | ambiguous (level t ts) (hn : ¬ Named xt level t) (hc : 2 ≤ (candidates xt level t).length) :
      Does xt level (t :: ts) (.ambiguous t ((candidates xt level t).map Node.label))
  | run (level t ts l x h f a) (hm : Means xt level t (.cmd l x h f a)) : Does xt level (t :: ts) (.run f (t :: ts))
  | down (level t ts l x h c a) (hm : Means xt level t (.dir l x h c)) (hd : Does xt c ts a) : Does xt level (t :: ts) a

/-- What the shell is offered for `last`, behind the words `mid`. -/
inductive Offers (xt : Xt) : List Node → List Tok → Tok → Act → Prop
  | name (level last) (hn : Named xt level last) : Offers xt level [] last (.print [last])
  | list (level last) (hn : ¬ Named xt level last) : Offers xt level [] last (.print ((candidates xt level last).map Node.label))
  | lost (level t ts last) (hm : ∀ n, ¬ Means xt level t n) : Offers xt level (t :: ts) last .nothing
  | cmd (level t ts last l x h f a) (hm : Means xt level t (.cmd l x h f a)) : Offers xt level (t :: ts) last (.suggest f)
  | down (level t ts last l x h c a) (hm : Means xt level t (.dir l x h c)) (hd : Offers xt c ts last a) : Offers xt level (t :: ts) last a

/-- One of the words means a command which completes nothing. -/
inductive Trap (xt : Xt) : List Node → List Tok → Prop
  | here (level t ts l x h f) (hm : Means xt level t (.cmd l x h f false)) : Trap xt level (t :: ts)
  | down (level t ts l x h c) (hm : Means xt level t (.dir l x h c)) (hd : Trap xt c ts) : Trap xt level (t :: ts)

/-- The full name of a command. -/
inductive Full (xt : Xt) : List Node → List Tok → Handler → Prop
  | cmd (level l x h f a) (hm : Node.cmd l x h f a ∈ level) (hu : xt &&& x ≠ 0) : Full xt level [l] f
  | dir (level l x h c p f) (hm : Node.dir l x h c ∈ level) (hu : xt &&& x ≠ 0) (hc : Full xt c p f) : Full xt level (l :: p) f

/-- Each word begins the other. -/
inductive Begins : List Tok → List Tok → Prop
  | nil : Begins [] []
  | cons {t l ts ls} (h : t <+: l) (hs : Begins ts ls) : Begins (t :: ts) (l :: ls)

/-- The arrays of a tree. -/
inductive Level (tree : List Node) : List Node → Prop
  | top : Level tree tree
  | down (l lab x h c) (hl : Level tree l) (hm : Node.dir lab x h c ∈ l) : Level tree c

/-- Names are unique in each array. -/
def Distinct (tree : List Node) : Prop := ∀ l, Level tree l → (l.map Node.label).Nodup

/-- The words of a command line are C strings. -/
def Strings (ts : List Tok) : Prop := ∀ t ∈ ts, '\x00' ∉ t

/-- `memcmp` stops at the first difference; or else, no name is more than one byte shorter than `t`. -/
def Fits (strict : Bool) (xt : Xt) (level : List Node) (t : Tok) : Prop := strict = true → ∀ n ∈ level, Visible xt n → t.length ≤ n.label.length + 1

end Jool.CmdSpec

namespace Jool.Cmd
open Jool.CmdSpec

theorem compare_eq : ∀ (l pre : List Char), '\x00' ∉ pre → compare (l ++ ['\x00']) pre = .ok (decide (pre <+: l))
  | l, [], _ => by
    unfold compare
    simp
  | [], y :: b, h => by
    simp only [List.mem_cons, not_or] at h
    show compare ('\x00' :: []) (y :: b) = _
    rw [compare, if_neg h.1]
    simp
  | x :: l, y :: b, h => by
    simp only [List.mem_cons, not_or] at h
    rw [List.cons_append, compare]
    by_cases e : x = y
    · rw [if_pos e, compare_eq l b h.2, e]
      congr 1
      simp only [List.cons_prefix_cons, true_and]
    · rw [if_neg e]
      congr 1
      symm
      simp only [List.cons_prefix_cons, decide_eq_false_iff_not]
      exact fun q => e q.1.symm

theorem memcmp_eq {strict : Bool} {l pre : List Char} (h : '\x00' ∉ pre) (hf : strict = true → pre.length ≤ l.length + 1) :
    memcmp strict (l ++ ['\x00']) pre = .ok (decide (pre <+: l)) := by
  unfold memcmp
  rw [if_neg, compare_eq l pre h]
  rintro ⟨q1, q2⟩
  have := hf q1
  rw [List.length_append, List.length_singleton] at q2
  omega

/-- The positions of the candidates. -/
def hits (xt : Xt) (t : Tok) : Nat → List Node → List Nat
  | _, [] => []
  | i, n :: ns => if Visible xt n ∧ t <+: n.label then i :: hits xt t (i + 1) ns else hits xt t (i + 1) ns

theorem hits_ge {xt : Xt} {t : Tok} : ∀ {ns : List Node} {i j : Nat}, j ∈ hits xt t i ns → i ≤ j ∧ j < i + ns.length
  | [], i, j, h => by cases h
  | n :: ns, i, j, h => by
    unfold hits at h
    rw [List.length_cons]
    split at h
    · rcases List.mem_cons.1 h with rfl | h
      · omega
      · have := hits_ge h; omega
    · have := hits_ge h; omega

theorem hits_length {xt : Xt} {t : Tok} : ∀ (ns : List Node) (i : Nat), (hits xt t i ns).length ≤ ns.length
  | [], i => by simp [hits]
  | n :: ns, i => by
    have := hits_length (xt := xt) (t := t) ns (i + 1)
    unfold hits
    rw [List.length_cons]
    split
    · rw [List.length_cons]; omega
    · omega

theorem hits_pick {xt : Xt} {t : Tok} (all : List Node) : ∀ (ns : List Node) (i : Nat), all.drop i = ns → pickAll all (hits xt t i ns) = candidates xt ns t
  | [], i, _ => by simp [hits, pickAll, candidates]
  | n :: ns, i, h => by
    have h1 : all[i]? = some n := by
      have := congrArg (·[0]?) h
      rw [List.getElem?_drop] at this
      simpa using this
    have h2 : all.drop (i + 1) = ns := by
      rw [← List.drop_drop, h]
      rfl
    have ih := hits_pick (xt := xt) (t := t) all ns (i + 1) h2
    unfold hits candidates
    split
    · next q =>
      rw [List.filter_cons_of_pos (by simpa using q)]
      unfold pickAll at ih ⊢
      rw [List.filterMap_cons_some h1, ih]
      rfl
    · next q =>
      rw [List.filter_cons_of_neg (by simpa using q), ih]
      rfl

/-- A list in memory. -/
def Linked (nx : Nx) : List Nat → Prop
  | [] => True
  | [a] => nx a = none
  | a :: b :: t => nx a = some b ∧ Linked nx (b :: t)

theorem linked_congr {nx nx' : Nx} : ∀ {l : List Nat}, (∀ j ∈ l, nx' j = nx j) → Linked nx l → Linked nx' l
  | [], _, h => h
  | [a], e, h => by
    unfold Linked at h ⊢
    rw [e a (by simp), h]
  | a :: b :: t, e, h => by
    refine ⟨?_, linked_congr (fun j hj => e j (List.mem_cons_of_mem _ hj)) h.2⟩
    rw [e a (by simp), h.1]

theorem linked_snoc {nx : Nx} {i : Nat} : ∀ {l : List Nat} {b : Nat}, (l ++ [b]).Nodup → i ∉ l ++ [b] → Linked nx (l ++ [b]) → Linked ((nx.set b (some i)).set i none) (l ++ [b] ++ [i])
  | [], b, _, hi, h => by
    have hb : b ≠ i := fun q => hi (by simp [q])
    simp only [List.nil_append, List.cons_append, Linked, Nx.set, if_neg hb, if_true, and_true]
  | [a], b, hd, hi, h => by
    have hb : b ≠ i := fun q => hi (by simp [q])
    have ha : a ≠ i := fun q => hi (by simp [q])
    have hab : a ≠ b := by simp at hd; exact hd
    have h1 : nx a = some b := h.1
    simp only [List.nil_append, List.cons_append, Linked, Nx.set, if_neg hb, if_neg ha, if_neg hab, h1, if_true, and_true]
  | a :: c :: l, b, hd, hi, h => by
    have hd2 : (c :: l ++ [b]).Nodup := (List.nodup_cons.1 hd).2
    have hi2 : i ∉ c :: l ++ [b] := fun q => hi (List.mem_cons_of_mem _ q)
    have ha : a ≠ i := fun q => hi (by simp [q])
    have hab : a ≠ b := by
      intro q
      have := (List.nodup_cons.1 hd).1
      exact this (by simp [q])
    refine ⟨?_, linked_snoc (l := c :: l) hd2 hi2 h.2⟩
    have h1 : nx a = some c := h.1
    simp only [Nx.set, if_neg ha, if_neg hab, h1]

theorem chain_linked {nx : Nx} : ∀ {l : List Nat} {n : Nat}, l.length ≤ n → Linked nx l → chain nx n l.head? = .ok l
  | [], n, _, _ => by cases n <;> rfl
  | [a], 0, h, _ => by simp at h
  | [a], n + 1, _, h => by
    have h : nx a = none := h
    rw [List.head?_cons, chain, h]
    cases n <;> rfl
  | a :: b :: t, 0, h, _ => by simp at h
  | a :: b :: t, n + 1, h, hl => by
    have h1 : nx a = some b := hl.1
    rw [List.head?_cons, chain, h1]
    have := chain_linked (l := b :: t) (n := n) (by simp only [List.length_cons] at h ⊢; omega) hl.2
    rw [List.head?_cons] at this
    rw [this]
    rfl

/-- Where the loop is: the candidates up to `i` are chained, and nothing else was touched. -/
structure Inv (nx0 : Nx) (i : Nat) (s : Find) (l : List Nat) : Prop where
  first : s.first = l.head?
  last : s.last = l.getLast?
  linked : Linked s.nx l
  below : ∀ j ∈ l, j < i
  nodup : l.Nodup
  rest : ∀ j, j ∉ l → s.nx j = nx0 j

theorem link_inv {nx0 : Nx} {i : Nat} {s : Find} {l : List Nat} (h : Inv nx0 i s l) : Inv nx0 (i + 1) (link s i) (l ++ [i]) := by
  have hni : i ∉ l := fun q => Nat.lt_irrefl _ (h.below i q)
  have hnd : (l ++ [i]).Nodup := by
    rw [List.nodup_append]
    exact ⟨h.nodup, by simp, fun a ha b hb => by rw [List.mem_singleton.1 hb]; exact fun q => hni (q ▸ ha)⟩
  have hbl : ∀ j ∈ l ++ [i], j < i + 1 := by
    intro j hj
    rcases List.mem_append.1 hj with hj | hj
    · have := h.below j hj; omega
    · rw [List.mem_singleton.1 hj]; omega
  cases e : l.getLast? with
  | none =>
    have e1 : l = [] := by simpa using e
    subst e1
    have hf : s.first = none := h.first
    unfold link
    rw [hf]
    refine ⟨rfl, rfl, ?_, hbl, hnd, ?_⟩
    · show Nx.set s.nx i none i = none
      simp [Nx.set]
    · intro j hj
      have : j ≠ i := fun q => hj (by simp [q])
      show Nx.set s.nx i none j = nx0 j
      simp only [Nx.set, if_neg this]
      exact h.rest j (by simp)
  | some b =>
    obtain ⟨l', rfl⟩ : ∃ l', l = l' ++ [b] := List.getLast?_eq_some_iff.1 e
    have hl := h.last
    rw [e] at hl
    obtain ⟨f, hf⟩ : ∃ f, (l' ++ [b]).head? = some f := by
      cases l' with
      | nil => exact ⟨_, rfl⟩
      | cons a t => exact ⟨_, rfl⟩
    have hf' := h.first
    rw [hf] at hf'
    unfold link
    rw [hf', hl]
    refine ⟨?_, by simp, linked_snoc h.nodup hni h.linked, hbl, hnd, ?_⟩
    · rw [List.head?_append, hf]
      rfl
    · intro j hj
      have h1 : j ≠ i := fun q => hj (by simp [q])
      have h2 : j ≠ b := fun q => hj (by simp [q])
      show Nx.set (Nx.set s.nx b (some i)) i none j = nx0 j
      simp only [Nx.set, if_neg h1, if_neg h2]
      exact h.rest j (fun q => hj (by simp only [List.mem_append] at q ⊢; exact Or.inl q))

theorem inv_next {nx0 : Nx} {i : Nat} {s : Find} {l : List Nat} (h : Inv nx0 i s l) : Inv nx0 (i + 1) s l :=
  ⟨h.first, h.last, h.linked, fun j hj => Nat.lt_succ_of_lt (h.below j hj), h.nodup, h.rest⟩

theorem loop_ok {strict : Bool} {xt : Xt} {t : Tok} {nx0 : Nx} (ht : '\x00' ∉ t) : ∀ (ns : List Node) (i : Nat) (s : Find) (l : List Nat), Inv nx0 i s l → Fits strict xt ns t →
    ∃ r nx, findLoop strict xt t i ns s = .ok (r, nx) ∧
      (Named xt ns t → ∃ k n, r = some (i + k) ∧ ns[k]? = some n ∧ Usable xt n ∧ n.label = t ∧ nx (i + k) = nx0 (i + k)) ∧
      (¬ Named xt ns t → r = (l ++ hits xt t i ns).head? ∧ Linked nx (l ++ hits xt t i ns) ∧ (l ++ hits xt t i ns).Nodup ∧ ∀ j, j ∉ l ++ hits xt t i ns → nx j = nx0 j)
  | [], i, s, l, h, _ => by
    refine ⟨s.first, s.nx, rfl, ?_, ?_⟩
    · rintro ⟨n, hn, -⟩
      cases hn
    · intro _
      simp only [hits, List.append_nil]
      exact ⟨h.first, h.linked, h.nodup, h.rest⟩
  | n :: ns, i, s, l, h, hfit => by
    have hfit' : Fits strict xt ns t := fun q m hm => hfit q m (List.mem_cons_of_mem _ hm)
    -- The rest of the loop, if this option is not the one.
    have skip : ∀ s' l', Inv nx0 (i + 1) s' l' → ¬ (Usable xt n ∧ n.label = t) → l' ++ hits xt t (i + 1) ns = l ++ hits xt t i (n :: ns) →
        findLoop strict xt t i (n :: ns) s = findLoop strict xt t (i + 1) ns s' →
        ∃ r nx, findLoop strict xt t i (n :: ns) s = .ok (r, nx) ∧
          (Named xt (n :: ns) t → ∃ k m, r = some (i + k) ∧ (n :: ns)[k]? = some m ∧ Usable xt m ∧ m.label = t ∧ nx (i + k) = nx0 (i + k)) ∧
          (¬ Named xt (n :: ns) t → r = (l ++ hits xt t i (n :: ns)).head? ∧ Linked nx (l ++ hits xt t i (n :: ns)) ∧ (l ++ hits xt t i (n :: ns)).Nodup ∧
            ∀ j, j ∉ l ++ hits xt t i (n :: ns) → nx j = nx0 j) := by
      intro s' l' hs' hne hl' hgo
      obtain ⟨r, nx, g1, g2, g3⟩ := loop_ok ht ns (i + 1) s' l' hs' hfit'
      refine ⟨r, nx, by rw [hgo, g1], ?_, ?_⟩
      · rintro ⟨m, hm, hu, he⟩
        rcases List.mem_cons.1 hm with rfl | hm
        · exact absurd ⟨hu, he⟩ hne
        · obtain ⟨k, m', k1, k2, k3, k4, k5⟩ := g2 ⟨m, hm, hu, he⟩
          refine ⟨k + 1, m', by rw [k1]; congr 1; omega, by simpa using k2, k3, k4, ?_⟩
          rw [show i + (k + 1) = i + 1 + k by omega]
          exact k5
      · intro hnn
        rw [← hl']
        exact g3 (fun ⟨m, hm, q⟩ => hnn ⟨m, List.mem_cons_of_mem _ hm, q⟩)
    -- This option is the one.
    have hit : ∀ nx, nx = s.nx → Usable xt n → n.label = t → findLoop strict xt t i (n :: ns) s = .ok (some i, nx) →
        ∃ r nx, findLoop strict xt t i (n :: ns) s = .ok (r, nx) ∧
          (Named xt (n :: ns) t → ∃ k m, r = some (i + k) ∧ (n :: ns)[k]? = some m ∧ Usable xt m ∧ m.label = t ∧ nx (i + k) = nx0 (i + k)) ∧
          (¬ Named xt (n :: ns) t → r = (l ++ hits xt t i (n :: ns)).head? ∧ Linked nx (l ++ hits xt t i (n :: ns)) ∧ (l ++ hits xt t i (n :: ns)).Nodup ∧
            ∀ j, j ∉ l ++ hits xt t i (n :: ns) → nx j = nx0 j) := by
      intro nx hnx hu he hgo
      refine ⟨_, _, hgo, fun _ => ⟨0, n, rfl, rfl, hu, he, ?_⟩, fun q => absurd ⟨n, List.mem_cons_self, hu, he⟩ q⟩
      rw [hnx]
      exact h.rest i (fun q => Nat.lt_irrefl _ (h.below i q))
    by_cases hu : xt &&& n.xt = 0
    · refine skip s l (inv_next h) (fun q => q.1 hu) ?_ (by rw [findLoop, if_pos hu])
      rw [hits, if_neg (fun q => q.1.1 hu)]
    · by_cases hh : n.hidden = true
      · by_cases he : n.label = t
        · exact hit s.nx rfl hu he (by rw [findLoop, if_neg hu, if_pos hh, if_pos he])
        · refine skip s l (inv_next h) (fun q => he q.2) ?_ (by rw [findLoop, if_neg hu, if_pos hh, if_neg he])
          rw [hits, if_neg (fun q => by rw [q.1.2] at hh; cases hh)]
      · have hh' : n.hidden = false := by simpa using hh
        have hc := memcmp_eq (strict := strict) (l := n.label) ht (fun q => hfit q n List.mem_cons_self ⟨hu, hh'⟩)
        have hgo : findLoop strict xt t i (n :: ns) s = if decide (t <+: n.label) = true then
            (if n.label = t then .ok (some i, s.nx) else findLoop strict xt t (i + 1) ns (link s i)) else findLoop strict xt t (i + 1) ns s := by
          rw [findLoop, if_neg hu, if_neg hh, hc]
          rfl
        by_cases hp : t <+: n.label
        · rw [if_pos (by simpa using hp)] at hgo
          by_cases he : n.label = t
          · exact hit s.nx rfl hu he (by rw [hgo, if_pos he])
          · refine skip (link s i) (l ++ [i]) (link_inv h) (fun q => he q.2) ?_ (by rw [hgo, if_neg he])
            rw [hits, if_pos ⟨⟨hu, hh'⟩, hp⟩, List.append_assoc]
            rfl
        · rw [if_neg (by simpa using hp)] at hgo
          refine skip s l (inv_next h) (fun q => hp (q.2 ▸ List.prefix_refl _)) ?_ hgo
          rw [hits, if_neg (fun q => hp q.2)]

/-- **C89.** `find_matches`: the option of that name, if there is one; otherwise, the candidates, chained, in order. -/
theorem find_ok {strict : Bool} {xt : Xt} {t : Tok} (level : List Node) (nx0 : Nx) (ht : '\x00' ∉ t) (hf : Fits strict xt level t) : ∃ r nx, findMatches strict xt level nx0 t = .ok (r, nx) ∧
    (Named xt level t → ∃ i n, r = some i ∧ level[i]? = some n ∧ Usable xt n ∧ n.label = t ∧ nx i = nx0 i) ∧
    (¬ Named xt level t → ∃ l, chain nx level.length r = .ok l ∧ r = l.head? ∧ pickAll level l = candidates xt level t ∧ l.length = (candidates xt level t).length ∧
      (∀ i, r = some i → (nx i = none ↔ l.length = 1)) ∧ ∀ j, j ∉ l → nx j = nx0 j) := by
  obtain ⟨r, nx, h1, h2, h3⟩ := loop_ok (strict := strict) (xt := xt) (nx0 := nx0) ht level 0 ⟨none, none, nx0⟩ []
    ⟨rfl, rfl, trivial, (by intro j hj; cases hj), List.nodup_nil, fun _ _ => rfl⟩ hf
  refine ⟨r, nx, h1, ?_, ?_⟩
  · intro hn
    obtain ⟨k, n, k1, k2, k3, k4, k5⟩ := h2 hn
    rw [Nat.zero_add] at k1 k5
    exact ⟨k, n, k1, k2, k3, k4, k5⟩
  · intro hn
    obtain ⟨g1, g2, g3, g4⟩ := h3 hn
    rw [List.nil_append] at g1 g2 g3 g4
    have hp := hits_pick (xt := xt) (t := t) level level 0 rfl
    have hlen : (hits xt t 0 level).length = (candidates xt level t).length := by
      rw [← hp]
      unfold pickAll
      have : ∀ l : List Nat, (∀ j ∈ l, j < level.length) → (l.filterMap fun i => level[i]?).length = l.length := by
        intro l
        induction l with
        | nil => intro _; rfl
        | cons a l ih =>
          intro q
          rw [List.filterMap_cons_some (List.getElem?_eq_getElem (q a (by simp))), List.length_cons, List.length_cons, ih (fun j hj => q j (by simp [hj]))]
      rw [this]
      intro j hj
      have := (hits_ge hj).2
      omega
    refine ⟨hits xt t 0 level, ?_, g1, hp, hlen, ?_, g4⟩
    · rw [g1]
      exact chain_linked (hits_length level 0) g2
    · intro i hi
      rw [g1] at hi
      cases e : hits xt t 0 level with
      | nil => rw [e] at hi; cases hi
      | cons a l =>
        rw [e] at hi g2
        cases hi
        cases l with
        | nil =>
          have : nx i = none := g2
          simp [this]
        | cons b l =>
          have : nx i = some b := g2.1
          simp [this]

theorem isHidden_eq (xt : Xt) (level : List Node) : mentioned xt level = names xt level := by
  unfold mentioned names
  congr 1
  apply List.filter_congr
  intro n _
  unfold isHidden Visible Usable
  by_cases h : n.hidden = true
  · simp [h]
  · simp [h]

theorem candidates_visible {xt : Xt} {level : List Node} {t : Tok} : mentioned xt (candidates xt level t) = (candidates xt level t).map Node.label := by
  rw [isHidden_eq]
  unfold names candidates
  congr 1
  rw [List.filter_filter]
  apply List.filter_congr
  intro n _
  simp only [Bool.decide_and, ← Bool.and_assoc, Bool.and_self]

/-- A word has at most one meaning, unless names are not unique. -/
theorem means_unique {xt : Xt} {level : List Node} {t : Tok} {n m : Node} (hd : (level.map Node.label).Nodup) (h1 : Means xt level t n) (h2 : Means xt level t m) : n = m := by
  have key : ∀ (l : List Node), (l.map Node.label).Nodup → ∀ a ∈ l, ∀ b ∈ l, a.label = b.label → a = b := by
    intro l
    induction l with
    | nil => intro _ a ha; cases ha
    | cons c l ih =>
      intro q a ha b hb e
      rw [List.map_cons, List.nodup_cons] at q
      rcases List.mem_cons.1 ha with h1 | h1 <;> rcases List.mem_cons.1 hb with h2 | h2
      · rw [h1, h2]
      · exact absurd (List.mem_map.2 ⟨b, h2, by rw [← e, h1]⟩) q.1
      · exact absurd (List.mem_map.2 ⟨a, h1, by rw [e, h2]⟩) q.1
      · exact ih q.2 a h1 b h2 e
  rcases h1 with ⟨a1, a2, a3⟩ | ⟨a1, a2⟩ <;> rcases h2 with ⟨b1, b2, b3⟩ | ⟨b1, b2⟩
  · exact key level hd n a1 m b1 (a3.trans b3.symm)
  · exact absurd ⟨n, a1, a2, a3⟩ b1
  · exact absurd ⟨m, b1, b2, b3⟩ a1
  · rw [a2] at b2
    injection b2

/-- What the step of both loops finds. -/
theorem find_means {strict : Bool} {xt : Xt} {t : Tok} (level : List Node) {nx0 : Nx} (h0 : nx0 = fresh) (ht : '\x00' ∉ t) (hf : Fits strict xt level t) :
    ∃ r nx, findMatches strict xt level nx0 t = .ok (r, nx) ∧
      ((r = none ∧ ¬ Named xt level t ∧ candidates xt level t = []) ∨
       (∃ i l, r = some i ∧ (nx i).isSome = true ∧ ¬ Named xt level t ∧ 2 ≤ (candidates xt level t).length ∧ chain nx level.length r = .ok l ∧ pickAll level l = candidates xt level t) ∨
       ∃ i n, r = some i ∧ nx i = none ∧ level[i]? = some n ∧ Means xt level t n) := by
  subst h0
  obtain ⟨r, nx, h1, h2, h3⟩ := find_ok level fresh ht hf
  refine ⟨r, nx, h1, ?_⟩
  by_cases hn : Named xt level t
  · obtain ⟨i, n, k1, k2, k3, k4, k5⟩ := h2 hn
    exact Or.inr (Or.inr ⟨i, n, k1, k5, k2, Or.inl ⟨List.mem_of_getElem? k2, k3, k4⟩⟩)
  · obtain ⟨l, k1, k2, k3, k4, k5, k6⟩ := h3 hn
    cases l with
    | nil =>
      refine Or.inl ⟨k2, hn, ?_⟩
      rw [List.length_nil] at k4
      exact List.length_eq_zero_iff.1 k4.symm
    | cons a l =>
      have hr : r = some a := k2
      have := k5 a hr
      cases l with
      | nil =>
        have hx : nx a = none := this.2 rfl
        right; right
        cases e : level[a]? with
        | none =>
          simp only [pickAll, List.filterMap_cons, e, List.filterMap_nil] at k3
          rw [← k3] at k4
          simp at k4
        | some n =>
          simp only [pickAll, List.filterMap_cons, e, List.filterMap_nil] at k3
          exact ⟨a, n, hr, hx, e, Or.inr ⟨hn, k3.symm⟩⟩
      | cons b l =>
        right; left
        refine ⟨a, a :: b :: l, hr, ?_, hn, ?_, k1, k3⟩
        · cases e : nx a with
          | none => have := this.1 e; simp at this
          | some _ => rfl
        · rw [← k4]
          simp

/-- All of the command line can be looked up without reading beyond names. -/
def AllFit (strict : Bool) (xt : Xt) (tree : List Node) (ts : List Tok) : Prop := ∀ l, Level tree l → ∀ t ∈ ts, Fits strict xt l t

theorem handleGo_does {strict : Bool} {xt : Xt} {tree : List Node} {strtol : Tok → Option Int} : ∀ (ts : List Tok) (level : List Node) (top : Option Nx), Level tree level → Strings ts →
    AllFit strict xt tree ts → ∃ a, Does xt level ts a ∧ ((∀ args, a ≠ .run .autocomplete args) → handleGo strict xt tree strtol top level ts = .ok a)
  | [], level, top, _, _, _ => ⟨_, .more level, fun _ => by rw [handleGo, isHidden_eq]⟩
  | t :: ts, level, top, hl, hs, hf => by
    obtain ⟨r, nx, h1, h2⟩ := find_means (strict := strict) (xt := xt) (t := t) level rfl (hs t (by simp)) (hf level hl t (by simp))
    have hs' : Strings ts := fun q hq => hs q (by simp [hq])
    have hf' : AllFit strict xt tree ts := fun l hl q hq => hf l hl q (by simp [hq])
    have hgo : handleGo strict xt tree strtol top level (t :: ts) = (match (generalizing := false) r with
        | none => .ok (.unexpected t (mentioned xt level))
        | some i => if (nx i).isSome then (chain nx level.length (some i)).map fun l => .ambiguous t (mentioned xt (pickAll level l))
          else match level[i]? with
            | none => .ub .outOfBounds
            | some (.cmd _ _ _ h _) => if h = .autocomplete then complete strict xt tree (top.getD nx) strtol (t :: ts) else .ok (.run h (t :: ts))
            | some (.dir _ _ _ children) => handleGo strict xt tree strtol (some (top.getD nx)) children ts) := by
      rw [handleGo, h1]
      rfl
    rcases h2 with ⟨rfl, hn, hc⟩ | ⟨i, l, rfl, hx, hn, hc, hch, hp⟩ | ⟨i, n, rfl, hx, hi, hm⟩
    · refine ⟨_, .unexpected level t ts hn hc, fun _ => ?_⟩
      rw [hgo]
      simp only [isHidden_eq]
    · refine ⟨_, .ambiguous level t ts hn hc, fun _ => ?_⟩
      rw [hgo]
      simp only [hx, if_true]
      rw [hch]
      show Outcome.ok (Act.ambiguous t (mentioned xt (pickAll level l))) = _
      rw [hp, candidates_visible]
    · simp only [hx, Option.isSome_none, Bool.false_eq_true, if_false, hi] at hgo
      cases n with
      | cmd lab x h f a =>
        refine ⟨_, .run level t ts lab x h f a hm, fun q => ?_⟩
        rw [hgo]
        simp only
        rw [if_neg (fun e => q _ (by rw [e]))]
      | dir lab x h c =>
        obtain ⟨a, g1, g2⟩ := handleGo_does (strtol := strtol) ts c (some (top.getD nx)) (.down level lab x h c hl (List.mem_of_getElem? hi)) hs' hf'
        refine ⟨a, .down level t ts lab x h c a hm g1, fun q => ?_⟩
        rw [hgo]
        exact g2 q

/-- A command line does one thing. -/
theorem does_unique {xt : Xt} {tree : List Node} (hd : Distinct tree) {level : List Node} {ts : List Tok} {a b : Act} (hl : Level tree level) (h1 : Does xt level ts a) (h2 : Does xt level ts b) :
    a = b := by
  induction h1 with
  | more l => cases h2; rfl
  | unexpected l t ts hn hc =>
    cases h2 with
    | unexpected => rfl
    | ambiguous _ _ _ _ hc' => rw [hc] at hc'; simp at hc'
    | run _ _ _ _ _ _ _ _ hm =>
      rcases hm with ⟨q1, q2, q3⟩ | ⟨q1, q2⟩
      · exact absurd ⟨_, q1, q2, q3⟩ hn
      · rw [hc] at q2; cases q2
    | down _ _ _ _ _ _ _ _ hm _ =>
      rcases hm with ⟨q1, q2, q3⟩ | ⟨q1, q2⟩
      · exact absurd ⟨_, q1, q2, q3⟩ hn
      · rw [hc] at q2; cases q2
  | ambiguous l t ts hn hc =>
    cases h2 with
    | unexpected _ _ _ _ hc' => rw [hc'] at hc; simp at hc
    | ambiguous => rfl
    | run _ _ _ _ _ _ _ _ hm =>
      rcases hm with ⟨q1, q2, q3⟩ | ⟨q1, q2⟩
      · exact absurd ⟨_, q1, q2, q3⟩ hn
      · rw [q2] at hc; simp at hc
    | down _ _ _ _ _ _ _ _ hm _ =>
      rcases hm with ⟨q1, q2, q3⟩ | ⟨q1, q2⟩
      · exact absurd ⟨_, q1, q2, q3⟩ hn
      · rw [q2] at hc; simp at hc
  | run l t ts lab x h f a hm =>
    cases h2 with
    | unexpected _ _ _ hn hc =>
      rcases hm with ⟨q1, q2, q3⟩ | ⟨q1, q2⟩
      · exact absurd ⟨_, q1, q2, q3⟩ hn
      · rw [hc] at q2; cases q2
    | ambiguous _ _ _ hn hc =>
      rcases hm with ⟨q1, q2, q3⟩ | ⟨q1, q2⟩
      · exact absurd ⟨_, q1, q2, q3⟩ hn
      · rw [q2] at hc; simp at hc
    | run _ _ _ _ _ _ _ _ hm' =>
      cases means_unique (hd l hl) hm hm'
      rfl
    | down _ _ _ _ _ _ _ _ hm' _ => cases means_unique (hd l hl) hm hm'
  | down l t ts lab x h c a hm _ ih =>
    cases h2 with
    | unexpected _ _ _ hn hc =>
      rcases hm with ⟨q1, q2, q3⟩ | ⟨q1, q2⟩
      · exact absurd ⟨_, q1, q2, q3⟩ hn
      · rw [hc] at q2; cases q2
    | ambiguous _ _ _ hn hc =>
      rcases hm with ⟨q1, q2, q3⟩ | ⟨q1, q2⟩
      · exact absurd ⟨_, q1, q2, q3⟩ hn
      · rw [q2] at hc; simp at hc
    | run _ _ _ _ _ _ _ _ hm' => cases means_unique (hd l hl) hm hm'
    | down _ _ _ _ _ _ _ _ hm' hd' =>
      cases means_unique (hd l hl) hm hm'
      refine ih (.down l lab x h c hl ?_) hd'
      rcases hm with ⟨q1, -, -⟩ | ⟨-, q2⟩
      · exact q1
      · have : Node.dir lab x h c ∈ candidates xt l t := by rw [q2]; simp
        exact (List.mem_filter.1 this).1

/-- **C89.** What a command line does is what its words mean: for every tree, program and command line (other than completions). -/
theorem handle_iff {strict : Bool} {xt : Xt} {tree : List Node} {strtol : Tok → Option Int} {ts : List Tok} (hd : Distinct tree) (hs : Strings ts) (hf : AllFit strict xt tree ts) {a : Act}
    (hc : ∀ args, ¬ Does xt tree ts (.run .autocomplete args)) : handle strict xt tree strtol ts = .ok a ↔ Does xt tree ts a := by
  obtain ⟨b, h1, h2⟩ := handleGo_does (strict := strict) (xt := xt) (strtol := strtol) ts tree none .top hs hf
  have h2 := h2 (fun args q => hc args (q ▸ h1))
  unfold handle
  rw [h2]
  constructor
  · intro q
    injection q with q
    exact q ▸ h1
  · intro q
    rw [does_unique hd .top h1 q]

/-! ## Completion -/

/-- What the completion prints, unless it jumps to NULL. -/
theorem completeGo_offers {strict : Bool} {xt : Xt} {tree : List Node} : ∀ (ts : List Tok) (level : List Node) (nx : Nx) (last : Tok), nx = fresh → Level tree level → Strings (last :: ts) →
    AllFit strict xt tree (last :: ts) → ∃ a, Offers xt level ts last a ∧
      (completeGo strict xt level nx ts last = .ok a ∨ completeGo strict xt level nx ts last = .ub .nullDeref ∧ Trap xt level ts)
  | [], level, nx, last, h0, hl, hs, hf => by
    subst h0
    obtain ⟨r, nx, h1, h2, h3⟩ := find_ok (strict := strict) (xt := xt) (t := last) level fresh (hs last (by simp)) (hf level hl last (by simp))
    by_cases hn : Named xt level last
    · obtain ⟨i, n, rfl, k2, k3, k4, k5⟩ := h2 hn
      refine ⟨_, .name level last hn, Or.inl ?_⟩
      rw [completeGo, h1]
      have hlen : 0 < level.length := List.length_pos_of_mem (List.mem_of_getElem? k2)
      obtain ⟨m, hm⟩ : ∃ m, level.length = m + 1 := ⟨level.length - 1, by omega⟩
      have k5 : nx i = none := k5
      have : chain nx level.length (some i) = .ok [i] := by
        rw [hm, chain, k5]
        cases m <;> rfl
      show (chain nx level.length (some i)).map _ = _
      rw [this]
      simp only [Outcome.map, pickAll, List.filterMap_cons, k2, List.filterMap_nil, List.map_cons, List.map_nil, k4]
    · obtain ⟨l, k1, -, k3, -⟩ := h3 hn
      refine ⟨_, .list level last hn, Or.inl ?_⟩
      rw [completeGo, h1]
      show (chain nx level.length r).map _ = _
      rw [k1]
      simp only [Outcome.map, k3]
  | t :: ts, level, nx, last, h0, hl, hs, hf => by
    obtain ⟨r, nx', h1, h2⟩ := find_means (strict := strict) (xt := xt) (t := t) level h0 (hs t (by simp)) (hf level hl t (by simp))
    have hs' : Strings (last :: ts) := fun q hq => hs q (by simp only [List.mem_cons] at hq ⊢; rcases hq with hq | hq <;> simp [hq])
    have hf' : AllFit strict xt tree (last :: ts) := fun l hl q hq => hf l hl q (by simp only [List.mem_cons] at hq ⊢; rcases hq with hq | hq <;> simp [hq])
    have hgo : completeGo strict xt level nx (t :: ts) last = (match (generalizing := false) r with
        | none => .ok .nothing
        | some i => if (nx' i).isSome then .ok .nothing
          else match level[i]? with
            | none => .ub .outOfBounds
            | some (.cmd _ _ _ h auto) => if auto then .ok (.suggest h) else .ub .nullDeref
            | some (.dir _ _ _ children) => completeGo strict xt children fresh ts last) := by
      rw [completeGo, h1]
      rfl
    rcases h2 with ⟨rfl, hn, hc⟩ | ⟨i, l, rfl, hx, hn, hc, hch, hp⟩ | ⟨i, n, rfl, hx, hi, hm⟩
    · refine ⟨_, .lost level t ts last ?_, Or.inl hgo⟩
      rintro m (⟨q1, q2, q3⟩ | ⟨q1, q2⟩)
      · exact hn ⟨m, q1, q2, q3⟩
      · rw [hc] at q2; cases q2
    · refine ⟨_, .lost level t ts last ?_, Or.inl ?_⟩
      · rintro m (⟨q1, q2, q3⟩ | ⟨q1, q2⟩)
        · exact hn ⟨m, q1, q2, q3⟩
        · rw [q2] at hc; simp at hc
      · rw [hgo]
        simp only [hx, if_true]
    · simp only [hx, Option.isSome_none, Bool.false_eq_true, if_false, hi] at hgo
      cases n with
      | cmd lab x h f a =>
        refine ⟨_, .cmd level t ts last lab x h f a hm, ?_⟩
        rw [hgo]
        cases a with
        | true => exact Or.inl rfl
        | false => exact Or.inr ⟨rfl, .here level t ts lab x h f hm⟩
      | dir lab x h c =>
        obtain ⟨a, g1, g2⟩ := completeGo_offers ts c fresh last rfl (.down level lab x h c hl (List.mem_of_getElem? hi)) hs' hf'
        refine ⟨a, .down level t ts last lab x h c a hm g1, ?_⟩
        rw [hgo]
        rcases g2 with g2 | ⟨g2, q⟩
        · exact Or.inl g2
        · exact Or.inr ⟨g2, .down level t ts lab x h c hm q⟩

/-- **C89.** What the shell is offered can be used: with each of the words, the command line is complete or only lacks what follows. -/
theorem offered_works {xt : Xt} {level : List Node} {mid : List Tok} {last : Tok} {a : Act} (h : Offers xt level mid last a) {l : List Tok} (ha : a = .print l) {w : Tok} (hw : w ∈ l) :
    last <+: w ∧ ∃ b, Does xt level (mid ++ [w]) b ∧ ((∃ o, b = .more o) ∨ ∃ f, b = .run f [w]) := by
  have key : ∀ (level : List Node) n, n ∈ level → Usable xt n → n.label = w → ∃ b, Does xt level [w] b ∧ ((∃ o, b = .more o) ∨ ∃ f, b = .run f [w]) := by
    intro level n hn hu he
    cases n with
    | cmd lab x h f a => exact ⟨_, .run level w [] lab x h f a (Or.inl ⟨hn, hu, he⟩), Or.inr ⟨f, rfl⟩⟩
    | dir lab x h c => exact ⟨_, .down level w [] lab x h c _ (Or.inl ⟨hn, hu, he⟩) (.more c), Or.inl ⟨_, rfl⟩⟩
  induction h with
  | name level last hn =>
    cases ha
    rw [List.mem_singleton.1 hw] at key ⊢
    obtain ⟨n, q1, q2, q3⟩ := hn
    exact ⟨List.prefix_refl _, key level n q1 q2 q3⟩
  | list level last hn =>
    cases ha
    obtain ⟨n, q1, q2⟩ := List.mem_map.1 hw
    obtain ⟨q3, q4⟩ := List.mem_filter.1 q1
    have q4 := of_decide_eq_true q4
    exact ⟨q2 ▸ q4.2, key level n q3 q4.1.1 q2⟩
  | lost => cases ha
  | cmd => cases ha
  | down level t ts last lab x h c a hm _ ih =>
    obtain ⟨g1, b, g2, g3⟩ := ih ha
    exact ⟨g1, b, .down level t (ts ++ [w]) lab x h c b hm g2, g3⟩

/-- **C89.** And everything that can be used is offered: each visible option whose name begins with `last`, unless that is a name itself. -/
theorem offered_all {xt : Xt} {level : List Node} {last : Tok} {a : Act} (h : Offers xt level [] last a) :
    ∃ l, a = .print l ∧ ∀ n ∈ level, Visible xt n → last <+: n.label → n.label ∈ l ∨ Named xt level last ∧ l = [last] := by
  cases h with
  | name _ _ hn => exact ⟨_, rfl, fun n _ _ _ => Or.inr ⟨hn, rfl⟩⟩
  | list _ _ hn =>
    refine ⟨_, rfl, fun n hn' hv hp => Or.inl (List.mem_map.2 ⟨n, List.mem_filter.2 ⟨hn', ?_⟩, rfl⟩)⟩
    exact decide_eq_true ⟨hv, hp⟩

/-! ## Full names and abbreviations -/

/-- **C89.** The full name of a command runs it, whatever else the tree contains, with what follows. -/
theorem full_runs {xt : Xt} {level : List Node} {p : List Tok} {f : Handler} (h : Full xt level p f) (rest : List Tok) :
    ∃ q w, p = q ++ [w] ∧ Does xt level (p ++ rest) (.run f (w :: rest)) := by
  induction h with
  | cmd level l x h f a hm hu => exact ⟨[], l, rfl, .run level l rest l x h f a (Or.inl ⟨hm, hu, rfl⟩)⟩
  | dir level l x h c p f hm hu _ ih =>
    obtain ⟨q, w, rfl, g⟩ := ih
    exact ⟨l :: q, w, rfl, .down level l (q ++ [w] ++ rest) l x h c _ (Or.inl ⟨hm, hu, rfl⟩) g⟩

theorem means_spec {xt : Xt} {level : List Node} {t : Tok} {n : Node} (h : Means xt level t n) : n ∈ level ∧ Usable xt n ∧ t <+: n.label ∧ (n.hidden = true → n.label = t) := by
  rcases h with ⟨h1, h2, h3⟩ | ⟨_, h2⟩
  · exact ⟨h1, h2, h3 ▸ List.prefix_refl _, fun _ => h3⟩
  · have : n ∈ candidates xt level t := by rw [h2]; simp
    obtain ⟨q1, q2⟩ := List.mem_filter.1 this
    have q2 := of_decide_eq_true q2
    exact ⟨q1, q2.1.1, q2.2, fun q => by rw [q2.1.2] at q; cases q⟩

/-- **C89.** Only commands of this program run; and only if the words begin its full name, one by one. It gets its own word and what follows. -/
theorem runs_full {xt : Xt} {level : List Node} {ts : List Tok} {a : Act} (h : Does xt level ts a) {f : Handler} {args : List Tok} (ha : a = .run f args) :
    ∃ p, Full xt level p f ∧ p ≠ [] ∧ Begins (ts.take p.length) p ∧ args = ts.drop (p.length - 1) := by
  induction h with
  | more => cases ha
  | unexpected => cases ha
  | ambiguous => cases ha
  | run level t ts l x h f a hm =>
    cases ha
    obtain ⟨q1, q2, q3, -⟩ := means_spec hm
    exact ⟨[l], .cmd level l x h f a q1 q2, by simp, .cons q3 .nil, rfl⟩
  | down level t ts l x h c a hm _ ih =>
    obtain ⟨p, g1, g2, g3, g4⟩ := ih ha
    obtain ⟨q1, q2, q3, -⟩ := means_spec hm
    refine ⟨l :: p, .dir level l x h c p f q1 q2 g1, by simp, .cons q3 g3, ?_⟩
    rw [g4]
    cases p with
    | nil => exact absurd rfl g2
    | cons b p => rfl

theorem full_level {xt : Xt} {tree level : List Node} {p : List Tok} {f : Handler} (h : Full xt level p f) (hl : Level tree level) :
    ∃ l lab x h a, Level tree l ∧ Node.cmd lab x h f a ∈ l ∧ xt &&& x ≠ 0 := by
  induction h with
  | cmd level l x h f a hm hu => exact ⟨level, l, x, h, a, hl, hm, hu⟩
  | dir level l x h c p f hm hu _ ih => exact ih (.down level l x h c hl hm)

/-! ## The tree of the programs -/

/-- All but the first array. -/
def below : List (List Node) :=
  [instanceOps, statsOps, addressOps, globalUpdate, globalOps, eamtOps, blacklist4Ops, denylist4Ops, pool4Ops, bibOps, sessionOps, fileOps, jooldOps]

theorem level_tree {l : List Node} (h : Level tree l) : l = tree ∨ l ∈ below := by
  have key : ∀ l, l ∈ below → ∀ lab x h c, Node.dir lab x h c ∈ l → c ∈ below := by
    intro l hl lab x h c hm
    simp only [below, List.mem_cons, List.not_mem_nil, or_false] at hl
    rcases hl with rfl | rfl | rfl | rfl | rfl | rfl | rfl | rfl | rfl | rfl | rfl | rfl | rfl <;>
      simp [instanceOps, statsOps, addressOps, globalUpdate, globalOps, eamtOps, blacklist4Ops, denylist4Ops, pool4Ops, bibOps, sessionOps, fileOps, jooldOps] at hm
    obtain ⟨-, -, -, rfl⟩ := hm
    simp [below, globalUpdate]
  induction h with
  | top => exact Or.inl rfl
  | down l lab x h c _ hm ih =>
    right
    rcases ih with rfl | ih
    · simp only [tree, List.mem_cons, Node.dir.injEq, List.not_mem_nil, or_false, reduceCtorEq] at hm
      rcases hm with hm | hm | hm | hm | hm | hm | hm | hm | hm | hm | hm | hm <;> (obtain ⟨-, -, -, rfl⟩ := hm; simp [below])
    · exact key l ih lab x h c hm

/-- **C89.** Names are unique in the tree of the programs. -/
theorem tree_distinct : Distinct tree := by
  intro l hl
  rcases level_tree hl with rfl | hl
  · decide +kernel
  · have : ∀ l ∈ below, (l.map Node.label).Nodup := by decide +kernel
    exact this l hl

/-- Whether the option is a command that completes nothing. -/
def mute : Node → Bool
  | .cmd _ _ _ _ a => !a
  | .dir .. => false

/-- Its handler. -/
def runs : Node → Option Handler
  | .cmd _ _ _ h _ => some h
  | .dir .. => none

/-- **C89.** The completion jumps to NULL if and only if the command line begins with `autocomplete`. -/
theorem trap_tree {xt : Xt} (hx : xt ≠ 0) {ts : List Tok} : Trap xt tree ts ↔ ∃ r, ts = "autocomplete".toList :: r := by
  have none : ∀ l ∈ below, ∀ n ∈ l, mute n = false := by decide +kernel
  have one : ∀ n ∈ tree, mute n = true → n.hidden = true ∧ n.label = "autocomplete".toList := by decide +kernel
  have down : ∀ {level ts}, Trap xt level ts → level ∈ below → Level tree level → False := by
    intro level ts h
    induction h with
    | here level t ts l x h f hm => exact fun q _ => by cases none level q _ (means_spec hm).1
    | down level t ts l x h c hm _ ih =>
      intro q hl
      have hc := Level.down level l x h c hl (means_spec hm).1
      rcases level_tree hc with e | e
      · -- The tree is no array of its own.
        have : ∀ l ∈ below, ∀ n ∈ l, (match n with | .dir _ _ _ c => decide (c.length = 32) | _ => true) = true := by decide +kernel
        have := this level q _ (means_spec hm).1
        rw [e] at this
        cases this
      · exact ih e hc
  constructor
  · intro h
    cases h with
    | here _ t ts l x h f hm =>
      obtain ⟨q1, q2, q3, q4⟩ := means_spec hm
      obtain ⟨e1, e2⟩ := one _ q1 rfl
      exact ⟨ts, by rw [← q4 e1, e2]⟩
    | down _ t ts l x h c hm hd =>
      have hc := Level.down tree l x h c .top (means_spec hm).1
      rcases level_tree hc with e | e
      · have : ∀ n ∈ tree, (match n with | .dir _ _ _ c => decide (c.length ≠ 13) | _ => true) = true := by decide +kernel
        have := this _ (means_spec hm).1
        rw [e] at this
        cases this
      · exact (down hd e hc).elim
  · rintro ⟨r, rfl⟩
    refine .here tree _ r "autocomplete".toList any true .autocomplete (Or.inl ⟨by simp [tree], ?_, rfl⟩)
    exact (by decide : ∀ xt : Xt, xt ≠ 0 → xt &&& 3#2 ≠ 0) xt hx

theorem autocomplete_found {xt : Xt} (hx : xt ≠ 0) : findMatches false xt tree fresh "autocomplete".toList = .ok (some 12, fresh) := by
  have : xt = 1#2 ∨ xt = 2#2 ∨ xt = 3#2 := by
    revert hx
    revert xt
    decide
  rcases this with rfl | rfl | rfl <;> rfl

theorem autocomplete_runs {xt : Xt} (hx : xt ≠ 0) (strtol : Tok → Option Int) (ts : List Tok) :
    handle false xt tree strtol ("autocomplete".toList :: ts) = complete false xt tree fresh strtol ("autocomplete".toList :: ts) := by
  unfold handle
  rw [handleGo, autocomplete_found hx]
  rfl

theorem all_fit {xt : Xt} {tree : List Node} {ts : List Tok} : AllFit false xt tree ts := fun _ _ _ _ q => nomatch q

/-- **C89.** The completion of the programs: `autocomplete K mid... last`, the cursor being on `last`. -/
theorem completion {xt : Xt} (hx : xt ≠ 0) {strtol : Tok → Option Int} {k : Tok} {mid : List Tok} {last : Tok} (hk : strtol k = some ((mid.length : Int) + 1)) (hs : Strings (last :: mid)) :
    (∃ a, Offers xt tree mid last a ∧ handle false xt tree strtol ("autocomplete".toList :: k :: (mid ++ [last])) = .ok a) ∨
      (handle false xt tree strtol ("autocomplete".toList :: k :: (mid ++ [last])) = .ub .nullDeref ∧ ∃ r, mid = "autocomplete".toList :: r) := by
  rw [autocomplete_runs hx]
  have : complete false xt tree fresh strtol ("autocomplete".toList :: k :: (mid ++ [last])) = completeGo false xt tree fresh mid last := by
    rw [complete, hk]
    simp only [List.length_append, List.length_singleton]
    rw [if_pos (by omega), List.dropLast_concat, List.getLastD_concat]
  rw [this]
  obtain ⟨a, h1, h2⟩ := completeGo_offers (strict := false) (tree := tree) mid tree fresh last rfl .top hs all_fit
  rcases h2 with h2 | ⟨h2, h3⟩
  · exact Or.inl ⟨a, h1, h2⟩
  · exact Or.inr ⟨h2, (trap_tree hx).1 h3⟩

/-- **C89.** The same if the cursor is behind the last word. -/
theorem completion_new {xt : Xt} (hx : xt ≠ 0) {strtol : Tok → Option Int} {k : Tok} {mid : List Tok} (hk : strtol k = some ((mid.length : Int) + 1)) (hs : Strings mid) :
    (∃ a, Offers xt tree mid [] a ∧ handle false xt tree strtol ("autocomplete".toList :: k :: mid) = .ok a) ∨
      (handle false xt tree strtol ("autocomplete".toList :: k :: mid) = .ub .nullDeref ∧ ∃ r, mid = "autocomplete".toList :: r) := by
  rw [autocomplete_runs hx]
  have : complete false xt tree fresh strtol ("autocomplete".toList :: k :: mid) = completeGo false xt tree fresh mid [] := by
    rw [complete, hk]
    simp only
    rw [if_neg (by omega), if_pos (by omega)]
  rw [this]
  obtain ⟨a, h1, h2⟩ := completeGo_offers (strict := false) (tree := tree) mid tree fresh [] rfl .top (fun q hq => by
    rcases List.mem_cons.1 hq with rfl | hq
    · simp
    · exact hs q hq) all_fit
  rcases h2 with h2 | ⟨h2, h3⟩
  · exact Or.inl ⟨a, h1, h2⟩
  · exact Or.inr ⟨h2, (trap_tree hx).1 h3⟩

/-- **C89**, what goes wrong: completing what follows `autocomplete` jumps to NULL, in both programs. -/
theorem completion_crashes {xt : Xt} (hx : xt ≠ 0) {strtol : Tok → Option Int} {k : Tok} {mid : List Tok} {last : Tok} (hk : strtol k = some ((mid.length : Int) + 2)) :
    handle false xt tree strtol ("autocomplete".toList :: k :: "autocomplete".toList :: (mid ++ [last])) = .ub .nullDeref := by
  rw [autocomplete_runs hx, complete, hk]
  simp only [List.length_cons, List.length_append, List.length_nil]
  rw [if_pos (by omega), ← List.cons_append, List.dropLast_concat, completeGo, autocomplete_found hx]
  rfl

/-- **C89**, what goes wrong: if `memcmp` may read the bytes it was told to, whatever they are, each first word of ten or more bytes reads beyond the string "instance". -/
theorem long_words_overread {xt : Xt} (hx : xt ≠ 0) {strtol : Tok → Option Int} {t : Tok} {ts : List Tok} (ht : 10 ≤ t.length) : handle true xt tree strtol (t :: ts) = .ub .outOfBounds := by
  have h1 : ¬ (xt &&& Node.xt (.dir "instance".toList any false instanceOps) = 0) := by
    show ¬ xt &&& 3#2 = 0
    revert hx
    revert xt
    decide
  have h2 : memcmp true (Node.label (.dir "instance".toList any false instanceOps) ++ ['\x00']) t = .ub .outOfBounds := by
    unfold memcmp
    rw [if_pos ⟨rfl, ht⟩]
  unfold handle
  rw [handleGo, findMatches]
  unfold tree
  rw [findLoop, if_neg h1, if_neg (by intro q; cases q), h2]
  rfl

/-- **C89.** The commands of the programs: what a command line does, other than `autocomplete`. -/
theorem programs {xt : Xt} {strtol : Tok → Option Int} {t : Tok} {ts : List Tok} (hs : Strings (t :: ts)) (ht : t ≠ "autocomplete".toList) {a : Act} :
    handle false xt tree strtol (t :: ts) = .ok a ↔ Does xt tree (t :: ts) a := by
  refine handle_iff tree_distinct hs all_fit ?_
  intro args h
  have one : ∀ n ∈ tree, runs n = some .autocomplete → n.hidden = true ∧ n.label = "autocomplete".toList := by decide +kernel
  have none : ∀ l ∈ below, ∀ n ∈ l, runs n ≠ some .autocomplete := by decide +kernel
  have sub : ∀ n ∈ tree, (match n with | .dir _ _ _ c => decide (c.length ≠ 13) | _ => true) = true := by decide +kernel
  have low : ∀ {level p}, Full xt level p .autocomplete → Level tree level → level ∈ below → False := by
    intro level p h
    generalize e : Handler.autocomplete = f at h
    induction h with
    | cmd level l x h f a hm hu =>
      intro _ q
      exact none level q _ hm (by rw [e]; rfl)
    | dir level l x h c p f hm hu _ ih =>
      intro hl q
      have hc := Level.down level l x h c hl hm
      rcases level_tree hc with e' | e'
      · have : ∀ l ∈ below, ∀ n ∈ l, (match n with | .dir _ _ _ c => decide (c.length = 32) | _ => true) = true := by decide +kernel
        have := this level q _ hm
        rw [e'] at this
        cases this
      · exact ih e hc e'
  cases h with
  | run _ _ _ l x h _ a hm =>
    obtain ⟨q1, q2, q3, q4⟩ := means_spec hm
    obtain ⟨e1, e2⟩ := one _ q1 rfl
    exact ht (by rw [← q4 e1, e2])
  | down _ _ _ l x h c _ hm hd =>
    obtain ⟨p, g1, -⟩ := runs_full hd rfl
    have hc := Level.down tree l x h c .top (means_spec hm).1
    rcases level_tree hc with e | e
    · have := sub _ (means_spec hm).1
      rw [e] at this
      cases this
    · exact low g1 hc e

/-- The commands that only exist in NAT64. -/
def nat64Only : List Handler :=
  [.op "handle_pool4_display", .op "handle_pool4_add", .op "handle_pool4_remove", .op "handle_pool4_flush", .op "handle_bib_display", .op "handle_bib_add", .op "handle_bib_remove",
   .op "handle_session_display", .op "handle_session_follow", .op "handle_session_proxy", .op "handle_session_advertise"]

/-- The commands that only exist in SIIT. -/
def siitOnly : List Handler :=
  [.op "handle_address_query", .op "handle_eamt_display", .op "handle_eamt_add", .op "handle_eamt_remove", .op "handle_eamt_flush", .op "handle_blacklist4_display", .op "handle_blacklist4_add",
   .op "handle_blacklist4_remove", .op "handle_blacklist4_flush", .op "handle_denylist4_display", .op "handle_denylist4_add", .op "handle_denylist4_remove", .op "handle_denylist4_flush"]

/-- **C89.** `jool_siit` runs no command of NAT64, and `jool` none of SIIT. -/
theorem no_foreign {strtol : Tok → Option Int} {t : Tok} {ts : List Tok} (hs : Strings (t :: ts)) (ht : t ≠ "autocomplete".toList) {f : Handler} {args : List Tok} :
    (handle false siit tree strtol (t :: ts) = .ok (.run f args) → f ∉ nat64Only) ∧ (handle false nat64 tree strtol (t :: ts) = .ok (.run f args) → f ∉ siitOnly) := by
  have key : ∀ (xt : Xt) (bad : List Handler), (∀ l ∈ tree :: below, ∀ n ∈ l, xt &&& n.xt ≠ 0 → ∀ h, runs n = some h → h ∉ bad) →
      handle false xt tree strtol (t :: ts) = .ok (.run f args) → f ∉ bad := by
    intro xt bad hb h
    obtain ⟨p, g1, -⟩ := runs_full ((programs hs ht).1 h) rfl
    obtain ⟨l, lab, x, hid, a, q1, q2, q3⟩ := full_level g1 .top
    refine hb l ?_ _ q2 q3 f rfl
    rcases level_tree q1 with rfl | q
    · simp
    · exact List.mem_cons_of_mem _ q
  have bool : ∀ (xt : Xt) (bad : List Handler), ((tree :: below).all fun l => l.all fun n => decide (xt &&& n.xt = 0) || (match runs n with | some h => decide (h ∉ bad) | none => true)) = true →
      ∀ l ∈ tree :: below, ∀ n ∈ l, xt &&& n.xt ≠ 0 → ∀ h, runs n = some h → h ∉ bad := by
    intro xt bad hb l hl n hn hu h hr
    have := List.all_eq_true.1 (List.all_eq_true.1 hb l hl) n hn
    rw [hr] at this
    rw [Bool.or_eq_true] at this
    rcases this with q | q
    · exact absurd (of_decide_eq_true q) hu
    · exact of_decide_eq_true q
  exact ⟨key siit nat64Only (bool _ _ (by decide +kernel)), key nat64 siitOnly (bool _ _ (by decide +kernel))⟩

/-! ## Examples -/

/-- `strtol`, of what the examples contain. -/
def digit : Tok → Option Int
  | [c] => some ((c.toNat : Int) - 48)
  | _ => some 0

/-- `jool i a`: the only visible option beginning with `i`, and with `a` there. -/
example : handle false nat64 tree digit ["i".toList, "a".toList, "--netfilter".toList] = .ok (.run (.op "handle_instance_add") ["a".toList, "--netfilter".toList]) := rfl
/-- `jool s`: stats and session. -/
example : handle false nat64 tree digit ["s".toList] = .ok (.ambiguous "s".toList ["stats".toList, "session".toList]) := rfl
/-- `jool_siit s`: stats; what follows is missing. -/
example : handle false siit tree digit ["s".toList] = .ok (.more ["display".toList]) := rfl
/-- `jool global update tos 1`: also the beginning of nothing else. -/
example : handle false nat64 tree digit ["g".toList, "u".toList, "tos".toList, "1".toList] = .ok (.run (.key "tos") ["tos".toList, "1".toList]) := rfl
/-- `jool_siit pool4`: not there. -/
example : handle false siit tree digit ["pool4".toList] =
    .ok (.unexpected "pool4".toList ["instance".toList, "stats".toList, "address".toList, "global".toList, "eamt".toList, "blacklist4".toList, "denylist4".toList, "file".toList]) := rfl
/-- The old name of `session advertise` cannot be abbreviated, but works. -/
example : handle false nat64 tree digit ["joold".toList, "advertise".toList] = .ok (.run (.op "handle_session_advertise") ["advertise".toList]) := rfl
example : handle false nat64 tree digit ["joo".toList, "advertise".toList] =
    .ok (.unexpected "joo".toList ["instance".toList, "stats".toList, "global".toList, "pool4".toList, "bib".toList, "session".toList, "file".toList]) := rfl
/-- `jool global update l<TAB>`. -/
example : handle false nat64 tree digit ["autocomplete".toList, "3".toList, "global".toList, "update".toList, "l".toList] =
    .ok (.print ["lowest-ipv6-mtu".toList, "logging-debug".toList, "logging-bib".toList, "logging-session".toList]) := rfl
/-- `jool autocomplete <TAB>`. -/
example : handle false nat64 tree digit ["autocomplete".toList, "2".toList, "autocomplete".toList] = .ub .nullDeref := rfl
example : handle false nat64 tree digit ["autocomplete".toList, "2".toList, "autocomplete".toList, "x".toList] = .ub .nullDeref := rfl
example : Strings ["g".toList, "u".toList] := by unfold Strings; decide +kernel
example : (10 : Nat) ≤ "blacklist4".toList.length := by decide

end Jool.Cmd
