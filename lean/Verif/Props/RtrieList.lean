import Verif.Props.Rtrie
/-
C61: listing the radix trie. All entries, each once; and resuming after any of them yields exactly the ones that follow.
-/
namespace Jool.Rtrie
variable {V : Type}

/-- What the node contributes to a listing. -/
def entryOf (h : Heap V) (a : Nat) : Option (Key × V) :=
  (h a).bind (fun n => if n.white then n.val.map (fun v => (n.key, v)) else none)

theorem go_none {h : Heap V} (l : List Nat) (hl : ∀ a ∈ l, ∃ n, h a = some n) :
    foreach.go h l none = .ok (some ((l.filterMap (entryOf h)).map (·.2))) := by
  induction l with
  | nil => rfl
  | cons a l ih =>
    obtain ⟨n, hn⟩ := hl a (by simp)
    rw [foreach.go, deref_eq hn]
    simp only [Outcome.bind, ih (fun b hb => hl b (by simp [hb])), Outcome.map, Option.map]
    rw [List.filterMap_cons]
    simp only [entryOf, hn, Option.bind_some]
    cases hw : n.white with
    | false => simp
    | true =>
      cases hv : n.val with
      | none => simp
      | some v => simp

theorem go_some {h : Heap V} (k : Key) (l1 l2 : List Nat) (a : Nat) (n : Node V) (ha : h a = some n) (hk : n.key = k)
    (hl : ∀ b ∈ l1, ∃ m, h b = some m ∧ m.key ≠ k) :
    foreach.go h (l1 ++ a :: l2) (some k) = foreach.go h l2 none := by
  induction l1 with
  | nil =>
    rw [List.nil_append, foreach.go, deref_eq ha]
    simp only [Outcome.bind, (equals_iff k n.key).2 hk.symm, if_true]
  | cons b l1 ih =>
    obtain ⟨m, hm, hne⟩ := hl b (by simp)
    rw [List.cons_append, foreach.go, deref_eq hm]
    simp only [Outcome.bind]
    rw [if_neg (fun h => hne ((equals_iff _ _).1 h).symm)]
    exact ih (fun c hc => hl c (by simp [hc]))

theorem go_any {h : Heap V} (k : Key) (l : List Nat) (hl : ∀ a ∈ l, ∃ n, h a = some n) :
    foreach.go h l (some k) = .ok none ∨
    ∃ l1 l2, l = l1 ++ l2 ∧ foreach.go h l (some k) = .ok (some ((l2.filterMap (entryOf h)).map (·.2))) := by
  induction l with
  | nil => exact .inl rfl
  | cons a l ih =>
    obtain ⟨n, hn⟩ := hl a (by simp)
    rw [foreach.go, deref_eq hn]
    simp only [Outcome.bind]
    split
    · exact .inr ⟨[a], l, rfl, go_none l (fun b hb => hl b (by simp [hb]))⟩
    · rcases ih (fun b hb => hl b (by simp [hb])) with h' | ⟨l1, l2, e, h'⟩
      · exact .inl h'
      · exact .inr ⟨a :: l1, l2, by rw [e]; rfl, h'⟩

/-- C61: the listing of a healthy trie has every entry exactly once; the listing that resumes after an entry is the rest
of it. One that resumes after something else is refused or is a rest. -/
theorem listing_spec {t : Trie V} {S : Table V} (hr : Repr t S) :
    ∃ L : List (Key × V), (L.map (·.1)).Nodup ∧ (∀ k v, (k, v) ∈ L ↔ S k = some v) ∧
      foreach t none = .ok (some (L.map (·.2))) ∧
      (∀ pre k v post, L = pre ++ (k, v) :: post → foreach t (some k) = .ok (some (post.map (·.2)))) ∧
      ∀ k, foreach t (some k) = .ok none ∨
        ∃ pre post, L = pre ++ post ∧ foreach t (some k) = .ok (some (post.map (·.2))) := by
  have hi := hr.1
  have hlive : ∀ a ∈ t.list, ∃ n, t.heap a = some n := fun a ha => (hi.list a).1 ha
  have hent : ∀ a k v, entryOf t.heap a = some (k, v) →
      ∃ n, t.heap a = some n ∧ n.white = true ∧ n.key = k ∧ n.val = some v := by
    intro a k v h
    unfold entryOf at h
    cases ha : t.heap a with
    | none => rw [ha] at h; simp at h
    | some n =>
      rw [ha] at h
      simp only [Option.bind_some] at h
      split at h
      · rename_i hw
        cases hv : n.val with
        | none => rw [hv] at h; simp at h
        | some v' =>
          rw [hv] at h
          simp only [Option.map_some, Option.some.injEq, Prod.mk.injEq] at h
          exact ⟨n, rfl, hw, h.1, hv.trans (by rw [h.2])⟩
      · simp at h
  refine ⟨t.list.filterMap (entryOf t.heap), ?_, ?_, ?_, ?_, ?_⟩
  · have : ∀ l : List Nat, l.Nodup → ((l.filterMap (entryOf t.heap)).map (·.1)).Nodup := by
      intro l hl
      induction l with
      | nil => simp
      | cons a l ih =>
        rw [List.nodup_cons] at hl
        rw [List.filterMap_cons]
        cases he : entryOf t.heap a with
        | none => exact ih hl.2
        | some p =>
          obtain ⟨k, v⟩ := p
          simp only [List.map_cons, List.nodup_cons]
          refine ⟨?_, ih hl.2⟩
          intro hm
          obtain ⟨⟨k', v'⟩, h1, h2⟩ := List.mem_map.1 hm
          obtain ⟨b, hb, hb'⟩ := List.mem_filterMap.1 h1
          obtain ⟨n, n1, _, n3, _⟩ := hent a k v he
          obtain ⟨m, m1, _, m3, _⟩ := hent b k' v' hb'
          have : a = b := key_inj hi n1 m1 (by rw [n3, m3]; exact h2.symm)
          exact hl.1 (this ▸ hb)
    exact this t.list hi.nodup
  · intro k v
    rw [List.mem_filterMap, ← hr.2 k v]
    constructor
    · rintro ⟨a, ha, he⟩
      obtain ⟨n, h1, h2, h3, h4⟩ := hent a k v he
      exact ⟨a, by simp [fW, h1, h2], by simp [fK, h1, h3], by simp [fV, h1, h4]⟩
    · intro h
      obtain ⟨x, nx, h1, h2, h3, h4⟩ := stored_node hi h
      exact ⟨x, (hi.list x).2 ⟨nx, h1⟩, by simp [entryOf, h1, h2, h3, h4]⟩
  · unfold foreach
    split
    · rename_i he
      rw [List.isEmpty_iff] at he
      rw [he]; rfl
    · exact go_none t.list hlive
  · intro pre k v post hL
    obtain ⟨l1, l2, e1, e2, e3⟩ := List.filterMap_eq_append_iff.1 hL
    obtain ⟨l3, a, l4, f1, f2, f3, f4⟩ := List.filterMap_eq_cons_iff.1 e3
    subst f1
    have hlist : t.list = (l1 ++ l3) ++ a :: l4 := by rw [e1, List.append_assoc]
    obtain ⟨n, n1, _, n3, _⟩ := hent a k v f3
    unfold foreach
    rw [if_neg (by rw [hlist]; simp), hlist, go_some k (l1 ++ l3) l4 a n n1 n3 ?_, go_none l4 ?_, f4]
    · intro b hb
      exact hlive b (by rw [hlist]; simp [hb])
    · intro b hb
      obtain ⟨m, hm⟩ := hlive b (by rw [hlist]; exact List.mem_append_left _ hb)
      refine ⟨m, hm, ?_⟩
      intro e
      have hba : b = a := key_inj hi hm n1 (e.trans n3.symm)
      have hnd := hi.nodup
      rw [hlist, List.nodup_append] at hnd
      exact hnd.2.2 b hb a (by simp) hba
  · intro k
    unfold foreach
    split
    · rename_i he
      rw [List.isEmpty_iff] at he
      exact .inr ⟨[], [], by rw [he]; rfl, rfl⟩
    · rcases go_any k t.list hlive with h | ⟨l1, l2, e, h⟩
      · exact .inl h
      · exact .inr ⟨l1.filterMap (entryOf t.heap), l2.filterMap (entryOf t.heap), by
          rw [← List.filterMap_append, ← e], h⟩

/-! ## How much memory the table takes -/

/-- The children of a set of nodes, on one side, are as many as the nodes that have one. -/
theorem side_nodup {f : Nat → Option Nat} {par : Nat → Option Nat} (hf : ∀ a c, f a = some c → par c = some a)
    (l : List Nat) (hl : l.Nodup) : (l.filterMap f).Nodup := by
  induction l with
  | nil => simp
  | cons a l ih =>
    rw [List.nodup_cons] at hl
    rw [List.filterMap_cons]
    cases he : f a with
    | none => exact ih hl.2
    | some c =>
      dsimp only
      rw [List.nodup_cons]
      refine ⟨?_, ih hl.2⟩
      intro hm
      obtain ⟨b, hb, hb'⟩ := List.mem_filterMap.1 hm
      have h1 := hf a c he
      have h2 := hf b c hb'
      rw [h1] at h2; injection h2 with h2
      exact hl.1 (h2 ▸ hb)

theorem side_length {f : Nat → Option Nat} (l : List Nat) (h : ∀ a ∈ l, f a ≠ none) :
    (l.filterMap f).length = l.length := by
  induction l with
  | nil => rfl
  | cons a l ih =>
    obtain ⟨c, hc⟩ := Option.ne_none_iff_exists'.1 (h a (by simp))
    rw [List.filterMap_cons, hc]
    simp [ih (fun b hb => h b (by simp [hb]))]

theorem split_length {α} (p : α → Bool) (l : List α) :
    l.length = (l.filter p).length + (l.filter (fun a => !p a)).length := by
  induction l with
  | nil => rfl
  | cons a l ih =>
    cases h : p a <;> simp [h, ih] <;> omega

/-- C61: the nodes of a healthy trie are less than twice the entries: the memory it holds is proportional to its
contents. -/
theorem size_spec {t : Trie V} {S : Table V} (hr : Repr t S) (L : List (Key × V)) (hL : ∀ k v, (k, v) ∈ L ↔ S k = some v) :
    t.list.length ≤ 2 * L.length - 1 := by
  have hi := hr.1.f
  by_cases hempty : t.list = []
  · simp [hempty]
  obtain ⟨r, hroot⟩ : ∃ r, t.root = some r := by
    cases hl : t.list with
    | nil => exact absurd hl hempty
    | cons x l =>
      obtain ⟨n, hn⟩ := (hr.1.list x).1 (by simp [hl])
      obtain ⟨r, h, _⟩ := anc_root hr.1 hn
      exact ⟨r, h⟩
  have hrl : r ∈ t.list := (hi.list r).2 (hi.root r hroot).1
  -- whites: at most as many as entries
  have hW : (t.list.filter (fW t.heap)).length ≤ L.length := by
    have hmap : (t.list.filter (fW t.heap)).length = ((t.list.filter (fW t.heap)).map (fK t.heap)).length := by simp
    have hnd : ((t.list.filter (fW t.heap)).map (fK t.heap)).Nodup := by
      have : ∀ l : List Nat, l.Nodup → (∀ a ∈ l, fLive t.heap a = true) → (l.map (fK t.heap)).Nodup := by
        intro l hl hlv
        induction l with
        | nil => simp
        | cons a l ih =>
          rw [List.nodup_cons] at hl
          rw [List.map_cons, List.nodup_cons]
          refine ⟨?_, ih hl.2 (fun b hb => hlv b (by simp [hb]))⟩
          intro hm
          obtain ⟨b, hb, he⟩ := List.mem_map.1 hm
          obtain ⟨n, hn⟩ := live_iff.1 (hlv a (by simp))
          obtain ⟨m, hm'⟩ := live_iff.1 (hlv b (by simp [hb]))
          have : a = b := key_inj hr.1 hn hm' (by simpa [fK, hn, hm'] using he.symm)
          exact hl.1 (this ▸ hb)
      exact this _ (hi.nodup.filter _) (fun a ha => (hi.list a).1 (List.mem_filter.1 ha).1)
    rw [hmap, ← List.length_map (f := Prod.fst) (as := L)]
    apply hnd.length_le_of_subset
    intro k hk
    obtain ⟨a, ha, rfl⟩ := List.mem_map.1 hk
    obtain ⟨h1, h2⟩ := List.mem_filter.1 ha
    obtain ⟨n, hn⟩ := (hr.1.list a).1 h1
    have hnw : n.white = true := by simpa [fW, hn] using h2
    obtain ⟨hs, _⟩ := node_stored hr hn hnw
    obtain ⟨v, hv⟩ := Option.ne_none_iff_exists'.1 hs
    exact List.mem_map.2 ⟨(n.key, v), (hL _ _).2 hv, by simp [fK, hn]⟩
  -- blacks: two children each, none of them the root
  have hB : (t.list.filter (fun a => !fW t.heap a)).length + (t.list.filter (fun a => !fW t.heap a)).length + 1 ≤
      t.list.length := by
    generalize hbl : t.list.filter (fun a => !fW t.heap a) = bl
    have hbnd : bl.Nodup := hbl ▸ hi.nodup.filter _
    have hbm : ∀ a ∈ bl, fL t.heap a ≠ none ∧ fR t.heap a ≠ none := by
      intro a ha
      rw [← hbl] at ha
      obtain ⟨h1, h2⟩ := List.mem_filter.1 ha
      exact hi.black a ((hi.list a).1 h1) (by simpa using h2)
    have hnd : (r :: (bl.filterMap (fL t.heap) ++ bl.filterMap (fR t.heap))).Nodup := by
      rw [List.nodup_cons, List.nodup_append]
      refine ⟨?_, side_nodup (par := fP t.heap) (fun a c h => (hi.left a c h).2.1) bl hbnd,
        side_nodup (par := fP t.heap) (fun a c h => (hi.right a c h).2.1) bl hbnd, ?_⟩
      · intro hm
        have hp := (hi.root r hroot).2
        rcases List.mem_append.1 hm with hm | hm
        · obtain ⟨b, _, hb⟩ := List.mem_filterMap.1 hm
          rw [(hi.left b r hb).2.1] at hp; simp at hp
        · obtain ⟨b, _, hb⟩ := List.mem_filterMap.1 hm
          rw [(hi.right b r hb).2.1] at hp; simp at hp
      · intro x hx y hy hxy
        subst hxy
        obtain ⟨b, _, hb⟩ := List.mem_filterMap.1 hx
        obtain ⟨c, _, hc⟩ := List.mem_filterMap.1 hy
        have h1 := (hi.left b x hb).2.1
        have h2 := (hi.right c x hc).2.1
        rw [h1] at h2; injection h2 with h2; subst h2
        exact (hi.sib b x x hb hc).1 (Le.refl _)
    have := hnd.length_le_of_subset (l₂ := t.list) (by
      intro x hx
      rcases List.mem_cons.1 hx with rfl | hx
      · exact hrl
      · rw [hi.list]
        rcases List.mem_append.1 hx with hx | hx
        · obtain ⟨b, _, hb⟩ := List.mem_filterMap.1 hx
          exact (hi.left b x hb).1
        · obtain ⟨b, _, hb⟩ := List.mem_filterMap.1 hx
          exact (hi.right b x hb).1)
    rw [List.length_cons, List.length_append, side_length bl (fun a ha => (hbm a ha).1),
      side_length bl (fun a ha => (hbm a ha).2)] at this
    exact this
  have := split_length (fW t.heap) t.list
  omega

end Jool.Rtrie
