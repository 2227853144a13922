import Verif.Model.Xlator
/-
Reference counts: `Counts h L` says that the count of every database is the number of its occurrences
in the list of references `L`.
-/
namespace Jool.Xlator

structure Counts (h : Heap) (L : List Nat) : Prop where
  eq : ∀ d, h.count d = L.count d
  lt : ∀ d ∈ L, d < h.next

theorem Counts.perm {h : Heap} {L M : List Nat} (c : Counts h L) (p : L.Perm M) : Counts h M :=
  ⟨fun d => by rw [c.eq, p.count_eq], fun d hd => c.lt d (p.mem_iff.2 hd)⟩

theorem getAll_counts {l : List Nat} : ∀ {h : Heap} {L : List Nat}, Counts h L → (∀ d ∈ l, d ∈ L) →
    ∃ h', getAll l h = .ok h' ∧ Counts h' (l ++ L) ∧ h'.next = h.next := by
  induction l with
  | nil => intro h L c _; exact ⟨h, rfl, c, rfl⟩
  | cons o l ih =>
    intro h L c hs
    have ho : h.count o ≠ 0 := by
      rw [c.eq]; exact Nat.ne_of_gt (List.count_pos_iff.2 (hs o (List.mem_cons_self ..)))
    have c' : Counts { h with count := fun i => if i = o then h.count i + 1 else h.count i } (o :: L) := by
      refine ⟨fun d => ?_, fun d hd => ?_⟩
      · show (if d = o then h.count d + 1 else h.count d) = _
        rw [List.count_cons, c.eq]
        by_cases hd : d = o
        · subst hd; simp
        · have : ¬ (o == d) = true := by simpa using fun e => hd e.symm
          simp [hd, this]
      · rcases List.mem_cons.1 hd with rfl | hd
        · exact c.lt _ (hs _ (List.mem_cons_self ..))
        · exact c.lt _ hd
    obtain ⟨h', e, c2, hn⟩ := ih c' (fun d hd => List.mem_cons_of_mem _ (hs d (List.mem_cons_of_mem _ hd)))
    refine ⟨h', ?_, c2.perm ?_, hn⟩
    · simp only [getAll, getObj, if_neg ho, Outcome.bind]; exact e
    · exact List.perm_middle

theorem putAll_counts {l : List Nat} : ∀ {h : Heap} {L : List Nat}, Counts h (l ++ L) →
    ∃ h', putAll l h = .ok h' ∧ Counts h' L ∧ h'.next = h.next := by
  induction l with
  | nil => intro h L c; exact ⟨h, rfl, c, rfl⟩
  | cons o l ih =>
    intro h L c
    have ho : h.count o ≠ 0 := by
      rw [c.eq]; exact Nat.ne_of_gt (List.count_pos_iff.2 (List.mem_cons_self ..))
    have c' : Counts { h with count := fun i => if i = o then h.count i - 1 else h.count i } (l ++ L) := by
      refine ⟨fun d => ?_, fun d hd => c.lt d (List.mem_cons_of_mem _ hd)⟩
      show (if d = o then h.count d - 1 else h.count d) = _
      rw [c.eq, List.cons_append, List.count_cons]
      by_cases hd : d = o
      · subst hd; simp
      · have : ¬ (o == d) = true := by simpa using fun e => hd e.symm
        simp [hd, this]
    obtain ⟨h', e, c2, hn⟩ := ih c'
    exact ⟨h', by simp only [putAll, putObj, if_neg ho, Outcome.bind]; exact e, c2, hn⟩

theorem fresh_counts {h : Heap} {L : List Nat} (c : Counts h L) : Counts (fresh h).2 ((fresh h).1 :: L) := by
  refine ⟨fun d => ?_, fun d hd => ?_⟩
  · show (if d = h.next then 1 else h.count d) = _
    show _ = List.count d (h.next :: L)
    rw [List.count_cons, c.eq]
    by_cases hd : d = h.next
    · subst hd
      have : L.count h.next = 0 := List.count_eq_zero.2 fun hm => Nat.lt_irrefl _ (c.lt _ hm)
      simp [this]
    · have : ¬ (h.next == d) = true := by simpa using fun e => hd e.symm
      simp [hd, this]
  · show d < h.next + 1
    rcases List.mem_cons.1 hd with rfl | hd
    · exact Nat.lt_succ_self _
    · exact Nat.lt_succ_of_lt (c.lt _ hd)

theorem initSiit_counts {e : Env} {h : Heap} {L : List Nat} (c : Counts h L) :
    (∃ h', initSiit e h = .ok (h', none) ∧ Counts h' L) ∨
    (∃ h' s a b, initSiit e h = .ok (h', some (s, a, b, 0)) ∧ Counts h' (s :: a :: b :: L) ∧
      h.next ≤ s ∧ s < a ∧ a < b ∧ h.next ≤ h'.next) := by
  have c1 := fresh_counts c
  have c2 := fresh_counts c1
  have c3 := fresh_counts c2
  unfold initSiit
  dsimp only
  split
  · exact .inl ⟨h, rfl, c⟩
  split
  · obtain ⟨h', e', c', _⟩ := putAll_counts (l := [(fresh h).1]) c1
    exact .inl ⟨h', by rw [e']; rfl, c'⟩
  split
  · obtain ⟨h', e', c', _⟩ := putAll_counts (l := [(fresh (fresh h).2).1, (fresh h).1]) c2
    exact .inl ⟨h', by rw [e']; rfl, c'⟩
  · refine .inr ⟨_, _, _, _, rfl, c3.perm ?_, ?_⟩
    · exact (List.Perm.swap ..).trans ((List.Perm.cons _ (List.Perm.swap ..)).trans (List.Perm.swap ..))
    · simp only [fresh]; omega

theorem initNat64_counts {e : Env} {h : Heap} {L : List Nat} (c : Counts h L) :
    (∃ h', initNat64 e h = .ok (h', none) ∧ Counts h' L) ∨
    (∃ h' s a b k, initNat64 e h = .ok (h', some (s, a, b, k)) ∧ Counts h' (s :: a :: b :: k :: L) ∧
      h.next ≤ s ∧ s < a ∧ a < b ∧ b < k ∧ h.next ≤ h'.next) := by
  have c1 := fresh_counts c
  have c2 := fresh_counts c1
  have c3 := fresh_counts c2
  have c4 := fresh_counts c3
  unfold initNat64
  dsimp only
  split
  · exact .inl ⟨h, rfl, c⟩
  split
  · obtain ⟨h', e', c', _⟩ := putAll_counts (l := [(fresh h).1]) c1
    exact .inl ⟨h', by rw [e']; rfl, c'⟩
  split
  · obtain ⟨h', e', c', _⟩ := putAll_counts (l := [(fresh (fresh h).2).1, (fresh h).1]) c2
    exact .inl ⟨h', by rw [e']; rfl, c'⟩
  split
  · obtain ⟨h', e', c', _⟩ := putAll_counts
      (l := [(fresh (fresh (fresh h).2).2).1, (fresh (fresh h).2).1, (fresh h).1]) c3
    exact .inl ⟨h', by rw [e']; rfl, c'⟩
  · refine .inr ⟨_, _, _, _, _, rfl, c4.perm ?_, ?_⟩
    · have := List.reverse_perm [(fresh h).1, (fresh (fresh h).2).1, (fresh (fresh (fresh h).2).2).1,
        (fresh (fresh (fresh (fresh h).2).2).2).1]
      exact this.append_right L
    · simp only [fresh]; omega

theorem nat64_of_type {f : Flags} (h : xtValid (xtOf f) = true) : isNat64 f = !(xtOf f == 1) := by
  revert h; revert f; decide

/-- `xlator_init` either fails and leaves the counts alone, or yields an instance whose databases are new. -/
theorem xlInit_counts {e : Env} {ns : Ns} {name : Name} {flags : Flags} {g : Glob} {h : Heap} {L : List Nat}
    (c : Counts h L) :
    (∃ h' code, xlInit e ns name flags g h = .ok (h', code, none) ∧ code ≠ .ok ∧ Counts h' L) ∨
    (∃ h' x, xlInit e ns name flags g h = .ok (h', .ok, some x) ∧ Counts h' (x.objs ++ L) ∧
      x.ns = ns ∧ x.name = name ∧ x.flags = flags ∧ x.globals = g ∧
      xtValid (xtOf flags) = true ∧ xfValid (xfOf flags) = true ∧ (∀ d ∈ x.objs, h.next ≤ d) ∧ x.objs.Nodup) := by
  unfold xlInit
  split
  · exact .inl ⟨h, _, rfl, by simp, c⟩
  split
  · exact .inl ⟨h, _, rfl, by simp, c⟩
  split
  · exact .inl ⟨h, _, rfl, by simp, c⟩
  rename_i hf ht hg
  simp only [Bool.not_eq_true, Bool.not_eq_false'] at hf ht
  have hn := nat64_of_type ht
  split
  · rename_i h1
    rw [h1] at hn
    rcases initSiit_counts (e := e) c with ⟨h', e', c'⟩ | ⟨h', s, a, b, e', c', hs, ha, hb, _⟩
    · exact .inl ⟨h', .ENOMEM, by rw [e']; rfl, by simp, c'⟩
    · refine .inr ⟨h', ⟨ns, name, flags, g, s, a, b, 0⟩, by rw [e']; rfl, ?_, rfl, rfl, rfl, rfl, ht, hf, ?_, ?_⟩
      · simp only [Xl.objs, hn]; exact c'
      · simp only [Xl.objs, hn]; intro d hd; simp at hd; omega
      · simp only [Xl.objs, hn]; simp; omega
  · rename_i h1
    simp only [Bool.not_eq_true] at h1
    rw [h1] at hn
    rcases initNat64_counts (e := e) c with ⟨h', e', c'⟩ | ⟨h', s, a, b, k, e', c', hs, ha, hb, hk, _⟩
    · exact .inl ⟨h', .ENOMEM, by rw [e']; rfl, by simp, c'⟩
    · refine .inr ⟨h', ⟨ns, name, flags, g, s, a, b, k⟩, by rw [e']; rfl, ?_, rfl, rfl, rfl, rfl, ht, hf, ?_, ?_⟩
      · simp only [Xl.objs, hn]; exact c'
      · simp only [Xl.objs, hn]; intro d hd; simp at hd; omega
      · simp only [Xl.objs, hn]; simp; omega

end Jool.Xlator
