import Verif.Lemmas.XlatorGood
/-
Preservation of the instance table's invariant by removal, replacement, destruction and readers.
-/
namespace Jool.Xlator

theorem perm_count {l m : List Nat} (h : ∀ d, l.count d = m.count d) : l.Perm m := List.perm_iff_count.2 h

theorem mem_split_sub {α} {t1 t2 : List α} {n m : α} (h : m ∈ t1 ++ t2) : m ∈ t1 ++ n :: t2 := by
  rcases List.mem_append.1 h with h | h
  · exact List.mem_append_left _ h
  · exact List.mem_append_right _ (List.mem_cons_of_mem _ h)

theorem mem_split_case {α} {t1 t2 : List α} {n m : α} (h : m ∈ t1 ++ n :: t2) : m ∈ t1 ++ t2 ∨ m = n := by
  rcases List.mem_append.1 h with h | h
  · exact .inl (List.mem_append_left _ h)
  · rcases List.mem_cons.1 h with h | h
    · exact .inr h
    · exact .inl (List.mem_append_right _ h)

/-- The list of Netfilter instances when an instance leaves the table. -/
theorem nf_erase {t1 t2 : List Node} {n : Node} {nf : List Nat}
    (p : nf.Perm (((t1 ++ n :: t2).filter (fun n => isNetfilter n.xl.flags)).map (·.id))) :
    (if isNetfilter n.xl.flags then nf.erase n.id else nf).Perm
      (((t1 ++ t2).filter (fun n => isNetfilter n.xl.flags)).map (·.id)) := by
  by_cases hn : isNetfilter n.xl.flags = true
  · rw [if_pos hn]
    have h1 : (((t1 ++ n :: t2).filter (fun n => isNetfilter n.xl.flags)).map (·.id)).Perm
        (n.id :: ((t1 ++ t2).filter (fun n => isNetfilter n.xl.flags)).map (·.id)) := by
      rw [List.filter_append, List.filter_cons_of_pos (by exact hn), List.filter_append, List.map_append, List.map_append,
        List.map_cons]
      exact List.perm_middle
    have := (p.trans h1).erase n.id
    rwa [List.erase_cons_head] at this
  · rw [if_neg hn]
    rw [List.filter_append, List.filter_cons_of_neg (by exact hn), ← List.filter_append] at p
    exact p

theorem shape_unlink {H : Hash} {w : World} {n : Node} (s : Shape H w) (hn : n ∈ w.table) :
    Shape H (unlink w n) := by
  obtain ⟨t1, t2, ht, he⟩ := erase_split s hn
  have hsub : ∀ m ∈ t1 ++ t2, m ∈ w.table := by
    intro m hm; rw [ht]; exact mem_split_sub hm
  have hcase : ∀ m ∈ w.table, m ∈ t1 ++ t2 ∨ m = n := by
    intro m hm; rw [ht] at hm; exact mem_split_case hm
  unfold unlink
  rw [he]
  constructor
  · have p : (w.table.map (·.id) ++ w.limbo.map (·.node.id)).Perm
        ((t1 ++ t2).map (·.id) ++ n.id :: w.limbo.map (·.node.id)) := by
      rw [ht]
      apply perm_count; intro d
      simp only [List.map_append, List.map_cons, List.count_append, List.count_cons]; omega
    exact p.nodup_iff.1 s.ids
  · exact fun m hm => s.tableLt m (hsub m hm)
  · intro l hl
    rcases List.mem_cons.1 hl with rfl | hl
    · exact s.tableLt n hn
    · exact s.limboLt l hl
  · exact s.hooksLt
  · exact s.readersLt
  · intro l hl
    rcases List.mem_cons.1 hl with rfl | hl
    · intro r hr
      obtain ⟨q, hq, rfl⟩ := List.mem_map.1 hr
      exact s.readersLt q hq
    · exact s.waitLt l hl
  · exact fun m hm => s.hash m (hsub m hm)
  · exact fun m hm => s.valid m (hsub m hm)
  · have := s.uniq
    rw [ht] at this
    exact this.sublist (by simp)
  · exact nf_erase (by rw [← ht]; exact s.nf)
  · exact fun m hm => s.opsTable m (hsub m hm)
  · intro l hl
    rcases List.mem_cons.1 hl with rfl | hl
    · simp [s.opsTable n hn]
    · exact s.opsLimbo l hl
  · exact s.hooksNodup
  · refine s.hooks.trans ?_
    unfold claims
    rw [ht]
    cases ho : n.ops with
    | none => simp [ho, List.filterMap_append]
    | some o =>
      simp only [List.filterMap_append, List.filterMap_cons, ho, Option.map_some, List.append_assoc]
      refine List.Perm.append_left _ ?_
      rw [List.cons_append]
      exact List.perm_middle.symm
  · intro r hr
    rcases s.pinned r hr with ⟨m, hm, e⟩ | ⟨l, hl, e⟩
    · rcases hcase m hm with h | rfl
      · exact .inl ⟨m, h, e⟩
      · exact .inr ⟨_, List.mem_cons_self .., e, List.mem_map.2 ⟨r, hr, rfl⟩⟩
    · exact .inr ⟨l, List.mem_cons_of_mem _ hl, e⟩
  · intro l hl r hr ha d hd
    have key : Covered w r d → Covered (unlink w n) r d := by
      unfold unlink Covered; rw [he]; dsimp only
      rintro (⟨m, hm, e⟩ | ⟨l, hl, e⟩)
      · rcases hcase m hm with h | rfl
        · exact .inl ⟨m, h, e⟩
        · exact .inr ⟨_, List.mem_cons_self .., e, ha⟩
      · exact .inr ⟨l, List.mem_cons_of_mem _ hl, e⟩
    have := key (by
      rcases List.mem_cons.1 hl with rfl | hl
      · exact .inl ⟨n, hn, hd⟩
      · exact s.covered l hl r hr ha d hd)
    unfold unlink at this; rw [he] at this; exact this

theorem holders_unlink {H : Hash} {w : World} {n : Node} (s : Shape H w) (hn : n ∈ w.table) :
    (holders w).Perm (holders (unlink w n)) := by
  obtain ⟨t1, t2, ht, he⟩ := erase_split s hn
  unfold unlink holders
  rw [he, ht]
  apply perm_count; intro d
  simp only [List.flatMap_append, List.flatMap_cons, List.count_append]; omega

theorem good_unlink {H : Hash} {w : World} {n : Node} (g : Good H w) (hn : n ∈ w.table) : Good H (unlink w n) :=
  ⟨shape_unlink g.shape hn, g.counts.perm (holders_unlink g.shape hn)⟩

theorem good_unlinks {H : Hash} : ∀ {l : List Node} {w : World}, Good H w → (∀ n ∈ l, n ∈ w.table) →
    (l.map (·.id)).Nodup → Good H (l.foldl unlink w)
  | [], _, g, _, _ => g
  | n :: l, w, g, hs, hd => by
    rw [List.map_cons, List.nodup_cons] at hd
    rw [List.foldl_cons]
    refine good_unlinks (good_unlink g (hs n (List.mem_cons_self ..))) (fun m hm => ?_) hd.2
    have h1 : m ∈ w.table := hs m (List.mem_cons_of_mem _ hm)
    have h2 : m.id ≠ n.id := fun e => hd.1 (List.mem_map.2 ⟨m, hm, e⟩)
    exact (List.mem_eraseP_of_neg (by simpa using h2)).2 h1

theorem good_flushOne {H : Hash} {w : World} (ns : Ns) (xt : Flags) (g : Good H w) : Good H (flushOne ns xt w) := by
  refine good_unlinks g (fun n hn => (List.mem_filter.1 hn).1) ?_
  exact (nodup_ids g.shape).sublist (List.Sublist.map _ List.filter_sublist)

theorem good_flush {H : Hash} {xt : Flags} : ∀ (nss : List Ns) {w : World}, Good H w → Good H (flush nss xt w)
  | [], _, g => g
  | ns :: nss, _, g => good_flush nss (good_flushOne ns xt g)

/-- Replacing an instance. -/
theorem good_swap {H : Hash} {w : World} {old : Node} {x : Xl} (s : Shape H w) (ho : old ∈ w.table)
    (hv : XlValid x) (hk : SameKey old.xl x) (hf : framework old.xl.flags = framework x.flags)
    (c : Counts w.heap (x.objs ++ holders w)) :
    ∃ w', swap old x w = .ok w' ∧ Good H w' := by
  obtain ⟨t1, t2, ht, he⟩ := erase_split s ho
  have hnf : isNetfilter old.xl.flags = isNetfilter x.flags := by
    unfold framework at hf
    cases h1 : isNetfilter old.xl.flags <;> cases h2 : isNetfilter x.flags <;> simp_all
  have h64 : isNat64 old.xl.flags = isNat64 x.flags := by
    rw [nat64_of_type (s.valid old ho).xt, nat64_of_type hv.xt, hk.2.1]
  have hsub : ∀ m ∈ t1 ++ t2, m ∈ w.table := by
    intro m hm; rw [ht]; exact mem_split_sub hm
  have hcase : ∀ m ∈ w.table, m ∈ t1 ++ t2 ∨ m = old := by
    intro m hm; rw [ht] at hm; exact mem_split_case hm
  have hput : ∃ h', (if isNat64 x.flags then putAll [x.b, x.c] w.heap else .ok w.heap) = .ok h' ∧
      Counts h' ((if isNat64 x.flags then [x.stats, x.a] else x.objs) ++ holders w) := by
    cases hx : isNat64 x.flags with
    | false => exact ⟨w.heap, rfl, by simpa using c⟩
    | true =>
      have c2 : Counts w.heap ([x.b, x.c] ++ ([x.stats, x.a] ++ holders w)) := by
        refine c.perm (perm_count fun d => ?_)
        simp only [Xl.objs, hx, if_pos, List.count_append, List.count_cons, List.count_nil]; omega
      obtain ⟨h', e, c', _⟩ := putAll_counts c2
      exact ⟨h', e, by simpa using c'⟩
  obtain ⟨h', e1, c1⟩ := hput
  let x' : Xl := if isNat64 x.flags then { x with b := old.xl.b, c := old.xl.c } else x
  have hx' : x'.ns = x.ns ∧ x'.name = x.name ∧ x'.flags = x.flags ∧ x'.globals = x.globals := by
    have : x' = if isNat64 x.flags then { x with b := old.xl.b, c := old.xl.c } else x := rfl
    rw [this]
    cases isNat64 x.flags <;> exact ⟨rfl, rfl, rfl, rfl⟩
  let owned : List Nat := if isNat64 old.xl.flags then [old.xl.stats, old.xl.a] else old.xl.objs
  have hobj : ∀ d, (x'.objs ++ owned).count d =
      ((if isNat64 x.flags then [x.stats, x.a] else x.objs) ++ old.xl.objs).count d := by
    intro d
    show ((if isNat64 x.flags then _ else _ : Xl).objs ++ (if isNat64 old.xl.flags then _ else _)).count d = _
    rw [h64]
    cases h : isNat64 x.flags with
    | false => simp [Xl.objs, h64, h]
    | true =>
      simp only [Xl.objs, h64, h, if_pos, List.count_append, List.count_cons, List.count_nil]; omega
  have hmem : ∀ d ∈ old.xl.objs, d ∈ x'.objs ∨ d ∈ owned := by
    intro d hd
    have := List.count_pos_iff.2 (List.mem_append_right (if isNat64 x.flags then [x.stats, x.a] else x.objs) hd)
    rw [← hobj] at this
    exact List.mem_append.1 (List.count_pos_iff.1 this)
  let w' : World := { w with
      heap := h'
      next := w.next + 1
      table := ⟨w.next, old.hash, x', old.ops⟩ :: (t1 ++ t2)
      nf := if isNetfilter old.xl.flags then w.next :: (if isNetfilter old.xl.flags then w.nf.erase old.id else w.nf)
            else (if isNetfilter old.xl.flags then w.nf.erase old.id else w.nf)
      limbo := ⟨old, owned, none, false, w.active⟩ :: w.limbo }
  refine ⟨w', ?_, ?_, ?_⟩
  · unfold swap unlinked
    rw [e1, he]; rfl
  · constructor
    · have p : (w.table.map (·.id) ++ w.limbo.map (·.node.id)).Perm
          ((t1 ++ t2).map (·.id) ++ old.id :: w.limbo.map (·.node.id)) := by
        rw [ht]
        apply perm_count; intro d
        simp only [List.map_append, List.map_cons, List.count_append, List.count_cons]; omega
      have hnd := p.nodup_iff.1 s.ids
      show (w.next :: ((t1 ++ t2).map (·.id) ++ old.id :: w.limbo.map (·.node.id))).Nodup
      refine List.nodup_cons.2 ⟨fun h => ?_, hnd⟩
      rw [← p.mem_iff] at h
      rcases List.mem_append.1 h with h | h <;> obtain ⟨y, hy, he⟩ := List.mem_map.1 h
      · have := s.tableLt y hy; omega
      · have := s.limboLt y hy; omega
    · intro m hm
      rcases List.mem_cons.1 hm with rfl | hm
      · exact Nat.lt_succ_self _
      · exact Nat.lt_succ_of_lt (s.tableLt m (hsub m hm))
    · intro l hl
      rcases List.mem_cons.1 hl with rfl | hl
      · exact Nat.lt_succ_of_lt (s.tableLt old ho)
      · exact Nat.lt_succ_of_lt (s.limboLt l hl)
    · exact fun k hk => Nat.lt_succ_of_lt (s.hooksLt k hk)
    · exact fun k hk => Nat.lt_succ_of_lt (s.readersLt k hk)
    · intro l hl r hr
      rcases List.mem_cons.1 hl with rfl | hl
      · obtain ⟨q, hq, rfl⟩ := List.mem_map.1 hr
        exact Nat.lt_succ_of_lt (s.readersLt q hq)
      · exact Nat.lt_succ_of_lt (s.waitLt l hl r hr)
    · intro m hm
      rcases List.mem_cons.1 hm with rfl | hm
      · show old.hash = H x'.ns (xtOf x'.flags) x'.name
        rw [s.hash old ho, hk.1, hk.2.1, hk.2.2, hx'.1, hx'.2.1, hx'.2.2.1]
      · exact s.hash m (hsub m hm)
    · intro m hm
      rcases List.mem_cons.1 hm with rfl | hm
      · show addValid x'.name x'.flags x'.globals.pool6Set = true
        rw [hx'.2.1, hx'.2.2.1, hx'.2.2.2]; exact hv
      · exact s.valid m (hsub m hm)
    · refine List.pairwise_cons.2 ⟨fun m hm hs => ?_, ?_⟩
      · have hs' : SameKey x m.xl := by
          unfold SameKey at hs ⊢
          rw [hx'.1, hx'.2.1, hx'.2.2.1] at hs; exact hs
        have : old = m := uniq_eq s ho (hsub m hm) ⟨hk.1.trans hs'.1, hk.2.1.trans hs'.2.1, hk.2.2.trans hs'.2.2⟩
        subst this
        have hnd := nodup_ids s
        rw [ht] at hnd
        have hp : (old.id :: (t1 ++ t2).map (·.id)).Nodup := by
          refine List.Perm.nodup_iff (perm_count fun d => ?_) |>.1 hnd
          simp only [List.map_append, List.map_cons, List.count_append, List.count_cons]; omega
        exact (List.nodup_cons.1 hp).1 (List.mem_map.2 ⟨old, hm, rfl⟩)
      · have := s.uniq
        rw [ht] at this
        exact this.sublist (by simp)
    · have hp := nf_erase (nf := w.nf) (n := old) (t1 := t1) (t2 := t2) (by rw [← ht]; exact s.nf)
      show (if isNetfilter old.xl.flags then w.next :: _ else _ : List Nat).Perm _
      cases h : isNetfilter old.xl.flags with
      | true =>
        rw [h] at hp
        rw [List.filter_cons_of_pos (by show isNetfilter x'.flags = true; rw [hx'.2.2.1, ← hnf, h])]
        exact hp.cons _
      | false =>
        rw [h] at hp
        rw [List.filter_cons_of_neg (by show ¬ isNetfilter x'.flags = true; rw [hx'.2.2.1, ← hnf, h]; simp)]
        exact hp
    · intro m hm
      rcases List.mem_cons.1 hm with rfl | hm
      · show old.ops.isSome = isNetfilter x'.flags
        rw [hx'.2.2.1, ← hnf]; exact s.opsTable old ho
      · exact s.opsTable m (hsub m hm)
    · intro l hl
      rcases List.mem_cons.1 hl with rfl | hl
      · simp
      · exact s.opsLimbo l hl
    · exact s.hooksNodup
    · refine s.hooks.trans ?_
      unfold claims
      rw [ht]
      have hns : x'.ns = old.xl.ns := hx'.1.trans hk.1.symm
      cases hop : old.ops with
      | none => simp [w', hop, List.filterMap_append]
      | some o =>
        simp only [w', List.filterMap_append, List.filterMap_cons, hop, Option.map_some, Option.map_none, hns,
          List.append_assoc, List.cons_append]
        exact List.perm_middle
    · intro r hr
      rcases s.pinned r hr with ⟨m, hm, e⟩ | ⟨l, hl, e⟩
      · rcases hcase m hm with h | rfl
        · exact .inl ⟨m, List.mem_cons_of_mem _ h, e⟩
        · exact .inr ⟨_, List.mem_cons_self .., e, List.mem_map.2 ⟨r, hr, rfl⟩⟩
      · exact .inr ⟨l, List.mem_cons_of_mem _ hl, e⟩
    · intro l hl r hr ha d hd
      have hold : ∀ d ∈ old.xl.objs, Covered w' r d := by
        intro d hd
        rcases hmem d hd with h | h
        · exact .inl ⟨_, List.mem_cons_self .., h⟩
        · exact .inr ⟨_, List.mem_cons_self .., h, ha⟩
      rcases List.mem_cons.1 hl with rfl | hl
      · exact hold d hd
      · rcases s.covered l hl r hr ha d hd with ⟨m, hm, e⟩ | ⟨l', hl', e⟩
        · rcases hcase m hm with h | rfl
          · exact .inl ⟨m, List.mem_cons_of_mem _ h, e⟩
          · exact hold d e
        · exact .inr ⟨l', List.mem_cons_of_mem _ hl', e⟩
  · refine c1.perm (perm_count fun d => ?_)
    have := hobj d
    simp only [List.count_append] at this
    simp only [holders, w', ht, List.flatMap_append, List.flatMap_cons, List.count_append]
    omega

end Jool.Xlator
