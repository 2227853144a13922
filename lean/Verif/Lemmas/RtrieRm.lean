import Verif.Lemmas.RtrieOps
/-
The pointer surgery of removals from the radix trie.
-/
namespace Jool.Rtrie
variable {V : Type}

theorem removes_of {t t' : Trie V} (hi : Inv t) {a : Nat} {n : Node V} (ha : t.heap a = some n) (hw : n.white = true)
    (h1 : fW t'.heap a = false)
    (h2 : ∀ x, x ≠ a → fW t'.heap x = fW t.heap x ∧ (fW t.heap x = true → fK t'.heap x = fK t.heap x ∧
      fV t'.heap x = fV t.heap x)) : Removes t t' n.key := by
  intro k w
  constructor
  · rintro ⟨x, k1, k2, k3⟩
    by_cases hx : x = a
    · subst hx; rw [h1] at k1; simp at k1
    · obtain ⟨k4, k5⟩ := h2 x hx
      rw [k4] at k1
      obtain ⟨k6, k7⟩ := k5 k1
      rw [k6] at k2; rw [k7] at k3
      refine ⟨⟨x, k1, k2, k3⟩, ?_⟩
      rintro rfl
      obtain ⟨m, hm⟩ := live_iff.1 (white_live k1)
      exact hx (key_inj hi hm ha (by rw [← k2]; simp [fK, hm]))
  · rintro ⟨⟨x, k1, k2, k3⟩, hne⟩
    have hx : x ≠ a := by
      rintro rfl
      exact hne (by rw [← k2]; simp [fK, ha])
    obtain ⟨k4, k5⟩ := h2 x hx
    obtain ⟨k6, k7⟩ := k5 k1
    exact ⟨x, k4 ▸ k1, k6 ▸ k2, k7 ▸ k3⟩

section
variable {t : Trie V} (hi : Inv t)
include hi

/-- The root, white with two children, is replaced by a black node. -/
theorem blackenRoot {a l r : Nat} {n : Node V} (ha : t.heap a = some n) (hw : n.white = true) (hl : n.left = some l)
    (hr : n.right = some r) (hpar : n.parent = none) {t' : Trie V}
    (ht : t' = ⟨free (setPar (setPar (upd t.heap t.fresh ⟨some l, some r, none, false, n.key, none⟩) l (some t.fresh))
      r (some t.fresh)) a, some t.fresh, (t.fresh :: t.list).erase a, t.fresh + 1, t.leaked⟩) :
    Inv t' ∧ Removes t t' n.key := by
  subst ht
  obtain ⟨p1, p2, p3, p4, p5, p6, p7⟩ := fields ha
  obtain ⟨h1, h2, h3, h4, h5, h6, h7, h8, h9, h10, h11, h12⟩ := hi.f
  have hf := h1 t.fresh (Nat.le_refl _)
  have hf3 := dead_white hf
  have hl' := h4 a l (by rw [p2, hl])
  have hr' := h5 a r (by rw [p3, hr])
  have hroot := h3 a p1 (by rw [p4, hpar])
  have hal : a ≠ l := by rintro rfl; exact hl'.2.2.ne rfl
  have har : a ≠ r := by rintro rfl; exact hr'.2.2.ne rfl
  have hlr : l ≠ r := by
    rintro rfl
    exact (h7 a l l (by rw [p2, hl]) (by rw [p3, hr])).1 (Le.refl _)
  have hlf : l ≠ t.fresh := by rintro rfl; rw [hl'.1] at hf; simp at hf
  have hrf : r ≠ t.fresh := by rintro rfl; rw [hr'.1] at hf; simp at hf
  have haf : a ≠ t.fresh := by rintro rfl; rw [p1] at hf; simp at hf
  have hnl : t.fresh ∉ t.list := by rw [h11, hf]; simp
  refine ⟨FInv.inv ?_, ?_⟩
  · constructor <;> dsimp only <;> fsimp
    case nodup => exact (List.nodup_cons.2 ⟨hnl, h10⟩).erase a
    case list =>
      intro x
      rw [(List.nodup_cons.2 ⟨hnl, h10⟩).mem_erase_iff]
      grind
    all_goals grind (splits := 16)
  · apply removes_of hi ha hw <;> dsimp only <;> fsimp <;> grind (splits := 16)

/-- The root goes away and its only child becomes the root. -/
theorem hoistRoot {a c : Nat} {n : Node V} (ha : t.heap a = some n) (hw : n.white = true)
    (hc : (n.left = some c ∧ n.right = none) ∨ (n.left = none ∧ n.right = some c))
    (hpar : n.parent = none) {t' : Trie V}
    (ht : t' = ⟨free (setPar t.heap c none) a, some c, t.list.erase a, t.fresh, t.leaked⟩) :
    Inv t' ∧ Removes t t' n.key := by
  subst ht
  obtain ⟨p1, p2, p3, p4, p5, p6, p7⟩ := fields ha
  obtain ⟨h1, h2, h3, h4, h5, h6, h7, h8, h9, h10, h11, h12⟩ := hi.f
  have hroot := h3 a p1 (by rw [p4, hpar])
  have hc' : fLive t.heap c = true ∧ fP t.heap c = some a ∧ Lt (fK t.heap a) (fK t.heap c) := by
    rcases hc with hc | hc
    · exact h4 a c (by rw [p2, hc.1])
    · exact h5 a c (by rw [p3, hc.2])
  have hac : a ≠ c := by rintro rfl; exact hc'.2.2.ne rfl
  refine ⟨FInv.inv ?_, ?_⟩
  · constructor <;> dsimp only <;> fsimp
    case nodup => exact h10.erase a
    case list =>
      intro x
      rw [h10.mem_erase_iff]
      grind
    all_goals grind (splits := 16)
  · apply removes_of hi ha hw <;> dsimp only <;> fsimp <;> grind (splits := 16)

/-- The last node goes away. -/
theorem lastNode {a : Nat} {n : Node V} (ha : t.heap a = some n) (hw : n.white = true)
    (hl : n.left = none) (hr : n.right = none) (hpar : n.parent = none) {t' : Trie V}
    (ht : t' = ⟨free t.heap a, none, t.list.erase a, t.fresh, t.leaked⟩) :
    Inv t' ∧ Removes t t' n.key := by
  subst ht
  obtain ⟨p1, p2, p3, p4, p5, p6, p7⟩ := fields ha
  have hroot := hi.f.only a p1 (by rw [p4, hpar])
  have honly : ∀ x, fLive t.heap x = true → x = a := by
    intro x hx
    obtain ⟨m, hm⟩ := live_iff.1 hx
    obtain ⟨r, h, h'⟩ := anc_root hi hm
    rw [hroot] at h; injection h with h; subst h
    by_cases hxa : x = a
    · exact hxa
    · obtain ⟨c, hc, _⟩ := anc_step hi h' ha hxa
      rw [hl, hr] at hc; simp at hc
  obtain ⟨h1, h2, h3, h4, h5, h6, h7, h8, h9, h10, h11, h12⟩ := hi.f
  refine ⟨FInv.inv ?_, ?_⟩
  · constructor <;> dsimp only <;> fsimp
    case nodup => exact h10.erase a
    case list =>
      intro x
      rw [h10.mem_erase_iff]
      grind
    all_goals grind (splits := 16)
  · apply removes_of hi ha hw <;> dsimp only <;> fsimp <;> grind (splits := 16)

/-- A node with one child and a parent. -/
theorem hoistLeft {a c p : Nat} {n pn : Node V} (ha : t.heap a = some n) (hw : n.white = true)
    (hc : (n.left = some c ∧ n.right = none) ∨ (n.left = none ∧ n.right = some c))
    (hpar : n.parent = some p) (hp : t.heap p = some pn) (hpl : pn.left = some a) {t' : Trie V}
    (ht : t' = ⟨free (setPar (upd t.heap p { pn with left := some c }) c (some p)) a, t.root, t.list.erase a, t.fresh,
      t.leaked⟩) :
    Inv t' ∧ Removes t t' n.key := by
  subst ht
  obtain ⟨a1, a2, a3, a4, a5, a6, a7⟩ := fields ha
  obtain ⟨p1, p2, p3, p4, p5, p6, p7⟩ := fields hp
  obtain ⟨h1, h2, h3, h4, h5, h6, h7, h8, h9, h10, h11, h12⟩ := hi.f
  have hc' : fLive t.heap c = true ∧ fP t.heap c = some a ∧ Lt (fK t.heap a) (fK t.heap c) := by
    rcases hc with hc | hc
    · exact h4 a c (by rw [a2, hc.1])
    · exact h5 a c (by rw [a3, hc.2])
  have hpa := (h4 p a (by rw [p2, hpl])).2.2
  have hac : a ≠ c := by rintro rfl; exact hc'.2.2.ne rfl
  have hap : a ≠ p := by rintro rfl; exact hpa.ne rfl
  have hpc : p ≠ c := by rintro rfl; exact (hpa.trans_le hc'.2.2.le).ne rfl
  have hlt := hpa.trans_le hc'.2.2.le
  have hpr : pn.right ≠ some a := fun h => (h7 p a a (by rw [p2, hpl]) (by rw [p3, h])).1 (Le.refl _)
  have hsib : ∀ r, pn.right = some r → ¬ Le (fK t.heap c) (fK t.heap r) ∧ ¬ Le (fK t.heap r) (fK t.heap c) := by
    intro r hr
    have := h7 p a r (by rw [p2, hpl]) (by rw [p3, hr])
    refine ⟨fun h => this.1 (hc'.2.2.le.trans h), fun h => ?_⟩
    rcases h.total hc'.2.2.le with h | h
    · exact this.2 h
    · exact this.1 h
  refine ⟨FInv.inv ?_, ?_⟩
  · constructor <;> dsimp only <;> fsimp
    case nodup => exact h10.erase a
    case list =>
      intro x
      rw [h10.mem_erase_iff]
      grind
    all_goals grind (splits := 16)
  · apply removes_of hi ha hw <;> dsimp only <;> fsimp <;> grind (splits := 16)

theorem hoistRight {a c p : Nat} {n pn : Node V} (ha : t.heap a = some n) (hw : n.white = true)
    (hc : (n.left = some c ∧ n.right = none) ∨ (n.left = none ∧ n.right = some c))
    (hpar : n.parent = some p) (hp : t.heap p = some pn) (hpl : pn.right = some a) {t' : Trie V}
    (ht : t' = ⟨free (setPar (upd t.heap p { pn with right := some c }) c (some p)) a, t.root, t.list.erase a, t.fresh,
      t.leaked⟩) :
    Inv t' ∧ Removes t t' n.key := by
  subst ht
  obtain ⟨a1, a2, a3, a4, a5, a6, a7⟩ := fields ha
  obtain ⟨p1, p2, p3, p4, p5, p6, p7⟩ := fields hp
  obtain ⟨h1, h2, h3, h4, h5, h6, h7, h8, h9, h10, h11, h12⟩ := hi.f
  have hc' : fLive t.heap c = true ∧ fP t.heap c = some a ∧ Lt (fK t.heap a) (fK t.heap c) := by
    rcases hc with hc | hc
    · exact h4 a c (by rw [a2, hc.1])
    · exact h5 a c (by rw [a3, hc.2])
  have hpa := (h5 p a (by rw [p3, hpl])).2.2
  have hac : a ≠ c := by rintro rfl; exact hc'.2.2.ne rfl
  have hap : a ≠ p := by rintro rfl; exact hpa.ne rfl
  have hpc : p ≠ c := by rintro rfl; exact (hpa.trans_le hc'.2.2.le).ne rfl
  have hlt := hpa.trans_le hc'.2.2.le
  have hpr : pn.left ≠ some a := fun h => (h7 p a a (by rw [p2, h]) (by rw [p3, hpl])).1 (Le.refl _)
  have hsib : ∀ r, pn.left = some r → ¬ Le (fK t.heap c) (fK t.heap r) ∧ ¬ Le (fK t.heap r) (fK t.heap c) := by
    intro r hr
    have := h7 p r a (by rw [p2, hr]) (by rw [p3, hpl])
    refine ⟨fun h => this.2 (hc'.2.2.le.trans h), fun h => ?_⟩
    rcases h.total hc'.2.2.le with h | h
    · exact this.1 h
    · exact this.2 h
  refine ⟨FInv.inv ?_, ?_⟩
  · constructor <;> dsimp only <;> fsimp
    case nodup => exact h10.erase a
    case list =>
      intro x
      rw [h10.mem_erase_iff]
      grind
    all_goals grind (splits := 16)
  · apply removes_of hi ha hw <;> dsimp only <;> fsimp <;> grind (splits := 16)

/-- A leaf under a white node. -/
theorem dropLeft {a p : Nat} {n pn : Node V} (ha : t.heap a = some n) (hw : n.white = true)
    (hl : n.left = none) (hr : n.right = none)
    (hpar : n.parent = some p) (hp : t.heap p = some pn) (hpw : pn.white = true) (hpl : pn.left = some a) {t' : Trie V}
    (ht : t' = ⟨free (upd t.heap p { pn with left := none }) a, t.root, t.list.erase a, t.fresh, t.leaked⟩) :
    Inv t' ∧ Removes t t' n.key := by
  subst ht
  obtain ⟨a1, a2, a3, a4, a5, a6, a7⟩ := fields ha
  obtain ⟨p1, p2, p3, p4, p5, p6, p7⟩ := fields hp
  obtain ⟨h1, h2, h3, h4, h5, h6, h7, h8, h9, h10, h11, h12⟩ := hi.f
  have hpa := (h4 p a (by rw [p2, hpl])).2.2
  have hap : a ≠ p := by rintro rfl; exact hpa.ne rfl
  have hpr : pn.right ≠ some a := fun h => (h7 p a a (by rw [p2, hpl]) (by rw [p3, h])).1 (Le.refl _)
  refine ⟨FInv.inv ?_, ?_⟩
  · constructor <;> dsimp only <;> fsimp
    case nodup => exact h10.erase a
    case list =>
      intro x
      rw [h10.mem_erase_iff]
      grind
    all_goals grind (splits := 16)
  · apply removes_of hi ha hw <;> dsimp only <;> fsimp <;> grind (splits := 16)

theorem dropRight {a p : Nat} {n pn : Node V} (ha : t.heap a = some n) (hw : n.white = true)
    (hl : n.left = none) (hr : n.right = none)
    (hpar : n.parent = some p) (hp : t.heap p = some pn) (hpw : pn.white = true) (hpl : pn.right = some a) {t' : Trie V}
    (ht : t' = ⟨free (upd t.heap p { pn with right := none }) a, t.root, t.list.erase a, t.fresh, t.leaked⟩) :
    Inv t' ∧ Removes t t' n.key := by
  subst ht
  obtain ⟨a1, a2, a3, a4, a5, a6, a7⟩ := fields ha
  obtain ⟨p1, p2, p3, p4, p5, p6, p7⟩ := fields hp
  obtain ⟨h1, h2, h3, h4, h5, h6, h7, h8, h9, h10, h11, h12⟩ := hi.f
  have hpa := (h5 p a (by rw [p3, hpl])).2.2
  have hap : a ≠ p := by rintro rfl; exact hpa.ne rfl
  have hpr : pn.left ≠ some a := fun h => (h7 p a a (by rw [p2, h]) (by rw [p3, hpl])).1 (Le.refl _)
  refine ⟨FInv.inv ?_, ?_⟩
  · constructor <;> dsimp only <;> fsimp
    case nodup => exact h10.erase a
    case list =>
      intro x
      rw [h10.mem_erase_iff]
      grind
    all_goals grind (splits := 16)
  · apply removes_of hi ha hw <;> dsimp only <;> fsimp <;> grind (splits := 16)

/-- A leaf under a black node, which goes away with it: the sibling takes the place of the black node. -/
theorem pruneRoot {a p s : Nat} {n pn : Node V} (pn' : Node V) (ha : t.heap a = some n) (hw : n.white = true)
    (hl : n.left = none) (hr : n.right = none)
    (hpar : n.parent = some p) (hp : t.heap p = some pn) (hpw : pn.white = false)
    (hc : (pn.left = some a ∧ pn.right = some s) ∨ (pn.left = some s ∧ pn.right = some a))
    (hq : pn.parent = none) {t' : Trie V}
    (ht : t' = ⟨free (setPar (free (upd t.heap p pn') a) s none) p, some s, (t.list.erase a).erase p, t.fresh,
      t.leaked⟩) :
    Inv t' ∧ Removes t t' n.key := by
  subst ht
  obtain ⟨a1, a2, a3, a4, a5, a6, a7⟩ := fields ha
  obtain ⟨p1, p2, p3, p4, p5, p6, p7⟩ := fields hp
  obtain ⟨h1, h2, h3, h4, h5, h6, h7, h8, h9, h10, h11, h12⟩ := hi.f
  have hroot := h3 p p1 (by rw [p4, hq])
  have hs' : fLive t.heap s = true ∧ fP t.heap s = some p ∧ Lt (fK t.heap p) (fK t.heap s) := by
    rcases hc with hc | hc
    · exact h5 p s (by rw [p3, hc.2])
    · exact h4 p s (by rw [p2, hc.1])
  have ha' : Lt (fK t.heap p) (fK t.heap a) := by
    rcases hc with hc | hc
    · exact (h4 p a (by rw [p2, hc.1])).2.2
    · exact (h5 p a (by rw [p3, hc.2])).2.2
  have hap : a ≠ p := by rintro rfl; exact ha'.ne rfl
  have hsp : s ≠ p := by rintro rfl; exact hs'.2.2.ne rfl
  have has : a ≠ s := by
    rintro rfl
    rcases hc with hc | hc
    · exact (h7 p a a (by rw [p2, hc.1]) (by rw [p3, hc.2])).1 (Le.refl _)
    · exact (h7 p a a (by rw [p2, hc.1]) (by rw [p3, hc.2])).1 (Le.refl _)
  refine ⟨FInv.inv ?_, ?_⟩
  · constructor <;> dsimp only <;> fsimp
    case nodup => exact (h10.erase a).erase p
    case list =>
      intro x
      rw [(h10.erase a).mem_erase_iff, h10.mem_erase_iff]
      grind
    all_goals grind (splits := 16)
  · apply removes_of hi ha hw <;> dsimp only <;> fsimp <;> grind (splits := 16)

theorem pruneLeft {a p s g : Nat} {n pn gn : Node V} (pn' : Node V) (ha : t.heap a = some n) (hw : n.white = true)
    (hl : n.left = none) (hr : n.right = none)
    (hpar : n.parent = some p) (hp : t.heap p = some pn) (hpw : pn.white = false)
    (hc : (pn.left = some a ∧ pn.right = some s) ∨ (pn.left = some s ∧ pn.right = some a))
    (hq : pn.parent = some g) (hg : t.heap g = some gn) (hgl : gn.left = some p) {t' : Trie V}
    (ht : t' = ⟨free (setPar (upd (free (upd t.heap p pn') a) g { gn with left := some s }) s (some g)) p, t.root,
      (t.list.erase a).erase p, t.fresh, t.leaked⟩) :
    Inv t' ∧ Removes t t' n.key := by
  subst ht
  obtain ⟨a1, a2, a3, a4, a5, a6, a7⟩ := fields ha
  obtain ⟨p1, p2, p3, p4, p5, p6, p7⟩ := fields hp
  obtain ⟨g1, g2, g3, g4, g5, g6, g7⟩ := fields hg
  obtain ⟨h1, h2, h3, h4, h5, h6, h7, h8, h9, h10, h11, h12⟩ := hi.f
  have hs' : fLive t.heap s = true ∧ fP t.heap s = some p ∧ Lt (fK t.heap p) (fK t.heap s) := by
    rcases hc with hc | hc
    · exact h5 p s (by rw [p3, hc.2])
    · exact h4 p s (by rw [p2, hc.1])
  have ha' : Lt (fK t.heap p) (fK t.heap a) := by
    rcases hc with hc | hc
    · exact (h4 p a (by rw [p2, hc.1])).2.2
    · exact (h5 p a (by rw [p3, hc.2])).2.2
  have hgp := (h4 g p (by rw [g2, hgl])).2.2
  have hap : a ≠ p := by rintro rfl; exact ha'.ne rfl
  have hsp : s ≠ p := by rintro rfl; exact hs'.2.2.ne rfl
  have hgp' : g ≠ p := by rintro rfl; exact hgp.ne rfl
  have hga : g ≠ a := by rintro rfl; exact (hgp.trans_le ha'.le).ne rfl
  have hgs : g ≠ s := by rintro rfl; exact (hgp.trans_le hs'.2.2.le).ne rfl
  have hlt := hgp.trans_le hs'.2.2.le
  have has : a ≠ s := by
    rintro rfl
    rcases hc with hc | hc
    · exact (h7 p a a (by rw [p2, hc.1]) (by rw [p3, hc.2])).1 (Le.refl _)
    · exact (h7 p a a (by rw [p2, hc.1]) (by rw [p3, hc.2])).1 (Le.refl _)
  have hgr : gn.right ≠ some p := fun h => (h7 g p p (by rw [g2, hgl]) (by rw [g3, h])).1 (Le.refl _)
  have hsib : ∀ r, gn.right = some r → ¬ Le (fK t.heap s) (fK t.heap r) ∧ ¬ Le (fK t.heap r) (fK t.heap s) := by
    intro r hr
    have := h7 g p r (by rw [g2, hgl]) (by rw [g3, hr])
    refine ⟨fun h => this.1 (hs'.2.2.le.trans h), fun h => ?_⟩
    rcases h.total hs'.2.2.le with h | h
    · exact this.2 h
    · exact this.1 h
  refine ⟨FInv.inv ?_, ?_⟩
  · constructor <;> dsimp only <;> fsimp
    case nodup => exact (h10.erase a).erase p
    case list =>
      intro x
      rw [(h10.erase a).mem_erase_iff, h10.mem_erase_iff]
      grind
    all_goals grind (splits := 16)
  · apply removes_of hi ha hw <;> dsimp only <;> fsimp <;> grind (splits := 16)

theorem pruneRight {a p s g : Nat} {n pn gn : Node V} (pn' : Node V) (ha : t.heap a = some n) (hw : n.white = true)
    (hl : n.left = none) (hr : n.right = none)
    (hpar : n.parent = some p) (hp : t.heap p = some pn) (hpw : pn.white = false)
    (hc : (pn.left = some a ∧ pn.right = some s) ∨ (pn.left = some s ∧ pn.right = some a))
    (hq : pn.parent = some g) (hg : t.heap g = some gn) (hgl : gn.right = some p) {t' : Trie V}
    (ht : t' = ⟨free (setPar (upd (free (upd t.heap p pn') a) g { gn with right := some s }) s (some g)) p, t.root,
      (t.list.erase a).erase p, t.fresh, t.leaked⟩) :
    Inv t' ∧ Removes t t' n.key := by
  subst ht
  obtain ⟨a1, a2, a3, a4, a5, a6, a7⟩ := fields ha
  obtain ⟨p1, p2, p3, p4, p5, p6, p7⟩ := fields hp
  obtain ⟨g1, g2, g3, g4, g5, g6, g7⟩ := fields hg
  obtain ⟨h1, h2, h3, h4, h5, h6, h7, h8, h9, h10, h11, h12⟩ := hi.f
  have hs' : fLive t.heap s = true ∧ fP t.heap s = some p ∧ Lt (fK t.heap p) (fK t.heap s) := by
    rcases hc with hc | hc
    · exact h5 p s (by rw [p3, hc.2])
    · exact h4 p s (by rw [p2, hc.1])
  have ha' : Lt (fK t.heap p) (fK t.heap a) := by
    rcases hc with hc | hc
    · exact (h4 p a (by rw [p2, hc.1])).2.2
    · exact (h5 p a (by rw [p3, hc.2])).2.2
  have hgp := (h5 g p (by rw [g3, hgl])).2.2
  have hap : a ≠ p := by rintro rfl; exact ha'.ne rfl
  have hsp : s ≠ p := by rintro rfl; exact hs'.2.2.ne rfl
  have hgp' : g ≠ p := by rintro rfl; exact hgp.ne rfl
  have hga : g ≠ a := by rintro rfl; exact (hgp.trans_le ha'.le).ne rfl
  have hgs : g ≠ s := by rintro rfl; exact (hgp.trans_le hs'.2.2.le).ne rfl
  have hlt := hgp.trans_le hs'.2.2.le
  have has : a ≠ s := by
    rintro rfl
    rcases hc with hc | hc
    · exact (h7 p a a (by rw [p2, hc.1]) (by rw [p3, hc.2])).1 (Le.refl _)
    · exact (h7 p a a (by rw [p2, hc.1]) (by rw [p3, hc.2])).1 (Le.refl _)
  have hgr : gn.left ≠ some p := fun h => (h7 g p p (by rw [g2, h]) (by rw [g3, hgl])).1 (Le.refl _)
  have hsib : ∀ r, gn.left = some r → ¬ Le (fK t.heap s) (fK t.heap r) ∧ ¬ Le (fK t.heap r) (fK t.heap s) := by
    intro r hr
    have := (h7 g r p (by rw [g2, hr]) (by rw [g3, hgl])).symm
    refine ⟨fun h => this.1 (hs'.2.2.le.trans h), fun h => ?_⟩
    rcases h.total hs'.2.2.le with h | h
    · exact this.2 h
    · exact this.1 h
  refine ⟨FInv.inv ?_, ?_⟩
  · constructor <;> dsimp only <;> fsimp
    case nodup => exact (h10.erase a).erase p
    case list =>
      intro x
      rw [(h10.erase a).mem_erase_iff, h10.mem_erase_iff]
      grind
    all_goals grind (splits := 16)
  · apply removes_of hi ha hw <;> dsimp only <;> fsimp <;> grind (splits := 16)

end
end Jool.Rtrie
