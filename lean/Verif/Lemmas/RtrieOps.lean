import Verif.Lemmas.RtrieF
/-
The pointer surgery of the radix trie, one shape at a time: the invariant is preserved and the entries are the expected
ones.
-/
namespace Jool.Rtrie
variable {V : Type}

/-- The trie has the value `v` for the key `k`. -/
def Stored (t : Trie V) (k : Key) (v : V) : Prop :=
  ∃ a, fW t.heap a = true ∧ fK t.heap a = k ∧ fV t.heap a = some v

theorem upd_self (h : Heap V) (a : Nat) (n : Node V) : upd h a n a = some n := by simp [upd]
theorem upd_ne (h : Heap V) {a b : Nat} (n : Node V) (hne : b ≠ a) : upd h a n b = h b := by simp [upd, hne]
theorem modify_eq {h : Heap V} {a : Nat} {n : Node V} (ha : h a = some n) (f : Node V → Node V) :
    modify h a f = .ok (upd h a (f n)) := by simp [modify, ha]
theorem deref_eq {h : Heap V} {a : Nat} {n : Node V} (ha : h a = some n) : deref h a = .ok n := by simp [deref, ha]

theorem fresh_ne {t : Trie V} (hi : Inv t) {a : Nat} {n : Node V} (ha : t.heap a = some n) : a < t.fresh := by
  rcases Nat.lt_or_ge a t.fresh with h | h
  · exact h
  · rw [hi.fresh a h] at ha; simp at ha

theorem white_live {h : Heap V} {a : Nat} (hw : fW h a = true) : fLive h a = true := by
  unfold fW at hw; unfold fLive; cases ha : h a with
  | none => rw [ha] at hw; simp at hw
  | some n => rfl

theorem dead_white {h : Heap V} {a : Nat} (hd : fLive h a = false) : fW h a = false := by
  cases hw : fW h a with
  | false => rfl
  | true => rw [white_live hw] at hd; simp at hd

/-- `a->parent = q`, for a node that is there. -/
def setPar (h : Heap V) (a : Nat) (q : Option Nat) : Heap V :=
  fun x => if x = a then (h x).map (fun m => { m with parent := q }) else h x

theorem modify_par {h : Heap V} {a : Nat} (ha : fLive h a = true) (q : Option Nat) :
    modify h a (fun m => { m with parent := q }) = .ok (setPar h a q) := by
  obtain ⟨n, hn⟩ := live_iff.1 ha
  rw [modify_eq hn]
  congr 1
  funext x
  unfold upd setPar
  by_cases hx : x = a <;> simp [hx, hn]

theorem fLive_par (h : Heap V) (a : Nat) (q : Option Nat) (x : Nat) : fLive (setPar h a q) x = fLive h x := by
  unfold fLive setPar; split <;> simp
theorem fL_par (h : Heap V) (a : Nat) (q : Option Nat) (x : Nat) : fL (setPar h a q) x = fL h x := by
  unfold fL setPar; split
  · cases h x <;> rfl
  · rfl
theorem fR_par (h : Heap V) (a : Nat) (q : Option Nat) (x : Nat) : fR (setPar h a q) x = fR h x := by
  unfold fR setPar; split
  · cases h x <;> rfl
  · rfl
theorem fW_par (h : Heap V) (a : Nat) (q : Option Nat) (x : Nat) : fW (setPar h a q) x = fW h x := by
  unfold fW setPar; split
  · cases h x <;> rfl
  · rfl
theorem fV_par (h : Heap V) (a : Nat) (q : Option Nat) (x : Nat) : fV (setPar h a q) x = fV h x := by
  unfold fV setPar; split
  · cases h x <;> rfl
  · rfl
theorem fK_par (h : Heap V) (a : Nat) (q : Option Nat) (x : Nat) : fK (setPar h a q) x = fK h x := by
  unfold fK setPar
  by_cases hx : x = a
  · simp only [hx, if_true]; cases h a <;> rfl
  · simp [hx]
theorem fP_par (h : Heap V) (a : Nat) (q : Option Nat) (x : Nat) :
    fP (setPar h a q) x = if x = a then (if fLive h x = true then q else none) else fP h x := by
  unfold fP setPar fLive; split
  · cases h x <;> simp
  · rfl

/-- What an addition does to the entries. -/
def Adds (t t' : Trie V) (key : Key) (v : V) : Prop :=
  ∀ k w, Stored t' k w ↔ Stored t k w ∨ (k = key ∧ w = v)

theorem adds_of {t t' : Trie V} {key : Key} {v : V} (hd : fLive t.heap t.fresh = false)
    (h1 : fW t'.heap t.fresh = true ∧ fK t'.heap t.fresh = key ∧ fV t'.heap t.fresh = some v)
    (h2 : ∀ x, x ≠ t.fresh → fW t'.heap x = fW t.heap x ∧ (fW t.heap x = true → fK t'.heap x = fK t.heap x ∧
      fV t'.heap x = fV t.heap x)) : Adds t t' key v := by
  intro k w
  constructor
  · rintro ⟨a, k1, k2, k3⟩
    by_cases ha : a = t.fresh
    · subst ha
      exact .inr ⟨by rw [← k2, h1.2.1], by rw [h1.2.2] at k3; injection k3 with k3; exact k3.symm⟩
    · obtain ⟨k4, k5⟩ := h2 a ha
      rw [k4] at k1
      obtain ⟨k6, k7⟩ := k5 k1
      exact .inl ⟨a, k1, k6 ▸ k2, k7 ▸ k3⟩
  · rintro (⟨a, k1, k2, k3⟩ | ⟨rfl, rfl⟩)
    · have ha : a ≠ t.fresh := by
        rintro rfl
        have := white_live k1
        rw [hd] at this
        simp at this
      obtain ⟨k4, k5⟩ := h2 a ha
      obtain ⟨k6, k7⟩ := k5 k1
      exact ⟨a, k4 ▸ k1, k6 ▸ k2, k7 ▸ k3⟩
    · exact ⟨t.fresh, h1⟩

/-- What a removal does to the entries. -/
def Removes (t t' : Trie V) (key : Key) : Prop :=
  ∀ k w, Stored t' k w ↔ Stored t k w ∧ k ≠ key

macro "fsimp" : tactic => `(tactic|
  try simp only [fLive_upd, fL_upd, fR_upd, fP_upd, fW_upd, fV_upd, fK_upd, fLive_free, fL_free, fR_free, fP_free,
    fW_free, fV_free, fK_free, fLive_par, fL_par, fR_par, fP_par, fW_par, fV_par, fK_par])

section
variable {t : Trie V} (hi : Inv t)
include hi

/-- A leaf in the free left slot. -/
theorem leafLeft {p : Nat} {pn : Node V} (hp : t.heap p = some pn)
    (hl : pn.left = none) (key : Key) (v : V) (hk : Lt pn.key key)
    (hr : ∀ r, pn.right = some r → ¬ Le (fK t.heap r) key ∧ ¬ Le key (fK t.heap r)) {t' : Trie V}
    (ht : t' = ⟨upd (upd t.heap t.fresh ⟨none, none, some p, true, key, some v⟩) p { pn with left := some t.fresh },
      t.root, t.fresh :: t.list, t.fresh + 1, t.leaked⟩) :
    Inv t' ∧ Adds t t' key v := by
  subst ht
  obtain ⟨p1, p2, p3, p4, p5, p6, p7⟩ := fields hp
  obtain ⟨h1, h2, h3, h4, h5, h6, h7, h8, h9, h10, h11, h12⟩ := hi.f
  have hf := h1 t.fresh (Nat.le_refl _)
  refine ⟨FInv.inv ?_, ?_⟩
  · constructor <;> dsimp only <;> fsimp
    all_goals grind (splits := 16)
  · apply adds_of hf <;> dsimp only <;> fsimp <;> grind (splits := 16)

/-- A leaf in the free right slot. -/
theorem leafRight {p : Nat} {pn : Node V} (hp : t.heap p = some pn)
    (hl : pn.right = none) (key : Key) (v : V) (hk : Lt pn.key key)
    (hr : ∀ r, pn.left = some r → ¬ Le (fK t.heap r) key ∧ ¬ Le key (fK t.heap r)) {t' : Trie V}
    (ht : t' = ⟨upd (upd t.heap t.fresh ⟨none, none, some p, true, key, some v⟩) p { pn with right := some t.fresh },
      t.root, t.fresh :: t.list, t.fresh + 1, t.leaked⟩) :
    Inv t' ∧ Adds t t' key v := by
  subst ht
  obtain ⟨p1, p2, p3, p4, p5, p6, p7⟩ := fields hp
  obtain ⟨h1, h2, h3, h4, h5, h6, h7, h8, h9, h10, h11, h12⟩ := hi.f
  have hf := h1 t.fresh (Nat.le_refl _)
  refine ⟨FInv.inv ?_, ?_⟩
  · constructor <;> dsimp only <;> fsimp
    all_goals grind (splits := 16)
  · apply adds_of hf <;> dsimp only <;> fsimp <;> grind (splits := 16)

/-- The new node takes the place of the left child, which becomes its left child. -/
theorem aboveLeft {p l : Nat} {pn ln : Node V} (hp : t.heap p = some pn) (hpl : pn.left = some l)
    (hl : t.heap l = some ln) (key : Key) (v : V) (hk : Lt pn.key key) (hkl : Lt key ln.key)
    (hr : ∀ r, pn.right = some r → ¬ Le (fK t.heap r) key ∧ ¬ Le key (fK t.heap r)) {t' : Trie V}
    (ht : t' = ⟨upd (upd (upd t.heap t.fresh ⟨some l, none, some p, true, key, some v⟩) p { pn with left := some t.fresh }) l { ln with parent := some t.fresh },
      t.root, t.fresh :: t.list, t.fresh + 1, t.leaked⟩) :
    Inv t' ∧ Adds t t' key v := by
  subst ht
  obtain ⟨p1, p2, p3, p4, p5, p6, p7⟩ := fields hp
  obtain ⟨l1, l2, l3, l4, l5, l6, l7⟩ := fields hl
  obtain ⟨h1, h2, h3, h4, h5, h6, h7, h8, h9, h10, h11, h12⟩ := hi.f
  have hf := h1 t.fresh (Nat.le_refl _)
  have hpl' : p ≠ l := by rintro rfl; have := (h4 p p (by rw [p2, hpl])).2.2; exact this.ne rfl
  have hpl2 : pn.right ≠ some l := fun h => (h7 p l l (by rw [p2, hpl]) (by rw [p3, h])).1 (Le.refl _)
  refine ⟨FInv.inv ?_, ?_⟩
  · constructor <;> dsimp only <;> fsimp
    all_goals grind (splits := 16)
  · apply adds_of hf <;> dsimp only <;> fsimp <;> grind (splits := 16)

/-- The new node takes the place of the right child, which becomes its right child. -/
theorem aboveRight {p r : Nat} {pn rn : Node V} (hp : t.heap p = some pn) (hpr : pn.right = some r)
    (hr : t.heap r = some rn) (key : Key) (v : V) (hk : Lt pn.key key) (hkl : Lt key rn.key)
    (hl : ∀ l, pn.left = some l → ¬ Le (fK t.heap l) key ∧ ¬ Le key (fK t.heap l)) {t' : Trie V}
    (ht : t' = ⟨upd (upd (upd t.heap t.fresh ⟨none, some r, some p, true, key, some v⟩) p { pn with right := some t.fresh }) r { rn with parent := some t.fresh },
      t.root, t.fresh :: t.list, t.fresh + 1, t.leaked⟩) :
    Inv t' ∧ Adds t t' key v := by
  subst ht
  obtain ⟨p1, p2, p3, p4, p5, p6, p7⟩ := fields hp
  obtain ⟨l1, l2, l3, l4, l5, l6, l7⟩ := fields hr
  obtain ⟨h1, h2, h3, h4, h5, h6, h7, h8, h9, h10, h11, h12⟩ := hi.f
  have hf := h1 t.fresh (Nat.le_refl _)
  have hpl' : p ≠ r := by rintro rfl; have := (h5 p p (by rw [p3, hpr])).2.2; exact this.ne rfl
  have hpl2 : pn.left ≠ some r := fun h => (h7 p r r (by rw [p2, h]) (by rw [p3, hpr])).1 (Le.refl _)
  refine ⟨FInv.inv ?_, ?_⟩
  · constructor <;> dsimp only <;> fsimp
    all_goals grind (splits := 16)
  · apply adds_of hf <;> dsimp only <;> fsimp <;> grind (splits := 16)

/-- The new node takes both children of a white node. -/
theorem aboveBoth {p l r : Nat} {pn ln rn : Node V} (hp : t.heap p = some pn) (hpl : pn.left = some l)
    (hpr : pn.right = some r) (hl : t.heap l = some ln) (hr : t.heap r = some rn) (key : Key) (v : V)
    (hk : Lt pn.key key) (hkl : Lt key ln.key) (hkr : Lt key rn.key) (hw : pn.white = true) {t' : Trie V}
    (ht : t' = ⟨upd (upd (upd (upd t.heap t.fresh ⟨some l, some r, some p, true, key, some v⟩) p { pn with left := none, right := some t.fresh }) l { ln with parent := some t.fresh }) r { rn with parent := some t.fresh },
      t.root, t.fresh :: t.list, t.fresh + 1, t.leaked⟩) :
    Inv t' ∧ Adds t t' key v := by
  subst ht
  obtain ⟨p1, p2, p3, p4, p5, p6, p7⟩ := fields hp
  obtain ⟨l1, l2, l3, l4, l5, l6, l7⟩ := fields hl
  obtain ⟨r1, r2, r3, r4, r5, r6, r7⟩ := fields hr
  obtain ⟨h1, h2, h3, h4, h5, h6, h7, h8, h9, h10, h11, h12⟩ := hi.f
  have hf := h1 t.fresh (Nat.le_refl _)
  have hpl' : p ≠ l := by rintro rfl; have := (h4 p p (by rw [p2, hpl])).2.2; exact this.ne rfl
  have hpr' : p ≠ r := by rintro rfl; have := (h5 p p (by rw [p3, hpr])).2.2; exact this.ne rfl
  have hlr : l ≠ r := by
    rintro rfl
    exact (h7 p l l (by rw [p2, hpl]) (by rw [p3, hpr])).1 (Le.refl _)
  refine ⟨FInv.inv ?_, ?_⟩
  · constructor <;> dsimp only <;> fsimp
    all_goals grind (splits := 16)
  · apply adds_of hf <;> dsimp only <;> fsimp <;> grind (splits := 16)

/-- The first node. -/
theorem firstNode (hr : t.root = none) (key : Key) (v : V) {t' : Trie V}
    (ht : t' = ⟨upd t.heap t.fresh ⟨none, none, none, true, key, some v⟩,
      some t.fresh, t.fresh :: t.list, t.fresh + 1, t.leaked⟩) :
    Inv t' ∧ Adds t t' key v := by
  subst ht
  have hdead : ∀ a, t.heap a = none := by
    intro a
    cases ha : t.heap a with
    | none => rfl
    | some n =>
      obtain ⟨r, h, _⟩ := anc_root hi ha
      rw [hr] at h; simp at h
  have hdead' : ∀ a, fLive t.heap a = false := by intro a; simp [fLive, hdead a]
  obtain ⟨h1, h2, h3, h4, h5, h6, h7, h8, h9, h10, h11, h12⟩ := hi.f
  have hf := h1 t.fresh (Nat.le_refl _)
  refine ⟨FInv.inv ?_, ?_⟩
  · constructor <;> dsimp only <;> fsimp
    all_goals grind (splits := 16)
  · apply adds_of hf <;> dsimp only <;> fsimp <;> grind (splits := 16)

/-- A new root above the old one. -/
theorem aboveRoot {r : Nat} {rn : Node V} (hroot : t.root = some r) (hr : t.heap r = some rn) (key : Key) (v : V)
    (hk : Lt key rn.key) {t' : Trie V}
    (ht : t' = ⟨upd (upd t.heap t.fresh ⟨some r, none, none, true, key, some v⟩) r { rn with parent := some t.fresh },
      some t.fresh, t.fresh :: t.list, t.fresh + 1, t.leaked⟩) :
    Inv t' ∧ Adds t t' key v := by
  subst ht
  obtain ⟨r1, r2, r3, r4, r5, r6, r7⟩ := fields hr
  obtain ⟨h1, h2, h3, h4, h5, h6, h7, h8, h9, h10, h11, h12⟩ := hi.f
  have hf := h1 t.fresh (Nat.le_refl _)
  refine ⟨FInv.inv ?_, ?_⟩
  · constructor <;> dsimp only <;> fsimp
    all_goals grind (splits := 16)
  · apply adds_of hf <;> dsimp only <;> fsimp <;> grind (splits := 16)

/-- A new black root above the old one and the new node. -/
theorem splitRoot {r : Nat} {rn : Node V} (hroot : t.root = some r) (hr : t.heap r = some rn) (key ikey : Key) (v : V)
    (hn1 : ¬ Le key rn.key) (hn2 : ¬ Le rn.key key) (hi1 : Lt ikey rn.key) (hi2 : Lt ikey key) {t' : Trie V}
    (ht : t' = ⟨upd (upd (upd t.heap t.fresh ⟨none, none, some (t.fresh + 1), true, key, some v⟩) (t.fresh + 1) ⟨some r, some t.fresh, none, false, ikey, none⟩) r { rn with parent := some (t.fresh + 1) },
      some (t.fresh + 1), t.fresh :: (t.fresh + 1) :: t.list, t.fresh + 2, t.leaked⟩) :
    Inv t' ∧ Adds t t' key v := by
  subst ht
  obtain ⟨r1, r2, r3, r4, r5, r6, r7⟩ := fields hr
  obtain ⟨h1, h2, h3, h4, h5, h6, h7, h8, h9, h10, h11, h12⟩ := hi.f
  have hf := h1 t.fresh (Nat.le_refl _)
  have hf2 := h1 (t.fresh + 1) (by omega)
  have hf3 := dead_white hf2
  refine ⟨FInv.inv ?_, ?_⟩
  · constructor <;> dsimp only <;> fsimp
    all_goals grind (splits := 16)
  · apply adds_of hf <;> dsimp only <;> fsimp <;> grind (splits := 16)

/-- A new black node under a node with two children takes both children. -/
theorem collideN {p l r : Nat} {pn ln rn : Node V} (hp : t.heap p = some pn) (hpl : pn.left = some l)
    (hpr : pn.right = some r) (hl : t.heap l = some ln) (hr : t.heap r = some rn) (key ikey : Key) (v : V)
    (hk : Lt pn.key key) (hik : Lt pn.key ikey) (q1 : Lt ikey ln.key) (q2 : Lt ikey rn.key) (q3 : ¬ Le ikey key)
    (q4 : ¬ Le key ikey) (q5 : ¬ Le ln.key rn.key) (q6 : ¬ Le rn.key ln.key) {t' : Trie V}
    (ht : t' = ⟨setPar (setPar (setPar (setPar (upd (upd (upd t.heap t.fresh ⟨none, none, none, true, key, some v⟩)
        (t.fresh + 1) ⟨some l, some r, none, false, ikey, none⟩) p
        { pn with left := some t.fresh, right := some (t.fresh + 1) }) t.fresh (some p)) (t.fresh + 1) (some p))
        l (some (t.fresh + 1))) r (some (t.fresh + 1)),
      t.root, t.fresh :: (t.fresh + 1) :: t.list, t.fresh + 2, t.leaked⟩) :
    Inv t' ∧ Adds t t' key v := by
  subst ht
  obtain ⟨p1, p2, p3, p4, p5, p6, p7⟩ := fields hp
  obtain ⟨l1, l2, l3, l4, l5, l6, l7⟩ := fields hl
  obtain ⟨r1, r2, r3, r4, r5, r6, r7⟩ := fields hr
  obtain ⟨h1, h2, h3, h4, h5, h6, h7, h8, h9, h10, h11, h12⟩ := hi.f
  have hf := h1 t.fresh (Nat.le_refl _)
  have hf2 := h1 (t.fresh + 1) (by omega)
  have hf3 := dead_white hf2
  have hpl' : p ≠ l := by rintro rfl; have := (h4 p p (by rw [p2, hpl])).2.2; exact this.ne rfl
  have hpr' : p ≠ r := by rintro rfl; have := (h5 p p (by rw [p3, hpr])).2.2; exact this.ne rfl
  have hlr : l ≠ r := by
    rintro rfl
    exact (h7 p l l (by rw [p2, hpl]) (by rw [p3, hpr])).1 (Le.refl _)
  have hlp := (h4 p l (by rw [p2, hpl])).2
  have hrp := (h5 p r (by rw [p3, hpr])).2
  have hlf : l ≠ t.fresh := by rintro rfl; rw [l1] at hf; simp at hf
  have hlf2 : l ≠ t.fresh + 1 := by rintro rfl; rw [l1] at hf2; simp at hf2
  have hrf : r ≠ t.fresh := by rintro rfl; rw [r1] at hf; simp at hf
  have hrf2 : r ≠ t.fresh + 1 := by rintro rfl; rw [r1] at hf2; simp at hf2
  have hpf : p ≠ t.fresh := by rintro rfl; rw [p1] at hf; simp at hf
  have hpf2 : p ≠ t.fresh + 1 := by rintro rfl; rw [p1] at hf2; simp at hf2
  refine ⟨FInv.inv ?_, ?_⟩
  · constructor <;> dsimp only <;> fsimp
    case sib =>
      intro a x y hx hy
      by_cases ha : a = p
      · grind
      · by_cases ha2 : a = t.fresh + 1
        · grind
        · by_cases ha3 : a = t.fresh
          · grind
          · have := h7 a x y (by grind) (by grind)
            have k1 : x ≠ t.fresh := by grind
            have k2 : x ≠ t.fresh + 1 := by grind
            have k3 : y ≠ t.fresh := by grind
            have k4 : y ≠ t.fresh + 1 := by grind
            grind
    all_goals grind (splits := 20)
  · apply adds_of hf <;> dsimp only <;> fsimp <;> grind (splits := 16)

/-- A new black node under a node with two children takes the new node and the left child. -/
theorem collideR {p l r : Nat} {pn ln rn : Node V} (hp : t.heap p = some pn) (hpl : pn.left = some l)
    (hpr : pn.right = some r) (hl : t.heap l = some ln) (hr : t.heap r = some rn) (key ikey : Key) (v : V)
    (hk : Lt pn.key key) (hik : Lt pn.key ikey) (q1 : Lt ikey key) (q2 : Lt ikey ln.key) (q3 : ¬ Le ikey rn.key)
    (q4 : ¬ Le rn.key ikey) (q5 : ¬ Le key ln.key) (q6 : ¬ Le ln.key key) {t' : Trie V}
    (ht : t' = ⟨setPar (setPar (setPar (setPar (upd (upd (upd t.heap t.fresh ⟨none, none, none, true, key, some v⟩)
        (t.fresh + 1) ⟨some t.fresh, some l, none, false, ikey, none⟩) p
        { pn with left := some r, right := some (t.fresh + 1) }) r (some p)) (t.fresh + 1) (some p))
        t.fresh (some (t.fresh + 1))) l (some (t.fresh + 1)),
      t.root, t.fresh :: (t.fresh + 1) :: t.list, t.fresh + 2, t.leaked⟩) :
    Inv t' ∧ Adds t t' key v := by
  subst ht
  obtain ⟨p1, p2, p3, p4, p5, p6, p7⟩ := fields hp
  obtain ⟨l1, l2, l3, l4, l5, l6, l7⟩ := fields hl
  obtain ⟨r1, r2, r3, r4, r5, r6, r7⟩ := fields hr
  obtain ⟨h1, h2, h3, h4, h5, h6, h7, h8, h9, h10, h11, h12⟩ := hi.f
  have hf := h1 t.fresh (Nat.le_refl _)
  have hf2 := h1 (t.fresh + 1) (by omega)
  have hf3 := dead_white hf2
  have hpl' : p ≠ l := by rintro rfl; have := (h4 p p (by rw [p2, hpl])).2.2; exact this.ne rfl
  have hpr' : p ≠ r := by rintro rfl; have := (h5 p p (by rw [p3, hpr])).2.2; exact this.ne rfl
  have hlr : l ≠ r := by
    rintro rfl
    exact (h7 p l l (by rw [p2, hpl]) (by rw [p3, hpr])).1 (Le.refl _)
  have hlp := (h4 p l (by rw [p2, hpl])).2
  have hrp := (h5 p r (by rw [p3, hpr])).2
  have hlf : l ≠ t.fresh := by rintro rfl; rw [l1] at hf; simp at hf
  have hlf2 : l ≠ t.fresh + 1 := by rintro rfl; rw [l1] at hf2; simp at hf2
  have hrf : r ≠ t.fresh := by rintro rfl; rw [r1] at hf; simp at hf
  have hrf2 : r ≠ t.fresh + 1 := by rintro rfl; rw [r1] at hf2; simp at hf2
  have hpf : p ≠ t.fresh := by rintro rfl; rw [p1] at hf; simp at hf
  have hpf2 : p ≠ t.fresh + 1 := by rintro rfl; rw [p1] at hf2; simp at hf2
  refine ⟨FInv.inv ?_, ?_⟩
  · constructor <;> dsimp only <;> fsimp
    case sib =>
      intro a x y hx hy
      by_cases ha : a = p
      · grind
      · by_cases ha2 : a = t.fresh + 1
        · grind
        · by_cases ha3 : a = t.fresh
          · grind
          · have := h7 a x y (by grind) (by grind)
            have k1 : x ≠ t.fresh := by grind
            have k2 : x ≠ t.fresh + 1 := by grind
            have k3 : y ≠ t.fresh := by grind
            have k4 : y ≠ t.fresh + 1 := by grind
            grind
    all_goals grind (splits := 20)
  · apply adds_of hf <;> dsimp only <;> fsimp <;> grind (splits := 16)

/-- A new black node under a node with two children takes the new node and the right child. -/
theorem collideL {p l r : Nat} {pn ln rn : Node V} (hp : t.heap p = some pn) (hpl : pn.left = some l)
    (hpr : pn.right = some r) (hl : t.heap l = some ln) (hr : t.heap r = some rn) (key ikey : Key) (v : V)
    (hk : Lt pn.key key) (hik : Lt pn.key ikey) (q1 : Lt ikey key) (q2 : Lt ikey rn.key) (q3 : ¬ Le ikey ln.key)
    (q4 : ¬ Le ln.key ikey) (q5 : ¬ Le key rn.key) (q6 : ¬ Le rn.key key) {t' : Trie V}
    (ht : t' = ⟨setPar (setPar (setPar (setPar (upd (upd (upd t.heap t.fresh ⟨none, none, none, true, key, some v⟩)
        (t.fresh + 1) ⟨some t.fresh, some r, none, false, ikey, none⟩) p
        { pn with left := some l, right := some (t.fresh + 1) }) l (some p)) (t.fresh + 1) (some p))
        t.fresh (some (t.fresh + 1))) r (some (t.fresh + 1)),
      t.root, t.fresh :: (t.fresh + 1) :: t.list, t.fresh + 2, t.leaked⟩) :
    Inv t' ∧ Adds t t' key v := by
  subst ht
  obtain ⟨p1, p2, p3, p4, p5, p6, p7⟩ := fields hp
  obtain ⟨l1, l2, l3, l4, l5, l6, l7⟩ := fields hl
  obtain ⟨r1, r2, r3, r4, r5, r6, r7⟩ := fields hr
  obtain ⟨h1, h2, h3, h4, h5, h6, h7, h8, h9, h10, h11, h12⟩ := hi.f
  have hf := h1 t.fresh (Nat.le_refl _)
  have hf2 := h1 (t.fresh + 1) (by omega)
  have hf3 := dead_white hf2
  have hpl' : p ≠ l := by rintro rfl; have := (h4 p p (by rw [p2, hpl])).2.2; exact this.ne rfl
  have hpr' : p ≠ r := by rintro rfl; have := (h5 p p (by rw [p3, hpr])).2.2; exact this.ne rfl
  have hlr : l ≠ r := by
    rintro rfl
    exact (h7 p l l (by rw [p2, hpl]) (by rw [p3, hpr])).1 (Le.refl _)
  have hlp := (h4 p l (by rw [p2, hpl])).2
  have hrp := (h5 p r (by rw [p3, hpr])).2
  have hlf : l ≠ t.fresh := by rintro rfl; rw [l1] at hf; simp at hf
  have hlf2 : l ≠ t.fresh + 1 := by rintro rfl; rw [l1] at hf2; simp at hf2
  have hrf : r ≠ t.fresh := by rintro rfl; rw [r1] at hf; simp at hf
  have hrf2 : r ≠ t.fresh + 1 := by rintro rfl; rw [r1] at hf2; simp at hf2
  have hpf : p ≠ t.fresh := by rintro rfl; rw [p1] at hf; simp at hf
  have hpf2 : p ≠ t.fresh + 1 := by rintro rfl; rw [p1] at hf2; simp at hf2
  refine ⟨FInv.inv ?_, ?_⟩
  · constructor <;> dsimp only <;> fsimp
    case sib =>
      intro a x y hx hy
      by_cases ha : a = p
      · grind
      · by_cases ha2 : a = t.fresh + 1
        · grind
        · by_cases ha3 : a = t.fresh
          · grind
          · have := h7 a x y (by grind) (by grind)
            have k1 : x ≠ t.fresh := by grind
            have k2 : x ≠ t.fresh + 1 := by grind
            have k3 : y ≠ t.fresh := by grind
            have k4 : y ≠ t.fresh + 1 := by grind
            grind
    all_goals grind (splits := 20)
  · apply adds_of hf <;> dsimp only <;> fsimp <;> grind (splits := 16)

end
end Jool.Rtrie
