import Verif.Lemmas.RtrieRm
import Verif.Lemmas.RtrieAdd
/-
`rtrie_rm`, all cases together.
-/
namespace Jool.Rtrie
variable {V : Type}

theorem free_ne (h : Heap V) {a b : Nat} (hne : b ≠ a) : free h a b = h b := by simp [free, hne]

/-- What the tree has to look like around the key for `rtrie_rm` to work properly: see `Verif.Props.RtrieDefects`. -/
def CalmRm (t : Trie V) (key : Key) : Prop :=
  ∀ a n l r, t.heap a = some n → n.white = true → n.key = key → n.left = some l → n.right = some r → n.parent = none

/-- The three ways in which a removal may end. -/
inductive Removed (t : Trie V) (inodeOk : Bool) (key : Key) : Trie V → Code → Prop
  | ok {t'} (w : V) : Inv t' → Removes t t' key → Stored t key w → t'.leaked = t.leaked →
      Removed t inodeOk key t' .ok
  | srch : (∀ w, ¬ Stored t key w) → Removed t inodeOk key t .esrch
  | nomem (w : V) : inodeOk = false → Stored t key w →
      (∃ a n l r, t.heap a = some n ∧ n.key = key ∧ n.left = some l ∧ n.right = some r) → Removed t inodeOk key t .enomem

section
variable {t : Trie V} (hi : Inv t)
include hi

theorem prune_spec (fuel : Nat) {a : Nat} {n : Node V} (ha : t.heap a = some n) (hw : n.white = true)
    (hch : n.left = none ∨ n.right = none) :
    ∃ t', prune (fuel + 2) t a = .ok t' ∧ Inv t' ∧ Removes t t' n.key ∧ t'.leaked = t.leaked := by
  rw [prune, deref_eq ha]
  simp only [Outcome.bind]
  cases hpar : n.parent with
  | none =>
    simp only [parentPtr, hpar]
    cases hl : n.left with
    | some c =>
      have hr : n.right = none := by rcases hch with h | h; · rw [hl] at h; simp at h
                                     · exact h
      obtain ⟨m, hm, _⟩ := hi.left a n c ha hl
      simp only [assign]
      rw [modify_par (live_iff.2 ⟨m, hm⟩)]
      obtain ⟨z1, z2⟩ := hoistRoot hi ha hw (.inl ⟨hl, hr⟩) hpar rfl
      exact ⟨_, rfl, z1, z2, rfl⟩
    | none =>
      cases hr : n.right with
      | some c =>
        obtain ⟨m, hm, _⟩ := hi.right a n c ha hr
        simp only [assign]
        rw [modify_par (live_iff.2 ⟨m, hm⟩)]
        obtain ⟨z1, z2⟩ := hoistRoot hi ha hw (.inr ⟨hl, hr⟩) hpar rfl
        exact ⟨_, rfl, z1, z2, rfl⟩
      | none =>
        simp only [assign]
        obtain ⟨z1, z2⟩ := lastNode hi ha hw hl hr hpar rfl
        exact ⟨_, rfl, z1, z2, rfl⟩
  | some p =>
    obtain ⟨pn, hp, hside⟩ := hi.up a n p ha hpar
    have hlt := parent_lt hi ha hpar hp
    have hap : p ≠ a := by
      rintro rfl
      rw [ha] at hp; injection hp with hp; subst hp; exact hlt.ne rfl
    have hloc : parentPtr t.heap a n = .ok (if pn.left = some a then .left p else .right p) := by
      simp only [parentPtr, hpar, deref_eq hp, Outcome.map]
    rw [hloc]
    dsimp only
    by_cases hone : ∃ c, (n.left = some c ∧ n.right = none) ∨ (n.left = none ∧ n.right = some c)
    · obtain ⟨c, hc⟩ := hone
      have hcl : ∃ m, t.heap c = some m := by
        rcases hc with ⟨h1, h2⟩ | ⟨h1, h2⟩
        · obtain ⟨m, hm, _⟩ := hi.left a n c ha h1; exact ⟨m, hm⟩
        · obtain ⟨m, hm, _⟩ := hi.right a n c ha h2; exact ⟨m, hm⟩
      obtain ⟨m, hm⟩ := hcl
      by_cases hpl : pn.left = some a
      · rw [if_pos hpl]
        obtain ⟨z1, z2⟩ := hoistLeft hi ha hw hc hpar hp hpl rfl
        rcases hc with ⟨h1, h2⟩ | ⟨h1, h2⟩ <;> rw [h1, h2] <;> dsimp only
        all_goals
          simp only [assign, modify_eq hp, Outcome.map]
          rw [modify_par (by fsimp; simp [live_iff.2 ⟨m, hm⟩])]
          exact ⟨_, rfl, z1, z2, rfl⟩
      · have hpr : pn.right = some a := hside.resolve_left hpl
        rw [if_neg hpl]
        obtain ⟨z1, z2⟩ := hoistRight hi ha hw hc hpar hp hpr rfl
        rcases hc with ⟨h1, h2⟩ | ⟨h1, h2⟩ <;> rw [h1, h2] <;> dsimp only
        all_goals
          simp only [assign, modify_eq hp, Outcome.map]
          rw [modify_par (by fsimp; simp [live_iff.2 ⟨m, hm⟩])]
          exact ⟨_, rfl, z1, z2, rfl⟩
    · have hl : n.left = none := by
        cases hl : n.left with
        | none => rfl
        | some c => exact absurd ⟨c, .inl ⟨hl, hch.resolve_left (by simp [hl])⟩⟩ hone
      have hr : n.right = none := by
        cases hr : n.right with
        | none => rfl
        | some c => exact absurd ⟨c, .inr ⟨hl, hr⟩⟩ hone
      rw [hl, hr]
      dsimp only
      -- the sibling, when the parent is black
      have hsib : pn.white = false → ∃ s m, ((pn.left = some a ∧ pn.right = some s) ∨
          (pn.left = some s ∧ pn.right = some a)) ∧ t.heap s = some m ∧ Lt pn.key m.key ∧ s ≠ a := by
        intro hpw
        obtain ⟨⟨x, hx⟩, ⟨y, hy⟩⟩ := hi.black p pn hp hpw
        obtain ⟨mx, hmx, _, kx⟩ := hi.left p pn x hp hx
        obtain ⟨my, hmy, _, ky⟩ := hi.right p pn y hp hy
        obtain ⟨s1, s2⟩ := hi.sib p pn x y mx my hp hx hy hmx hmy
        have hxy : x ≠ y := by
          rintro rfl
          rw [hmx] at hmy; injection hmy with hmy; subst hmy; exact s1 (Le.refl _)
        rcases hside with h | h
        · rw [hx] at h; injection h with h; subst h
          exact ⟨y, my, .inl ⟨hx, hy⟩, hmy, ky, hxy.symm⟩
        · rw [hy] at h; injection h with h; subst h
          exact ⟨x, mx, .inr ⟨hx, hy⟩, hmx, kx, hxy⟩
      by_cases hpl : pn.left = some a
      · rw [if_pos hpl]
        simp only [assign, modify_eq hp, Outcome.map]
        rw [deref_eq (n := { pn with left := none }) (by rw [free_ne _ hap, upd_self])]
        dsimp only
        by_cases hpt : pn.white = true
        · rw [if_pos hpt]
          obtain ⟨z1, z2⟩ := dropLeft hi ha hw hl hr hpar hp hpt hpl rfl
          exact ⟨_, rfl, z1, z2, rfl⟩
        · rw [if_neg hpt]
          have hpw : pn.white = false := by simpa using hpt
          obtain ⟨s, m, hs, hm, ks, hsa⟩ := hsib hpw
          have hps : pn.right = some s := by
            rcases hs with h | h
            · exact h.2
            · rw [hpl] at h; exact absurd (by injection h.1 with h; exact h.symm) hsa
          have hsp : s ≠ p := by
            rintro rfl
            rw [hp] at hm; injection hm with hm; subst hm; exact ks.ne rfl
          rw [prune, deref_eq (n := { pn with left := none }) (by dsimp only; rw [free_ne _ hap, upd_self])]
          simp only [Outcome.bind, hps]
          cases hq : pn.parent with
          | none =>
            simp only [parentPtr, assign]
            rw [modify_par (by fsimp; simp [hsa, live_iff.2 ⟨m, hm⟩])]
            obtain ⟨z1, z2⟩ := pruneRoot hi _ ha hw hl hr hpar hp hpw hs hq rfl
            exact ⟨_, rfl, z1, z2, rfl⟩
          | some g =>
            obtain ⟨gn, hg, hgs⟩ := hi.up p pn g hp hq
            have klt := parent_lt hi hp hq hg
            have hgp : g ≠ p := by
              rintro rfl
              rw [hp] at hg; injection hg with hg; subst hg; exact klt.ne rfl
            have hga : g ≠ a := by
              rintro rfl
              rw [ha] at hg; injection hg with hg; subst hg; exact klt.not_le hlt.le
            have hg' : free (upd t.heap p { pn with left := none }) a g = some gn := by
              rw [free_ne _ hga, upd_ne _ _ hgp]; exact hg
            simp only [parentPtr]
            rw [deref_eq (by rw [hps, hq] at hg'; exact hg')]
            simp only [Outcome.map]
            by_cases hgl : gn.left = some p
            · rw [if_pos hgl]
              simp only [assign]
              rw [modify_eq (by rw [hps, hq] at hg'; exact hg')]
              simp only [Outcome.map]
              rw [modify_par (by fsimp; simp [hsa, live_iff.2 ⟨m, hm⟩])]
              obtain ⟨z1, z2⟩ := pruneLeft hi _ ha hw hl hr hpar hp hpw hs hq hg hgl rfl
              exact ⟨_, rfl, z1, z2, rfl⟩
            · rw [if_neg hgl]
              simp only [assign]
              rw [modify_eq (by rw [hps, hq] at hg'; exact hg')]
              simp only [Outcome.map]
              rw [modify_par (by fsimp; simp [hsa, live_iff.2 ⟨m, hm⟩])]
              obtain ⟨z1, z2⟩ := pruneRight hi _ ha hw hl hr hpar hp hpw hs hq hg (hgs.resolve_left hgl) rfl
              exact ⟨_, rfl, z1, z2, rfl⟩
      · have hpr : pn.right = some a := hside.resolve_left hpl
        rw [if_neg hpl]
        simp only [assign, modify_eq hp, Outcome.map]
        rw [deref_eq (n := { pn with right := none }) (by rw [free_ne _ hap, upd_self])]
        dsimp only
        by_cases hpt : pn.white = true
        · rw [if_pos hpt]
          obtain ⟨z1, z2⟩ := dropRight hi ha hw hl hr hpar hp hpt hpr rfl
          exact ⟨_, rfl, z1, z2, rfl⟩
        · rw [if_neg hpt]
          have hpw : pn.white = false := by simpa using hpt
          obtain ⟨s, m, hs, hm, ks, hsa⟩ := hsib hpw
          have hps : pn.left = some s := by
            rcases hs with h | h
            · exact absurd h.1 hpl
            · exact h.1
          have hsp : s ≠ p := by
            rintro rfl
            rw [hp] at hm; injection hm with hm; subst hm; exact ks.ne rfl
          rw [prune, deref_eq (n := { pn with right := none }) (by dsimp only; rw [free_ne _ hap, upd_self])]
          simp only [Outcome.bind, hps]
          cases hq : pn.parent with
          | none =>
            simp only [parentPtr, assign]
            rw [modify_par (by fsimp; simp [hsa, live_iff.2 ⟨m, hm⟩])]
            obtain ⟨z1, z2⟩ := pruneRoot hi _ ha hw hl hr hpar hp hpw hs hq rfl
            exact ⟨_, rfl, z1, z2, rfl⟩
          | some g =>
            obtain ⟨gn, hg, hgs⟩ := hi.up p pn g hp hq
            have klt := parent_lt hi hp hq hg
            have hgp : g ≠ p := by
              rintro rfl
              rw [hp] at hg; injection hg with hg; subst hg; exact klt.ne rfl
            have hga : g ≠ a := by
              rintro rfl
              rw [ha] at hg; injection hg with hg; subst hg; exact klt.not_le hlt.le
            have hg' : free (upd t.heap p { pn with right := none }) a g = some gn := by
              rw [free_ne _ hga, upd_ne _ _ hgp]; exact hg
            simp only [parentPtr]
            rw [deref_eq (by rw [hps, hq] at hg'; exact hg')]
            simp only [Outcome.map]
            by_cases hgl : gn.left = some p
            · rw [if_pos hgl]
              simp only [assign]
              rw [modify_eq (by rw [hps, hq] at hg'; exact hg')]
              simp only [Outcome.map]
              rw [modify_par (by fsimp; simp [hsa, live_iff.2 ⟨m, hm⟩])]
              obtain ⟨z1, z2⟩ := pruneLeft hi _ ha hw hl hr hpar hp hpw hs hq hg hgl rfl
              exact ⟨_, rfl, z1, z2, rfl⟩
            · rw [if_neg hgl]
              simp only [assign]
              rw [modify_eq (by rw [hps, hq] at hg'; exact hg')]
              simp only [Outcome.map]
              rw [modify_par (by fsimp; simp [hsa, live_iff.2 ⟨m, hm⟩])]
              obtain ⟨z1, z2⟩ := pruneRight hi _ ha hw hl hr hpar hp hpw hs hq hg (hgs.resolve_left hgl) rfl
              exact ⟨_, rfl, z1, z2, rfl⟩

theorem rm_spec (inodeOk : Bool) (key : Key) (hcalm : CalmRm t key) :
    ∃ t' c, rm t inodeOk key = .ok (t', c) ∧ Removed t inodeOk key t' c := by
  unfold rm
  rcases findWhite_spec hi key with ⟨h1, h2⟩ | ⟨a, n, h1, ha, hw, hle, hbest⟩
  · rw [h1]
    refine ⟨_, _, rfl, .srch ?_⟩
    intro w h
    obtain ⟨x, nx, k1, k2, k3, _⟩ := stored_node hi h
    have := h2 x nx k1 (k2 ▸ Le.refl _)
    rw [k3] at this; simp at this
  · rw [h1]
    simp only [Outcome.bind, deref_eq ha]
    by_cases he : n.key = key
    · rw [if_neg (by simp [(equals_iff _ _).2 he])]
      obtain ⟨w, hv⟩ := (hi.val a n ha).1 hw
      have hst : Stored t key w := ⟨a, by simp [fW, ha, hw], by simp [fK, ha, he], by simp [fV, ha, hv]⟩
      by_cases hboth : ∃ l r, n.left = some l ∧ n.right = some r
      · obtain ⟨l, r, hl, hr⟩ := hboth
        rw [hl, hr]
        dsimp only
        cases inodeOk with
        | false => exact ⟨_, _, rfl, .nomem w rfl hst ⟨a, n, l, r, ha, he, hl, hr⟩⟩
        | true =>
          have hpar := hcalm a n l r ha hw he hl hr
          simp only [Bool.not_true, Bool.false_eq_true, if_false, parentPtr, hpar, assign]
          obtain ⟨ln, hln, _⟩ := hi.left a n l ha hl
          obtain ⟨rn, hrn, _⟩ := hi.right a n r ha hr
          rw [modify_par (by fsimp; simp [live_iff.2 ⟨ln, hln⟩])]
          dsimp only
          rw [modify_par (by fsimp; simp [live_iff.2 ⟨rn, hrn⟩])]
          obtain ⟨z1, z2⟩ := blackenRoot hi ha hw hl hr hpar rfl
          exact ⟨_, _, rfl, .ok w z1 (fun k w => by rw [← he]; exact z2 k w) hst rfl⟩
      · have hch : n.left = none ∨ n.right = none := by
          cases hl : n.left with
          | none => exact .inl rfl
          | some l =>
            cases hr : n.right with
            | none => exact .inr rfl
            | some r => exact absurd ⟨l, r, hl, hr⟩ hboth
        have hmem : a ∈ t.list := (hi.list a).2 ⟨n, ha⟩
        obtain ⟨k, hk⟩ : ∃ k, t.list.length + 1 = k + 2 := ⟨t.list.length - 1, by
          have := List.length_pos_of_mem hmem; omega⟩
        obtain ⟨t', z0, z1, z2, z3⟩ := prune_spec hi k ha hw hch
        rw [he] at z2
        rw [hk, z0]
        refine ⟨t', .ok, ?_, .ok w z1 z2 hst z3⟩
        rcases hch with h | h
        · rw [h]; rfl
        · rw [h]; cases n.left <;> rfl
    · rw [if_pos (by
        cases h : equals n.key key with
        | false => rfl
        | true => exact absurd ((equals_iff _ _).1 h) he)]
      refine ⟨_, _, rfl, .srch ?_⟩
      intro w h
      obtain ⟨x, nx, k1, k2, k3, _⟩ := stored_node hi h
      rcases hbest x nx k1 (k2 ▸ Le.refl _) k3 with rfl | h
      · rw [k1] at ha; injection ha with ha; subst ha; exact he k2
      · rw [k2] at h; exact h.not_le hle
end
end Jool.Rtrie
