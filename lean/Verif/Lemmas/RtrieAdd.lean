import Verif.Lemmas.RtrieOps
/-
`rtrie_add`, all cases together.
-/
namespace Jool.Rtrie
variable {V : Type}

/-- Of three keys none of which contains another, two have more in common than with the third. -/
theorem triad (a b c : Key) (h1 : ¬ Le a b) (h2 : ¬ Le b a) (h3 : ¬ Le a c) (h4 : ¬ Le c a) (h5 : ¬ Le b c)
    (h6 : ¬ Le c b) :
    (lcp a b > lcp a c ∧ lcp a b > lcp b c) ∨ (lcp a c > lcp a b ∧ lcp a c > lcp b c) ∨
      (lcp b c > lcp a b ∧ lcp b c > lcp a c) := by
  induction a generalizing b c with
  | nil => exact absurd (List.nil_prefix) h1
  | cons x a ih =>
    cases b with
    | nil => exact absurd (List.nil_prefix) h2
    | cons y b =>
      cases c with
      | nil => exact absurd (List.nil_prefix) h4
      | cons z c =>
        simp only [Le, List.cons_prefix_cons] at h1 h2 h3 h4 h5 h6
        by_cases hxy : x = y
        · by_cases hyz : y = z
          · subst hxy; subst hyz
            simp only [true_and] at h1 h2 h3 h4 h5 h6
            have := ih b c h1 h2 h3 h4 h5 h6
            simp only [lcp, if_true]
            omega
          · subst hxy
            left
            simp [lcp, hyz]
        · by_cases hyz : y = z
          · subst hyz
            right; right
            simp [lcp, hxy]
          · have hxz : x = z := by
              cases x <;> cases y <;> cases z <;> simp at *
            subst hxz
            right; left
            simp [lcp, hxy, hyz]

/-- A common prefix is not longer than what the two have in common. -/
theorem le_lcp {k a b : Key} (h1 : Le k a) (h2 : Le k b) : k.length ≤ lcp a b := by
  have h3 := h1.length_le
  apply (take_prefix_iff a b k.length h3).1
  have : a.take k.length = k := by
    obtain ⟨s, hs⟩ := h1
    rw [← hs]; simp
  rw [this]; exact h2

theorem take_le (a : Key) (m : Nat) : Le (a.take m) a := List.take_prefix m a

/-- What the inode of two keys is related to. -/
theorem inode_facts {p a b : Key} (m : Nat) (hm : m = lcp a b) (hpa : Le p a) (hgt : m > p.length)
    (hab : ¬ Le a b) (hba : ¬ Le b a) :
    Lt p (a.take m) ∧ Lt (a.take m) a ∧ Lt (a.take m) b := by
  subst hm
  have h1 : Le (a.take (lcp a b)) b := (take_prefix_iff a b _ (lcp_le_left a b)).2 (Nat.le_refl _)
  have h2 := take_le a (lcp a b)
  have hlen : (a.take (lcp a b)).length = lcp a b := by
    rw [List.length_take]; have := lcp_le_left a b; omega
  refine ⟨lt_of ?_ ?_, lt_of h2 ?_, lt_of h1 ?_⟩
  · rcases hpa.total h2 with h | h
    · exact h
    · have := h.length_le; rw [hlen] at this; omega
  · intro e; have := congrArg List.length e; rw [hlen] at this; omega
  · intro e; rw [e] at h1; exact hab h1
  · intro e; rw [e] at h2; exact hba h2

theorem take_not_le {a c : Key} (m : Nat) (hm : m ≤ a.length) (hgt : m > lcp a c) : ¬ Le (a.take m) c := by
  rw [take_prefix_iff a c m hm]; omega

/-- What the tree has to look like around the new key for `rtrie_add` to work properly: see `Verif.Props.RtrieDefects`
for what happens otherwise. `b` is the deepest node that contains the key. -/
def CalmAdd (t : Trie V) (key : Key) : Prop :=
  ∀ b m, t.heap b = some m → Le m.key key →
    (∀ c mc, (m.left = some c ∨ m.right = some c) → t.heap c = some mc → ¬ Le mc.key key) →
    (m.white = false → m.key ≠ key) ∧
    (m.white = false → ∀ l r, m.left = some l → m.right = some r → ¬ (Le key (fK t.heap l) ∧ Le key (fK t.heap r))) ∧
    (m.key ≠ key → m.left = none → ∀ r, m.right = some r → ¬ Le key (fK t.heap r)) ∧
    (m.key ≠ key → m.right = none → ∀ l, m.left = some l → ¬ Le key (fK t.heap l))

/-- The three ways in which an addition may end. -/
inductive Added (t : Trie V) (leafOk inodeOk : Bool) (key : Key) (v : V) : Trie V → Code → Prop
  | ok {t'} : leafOk = true → Inv t' → Adds t t' key v → (∀ w, ¬ Stored t key w) → t'.leaked = t.leaked →
      Added t leafOk inodeOk key v t' .ok
  | exist {t'} (w : V) : leafOk = true → t' = { t with fresh := t.fresh + 1 } → Stored t key w →
      Added t leafOk inodeOk key v t' .eexist
  | nomem {t'} (f l : Nat) : leafOk = false ∨ inodeOk = false → (∀ w, ¬ Stored t key w) ∨ leafOk = false →
      t' = ⟨t.heap, t.root, t.list, t.fresh + f, t.leaked + l⟩ →
      (leafOk = false → f = 0 ∧ l = 0) → l ≤ 1 → Added t leafOk inodeOk key v t' .enomem

section
variable {t : Trie V} (hi : Inv t)
include hi

theorem stored_node {key : Key} {w : V} (h : Stored t key w) :
    ∃ x nx, t.heap x = some nx ∧ nx.key = key ∧ nx.white = true ∧ nx.val = some w := by
  obtain ⟨x, h1, h2, h3⟩ := h
  obtain ⟨nx, hn⟩ := live_iff.1 (white_live h1)
  exact ⟨x, nx, hn, by simpa [fK, hn] using h2, by simpa [fW, hn] using h1, by simpa [fV, hn] using h3⟩

theorem live_ne_fresh {a : Nat} {n : Node V} (ha : t.heap a = some n) : a ≠ t.fresh ∧ a ≠ t.fresh + 1 := by
  have := fresh_ne hi ha; omega

theorem addToRoot_spec (inodeOk : Bool) (key : Key) (v : V) (hno : ∀ x nx, t.heap x = some nx → ¬ Le nx.key key) :
    ∃ t' c, addToRoot t ⟨none, none, none, true, key, some v⟩ inodeOk = .ok (t', c) ∧
      Added t true inodeOk key v t' c := by
  have hns : ∀ w, ¬ Stored t key w := by
    intro w h
    obtain ⟨x, nx, h1, h2, _⟩ := stored_node hi h
    exact hno x nx h1 (h2 ▸ Le.refl _)
  unfold addToRoot
  cases hr : t.root with
  | none =>
    dsimp only
    obtain ⟨h1, h2⟩ := firstNode hi hr key v rfl
    exact ⟨_, _, rfl, .ok rfl h1 h2 hns rfl⟩
  | some r =>
    obtain ⟨rn, hrn, hrp⟩ := hi.root r hr
    obtain ⟨hf1, hf2⟩ := live_ne_fresh hi hrn
    simp only [deref_eq hrn, Outcome.bind]
    by_cases hc : Le key rn.key
    · rw [if_pos ((contains_iff _ _).2 hc)]
      rw [modify_eq (n := rn) (by rw [upd_ne _ _ hf1]; exact hrn)]
      obtain ⟨h1, h2⟩ := aboveRoot hi hr hrn key v (lt_of hc (fun e => hno r rn hrn (e ▸ Le.refl _))) rfl
      exact ⟨_, _, rfl, .ok rfl h1 h2 hns rfl⟩
    · rw [if_neg (fun h => hc ((contains_iff _ _).1 h))]
      cases inodeOk with
      | false =>
        exact ⟨_, _, rfl, .nomem 1 1 (.inr rfl) (.inl hns) (by rw [hr]) (by simp) (by simp)⟩
      | true =>
        simp only [Bool.not_true, Bool.false_eq_true, if_false]
        rw [modify_eq (n := rn) (by rw [upd_ne _ _ hf2, upd_ne _ _ hf1]; exact hrn)]
        have hnc := hno r rn hrn
        have e1 : Le (key.take (lcp rn.key key)) rn.key := by
          rw [take_prefix_iff _ _ _ (lcp_le_right _ _), lcp_comm]; exact Nat.le_refl _
        have e2 : Le (key.take (lcp rn.key key)) key := take_le _ _
        obtain ⟨h1, h2⟩ := splitRoot hi hr hrn key (key.take (lcp rn.key key)) v hc hnc
          (lt_of e1 (fun e => hnc (e ▸ e2))) (lt_of e2 (fun e => hc (e ▸ e1))) rfl
        exact ⟨_, _, rfl, .ok rfl h1 h2 hns rfl⟩

theorem addFullCollision_spec (inodeOk : Bool) (key : Key) (v : V) {p l r : Nat} {pn ln rn : Node V}
    (hp : t.heap p = some pn) (hpl : pn.left = some l) (hpr : pn.right = some r) (hl : t.heap l = some ln)
    (hr : t.heap r = some rn) (hk : Lt pn.key key) (h1 : ¬ Le ln.key key) (h2 : ¬ Le rn.key key) (h3 : ¬ Le key ln.key)
    (h4 : ¬ Le key rn.key) (hns : ∀ w, ¬ Stored t key w) :
    ∃ t' c, addFullCollision t p l r ln rn ⟨none, none, none, true, key, some v⟩ inodeOk = .ok (t', c) ∧
      Added t true inodeOk key v t' c := by
  obtain ⟨h5, h6⟩ := hi.sib p pn l r ln rn hp hpl hpr hl hr
  have hpln : Lt pn.key ln.key := by
    obtain ⟨m, e, _, h⟩ := hi.left p pn l hp hpl
    rw [hl] at e; injection e with e; subst e; exact h
  have hprn : Lt pn.key rn.key := by
    obtain ⟨m, e, _, h⟩ := hi.right p pn r hp hpr
    rw [hr] at e; injection e with e; subst e; exact h
  have hlr : l ≠ r := by
    rintro rfl
    rw [hl] at hr; injection hr with hr; subst hr; exact h5 (Le.refl _)
  have hpl' : p ≠ l := by
    rintro rfl
    rw [hl] at hp; injection hp with hp; subst hp; exact hpln.ne rfl
  have hpr' : p ≠ r := by
    rintro rfl
    rw [hr] at hp; injection hp with hp; subst hp; exact hprn.ne rfl
  obtain ⟨pf1, pf2⟩ := live_ne_fresh hi hp
  obtain ⟨lf1, lf2⟩ := live_ne_fresh hi hl
  obtain ⟨rf1, rf2⟩ := live_ne_fresh hi hr
  have hff : t.fresh ≠ t.fresh + 1 := by omega
  have g1 := le_lcp hpln.le hprn.le
  have g2 := le_lcp hpln.le hk.le
  have g3 := le_lcp hprn.le hk.le
  have L1 : fLive t.heap l = true := live_iff.2 ⟨_, hl⟩
  have R1 : fLive t.heap r = true := live_iff.2 ⟨_, hr⟩
  have P1 : fLive t.heap p = true := live_iff.2 ⟨_, hp⟩
  unfold addFullCollision triage
  dsimp only
  rcases triad ln.key rn.key key h5 h6 h1 h3 h2 h4 with ⟨t1, t2⟩ | ⟨t1, t2⟩ | ⟨t1, t2⟩
  · rw [if_pos ⟨t1, t2⟩]
    dsimp only
    cases inodeOk with
    | false => exact ⟨_, _, rfl, .nomem 1 1 (.inr rfl) (.inl hns) rfl (by simp) (by simp)⟩
    | true =>
      simp only [Bool.not_true, Bool.false_eq_true, if_false]
      obtain ⟨k1, k2, k3⟩ := inode_facts _ rfl hpln.le (by omega : lcp ln.key rn.key > pn.key.length) h5 h6
      rw [deref_eq (n := ln) (by rw [upd_ne _ _ lf1]; exact hl)]
      simp only [Outcome.bind]
      rw [modify_eq (n := pn) (by rw [upd_ne _ _ pf2, upd_ne _ _ pf1]; exact hp)]
      dsimp only
      rw [modify_par (by simp)]
      dsimp only
      rw [modify_par (by fsimp; simp)]
      dsimp only
      rw [modify_par (by fsimp; simp [L1])]
      dsimp only
      rw [modify_par (by fsimp; simp [R1])]
      obtain ⟨z1, z2⟩ := collideN hi hp hpl hpr hl hr key _ v hk k1 k2 k3
        (take_not_le _ (lcp_le_left _ _) t1) (fun h => h3 (h.trans k2.le)) h5 h6 rfl
      exact ⟨_, _, rfl, .ok rfl z1 z2 hns rfl⟩
  · rw [if_neg (by omega), if_pos ⟨t1, t2⟩]
    dsimp only
    cases inodeOk with
    | false => exact ⟨_, _, rfl, .nomem 1 1 (.inr rfl) (.inl hns) rfl (by simp) (by simp)⟩
    | true =>
      simp only [Bool.not_true, Bool.false_eq_true, if_false]
      have hgt : lcp ln.key key > pn.key.length := by omega
      obtain ⟨k1, k2, k3⟩ := inode_facts (lcp ln.key key) (lcp_comm _ _) hk.le hgt h3 h1
      rw [deref_eq (upd_self _ _ _)]
      simp only [Outcome.bind]
      rw [modify_eq (n := pn) (by rw [upd_ne _ _ pf2, upd_ne _ _ pf1]; exact hp)]
      dsimp only
      rw [modify_par (by fsimp; simp [R1])]
      dsimp only
      rw [modify_par (by fsimp; simp)]
      dsimp only
      rw [modify_par (by fsimp; simp)]
      dsimp only
      rw [modify_par (by fsimp; simp [L1])]
      obtain ⟨z1, z2⟩ := collideR hi hp hpl hpr hl hr key _ v hk k1 k2 k3
        (take_not_le _ (lcp_le_right _ _) (by rw [lcp_comm key]; exact t2)) (fun h => h2 (h.trans k2.le)) h3 h1 rfl
      exact ⟨_, _, rfl, .ok rfl z1 z2 hns rfl⟩
  · rw [if_neg (by omega), if_neg (by omega), if_pos ⟨t1, t2⟩]
    dsimp only
    cases inodeOk with
    | false => exact ⟨_, _, rfl, .nomem 1 1 (.inr rfl) (.inl hns) rfl (by simp) (by simp)⟩
    | true =>
      simp only [Bool.not_true, Bool.false_eq_true, if_false]
      have hgt : lcp rn.key key > pn.key.length := by omega
      obtain ⟨k1, k2, k3⟩ := inode_facts (lcp rn.key key) (lcp_comm _ _) hk.le hgt h4 h2
      rw [deref_eq (upd_self _ _ _)]
      simp only [Outcome.bind]
      rw [modify_eq (n := pn) (by rw [upd_ne _ _ pf2, upd_ne _ _ pf1]; exact hp)]
      dsimp only
      rw [modify_par (by fsimp; simp [L1])]
      dsimp only
      rw [modify_par (by fsimp; simp)]
      dsimp only
      rw [modify_par (by fsimp; simp)]
      dsimp only
      rw [modify_par (by fsimp; simp [R1])]
      obtain ⟨z1, z2⟩ := collideL hi hp hpl hpr hl hr key _ v hk k1 k2 k3
        (take_not_le _ (lcp_le_right _ _) (by rw [lcp_comm key]; exact t2)) (fun h => h1 (h.trans k2.le)) h4 h2 rfl
      exact ⟨_, _, rfl, .ok rfl z1 z2 hns rfl⟩

theorem findAny_spec (key : Key) :
    (findAny t key = .ok none ∧ ∀ x nx, t.heap x = some nx → ¬ Le nx.key key) ∨
    (∃ b m, findAny t key = .ok (some b) ∧ t.heap b = some m ∧ Le m.key key ∧
      (∀ c mc, (m.left = some c ∨ m.right = some c) → t.heap c = some mc → ¬ Le mc.key key) ∧
      (∀ x nx, t.heap x = some nx → Le nx.key key → x = b ∨ Lt nx.key m.key)) := by
  rcases findLcp_spec hi key with ⟨h1, h2⟩ | ⟨lw, b, m, h1, h2, h3, h4, h5, _⟩
  · exact .inl ⟨by simp [findAny, h1, Outcome.map], h2⟩
  · exact .inr ⟨b, m, by simp [findAny, h1, Outcome.map], h2, h3, h4, h5⟩

theorem findWhite_spec (key : Key) :
    (findWhite t key = .ok none ∧ ∀ x nx, t.heap x = some nx → Le nx.key key → nx.white = false) ∨
    (∃ w nw, findWhite t key = .ok (some w) ∧ t.heap w = some nw ∧ nw.white = true ∧ Le nw.key key ∧
      ∀ x nx, t.heap x = some nx → Le nx.key key → nx.white = true → x = w ∨ Lt nx.key nw.key) := by
  rcases findLcp_spec hi key with ⟨h1, h2⟩ | ⟨lw, b, m, h1, _, _, _, _, h⟩
  · exact .inl ⟨by simp [findWhite, h1, Outcome.map], fun x nx hx hle => absurd hle (h2 x nx hx)⟩
  · rcases h with ⟨rfl, h⟩ | ⟨w, nw, rfl, h⟩
    · exact .inl ⟨by simp [findWhite, h1, Outcome.map], h⟩
    · exact .inr ⟨w, nw, by simp [findWhite, h1, Outcome.map], h⟩

theorem add_spec (leafOk inodeOk : Bool) (key : Key) (v : V) (hcalm : CalmAdd t key) :
    ∃ t' c, add t leafOk inodeOk key v = .ok (t', c) ∧ Added t leafOk inodeOk key v t' c := by
  unfold add
  cases leafOk with
  | false => exact ⟨_, _, rfl, .nomem 0 0 (.inl rfl) (.inr rfl) rfl (by simp) (by simp)⟩
  | true =>
  simp only [Bool.not_true, Bool.false_eq_true, if_false]
  rcases findAny_spec hi key with ⟨h1, h2⟩ | ⟨p, pn, h1, hp, hle, hch, hdeep⟩
  · rw [h1]
    exact addToRoot_spec hi inodeOk key v h2
  · rw [h1]
    simp only [Outcome.bind, deref_eq hp]
    obtain ⟨c1, c2, c3, c4⟩ := hcalm p pn hp hle hch
    by_cases he : pn.key = key
    · rw [if_pos ((equals_iff _ _).2 he)]
      cases hw : pn.white with
      | false => exact absurd he (c1 hw)
      | true =>
        obtain ⟨w, hv⟩ := (hi.val p pn hp).1 hw
        exact ⟨_, _, rfl, .exist w rfl rfl ⟨p, by simp [fW, hp, hw], by simp [fK, hp, he], by simp [fV, hp, hv]⟩⟩
    · rw [if_neg (fun h => he ((equals_iff _ _).1 h))]
      have hk : Lt pn.key key := lt_of hle he
      have hns : ∀ w, ¬ Stored t key w := by
        intro w h
        obtain ⟨x, nx, k1, k2, _⟩ := stored_node hi h
        rcases hdeep x nx k1 (k2 ▸ Le.refl _) with rfl | h
        · rw [k1] at hp; injection hp with hp; subst hp; exact he k2
        · rw [k2] at h; exact h.not_le hle
      obtain ⟨pf1, pf2⟩ := live_ne_fresh hi hp
      have hchK : ∀ c, (pn.left = some c ∨ pn.right = some c) → ¬ Le (fK t.heap c) key := by
        intro c hc
        have : ∃ mc, t.heap c = some mc := by
          rcases hc with hc | hc
          · obtain ⟨m, h, _⟩ := hi.left p pn c hp hc; exact ⟨m, h⟩
          · obtain ⟨m, h, _⟩ := hi.right p pn c hp hc; exact ⟨m, h⟩
        obtain ⟨mc, hmc⟩ := this
        have := hch c mc hc hmc
        simpa [fK, hmc] using this
      cases hl : pn.left with
      | none =>
        dsimp only
        rw [modify_eq (n := pn) (by rw [upd_ne _ _ pf1]; exact hp)]
        obtain ⟨z1, z2⟩ := leafLeft hi hp hl key v hk (fun r hr => ⟨hchK r (.inr hr), c3 he hl r hr⟩) rfl
        exact ⟨_, _, rfl, .ok rfl z1 z2 hns rfl⟩
      | some l =>
        cases hr : pn.right with
        | none =>
          dsimp only
          rw [modify_eq (n := pn) (by rw [upd_ne _ _ pf1]; exact hp)]
          obtain ⟨z1, z2⟩ := leafRight hi hp hr key v hk (fun r h => ⟨hchK r (.inl h), c4 he hr r h⟩) rfl
          exact ⟨_, _, rfl, .ok rfl z1 z2 hns rfl⟩
        | some r =>
          dsimp only
          obtain ⟨ln, hln, hlp, hlk⟩ := hi.left p pn l hp hl
          obtain ⟨rn, hrn, hrp, hrk⟩ := hi.right p pn r hp hr
          obtain ⟨lf1, lf2⟩ := live_ne_fresh hi hln
          obtain ⟨rf1, rf2⟩ := live_ne_fresh hi hrn
          obtain ⟨h5, h6⟩ := hi.sib p pn l r ln rn hp hl hr hln hrn
          have nl := hch l ln (.inl hl) hln
          have nr := hch r rn (.inr hr) hrn
          have hlr : l ≠ r := by
            rintro rfl
            rw [hln] at hrn; injection hrn with hrn; subst hrn; exact h5 (Le.refl _)
          have hpl' : p ≠ l := by
            rintro rfl
            rw [hln] at hp; injection hp with hp; subst hp; exact hlk.ne rfl
          have hpr' : p ≠ r := by
            rintro rfl
            rw [hrn] at hp; injection hp with hp; subst hp; exact hrk.ne rfl
          rw [deref_eq hln, deref_eq hrn]
          dsimp only
          by_cases hcl : Le key ln.key
          · have hkl : Lt key ln.key := lt_of hcl (fun e => nl (e ▸ Le.refl _))
            by_cases hcr : Le key rn.key
            · have hkr : Lt key rn.key := lt_of hcr (fun e => nr (e ▸ Le.refl _))
              rw [if_pos (by simp [contains_iff, hcl, hcr])]
              cases hw : pn.white with
              | false => exact absurd ⟨by simpa [fK, hln] using hcl, by simpa [fK, hrn] using hcr⟩ (c2 hw l r hl hr)
              | true =>
                simp only [Bool.not_true, Bool.false_eq_true, if_false]
                rw [modify_eq (n := pn) (by rw [upd_ne _ _ pf1]; exact hp)]
                dsimp only
                rw [modify_eq (n := ln) (by rw [upd_ne _ _ hpl'.symm, upd_ne _ _ lf1]; exact hln)]
                dsimp only
                rw [modify_eq (n := rn) (by rw [upd_ne _ _ hlr.symm, upd_ne _ _ hpr'.symm, upd_ne _ _ rf1]; exact hrn)]
                obtain ⟨z1, z2⟩ := aboveBoth hi hp hl hr hln hrn key v hk hkl hkr hw rfl
                exact ⟨_, _, rfl, .ok rfl z1 z2 hns rfl⟩
            · rw [if_neg (by simp [contains_iff, hcl, hcr]), if_pos ((contains_iff _ _).2 hcl)]
              rw [modify_eq (n := pn) (by rw [upd_ne _ _ pf1]; exact hp)]
              dsimp only
              rw [modify_eq (n := ln) (by rw [upd_ne _ _ hpl'.symm, upd_ne _ _ lf1]; exact hln)]
              obtain ⟨z1, z2⟩ := aboveLeft hi hp hl hln key v hk hkl (fun r' h => by
                rw [hr] at h; injection h with h; subst h
                simp only [fK, hrn]; exact ⟨nr, hcr⟩) rfl
              exact ⟨_, _, rfl, .ok rfl z1 z2 hns rfl⟩
          · rw [if_neg (by simp [contains_iff, hcl]), if_neg (fun h => hcl ((contains_iff _ _).1 h))]
            by_cases hcr : Le key rn.key
            · have hkr : Lt key rn.key := lt_of hcr (fun e => nr (e ▸ Le.refl _))
              rw [if_pos ((contains_iff _ _).2 hcr)]
              rw [modify_eq (n := pn) (by rw [upd_ne _ _ pf1]; exact hp)]
              dsimp only
              rw [modify_eq (n := rn) (by rw [upd_ne _ _ hpr'.symm, upd_ne _ _ rf1]; exact hrn)]
              obtain ⟨z1, z2⟩ := aboveRight hi hp hr hrn key v hk hkr (fun r' h => by
                rw [hl] at h; injection h with h; subst h
                simp only [fK, hln]; exact ⟨nl, hcl⟩) rfl
              exact ⟨_, _, rfl, .ok rfl z1 z2 hns rfl⟩
            · rw [if_neg (fun h => hcr ((contains_iff _ _).1 h))]
              exact addFullCollision_spec hi inodeOk key v hp hl hr hln hrn hk nl nr hcl hcr hns
end
end Jool.Rtrie
