import Verif.Lemmas.Rtrie
/-
The invariant of the radix trie, field by field: convenient for proving that it is preserved.
-/
namespace Jool.Rtrie
variable {V : Type}

def fLive (h : Heap V) (a : Nat) : Bool := (h a).isSome
def fL (h : Heap V) (a : Nat) : Option Nat := (h a).bind (fun n => n.left)
def fR (h : Heap V) (a : Nat) : Option Nat := (h a).bind (fun n => n.right)
def fP (h : Heap V) (a : Nat) : Option Nat := (h a).bind (fun n => n.parent)
def fW (h : Heap V) (a : Nat) : Bool := (h a).any (fun n => n.white)
def fV (h : Heap V) (a : Nat) : Option V := (h a).bind (fun n => n.val)
def fK (h : Heap V) (a : Nat) : Key := match h a with | some n => n.key | none => []

structure FInv (t : Trie V) : Prop where
  fresh : ∀ a, t.fresh ≤ a → fLive t.heap a = false
  root : ∀ a, t.root = some a → fLive t.heap a = true ∧ fP t.heap a = none
  only : ∀ a, fLive t.heap a = true → fP t.heap a = none → t.root = some a
  left : ∀ a c, fL t.heap a = some c → fLive t.heap c = true ∧ fP t.heap c = some a ∧ Lt (fK t.heap a) (fK t.heap c)
  right : ∀ a c, fR t.heap a = some c → fLive t.heap c = true ∧ fP t.heap c = some a ∧ Lt (fK t.heap a) (fK t.heap c)
  up : ∀ a p, fP t.heap a = some p → fL t.heap p = some a ∨ fR t.heap p = some a
  sib : ∀ a l r, fL t.heap a = some l → fR t.heap a = some r →
    ¬ Le (fK t.heap l) (fK t.heap r) ∧ ¬ Le (fK t.heap r) (fK t.heap l)
  black : ∀ a, fLive t.heap a = true → fW t.heap a = false → fL t.heap a ≠ none ∧ fR t.heap a ≠ none
  val : ∀ a, fLive t.heap a = true → (fW t.heap a = true ↔ fV t.heap a ≠ none)
  nodup : t.list.Nodup
  list : ∀ a, a ∈ t.list ↔ fLive t.heap a = true
  dead : ∀ a, fLive t.heap a = false → fL t.heap a = none ∧ fR t.heap a = none ∧ fP t.heap a = none

theorem live_iff {h : Heap V} {a : Nat} : fLive h a = true ↔ ∃ n, h a = some n := by
  unfold fLive; cases h a <;> simp

theorem Inv.f {t : Trie V} (hi : Inv t) : FInv t := by
  have getL : ∀ a c, fL t.heap a = some c → ∃ n, t.heap a = some n ∧ n.left = some c := by
    intro a c h; unfold fL at h; cases hh : t.heap a with
    | none => rw [hh] at h; simp at h
    | some n => rw [hh] at h; exact ⟨n, rfl, h⟩
  have getR : ∀ a c, fR t.heap a = some c → ∃ n, t.heap a = some n ∧ n.right = some c := by
    intro a c h; unfold fR at h; cases hh : t.heap a with
    | none => rw [hh] at h; simp at h
    | some n => rw [hh] at h; exact ⟨n, rfl, h⟩
  constructor
  · intro a h; simp [fLive, hi.fresh a h]
  · intro a h; obtain ⟨n, h1, h2⟩ := hi.root a h; simp [fLive, fP, h1, h2]
  · intro a h1 h2; obtain ⟨n, h1⟩ := live_iff.1 h1; exact hi.only a n h1 (by simpa [fP, h1] using h2)
  · intro a c h; obtain ⟨n, h1, h2⟩ := getL a c h; obtain ⟨m, h3, h4, h5⟩ := hi.left a n c h1 h2
    simp [fLive, fP, fK, h1, h3, h4, h5]
  · intro a c h; obtain ⟨n, h1, h2⟩ := getR a c h; obtain ⟨m, h3, h4, h5⟩ := hi.right a n c h1 h2
    simp [fLive, fP, fK, h1, h3, h4, h5]
  · intro a p h
    unfold fP at h
    cases hh : t.heap a with
    | none => rw [hh] at h; simp at h
    | some n =>
      rw [hh] at h
      obtain ⟨m, h1, h2⟩ := hi.up a n p hh h
      simpa [fL, fR, h1] using h2
  · intro a l r h1 h2
    obtain ⟨n, h3, h4⟩ := getL a l h1
    obtain ⟨n', h5, h6⟩ := getR a r h2
    rw [h3] at h5; injection h5 with h5; subst h5
    obtain ⟨ml, h7, _⟩ := hi.left a n l h3 h4
    obtain ⟨mr, h8, _⟩ := hi.right a n r h3 h6
    have := hi.sib a n l r ml mr h3 h4 h6 h7 h8
    simpa [fK, h7, h8] using this
  · intro a h1 h2
    obtain ⟨n, h1⟩ := live_iff.1 h1
    obtain ⟨⟨l, h3⟩, ⟨r, h4⟩⟩ := hi.black a n h1 (by simpa [fW, h1] using h2)
    simp [fL, fR, h1, h3, h4]
  · intro a h1
    obtain ⟨n, h1⟩ := live_iff.1 h1
    have := hi.val a n h1
    simp only [fW, fV, h1, Option.any_some, Option.bind_some, this]
    cases n.val <;> simp
  · exact hi.nodup
  · intro a; rw [hi.list, live_iff]
  · intro a h
    have : t.heap a = none := by simpa [fLive] using h
    simp [fL, fR, fP, this]

theorem FInv.inv {t : Trie V} (hi : FInv t) : Inv t := by
  constructor
  · intro a h; simpa [fLive] using hi.fresh a h
  · intro a h
    obtain ⟨h1, h2⟩ := hi.root a h
    obtain ⟨n, h1⟩ := live_iff.1 h1
    exact ⟨n, h1, by simpa [fP, h1] using h2⟩
  · intro a n h1 h2; exact hi.only a (by simp [fLive, h1]) (by simp [fP, h1, h2])
  · intro a n c h1 h2
    obtain ⟨h3, h4, h5⟩ := hi.left a c (by simp [fL, h1, h2])
    obtain ⟨m, h3⟩ := live_iff.1 h3
    exact ⟨m, h3, by simpa [fP, h3] using h4, by simpa [fK, h1, h3] using h5⟩
  · intro a n c h1 h2
    obtain ⟨h3, h4, h5⟩ := hi.right a c (by simp [fR, h1, h2])
    obtain ⟨m, h3⟩ := live_iff.1 h3
    exact ⟨m, h3, by simpa [fP, h3] using h4, by simpa [fK, h1, h3] using h5⟩
  · intro a n p h1 h2
    have h3 := hi.up a p (by simp [fP, h1, h2])
    cases hh : t.heap p with
    | none => simp [fL, fR, hh] at h3
    | some m => exact ⟨m, rfl, by simpa [fL, fR, hh] using h3⟩
  · intro a n l r ml mr h1 h2 h3 h4 h5
    have := hi.sib a l r (by simp [fL, h1, h2]) (by simp [fR, h1, h3])
    simpa [fK, h4, h5] using this
  · intro a n h1 h2
    obtain ⟨h3, h4⟩ := hi.black a (by simp [fLive, h1]) (by simp [fW, h1, h2])
    simp only [fL, fR, h1, Option.bind_some] at h3 h4
    exact ⟨Option.ne_none_iff_exists'.1 h3, Option.ne_none_iff_exists'.1 h4⟩
  · intro a n h1
    have := hi.val a (by simp [fLive, h1])
    simp only [fW, fV, h1, Option.any_some, Option.bind_some, ne_eq] at this
    rw [this]
    exact Option.ne_none_iff_exists'
  · exact hi.nodup
  · intro a; rw [hi.list, live_iff]

@[simp] theorem fLive_upd (h : Heap V) (a : Nat) (n : Node V) (x : Nat) :
    fLive (upd h a n) x = if x = a then true else fLive h x := by unfold fLive upd; split <;> rfl
@[simp] theorem fL_upd (h : Heap V) (a : Nat) (n : Node V) (x : Nat) :
    fL (upd h a n) x = if x = a then n.left else fL h x := by unfold fL upd; split <;> rfl
@[simp] theorem fR_upd (h : Heap V) (a : Nat) (n : Node V) (x : Nat) :
    fR (upd h a n) x = if x = a then n.right else fR h x := by unfold fR upd; split <;> rfl
@[simp] theorem fP_upd (h : Heap V) (a : Nat) (n : Node V) (x : Nat) :
    fP (upd h a n) x = if x = a then n.parent else fP h x := by unfold fP upd; split <;> rfl
@[simp] theorem fW_upd (h : Heap V) (a : Nat) (n : Node V) (x : Nat) :
    fW (upd h a n) x = if x = a then n.white else fW h x := by unfold fW upd; split <;> rfl
@[simp] theorem fV_upd (h : Heap V) (a : Nat) (n : Node V) (x : Nat) :
    fV (upd h a n) x = if x = a then n.val else fV h x := by unfold fV upd; split <;> rfl
@[simp] theorem fK_upd (h : Heap V) (a : Nat) (n : Node V) (x : Nat) :
    fK (upd h a n) x = if x = a then n.key else fK h x := by
  unfold fK upd; by_cases hx : x = a <;> simp [hx]
@[simp] theorem fLive_free (h : Heap V) (a : Nat) (x : Nat) :
    fLive (free h a) x = if x = a then false else fLive h x := by unfold fLive free; split <;> rfl
@[simp] theorem fL_free (h : Heap V) (a : Nat) (x : Nat) :
    fL (free h a) x = if x = a then none else fL h x := by unfold fL free; split <;> rfl
@[simp] theorem fR_free (h : Heap V) (a : Nat) (x : Nat) :
    fR (free h a) x = if x = a then none else fR h x := by unfold fR free; split <;> rfl
@[simp] theorem fP_free (h : Heap V) (a : Nat) (x : Nat) :
    fP (free h a) x = if x = a then none else fP h x := by unfold fP free; split <;> rfl
@[simp] theorem fW_free (h : Heap V) (a : Nat) (x : Nat) :
    fW (free h a) x = if x = a then false else fW h x := by unfold fW free; split <;> rfl
@[simp] theorem fV_free (h : Heap V) (a : Nat) (x : Nat) :
    fV (free h a) x = if x = a then none else fV h x := by unfold fV free; split <;> rfl
@[simp] theorem fK_free (h : Heap V) (a : Nat) (x : Nat) :
    fK (free h a) x = if x = a then [] else fK h x := by
  unfold fK free; by_cases hx : x = a <;> simp [hx]

theorem fields {h : Heap V} {a : Nat} {n : Node V} (ha : h a = some n) :
    fLive h a = true ∧ fL h a = n.left ∧ fR h a = n.right ∧ fP h a = n.parent ∧ fW h a = n.white ∧ fV h a = n.val ∧
      fK h a = n.key := by
  simp [fLive, fL, fR, fP, fW, fV, fK, ha]

end Jool.Rtrie
