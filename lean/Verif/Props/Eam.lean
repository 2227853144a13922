import Verif.Model.Eam
import Verif.Lemmas.Addr
import Verif.Props.Prefix
import Verif.Props.RtrieList
/-
C08–C12, C61: the Explicit Address Mappings Table behaves like a set of pairs of prefixes.

The full claims are false (`Verif.Props.EamDefects`); `Allowed` says, in terms of the contents of the table, for which
requests they hold.
-/
namespace Jool.Eam
open Jool.Rtrie (Key Trie Code Table IsLongest put Repr Nested)
open Jool.PrefixSpec

/-! ## The specification

The table is a list of entries; the order is of no consequence. -/

/-- The entries that the table takes. -/
def Valid (e : Entry) : Prop := Canonical6 e.p6 ∧ Canonical4 e.p4 ∧ 32 - e.p4.len ≤ 128 - e.p6.len

/-- All of the addresses of `q` are addresses of `p`. -/
def In6 (p q : Prefix6) : Prop := p.len ≤ q.len ∧ Mem6 p q.addr
def In4 (p q : Prefix4) : Prop := p.len ≤ q.len ∧ Mem4 p q.addr

/-- The addition has to be refused. -/
def Clash (M : List Entry) (e : Entry) (force : Bool) : Prop :=
  if force then ∃ x ∈ M, x.p6 = e.p6 ∨ x.p4 = e.p4
  else ∃ x ∈ M, Mem6 x.p6 e.p6.addr ∨ Mem4 x.p4 e.p4.addr

/-- The entry is the one that the request describes. -/
def Matches (p6 : Option Prefix6) (p4 : Option Prefix4) (x : Entry) : Prop :=
  (∀ p, p6 = some p → p.len = x.p6.len ∧ Mem6 p x.p6.addr) ∧
  (∀ p, p4 = some p → p.len = x.p4.len ∧ Mem4 p x.p4.addr)

/-- The requests. -/
inductive Op
  | add (m : Mem) (e : Entry) (force : Bool)
  | rm (m : Mem) (p6 : Option Prefix6) (p4 : Option Prefix4)
  | flush

/-- What a request answers, and what it does. -/
inductive Spec (M : List Entry) : Op → Code → List Entry → Prop
  | invalid (m e f) : ¬ Valid e → Spec M (.add m e f) .einval M
  | clash (m e f) : Valid e → Clash M e f → Spec M (.add m e f) .eexist M
  | noMem (m e f) : Valid e → ¬ Clash M e f → ¬ (m.leaf6 ∧ m.inode6 ∧ m.leaf4 ∧ m.inode4) →
      Spec M (.add m e f) .enomem M
  | added (m e f) : Valid e → ¬ Clash M e f → Spec M (.add m e f) .ok (e :: M)
  | nothing (m) : Spec M (.rm m none none) .einval M
  | srch (m p6 p4) : ¬ (p6 = none ∧ p4 = none) → (∀ x ∈ M, ¬ Matches p6 p4 x) → Spec M (.rm m p6 p4) .esrch M
  | removed (m p6 p4 x) : ¬ (p6 = none ∧ p4 = none) → x ∈ M → Matches p6 p4 x → Spec M (.rm m p6 p4) .ok (M.erase x)
  | flushed : Spec M .flush .ok []

/-- The prefixes of the entries inside of this one are inside of one another. -/
def Nested6 (M : List Entry) (p : Prefix6) : Prop :=
  ∀ x ∈ M, ∀ y ∈ M, In6 p x.p6 → In6 p y.p6 → x.p6 ≠ p → y.p6 ≠ p → In6 x.p6 y.p6 ∨ In6 y.p6 x.p6
def Nested4 (M : List Entry) (p : Prefix4) : Prop :=
  ∀ x ∈ M, ∀ y ∈ M, In4 p x.p4 → In4 p y.p4 → x.p4 ≠ p → y.p4 ≠ p → In4 x.p4 y.p4 ∨ In4 y.p4 x.p4

/-- The requests that the table can take: no prefix is added after others inside of it, and what is inside of the
prefixes that are removed is nested (unless all the table is inside, and memory can be allocated). -/
def Allowed (M : List Entry) : Op → Prop
  | .add _ e _ => ∀ x ∈ M, (In6 e.p6 x.p6 → x.p6 = e.p6) ∧ (In4 e.p4 x.p4 → x.p4 = e.p4)
  | .rm m p6 p4 => ∀ x ∈ M, Matches p6 p4 x →
      (Nested6 M x.p6 ∨ (m.inode6 = true ∧ ∀ y ∈ M, In6 x.p6 y.p6)) ∧
      (Nested4 M x.p4 ∨ (m.inode4 = true ∧ ∀ y ∈ M, In4 x.p4 y.p4))
  | .flush => True

/-- The longest of the prefixes that contain the address. -/
def IsBest6 (M : List Entry) (a : Addr6) (r : Option Entry) : Prop :=
  (r = none ∧ ∀ x ∈ M, ¬ Mem6 x.p6 a) ∨
  ∃ e ∈ M, r = some e ∧ Mem6 e.p6 a ∧ ∀ x ∈ M, Mem6 x.p6 a → x.p6.len ≤ e.p6.len
def IsBest4 (M : List Entry) (a : Addr4) (r : Option Entry) : Prop :=
  (r = none ∧ ∀ x ∈ M, ¬ Mem4 x.p4 a) ∨
  ∃ e ∈ M, r = some e ∧ Mem4 e.p4 a ∧ ∀ x ∈ M, Mem4 x.p4 a → x.p4.len ≤ e.p4.len

/-! ## The model -/

def step (t : Eamt) : Op → Outcome (Eamt × Code)
  | .add m e f => add t m e f
  | .rm m p6 p4 => rm t m p6 p4
  | .flush => .ok (flush t, .ok)

def run (t : Eamt) : List Op → Outcome (Eamt × List Code)
  | [] => .ok (t, [])
  | o :: os => (step t o).bind (fun p => (run p.1 os).map (fun q => (q.1, p.2 :: q.2)))

inductive Hist : List Entry → List Op → List Code → List Entry → Prop
  | nil (M) : Hist M [] [] M
  | cons {M M' M'' o os c cs} : Spec M o c M' → Hist M' os cs M'' → Hist M (o :: os) (c :: cs) M''

def AllAllowed (M : List Entry) : List Op → Prop
  | [] => True
  | o :: os => Allowed M o ∧ ∀ c M', Spec M o c M' → AllAllowed M' os

/-! ## Keys -/

theorem key_length {n : Nat} (a : BitVec n) (l : Nat) : (key a l).length = l := by simp [key]

theorem key_prefix {n m : Nat} (a : BitVec n) (b : BitVec m) (la lb : Nat) :
    key a la <+: key b lb ↔ la ≤ lb ∧ ∀ i, i < la → b.getMsbD i = a.getMsbD i := by
  constructor
  · intro h
    have hl := h.length_le
    rw [key_length, key_length] at hl
    refine ⟨hl, fun i hi => ?_⟩
    have := h.getElem (i := i) (by rw [key_length]; exact hi)
    simpa [key] using this.symm
  · rintro ⟨hl, h⟩
    rw [List.prefix_iff_eq_take]
    apply List.ext_getElem
    · simp [key]; omega
    · intro i h1 h2
      rw [key_length] at h1
      simp [key, h i h1]

theorem key_eq {n : Nat} (a b : BitVec n) (la lb : Nat) :
    key a la = key b lb ↔ la = lb ∧ ∀ i, i < la → b.getMsbD i = a.getMsbD i := by
  constructor
  · intro h
    have h1 := (key_prefix a b la lb).1 (h ▸ List.prefix_refl _)
    refine ⟨?_, h1.2⟩
    have := congrArg List.length h
    rwa [key_length, key_length] at this
  · rintro ⟨hl, h⟩
    exact List.IsPrefix.eq_of_length ((key_prefix a b la lb).2 ⟨Nat.le_of_eq hl, h⟩) (by simp [key_length, hl])

theorem in6_iff (p q : Prefix6) : In6 p q ↔ key6 p <+: key6 q := (key_prefix _ _ _ _).symm
theorem in4_iff (p q : Prefix4) : In4 p q ↔ key4 p <+: key4 q := (key_prefix _ _ _ _).symm

theorem mem6_iff (p : Prefix6) (a : Addr6) (h : p.len ≤ 128) : Mem6 p a ↔ key6 p <+: key a 128 := by
  unfold key6; rw [key_prefix]; exact ⟨fun k => ⟨h, k⟩, fun k => k.2⟩
theorem mem4_iff (p : Prefix4) (a : Addr4) (h : p.len ≤ 32) : Mem4 p a ↔ key4 p <+: key a 32 := by
  unfold key4; rw [key_prefix]; exact ⟨fun k => ⟨h, k⟩, fun k => k.2⟩

theorem eq_of_key6 {p q : Prefix6} (hp : Canonical6 p) (hq : Canonical6 q) (h : key6 p = key6 q) : p = q := by
  obtain ⟨h1, h2⟩ := (key_eq _ _ _ _).1 h
  obtain ⟨pa, pl⟩ := p
  obtain ⟨qa, ql⟩ := q
  simp only at h1 h2
  subst h1
  congr 1
  apply BitVec.eq_of_getMsbD_eq
  intro i hi
  by_cases hl : i < pl
  · exact (h2 i hl).symm
  · rw [hp.2 i (by simp; omega) hi, hq.2 i (by simp; omega) hi]

theorem eq_of_key4 {p q : Prefix4} (hp : Canonical4 p) (hq : Canonical4 q) (h : key4 p = key4 q) : p = q := by
  obtain ⟨h1, h2⟩ := (key_eq _ _ _ _).1 h
  obtain ⟨pa, pl⟩ := p
  obtain ⟨qa, ql⟩ := q
  simp only at h1 h2
  subst h1
  congr 1
  apply BitVec.eq_of_getMsbD_eq
  intro i hi
  by_cases hl : i < pl
  · exact (h2 i hl).symm
  · rw [hp.2 i (by simp; omega) hi, hq.2 i (by simp; omega) hi]

theorem validate_iff (e : Entry) : validatePrefixes e = true ↔ Valid e := by
  unfold validatePrefixes Valid
  cases h6 : prefix6Validate e.p6 with
  | false =>
    simp only [Bool.not_false, if_true, Bool.false_eq_true, false_iff]
    intro ⟨h, _⟩
    rw [(prefix6Validate_iff e.p6).2 h] at h6; simp at h6
  | true =>
    have c6 := (prefix6Validate_iff e.p6).1 h6
    cases h4 : prefix4Validate e.p4 with
    | false =>
      simp only [Bool.not_true, Bool.not_false, if_true, Bool.false_eq_true, if_false, false_iff]
      intro ⟨_, h, _⟩
      rw [(prefix4Validate_iff e.p4).2 h] at h4; simp at h4
    | true =>
      have c4 := (prefix4Validate_iff e.p4).1 h4
      simp only [Bool.not_true, Bool.false_eq_true, if_false]
      by_cases hl : 32 - e.p4.len > 128 - e.p6.len
      · rw [if_pos hl]; simp; intro _ _; omega
      · rw [if_neg hl]; simp; exact ⟨c6, c4, by omega⟩

/-! ## Lists as tables -/

def tab (f : Entry → Key) (M : List Entry) : Table Entry := fun k => M.find? (fun e => f e = k)

def Uniq (f : Entry → Key) (M : List Entry) : Prop := ∀ x ∈ M, ∀ y ∈ M, f x = f y → x = y

theorem tab_some {f : Entry → Key} {M : List Entry} (hu : Uniq f M) (k : Key) (e : Entry) :
    tab f M k = some e ↔ e ∈ M ∧ f e = k := by
  unfold tab
  constructor
  · intro h
    exact ⟨List.mem_of_find?_eq_some h, by simpa using List.find?_some h⟩
  · rintro ⟨h1, h2⟩
    cases h : M.find? (fun e => f e = k) with
    | none => have := List.find?_eq_none.1 h e h1; simp [h2] at this
    | some x =>
      have hx : f x = k := by simpa using List.find?_some h
      rw [hu x (List.mem_of_find?_eq_some h) e h1 (hx.trans h2.symm)]

theorem tab_ne_none {f : Entry → Key} {M : List Entry} (k : Key) :
    tab f M k ≠ none ↔ ∃ e ∈ M, f e = k := by
  unfold tab
  rw [Ne, List.find?_eq_none]
  simp

theorem tab_cons (f : Entry → Key) (M : List Entry) (e : Entry) :
    tab f (e :: M) = put (tab f M) (f e) (some e) := by
  funext k
  unfold tab put
  rw [List.find?_cons]
  by_cases h : k = f e
  · subst h; simp
  · rw [if_neg h]; simp [show ¬ f e = k from fun h' => h h'.symm]

theorem tab_erase {f : Entry → Key} {M : List Entry} (hu : Uniq f M) (hn : M.Nodup) {x : Entry} (hx : x ∈ M) :
    tab f (M.erase x) = put (tab f M) (f x) none := by
  have hu' : Uniq f (M.erase x) := fun a ha b hb h => hu a (List.mem_of_mem_erase ha) b (List.mem_of_mem_erase hb) h
  funext k
  apply Option.ext
  intro e
  rw [tab_some hu']
  unfold put
  rw [hn.mem_erase_iff]
  by_cases h : k = f x
  · rw [if_pos h]
    simp only [reduceCtorEq, iff_false]
    rintro ⟨⟨h1, h2⟩, h3⟩
    exact h1 (hu e h2 x hx (h3.trans h))
  · rw [if_neg h, tab_some hu]
    constructor
    · rintro ⟨⟨_, h2⟩, h3⟩; exact ⟨h2, h3⟩
    · rintro ⟨h2, h3⟩
      refine ⟨⟨?_, h2⟩, h3⟩
      rintro rfl
      exact h h3.symm

/-! ## The refinement -/

abbrev f6 (e : Entry) : Key := key6 e.p6
abbrev f4 (e : Entry) : Key := key4 e.p4

/-- The table stands for this set of entries. -/
structure Holds (t : Eamt) (M : List Entry) : Prop where
  r6 : Repr t.trie6 (tab f6 M)
  r4 : Repr t.trie4 (tab f4 M)
  u6 : Uniq f6 M
  u4 : Uniq f4 M
  nodup : M.Nodup
  valid : ∀ e ∈ M, Valid e
  count : t.count = M.length

theorem holds_init : Holds init [] where
  r6 := Rtrie.repr_init
  r4 := Rtrie.repr_init
  u6 := by intro x hx; simp at hx
  u4 := by intro x hx; simp at hx
  nodup := List.nodup_nil
  valid := by simp
  count := rfl

/-- A lookup in one of the tries, in terms of the entries. -/
theorem find_tab {t : Trie Entry} {f : Entry → Key} {M : List Entry} (hr : Repr t (tab f M)) (hu : Uniq f M) (k : Key) :
    (Rtrie.find t k = .ok none ∧ ∀ x ∈ M, ¬ f x <+: k) ∨
    (∃ e ∈ M, Rtrie.find t k = .ok (some e) ∧ f e <+: k ∧ ∀ x ∈ M, f x <+: k → (f x).length ≤ (f e).length) := by
  obtain ⟨r, h, hl⟩ := Rtrie.find_longest hr k
  rcases hl with ⟨rfl, hl⟩ | ⟨k', v, rfl, h1, h2, h3⟩
  · refine .inl ⟨h, fun x hx hp => ?_⟩
    have := hl _ hp
    exact (tab_ne_none (f := f) (M := M) (f x)).2 ⟨x, hx, rfl⟩ this
  · obtain ⟨hm, rfl⟩ := (tab_some hu k' v).1 h2
    exact .inr ⟨v, hm, h, h1, fun x hx hp => h3 _ hp ((tab_ne_none _).2 ⟨x, hx, rfl⟩)⟩

/-- C08: in both directions, lookups are longest-prefix matches. -/
theorem lookup6 {t : Eamt} {M : List Entry} (h : Holds t M) (a : Addr6) :
    ∃ r, xlat64 t a = .ok (r.map (fun e => (xlat64With e a, e))) ∧ IsBest6 M a r := by
  unfold xlat64
  rcases find_tab h.r6 h.u6 (key a 128) with ⟨h1, h2⟩ | ⟨e, he, h1, h2, h3⟩
  · rw [h1]
    exact ⟨none, rfl, .inl ⟨rfl, fun x hx hm => h2 x hx ((mem6_iff _ _ (h.valid x hx).1.1).1 hm)⟩⟩
  · rw [h1]
    refine ⟨some e, rfl, .inr ⟨e, he, rfl, (mem6_iff _ _ (h.valid e he).1.1).2 h2, fun x hx hm => ?_⟩⟩
    have := h3 x hx ((mem6_iff _ _ (h.valid x hx).1.1).1 hm)
    simpa [f6, key6, key_length] using this

theorem lookup4 {t : Eamt} {M : List Entry} (h : Holds t M) (a : Addr4) :
    ∃ r, xlat46 t a = .ok (r.map (fun e => (xlat46With e a, e))) ∧ IsBest4 M a r := by
  unfold xlat46
  rcases find_tab h.r4 h.u4 (key a 32) with ⟨h1, h2⟩ | ⟨e, he, h1, h2, h3⟩
  · rw [h1]
    exact ⟨none, rfl, .inl ⟨rfl, fun x hx hm => h2 x hx ((mem4_iff _ _ (h.valid x hx).2.1.1).1 hm)⟩⟩
  · rw [h1]
    refine ⟨some e, rfl, .inr ⟨e, he, rfl, (mem4_iff _ _ (h.valid e he).2.1.1).2 h2, fun x hx hm => ?_⟩⟩
    have := h3 x hx ((mem4_iff _ _ (h.valid x hx).2.1.1).1 hm)
    simpa [f4, key4, key_length] using this

/-- C08: the queries that only tell whether there is an entry. -/
theorem contains6_spec {t : Eamt} {M : List Entry} (h : Holds t M) (a : Addr6) :
    ∃ b, contains6 t a = .ok b ∧ (b = true ↔ ∃ x ∈ M, Mem6 x.p6 a) := by
  obtain ⟨b, h1, h2⟩ := Rtrie.trieContains_spec h.r6 (key a 128)
  refine ⟨b, h1, h2.trans ?_⟩
  constructor
  · rintro ⟨k, hk, hs⟩
    obtain ⟨x, hx, rfl⟩ := (tab_ne_none _).1 hs
    exact ⟨x, hx, (mem6_iff _ _ (h.valid x hx).1.1).2 hk⟩
  · rintro ⟨x, hx, hm⟩
    exact ⟨_, (mem6_iff _ _ (h.valid x hx).1.1).1 hm, (tab_ne_none _).2 ⟨x, hx, rfl⟩⟩

theorem contains4_spec {t : Eamt} {M : List Entry} (h : Holds t M) (a : Addr4) :
    ∃ b, contains4 t a = .ok b ∧ (b = true ↔ ∃ x ∈ M, Mem4 x.p4 a) := by
  obtain ⟨b, h1, h2⟩ := Rtrie.trieContains_spec h.r4 (key a 32)
  refine ⟨b, h1, h2.trans ?_⟩
  constructor
  · rintro ⟨k, hk, hs⟩
    obtain ⟨x, hx, rfl⟩ := (tab_ne_none _).1 hs
    exact ⟨x, hx, (mem4_iff _ _ (h.valid x hx).2.1.1).2 hk⟩
  · rintro ⟨x, hx, hm⟩
    exact ⟨_, (mem4_iff _ _ (h.valid x hx).2.1.1).1 hm, (tab_ne_none _).2 ⟨x, hx, rfl⟩⟩

/-! ### Additions -/

theorem eq6_iff {M : List Entry} (hv : ∀ e ∈ M, Valid e) {e : Entry} (he : Valid e) {x : Entry} (hx : x ∈ M) :
    f6 x = f6 e ↔ x.p6 = e.p6 :=
  ⟨fun h => eq_of_key6 (hv x hx).1 he.1 h, fun h => by rw [f6, h]⟩
theorem eq4_iff {M : List Entry} (hv : ∀ e ∈ M, Valid e) {e : Entry} (he : Valid e) {x : Entry} (hx : x ∈ M) :
    f4 x = f4 e ↔ x.p4 = e.p4 :=
  ⟨fun h => eq_of_key4 (hv x hx).2.1 he.2.1 h, fun h => by rw [f4, h]⟩

/-- The longest entry that contains the first address of a prefix with nothing inside. -/
theorem collide6 {t : Eamt} {M : List Entry} (h : Holds t M) {e : Entry} (he : Valid e)
    (ha : ∀ x ∈ M, In6 e.p6 x.p6 → x.p6 = e.p6) (force : Bool) :
    ∃ r, Rtrie.find t.trie6 (key e.p6.addr 128) = .ok r ∧
      (check6 e force r = .ok ∨
        check6 e force r = .eexist) ∧
      (check6 e force r = .eexist ↔
        if force then ∃ x ∈ M, x.p6 = e.p6 else ∃ x ∈ M, Mem6 x.p6 e.p6.addr) := by
  rcases find_tab h.r6 h.u6 (key e.p6.addr 128) with ⟨h1, h2⟩ | ⟨o, ho, h1, h2, h3⟩
  · refine ⟨none, h1, .inl rfl, ?_⟩
    simp only [check6, reduceCtorEq, false_iff]
    split
    · rintro ⟨x, hx, hxe⟩
      exact h2 x hx ((mem6_iff _ _ (h.valid x hx).1.1).1 (by rw [hxe]; intro i _; rfl))
    · rintro ⟨x, hx, hm⟩
      exact h2 x hx ((mem6_iff _ _ (h.valid x hx).1.1).1 hm)
  · have hmo : Mem6 o.p6 e.p6.addr := (mem6_iff _ _ (h.valid o ho).1.1).2 h2
    refine ⟨some o, h1, ?_⟩
    simp only [check6, collision6]
    by_cases hl : e.p6.len = o.p6.len
    · have hoe : o.p6 = e.p6 := (eq6_iff h.valid he ho).1 ((key_eq _ _ _ _).2 ⟨hl.symm, hmo⟩)
      rw [if_pos hl]
      refine ⟨.inr rfl, by simp only [true_iff]; split; exact ⟨o, ho, hoe⟩; exact ⟨o, ho, hmo⟩⟩
    · rw [if_neg hl]
      cases force with
      | false =>
        refine ⟨.inr rfl, ?_⟩
        simp only [Bool.false_eq_true, if_false, true_iff]
        exact ⟨o, ho, hmo⟩
      | true =>
        refine ⟨.inl rfl, ?_⟩
        simp only [if_true, reduceCtorEq, false_iff]
        rintro ⟨x, hx, hxe⟩
        have hlx := h3 x hx ((mem6_iff _ _ (h.valid x hx).1.1).1 (by rw [hxe]; intro i _; rfl))
        simp only [f6, key6, key_length, hxe] at hlx
        apply hl
        rw [ha o ho ⟨hlx, ?_⟩]
        intro i hi
        exact (hmo i (by omega)).symm

theorem collide4 {t : Eamt} {M : List Entry} (h : Holds t M) {e : Entry} (he : Valid e)
    (ha : ∀ x ∈ M, In4 e.p4 x.p4 → x.p4 = e.p4) (force : Bool) :
    ∃ r, Rtrie.find t.trie4 (key e.p4.addr 32) = .ok r ∧
      (check4 e force r = .ok ∨
        check4 e force r = .eexist) ∧
      (check4 e force r = .eexist ↔
        if force then ∃ x ∈ M, x.p4 = e.p4 else ∃ x ∈ M, Mem4 x.p4 e.p4.addr) := by
  rcases find_tab h.r4 h.u4 (key e.p4.addr 32) with ⟨h1, h2⟩ | ⟨o, ho, h1, h2, h3⟩
  · refine ⟨none, h1, .inl rfl, ?_⟩
    simp only [check4, reduceCtorEq, false_iff]
    split
    · rintro ⟨x, hx, hxe⟩
      exact h2 x hx ((mem4_iff _ _ (h.valid x hx).2.1.1).1 (by rw [hxe]; intro i _; rfl))
    · rintro ⟨x, hx, hm⟩
      exact h2 x hx ((mem4_iff _ _ (h.valid x hx).2.1.1).1 hm)
  · have hmo : Mem4 o.p4 e.p4.addr := (mem4_iff _ _ (h.valid o ho).2.1.1).2 h2
    refine ⟨some o, h1, ?_⟩
    simp only [check4, collision4]
    by_cases hl : e.p4.len = o.p4.len
    · have hoe : o.p4 = e.p4 := (eq4_iff h.valid he ho).1 ((key_eq _ _ _ _).2 ⟨hl.symm, hmo⟩)
      rw [if_pos hl]
      refine ⟨.inr rfl, by simp only [true_iff]; split; exact ⟨o, ho, hoe⟩; exact ⟨o, ho, hmo⟩⟩
    · rw [if_neg hl]
      cases force with
      | false =>
        refine ⟨.inr rfl, ?_⟩
        simp only [Bool.false_eq_true, if_false, true_iff]
        exact ⟨o, ho, hmo⟩
      | true =>
        refine ⟨.inl rfl, ?_⟩
        simp only [if_true, reduceCtorEq, false_iff]
        rintro ⟨x, hx, hxe⟩
        have hlx := h3 x hx ((mem4_iff _ _ (h.valid x hx).2.1.1).1 (by rw [hxe]; intro i _; rfl))
        simp only [f4, key4, key_length, hxe] at hlx
        apply hl
        rw [ha o ho ⟨hlx, ?_⟩]
        intro i hi
        exact (hmo i (by omega)).symm

theorem overlap_spec {t : Eamt} {M : List Entry} (h : Holds t M) {e : Entry} (he : Valid e)
    (ha : ∀ x ∈ M, (In6 e.p6 x.p6 → x.p6 = e.p6) ∧ (In4 e.p4 x.p4 → x.p4 = e.p4)) (force : Bool) :
    (validateOverlapping t e force = .ok .eexist ∧ Clash M e force) ∨
    (validateOverlapping t e force = .ok .ok ∧ ¬ Clash M e force) := by
  obtain ⟨r6, a1, a2, a3⟩ := collide6 h he (fun x hx => (ha x hx).1) force
  obtain ⟨r4, b1, b2, b3⟩ := collide4 h he (fun x hx => (ha x hx).2) force
  unfold validateOverlapping
  rw [a1]
  dsimp only [Outcome.bind]
  rcases a2 with a2 | a2
  · rw [a2] at a3 ⊢
    rw [if_neg (by simp), b1]
    dsimp only [Outcome.map]
    rcases b2 with b2 | b2
    · rw [b2] at b3 ⊢
      refine .inr ⟨rfl, ?_⟩
      unfold Clash
      cases force
      · simp only [Bool.false_eq_true, if_false, reduceCtorEq, false_iff] at a3 b3 ⊢
        rintro ⟨x, hx, hh | hh⟩
        · exact a3 ⟨x, hx, hh⟩
        · exact b3 ⟨x, hx, hh⟩
      · simp only [if_true, reduceCtorEq, false_iff] at a3 b3 ⊢
        rintro ⟨x, hx, hh | hh⟩
        · exact a3 ⟨x, hx, hh⟩
        · exact b3 ⟨x, hx, hh⟩
    · rw [b2] at b3 ⊢
      refine .inl ⟨rfl, ?_⟩
      unfold Clash
      cases force
      · simp only [Bool.false_eq_true, if_false, true_iff] at b3 ⊢
        obtain ⟨x, hx, hh⟩ := b3; exact ⟨x, hx, .inr hh⟩
      · simp only [if_true, true_iff] at b3 ⊢
        obtain ⟨x, hx, hh⟩ := b3; exact ⟨x, hx, .inr hh⟩
  · rw [a2] at a3 ⊢
    rw [if_pos (by simp)]
    refine .inl ⟨rfl, ?_⟩
    unfold Clash
    cases force
    · simp only [Bool.false_eq_true, if_false, true_iff] at a3 ⊢
      obtain ⟨x, hx, hh⟩ := a3; exact ⟨x, hx, .inl hh⟩
    · simp only [if_true, true_iff] at a3 ⊢
      obtain ⟨x, hx, hh⟩ := a3; exact ⟨x, hx, .inl hh⟩

/-- An entry that does not clash has new prefixes. -/
theorem fresh_of {M : List Entry} {e : Entry} {force : Bool} (h : ¬ Clash M e force) :
    ∀ x ∈ M, x.p6 ≠ e.p6 ∧ x.p4 ≠ e.p4 := by
  intro x hx
  unfold Clash at h
  cases force with
  | true =>
    simp only [if_true] at h
    exact ⟨fun k => h ⟨x, hx, .inl k⟩, fun k => h ⟨x, hx, .inr k⟩⟩
  | false =>
    simp only [Bool.false_eq_true, if_false] at h
    exact ⟨fun k => h ⟨x, hx, .inl (by rw [k]; intro i _; rfl)⟩, fun k => h ⟨x, hx, .inr (by rw [k]; intro i _; rfl)⟩⟩

theorem put_none_id {S : Table Entry} {k : Key} (h : S k = none) (v : Option Entry) : put (put S k v) k none = S := by
  funext x; unfold put; split
  · rename_i e; rw [e, h]
  · rfl

theorem uniq_cons {f : Entry → Key} {M : List Entry} {e : Entry} (hu : Uniq f M) (hf : ∀ x ∈ M, f x ≠ f e) :
    Uniq f (e :: M) := by
  intro x hx y hy h
  rcases List.mem_cons.1 hx with rfl | hx
  · rcases List.mem_cons.1 hy with rfl | hy
    · rfl
    · exact absurd h.symm (hf y hy)
  · rcases List.mem_cons.1 hy with hye | hy
    · exact absurd (hye ▸ h) (hf x hx)
    · exact hu x hx y hy h

theorem add_refines {t : Eamt} {M : List Entry} (h : Holds t M) (m : Mem) (e : Entry) (force : Bool)
    (ha : Allowed M (.add m e force)) :
    ∃ t' c M', add t m e force = .ok (t', c) ∧ Spec M (.add m e force) c M' ∧ Holds t' M' := by
  unfold add
  by_cases hv : Valid e
  case neg =>
    have hf : validatePrefixes e = false := by
      cases hh : validatePrefixes e with
      | false => rfl
      | true => exact absurd ((validate_iff e).1 hh) hv
    rw [hf]
    exact ⟨_, _, M, rfl, .invalid m e force hv, h⟩
  rw [(validate_iff e).2 hv]
  simp only [Bool.not_true, Bool.false_eq_true, if_false]
  rcases overlap_spec h hv ha force with ⟨h1, hc⟩ | ⟨h1, hc⟩
  · rw [h1]
    exact ⟨_, _, M, rfl, .clash m e force hv hc, h⟩
  rw [h1]
  dsimp only [Outcome.bind]
  rw [if_neg (by simp)]
  have hfresh := fresh_of hc
  have n6 : ∀ x ∈ M, f6 x ≠ f6 e := fun x hx k => (hfresh x hx).1 ((eq6_iff h.valid hv hx).1 k)
  have n4 : ∀ x ∈ M, f4 x ≠ f4 e := fun x hx k => (hfresh x hx).2 ((eq4_iff h.valid hv hx).1 k)
  have s6 : tab f6 M (f6 e) = none := by
    cases hh : tab f6 M (f6 e) with
    | none => rfl
    | some x => have := (tab_some h.u6 _ x).1 hh; exact absurd this.2 (n6 x this.1)
  have s4 : tab f4 M (f4 e) = none := by
    cases hh : tab f4 M (f4 e) with
    | none => rfl
    | some x => have := (tab_some h.u4 _ x).1 hh; exact absurd this.2 (n4 x this.1)
  have a6 : Rtrie.Allowed (tab f6 M) (.add m.leaf6 m.inode6 (key6 e.p6) e) := by
    intro k hk hp
    obtain ⟨x, hx, rfl⟩ := (tab_ne_none _).1 hk
    exact (eq6_iff h.valid hv hx).2 ((ha x hx).1 ((in6_iff _ _).2 hp))
  have a4 : Rtrie.Allowed (tab f4 M) (.add m.leaf4 m.inode4 (key4 e.p4) e) := by
    intro k hk hp
    obtain ⟨x, hx, rfl⟩ := (tab_ne_none _).1 hk
    exact (eq4_iff h.valid hv hx).2 ((ha x hx).2 ((in4_iff _ _).2 hp))
  obtain ⟨t6, c6, S6, k1, k2, k3⟩ := Rtrie.step_refines h.r6 _ a6
  simp only [Rtrie.step] at k1
  rw [k1]
  dsimp only
  cases k2 with
  | exist _ _ _ _ _ hh => exact absurd s6 hh
  | addNoMem _ _ _ _ hh =>
    rw [if_pos (by simp)]
    refine ⟨_, _, M, rfl, .noMem m e force hv hc ?_, { h with r6 := k3 }⟩
    rintro ⟨q1, q2, _, _⟩
    rcases hh with hh | ⟨hh, _⟩
    · rw [hh] at q1; simp at q1
    · rw [hh] at q2; simp at q2
  | added _ _ _ _ _ _ =>
    rw [if_neg (by simp)]
    obtain ⟨t4, c4, S4, j1, j2, j3⟩ := Rtrie.step_refines h.r4 _ a4
    simp only [Rtrie.step] at j1
    rw [j1]
    dsimp only
    cases j2 with
    | exist _ _ _ _ _ hh => exact absurd s4 hh
    | addNoMem _ _ _ _ hh =>
      rw [if_pos (by simp)]
      have hrm : Rtrie.Allowed (put (tab f6 M) (key6 e.p6) (some e)) (.rm m.revert (key6 e.p6)) := by
        refine .inr (.inl ?_)
        intro k k' hk _ hp _ hne _
        unfold put at hk
        rw [if_neg hne] at hk
        exact absurd (a6 k hk hp) hne
      obtain ⟨t6', c6', S6', l1, l2, l3⟩ := Rtrie.step_refines k3 _ hrm
      simp only [Rtrie.step] at l1
      rw [l1]
      refine ⟨_, _, M, rfl, .noMem m e force hv hc ?_, ?_⟩
      · rintro ⟨_, _, q1, q2⟩
        rcases hh with hh | ⟨hh, _⟩
        · rw [hh] at q1; simp at q1
        · rw [hh] at q2; simp at q2
      · have l3' : Repr t6' (tab f6 M) := by
          cases l2 with
          | removed _ _ _ => rw [put_none_id s6] at l3; exact l3
          | srch _ _ hh => simp [put] at hh
          | rmNoMem _ _ _ _ hh =>
            exact absurd (fun k k' hk _ hp _ hne _ => by
              unfold put at hk
              rw [if_neg hne] at hk
              exact absurd (a6 k hk hp) hne) hh
        exact ⟨l3', j3, h.u6, h.u4, h.nodup, h.valid, h.count⟩
    | added _ _ _ _ _ _ =>
      rw [if_neg (by simp)]
      refine ⟨_, _, e :: M, rfl, .added m e force hv hc, ?_⟩
      constructor
      · rw [tab_cons]; exact k3
      · rw [tab_cons]; exact j3
      · exact uniq_cons h.u6 n6
      · exact uniq_cons h.u4 n4
      · exact List.nodup_cons.2 ⟨fun hm => n6 e hm rfl, h.nodup⟩
      · intro x hx
        rcases List.mem_cons.1 hx with rfl | hx
        · exact hv
        · exact h.valid x hx
      · simp [h.count]

/-! ### Removals -/

theorem exact6 {t : Eamt} {M : List Entry} (h : Holds t M) (p : Prefix6) :
    (getExact6 t p = .ok none ∧ ∀ x ∈ M, key6 x.p6 ≠ key6 p) ∨
    (∃ e ∈ M, getExact6 t p = .ok (some e) ∧ key6 e.p6 = key6 p) := by
  unfold getExact6
  rcases find_tab h.r6 h.u6 (key6 p) with ⟨h1, h2⟩ | ⟨e, he, h1, h2, h3⟩
  · rw [h1]; exact .inl ⟨rfl, fun x hx k => h2 x hx (by rw [f6, k]; exact List.prefix_refl _)⟩
  · rw [h1]
    by_cases hl : e.p6.len = p.len
    · refine .inr ⟨e, he, by simp [Outcome.map, hl], ?_⟩
      exact h2.eq_of_length (by simp [f6, key6, key_length, hl])
    · refine .inl ⟨by simp [Outcome.map, hl], fun x hx k => hl ?_⟩
      have := h3 x hx (by rw [f6, k]; exact List.prefix_refl _)
      have hk := congrArg List.length k
      have hle := h2.length_le
      simp only [f6, key6, key_length] at this hk hle
      omega

theorem exact4 {t : Eamt} {M : List Entry} (h : Holds t M) (p : Prefix4) :
    (getExact4 t p = .ok none ∧ ∀ x ∈ M, key4 x.p4 ≠ key4 p) ∨
    (∃ e ∈ M, getExact4 t p = .ok (some e) ∧ key4 e.p4 = key4 p) := by
  unfold getExact4
  rcases find_tab h.r4 h.u4 (key4 p) with ⟨h1, h2⟩ | ⟨e, he, h1, h2, h3⟩
  · rw [h1]; exact .inl ⟨rfl, fun x hx k => h2 x hx (by rw [f4, k]; exact List.prefix_refl _)⟩
  · rw [h1]
    by_cases hl : e.p4.len = p.len
    · refine .inr ⟨e, he, by simp [Outcome.map, hl], ?_⟩
      exact h2.eq_of_length (by simp [f4, key4, key_length, hl])
    · refine .inl ⟨by simp [Outcome.map, hl], fun x hx k => hl ?_⟩
      have := h3 x hx (by rw [f4, k]; exact List.prefix_refl _)
      have hk := congrArg List.length k
      have hle := h2.length_le
      simp only [f4, key4, key_length] at this hk hle
      omega

theorem matches_iff (p6 : Option Prefix6) (p4 : Option Prefix4) (x : Entry) :
    Matches p6 p4 x ↔ (∀ p, p6 = some p → key6 x.p6 = key6 p) ∧ (∀ p, p4 = some p → key4 x.p4 = key4 p) := by
  unfold Matches
  constructor
  · rintro ⟨h1, h2⟩
    exact ⟨fun p hp => ((key_eq _ _ _ _).2 (h1 p hp)).symm, fun p hp => ((key_eq _ _ _ _).2 (h2 p hp)).symm⟩
  · rintro ⟨h1, h2⟩
    exact ⟨fun p hp => (key_eq _ _ _ _).1 (h1 p hp).symm, fun p hp => (key_eq _ _ _ _).1 (h2 p hp).symm⟩

theorem rmBoth_spec {t : Eamt} {M : List Entry} (h : Holds t M) (m : Mem) {x : Entry} (hx : x ∈ M)
    (a6 : Nested6 M x.p6 ∨ (m.inode6 = true ∧ ∀ y ∈ M, In6 x.p6 y.p6))
    (a4 : Nested4 M x.p4 ∨ (m.inode4 = true ∧ ∀ y ∈ M, In4 x.p4 y.p4))
    {p6 : Prefix6} {p4 : Prefix4} (h6 : key6 x.p6 = key6 p6) (h4 : key4 x.p4 = key4 p4) :
    ∃ t', rmBoth t m p6 p4 = .ok (t', .ok) ∧ Holds t' (M.erase x) := by
  have hvx := h.valid x hx
  have nest6 : Nested6 M x.p6 → Nested (tab f6 M) (f6 x) := by
    intro hn k k' hk hk' hp hp' hne hne'
    obtain ⟨y, hy, rfl⟩ := (tab_ne_none _).1 hk
    obtain ⟨z, hz, rfl⟩ := (tab_ne_none _).1 hk'
    rcases hn y hy z hz ((in6_iff _ _).2 hp) ((in6_iff _ _).2 hp') (fun k => hne (by rw [f6, k]))
      (fun k => hne' (by rw [f6, k])) with q | q
    · exact .inl ((in6_iff _ _).1 q)
    · exact .inr ((in6_iff _ _).1 q)
  have nest4 : Nested4 M x.p4 → Nested (tab f4 M) (f4 x) := by
    intro hn k k' hk hk' hp hp' hne hne'
    obtain ⟨y, hy, rfl⟩ := (tab_ne_none _).1 hk
    obtain ⟨z, hz, rfl⟩ := (tab_ne_none _).1 hk'
    rcases hn y hy z hz ((in4_iff _ _).2 hp) ((in4_iff _ _).2 hp') (fun k => hne (by rw [f4, k]))
      (fun k => hne' (by rw [f4, k])) with q | q
    · exact .inl ((in4_iff _ _).1 q)
    · exact .inr ((in4_iff _ _).1 q)
  have al6 : Rtrie.Allowed (tab f6 M) (.rm m.inode6 (f6 x)) := by
    rcases a6 with a6 | ⟨_, a6⟩
    · exact .inr (.inl (nest6 a6))
    · refine .inr (.inr (fun k hk => ?_))
      obtain ⟨y, hy, rfl⟩ := (tab_ne_none _).1 hk
      exact (in6_iff _ _).1 (a6 y hy)
  have al4 : Rtrie.Allowed (tab f4 M) (.rm m.inode4 (f4 x)) := by
    rcases a4 with a4 | ⟨_, a4⟩
    · exact .inr (.inl (nest4 a4))
    · refine .inr (.inr (fun k hk => ?_))
      obtain ⟨y, hy, rfl⟩ := (tab_ne_none _).1 hk
      exact (in4_iff _ _).1 (a4 y hy)
  unfold rmBoth
  rw [← h6, ← h4]
  obtain ⟨t6, c6, S6, k1, k2, k3⟩ := Rtrie.step_refines h.r6 _ al6
  simp only [Rtrie.step] at k1
  rw [k1]
  dsimp only [Outcome.bind]
  cases k2 with
  | srch _ _ hh => exact absurd hh ((tab_ne_none _).2 ⟨x, hx, rfl⟩)
  | rmNoMem _ _ q1 _ q2 =>
    rcases a6 with a6 | ⟨a6, _⟩
    · exact absurd (nest6 a6) q2
    · rw [a6] at q1; simp at q1
  | removed _ _ _ =>
    rw [if_neg (by simp)]
    obtain ⟨t4, c4, S4, j1, j2, j3⟩ := Rtrie.step_refines h.r4 _ al4
    simp only [Rtrie.step] at j1
    rw [j1]
    dsimp only [Outcome.map]
    cases j2 with
    | srch _ _ hh => exact absurd hh ((tab_ne_none _).2 ⟨x, hx, rfl⟩)
    | rmNoMem _ _ q1 _ q2 =>
      rcases a4 with a4 | ⟨a4, _⟩
      · exact absurd (nest4 a4) q2
      · rw [a4] at q1; simp at q1
    | removed _ _ _ =>
      rw [if_neg (by simp)]
      refine ⟨_, rfl, ?_⟩
      constructor
      · rw [tab_erase h.u6 h.nodup hx]; exact k3
      · rw [tab_erase h.u4 h.nodup hx]; exact j3
      · exact fun a ha b hb hh => h.u6 a (List.mem_of_mem_erase ha) b (List.mem_of_mem_erase hb) hh
      · exact fun a ha b hb hh => h.u4 a (List.mem_of_mem_erase ha) b (List.mem_of_mem_erase hb) hh
      · exact h.nodup.erase x
      · exact fun e he => h.valid e (List.mem_of_mem_erase he)
      · have hl := List.length_erase_of_mem hx
        have hp := List.length_pos_of_mem hx
        have hc := h.count
        dsimp only
        omega

theorem rm_refines {t : Eamt} {M : List Entry} (h : Holds t M) (m : Mem) (p6 : Option Prefix6) (p4 : Option Prefix4)
    (ha : Allowed M (.rm m p6 p4)) :
    ∃ t' c M', rm t m p6 p4 = .ok (t', c) ∧ Spec M (.rm m p6 p4) c M' ∧ Holds t' M' := by
  unfold rm
  have fin : ∀ x ∈ M, Matches p6 p4 x → ¬ (p6 = none ∧ p4 = none) → ∀ q6 q4, key6 x.p6 = key6 q6 → key4 x.p4 = key4 q4 →
      ∃ t' c M', rmBoth t m q6 q4 = .ok (t', c) ∧ Spec M (.rm m p6 p4) c M' ∧ Holds t' M' := by
    intro x hx hm hn q6 q4 e6 e4
    obtain ⟨t', k1, k2⟩ := rmBoth_spec h m hx (ha x hx hm).1 (ha x hx hm).2 e6 e4
    exact ⟨t', _, _, k1, .removed m p6 p4 x hn hx hm, k2⟩
  cases p6 with
  | none =>
    cases p4 with
    | none => exact ⟨_, _, M, rfl, .nothing m, h⟩
    | some p4 =>
      dsimp only
      rcases exact4 h p4 with ⟨h1, h2⟩ | ⟨e, he, h1, h2⟩
      · rw [h1]
        exact ⟨_, _, M, rfl, .srch m _ _ (by simp) (fun x hx hm => h2 x hx (((matches_iff _ _ _).1 hm).2 p4 rfl)), h⟩
      · rw [h1]
        exact fin e he ((matches_iff _ _ _).2 ⟨by simp, by rintro p ⟨⟩; exact h2⟩) (by simp) _ _ rfl h2
  | some p6 =>
    cases p4 with
    | none =>
      dsimp only
      rcases exact6 h p6 with ⟨h1, h2⟩ | ⟨e, he, h1, h2⟩
      · rw [h1]
        exact ⟨_, _, M, rfl, .srch m _ _ (by simp) (fun x hx hm => h2 x hx (((matches_iff _ _ _).1 hm).1 p6 rfl)), h⟩
      · rw [h1]
        exact fin e he ((matches_iff _ _ _).2 ⟨by rintro p ⟨⟩; exact h2, by simp⟩) (by simp) _ _ h2 rfl
    | some p4 =>
      dsimp only
      rcases exact6 h p6 with ⟨h1, h2⟩ | ⟨e, he, h1, h2⟩
      · rw [h1]
        exact ⟨_, _, M, rfl, .srch m _ _ (by simp) (fun x hx hm => h2 x hx (((matches_iff _ _ _).1 hm).1 p6 rfl)), h⟩
      · rw [h1]
        dsimp only [Outcome.bind]
        rcases exact4 h p4 with ⟨j1, j2⟩ | ⟨e', he', j1, j2⟩
        · rw [j1]
          exact ⟨_, _, M, rfl, .srch m _ _ (by simp)
            (fun x hx hm => j2 x hx (((matches_iff _ _ _).1 hm).2 p4 rfl)), h⟩
        · rw [j1]
          dsimp only
          split
          · rename_i hee
            subst hee
            exact fin e he ((matches_iff _ _ _).2 ⟨by rintro p ⟨⟩; exact h2, by rintro p ⟨⟩; exact j2⟩) (by simp) _ _
              h2 j2
          · rename_i hee
            refine ⟨_, _, M, rfl, .srch m _ _ (by simp) (fun x hx hm => hee ?_), h⟩
            obtain ⟨m6, m4⟩ := (matches_iff _ _ _).1 hm
            have hx6 : x = e := h.u6 x hx e he ((m6 p6 rfl).trans h2.symm)
            have hx4 : x = e' := h.u4 x hx e' he' ((m4 p4 rfl).trans j2.symm)
            rw [← hx6, hx4]

theorem flush_holds {t : Eamt} {M : List Entry} (h : Holds t M) : Holds (flush t) [] where
  r6 := Rtrie.flush_repr h.r6
  r4 := Rtrie.flush_repr h.r4
  u6 := by intro x hx; simp at hx
  u4 := by intro x hx; simp at hx
  nodup := List.nodup_nil
  valid := by simp
  count := rfl

/-- C08, C09, C12: one request. -/
theorem step_refines {t : Eamt} {M : List Entry} (h : Holds t M) (o : Op) (ha : Allowed M o) :
    ∃ t' c M', step t o = .ok (t', c) ∧ Spec M o c M' ∧ Holds t' M' := by
  cases o with
  | add m e f => exact add_refines h m e f ha
  | rm m p6 p4 => exact rm_refines h m p6 p4 ha
  | flush => exact ⟨_, _, _, rfl, .flushed, flush_holds h⟩

/-- C08, C09, C12 (partial: histories that are `AllAllowed`): the table runs without touching freed memory and answers
every request like a set of entries; afterwards, both lookups find the longest match, the count is the number of entries
and the listing has each of them once. -/
theorem history_partial (os : List Op) {t : Eamt} {M : List Entry} (h : Holds t M) (ha : AllAllowed M os) :
    ∃ t' cs M', run t os = .ok (t', cs) ∧ Hist M os cs M' ∧ Holds t' M' := by
  induction os generalizing t M with
  | nil => exact ⟨t, [], M, rfl, .nil M, h⟩
  | cons o os ih =>
    obtain ⟨h1, h2⟩ := ha
    obtain ⟨t', c, M', k1, k2, k3⟩ := step_refines h o h1
    obtain ⟨t'', cs, M'', j1, j2, j3⟩ := ih k3 (h2 c M' k2)
    exact ⟨t'', c :: cs, M'', by simp [run, k1, j1, Outcome.bind, Outcome.map], .cons k2 j2, j3⟩

end Jool.Eam
