import Verif.Model.Pool4
import Verif.Lemmas.BibBasic
/-
Auxiliary facts about the arrays of ranges of pool4.
-/
namespace Jool.Pool4

/-- `e` lies entirely before `f`, and they do not touch. -/
def Before (e f : E) : Prop := e.addr.toNat < f.addr.toNat ∨ (e.addr = f.addr ∧ e.max + 1 < f.min)

/-- A stored range: at worst empty (`[1, 0]`), within 16 bits. -/
def OkE (e : E) : Prop := e.min ≤ e.max + 1 ∧ e.min ≤ 65535 ∧ e.max ≤ 65535

/-- The range covers the transport address. -/
def Cov (e : E) (a : T4) : Prop := e.addr = a.addr ∧ e.min ≤ a.port.toNat ∧ a.port.toNat ≤ e.max

def InEs (es : List E) (a : T4) : Prop := ∃ e ∈ es, Cov e a

structure WFes (es : List E) : Prop where
  sorted : es.Pairwise Before
  ok : ∀ e ∈ es, OkE e

def total32 : List E → BitVec 32
  | [] => 0
  | e :: r => cnt32 e + total32 r

theorem inEs_cons {e : E} {r : List E} {a : T4} : InEs (e :: r) a ↔ Cov e a ∨ InEs r a := by
  simp [InEs]

theorem inEs_nil {a : T4} : ¬ InEs [] a := by simp [InEs]

theorem inEs_append {l r : List E} {a : T4} : InEs (l ++ r) a ↔ InEs l a ∨ InEs r a := by
  induction l with
  | nil => simp [InEs]
  | cons e l ih => rw [List.cons_append, inEs_cons, inEs_cons, ih, or_assoc]

theorem total32_append (l r : List E) : total32 (l ++ r) = total32 l + total32 r := by
  induction l with
  | nil => simp [total32]
  | cons e l ih => simp only [List.cons_append, total32, ih, BitVec.add_assoc]

theorem WFes.tail {e : E} {r : List E} (h : WFes (e :: r)) : WFes r :=
  ⟨(List.pairwise_cons.1 h.sorted).2, fun f hf => h.ok f (List.mem_cons_of_mem _ hf)⟩

theorem WFes.head {e : E} {r : List E} (h : WFes (e :: r)) : OkE e := h.ok e (List.mem_cons_self ..)

theorem WFes.before {e : E} {r : List E} (h : WFes (e :: r)) : ∀ f ∈ r, Before e f :=
  (List.pairwise_cons.1 h.sorted).1

theorem wfes_cons {e : E} {r : List E} : WFes (e :: r) ↔ OkE e ∧ (∀ f ∈ r, Before e f) ∧ WFes r :=
  ⟨fun h => ⟨h.head, h.before, h.tail⟩, fun ⟨h1, h2, h3⟩ =>
    ⟨List.pairwise_cons.2 ⟨h2, h3.sorted⟩, by
      intro f hf
      rcases List.mem_cons.1 hf with rfl | hf
      · exact h1
      · exact h3.ok f hf⟩⟩

theorem Before.trans {e f g : E} (h1 : Before e f) (hf : OkE f) (h2 : Before f g) : Before e g := by
  rcases h1 with h1 | ⟨h1, h1'⟩ <;> rcases h2 with h2 | ⟨h2, h2'⟩
  · exact .inl (by omega)
  · exact .inl (by rw [← h2]; omega)
  · exact .inl (by rw [h1]; omega)
  · exact .inr ⟨h1.trans h2, by have := hf.1; omega⟩

theorem memcmp_neg {n} {a b : BitVec n} : memcmpSign a b < 0 ↔ a.toNat < b.toNat := by
  unfold memcmpSign; split
  · simp [*]
  · split <;> simp [*]

theorem memcmp_pos {n} {a b : BitVec n} : 0 < memcmpSign a b ↔ b.toNat < a.toNat := by
  unfold memcmpSign; split
  · simp; omega
  · split <;> simp [*]

theorem memcmp_zero {n} {a b : BitVec n} : memcmpSign a b = 0 ↔ a = b := by
  constructor
  · intro h
    unfold memcmpSign at h
    split at h
    · simp at h
    · split at h
      · simp at h
      · exact BitVec.eq_of_toNat_eq (by omega)
  · rintro rfl; simp [memcmpSign]

theorem cmp_neg {e n : E} : compareRange e n < 0 ↔ Before e n := by
  unfold compareRange Before
  simp only []
  by_cases h : memcmpSign e.addr n.addr = 0
  · have ha := memcmp_zero.1 h
    simp only [h, ne_eq, not_true_eq_false, if_false]
    simp only [ha]
    split
    · simp [*]
    · split <;> simp [*]
  · simp only [ne_eq, h, not_false_eq_true, if_true, memcmp_neg]
    have : e.addr ≠ n.addr := fun hh => h (memcmp_zero.2 hh)
    simp [this]

theorem cmp_pos {e n : E} (he : OkE e) (hn : OkE n) : 0 < compareRange e n ↔ Before n e := by
  unfold compareRange Before
  simp only []
  have h1 := he.1; have h2 := hn.1
  by_cases h : memcmpSign e.addr n.addr = 0
  · have ha := memcmp_zero.1 h
    simp only [h, ne_eq, not_true_eq_false, if_false]
    simp only [ha]
    split
    · simp; omega
    · split <;> simp [*]
  · simp only [ne_eq, h, not_false_eq_true, if_true, memcmp_pos]
    have : n.addr ≠ e.addr := fun hh => h (memcmp_zero.2 hh.symm)
    simp [this]

theorem cmp_zero {e n : E} :
    compareRange e n = 0 ↔ e.addr = n.addr ∧ n.min ≤ e.max + 1 ∧ e.min ≤ n.max + 1 := by
  unfold compareRange
  simp only []
  by_cases h : memcmpSign e.addr n.addr = 0
  · have ha := memcmp_zero.1 h
    simp only [h, ne_eq, not_true_eq_false, if_false]
    simp only [ha]
    split
    · simp; omega
    · split
      · simp; omega
      · simp; omega
  · simp only [ne_eq, h, not_false_eq_true, if_true]
    have : e.addr ≠ n.addr := fun hh => h (memcmp_zero.2 hh)
    simp [this]

theorem touches_iff {e n : E} :
    touches e n = true ↔ e.addr = n.addr ∧ n.min ≤ e.max + 1 ∧ e.min ≤ n.max + 1 := by
  simp [touches]

theorem fuse_min (a b : E) : (fuse a b).min = min a.min b.min := by simp only [fuse]; split <;> omega
theorem fuse_max (a b : E) : (fuse a b).max = max a.max b.max := by simp only [fuse]; split <;> omega
theorem fuse_addr (a b : E) : (fuse a b).addr = a.addr := rfl

theorem fuse_ok {a b : E} (ha : OkE a) (hb : OkE b) : OkE (fuse a b) := by
  obtain ⟨h1, h2, h3⟩ := ha; obtain ⟨h4, h5, h6⟩ := hb
  refine ⟨?_, ?_, ?_⟩ <;> simp only [fuse_min, fuse_max] <;> omega

theorem fuse_cov {e n : E} (h : e.addr = n.addr ∧ n.min ≤ e.max + 1 ∧ e.min ≤ n.max + 1) (a : T4) :
    Cov (fuse e n) a ↔ Cov e a ∨ Cov n a := by
  obtain ⟨h1, h2, h3⟩ := h
  simp only [Cov, fuse_min, fuse_max, fuse_addr, ← h1]
  by_cases h : e.addr = a.addr
  · simp only [h, true_and]; omega
  · simp [h]

/-- Following entries, as seen by an entry that may have grown. -/
def Follows (e f : E) : Prop := e.addr.toNat < f.addr.toNat ∨ (e.addr = f.addr ∧ e.min ≤ f.min)

theorem fix_spec (r : List E) (c : BitVec 32) (e : E) (hr : WFes r) (he : OkE e) (hle : ∀ f ∈ r, Follows e f) :
    WFes (fixCollisions c e r).2 ∧ (fixCollisions c e r).2 ≠ [] ∧
      (∀ a, InEs (fixCollisions c e r).2 a ↔ Cov e a ∨ InEs r a) ∧
      (∀ x, Before x e → (∀ f ∈ r, Before x f) → ∀ g ∈ (fixCollisions c e r).2, Before x g) ∧
      (fixCollisions c e r).1 + total32 (e :: r) = c + total32 (fixCollisions c e r).2 ∧
      (∀ g ∈ (fixCollisions c e r).2, g.addr = e.addr ∨ g ∈ r) := by
  induction r generalizing c e with
  | nil =>
    refine ⟨wfes_cons.2 ⟨he, by simp, hr⟩, by simp [fixCollisions], ?_, ?_, rfl, by simp [fixCollisions]⟩
    · intro a; simp [fixCollisions, InEs]
    · intro x hx _ g hg; simp only [fixCollisions, List.mem_singleton] at hg; exact hg ▸ hx
  | cons f r ih =>
    have hf := hle f (List.mem_cons_self ..)
    by_cases ht : touches e f = true
    · have e1 : fixCollisions c e (f :: r) =
          fixCollisions (c - cnt32 e - cnt32 f + cnt32 (fuse e f)) (fuse e f) r := by
        rw [fixCollisions, if_pos ht]
      have ht' := touches_iff.1 ht
      obtain ⟨k1, k2, k3, k4, k5, k6⟩ := ih (c - cnt32 e - cnt32 f + cnt32 (fuse e f)) (fuse e f) hr.tail
        (fuse_ok he hr.head) (by
          intro g hg
          rcases hr.before g hg with h | ⟨h, h'⟩
          · exact .inl (by rw [fuse_addr, ht'.1]; exact h)
          · refine .inr ⟨by rw [fuse_addr, ht'.1]; exact h, ?_⟩
            rw [fuse_min]; have := hr.head.1; omega)
      rw [e1]
      refine ⟨k1, k2, ?_, ?_, ?_, ?_⟩
      · intro a; rw [k3, fuse_cov ht', inEs_cons, or_assoc]
      · intro x hx hxr
        refine k4 x ?_ (fun g hg => hxr g (List.mem_cons_of_mem _ hg))
        have hxf := hxr f (List.mem_cons_self ..)
        rcases hx with h | ⟨h, h'⟩
        · exact .inl h
        · refine .inr ⟨h, ?_⟩
          rcases hxf with h2 | ⟨h2, h2'⟩
          · rw [h, ht'.1] at h2; omega
          · rw [fuse_min]; omega
      · simp only [total32] at k5 ⊢
        generalize total32 r = T at *
        generalize (fixCollisions _ _ r).1 = o1 at *
        generalize total32 (fixCollisions _ _ r).2 = T' at *
        grind
      · intro g hg
        rcases k6 g hg with h | h
        · exact .inl h
        · exact .inr (List.mem_cons_of_mem _ h)
    · have e1 : fixCollisions c e (f :: r) = (c, e :: f :: r) := by rw [fixCollisions, if_neg ht]
      rw [e1]
      have hef : Before e f := by
        rcases hf with h | ⟨h, h'⟩
        · exact .inl h
        · refine .inr ⟨h, ?_⟩
          rw [touches_iff] at ht
          have := hr.head.1
          apply Classical.byContradiction
          intro hc
          exact ht ⟨h, by omega, by omega⟩
      refine ⟨wfes_cons.2 ⟨he, ?_, hr⟩, by simp, ?_, ?_, rfl, ?_⟩
      · intro g hg
        rcases List.mem_cons.1 hg with rfl | hg
        · exact hef
        · exact hef.trans hr.head (hr.before g hg)
      · intro a; exact inEs_cons
      · intro x hx hxr g hg
        rcases List.mem_cons.1 hg with rfl | hg
        · exact hx
        · exact hxr g hg
      · intro g hg
        rcases List.mem_cons.1 hg with rfl | hg
        · exact .inl rfl
        · exact .inr hg

theorem addFuse_some (es : List E) (c : BitVec 32) (n : E) (o : BitVec 32 × List E) (h : WFes es) (hn : OkE n)
    (hs : addFuse c n es = some o) :
    WFes o.2 ∧ o.2 ≠ [] ∧ (∀ a, InEs o.2 a ↔ InEs es a ∨ Cov n a) ∧
      (∀ x, Before x n → (∀ f ∈ es, Before x f) → ∀ g ∈ o.2, Before x g) ∧
      (∃ e ∈ es, compareRange e n = 0 ∧ o.1 + total32 es + cnt32 (fuse e n) = c + total32 o.2 + cnt32 e) ∧
      (∀ g ∈ o.2, g.addr = n.addr ∨ g ∈ es) := by
  induction es generalizing o with
  | nil => simp [addFuse] at hs
  | cons e r ih =>
    rw [addFuse] at hs
    split at hs
    · rename_i hz
      have hz' := cmp_zero.1 hz
      injection hs with hs
      subst hs
      obtain ⟨k1, k2, k3, k4, k5, k6⟩ := fix_spec r c (fuse e n) h.tail (fuse_ok h.head hn) (by
        intro f hf
        rcases h.before f hf with h1 | ⟨h1, h1'⟩
        · exact .inl h1
        · refine .inr ⟨h1, ?_⟩
          rw [fuse_min]; have := h.head.1; omega)
      refine ⟨k1, k2, ?_, ?_, ⟨e, List.mem_cons_self .., hz, ?_⟩, ?_⟩
      · intro a; rw [k3, fuse_cov hz', inEs_cons]
        constructor <;> intro h <;> rcases h with (h | h) | h <;> simp [h]
      · intro x hx hxr
        refine k4 x ?_ (fun g hg => hxr g (List.mem_cons_of_mem _ hg))
        have hxf := hxr e (List.mem_cons_self ..)
        rcases hx with h | ⟨h, h'⟩
        · exact .inl (by rw [fuse_addr, hz'.1]; exact h)
        · refine .inr ⟨by rw [fuse_addr, hz'.1]; exact h, ?_⟩
          rcases hxf with h2 | ⟨h2, h2'⟩
          · rw [h, hz'.1] at h2; omega
          · rw [fuse_min]; omega
      · simp only [total32] at k5 ⊢
        generalize total32 r = T at *
        generalize (fixCollisions _ _ r).1 = o1 at *
        generalize total32 (fixCollisions _ _ r).2 = T' at *
        grind
      · intro g hg
        rcases k6 g hg with h | h
        · exact .inl (h.trans hz'.1)
        · exact .inr (List.mem_cons_of_mem _ h)
    · split at hs
      · simp at hs
      · rename_i hz hp
        cases hq : addFuse c n r with
        | none => rw [hq] at hs; simp at hs
        | some q =>
          rw [hq] at hs
          simp only [Option.map_some, Option.some.injEq] at hs
          subst hs
          obtain ⟨k1, k2, k3, k4, ⟨w, hw, hw1, hw2⟩, k6⟩ := ih q h.tail hq
          have hneg : Before e n := cmp_neg.1 (by omega)
          refine ⟨wfes_cons.2 ⟨h.head, k4 e hneg h.before, k1⟩, by simp, ?_, ?_, ⟨w, List.mem_cons_of_mem _ hw, hw1, ?_⟩, ?_⟩
          · intro a; rw [inEs_cons, k3, inEs_cons, or_assoc]
          · intro x hx hxr g hg
            rcases List.mem_cons.1 hg with rfl | hg
            · exact hxr g (List.mem_cons_self ..)
            · exact k4 x hx (fun f hf => hxr f (List.mem_cons_of_mem _ hf)) g hg
          · simp only [total32] at hw2 ⊢
            generalize total32 r = T at *
            generalize total32 q.2 = T' at *
            generalize q.1 = o1 at *
            grind
          · intro g hg
            rcases List.mem_cons.1 hg with rfl | hg
            · exact .inr (List.mem_cons_self ..)
            · rcases k6 g hg with h | h
              · exact .inl h
              · exact .inr (List.mem_cons_of_mem _ h)

theorem addFuse_none (es : List E) (c : BitVec 32) (n : E) (h : WFes es) (hn : OkE n) (hs : addFuse c n es = none) :
    WFes (slip n es) ∧ slip n es ≠ [] ∧ (∀ g, g ∈ slip n es ↔ g = n ∨ g ∈ es) ∧
      total32 (slip n es) = total32 es + cnt32 n ∧ (∀ e ∈ es, Before e n ∨ Before n e) := by
  induction es with
  | nil => simp [slip, wfes_cons, hn, h, total32]
  | cons e r ih =>
    rw [addFuse] at hs
    split at hs
    · simp at hs
    · split at hs
      · rename_i hz hp
        have hb := (cmp_pos h.head hn).1 hp
        have e1 : slip n (e :: r) = n :: e :: r := by rw [slip, if_pos hp]
        rw [e1]
        have hall : ∀ f ∈ e :: r, Before n f := by
          intro f hf
          rcases List.mem_cons.1 hf with rfl | hf
          · exact hb
          · exact hb.trans h.head (h.before f hf)
        refine ⟨wfes_cons.2 ⟨hn, hall, h⟩, by simp, by simp, ?_, fun f hf => .inr (hall f hf)⟩
        simp only [total32]; grind
      · rename_i hz hp
        have hneg : Before e n := cmp_neg.1 (by omega)
        have e1 : slip n (e :: r) = e :: slip n r := by rw [slip, if_neg hp]
        rw [e1]
        obtain ⟨k1, k2, k3, k4, k5⟩ := ih h.tail (by simpa using hs)
        refine ⟨wfes_cons.2 ⟨h.head, ?_, k1⟩, by simp, ?_, ?_, ?_⟩
        · intro f hf
          rcases (k3 f).1 hf with rfl | hf
          · exact hneg
          · exact h.before f hf
        · intro g; simp only [List.mem_cons, k3]; grind
        · simp only [total32, k4]; grind
        · intro f hf
          rcases List.mem_cons.1 hf with rfl | hf
          · exact .inl hneg
          · exact k5 f hf

/-- `pool4_add_range`: the result is sorted, covers the union; and the exact effect on the counter. -/
theorem addRange_spec (kr : Kr) (t t' : Tbl) (n : E) (mv : Bool) (h : WFes t.es) (hn : OkE n)
    (hs : addRange kr t n = .done t' mv) :
    WFes t'.es ∧ t'.es ≠ [] ∧ (∀ a, InEs t'.es a ↔ InEs t.es a ∨ Cov n a) ∧
      (∀ g ∈ t'.es, g.addr = n.addr ∨ g ∈ t.es) ∧
      ((∃ e ∈ t.es, compareRange e n = 0 ∧
          t'.count + total32 t.es + cnt32 (fuse e n) = t.count + total32 t'.es + cnt32 e) ∨
        ((∀ e ∈ t.es, Before e n ∨ Before n e) ∧ t'.count + total32 t.es = t.count + total32 t'.es)) := by
  unfold addRange at hs
  cases hq : addFuse t.count n t.es with
  | some q =>
    rw [hq] at hs
    simp only [AddR.done.injEq] at hs
    obtain ⟨rfl, _⟩ := hs
    obtain ⟨k1, k2, k3, _, k5, k6⟩ := addFuse_some _ _ _ _ h hn hq
    exact ⟨k1, k2, k3, k6, .inl k5⟩
  | none =>
    rw [hq] at hs
    obtain ⟨k1, k2, k3, k4, k5⟩ := addFuse_none _ _ _ h hn hq
    have : t' = ⟨t.count + cnt32 n, slip n t.es⟩ := by
      cases kr <;> simp at hs <;> exact hs.1.symm
    subst this
    refine ⟨k1, k2, ?_, ?_, .inr ⟨k5, ?_⟩⟩
    · intro a
      simp only [InEs, k3]
      constructor
      · rintro ⟨e, rfl | he, hc⟩
        · exact .inr hc
        · exact .inl ⟨e, he, hc⟩
      · rintro (⟨e, he, hc⟩ | hc)
        · exact ⟨e, .inr he, hc⟩
        · exact ⟨n, .inl rfl, hc⟩
    · intro g hg
      rcases (k3 g).1 hg with rfl | hg
      · exact .inl rfl
      · exact .inr hg
    · simp only [k4]; grind

/-! ### Removal -/

/-- `g` is a piece of `e`. -/
def Sub (g e : E) : Prop := g.addr = e.addr ∧ e.min ≤ g.min ∧ g.max ≤ e.max

theorem Sub.left {x g e : E} (h : Sub g e) (hb : Before x e) : Before x g := by
  obtain ⟨h1, h2, _⟩ := h
  rcases hb with hb | ⟨hb, hb'⟩
  · exact .inl (by rw [h1]; exact hb)
  · exact .inr ⟨hb.trans h1.symm, by omega⟩

theorem Sub.right {g e x : E} (h : Sub g e) (hb : Before e x) : Before g x := by
  obtain ⟨h1, _, h3⟩ := h
  rcases hb with hb | ⟨hb, hb'⟩
  · exact .inl (by rw [h1]; exact hb)
  · exact .inr ⟨h1.trans hb, by omega⟩

theorem Sub.cov {g e : E} (h : Sub g e) {a : T4} (hc : Cov g a) : Cov e a := by
  obtain ⟨h1, h2, h3⟩ := h; obtain ⟨c1, c2, c3⟩ := hc
  exact ⟨h1.symm.trans c1, by omega, by omega⟩

/-- The removal request covers the transport address. -/
def RmCov (pfx : Prefix4) (lo hi : Nat) (a : T4) : Prop :=
  prefix4Contains pfx a.addr = true ∧ lo ≤ a.port.toNat ∧ a.port.toNat ≤ hi

/-- The removal would split the entry in two. -/
def Hole (pfx : Prefix4) (lo hi : Nat) (e : E) : Prop :=
  prefix4Contains pfx e.addr = true ∧ e.min < lo ∧ hi < e.max

/-- One visited entry: it is replaced by `l`, and the counter goes from `c` to `c1`. -/
structure Piece (pfx : Prefix4) (lo hi : Nat) (e : E) (c c1 : BitVec 32) (l : List E) : Prop where
  wf : WFes l
  sub : ∀ g ∈ l, Sub g e
  cov : ∀ a, InEs l a ↔ Cov e a ∧ ¬ RmCov pfx lo hi a
  count : ¬ Hole pfx lo hi e → c1 + cnt32 e = c + total32 l

theorem wfes_single {e : E} (h : OkE e) : WFes [e] := wfes_cons.2 ⟨h, by simp, by simp, by simp⟩

theorem inEs_single {e : E} {a : T4} : InEs [e] a ↔ Cov e a := by simp [InEs]

theorem cnt32_split {e f g : E} (h : cnt e = cnt f + cnt g) : cnt32 e = cnt32 f + cnt32 g := by
  simp only [cnt32, h, BitVec.ofNat_add]

theorem remove_spec (kr : Addr4 → Kr) (pfx : Prefix4) (lo hi : Nat) (hlh : lo ≤ hi) (hhi : hi ≤ 65535)
    (es : List E) (c : BitVec 32) (o : BitVec 32 × List E × Bool) (h : WFes es)
    (hs : removeLoop kr pfx lo hi c es = .ok o) :
    WFes o.2.1 ∧ (∀ g ∈ o.2.1, ∃ e ∈ es, Sub g e) ∧
      (o.2.2 = false → ∀ a, InEs o.2.1 a ↔ InEs es a ∧ ¬ RmCov pfx lo hi a) ∧
      (o.2.2 = true → ∃ a, kr a = .fail) ∧
      (o.2.2 = false → (∀ e ∈ es, ¬ Hole pfx lo hi e) → o.1 + total32 es = c + total32 o.2.1) ∧
      (∀ a, InEs es a → ¬ RmCov pfx lo hi a → o.2.2 = false → InEs o.2.1 a) := by
  induction es generalizing c o with
  | nil =>
    simp only [removeLoop, Outcome.ok.injEq] at hs
    subst hs
    simp [h, total32, InEs]
  | cons e r ih =>
    -- the generic step: the entry becomes `l`, and the loop goes on with counter `c1`
    have key : ∀ (c1 : BitVec 32) (l : List E), Piece pfx lo hi e c c1 l →
        (removeLoop kr pfx lo hi c1 r).map (fun x => (x.1, l ++ x.2.1, x.2.2)) = .ok o →
        WFes o.2.1 ∧ (∀ g ∈ o.2.1, ∃ e' ∈ e :: r, Sub g e') ∧
      (o.2.2 = false → ∀ a, InEs o.2.1 a ↔ InEs (e :: r) a ∧ ¬ RmCov pfx lo hi a) ∧
      (o.2.2 = true → ∃ a, kr a = .fail) ∧
      (o.2.2 = false → (∀ e' ∈ e :: r, ¬ Hole pfx lo hi e') → o.1 + total32 (e :: r) = c + total32 o.2.1) ∧
      (∀ a, InEs (e :: r) a → ¬ RmCov pfx lo hi a → o.2.2 = false → InEs o.2.1 a) := by
      intro c1 l hp hm
      cases hq : removeLoop kr pfx lo hi c1 r with
      | ub u => rw [hq] at hm; simp [Outcome.map] at hm
      | ok q =>
        rw [hq] at hm
        simp only [Outcome.map, Outcome.ok.injEq] at hm
        subst hm
        obtain ⟨k1, k2, k3, k4, k5, k6⟩ := ih c1 q h.tail hq
        have hset : q.2.2 = false → ∀ a, InEs (l ++ q.2.1) a ↔ InEs (e :: r) a ∧ ¬ RmCov pfx lo hi a := by
          intro hf a
          rw [inEs_append, hp.cov, k3 hf, inEs_cons]
          constructor
          · rintro (⟨x, y⟩ | ⟨x, y⟩)
            · exact ⟨.inl x, y⟩
            · exact ⟨.inr x, y⟩
          · rintro ⟨x | x, y⟩
            · exact .inl ⟨x, y⟩
            · exact .inr ⟨x, y⟩
        refine ⟨⟨?_, ?_⟩, ?_, hset, k4, ?_, fun a h1 h2 h3 => (hset h3 a).2 ⟨h1, h2⟩⟩
        · refine List.pairwise_append.2 ⟨hp.wf.sorted, k1.sorted, ?_⟩
          intro g hg g' hg'
          obtain ⟨w, hw, hw'⟩ := k2 g' hg'
          exact hw'.left ((hp.sub g hg).right (h.before w hw))
        · intro g hg
          rcases List.mem_append.1 hg with hg | hg
          · exact hp.wf.ok g hg
          · exact k1.ok g hg
        · intro g hg
          rcases List.mem_append.1 hg with hg | hg
          · exact ⟨e, List.mem_cons_self .., hp.sub g hg⟩
          · obtain ⟨w, hw, hw'⟩ := k2 g hg
            exact ⟨w, List.mem_cons_of_mem _ hw, hw'⟩
        · intro hf hh
          have a1 := hp.count (hh e (List.mem_cons_self ..))
          have a2 := k5 hf (fun e' he' => hh e' (List.mem_cons_of_mem _ he'))
          simp only [total32, total32_append]
          generalize total32 r = T at *
          generalize total32 l = L at *
          generalize total32 q.2.1 = T' at *
          generalize q.1 = o1 at *
          grind
    have hok := h.head
    obtain ⟨o1, o2, o3⟩ := hok
    have hself : ∀ hc : (∀ a, Cov e a → ¬ RmCov pfx lo hi a), Piece pfx lo hi e c c [e] := fun hc =>
      ⟨wfes_single h.head, by simp [Sub], by
        intro a; rw [inEs_single]; exact ⟨fun x => ⟨x, hc a x⟩, fun x => x.1⟩, by
        intro _; simp [total32]⟩
    rw [removeLoop] at hs
    dsimp only at hs
    split at hs
    · rename_i hnc
      exact key c [e] (hself (by
        intro a ha hr; exact hnc (by rw [ha.1]; exact hr.1))) hs
    · rename_i hc
      have hc' : prefix4Contains pfx e.addr = true := by simpa using hc
      split at hs
      · rename_i hcov
        refine key _ [] ⟨⟨by simp, by simp⟩, by simp, ?_, ?_⟩ (by simpa using hs)
        · intro a
          constructor
          · intro h; exact absurd h inEs_nil
          · rintro ⟨⟨x1, x2, x3⟩, hn⟩
            exact absurd ⟨x1 ▸ hc', by omega, by omega⟩ hn
        · intro _; simp only [total32]; grind
      · split at hs
        · rename_i hn1 hhole
          split at hs
          · rename_i hk
            simp only [Outcome.ok.injEq] at hs
            subst hs
            have hsub : Sub ⟨e.addr, e.min, lo - 1⟩ e := ⟨rfl, by simp, by simp; omega⟩
            refine ⟨wfes_cons.2 ⟨⟨by simp; omega, o2, by simp; omega⟩, ?_, h.tail⟩, ?_, by simp, fun _ => ⟨_, hk⟩, by simp, by simp⟩
            · intro f hf; exact hsub.right (h.before f hf)
            · intro g hg
              rcases List.mem_cons.1 hg with rfl | hg
              · exact ⟨e, List.mem_cons_self .., hsub⟩
              · exact ⟨g, List.mem_cons_of_mem _ hg, ⟨rfl, Nat.le_refl _, Nat.le_refl _⟩⟩
          · simp at hs
          · refine key _ [⟨e.addr, e.min, lo - 1⟩, ⟨e.addr, hi + 1, e.max⟩] ⟨?_, ?_, ?_, ?_⟩ hs
            · refine wfes_cons.2 ⟨⟨by simp; omega, o2, by simp; omega⟩, ?_, wfes_single ⟨by simp; omega, by simp; omega, o3⟩⟩
              intro f hf
              simp only [List.mem_singleton] at hf
              subst hf
              exact .inr ⟨rfl, by simp; omega⟩
            · intro g hg
              simp only [List.mem_cons, List.not_mem_nil, or_false] at hg
              rcases hg with rfl | rfl
              · exact ⟨rfl, by simp, by simp; omega⟩
              · exact ⟨rfl, by simp; omega, by simp⟩
            · intro a
              rw [inEs_cons, inEs_single]
              simp only [Cov, RmCov]
              constructor
              · rintro (⟨x1, x2, x3⟩ | ⟨x1, x2, x3⟩) <;> exact ⟨⟨x1, by omega, by omega⟩, by rintro ⟨_, _, _⟩; omega⟩
              · rintro ⟨⟨x1, x2, x3⟩, hn⟩
                by_cases hlt : a.port.toNat < lo
                · exact .inl ⟨x1, x2, by omega⟩
                · refine .inr ⟨x1, ?_, x3⟩
                  apply Classical.byContradiction
                  intro hgt
                  exact hn ⟨x1 ▸ hc', by omega, by omega⟩
            · intro hh; exact absurd ⟨hc', hhole.1, hhole.2⟩ hh
        · rename_i hn1 hn2
          split at hs
          · rename_i hdis
            exact key c [e] (hself (by
              rintro a ⟨_, x2, x3⟩ ⟨_, y2, y3⟩; omega)) hs
          · split at hs
            · rename_i hlt
              refine key _ [⟨e.addr, e.min, lo - 1⟩] ⟨wfes_single ⟨by simp; omega, o2, by simp; omega⟩, ?_, ?_, ?_⟩ hs
              · simp only [List.mem_singleton]; rintro g rfl
                exact ⟨rfl, by simp, by simp; omega⟩
              · intro a
                rw [inEs_single]
                simp only [Cov, RmCov]
                constructor
                · rintro ⟨x1, x2, x3⟩; exact ⟨⟨x1, x2, by omega⟩, by rintro ⟨_, _, _⟩; omega⟩
                · rintro ⟨⟨x1, x2, x3⟩, hn⟩
                  refine ⟨x1, x2, ?_⟩
                  apply Classical.byContradiction
                  intro hgt
                  exact hn ⟨x1 ▸ hc', by omega, by omega⟩
              · intro _
                have := cnt32_split (e := e) (f := ⟨e.addr, e.min, lo - 1⟩) (g := ⟨e.addr, lo, e.max⟩)
                  (by simp only [cnt]; omega)
                rw [this]
                simp only [total32]
                have e2 : cnt32 ⟨e.addr, lo, e.max⟩ = BitVec.ofNat 32 (e.max + 1 - lo) := rfl
                rw [e2]
                generalize cnt32 ⟨e.addr, e.min, lo - 1⟩ = A
                generalize BitVec.ofNat 32 (e.max + 1 - lo) = B
                grind
            · split at hs
              · rename_i hge hlt
                refine key _ [⟨e.addr, hi + 1, e.max⟩] ⟨wfes_single ⟨by simp; omega, by simp; omega, o3⟩, ?_, ?_, ?_⟩ hs
                · simp only [List.mem_singleton]; rintro g rfl
                  exact ⟨rfl, by simp; omega, by simp⟩
                · intro a
                  rw [inEs_single]
                  simp only [Cov, RmCov]
                  constructor
                  · rintro ⟨x1, x2, x3⟩; exact ⟨⟨x1, by omega, by omega⟩, by rintro ⟨_, _, _⟩; omega⟩
                  · rintro ⟨⟨x1, x2, x3⟩, hn⟩
                    refine ⟨x1, ?_, x3⟩
                    apply Classical.byContradiction
                    intro hgt
                    exact hn ⟨x1 ▸ hc', by omega, by omega⟩
                · intro _
                  have := cnt32_split (e := e) (f := ⟨e.addr, hi + 1, e.max⟩) (g := ⟨e.addr, e.min, hi⟩)
                    (by simp only [cnt]; omega)
                  rw [this]
                  simp only [total32]
                  have e2 : cnt32 ⟨e.addr, e.min, hi⟩ = BitVec.ofNat 32 (hi + 1 - e.min) := rfl
                  rw [e2]
                  generalize cnt32 ⟨e.addr, hi + 1, e.max⟩ = A
                  generalize BitVec.ofNat 32 (hi + 1 - e.min) = B
                  grind
              · rename_i hge hlt
                exact absurd ⟨by omega, by omega⟩ hn1

end Jool.Pool4
