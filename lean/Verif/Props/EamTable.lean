import Verif.Props.EamXlat
import Verif.Props.RtrieKey
/-
C10, C12, C61: overlaps, the two halves of the table and its listing; and the histories that the table gets wrong.
-/
namespace Jool.Eam
open Jool.Rtrie (Key Trie Code)
open Jool.PrefixSpec

/-! ## C10: overlaps -/

/-- No address belongs to two entries. -/
def Disjoint (M : List Entry) : Prop :=
  ∀ x ∈ M, ∀ y ∈ M, ((∃ a, Mem6 x.p6 a ∧ Mem6 y.p6 a) ∨ (∃ a, Mem4 x.p4 a ∧ Mem4 y.p4 a)) → x = y

/-- Histories without the force flag, in which nothing is added after entries inside of it. -/
def Plain (M : List Entry) : List Op → Prop
  | [] => True
  | o :: os =>
    (∀ m e f, o = .add m e f → f = false ∧ Allowed M o) ∧ ∀ c M', Spec M o c M' → Plain M' os

theorem common6 {p q : Prefix6} {a : Addr6} (hp : Mem6 p a) (hq : Mem6 q a) : In6 p q ∨ In6 q p := by
  by_cases h : p.len ≤ q.len
  · exact .inl ⟨h, fun i hi => (hq i (by omega)).symm.trans (hp i hi)⟩
  · exact .inr ⟨by omega, fun i hi => (hp i (by omega)).symm.trans (hq i hi)⟩

theorem common4 {p q : Prefix4} {a : Addr4} (hp : Mem4 p a) (hq : Mem4 q a) : In4 p q ∨ In4 q p := by
  by_cases h : p.len ≤ q.len
  · exact .inl ⟨h, fun i hi => (hq i (by omega)).symm.trans (hp i hi)⟩
  · exact .inr ⟨by omega, fun i hi => (hp i (by omega)).symm.trans (hq i hi)⟩

theorem disjoint_cons {M : List Entry} (hd : Disjoint M) {e : Entry} (hc : ¬ Clash M e false)
    (ha : ∀ x ∈ M, (In6 e.p6 x.p6 → x.p6 = e.p6) ∧ (In4 e.p4 x.p4 → x.p4 = e.p4)) : Disjoint (e :: M) := by
  have hf := fresh_of hc
  have hc' : ∀ x ∈ M, ¬ Mem6 x.p6 e.p6.addr ∧ ¬ Mem4 x.p4 e.p4.addr := by
    intro x hx
    unfold Clash at hc
    simp only [Bool.false_eq_true, if_false] at hc
    exact ⟨fun h => hc ⟨x, hx, .inl h⟩, fun h => hc ⟨x, hx, .inr h⟩⟩
  have main : ∀ x ∈ M, ¬ ((∃ a, Mem6 x.p6 a ∧ Mem6 e.p6 a) ∨ (∃ a, Mem4 x.p4 a ∧ Mem4 e.p4 a)) := by
    rintro x hx (⟨a, h1, h2⟩ | ⟨a, h1, h2⟩)
    · rcases common6 h1 h2 with h | h
      · exact (hc' x hx).1 h.2
      · exact (hf x hx).1 ((ha x hx).1 h)
    · rcases common4 h1 h2 with h | h
      · exact (hc' x hx).2 h.2
      · exact (hf x hx).2 ((ha x hx).2 h)
  intro x hx y hy h
  rcases List.mem_cons.1 hx with hxe | hx'
  · rcases List.mem_cons.1 hy with hye | hy'
    · rw [hxe, hye]
    · refine absurd ?_ (main y hy')
      rw [hxe] at h
      rcases h with ⟨a, h1, h2⟩ | ⟨a, h1, h2⟩
      · exact .inl ⟨a, h2, h1⟩
      · exact .inr ⟨a, h2, h1⟩
  · rcases List.mem_cons.1 hy with hye | hy'
    · rw [hye] at h; exact absurd h (main x hx')
    · exact hd x hx' y hy' h

theorem disjoint_sub {M M' : List Entry} (hd : Disjoint M) (h : ∀ x ∈ M', x ∈ M) : Disjoint M' :=
  fun x hx y hy hh => hd x (h x hx) y (h y hy) hh

theorem disjoint_step {M M' : List Entry} {o : Op} {c : Code} (hd : Disjoint M)
    (hp : ∀ m e f, o = .add m e f → f = false ∧ Allowed M o) (hs : Spec M o c M') : Disjoint M' := by
  cases hs with
  | added m e f hv hc =>
    obtain ⟨h1, h2⟩ := hp m e f rfl
    subst h1
    exact disjoint_cons hd hc h2
  | removed m p6 p4 x _ _ _ => exact disjoint_sub hd (fun y hy => List.mem_of_mem_erase hy)
  | flushed => intro x hx; simp at hx
  | _ => exact hd

/-- Removals never are a problem for tables without overlaps. -/
theorem allowed_rm {M : List Entry} (hd : Disjoint M) (m : Mem) (p6 : Option Prefix6)
    (p4 : Option Prefix4) : Allowed M (.rm m p6 p4) := by
  intro x hx _
  refine ⟨.inl ?_, .inl ?_⟩
  · intro y hy z hz h1 h2 h3 _
    refine absurd (congrArg Entry.p6 (hd y hy x hx (.inl ⟨y.p6.addr, fun i _ => rfl, h1.2⟩))) h3
  · intro y hy z hz h1 h2 h3 _
    refine absurd (congrArg Entry.p4 (hd y hy x hx (.inr ⟨y.p4.addr, fun i _ => rfl, h1.2⟩))) h3

/-- C10 (partial: what is missing are additions of prefixes that contain existing ones; `superset_accepted` shows that
these are not refused): without the force flag the table never has overlaps. C08, C09: and everything works. -/
theorem no_overlaps_partial (os : List Op) {t : Eamt} {M : List Entry} (h : Holds t M) (hd : Disjoint M)
    (hp : Plain M os) :
    ∃ t' cs M', run t os = .ok (t', cs) ∧ Hist M os cs M' ∧ Holds t' M' ∧ Disjoint M' := by
  induction os generalizing t M with
  | nil => exact ⟨t, [], M, rfl, .nil M, h, hd⟩
  | cons o os ih =>
    obtain ⟨h1, h2⟩ := hp
    have ha : Allowed M o := by
      cases o with
      | add m e f => exact (h1 m e f rfl).2
      | rm m p6 p4 => exact allowed_rm hd m p6 p4
      | flush => trivial
    obtain ⟨t', c, M', k1, k2, k3⟩ := step_refines h o ha
    obtain ⟨t'', cs, M'', j1, j2, j3⟩ := ih k3 (disjoint_step hd h1 k2) (h2 c M' k2)
    exact ⟨t'', c :: cs, M'', by simp [run, k1, j1, Outcome.bind, Outcome.map], .cons k2 j2, j3⟩

/-- C10: one addition without the force flag to a table without overlaps: it is refused if the new prefixes are inside of
(or equal to) existing ones. -/
theorem subset_refused {t : Eamt} {M : List Entry} (h : Holds t M) (m : Mem) (e : Entry) (hv : Valid e)
    (ha : Allowed M (.add m e false)) {x : Entry} (hx : x ∈ M) (ho : Mem6 x.p6 e.p6.addr ∨ Mem4 x.p4 e.p4.addr) :
    ∃ t', add t m e false = .ok (t', .eexist) ∧ Holds t' M := by
  obtain ⟨t', c, M', k1, k2, k3⟩ := add_refines h m e false ha
  have hcl : Clash M e false := by
    unfold Clash
    simp only [Bool.false_eq_true, if_false]
    exact ⟨x, hx, ho⟩
  cases k2 with
  | invalid _ _ _ hh => exact absurd hv hh
  | clash _ _ _ _ _ => exact ⟨t', k1, k3⟩
  | noMem _ _ _ _ hh _ => exact absurd hcl hh
  | added _ _ _ _ hh => exact absurd hcl hh

/-! ## C12: the halves -/

/-- C12: an entry is found by its IPv6 prefix if and only if it is found by its IPv4 prefix; the count is right. -/
theorem halves_agree {t : Eamt} {M : List Entry} (h : Holds t M) :
    (∀ e, Valid e → ((getExact6 t e.p6 = .ok (some e) ↔ e ∈ M) ∧ (getExact4 t e.p4 = .ok (some e) ↔ e ∈ M))) ∧
    t.count = M.length ∧ M.Nodup := by
  refine ⟨fun e he => ⟨?_, ?_⟩, h.count, h.nodup⟩
  · rcases exact6 h e.p6 with ⟨h1, h2⟩ | ⟨x, hx, h1, h2⟩
    · rw [h1]; simp; intro hm; exact h2 e hm rfl
    · rw [h1]
      simp only [Outcome.ok.injEq, Option.some.injEq]
      exact ⟨fun k => k ▸ hx, fun k => h.u6 x hx e k h2⟩
  · rcases exact4 h e.p4 with ⟨h1, h2⟩ | ⟨x, hx, h1, h2⟩
    · rw [h1]; simp; intro hm; exact h2 e hm rfl
    · rw [h1]
      simp only [Outcome.ok.injEq, Option.some.injEq]
      exact ⟨fun k => k ▸ hx, fun k => h.u4 x hx e k h2⟩

/-- C12: whatever the reason why an addition fails, both lookups answer as before. -/
theorem failed_add {t : Eamt} {M : List Entry} (h : Holds t M) (m : Mem) (e : Entry) (force : Bool)
    (ha : Allowed M (.add m e force)) {t' : Eamt} {c : Code} (hr : add t m e force = .ok (t', c)) (hc : c ≠ .ok) :
    Holds t' M ∧ t'.count = t.count ∧ (∀ a, xlat64 t' a = xlat64 t a) ∧ (∀ a, xlat46 t' a = xlat46 t a) := by
  obtain ⟨t'', c', M', k1, k2, k3⟩ := add_refines h m e force ha
  rw [hr] at k1
  simp only [Outcome.ok.injEq, Prod.mk.injEq] at k1
  obtain ⟨rfl, rfl⟩ := k1
  have hM : M' = M := by
    cases k2 with
    | added _ _ _ _ _ => exact absurd rfl hc
    | _ => rfl
  subst hM
  refine ⟨k3, by rw [k3.count, h.count], fun a => ?_, fun a => ?_⟩
  · obtain ⟨r, h1, h2⟩ := lookup6 h a
    obtain ⟨r', h1', h2'⟩ := lookup6 k3 a
    rw [h1, h1']
    rcases h2 with ⟨rfl, h2⟩ | ⟨x, hx, rfl, h2, h3⟩
    · rcases h2' with ⟨rfl, h2'⟩ | ⟨x', hx', rfl, h2', h3'⟩
      · rfl
      · exact absurd h2' (h2 x' hx')
    · rcases h2' with ⟨rfl, h2'⟩ | ⟨x', hx', rfl, h2', h3'⟩
      · exact absurd h2 (h2' x hx)
      · have : x' = x := by
          apply h.u6 x' hx' x hx
          apply (key_eq _ _ _ _).2
          have e1 := h3 x' hx' h2'
          have e2 := h3' x hx h2
          exact ⟨by omega, fun i hi => ((h2 i (by omega)).symm.trans (h2' i hi))⟩
        rw [this]
  · obtain ⟨r, h1, h2⟩ := lookup4 h a
    obtain ⟨r', h1', h2'⟩ := lookup4 k3 a
    rw [h1, h1']
    rcases h2 with ⟨rfl, h2⟩ | ⟨x, hx, rfl, h2, h3⟩
    · rcases h2' with ⟨rfl, h2'⟩ | ⟨x', hx', rfl, h2', h3'⟩
      · rfl
      · exact absurd h2' (h2 x' hx')
    · rcases h2' with ⟨rfl, h2'⟩ | ⟨x', hx', rfl, h2', h3'⟩
      · exact absurd h2 (h2' x hx)
      · have : x' = x := by
          apply h.u4 x' hx' x hx
          apply (key_eq _ _ _ _).2
          have e1 := h3 x' hx' h2'
          have e2 := h3' x hx h2
          exact ⟨by omega, fun i hi => ((h2 i (by omega)).symm.trans (h2' i hi))⟩
        rw [this]

/-! ## C61: the listing -/

/-- C61: the whole table, each entry once; and resuming. -/
theorem listing {t : Eamt} {M : List Entry} (h : Holds t M) :
    ∃ L : List Entry, L.Nodup ∧ (∀ e, e ∈ L ↔ e ∈ M) ∧ foreach t none = .ok (some L) ∧
      (∀ pre e post, L = pre ++ e :: post → foreach t (some e.p4) = .ok (some post)) ∧
      (∀ p, foreach t (some p) = .ok none ∨ ∃ pre post, L = pre ++ post ∧ foreach t (some p) = .ok (some post)) := by
  obtain ⟨L, h1, h2, h3, h4, h5⟩ := Rtrie.listing_spec h.r4
  have hk : ∀ p ∈ L, p.1 = f4 p.2 := by
    rintro ⟨k, v⟩ hp
    exact (((tab_some h.u4 k v).1 ((h2 k v).1 hp)).2).symm
  refine ⟨L.map Prod.snd, ?_, ?_, h3, ?_, ?_⟩
  · have hL : L.map (·.1) = (L.map Prod.snd).map f4 := by
      rw [List.map_map]
      exact List.map_congr_left hk
    rw [hL] at h1
    exact List.Pairwise.of_map f4 (fun a b hab he => hab (by rw [he])) h1
  · intro e
    rw [List.mem_map]
    constructor
    · rintro ⟨⟨k, v⟩, hp, rfl⟩
      exact ((tab_some h.u4 k v).1 ((h2 k v).1 hp)).1
    · intro he
      exact ⟨(f4 e, e), (h2 _ _).2 ((tab_some h.u4 _ _).2 ⟨he, rfl⟩), rfl⟩
  · intro pre e post hL
    obtain ⟨l1, l2, e1, rfl, e3⟩ := List.map_eq_append_iff.1 hL
    obtain ⟨⟨k, v⟩, l3, f1, f2, rfl⟩ := List.map_eq_cons_iff.1 e3
    subst f1
    have hkk := hk (k, v) (by rw [e1]; simp)
    have := h4 l1 k v l3 e1
    simp only at f2 hkk
    rw [hkk] at this
    rw [← f2]
    exact this
  · intro p
    rcases h5 (key4 p) with hh | ⟨pre, post, e1, hh⟩
    · exact .inl hh
    · exact .inr ⟨pre.map Prod.snd, post.map Prod.snd, by rw [e1, List.map_append], hh⟩

/-! ## The keys

The structures that `eam.c` hands to the tries stand for the bits that the model uses. -/

/-- The bytes of an address, as they are in memory. -/
def bytes (n : Nat) (a : BitVec (8 * n)) : List (BitVec 8) :=
  (List.range n).map (fun i => a.extractLsb' (8 * (n - 1 - i)) 8)

theorem flatMap_getElem? (l : List (BitVec 8)) (j : Nat) :
    (RtrieKey.bitsOf l)[j]? = (l[j / 8]?).map (fun b => b.getMsbD (j % 8)) := by
  unfold RtrieKey.bitsOf
  induction l generalizing j with
  | nil => simp
  | cons b l ih =>
    rw [List.flatMap_cons]
    by_cases h : j < 8
    · rw [List.getElem?_append_left (by rw [RtrieKey.byteBits_length]; exact h), show j / 8 = 0 by omega,
        show j % 8 = j by omega]
      simp [RtrieKey.byteBits, h]
    · rw [List.getElem?_append_right (by rw [RtrieKey.byteBits_length]; omega), RtrieKey.byteBits_length, ih,
        show j / 8 = (j - 8) / 8 + 1 by omega, show (j - 8) % 8 = j % 8 by omega]
      simp

/-- C08: a key made of the bytes of an address stands for the bits of the address, and its bytes suffice. -/
theorem key_bytes (n : Nat) (a : BitVec (8 * n)) (len : Nat) (h : len ≤ 8 * n) :
    RtrieKey.BKey.Ok ⟨bytes n a, len⟩ ∧ RtrieKey.BKey.bits ⟨bytes n a, len⟩ = key a len := by
  refine ⟨by simp [RtrieKey.BKey.Ok, bytes]; exact h, ?_⟩
  apply List.ext_getElem?
  intro j
  unfold RtrieKey.BKey.bits key
  rw [List.getElem?_take]
  by_cases hj : j < len
  · rw [if_pos hj, flatMap_getElem?]
    have hjn : j / 8 < n := by omega
    simp only [bytes, List.getElem?_map, List.getElem?_range hjn, List.getElem?_range hj, Option.map_some,
      Option.some.injEq]
    simp only [BitVec.getMsbD, BitVec.getLsbD_extractLsb']
    have h1 : j % 8 < 8 := by omega
    have h2 : 8 - 1 - j % 8 < 8 := by omega
    have h3 : j < 8 * n := by omega
    simp only [h1, h2, h3, decide_true, Bool.true_and]
    congr 1
    omega
  · rw [if_neg hj]
    simp [hj]

end Jool.Eam
