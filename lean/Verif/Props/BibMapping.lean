import Verif.Props.BibPackets
import Verif.Props.Pool4Masks
/-
C64: endpoint-independent mapping.
-/
namespace Jool.Bib
open BibSpec

/-- The entry may be used with this pool. -/
def Usable (m : Masks) (b : BibKey) : Prop := m.dynamic = false ∨ m.owns b.src4 = true

theorem commit_bib {now : Nat} {t : Table} {f : Found} {s d : T6} {st : TcpState} {τ : TimerType} {c}
    (hc : commitAdd6 now t f s d st τ = .ok c) :
    (∃ b, f.oldBib = .live b ∧ c.2.bib = b) ∨ (f.oldBib = .null ∧ c.2.bib = ⟨s, f.src4⟩) := by
  unfold commitAdd6 at hc
  cases hf : f.oldBib with
  | dangling => simp [hf] at hc
  | live b => simp only [hf, Outcome.ok.injEq] at hc; subst hc; exact .inl ⟨b, rfl, rfl⟩
  | null => simp only [hf, Outcome.ok.injEq] at hc; subst hc; exact .inr ⟨rfl, rfl⟩

theorem collision_bib {e : Env} {cb} {t : Table} {ev k r} (h : tcpCollision e cb t ev k = .ok r) {b o}
    (hr : r.2.2 = .cont b o) : b = k.bib := by
  unfold tcpCollision at h
  simp only at h
  split at h
  · split at h
    · cases h
    · cases h; injection hr with h1 _; exact h1.symm
  · cases h; cases hr

/-- C64: the mapping does not depend on the destination. If the node has an entry that may be used, a packet of the node
that is translated is translated with it. -/
theorem mapping_stable {p hist t ev} (h : After p hist t ev) (e : Env) (op : Op) (ho : op.Ok) (s : T6) (m : Masks)
    (hop : Packet6 op = some (s, m)) (r) (hr : step p t e op = .ok r) (b : BibKey) (hb : b ∈ bibs t) (hs : b.src6 = s)
    (hu : Usable m b) (b' : BibKey) (o) (hc : r.2.2 = .cont b' o) : b' = b := by
  have w := (After.inv h).wf
  have un : ∀ c ∈ t.tree4, c.src6 = s → c = b := fun c hc he => w.uniq6 hc hb (he.trans hs.symm)
  have nn : find6 t s ≠ none := fun hn => find6_none hn b ((w.same b).2 hb) hs
  cases op with
  | add6 m' s6 d6 d4 =>
    simp only [Packet6, Option.some.injEq, Prod.mk.injEq] at hop
    obtain ⟨rfl, rfl⟩ := hop
    simp only [step] at hr
    split at hr
    · cases hr; cases hc
    · unfold add6 at hr
      split at hr
      · cases hr; cases hc
      · have F := findBibSession6_cases (e := e) (p := p) (src6 := s6) (dst6 := d6) (dst4 := d4) w ho
        generalize findBibSession6 e p t (some m') s6 d6 default d4 = q at hr F
        cases F with
        | live c hb' hs' hm =>
          have := un c hb' hs'
          subst this
          simp only at hr
          by_cases hm : patchDst4 p d4 c.src4 ∈ t.sess c
          · rw [if_pos hm] at hr; cases hr; cases hc; rfl
          · rw [if_neg hm] at hr
            simp only at hr
            split at hr
            · cases hr
            · rename_i c' hc'
              cases hr; cases hc
              rcases commit_bib hc' with ⟨x, h1, h2⟩ | ⟨h1, _⟩
              · injection h1 with h1; exact h2.trans h1.symm
              · cases h1
        | evicted c hb' hs' hm =>
          have := un c hb' hs'
          subst this
          rcases hu with hu | hu
          · rw [hu] at hm; simp at hm
          · rw [hu] at hm; simp at hm
        | upgraded n hp h6 => exact absurd h6 nn
        | lost n hp h6 => exact absurd h6 nn
        | fresh h6 => exact absurd h6 nn
  | tcp6 m' sg s6 d6 d4 =>
    simp only [Packet6, Option.some.injEq, Prod.mk.injEq] at hop
    obtain ⟨rfl, rfl⟩ := hop
    simp only [step] at hr
    split at hr
    · unfold tcp6 at hr
      split at hr
      · cases hr; cases hc
      · have F := findBibSession6_cases (e := e) (p := .TCP) (src6 := s6) (dst6 := d6) (dst4 := d4) w ho
        generalize findBibSession6 e .TCP t (some m') s6 d6 default d4 = q at hr F
        cases F with
        | live c hb' hs' hm =>
          have := un c hb' hs'
          subst this
          simp only at hr
          by_cases hm : patchDst4 .TCP d4 c.src4 ∈ t.sess c
          · rw [if_pos hm] at hr
            exact collision_bib hr hc
          · rw [if_neg hm] at hr
            simp only at hr
            split at hr
            · cases hr; cases hc; rfl
            · split at hr
              · cases hr
              · rename_i c' hc'
                cases hr; cases hc
                rcases commit_bib hc' with ⟨x, h1, h2⟩ | ⟨h1, _⟩
                · injection h1 with h1; exact h2.trans h1.symm
                · cases h1
        | evicted c hb' hs' hm =>
          have := un c hb' hs'
          subst this
          rcases hu with hu | hu
          · rw [hu] at hm; simp at hm
          · rw [hu] at hm; simp at hm
        | upgraded n hp h6 => exact absurd h6 nn
        | lost n hp h6 => exact absurd h6 nn
        | fresh h6 => exact absurd h6 nn
    · cases hr; cases hc
  | _ => simp [Packet6] at hop

/-- C64: a UDP or ICMP packet of such a node is always translated (memory permitting), and the entry stays. -/
theorem mapping_kept {p hist t ev} (h : After p hist t ev) (hp : p ≠ .TCP) (e : Env) (m : Masks) (hm : m.Ok) (s d : T6)
    (d4 : T4) (he : e.oom.new = false) (b : BibKey) (hb : b ∈ bibs t) (hs : b.src6 = s) (hu : Usable m b) :
    ∃ r k, step p t e (.add6 m s d d4) = .ok r ∧ r.2.2 = .cont b (some k) ∧ bibs r.1 = bibs t := by
  have w := (After.inv h).wf
  have un : ∀ c ∈ t.tree4, c.src6 = s → c = b := fun c hc he => w.uniq6 hc hb (he.trans hs.symm)
  have nn : find6 t s ≠ none := fun hn => find6_none hn b ((w.same b).2 hb) hs
  simp only [step, if_neg hp, add6, he, Bool.false_eq_true, if_false]
  have F := findBibSession6_cases (e := e) (p := p) (src6 := s) (dst6 := d) (dst4 := d4) w hm
  generalize findBibSession6 e p t (some m) s d default d4 = q at F
  cases F with
  | live c hb' hs' hm =>
    have := un c hb' hs'
    subst this
    simp only
    by_cases hm : patchDst4 p d4 c.src4 ∈ t.sess c
    · rw [if_pos hm]
      exact ⟨_, _, rfl, rfl, rfl⟩
    · rw [if_neg hm]
      exact ⟨_, _, rfl, rfl, rfl⟩
  | evicted c hb' hs' hm =>
    have := un c hb' hs'
    subst this
    rcases hu with hu | hu
    · rw [hu] at hm; simp at hm
    · rw [hu] at hm; simp at hm
  | upgraded n hp h6 => exact absurd h6 nn
  | lost n hp h6 => exact absurd h6 nn
  | fresh h6 => exact absurd h6 nn

/-- C64: the entry may not be used anymore. Then it is deleted, and if the packet is translated, it is with the first
candidate that no other node has. -/
theorem mapping_replaced {p hist t ev} (h : After p hist t ev) (hp : p ≠ .TCP) (e : Env) (m : Masks) (hm : m.Ok)
    (hown : ∀ a ∈ m.cands.map Prod.fst, m.owns a = true) (s d : T6)
    (d4 : T4) (he : e.oom.new = false) (b : BibKey) (hb : b ∈ bibs t) (hs : b.src6 = s) (hu : ¬ Usable m b) :
    ∃ r, step p t e (.add6 m s d d4) = .ok r ∧ b ∉ bibs r.1 ∧
      ((r.2.2 = .err .ENOENT ∧ ∀ a ∈ m.cands.map Prod.fst, Taken t s a) ∨
       ∃ a k, r.2.2 = .cont ⟨s, a⟩ (some k) ∧ ⟨s, a⟩ ∈ bibs r.1 ∧ a ∈ m.cands.map Prod.fst ∧ ¬ Taken t s a) := by
  have w := (After.inv h).wf
  have un : ∀ c ∈ t.tree4, c.src6 = s → c = b := fun c hc he => w.uniq6 hc hb (he.trans hs.symm)
  have nn : find6 t s ≠ none := fun hn => find6_none hn b ((w.same b).2 hb) hs
  simp only [Usable, not_or, Bool.not_eq_false, Bool.not_eq_true] at hu
  simp only [step, if_neg hp, add6, he, Bool.false_eq_true, if_false]
  have F := findBibSession6_cases (e := e) (p := p) (src6 := s) (dst6 := d) (dst4 := d4) w hm
  generalize findBibSession6 e p t (some m) s d default d4 = q at F
  cases F with
  | live c hb' hs' hm =>
    have := un c hb' hs'
    subst this
    exact absurd hu hm
  | evicted c hb' hs' hm' =>
    have := un c hb' hs'
    subst this
    have gone : c ∉ (detachBib t c).1.tree4 := by
      rw [(detachBib_eq t c).t4, List.Nodup.mem_erase_iff (sorted_nodup w.s4)]
      simp
    cases hff : firstFree t s m with
    | none =>
      simp only
      refine ⟨_, rfl, gone, .inl ⟨rfl, fun a ha => ?_⟩⟩
      have := List.find?_eq_none.1 hff a ha
      simp only [decide_eq_true_eq] at this
      unfold Free at this
      simp only [Classical.not_forall] at this
      obtain ⟨c, hc, hne, he⟩ := this
      exact ⟨c, hc, hne, Classical.not_not.1 he⟩
    | some a =>
      have ha := List.mem_of_find?_eq_some hff
      have hf := List.find?_some hff
      simp only [decide_eq_true_eq] at hf
      simp only [commitAdd6]
      refine ⟨_, rfl, ?_, .inr ⟨a, _, rfl, ?_, ha, ?_⟩⟩
      · intro hin
        rcases (mem_addBib (t := (detachBib t c).1) (st := false)).1 hin with h1 | h1
        · have := hown a ha
          rw [h1] at hu
          simp [this] at hu
        · exact gone h1
      · exact (mem_addBib (t := (detachBib t c).1) (st := false)).2 (.inl rfl)
      · rintro ⟨c, hc, hne, he⟩; exact hf c hc hne he
  | upgraded n hp h6 => exact absurd h6 nn
  | lost n hp h6 => exact absurd h6 nn
  | fresh h6 => exact absurd h6 nn

end Jool.Bib

namespace Jool.Pool4
open Pool4Spec PrefixSpec

theorem domMatches_iff (d : Dom) (a : T4) : domMatches d a = true ↔ InEs d.es a := by
  unfold domMatches InEs Cov portContains
  simp only [List.any_eq_true, Bool.and_eq_true, decide_eq_true_eq]

/-- C64: which addresses the pool owns. Those of the mark's table, all of them, also those that the iteration limit
excludes from the candidates; an entry is never replaced. -/
theorem owns_pool (t : MT) (offset : BitVec 32) (d : Dom) (hd : domainOf t offset = .ok (some d)) :
    (∀ a, (masks d).owns a = true ↔ InEs t.t.es a) ∧ (masks d).dynamic = false := by
  unfold domainOf at hd
  split at hd
  · simp at hd
  · simp only [Outcome.ok.injEq] at hd
    obtain ⟨s, hs, rfl⟩ := Option.map_eq_some_iff.1 hd
    exact ⟨fun a => domMatches_iff _ a, rfl⟩

/-- C64: the empty pool. The ports 61001–65535 of the address that routing picked; entries with others are replaced. -/
theorem owns_empty (addr : Addr4) (offset : BitVec 32) :
    (∀ a, (masks (domainEmpty addr offset)).owns a = true ↔ a.addr = addr ∧ 61001 ≤ a.port.toNat) ∧
    (masks (domainEmpty addr offset)).dynamic = true ∧
    (∀ a ∈ (masks (domainEmpty addr offset)).cands.map Prod.fst, (masks (domainEmpty addr offset)).owns a = true) := by
  have k : ∀ a, (masks (domainEmpty addr offset)).owns a = true ↔ a.addr = addr ∧ 61001 ≤ a.port.toNat := by
    intro a
    refine (domMatches_iff _ a).trans ?_
    have := a.port.isLt
    simp only [domainEmpty, InEs, Cov, List.mem_singleton, exists_eq_left]
    constructor
    · rintro ⟨h1, h2, h3⟩; exact ⟨h1.symm, h2⟩
    · rintro ⟨h1, h2⟩; exact ⟨h1.symm, h2, by omega⟩
  refine ⟨k, rfl, fun a ha => ?_⟩
  rw [enumeration_empty] at ha
  have hm : a ∈ taddrs [⟨addr, 61001, 65535⟩] := by
    rcases List.mem_append.1 ha with h | h
    · exact List.mem_of_mem_drop h
    · exact List.mem_of_mem_take h
  obtain ⟨e, he, h1, h2, h3⟩ := (mem_taddrs _ (by simp [OkE]) a).1 hm
  simp only [List.mem_singleton] at he
  subst he
  exact (k a).2 ⟨h1.symm, h2⟩

end Jool.Pool4

/-! A case: node 1 has an entry; another pool is in use by the time of its next packet. If the pool is configured, the
entry is kept; if it is empty, the entry is replaced. -/
namespace Jool.Bib
open BibSpec
private def exNew (dyn : Bool) : Masks := ⟨[(⟨77#32, 7#16⟩, false)], dyn, fun a => decide (a = ⟨77#32, 7#16⟩)⟩
example : ∃ t ev, After .UDP (exFull.take 1) t ev ∧ bibs t = [⟨⟨1#128, 1#16⟩, exB.src4⟩] ∧
    Usable (exNew false) ⟨⟨1#128, 1#16⟩, exB.src4⟩ ∧ ¬ Usable (exNew true) ⟨⟨1#128, 1#16⟩, exB.src4⟩ ∧
    bibs (exStep (step .UDP t exEnv (.add6 (exNew false) ⟨1#128, 1#16⟩ ⟨99#128, 53#16⟩ ⟨1#32, 53#16⟩))).1 =
      [⟨⟨1#128, 1#16⟩, exB.src4⟩] ∧
    bibs (exStep (step .UDP t exEnv (.add6 (exNew true) ⟨1#128, 1#16⟩ ⟨99#128, 53#16⟩ ⟨1#32, 53#16⟩))).1 =
      [⟨⟨1#128, 1#16⟩, ⟨77#32, 7#16⟩⟩] := by
  refine ⟨(exOut (run .UDP init (exFull.take 1))).1, _,
    ⟨fun x hx => exFull_ok x (List.mem_of_mem_take hx), exOut_ok (by decide +kernel)⟩, by decide +kernel, .inl rfl, ?_,
    by decide +kernel, by decide +kernel⟩
  unfold Usable
  decide
end Jool.Bib
