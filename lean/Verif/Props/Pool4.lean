import Verif.Lemmas.Pool4Trees
import Verif.Props.Prefix
import Verif.Props.RbTree
/-
C14–C18: the IPv4 transport address pool.

Specification: the pool of a mark is a set of transport addresses. An addition unites it with the addresses
of a prefix and a port range (given in either order; port zero only exists in ICMP), a removal subtracts
them, a flush empties it.
-/
namespace Jool.Pool4Spec
open Jool.Pool4 PrefixSpec

/-- The transport address is in the prefix and between the two ports, given in either order. -/
def Covers (pfx : Prefix4) (x y : BitVec 16) (a : T4) : Prop :=
  Mem4 pfx a.addr ∧ ((x ≤ a.port ∧ a.port ≤ y) ∨ (y ≤ a.port ∧ a.port ≤ x))

/-- The request asks for the transport address to be in the pool of the mark. -/
def Adds (p : Proto) (mark : BitVec 32) (a : T4) : Op → Prop
  | .add _ _ q e => q = p ∧ e.mark = mark ∧ Covers e.pfx e.min e.max a ∧ (p = .ICMP ∨ a.port ≠ 0)
  | _ => False

/-- The request asks for the transport address to leave the pool of the mark. -/
def Removes (p : Proto) (mark : BitVec 32) (a : T4) : Op → Prop
  | .rm _ q m pfx x y => q = p ∧ m = mark ∧ Canonical4 pfx ∧ Covers pfx x y a
  | .flush => True
  | _ => False

/-- No memory allocation fails during the operation. -/
def NoFail : Op → Prop
  | .add kr _ _ _ => ∀ b a, kr b a ≠ .fail
  | .rm kr _ _ _ _ _ => ∀ b a, kr b a ≠ .fail
  | _ => True

/-- `a` is in the pool of the mark: its table has a range that covers it. -/
def In (db : Pool) (p : Proto) (mark : BitVec 32) (a : T4) : Prop :=
  ∃ t ∈ (db p).marks, t.mark = mark ∧
    ∃ e ∈ t.t.es, e.addr = a.addr ∧ e.min ≤ a.port.toNat ∧ a.port.toNat ≤ e.max

/-- The transport addresses of an array of ranges, one by one. -/
def taddrs (es : List E) : List T4 :=
  es.flatMap (fun e => (List.range (e.max + 1 - e.min)).map (fun i => ⟨e.addr, BitVec.ofNat 16 (e.min + i)⟩))

end Jool.Pool4Spec

namespace Jool.Pool4
open Pool4Spec PrefixSpec

/-! ## Histories -/

theorem lower_le_upper (x y : BitVec 16) : (lower x y).toNat ≤ (upper x y).toNat := by
  unfold lower upper
  split <;> rename_i h <;> rw [BitVec.lt_def] at h <;> omega

theorem ports_iff (x y p : BitVec 16) :
    ((lower x y).toNat ≤ p.toNat ∧ p.toNat ≤ (upper x y).toNat) ↔ ((x ≤ p ∧ p ≤ y) ∨ (y ≤ p ∧ p ≤ x)) := by
  unfold lower upper
  simp only [BitVec.le_def]
  split <;> rename_i h <;> rw [BitVec.lt_def] at h <;> omega

theorem addPorts_ok (p : Proto) (e : Entry) :
    (addPorts p e).1 ≤ (addPorts p e).2 + 1 ∧ (addPorts p e).1 ≤ 65535 ∧ (addPorts p e).2 ≤ 65535 := by
  have h := lower_le_upper e.min e.max
  have h1 := (upper e.min e.max).isLt
  have h2 := (lower e.min e.max).isLt
  simp only [addPorts]
  refine ⟨?_, ?_, by omega⟩ <;> split <;> omega

theorem addPorts_iff (p : Proto) (e : Entry) (q : BitVec 16) :
    ((addPorts p e).1 ≤ q.toNat ∧ q.toNat ≤ (addPorts p e).2) ↔
      ((e.min ≤ q ∧ q ≤ e.max) ∨ (e.max ≤ q ∧ q ≤ e.min)) ∧ (p = .ICMP ∨ q ≠ 0) := by
  rw [← ports_iff]
  have hz : q ≠ 0 ↔ q.toNat ≠ 0 := by
    rw [ne_eq, ← BitVec.toNat_inj]; rfl
  simp only [addPorts, hz]
  cases p <;> simp <;> (try split) <;> omega

structure Good (db : Pool) : Prop where
  wf : ∀ p, WFp (db p)

theorem good_empty : Good empty := ⟨fun _ => ⟨⟨by simp [empty], by simp [empty], by simp [empty]⟩,
  ⟨by simp [empty], by simp [empty], by simp [empty], by simp [empty]⟩⟩⟩

theorem setP_self (db : Pool) (p : Proto) (t : PT) : setP db p t p = t := by simp [setP]
theorem setP_ne (db : Pool) {p q : Proto} (t : PT) (h : q ≠ p) : setP db p t q = db q := by simp [setP, h]

theorem cov_iff (pfx : Prefix4) (h : Canonical4 pfx) (lo hi : Nat) (a : T4) :
    (∃ x ∈ foreachAddr4 pfx, Cov ⟨x, lo, hi⟩ a) ↔ Mem4 pfx a.addr ∧ lo ≤ a.port.toNat ∧ a.port.toNat ≤ hi := by
  have hm := (prefix4_foreach_correct pfx h).1
  constructor
  · rintro ⟨x, hx, hc, h1, h2⟩
    dsimp only at hc h1 h2
    exact ⟨hc ▸ (hm x).1 hx, h1, h2⟩
  · rintro ⟨h1, h2, h3⟩
    exact ⟨a.addr, (hm _).2 h1, rfl, h2, h3⟩

theorem foreach_nodup (pfx : Prefix4) (h : Canonical4 pfx) : (foreachAddr4 pfx).Nodup := by
  refine (prefix4_foreach_correct pfx h).2.1.imp ?_
  intro a b hab he
  rw [he] at hab; omega

/-- Everything one operation does. -/
theorem step_spec {db db' : Pool} {o : Op} {err : Bool} (hg : Good db) (hs : step db o = .ok (db', err)) :
    Good db' ∧
      (NoFail o → ∀ p m a, MSet (db' p).marks m a ↔
        (MSet (db p).marks m a ∧ ¬ Removes p m a o) ∨ (Adds p m a o ∧ err = false)) ∧
      (NoFail o → ∀ p a, ASet (db' p).addrs a ↔
        (ASet (db p).addrs a ∧ ¬ ∃ m, Removes p m a o) ∨ ((∃ m, Adds p m a o) ∧ err = false)) := by
  cases o with
  | flush =>
    simp only [step, Outcome.ok.injEq, Prod.mk.injEq] at hs
    obtain ⟨rfl, rfl⟩ := hs
    refine ⟨good_empty, ?_, ?_⟩
    · intro _ p m a; simp [flush, empty, MSet, Removes, Adds]
    · intro _ p a; simp [flush, empty, ASet, Removes, Adds]
  | update q mark f iters =>
    simp only [step, Outcome.ok.injEq, Prod.mk.injEq] at hs
    have hu : db' = (update q mark f iters db).1 := by rw [hs]
    have herr : err = (update q mark f iters db).2 := by rw [hs]
    unfold update at hu
    -- a table keeps its key and its entries
    have hsame : ∀ x : MT, (if x.mark = mark ∧ f.set then { x with flags := f, iters := iters } else x).t = x.t ∧
        (if x.mark = mark ∧ f.set then { x with flags := f, iters := iters } else x).mark = x.mark := by
      intro x; split <;> exact ⟨rfl, rfl⟩
    have hcase : db' = db ∨ db' = setP db q ⟨(db q).marks.map (fun x => if x.mark = mark ∧ f.set then
        { x with flags := f, iters := iters } else x), (db q).addrs⟩ := by
      split at hu
      · exact .inl hu
      · split at hu
        · exact .inl hu
        · exact .inr hu
    rcases hcase with rfl | rfl
    · exact ⟨hg, fun _ p m a => by simp [Removes, Adds], fun _ p a => by simp [Removes, Adds]⟩
    · refine ⟨⟨?_⟩, ?_, ?_⟩
      · intro p
        by_cases hp : p = q
        · subst hp
          rw [setP_self]
          refine ⟨⟨?_, ?_, ?_⟩, (hg.wf p).a⟩
          · rw [List.pairwise_map]
            refine (hg.wf p).m.sorted.imp ?_
            intro a b hab
            rw [markKey_congr (hsame a).2, markKey_congr (hsame b).2]; exact hab
          · intro t ht
            obtain ⟨y, hy, rfl⟩ := List.mem_map.1 ht
            rw [(hsame y).1]; exact (hg.wf p).m.wf y hy
          · intro t ht
            obtain ⟨y, hy, rfl⟩ := List.mem_map.1 ht
            rw [(hsame y).1]; exact (hg.wf p).m.ne y hy
        · rw [setP_ne _ _ hp]; exact hg.wf p
      · intro _ p m a
        simp only [Removes, Adds, not_false_eq_true, and_true, false_and, or_false]
        by_cases hp : p = q
        · subst hp
          rw [setP_self]
          simp only [MSet, List.mem_map]
          constructor
          · rintro ⟨_, ⟨y, hy, rfl⟩, h1, h2⟩
            rw [(hsame y).1] at h2; rw [(hsame y).2] at h1
            exact ⟨y, hy, h1, h2⟩
          · rintro ⟨y, hy, h1, h2⟩
            exact ⟨_, ⟨y, hy, rfl⟩, by rw [(hsame y).2]; exact h1, by rw [(hsame y).1]; exact h2⟩
        · rw [setP_ne _ _ hp]
      · intro _ p a
        simp only [Removes, Adds, exists_false, not_false_eq_true, and_true, false_and, or_false]
        by_cases hp : p = q
        · subst hp; rw [setP_self]
        · rw [setP_ne _ _ hp]
  | add kr eph q e =>
    simp only [step, add] at hs
    -- rejected requests
    have hrej : ∀ h : db' = db ∧ err = true, Good db' ∧
      (NoFail (.add kr eph q e) → ∀ p m a, MSet (db' p).marks m a ↔
        (MSet (db p).marks m a ∧ ¬ Removes p m a (.add kr eph q e)) ∨ (Adds p m a (.add kr eph q e) ∧ err = false)) ∧
      (NoFail (.add kr eph q e) → ∀ p a, ASet (db' p).addrs a ↔
        (ASet (db p).addrs a ∧ ¬ ∃ m, Removes p m a (.add kr eph q e)) ∨
          ((∃ m, Adds p m a (.add kr eph q e)) ∧ err = false)) := by
      rintro ⟨rfl, rfl⟩
      exact ⟨hg, fun _ p m a => by simp [Removes], fun _ p a => by simp [Removes]⟩
    split at hs
    · simp only [Outcome.ok.injEq, Prod.mk.injEq] at hs
      exact hrej ⟨hs.1.symm, hs.2.symm⟩
    · rename_i hv
      split at hs
      · simp only [Outcome.ok.injEq, Prod.mk.injEq] at hs
        exact hrej ⟨hs.1.symm, hs.2.symm⟩
      · split at hs
        · simp only [Outcome.ok.injEq, Prod.mk.injEq] at hs
          exact hrej ⟨hs.1.symm, hs.2.symm⟩
        · have hcan : Canonical4 e.pfx := (prefix4Validate_iff e.pfx).1 (by simpa using hv)
          cases hl : addLoop kr e (addPorts q e).1 (addPorts q e).2 (db q) (foreachAddr4 e.pfx) with
          | ub u => rw [hl] at hs; simp [Outcome.map] at hs
          | ok r =>
            rw [hl] at hs
            simp only [Outcome.map, Outcome.ok.injEq, Prod.mk.injEq] at hs
            obtain ⟨rfl, rfl⟩ := hs
            obtain ⟨w1, w2, w3, w4, w5, w6, w7⟩ := addLoop_spec kr e _ _ _ (db q) r.1 r.2 (addPorts_ok q e) (hg.wf q) hl
            have hnf : NoFail (.add kr eph q e) → r.2 = false := by
              intro hn
              cases hr : r.2 with
              | false => rfl
              | true => obtain ⟨b, a, hk⟩ := w2 hr; exact absurd hk (hn b a)
            refine ⟨⟨?_⟩, ?_, ?_⟩
            · intro p
              by_cases hp : p = q
              · subst hp; rw [setP_self]; exact w1
              · rw [setP_ne _ _ hp]; exact hg.wf p
            · intro hn p m a
              have he := hnf hn
              simp only [Removes, Adds, not_false_eq_true, and_true, he]
              by_cases hp : p = q
              · subst hp
                rw [setP_self, w3 he, cov_iff _ hcan, addPorts_iff]
                simp only [true_and, Covers]
                constructor
                · rintro (h | ⟨h1, h2, h3, h4⟩)
                  · exact .inl h
                  · exact .inr ⟨h1.symm, ⟨h2, h3⟩, h4⟩
                · rintro (h | ⟨h1, ⟨h2, h3⟩, h4⟩)
                  · exact .inl h
                  · exact .inr ⟨h1.symm, h2, h3, h4⟩
              · rw [setP_ne _ _ hp]
                have : ¬ q = p := fun h => hp h.symm
                simp [this]
            · intro hn p a
              have he := hnf hn
              simp only [Removes, Adds, exists_false, not_false_eq_true, and_true, he]
              by_cases hp : p = q
              · subst hp
                rw [setP_self, w4 he, cov_iff _ hcan, addPorts_iff]
                simp only [true_and, Covers]
                constructor
                · rintro (h | ⟨h2, h3, h4⟩)
                  · exact .inl h
                  · exact .inr ⟨e.mark, rfl, ⟨h2, h3⟩, h4⟩
                · rintro (h | ⟨_, _, ⟨h2, h3⟩, h4⟩)
                  · exact .inl h
                  · exact .inr ⟨h2, h3, h4⟩
              · rw [setP_ne _ _ hp]
                have : ¬ q = p := fun h => hp h.symm
                simp [this]
  | rm kr q mark pfx x y =>
    simp only [step, rm] at hs
    split at hs
    · rename_i hv
      simp only [Outcome.ok.injEq, Prod.mk.injEq] at hs
      obtain ⟨rfl, rfl⟩ := hs
      have hcan : ¬ Canonical4 pfx := fun hc => by
        have := (prefix4Validate_iff pfx).2 hc; simp [this] at hv
      exact ⟨hg, fun _ p m a => by simp [Removes, Adds, hcan], fun _ p a => by simp [Removes, Adds, hcan]⟩
    · rename_i hv
      have hcan : Canonical4 pfx := (prefix4Validate_iff pfx).1 (by simpa using hv)
      have hlh := lower_le_upper x y
      have hhi : (upper x y).toNat ≤ 65535 := by have := (upper x y).isLt; omega
      have hcov : ∀ a : T4, RmCov pfx (lower x y).toNat (upper x y).toNat a ↔ Covers pfx x y a := by
        intro a
        rw [RmCov, Covers, prefix4_contains_correct pfx _ hcan.1, ports_iff]
      cases hm : rmFromMark (kr true) mark pfx (lower x y).toNat (upper x y).toNat (db q).marks with
      | ub u => rw [hm] at hs; simp at hs
      | ok r =>
        obtain ⟨m', e1⟩ := r
        rw [hm] at hs
        obtain ⟨k1, k2, k3⟩ := rmFromMark_spec hlh hhi (hg.wf q).m hm
        cases e1 with
        | true =>
          simp only [Outcome.ok.injEq, Prod.mk.injEq] at hs
          obtain ⟨rfl, rfl⟩ := hs
          refine ⟨⟨?_⟩, ?_, ?_⟩
          · intro p
            by_cases hp : p = q
            · subst hp; rw [setP_self]; exact ⟨k1, (hg.wf p).a⟩
            · rw [setP_ne _ _ hp]; exact hg.wf p
          · intro hn; obtain ⟨a, ha⟩ := k2 rfl; exact absurd ha (hn true a)
          · intro hn; obtain ⟨a, ha⟩ := k2 rfl; exact absurd ha (hn true a)
        | false =>
          obtain ⟨s1, _⟩ := k3 rfl
          dsimp only at hs
          cases ha : rmFromAddr (kr false) pfx (lower x y).toNat (upper x y).toNat (db q).addrs with
          | ub u => rw [ha] at hs; simp [Outcome.map] at hs
          | ok r =>
            rw [ha] at hs
            simp only [Outcome.map, Outcome.ok.injEq, Prod.mk.injEq] at hs
            obtain ⟨rfl, rfl⟩ := hs
            obtain ⟨q1, _, q3, q4, q5⟩ := rmFromAddr_spec hlh hhi (hg.wf q).a (l' := r.1) (err := r.2) ha
            have hnf : NoFail (.rm kr q mark pfx x y) → r.2 = false := by
              intro hn
              cases hr : r.2 with
              | false => rfl
              | true => obtain ⟨a, hk⟩ := q3 hr; exact absurd hk (hn false a)
            refine ⟨⟨?_⟩, ?_, ?_⟩
            · intro p
              by_cases hp : p = q
              · subst hp; rw [setP_self]; exact ⟨k1, q1⟩
              · rw [setP_ne _ _ hp]; exact hg.wf p
            · intro hn p m a
              simp only [Removes, Adds, false_and, or_false]
              by_cases hp : p = q
              · subst hp
                rw [setP_self, s1, hcov]
                simp only [true_and, hcan]
                constructor
                · rintro ⟨h1, h2⟩; exact ⟨h1, fun h => h2 ⟨h.1.symm, h.2⟩⟩
                · rintro ⟨h1, h2⟩; exact ⟨h1, fun h => h2 ⟨h.1.symm, h.2⟩⟩
              · rw [setP_ne _ _ hp]
                have : ¬ q = p := fun h => hp h.symm
                simp [this]
            · intro hn p a
              simp only [Removes, Adds, exists_false, false_and, or_false]
              by_cases hp : p = q
              · subst hp
                rw [setP_self, q4 (hnf hn), hcov]
                simp [hcan]
              · rw [setP_ne _ _ hp]
                have : ¬ q = p := fun h => hp h.symm
                simp [this]

theorem run_good {db db' : Pool} (hist : List Op) (hg : Good db) (hr : run db hist = .ok db') : Good db' := by
  induction hist generalizing db with
  | nil => simp only [run, Outcome.ok.injEq] at hr; exact hr ▸ hg
  | cons o os ih =>
    rw [run] at hr
    cases hs : step db o with
    | ub u => rw [hs] at hr; simp at hr
    | ok r =>
      rw [hs] at hr
      exact ih (step_spec hg (db' := r.1) (err := r.2) hs).1 hr

theorem run_set {db db' : Pool} (hist : List Op) (hg : Good db) (hn : ∀ o ∈ hist, NoFail o) (hr : run db hist = .ok db')
    (p : Proto) (m : BitVec 32) (a : T4) :
    MSet (db' p).marks m a ↔ (MSet (db p).marks m a ∧ ∀ o ∈ hist, ¬ Removes p m a o) ∨
      ∃ pre o post d d', hist = pre ++ o :: post ∧ run db pre = .ok d ∧ step d o = .ok (d', false) ∧ Adds p m a o ∧
        ∀ x ∈ post, ¬ Removes p m a x := by
  induction hist generalizing db with
  | nil =>
    simp only [run, Outcome.ok.injEq] at hr
    subst hr
    simp
  | cons o os ih =>
    rw [run] at hr
    cases hs : step db o with
    | ub u => rw [hs] at hr; simp at hr
    | ok r =>
      rw [hs] at hr
      have hr : run r.1 os = .ok db' := hr
      obtain ⟨h1, h2, _⟩ := step_spec hg (db' := r.1) (err := r.2) hs
      rw [ih h1 (fun x hx => hn x (List.mem_cons_of_mem _ hx)) hr, h2 (hn o (List.mem_cons_self ..))]
      constructor
      · rintro (⟨(⟨h3, h4⟩ | ⟨h3, h4⟩), h5⟩ | ⟨pre, o', post, d, d', e1, e2, e3, e4, e5⟩)
        · refine .inl ⟨h3, ?_⟩
          intro x hx
          rcases List.mem_cons.1 hx with rfl | hx
          · exact h4
          · exact h5 x hx
        · refine .inr ⟨[], o, os, db, r.1, rfl, rfl, ?_, h3, h5⟩
          rw [hs, ← h4]
        · refine .inr ⟨o :: pre, o', post, d, d', by rw [e1]; rfl, ?_, e3, e4, e5⟩
          rw [run, hs]; exact e2
      · rintro (⟨h3, h4⟩ | ⟨pre, o', post, d, d', e1, e2, e3, e4, e5⟩)
        · exact .inl ⟨.inl ⟨h3, h4 o (List.mem_cons_self ..)⟩, fun x hx => h4 x (List.mem_cons_of_mem _ hx)⟩
        · cases pre with
          | nil =>
            simp only [List.nil_append, List.cons.injEq] at e1
            obtain ⟨rfl, rfl⟩ := e1
            simp only [run, Outcome.ok.injEq] at e2
            subst e2
            rw [hs] at e3
            simp only [Outcome.ok.injEq] at e3
            exact .inl ⟨.inr ⟨e4, by rw [e3]⟩, e5⟩
          | cons z pre =>
            simp only [List.cons_append, List.cons.injEq] at e1
            obtain ⟨rfl, rfl⟩ := e1
            rw [run, hs] at e2
            exact .inr ⟨pre, o', post, d, d', rfl, e2, e3, e4, e5⟩

/-- **C14.** After any history of additions, removals, updates and flushes in which memory allocations succeed,
a transport address belongs to the pool of a mark iff a successful addition covers it and no later removal or
flush does. -/
theorem pool4_set (hist : List Op) (hn : ∀ o ∈ hist, NoFail o) (db : Pool) (hr : run empty hist = .ok db)
    (p : Proto) (m : BitVec 32) (a : T4) :
    In db p m a ↔ ∃ pre o post d d', hist = pre ++ o :: post ∧ run empty pre = .ok d ∧ step d o = .ok (d', false) ∧
      Adds p m a o ∧ ∀ x ∈ post, ¬ Removes p m a x := by
  have := run_set hist good_empty hn hr p m a
  refine this.trans ?_
  constructor
  · rintro (⟨⟨t, ht, _⟩, _⟩ | h)
    · simp [empty] at ht
    · exact h
  · exact .inr

/-- **C14.** After any history whatsoever, even if allocations fail, no two tables have the same mark, and the
ranges of a table are sorted, disjoint and not adjacent, within 16 bits and at least one. -/
theorem pool4_sorted (hist : List Op) (db : Pool) (hr : run empty hist = .ok db) (p : Proto) :
    (∀ t ∈ (db p).marks, ∀ u ∈ (db p).marks, t.mark = u.mark → t = u) ∧
    ∀ t ∈ (db p).marks, t.t.es ≠ [] ∧
      t.t.es.Pairwise (fun e f => e.addr.toNat < f.addr.toNat ∨ (e.addr = f.addr ∧ e.max + 1 < f.min)) ∧
      ∀ e ∈ t.t.es, e.min ≤ e.max + 1 ∧ e.min ≤ 65535 ∧ e.max ≤ 65535 := by
  have hg := run_good hist good_empty hr
  exact ⟨fun t ht u hu h => (hg.wf p).m.unique ht hu h, fun t ht =>
    ⟨(hg.wf p).m.ne t ht, ((hg.wf p).m.wf t ht).sorted, ((hg.wf p).m.wf t ht).ok⟩⟩

/-- **C14.** An addition is rejected, changing nothing, exactly when its prefix is malformed, its iteration
settings are contradictory, or its ports collide with the ephemeral range (and it is not forced). -/
theorem pool4_add_accepts (db db' : Pool) (kr : Oracle) (eph : Option (Nat × Nat)) (p : Proto) (e : Entry) (err : Bool)
    (hg : Good db) (hn : NoFail (.add kr eph p e)) (hs : step db (.add kr eph p e) = .ok (db', err)) :
    (err = false ↔ Canonical4 e.pfx ∧
      (e.flags.set = true → ¬ (e.flags.auto = true ∧ e.flags.infinite = true) ∧
        (e.iters = 0 → e.flags.auto = true ∨ e.flags.infinite = true)) ∧
      (p ≠ .ICMP → ∀ r, eph = some r → ¬ (r.1 ≤ (addPorts p e).2 ∧ (addPorts p e).1 ≤ r.2))) ∧
    (err = true → db' = db) := by
  have hi : itersOk e.flags e.iters = true ↔ (e.flags.set = true → ¬ (e.flags.auto = true ∧ e.flags.infinite = true) ∧
      (e.iters = 0 → e.flags.auto = true ∨ e.flags.infinite = true)) := by
    unfold itersOk
    cases e.flags.set <;> cases e.flags.auto <;> cases e.flags.infinite <;> by_cases h0 : e.iters = 0 <;> simp [h0]
  have he : ephOk p eph (addPorts p e) = true ↔
      (p ≠ .ICMP → ∀ r, eph = some r → ¬ (r.1 ≤ (addPorts p e).2 ∧ (addPorts p e).1 ≤ r.2)) := by
    unfold ephOk
    cases p <;> cases eph <;> simp <;> omega
  have hv : prefix4Validate e.pfx = true ↔ Canonical4 e.pfx := prefix4Validate_iff e.pfx
  rw [← hv, ← hi, ← he]
  simp only [step, add] at hs
  split at hs
  · rename_i h
    simp only [Outcome.ok.injEq, Prod.mk.injEq] at hs
    obtain ⟨rfl, rfl⟩ := hs
    have : prefix4Validate e.pfx = false := by simpa using h
    simp [this]
  · rename_i h
    split at hs
    · rename_i h'
      simp only [Outcome.ok.injEq, Prod.mk.injEq] at hs
      obtain ⟨rfl, rfl⟩ := hs
      have : itersOk e.flags e.iters = false := by simpa using h'
      simp [this]
    · rename_i h'
      split at hs
      · rename_i h''
        simp only [Outcome.ok.injEq, Prod.mk.injEq] at hs
        obtain ⟨rfl, rfl⟩ := hs
        have : ephOk p eph (addPorts p e) = false := by simpa using h''
        simp [this]
      · rename_i h''
        have h1 : prefix4Validate e.pfx = true := by simpa using h
        have h2 : itersOk e.flags e.iters = true := by simpa using h'
        have h3 : ephOk p eph (addPorts p e) = true := by simpa using h''
        cases hl : addLoop kr e (addPorts p e).1 (addPorts p e).2 (db p) (foreachAddr4 e.pfx) with
        | ub u => rw [hl] at hs; simp [Outcome.map] at hs
        | ok r =>
          rw [hl] at hs
          simp only [Outcome.map, Outcome.ok.injEq, Prod.mk.injEq] at hs
          obtain ⟨rfl, rfl⟩ := hs
          obtain ⟨_, w2, _⟩ := addLoop_spec kr e _ _ _ (db p) r.1 r.2 (addPorts_ok p e) (hg.wf p) hl
          have : r.2 = false := by
            cases hr : r.2 with
            | false => rfl
            | true => obtain ⟨b, a, hk⟩ := w2 hr; exact absurd hk (hn b a)
          simp [this, h1, h2, h3]

end Jool.Pool4
