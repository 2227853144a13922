import Verif.Model.Joold
/-
C34: the queue of sessions that await synchronization.
-/
namespace Jool.JooldSpec
open Joold

/-- The sessions that an operation offers to the queue. -/
def offered {α} : Op α → List α
  | .add s _ => [s]
  | .advertise (some ss) => ss
  | _ => []

/-- Why the sessions of an operation are not queued: synchronization is disabled, there is no memory, the queue is
full (and no advertisement is going on), or an advertisement is already going on. -/
inductive Refused {α} (e : Env) (q : Queue α) : Op α → Prop
  | disabled (o) (h : e.cfg.enabled = false) : Refused e q o
  | nomem (s) : Refused e q (.add s true)
  | full (s oom) (h : q.ad = false) (hl : e.cfg.capacity ≤ q.list.length) : Refused e q (.add s oom)
  | busy (ss) (h : q.ad = true) : Refused e q (.advertise ss)

/-- The sessions that entered the queue during a history. -/
inductive Took {α} : Queue α → List (Env × Op α) → List α → Prop
  | nil (q) : Took q [] []
  | taken (q e o rest l) (h : ¬ Refused e q o) (t : Took (step e q o).1 rest l) :
      Took q ((e, o) :: rest) (offered o ++ l)
  | refused (q e o rest l) (h : Refused e q o) (t : Took (step e q o).1 rest l) : Took q ((e, o) :: rest) l

/-- The sessions of all flushes, in order. -/
def sent {α} (l : List (Option (List α))) : List α := (l.map (fun x => x.getD [])).flatten

/-- A valid queue: the counter is right, and there is an advertisement only while there are sessions. -/
structure Fine {α} (q : Queue α) : Prop where
  count : q.count = q.list.length
  ad : q.ad = true → q.list ≠ []

/-- The deadline since the flush at `a` is over at `b`. The clock has 64 bits and may wrap around, so this is about
less than 2⁶³ jiffies. -/
def Over (e : Env) (a : BitVec 64) : Prop := 2 ^ 63 ≤ (a + e.cfg.deadline - e.now).toNat

end Jool.JooldSpec

namespace Jool.Joold
open JooldSpec
variable {α : Type}

theorem timeBefore_iff {a b : BitVec 64} : timeBefore a b = true ↔ 2 ^ 63 ≤ (a - b).toNat := by
  unfold timeBefore; rw [BitVec.msb_eq_decide, decide_eq_true_eq]

theorem enqueue_fine {e : Env} {q : Queue α} {s} (h : Fine q) : Fine (enqueue e q s) := by
  cases s with
  | none => exact h
  | some s =>
    unfold enqueue
    dsimp only
    split
    · exact h
    · exact ⟨by simp [h.count], fun _ => by simp⟩

/-- What `prepare` does, after the session is queued or not. -/
theorem prepare_cases {e : Env} {q : Queue α} {s} (h : q.count = q.list.length) :
    (shouldSend e (enqueue e q s) = false ∧ prepare e q s = (enqueue e q s, none)) ∨
    (shouldSend e (enqueue e q s) = true ∧ ∃ b rest, (enqueue e q s).list = b ++ rest ∧
      b.length = min e.cfg.maxPer (b ++ rest).length ∧
      prepare e q s = (⟨false, (enqueue e q s).ad && decide (rest ≠ []), rest, rest.length, e.now⟩, some b)) := by
  have hc : (enqueue e q s).count = (enqueue e q s).list.length := by
    cases s with
    | none => exact h
    | some s => unfold enqueue; dsimp only; split <;> simp [h]
  cases hs : shouldSend e (enqueue e q s) with
  | false => exact .inl ⟨rfl, by unfold prepare; simp [hs]⟩
  | true =>
    refine .inr ⟨rfl, ?_⟩
    have hd : (if (enqueue e q s).count ≤ e.cfg.maxPer then (enqueue e q s).count else e.cfg.maxPer)
        = min e.cfg.maxPer (enqueue e q s).list.length := by
      rw [hc]; split <;> omega
    refine ⟨(enqueue e q s).list.take (min e.cfg.maxPer (enqueue e q s).list.length),
      (enqueue e q s).list.drop (min e.cfg.maxPer (enqueue e q s).list.length), (List.take_append_drop _ _).symm, ?_, ?_⟩
    · rw [List.take_append_drop, List.length_take]; omega
    · unfold prepare
      dsimp only
      rw [hs]
      simp only [Bool.not_true, Bool.false_eq_true, if_false]
      rw [hd, hc]
      congr 1
      congr 1
      · congr 1
        apply decide_eq_decide.2
        rw [← List.length_drop, ne_eq, List.length_eq_zero_iff]
      · rw [List.length_drop]

theorem prepare_fine {e : Env} {q : Queue α} {s} (h : Fine q) : Fine (prepare e q s).1 := by
  rcases prepare_cases (e := e) (s := s) h.count with ⟨_, hp⟩ | ⟨_, b, rest, _, _, hp⟩
  · rw [hp]; exact enqueue_fine h
  · rw [hp]
    refine ⟨rfl, ?_⟩
    intro ha
    simp only [Bool.and_eq_true, decide_eq_true_eq] at ha
    exact ha.2

/-- **Invariant**: in every reachable state the counter is the number of queued sessions and an advertisement goes
on only while there are some. -/
theorem step_fine {e : Env} {q : Queue α} {o} (h : Fine q) : Fine (step e q o).1 := by
  cases o with
  | add s oom =>
    unfold step; dsimp only
    split
    · exact h
    · exact prepare_fine h
  | advertise ss =>
    unfold step; dsimp only
    split
    · exact h
    · cases ss with
      | none => exact h
      | some ss =>
        dsimp only
        split
        · exact h
        · rename_i hne
          split
          · exact h
          · refine prepare_fine ⟨by simp [h.count], fun _ => ?_⟩
            simp only [List.isEmpty_iff] at hne
            simp [hne]
  | ack =>
    unfold step; dsimp only
    split
    · exact h
    · exact prepare_fine ⟨h.count, h.ad⟩
  | clean =>
    unfold step; dsimp only
    split
    · exact h
    · exact prepare_fine h

theorem run_fine {hist : List (Env × Op α)} {q : Queue α} (h : Fine q) : Fine (run q hist).1 := by
  induction hist generalizing q with
  | nil => exact h
  | cons x hist ih => exact ih (step_fine h)

theorem alloc_fine (now : BitVec 64) : Fine (alloc now : Queue α) := ⟨rfl, by intro h; cases h⟩

/-! ## Order -/

theorem prepare_fifo {e : Env} {q : Queue α} {s} (h : q.count = q.list.length) :
    (prepare e q s).2.getD [] ++ (prepare e q s).1.list = (enqueue e q s).list := by
  rcases prepare_cases (e := e) (s := s) h with ⟨_, hp⟩ | ⟨_, b, rest, hl, _, hp⟩
  · rw [hp]; rfl
  · rw [hp, hl]; rfl

theorem step_fifo {e : Env} {q : Queue α} {o} (h : Fine q) :
    (Refused e q o ∧ (step e q o).2.getD [] ++ (step e q o).1.list = q.list) ∨
    (¬ Refused e q o ∧ (step e q o).2.getD [] ++ (step e q o).1.list = q.list ++ offered o) := by
  cases he : e.cfg.enabled with
  | false =>
    refine .inl ⟨.disabled _ he, ?_⟩
    cases o <;> simp [step, he]
  | true =>
    cases o with
    | add s oom =>
      cases oom with
      | true => exact .inl ⟨.nomem s, by simp [step]⟩
      | false =>
        simp only [step, he, Bool.not_true, Bool.or_false, Bool.false_eq_true, if_false]
        rw [prepare_fifo h.count]
        unfold enqueue
        dsimp only
        by_cases ht : tooMany e q = true
        · rw [if_pos ht]
          refine .inl ⟨?_, rfl⟩
          unfold tooMany at ht
          cases ha : q.ad with
          | true => rw [ha] at ht; simp at ht
          | false => rw [ha] at ht; simp only [Bool.false_eq_true, if_false, decide_eq_true_eq] at ht
                     exact .full s _ ha (by rw [← h.count]; exact ht)
        · rw [if_neg ht]
          refine .inr ⟨?_, rfl⟩
          intro hr
          cases hr with
          | disabled _ h' => rw [he] at h'; cases h'
          | full _ _ ha hl =>
            apply ht
            unfold tooMany
            rw [ha, h.count]
            simpa using hl
    | advertise ss =>
      simp only [step, he, Bool.not_true, Bool.false_eq_true, if_false]
      cases ha : q.ad with
      | true =>
        refine .inl ⟨.busy _ ha, ?_⟩
        cases ss with
        | none => rfl
        | some ss => dsimp only; split <;> rfl
      | false =>
        have nr : ¬ Refused e q (.advertise ss) := by
          intro hr
          cases hr with
          | disabled _ h' => rw [he] at h'; cases h'
          | busy _ h' => rw [ha] at h'; cases h'
        refine .inr ⟨nr, ?_⟩
        cases ss with
        | none => simp [offered]
        | some ss =>
          dsimp only
          by_cases hn : ss.isEmpty = true
          · rw [if_pos hn]
            rw [List.isEmpty_iff] at hn
            simp [hn, offered]
          · rw [if_neg hn]
            simp only [Bool.false_eq_true, if_false]
            rw [prepare_fifo (by simp [h.count])]
            rfl
    | ack =>
      simp only [step, he, Bool.not_true, Bool.false_eq_true, if_false]
      rw [prepare_fifo (by exact h.count)]
      refine .inr ⟨?_, by simp [offered, enqueue]⟩
      intro hr
      cases hr with
      | disabled _ h' => rw [he] at h'; cases h'
    | clean =>
      simp only [step, he, Bool.not_true, Bool.false_eq_true, if_false]
      rw [prepare_fifo h.count]
      refine .inr ⟨?_, by simp [offered, enqueue]⟩
      intro hr
      cases hr with
      | disabled _ h' => rw [he] at h'; cases h'

theorem sent_cons (x : Option (List α)) (l) : sent (x :: l) = x.getD [] ++ sent l := rfl

theorem run_took {hist : List (Env × Op α)} {q : Queue α} (h : Fine q) :
    ∃ l, Took q hist l ∧ sent (run q hist).2 ++ (run q hist).1.list = q.list ++ l := by
  induction hist generalizing q with
  | nil => exact ⟨[], .nil q, by simp [run, sent]⟩
  | cons x hist ih =>
    obtain ⟨e, o⟩ := x
    obtain ⟨l, ht, hl⟩ := ih (step_fine (e := e) (o := o) h)
    have hr : run q ((e, o) :: hist) = ((run (step e q o).1 hist).1, (step e q o).2 :: (run (step e q o).1 hist).2) := rfl
    rw [hr]
    simp only [sent_cons]
    rcases step_fifo (e := e) (o := o) h with ⟨hR, hs⟩ | ⟨hR, hs⟩
    · exact ⟨l, .refused _ _ _ _ _ hR ht, by rw [List.append_assoc, hl, ← List.append_assoc, hs]⟩
    · exact ⟨_, .taken _ _ _ _ _ hR ht, by rw [List.append_assoc, hl, ← List.append_assoc, hs, List.append_assoc]⟩

/-- What was taken is determined. -/
theorem Took.unique {q : Queue α} {hist l l'} (h : Took q hist l) (h' : Took q hist l') : l = l' := by
  induction h generalizing l' with
  | nil => cases h'; rfl
  | taken q e o rest l hn t ih =>
    cases h' with
    | taken _ _ _ _ l' _ t' => rw [ih t']
    | refused _ _ _ _ _ hr _ => exact absurd hr hn
  | refused q e o rest l hr t ih =>
    cases h' with
    | taken _ _ _ _ l' hn _ => exact absurd hr hn
    | refused _ _ _ _ _ _ t' => exact ih t'

/-- **First in, first out, nothing twice, nothing lost.** After any history of a queue, whatever it took is, in the order of
arrival, what was handed over for transmission followed by what it still has. What it did not take, it refused for
one of the four reasons. -/
theorem queue_fifo (now : BitVec 64) (hist : List (Env × Op α)) :
    ∃ l, Took (alloc now) hist l ∧ l = sent (run (alloc now) hist).2 ++ (run (alloc now) hist).1.list := by
  obtain ⟨l, h1, h2⟩ := run_took (hist := hist) (alloc_fine (α := α) now)
  exact ⟨l, h1, h2.symm⟩

/-- If everything that is offered is different, nothing is handed over twice. -/
theorem queue_nodup (now : BitVec 64) (hist : List (Env × Op α)) (h : (hist.flatMap (fun x => offered x.2)).Nodup) :
    (sent (run (alloc now) hist).2).Nodup := by
  obtain ⟨l, h1, h2⟩ := queue_fifo now hist
  have sub : ∀ {q : Queue α} {hist l}, Took q hist l → l.Sublist (hist.flatMap (fun x => offered x.2)) := by
    intro q hist l ht
    induction ht with
    | nil => exact .refl _
    | taken q e o rest l _ _ ih => rw [List.flatMap_cons]; exact ih.append_left _
    | refused q e o rest l _ _ ih => rw [List.flatMap_cons]; exact ih.trans (List.sublist_append_right _ _)
  have hl : l.Nodup := h.sublist (sub h1)
  rw [h2] at hl
  exact (List.nodup_append.1 hl).1

/-! ## Packet size -/

theorem step_batch {e : Env} {q : Queue α} {o b} (h : Fine q) (hs : (step e q o).2 = some b) :
    b.length ≤ e.cfg.maxPer := by
  have key : ∀ (q : Queue α) s, q.count = q.list.length → (prepare e q s).2 = some b → b.length ≤ e.cfg.maxPer := by
    intro q s hc hb
    rcases prepare_cases (e := e) (s := s) hc with ⟨_, hp⟩ | ⟨_, b', rest, _, hl, hp⟩
    · rw [hp] at hb; cases hb
    · rw [hp] at hb; cases hb; omega
  cases o with
  | add s oom =>
    unfold step at hs; dsimp only at hs
    split at hs
    · cases hs
    · exact key _ _ h.count hs
  | advertise ss =>
    unfold step at hs; dsimp only at hs
    split at hs
    · cases hs
    · cases ss with
      | none => cases hs
      | some ss =>
        dsimp only at hs
        split at hs
        · cases hs
        · split at hs
          · cases hs
          · exact key _ _ (by simp [h.count]) hs
  | ack =>
    unfold step at hs; dsimp only at hs
    split at hs
    · cases hs
    · exact key _ _ (by simp [h.count]) hs
  | clean =>
    unfold step at hs; dsimp only at hs
    split at hs
    · cases hs
    · exact key _ _ h.count hs

theorem run_snoc (q : Queue α) (hist : List (Env × Op α)) (x : Env × Op α) :
    run q (hist ++ [x]) = ((step x.1 (run q hist).1 x.2).1, (run q hist).2 ++ [(step x.1 (run q hist).1 x.2).2]) := by
  induction hist generalizing q with
  | nil => rfl
  | cons y hist ih => rw [List.cons_append]; unfold run; simp only [ih]; rfl

/-- **No packet has more than the configured number of sessions** (the configuration at the time). -/
theorem queue_batch (now : BitVec 64) (hist : List (Env × Op α)) (e : Env) (o : Op α) (b : List α)
    (h : (run (alloc now) (hist ++ [(e, o)])).2.getLast? = some (some b)) : b.length ≤ e.cfg.maxPer := by
  rw [run_snoc] at h
  simp only [List.getLast?_append, List.getLast?_singleton, Option.some_or, Option.some.injEq] at h
  exact step_batch (run_fine (alloc_fine now)) h

/-! ## Pacing -/

/-- How the two fields that pace the transmission evolve. -/
theorem step_pace {e : Env} {q : Queue α} {o} :
    ((step e q o).2 = none → (step e q o).1.lastFlush = q.lastFlush ∧
        ((step e q o).1.ack = true → q.ack = true ∨ (o = .ack ∧ e.cfg.enabled = true))) ∧
    (∀ b, (step e q o).2 = some b → (step e q o).1.lastFlush = e.now ∧ (step e q o).1.ack = false ∧
        (q.ack = true ∨ (o = .ack ∧ e.cfg.enabled = true) ∨ Over e q.lastFlush)) := by
  have enq : ∀ (q : Queue α) s, (enqueue e q s).lastFlush = q.lastFlush ∧ (enqueue e q s).ack = q.ack := by
    intro q s
    cases s with
    | none => exact ⟨rfl, rfl⟩
    | some s => unfold enqueue; dsimp only; split <;> exact ⟨rfl, rfl⟩
  have key : ∀ (q : Queue α) s,
      ((prepare e q s).2 = none → (prepare e q s).1.lastFlush = q.lastFlush ∧ (prepare e q s).1.ack = q.ack) ∧
      (∀ b, (prepare e q s).2 = some b → (prepare e q s).1.lastFlush = e.now ∧ (prepare e q s).1.ack = false ∧
        (q.ack = true ∨ Over e q.lastFlush)) := by
    intro q s
    obtain ⟨e1, e2⟩ := enq q s
    unfold prepare
    dsimp only
    cases hs : shouldSend e (enqueue e q s) with
    | false =>
      simp only [Bool.not_false, if_true, e1, e2, and_self, true_and, forall_const]
      intro b hb; cases hb
    | true =>
      simp only [Bool.not_true, Bool.false_eq_true, if_false]
      refine ⟨fun h => (by cases h), fun b _ => ⟨trivial, trivial, ?_⟩⟩
      unfold shouldSend at hs
      split at hs
      · cases hs
      · split at hs
        · rename_i ht; right
          rw [timeBefore_iff, e1] at ht
          exact ht
        · split at hs
          · cases hs
          · rename_i ha; left
            rw [e2] at ha
            simpa using ha
  have quiet : ∀ (o : Op α), ((q, (none : Option (List α))).2 = none →
      q.lastFlush = q.lastFlush ∧ (q.ack = true → q.ack = true ∨ (o = .ack ∧ e.cfg.enabled = true))) ∧
      (∀ b, (none : Option (List α)) = some b → q.lastFlush = e.now ∧ q.ack = false ∧
        (q.ack = true ∨ (o = .ack ∧ e.cfg.enabled = true) ∨ Over e q.lastFlush)) :=
    fun o => ⟨fun _ => ⟨rfl, .inl⟩, fun b hb => by cases hb⟩
  cases o with
  | add s oom =>
    unfold step; dsimp only
    split
    · exact quiet _
    · obtain ⟨k1, k2⟩ := key q (some s)
      exact ⟨fun h => ⟨(k1 h).1, fun ha => .inl ((k1 h).2 ▸ ha)⟩,
        fun b hb => ⟨(k2 b hb).1, (k2 b hb).2.1, (k2 b hb).2.2.imp id .inr⟩⟩
  | advertise ss =>
    unfold step; dsimp only
    split
    · exact quiet _
    · cases ss with
      | none => exact quiet _
      | some ss =>
        dsimp only
        split
        · exact quiet _
        · split
          · exact quiet _
          · obtain ⟨k1, k2⟩ := key { q with ad := true, list := q.list ++ ss, count := q.count + ss.length } none
            exact ⟨fun h => ⟨(k1 h).1, fun ha => .inl ((k1 h).2 ▸ ha)⟩,
              fun b hb => ⟨(k2 b hb).1, (k2 b hb).2.1, (k2 b hb).2.2.imp id .inr⟩⟩
  | ack =>
    unfold step; dsimp only
    split
    · exact quiet _
    · rename_i he
      have he : e.cfg.enabled = true := by simpa using he
      obtain ⟨k1, k2⟩ := key { q with ack := true } none
      exact ⟨fun h => ⟨(k1 h).1, fun _ => .inr ⟨rfl, he⟩⟩, fun b hb => ⟨(k2 b hb).1, (k2 b hb).2.1, .inr (.inl ⟨rfl, he⟩)⟩⟩
  | clean =>
    unfold step; dsimp only
    split
    · exact quiet _
    · obtain ⟨k1, k2⟩ := key q none
      exact ⟨fun h => ⟨(k1 h).1, fun ha => .inl ((k1 h).2 ▸ ha)⟩,
        fun b hb => ⟨(k2 b hb).1, (k2 b hb).2.1, (k2 b hb).2.2.imp id .inr⟩⟩

theorem quiet_pace {mid : List (Env × Op α)} {q : Queue α} (h : ∀ x ∈ (run q mid).2, x = none) :
    (run q mid).1.lastFlush = q.lastFlush ∧
    ((run q mid).1.ack = true → q.ack = true ∨ ∃ x ∈ mid, x.2 = .ack ∧ x.1.cfg.enabled = true) := by
  induction mid generalizing q with
  | nil => exact ⟨rfl, .inl⟩
  | cons x mid ih =>
    obtain ⟨e, o⟩ := x
    have hr : run q ((e, o) :: mid) = ((run (step e q o).1 mid).1, (step e q o).2 :: (run (step e q o).1 mid).2) := rfl
    rw [hr] at h ⊢
    obtain ⟨i1, i2⟩ := ih (q := (step e q o).1) (fun x hx => h x (List.mem_cons_of_mem _ hx))
    obtain ⟨s1, s2⟩ := (step_pace (e := e) (q := q) (o := o)).1 (h _ (List.mem_cons_self ..))
    refine ⟨i1.trans s1, fun ha => ?_⟩
    rcases i2 ha with h1 | ⟨x, hx, h1⟩
    · rcases s2 h1 with h2 | h2
      · exact .inl h2
      · exact .inr ⟨(e, o), List.mem_cons_self .., h2⟩
    · exact .inr ⟨x, List.mem_cons_of_mem _ hx, h1⟩

/-- **Pacing.** Between two consecutive flushes, the first one at `e₁`, there is an acknowledgement; otherwise the
deadline since the first one is over at the time of the second one. -/
theorem queue_paced (q : Queue α) (e₁ e₂ : Env) (o₁ o₂ : Op α) (mid : List (Env × Op α)) (b₁ b₂ : List α)
    (h₁ : (step e₁ q o₁).2 = some b₁) (hm : ∀ x ∈ (run (step e₁ q o₁).1 mid).2, x = none)
    (h₂ : (step e₂ (run (step e₁ q o₁).1 mid).1 o₂).2 = some b₂) :
    (∃ x ∈ mid ++ [(e₂, o₂)], x.2 = .ack ∧ x.1.cfg.enabled = true) ∨ Over e₂ e₁.now := by
  obtain ⟨f1, f2, _⟩ := (step_pace (e := e₁) (q := q) (o := o₁)).2 b₁ h₁
  obtain ⟨m1, m2⟩ := quiet_pace hm
  obtain ⟨_, _, g⟩ := (step_pace (e := e₂) (q := (run (step e₁ q o₁).1 mid).1) (o := o₂)).2 b₂ h₂
  rcases g with g | ⟨g1, g2⟩ | g
  · rcases m2 g with h | ⟨x, hx, h⟩
    · rw [f2] at h; cases h
    · exact .inl ⟨x, List.mem_append_left _ hx, h⟩
  · exact .inl ⟨_, List.mem_append_right _ (List.mem_singleton_self _), g1, g2⟩
  · rw [m1, f1] at g; exact .inr g

/-! ## Bound -/

theorem step_bound {e : Env} {q : Queue α} {o} (h : Fine q)
    (hb : q.ad = false → q.list.length ≤ e.cfg.capacity) :
    (step e q o).1.ad = false → (step e q o).1.list.length ≤ e.cfg.capacity := by
  have key : ∀ (q : Queue α) s, q.count = q.list.length → (q.ad = false → q.list.length ≤ e.cfg.capacity) →
      (prepare e q s).1.ad = false → (prepare e q s).1.list.length ≤ e.cfg.capacity := by
    intro q s hc hq
    have hE : (enqueue e q s).ad = false → (enqueue e q s).list.length ≤ e.cfg.capacity := by
      cases s with
      | none => exact hq
      | some s =>
        unfold enqueue; dsimp only
        split
        · exact hq
        · rename_i ht
          intro ha
          unfold tooMany at ht
          dsimp only at ha
          rw [ha] at ht
          simp only [Bool.false_eq_true, if_false, decide_eq_true_eq] at ht
          simp only [List.length_append, List.length_singleton]
          omega
    rcases prepare_cases (e := e) (s := s) hc with ⟨_, hp⟩ | ⟨_, b, rest, hl, _, hp⟩
    · rw [hp]; exact hE
    · rw [hp]
      intro ha
      simp only [Bool.and_eq_false_iff, decide_eq_false_iff_not, ne_eq, Decidable.not_not] at ha
      dsimp only
      rcases ha with ha | ha
      · have := hE ha
        rw [hl, List.length_append] at this
        omega
      · rw [ha]; exact Nat.zero_le _
  cases o with
  | add s oom =>
    unfold step; dsimp only
    split
    · exact hb
    · exact key _ _ h.count hb
  | advertise ss =>
    unfold step; dsimp only
    split
    · exact hb
    · cases ss with
      | none => exact hb
      | some ss =>
        dsimp only
        split
        · exact hb
        · split
          · exact hb
          · exact key _ _ (by simp [h.count]) (by intro h'; cases h')
  | ack =>
    unfold step; dsimp only
    split
    · exact hb
    · exact key _ _ h.count hb
  | clean =>
    unfold step; dsimp only
    split
    · exact hb
    · exact key _ _ h.count hb

/-- **Bound** (partial: while an advertisement goes on, the queue can have any size; see `queue_unbounded`).
When no advertisement is going on, the queue does not exceed its capacity. -/
theorem queue_bound_partial (now : BitVec 64) (hist : List (Env × Op α)) (c : Nat)
    (hc : ∀ x ∈ hist, x.1.cfg.capacity = c) (ha : (run (alloc now) hist).1.ad = false) :
    (run (alloc now) hist).1.list.length ≤ c := by
  have gen : ∀ (hist : List (Env × Op α)) (q : Queue α), Fine q → (∀ x ∈ hist, x.1.cfg.capacity = c) →
      (q.ad = false → q.list.length ≤ c) → (run q hist).1.ad = false → (run q hist).1.list.length ≤ c := by
    intro hist
    induction hist with
    | nil => intro q _ _ h; exact h
    | cons x hist ih =>
      intro q hf hc h
      obtain ⟨e, o⟩ := x
      have he : e.cfg.capacity = c := hc _ (List.mem_cons_self ..)
      refine ih _ (step_fine hf) (fun y hy => hc y (List.mem_cons_of_mem _ hy)) ?_
      rw [← he] at h ⊢
      exact step_bound hf h
  exact gen hist _ (alloc_fine now) hc (fun _ => Nat.zero_le _) ha

/-- Some settings: packets of 3 sessions, room for 5, 200 jiffies. -/
def exEnv : Env := ⟨⟨true, 3, 5, 200#64⟩, 1000#64⟩

/-- While an advertisement waits for its acknowledgement, every new session is queued. -/
theorem queue_unbounded (n : Nat) :
    (run (alloc 1000#64 : Queue Nat)
      ((exEnv, .advertise (some [0, 1, 2, 3])) :: List.replicate n (exEnv, .add 7 false))).1.list.length = n + 1 := by
  have gen : ∀ (n : Nat) (q : Queue Nat), q.ad = true → q.ack = false → q.count = q.list.length →
      q.lastFlush = 1000#64 → (run q (List.replicate n (exEnv, .add 7 false))).1.list.length = q.list.length + n := by
    intro n
    induction n with
    | zero => intros; rfl
    | succ n ih =>
      intro q h1 h2 h3 h4
      have hp : step exEnv q (.add 7 false) = (⟨false, true, q.list ++ [7], q.list.length + 1, 1000#64⟩, none) := by
        obtain ⟨ack, ad, list, count, lf⟩ := q
        dsimp only at h1 h2 h3 h4
        subst h1 h2 h3 h4
        simp [step, exEnv, prepare, enqueue, tooMany, shouldSend, show timeBefore 1200#64 1000#64 = false by decide]
      rw [List.replicate_succ]
      unfold run
      dsimp only
      rw [hp, ih _ rfl rfl (by simp) rfl]
      simp only [List.length_append, List.length_singleton]
      omega
  unfold run
  dsimp only
  have hs : step exEnv (alloc 1000#64 : Queue Nat) (.advertise (some [0, 1, 2, 3])) =
      (⟨false, true, [3], 1, 1000#64⟩, some [0, 1, 2]) := by decide
  rw [hs, gen n _ rfl rfl rfl rfl]
  simp only [List.length_singleton]
  omega

/-! ## Progress -/

/-- After the deadline, the timer hands over the first sessions, acknowledgement or not. -/
theorem clean_flushes {e : Env} {q : Queue α} (h : Fine q) (he : e.cfg.enabled = true) (hn : q.list ≠ [])
    (ho : Over e q.lastFlush) :
    ∃ q', step e q .clean = (q', some (q.list.take e.cfg.maxPer)) ∧ q'.list = q.list.drop e.cfg.maxPer ∧
      q'.lastFlush = e.now := by
  have hs : shouldSend e q = true := by
    unfold shouldSend
    have : q.count ≠ 0 := by rw [h.count]; simpa using hn
    rw [if_neg this, if_pos (timeBefore_iff.2 ho)]
  simp only [step, he, Bool.not_true, Bool.false_eq_true, if_false]
  rcases prepare_cases (e := e) (s := none) h.count with ⟨hf, _⟩ | ⟨_, b, rest, hl, hb, hp⟩
  · rw [show enqueue e q none = q from rfl, hs] at hf; cases hf
  · have hl : q.list = b ++ rest := hl
    have h1 : q.list.take e.cfg.maxPer = b ∧ q.list.drop e.cfg.maxPer = rest := by
      rw [hl]
      by_cases hle : e.cfg.maxPer ≤ (b ++ rest).length
      · have : b.length = e.cfg.maxPer := by omega
        rw [← this]; simp
      · have hr : rest = [] := by
          rw [List.length_append] at hb hle
          apply List.eq_nil_of_length_eq_zero; omega
        subst hr
        rw [List.append_nil] at hb hle ⊢
        exact ⟨List.take_of_length_le (by omega), by rw [List.drop_eq_nil_of_le (by omega)]⟩
    rw [h1.1, h1.2, hp]
    exact ⟨_, rfl, rfl, rfl⟩

/-- Ticks of the timer, each after the deadline since the previous one. -/
inductive Ticks (m : Nat) : BitVec 64 → List (Env × Op α) → Prop
  | nil (t) : Ticks m t []
  | cons (t e rest) (he : e.cfg.enabled = true) (hm : e.cfg.maxPer = m) (ho : Over e t) (h : Ticks m e.now rest) :
      Ticks m t ((e, .clean) :: rest)

/-- **The timer empties the queue**: with packets of `m > 0` sessions, `k` ticks hand over the first `k·m` sessions, in order.
So no session waits forever. -/
theorem queue_drains {m : Nat} {hist : List (Env × Op α)} {q : Queue α} (h : Fine q) (ht : Ticks m q.lastFlush hist) :
    ∃ k, k = hist.length ∧ (run q hist).1.list = q.list.drop (k * m) ∧ sent (run q hist).2 = q.list.take (k * m) := by
  suffices hh : (run q hist).1.list = q.list.drop (hist.length * m) ∧
      sent (run q hist).2 = q.list.take (hist.length * m) from ⟨_, rfl, hh⟩
  induction hist generalizing q with
  | nil => simp [run, sent]
  | cons x hist ih =>
    cases ht with
    | cons _ e _ he hm ho ht =>
      by_cases hn : q.list = []
      · have hs : step e q .clean = (q, none) := by
          simp [step, he, prepare, enqueue, shouldSend, h.count, hn]
        have still : ∀ (hist : List (Env × Op α)) (t : BitVec 64), Ticks m t hist →
            (run q hist).1.list = [] ∧ sent (run q hist).2 = [] := by
          intro hist
          induction hist with
          | nil => intro t _; exact ⟨hn, rfl⟩
          | cons x hist ih' =>
            intro t ht
            cases ht with
            | cons _ e _ he hm ho ht =>
              have hs : step e q .clean = (q, none) := by
                simp [step, he, prepare, enqueue, shouldSend, h.count, hn]
              unfold run
              dsimp only
              rw [hs, sent_cons]
              obtain ⟨a, b⟩ := ih' _ ht
              exact ⟨a, by rw [b]; rfl⟩
        unfold run
        dsimp only
        rw [hs, sent_cons]
        obtain ⟨a, b⟩ := still hist _ ht
        rw [a, b, hn]; simp
      · obtain ⟨q', hs, hl, hf⟩ := clean_flushes h he hn ho
        have hfin : Fine q' := by have := step_fine (e := e) (o := .clean) h; rw [hs] at this; exact this
        have ht' : Ticks m q'.lastFlush hist := by rw [hf]; exact ht
        obtain ⟨a, b⟩ := ih hfin ht'
        unfold run
        dsimp only
        rw [hs, sent_cons]
        dsimp only [Option.getD]
        rw [a, b, hl, hm, List.drop_drop, List.length_cons, Nat.add_mul, Nat.one_mul, Nat.add_comm m]
        refine ⟨rfl, ?_⟩
        rw [Nat.add_comm (hist.length * m) m, List.take_add]

/-- **When a packet leaves.** The timer hands over sessions if there are any, and either the deadline is over, or the previous
packet was acknowledged and there are enough for a packet or an advertisement is going on. An acknowledgement does the
same, and counts as such. -/
theorem flush_iff {e : Env} {q : Queue α} (h : Fine q) (he : e.cfg.enabled = true) :
    ((step e q .clean).2 ≠ none ↔ q.list ≠ [] ∧
      (Over e q.lastFlush ∨ (q.ack = true ∧ (q.ad = true ∨ e.cfg.maxPer ≤ q.list.length)))) ∧
    ((step e q .ack).2 ≠ none ↔ q.list ≠ [] ∧
      (Over e q.lastFlush ∨ q.ad = true ∨ e.cfg.maxPer ≤ q.list.length)) := by
  have gen : ∀ q : Queue α, Fine q → ((prepare e q none).2 ≠ none ↔ q.list ≠ [] ∧
      (Over e q.lastFlush ∨ (q.ack = true ∧ (q.ad = true ∨ e.cfg.maxPer ≤ q.list.length)))) := by
    intro q h
    have hs : shouldSend e q = true ↔ q.list ≠ [] ∧
        (Over e q.lastFlush ∨ (q.ack = true ∧ (q.ad = true ∨ e.cfg.maxPer ≤ q.list.length))) := by
      unfold shouldSend
      have hc : q.count = 0 ↔ q.list = [] := by rw [h.count, List.length_eq_zero_iff]
      by_cases hn : q.list = []
      · rw [if_pos (hc.2 hn)]; simp [hn]
      · rw [if_neg (fun x => hn (hc.1 x))]
        by_cases ho : timeBefore (q.lastFlush + e.cfg.deadline) e.now = true
        · rw [if_pos ho]; simp only [true_iff]; exact ⟨hn, .inl (timeBefore_iff.1 ho)⟩
        · rw [if_neg ho]
          have ho' : ¬ Over e q.lastFlush := fun x => ho (timeBefore_iff.2 x)
          rw [h.count]
          cases q.ack <;> cases q.ad <;> simp [hn, ho']
    rcases prepare_cases (e := e) (s := none) h.count with ⟨hf, hp⟩ | ⟨hf, b, rest, _, _, hp⟩
    · rw [hp]
      have hf : shouldSend e q = false := hf
      rw [← hs, hf]; simp
    · rw [hp]
      have hf : shouldSend e q = true := hf
      rw [← hs, hf]; simp
  simp only [step, he, Bool.not_true, Bool.false_eq_true, if_false]
  refine ⟨gen q h, ?_⟩
  rw [gen { q with ack := true } ⟨h.count, h.ad⟩]
  simp

/-- During an advertisement, each acknowledgement is answered with the next packet, full or not. -/
theorem ack_flushes {e : Env} {q : Queue α} (h : Fine q) (he : e.cfg.enabled = true) (ha : q.ad = true) :
    ∃ q', step e q .ack = (q', some (q.list.take e.cfg.maxPer)) ∧ q'.list = q.list.drop e.cfg.maxPer ∧
      (q'.ad = true ↔ q'.list ≠ []) := by
  have hf := ((flush_iff h he).2).2 ⟨h.ad ha, .inr (.inl ha)⟩
  simp only [step, he, Bool.not_true, Bool.false_eq_true, if_false] at hf ⊢
  rcases prepare_cases (e := e) (q := { q with ack := true }) (s := none) h.count with ⟨_, hp⟩ | ⟨_, b, rest, hl, hb, hp⟩
  · rw [hp] at hf; exact absurd rfl hf
  · have hl : q.list = b ++ rest := hl
    have h1 : q.list.take e.cfg.maxPer = b ∧ q.list.drop e.cfg.maxPer = rest := by
      rw [hl]
      by_cases hle : e.cfg.maxPer ≤ (b ++ rest).length
      · have : b.length = e.cfg.maxPer := by omega
        rw [← this]; simp
      · have hr : rest = [] := by
          rw [List.length_append] at hb hle
          apply List.eq_nil_of_length_eq_zero; omega
        subst hr
        rw [List.append_nil] at hb hle ⊢
        exact ⟨List.take_of_length_le (by omega), by rw [List.drop_eq_nil_of_le (by omega)]⟩
    rw [h1.1, h1.2, hp]
    refine ⟨_, rfl, rfl, ?_⟩
    show (q.ad && decide (rest ≠ [])) = true ↔ rest ≠ []
    rw [ha]; simp

/-- **An advertisement is sent as fast as it is acknowledged**: `k` acknowledgements hand over the next `k·m` sessions, without
waiting for the deadline, and the advertisement ends when there are none left. -/
theorem advertisement_drains {m : Nat} {hist : List (Env × Op α)} {q : Queue α} (h : Fine q) (ha : q.ad = true)
    (ht : ∀ x ∈ hist, x.2 = .ack ∧ x.1.cfg.enabled = true ∧ x.1.cfg.maxPer = m) :
    (run q hist).1.list = q.list.drop (hist.length * m) ∧ sent (run q hist).2 = q.list.take (hist.length * m) ∧
      ((run q hist).1.ad = true ↔ (run q hist).1.list ≠ []) := by
  suffices hh : ∀ q : Queue α, Fine q → (q.ad = true ↔ q.list ≠ []) →
      (run q hist).1.list = q.list.drop (hist.length * m) ∧ sent (run q hist).2 = q.list.take (hist.length * m) ∧
      ((run q hist).1.ad = true ↔ (run q hist).1.list ≠ []) from hh q h ⟨fun _ => h.ad ha, fun _ => ha⟩
  clear h ha
  induction hist with
  | nil => intro q h ha; simpa [run, sent] using ha
  | cons x hist ih =>
    intro q h ha
    obtain ⟨e, o⟩ := x
    obtain ⟨ho, he, hm⟩ := ht _ (List.mem_cons_self ..)
    dsimp only at ho he hm
    subst ho
    have ih := ih (fun y hy => ht y (List.mem_cons_of_mem _ hy))
    by_cases hn : q.list = []
    · have hs : step e q .ack = ({ q with ack := true }, none) := by
        simp [step, he, prepare, enqueue, shouldSend, h.count, hn]
      obtain ⟨a, b, c⟩ := ih { q with ack := true } ⟨h.count, h.ad⟩ ha
      unfold run
      dsimp only
      rw [hs, sent_cons]
      dsimp only at a b ⊢
      rw [a, b] at *
      refine ⟨by simp [hn], by simp [hn], ?_⟩
      rw [c]
    · obtain ⟨q', hs, hl, hf⟩ := ack_flushes h he (ha.2 hn)
      have hfin : Fine q' := by have := step_fine (e := e) (o := .ack) h; rw [hs] at this; exact this
      obtain ⟨a, b, c⟩ := ih q' hfin hf
      unfold run
      dsimp only
      rw [hs, sent_cons]
      dsimp only [Option.getD]
      refine ⟨?_, ?_, c⟩
      · rw [a, hl, hm, List.drop_drop, List.length_cons, Nat.add_mul, Nat.one_mul, Nat.add_comm m]
      · rw [b, hl, hm, List.length_cons, Nat.add_mul, Nat.one_mul, Nat.add_comm (hist.length * m) m, List.take_add]

/-- An advertisement of seven sessions in packets of three; nobody waits for the deadline. -/
example : run (alloc 1000#64 : Queue Nat)
    [(exEnv, .advertise (some [0, 1, 2, 3, 4, 5, 6])), (exEnv, .clean), (exEnv, .ack), (exEnv, .ack), (exEnv, .ack)] =
    (⟨true, false, [], 0, 1000#64⟩, [some [0, 1, 2], none, some [3, 4, 5], some [6], none]) := by decide

/-- If packets may not have sessions (`max_sessions_per_pkt` = 0, which is accepted), nothing is ever sent. -/
theorem queue_stuck (now : BitVec 64) (hist : List (Env × Op α)) (h : ∀ x ∈ hist, x.1.cfg.maxPer = 0) :
    sent (run (alloc now) hist).2 = [] := by
  have gen : ∀ (hist : List (Env × Op α)) (q : Queue α), Fine q → (∀ x ∈ hist, x.1.cfg.maxPer = 0) →
      sent (run q hist).2 = [] := by
    intro hist
    induction hist with
    | nil => intros; rfl
    | cons x hist ih =>
      intro q hf hm
      obtain ⟨e, o⟩ := x
      unfold run
      dsimp only
      rw [sent_cons, ih _ (step_fine hf) (fun y hy => hm y (List.mem_cons_of_mem _ hy)), List.append_nil]
      cases hs : (step e q o).2 with
      | none => rfl
      | some b =>
        have := step_batch hf hs
        rw [hm _ (List.mem_cons_self ..)] at this
        exact List.eq_nil_of_length_eq_zero (Nat.le_zero.1 this)
  exact gen hist _ (alloc_fine now) h

/-! ## Transmission -/

/-- **Nothing is lost** (partial): a packet with at most 36 sessions (the default maximum) is multicast whole, if there is
memory for it. -/
theorem transmit_partial (n : Nat) (hn : 1520 ≤ n) (b : List α) (hb : b ≠ []) (h : b.length ≤ 36) :
    transmit (some n) b = some b := by
  unfold transmit
  have : b.isEmpty = false := by simpa using hb
  rw [this]
  simp only [Bool.false_eq_true, if_false]
  rw [if_pos (by omega)]

/-- Nothing is ever transmitted in part, or invented. -/
theorem transmit_whole (room : Option Nat) (b m : List α) (h : transmit room b = some m) : m = b := by
  unfold transmit at h
  split at h
  · cases h
  · split at h
    · cases h
    · split at h
      · cases h; rfl
      · cases h

/-- The missing part: when more sessions per packet are allowed than fit, all of them are lost (and so they are when there
is no memory for the packet): they have left the queue and they aren't in any message. -/
theorem transmit_loses :
    (∀ n b, 52 + 40 * b.length > n → transmit (some n) (b : List α) = none) ∧
    (∀ b, transmit none (b : List α) = none) ∧
    run (alloc 1000#64 : Queue Nat) ((List.range 50).map (fun i => (⟨⟨true, 50, 1000, 200#64⟩, 1000#64⟩, .add i false))) =
        (⟨false, false, [], 0, 1000#64⟩, List.replicate 49 none ++ [some (List.range 50)]) ∧
      transmit (some 1728) (List.range 50) = none := by
  refine ⟨?_, ?_, by decide +kernel, by decide +kernel⟩
  · intro n b h
    unfold transmit
    split
    · rfl
    · dsimp only; rw [if_neg (by omega)]
  · intro b
    unfold transmit
    split <;> rfl

/-! ## Example -/

/-- Four sessions are added; the third one fills a packet. The next ones wait for the acknowledgement. Then the deadline of
the last one passes. -/
example : run (alloc 1000#64 : Queue Nat)
    [(exEnv, .add 1 false), (exEnv, .add 2 false), (exEnv, .add 3 false), (exEnv, .add 4 false), (exEnv, .add 5 false),
     (exEnv, .add 6 false), (exEnv, .add 7 false), (exEnv, .add 8 false), (exEnv, .add 9 false),
     (exEnv, .ack), ({ exEnv with now := 1150#64 }, .clean), ({ exEnv with now := 1201#64 }, .clean)] =
    (⟨false, false, [], 0, 1201#64⟩,
     [none, none, some [1, 2, 3], none, none, none, none, none, none, some [4, 5, 6], none, some [7, 8]]) := by
  decide +kernel

example : Refused exEnv (run (alloc 1000#64 : Queue Nat)
    [(exEnv, .add 1 false), (exEnv, .add 2 false), (exEnv, .add 3 false), (exEnv, .add 4 false), (exEnv, .add 5 false),
     (exEnv, .add 6 false), (exEnv, .add 7 false), (exEnv, .add 8 false)]).1 (.add 9 false) :=
  .full _ _ (by decide +kernel) (by decide +kernel)

example : Ticks (α := Nat) 3 1000#64 [({ exEnv with now := 1201#64 }, .clean), ({ exEnv with now := 1402#64 }, .clean)] :=
  .cons _ _ _ rfl rfl (by unfold Over; decide) (.cons _ _ _ rfl rfl (by unfold Over; decide) (.nil _))

end Jool.Joold
