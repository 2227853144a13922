import Verif.Props.Daemon
/-
C86, the acknowledgements: the queue does not wait forever, the conversation between the kernel and the daemon ends; and when it
does not.
-/
namespace Jool.RelaySpec
open Relay JooldSpec
open JooldMsg (Sess Db)

/-- The daemon and its kernel understand each other, and the instance exists. -/
structure Live (n : Node) (i : Inst) : Prop where
  admin : n.admin = true
  loaded : n.loaded = true
  version : sameVersion n.kv n.v = true
  inst : n.insts n.me = some i

/-- Synchronization is enabled, the daemon's socket does not overflow, and a batch fits in the kernel's buffer. -/
structure Smooth (e : Env) : Prop where
  enabled : e.jool.cfg.enabled = true
  heard : e.heard = true
  one : 1 ≤ e.jool.cfg.maxPer
  fits : ∃ r, e.room = some r ∧ 52 + 40 * e.jool.cfg.maxPer ≤ r ∧ r < 2 ^ 16

/-- A history of one machine. -/
def runNode (n : Node) : List (Env × Ev) → Outcome Node
  | [] => .ok n
  | (e, ev) :: l => (step e n ev).bind fun r => runNode r.1 l

end Jool.RelaySpec

namespace Jool.Relay
open Nla JooldMsg JooldSpec RelaySpec
open Jool.Nla (Attr enc attrs unle le)

theorem live_start {n : Node} {i : Inst} (h : Live n i) : start n = some i := by
  unfold Relay.start
  rw [h.admin, h.loaded, h.version]
  exact h.inst

/-- The daemon acknowledges when it reads the message. -/
def Acks (v : Nat) (me : Name) (net : Bool) (m : Msg) : Prop := ∃ as, react v me net m = .ok (as ++ [.ack]) ∧ .ack ∉ as

/-- The invariant: if the queue waits for an acknowledgement, there is a message that will cause it. -/
def NotStuck (n : Node) : Prop :=
  ∀ i, n.insts n.me = some i → Fine i.q ∧ (i.q.ack = false → ∃ m ∈ n.rx, Acks n.v n.me n.net m)

theorem sameVersion_symm {a b : Nat} (h : sameVersion a b = true) : sameVersion b a = true := by
  unfold sameVersion at *; rw [beq_iff_eq] at *; exact h.symm

theorem announce_acks (v kv : Nat) (me : Name) (net nested : Bool) (p now : Nat) (b : List Sess) (hl : 40 * b.length + 4 < 2 ^ 16) :
    Acks v me net (announce kv me nested p now b) := by
  cases hv : sameVersion v kv with
  | false =>
    refine ⟨[], ?_, by simp⟩
    have hval : validHdr v (announce kv me nested p now b).hdr = false := by
      show (true && sameVersion v kv && (XT_NAT64 / 2 % 2 == 1)) = false
      rw [hv]; rfl
    unfold react
    rw [hval]
    rfl
  | true =>
    cases net with
    | true => exact ⟨[.datagram (wire p now b)], react_announce v kv me me nested p now b hv (sameCase_refl me) hl, by simp⟩
    | false =>
      obtain ⟨rs, hr, _⟩ := forward_print nested p now b hl
      refine ⟨[.print rs], ?_, by simp⟩
      have hval : validHdr v (announce kv me nested p now b).hdr = true := by
        show (true && sameVersion v kv && (XT_NAT64 / 2 % 2 == 1)) = true
        rw [hv, xt_ok]; rfl
      unfold react
      rw [hval]
      show (if (!true) = true then _ else if (!true) = true then _ else if (!sameCase me me) = true then _ else _) = _
      rw [sameCase_refl]
      exact hr

/-- The effect of a step of the queue on what it waits for. -/
theorem step_ack {e : Joold.Env} {q : Joold.Queue Sess} {o : Joold.Op Sess} (hen : e.cfg.enabled = true) (hq : q.count = q.list.length) (hm : 1 ≤ e.cfg.maxPer) :
    ((Joold.step e q o).2 = none ∧ ((Joold.step e q o).1.ack = q.ack ∨ (Joold.step e q o).1.ack = true) ∧ (o = .ack → (Joold.step e q o).1.ack = true)) ∨
    ∃ b, b ≠ [] ∧ (Joold.step e q o).2 = some b := by
  have key : ∀ (q : Joold.Queue Sess) s, q.count = q.list.length →
      ((Joold.prepare e q s).2 = none ∧ (Joold.prepare e q s).1.ack = q.ack) ∨ ∃ b, b ≠ [] ∧ (Joold.prepare e q s).2 = some b := by
    intro q s hc
    have hack : (Joold.enqueue e q s).ack = q.ack := by
      cases s with
      | none => rfl
      | some s => unfold Joold.enqueue; dsimp only; split <;> rfl
    rcases Joold.prepare_cases (e := e) (s := s) hc with ⟨_, hp⟩ | ⟨hs, b, rest, hl, hb, hp⟩
    · rw [hp]; exact .inl ⟨rfl, hack⟩
    · rw [hp]
      refine .inr ⟨b, ?_, rfl⟩
      rintro rfl
      have hz : (Joold.enqueue e q s).count ≠ 0 := by
        intro hz; unfold Joold.shouldSend at hs; rw [if_pos hz] at hs; cases hs
      have hcount : (Joold.enqueue e q s).count = (Joold.enqueue e q s).list.length := by
        cases s with
        | none => exact hc
        | some s => unfold Joold.enqueue; dsimp only; split <;> simp [hc]
      rw [hl] at hcount
      simp only [List.length_nil, List.nil_append] at hb hcount
      omega
  cases o with
  | add s oom =>
    unfold Joold.step
    dsimp only
    split
    · exact .inl ⟨rfl, .inl rfl, (fun h => nomatch h)⟩
    · rcases key q (some s) hq with ⟨h1, h2⟩ | h
      · exact .inl ⟨h1, .inl h2, (fun h => nomatch h)⟩
      · exact .inr h
  | advertise ss =>
    unfold Joold.step
    dsimp only
    rw [hen]
    simp only [Bool.not_true, Bool.false_eq_true, if_false]
    split
    · exact .inl ⟨rfl, .inl rfl, (fun h => nomatch h)⟩
    · rename_i ss
      split
      · exact .inl ⟨rfl, .inl rfl, (fun h => nomatch h)⟩
      · split
        · exact .inl ⟨rfl, .inl rfl, (fun h => nomatch h)⟩
        · rcases key { q with ad := true, list := q.list ++ ss, count := q.count + ss.length } none (by simp [hq]) with ⟨h1, h2⟩ | h
          · exact .inl ⟨h1, .inl h2, (fun h => nomatch h)⟩
          · exact .inr h
  | ack =>
    unfold Joold.step
    dsimp only
    rw [hen]
    simp only [Bool.not_true, Bool.false_eq_true, if_false]
    rcases key { q with ack := true } none hq with ⟨h1, h2⟩ | h
    · exact .inl ⟨h1, .inr h2, fun _ => h2⟩
    · exact .inr h
  | clean =>
    unfold Joold.step
    dsimp only
    rw [hen]
    simp only [Bool.not_true, Bool.false_eq_true, if_false]
    rcases key q none hq with ⟨h1, h2⟩ | h
    · exact .inl ⟨h1, .inl h2, (fun h => nomatch h)⟩
    · exact .inr h

/-- What a step of the queue of instance `name` does to the machine. -/
theorem queueOp_smooth {e : Env} (he : Smooth e) {n : Node} {name : Name} {i : Inst} (hi : n.insts name = some i) (hf : Fine i.q) (o : Joold.Op Sess) :
    ∃ q', Fine q' ∧ (queueOp e n name o).insts = upd n.insts name (some { i with q := q' }) ∧
      (((queueOp e n name o).rx = n.rx ∧ (q'.ack = i.q.ack ∨ q'.ack = true) ∧ (o = .ack → q'.ack = true) ∧
          (q'.list = i.q.list ++ offered o ∨ q'.list = i.q.list)) ∨
       ∃ nested p now b, b ≠ [] ∧ b.length ≤ e.jool.cfg.maxPer ∧ 40 * b.length + 52 < 2 ^ 16 ∧ (b ++ q'.list = i.q.list ++ offered o ∨ b ++ q'.list = i.q.list) ∧
         (queueOp e n name o).rx = n.rx ++ [announce n.kv name nested p now b]) := by
  obtain ⟨r, hr, hfit, hr16⟩ := he.fits
  refine ⟨(Joold.step e.jool i.q o).1, Joold.step_fine hf, ?_, ?_⟩
  · unfold queueOp; rw [hi]; dsimp only
    unfold multicast
    split
    · rfl
    · unfold hear; split <;> rfl
  · rcases step_ack (o := o) he.enabled hf.count he.one with ⟨h1, h2, h3⟩ | ⟨b, hb, h1⟩
    · refine .inl ⟨?_, h2, h3, ?_⟩
      rotate_left
      · rcases Joold.step_fifo (e := e.jool) (o := o) hf with ⟨_, hx⟩ | ⟨_, hx⟩
        · rw [h1] at hx; exact .inr hx
        · rw [h1] at hx; exact .inl hx
      unfold queueOp; rw [hi]; dsimp only
      unfold multicast
      rw [h1]
      rfl
    · have hbl : b.length ≤ e.jool.cfg.maxPer := Joold.step_batch hf h1
      refine .inr ⟨e.strict, e.p, e.jool.now.toNat, b, hb, hbl, by omega, ?_, ?_⟩
      · rcases Joold.step_fifo (e := e.jool) (o := o) hf with ⟨_, hx⟩ | ⟨_, hx⟩
        · rw [h1] at hx; exact .inr hx
        · rw [h1] at hx; exact .inl hx
      unfold queueOp; rw [hi]; dsimp only
      unfold multicast
      have ht : Joold.transmit e.room ((Joold.step e.jool i.q o).2.getD []) = some b := by
        rw [h1]
        unfold Joold.transmit
        have hbe : (Option.getD (some b) []).isEmpty = false := by
          cases b with
          | nil => exact absurd rfl hb
          | cons _ _ => rfl
        rw [hbe, hr]
        simp only [Bool.false_eq_true, if_false]
        exact if_pos (by show 52 + 40 * b.length ≤ r; omega)
      rw [ht]
      dsimp only
      unfold hear
      rw [he.heard]
      rfl

theorem upd_self (f : Name → Option Inst) (a : Name) (x : Option Inst) : upd f a x a = x := by simp [upd]

theorem upd_other (f : Name → Option Inst) {a b : Name} (h : b ≠ a) (x : Option Inst) : upd f a x b = f b := by simp [upd, h]

theorem queueOp_more (e : Env) (n : Node) (name : Name) (o : Joold.Op Sess) :
    (queueOp e n name o).admin = n.admin ∧ (queueOp e n name o).loaded = n.loaded := by
  unfold queueOp
  split
  · exact ⟨rfl, rfl⟩
  · dsimp only
    unfold multicast
    split
    · exact ⟨rfl, rfl⟩
    · unfold hear; split <;> exact ⟨rfl, rfl⟩

/-- The instance's own queue. -/
theorem notStuck_queueOp {e : Env} (he : Smooth e) {n : Node} {i : Inst} (hl : Live n i) (h : NotStuck n) (name : Name)
    (hfine : ∀ i, n.insts name = some i → Fine i.q) (o : Joold.Op Sess) :
    ∃ i', Live (queueOp e n name o) i' ∧ NotStuck (queueOp e n name o) := by
  have k := queueOp_kept e n name o
  have k2 := queueOp_more e n name o
  cases hi : n.insts name with
  | none =>
    have : queueOp e n name o = n := by unfold queueOp; rw [hi]
    rw [this]; exact ⟨i, hl, h⟩
  | some j =>
    obtain ⟨q', hq', hins, hrx⟩ := queueOp_smooth he hi (hfine j hi) o
    by_cases hn : n.me = name
    · have hj : j = i := by have := hl.inst; rw [hn, hi] at this; cases this; rfl
      subst hj
      have hnew : (queueOp e n name o).insts (queueOp e n name o).me = some { j with q := q' } := by rw [k.me, hins, hn, upd_self]
      refine ⟨{ j with q := q' }, ⟨k2.1.trans hl.admin, k2.2.trans hl.loaded, by rw [k.kv, k.v]; exact hl.version, hnew⟩, ?_⟩
      intro i' hi'
      rw [hnew] at hi'
      cases hi'
      refine ⟨hq', ?_⟩
      intro hack
      rw [k.me, k.v, k.net]
      rcases hrx with ⟨hr, ha, _⟩ | ⟨nested, p, now, b, hb, hbl, h16, _, hr⟩
      · rw [hr]
        rcases ha with ha | ha
        · exact (h j (by rw [hn]; exact hi)).2 (by rw [← ha]; exact hack)
        · rw [ha] at hack; cases hack
      · rw [hr]
        exact ⟨_, List.mem_append_right _ (List.mem_singleton.2 rfl), by rw [← hn]; exact announce_acks _ _ _ _ _ _ _ _ (by omega)⟩
    · have hnew : (queueOp e n name o).insts (queueOp e n name o).me = some i := by rw [k.me, hins, upd_other _ hn]; exact hl.inst
      refine ⟨i, ⟨k2.1.trans hl.admin, k2.2.trans hl.loaded, by rw [k.kv, k.v]; exact hl.version, hnew⟩, ?_⟩
      intro i' hi'
      rw [hnew] at hi'
      cases hi'
      obtain ⟨h1, h2⟩ := h i hl.inst
      refine ⟨h1, ?_⟩
      intro hack
      rw [k.me, k.v, k.net]
      obtain ⟨m, hm, hm2⟩ := h2 hack
      rcases hrx with ⟨hr, _⟩ | ⟨_, _, _, _, _, _, _, _, hr⟩
      · rw [hr]; exact ⟨m, hm, hm2⟩
      · rw [hr]; exact ⟨m, List.mem_append_left _ hm, hm2⟩

/-- After the acknowledgement: the queue doesn't wait, or there is a new message. -/
theorem notStuck_ack {e : Env} (he : Smooth e) {n : Node} {i : Inst} (hl : Live n i) (hf : Fine i.q) :
    ∃ i', Live (handleAck e n) i' ∧ NotStuck (handleAck e n) := by
  have hA : handleAck e n = queueOp e n n.me .ack := by unfold handleAck; rw [live_start hl]
  rw [hA]
  have k := queueOp_kept e n n.me .ack
  have k2 := queueOp_more e n n.me .ack
  obtain ⟨q', hq', hins, hrx⟩ := queueOp_smooth he hl.inst hf .ack
  have hnew : (queueOp e n n.me .ack).insts (queueOp e n n.me .ack).me = some { i with q := q' } := by rw [k.me, hins, upd_self]
  refine ⟨{ i with q := q' }, ⟨k2.1.trans hl.admin, k2.2.trans hl.loaded, by rw [k.kv, k.v]; exact hl.version, hnew⟩, ?_⟩
  intro i' hi'
  rw [hnew] at hi'
  cases hi'
  refine ⟨hq', ?_⟩
  intro hack
  rw [k.me, k.v, k.net]
  rcases hrx with ⟨_, _, ha, _⟩ | ⟨nested, p, now, b, hb, hbl, h16, _, hr⟩
  · rw [ha rfl] at hack; cases hack
  · rw [hr]
    exact ⟨_, List.mem_append_right _ (List.mem_singleton.2 rfl), announce_acks _ _ _ _ _ _ _ _ (by omega)⟩

/-- Every queue is a queue. -/
def AllFine (n : Node) : Prop := ∀ name i, n.insts name = some i → Fine i.q

theorem allFine_queueOp {n : Node} (h : AllFine n) (e : Env) (name : Name) (o : Joold.Op Sess) : AllFine (queueOp e n name o) := by
  intro name' i' hi'
  cases hi : n.insts name with
  | none =>
    have : queueOp e n name o = n := by unfold queueOp; rw [hi]
    rw [this] at hi'; exact h name' i' hi'
  | some i =>
    have hins : (queueOp e n name o).insts = upd n.insts name (some { i with q := (Joold.step e.jool i.q o).1 }) := by
      unfold queueOp; rw [hi]; dsimp only
      unfold multicast
      split
      · rfl
      · unfold hear; split <;> rfl
    rw [hins] at hi'
    by_cases hn : name' = name
    · subst hn; rw [upd_self] at hi'; cases hi'; exact Joold.step_fine (h _ i hi)
    · rw [upd_other _ hn] at hi'; exact h name' i' hi'

theorem allFine_ack {n : Node} (h : AllFine n) (e : Env) : AllFine (handleAck e n) := by
  unfold handleAck
  split
  · unfold hear; split <;> exact h
  · exact allFine_queueOp h e _ _

/-- What the daemon can do to the machine. -/
theorem perform_flow {e : Env} (he : Smooth e) : ∀ (as : List Act) {n : Node} {i : Inst}, Live n i → AllFine n → NotStuck n →
    ∃ i', Live (perform e n as).1 i' ∧ AllFine (perform e n as).1 ∧ NotStuck (perform e n as).1 := by
  intro as
  induction as with
  | nil => intro n i hl ha hs; exact ⟨i, hl, ha, hs⟩
  | cons a as ih =>
    intro n i hl ha hs
    cases a with
    | datagram d => exact ih hl ha hs
    | print r => exact ih hl ha hs
    | ack =>
      obtain ⟨i', hl', hs'⟩ := notStuck_ack he hl (ha _ i hl.inst)
      exact ih hl' (allFine_ack ha e) hs'

theorem perform_ack {e : Env} : ∀ (as : List Act) (n : Node), .ack ∉ as → (perform e n (as ++ [.ack])).1 = handleAck e n := by
  intro as
  induction as with
  | nil => intro n _; rfl
  | cons a as ih =>
    intro n h
    cases a with
    | datagram d => exact ih n (fun hc => h (List.mem_cons_of_mem _ hc))
    | print r => exact ih n (fun hc => h (List.mem_cons_of_mem _ hc))
    | ack => exact absurd (List.mem_cons_self ..) h

/-- The events during which the instance of the daemon remains. -/
def Stays (me : Name) : Ev → Prop
  | .remove name => name ≠ me
  | _ => True

theorem flow_step {e : Env} (he : Smooth e) {n : Node} {i : Inst} (hl : Live n i) (ha : AllFine n) (hs : NotStuck n) {ev : Ev} (hst : Stays n.me ev)
    {n' : Node} {ds} (h : step e n ev = .ok (n', ds)) : n'.me = n.me ∧ ∃ i', Live n' i' ∧ AllFine n' ∧ NotStuck n' := by
  cases ev with
  | kern name o =>
    cases h
    obtain ⟨i', h1, h2⟩ := notStuck_queueOp he hl hs name (ha name) o
    exact ⟨(queueOp_kept ..).me, i', h1, allFine_queueOp ha e name o, h2⟩
  | daemon =>
    have h : daemonStep e n = .ok (n', ds) := h
    unfold daemonStep at h
    cases hrx : n.rx with
    | nil => rw [hrx] at h; cases h; exact ⟨rfl, i, hl, ha, hs⟩
    | cons m l =>
      rw [hrx] at h
      dsimp only at h
      cases hr : react n.v n.me n.net m with
      | ub u => rw [hr] at h; cases h
      | ok as =>
        rw [hr] at h
        have h : Outcome.ok (perform e { n with rx := l } as) = .ok (n', ds) := h
        have hme : ∀ (as : List Act) (n : Node), (perform e n as).1.me = n.me := by
          intro as
          induction as with
          | nil => intro n; rfl
          | cons a as ih =>
            intro n
            cases a with
            | datagram d => exact ih n
            | print r => exact ih n
            | ack => exact (ih _).trans (handleAck_kept e n).me
        have hn' : n' = (perform e { n with rx := l } as).1 := by rw [Outcome.ok.injEq] at h; rw [h]
        have hl' : Live { n with rx := l } i := ⟨hl.admin, hl.loaded, hl.version, hl.inst⟩
        have ha' : AllFine { n with rx := l } := ha
        refine ⟨by rw [hn']; exact hme _ _, ?_⟩
        rw [hn']
        by_cases hk : Acks n.v n.me n.net m
        · obtain ⟨as', h1, h2⟩ := hk
          rw [hr] at h1
          cases h1
          rw [perform_ack as' _ h2]
          obtain ⟨i', x, y⟩ := notStuck_ack he hl' (ha _ i hl.inst)
          exact ⟨i', x, allFine_ack ha' e, y⟩
        · refine perform_flow he as hl' ha' ?_
          intro j hj
          obtain ⟨h1, h2⟩ := hs j hj
          refine ⟨h1, ?_⟩
          intro hq
          obtain ⟨m', hm', hm2⟩ := h2 hq
          rw [hrx] at hm'
          rcases List.mem_cons.1 hm' with rfl | hm'
          · exact absurd hm2 hk
          · exact ⟨m', hm', hm2⟩
  | recv d =>
    have h : (handleAdd e n (request (received d))).map (fun n' => (n', ([] : List (List Byte)))) = .ok (n', ds) := h
    rw [handleAdd_request] at h
    by_cases hd : (received d).length = 0 ∨ 4 ≤ (received d).length
    · rw [if_pos hd, live_start hl] at h
      dsimp only at h
      cases hsy : sync e.cfg e.p e.jool.cfg.enabled i.db (some (stamp e.bib (attrs (received d)).1)) with
      | ub u => rw [hsy] at h; cases h
      | ok r =>
        rw [hsy] at h
        have hh : ∀ x : Node, x.me = n.me → x.v = n.v → x.kv = n.kv → x.net = n.net → x.admin = n.admin → x.loaded = n.loaded →
            x.insts = upd n.insts n.me (some { i with db := r.1 }) → (∀ m ∈ n.rx, m ∈ x.rx) →
            x.me = n.me ∧ ∃ i', Live x i' ∧ AllFine x ∧ NotStuck x := by
          intro x h1 h2 h3 h4 h5 h6 h7 h8
          have hx : x.insts x.me = some { i with db := r.1 } := by rw [h1, h7, upd_self]
          refine ⟨h1, _, ⟨h5.trans hl.admin, h6.trans hl.loaded, by rw [h3, h2]; exact hl.version, hx⟩, ?_, ?_⟩
          · intro name j hj
            rw [h7] at hj
            by_cases hn : name = n.me
            · subst hn; rw [upd_self] at hj; cases hj; exact ha _ i hl.inst
            · rw [upd_other _ hn] at hj; exact ha name j hj
          · intro j hj
            rw [hx] at hj
            cases hj
            obtain ⟨a1, a2⟩ := hs i hl.inst
            refine ⟨a1, ?_⟩
            intro hq
            obtain ⟨m, hm, hm2⟩ := a2 hq
            exact ⟨m, h8 m hm, by rw [h2, h1, h4]; exact hm2⟩
        simp only [Outcome.map, Outcome.ok.injEq, Prod.mk.injEq] at h
        rw [← h.1]
        split
        · exact hh _ rfl rfl rfl rfl rfl rfl rfl (fun m hm => hm)
        · unfold hear
          split
          · exact hh _ rfl rfl rfl rfl rfl rfl rfl (fun m hm => List.mem_append_left _ hm)
          · exact hh _ rfl rfl rfl rfl rfl rfl rfl (fun m hm => hm)
    · rw [if_neg hd] at h
      cases h
      exact ⟨rfl, i, hl, ha, hs⟩
  | create name =>
    cases hi : n.insts name with
    | some j =>
      have h : Outcome.ok ((match n.insts name with | some _ => n | none => _), ([] : List (List Byte))) = .ok (n', ds) := h
      rw [hi] at h; cases h; exact ⟨rfl, i, hl, ha, hs⟩
    | none =>
      have hne : n.me ≠ name := by intro hc; rw [← hc, hl.inst] at hi; cases hi
      have h : Outcome.ok ((match n.insts name with
        | some _ => n
        | none => { n with insts := upd n.insts name (some ⟨Joold.alloc e.jool.now, fun _ => Bib.init⟩) }), ([] : List (List Byte))) = .ok (n', ds) := h
      rw [hi] at h; cases h
      refine ⟨rfl, i, ⟨hl.admin, hl.loaded, hl.version, by show upd _ _ _ n.me = _; rw [upd_other _ hne]; exact hl.inst⟩, ?_, ?_⟩
      · intro name' j hj
        have hj : upd n.insts name _ name' = some j := hj
        by_cases hn : name' = name
        · subst hn; rw [upd_self] at hj; cases hj; exact Joold.alloc_fine _
        · rw [upd_other _ hn] at hj; exact ha name' j hj
      · intro j hj
        have hj : upd n.insts name _ n.me = some j := hj
        rw [upd_other _ hne] at hj
        exact hs j hj
  | remove name =>
    cases h
    have hne : n.me ≠ name := fun hc => hst hc.symm
    refine ⟨rfl, i, ⟨hl.admin, hl.loaded, hl.version, by show upd _ _ _ n.me = _; rw [upd_other _ hne]; exact hl.inst⟩, ?_, ?_⟩
    · intro name' j hj
      have hj : upd n.insts name none name' = some j := hj
      by_cases hn : name' = name
      · subst hn; rw [upd_self] at hj; cases hj
      · rw [upd_other _ hn] at hj; exact ha name' j hj
    · intro j hj
      have hj : upd n.insts name none n.me = some j := hj
      rw [upd_other _ hne] at hj
      exact hs j hj
  | table name db =>
    cases hi : n.insts name with
    | none =>
      have h : Outcome.ok ((match n.insts name with
        | some j => { n with insts := upd n.insts name (some { j with db := db }) }
        | none => n), ([] : List (List Byte))) = .ok (n', ds) := h
      rw [hi] at h; cases h; exact ⟨rfl, i, hl, ha, hs⟩
    | some j =>
      have h : Outcome.ok ((match n.insts name with
        | some j => { n with insts := upd n.insts name (some { j with db := db }) }
        | none => n), ([] : List (List Byte))) = .ok (n', ds) := h
      rw [hi] at h; cases h
      have hall : AllFine { n with insts := upd n.insts name (some { j with db := db }) } := by
        intro name' j' hj
        have hj : upd n.insts name _ name' = some j' := hj
        by_cases hn : name' = name
        · subst hn; rw [upd_self] at hj; cases hj; exact ha _ j hi
        · rw [upd_other _ hn] at hj; exact ha name' j' hj
      by_cases hne : n.me = name
      · have hij : j = i := by have := hl.inst; rw [hne, hi] at this; cases this; rfl
        subst hij
        have hx : upd n.insts name (some { j with db := db }) n.me = some { j with db := db } := by rw [hne, upd_self]
        refine ⟨rfl, _, ⟨hl.admin, hl.loaded, hl.version, hx⟩, hall, ?_⟩
        intro j' hj
        have hj : upd n.insts name _ n.me = some j' := hj
        rw [hx] at hj
        cases hj
        exact hs j hl.inst
      · refine ⟨rfl, i, ⟨hl.admin, hl.loaded, hl.version, by show upd _ _ _ n.me = _; rw [upd_other _ hne]; exact hl.inst⟩, hall, ?_⟩
        intro j' hj
        have hj : upd n.insts name _ n.me = some j' := hj
        rw [upd_other _ hne] at hj
        exact hs j' hj

/-- **The queue does not wait in vain.** In any history of a machine whose daemon's instance exists all along (whatever comes from the
network, whatever happens to other instances), if the daemon has read everything, the queue is not waiting for an acknowledgement. -/
theorem acks_flow : ∀ (hist : List (Env × Ev)) {n : Node} {i : Inst}, Live n i → AllFine n → NotStuck n →
    (∀ x ∈ hist, Smooth x.1 ∧ Stays n.me x.2) → ∀ {n' : Node}, runNode n hist = .ok n' →
    ∃ i', Live n' i' ∧ AllFine n' ∧ NotStuck n' ∧ (n'.rx = [] → i'.q.ack = true) := by
  intro hist
  induction hist with
  | nil =>
    intro n i hl ha hs _ n' h
    cases h
    refine ⟨i, hl, ha, hs, ?_⟩
    intro hrx
    cases hq : i.q.ack with
    | true => rfl
    | false =>
      obtain ⟨m, hm, _⟩ := (hs i hl.inst).2 hq
      rw [hrx] at hm; cases hm
  | cons x hist ih =>
    obtain ⟨e, ev⟩ := x
    intro n i hl ha hs hx n' h
    unfold runNode at h
    cases hst : step e n ev with
    | ub u => rw [hst] at h; cases h
    | ok r =>
      rw [hst] at h
      have hx0 := hx (e, ev) (List.mem_cons_self ..)
      obtain ⟨hme, i', h1, h2, h3⟩ := flow_step hx0.1 hl ha hs hx0.2 hst
      exact ih h1 h2 h3 (fun y hy => by rw [hme]; exact hx y (List.mem_cons_of_mem _ hy)) h

/-- The machine right after the creation of the instance. -/
theorem fresh_notStuck {n : Node} (h : n.insts n.me = some ⟨Joold.alloc now, db⟩) : NotStuck n := by
  intro i hi
  rw [h] at hi
  cases hi
  exact ⟨Joold.alloc_fine _, fun hc => by cases hc⟩

end Jool.Relay
