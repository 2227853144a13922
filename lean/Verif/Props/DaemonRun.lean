import Verif.Props.DaemonAck
/-
C86: the conversation between the kernel and the daemon ends if the instance exists, and does not end if it does not; what goes wrong; examples.
-/
namespace Jool.Relay
open Nla JooldMsg JooldSpec RelaySpec
open Jool.Nla (Attr enc attrs unle le)

/-- The messages are the kernel's. -/
def RxOk (n : Node) : Prop := ∀ m ∈ n.rx, MsgOk (fun _ _ => True) n m

theorem queueOp_rxOk {e : Env} (he : Smooth e) {n : Node} (h : RxOk n) {name : Name} {i : Inst} (hi : n.insts name = some i) (hf : Fine i.q) (o : Joold.Op Sess) :
    RxOk (queueOp e n name o) := by
  have k := queueOp_kept e n name o
  obtain ⟨q', _, _, hrx⟩ := queueOp_smooth he hi hf o
  intro m hm
  rcases hrx with ⟨hr, _⟩ | ⟨nested, p, now, b, hb, _, h16, _, hr⟩
  · rw [hr] at hm; exact (h m hm).kept k
  · rw [hr] at hm
    rcases List.mem_append.1 hm with hm | hm
    · exact (h m hm).kept k
    · rw [List.mem_singleton] at hm
      exact .inr ⟨name, nested, p, now, b, by rw [hm, k.kv], hb, h16, fun _ _ => trivial⟩

/-- One message is read: there is less to do than before. -/
theorem daemon_progress {e : Env} (he : Smooth e) {n : Node} {i : Inst} (hl : Live n i) (ha : AllFine n) (hr : RxOk n) {m : Msg} {l : List Msg}
    (hrx : n.rx = m :: l) : ∃ n' ds i', step e n .daemon = .ok (n', ds) ∧ Live n' i' ∧ AllFine n' ∧ RxOk n' ∧
      n'.rx.length + i'.q.list.length < n.rx.length + i.q.list.length := by
  have hl' : Live { n with rx := l } i := ⟨hl.admin, hl.loaded, hl.version, hl.inst⟩
  have ha' : AllFine { n with rx := l } := ha
  have hr' : RxOk { n with rx := l } := fun x hx => (hr x (by rw [hrx]; exact List.mem_cons_of_mem _ hx)).kept ⟨rfl, rfl, rfl, rfl⟩
  have hf := ha _ i hl.inst
  have hA : handleAck e { n with rx := l } = queueOp e { n with rx := l } n.me .ack := by unfold handleAck; rw [live_start hl']
  have hack : ∃ i', Live (handleAck e { n with rx := l }) i' ∧ AllFine (handleAck e { n with rx := l }) ∧ RxOk (handleAck e { n with rx := l }) ∧
      (handleAck e { n with rx := l }).rx.length + i'.q.list.length < n.rx.length + i.q.list.length := by
    rw [hA]
    have k := queueOp_kept e { n with rx := l } n.me .ack
    have k2 := queueOp_more e { n with rx := l } n.me .ack
    obtain ⟨q', hq', hins, hx⟩ := queueOp_smooth (n := { n with rx := l }) he hl.inst hf .ack
    have hnew : (queueOp e { n with rx := l } n.me .ack).insts (queueOp e { n with rx := l } n.me .ack).me = some { i with q := q' } := by
      rw [k.me, hins, upd_self]
    refine ⟨{ i with q := q' }, ⟨k2.1.trans hl.admin, k2.2.trans hl.loaded, by rw [k.kv, k.v]; exact hl.version, hnew⟩, allFine_queueOp ha' e _ _,
      queueOp_rxOk he hr' hl.inst hf .ack, ?_⟩
    show _ + q'.list.length < _
    rcases hx with ⟨h1, _, _, h4⟩ | ⟨_, _, _, b, hb, _, _, h4, h1⟩
    · have h4 : q'.list = i.q.list := by
        rcases h4 with h4 | h4
        · rw [h4]; exact List.append_nil _
        · exact h4
      rw [h1, h4, hrx, List.length_cons]
      show l.length + _ < _
      omega
    · have h4 : (b ++ q'.list).length = i.q.list.length := by
        rcases h4 with h4 | h4
        · rw [h4]; exact congrArg List.length (List.append_nil _)
        · rw [h4]
      have hbl : 1 ≤ b.length := by
        cases b with
        | nil => exact absurd rfl hb
        | cons _ _ => simp
      rw [List.length_append] at h4
      rw [h1, hrx, List.length_cons, List.length_append, List.length_singleton]
      show l.length + 1 + _ < _
      omega
  show ∃ n' ds i', daemonStep e n = .ok (n', ds) ∧ _
  unfold daemonStep
  rw [hrx]
  dsimp only
  rw [← hrx]
  obtain ⟨i', a1, a2, a3, a4⟩ := hack
  rcases react_ok (hr m (by rw [hrx]; exact List.mem_cons_self ..)) with h | h | ⟨r, h⟩ | ⟨d, _, h⟩
  · exact ⟨_, _, i, by rw [h]; rfl, hl', ha', hr', by rw [hrx, List.length_cons]; show l.length + _ < _; omega⟩
  · exact ⟨_, _, i', by rw [h]; rfl, a1, a2, a3, a4⟩
  · exact ⟨_, _, i', by rw [h]; rfl, a1, a2, a3, a4⟩
  · exact ⟨_, _, i', by rw [h]; rfl, a1, a2, a3, a4⟩

theorem daemon_idle {e : Env} {n : Node} (h : n.rx = []) : step e n .daemon = .ok (n, []) := by
  show daemonStep e n = _
  unfold daemonStep; rw [h]

/-- **The conversation ends.** If the instance exists, the daemon and the kernel have nothing left to say after at most as many
messages as there were messages and queued sessions; then the queue is not waiting. -/
theorem calm : ∀ (envs : List Env) {n : Node} {i : Inst}, (∀ e ∈ envs, Smooth e) → Live n i → AllFine n → RxOk n → NotStuck n →
    n.rx.length + i.q.list.length ≤ envs.length →
    ∃ n' i', runNode n (envs.map fun e => (e, .daemon)) = .ok n' ∧ Live n' i' ∧ n'.rx = [] ∧ i'.q.ack = true := by
  have key : ∀ (envs : List Env) {n : Node} {i : Inst}, (∀ e ∈ envs, Smooth e) → Live n i → AllFine n → RxOk n →
      n.rx.length + i.q.list.length ≤ envs.length →
      ∃ n' i', runNode n (envs.map fun e => (e, .daemon)) = .ok n' ∧ Live n' i' ∧ n'.rx = [] := by
    intro envs
    induction envs with
    | nil =>
      intro n i _ hl _ _ hle
      refine ⟨n, i, rfl, hl, ?_⟩
      cases hrx : n.rx with
      | nil => rfl
      | cons m l => rw [hrx] at hle; simp at hle
    | cons e envs ih =>
      intro n i he hl ha hr hle
      rw [List.map_cons, runNode]
      cases hrx : n.rx with
      | nil =>
        rw [daemon_idle hrx]
        have hrun : ∀ (envs : List Env), runNode n (envs.map fun e => (e, .daemon)) = .ok n := by
          intro envs
          induction envs with
          | nil => rfl
          | cons e envs ih => rw [List.map_cons, runNode, daemon_idle hrx]; exact ih
        exact ⟨n, i, hrun envs, hl, hrx⟩
      | cons m l =>
        obtain ⟨n', ds, i', h1, h2, h3, h4, h5⟩ := daemon_progress (he e (List.mem_cons_self ..)) hl ha hr hrx
        rw [h1]
        exact ih (fun e' he' => he e' (List.mem_cons_of_mem _ he')) h2 h3 h4 (by rw [List.length_cons] at hle; show n'.rx.length + _ ≤ _; omega)
  intro envs n i he hl ha hr hs hle
  obtain ⟨n', i', h1, h2, h3⟩ := key envs he hl ha hr hle
  obtain ⟨i'', h4, _, _, h5⟩ := acks_flow (envs.map fun e => (e, .daemon)) hl ha hs (by
    intro x hx
    obtain ⟨e, hx', rfl⟩ := List.mem_map.1 hx
    exact ⟨he e hx', trivial⟩) h1
  have : i'' = i' := by have := h4.inst; rw [h2.inst] at this; cases this; rfl
  subst this
  exact ⟨n', i'', h1, h2, h3, h5 h3⟩

/-! ## When the instance does not exist -/

theorem failure_acks (n : Node) : Acks n.v n.me n.net (failure n) := ⟨[], react_failure n _ _ _ rfl rfl, by simp⟩

theorem storm_step {e : Env} (he : e.heard = true) {n : Node} (hs : start n = none) {m : Msg} (hrx : n.rx = [m]) (hm : Acks n.v n.me n.net m) :
    ∃ ds, step e n .daemon = .ok ({ n with rx := [failure n] }, ds) := by
  obtain ⟨as, h1, h2⟩ := hm
  refine ⟨(perform e { n with rx := [] } (as ++ [.ack])).2, ?_⟩
  show daemonStep e n = _
  unfold daemonStep
  rw [hrx]
  dsimp only
  rw [h1]
  have hA : handleAck e { n with rx := [] } = { n with rx := [failure n] } := by
    have hs' : start { n with rx := [] } = none := hs
    unfold handleAck
    rw [hs']
    show hear e.heard _ _ = _
    unfold hear
    rw [he]
    rfl
  have := perform_ack (e := e) as { n with rx := [] } h2
  rw [hA] at this
  show Outcome.ok (perform e { n with rx := [] } (as ++ [.ack])) = _
  rw [← this]

/-- **The storm.** If the daemon's instance does not exist (or the versions differ, or the module is not inserted, or the daemon has
lost its capability), one message is enough to keep the daemon and the kernel busy forever: the acknowledgement is answered with an error, which
the daemon acknowledges. However many messages the daemon reads, there is one more. -/
theorem ack_storm : ∀ (envs : List Env), (∀ e ∈ envs, e.heard = true) → ∀ {n : Node}, start n = none → ∀ {m : Msg}, n.rx = [m] →
    Acks n.v n.me n.net m → envs ≠ [] → runNode n (envs.map fun e => (e, .daemon)) = .ok { n with rx := [failure n] } := by
  intro envs
  induction envs with
  | nil => intro _ n _ m _ _ h; exact absurd rfl h
  | cons e envs ih =>
    intro he n hs m hrx hm _
    obtain ⟨ds, h⟩ := storm_step (he e (List.mem_cons_self ..)) hs hrx hm
    rw [List.map_cons, runNode, h]
    show runNode { n with rx := [failure n] } _ = _
    cases envs with
    | nil => rfl
    | cons e' envs' =>
      exact ih (fun x hx => he x (List.mem_cons_of_mem _ hx)) (n := { n with rx := [failure n] }) hs rfl (failure_acks n) (fun h => nomatch h)

/-- What starts it: any datagram from the network. -/
theorem storm_starts {e : Env} (he : e.heard = true) {n : Node} (hs : start n = none) (hrx : n.rx = []) (d : List Byte)
    (hd : d.length = 0 ∨ 4 ≤ d.length) : step e n (.recv d) = .ok ({ n with rx := [failure n] }, []) := by
  have hrec : (received d).length = 0 ∨ 4 ≤ (received d).length := by
    unfold received MAX_PAYLOAD; rw [List.length_take]; omega
  show (handleAdd e n (request (received d))).map _ = _
  rw [handleAdd_request, if_pos hrec, hs]
  show Outcome.ok (hear e.heard n (failure n), _) = _
  unfold hear
  rw [he, hrx]
  rfl

/-! ## Other defects -/

/-- **Names that only differ in case.** The kernel keeps instances `A` and `a` apart, the daemon doesn't: the daemon of `a`
sends the sessions of `A` to the peers of `a`. -/
theorem case_leak (v : Nat) (nested : Bool) (p now : Nat) (b : List Sess) (hb : 40 * b.length + 4 < 2 ^ 16) :
    ([65#8] : Name) ≠ [97#8] ∧
    react v [97#8] true (announce v [65#8] nested p now b) = .ok [.datagram (wire p now b), .ack] :=
  ⟨by decide, react_announce v v [97#8] [65#8] nested p now b (sameVersion_refl v) (by decide) hb⟩

/-- **A forged datagram.** One attribute with a payload of 32 bytes makes the kernel read beyond the message, on any machine
whose instance has synchronization enabled. -/
theorem relay_forged {e : Env} {n : Node} {i : Inst} (hl : Live n i) (hen : e.jool.cfg.enabled = true) :
    step e n (.recv (enc ⟨ENTRY, false, List.replicate 32 0#8⟩)) = .ub .outOfBounds := by
  have hat : (attrs (received (enc ⟨ENTRY, false, List.replicate 32 0#8⟩))).1 = [⟨ENTRY, false, List.replicate 32 0#8⟩] := by decide +kernel
  show (handleAdd e n (request (received _))).map _ = _
  rw [handleAdd_request, if_pos (by decide +kernel), live_start hl, hat, hen]
  have hg : JooldMsg.get e.cfg e.p (e.bib 0).now (List.replicate 32 0#8) = .ub .outOfBounds := by
    unfold JooldMsg.get
    rw [if_neg (by decide), readRaw_ub (by decide)]
    rfl
  show ((syncLoop e.cfg e.p i.db [(e.bib 0, List.replicate 32 0#8)]).map _).map _ = _
  unfold syncLoop addNew
  rw [hg]
  rfl

theorem bigEnc_attrs (p now : Nat) (s : Sess) (l : List Byte) : (attrs (received (bigEnc (entry p now s) ++ l))).1 = [] := by
  have hlen := received_length (bigEnc (entry p now s) ++ l)
  have hb : ∃ r, bigEnc (entry p now s) ++ l = 0#8 :: 40#8 :: r := by
    have : bigEnc (entry p now s) = JooldMsg.be 2 (4 + (JooldMsg.put p now s).length) ++ (JooldMsg.be 2 1 ++ JooldMsg.put p now s ++
        List.replicate (Nla.align (4 + (JooldMsg.put p now s).length) - (4 + (JooldMsg.put p now s).length)) 0#8) := by
      unfold bigEnc entry ENTRY
      simp only [List.append_assoc]
      rfl
    rw [this, put_length]
    exact ⟨_, rfl⟩
  obtain ⟨r, hr⟩ := hb
  rw [hr] at hlen ⊢
  unfold attrs
  generalize hn : (received (0#8 :: 40#8 :: r)).length = k
  have ht : unle ((received (0#8 :: 40#8 :: r)).take 2) = 10240 := by
    have : (received (0#8 :: 40#8 :: r)).take 2 = [0#8, 40#8] := by
      unfold received MAX_PAYLOAD
      rw [List.take_take]; rfl
    rw [this]; rfl
  cases k with
  | zero => rfl
  | succ k =>
    rw [walk]
    split
    · rfl
    · rw [ht, if_pos (.inr (by omega))]

/-- **Machines of different endianness do not synchronize.** The datagram has the headers of the Netlink attributes as they
were in the sender's memory. The receiver finds no sessions in it, whatever the batch, and reports success. -/
theorem endian_lost {e : Env} {n : Node} {i : Inst} (hl : Live n i) (hen : e.jool.cfg.enabled = true) (p now : Nat) (s : Sess) (b : List Sess) :
    ∃ n', step e n (.recv ((s :: b).flatMap fun s => bigEnc (entry p now s))) = .ok (n', []) ∧ n'.rx = n.rx ∧
      n'.insts = upd n.insts n.me (some i) := by
  have hat := bigEnc_attrs p now s (b.flatMap fun s => bigEnc (entry p now s))
  rw [List.flatMap_cons]
  refine ⟨{ n with insts := upd n.insts n.me (some i) }, ?_, rfl, rfl⟩
  show (handleAdd e n (request (received _))).map _ = _
  have hne : 4 ≤ (received (bigEnc (entry p now s) ++ b.flatMap fun s => bigEnc (entry p now s))).length := by
    unfold received MAX_PAYLOAD
    have : 4 ≤ (bigEnc (entry p now s)).length := by
      unfold bigEnc
      simp only [List.length_append, JooldMsg.be_length]
      omega
    rw [List.length_take, List.length_append]; omega
  rw [handleAdd_request, if_pos (.inr hne), live_start hl, hat, hen]
  rfl

/-! ## Examples -/

/-- "default". -/
def exName : Name := [100#8, 101#8, 102#8, 97#8, 117#8, 108#8, 116#8]

def exEnv : Env := ⟨⟨⟨true, 1, 512, 2000#64⟩, 1000#64⟩, some 1520, true, 1, JooldMsg.exCfg, fun _ => ⟨1000, default, default⟩, true⟩

def exEmpty : Node := ⟨exName, true, 0x04010000, 0x04010003, true, true, fun _ => none, []⟩

/-- The machine after the creation of its instance. -/
def exNode : Node := { exEmpty with insts := upd (fun _ => none) exName (some ⟨Joold.alloc 1000#64, fun _ => Bib.init⟩) }

def exS : Sess := JooldMsg.exSess .TCP .ESTABLISHED .EST 0 7200000

theorem exEnv_smooth : Smooth exEnv := ⟨rfl, rfl, by decide, ⟨1520, rfl, by decide, by decide⟩⟩
theorem exEnv_room : RoomOk exEnv := by intro n h; cases h; decide

theorem exNode_live : Live exNode ⟨Joold.alloc 1000#64, fun _ => Bib.init⟩ := ⟨rfl, rfl, by decide, rfl⟩

/-- A whole trip: one machine's packet creates a session; the daemon sends one datagram; the other machine's table has the session, and the
first queue doesn't wait. -/
example : ∃ a a' b,
    step exEnv exNode (.kern exName (.add exS false)) = .ok (a, []) ∧ a.rx.length = 1 ∧
    step exEnv a .daemon = .ok (a', [wire 1 1000 [exS]]) ∧ a'.rx = [] ∧
    (a'.insts exName).map (fun i => i.q.ack) = some true ∧
    step exEnv exNode (.recv (wire 1 1000 [exS])) = .ok (b, []) ∧ b.rx = [] ∧
    (b.insts exName).map (fun i => ((BibSpec.sessions (i.db .TCP)).length, (BibSpec.sessions (i.db .UDP)).length)) = some (1, 0) :=
  ⟨_, _, _, rfl, rfl, rfl, rfl, rfl, rfl, rfl, by decide +kernel⟩

/-- The hypotheses of `acks_flow` and `calm` hold of the machine with a message in the daemon's socket. -/
example : ∃ a, step exEnv exNode (.kern exName (.add exS false)) = .ok (a, []) ∧
    ∃ n' i', runNode a ([exEnv].map fun e => (e, .daemon)) = .ok n' ∧ Live n' i' ∧ n'.rx = [] ∧ i'.q.ack = true := by
  have hs : NotStuck exNode := fresh_notStuck (now := 1000#64) (db := fun _ => Bib.init) rfl
  have ha : AllFine exNode := by
    intro name i hi
    have hi : upd (fun _ => none) exName (some ⟨Joold.alloc 1000#64, fun _ => Bib.init⟩) name = some i := hi
    by_cases hn : name = exName
    · subst hn; rw [upd_self] at hi; cases hi; exact Joold.alloc_fine _
    · rw [upd_other _ hn] at hi; cases hi
  have hr : RxOk exNode := fun m hm => by cases hm
  refine ⟨queueOp exEnv exNode exName (.add exS false), rfl, ?_⟩
  obtain ⟨i', h1, h2⟩ := notStuck_queueOp exEnv_smooth exNode_live hs exName (ha exName) (.add exS false)
  refine calm [exEnv] (fun e he => by rw [List.mem_singleton] at he; subst he; exact exEnv_smooth) h1 (allFine_queueOp ha _ _ _)
    (queueOp_rxOk exEnv_smooth hr exNode_live.inst (ha _ _ exNode_live.inst) _) h2 ?_
  have : i' = ⟨⟨false, false, [], 0, 1000#64⟩, fun _ => Bib.init⟩ := by
    have h := h1.inst
    have e2 : (queueOp exEnv exNode exName (.add exS false)).insts (queueOp exEnv exNode exName (.add exS false)).me =
      some ⟨⟨false, false, [], 0, 1000#64⟩, fun _ => Bib.init⟩ := rfl
    rw [e2] at h
    cases h
    rfl
  subst this
  decide +kernel

/-- The storm on the machine without an instance: it begins with an empty datagram. -/
example (k : Nat) : ∃ n, step exEnv exEmpty (.recv []) = .ok (n, []) ∧
    ∃ n', runNode n ((List.replicate (k + 1) exEnv).map fun e => (e, .daemon)) = .ok n' ∧ n'.rx = [failure exEmpty] := by
  refine ⟨_, storm_starts rfl rfl rfl [] (.inl rfl), _, ack_storm (List.replicate (k + 1) exEnv) ?_ (n := { exEmpty with rx := [failure exEmpty] }) rfl rfl
    (failure_acks _) (fun h => nomatch h), rfl⟩
  intro e he
  rw [List.eq_of_mem_replicate he]
  rfl

/-- A history of a cluster of two machines at the end of which there is a datagram in the network. -/
example : ∃ c h c', Initial c ∧ Reach c h c' ∧ (∀ x ∈ h, EvOk x.2.1 x.2.2) ∧ (0, wire 1 1000 [exS]) ∈ c'.air := by
  let c : Cluster := ⟨fun _ => exEmpty, []⟩
  have s1 : CStep c 0 exEnv (.create exName) ⟨updNode c.node 0 exNode, []⟩ :=
    .local c 0 exEnv (.create exName) exNode [] (fun d h => nomatch h) rfl
  have s2 : CStep ⟨updNode c.node 0 exNode, []⟩ 0 exEnv (.kern exName (.add exS false)) ⟨updNode (updNode c.node 0 exNode) 0 _, []⟩ :=
    .local _ 0 exEnv (.kern exName (.add exS false)) _ [] (fun d h => nomatch h) rfl
  obtain ⟨a', ha'⟩ : ∃ a', step exEnv (queueOp exEnv exNode exName (.add exS false)) .daemon = .ok (a', [wire 1 1000 [exS]]) := ⟨_, rfl⟩
  have s3 : CStep ⟨updNode (updNode c.node 0 exNode) 0 (queueOp exEnv exNode exName (.add exS false)), []⟩ 0 exEnv .daemon
      ⟨updNode (updNode (updNode c.node 0 exNode) 0 (queueOp exEnv exNode exName (.add exS false))) 0 a', [(0, wire 1 1000 [exS])]⟩ :=
    .local _ 0 exEnv .daemon a' [wire 1 1000 [exS]] (fun d h => nomatch h) ha'
  refine ⟨c, _, _, ⟨rfl, fun i => ⟨rfl, fun _ => rfl⟩⟩, .snoc (.snoc (.snoc (.nil c) s1) s2) s3, ?_, List.mem_singleton.2 rfl⟩
  intro x hx
  simp only [List.nil_append, List.cons_append, List.mem_cons, List.not_mem_nil, or_false] at hx
  rcases hx with rfl | rfl | rfl <;> exact exEnv_room

end Jool.Relay
