import Verif.Props.DaemonWire
import Verif.Props.BibPackets
/-
C86: sessions travel between the instances of a cluster through the joold daemons.
-/
namespace Jool.RelaySpec
open Relay JooldSpec
open JooldMsg (Sess Db)
open Jool.Nla (Attr enc attrs unle le)

/-- Three tables which some history of each explains. -/
def Fit (db : Db) : Prop := ∀ q, ∃ hist ev, BibSpec.After q hist (db q) ev

/-- A history of a cluster. -/
inductive Reach : Cluster → List (Nat × Env × Ev) → Cluster → Prop
  | nil (c) : Reach c [] c
  | snoc {c h c' i e ev c''} (r : Reach c h c') (s : CStep c' i e ev c'') : Reach c (h ++ [(i, e, ev)]) c''

/-- During the history, machine `i` offered the session to the queue of an instance called `name`. -/
def Offered (h : List (Nat × Env × Ev)) (i : Nat) (name : Name) (s : Sess) : Prop :=
  ∃ e o, (i, e, Ev.kern name o) ∈ h ∧ s ∈ offered o

/-- The datagram is a nonempty batch of sessions which machine `i` offered. -/
def Genuine (P : Name → Sess → Prop) (me : Name) (d : List Byte) : Prop :=
  ∃ p now name b, d = wire p now b ∧ b ≠ [] ∧ sameCase name me = true ∧ ∀ s ∈ b, P name s

/-- The buffers of the kernel are smaller than what a Netlink attribute can hold. -/
def RoomOk (e : Env) : Prop := ∀ n, e.room = some n → n < 2 ^ 16

/-- The sessions, each with its circumstances. -/
def timed (f : Nat → Bib.Env) (b : List Sess) : List (Bib.Env × Sess) := b.zipIdx.map fun x => (f x.2, x.1)

/-- The machines at the beginning: no instances, nothing to read. -/
def Initial (c : Cluster) : Prop := c.air = [] ∧ ∀ i, (c.node i).rx = [] ∧ ∀ name, (c.node i).insts name = none

end Jool.RelaySpec

namespace Jool.Relay
open Nla JooldMsg JooldSpec RelaySpec
open Jool.Nla (Attr enc attrs unle le)

theorem xt_ok : (XT_NAT64 / 2 % 2 == 1) = true := by decide

/-! ## Reception -/

theorem joold_no_ub {q hist t ev} (h : BibSpec.After q hist t ev) (e : Bib.Env) (s : Bib.SessEntry) :
    ∃ r, Bib.jooldAdd e q t s = .ok r := by
  cases hr : Bib.jooldAdd e q t s with
  | ok r => exact ⟨r, rfl⟩
  | ub u =>
    obtain ⟨_, _, h3⟩ := Bib.ub_causes h e (.joold s) trivial u hr
    rcases h3 with ⟨_, _, _, _, _, h, _⟩ | ⟨_, _, _, ⟨_, h, _⟩ | h⟩
    · cases h
    · cases h
    · cases h

/-- Payloads that do not trigger the overread. -/
def Safe (l : List (Bib.Env × List Byte)) : Prop := ∀ x ∈ l, x.2.length < 32 ∨ 36 ≤ x.2.length

theorem syncLoop_total (c : JooldMsg.Cfg) (p : Nat) : ∀ (l : List (Bib.Env × List Byte)), Safe l → ∀ (db : Db), Fit db →
    ∃ db' ok, syncLoop c p db l = .ok (db', ok) := by
  intro l
  induction l with
  | nil => intro _ db _; exact ⟨db, true, rfl⟩
  | cons x l ih =>
    obtain ⟨e, b⟩ := x
    intro hs db hf
    have hs' : Safe l := fun y hy => hs y (List.mem_cons_of_mem _ hy)
    unfold syncLoop addNew
    have hb := parse_inside_partial c p e.now b (hs (e, b) (List.mem_cons_self ..))
    rcases hg : JooldMsg.get c p e.now b with (_ | ⟨q, s⟩) | u
    · obtain ⟨db', ok, h⟩ := ih hs' db hf
      exact ⟨db', _, by dsimp only; rw [h]; rfl⟩
    · dsimp only
      obtain ⟨hist, ev, ha⟩ := hf q
      obtain ⟨r, hr⟩ := joold_no_ub ha e s
      rw [hr]
      dsimp only
      have hf' : Fit (Bib.upd db q r.1) := by
        intro q'
        by_cases hq : q' = q
        · subst hq
          have hsync : ∃ ok, sync c p true db (some [(e, b)]) = .ok (Bib.upd db q' r.1, ok) := ⟨_, by
            show syncLoop c p db [(e, b)] = _
            unfold syncLoop addNew
            rw [hg]
            dsimp only
            rw [hr]
            rfl⟩
          obtain ⟨ok, hsync⟩ := hsync
          obtain ⟨ev', h'⟩ := sync_after hsync q' ha
          exact ⟨_, _, h'⟩
        · have : Bib.upd db q r.1 q' = db q' := by simp [Bib.upd, hq]
          rw [this]; exact hf q'
      obtain ⟨db', ok, h⟩ := ih hs' _ hf'
      exact ⟨db', _, by rw [h]; rfl⟩
    · rw [hg] at hb; simp at hb

/-- A message whose sessions have the right size can be processed, and the tables are again those of some history. -/
theorem sync_total (c : JooldMsg.Cfg) (p : Nat) (en : Bool) {l : List (Bib.Env × List Byte)} (hs : Safe l) {db : Db} (hf : Fit db) :
    ∃ db' ok, sync c p en db (some l) = .ok (db', ok) ∧ Fit db' := by
  cases en with
  | false => exact ⟨db, false, rfl, hf⟩
  | true =>
    obtain ⟨db', ok, h⟩ := syncLoop_total c p l hs db hf
    refine ⟨db', ok, h, ?_⟩
    intro q
    obtain ⟨hist, ev, ha⟩ := hf q
    obtain ⟨ev', h'⟩ := sync_after (c := c) (p := p) h q ha
    exact ⟨_, _, h'⟩

theorem stamp_entries (f : Nat → Bib.Env) (p now : Nat) (b : List Sess) :
    stamp f (b.map (entry p now)) = (timed f b).map fun x => (x.1, JooldMsg.put p now x.2) := by
  unfold stamp timed
  rw [List.zipIdx_map, List.map_map, List.map_map]
  rfl

theorem stamp_safe (f : Nat → Bib.Env) (p now : Nat) (b : List Sess) : Safe (stamp f (b.map (entry p now))) := by
  intro x hx
  rw [stamp_entries] at hx
  obtain ⟨y, _, rfl⟩ := List.mem_map.1 hx
  exact .inr (by show 36 ≤ (JooldMsg.put p now y.2).length; rw [put_length])

theorem received_wire_ok (p now : Nat) (b : List Sess) :
    (received (wire p now b)).length = 0 ∨ 4 ≤ (received (wire p now b)).length := by
  unfold received MAX_PAYLOAD
  rw [List.length_take, wire_length]; omega

/-- **Delivery.** When a machine whose instance exists and has synchronization enabled gets the datagram of a batch, the table of each
protocol goes through the addition of each of the batch's sessions of that protocol, in order, with its addresses, ports, state
and timer. Nothing else changes, except that the daemon may find an error message. -/
theorem delivery (e : Env) (n : Node) (i : Inst) (hi : start n = some i) (hen : e.jool.cfg.enabled = true) (hf : Fit i.db)
    (p now : Nat) (b : List Sess) (hb : b.length ≤ 51) (hp : ∀ s ∈ b, rfc6052_4to6 e.cfg.pool6 s.dst4.addr ≠ none) :
    ∃ n' db', step e n (.recv (wire p now b)) = .ok (n', []) ∧ Fit db' ∧
      n'.insts = upd n.insts n.me (some ⟨i.q, db'⟩) ∧ (n'.rx = n.rx ∨ n'.rx = n.rx ++ [failure n]) ∧
      ∀ q, ∃ (rs : List (Bib.Env × Bib.SessEntry)) (ev : List Bib.Event),
        Bib.run q (i.db q) (rs.map fun x => (x.1, .joold x.2)) = .ok (db' q, ev) ∧
        List.Forall₂ (fun (x : Bib.Env × Sess) (y : Bib.Env × Bib.SessEntry) => x.1 = y.1 ∧
            ∃ d6, rfc6052_4to6 e.cfg.pool6 x.2.dst4.addr = some d6 ∧ Same x.2 d6 y.2)
          ((timed e.bib b).filter fun x => decide (x.2.proto = q)) rs := by
  have hat := attrs_received p now b
  rw [List.take_of_length_le hb] at hat
  obtain ⟨db', ok, hs, hf'⟩ := sync_total e.cfg e.p true (stamp_safe e.bib p now b) hf
  have hst : step e n (.recv (wire p now b)) = .ok (if ok then { n with insts := upd n.insts n.me (some { i with db := db' }) }
      else hear e.heard { n with insts := upd n.insts n.me (some { i with db := db' }) } (failure n), []) := by
    show (handleAdd e n (request (received (wire p now b)))).map _ = _
    rw [handleAdd_request, if_pos (received_wire_ok p now b), hi, hat, hen]
    dsimp only
    rw [hs]
    rfl
  refine ⟨_, db', hst, hf', ?_, ?_, ?_⟩
  · cases ok
    · show (hear _ _ _).insts = _
      unfold hear; split <;> rfl
    · rfl
  · cases ok
    · show (hear _ _ _).rx = _ ∨ (hear _ _ _).rx = _
      unfold hear; split
      · exact .inr rfl
      · exact .inl rfl
    · exact .inl rfl
  · intro q
    obtain ⟨ev, hev⟩ := sync_history hs q
    rw [stamp_entries] at hev
    obtain ⟨rs, h1, h2⟩ := sync_delivers e.cfg p e.p now q (timed e.bib b) (by
      intro x hx
      unfold timed at hx
      obtain ⟨y, hy, rfl⟩ := List.mem_map.1 hx
      exact hp _ (List.fst_mem_of_mem_zipIdx hy))
    rw [h1] at hev
    exact ⟨rs, ev, hev, h2⟩

/-- Sessions beyond the 51st of a datagram are lost: the datagram is worth as much as the one with the first 51. (The kernel's
buffer does not let this happen, see `Joold.transmit`.) -/
theorem delivery_truncated (e : Env) (n : Node) (p now : Nat) (b : List Sess) :
    step e n (.recv (wire p now b)) = step e n (.recv (wire p now (b.take 51))) := by
  show (handleAdd e n (request (received _))).map _ = (handleAdd e n (request (received _))).map _
  rw [handleAdd_request, handleAdd_request, if_pos (received_wire_ok p now b), if_pos (received_wire_ok p now _), attrs_received,
    attrs_received, List.take_take]
  rfl

/-! ## The daemon -/

/-- **One message, one datagram.** What the daemon does with the message of a batch of its instance. -/
theorem react_announce (v kv : Nat) (me name : Name) (nested : Bool) (p now : Nat) (b : List Sess)
    (hv : sameVersion v kv = true) (hn : sameCase name me = true) (hb : 40 * b.length + 4 < 2 ^ 16) :
    react v me true (announce kv name nested p now b) = .ok [.datagram (wire p now b), .ack] := by
  have hval : validHdr v (announce kv name nested p now b).hdr = true := by
    show (true && sameVersion v kv && (XT_NAT64 / 2 % 2 == 1)) = true
    rw [hv, xt_ok]; rfl
  unfold react
  rw [hval]
  show (if (!true) = true then _ else if (!true) = true then _ else if (!sameCase name me) = true then _ else _) = _
  rw [hn]
  exact forward_enc (by rw [wire_length]; exact hb)

/-- **From the queue to the other machine's table**: the flush of a batch, read by the daemon, is one datagram with the whole batch;
the queue is acknowledged. -/
theorem flush_relayed (e : Env) (n : Node) (nested : Bool) (p now : Nat) (b : List Sess) (l : List Msg) (hnet : n.net = true)
    (hv : sameVersion n.v n.kv = true) (hb : 40 * b.length + 4 < 2 ^ 16)
    (hrx : n.rx = announce n.kv n.me nested p now b :: l) :
    step e n .daemon = .ok (handleAck e { n with rx := l }, [wire p now b]) := by
  show daemonStep e n = _
  unfold daemonStep
  rw [hrx]
  dsimp only
  rw [hnet, react_announce n.v n.kv n.me n.me nested p now b hv (by simp [sameCase]) hb]
  rfl

/-! ## Invariant: nothing comes from nowhere, and nothing is undefined -/

/-- A message which the kernel can have sent to the daemon of the machine. -/
def MsgOk (P : Name → Sess → Prop) (n : Node) (m : Msg) : Prop :=
  m = failure n ∨ ∃ name nested p now b, m = announce n.kv name nested p now b ∧ b ≠ [] ∧ 40 * b.length + 52 < 2 ^ 16 ∧ ∀ s ∈ b, P name s

structure NodeInv (P : Name → Sess → Prop) (n : Node) : Prop where
  queue : ∀ name i, n.insts name = some i → Fine i.q ∧ Fit i.db ∧ ∀ s ∈ i.q.list, P name s
  rx : ∀ m ∈ n.rx, MsgOk P n m

/-- What does not change. -/
structure Kept (n n' : Node) : Prop where
  me : n'.me = n.me
  net : n'.net = n.net
  v : n'.v = n.v
  kv : n'.kv = n.kv

theorem Kept.refl (n : Node) : Kept n n := ⟨rfl, rfl, rfl, rfl⟩
theorem Kept.trans {a b c : Node} (h : Kept a b) (g : Kept b c) : Kept a c :=
  ⟨g.me.trans h.me, g.net.trans h.net, g.v.trans h.v, g.kv.trans h.kv⟩

theorem MsgOk.kept {P : Name → Sess → Prop} {n n' : Node} {m : Msg} (k : Kept n n') (h : MsgOk P n m) : MsgOk P n' m := by
  rcases h with h | ⟨name, nested, p, now, b, h, h2⟩
  · left; rw [h]; unfold failure; rw [k.v, k.me]
  · right; exact ⟨name, nested, p, now, b, by rw [h, k.kv], h2⟩

theorem MsgOk.mono {P Q : Name → Sess → Prop} (hPQ : ∀ a s, P a s → Q a s) {n : Node} {m : Msg} (h : MsgOk P n m) : MsgOk Q n m := by
  rcases h with h | ⟨name, nested, p, now, b, h, h2, h3, h4⟩
  · exact .inl h
  · exact .inr ⟨name, nested, p, now, b, h, h2, h3, fun s hs => hPQ _ _ (h4 s hs)⟩

theorem NodeInv.mono {P Q : Name → Sess → Prop} (hPQ : ∀ a s, P a s → Q a s) {n : Node} (h : NodeInv P n) : NodeInv Q n :=
  ⟨fun name i hi => ⟨(h.queue name i hi).1, (h.queue name i hi).2.1, fun s hs => hPQ _ _ ((h.queue name i hi).2.2 s hs)⟩,
   fun m hm => (h.rx m hm).mono hPQ⟩

theorem hear_kept (b : Bool) (n : Node) (m : Msg) : Kept n (hear b n m) := by
  unfold hear; split <;> exact ⟨rfl, rfl, rfl, rfl⟩

theorem hear_inv {P : Name → Sess → Prop} {n : Node} (h : NodeInv P n) (b : Bool) {m : Msg} (hm : MsgOk P n m) : NodeInv P (hear b n m) := by
  unfold hear
  split
  · refine ⟨h.queue, ?_⟩
    intro x hx
    rcases List.mem_append.1 hx with hx | hx
    · exact (h.rx x hx).kept ⟨rfl, rfl, rfl, rfl⟩
    · rw [List.mem_singleton] at hx; subst hx; exact hm.kept ⟨rfl, rfl, rfl, rfl⟩
  · exact h

theorem setInst_inv {P : Name → Sess → Prop} {n : Node} (h : NodeInv P n) (name : Name) (x : Option Inst)
    (hx : ∀ i, x = some i → Fine i.q ∧ Fit i.db ∧ ∀ s ∈ i.q.list, P name s) : NodeInv P { n with insts := upd n.insts name x } := by
  refine ⟨?_, fun m hm => (h.rx m hm).kept ⟨rfl, rfl, rfl, rfl⟩⟩
  intro name' i hi
  have hi : upd n.insts name x name' = some i := hi
  unfold upd at hi
  by_cases hn : name' = name
  · subst hn; simp only [if_true] at hi; exact hx i hi
  · simp only [if_neg hn] at hi; exact h.queue name' i hi

theorem transmit_some {room : Option Nat} {b b' : List Sess} (h : Joold.transmit room b = some b') :
    b' = b ∧ b ≠ [] ∧ ∃ n, room = some n ∧ 52 + 40 * b.length ≤ n := by
  unfold Joold.transmit at h
  cases hb : b.isEmpty with
  | true => rw [hb] at h; cases h
  | false =>
    rw [hb] at h
    have hne : b ≠ [] := by intro hc; rw [hc] at hb; cases hb
    cases room with
    | none => cases h
    | some n =>
      simp only [Bool.false_eq_true, if_false] at h
      split at h
      · rename_i hl; cases h; exact ⟨rfl, hne, n, rfl, hl⟩
      · cases h

theorem multicast_kept (e : Env) (n : Node) (name : Name) (b : Option (List Sess)) : Kept n (multicast e n name b) := by
  unfold multicast
  split
  · exact Kept.refl n
  · exact hear_kept ..

theorem multicast_inv {P : Name → Sess → Prop} {n : Node} (h : NodeInv P n) (e : Env) (he : RoomOk e) (name : Name) (b : Option (List Sess))
    (hb : ∀ s ∈ b.getD [], P name s) : NodeInv P (multicast e n name b) := by
  unfold multicast
  split
  · exact h
  · rename_i b' ht
    obtain ⟨rfl, hne, k, hk, hl⟩ := transmit_some ht
    have := he k hk
    exact hear_inv h _ (.inr ⟨name, _, _, _, _, rfl, hne, by omega, hb⟩)

/-- What was queued or offered is what is queued or flushed. -/
theorem step_mem {e : Joold.Env} {q : Joold.Queue Sess} {o : Joold.Op Sess} (h : Fine q) {s : Sess}
    (hs : s ∈ (Joold.step e q o).2.getD [] ∨ s ∈ (Joold.step e q o).1.list) : s ∈ q.list ∨ s ∈ offered o := by
  have hs : s ∈ (Joold.step e q o).2.getD [] ++ (Joold.step e q o).1.list := List.mem_append.2 hs
  rcases Joold.step_fifo (e := e) (o := o) h with ⟨_, hf⟩ | ⟨_, hf⟩
  · rw [hf] at hs; exact .inl hs
  · rw [hf] at hs; exact List.mem_append.1 hs

theorem queueOp_kept (e : Env) (n : Node) (name : Name) (o : Joold.Op Sess) : Kept n (queueOp e n name o) := by
  unfold queueOp
  split
  · exact Kept.refl n
  · have k := multicast_kept e { n with insts := upd n.insts name (some { ‹Inst› with q := (Joold.step e.jool (‹Inst›).q o).1 }) } name (Joold.step e.jool (‹Inst›).q o).2
    exact ⟨k.me, k.net, k.v, k.kv⟩

theorem queueOp_inv {P : Name → Sess → Prop} {n : Node} (h : NodeInv P n) (e : Env) (he : RoomOk e) (name : Name) (o : Joold.Op Sess)
    (ho : ∀ s ∈ offered o, P name s) : NodeInv P (queueOp e n name o) := by
  unfold queueOp
  split
  · exact h
  · rename_i i hi
    obtain ⟨hq1, hq2, hq3⟩ := h.queue name i hi
    have hmem : ∀ s, (s ∈ (Joold.step e.jool i.q o).2.getD [] ∨ s ∈ (Joold.step e.jool i.q o).1.list) → P name s := by
      intro s hs
      rcases step_mem hq1 hs with hs | hs
      · exact hq3 s hs
      · exact ho s hs
    refine multicast_inv (setInst_inv h name _ ?_) e he name _ (fun s hs => hmem s (.inl hs))
    intro j hj
    cases hj
    exact ⟨Joold.step_fine hq1, hq2, fun s hs => hmem s (.inr hs)⟩

theorem handleAck_kept (e : Env) (n : Node) : Kept n (handleAck e n) := by
  unfold handleAck
  split
  · exact hear_kept ..
  · exact queueOp_kept ..

theorem handleAck_inv {P : Name → Sess → Prop} {n : Node} (h : NodeInv P n) (e : Env) (he : RoomOk e) : NodeInv P (handleAck e n) := by
  unfold handleAck
  split
  · exact hear_inv h _ (.inl rfl)
  · exact queueOp_inv h e he _ _ (fun s hs => by cases hs)

theorem sameCase_refl (a : Name) : sameCase a a = true := by simp [sameCase]

theorem sameVersion_refl (a : Nat) : sameVersion a a = true := by simp [sameVersion]

theorem react_failure (n : Node) (v : Nat) (me : Name) (net : Bool) (hv : n.v = v) (hm : n.me = me) :
    react v me net (failure n) = .ok [.ack] := by
  subst hv hm
  have hval : validHdr n.v (failure n).hdr = true := by
    show (true && sameVersion n.v n.v && (XT_NAT64 / 2 % 2 == 1)) = true
    rw [sameVersion_refl, xt_ok]; rfl
  unfold react
  rw [hval]
  show (if (!true) = true then _ else if (!true) = true then _ else if (!sameCase n.me n.me) = true then _ else _) = _
  rw [sameCase_refl]
  rfl

/-- The daemon's reaction to a message that the kernel can have sent. -/
theorem react_ok {P : Name → Sess → Prop} {n : Node} {m : Msg} (h : MsgOk P n m) :
    react n.v n.me n.net m = .ok [] ∨ react n.v n.me n.net m = .ok [.ack] ∨ (∃ r, react n.v n.me n.net m = .ok [.print r, .ack]) ∨
    ∃ d, Genuine P n.me d ∧ react n.v n.me n.net m = .ok [.datagram d, .ack] := by
  rcases h with h | ⟨name, nested, p, now, b, h, hne, hl, hP⟩
  · right; left; rw [h]; exact react_failure n _ _ _ rfl rfl
  · subst h
    have hval : validHdr n.v (announce n.kv name nested p now b).hdr = sameVersion n.v n.kv := by
      show (true && sameVersion n.v n.kv && (XT_NAT64 / 2 % 2 == 1)) = _
      rw [xt_ok, Bool.true_and, Bool.and_true]
    unfold react
    rw [hval]
    show (if (!true) = true then _ else if (!sameVersion n.v n.kv) = true then _ else if (!sameCase name n.me) = true then _ else
      if false = true then _ else _) = _ ∨ _
    cases sameVersion n.v n.kv with
    | false => right; left; rfl
    | true =>
      cases hs : sameCase name n.me with
      | false => left; rfl
      | true =>
        right; right
        cases hnet : n.net with
        | false =>
          left
          obtain ⟨rs, hr, _⟩ := forward_print nested p now b (by omega)
          exact ⟨rs, by simpa [announce, hs] using hr⟩
        | true =>
          right
          refine ⟨wire p now b, ⟨p, now, name, b, rfl, hne, hs, hP⟩, ?_⟩
          simpa [announce, hs] using forward_enc (nested := nested) (data := wire p now b) (by rw [wire_length]; omega)

theorem daemon_inv {P : Name → Sess → Prop} {n : Node} (h : NodeInv P n) (e : Env) (he : RoomOk e) :
    ∃ n' ds, step e n .daemon = .ok (n', ds) ∧ NodeInv P n' ∧ Kept n n' ∧ ∀ d ∈ ds, Genuine P n.me d := by
  show ∃ n' ds, daemonStep e n = .ok (n', ds) ∧ _
  unfold daemonStep
  cases hrx : n.rx with
  | nil => exact ⟨n, [], rfl, h, Kept.refl n, (fun d hd => by cases hd)⟩
  | cons m l =>
    dsimp only
    have hI : NodeInv P { n with rx := l } := ⟨h.queue, fun x hx => (h.rx x (by rw [hrx]; exact List.mem_cons_of_mem _ hx)).kept ⟨rfl, rfl, rfl, rfl⟩⟩
    have hK : Kept n { n with rx := l } := ⟨rfl, rfl, rfl, rfl⟩
    have hA := handleAck_inv hI e he
    have hAK := hK.trans (handleAck_kept e { n with rx := l })
    rcases react_ok (h.rx m (by rw [hrx]; exact List.mem_cons_self ..)) with hr | hr | ⟨r, hr⟩ | ⟨d, hg, hr⟩
    · exact ⟨_, _, by rw [hr]; rfl, hI, hK, (fun d hd => by cases hd)⟩
    · exact ⟨_, _, by rw [hr]; rfl, hA, hAK, (fun d hd => by cases hd)⟩
    · exact ⟨_, _, by rw [hr]; rfl, hA, hAK, (fun d hd => by cases hd)⟩
    · exact ⟨_, _, by rw [hr]; rfl, hA, hAK, fun x hx => by
        have hx : x ∈ [d] := hx
        rw [List.mem_singleton] at hx; subst hx; exact hg⟩

theorem recv_inv {P : Name → Sess → Prop} {n : Node} (h : NodeInv P n) (e : Env) {d : List Byte} (hd : ∃ p now b, d = wire p now b) :
    ∃ n', step e n (.recv d) = .ok (n', []) ∧ NodeInv P n' ∧ Kept n n' := by
  obtain ⟨p, now, b, rfl⟩ := hd
  have heq : step e n (.recv (wire p now b)) = (handleAdd e n (request (received (wire p now b)))).map fun n' => (n', []) := rfl
  rw [heq, handleAdd_request, if_pos (received_wire_ok p now b)]
  cases hs : start n with
  | none => exact ⟨_, rfl, hear_inv h _ (.inl rfl), hear_kept ..⟩
  | some i =>
    dsimp only
    have hi : n.insts n.me = some i := by
      unfold start at hs
      split at hs
      · cases hs
      · split at hs
        · cases hs
        · split at hs
          · cases hs
          · exact hs
    obtain ⟨hq1, hq2, hq3⟩ := h.queue _ i hi
    rw [attrs_received]
    obtain ⟨db', ok, hsy, hf'⟩ := sync_total e.cfg e.p e.jool.cfg.enabled (stamp_safe e.bib p now (b.take 51)) hq2
    rw [hsy]
    have hI : NodeInv P { n with insts := upd n.insts n.me (some { i with db := db' }) } := by
      refine setInst_inv h n.me _ ?_
      intro j hj; cases hj; exact ⟨hq1, hf', hq3⟩
    cases ok with
    | true => exact ⟨_, rfl, hI, ⟨rfl, rfl, rfl, rfl⟩⟩
    | false => exact ⟨_, rfl, hear_inv hI _ (.inl rfl), by
        have k := hear_kept e.heard { n with insts := upd n.insts n.me (some { i with db := db' }) } (failure n)
        exact ⟨k.me, k.net, k.v, k.kv⟩⟩

/-- What is assumed of the steps: the buffers are small, the tables are tables. -/
def EvOk (e : Env) : Ev → Prop
  | .table _ db => RoomOk e ∧ Fit db
  | _ => RoomOk e

theorem EvOk.room {e : Env} {ev : Ev} (h : EvOk e ev) : RoomOk e := by cases ev <;> first | exact h.1 | exact h

theorem fit_init : Fit fun _ => Bib.init := fun q => ⟨[], [], ⟨(fun x hx => by cases hx), rfl⟩⟩

/-- One step of a machine. -/
theorem node_step {P : Name → Sess → Prop} {n : Node} (h : NodeInv P n) {e : Env} {ev : Ev} (he : EvOk e ev)
    (hk : ∀ name o, ev = .kern name o → ∀ s ∈ offered o, P name s) (hr : ∀ d, ev = .recv d → ∃ p now b, d = wire p now b) :
    ∃ n' ds, step e n ev = .ok (n', ds) ∧ NodeInv P n' ∧ Kept n n' ∧ ∀ d ∈ ds, Genuine P n.me d := by
  have hroom := he.room
  cases ev with
  | kern name o => exact ⟨_, [], rfl, queueOp_inv h e hroom name o (hk name o rfl), queueOp_kept .., (fun d hd => by cases hd)⟩
  | daemon => exact daemon_inv h e hroom
  | recv d =>
    obtain ⟨n', h1, h2, h3⟩ := recv_inv h e (hr d rfl)
    exact ⟨n', [], h1, h2, h3, (fun d hd => by cases hd)⟩
  | create name =>
    refine ⟨_, [], rfl, ?_, ?_, (fun d hd => by cases hd)⟩
    · split
      · exact h
      · refine setInst_inv h name _ ?_
        intro i hi; cases hi
        exact ⟨Joold.alloc_fine _, fit_init, fun s hs => by cases hs⟩
    · split
      · exact Kept.refl n
      · exact ⟨rfl, rfl, rfl, rfl⟩
  | remove name =>
    exact ⟨_, [], rfl, setInst_inv h name none (fun i hi => by cases hi), ⟨rfl, rfl, rfl, rfl⟩, (fun d hd => by cases hd)⟩
  | table name db =>
    refine ⟨_, [], rfl, ?_, ?_, (fun d hd => by cases hd)⟩
    · split
      · rename_i i hi
        refine setInst_inv h name _ ?_
        intro j hj; cases hj
        obtain ⟨h1, _, h3⟩ := h.queue name i hi
        exact ⟨h1, he.2, h3⟩
      · exact h
    · split
      · exact ⟨rfl, rfl, rfl, rfl⟩
      · exact Kept.refl n

/-- The invariant of a cluster. -/
structure Inv (h : List (Nat × Env × Ev)) (c : Cluster) : Prop where
  node : ∀ i, NodeInv (Offered h i) (c.node i)
  air : ∀ x ∈ c.air, Genuine (Offered h x.1) (c.node x.1).me x.2

theorem genuine_mono {P Q : Name → Sess → Prop} (hPQ : ∀ a s, P a s → Q a s) {me : Name} {d : List Byte} (h : Genuine P me d) : Genuine Q me d := by
  obtain ⟨p, now, name, b, h1, h2, h3, h4⟩ := h
  exact ⟨p, now, name, b, h1, h2, h3, fun s hs => hPQ _ _ (h4 s hs)⟩

theorem Offered.snoc {h : List (Nat × Env × Ev)} {i : Nat} {a : Name} {s : Sess} (x : Nat × Env × Ev) (o : Offered h i a s) :
    Offered (h ++ [x]) i a s := by
  obtain ⟨e, op, h1, h2⟩ := o
  exact ⟨e, op, List.mem_append_left _ h1, h2⟩

theorem cstep_inv {h : List (Nat × Env × Ev)} {c c' : Cluster} {i : Nat} {e : Env} {ev : Ev} (hI : Inv h c) (he : EvOk e ev)
    (s : CStep c i e ev c') : Inv (h ++ [(i, e, ev)]) c' := by
  have key : ∀ n ds, (∀ d, ev = .recv d → ∃ j, (j, d) ∈ c.air) → step e (c.node i) ev = .ok (n, ds) →
      Inv (h ++ [(i, e, ev)]) ⟨updNode c.node i n, c.air ++ ds.map fun d => (i, d)⟩ := by
    intro n ds hr hst
    have hm : ∀ j a s, Offered h j a s → Offered (h ++ [(i, e, ev)]) j a s := fun j a s => Offered.snoc _
    obtain ⟨n', ds', h1, h2, h3, h4⟩ := node_step (P := Offered (h ++ [(i, e, ev)]) i) ((hI.node i).mono (hm i)) he
      (fun name o ho s hs => ⟨e, o, by rw [ho]; exact List.mem_append_right _ (List.mem_singleton.2 rfl), hs⟩)
      (fun d hd => by
        obtain ⟨j, hj⟩ := hr d hd
        obtain ⟨p, now, _, b, hb, _⟩ := hI.air _ hj
        exact ⟨p, now, b, hb⟩)
    rw [hst] at h1
    cases h1
    have hme : ∀ j, (updNode c.node i n j).me = (c.node j).me := by
      intro j
      unfold updNode
      by_cases hj : j = i
      · rw [if_pos hj, hj]; exact h3.me
      · rw [if_neg hj]
    refine ⟨?_, ?_⟩
    · intro j
      show NodeInv _ (updNode c.node i n j)
      unfold updNode
      by_cases hj : j = i
      · rw [if_pos hj, hj]; exact h2
      · rw [if_neg hj]; exact (hI.node j).mono (hm j)
    · intro x hx
      show Genuine _ (updNode c.node i n x.1).me x.2
      rw [hme]
      rcases List.mem_append.1 hx with hx | hx
      · exact genuine_mono (hm _) (hI.air x hx)
      · obtain ⟨d, hd, rfl⟩ := List.mem_map.1 hx
        exact h4 d hd
  cases s with
  | «local» => rename_i n ds hr hst; exact key n ds (fun d hd => absurd hd (hr d)) hst
  | recv =>
    rename_i j d n ds hj hd hst
    exact key n ds (fun d' hd' => ⟨j, by cases hd'; exact hd⟩) hst

theorem reach_inv {c c' : Cluster} {h : List (Nat × Env × Ev)} (hc : Initial c) (r : Reach c h c') (ho : ∀ x ∈ h, EvOk x.2.1 x.2.2) : Inv h c' := by
  induction r with
  | nil =>
    refine ⟨fun i => ⟨fun name j hj => ?_, fun m hm => ?_⟩, fun x hx => ?_⟩
    · rw [(hc.2 i).2 name] at hj; cases hj
    · rw [(hc.2 i).1] at hm; cases hm
    · rw [hc.1] at hx; cases hx
  | snoc r s ih =>
    exact cstep_inv (ih (fun x hx => ho x (List.mem_append_left _ hx))) (ho _ (List.mem_append_right _ (List.mem_singleton.2 rfl))) s

/-- **Nothing comes from nowhere.** After any history of the cluster, every datagram in the network is a nonempty batch of sessions
which its sender's kernel had offered to the queue of an instance of the daemon's name (but see `case_leak`). -/
theorem relay_origin {c c' : Cluster} {h : List (Nat × Env × Ev)} (hc : Initial c) (r : Reach c h c') (ho : ∀ x ∈ h, EvOk x.2.1 x.2.2)
    {j : Nat} {d : List Byte} (hd : (j, d) ∈ c'.air) : Genuine (Offered h j) (c'.node j).me d :=
  (reach_inv hc r ho).air _ hd

/-- **Nothing is undefined**: after any history of the cluster, no machine can do an undefined thing, whatever happens next, as
long as the datagrams come from the daemons of the cluster.

Missing from the full property: datagrams that come from somewhere else. `relay_forged` has one that makes the kernel read beyond
the message. -/
theorem relay_safe_partial {c c' : Cluster} {h : List (Nat × Env × Ev)} (hc : Initial c) (r : Reach c h c') (ho : ∀ x ∈ h, EvOk x.2.1 x.2.2)
    (i : Nat) (e : Env) (ev : Ev) (he : EvOk e ev) (hr : ∀ d, ev = .recv d → ∃ j, (j, d) ∈ c'.air) :
    ∃ n ds, step e (c'.node i) ev = .ok (n, ds) := by
  have hI := reach_inv hc r ho
  obtain ⟨n, ds, h1, _⟩ := node_step (P := fun a s => Offered h i a s ∨ ∃ o, ev = .kern a o ∧ s ∈ offered o)
    ((hI.node i).mono (fun _ _ h => .inl h)) he (fun name o ho s hs => .inr ⟨o, ho, hs⟩)
    (fun d hd => by
      obtain ⟨j, hj⟩ := hr d hd
      obtain ⟨p, now, _, b, hb, _⟩ := hI.air _ hj
      exact ⟨p, now, b, hb⟩)
  exact ⟨n, ds, h1⟩

end Jool.Relay
