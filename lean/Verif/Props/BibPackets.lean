import Verif.Lemmas.BibFind
import Verif.Props.BibTimers
/-
What one packet may do to the tables, in any state reachable by any history:
C27 (memory safety of the simultaneous open), C28 (address-dependent filtering), C29 (allocation from
pool4), C55 (only SYNs create TCP state), C56 (isolation between nodes), C57 (filtering of TCP).
-/
namespace Jool

/-! ## Specification -/
namespace BibSpec
open Bib

/-- The IPv6 node (transport address) and the pool4 candidates of an IPv6 packet. -/
def Packet6 : Op → Option (T6 × Masks)
  | .add6 m s _ _ => some (s, m)
  | .tcp6 m _ s _ _ => some (s, m)
  | _ => none

/-- The address (of ours) and the remote address of an IPv4 packet. -/
def Packet4 : Op → Option (T4 × T4)
  | .add4 s d _ => some (s, d)
  | .tcp4 _ s d _ _ => some (s, d)
  | _ => none

/-- The packet is a TCP packet without SYN. -/
def NotSyn : Op → Prop
  | .tcp6 _ seg _ _ _ => seg.syn = false
  | .tcp4 seg _ _ _ _ => seg.syn = false
  | _ => False

/-- The packet goes on, with a session. -/
def Accepted (r : Result) : Prop := ∃ b k, r = .cont b (some k)

/-- The packet does not go on. -/
def Refused (r : Result) : Prop := (∃ e, r = .err e) ∨ ∃ s, r = .drop s

/-- The address is assigned to some other node. -/
def Taken (t : Table) (src6 : T6) (a : T4) : Prop := ∃ c ∈ bibs t, c.src6 ≠ src6 ∧ c.src4 = a

/-- An IPv4 SYN is waiting for an IPv6 packet from anyone to `dst6`, and its destination is one of the
pool4 addresses of the packet. -/
def Waiting (t : Table) (m : Masks) (dst6 : T6) : Prop :=
  ∃ n ∈ t.queue, n.dst6 = dst6 ∧ m.owns n.src4 = true

end BibSpec

namespace Bib
open BibSpec TimerSpec

/-! ## C28 -/

/-- C28. With address-dependent filtering, an IPv4 UDP or ICMP packet is accepted iff the BIB entry of
its destination has a session with the same remote IPv4 address, whatever the port. A refused
packet does not change anything. -/
theorem adf_exact {p hist t ev} (h : After p hist t ev) (hp : p ≠ .TCP) (e : Env)
    (hm : e.oom.new = false) (ha : e.cfg.dropByAddr = true) (src4 dst4 : T4) (dst6 : T6) :
    ∃ r, step p t e (.add4 src4 dst4 dst6) = .ok r ∧
      (Accepted r.2.2 ↔ ∃ k ∈ sessions t, k.bib.src4 = src4 ∧ k.dst4.addr = dst4.addr) ∧
      (¬ Accepted r.2.2 → Refused r.2.2 ∧ r.1 = t ∧ r.2.1 = []) := by
  have w := (After.inv h).wf
  simp only [step, hp, if_false, add4, hm, Bool.false_eq_true, ha, Bool.true_and]
  cases hf : find4 t src4 with
  | none =>
    refine ⟨_, rfl, ?_, fun _ => ⟨.inl ⟨_, rfl⟩, rfl, rfl⟩⟩
    simp only [Accepted, reduceCtorEq, exists_const, false_iff]
    rintro ⟨k, hk, hs, _⟩
    exact find4_none hf k.bib ((mem_sessions k).1 hk).1 hs
  | some b =>
    obtain ⟨hb, hbs⟩ := find4_some hf
    simp only
    by_cases hmem : dst4 ∈ t.sess b
    · rw [if_pos hmem]
      refine ⟨_, rfl, ?_, fun hn => absurd ⟨_, _, rfl⟩ hn⟩
      refine ⟨fun _ => ⟨⟨b, dst4⟩, (mem_sessions _).2 ⟨hb, hmem⟩, hbs, rfl⟩, fun _ => ⟨_, _, rfl⟩⟩
    · rw [if_neg hmem]
      have hal : adfAllow t b dst4 = true ↔ ∃ k ∈ sessions t, k.bib.src4 = src4 ∧ k.dst4.addr = dst4.addr := by
        simp only [adfAllow, List.any_eq_true, decide_eq_true_eq]
        constructor
        · rintro ⟨d, hd, he⟩
          exact ⟨⟨b, d⟩, (mem_sessions _).2 ⟨hb, hd⟩, hbs, he⟩
        · rintro ⟨k, hk, hs, he⟩
          have hl := (mem_sessions k).1 hk
          have : k.bib = b := w.uniq4 hl.1 hb (hs.trans hbs.symm)
          exact ⟨k.dst4, this ▸ hl.2, he⟩
      cases hx : adfAllow t b dst4 with
      | false =>
        simp only [Bool.not_false, if_true]
        refine ⟨_, rfl, ?_, fun _ => ⟨.inl ⟨_, rfl⟩, rfl, rfl⟩⟩
        rw [← hal, hx]
        simp [Accepted]
      | true =>
        simp only [Bool.not_true, Bool.false_eq_true, if_false]
        refine ⟨_, rfl, ?_, fun hn => absurd ⟨_, _, rfl⟩ hn⟩
        rw [← hal, hx]
        exact ⟨fun _ => rfl, fun _ => ⟨_, _, rfl⟩⟩

/-- Without address-dependent filtering it is enough that there is a BIB entry. -/
theorem adf_off {p hist t ev} (_h : After p hist t ev) (hp : p ≠ .TCP) (e : Env)
    (hm : e.oom.new = false) (ha : e.cfg.dropByAddr = false) (src4 dst4 : T4) (dst6 : T6) :
    ∃ r, step p t e (.add4 src4 dst4 dst6) = .ok r ∧
      (Accepted r.2.2 ↔ ∃ b ∈ bibs t, b.src4 = src4) ∧
      (¬ Accepted r.2.2 → Refused r.2.2 ∧ r.1 = t ∧ r.2.1 = []) := by
  simp only [step, hp, if_false, add4, hm, Bool.false_eq_true, ha, Bool.false_and]
  cases hf : find4 t src4 with
  | none =>
    refine ⟨_, rfl, ?_, fun _ => ⟨.inl ⟨_, rfl⟩, rfl, rfl⟩⟩
    simp only [Accepted, reduceCtorEq, exists_const, false_iff]
    rintro ⟨b, hb, hs⟩
    exact find4_none hf b hb hs
  | some b =>
    simp only
    have hb : ∃ b ∈ bibs t, b.src4 = src4 := ⟨b, find4_some hf⟩
    split
    · exact ⟨_, rfl, ⟨fun _ => hb, fun _ => ⟨_, _, rfl⟩⟩, fun hn => absurd ⟨_, _, rfl⟩ hn⟩
    · exact ⟨_, rfl, ⟨fun _ => hb, fun _ => ⟨_, _, rfl⟩⟩, fun hn => absurd ⟨_, _, rfl⟩ hn⟩

/-! ## C57 -/

/-- C57. With address-dependent filtering (and externally initiated connections allowed), an IPv4 SYN
for a known address and an unknown flow is never translated at once: either it is kept as a
session in state V4_INIT with the short timeout, or there was no room and it is refused without any
effect. -/
theorem adf_tcp {hist t ev} (h : After .TCP hist t ev) (e : Env) (hm : e.oom.new = false)
    (ha : e.cfg.dropByAddr = true) (hx : e.cfg.dropExternalTcp = false) (seg : Seg) (hs : seg.syn = true)
    (b : BibKey) (hb : b ∈ bibs t) (dst4 : T4) (hk : SessKey.mk b dst4 ∉ sessions t) (dst6 : T6) (skb : Nat) :
    ∃ r, step .TCP t e (.tcp4 seg b.src4 dst4 dst6 skb) = .ok r ∧
      ((r.2.2 = .drop "SO_FULL" ∧ r.1 = t ∧ r.2.1 = [] ∧ (e.cfg.maxStored : Int) ≤ t.pktCount) ∨
       (r.2.2 = .stolen ∧ r.2.1 = [] ∧ (∀ k, k ∈ sessions r.1 ↔ k ∈ sessions t ∨ k = ⟨b, dst4⟩) ∧
        r.1.info ⟨b, dst4⟩ = ⟨dst6, .V4_INIT, e.now, .SYN4, some skb⟩ ∧
        (t.pktCount < 2^32 → t.pktCount < e.cfg.maxStored))) := by
  have i := After.inv h
  have hf := (i.wf.find4_iff b).2 hb
  have hn : dst4 ∉ t.sess b := fun hmem => hk ((mem_sessions _).2 ⟨hb, hmem⟩)
  have hpos : 0 ≤ t.pktCount := by have := i.pk; omega
  simp only [step, if_true, tcp4, hm, Bool.false_eq_true, if_false, hf, hn, hs, Bool.not_true, hx, ha]
  cases htm : tooMany e.cfg t with
  | true =>
    simp only [if_true]
    refine ⟨_, rfl, .inl ⟨rfl, rfl, rfl, ?_⟩⟩
    simp only [tooMany, decide_eq_true_eq] at htm
    omega
  | false =>
    simp only [Bool.false_eq_true, if_false]
    refine ⟨_, rfl, .inr ⟨rfl, rfl, ?_, ?_, ?_⟩⟩
    · intro k
      rw [mem_sessions, mem_sessions]
      refine Iff.trans (Live_addGen (t := t) (t' := addSess e.now { t with pktCount := t.pktCount + 1 } ⟨b, dst4⟩ dst6
        .V4_INIT (some skb) .SYN4) ⟨b, dst4⟩ hb rfl rfl k) ?_
      constructor
      · rintro (h | h); exact .inr h; exact .inl h
      · rintro (h | h); exact .inr h; exact .inl h
    · simp [addSess, setInfo, upd_same]
    · intro hlt
      simp only [tooMany, decide_eq_false_iff_not, Nat.not_le] at htm
      have : t.pktCount % 4294967296 = t.pktCount := Int.emod_eq_of_lt hpos hlt
      rw [this] at htm
      omega

/-! ## C27 -/

/-- An IPv6 packet is about to dereference a BIB entry that was just freed. -/
def UpgradeTrap (t : Table) (e : Env) (op : Op) : Prop :=
  ∃ m seg s d6 d4, op = .tcp6 m seg s d6 d4 ∧ (∀ b ∈ bibs t, b.src6 ≠ s) ∧
    ∃ n ∈ t.queue, n.dst6 = d6 ∧ m.owns n.src4 = true ∧
      (e.oom.upSess = true ∨ ∃ c ∈ bibs t, c.src4 = n.src4)

/-- A packet of a session whose TCP state is not one of the seven states. -/
def UnknownTrap (t : Table) (op : Op) : Prop :=
  ∃ k ∈ sessions t, (t.info k).state = .unknown ∧
    ((∃ x, Packet6 op = some x ∧ k.bib.src6 = x.1) ∨ Packet4 op = some (k.bib.src4, k.dst4))

/-- Every cause of undefined behaviour in the tables, in any reachable state. -/
theorem ub_causes {p hist t ev} (h : After p hist t ev) (e : Env) (op : Op) (ho : op.Ok) (u : UB)
    (hr : step p t e op = .ub u) :
    u = .useAfterFree ∧ p = .TCP ∧ (UpgradeTrap t e op ∨ UnknownTrap t op) := by
  have w := (After.inv h).wf
  have C : ∀ (m : Masks) (f : Found) (t' : Table) s d6 st τ, commitAdd6 e.now t' f s d6 st τ = .ub u →
      f.oldBib = .dangling ∧ u = .useAfterFree := by
    intro m f t' s d6 st τ hc
    unfold commitAdd6 at hc
    cases hf : f.oldBib with
    | dangling => simp only [hf] at hc; cases hc; exact ⟨rfl, rfl⟩
    | null => simp [hf] at hc
    | live b => simp [hf] at hc
  cases op with
  | add6 m s6 d6 d4 =>
    exfalso
    simp only [step] at hr
    split at hr
    · cases hr
    · rename_i hp
      unfold add6 at hr
      split at hr
      · cases hr
      · have F := findBibSession6_cases (e := e) (p := p) (src6 := s6) (dst6 := d6) (dst4 := d4) w ho
        generalize findBibSession6 e p t (some m) s6 d6 default d4 = q at hr F
        cases F with
        | live b hb hs hm =>
          simp only at hr
          split at hr
          · cases hr
          · simp [commitAdd6] at hr
        | evicted b hb hs hm =>
          cases hff : firstFree t s6 m <;> simp [hff, commitAdd6] at hr
        | upgraded n hp' => exact hp hp'
        | lost n hp' => exact hp hp'
        | fresh h6 hq =>
          cases hff : firstFree t s6 m <;> simp [hff, commitAdd6] at hr
  | add4 s4 d4 d6 =>
    exfalso
    simp only [step, add4] at hr
    repeat' split at hr
    all_goals cases hr
  | tcp6 m sg s6 d6 d4 =>
    simp only [step] at hr
    split at hr
    · rename_i hp
      unfold tcp6 at hr
      split at hr
      · cases hr
      · have F := findBibSession6_cases (e := e) (p := .TCP) (src6 := s6) (dst6 := d6) (dst4 := d4) w ho
        generalize findBibSession6 e .TCP t (some m) s6 d6 default d4 = q at hr F
        cases F with
        | live b hb hs hm =>
          simp only at hr
          split at hr
          · rename_i k hk
            have hmem : patchDst4 .TCP d4 b.src4 ∈ t.sess b ∧ k = ⟨b, patchDst4 .TCP d4 b.src4⟩ := by
              split at hk
              · rename_i hx; cases hk; exact ⟨hx, rfl⟩
              · cases hk
            rcases tcpCollision_cases (e := e) (t := t) (ev := []) (k := k) (seg := sg) with ⟨r, h1, _⟩ | ⟨h1, h2⟩
            · rw [h1] at hr; cases hr
            · rw [h1] at hr
              cases hr
              refine ⟨rfl, hp, .inr ⟨k, (mem_sessions k).2 ?_, h2, .inl ⟨_, rfl, ?_⟩⟩⟩
              · rw [hmem.2]; exact ⟨hb, hmem.1⟩
              · rw [hmem.2]; exact hs
          · split at hr
            · cases hr
            · simp [commitAdd6] at hr
        | evicted b hb hs hm =>
          exfalso
          cases hff : firstFree t s6 m with
          | none => simp [hff] at hr
          | some a =>
            simp only [hff] at hr
            split at hr
            · cases hr
            · simp [commitAdd6] at hr
        | upgraded n hp' h6 hn hd ho h4 ho1 =>
          exfalso
          simp only at hr
          rcases tcpCollision_cases (e := e) (t := addSess e.now (addBib { t with queue := t.queue.erase n, pktCount := t.pktCount - 1 }
            ⟨s6, n.src4⟩ false) ⟨⟨s6, n.src4⟩, n.dst4⟩ n.dst6 .V4_INIT none .SYN4) (ev := [.freed n.skb])
            (k := ⟨⟨s6, n.src4⟩, n.dst4⟩) (seg := sg) with ⟨r, h1, _⟩ | ⟨h1, h2⟩
          · rw [h1] at hr; cases hr
          · simp [addSess, setInfo, upd_same] at h2
        | lost n hp' h6 hn hd ho old hold =>
          cases hff : firstFree t s6 m with
          | none => simp [hff] at hr
          | some a =>
            have T : old = .dangling → UpgradeTrap t e (.tcp6 m sg s6 d6 d4) := by
              intro hod
              rcases hold with ⟨h1, _⟩ | ⟨_, h1⟩
              · rw [h1] at hod; cases hod
              · exact ⟨m, sg, s6, d6, d4, rfl, fun b hb => find6_none h6 b ((w.same b).2 hb), n, hn, hd, ho, h1⟩
            simp only [hff] at hr
            split at hr
            · cases hold' : old with
              | null => simp [hold'] at hr
              | live b => simp [hold'] at hr
              | dangling =>
                simp only [hold'] at hr
                cases hr
                exact ⟨rfl, hp, .inl (T hold')⟩
            · split at hr
              · rename_i u' hc
                cases hr
                obtain ⟨c1, c2⟩ := C m _ _ _ _ _ _ hc
                exact ⟨c2, hp, .inl (T c1)⟩
              · cases hr
        | fresh h6 hq =>
          exfalso
          cases hff : firstFree t s6 m with
          | none => simp [hff] at hr
          | some a =>
            simp only [hff] at hr
            split at hr
            · cases hr
            · simp [commitAdd6] at hr
    · cases hr
  | tcp4 sg s4 d4 d6 skb =>
    simp only [step] at hr
    split at hr
    · rename_i hp
      unfold tcp4 at hr
      split at hr
      · cases hr
      · simp only at hr
        cases hf : find4 t s4 with
        | none =>
          exfalso
          simp only [hf] at hr
          repeat' split at hr
          all_goals cases hr
        | some b =>
          obtain ⟨hb, hbs⟩ := find4_some hf
          simp only [hf] at hr
          by_cases hmem : d4 ∈ t.sess b
          · simp only [hmem, if_true] at hr
            rcases tcpCollision_cases (e := e) (t := t) (ev := []) (k := ⟨b, d4⟩) (seg := sg) with ⟨r, h1, _⟩ | ⟨h1, h2⟩
            · rw [h1] at hr; cases hr
            · rw [h1] at hr
              cases hr
              refine ⟨rfl, hp, .inr ⟨⟨b, d4⟩, (mem_sessions _).2 ⟨hb, hmem⟩, h2, .inr ?_⟩⟩
              simp [Packet4, hbs]
          · exfalso
            simp only [hmem, if_false] at hr
            repeat' split at hr
            all_goals cases hr
    · cases hr
  | joold s =>
    exfalso
    simp only [step, jooldAdd] at hr
    split at hr
    · cases hr
    · have F := findBibSession6_ok (e := e) (p := p) (t := t) (masks := none) (src6 := s.src6)
        (dst6 := s.dst6) (src4 := s.src4) (dst4 := s.dst4) w trivial
      have D : ∀ f, (findBibSession6 e p t none s.src6 s.dst6 s.src4 s.dst4).2.2 = .ok (.ok f) →
          f.oldBib ≠ .dangling := by
        intro f hf hd
        unfold findBibSession6 at hf
        cases h6 : find6 t s.src6 with
        | some b =>
          simp only [h6, issue216, Bool.not_false, if_true, Outcome.ok.injEq, Except.ok.injEq] at hf
          subst hf; cases hd
        | none =>
          simp only [h6] at hf
          have hu : ∃ x : Table × List Event, upgrade e p t none s.src6 s.dst6 = (x.1, x.2, .failed .null) := by
            unfold upgrade
            split
            · exact ⟨(t, []), rfl⟩
            · cases hq : pktqueueFind t.queue s.dst6 none with
              | none => exact ⟨(t, []), rfl⟩
              | some n => exact ⟨(_, _), rfl⟩
          obtain ⟨x, hx⟩ := hu
          rw [hx] at hf
          simp only [findNew] at hf
          split at hf
          · simp at hf
          · simp only [Outcome.ok.injEq, Except.ok.injEq] at hf
            subst hf; cases hd
      revert F D hr
      generalize findBibSession6 e p t none s.src6 s.dst6 s.src4 s.dst4 = q
      intro hr F D
      obtain ⟨x, hx⟩ := F.noUb
      simp only [hx] at hr
      cases x with
      | error er => simp at hr
      | ok f =>
        have hd := D f hx
        simp only at hr
        cases hos : f.oldSess with
        | some k => simp [hos] at hr
        | none =>
          simp only [hos] at hr
          cases hτ : s.timer with
          | none => simp [hτ] at hr
          | some τ =>
            simp only [hτ] at hr
            cases hb : f.oldBib with
            | dangling => exact hd hb
            | null => simp [hb] at hr
            | live b => simp [hb] at hr
  | clean =>
    exfalso
    simp only [step, clean] at hr
    split at hr <;> cases hr
  | addStatic b =>
    exfalso
    simp only [step, addStatic] at hr
    repeat' split at hr
    all_goals cases hr
  | rm b =>
    exfalso
    simp only [step, rmBib] at hr
    repeat' split at hr
    all_goals cases hr
  | rmRange rg => exfalso; simp only [step, rmRange] at hr; cases hr
  | flush => exfalso; simp only [step, flush] at hr; cases hr

/-- A history that ends in undefined behaviour does so at a packet that meets one of the two conditions. -/
theorem run_ub_causes {p : Proto} {u : UB} : ∀ (hist pre : List (Env × Op)) (t : Table) (ev : List Event),
    (∀ x ∈ pre ++ hist, x.2.Ok) → run p init pre = .ok (t, ev) → run p t hist = .ub u →
    ∃ mid x post t' ev', hist = mid ++ x :: post ∧ After p (pre ++ mid) t' ev' ∧
      u = .useAfterFree ∧ p = .TCP ∧ (UpgradeTrap t' x.1 x.2 ∨ UnknownTrap t' x.2) := by
  intro hist
  induction hist with
  | nil => intro pre t ev _ _ hr; simp [run] at hr
  | cons x rest ih =>
    intro pre t ev ho hp hr
    obtain ⟨en, o⟩ := x
    have hA : After p pre t ev := ⟨fun y hy => ho y (by simp [hy]), hp⟩
    simp only [run] at hr
    cases hs : step p t en o with
    | ub u' =>
      simp only [hs] at hr
      cases hr
      refine ⟨[], (en, o), rest, t, ev, rfl, by simpa using hA, ?_⟩
      exact ub_causes hA en o (ho (en, o) (by simp)) u hs
    | ok r =>
      simp only [hs] at hr
      have hr' : run p r.1 rest = .ub u := by
        cases hq : run p r.1 rest with
        | ub u' => simp only [hq] at hr; exact hr
        | ok q => simp [hq] at hr
      have hrun : ∀ (pre : List (Env × Op)) (t0 t : Table) (ev : List Event), run p t0 pre = .ok (t, ev) →
          step p t en o = .ok r → ∃ ev', run p t0 (pre ++ [(en, o)]) = .ok (r.1, ev') := by
        intro pre
        induction pre with
        | nil =>
          intro t0 t ev h1 h2
          simp only [run, Outcome.ok.injEq, Prod.mk.injEq] at h1
          obtain ⟨rfl, _⟩ := h1
          exact ⟨r.2.1 ++ [], by simp only [List.nil_append, run, h2]⟩
        | cons y pre ihp =>
          intro t0 t ev h1 h2
          obtain ⟨en', o'⟩ := y
          simp only [run] at h1
          cases hs' : step p t0 en' o' with
          | ub u' => simp [hs'] at h1
          | ok r' =>
            simp only [hs'] at h1
            cases hq : run p r'.1 pre with
            | ub u' => simp [hq] at h1
            | ok q =>
              simp only [hq, Outcome.ok.injEq, Prod.mk.injEq] at h1
              obtain ⟨ev'', h3⟩ := ihp r'.1 t q.2 (by rw [hq, ← h1.1]) h2
              exact ⟨r'.2.1 ++ ev'', by simp only [List.cons_append, run, hs', h3]⟩
      obtain ⟨ev', h3⟩ := hrun pre init t ev hp hs
      obtain ⟨mid, x, post, t', ev'', h4, h5, h6⟩ := ih (pre ++ [(en, o)]) r.1 ev'
        (fun y hy => ho y (by simpa using hy)) h3 hr'
      exact ⟨(en, o) :: mid, x, post, t', ev'', by rw [h4]; rfl, by simpa using h5, h6⟩

/-- C27 for UDP and ICMP: no history at all leads to undefined behaviour. -/
theorem udp_icmp_memory_safe (p : Proto) (hp : p ≠ .TCP) (hist : List (Env × Op)) (ho : ∀ x ∈ hist, x.2.Ok) :
    ∃ t ev, run p init hist = .ok (t, ev) := by
  cases hr : run p init hist with
  | ok q => exact ⟨q.1, q.2, rfl⟩
  | ub u =>
    obtain ⟨_, _, _, _, _, _, _, _, h, _⟩ := run_ub_causes hist [] init [] (by simpa using ho) rfl hr
    exact absurd h hp

/-- The queue only grows when an IPv4 SYN is stored. -/
theorem queue_empty {p hist t ev} (h : After p hist t ev)
    (hx : ∀ x ∈ hist, x.1.cfg.dropExternalTcp = true) : t.queue = [] := by
  refine (run_induct (p := p) (I := fun t => t.queue = [])
    (E := fun x => x.2.Ok ∧ x.1.cfg.dropExternalTcp = true) (fun _ h => h.1)
    ?_ hist init t ev WF_init rfl (fun x hx' => ⟨h.1 x hx', hx x hx'⟩) h.2).2
  intro t x r w i he hr
  refine Chain.induct (I := fun t => t.queue = []) w (step_chain w he.1 hr) ?_ i
  intro t1 t2 w1 hq a
  cases a with
  | queue q c hqq =>
    rcases hqq with h | ⟨n, _, _, h, _⟩
    · rw [hq] at h; exact List.sublist_nil.1 h
    · rw [he.2] at h; cases h
  | setStatic => exact hq
  | fate probes cb k hk hcb _ => rw [(decideFate_ok w1 hk).queue]; exact hq
  | touch => exact hq
  | addBib => exact hq
  | addSess => exact hq
  | addSlow => exact hq
  | detach b hb ho => rw [(detachBib_eq t1 b).que]; exact hq

/-- C27 for TCP. No history leads to undefined behaviour if externally initiated connections are
forbidden (so no type 1 packet is ever stored) and synchronization only carries states that exist.

Missing from the full property: the case in which externally initiated connections are allowed. Then the property
does not hold; see `so_upgrade_use_after_free`. `run_ub_causes` says precisely when it fails. -/
theorem so_upgrade_safe_partial (hist : List (Env × Op)) (ho : ∀ x ∈ hist, x.2.Ok)
    (hx : ∀ x ∈ hist, x.1.cfg.dropExternalTcp = true)
    (hj : ∀ x ∈ hist, ∀ s, x.2 = .joold s → Compatible s) :
    ∃ t ev, run .TCP init hist = .ok (t, ev) := by
  cases hr : run .TCP init hist with
  | ok q => exact ⟨q.1, q.2, rfl⟩
  | ub u =>
    exfalso
    obtain ⟨mid, x, post, t, ev, he, hA, _, _, hT⟩ :=
      run_ub_causes hist [] init [] (by simpa using ho) rfl hr
    simp only [List.nil_append] at hA
    have hmid : ∀ y ∈ mid, y ∈ hist := fun y hy => by rw [he]; simp [hy]
    rcases hT with ⟨m, sg, s, d6, d4, _, _, n, hn, _⟩ | ⟨k, hk, hs, _⟩
    · rw [queue_empty hA (fun y hy => hx y (hmid y hy))] at hn; simp at hn
    · exact (tcp_timer_state_agree hA (fun y hy => hj y (hmid y hy)) k hk).1 hs

/-- The IPv6 SYN of node `n` towards `d`. -/
def exSyn6 (n d : Nat) : Op :=
  .tcp6 ⟨[(exB.src4, false), (⟨0xc0000201#32, 201#16⟩, true)], false, fun _ => true⟩ ⟨.V6, true, false, false⟩
    ⟨BitVec.ofNat 128 n, 100#16⟩ ⟨BitVec.ofNat 128 d, 80#16⟩ ⟨BitVec.ofNat 32 d, 80#16⟩

theorem exSyn6_ok (n d) : (exSyn6 n d).Ok := by
  refine ⟨by simp, ?_, trivial⟩
  intro _
  exact ⟨exB.src4, rfl, rfl, rfl⟩

def ubOf {α} : Outcome α → Option UB | .ok _ => none | .ub u => some u
theorem ubOf_eq {α} {o : Outcome α} {u : UB} (h : ubOf o = some u) : o = .ub u := by
  cases o with
  | ok a => simp [ubOf] at h
  | ub v => simp only [ubOf, Option.some.injEq] at h; rw [h]

/-- The full C27 fails, without any allocation failure. A remote node (1) sends a SYN to an unused pool4
address, and the SYN is stored. Then some IPv6 node (10) starts an unrelated connection (to 2), which gets
that address. Then another IPv6 node (11) connects to the remote node: the upgrade fails because the
address is taken, and the entry that it had prepared is used after having been freed. -/
def exUaf : List (Env × Op) :=
  [(exEnv, .tcp4 exSyn4 exB.src4 ⟨1#32, 80#16⟩ ⟨1#128, 80#16⟩ 42), (exEnv, exSyn6 10 2), (exEnv, exSyn6 11 1)]

theorem so_upgrade_use_after_free :
    (∀ x ∈ exUaf, x.2.Ok) ∧ run .TCP init exUaf = .ub .useAfterFree := by
  refine ⟨?_, ubOf_eq (by decide +kernel)⟩
  intro x hx
  simp only [exUaf, List.mem_cons, List.not_mem_nil, or_false] at hx
  rcases hx with rfl | rfl | rfl
  · trivial
  · exact exSyn6_ok _ _
  · exact exSyn6_ok _ _

/-- The second cause: a synchronized session whose state is 7, then a packet of that session. -/
theorem unknown_state_use_after_free :
    run .TCP init [(exEnv, .joold ⟨exB.src6, ⟨1#128, 80#16⟩, exB.src4, ⟨1#32, 80#16⟩, .unknown, some .EST, 0⟩),
      (exEnv, exTcp4 ⟨.V4, false, false, false⟩)] = .ub .useAfterFree := ubOf_eq (by decide +kernel)

/-! ## C29 -/

theorem mem_addBib {t : Table} {b c : BibKey} {st} : c ∈ (addBib t b st).tree4 ↔ c = b ∨ c ∈ t.tree4 := by
  simp [addBib, mem_insBy]

/-- The BIB after an IPv6 packet. -/
inductive After6 (t : Table) (src6 : T6) (m : Masks) (r : Table) : Prop
  /-- No new entry. -/
  | same (h : ∀ b ∈ bibs r, b ∈ bibs t) : After6 t src6 m r
  /-- An address from the sequence of candidates, the first that no other node uses. -/
  | pool (a : T4) (hc : firstFree t src6 m = some a)
      (h : ∀ b ∈ bibs r, b ∈ bibs t ∨ b = ⟨src6, a⟩) : After6 t src6 m r
  /-- The address for which a stored packet was waiting. -/
  | stored (a : T4) (ho : m.owns a = true) (hf : find4 t a = none) (hq : ∃ n ∈ t.queue, n.src4 = a)
      (h : ∀ b ∈ bibs r, b ∈ bibs t ∨ b = ⟨src6, a⟩) : After6 t src6 m r

theorem step6 {p t e op r s m} (w : WF t) (ho : op.Ok) (hop : Packet6 op = some (s, m))
    (hr : step p t e op = .ok r) : After6 t s m r.1 := by
  have CA : ∀ (t1 : Table) (f : Found) d6 st τ c, commitAdd6 e.now t1 f s d6 st τ = .ok c →
      ∀ b ∈ c.1.tree4, b ∈ t1.tree4 ∨ (f.oldBib = .null ∧ b = ⟨s, f.src4⟩) := by
    intro t1 f d6 st τ c hc b hb
    unfold commitAdd6 at hc
    cases hf : f.oldBib with
    | dangling => simp [hf] at hc
    | live b' => simp only [hf, Outcome.ok.injEq] at hc; subst hc; exact .inl hb
    | null =>
      simp only [hf, Outcome.ok.injEq] at hc
      subst hc
      rcases (mem_addBib (st := false)).1 hb with h | h
      · exact .inr ⟨rfl, h⟩
      · exact .inl h
  cases op with
  | add6 m' s6 d6 d4 =>
    simp only [Packet6, Option.some.injEq, Prod.mk.injEq] at hop
    obtain ⟨rfl, rfl⟩ := hop
    simp only [step] at hr
    split at hr
    · cases hr; exact .same (fun _ h => h)
    · rename_i hp
      unfold add6 at hr
      split at hr
      · cases hr; exact .same (fun _ h => h)
      · have F := findBibSession6_cases (e := e) (p := p) (src6 := s6) (dst6 := d6) (dst4 := d4) w ho
        generalize findBibSession6 e p t (some m') s6 d6 default d4 = q at hr F
        cases F with
        | live b hb hs hm =>
          simp only at hr
          split at hr
          · cases hr; exact .same (fun _ h => h)
          · split at hr
            · cases hr
            · rename_i c hc
              cases hr
              refine .same (fun x hx => ?_)
              rcases CA _ _ _ _ _ _ hc x hx with h | ⟨h, _⟩
              · exact h
              · cases h
        | evicted b hb hs hm =>
          have D : ∀ x ∈ (detachBib t b).1.tree4, x ∈ t.tree4 := by
            intro x hx; rw [(detachBib_eq t b).t4] at hx; exact List.mem_of_mem_erase hx
          cases hff : firstFree t s6 m' with
          | none => simp only [hff] at hr; cases hr; exact .same D
          | some a =>
            simp only [hff] at hr
            split at hr
            · cases hr
            · rename_i c hc
              cases hr
              refine .pool a hff (fun x hx => ?_)
              rcases CA _ _ _ _ _ _ hc x hx with h | ⟨_, h⟩
              · exact .inl (D x h)
              · exact .inr h
        | upgraded n hp' => exact absurd hp' hp
        | lost n hp' => exact absurd hp' hp
        | fresh h6 hq =>
          cases hff : firstFree t s6 m' with
          | none => simp only [hff] at hr; cases hr; exact .same (fun _ h => h)
          | some a =>
            simp only [hff] at hr
            split at hr
            · cases hr
            · rename_i c hc
              cases hr
              refine .pool a hff (fun x hx => ?_)
              rcases CA _ _ _ _ _ _ hc x hx with h | ⟨_, h⟩
              · exact .inl h
              · exact .inr h
  | tcp6 m' sg s6 d6 d4 =>
    simp only [Packet6, Option.some.injEq, Prod.mk.injEq] at hop
    obtain ⟨rfl, rfl⟩ := hop
    simp only [step] at hr
    split at hr
    · unfold tcp6 at hr
      split at hr
      · cases hr; exact .same (fun _ h => h)
      · have F := findBibSession6_cases (e := e) (p := .TCP) (src6 := s6) (dst6 := d6) (dst4 := d4) w ho
        generalize findBibSession6 e .TCP t (some m') s6 d6 default d4 = q at hr F
        have COL : ∀ (t1 : Table) ev k r, tcpCollision e (TcpSM.stateMachine e.cfg.handleRst sg) t1 ev k = .ok r →
            r.1.tree4 = t1.tree4 := by
          intro t1 ev k r hr
          rcases tcpCollision_cases (e := e) (t := t1) (ev := ev) (k := k) (seg := sg) with ⟨r', h1, h2, _⟩ | ⟨h1, _⟩
          · rw [h1] at hr; cases hr; exact h2.t4
          · rw [h1] at hr; cases hr
        cases F with
        | live b hb hs hm =>
          simp only at hr
          split at hr
          · exact .same (fun x hx => by have := COL _ _ _ _ hr; unfold bibs at hx ⊢; rwa [this] at hx)
          · split at hr
            · cases hr; exact .same (fun _ h => h)
            · split at hr
              · cases hr
              · rename_i c hc
                cases hr
                refine .same (fun x hx => ?_)
                rcases CA _ _ _ _ _ _ hc x hx with h | ⟨h, _⟩
                · exact h
                · cases h
        | evicted b hb hs hm =>
          have D : ∀ x ∈ (detachBib t b).1.tree4, x ∈ t.tree4 := by
            intro x hx; rw [(detachBib_eq t b).t4] at hx; exact List.mem_of_mem_erase hx
          cases hff : firstFree t s6 m' with
          | none => simp only [hff] at hr; cases hr; exact .same D
          | some a =>
            simp only [hff] at hr
            split at hr
            · cases hr; exact .same D
            · split at hr
              · cases hr
              · rename_i c hc
                cases hr
                refine .pool a hff (fun x hx => ?_)
                rcases CA _ _ _ _ _ _ hc x hx with h | ⟨_, h⟩
                · exact .inl (D x h)
                · exact .inr h
        | upgraded n hp' h6 hn hd ho h4 ho1 =>
          simp only at hr
          have := COL _ _ _ _ hr
          refine .stored n.src4 ho h4 ⟨n, hn, rfl⟩ (fun x hx => ?_)
          unfold bibs at hx ⊢
          rw [this] at hx
          rcases (mem_addBib (t := { t with queue := t.queue.erase n, pktCount := t.pktCount - 1 }) (st := false)).1 hx with h | h
          · exact .inr h
          · exact .inl h
        | lost n hp' h6 hn hd ho old hold =>
          cases hff : firstFree t s6 m' with
          | none => simp only [hff] at hr; cases hr; exact .same (fun _ h => h)
          | some a =>
            simp only [hff] at hr
            split at hr
            · cases old <;> simp only at hr <;> cases hr
              all_goals exact .same (fun _ h => h)
            · split at hr
              · cases hr
              · rename_i c hc
                cases hr
                refine .pool a hff (fun x hx => ?_)
                rcases CA _ _ _ _ _ _ hc x hx with h | ⟨_, h⟩
                · exact .inl h
                · exact .inr h
        | fresh h6 hq =>
          cases hff : firstFree t s6 m' with
          | none => simp only [hff] at hr; cases hr; exact .same (fun _ h => h)
          | some a =>
            simp only [hff] at hr
            split at hr
            · cases hr; exact .same (fun _ h => h)
            · split at hr
              · cases hr
              · rename_i c hc
                cases hr
                refine .pool a hff (fun x hx => ?_)
                rcases CA _ _ _ _ _ _ hc x hx with h | ⟨_, h⟩
                · exact .inl h
                · exact .inr h
    · cases hr; exact .same (fun _ h => h)
  | _ => simp [Packet6] at hop

/-- C29, allocation. An entry that appears when an IPv6 packet is translated belongs to the packet's
source, and its IPv4 transport address was offered by the pool (it is in the sequence of
candidates, or it is the destination of a stored SYN and is in the pool) and was not
assigned to another node. A candidate is only skipped if it was assigned to another node. -/
theorem new_entry_from_pool {p hist t ev} (h : After p hist t ev) (e : Env) (op : Op) (ho : op.Ok)
    (s : T6) (m : Masks) (hop : Packet6 op = some (s, m)) (r) (hr : step p t e op = .ok r)
    (b : BibKey) (hb : b ∈ bibs r.1) (hn : b ∉ bibs t) :
    b.src6 = s ∧ ¬ Taken t s b.src4 ∧
    ((∃ l1 l2, m.cands.map Prod.fst = l1 ++ b.src4 :: l2 ∧ ∀ a ∈ l1, Taken t s a) ∨
     (m.owns b.src4 = true ∧ ∃ n ∈ t.queue, n.src4 = b.src4)) := by
  have w := (After.inv h).wf
  cases step6 w ho hop hr with
  | same hs => exact absurd (hs b hb) hn
  | pool a hc hs =>
    rcases hs b hb with h | rfl
    · exact absurd h hn
    · have h1 := List.find?_some hc
      simp only [decide_eq_true_eq] at h1
      refine ⟨rfl, ?_, .inl ?_⟩
      · rintro ⟨c, hc, hne, he⟩; exact h1 c hc hne he
      · obtain ⟨_, l1, l2, h2, h3⟩ := List.find?_eq_some_iff_append.1 hc
        refine ⟨l1, l2, h2, fun x hx => ?_⟩
        have h4 := h3 x hx
        simp only [Bool.not_eq_true', decide_eq_false_iff_not] at h4
        unfold Free at h4
        simp only [Classical.not_forall] at h4
        obtain ⟨c, hc, hne, he⟩ := h4
        exact ⟨c, hc, hne, Classical.not_not.1 he⟩
  | stored a ho' hf hq hs =>
    rcases hs b hb with h | rfl
    · exact absurd h hn
    · refine ⟨rfl, ?_, .inr ⟨ho', hq⟩⟩
      rintro ⟨c, hc, _, he⟩
      exact find4_none hf c hc he

/-- C29, exhaustion: if all the candidates are taken, and the node has no entry, and no stored SYN is waiting
for the packet, then the packet is refused and nothing changes.

Missing from the full property: if the node does have an entry that it may not use anymore, the entry is deleted
even though no other can be allocated (`exhausted_pool_evicts`); a stored SYN is consumed. -/
theorem exhausted_pool_partial {p hist t ev} (h : After p hist t ev) (e : Env) (op : Op) (ho : op.Ok)
    (s : T6) (m : Masks) (hop : Packet6 op = some (s, m)) (hp : p = .TCP ↔ ∃ a b c d f, op = .tcp6 a b c d f)
    (hall : ∀ a ∈ m.cands.map Prod.fst, Taken t s a) (hnew : ∀ b ∈ bibs t, b.src6 ≠ s)
    (hq : t.queue = []) :
    ∃ r, step p t e op = .ok r ∧ r.1 = t ∧ r.2.1 = [] ∧ Refused r.2.2 := by
  have w := (After.inv h).wf
  have hff : firstFree t s m = none := by
    unfold firstFree
    rw [List.find?_eq_none]
    intro a ha
    obtain ⟨c, hc, hne, he⟩ := hall a ha
    simp only [decide_eq_true_eq]
    exact fun hf => hf c hc hne he
  have NL : ∀ b ∈ t.tree4, b.src6 = s → False := fun b hb => hnew b hb
  cases op with
  | add6 m' s6 d6 d4 =>
    simp only [Packet6, Option.some.injEq, Prod.mk.injEq] at hop
    obtain ⟨rfl, rfl⟩ := hop
    have hp' : p ≠ .TCP := by intro hh; obtain ⟨_, _, _, _, _, h⟩ := hp.1 hh; cases h
    simp only [step, hp', if_false, add6]
    split
    · exact ⟨_, rfl, rfl, rfl, .inl ⟨_, rfl⟩⟩
    · have F := findBibSession6_cases (e := e) (p := p) (src6 := s6) (dst6 := d6) (dst4 := d4) w ho
      generalize findBibSession6 e p t (some m') s6 d6 default d4 = q at F
      cases F with
      | live b hb hs hm => exact (NL b hb hs).elim
      | evicted b hb hs hm => exact (NL b hb hs).elim
      | upgraded n hp'' => exact absurd hp'' hp'
      | lost n hp'' => exact absurd hp'' hp'
      | fresh h6 hq' => simp only [hff]; exact ⟨_, rfl, rfl, rfl, .inl ⟨_, rfl⟩⟩
  | tcp6 m' sg s6 d6 d4 =>
    simp only [Packet6, Option.some.injEq, Prod.mk.injEq] at hop
    obtain ⟨rfl, rfl⟩ := hop
    have hp' : p = .TCP := hp.2 ⟨_, _, _, _, _, rfl⟩
    subst hp'
    simp only [step, if_true, tcp6]
    split
    · exact ⟨_, rfl, rfl, rfl, .inr ⟨_, rfl⟩⟩
    · have F := findBibSession6_cases (e := e) (p := .TCP) (src6 := s6) (dst6 := d6) (dst4 := d4) w ho
      generalize findBibSession6 e .TCP t (some m') s6 d6 default d4 = q at F
      cases F with
      | live b hb hs hm => exact (NL b hb hs).elim
      | evicted b hb hs hm => exact (NL b hb hs).elim
      | upgraded n hp'' _ hn => rw [hq] at hn; simp at hn
      | lost n hp'' _ hn => rw [hq] at hn; simp at hn
      | fresh h6 hq' => simp only [hff]; exact ⟨_, rfl, rfl, rfl, .inr ⟨_, rfl⟩⟩
  | _ => simp [Packet6] at hop

/-- The full version fails: the pool is dynamic (empty pool4) and does not own the node's entry anymore, and its
only candidate is taken. The packet is refused, but the node's entry (and its session) is gone. -/
def exPool (a : T4) (dyn : Bool) : Masks := ⟨[(a, false)], dyn, fun _ => false⟩
def exFull : List (Env × Op) :=
  [(exEnv, .add6 (exPool exB.src4 false) ⟨1#128, 1#16⟩ ⟨99#128, 53#16⟩ ⟨1#32, 53#16⟩),
   (exEnv, .add6 (exPool ⟨exB.src4.addr, 201#16⟩ false) ⟨2#128, 1#16⟩ ⟨99#128, 53#16⟩ ⟨1#32, 53#16⟩)]

theorem exFull_ok : ∀ x ∈ exFull, x.2.Ok := by
  intro x hx
  simp only [exFull, List.mem_cons, List.not_mem_nil, or_false] at hx
  rcases hx with rfl | rfl <;> simp [Op.Ok, Masks.Ok, Consec, exPool]

theorem exhausted_pool_evicts : ∃ t ev, After .UDP exFull t ev ∧ (bibs t).length = 2 ∧
    Taken t ⟨2#128, 1#16⟩ exB.src4 ∧
    (exStep (step .UDP t exEnv (.add6 (exPool exB.src4 true) ⟨2#128, 1#16⟩ ⟨99#128, 53#16⟩ ⟨1#32, 53#16⟩))).2.2
      = .err .ENOENT ∧
    (bibs (exStep (step .UDP t exEnv
      (.add6 (exPool exB.src4 true) ⟨2#128, 1#16⟩ ⟨99#128, 53#16⟩ ⟨1#32, 53#16⟩))).1).length = 1 := by
  refine ⟨(exOut (run .UDP init exFull)).1, _, ⟨exFull_ok, exOut_ok (by decide +kernel)⟩, by decide +kernel, ?_,
    by decide +kernel, by decide +kernel⟩
  refine ⟨⟨⟨1#128, 1#16⟩, exB.src4⟩, by decide +kernel, by decide, rfl⟩

/-- The hypotheses of `exhausted_pool_partial` are met: a third node finds the same candidate taken. -/
example : ∃ t ev, After .UDP exFull t ev ∧ (∀ a ∈ (exPool exB.src4 false).cands.map Prod.fst, Taken t ⟨3#128, 1#16⟩ a) ∧
    (∀ b ∈ bibs t, b.src6 ≠ ⟨3#128, 1#16⟩) ∧ t.queue = [] := by
  refine ⟨(exOut (run .UDP init exFull)).1, _, ⟨exFull_ok, exOut_ok (by decide +kernel)⟩, ?_, by decide +kernel,
    by decide +kernel⟩
  intro a ha
  simp only [exPool, List.map_cons, List.map_nil, List.mem_singleton] at ha
  subst ha
  exact ⟨⟨⟨1#128, 1#16⟩, exB.src4⟩, by decide +kernel, by decide, rfl⟩

/-! ## C55 -/

/-- C55. A TCP packet without SYN creates neither BIB entries nor sessions.

Missing from the full property: an IPv6 packet without SYN which finds a stored IPv4 SYN waiting for it.
`nonsyn_upgrades` shows that it does create an entry and a session. -/
theorem nonsyn_creates_nothing_partial {hist t ev} (h : After .TCP hist t ev) (e : Env) (op : Op) (ho : op.Ok)
    (hs : NotSyn op) (hw : ∀ m seg s d6 d4, op = .tcp6 m seg s d6 d4 → ¬ Waiting t m d6)
    (r) (hr : step .TCP t e op = .ok r) :
    (∀ b ∈ bibs r.1, b ∈ bibs t) ∧ (∀ k ∈ sessions r.1, k ∈ sessions t) := by
  have w := (After.inv h).wf
  have K : ∀ t', KeepsBib t t' → (∀ b ∈ bibs t', b ∈ bibs t) ∧ (∀ k ∈ sessions t', k ∈ sessions t) := by
    intro t' kb
    refine ⟨fun b hb => by unfold bibs at *; rwa [kb.t4] at hb, fun k hk => ?_⟩
    rw [mem_sessions] at *
    simpa only [Live, kb.t4, kb.se] using hk
  have COL : ∀ sg k, (tcpCollision e (TcpSM.stateMachine e.cfg.handleRst sg) t [] k = .ok r) → KeepsBib t r.1 := by
    intro sg k hr
    rcases tcpCollision_cases (e := e) (t := t) (ev := []) (k := k) (seg := sg) with ⟨r', h1, h2, _⟩ | ⟨h1, _⟩
    · rw [h1] at hr; cases hr; exact h2
    · rw [h1] at hr; cases hr
  have R : KeepsBib t t := ⟨rfl, rfl, rfl, rfl⟩
  cases op with
  | tcp6 m sg s6 d6 d4 =>
    have hs : sg.syn = false := hs
    simp only [step, if_true, tcp6, hs, Bool.not_false] at hr
    split at hr
    · cases hr; exact K _ R
    · have F := findBibSession6_cases (e := e) (p := .TCP) (src6 := s6) (dst6 := d6) (dst4 := d4) w ho
      generalize findBibSession6 e .TCP t (some m) s6 d6 default d4 = q at hr F
      cases F with
      | live b hb hbs hm =>
        simp only at hr
        split at hr
        · exact K _ (COL _ _ hr)
        · cases hr; exact K _ R
      | evicted b hb hbs hm =>
        have D : (∀ x ∈ bibs (detachBib t b).1, x ∈ bibs t) ∧
            (∀ k ∈ sessions (detachBib t b).1, k ∈ sessions t) := by
          constructor
          · intro x hx; unfold bibs at *; rw [(detachBib_eq t b).t4] at hx; exact List.mem_of_mem_erase hx
          · intro k hk; rw [mem_sessions] at *; exact ((Live_detachBib w b k).1 hk).1
        cases hff : firstFree t s6 m <;> (simp only [hff] at hr; cases hr; exact D)
      | upgraded n _ h6 hn hd hno => exact absurd ⟨n, hn, hd, hno⟩ (hw m sg s6 d6 d4 rfl)
      | lost n _ h6 hn hd hno => exact absurd ⟨n, hn, hd, hno⟩ (hw m sg s6 d6 d4 rfl)
      | fresh h6 hq => cases hff : firstFree t s6 m <;> (simp only [hff] at hr; cases hr; exact K _ R)
  | tcp4 sg s4 d4 d6 skb =>
    have hs : sg.syn = false := hs
    simp only [step, if_true, tcp4, hs, Bool.not_false] at hr
    split at hr
    · cases hr; exact K _ R
    · cases hf : find4 t s4 with
      | none => simp only [hf] at hr; cases hr; exact K _ R
      | some b =>
        simp only [hf] at hr
        by_cases hmem : d4 ∈ t.sess b
        · simp only [hmem, if_true] at hr; exact K _ (COL _ _ hr)
        · simp only [hmem, if_false] at hr; cases hr; exact K _ R
  | _ => exact absurd hs id

/-- The full C55 fails: an IPv4 SYN is stored, then an IPv6 ACK towards its source creates the entry and
the session. -/
def exAck6 : Op := .tcp6 ⟨[(⟨0xc0000201#32, 201#16⟩, false)], false, fun _ => true⟩ ⟨.V6, false, false, false⟩
  ⟨11#128, 100#16⟩ ⟨1#128, 80#16⟩ ⟨1#32, 80#16⟩

theorem nonsyn_upgrades : ∃ t ev, After .TCP [(exEnv, .tcp4 exSyn4 exB.src4 ⟨1#32, 80#16⟩ ⟨1#128, 80#16⟩ 42)] t ev ∧
    bibs t = [] ∧ NotSyn exAck6 ∧
    (bibs (exStep (step .TCP t exEnv exAck6)).1).length = 1 ∧
    (sessions (exStep (step .TCP t exEnv exAck6)).1).length = 1 := by
  refine ⟨(exOut (run .TCP init [(exEnv, .tcp4 exSyn4 exB.src4 ⟨1#32, 80#16⟩ ⟨1#128, 80#16⟩ 42)])).1, _,
    ⟨?_, exOut_ok (by decide +kernel)⟩, by decide +kernel, rfl, by decide +kernel, by decide +kernel⟩
  intro x hx
  simp only [List.mem_singleton] at hx
  subst hx; trivial

/-! ## C56 -/

/-- The operation is about this session: a packet of its IPv6 node, a packet of its IPv4 flow, a
synchronization message of its node, its timer, or a removal that covers it. -/
def _root_.Jool.BibSpec.Concerns (p : Proto) (t : Table) (e : Env) : Op → SessKey → Prop
  | .add6 _ s _ _, k => k.bib.src6 = s
  | .tcp6 _ _ s _ _, k => k.bib.src6 = s
  | .add4 s d _, k => k.bib.src4 = s ∧ k.dst4 = d
  | .tcp4 _ s d _ _, k => k.bib.src4 = s ∧ k.dst4 = d
  | .joold s, k => k.bib.src6 = s.src6
  | .clean, k => Expired e p (t.info k)
  | .addStatic _, _ => False
  | .rm b, k => k.bib = b
  | .rmRange r, k => prefix4Contains r.pfx k.bib.src4.addr = true ∧
      r.min.toNat ≤ k.bib.src4.port.toNat ∧ k.bib.src4.port.toNat ≤ r.max.toNat
  | .flush, _ => True

/-- The session is the same, in every respect, in both tables. -/
def SameSess (t t' : Table) (k : SessKey) : Prop := (Live t' k ↔ Live t k) ∧ (Live t k → t'.info k = t.info k)

theorem Atom.frame {p e op t t'} (w : WF t) (a : Atom p e op t t') (k : SessKey) (hn : ¬ op.Owns k)
    (hd : ¬ op.Detaches t k.bib) : SameSess t t' k := by
  cases a with
  | queue => exact ⟨Iff.rfl, fun _ => rfl⟩
  | setStatic => exact ⟨Iff.rfl, fun _ => rfl⟩
  | fate probes cb k' hk' hcb hs =>
    have hne : k ≠ k' := by rintro rfl; exact hn hs
    have d := decideFate_ok (e := e) (probes := probes) (cb := cb) w hk'
    refine ⟨?_, fun _ => d.others k hne⟩
    cases hr : (decideFate e probes cb t k').removed with
    | false => exact d.kept hr k
    | true => exact (d.gone hr k).trans ⟨fun h => h.1, fun h => ⟨h, hne⟩⟩
  | touch k' hk' _ _ hs =>
    have hne : k ≠ k' := by rintro rfl; exact hn hs
    exact ⟨Iff.rfl, fun _ => by simp [fateTimer, listDel, setInfo, upd_ne _ _ hne]⟩
  | addBib b st h6 h4 ho => exact ⟨Live_addBib h4 st k, fun _ => rfl⟩
  | addSess k' d6 st sto τ hb hnn hw ho hs =>
    have hne : k ≠ k' := by rintro rfl; exact hn hs
    refine ⟨(Live_addSess hb k).trans ⟨fun h => h.resolve_left hne, .inr⟩, fun _ => ?_⟩
    simp [Bib.addSess, setInfo, upd_ne _ _ hne]
  | addSlow k' s τ hb hnn ho hτ hs =>
    have hne : k ≠ k' := by rintro rfl; exact hn hs
    refine ⟨(Live_addSessSlow hb k).trans ⟨fun h => h.resolve_left hne, .inr⟩, fun _ => ?_⟩
    simp [Bib.addSessSlow, setInfo, upd_ne _ _ hne]
  | detach b hb ho =>
    have hne : k.bib ≠ b := by rintro rfl; exact hd ho
    refine ⟨(Live_detachBib w b k).trans ⟨fun h => h.1, fun h => ⟨h, hne⟩⟩, fun _ => ?_⟩
    rw [(detachBib_eq t b).inf]

theorem detaches_indep {op : Op} {t t' : Table} {b} : op.Detaches t b ↔ op.Detaches t' b := by
  cases op <;> exact Iff.rfl

/-- C56. Whatever an operation does, the sessions that it is not about stay as they are: they neither appear,
nor disappear, nor change. -/
theorem isolation {p hist t ev} (h : After p hist t ev) (e : Env) (op : Op) (ho : op.Ok) (r)
    (hr : step p t e op = .ok r) (k : SessKey) (hc : ¬ Concerns p t e op k) :
    (k ∈ sessions r.1 ↔ k ∈ sessions t) ∧ (k ∈ sessions t → r.1.info k = t.info k) := by
  have w := (After.inv h).wf
  rw [mem_sessions, mem_sessions]
  by_cases hcl : op = .clean
  · subst hcl
    have hx : ¬ Expired e p (t.info k) := hc
    have C := step_chain (op := .clean) w ho hr
    have keep : Live t k → Live r.1 k ∧ r.1.info k = t.info k := by
      intro hk
      have := sweep_not_premature h e r hr k ((mem_sessions k).2 hk) hx
      exact ⟨(mem_sessions k).1 this.1, this.2⟩
    refine ⟨⟨?_, fun hk => (keep hk).1⟩, fun hk => (keep hk).2⟩
    refine Chain.induct (I := fun t' => Live t' k → Live t k) w C ?_ id
    intro t1 t2 w1 i1 a
    intro hk
    apply i1
    cases a with
    | queue => exact hk
    | setStatic => exact hk
    | fate probes cb k' hk' hcb hs =>
      have d := decideFate_ok (e := e) (probes := probes) (cb := cb) w1 hk'
      cases hrm : (decideFate e probes cb t1 k').removed with
      | false => exact (d.kept hrm k).1 hk
      | true => exact ((d.gone hrm k).1 hk).1
    | touch k' hk' _ ho' hs => exact ho'.elim
    | addBib b st h6 h4 ho' =>
      rcases ho' with ⟨_, h⟩ | ⟨_, h⟩ <;> cases h
    | addSess k' d6 st sto τ hb hnn hw ho' hs => exact ho'.elim
    | addSlow k' s τ hb hnn ho' hτ hs => cases ho'
    | detach b hb ho' => exact ho'.elim
  · have hn : ¬ op.Owns k := by
      intro h; apply hc; cases op <;> first | exact h | exact absurd rfl hcl | exact h.elim
    have hd : ∀ t', ¬ op.Detaches t' k.bib := by
      intro t' h; apply hc; cases op <;> first | exact h | exact h.1 | exact h.elim
    have C := step_chain w ho hr
    refine Chain.induct (I := fun t' => SameSess t t' k) w C ?_ ⟨Iff.rfl, fun _ => rfl⟩
    intro t1 t2 w1 i1 a
    have f := a.frame w1 k hn (hd t1)
    exact ⟨f.1.trans i1.1, fun hk => (f.2 (i1.1.2 hk)).trans (i1.2 hk)⟩

/-- C56 for BIB entries: an IPv6 packet only creates or deletes entries of its source ... -/
theorem isolation_bib6 {p hist t ev} (h : After p hist t ev) (e : Env) (op : Op) (ho : op.Ok) (s : T6) (m : Masks)
    (hop : Packet6 op = some (s, m)) (r) (hr : step p t e op = .ok r) (b : BibKey) (hb : b.src6 ≠ s) :
    b ∈ bibs r.1 ↔ b ∈ bibs t := by
  have w := (After.inv h).wf
  have ow : ∀ k, op.Owns k → k.bib.src6 = s := by
    intro k hk; cases op <;> simp only [Packet6, Option.some.injEq, Prod.mk.injEq, reduceCtorEq] at hop <;>
      (rw [← hop.1]; exact hk)
  have dt : ∀ t' b, op.Detaches t' b → b.src6 = s := by
    intro k b hk; cases op <;> simp only [Packet6, Option.some.injEq, Prod.mk.injEq, reduceCtorEq] at hop <;>
      (rw [← hop.1]; exact hk.1)
  have os : op.src6 = some s := by
    cases op <;> simp only [Packet6, Option.some.injEq, Prod.mk.injEq, reduceCtorEq] at hop <;>
      (rw [← hop.1]; rfl)
  refine Chain.induct (I := fun t' => b ∈ t'.tree4 ↔ b ∈ t.tree4) w (step_chain w ho hr) ?_ Iff.rfl
  intro t1 t2 w1 i1 a
  rw [← i1]
  cases a with
  | queue => exact Iff.rfl
  | setStatic => exact Iff.rfl
  | fate probes cb k hk hcb hs =>
    have hkb : b ≠ k.bib := by rintro rfl; exact hb (ow k hs)
    exact decideFate_mem w1 hkb
  | touch => exact Iff.rfl
  | addBib c st h6 h4 ho' =>
    rw [mem_addBib]
    refine ⟨fun h => h.resolve_left ?_, .inr⟩
    rintro rfl
    rcases ho' with ⟨_, h⟩ | ⟨_, h⟩
    · rw [h] at os; cases os
    · rw [os] at h; exact hb (by injection h with h; exact h.symm)
  | addSess => exact Iff.rfl
  | addSlow => exact Iff.rfl
  | detach c hc hd =>
    rw [(detachBib_eq t1 c).t4, List.Nodup.mem_erase_iff (sorted_nodup w1.s4)]
    refine ⟨fun h => h.2, fun h => ⟨?_, h⟩⟩
    rintro rfl; exact hb (dt t1 _ hd)

/-- ... and an IPv4 packet never creates nor deletes any. -/
theorem isolation_bib4 {p hist t ev} (_h : After p hist t ev) (e : Env) (op : Op) (x : T4 × T4)
    (hop : Packet4 op = some x) (r) (hr : step p t e op = .ok r) : bibs r.1 = bibs t := by
  cases op with
  | add4 s4 d4 d6 =>
    simp only [step, add4] at hr
    repeat' split at hr
    all_goals (cases hr; rfl)
  | tcp4 sg s4 d4 d6 skb =>
    simp only [step] at hr
    split at hr
    · unfold tcp4 at hr
      split at hr
      · cases hr; rfl
      · simp only at hr
        cases hf : find4 t s4 with
        | none =>
          simp only [hf, storeType1] at hr
          repeat' split at hr
          all_goals (cases hr; rfl)
        | some b =>
          simp only [hf] at hr
          by_cases hmem : d4 ∈ t.sess b
          · simp only [hmem, if_true] at hr
            rcases tcpCollision_cases (e := e) (t := t) (ev := []) (k := ⟨b, d4⟩) (seg := sg) with ⟨r', h1, h2, _⟩ | ⟨h1, _⟩
            · rw [h1] at hr; cases hr; exact h2.t4
            · rw [h1] at hr; cases hr
          · simp only [hmem, if_false] at hr
            repeat' split at hr
            all_goals (cases hr; rfl)
    · cases hr; rfl
  | _ => simp [Packet4] at hop

/-- Concrete cases of C28, C29 and C56: after node 1 talked to 1:53, with address-dependent filtering, 1:54 is
let through, 2:53 is not; node 2 gets its own address; node 1's session is not touched by node 2's packet. -/
def exAdf : Env := { exEnv with cfg := { exCfg with dropByAddr := true } }
example :
    let t := (exOut (run .UDP init (exFull.take 1))).1
    After .UDP (exFull.take 1) t (exOut (run .UDP init (exFull.take 1))).2 ∧
    (exStep (step .UDP t exAdf (.add4 exB.src4 ⟨1#32, 54#16⟩ ⟨99#128, 54#16⟩))).1.statSess = 2 ∧
    (exStep (step .UDP t exAdf (.add4 exB.src4 ⟨2#32, 53#16⟩ ⟨98#128, 53#16⟩))).2.2 = .err .EPERM ∧
    (exStep (step .UDP t exEnv (.add4 exB.src4 ⟨2#32, 53#16⟩ ⟨98#128, 53#16⟩))).1.statSess = 2 ∧
    (bibs (exStep (step .UDP t exEnv (exFull[1]'(by decide)).2)).1).length = 2 ∧
    ¬ Concerns .UDP t exEnv (exFull[1]'(by decide)).2 ⟨⟨⟨1#128, 1#16⟩, exB.src4⟩, ⟨1#32, 53#16⟩⟩ ∧
    sessions t = [⟨⟨⟨1#128, 1#16⟩, exB.src4⟩, ⟨1#32, 53#16⟩⟩] := by
  refine ⟨⟨fun x hx => exFull_ok x (List.mem_of_mem_take hx), exOut_ok (by decide +kernel)⟩, by decide +kernel,
    by decide +kernel, by decide +kernel, by decide +kernel, ?_, by decide +kernel⟩
  intro h
  have h : (⟨1#128, 1#16⟩ : T6) = ⟨2#128, 1#16⟩ := h
  exact absurd h (by decide)

end Bib
end Jool
