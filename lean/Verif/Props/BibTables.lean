import Verif.Lemmas.BibAtoms
/-
Properties of the BIB and session tables which hold after every history of packets, administrator
requests, synchronization messages and timer sweeps: C19, C20, C21, C26 and C54.
-/
namespace Jool

/-! ## Specification -/
namespace BibSpec
open Bib

/-- What `jool bib display` lists. -/
def bibs (t : Table) : List BibKey := t.tree4

/-- What `jool session display` lists. -/
def sessions (t : Table) : List SessKey := t.tree4.flatMap (fun b => (t.sess b).map (SessKey.mk b))

/-- The session that an IPv6 packet from `src6` towards (the translation of) `dst4` belongs to. -/
def lookup6 (t : Table) (src6 : T6) (dst4 : T4) : Option SessKey :=
  match find6 t src6 with
  | some b => if dst4 ∈ t.sess b then some ⟨b, dst4⟩ else none
  | none => none

/-- The session that an IPv4 packet from `dst4` towards `src4` belongs to. -/
def lookup4 (t : Table) (src4 dst4 : T4) : Option SessKey :=
  match find4 t src4 with
  | some b => if dst4 ∈ t.sess b then some ⟨b, dst4⟩ else none
  | none => none

/-- The packets that the table keeps. -/
def storedPkts (t : Table) : List Nat :=
  (sessions t).filterMap (fun k => (t.info k).stored) ++ t.queue.map (·.skb)

/-- The packets which the table let go, with an ICMP error or without. -/
def released (ev : List Event) : List Nat :=
  ev.filterMap (fun e => match e with
    | .icmpErr s => some s
    | .freed s => some s
    | .probe _ => none)

/-- The packets that were kept (verdict "stolen") during a history. -/
def kept (p : Proto) : Table → List (Env × Op) → List Nat
  | _, [] => []
  | t, (e, o) :: rest =>
    match step p t e o with
    | .ub _ => []
    | .ok r =>
      (match r.2.2, o with
        | .stolen, .tcp4 _ _ _ _ skb => [skb]
        | _, _ => []) ++ kept p r.1 rest

/-- `t` is the table after some history, the pool behaving as promised (see `Bib.Masks.Ok`, proved of
the pool's model in `Verif.Props.Pool4`). -/
def After (p : Proto) (hist : List (Env × Op)) (t : Table) (ev : List Event) : Prop :=
  (∀ x ∈ hist, x.2.Ok) ∧ run p init hist = .ok (t, ev)

/-- The administrator asks to remove the entry `b`. -/
def AskedToRemove (b : BibKey) : Op → Prop
  | .rm c => c = b
  | .flush => True
  | .rmRange r => prefix4Contains r.pfx b.src4.addr = true ∧ r.min ≤ b.src4.port ∧ b.src4.port ≤ r.max
  | _ => False

/-- An IPv6 packet of the entry's owner, at a time when pool4 is empty and the entry's IPv4 address no
longer belongs to the node (issue #216). -/
def Evicts (b : BibKey) : Op → Prop
  | .add6 m s _ _ => s = b.src6 ∧ m.dynamic = true ∧ m.owns b.src4 = false
  | .tcp6 m _ s _ _ => s = b.src6 ∧ m.dynamic = true ∧ m.owns b.src4 = false
  | _ => False

end BibSpec

namespace Bib
open BibSpec

/-! ## The invariant over histories -/

structure Inv (t : Table) : Prop where
  wf : WF t
  dyn : Dyn t
  sb : t.statBib = t.tree4.length
  sn : t.statSess = (all t).length
  pk : (held t anyPkt : Int) ≤ t.pktCount

theorem Inv_init : Inv init := ⟨WF_init, Dyn_init, rfl, rfl, by decide⟩

theorem Inv.step {p t e op r} (h : Inv t) (ho : Op.Ok op) (hr : step p t e op = .ok r) : Inv r.1 := by
  obtain ⟨g, d⟩ := step_ok h.wf ho hr
  refine ⟨g.wf, d h.dyn, ?_, ?_, ?_⟩
  · have a := g.sb; have b := h.sb; omega
  · have a := g.sn; have b := h.sn; omega
  · have a := g.pk; have b := h.pk; omega

theorem After.inv {p hist t ev} (h : After p hist t ev) : Inv t :=
  (run_induct (I := Inv) (E := fun x => x.2.Ok) (fun _ h => h)
    (fun _ _ _ _ hi he hr => hi.step he hr) hist init t ev WF_init Inv_init h.1 h.2).2

theorem mem_sessions {t : Table} (k : SessKey) : k ∈ sessions t ↔ Live t k := by
  simp only [sessions, List.mem_flatMap, List.mem_map, Live]
  constructor
  · rintro ⟨b, hb, d, hd, rfl⟩; exact ⟨hb, hd⟩
  · rintro ⟨hb, hd⟩; exact ⟨k.bib, hb, k.dst4, hd, rfl⟩

theorem WF.sessions_nodup {t : Table} (h : WF t) : (sessions t).Nodup := by
  unfold sessions
  have hnd := sorted_nodup h.s4
  have hs : ∀ b ∈ t.tree4, (t.sess b).Nodup := fun b hb => sorted_nodup (h.ss b hb)
  clear h
  revert hnd hs
  generalize t.tree4 = l
  intro hnd hs
  induction l with
  | nil => exact List.nodup_nil
  | cons b l ih =>
    rw [List.nodup_cons] at hnd
    rw [List.flatMap_cons, List.nodup_append]
    refine ⟨?_, ih hnd.2 (fun b hb => hs b (by simp [hb])), ?_⟩
    · refine List.Pairwise.map _ ?_ (hs b (by simp))
      intro a c hne he
      exact hne (by injection he)
    · intro k hk k' hk' he
      subst he
      obtain ⟨d, _, rfl⟩ := List.mem_map.1 hk
      obtain ⟨b', hb', hm⟩ := List.mem_flatMap.1 hk'
      obtain ⟨d', _, he⟩ := List.mem_map.1 hm
      have : b' = b := by injection he
      subst this
      exact hnd.1 hb'

theorem WF.sessions_perm {t : Table} (h : WF t) : (sessions t).Perm (all t) := by
  rw [List.perm_ext_iff_of_nodup h.sessions_nodup h.all_nodup]
  intro k; rw [mem_sessions, h.mem_all]

theorem nodup_map_of_inj {α β} {f : α → β} {l : List α} (h : l.Nodup)
    (hf : ∀ a ∈ l, ∀ b ∈ l, f a = f b → a = b) : (l.map f).Nodup := by
  induction l with
  | nil => exact List.nodup_nil
  | cons a l ih =>
    rw [List.nodup_cons] at h
    rw [List.map_cons, List.nodup_cons]
    refine ⟨?_, ih h.2 (fun x hx y hy => hf x (by simp [hx]) y (by simp [hy]))⟩
    intro hm
    obtain ⟨b, hb, he⟩ := List.mem_map.1 hm
    exact h.1 (hf b (by simp [hb]) a (by simp) he ▸ hb)

/-! ## C19 -/

/-- After any history: the listing of the BIB has no repeated IPv6 transport address and no repeated
IPv4 transport address; looking up by either address finds precisely the listed entries,
so each direction inverts the other. -/
theorem bib_bijection {p hist t ev} (h : After p hist t ev) :
    ((bibs t).map (·.src6)).Nodup ∧ ((bibs t).map (·.src4)).Nodup ∧
    (∀ a b, find6 t a = some b ↔ b ∈ bibs t ∧ b.src6 = a) ∧
    (∀ a b, find4 t a = some b ↔ b ∈ bibs t ∧ b.src4 = a) := by
  have i := (After.inv h).wf
  have nd := sorted_nodup i.s4
  refine ⟨nodup_map_of_inj nd (fun a ha b hb => i.uniq6 ha hb),
    nodup_map_of_inj nd (fun a ha b hb => i.uniq4 ha hb), ?_, ?_⟩
  · intro a b
    constructor
    · intro hf; exact ⟨(i.same b).1 (find6_some hf).1, (find6_some hf).2⟩
    · rintro ⟨hb, rfl⟩; exact (i.find6_iff b).2 hb
  · intro a b
    constructor
    · intro hf; exact find4_some hf
    · rintro ⟨hb, rfl⟩; exact (i.find4_iff b).2 hb

/-! ## C20 -/

/-- After any history: the listing of sessions has no duplicate (source6, remote) nor (source4,
remote) pair; both lookups find precisely the listed sessions, hence the same ones; and every
listed session belongs to a listed BIB entry. -/
theorem session_unique {p hist t ev} (h : After p hist t ev) :
    ((sessions t).map (fun k => (k.bib.src6, k.dst4))).Nodup ∧
    ((sessions t).map (fun k => (k.bib.src4, k.dst4))).Nodup ∧
    (∀ s d k, lookup6 t s d = some k ↔ k ∈ sessions t ∧ k.bib.src6 = s ∧ k.dst4 = d) ∧
    (∀ s d k, lookup4 t s d = some k ↔ k ∈ sessions t ∧ k.bib.src4 = s ∧ k.dst4 = d) ∧
    (∀ k ∈ sessions t, k.bib ∈ bibs t) := by
  have i := (After.inv h).wf
  have ext : ∀ a b : SessKey, a.bib = b.bib → a.dst4 = b.dst4 → a = b := by
    intro a b h1 h2; cases a; cases b; simp_all
  refine ⟨nodup_map_of_inj i.sessions_nodup ?_, nodup_map_of_inj i.sessions_nodup ?_, ?_, ?_, ?_⟩
  · intro a ha b hb he
    rw [mem_sessions] at ha hb
    simp only [Prod.mk.injEq] at he
    exact ext a b (i.uniq6 ha.1 hb.1 he.1) he.2
  · intro a ha b hb he
    rw [mem_sessions] at ha hb
    simp only [Prod.mk.injEq] at he
    exact ext a b (i.uniq4 ha.1 hb.1 he.1) he.2
  · intro s d k
    rw [mem_sessions]
    unfold lookup6
    constructor
    · intro hl
      cases hf : find6 t s with
      | none => simp [hf] at hl
      | some b =>
        simp only [hf] at hl
        split at hl
        · rename_i hd
          cases hl
          exact ⟨⟨(i.same b).1 (find6_some hf).1, hd⟩, (find6_some hf).2, rfl⟩
        · cases hl
    · rintro ⟨hk, rfl, rfl⟩
      rw [(i.find6_iff k.bib).2 hk.1]
      simp only [hk.2, if_true]
  · intro s d k
    rw [mem_sessions]
    unfold lookup4
    constructor
    · intro hl
      cases hf : find4 t s with
      | none => simp [hf] at hl
      | some b =>
        simp only [hf] at hl
        split at hl
        · rename_i hd
          cases hl
          exact ⟨⟨(find4_some hf).1, hd⟩, (find4_some hf).2, rfl⟩
        · cases hl
    · rintro ⟨hk, rfl, rfl⟩
      rw [(i.find4_iff k.bib).2 hk.1]
      simp only [hk.2, if_true]
  · intro k hk; exact ((mem_sessions k).1 hk).1

/-- Part of C22: every session is on exactly one expiration list, once; and the lists hold nothing
else. -/
theorem session_one_timer {p hist t ev} (h : After p hist t ev) :
    (t.lists .EST ++ t.lists .TRANS ++ t.lists .SYN4).Perm (sessions t) :=
  (After.inv h).wf.sessions_perm.symm

/-! ## C21 -/

/-- After any history, a dynamic entry has at least one session. -/
theorem dynamic_has_session {p hist t ev} (h : After p hist t ev) (b : BibKey) (hb : b ∈ bibs t)
    (hs : t.isStatic b = false) : ∃ k ∈ sessions t, k.bib = b := by
  have i := After.inv h
  rcases i.dyn b hb (by simp) with h1 | h1
  · rw [hs] at h1; cases h1
  · obtain ⟨d, hd⟩ := List.exists_mem_of_ne_nil _ h1
    exact ⟨⟨b, d⟩, (mem_sessions _).2 ⟨hb, hd⟩, rfl⟩

theorem decideFate_static {e probes cb t k} (h : WF t) (b : BibKey) (hb : b ∈ t.tree4)
    (hs : t.isStatic b = true) :
    b ∈ (decideFate e probes cb t k).t.tree4 ∧ (decideFate e probes cb t k).t.isStatic b = true := by
  have R : ∀ t1 : Table, WF t1 → b ∈ t1.tree4 ∧ t1.isStatic b = true → ∀ c, 
      b ∈ (reapBib t1 c).tree4 ∧ (reapBib t1 c).isStatic b = true := by
    intro t1 hw hb c
    unfold reapBib
    split
    · rename_i hc
      simp only [Bool.and_eq_true, Bool.not_eq_true'] at hc
      refine ⟨?_, hb.2⟩
      rw [List.Nodup.mem_erase_iff (sorted_nodup hw.s4)]
      refine ⟨?_, hb.1⟩
      rintro rfl
      rw [hb.2] at hc; simp at hc
    · exact hb
  unfold decideFate
  have e0 : (edited t k (cb (ctlOf t k)).1).tree4 = t.tree4 ∧
    (edited t k (cb (ctlOf t k)).1).isStatic = t.isStatic := ⟨rfl, rfl⟩
  have w0 : WF (edited t k (cb (ctlOf t k)).1) := h.setInfo k _ rfl
  have hed : setInfo t k { t.info k with state := (cb (ctlOf t k)).1.state, updateTime := (cb (ctlOf t k)).1.updateTime }
    = edited t k (cb (ctlOf t k)).1 := rfl
  simp only [hed]
  generalize cb (ctlOf t k) = r at *
  revert e0 w0
  generalize edited t k r.1 = t0
  intro e0 w0
  have H : ∃ r1 : Table × List Event, (if !r.1.hasStored then killStored t0 k else (t0, [])) = r1 ∧
      WF r1.1 ∧ r1.1.tree4 = t.tree4 ∧ r1.1.isStatic = t.isStatic := by
    refine ⟨_, rfl, ?_⟩
    split
    · obtain ⟨a, _, _, _, f, _⟩ := killStored_eq t0 k
      exact ⟨w0.killStored k, a.trans e0.1, f.trans e0.2⟩
    · exact ⟨w0, e0⟩
  obtain ⟨r1, hr1, w1, h4, hst⟩ := H
  simp only [hr1]
  have base : b ∈ r1.1.tree4 ∧ r1.1.isStatic b = true := by rw [h4, hst]; exact ⟨hb, hs⟩
  cases r.2 with
  | PROBE =>
    obtain ⟨a, _, _, _, f, _⟩ := handleProbe_eq e.oom probes r1.1 k
    show b ∈ (handleProbe e.oom probes r1.1 k).1.tree4 ∧ (handleProbe e.oom probes r1.1 k).1.isStatic b = true
    rw [a, f]; exact base
  | RM =>
    show b ∈ (rmSess e.oom probes r1.1 k).1.tree4 ∧ _
    rw [rmSess_eq]
    cases hsto : (r1.1.info k).stored with
    | none =>
      refine R (unlink r1.1 k) ?_ base k.bib
      exact ⟨w1.s4, w1.s6, w1.same, fun x hx => by
        show List.Pairwise _ (upd r1.1.sess k.bib ((r1.1.sess k.bib).erase k.dst4) x)
        by_cases hxk : x = k.bib
        · subst hxk; rw [upd_same]; exact (w1.ss _ hx).sublist List.erase_sublist
        · rw [upd_ne _ _ hxk]; exact w1.ss _ hx, fun τ => (w1.nd τ).erase _, by
        exact fun τ k' => by
          by_cases hlk : Live r1.1 k
          · exact (w1.unlink hlk).lk τ k'
          · have hnm : ∀ τ, k ∉ r1.1.lists τ := fun τ hm => hlk ((w1.lk τ k).1 hm).1
            show k' ∈ (r1.1.lists τ).erase k ↔ _
            rw [List.erase_of_not_mem (hnm τ), w1.lk]
            have : Live (unlink r1.1 k) k' ↔ Live r1.1 k' := by
              simp only [Live, unlink, listDel, treeDel]
              by_cases hbk : k'.bib = k.bib
              · rw [hbk, upd_same]
                constructor
                · rintro ⟨a, c⟩; exact ⟨a, List.mem_of_mem_erase c⟩
                · rintro ⟨a, c⟩
                  refine ⟨a, (List.mem_erase_of_ne ?_).2 c⟩
                  rintro he; exact hlk ⟨a, he ▸ c⟩
              · rw [upd_ne _ _ hbk]
            rw [this]; rfl⟩
    | some s =>
      obtain ⟨a, _, c, _, f, _⟩ := handleProbe_eq e.oom probes r1.1 k
      have w2 := w1.handleProbe e.oom probes k
      have hb2 : b ∈ (handleProbe e.oom probes r1.1 k).1.tree4 ∧
          (handleProbe e.oom probes r1.1 k).1.isStatic b = true := by rw [a, f]; exact base
      have R2 : b ∈ (reapBib (unlink (handleProbe e.oom probes r1.1 k).1 k) k.bib).tree4 ∧
          (reapBib (unlink (handleProbe e.oom probes r1.1 k).1 k) k.bib).isStatic b = true := by
        unfold reapBib
        split
        · rename_i hc
          simp only [Bool.and_eq_true, Bool.not_eq_true'] at hc
          refine ⟨?_, hb2.2⟩
          rw [show (unlink (handleProbe e.oom probes r1.1 k).1 k).tree4
            = (handleProbe e.oom probes r1.1 k).1.tree4 from rfl]
          rw [List.Nodup.mem_erase_iff (sorted_nodup w2.s4)]
          refine ⟨?_, hb2.1⟩
          rintro rfl
          have : (unlink (handleProbe e.oom probes r1.1 k).1 k).isStatic k.bib = true := hb2.2
          rw [this] at hc; simp at hc
        · exact hb2
      exact R2
  | TIMER_SLOW =>
    cases hτ : r.1.timer with
    | none => exact base
    | some τ => exact base
  | TIMER_EST => exact base
  | TIMER_TRANS => exact base
  | PRESERVE => exact base
  | DROP => exact base

theorem Atom.static {p e op t t'} (h : WF t) (a : Atom p e op t t') (b : BibKey)
    (hd : ∀ t1, ¬ op.Detaches t1 b) (hb : b ∈ t.tree4 ∧ t.isStatic b = true) :
    b ∈ t'.tree4 ∧ t'.isStatic b = true := by
  cases a with
  | queue => exact hb
  | setStatic c hc ho =>
    refine ⟨hb.1, ?_⟩
    show upd t.isStatic c true b = true
    by_cases hbc : b = c
    · subst hbc; rw [upd_same]
    · rw [upd_ne _ _ hbc]; exact hb.2
  | fate probes cb k hk hcb _ => exact decideFate_static h b hb.1 hb.2
  | touch k hk => exact hb
  | addBib c st h6 h4 ho =>
    have hbc : b ≠ c := by rintro rfl; exact not_mem_of_find h4 hb.1
    refine ⟨(mem_insBy _ _ _ _).2 (.inr hb.1), ?_⟩
    show upd t.isStatic c st b = true
    rw [upd_ne _ _ hbc]; exact hb.2
  | addSess => exact hb
  | addSlow => exact hb
  | detach c hc ho =>
    have hbc : b ≠ c := by rintro rfl; exact hd t ho
    have d := detachBib_eq t c
    rw [d.t4, d.stc, List.Nodup.mem_erase_iff (sorted_nodup h.s4)]
    exact ⟨⟨hbc, hb.1⟩, hb.2⟩

/-- C21, static entries: in any reachable state, whatever the operation, a static entry survives
unless its removal was requested, or it is evicted by issue 216's code.

Missing from the full property ("disappears only through an explicit removal or flush"): the eviction
is not an administrator's request; `static_entry_evicted` shows that it does happen. -/
theorem static_survives_partial {p hist t ev} (h : After p hist t ev) (b : BibKey) (hb : b ∈ bibs t)
    (hs : t.isStatic b = true) (e : Env) (op : Op) (hop : op.Ok) (hne : ¬ AskedToRemove b op)
    (hev : ¬ Evicts b op) (r : Table × List Event × Result) (hr : step p t e op = .ok r) :
    b ∈ bibs r.1 ∧ r.1.isStatic b = true := by
  have hw := (After.inv h).wf
  refine Chain.induct (I := fun t => b ∈ t.tree4 ∧ t.isStatic b = true) hw (step_chain hw hop hr)
    ?_ ⟨hb, hs⟩
  intro t1 t2 hw1 hi a
  refine a.static hw1 b ?_ hi
  intro t1
  cases op with
  | rm c => intro hd; exact hne (Eq.symm hd)
  | flush => exact absurd trivial hne
  | rmRange rg => rintro ⟨h1, h2, h3⟩; exact hne ⟨h1, BitVec.le_def.2 h2, BitVec.le_def.2 h3⟩
  | add6 m s d6 d4 => rintro ⟨h1, h2⟩; exact hev ⟨h1.symm, h2⟩
  | tcp6 m sg s d6 d4 => rintro ⟨h1, h2⟩; exact hev ⟨h1.symm, h2⟩
  | _ => simp [Op.Detaches]

/-- In particular the timer never removes a static entry. -/
theorem static_survives_timer {p hist t ev} (h : After p hist t ev) (b : BibKey) (hb : b ∈ bibs t)
    (hs : t.isStatic b = true) (e : Env) (r : Table × List Event × Result)
    (hr : step p t e .clean = .ok r) : b ∈ bibs r.1 ∧ r.1.isStatic b = true :=
  static_survives_partial h b hb hs e .clean trivial id id r hr

def exCfg : Cfg := ⟨false, false, false, 10, 7200000, 240000, 6000, 300000, 60000⟩
def exEnv : Env := ⟨1000, exCfg, ⟨false, false, false, false, false⟩⟩
def exOut (o : Outcome (Table × List Event)) : Table × List Event :=
  match o with | .ok r => r | .ub _ => (init, [])
def Outcome.isOk {α} : Outcome α → Bool | .ok _ => true | .ub _ => false
theorem exOut_ok {o : Outcome (Table × List Event)} (h : Outcome.isOk o = true) :
    o = .ok ((exOut o).1, (exOut o).2) := by
  cases o with
  | ok r => rfl
  | ub u => cases h
def exStep (o : Step) : Table × List Event × Result :=
  match o with | .ok r => r | .ub _ => (init, [], .stolen)
def exB : BibKey := ⟨⟨0x20010db8#128, 100#16⟩, ⟨0xc0000201#32, 200#16⟩⟩

/-- The full version of C21 fails: pool4 is empty, the node lost the IPv4 address of a static entry;
a UDP packet from the entry's IPv6 node erases the static entry, and nobody asked for that. -/
theorem static_entry_evicted : ∃ t ev, After .UDP [(exEnv, .addStatic exB)] t ev ∧ exB ∈ bibs t ∧
    t.isStatic exB = true ∧
    ∃ op r, op.Ok ∧ ¬ AskedToRemove exB op ∧ step .UDP t exEnv op = .ok r ∧ exB ∉ bibs r.1 := by
  refine ⟨(exOut (run .UDP init [(exEnv, .addStatic exB)])).1, _, ⟨?_, rfl⟩, by decide, by decide,
    .add6 ⟨[], true, fun _ => false⟩ exB.src6 ⟨1#128, 53#16⟩ ⟨1#32, 53#16⟩,
    exStep (step .UDP (exOut (run .UDP init [(exEnv, .addStatic exB)])).1 exEnv
      (.add6 ⟨[], true, fun _ => false⟩ exB.src6 ⟨1#128, 53#16⟩ ⟨1#32, 53#16⟩)),
    trivial, id, rfl, by decide⟩
  intro x hx
  simp only [List.mem_singleton] at hx
  subst hx; trivial

/-! ## C54: the statistics -/

/-- After any history the statistics shown to the user are the real numbers of entries and sessions. -/
theorem stats_exact {p hist t ev} (h : After p hist t ev) :
    t.statBib = (bibs t).length ∧ t.statSess = (sessions t).length := by
  have i := After.inv h
  exact ⟨i.sb, by rw [i.sn, i.wf.sessions_perm.length_eq]⟩

/-! ## C26 -/

theorem count_filterMap (l : List SessKey) (g : SessKey → SessInfo) (P : Nat → Bool) :
    (l.filterMap (fun k => (g k).stored)).countP P = (l.map (fun k => w P (g k).stored)).sum := by
  induction l with
  | nil => rfl
  | cons a l ih =>
    cases hs : (g a).stored with
    | none => simp [hs, ih]
    | some s =>
      simp only [List.filterMap_cons, hs, List.countP_cons, List.map_cons, List.sum_cons, ih, w]
      omega

theorem held_count {t : Table} (h : WF t) (P : Nat → Bool) : (storedPkts t).countP P = held t P := by
  unfold storedPkts held
  rw [List.countP_append, count_filterMap]
  congr 1
  · exact (h.sessions_perm.map _).sum_nat
  · unfold heldQ
    induction t.queue with
    | nil => rfl
    | cons a l ih =>
      simp only [List.map_cons, List.countP_cons, List.sum_cons, ih, w]; omega

theorem out_count (ev : List Event) (P : Nat → Bool) : (released ev).countP P = out ev P := by
  induction ev with
  | nil => rfl
  | cons a l ih =>
    unfold released out at *
    cases a <;> simp [Event.pkt, w, ih, List.countP_cons] <;> omega

theorem run_balance {p} : ∀ (hist : List (Env × Op)) (t t' : Table) (ev : List Event), WF t →
    (∀ x ∈ hist, x.2.Ok) → run p t hist = .ok (t', ev) → ∀ P,
    held t' P + out ev P = held t P + (kept p t hist).countP P := by
  intro hist
  induction hist with
  | nil =>
    intro t t' ev _ _ hr P
    simp only [run, Outcome.ok.injEq, Prod.mk.injEq] at hr
    obtain ⟨rfl, rfl⟩ := hr
    simp [kept]
  | cons x rest ih =>
    intro t t' ev h he hr P
    obtain ⟨en, o⟩ := x
    have hx := he (en, o) (by simp)
    simp only [run] at hr
    unfold kept
    cases hs : step p t en o with
    | ub u => simp [hs] at hr
    | ok r =>
      simp only [hs] at hr ⊢
      cases hq : run p r.1 rest with
      | ub u => simp [hq] at hr
      | ok q =>
        simp only [hq, Outcome.ok.injEq, Prod.mk.injEq] at hr
        obtain ⟨rfl, rfl⟩ := hr
        have g := (step_ok h hx hs).1
        have a : held r.1 P + out r.2.1 P = held t P + w P (if r.2.2 = .stolen then o.pkt else none) := g.bal P
        have b := ih r.1 q.1 q.2 g.wf (fun y hy => he y (by simp [hy])) hq P
        have c : (match r.2.2, o with
            | .stolen, .tcp4 _ _ _ _ skb => [skb]
            | _, _ => ([] : List Nat)).countP P = w P (if r.2.2 = .stolen then o.pkt else none) := by
          cases hr2 : r.2.2 with
          | stolen => cases o <;> simp [Op.pkt, w, List.countP_cons]
          | _ => simp
        rw [out_append, List.countP_append, c]
        omega

/-- C26, exactly once: after any history, every kept packet is either still kept or was released, never
both, with multiplicities; and nothing else is ever kept or released. -/
theorem so_packets_once {p hist t ev} (h : After p hist t ev) (skb : Nat) :
    (storedPkts t).count skb + (released ev).count skb = (kept p init hist).count skb := by
  have i := After.inv h
  have := run_balance hist init t ev WF_init h.1 h.2 (· == skb)
  rw [List.count_eq_countP, List.count_eq_countP, List.count_eq_countP, held_count i.wf, out_count]
  simpa [held, heldS, heldQ, all, init] using this

/-- The counter never falls below the number of stored packets. -/
theorem so_counter_ge {p hist t ev} (h : After p hist t ev) :
    ((storedPkts t).length : Int) ≤ t.pktCount := by
  have i := After.inv h
  have := held_count i.wf anyPkt
  have e : (storedPkts t).countP anyPkt = (storedPkts t).length := by
    rw [List.countP_eq_length]; intros; rfl
  have := i.pk
  omega

/-- C26, the bound. `M` is any upper bound of the `maximum-simultaneous-opens` values in use during the
history (a `__u32`): there are never more than `M` stored packets. -/
theorem so_bounded {p hist t ev} (h : After p hist t ev) (M : Nat) (hM : M < 2^32)
    (hc : ∀ x ∈ hist, x.1.cfg.maxStored ≤ M) : (storedPkts t).length ≤ M := by
  have hge := so_counter_ge h
  suffices hs : t.pktCount ≤ M by omega
  have K : ∀ (t : Table) (x : Env × Op) r, WF t → (Inv t ∧ t.pktCount ≤ M) → (x.2.Ok ∧ x.1.cfg.maxStored ≤ M) →
      step p t x.1 x.2 = .ok r → Inv r.1 ∧ r.1.pktCount ≤ M := by
    intro t x r hw hi hx hr
    refine ⟨hi.1.step hx.1 hr, ?_⟩
    have hpos := hi.1.pk
    have notmany : tooMany x.1.cfg t = false → t.pktCount + 1 ≤ M := by
      intro hm
      simp only [tooMany, decide_eq_false_iff_not] at hm
      have : t.pktCount % 4294967296 = t.pktCount := by
        apply Int.emod_eq_of_lt <;> omega
      rw [this] at hm
      omega
    -- operations that store nothing cannot raise the counter
    have gen : ∀ o, OpOk t o r → (r.2.2 ≠ .stolen) → r.1.pktCount ≤ M := by
      intro o g hns
      have a := g.good.pk
      have b := g.good.bal anyPkt
      simp only [hns, if_false, w_none] at b
      omega
    have gen0 : OpOk t none r → r.1.pktCount ≤ M := by
      intro g
      have a := g.good.pk
      have b := g.good.bal anyPkt
      have : (if r.2.2 = .stolen then (none : Option Nat) else none) = none := by split <;> rfl
      rw [this, w_none] at b
      omega
    obtain ⟨en, op⟩ := x
    cases op with
    | add6 m s6 d6 d4 =>
      simp only [step] at hr
      split at hr
      · cases hr; exact hi.2
      · exact gen0 (add6_ok hw hx.1 hr none)
    | add4 s4 d4 d6 =>
      simp only [step] at hr
      split at hr
      · cases hr; exact hi.2
      · exact gen0 (add4_ok hw hr none)
    | tcp6 m sg s6 d6 d4 =>
      simp only [step] at hr
      split at hr
      · exact gen0 (tcp6_ok hw hx.1 hr none)
      · cases hr; exact hi.2
    | tcp4 sg s4 d4 d6 skb =>
      simp only [step] at hr
      split at hr
      · have g := tcp4_ok hw hr
        by_cases hst : r.2.2 = .stolen
        · have a := g.good.pk
          have b := g.good.bal anyPkt
          simp only [hst, if_true] at b
          have hw1 : w anyPkt (some skb) = 1 := rfl
          rw [hw1] at b
          have : tooMany en.cfg t = false := by
            unfold tcp4 at hr
            cases hmm : tooMany en.cfg t with
            | false => rfl
            | true =>
              exfalso
              simp only [storeType1, hmm, if_true, tcpCollision] at hr
              repeat' split at hr
              all_goals (first | (cases hr; done) | (cases hr; simp at hst))
              all_goals (repeat' split at hst)
              all_goals simp at hst
          have := notmany this
          omega
        · exact gen _ g hst
      · cases hr; exact hi.2
    | joold s =>
      exact gen0 (jooldAdd_ok hw hr none)
    | clean =>
      exact gen0 (clean_ok hw hr none)
    | addStatic b =>
      have : r.1.pktCount = t.pktCount := by
        simp only [step, addStatic] at hr
        repeat' split at hr
        all_goals (cases hr; rfl)
      rw [this]; exact hi.2
    | rm b =>
      exact gen0 (rmBib_ok hw hr none)
    | rmRange rg =>
      exact gen0 (rmRange_ok hw hr none)
    | flush =>
      exact gen0 (flush_ok hw hr none)
  exact (run_induct (I := fun t => Inv t ∧ t.pktCount ≤ M) (E := fun x => x.2.Ok ∧ x.1.cfg.maxStored ≤ M)
    (fun _ h => h.1) K hist init t ev WF_init ⟨Inv_init, by simp [init]⟩
    (fun x hx => ⟨h.1 x hx, hc x hx⟩) h.2).2.2

/-- C26, the counter. It is the number of stored packets as long as no static TCP entry is added.

Missing from the full property: `__bib_add_static` frees the packets which are waiting for the new
entry's IPv4 address, but does not decrease the counter. See `so_counter_leaks`. -/
theorem so_counter_exact_partial {p hist t ev} (h : After p hist t ev)
    (hs : p = .TCP → ∀ x ∈ hist, ∀ b, x.2 ≠ .addStatic b) :
    t.pktCount = (storedPkts t).length := by
  have i := After.inv h
  have e : (storedPkts t).countP anyPkt = (storedPkts t).length := by
    rw [List.countP_eq_length]; intros; rfl
  rw [← e, held_count i.wf]
  have K : ∀ (t : Table) (x : Env × Op) r, WF t → t.pktCount = held t anyPkt →
      (x.2.Ok ∧ (p = .TCP → ∀ b, x.2 ≠ .addStatic b)) →
      step p t x.1 x.2 = .ok r → r.1.pktCount = held r.1 anyPkt := by
    intro t x r hw hi hx hr
    have gen : ∀ o, OpOk t o r → r.1.pktCount = held r.1 anyPkt := by
      intro o g; have a := g.good.pk; omega
    obtain ⟨en, op⟩ := x
    cases op with
    | add6 m s6 d6 d4 =>
      simp only [step] at hr
      split at hr
      · cases hr; exact hi
      · exact gen _ (add6_ok hw hx.1 hr none)
    | add4 s4 d4 d6 =>
      simp only [step] at hr
      split at hr
      · cases hr; exact hi
      · exact gen _ (add4_ok hw hr none)
    | tcp6 m sg s6 d6 d4 =>
      simp only [step] at hr
      split at hr
      · exact gen _ (tcp6_ok hw hx.1 hr none)
      · cases hr; exact hi
    | tcp4 sg s4 d4 d6 skb =>
      simp only [step] at hr
      split at hr
      · exact gen _ (tcp4_ok hw hr)
      · cases hr; exact hi
    | joold s => exact gen _ (jooldAdd_ok hw hr none)
    | clean => exact gen _ (clean_ok hw hr none)
    | addStatic b =>
      have g := (addStatic_ok hw hr).2.2.2 (fun hp => absurd rfl (hx.2 hp b))
      have a := g.pk
      omega
    | rm b => exact gen _ (rmBib_ok hw hr none)
    | rmRange rg => exact gen _ (rmRange_ok hw hr none)
    | flush => exact gen _ (flush_ok hw hr none)
  exact (run_induct (I := fun t => t.pktCount = held t anyPkt)
    (E := fun x => x.2.Ok ∧ (p = .TCP → ∀ b, x.2 ≠ .addStatic b))
    (fun _ h => h.1) K hist init t ev WF_init rfl
    (fun x hx => ⟨h.1 x hx, fun hp => hs hp x hx⟩) h.2).2

def exSyn4 : Seg := ⟨.V4, true, false, false⟩
/-- A SYN from the IPv4 Internet towards an address without BIB entry, then the administrator adds the
entry. -/
def exLeak : List (Env × Op) :=
  [(exEnv, .tcp4 exSyn4 exB.src4 ⟨0x08080808#32, 80#16⟩ ⟨7#128, 80#16⟩ 42), (exEnv, .addStatic exB)]

/-- The full version of C26's counter fails: nothing is stored, but the counter says 1. -/
theorem so_counter_leaks : ∃ t ev, After .TCP exLeak t ev ∧ storedPkts t = [] ∧ t.pktCount = 1 := by
  refine ⟨(exOut (run .TCP init exLeak)).1, _, ⟨?_, rfl⟩, by decide, by decide⟩
  intro x hx
  simp only [exLeak, List.mem_cons, List.not_mem_nil, or_false] at hx
  rcases hx with rfl | rfl <;> trivial

/-- ... and no later operation, of any kind, repairs the counter. -/
theorem so_leak_permanent {p hist hist' t ev t' ev'} (h : After p hist t ev)
    (h' : After p (hist ++ hist') t' ev') :
    t.pktCount - ((storedPkts t).length : Int) ≤ t'.pktCount - ((storedPkts t').length : Int) := by
  have len : ∀ t, WF t → ((storedPkts t).length : Int) = held t anyPkt := by
    intro t hw
    rw [← held_count hw]
    congr 1
    symm
    rw [List.countP_eq_length]; intros; rfl
  have i := After.inv h
  have i' := After.inv h'
  rw [len t i.wf, len t' i'.wf]
  have hrun : ∃ ev2, run p t hist' = .ok (t', ev2) := by
    have G : ∀ (a : List (Env × Op)) (t0 t : Table) ev, run p t0 a = .ok (t, ev) →
        ∀ ev', run p t0 (a ++ hist') = .ok (t', ev') → ∃ ev2, run p t hist' = .ok (t', ev2) := by
      intro a
      induction a with
      | nil => intro t0 t ev h1 ev' h2; simp only [run, Outcome.ok.injEq, Prod.mk.injEq] at h1; rw [← h1.1]; exact ⟨ev', h2⟩
      | cons x rest ih =>
        intro t0 t ev h1 ev' h2
        obtain ⟨en, o⟩ := x
        simp only [List.cons_append, run] at h1 h2
        cases hs : step p t0 en o with
        | ub u => simp [hs] at h1
        | ok r =>
          simp only [hs] at h1 h2
          cases hq : run p r.1 rest with
          | ub u => simp [hq] at h1
          | ok q =>
            cases hq2 : run p r.1 (rest ++ hist') with
            | ub u => simp [hq2] at h2
            | ok q2 =>
              simp only [hq, hq2, Outcome.ok.injEq, Prod.mk.injEq] at h1 h2
              refine ih r.1 t q.2 ?_ q2.2 ?_
              · rw [hq, ← h1.1]
              · rw [hq2, ← h2.1]
    exact G hist init t ev h.2 ev' h'.2
  obtain ⟨ev2, hr⟩ := hrun
  have K := run_induct (p := p)
    (I := fun x => t.pktCount - (held t anyPkt : Int) ≤ x.pktCount - (held x anyPkt : Int))
    (E := fun x => x.2.Ok) (fun _ h => h) (fun t1 x r hw hi hx hs => by
      have := (step_ok hw hx hs).1.pk
      omega) hist' t t' ev2 i.wf (Int.le_refl _) (fun x hx => h'.1 x (by simp [hx])) hr
  exact K.2

/-! ## Concrete cases: the hypotheses are met by non-trivial histories -/

/-- Two UDP flows from two IPv6 nodes, an answer, a static entry, a sweep. -/
def exHist : List (Env × Op) :=
  [(exEnv, .add6 ⟨[(⟨0xc0000201#32, 5000#16⟩, false), (⟨0xc0000201#32, 5001#16⟩, true)], false, fun _ => true⟩
      ⟨1#128, 10#16⟩ ⟨99#128, 53#16⟩ ⟨0x08080808#32, 53#16⟩),
   (exEnv, .add6 ⟨[(⟨0xc0000201#32, 5000#16⟩, false), (⟨0xc0000201#32, 5001#16⟩, true)], false, fun _ => true⟩
      ⟨2#128, 10#16⟩ ⟨99#128, 53#16⟩ ⟨0x08080808#32, 53#16⟩),
   (exEnv, .add4 ⟨0xc0000201#32, 5001#16⟩ ⟨0x08080404#32, 53#16⟩ ⟨98#128, 53#16⟩),
   (exEnv, .addStatic exB),
   ({ exEnv with now := 302000 }, .clean)]

example : ∃ t ev, After .UDP exHist t ev := by
  refine ⟨_, _, ?_, exOut_ok (by decide +kernel)⟩
  intro x hx
  simp only [exHist, List.mem_cons, List.not_mem_nil, or_false] at hx
  rcases hx with rfl | rfl | rfl | rfl | rfl <;> simp [Op.Ok, Masks.Ok, Consec]

example : (bibs (exOut (run .UDP init (exHist.take 4))).1).length = 3 ∧
    (sessions (exOut (run .UDP init (exHist.take 4))).1).length = 3 ∧
    bibs (exOut (run .UDP init exHist)).1 = [exB] ∧
    sessions (exOut (run .UDP init exHist)).1 = [] := by decide +kernel

/-- A stored SYN that is answered with an error by the sweep: kept once, released once. -/
example :
    kept .TCP init [(exEnv, .tcp4 exSyn4 exB.src4 ⟨1#32, 80#16⟩ ⟨7#128, 80#16⟩ 42),
      ({ exEnv with now := 7000 }, .clean)] = [42] ∧
    released (exOut (run .TCP init [(exEnv, .tcp4 exSyn4 exB.src4 ⟨1#32, 80#16⟩ ⟨7#128, 80#16⟩ 42),
      ({ exEnv with now := 7000 }, .clean)])).2 = [42] := by decide +kernel

end Bib
end Jool
