import Verif.Lemmas.AtomicRun
import Verif.Props.XlatorDefects
/-
C49: loading a configuration file is atomic.

Specification: `Conf`, `Req.apply` (what a request makes of a configuration; in Lemmas/AtomicReq.lean), and below: `Key` (who
uploads what), `track` (the configuration that a client has described so far), `Became`.
-/
namespace Jool.Atomic

open Xlator

variable {D : Type}

/-- The states of all histories. -/
def Reachable (sys : Sys D) (s : St D) : Prop := ∃ ops, arun sys (St.start sys) ops = .ok s

theorem Reachable.inv {sys : Sys D} {s : St D} (h : Reachable sys s) : Inv sys s Non := by
  obtain ⟨ops, e⟩ := h
  obtain ⟨s', e', hi⟩ := inv_run ops (inv_start sys)
  rw [e] at e'
  injection e' with e'
  exact e' ▸ hi

/-- C49: whatever clients send, and whatever happens in between, every history is well defined up to the assignment of
mod/atomic_config.c:367: no freed database or candidate is used. -/
theorem history_defined (sys : Sys D) (ops : List (AOp D)) : ∃ s, arun sys (St.start sys) ops = .ok s :=
  (inv_run ops (inv_start sys)).imp fun _ h => h.1

/-! ## Nothing changes before the commit -/

/-- Whoever uses copy `k` of an instance is not a candidate. -/
def NotCand (s : St D) (k : Nat) : Prop := ∀ c ∈ s.cands, c.clone ≠ k

/-- C49: a request that fails, or that is not the last of its upload, changes neither the instances, nor their databases, nor
the databases of the packets that are being translated. -/
theorem not_committed {sys : Sys D} {s s' : St D} (h : Reachable sys s) {r : Req D} {code : Code}
    (hs : requestLucky sys r s = .ok (s', code)) (hc : ¬ (r.fin = true ∧ code = .ok)) :
    s'.w.table = s.w.table ∧ (∀ n ∈ s.w.table, ∀ d ∈ n.xl.objs, s'.data d = s.data d) ∧
    ∀ p ∈ s.w.clones, NotCand s p.1 → p ∈ s'.w.clones ∧ ∀ d ∈ p.2.objs, s'.data d = s.data d := by
  have hi := h.inv
  obtain ⟨s2, code2, res, e, hi2, hb⟩ := body_spec r hi
  rw [lucky_eq, e] at hs
  injection hs with hs
  injection hs with hs1 hs2
  have ht : s'.w = s2.w := by rw [← hs1]; cases res <;> rfl
  have hd : s'.data = s2.data := by rw [← hs1]; cases res <;> rfl
  dsimp only at hs2
  subst hs2
  rw [ht, hd]
  rcases hb with ⟨_, _, hf, _⟩ | ⟨s1, k, x, sel, hdat, _, hcl, hrest⟩
  · exact ⟨hf.table, fun n _ d _ => by rw [hf.data], fun p hp hk => ⟨hf.others p hp hk, fun d _ => by rw [hf.data]⟩⟩
  · have hpriv : Priv s1.w k x := by
      obtain ⟨c, hc1, hc2, _⟩ := sel.cand
      obtain ⟨y, hy, hp⟩ := sel.inv.cand c hc1
      rw [hc2] at hy hp
      have := clone_unique sel.inv.ids hy sel.clone
      subst this
      exact hp id
    have htab : s2.w.table = s.w.table := by
      rcases hrest with ⟨_, _, ht, _⟩ | ⟨hok, _, c, g, _, _, ⟨_, ht, _⟩ | ⟨hfin, _⟩⟩
      · exact ht
      · exact ht
      · exact absurd ⟨hfin, hok⟩ hc
    refine ⟨htab, fun n hn d hd => hdat d fun hx => ?_, fun p hp hk => ?_⟩
    · exact hpriv.vis d hx (.inl ⟨n, sel.table ▸ hn, hd⟩)
    · obtain ⟨h1, h2⟩ := sel.others p hp hk
      exact ⟨(hcl p h2).2 h1, fun d hd => hdat d fun hx => hpriv.others p h1 h2 d hx hd⟩

/-- C49: giving all uploads up does not change the instances either. -/
theorem teardown_unchanged {sys : Sys D} {s s' : St D} (h : Reachable sys s) {code : Code}
    (hs : astep sys s .teardown = .ok (s', code)) :
    s'.cands = [] ∧ s'.w.table = s.w.table ∧ s'.data = s.data := by
  obtain ⟨s2, e, _, h1, h2, h3⟩ := teardown_spec h.inv rfl
  have hs : (teardown s.cands s).map _ = _ := hs
  rw [e] at hs
  injection hs with hs
  injection hs with hs _
  subst hs
  exact ⟨h1, h2, h3⟩

/-! ## The commit -/

/-- An upload: the client's process, and the namespace and name of the instance. -/
structure Key where
  ns : Ns
  pid : Nat
  name : Name
deriving DecidableEq

def Req.key (r : Req D) : Key := ⟨r.ns, r.pid, r.name⟩

/-- Candidate `k`, which is `x`, belongs to upload `K`. -/
structure Mine (s : St D) (K : Key) (k : Nat) (x : Xl) : Prop where
  cand : ∃ c ∈ s.cands, c.clone = k ∧ c.pid = K.pid
  clone : (k, x) ∈ s.w.clones
  ns : x.ns = K.ns
  name : x.name = K.name

/-- Upload `K` has one candidate, with configuration `c`. -/
def Holds (s : St D) (K : Key) (c : Conf D) : Prop :=
  ∃ k x, Mine s K k x ∧ s.conf x = c ∧ ∀ k' x', Mine s K k' x' → k' = k

def Without (s : St D) (K : Key) : Prop := ∀ k x, ¬ Mine s K k x

/-- The configuration that request `r` is about: a new one, or the one described so far. -/
def Req.base (sys : Sys D) (r : Req D) (m : Option (Conf D)) : Option (Conf D) :=
  match r.init with
  | some f => some ⟨f ||| r.xt, sys.dflt (xtOf (f ||| r.xt)), sys.empty, sys.empty⟩
  | none => m

/-- Specification: the configuration that client `K` has described so far; none before the upload, after the commit, and after
a failure. `code`: what the client was answered. -/
def track (sys : Sys D) (K : Key) (m : Option (Conf D)) (o : AOp D) (code : Code) : Option (Conf D) :=
  match o with
  | .req r => if r.key = K then (if code = .ok ∧ r.fin = false then (r.base sys m).bind r.apply else none) else m
  | _ => m

/-- The client does not start an upload while it has another one. -/
def Orderly (K : Key) (m : Option (Conf D)) (o : AOp D) : Prop :=
  ∀ r f, o = .req r → r.key = K → r.init = some f → m = none

/-- Specification: between `s` and `s'` the instance of upload `K` became `c`, and nothing else changed. If it existed, NAT64
keeps its BIB, its sessions and its joold queue. -/
structure Became (s s' : St D) (K : Key) (c : Conf D) (n : Node) : Prop where
  mem : n ∈ s'.w.table
  ns : n.xl.ns = K.ns
  name : n.xl.name = K.name
  flags : n.xl.flags = c.flags
  globals : n.xl.globals = c.globals
  a : s'.data n.xl.a = c.a
  b : (∀ o ∈ s.w.table, o.xl.ns = K.ns → xtOf o.xl.flags = xtOf c.flags → o.xl.name ≠ K.name) ∨ xtOf c.flags = 1 →
    s'.data n.xl.b = c.b
  kept : ∀ o ∈ s.w.table, o.xl.ns = K.ns → xtOf o.xl.flags = xtOf c.flags → o.xl.name = K.name → xtOf c.flags = 2 →
    n.xl.b = o.xl.b ∧ n.xl.c = o.xl.c ∧ s'.data o.xl.b = s.data o.xl.b ∧ s'.data o.xl.c = s.data o.xl.c
  others : ∀ m, m ≠ n →
    (m ∈ s'.w.table ↔ m ∈ s.w.table ∧ ¬ (m.xl.ns = K.ns ∧ xtOf m.xl.flags = xtOf c.flags ∧ m.xl.name = K.name))
  data : ∀ m ∈ s.w.table, ∀ d ∈ m.xl.objs, s'.data d = s.data d

def Tracked (s : St D) (K : Key) (m : Option (Conf D)) : Prop :=
  (m = none → Without s K) ∧ ∀ c, m = some c → nameValid K.name = true ∧ (Holds s K c ∨ Without s K)

theorem mine_touched {s : St D} {K : Key} {k : Nat} {x : Xl} {now : BitVec 64} {o : Option Nat} :
    Mine (s.touched now o) K k x ↔ Mine s K k x := by
  have hw : (s.touched now o).w = s.w := by cases o <;> rfl
  have hm : (∃ c ∈ (s.touched now o).cands, c.clone = k ∧ c.pid = K.pid) ↔ ∃ c ∈ s.cands, c.clone = k ∧ c.pid = K.pid :=
    touched_mem fun _ _ => Iff.rfl
  constructor
  · rintro ⟨h1, h2, h3, h4⟩
    exact ⟨hm.1 h1, hw ▸ h2, h3, h4⟩
  · rintro ⟨h1, h2, h3, h4⟩
    exact ⟨hm.2 h1, hw.symm ▸ h2, h3, h4⟩

theorem holds_touched {s : St D} {K : Key} {c : Conf D} {now : BitVec 64} {o : Option Nat} :
    Holds (s.touched now o) K c ↔ Holds s K c := by
  have hd : (s.touched now o).data = s.data := by cases o <;> rfl
  unfold Holds St.conf
  simp only [mine_touched, hd]

theorem without_touched {s : St D} {K : Key} {now : BitVec 64} {o : Option Nat} :
    Without (s.touched now o) K ↔ Without s K := by
  unfold Without
  simp only [mine_touched]

/-- The candidates of `K` in `s'` are among those of `s`, and have not changed. -/
theorem Holds.mono {s s' : St D} {K : Key} {c : Conf D} (h : Holds s K c)
    (hm : ∀ k x, Mine s' K k x → Mine s K k x)
    (hd : ∀ k x, Mine s' K k x → s'.data x.a = s.data x.a ∧ s'.data x.b = s.data x.b) (hi : Ids s.w) :
    Holds s' K c ∨ Without s' K := by
  obtain ⟨k, x, hk, hc, hu⟩ := h
  by_cases hw : Without s' K
  · exact .inr hw
  · refine .inl ?_
    unfold Without at hw
    simp only [Classical.not_forall, Classical.not_not] at hw
    obtain ⟨k', x', hk'⟩ := hw
    have hkk := hu _ _ (hm _ _ hk')
    subst hkk
    have hxx := clone_unique hi (hm _ _ hk').clone hk.clone
    subst hxx
    refine ⟨_, _, hk', ?_, fun k2 x2 h2 => hu _ _ (hm _ _ h2)⟩
    rw [← hc]
    unfold St.conf
    rw [(hd _ _ hk').1, (hd _ _ hk').2]

theorem Tracked.mono {s s' : St D} {K : Key} {m : Option (Conf D)} (h : Tracked s K m)
    (hm : ∀ k x, Mine s' K k x → Mine s K k x)
    (hd : ∀ k x, Mine s' K k x → s'.data x.a = s.data x.a ∧ s'.data x.b = s.data x.b) (hi : Ids s.w) :
    Tracked s' K m :=
  ⟨fun e k x hk => h.1 e k x (hm _ _ hk), fun c hc => ⟨(h.2 c hc).1, by
    rcases (h.2 c hc).2 with h | h
    · exact h.mono hm hd hi
    · exact .inr fun k x hk => h k x (hm _ _ hk)⟩⟩

theorem tracked_touched {s : St D} {K : Key} {m : Option (Conf D)} {now : BitVec 64} {o : Option Nat} (h : Tracked s K m) :
    Tracked (s.touched now o) K m :=
  ⟨fun e => without_touched.2 (h.1 e), fun c hc => ⟨(h.2 c hc).1, (h.2 c hc).2.imp holds_touched.2 without_touched.2⟩⟩

theorem cand_unique {l : List Cand} (hn : (l.map (·.clone)).Nodup) {c d : Cand} (hc : c ∈ l) (hd : d ∈ l)
    (e : c.clone = d.clone) : c = d := by
  induction l with
  | nil => cases hc
  | cons a l ih =>
    rw [List.map_cons, List.nodup_cons] at hn
    rcases List.mem_cons.1 hc with hc | hc <;> rcases List.mem_cons.1 hd with hd | hd
    · rw [hc, hd]
    · exact absurd (List.mem_map.2 ⟨d, hd, by rw [← e, hc]⟩) hn.1
    · exact absurd (List.mem_map.2 ⟨c, hc, by rw [e, hd]⟩) hn.1
    · exact ih hn.2 hc hd

theorem Sel.priv {sys : Sys D} {r : Req D} {s s1 : St D} {k : Nat} {x : Xl} (sel : Sel sys r s s1 k x) : Priv s1.w k x := by
  obtain ⟨c, hc1, hc2, _⟩ := sel.cand
  obtain ⟨y, hy, hp⟩ := sel.inv.cand c hc1
  rw [hc2] at hy hp
  have := clone_unique sel.inv.ids hy sel.clone
  subst this
  exact hp id

/-- The candidates of other uploads are among the earlier ones, and have not changed. -/
theorem Sel.rest_mine {sys : Sys D} {r : Req D} {s s1 s2 : St D} {k : Nat} {x : Xl} (sel : Sel sys r s s1 k x)
    (hsub : ∀ c ∈ s2.cands, c ∈ s1.cands) (hcl : ∀ p, p.1 ≠ k → (p ∈ s2.w.clones ↔ p ∈ s1.w.clones)) {K : Key} {k' : Nat} {x' : Xl}
    (h : Mine s2 K k' x') (hne : k' ≠ k) : Mine s K k' x' ∧ (k', x') ∈ s1.w.clones := by
  obtain ⟨c, hc, h1, h2⟩ := h.cand
  have h3 := (hcl (k', x') hne).1 h.clone
  exact ⟨⟨⟨c, sel.rest c (hsub c hc) (h1 ▸ hne), h1, h2⟩, sel.clones _ h3 hne, h.ns, h.name⟩, h3⟩

/-- A request of somebody else. -/
theorem other_request {sys : Sys D} {s s' : St D} {r : Req D} {code : Code} {K : Key} {m : Option (Conf D)} (hi : Inv sys s Non)
    (hs : requestLucky sys r s = .ok (s', code)) (hk : r.key ≠ K) (ht : Tracked s K m) : Tracked s' K m := by
  obtain ⟨s2, code2, res, e, hi2, hb⟩ := body_spec r hi
  rw [lucky_eq, e] at hs
  injection hs with hs
  injection hs with hs1 hs2
  subst hs1
  refine tracked_touched ?_
  rcases hb with ⟨_, _, hf, _⟩ | ⟨s1, k, x, sel, hdat, _, hcl, hrest⟩
  · refine ht.mono (fun k x h => ?_) (fun _ _ _ => by rw [hf.data]; exact ⟨rfl, rfl⟩) hi.ids
    obtain ⟨c, hc, h1⟩ := h.cand
    exact ⟨⟨c, hf.cands c hc, h1⟩, hf.clones _ h.clone, h.ns, h.name⟩
  · have hsub : ∀ c ∈ s2.cands, c ∈ s1.cands := by
      rcases hrest with ⟨_, _, _, _, hc, _⟩ | ⟨_, _, c, g, _, _, ⟨_, _, _, hc, _⟩ | ⟨_, hc, _⟩⟩
      · exact fun c h => ((hc c).1 h).1
      · exact fun c h => hc ▸ h
      · exact fun c h => ((hc c).1 h).1
    have hne : ∀ k' x', Mine s2 K k' x' → k' ≠ k := by
      rintro k' x' h rfl
      obtain ⟨c, hc, h1, h2⟩ := h.cand
      rcases hrest with ⟨_, _, _, _, hc', _⟩ | ⟨_, _, c', g, _, _, ⟨_, _, _, hc', hx⟩ | ⟨_, hc', _⟩⟩
      · exact ((hc' c).1 hc).2 h1
      · have := clone_unique hi2.ids h.clone hx
        subst this
        obtain ⟨c2, hc2, h3, h4⟩ := sel.cand
        have := cand_unique sel.inv.nodup (hsub c hc) hc2 (h1.trans h3.symm)
        subst this
        apply hk
        have e1 : x.ns = K.ns := h.ns
        have e2 : x.name = K.name := h.name
        unfold Req.key
        rw [← sel.ns, ← sel.name, ← h4, e1, e2, h2]
      · exact ((hc' c).1 hc).2 h1
    refine ht.mono (fun k' x' h => (sel.rest_mine hsub hcl h (hne _ _ h)).1) (fun k' x' h => ?_) hi.ids
    have hx := (sel.rest_mine hsub hcl h (hne _ _ h)).2
    have hd : ∀ d ∈ x'.objs, s2.data d = s.data d := fun d hd => hdat d fun h2 => sel.priv.others _ hx (hne _ _ h) d h2 hd
    exact ⟨hd _ mem_objs.1, hd _ mem_objs.2⟩

theorem body_name {sys : Sys D} {s s' : St D} {r : Req D} {code : Code} {res : Option Nat} (h : body sys r s = .ok (s', code, res))
    (hc : code = .ok) : nameValid r.name = true := by
  unfold body at h
  split at h
  · injection h with h
    injection h with _ h
    injection h with h
    subst hc
    cases h
  · rename_i hn
    simpa using hn

theorem nat64_of : ∀ {f : Flags}, xtOf f = 2 → isNat64 f = true := by decide

/-- A request of the client. -/
theorem own_request {sys : Sys D} {s s' : St D} {r : Req D} {code : Code} {K : Key} {m : Option (Conf D)} (hi : Inv sys s Non)
    (hs : requestLucky sys r s = .ok (s', code)) (hk : r.key = K) (ht : Tracked s K m) (ho : Orderly K m (.req r)) :
    Tracked s' K (track sys K m (.req r) code) ∧
    (r.fin = true → code = .ok → ∃ c c' n, r.base sys m = some c ∧ r.apply c = some c' ∧ Became s s' K c' n) := by
  obtain ⟨s2, code2, res, e, hi2, hb⟩ := body_spec r hi
  rw [lucky_eq, e] at hs
  injection hs with hs
  injection hs with hs1 hs2
  dsimp only at hs2
  subst hs2
  have hname := body_name e
  subst hk
  unfold track
  simp only [if_true]
  rcases hb with ⟨_, hne, hf, hno⟩ | ⟨s1, k, x, sel, hdat, _, hcl, hrest⟩
  · refine ⟨?_, fun _ h => absurd h hne⟩
    rw [if_neg (fun h => hne h.1), ← hs1]
    refine tracked_touched ⟨fun _ => ?_, fun c hc => by cases hc⟩
    have hw : Without s r.key := by
      cases hri : r.init with
      | some f => exact ht.1 (ho r f rfl rfl hri)
      | none =>
        cases m with
        | none => exact ht.1 rfl
        | some c =>
          intro k x h
          obtain ⟨c2, hc2, h1, h2⟩ := h.cand
          refine hno (ht.2 c rfl).1 hri c2 hc2 ⟨h2, x, h1 ▸ h.clone, h.ns, h.name⟩
    intro k x h
    obtain ⟨c, hc, h1⟩ := h.cand
    exact hw k x ⟨⟨c, hf.cands c hc, h1⟩, hf.clones _ h.clone, h.ns, h.name⟩
  · have hpriv := sel.priv
    have hbase : r.base sys m = some (s1.conf x) ∧ ∀ k' x', Mine s r.key k' x' → k' = k := by
      unfold Req.base
      rcases sel.which with ⟨f, hri, hkn, hfl, hgl, hob, _⟩ | ⟨hri, hx, c, hc, hck, hown⟩
      · rw [hri]
        refine ⟨?_, fun k' x' h => absurd h (ht.1 (ho r f rfl rfl hri) k' x')⟩
        unfold St.conf
        dsimp only
        rw [hfl, hgl, sel.data, hi.data _ (hob _ mem_objs.1), hi.data _ (hob _ mem_objs.2)]
      · rw [hri]
        obtain ⟨h1, y, hy, h2, h3⟩ := hown
        have hm : Mine s r.key k x := ⟨⟨c, hc, hck, h1⟩, hx, sel.ns, sel.name⟩
        cases m with
        | none => exact absurd hm (ht.1 rfl k x)
        | some c =>
          rcases (ht.2 c rfl).2 with h | h
          · obtain ⟨k0, x0, hm0, hc0, hu⟩ := h
            have hk0 := hu _ _ hm
            subst hk0
            have hx0 := clone_unique hi.ids hm0.clone hm.clone
            subst hx0
            refine ⟨?_, hu⟩
            dsimp only
            rw [← hc0]
            unfold St.conf
            rw [sel.data]
          · exact absurd hm (h k x)
    rw [hbase.1]
    have huniq : (∀ c ∈ s2.cands, c ∈ s1.cands) → ∀ k' x', Mine s2 r.key k' x' → k' = k := by
      intro hsub k' x' h
      by_cases hne : k' = k
      · exact hne
      · exact hbase.2 _ _ (sel.rest_mine hsub hcl h hne).1
    have hgone : (∀ c, c ∈ s2.cands ↔ c ∈ s1.cands ∧ c.clone ≠ k) → Without s2 r.key := by
      intro hc k' x' h
      have hkk := huniq (fun c h => ((hc c).1 h).1) k' x' h
      obtain ⟨c, hc1, h1, _⟩ := h.cand
      exact ((hc c).1 hc1).2 (h1.trans hkk)
    rcases hrest with ⟨_, hne, _, _, hc, _⟩ | ⟨hok, _, c, g, hap, hcf, ⟨hfin, _, _, hc, hx⟩ | ⟨hfin, hc, old, n, hold, hins⟩⟩
    · refine ⟨?_, fun _ h => absurd h hne⟩
      rw [if_neg (fun h => hne h.1), ← hs1]
      exact tracked_touched ⟨fun _ => hgone hc, fun c hc => by cases hc⟩
    · refine ⟨?_, fun h => by rw [hfin] at h; cases h⟩
      rw [if_pos ⟨hok, hfin⟩, ← hs1]
      refine tracked_touched ?_
      show Tracked s2 r.key (r.apply (s1.conf x))
      rw [hap]
      refine ⟨fun h => (by cases h), fun c' hc' => ⟨hname hok, .inl ⟨k, { x with globals := g }, ⟨?_, hx, sel.ns, sel.name⟩, ?_,
        huniq fun c h => hc ▸ h⟩⟩⟩
      · rw [hc]; exact sel.cand
      · injection hc' with hc'; rw [← hc']; exact hcf
    · constructor
      · rw [if_neg (fun h => by rw [hfin] at h; exact absurd h.2 (by simp)), ← hs1]
        exact tracked_touched ⟨fun _ => hgone hc, fun c hc => by cases hc⟩
      · intro _ _
        refine ⟨_, c, n, rfl, hap, ?_⟩
        have hw : s'.w = s2.w := by rw [← hs1]; cases res <;> rfl
        have hd : s'.data = s2.data := by rw [← hs1]; cases res <;> rfl
        have hdata : ∀ m ∈ s.w.table, ∀ d ∈ m.xl.objs, s'.data d = s.data d := by
          intro m hm d hd'
          rw [hd]
          exact hdat d fun hx => hpriv.vis d hx (.inl ⟨m, sel.table ▸ hm, hd'⟩)
        have hfl : c.flags = x.flags := by rw [← hcf]; rfl
        have hgl : c.globals = g := by rw [← hcf]; rfl
        have hca : c.a = s2.data x.a := by rw [← hcf]; rfl
        have hcb : c.b = s2.data x.b := by rw [← hcf]; rfl
        have hid : ∀ o, old = some o ↔ o ∈ s.w.table ∧ o.xl.ns = r.key.ns ∧ xtOf o.xl.flags = xtOf c.flags ∧ o.xl.name = r.key.name := by
          intro o
          rw [hold o, sel.ns, sel.name, hfl]
          rfl
        refine ⟨?_, hins.ns.trans sel.ns, hins.name.trans sel.name, hins.flags.trans hfl.symm, hins.globals.trans hgl.symm,
          ?_, fun h => ?_, fun o ho h1 h2 h3 h4 => ?_, fun m hm => ?_, hdata⟩
        · rw [hw]; exact (hins.table n).2 (.inl rfl)
        · rw [hd, hca]; exact congrArg _ hins.a
        · rw [hd, hcb]
          refine congrArg _ (hins.b ?_).1
          rcases h with h | h
          · left
            cases old with
            | none => rfl
            | some o =>
              obtain ⟨q1, q2, q3, q4⟩ := (hid o).1 rfl
              exact absurd q4 (h o q1 q2 q3)
          · right
            rw [hfl] at h
            exact h
        · have hoo := (hid o).2 ⟨ho, h1, h2, h3⟩
          obtain ⟨e1, e2⟩ := hins.keepBib o hoo (by rw [hfl] at h4; exact h4)
          refine ⟨e1, e2, hdata o ho _ mem_objs.2, hdata o ho _ ?_⟩
          have hn : isNat64 o.xl.flags = true := nat64_of (h2.trans h4)
          unfold Xl.objs
          rw [if_pos hn]
          simp
        · rw [hw, hins.table m]
          constructor
          · rintro (h | ⟨h1, h2⟩)
            · exact absurd h hm
            · exact ⟨h1, fun h => h2 ((hid m).2 ⟨h1, h⟩)⟩
          · rintro ⟨h1, h2⟩
            exact .inr ⟨h1, fun h => h2 ((hid m).1 h).2⟩

/-- Any other step. -/
theorem other_step {sys : Sys D} {s s' : St D} {o : AOp D} {code : Code} {K : Key} {m : Option (Conf D)} (hi : Inv sys s Non)
    (hs : astep sys s o = .ok (s', code)) (hk : ∀ r, o ≠ .req r) (ht : Tracked s K m) : Tracked s' K m := by
  have hi' : Inv sys s' Non := by
    obtain ⟨q, e, h⟩ := inv_step hi o
    rw [hs] at e
    injection e with e
    subst e
    exact h
  cases o with
  | req r => exact absurd rfl (hk r)
  | sys o =>
    unfold astep at hs
    dsimp only at hs
    split at hs
    · injection hs with hs; injection hs with hs _; exact hs ▸ ht
    · rename_i hc
      obtain ⟨⟨w', code'⟩, e, he⟩ := map_ok hs
      injection he with he _
      subst he
      have f := eff_step hi.good e
      refine ht.mono (fun k x h => ?_) (fun _ _ _ => ⟨rfl, rfl⟩) hi.ids
      refine ⟨h.cand, ?_, h.ns, h.name⟩
      obtain ⟨c, hc1, h1, _⟩ := h.cand
      obtain ⟨y, hy, _⟩ := hi.cand c hc1
      have hy' : (c.clone, y) ∈ w'.clones := f.keep _ hy fun e => hc (List.any_eq_true.2 ⟨c, hc1, by simp [e]⟩)
      rw [h1] at hy hy'
      have := clone_unique hi'.ids h.clone hy'
      subst this
      exact hy
  | write k i f =>
    unfold astep at hs
    dsimp only at hs
    split at hs
    · injection hs with hs; injection hs with hs _; exact hs ▸ ht
    · rename_i hc
      split at hs
      · injection hs with hs; injection hs with hs _; exact hs ▸ ht
      · rename_i y hy
        split at hs
        · rename_i ho
          injection hs with hs; injection hs with hs _
          subst hs
          refine ht.mono (fun k' x h => ⟨h.cand, h.clone, h.ns, h.name⟩) (fun k' x h => ?_) hi.ids
          obtain ⟨c, hc1, h1, _⟩ := h.cand
          obtain ⟨z, hz, hp⟩ := hi.cand c hc1
          rw [h1] at hz hp
          have := clone_unique hi.ids hz h.clone
          subst this
          have hne : k ≠ k' := fun e => hc (List.any_eq_true.2 ⟨c, hc1, by simp [h1, e]⟩)
          have hd : ∀ d ∈ z.objs, d ≠ Xl.nth y i := fun d hd e => (hp id).others _ (xl_mem hy) hne d hd (e ▸ ho)
          exact ⟨if_neg (hd _ mem_objs.1), if_neg (hd _ mem_objs.2)⟩
        · injection hs with hs; injection hs with hs _; exact hs ▸ ht
  | teardown =>
    obtain ⟨s2, e, _, h1, _⟩ := teardown_spec hi rfl
    have hs : (teardown s.cands s).map _ = _ := hs
    rw [e] at hs
    injection hs with hs
    injection hs with hs _
    subst hs
    have hw : Without s2 K := fun k x h => by
      obtain ⟨c, hc, _⟩ := h.cand
      rw [h1] at hc
      cases hc
    exact ⟨fun _ => hw, fun c hc => ⟨(ht.2 c hc).1, .inr hw⟩⟩

/-- Histories in which client `K` is orderly. `m`: what it has described. Everybody else does what they like. -/
inductive History (sys : Sys D) (K : Key) : St D → Option (Conf D) → Prop
  | start : History sys K (St.start sys) none
  | step {s s' : St D} {m : Option (Conf D)} {o : AOp D} {code : Code} (h : History sys K s m) (ho : Orderly K m o)
      (hs : astep sys s o = .ok (s', code)) : History sys K s' (track sys K m o code)

theorem History.spec {sys : Sys D} {K : Key} {s : St D} {m : Option (Conf D)} (h : History sys K s m) :
    Inv sys s Non ∧ Tracked s K m := by
  induction h with
  | start =>
    refine ⟨inv_start sys, fun _ k x h => ?_, fun c hc => by cases hc⟩
    obtain ⟨c, hc, _⟩ := h.cand
    cases hc
  | @step s s' m o code h ho hs ih =>
    refine ⟨?_, ?_⟩
    · obtain ⟨q, e, h⟩ := inv_step ih.1 o
      rw [hs] at e
      injection e with e
      subst e
      exact h
    · cases o with
      | req r =>
        by_cases hk : r.key = K
        · exact (own_request ih.1 hs hk ih.2 ho).1
        · unfold track
          dsimp only
          rw [if_neg hk]
          exact other_request ih.1 hs hk ih.2
      | sys o => exact other_step ih.1 hs (fun _ h => by cases h) ih.2
      | write k i f => exact other_step ih.1 hs (fun _ h => by cases h) ih.2
      | teardown => exact other_step ih.1 hs (fun _ h => by cases h) ih.2

/-- C49: when the final request of client `K` succeeds, the instance becomes exactly what the client has described since
it started (the configuration `m`, extended by the final request), and nothing else changes. This holds however the
requests of several clients, time-outs, packets and other requests interleave. -/
theorem commit_exact_partial {sys : Sys D} {K : Key} {s s' : St D} {m : Option (Conf D)} (h : History sys K s m) {r : Req D}
    (hk : r.key = K) (ho : Orderly K m (.req r)) (hf : r.fin = true) (hs : requestLucky sys r s = .ok (s', .ok)) :
    ∃ c c' n, r.base sys m = some c ∧ r.apply c = some c' ∧ Became s s' K c' n :=
  (own_request h.spec.1 hs hk h.spec.2 ho).2 hf rfl

/-- C49: a client whose upload failed, or that has not started one, is refused. -/
theorem refused {sys : Sys D} {K : Key} {s s' : St D} (h : History sys K s none) {r : Req D} {code : Code}
    (hk : r.key = K) (hi : r.init = none) (hs : requestLucky sys r s = .ok (s', code)) : code ≠ .ok := by
  intro e
  subst e
  obtain ⟨s2, code2, res, e, hi2, hb⟩ := body_spec r h.spec.1
  rw [lucky_eq, e] at hs
  injection hs with hs
  injection hs with hs1 hs2
  dsimp only at hs2
  rcases hb with ⟨_, hne, _⟩ | ⟨s1, k, x, sel, _⟩
  · exact hne hs2
  · rcases sel.which with ⟨f, hri, _⟩ | ⟨_, hx, c, hc, hck, h1, _⟩
    · rw [hi] at hri; cases hri
    · subst hk
      exact h.spec.2.1 rfl k x ⟨⟨c, hc, hck, h1⟩, hx, sel.ns, sel.name⟩

/-! ## What goes wrong -/

/-- C49 (defect): every successful commit writes to the candidate, which it has just released
(mod/atomic_config.c:362-367). Otherwise requests are well defined. -/
theorem commit_use_after_free {sys : Sys D} {s s' : St D} (h : Reachable sys s) {r : Req D} {code : Code}
    (hs : requestLucky sys r s = .ok (s', code)) :
    request sys r s = if r.fin = true ∧ code = .ok then .ub .useAfterFree else .ok (s', code) := by
  obtain ⟨s2, code2, res, e, hi2, hb⟩ := body_spec r h.inv
  rw [lucky_eq, e] at hs
  injection hs with hs
  injection hs with hs1 hs2
  dsimp only at hs1 hs2
  subst hs2
  unfold request
  rw [e]
  rcases hb with ⟨hr, hne, _⟩ | ⟨s1, k, x, sel, hdat, _, hcl, hrest⟩
  · subst hr
    rw [if_neg fun h => hne h.2, ← hs1]
    rfl
  · rcases hrest with ⟨hr, hne, _⟩ | ⟨hok, hr, c, g, hap, hcf, ⟨hfin, _, _, hc, hx⟩ | ⟨hfin, hc, _⟩⟩
    · subst hr
      rw [if_neg fun h => hne h.2, ← hs1]
      rfl
    · subst hr
      rw [if_neg (by rw [hfin]; simp), ← hs1]
      show (touch r.now k s2).map _ = _
      unfold touch
      obtain ⟨c0, hc0, hk0, _⟩ := sel.cand
      rw [if_pos (List.any_eq_true.2 ⟨c0, hc ▸ hc0, by simpa using hk0⟩)]
      rfl
    · subst hr
      rw [if_pos ⟨hfin, hok⟩]
      show (touch r.now k s2).map _ = _
      unfold touch
      rw [if_neg fun h => ?_]
      · rfl
      · obtain ⟨c0, hc0, hk0⟩ := List.any_eq_true.1 h
        exact ((hc c0).1 hc0).2 (by simpa using hk0)

/-- C49 (defect): a request without upload leaves a reference to its namespace behind (mod/atomic_config.c:132-133): the
namespace can never be destroyed. -/
theorem namespace_leak {sys : Sys D} {s : St D} (h : Reachable sys s) {r : Req D} (hn : nameValid r.name = true)
    (hi : r.init = none) (hw : Without s r.key) :
    ∃ s', requestLucky sys r s = .ok (s', .ESRCH) ∧ s'.nsRefs = s.nsRefs + 1 := by
  obtain ⟨s1, res, e, hi1, hf, h1, h2⟩ := getCand_spec r h.inv (fun _ h => h) h.inv.nodup
  cases res with
  | some k =>
    obtain ⟨_, c, hc, _, hck, hp, x, hx, e1, e2⟩ := h2 k rfl
    exact absurd ⟨⟨c, hc, hck, hp⟩, hck ▸ hx, e1, e2⟩ (hw k x)
  | none =>
    refine ⟨s1, ?_, (h1 rfl).1⟩
    unfold requestLucky body
    rw [hn]
    unfold select
    rw [hi]
    dsimp only
    rw [e]
    rfl

/-! ## Examples -/

/-- A system whose databases are lists of entries. The time-out is 2 seconds at 250 Hz. -/
def sys0 : Sys (List Nat) := ⟨H0, 500, fun _ => g96, fun _ _ => true, []⟩

/-- Client `pid` adds `entries` to the table of SIIT instance `name`. -/
def upload (pid : Nat) (name : Name) (now : BitVec 64) (init fin : Bool) (entries : List Nat) : AOp (List Nat) :=
  .req ⟨0, pid, name, 1, calm, now, if init then some 5 else none, none, none, some (fun l => (l ++ entries, true)), none, none, fin⟩

/-- What is answered to the requests, and the tables of the instances after them. -/
def answers (sys : Sys D) (s : St D) : List (AOp D) → Outcome (List Code × List (Name × D))
  | [] => .ok ([], s.w.table.map fun n => (n.xl.name, s.data n.xl.a))
  | o :: ops => (astep sys s o).bind fun q => (answers sys q.1 ops).map fun (l, t) => (q.2 :: l, t)

/-- Two clients, in turns. -/
example : answers sys0 (St.start sys0) [upload 1 [97] 0 true false [1], upload 2 [98] 0 true false [5],
    upload 1 [97] 1 false false [2], upload 2 [98] 2 false true [6], upload 1 [97] 3 false true [3]] =
    .ok ([.ok, .ok, .ok, .ok, .ok], [([97], [1, 2, 3]), ([98], [5, 6])]) := by decide

/-- Before the last request. -/
example : answers sys0 (St.start sys0) [upload 1 [97] 0 true false [1], upload 2 [98] 0 true false [5],
    upload 1 [97] 1 false false [2], upload 2 [98] 2 false true [6]] =
    .ok ([.ok, .ok, .ok, .ok], [([98], [5, 6])]) := by decide

/-- An upload expires when another client's request comes after the time-out. -/
example : answers sys0 (St.start sys0) [upload 1 [97] 0 true false [1], upload 2 [98] 600 false false [5],
    upload 1 [97] 600 false true [2]] = .ok ([.ok, .ESRCH, .ESRCH], []) := by decide

example : (arun sys0 (St.start sys0) [upload 3 [98] 600 false false [2]]).map (·.nsRefs) = .ok 1 := by decide

/-- `commit_use_after_free` is about commits that do happen. -/
example : (arun sys0 (St.start sys0) [upload 1 [97] 0 true false [1]]).bind (fun s =>
    match upload 1 [97] 0 false true [2] with
    | .req r => (request sys0 r s).map (·.2)
    | _ => .ok .EINVAL) = .ub .useAfterFree := by decide

/-- `commit_exact_partial` applies to the last request of the first example. -/
example : ∃ s m, History sys0 ⟨0, 1, [97]⟩ s m ∧
    m.map (fun c => (c.flags, c.a)) = some ((5 : Flags), [1, 2]) := by
  have step : ∀ {s : St (List Nat)} {m} {o : AOp (List Nat)}, History sys0 ⟨0, 1, [97]⟩ s m → Orderly ⟨0, 1, [97]⟩ m o →
      ∃ s' code, astep sys0 s o = .ok (s', code) ∧ History sys0 ⟨0, 1, [97]⟩ s' (track sys0 ⟨0, 1, [97]⟩ m o code) := by
    intro s m o h ho
    obtain ⟨⟨s', code⟩, e, _⟩ := inv_step h.spec.1 o
    exact ⟨s', code, e, h.step ho e⟩
  obtain ⟨s1, c1, e1, h1⟩ := step (o := upload 1 [97] 0 true false [1]) .start (fun _ _ _ _ _ => rfl)
  obtain ⟨s2, c2, e2, h2⟩ := step (o := upload 2 [98] 0 true false [5]) h1 (fun r f e k => by
    injection e with e; subst e; exact absurd k (by decide))
  obtain ⟨s3, c3, e3, h3⟩ := step (o := upload 1 [97] 1 false false [2]) h2 (fun r f e _ hi => by
    injection e with e; subst e; cases hi)
  refine ⟨s3, _, h3, ?_⟩
  have ha : (answers sys0 (St.start sys0) [upload 1 [97] 0 true false [1], upload 2 [98] 0 true false [5],
    upload 1 [97] 1 false false [2]]).map (·.1) = .ok [.ok, .ok, .ok] := by decide
  simp only [answers, e1, e2, e3, Outcome.bind, Outcome.map] at ha
  injection ha with ha
  injection ha with ha1 ha
  injection ha with ha2 ha
  injection ha with ha3 ha
  rw [ha1, ha2, ha3]
  decide

/-- C49 (defect): what `Orderly` excludes. Client 1 starts an upload (entry 1), gives it up, and starts another one (10, 11, 12).
Between 10 and 11 more than two seconds pass, and client 2 sends a request: it removes the client's newest candidate,
but not the older one. The rest of the upload is added to that one, and the commit succeeds with a mixture: entry 10 is missing, entry 1 should not
be there. -/
theorem mixture : answers sys0 (St.start sys0) [upload 1 [97] 0 true false [1], upload 2 [98] 0 true false [5],
    upload 1 [97] 0 true false [10], upload 2 [98] 600 false false [6], upload 1 [97] 600 false false [11],
    upload 1 [97] 600 false true [12]] =
    .ok ([.ok, .ok, .ok, .ok, .ok, .ok], [([97], [1, 11, 12])]) := by decide

end Jool.Atomic
