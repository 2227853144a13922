import Verif.Lemmas.AtomicInv
/-
The parts of a request to load a configuration file.
-/
namespace Jool.Atomic

open Xlator
open scoped List

variable {D : Type}

/-- Specification: the contents of a configuration. SIIT: `a` is the EAMT, `b` the denylist. NAT64: `a` is pool4, `b` the BIB. -/
structure Conf (D : Type) where
  flags : Flags
  globals : Glob
  a : D
  b : D

/-- Specification: what an optional section does. -/
def Section {α : Type} (o : Option α) (f : α → Conf D → Option (Conf D)) (c : Conf D) : Option (Conf D) :=
  match o with
  | none => some c
  | some a => f a c

/-- Specification: the configuration that a request turns `c` into; none if it has to be refused. -/
def Req.apply (r : Req D) (c : Conf D) : Option (Conf D) :=
  ((((Section r.globals (fun f c =>
        if (f (xtOf c.flags) c.globals).2 then some { c with globals := (f (xtOf c.flags) c.globals).1 } else none) c).bind
    (Section r.deny fun f c =>
        if xtOf c.flags = 1 ∧ (f c.b).2 then some { c with b := (f c.b).1 } else none)).bind
    (Section r.eamt fun f c =>
        if xtOf c.flags = 1 ∧ (f c.a).2 then some { c with a := (f c.a).1 } else none)).bind
    (Section r.pool4 fun f c =>
        if xtOf c.flags = 2 ∧ (f c.a).2 then some { c with a := (f c.a).1 } else none)).bind
    (Section r.bib fun f c =>
        if xtOf c.flags = 2 ∧ (f c.a c.b).2 then some { c with b := (f c.a c.b).1 } else none)

/-- The configuration in copy `x`. -/
def St.conf (s : St D) (x : Xl) : Conf D := ⟨x.flags, x.globals, s.data x.a, s.data x.b⟩

/-- Only candidate `k`, which was `x`, was changed. -/
structure Edited (s s' : St D) (k : Nat) (x : Xl) : Prop where
  table : s'.w.table = s.w.table
  limbo : s'.w.limbo = s.w.limbo
  cands : s'.cands = s.cands
  refs : s'.nsRefs = s.nsRefs
  data : ∀ d, d ∉ x.objs → s'.data d = s.data d
  clones : ∀ p, p.1 ≠ k → (p ∈ s'.w.clones ↔ p ∈ s.w.clones)

theorem Edited.refl (s : St D) (k : Nat) (x : Xl) : Edited s s k x :=
  ⟨rfl, rfl, rfl, rfl, fun _ _ => rfl, fun _ _ => Iff.rfl⟩

theorem Edited.trans {a b c : St D} {k : Nat} {x y : Xl} (f : Edited a b k x) (g : Edited b c k y)
    (ho : y.objs = x.objs) : Edited a c k x :=
  ⟨g.table.trans f.table, g.limbo.trans f.limbo, g.cands.trans f.cands, g.refs.trans f.refs,
    fun d hd => (g.data d (ho ▸ hd)).trans (f.data d hd), fun p hp => (g.clones p hp).trans (f.clones p hp)⟩

/-- The outcome of (a part of) the sections. `res`: the new configuration. -/
def Outc (sys : Sys D) (o : Outcome (St D × Code)) (s : St D) (k : Nat) (x : Xl) (res : Option (Conf D)) : Prop :=
  ∃ s' code g', o = .ok (s', code) ∧ Inv sys s' Non ∧ Edited s s' k x ∧ (k, { x with globals := g' }) ∈ s'.w.clones ∧
    (code = .ok ↔ res.isSome) ∧ ∀ c, res = some c → s'.conf { x with globals := g' } = c

theorem Outc.andThen {sys : Sys D} {o : Outcome (St D × Code)} {s : St D} {k : Nat} {x : Xl} {res : Option (Conf D)}
    (h : Outc sys o s k x res) {f : St D → Outcome (St D × Code)} {F : Conf D → Option (Conf D)}
    (hf : ∀ s' g', Inv sys s' Non → s'.cands = s.cands → (k, { x with globals := g' }) ∈ s'.w.clones →
      Outc sys (f s') s' k { x with globals := g' } (F (s'.conf { x with globals := g' }))) :
    Outc sys (Atomic.andThen o f) s k x (res.bind F) := by
  obtain ⟨s1, code, g1, e, hi, he, hk, hc, hr⟩ := h
  subst e
  by_cases ho : code = .ok
  · obtain ⟨c, hc'⟩ := Option.isSome_iff_exists.1 (hc.1 ho)
    obtain ⟨s2, code2, g2, e2, hi2, he2, hk2, hc2, hr2⟩ := hf s1 g1 hi he.cands hk
    rw [hr c hc'] at hc2 hr2
    refine ⟨s2, code2, g2, ?_, hi2, he.trans he2 rfl, hk2, ?_, ?_⟩
    · unfold Atomic.andThen
      show (if code = .ok then f s1 else .ok (s1, code)) = _
      rw [if_pos ho, e2]
    · rw [hc']; exact hc2
    · rw [hc']; exact hr2
  · have hn : res = none := by
      cases res with
      | none => rfl
      | some c => exact absurd (hc.2 rfl) ho
    refine ⟨s1, code, g1, ?_, hi, he, hk, ?_, ?_⟩
    · unfold Atomic.andThen
      show (if code = .ok then f s1 else .ok (s1, code)) = _
      rw [if_neg ho]
    · rw [hn]; simp [ho]
    · rw [hn]; intro c h; cases h

theorem outc_skip {sys : Sys D} {s : St D} {k : Nat} {x : Xl} (h : Inv sys s Non) (hx : (k, x) ∈ s.w.clones) :
    Outc sys (.ok (s, .ok)) s k x (some (s.conf x)) :=
  ⟨s, .ok, x.globals, rfl, h, Edited.refl .., hx, by simp, fun c hc => by injection hc⟩

theorem outc_refuse {sys : Sys D} {s : St D} {k : Nat} {x : Xl} (h : Inv sys s Non) (hx : (k, x) ∈ s.w.clones) :
    Outc sys (.ok (s, .EINVAL)) s k x none :=
  ⟨s, .EINVAL, x.globals, rfl, h, Edited.refl .., hx, by simp, fun c hc => by cases hc⟩

theorem outc_opt {α : Type} {sys : Sys D} {s : St D} {k : Nat} {x : Xl} {o : Option α}
    {f : α → St D → Outcome (St D × Code)} {F : α → Conf D → Option (Conf D)} (h : Inv sys s Non)
    (hx : (k, x) ∈ s.w.clones) (hf : ∀ a, Outc sys (f a s) s k x (F a (s.conf x))) :
    Outc sys (opt o f s) s k x (Section o F (s.conf x)) := by
  cases o with
  | none => exact outc_skip h hx
  | some a => exact hf a

theorem mem_objs {x : Xl} : x.a ∈ x.objs ∧ x.b ∈ x.objs := by
  unfold Xl.objs
  split <;> simp

/-- Changing the contents of one of the candidate's databases. -/
theorem outc_set {sys : Sys D} {s : St D} {k : Nat} {x : Xl} {o : Nat} {d : D} {b : Bool} {c : Conf D}
    (h : Inv sys s Non) (hx : (k, x) ∈ s.w.clones) (ho : o ∈ x.objs) (hc : (s.set o d).conf x = c) :
    Outc sys (.ok (s.set o d, if b then .ok else .EINVAL)) s k x (if b then some c else none) := by
  refine ⟨s.set o d, _, x.globals, rfl, ⟨h.good, h.ids, h.lt, fun i hi => ?_, h.nodup, h.cand⟩,
    ⟨rfl, rfl, rfl, rfl, fun i hi => ?_, fun _ _ => Iff.rfl⟩, hx, ?_, fun c' hc' => ?_⟩
  · have : i ≠ o := fun e => by
      have := clone_lt h.good hx o ho
      have hi : s.w.heap.next ≤ i := hi
      omega
    show (if i = o then d else s.data i) = _
    rw [if_neg this]
    exact h.data i hi
  · have : i ≠ o := fun e => hi (e ▸ ho)
    show (if i = o then d else s.data i) = _
    rw [if_neg this]
  · cases b <;> simp
  · cases b with
    | false => cases hc'
    | true => injection hc' with hc'; rw [← hc']; exact hc

theorem siit_iff {f : Flags} (h : xtValid (xtOf f) = true) :
    (isNat64 f = true ↔ xtOf f = 2) ∧ (isSiit f = true ↔ xtOf f = 1) ∧ (xtOf f = 1 ∨ xtOf f = 2) := by
  revert h; revert f; decide

theorem xt_ne : ¬ ((1 : Flags) = 2) := by decide

theorem objs_ab {w : World} {k : Nat} {x : Xl} (hp : Priv w k x) : x.a ≠ x.b := by
  have := hp.nodup
  unfold Xl.objs at this
  intro e
  split at this <;> simp [e] at this

theorem outc_global {sys : Sys D} {s : St D} {k : Nat} {x : Xl} (h : Inv sys s Non) (hx : (k, x) ∈ s.w.clones)
    (hk : ∃ c ∈ s.cands, c.clone = k) (f : Flags → Glob → Glob × Bool) :
    Outc sys (handleGlobal sys k f s) s k x
      (if (f (xtOf x.flags) x.globals).2 then some { s.conf x with globals := (f (xtOf x.flags) x.globals).1 } else none) := by
  obtain ⟨ck, hck, hkk⟩ := hk
  have hxl := (xl_iff h.ids).2 hx
  unfold handleGlobal
  rw [hxl]
  dsimp only
  generalize hg : (f (xtOf x.flags) x.globals).1 = gl
  generalize (f (xtOf x.flags) x.globals).2 = b
  let w' : World := { s.w with clones := s.w.clones.map fun p => if p.1 == k then (p.1, { p.2 with globals := gl }) else p }
  have hs : step sys.H s.w (.edit k gl) = .ok (w', .ok) := rfl
  have fe : Eff s.w w' Non (· = k) := eff_edit
  obtain ⟨q, hq, hgood⟩ := good_step h.good (.edit k gl)
  rw [hs] at hq
  injection hq with hq
  subst hq
  have hnew : (k, { x with globals := gl }) ∈ w'.clones := List.mem_map.2 ⟨(k, x), hx, by simp⟩
  have hoth : ∀ p : Nat × Xl, p.1 ≠ k → (p ∈ w'.clones ↔ p ∈ s.w.clones) := by
    intro p hp
    constructor
    · intro hm
      obtain ⟨q, hq, e⟩ := List.mem_map.1 hm
      by_cases hqk : q.1 = k
      · rw [if_pos (by simpa using hqk)] at e
        exact absurd (by rw [← e]; exact hqk) hp
      · rw [if_neg (by simpa using hqk)] at e
        exact e ▸ hq
    · intro hm
      exact fe.keep p hm hp
  refine ⟨{ s with w := w' }, _, gl, rfl, ⟨hgood, fe.ids h.ids, vis_lt h.lt fe (fun _ h => h.elim), h.data, h.nodup, fun c hc => ?_⟩,
    ⟨rfl, rfl, rfl, rfl, fun _ _ => rfl, hoth⟩, hnew, ?_, fun c hc => ?_⟩
  · obtain ⟨y, hy, hpr⟩ := h.cand c hc
    by_cases hck' : c.clone = k
    · have hyx : y = x := clone_unique h.ids (hck' ▸ hy) hx
      subst hyx
      exact ⟨{ y with globals := gl }, by rw [hck']; exact hnew,
        fun hE => (hpr hE).eff fe (clone_lt h.good hy) (fun _ _ h => h) rfl rfl⟩
    · exact ⟨y, fe.keep _ hy hck', fun hE => (hpr hE).eff fe (clone_lt h.good hy) (fun _ _ h => h) rfl rfl⟩
  · cases b <;> simp
  · cases b with
    | false => cases hc
    | true => injection hc with hc

/-- The sections of a request turn the candidate into what the request says. -/
theorem sections_spec {sys : Sys D} {s : St D} {k : Nat} {x : Xl} (r : Req D) (h : Inv sys s Non)
    (hx : (k, x) ∈ s.w.clones) (hk : ∃ c ∈ s.cands, c.clone = k) :
    Outc sys (sections sys r k s) s k x (r.apply (s.conf x)) := by
  have hpriv : ∀ {s' : St D} {g : Glob}, Inv sys s' Non → s'.cands = s.cands → (k, { x with globals := g }) ∈ s'.w.clones →
      Priv s'.w k { x with globals := g } := by
    intro s' g hi hc hm
    obtain ⟨c, hc1, hc2⟩ := hk
    obtain ⟨y, hy, hp⟩ := hi.cand c (hc ▸ hc1)
    rw [hc2] at hy hp
    have := clone_unique hi.ids hy hm
    subst this
    exact hp id
  unfold sections Req.apply
  have hobj : ∀ (g : Glob), ({ x with globals := g } : Xl).objs = x.objs := fun g => rfl
  refine Outc.andThen (Outc.andThen (Outc.andThen (Outc.andThen ?_ ?_) ?_) ?_) ?_
  · exact outc_opt h hx fun f => outc_global h hx hk f
  · intro s' g' hi hc hm
    have hp := hpriv hi hc hm
    refine outc_opt hi hm fun f => ?_
    obtain ⟨t1, t2, t3⟩ := siit_iff hp.xt
    unfold handleDeny
    rw [(xl_iff hi.ids).2 hm]
    dsimp only at t1 t2 t3 ⊢
    split
    · rename_i h64
      have : ¬ (xtOf x.flags = 1 ∧ (f (s'.data x.b)).2 = true) := by rw [t1.1 h64]; exact fun h => absurd h.1 (by decide)
      rw [if_neg (by exact this)]
      exact outc_refuse hi hm
    · rename_i h64
      have h1 : xtOf x.flags = 1 := t3.resolve_right fun e => h64 (t1.2 e)
      have := outc_set (d := (f (s'.data x.b)).1) (b := (f (s'.data x.b)).2)
        (c := { s'.conf { x with globals := g' } with b := (f (s'.data x.b)).1 }) hi hm mem_objs.2
        (by have := objs_ab hp; simp only [St.conf, St.set]; simp_all)
      simp only [St.conf] at this ⊢
      simpa [h1] using this
  · intro s' g' hi hc hm
    have hp := hpriv hi hc hm
    refine outc_opt hi hm fun f => ?_
    obtain ⟨t1, t2, t3⟩ := siit_iff hp.xt
    unfold handleEamt
    rw [(xl_iff hi.ids).2 hm]
    dsimp only at t1 t2 t3 ⊢
    split
    · rename_i h64
      have : ¬ (xtOf x.flags = 1 ∧ (f (s'.data x.a)).2 = true) := by rw [t1.1 h64]; exact fun h => absurd h.1 (by decide)
      rw [if_neg (by exact this)]
      exact outc_refuse hi hm
    · rename_i h64
      have h1 : xtOf x.flags = 1 := t3.resolve_right fun e => h64 (t1.2 e)
      have := outc_set (d := (f (s'.data x.a)).1) (b := (f (s'.data x.a)).2)
        (c := { s'.conf { x with globals := g' } with a := (f (s'.data x.a)).1 }) hi hm mem_objs.1
        (by have := (objs_ab hp).symm; simp only [St.conf, St.set]; simp_all)
      simp only [St.conf] at this ⊢
      simpa [h1] using this
  · intro s' g' hi hc hm
    have hp := hpriv hi hc hm
    refine outc_opt hi hm fun f => ?_
    obtain ⟨t1, t2, t3⟩ := siit_iff hp.xt
    unfold handlePool4
    rw [(xl_iff hi.ids).2 hm]
    dsimp only at t1 t2 t3 ⊢
    split
    · rename_i h64
      have : ¬ (xtOf x.flags = 2 ∧ (f (s'.data x.a)).2 = true) := by rw [t2.1 h64]; exact fun h => absurd h.1 (by decide)
      rw [if_neg (by exact this)]
      exact outc_refuse hi hm
    · rename_i h64
      have h1 : xtOf x.flags = 2 := t3.resolve_left fun e => h64 (t2.2 e)
      have := outc_set (d := (f (s'.data x.a)).1) (b := (f (s'.data x.a)).2)
        (c := { s'.conf { x with globals := g' } with a := (f (s'.data x.a)).1 }) hi hm mem_objs.1
        (by have := (objs_ab hp).symm; simp only [St.conf, St.set]; simp_all)
      simp only [St.conf] at this ⊢
      simpa [h1] using this
  · intro s' g' hi hc hm
    have hp := hpriv hi hc hm
    refine outc_opt hi hm fun f => ?_
    obtain ⟨t1, t2, t3⟩ := siit_iff hp.xt
    unfold handleBib
    rw [(xl_iff hi.ids).2 hm]
    dsimp only at t1 t2 t3 ⊢
    split
    · rename_i h64
      have : ¬ (xtOf x.flags = 2 ∧ (f (s'.data x.a) (s'.data x.b)).2 = true) := by
        rw [t2.1 h64]; exact fun h => absurd h.1 (by decide)
      rw [if_neg (by exact this)]
      exact outc_refuse hi hm
    · rename_i h64
      have h1 : xtOf x.flags = 2 := t3.resolve_left fun e => h64 (t2.2 e)
      have := outc_set (d := (f (s'.data x.a) (s'.data x.b)).1) (b := (f (s'.data x.a) (s'.data x.b)).2)
        (c := { s'.conf { x with globals := g' } with b := (f (s'.data x.a) (s'.data x.b)).1 }) hi hm mem_objs.2
        (by have := objs_ab hp; simp only [St.conf, St.set]; simp_all)
      simp only [St.conf] at this ⊢
      simpa [h1] using this

/-! ## Finding the candidate -/

/-- Candidate `c` is that of namespace `ns`, process `pid` and name `name`. -/
def Owns (s : St D) (c : Cand) (ns : Ns) (pid : Nat) (name : Name) : Prop :=
  c.pid = pid ∧ ∃ x, (c.clone, x) ∈ s.w.clones ∧ x.ns = ns ∧ x.name = name

/-- Candidates were only destroyed. -/
structure Fewer (s s' : St D) : Prop where
  table : s'.w.table = s.w.table
  limbo : s'.w.limbo = s.w.limbo
  data : s'.data = s.data
  cands : ∀ c ∈ s'.cands, c ∈ s.cands
  clones : ∀ p ∈ s'.w.clones, p ∈ s.w.clones
  others : ∀ p ∈ s.w.clones, (∀ c ∈ s.cands, c.clone ≠ p.1) → p ∈ s'.w.clones

theorem Fewer.refl (s : St D) : Fewer s s := ⟨rfl, rfl, rfl, fun _ h => h, fun _ h => h, fun _ h _ => h⟩

theorem Fewer.trans {a b c : St D} (f : Fewer a b) (g : Fewer b c) : Fewer a c :=
  ⟨g.table.trans f.table, g.limbo.trans f.limbo, g.data.trans f.data, fun x h => f.cands x (g.cands x h),
    fun x h => f.clones x (g.clones x h), fun p hp hc => g.others p (f.others p hp hc) fun x hx => hc x (f.cands x hx)⟩

theorem fewer_destroy {sys : Sys D} {s : St D} (h : Inv sys s Non) {k : Nat} (hk : ∃ c ∈ s.cands, c.clone = k) :
    ∃ s', destroyCand k s = .ok s' ∧ Inv sys s' Non ∧ Fewer s s' ∧ s'.nsRefs = s.nsRefs ∧
      ∀ c, c ∈ s'.cands ↔ c ∈ s.cands ∧ c.clone ≠ k := by
  obtain ⟨s', e, hi, h1, h2, h3, h4, h5, h6⟩ := destroyCand_spec h k
  have hcl : ∀ p ∈ s'.w.clones, p ∈ s.w.clones := by
    intro p hp
    have he := e
    unfold destroyCand at he
    obtain ⟨w', hw, e'⟩ := map_ok he
    subst e'
    unfold put at hw
    split at hw
    · injection hw with hw; subst hw; exact hp
    · obtain ⟨h', _, he⟩ := map_ok hw
      subst he
      exact List.mem_of_mem_eraseP hp
  obtain ⟨ck, hck, hkk⟩ := hk
  refine ⟨s', e, hi.weaken fun i h => h.1, ⟨h1, h2, h3, fun c hc => ?_, hcl, fun p hp hc => ?_⟩, h4, fun c => ?_⟩
  · rw [h5] at hc; exact List.mem_of_mem_eraseP hc
  · exact (h6 p fun e => hc ck hck (hkk.trans e.symm)).2 hp
  · rw [h5]; exact cands_erase h.nodup

theorem getCand_spec {sys : Sys D} (r : Req D) : ∀ {cs : List Cand} {s : St D}, Inv sys s Non → (∀ c ∈ cs, c ∈ s.cands) →
    (cs.map (·.clone)).Nodup →
    ∃ s' res, getCand sys r cs s = .ok (s', res) ∧ Inv sys s' Non ∧ Fewer s s' ∧
      (res = none → s'.nsRefs = s.nsRefs + 1 ∧ ∀ c ∈ cs, ¬ Owns s c r.ns r.pid r.name) ∧
      (∀ k, res = some k → s'.nsRefs = s.nsRefs ∧ ∃ c ∈ cs, c ∈ s'.cands ∧ c.clone = k ∧ Owns s c r.ns r.pid r.name)
  | [], s, h, _, _ =>
    ⟨{ s with nsRefs := s.nsRefs + 1 }, none, rfl, ⟨h.good, h.ids, h.lt, h.data, h.nodup, h.cand⟩,
      ⟨rfl, rfl, rfl, fun _ h => h, fun _ h => h, fun _ h _ => h⟩, fun _ => ⟨rfl, fun c hc => by cases hc⟩,
      fun k hk => by cases hk⟩
  | c :: cs, s, h, hs, hn => by
    have hc := hs c (List.mem_cons_self ..)
    obtain ⟨x, hx, _⟩ := h.cand c hc
    rw [List.map_cons, List.nodup_cons] at hn
    unfold getCand
    rw [(xl_iff h.ids).2 hx]
    dsimp only
    have hown : Owns s c r.ns r.pid r.name ↔ x.ns = r.ns ∧ x.name = r.name ∧ c.pid = r.pid := by
      constructor
      · rintro ⟨h1, y, hy, h2, h3⟩
        have := clone_unique h.ids hy hx
        subst this
        exact ⟨h2, h3, h1⟩
      · rintro ⟨h1, h2, h3⟩
        exact ⟨h3, x, hx, h1, h2⟩
    split
    · rename_i hm
      simp only [Bool.and_eq_true, beq_iff_eq] at hm
      refine ⟨s, some c.clone, rfl, h, Fewer.refl s, (fun h => by cases h), fun k hk => ⟨rfl, c, List.mem_cons_self .., hc, ?_, ?_⟩⟩
      · injection hk
      · exact hown.2 ⟨hm.1.1, hm.1.2, hm.2⟩
    rename_i hm
    have hno : ¬ Owns s c r.ns r.pid r.name := by
      rw [hown]
      rintro ⟨h1, h2, h3⟩
      exact hm (by simp [h1, h2, h3])
    split
    · obtain ⟨s1, e1, hi1, hf1, hr1, hm1⟩ := fewer_destroy h ⟨c, hc, rfl⟩
      have hsub : ∀ c' ∈ cs, c' ∈ s1.cands := by
        intro c' hc'
        refine (hm1 c').2 ⟨hs c' (List.mem_cons_of_mem _ hc'), fun e => hn.1 (List.mem_map.2 ⟨c', hc', e⟩)⟩
      have howns : ∀ c' ∈ cs, (Owns s1 c' r.ns r.pid r.name ↔ Owns s c' r.ns r.pid r.name) := by
        intro c' hc'
        constructor
        · rintro ⟨h1, y, hy, h2⟩
          exact ⟨h1, y, hf1.clones _ hy, h2⟩
        · rintro ⟨h1, y, hy, h2⟩
          obtain ⟨z, hz, _⟩ := hi1.cand c' (hsub c' hc')
          have := clone_unique h.ids (hf1.clones _ hz) hy
          subst this
          exact ⟨h1, z, hz, h2⟩
      obtain ⟨s2, res, e2, hi2, hf2, hn2, hs2⟩ := getCand_spec r hi1 hsub hn.2
      refine ⟨s2, res, ?_, hi2, hf1.trans hf2, fun hr => ⟨by rw [(hn2 hr).1, hr1], fun c' hc' => ?_⟩, fun k hk => ?_⟩
      · rw [e1]; exact e2
      · rcases List.mem_cons.1 hc' with e | hc'
        · subst e; exact hno
        · exact fun ho => (hn2 hr).2 c' hc' ((howns c' hc').2 ho)
      · obtain ⟨a, c', b1, b2, b3, b4⟩ := hs2 k hk
        exact ⟨a.trans hr1, c', List.mem_cons_of_mem _ b1, b2, b3, (howns c' b1).1 b4⟩
    · obtain ⟨s2, res, e2, hi2, hf2, hn2, hs2⟩ := getCand_spec r h (fun c' hc' => hs c' (List.mem_cons_of_mem _ hc')) hn.2
      refine ⟨s2, res, e2, hi2, hf2, fun hr => ⟨(hn2 hr).1, fun c' hc' => ?_⟩, fun k hk => ?_⟩
      · rcases List.mem_cons.1 hc' with e | hc'
        · subst e; exact hno
        · exact (hn2 hr).2 c' hc'
      · obtain ⟨a, c', b1, b2⟩ := hs2 k hk
        exact ⟨a, c', List.mem_cons_of_mem _ b1, b2⟩

end Jool.Atomic
