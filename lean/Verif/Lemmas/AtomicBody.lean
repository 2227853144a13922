import Verif.Lemmas.AtomicReq
/-
The outcome of a request to load a configuration file.
-/
namespace Jool.Atomic

open Xlator
open scoped List

variable {D : Type}

/-- The new candidate of `handle_init`. -/
theorem handleInit_spec {sys : Sys D} {s : St D} (r : Req D) (f : Flags) (h : Inv sys s Non) :
    (∃ s' code, handleInit sys r f s = .ok (s', code, none) ∧ code ≠ .ok ∧ Inv sys s' Non ∧ Fewer s s' ∧
      s'.cands = s.cands ∧ s'.nsRefs = s.nsRefs) ∨
    (∃ s' x, handleInit sys r f s = .ok (s', .ok, some s.w.next) ∧ Inv sys s' Non ∧ s'.w.table = s.w.table ∧
      s'.w.limbo = s.w.limbo ∧ s'.data = s.data ∧ s'.nsRefs = s.nsRefs ∧
      s'.cands = ⟨s.w.next, r.now, r.pid⟩ :: s.cands ∧ s'.w.clones = (s.w.next, x) :: s.w.clones ∧
      x.ns = r.ns ∧ x.name = r.name ∧ x.flags = f ||| r.xt ∧ x.globals = sys.dflt (xtOf (f ||| r.xt)) ∧
      (∀ d ∈ x.objs, s.w.heap.next ≤ d)) := by
  unfold handleInit
  generalize hg : sys.dflt (xtOf (f ||| r.xt)) = gl
  obtain ⟨⟨w', code⟩, hs, hgood⟩ := good_step h.good (.init r.env r.ns (f ||| r.xt) r.name gl)
  have fe : Eff s.w w' Non Non := eff_init h.good hs
  rw [hs]
  unfold step at hs
  dsimp only at hs
  split at hs
  · injection hs with hs; injection hs with h1 h2; subst h1 h2
    exact .inl ⟨s, .ENOMEM, rfl, by simp, h, Fewer.refl s, rfl, rfl⟩
  obtain ⟨⟨a, b, c⟩, hi, he⟩ := map_ok hs
  cases c with
  | none =>
    injection he with he1 he2
    subst he1 he2
    have hb : b ≠ .ok := by
      rcases xlInit_counts (e := r.env) (ns := r.ns) (name := r.name) (flags := f ||| r.xt) (g := gl) h.good.counts with
        ⟨_, _, e1, e2, _⟩ | ⟨_, _, e1, _⟩
      · rw [hi] at e1; injection e1 with e1; injection e1 with _ e1; injection e1 with e1 _; rw [e1]; exact e2
      · rw [hi] at e1; cases e1
    refine .inl ⟨{ s with w := { s.w with heap := a } }, b, ?_, hb, ?_, ⟨rfl, rfl, rfl, fun _ h => h, fun _ h => h, fun _ h _ => h⟩, rfl, rfl⟩
    · show Outcome.ok (if b = .ok then _ else _) = _
      rw [if_neg hb]
    · refine ⟨hgood, fe.ids h.ids, vis_lt h.lt fe (fun _ h => h.elim), fun d hd => h.data d (Nat.le_trans fe.next hd), h.nodup, fun c hc => ?_⟩
      obtain ⟨x, hx, hp⟩ := h.cand c hc
      exact ⟨x, hx, fun hE => (hp hE).eff fe (clone_lt h.good hx) (fun _ _ h => h) rfl rfl⟩
  | some x =>
    injection he with he1 he2
    subst he1 he2
    obtain ⟨i0, i1, i2, i3, i4⟩ := xlInit_some hi
    subst i0
    obtain ⟨j1, j2, j3, j4⟩ := xlInit_fresh h.good.counts hi
    have hnew : ∀ c ∈ s.cands, c.clone ≠ s.w.next := by
      intro c hc e
      obtain ⟨y, hy, _⟩ := h.cand c hc
      have := h.ids.lt c.clone (List.mem_append_left _ (List.mem_map.2 ⟨_, hy, rfl⟩))
      omega
    refine .inr ⟨_, x, rfl, ⟨hgood, fe.ids h.ids, vis_lt h.lt fe (fun _ h => h.elim), fun d hd => h.data d (Nat.le_trans fe.next hd), ?_, fun c hc => ?_⟩,
      rfl, rfl, rfl, rfl, rfl, rfl, i1, i2, i3, i4, j1⟩
    · show (s.w.next :: s.cands.map (·.clone)).Nodup
      exact List.nodup_cons.2 ⟨fun hm => by
        obtain ⟨c, hc, e⟩ := List.mem_map.1 hm
        exact hnew c hc e, h.nodup⟩
    · rcases List.mem_cons.1 hc with e | hc
      · subst e
        refine ⟨x, List.mem_cons_self .., fun _ => ⟨j2, i3 ▸ j4, fun d hd hv => ?_, fun p hp hk d hd hc => ?_⟩⟩
        · have hv : Vis s.w d := vis_same rfl rfl hv
          have := h.lt d hv
          exact Nat.lt_irrefl _ (Nat.lt_of_lt_of_le this (j1 d hd))
        · rcases List.mem_cons.1 hp with e | hp
          · subst e; exact absurd rfl hk
          · exact Nat.lt_irrefl _ (Nat.lt_of_lt_of_le (clone_lt h.good hp d hc) (j1 d hd))
      · obtain ⟨y, hy, hp⟩ := h.cand c hc
        exact ⟨y, List.mem_cons_of_mem _ hy, fun hE => (hp hE).eff fe (clone_lt h.good hy) (fun _ _ h => h) rfl rfl⟩

theorem replace_same {H : Hash} {e : Env} {x : Xl} {w w' : World} {code : Code}
    (h : replace H e x w = .ok (w', code)) : w'.clones = w.clones ∧ (code ≠ .ok → w'.limbo = w.limbo) := by
  unfold replace at h
  split at h
  · injection h with h; injection h with h1 h2; subst h1; exact ⟨rfl, fun _ => rfl⟩
  split at h
  · injection h with h; injection h with h1 h2; subst h1; exact ⟨rfl, fun _ => rfl⟩
  split at h
  · injection h with h; injection h with h1 h2; subst h1; exact ⟨rfl, fun _ => rfl⟩
  obtain ⟨h1, hg, h⟩ := bind_ok h
  dsimp only at h
  split at h
  · rcases addNode_spec (H := H) (e := e) (x := x) (w := { w with heap := h1 }) with ⟨hne, hw⟩ | ⟨hok, _, _, hcl, _⟩
    · revert h hne hw
      generalize addNode H e x { w with heap := h1 } = q
      obtain ⟨q1, q2⟩ := q
      intro h hne hw
      dsimp only at hne hw
      subst hw
      have h : (destroy x.flags x.objs none false { w with heap := h1 }).map (·, q2) = .ok (w', code) := by
        cases q2 <;> first | exact h | exact absurd rfl hne
      obtain ⟨w2, hd, he⟩ := map_ok h
      injection he with he1 he2
      subst he1
      have := destroy_same hd
      exact ⟨this.2.2.2.1, fun _ => this.2.1⟩
    · revert h hok hcl
      generalize addNode H e x { w with heap := h1 } = q
      obtain ⟨q1, q2⟩ := q
      intro h hok hcl
      dsimp only at hok hcl
      subst hok
      injection h with h; injection h with h2 h3; subst h2 h3
      exact ⟨hcl, fun h => absurd rfl h⟩
  · split at h
    · obtain ⟨w2, hd, he⟩ := map_ok h
      injection he with he1 he2
      subst he1
      have := destroy_same hd
      exact ⟨this.2.2.2.1, fun _ => this.2.1⟩
    split at h
    · obtain ⟨w2, hd, he⟩ := map_ok h
      injection he with he1 he2
      subst he1
      have := destroy_same hd
      exact ⟨this.2.2.2.1, fun _ => this.2.1⟩
    obtain ⟨w2, hd, he⟩ := map_ok h
    injection he with he1 he2
    subst he1 he2
    unfold swap at hd
    obtain ⟨h3, _, he⟩ := map_ok hd
    subst he
    exact ⟨rfl, fun h => absurd rfl h⟩

/-- The instance with the identity of `x`. -/
def IsOld (w : World) (x : Xl) (old : Option Node) : Prop :=
  ∀ n, old = some n ↔ n ∈ w.table ∧ n.xl.ns = x.ns ∧ xtOf n.xl.flags = xtOf x.flags ∧ n.xl.name = x.name

theorem exists_old {H : Hash} {w : World} (s : Shape H w) (x : Xl) : ∃ old, IsOld w x old := by
  by_cases h : ∃ n ∈ w.table, n.xl.ns = x.ns ∧ xtOf n.xl.flags = xtOf x.flags ∧ n.xl.name = x.name
  · obtain ⟨n, hn, h1, h2, h3⟩ := h
    refine ⟨some n, fun m => ⟨?_, ?_⟩⟩
    · intro e; injection e with e; subst e; exact ⟨hn, h1, h2, h3⟩
    · rintro ⟨hm, g1, g2, g3⟩
      rw [uniq_eq s hn hm ⟨h1.trans g1.symm, h2.trans g2.symm, h3.trans g3.symm⟩]
  · refine ⟨none, fun m => ⟨fun e => (by cases e), fun hm => (h ⟨m, hm.1, hm.2⟩).elim⟩⟩

/-- The new instance `n` is what `x` described. -/
structure Installed (s s' : St D) (x : Xl) (old : Option Node) (n : Node) : Prop where
  ns : n.xl.ns = x.ns
  name : n.xl.name = x.name
  flags : n.xl.flags = x.flags
  globals : n.xl.globals = x.globals
  stats : n.xl.stats = x.stats
  a : n.xl.a = x.a
  keepBib : ∀ o, old = some o → xtOf x.flags = 2 → n.xl.b = o.xl.b ∧ n.xl.c = o.xl.c
  b : old = none ∨ xtOf x.flags = 1 → n.xl.b = x.b ∧ n.xl.c = x.c
  ops : ∀ o, old = some o → n.ops = o.ops
  table : ∀ m, m ∈ s'.w.table ↔ m = n ∨ (m ∈ s.w.table ∧ old ≠ some m)

theorem commit_spec {sys : Sys D} {s : St D} {k : Nat} {x : Xl} {old : Option Node} (r : Req D) (h : Inv sys s Non)
    (hx : (k, x) ∈ s.w.clones) (ho : IsOld s.w x old) :
    ∃ s', commit sys r k s = .ok (s', replaceCode { r.env with bib := sys.bibOk (s.data x.a) (s.data x.b) } x old) ∧
      s'.data = s.data ∧ s'.nsRefs = s.nsRefs ∧ (∀ p, p.1 ≠ k → (p ∈ s'.w.clones ↔ p ∈ s.w.clones)) ∧
      (replaceCode { r.env with bib := sys.bibOk (s.data x.a) (s.data x.b) } x old ≠ .ok →
        Inv sys s' (· = k) ∧ s'.w.table = s.w.table ∧ s'.w.limbo = s.w.limbo ∧ s'.cands = s.cands) ∧
      (replaceCode { r.env with bib := sys.bibOk (s.data x.a) (s.data x.b) } x old = .ok →
        Inv sys s' Non ∧ (∀ c, c ∈ s'.cands ↔ c ∈ s.cands ∧ c.clone ≠ k) ∧ ∃ n, Installed s s' x old n) := by
  unfold commit
  rw [(xl_iff h.ids).2 hx]
  dsimp only
  generalize ({ r.env with bib := sys.bibOk (s.data x.a) (s.data x.b) } : Env) = e
  obtain ⟨w', hs, hno, hyes⟩ := replace_good h.good e k x ((find_clone h.ids).2 hx) old ho
  have hrep : replace sys.H e x s.w = .ok (w', replaceCode e x old) := by
    have hs' := hs
    unfold step at hs'
    dsimp only at hs'
    rw [(find_clone h.ids).2 hx] at hs'
    exact hs'
  obtain ⟨hcl, hlim⟩ := replace_same hrep
  have fe : Eff s.w w' (· ∈ x.objs) Non := eff_replace h.good.shape hrep
  obtain ⟨q, hq, hgood⟩ := good_step h.good (.replace e k)
  rw [hs] at hq ⊢
  injection hq with hq
  subst hq
  have hinv : Inv sys { s with w := w' } (· = k) := by
    refine ⟨hgood, fe.ids h.ids, vis_lt h.lt fe (clone_lt h.good hx), fun d hd => h.data d (Nat.le_trans fe.next hd), h.nodup,
      fun c hc => ?_⟩
    obtain ⟨y, hy, hp⟩ := h.cand c hc
    refine ⟨y, fe.keep _ hy id, fun hE => (hp id).eff fe (clone_lt h.good hy) (fun d hd => ?_) rfl rfl⟩
    exact (hp id).others (k, x) hx (fun e => hE e.symm) d hd
  by_cases hok : replaceCode e x old = .ok
  · obtain ⟨s2, e2, hi2, h1, h2, h3, h4, h5, h6⟩ := destroyCand_spec hinv k
    refine ⟨s2, ?_, h3, h4, fun p hp => ?_, fun hne => absurd hok hne, fun _ => ⟨hi2.weaken fun i h => h.2 h.1, fun c => ?_, ?_⟩⟩
    · show (if replaceCode e x old = .ok then _ else _) = _
      rw [if_pos hok, e2, hok]
      rfl
    · rw [h6 p hp]
      show p ∈ w'.clones ↔ _
      rw [hcl]
    · rw [h5]; exact cands_erase h.nodup
    · obtain ⟨n, n1, n2, n3, n4, n5, n6, n7, n8, n9, n10⟩ := hyes hok
      refine ⟨n, n1, n2, n3, n4, n5, n6, n7, n8, n9, fun m => ?_⟩
      rw [h1]
      exact n10 m
  · refine ⟨{ s with w := w' }, ?_, rfl, rfl, fun p _ => ?_, fun hne => ⟨hinv, hno hne, hlim hne, rfl⟩, fun h => absurd h hok⟩
    · show (if replaceCode e x old = .ok then _ else _) = _
      rw [if_neg hok]
    · show p ∈ w'.clones ↔ _
      rw [hcl]

/-- The candidate `k`, which is `x`, that request `r` is about. `s1`: the state after it was found or created. -/
structure Sel (sys : Sys D) (r : Req D) (s s1 : St D) (k : Nat) (x : Xl) : Prop where
  inv : Inv sys s1 Non
  table : s1.w.table = s.w.table
  limbo : s1.w.limbo = s.w.limbo
  data : s1.data = s.data
  refs : s1.nsRefs = s.nsRefs
  cand : ∃ c ∈ s1.cands, c.clone = k ∧ c.pid = r.pid
  clone : (k, x) ∈ s1.w.clones
  ns : x.ns = r.ns
  name : x.name = r.name
  rest : ∀ c ∈ s1.cands, c.clone ≠ k → c ∈ s.cands
  clones : ∀ p ∈ s1.w.clones, p.1 ≠ k → p ∈ s.w.clones
  others : ∀ p ∈ s.w.clones, (∀ c ∈ s.cands, c.clone ≠ p.1) → p ∈ s1.w.clones ∧ p.1 ≠ k
  which : (∃ f, r.init = some f ∧ k = s.w.next ∧ x.flags = f ||| r.xt ∧ x.globals = sys.dflt (xtOf (f ||| r.xt)) ∧
      (∀ d ∈ x.objs, s.w.heap.next ≤ d) ∧ ∀ c ∈ s.cands, c ∈ s1.cands) ∨
    (r.init = none ∧ (k, x) ∈ s.w.clones ∧ ∃ c ∈ s.cands, c.clone = k ∧ Owns s c r.ns r.pid r.name)

/-- The outcome of a request. -/
theorem body_spec {sys : Sys D} {s : St D} (r : Req D) (h : Inv sys s Non) :
    ∃ s' code res, body sys r s = .ok (s', code, res) ∧ Inv sys s' Non ∧
      ((res = none ∧ code ≠ .ok ∧ Fewer s s' ∧
          (nameValid r.name = true → r.init = none → ∀ c ∈ s.cands, ¬ Owns s c r.ns r.pid r.name)) ∨
      ∃ s1 k x, Sel sys r s s1 k x ∧ (∀ d, d ∉ x.objs → s'.data d = s.data d) ∧ s'.nsRefs = s.nsRefs ∧
        (∀ p, p.1 ≠ k → (p ∈ s'.w.clones ↔ p ∈ s1.w.clones)) ∧
        ((res = none ∧ code ≠ .ok ∧ s'.w.table = s.w.table ∧ s'.w.limbo = s.w.limbo ∧
            (∀ c, c ∈ s'.cands ↔ c ∈ s1.cands ∧ c.clone ≠ k) ∧ (r.apply (s1.conf x) = none ∨ r.fin = true)) ∨
        (code = .ok ∧ res = some k ∧ ∃ c g, r.apply (s1.conf x) = some c ∧ s'.conf { x with globals := g } = c ∧
          ((r.fin = false ∧ s'.w.table = s.w.table ∧ s'.w.limbo = s.w.limbo ∧ s'.cands = s1.cands ∧
              (k, { x with globals := g }) ∈ s'.w.clones) ∨
          (r.fin = true ∧ (∀ c, c ∈ s'.cands ↔ c ∈ s1.cands ∧ c.clone ≠ k) ∧
            ∃ old n, IsOld s.w x old ∧ Installed s s' { x with globals := g } old n))))) := by
  unfold body
  split
  · rename_i hnv
    exact ⟨s, _, _, rfl, h, .inl ⟨rfl, by simp, Fewer.refl s, fun hv => by simp [hv] at hnv⟩⟩
  rename_i hnv
  have hsel : (∃ s1 code, select sys r s = .ok (s1, code, none) ∧
        code ≠ .ok ∧ Inv sys s1 Non ∧ Fewer s s1 ∧ (r.init = none → ∀ c ∈ s.cands, ¬ Owns s c r.ns r.pid r.name)) ∨
      (∃ s1 k x, select sys r s = .ok (s1, .ok, some k) ∧
        Sel sys r s s1 k x) := by
    unfold select
    cases hri : r.init with
    | some f =>
      dsimp only
      rcases handleInit_spec r f h with ⟨s1, code, e, hc, hi, hf, _⟩ | ⟨s1, x, e, hi, h1, h2, h3, h4, h5, h6, h7, h8, h9, h10, h11⟩
      · exact .inl ⟨s1, code, e, hc, hi, hf, fun h => by cases h⟩
      · have hlt : ∀ p ∈ s.w.clones, p.1 ≠ s.w.next := by
          intro p hp e
          have := h.ids.lt p.1 (List.mem_append_left _ (List.mem_map.2 ⟨_, hp, rfl⟩))
          omega
        refine .inr ⟨s1, s.w.next, x, e, hi, h1, h2, h3, h4, ⟨_, by rw [h5]; exact List.mem_cons_self .., rfl, rfl⟩,
          by rw [h6]; exact List.mem_cons_self .., h7, h8, fun c hc hk => ?_, fun p hp hk => ?_, fun p hp _ => ⟨?_, hlt p hp⟩,
          .inl ⟨f, hri, rfl, h9, h10, h11, fun c hc => ?_⟩⟩
        · rw [h5] at hc
          rcases List.mem_cons.1 hc with e | hc
          · subst e; exact absurd rfl hk
          · exact hc
        · rw [h6] at hp
          rcases List.mem_cons.1 hp with e | hp
          · subst e; exact absurd rfl hk
          · exact hp
        · rw [h6]; exact List.mem_cons_of_mem _ hp
        · rw [h5]; exact List.mem_cons_of_mem _ hc
    | none =>
      dsimp only
      obtain ⟨s1, res, e, hi, hf, hn, hsm⟩ := getCand_spec r h (fun _ h => h) h.nodup
      rw [e]
      cases res with
      | none => exact .inl ⟨s1, .ESRCH, rfl, by simp, hi, hf, fun _ => (hn rfl).2⟩
      | some k =>
        obtain ⟨hr, c, hc, hc1, hck, hown⟩ := hsm k rfl
        obtain ⟨x, hx, _⟩ := hi.cand c hc1
        rw [hck] at hx
        have hxs := hf.clones _ hx
        have hown' := hown
        obtain ⟨hpid, y, hy, hns, hname⟩ := hown
        rw [hck] at hy
        have hyx := clone_unique h.ids hy hxs
        subst hyx
        exact .inr ⟨s1, k, y, rfl, hi, hf.table, hf.limbo, hf.data, hr, ⟨c, hc1, hck, hpid⟩, hx, hns, hname,
          fun c hc _ => hf.cands c hc, fun p hp _ => hf.clones p hp,
          fun p hp hc' => ⟨hf.others p hp hc', fun e => hc' c hc (hck.trans e.symm)⟩,
          .inr ⟨hri, hxs, c, hc, hck, hown'⟩⟩
  rcases hsel with ⟨s1, code, e, hc, hi, hf, hno⟩ | ⟨s1, k, x, e, sel⟩
  · rw [e]
    exact ⟨s1, code, none, rfl, hi, .inl ⟨rfl, hc, hf, fun _ => hno⟩⟩
  rw [e]
  have hkc : ∃ c ∈ s1.cands, c.clone = k := by
    obtain ⟨c, hc, h1, _⟩ := sel.cand
    exact ⟨c, hc, h1⟩
  obtain ⟨s2, code, g, es, hi2, he2, hk2, hcode, hconf⟩ := sections_spec r sel.inv sel.clone hkc
  show ∃ s' code res, (andThen (sections sys r k s1) _).bind _ = _ ∧ _
  rw [es]
  have hdata : ∀ d, d ∉ x.objs → s2.data d = s.data d := fun d hd => by rw [he2.data d hd, sel.data]
  by_cases hok : code = .ok
  · obtain ⟨c, hc⟩ := Option.isSome_iff_exists.1 (hcode.1 hok)
    have hcf := hconf c hc
    subst hok
    have hthen : andThen (.ok (s2, Code.ok)) (fun s => if r.fin then commit sys r k s else .ok (s, .ok)) =
        (if r.fin then commit sys r k s2 else .ok (s2, .ok)) := by
      unfold andThen; rfl
    rw [hthen]
    cases hfin : r.fin with
    | false =>
      refine ⟨s2, .ok, some k, rfl, hi2, .inr ⟨s1, k, x, sel, hdata, he2.refs.trans sel.refs, he2.clones, .inr ⟨rfl, rfl, c, g, hc, hcf, .inl ⟨rfl,
        he2.table.trans sel.table, he2.limbo.trans sel.limbo, he2.cands, hk2⟩⟩⟩⟩
    | true =>
      obtain ⟨old, hold⟩ := exists_old hi2.good.shape { x with globals := g }
      obtain ⟨s3, e3, hd3, hr3, hcl3, hbad, hgood⟩ := commit_spec r hi2 hk2 hold
      have hold' : IsOld s.w x old := by
        intro n
        have := hold n
        rw [he2.table, sel.table] at this
        exact this
      generalize replaceCode _ _ old = rc at e3 hbad hgood
      rw [if_pos rfl, e3]
      show ∃ s' code res, (if rc = .ok then _ else _) = _ ∧ _
      by_cases hrc : rc = .ok
      · obtain ⟨hi3, hc3, n, hn⟩ := hgood hrc
        rw [if_pos hrc]
        refine ⟨s3, .ok, some k, rfl, hi3, .inr ⟨s1, k, x, sel, fun d hd => by rw [hd3]; exact hdata d hd, by rw [hr3, he2.refs, sel.refs],
          fun p hp => (hcl3 p hp).trans (he2.clones p hp), .inr ⟨rfl, rfl, c, g, hc, ?_, .inr ⟨rfl, fun c => ?_, old, n, hold', ?_⟩⟩⟩⟩
        · unfold St.conf at hcf ⊢
          rw [hd3]
          exact hcf
        · rw [hc3 c, he2.cands]
        · refine { hn with table := fun m => ?_ }
          rw [hn.table m, he2.table, sel.table]
      · obtain ⟨hi3, ht3, hl3, hc3⟩ := hbad hrc
        rw [if_neg hrc]
        obtain ⟨s4, e4, hi4, k1, k2, k3, k4, k5, k6⟩ := destroyCand_spec hi3 k
        rw [e4]
        refine ⟨s4, _, none, rfl, hi4.weaken fun i h => h.2 h.1, .inr ⟨s1, k, x, sel, fun d hd => by rw [k3, hd3]; exact hdata d hd,
          by rw [k4, hr3, he2.refs, sel.refs], fun p hp => (k6 p hp).trans ((hcl3 p hp).trans (he2.clones p hp)), .inl ⟨rfl, hrc, ?_, ?_, fun c => ?_, .inr rfl⟩⟩⟩
        · rw [k1, ht3, he2.table, sel.table]
        · rw [k2, hl3, he2.limbo, sel.limbo]
        · rw [k5, ← he2.cands, ← hc3]
          exact cands_erase hi3.nodup
  · have hthen : andThen (.ok (s2, code)) (fun s => if r.fin then commit sys r k s else .ok (s, .ok)) = .ok (s2, code) := by
      unfold andThen
      show (if code = .ok then _ else _) = _
      rw [if_neg hok]
    rw [hthen]
    show ∃ s' c' res, (if code = .ok then _ else _) = _ ∧ _
    rw [if_neg hok]
    obtain ⟨s4, e4, hi4, k1, k2, k3, k4, k5, k6⟩ := destroyCand_spec hi2 k
    rw [e4]
    refine ⟨s4, code, none, rfl, hi4.weaken fun i h => h.1, .inr ⟨s1, k, x, sel, fun d hd => by rw [k3]; exact hdata d hd,
      by rw [k4, he2.refs, sel.refs], fun p hp => (k6 p hp).trans (he2.clones p hp), .inl ⟨rfl, hok, ?_, ?_, fun c => ?_, .inl ?_⟩⟩⟩
    · rw [k1, he2.table, sel.table]
    · rw [k2, he2.limbo, sel.limbo]
    · rw [k5, ← he2.cands]
      exact cands_erase hi2.nodup
    · cases hr : r.apply (s1.conf x) with
      | none => rfl
      | some c => rw [hr] at hcode; exact absurd (hcode.2 rfl) hok

end Jool.Atomic
