import Verif.Props.Pool4
import Verif.Lemmas.BibOps
/-
C15, C16: the counter of a pool and the candidates it offers.
-/
namespace Jool.Pool4
open Pool4Spec PrefixSpec

/-! ## Ranges and transport addresses -/

theorem taddrs_cons (e : E) (r : List E) : taddrs (e :: r) = taddrs [e] ++ taddrs r := by simp [taddrs]

theorem taddrs_append (l r : List E) : taddrs (l ++ r) = taddrs l ++ taddrs r := by simp [taddrs]

theorem taddrs_single_length (e : E) : (taddrs [e]).length = cnt e := by simp [taddrs, cnt]

theorem total32_eq (es : List E) : total32 es = BitVec.ofNat 32 (taddrs es).length := by
  induction es with
  | nil => rfl
  | cons e r ih =>
    rw [total32, ih, taddrs_cons, List.length_append, taddrs_single_length, BitVec.ofNat_add, cnt32]

theorem mem_taddrs (es : List E) (h : ∀ e ∈ es, OkE e) (a : T4) : a ∈ taddrs es ↔ InEs es a := by
  simp only [taddrs, List.mem_flatMap, List.mem_map, List.mem_range, InEs, Cov]
  constructor
  · rintro ⟨e, he, i, hi, rfl⟩
    have := h e he
    refine ⟨e, he, rfl, ?_⟩
    have h3 := this.2.2
    rw [show (BitVec.ofNat 16 (e.min + i)).toNat = e.min + i by rw [BitVec.toNat_ofNat]; omega]
    omega
  · rintro ⟨e, he, h1, h2, h3⟩
    refine ⟨e, he, a.port.toNat - e.min, by omega, ?_⟩
    have : e.min + (a.port.toNat - e.min) = a.port.toNat := by omega
    rw [this, h1, BitVec.ofNat_toNat, BitVec.setWidth_eq]

theorem taddrs_nodup (es : List E) (h : WFes es) : (taddrs es).Nodup := by
  induction es with
  | nil => simp [taddrs]
  | cons e r ih =>
    rw [taddrs_cons, List.nodup_append]
    refine ⟨?_, ih h.tail, ?_⟩
    · simp only [taddrs, List.flatMap_cons, List.flatMap_nil, List.append_nil]
      unfold List.Nodup
      rw [List.pairwise_map]
      refine List.Pairwise.imp_of_mem ?_ (List.pairwise_lt_range (n := e.max + 1 - e.min))
      intro i j hi hj hij hc
      have hi := List.mem_range.1 hi
      have hj := List.mem_range.1 hj
      have := h.head.2.2
      injection hc with _ hc
      have hc := congrArg BitVec.toNat hc
      rw [BitVec.toNat_ofNat, BitVec.toNat_ofNat] at hc
      omega
    · intro a ha b hb hab
      subst hab
      rw [mem_taddrs _ (by simpa using h.head)] at ha
      rw [mem_taddrs _ h.tail.ok] at hb
      have ha := inEs_single.1 ha
      obtain ⟨f, hf, hb⟩ := hb
      rcases h.before f hf with h1 | ⟨h1, h2⟩
      · rw [ha.1, hb.1] at h1; omega
      · have := ha.2.2; have := hb.2.1; omega

/-! ## The counter -/

/-- The operation neither enlarges an existing range nor splits one. -/
def Mild (db : Pool) : Op → Prop
  | .add _ _ p e => ∀ t ∈ (db p).marks, t.mark = e.mark → ∀ x ∈ t.t.es, Mem4 e.pfx x.addr →
      x.max + 1 < (addPorts p e).1 ∨ (addPorts p e).2 + 1 < x.min ∨
        (x.min ≤ (addPorts p e).1 ∧ (addPorts p e).2 ≤ x.max)
  | .rm _ p mark pfx min max => ∀ t ∈ (db p).marks, t.mark = mark → ∀ x ∈ t.t.es, Mem4 pfx x.addr →
      ¬ (x.min < (lower min max).toNat ∧ (upper min max).toNat < x.max)
  | _ => True

/-- Every operation of the history is mild in the state it finds. -/
def MildRun : Pool → List Op → Prop
  | _, [] => True
  | db, o :: os => Mild db o ∧ ∀ db' err, step db o = .ok (db', err) → MildRun db' os

theorem step_counted {db db' : Pool} {o : Op} {err : Bool} (hg : Good db) (hn : NoFail o) (hm : Mild db o)
    (hc : ∀ p, Counted (db p).marks) (hs : step db o = .ok (db', err)) : ∀ p, Counted (db' p).marks := by
  cases o with
  | flush =>
    simp only [step, Outcome.ok.injEq, Prod.mk.injEq] at hs
    obtain ⟨rfl, rfl⟩ := hs
    intro p t ht; simp [flush, empty] at ht
  | update q mark f iters =>
    simp only [step, Outcome.ok.injEq] at hs
    have hu : db' = (update q mark f iters db).1 := by rw [hs]
    unfold update at hu
    split at hu
    · exact hu ▸ hc
    · split at hu
      · exact hu ▸ hc
      · subst hu
        intro p t ht
        dsimp only at ht
        by_cases hp : p = q
        · subst hp
          rw [setP_self] at ht
          obtain ⟨y, hy, rfl⟩ := List.mem_map.1 ht
          split
          · exact hc p y hy
          · exact hc p y hy
        · rw [setP_ne _ _ hp] at ht; exact hc p t ht
  | add kr eph q e =>
    simp only [step, add] at hs
    split at hs
    · simp only [Outcome.ok.injEq, Prod.mk.injEq] at hs; exact hs.1 ▸ hc
    · rename_i hv
      split at hs
      · simp only [Outcome.ok.injEq, Prod.mk.injEq] at hs; exact hs.1 ▸ hc
      · split at hs
        · simp only [Outcome.ok.injEq, Prod.mk.injEq] at hs; exact hs.1 ▸ hc
        · have hcan : Canonical4 e.pfx := (prefix4Validate_iff e.pfx).1 (by simpa using hv)
          cases hl : addLoop kr e (addPorts q e).1 (addPorts q e).2 (db q) (foreachAddr4 e.pfx) with
          | ub u => rw [hl] at hs; simp [Outcome.map] at hs
          | ok r =>
            rw [hl] at hs
            simp only [Outcome.map, Outcome.ok.injEq, Prod.mk.injEq] at hs
            obtain ⟨rfl, rfl⟩ := hs
            obtain ⟨w1, w2, w3, w4, w5, w6, w7⟩ := addLoop_spec kr e _ _ _ (db q) r.1 r.2 (addPorts_ok q e) (hg.wf q) hl
            intro p t ht
            by_cases hp : p = q
            · subst hp
              rw [setP_self] at ht
              refine w7 (foreach_nodup _ hcan) (hc p) ?_ t ht
              intro x hx t0 ht0 hm0 g hgm hz
              obtain ⟨z1, z2, z3⟩ := cmp_zero.1 hz
              dsimp only at z1 z2 z3 ⊢
              have hmem : Mem4 e.pfx g.addr := by
                rw [z1]; exact ((prefix4_foreach_correct e.pfx hcan).1 x).1 hx
              rcases hm t0 ht0 hm0 g hgm hmem with h | h | h
              · omega
              · omega
              · exact h
            · rw [setP_ne _ _ hp] at ht; exact hc p t ht
  | rm kr q mark pfx x y =>
    simp only [step, rm] at hs
    split at hs
    · simp only [Outcome.ok.injEq, Prod.mk.injEq] at hs; exact hs.1 ▸ hc
    · rename_i hv
      have hcan : Canonical4 pfx := (prefix4Validate_iff pfx).1 (by simpa using hv)
      have hlh := lower_le_upper x y
      have hhi : (upper x y).toNat ≤ 65535 := by have := (upper x y).isLt; omega
      cases hm' : rmFromMark (kr true) mark pfx (lower x y).toNat (upper x y).toNat (db q).marks with
      | ub u => rw [hm'] at hs; simp at hs
      | ok r =>
        obtain ⟨m', e1⟩ := r
        rw [hm'] at hs
        obtain ⟨k1, k2, k3⟩ := rmFromMark_spec hlh hhi (hg.wf q).m hm'
        cases e1 with
        | true => obtain ⟨a, ha⟩ := k2 rfl; exact absurd ha (hn true a)
        | false =>
          obtain ⟨_, s2⟩ := k3 rfl
          dsimp only at hs
          cases ha : rmFromAddr (kr false) pfx (lower x y).toNat (upper x y).toNat (db q).addrs with
          | ub u => rw [ha] at hs; simp [Outcome.map] at hs
          | ok r =>
            rw [ha] at hs
            simp only [Outcome.map, Outcome.ok.injEq, Prod.mk.injEq] at hs
            obtain ⟨rfl, rfl⟩ := hs
            intro p t ht
            by_cases hp : p = q
            · subst hp
              rw [setP_self] at ht
              refine s2 (hc p) ?_ t ht
              rintro t0 ht0 hm0 g hgm ⟨h1, h2, h3⟩
              exact hm t0 ht0 hm0 g hgm ((prefix4_contains_correct pfx _ hcan.1).1 h1) ⟨h2, h3⟩
            · rw [setP_ne _ _ hp] at ht; exact hc p t ht

theorem run_counted (hist : List Op) (db db' : Pool) (hg : Good db) (hn : ∀ o ∈ hist, NoFail o) (hm : MildRun db hist)
    (hc : ∀ p, Counted (db p).marks) (hr : run db hist = .ok db') : ∀ p, Counted (db' p).marks := by
  induction hist generalizing db with
  | nil => simp only [run, Outcome.ok.injEq] at hr; exact hr ▸ hc
  | cons o os ih =>
    rw [run] at hr
    cases hs : step db o with
    | ub u => rw [hs] at hr; simp at hr
    | ok r =>
      rw [hs] at hr
      exact ih r.1 (step_spec hg (db' := r.1) (err := r.2) hs).1 (fun x hx => hn x (List.mem_cons_of_mem _ hx))
        (hm.2 r.1 r.2 hs) (step_counted hg (hn o (List.mem_cons_self ..)) hm.1 hc (err := r.2) hs) hr

/-- **C15** (partial). The counter of every table equals (modulo 2^32) the number of its transport addresses, which
`taddrs` lists without repetition, as long as no addition enlarges a range that already exists and no removal
splits one. The full claim, without those two conditions, is false: see `counter_fuse`, `counter_hole` and
their consequences below. -/
theorem counter_partial (hist : List Op) (hn : ∀ o ∈ hist, NoFail o) (hm : MildRun empty hist) (db : Pool)
    (hr : run empty hist = .ok db) (p : Proto) (t : MT) (ht : t ∈ (db p).marks) :
    t.t.count = BitVec.ofNat 32 (taddrs t.t.es).length ∧ (taddrs t.t.es).Nodup ∧
      ∀ a, a ∈ taddrs t.t.es ↔ In db p t.mark a := by
  have hg := run_good hist good_empty hr
  have hw := (hg.wf p).m.wf t ht
  refine ⟨?_, taddrs_nodup _ hw, ?_⟩
  · rw [← total32_eq]
    exact run_counted hist empty db good_empty hn hm (by intro p t ht; simp [empty] at ht) hr p t ht
  · intro a
    rw [mem_taddrs _ hw.ok]
    constructor
    · exact fun h => ⟨t, ht, rfl, h⟩
    · rintro ⟨u, hu, hm, h⟩
      rw [← (hg.wf p).m.unique hu ht hm]; exact h

/-! ## Enumeration -/

theorem getD_take_length (es : List E) (i : Nat) (h : i < es.length) :
    taddrs (es.take (i + 1)) = taddrs (es.take i) ++ taddrs [es.getD i default] := by
  rw [← taddrs_append]
  congr 1
  rw [List.take_add_one]
  simp [List.getD, h]

/-- `d` is about to yield the `k`-th candidate (`k = length`: the first one again). -/
structure At (es : List E) (d : Dom) (k : Nat) : Prop where
  es_eq : d.es = es
  cur : d.cur < es.length
  pos : ∃ j : Nat, d.port = ((es.getD d.cur default).min : Int) + j - 1 ∧ j ≤ cnt (es.getD d.cur default) ∧
    k = (taddrs (es.take d.cur)).length + j

theorem at_range (es : List E) (i j : Nat) (hi : i < es.length) (hj : j < cnt (es.getD i default)) :
    (taddrs es)[(taddrs (es.take i)).length + j]? =
      some ⟨(es.getD i default).addr, BitVec.ofNat 16 ((es.getD i default).min + j)⟩ := by
  have h1 : taddrs es = taddrs (es.take (i + 1)) ++ taddrs (es.drop (i + 1)) := by
    rw [← taddrs_append, List.take_append_drop]
  rw [h1, getD_take_length es i hi, List.append_assoc, List.getElem?_append_right (by omega), Nat.add_sub_cancel_left,
    List.getElem?_append_left (by rw [taddrs_single_length]; exact hj)]
  simp only [taddrs, List.flatMap_cons, List.flatMap_nil, List.append_nil, List.getElem?_map]
  rw [List.getElem?_range (by simpa [cnt] using hj)]
  rfl

theorem cnt_pos {e : E} (h : e.min ≤ e.max) : 0 < cnt e := by simp only [cnt]; omega

theorem getD_mem (es : List E) (i : Nat) (h : i < es.length) : es.getD i default ∈ es := by
  simp [List.getD, h]

theorem next_some (es : List E) (hne : ∀ e ∈ es, e.min ≤ e.max) (hok : ∀ e ∈ es, OkE e) (d : Dom) (k : Nat)
    (ha : At es d k) (h1 : ¬ d.count < d.counter + 1) (h2 : ¬ (d.maxIter ≠ 0 ∧ d.maxIter < d.counter + 1)) :
    (∃ c, (next d).1 = some c ∧ (taddrs es)[k % (taddrs es).length]? = some c.1) ∧
      At es (next d).2 (k % (taddrs es).length + 1) ∧ (next d).2.count = d.count ∧
      (next d).2.counter = d.counter + 1 ∧ (next d).2.maxIter = d.maxIter := by
  obtain ⟨he, hc, j, hp, hj, hk⟩ := ha
  have hm := getD_mem es d.cur hc
  have hcp := cnt_pos (hne _ hm)
  have hlen : (taddrs (es.take d.cur)).length + cnt (es.getD d.cur default) ≤ (taddrs es).length := by
    have h1 : taddrs es = taddrs (es.take (d.cur + 1)) ++ taddrs (es.drop (d.cur + 1)) := by
      rw [← taddrs_append, List.take_append_drop]
    rw [h1, getD_take_length es _ hc, List.length_append, List.length_append, taddrs_single_length]
    omega
  have hokm := hok _ hm
  have hnem := hne _ hm
  unfold next
  simp only [he]
  rw [if_neg h1, if_neg h2]
  by_cases hlt : j < cnt (es.getD d.cur default)
  · -- still within the current range
    have hkl : k < (taddrs es).length := by omega
    have hmod : k % (taddrs es).length = k := Nat.mod_eq_of_lt hkl
    have hport : ¬ ((es.getD d.cur default).max : Int) < d.port + 1 := by
      rw [hp]; simp only [cnt] at hlt; omega
    rw [if_neg hport, hmod]
    refine ⟨⟨_, rfl, ?_⟩, ⟨rfl, hc, j + 1, ?_, hlt, ?_⟩, rfl, rfl, rfl⟩
    · rw [hk, at_range es _ _ hc hlt]
      congr 2
      rw [hp]
      have : ((es.getD d.cur default).min : Int) + j - 1 + 1 = (((es.getD d.cur default).min + j : Nat) : Int) := by
        push_cast; omega
      rw [this, BitVec.ofInt_natCast]
    · dsimp only; rw [hp]; push_cast; omega
    · dsimp only; omega
  · -- the range is over
    have hje : j = cnt (es.getD d.cur default) := by omega
    have hport : ((es.getD d.cur default).max : Int) < d.port + 1 := by
      rw [hp, hje]; simp only [cnt]; omega
    rw [if_pos hport]
    by_cases hlast : es.length ≤ d.cur + 1
    · -- wrap around
      have hcl : d.cur + 1 = es.length := by omega
      have hkN : k = (taddrs es).length := by
        have h3 : taddrs es = taddrs (es.take (d.cur + 1)) := by rw [hcl, List.take_length]
        rw [hk, h3, getD_take_length es _ hc, List.length_append, taddrs_single_length, hje]
      have h0 : 0 < es.length := by omega
      have hm0 := getD_mem es 0 h0
      have hc0 := cnt_pos (hne _ hm0)
      rw [if_pos hlast, hkN, Nat.mod_self]
      refine ⟨⟨_, rfl, ?_⟩, ⟨rfl, h0, 1, ?_, hc0, ?_⟩, rfl, rfl, rfl⟩
      · have := at_range es 0 0 h0 hc0
        simpa [taddrs] using this
      · dsimp only; omega
      · simp [taddrs]
    · have hc1 : d.cur + 1 < es.length := by omega
      have hm1 := getD_mem es _ hc1
      have hcp1 := cnt_pos (hne _ hm1)
      have hkk : k = (taddrs (es.take (d.cur + 1))).length := by
        rw [hk, getD_take_length es _ hc, List.length_append, taddrs_single_length, hje]
      have hkl : k < (taddrs es).length := by
        have h3 : taddrs es = taddrs (es.take (d.cur + 1 + 1)) ++ taddrs (es.drop (d.cur + 1 + 1)) := by
          rw [← taddrs_append, List.take_append_drop]
        rw [h3, getD_take_length es _ hc1, List.length_append, List.length_append, taddrs_single_length, ← hkk]
        omega
      rw [if_neg hlast, Nat.mod_eq_of_lt hkl]
      refine ⟨⟨_, rfl, ?_⟩, ⟨rfl, hc1, 1, ?_, hcp1, ?_⟩, rfl, rfl, rfl⟩
      · have := at_range es (d.cur + 1) 0 hc1 hcp1
        rw [hkk]
        simpa using this
      · dsimp only; omega
      · dsimp only; omega

theorem next_none (d : Dom) (h : d.count < d.counter + 1 ∨ (d.maxIter ≠ 0 ∧ d.maxIter < d.counter + 1)) :
    (next d).1 = none := by
  unfold next
  simp only
  by_cases h1 : d.count < d.counter + 1
  · rw [if_pos h1]
  · rw [if_neg h1, if_pos (h.resolve_left h1)]

/-- How many candidates a fresh domain offers. -/
def limit (n : Nat) (maxIter : BitVec 32) : Nat := if maxIter = 0 then n else min n maxIter.toNat

theorem cands_spec (es : List E) (hne : ∀ e ∈ es, e.min ≤ e.max) (hok : ∀ e ∈ es, OkE e) (n : Nat) (d : Dom) (k : Nat)
    (ha : At es d k) (hn : d.counter.toNat + n ≤ d.count.toNat) (hle : d.counter.toNat ≤ limit d.count.toNat d.maxIter) :
    (cands n d).map (fun c => some c.1) =
      (List.range (min n (limit d.count.toNat d.maxIter - d.counter.toNat))).map
        (fun i => (taddrs es)[(k + i) % (taddrs es).length]?) := by
  induction n generalizing d k with
  | zero => simp [cands]
  | succ n ih =>
    have hb := d.count.isLt
    have hinc : (d.counter + 1).toNat = d.counter.toNat + 1 := by
      rw [BitVec.toNat_add]; simp; omega
    have h1 : ¬ d.count < d.counter + 1 := by rw [BitVec.lt_def, hinc]; omega
    by_cases h2 : d.maxIter ≠ 0 ∧ d.maxIter < d.counter + 1
    · have hx := h2.2
      rw [BitVec.lt_def, hinc] at hx
      have hl : limit d.count.toNat d.maxIter - d.counter.toNat = 0 := by
        simp only [limit, if_neg h2.1]; omega
      rw [hl, cands, next_none d (.inr h2)]
      simp
    · obtain ⟨⟨c, hc, hck⟩, hat, e1, e2, e3⟩ := next_some es hne hok d k ha h1 h2
      have hlim : d.counter.toNat + 1 ≤ limit d.count.toNat d.maxIter := by
        by_cases h0 : d.maxIter = 0
        · simp only [limit, if_pos h0]; omega
        · simp only [limit, if_neg h0]
          have : ¬ d.maxIter < d.counter + 1 := fun h => h2 ⟨h0, h⟩
          rw [BitVec.lt_def, hinc] at this
          omega
      have := ih (next d).2 _ hat (by rw [e1, e2, hinc]; omega) (by rw [e1, e2, e3, hinc]; exact hlim)
      rw [cands, hc]
      simp only [List.map_cons]
      rw [this, e1, e2, e3, hinc]
      have hsucc : min (n + 1) (limit d.count.toNat d.maxIter - d.counter.toNat) =
          min n (limit d.count.toNat d.maxIter - (d.counter.toNat + 1)) + 1 := by omega
      rw [hsucc, List.range_succ_eq_map, List.map_cons, List.map_map]
      simp only [Nat.add_zero, hck, List.cons.injEq, true_and]
      apply List.map_congr_left
      intro i _
      simp only [Function.comp]
      congr 1
      rw [Nat.add_assoc, Nat.mod_add_mod]
      congr 1
      omega

theorem seek_spec (es pre : List E) (off : Nat) (h : off < (taddrs es).length) (hne : ∀ e ∈ es, e.min ≤ e.max) :
    ∃ i j : Nat, seek es pre.length off = some (pre.length + i, ((es.getD i default).min : Int) + j - 1) ∧ i < es.length ∧
      j ≤ cnt (es.getD i default) ∧ off = (taddrs (es.take i)).length + j := by
  induction es generalizing pre off with
  | nil => simp [taddrs] at h
  | cons e r ih =>
    rw [seek]
    by_cases hle : off ≤ cnt e
    · rw [if_pos hle]
      exact ⟨0, off, rfl, by simp, hle, by simp [taddrs]⟩
    · rw [if_neg hle]
      have h' : off - cnt e < (taddrs r).length := by
        rw [taddrs_cons, List.length_append, taddrs_single_length] at h; omega
      obtain ⟨i, j, h1, h2, h3, h4⟩ := ih (pre ++ [e]) (off - cnt e) h' (fun x hx => hne x (List.mem_cons_of_mem _ hx))
      simp only [List.length_append, List.length_singleton] at h1
      refine ⟨i + 1, j, ?_, by simp; exact h2, h3, ?_⟩
      · rw [h1]
        congr 2
        omega
      · rw [List.take_succ_cons, taddrs_cons, List.length_append, taddrs_single_length]; omega

theorem rotate_eq {α} (l : List α) (k : Nat) (h : k ≤ l.length) :
    (List.range l.length).map (fun i => l[(k + i) % l.length]?) = (l.drop k ++ l.take k).map some := by
  apply List.ext_getElem?
  intro i
  rw [List.getElem?_map, List.getElem?_map]
  by_cases hi : i < l.length
  · rw [List.getElem?_range hi]
    simp only [Option.map_some]
    by_cases h1 : i < l.length - k
    · rw [List.getElem?_append_left (by simpa using h1), List.getElem?_drop, Nat.mod_eq_of_lt (by omega)]
      rw [List.getElem?_eq_getElem (by omega)]; rfl
    · rw [List.getElem?_append_right (by simpa using h1), List.length_drop]
      rw [Nat.mod_eq_sub_mod (by omega), Nat.mod_eq_of_lt (by omega)]
      rw [List.getElem?_take_of_lt (by omega), List.getElem?_eq_getElem (by omega)]
      rw [show i - (l.length - k) = k + i - l.length by omega]
      rw [List.getElem?_eq_getElem (by omega)]; rfl
  · rw [List.getElem?_eq_none (by simpa using hi), List.getElem?_eq_none (by simp; omega)]
    rfl

theorem rotate_take {α} (l : List α) (k n : Nat) (h : k ≤ l.length) (hn : n ≤ l.length) :
    (List.range n).map (fun i => l[(k + i) % l.length]?) = ((l.drop k ++ l.take k).take n).map some := by
  rw [List.map_take, ← rotate_eq l k h, ← List.map_take, List.take_range, Nat.min_eq_left hn]

/-- A table whose counter is right and whose ranges are not empty. -/
structure Sane (t : MT) : Prop where
  wf : WFes t.t.es
  ne : t.t.es ≠ []
  full : ∀ e ∈ t.t.es, e.min ≤ e.max
  count : t.t.count.toNat = (taddrs t.t.es).length

theorem Sane.pos {t : MT} (h : Sane t) : 0 < (taddrs t.t.es).length := by
  cases he : t.t.es with
  | nil => exact absurd he h.ne
  | cons e r =>
    rw [taddrs_cons, List.length_append, taddrs_single_length]
    have := cnt_pos (h.full e (by rw [he]; exact List.mem_cons_self ..))
    omega

theorem map_some_inj {α} {l r : List α} (h : l.map some = r.map some) : l = r := by
  have := congrArg (List.filterMap id) h
  simpa using this

/-- **C16.** A table whose counter is right offers, starting at the offset (modulo the size of the pool), its
transport addresses in order, each once, wrapping around; or as many of them as the iteration limit allows. -/
theorem enumeration (t : MT) (h : Sane t) (offset : BitVec 32) :
    ∃ d, domainOf t offset = .ok (some d) ∧
      (masks d).cands.map Prod.fst =
        ((taddrs t.t.es).drop (offset.toNat % (taddrs t.t.es).length) ++
          (taddrs t.t.es).take (offset.toNat % (taddrs t.t.es).length)).take
            (limit (taddrs t.t.es).length (maxIterations t)) := by
  have hpos := h.pos
  have hc0 : ¬ t.t.count = 0 := by
    intro hc
    have := h.count
    rw [hc] at this
    simp at this; omega
  have hlt := Nat.mod_lt offset.toNat hpos
  unfold domainOf
  rw [if_neg hc0, h.count]
  obtain ⟨i, j, h1, h2, h3, h4⟩ := seek_spec t.t.es [] _ hlt h.full
  simp only [List.length_nil, Nat.zero_add] at h1
  rw [h1]
  refine ⟨_, rfl, ?_⟩
  have hcs := cands_spec t.t.es h.full h.wf.ok t.t.count.toNat
    ⟨t.t.count, 0, maxIterations t, t.t.es, i, ((t.t.es.getD i default).min : Int) + j - 1, false⟩
    (offset.toNat % (taddrs t.t.es).length) ⟨rfl, h2, j, rfl, h3, h4⟩ (by simp) (by simp)
  apply map_some_inj
  simp only [masks, List.map_map]
  refine hcs.trans ?_
  have hlim : limit t.t.count.toNat (maxIterations t) ≤ (taddrs t.t.es).length := by
    rw [h.count]; unfold limit; split <;> omega
  have hlim' : limit (taddrs t.t.es).length (maxIterations t) ≤ (taddrs t.t.es).length := by
    unfold limit; split <;> omega
  rw [← rotate_take _ _ _ (by omega) hlim']
  simp only [BitVec.ofNat_eq_ofNat, BitVec.toNat_ofNat, Nat.zero_mod, Nat.sub_zero]
  rw [h.count, Nat.min_eq_right hlim']

/-- **C16.** The candidates are distinct members of the pool; without an effective limit, they are all of it. -/
theorem enumeration_exact (t : MT) (h : Sane t) (offset : BitVec 32) (d : Dom) (hd : domainOf t offset = .ok (some d)) :
    ((masks d).cands.map Prod.fst).Nodup ∧ (∀ a ∈ (masks d).cands.map Prod.fst, InEs t.t.es a) ∧
      ((maxIterations t = 0 ∨ (taddrs t.t.es).length ≤ (maxIterations t).toNat) →
        ∀ a, a ∈ (masks d).cands.map Prod.fst ↔ InEs t.t.es a) ∧
      (¬ (maxIterations t = 0 ∨ (taddrs t.t.es).length ≤ (maxIterations t).toNat) →
        (masks d).cands.length = (maxIterations t).toNat) := by
  obtain ⟨d', h1, h2⟩ := enumeration t h offset
  rw [hd] at h1
  simp only [Outcome.ok.injEq, Option.some.injEq] at h1
  subst h1
  have hperm : ((taddrs t.t.es).drop (offset.toNat % (taddrs t.t.es).length) ++
      (taddrs t.t.es).take (offset.toNat % (taddrs t.t.es).length)).Perm (taddrs t.t.es) := by
    refine List.perm_append_comm.trans ?_
    rw [List.take_append_drop]
  have hnd := hperm.nodup_iff.2 (taddrs_nodup _ h.wf)
  rw [h2]
  refine ⟨hnd.sublist (List.take_sublist _ _), ?_, ?_, ?_⟩
  · intro a ha
    exact (mem_taddrs _ h.wf.ok a).1 (hperm.mem_iff.1 (List.mem_of_mem_take ha))
  · intro hl a
    have : limit (taddrs t.t.es).length (maxIterations t) = (taddrs t.t.es).length := by
      unfold limit; split
      · rfl
      · rename_i h0; rcases hl with hl | hl
        · exact absurd hl h0
        · omega
    rw [this, List.take_of_length_le (by rw [hperm.length_eq]; exact Nat.le_refl _), hperm.mem_iff, mem_taddrs _ h.wf.ok]
  · intro hl
    have hl1 : ¬ maxIterations t = 0 := fun h => hl (.inl h)
    have hl2 : ¬ (taddrs t.t.es).length ≤ (maxIterations t).toNat := fun h => hl (.inr h)
    have := congrArg List.length h2
    rw [List.length_map, List.length_take, hperm.length_eq] at this
    rw [this]
    simp only [limit, if_neg hl1]; omega

theorem enumeration_single (addr : Addr4) (lo hi off : Nat) (c : BitVec 32) (hlo : lo ≤ hi) (hhi : hi ≤ 65535)
    (hc : c.toNat = hi + 1 - lo) (ho : off ≤ hi - lo) :
    (masks ⟨c, 0, 0, [⟨addr, lo, hi⟩], 0, ((lo + off : Nat) : Int), true⟩).cands.map Prod.fst =
      (taddrs [⟨addr, lo, hi⟩]).drop (off + 1) ++ (taddrs [⟨addr, lo, hi⟩]).take (off + 1) := by
  have hlen : (taddrs [⟨addr, lo, hi⟩]).length = hi + 1 - lo := by rw [taddrs_single_length]; simp [cnt]
  have hcs := cands_spec [⟨addr, lo, hi⟩] (by simpa using hlo) (by simp [OkE]; omega) c.toNat
    ⟨c, 0, 0, [⟨addr, lo, hi⟩], 0, ((lo + off : Nat) : Int), true⟩
    (off + 1) ⟨rfl, by simp, off + 1, by simp; omega, by simp [cnt]; omega, by simp [taddrs]⟩
    (by simp) (by simp)
  apply map_some_inj
  simp only [masks, List.map_map]
  refine Eq.trans hcs ?_
  rw [← rotate_eq _ _ (by rw [hlen]; omega), hlen]
  have e1 : min c.toNat (limit c.toNat 0 - (0 : BitVec 32).toNat) = hi + 1 - lo := by simp [limit, hc]
  rw [e1]

/-- **C16.** The empty pool: the ports 61001–65535 of the address that routing picked, each once. -/
theorem enumeration_empty (addr : Addr4) (offset : BitVec 32) :
    (masks (domainEmpty addr offset)).cands.map Prod.fst =
      (taddrs [⟨addr, 61001, 65535⟩]).drop (offset.toNat % 4535 + 1) ++
        (taddrs [⟨addr, 61001, 65535⟩]).take (offset.toNat % 4535 + 1) :=
  enumeration_single addr 61001 65535 (offset.toNat % 4535) 4535#32 (by omega) (by omega) (by simp) (by omega)

/-! ## The contract that the BIB relies on -/

theorem consec_aux (n : Nat) (d : Dom) (hes : d.es ≠ []) (hc : d.cur < d.es.length)
    (hok : ∀ e ∈ d.es, OkE e) (prev : Option T4) (hlow : -1 ≤ d.port)
    (hp : d.counter ≠ 0 → prev = some ⟨(d.es.getD d.cur default).addr, BitVec.ofInt 16 d.port⟩ ∧ 0 ≤ d.port ∧ d.port < 65536)
    (hn : d.counter.toNat + n ≤ d.count.toNat) :
    Bib.Consec prev (cands n d) := by
  induction n generalizing d prev with
  | zero => simp [cands, Bib.Consec]
  | succ n ih =>
    have hb := d.count.isLt
    have hinc : (d.counter + 1).toNat = d.counter.toNat + 1 := by
      rw [BitVec.toNat_add]; simp; omega
    have hnz : d.counter + 1 ≠ 0 := by
      intro h
      have := congrArg BitVec.toNat h
      rw [hinc] at this; simp at this
    have h1 : ¬ d.count < d.counter + 1 := by rw [BitVec.lt_def, hinc]; omega
    by_cases h2 : d.maxIter ≠ 0 ∧ d.maxIter < d.counter + 1
    · rw [cands, next_none d (.inr h2)]; simp [Bib.Consec]
    · by_cases hport : ((d.es.getD d.cur default).max : Int) < d.port + 1
      · -- next range
        generalize hcur : (if d.es.length ≤ d.cur + 1 then 0 else d.cur + 1) = cur
        have hcl : cur < d.es.length := by rw [← hcur]; split <;> omega
        have hnext : next d = (some (⟨(d.es.getD cur default).addr, BitVec.ofNat 16 (d.es.getD cur default).min⟩, false),
            { d with counter := d.counter + 1, cur := cur, port := ((d.es.getD cur default).min : Int) }) := by
          unfold next
          simp only
          rw [if_neg h1, if_neg h2, if_pos hport, hcur]
        rw [cands, hnext]
        refine ⟨by simp, ?_⟩
        have hm := hok _ (getD_mem d.es cur hcl)
        refine ih { d with counter := d.counter + 1, cur := cur, port := ((d.es.getD cur default).min : Int) } hes hcl hok _ (by dsimp only; omega) ?_ (by dsimp only; rw [hinc]; omega)
        intro _
        refine ⟨?_, by dsimp only; omega, by dsimp only; have := hm.2.1; omega⟩
        dsimp only
        rw [BitVec.ofInt_natCast]
      · have hnext : next d = (some (⟨(d.es.getD d.cur default).addr, BitVec.ofInt 16 (d.port + 1)⟩,
            decide (d.counter + 1 ≠ 1)), { d with counter := d.counter + 1, port := d.port + 1 }) := by
          unfold next
          simp only
          rw [if_neg h1, if_neg h2, if_neg hport]
        rw [cands, hnext]
        have hm := hok _ (getD_mem d.es d.cur hc)
        have hmax := hm.2.2
        have hval : ∀ x : Int, 0 ≤ x → x < 65536 → ((BitVec.ofInt 16 x).toNat : Int) = x := by
          intro x h0 hx
          rw [BitVec.toNat_ofInt]
          omega
        refine ⟨?_, ?_⟩
        · intro hf
          have hcz : d.counter ≠ 0 := by
            intro h0
            rw [h0] at hf
            simp at hf
          obtain ⟨hq, hq0, hq1⟩ := hp hcz
          refine ⟨_, hq, rfl, ?_⟩
          dsimp only
          have a1 := hval d.port hq0 hq1
          have a2 := hval (d.port + 1) (by omega) (by omega)
          omega
        · refine ih { d with counter := d.counter + 1, port := d.port + 1 } hes hc hok _ (by dsimp only; omega) ?_ (by dsimp only; rw [hinc]; omega)
          intro _
          exact ⟨rfl, by dsimp only; omega, by dsimp only; omega⟩

theorem seek_bound (es : List E) (i off : Nat) (s : Nat × Int) (h : seek es i off = some s) :
    i ≤ s.1 ∧ s.1 < i + es.length ∧ -1 ≤ s.2 := by
  induction es generalizing i off with
  | nil => simp [seek] at h
  | cons e r ih =>
    rw [seek] at h
    split at h
    · injection h with h
      subst h
      simp only [List.length_cons]
      omega
    · have := ih _ _ h
      simp only [List.length_cons]
      omega

/-- **C16.** What the BIB relies on (`Bib.Masks.Ok`): whenever a candidate is announced as consecutive, it is the
one that follows the previous candidate. True of every domain of every reachable pool, however wrong its
counter. -/
theorem masks_ok (hist : List Op) (db : Pool) (hr : run empty hist = .ok db) (p : Proto) (mark : BitVec 32)
    (route : Option Addr4) (offset : BitVec 32) (d : Dom) (hd : domainFind db p mark route offset = .ok (some d)) :
    (masks d).Ok := by
  have hg := run_good hist good_empty hr
  unfold domainFind at hd
  split at hd
  · simp only [Outcome.ok.injEq] at hd
    obtain ⟨a, ha, rfl⟩ := Option.map_eq_some_iff.1 hd
    refine consec_aux _ _ (by simp [domainEmpty]) (by simp [domainEmpty]) (by simp [domainEmpty, OkE]) none
      (by simp [domainEmpty]; omega) (by simp [domainEmpty]) (by simp [domainEmpty])
  · split at hd
    · simp at hd
    · rename_i t hf
      obtain ⟨ht, _⟩ := findMark_some hf
      unfold domainOf at hd
      split at hd
      · simp at hd
      · simp only [Outcome.ok.injEq] at hd
        obtain ⟨s, hs, rfl⟩ := Option.map_eq_some_iff.1 hd
        obtain ⟨_, h2, h3⟩ := seek_bound _ _ _ _ hs
        exact consec_aux _ _ ((hg.wf p).m.ne t ht) (by simpa using h2) ((hg.wf p).m.wf t ht).ok none h3 (by simp) (by simp)

end Jool.Pool4
