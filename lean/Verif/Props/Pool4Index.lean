import Verif.Props.Pool4Masks
/-
C15–C18, continued: which pools are sane, the address index, the trees, and the defects.
-/
namespace Jool.Pool4
open Pool4Spec PrefixSpec

/-! ## Ranges that are not empty -/

def Full (es : List E) : Prop := ∀ e ∈ es, e.min ≤ e.max

theorem fuse_full {a b : E} (ha : a.min ≤ a.max) : (fuse a b).min ≤ (fuse a b).max := by
  rw [fuse_min, fuse_max]; omega

theorem fix_full (r : List E) (c : BitVec 32) (e : E) (he : e.min ≤ e.max) (h : Full r) :
    Full (fixCollisions c e r).2 := by
  induction r generalizing c e with
  | nil => intro x hx; simp only [fixCollisions, List.mem_singleton] at hx; exact hx ▸ he
  | cons f r ih =>
    rw [fixCollisions]
    split
    · exact ih _ _ (fuse_full he) (fun x hx => h x (List.mem_cons_of_mem _ hx))
    · intro x hx
      rcases List.mem_cons.1 hx with rfl | hx
      · exact he
      · exact h x hx

theorem addFuse_full (es : List E) (c : BitVec 32) (n : E) (o : BitVec 32 × List E) (h : Full es)
    (hs : addFuse c n es = some o) : Full o.2 := by
  induction es generalizing o with
  | nil => simp [addFuse] at hs
  | cons e r ih =>
    have ht : Full r := fun x hx => h x (List.mem_cons_of_mem _ hx)
    have he := h e (List.mem_cons_self ..)
    rw [addFuse] at hs
    split at hs
    · injection hs with hs
      subst hs
      exact fix_full _ _ _ (fuse_full he) ht
    · split at hs
      · simp at hs
      · obtain ⟨q, hq, rfl⟩ := Option.map_eq_some_iff.1 hs
        intro x hx
        rcases List.mem_cons.1 hx with rfl | hx
        · exact he
        · exact ih q ht hq x hx

theorem slip_mem (n : E) (es : List E) (g : E) : g ∈ slip n es ↔ g = n ∨ g ∈ es := by
  induction es with
  | nil => simp [slip]
  | cons e r ih =>
    rw [slip]
    split
    · simp
    · simp only [List.mem_cons, ih]
      constructor <;> (rintro (h | h | h) <;> simp [h])

theorem addRange_full {kr : Kr} {t t' : Tbl} {n : E} {mv : Bool} (h : Full t.es) (hn : n.min ≤ n.max)
    (hs : addRange kr t n = .done t' mv) : Full t'.es := by
  unfold addRange at hs
  cases hq : addFuse t.count n t.es with
  | some q =>
    rw [hq] at hs
    simp only [AddR.done.injEq] at hs
    obtain ⟨rfl, _⟩ := hs
    exact addFuse_full _ _ _ _ h hq
  | none =>
    rw [hq] at hs
    have : t' = ⟨t.count + cnt32 n, slip n t.es⟩ := by
      cases kr <;> simp at hs <;> exact hs.1.symm
    subst this
    intro x hx
    rcases (slip_mem _ _ _).1 hx with rfl | hx
    · exact hn
    · exact h x hx

theorem addToMark_full {kr : Kr} {l l' : List MT} {e : Entry} {n : E} {err : Bool} (h : ∀ t ∈ l, Full t.t.es)
    (hn : n.min ≤ n.max) (hs : addToMark kr l e n = .ok (l', err)) : ∀ t ∈ l', Full t.t.es := by
  unfold addToMark at hs
  cases hf : findMark l e.mark with
  | some t =>
    obtain ⟨ht, _⟩ := findMark_some hf
    rw [hf] at hs
    dsimp only at hs
    cases hr : addRange kr t.t n with
    | enomem =>
      rw [hr] at hs
      simp only [Outcome.ok.injEq, Prod.mk.injEq] at hs
      exact hs.1 ▸ h
    | done t' mv =>
      rw [hr] at hs
      dsimp only at hs
      split at hs
      · simp at hs
      · simp only [Outcome.ok.injEq, Prod.mk.injEq] at hs
        obtain ⟨rfl, rfl⟩ := hs
        intro x hx
        obtain ⟨y, hy, rfl⟩ := List.mem_map.1 hx
        split
        · rw [setIters_t]; exact addRange_full (h t ht) hn hr
        · exact h y hy
  | none =>
    rw [hf] at hs
    dsimp only at hs
    by_cases hk : kr = .fail
    · subst hk
      simp only [Outcome.ok.injEq, Prod.mk.injEq] at hs
      exact hs.1 ▸ h
    · have hs' : l' = Bib.insBy markKey (setIters e ⟨e.mark, createTable n, ⟨false, true, false⟩, 0⟩) l := by
        cases kr <;> simp at hs hk <;> exact hs.1.symm
      subst hs'
      intro x hx
      rcases (Bib.mem_insBy _ _ _ _).1 hx with rfl | hx
      · rw [setIters_t]
        intro g hg
        simp only [createTable, List.mem_singleton] at hg
        exact hg ▸ hn
      · exact h x hx

theorem addLoop_full (kr : Oracle) (e : Entry) (lo hi : Nat) (hlh : lo ≤ hi) (as : List Addr4) (pt pt' : PT) (err : Bool)
    (h : ∀ t ∈ pt.marks, Full t.t.es) (hs : addLoop kr e lo hi pt as = .ok (pt', err)) :
    ∀ t ∈ pt'.marks, Full t.t.es := by
  induction as generalizing pt with
  | nil =>
    simp only [addLoop, Outcome.ok.injEq, Prod.mk.injEq] at hs
    exact hs.1 ▸ h
  | cons x as ih =>
    rw [addLoop] at hs
    cases h1 : addToMark (kr true x) pt.marks e ⟨x, lo, hi⟩ with
    | ub u => rw [h1] at hs; simp at hs
    | ok r =>
      obtain ⟨m, e1⟩ := r
      rw [h1] at hs
      have hm := addToMark_full h (by exact hlh) h1
      cases e1 with
      | true =>
        simp only [Outcome.ok.injEq, Prod.mk.injEq] at hs
        exact hs.1 ▸ h
      | false =>
        dsimp only at hs
        cases h2 : addToAddr (kr false x) pt.addrs ⟨x, lo, hi⟩ with
        | mk l e2 =>
          rw [h2] at hs
          cases e2 with
          | true =>
            simp only [Outcome.ok.injEq, Prod.mk.injEq] at hs
            exact hs.1 ▸ hm
          | false => exact ih ⟨m, l⟩ hm hs

theorem removeLoop_full (kr : Addr4 → Kr) (pfx : Prefix4) (lo hi : Nat) (es : List E) (c : BitVec 32)
    (o : BitVec 32 × List E × Bool) (h : Full es) (hs : removeLoop kr pfx lo hi c es = .ok o) : Full o.2.1 := by
  induction es generalizing c o with
  | nil =>
    simp only [removeLoop, Outcome.ok.injEq] at hs
    subst hs
    exact h
  | cons e r ih =>
    have ht : Full r := fun x hx => h x (List.mem_cons_of_mem _ hx)
    have he := h e (List.mem_cons_self ..)
    have key : ∀ (c1 : BitVec 32) (l : List E), Full l →
        (removeLoop kr pfx lo hi c1 r).map (fun x => (x.1, l ++ x.2.1, x.2.2)) = .ok o → Full o.2.1 := by
      intro c1 l hl hm
      cases hq : removeLoop kr pfx lo hi c1 r with
      | ub u => rw [hq] at hm; simp [Outcome.map] at hm
      | ok q =>
        rw [hq] at hm
        simp only [Outcome.map, Outcome.ok.injEq] at hm
        subst hm
        intro x hx
        rcases List.mem_append.1 hx with hx | hx
        · exact hl x hx
        · exact ih c1 q ht hq x hx
    have single : ∀ x : E, x.min ≤ x.max → Full [x] := by
      intro x hx y hy; simp only [List.mem_singleton] at hy; exact hy ▸ hx
    rw [removeLoop] at hs
    dsimp only at hs
    split at hs
    · exact key _ _ (single e he) hs
    · split at hs
      · exact key _ [] (by intro x hx; simp at hx) hs
      · split at hs
        · rename_i hh
          have hlow : (⟨e.addr, e.min, lo - 1⟩ : E).min ≤ (⟨e.addr, e.min, lo - 1⟩ : E).max := by
            dsimp only; omega
          split at hs
          · simp only [Outcome.ok.injEq] at hs
            subst hs
            intro x hx
            rcases List.mem_cons.1 hx with rfl | hx
            · exact hlow
            · exact ht x hx
          · simp at hs
          · refine key _ _ ?_ hs
            intro x hx
            rcases List.mem_cons.1 hx with rfl | hx
            · exact hlow
            · simp only [List.mem_singleton] at hx
              subst hx
              dsimp only; omega
        · split at hs
          · exact key _ _ (single e he) hs
          · split at hs
            · exact key _ _ (single _ (by dsimp only; omega)) hs
            · split at hs
              · exact key _ _ (single _ (by dsimp only; omega)) hs
              · exact key _ _ (single e he) hs

theorem rmFromMark_full {kr : Addr4 → Kr} {mark : BitVec 32} {pfx : Prefix4} {lo hi : Nat} {l l' : List MT} {err : Bool}
    (h : ∀ t ∈ l, Full t.t.es) (hs : rmFromMark kr mark pfx lo hi l = .ok (l', err)) : ∀ t ∈ l', Full t.t.es := by
  unfold rmFromMark at hs
  cases hf : findMark l mark with
  | none =>
    rw [hf] at hs
    simp only [Outcome.ok.injEq, Prod.mk.injEq] at hs
    exact hs.1 ▸ h
  | some t =>
    obtain ⟨ht, _⟩ := findMark_some hf
    rw [hf] at hs
    dsimp only at hs
    unfold removeRange at hs
    cases hq : removeLoop kr pfx lo hi t.t.count t.t.es with
    | ub u => rw [hq] at hs; simp [Outcome.map] at hs
    | ok q =>
      rw [hq] at hs
      simp only [Outcome.map, Outcome.ok.injEq, Prod.mk.injEq] at hs
      obtain ⟨rfl, rfl⟩ := hs
      have hfull := removeLoop_full kr pfx lo hi _ _ _ (h t ht) hq
      intro x hx
      obtain ⟨y, hy, hyx⟩ := List.mem_filterMap.1 hx
      split at hyx
      · obtain ⟨t', h1, h2⟩ := Option.map_eq_some_iff.1 hyx
        split at h1
        · simp at h1
        · injection h1 with h1
          rw [← h2, ← h1]; exact hfull
      · injection hyx with hyx
        exact hyx ▸ h y hy

/-- The request is not for the single port 0 of a protocol that has none. -/
def NoZero : Op → Prop
  | .add _ _ p e => p = .ICMP ∨ e.min ≠ 0 ∨ e.max ≠ 0
  | _ => True

theorem addPorts_full (p : Proto) (e : Entry) (h : p = .ICMP ∨ e.min ≠ 0 ∨ e.max ≠ 0) :
    (addPorts p e).1 ≤ (addPorts p e).2 := by
  have hl := lower_le_upper e.min e.max
  have hu : e.min ≠ 0 ∨ e.max ≠ 0 → (upper e.min e.max).toNat ≠ 0 := by
    intro hz
    have hz : e.min.toNat ≠ 0 ∨ e.max.toNat ≠ 0 := by
      rcases hz with hz | hz
      · exact .inl (fun hh => hz (BitVec.eq_of_toNat_eq hh))
      · exact .inr (fun hh => hz (BitVec.eq_of_toNat_eq hh))
    unfold upper
    split <;> rename_i h <;> rw [BitVec.lt_def] at h <;> omega
  simp only [addPorts]
  split
  · rename_i hc
    rcases h with rfl | h
    · simp at hc
    · have := hu h; omega
  · exact hl

theorem step_full {db db' : Pool} {o : Op} {err : Bool} (hz : NoZero o) (hf : ∀ p, ∀ t ∈ (db p).marks, Full t.t.es)
    (hs : step db o = .ok (db', err)) : ∀ p, ∀ t ∈ (db' p).marks, Full t.t.es := by
  have hset : ∀ (q : Proto) (pt : PT), (∀ t ∈ pt.marks, Full t.t.es) → ∀ p, ∀ t ∈ (setP db q pt p).marks, Full t.t.es := by
    intro q pt hpt p t ht
    by_cases hp : p = q
    · subst hp; rw [setP_self] at ht; exact hpt t ht
    · rw [setP_ne _ _ hp] at ht; exact hf p t ht
  cases o with
  | flush =>
    simp only [step, Outcome.ok.injEq, Prod.mk.injEq] at hs
    obtain ⟨rfl, rfl⟩ := hs
    intro p t ht; simp [flush, empty] at ht
  | update q mark f iters =>
    simp only [step, Outcome.ok.injEq] at hs
    have hu : db' = (update q mark f iters db).1 := by rw [hs]
    unfold update at hu
    split at hu
    · exact hu ▸ hf
    · split at hu
      · exact hu ▸ hf
      · subst hu
        refine hset q _ ?_
        intro t ht
        obtain ⟨y, hy, rfl⟩ := List.mem_map.1 ht
        split
        · exact hf q y hy
        · exact hf q y hy
  | add kr eph q e =>
    simp only [step, add] at hs
    split at hs
    · simp only [Outcome.ok.injEq, Prod.mk.injEq] at hs; exact hs.1 ▸ hf
    · split at hs
      · simp only [Outcome.ok.injEq, Prod.mk.injEq] at hs; exact hs.1 ▸ hf
      · split at hs
        · simp only [Outcome.ok.injEq, Prod.mk.injEq] at hs; exact hs.1 ▸ hf
        · cases hl : addLoop kr e (addPorts q e).1 (addPorts q e).2 (db q) (foreachAddr4 e.pfx) with
          | ub u => rw [hl] at hs; simp [Outcome.map] at hs
          | ok r =>
            rw [hl] at hs
            simp only [Outcome.map, Outcome.ok.injEq, Prod.mk.injEq] at hs
            obtain ⟨rfl, rfl⟩ := hs
            exact hset q _ (addLoop_full kr e _ _ (addPorts_full q e hz) _ (db q) r.1 r.2 (hf q) hl)
  | rm kr q mark pfx x y =>
    simp only [step, rm] at hs
    split at hs
    · simp only [Outcome.ok.injEq, Prod.mk.injEq] at hs; exact hs.1 ▸ hf
    · cases hm : rmFromMark (kr true) mark pfx (lower x y).toNat (upper x y).toNat (db q).marks with
      | ub u => rw [hm] at hs; simp at hs
      | ok r =>
        obtain ⟨m', e1⟩ := r
        rw [hm] at hs
        have hfm := rmFromMark_full (hf q) hm
        cases e1 with
        | true =>
          simp only [Outcome.ok.injEq, Prod.mk.injEq] at hs
          exact hs.1 ▸ hset q _ hfm
        | false =>
          dsimp only at hs
          cases ha : rmFromAddr (kr false) pfx (lower x y).toNat (upper x y).toNat (db q).addrs with
          | ub u => rw [ha] at hs; simp [Outcome.map] at hs
          | ok r =>
            rw [ha] at hs
            simp only [Outcome.map, Outcome.ok.injEq, Prod.mk.injEq] at hs
            exact hs.1 ▸ hset q _ hfm

theorem run_full (hist : List Op) (db db' : Pool) (hz : ∀ o ∈ hist, NoZero o)
    (hf : ∀ p, ∀ t ∈ (db p).marks, Full t.t.es) (hr : run db hist = .ok db') :
    ∀ p, ∀ t ∈ (db' p).marks, Full t.t.es := by
  induction hist generalizing db with
  | nil => simp only [run, Outcome.ok.injEq] at hr; exact hr ▸ hf
  | cons o os ih =>
    rw [run] at hr
    cases hs : step db o with
    | ub u => rw [hs] at hr; simp at hr
    | ok r =>
      rw [hs] at hr
      exact ih r.1 (fun x hx => hz x (List.mem_cons_of_mem _ hx))
        (step_full (hz o (List.mem_cons_self ..)) hf (err := r.2) hs) hr

/-- **C14.** If nobody asks for the single port 0 of TCP or UDP, no stored range is ever empty. -/
theorem pool4_full (hist : List Op) (hz : ∀ o ∈ hist, NoZero o) (db : Pool) (hr : run empty hist = .ok db) (p : Proto) :
    ∀ t ∈ (db p).marks, ∀ e ∈ t.t.es, e.min ≤ e.max :=
  run_full hist empty db hz (by intro p t ht; simp [empty] at ht) hr p

/-- **C15, C16** (partial). After a history of mild operations (`Mild`) without requests for port 0 of TCP or UDP,
every table of at most 2^32 − 1 transport addresses is sane; hence (`enumeration`, `enumeration_exact`) no
division by zero, no candidate skipped, none repeated. -/
theorem pool4_sane_partial (hist : List Op) (hn : ∀ o ∈ hist, NoFail o) (hm : MildRun empty hist)
    (hz : ∀ o ∈ hist, NoZero o) (db : Pool) (hr : run empty hist = .ok db) (p : Proto) (t : MT)
    (ht : t ∈ (db p).marks) (hl : (taddrs t.t.es).length < 2 ^ 32) : Sane t := by
  have hg := run_good hist good_empty hr
  refine ⟨(hg.wf p).m.wf t ht, (hg.wf p).m.ne t ht, pool4_full hist hz db hr p t ht, ?_⟩
  rw [(counter_partial hist hn hm db hr p t ht).1, BitVec.toNat_ofNat, Nat.mod_eq_of_lt hl]

/-! ## Membership -/

theorem findPort_spec (es : List E) (port lo hi : Nat) (h : WFes es) (a : Addr4) (ha : ∀ e ∈ es, e.addr = a)
    (hhi : hi ≤ es.length) :
    match findPort es port lo hi with
    | some e => e ∈ es ∧ e.min ≤ port ∧ port ≤ e.max
    | none => ∀ i, lo ≤ i → i < hi → ¬ ((es.getD i default).min ≤ port ∧ port ≤ (es.getD i default).max) := by
  have hlt : ∀ i j, i < j → j < es.length → (es.getD i default).max + 1 < (es.getD j default).min := by
    intro i j hij hj
    have := List.pairwise_iff_getElem.1 h.sorted i j (by omega) hj hij
    rw [List.getD_eq_getElem?_getD, List.getD_eq_getElem?_getD, List.getElem?_eq_getElem hj,
      List.getElem?_eq_getElem (show i < es.length by omega)]
    simp only [Option.getD_some]
    rcases this with h1 | ⟨_, h1⟩
    · rw [ha _ (List.getElem_mem _), ha _ (List.getElem_mem _)] at h1; omega
    · exact h1
  have hok : ∀ i, i < es.length → (es.getD i default).min ≤ (es.getD i default).max + 1 :=
    fun i hi => (h.ok _ (getD_mem es i hi)).1
  induction hd : hi - lo using Nat.strongRecOn generalizing lo hi with
  | _ n ih =>
    rw [findPort]
    by_cases hlh : lo < hi
    · rw [dif_pos hlh]
      generalize hmid : lo + (hi - 1 - lo) / 2 = mid
      have hm1 : lo ≤ mid := by omega
      have hm2 : mid < hi := by omega
      have hom := hok mid (by omega)
      by_cases hp : port < (es.getD mid default).min
      · simp only [if_pos hp]
        have := ih (mid - lo) (by omega) lo mid (by omega) rfl
        revert this
        cases findPort es port lo mid with
        | some e => exact id
        | none =>
          intro this i h1 h2
          by_cases hi' : i < mid
          · exact this i h1 hi'
          · by_cases he : i = mid
            · rw [he]; omega
            · have := hlt mid i (by omega) (by omega); omega
      · simp only [if_neg hp]
        by_cases hp2 : (es.getD mid default).max < port
        · simp only [if_pos hp2]
          have := ih (hi - (mid + 1)) (by omega) (mid + 1) hi (by omega) rfl
          revert this
          cases findPort es port (mid + 1) hi with
          | some e => exact id
          | none =>
            intro this i h1 h2
            by_cases hi' : mid + 1 ≤ i
            · exact this i hi' h2
            · by_cases he : i = mid
              · rw [he]; omega
              · have := hlt i mid (by omega) (by omega); omega
        · simp only [if_neg hp2]
          exact ⟨getD_mem es mid (by omega), by omega, by omega⟩
    · rw [dif_neg hlh]
      intro i h1 h2; omega

theorem contains_aset {db : Pool} (hg : Good db) (own : Addr4 → Bool) (p : Proto) (a : T4) (he : isEmpty db = false) :
    contains own db p a = true ↔ ASet (db p).addrs a := by
  unfold contains
  rw [if_neg (by simp [he])]
  cases hf : findAddr (db p).addrs a.addr with
  | none =>
    have hno := findAddr_none hf
    simp only [Bool.false_eq_true, false_iff]
    rintro ⟨t, ht, e, hee, hc, _⟩
    exact hno t ht (((hg.wf p).a.addr t ht e hee).symm.trans hc)
  | some t =>
    obtain ⟨ht, hta⟩ := findAddr_some hf
    have hs := findPort_spec t.t.es a.port.toNat 0 t.t.es.length ((hg.wf p).a.wf t ht) t.addr
      ((hg.wf p).a.addr t ht) (Nat.le_refl _)
    dsimp only
    cases hq : findPort t.t.es a.port.toNat 0 t.t.es.length with
    | some e =>
      rw [hq] at hs
      simp only [Option.isSome_some, true_iff]
      exact ⟨t, ht, e, hs.1, ((hg.wf p).a.addr t ht e hs.1).trans hta, hs.2⟩
    | none =>
      rw [hq] at hs
      simp only [Option.isSome_none, Bool.false_eq_true, false_iff]
      rintro ⟨u, hu, e, hee, hc, h1, h2⟩
      have : u = t := (hg.wf p).a.unique hu ht (((hg.wf p).a.addr u hu e hee).symm.trans (hc.trans hta.symm))
      subst this
      obtain ⟨i, hi, hie⟩ := List.getElem_of_mem hee
      refine hs i (by omega) hi ?_
      rw [List.getD_eq_getElem?_getD, List.getElem?_eq_getElem hi, Option.getD_some, hie]
      exact ⟨h1, h2⟩

/-- A removal takes nothing that is also in the pool of another mark. -/
def OneMark (db : Pool) : Op → Prop
  | .rm _ p mark pfx x y => ∀ m a, m ≠ mark → In db p m a → ¬ Covers pfx x y a
  | _ => True

def OneMarkRun : Pool → List Op → Prop
  | _, [] => True
  | db, o :: os => OneMark db o ∧ ∀ db' err, step db o = .ok (db', err) → OneMarkRun db' os

theorem run_aset (hist : List Op) (db db' : Pool) (hg : Good db) (hn : ∀ o ∈ hist, NoFail o)
    (h : ∀ p a, ASet (db p).addrs a → ∃ m, MSet (db p).marks m a) (hr : run db hist = .ok db') :
    ∀ p a, ASet (db' p).addrs a → ∃ m, MSet (db' p).marks m a := by
  induction hist generalizing db with
  | nil => simp only [run, Outcome.ok.injEq] at hr; exact hr ▸ h
  | cons o os ih =>
    rw [run] at hr
    cases hs : step db o with
    | ub u => rw [hs] at hr; simp at hr
    | ok r =>
      rw [hs] at hr
      obtain ⟨h1, h2, h3⟩ := step_spec hg (db' := r.1) (err := r.2) hs
      have hno := hn o (List.mem_cons_self ..)
      refine ih r.1 h1 (fun x hx => hn x (List.mem_cons_of_mem _ hx)) ?_ hr
      intro p a ha
      rcases (h3 hno p a).1 ha with ⟨h4, h5⟩ | ⟨⟨m, h4⟩, h5⟩
      · obtain ⟨m, hm⟩ := h p a h4
        exact ⟨m, (h2 hno p m a).2 (.inl ⟨hm, fun hc => h5 ⟨m, hc⟩⟩)⟩
      · exact ⟨m, (h2 hno p m a).2 (.inr ⟨h4, h5⟩)⟩

theorem run_mset (hist : List Op) (db db' : Pool) (hg : Good db) (hn : ∀ o ∈ hist, NoFail o) (ho : OneMarkRun db hist)
    (h : ∀ p m a, MSet (db p).marks m a → ASet (db p).addrs a) (hr : run db hist = .ok db') :
    ∀ p m a, MSet (db' p).marks m a → ASet (db' p).addrs a := by
  induction hist generalizing db with
  | nil => simp only [run, Outcome.ok.injEq] at hr; exact hr ▸ h
  | cons o os ih =>
    rw [run] at hr
    cases hs : step db o with
    | ub u => rw [hs] at hr; simp at hr
    | ok r =>
      rw [hs] at hr
      obtain ⟨h1, h2, h3⟩ := step_spec hg (db' := r.1) (err := r.2) hs
      have hno := hn o (List.mem_cons_self ..)
      refine ih r.1 h1 (fun x hx => hn x (List.mem_cons_of_mem _ hx)) (ho.2 r.1 r.2 hs) ?_ hr
      intro p m a ha
      refine (h3 hno p a).2 ?_
      rcases (h2 hno p m a).1 ha with ⟨h4, h5⟩ | ⟨h4, h5⟩
      · refine .inl ⟨h p m a h4, ?_⟩
        rintro ⟨m', hm'⟩
        cases o with
        | add => exact hm'
        | update => exact hm'
        | flush => exact h5 trivial
        | rm kr q mark pfx x y =>
          obtain ⟨rfl, rfl, hc, hcov⟩ := hm'
          by_cases hmm : m = mark
          · subst hmm; exact h5 ⟨rfl, rfl, hc, hcov⟩
          · exact ho.1 m a hmm h4 hcov
      · exact .inr ⟨⟨m, h4⟩, h5⟩

/-- **C17.** Whatever the history, an address that is reported as belonging to a populated pool4 is in the pool of
some mark. -/
theorem contains_sound (hist : List Op) (hn : ∀ o ∈ hist, NoFail o) (db : Pool) (hr : run empty hist = .ok db)
    (own : Addr4 → Bool) (p : Proto) (a : T4) (he : ∃ q m b, In db q m b) (hc : contains own db p a = true) :
    ∃ m, In db p m a := by
  have hg := run_good hist good_empty hr
  have hne : isEmpty db = false := by
    obtain ⟨q, m, b, t, ht, _⟩ := he
    cases hq : isEmpty db with
    | false => rfl
    | true =>
      simp only [isEmpty, Bool.and_eq_true, List.isEmpty_iff] at hq
      cases q <;> simp_all
  exact run_aset hist empty db good_empty hn (by intro p a h; obtain ⟨t, ht, _⟩ := h; simp [empty] at ht) hr p a
    ((contains_aset hg own p a hne).1 hc)

/-- **C17** (partial). The converse, as long as no removal covers addresses that another mark also has. The full
converse is false: `contains_incomplete`. -/
theorem contains_complete_partial (hist : List Op) (hn : ∀ o ∈ hist, NoFail o) (ho : OneMarkRun empty hist) (db : Pool)
    (hr : run empty hist = .ok db) (own : Addr4 → Bool) (p : Proto) (a : T4) :
    (∃ m, In db p m a) → contains own db p a = true := by
  rintro ⟨m, hm⟩
  have hg := run_good hist good_empty hr
  have hne : isEmpty db = false := by
    obtain ⟨t, ht, _⟩ := hm
    cases hq : isEmpty db with
    | false => rfl
    | true =>
      simp only [isEmpty, Bool.and_eq_true, List.isEmpty_iff] at hq
      cases p <;> simp_all
  exact (contains_aset hg own p a hne).2
    (run_mset hist empty db good_empty hn ho (by intro p m a h; obtain ⟨t, ht, _⟩ := h; simp [empty] at ht) hr p m a hm)

/-- **C17.** While no mark of any protocol has addresses, the pool consists of the ports 61001 and above of the
node's own addresses. -/
theorem contains_empty (hist : List Op) (hz : ∀ o ∈ hist, NoZero o) (db : Pool) (hr : run empty hist = .ok db)
    (own : Addr4 → Bool) (p : Proto) (a : T4) (he : ∀ q m b, ¬ In db q m b) :
    contains own db p a = true ↔ 61001 ≤ a.port.toNat ∧ own a.addr = true := by
  have hg := run_good hist good_empty hr
  have hno : ∀ q, (db q).marks = [] := by
    intro q
    cases hq : (db q).marks with
    | nil => rfl
    | cons t r =>
      exfalso
      have ht : t ∈ (db q).marks := by rw [hq]; exact List.mem_cons_self ..
      have hne := (hg.wf q).m.ne t ht
      obtain ⟨e, hee⟩ := List.exists_mem_of_ne_nil _ hne
      have h1 := pool4_full hist hz db hr q t ht e hee
      have h2 := ((hg.wf q).m.wf t ht).ok e hee
      refine he q t.mark ⟨e.addr, BitVec.ofNat 16 e.min⟩ ⟨t, ht, rfl, e, hee, rfl, ?_⟩
      have : (BitVec.ofNat 16 e.min).toNat = e.min := by
        rw [BitVec.toNat_ofNat]; have := h2.2; omega
      dsimp only
      omega
  have : isEmpty db = true := by simp [isEmpty, hno]
  simp [contains, this]

/-! ## The trees -/

open RbTree in
theorem find_congr {α} (f g : α → Int) (t : Tree α) (c : Ctx α) (h : ∀ x ∈ inorder t, f x = g x) :
    find f t c = find g t c := by
  induction t generalizing c with
  | leaf => rfl
  | node l x r ihl ihr =>
    have hx := h x (by simp [inorder])
    rw [find, find, hx, ihl _ (fun y hy => h y (by simp [inorder, hy])), ihr _ (fun y hy => h y (by simp [inorder, hy]))]

theorem markKey_aux (k n : Nat) (h : n < 4294967296) (hk : k = (n + 2147483648) % 4294967296) :
    ((4294967295 - k : Nat) : Int) = 2147483647 - (if 2 * n < 4294967296 then (n : Int) else (n : Int) - (4294967296 : Nat)) := by
  split <;> omega

theorem markKey_int (t : MT) : (markKey t : Int) = 2147483647 - t.mark.toInt := by
  rw [BitVec.toInt_eq_toNat_cond]
  exact markKey_aux _ _ t.mark.isLt (by rw [BitVec.toNat_add]; rfl)

/-- The marks are close enough for their difference to fit in a signed integer. -/
def Close (l : List MT) (mark : BitVec 32) : Prop :=
  ∀ t ∈ l, -2147483648 ≤ mark.toInt - t.mark.toInt ∧ mark.toInt - t.mark.toInt < 2147483648

theorem cmpMark_close (t : MT) (mark : BitVec 32)
    (h : -2147483648 ≤ mark.toInt - t.mark.toInt ∧ mark.toInt - t.mark.toInt < 2147483648) :
    cmpMark t mark = mark.toInt - t.mark.toInt := by
  unfold cmpMark
  rw [BitVec.toInt_sub, Int.bmod_eq_of_le] <;> omega

open RbTree in
/-- **C18** (partial). In every tree of tables sorted by mark, whatever its shape, the search by mark finds the table
of the mark if there is one, provided that no mark of the tree is 2^31 or more away (as signed integers) from
the wanted one; if there is none, it finds the place where a new table keeps the tree sorted. Beyond that
distance the comparison overflows: `mark_lost`. -/
theorem mark_lookup_partial (T : Tree MT) (hs : Srt markKey (inorder T)) (mark : BitVec 32) (hc : Close (inorder T) mark) :
    (find (fun t => cmpMark t mark) T []).entry = findMark (inorder T) mark ∧
    ∀ c, find (fun t => cmpMark t mark) T [] = .slot c → ∀ x : MT, x.mark = mark →
      inorder (link c x) = Bib.insBy markKey x (inorder T) := by
  have e1 : find (fun t => cmpMark t mark) T [] = find (fun t : MT => mark.toInt - t.mark.toInt) T [] :=
    find_congr _ _ _ _ (fun x hx => cmpMark_close x mark (hc x hx))
  obtain ⟨w, hw⟩ : ∃ w : MT, w.mark = mark := ⟨⟨mark, default, default, 0⟩, rfl⟩
  have hcmp : Cmp markKey (markKey w) (fun t : MT => mark.toInt - t.mark.toInt) := by
    have hk := markKey_int w
    rw [hw] at hk
    generalize markKey w = k at hk
    refine Cmp.mk (fun x => ?_) (fun x => ?_)
    · have hx := markKey_int x
      generalize markKey x = kx at hx
      omega
    · have hx := markKey_int x
      generalize markKey x = kx at hx
      omega
  rw [e1]
  constructor
  · rw [find_entry hcmp T hs]
    have hf : (fun t : MT => decide (markKey t = markKey w)) = fun t => decide (t.mark = mark) :=
      funext fun t => decide_eq_decide.2
        ⟨fun h => (markKey_inj h).trans hw, fun h => markKey_congr (h.trans hw.symm)⟩
    rw [hf, findMark]
  · intro c hcs x hx
    have := find_spec hcmp T hs
    rw [hcs] at this
    have hkx : markKey x = markKey w := markKey_congr (hx.trans hw.symm)
    exact link_spec this.1 (fun y hy => by rw [hkx]; exact this.2.1 y hy) (fun y hy => by rw [hkx]; exact this.2.2 y hy)

open RbTree in
/-- **C18.** The search by address, for every address, every tree. -/
theorem addr_lookup (T : Tree AT) (hs : Srt addrKey (inorder T)) (a : Addr4) :
    (find (fun t => cmpAddr t a) T []).entry = findAddr (inorder T) a := by
  have hcmp : Cmp addrKey a.toNat (fun t : AT => cmpAddr t a) :=
    ⟨fun x => memcmp_neg, fun x => memcmp_pos⟩
  rw [find_entry hcmp T hs]
  unfold findAddr
  congr 1
  funext t
  congr 1
  apply propext
  exact ⟨fun h => BitVec.eq_of_toNat_eq h, fun h => by rw [← h]; rfl⟩

open RbTree in
/-- **C17.** `find_by_prefix` finds a table inside the prefix iff there is one, and the tables inside the prefix are
contiguous, so that walking from it in both directions until leaving the prefix visits all of them. -/
theorem prefix_lookup (T : Tree AT) (hs : Srt addrKey (inorder T)) (p : Prefix4) (hp : Canonical4 p) :
    match find (fun t => cmpPrefix t p) T [] with
    | .hit q => q.tree = T ∧ Mem4 p q.x.addr
    | .slot _ => ∀ t ∈ inorder T, ¬ Mem4 p t.addr := by
  have hv : prefix4Validate p = true := (prefix4Validate_iff p).2 hp
  have hr : ∀ a : Addr4, prefix4Contains p a = true ↔ p.addr.toNat ≤ a.toNat ∧ a.toNat < p.addr.toNat + 2 ^ (32 - p.len) := by
    intro a; rw [prefix4Contains_iff_range p a hv]
  -- everything left of the hole is below the prefix, everything right of it above
  have aux : ∀ (t : Tree AT) (c : Ctx AT), Srt addrKey (inorder (plug c t)) →
      (∀ x ∈ before c, x.addr.toNat < p.addr.toNat) →
      (∀ x ∈ after c, p.addr.toNat < x.addr.toNat ∧ prefix4Contains p x.addr = false) →
      match find (fun t => cmpPrefix t p) t c with
      | .hit q => q.tree = plug c t ∧ prefix4Contains p q.x.addr = true
      | .slot _ => ∀ t' ∈ inorder (plug c t), prefix4Contains p t'.addr = false := by
    intro t
    induction t with
    | leaf =>
      intro c _ hb ha
      rw [find]
      intro x hx
      rw [plug_inorder] at hx
      simp only [inorder, List.append_nil, List.mem_append] at hx
      rcases hx with hx | hx
      · have := hb x hx
        cases hq : prefix4Contains p x.addr with
        | false => rfl
        | true => have := (hr _).1 hq; omega
      · exact (ha x hx).2
    | node l x r ihl ihr =>
      intro c hs hb ha
      have hs' := hs
      rw [plug_inorder] at hs'
      simp only [inorder, Srt, List.pairwise_append, List.pairwise_cons] at hs'
      unfold find
      by_cases hcx : prefix4Contains p x.addr = true
      · have hz : cmpPrefix x p = 0 := by simp [cmpPrefix, hcx]
        rw [if_neg (by omega), if_neg (by omega)]
        exact ⟨rfl, hcx⟩
      · have hc0 : cmpPrefix x p = memcmpSign x.addr p.addr := by simp [cmpPrefix, hcx]
        by_cases h1 : cmpPrefix x p < 0
        · rw [if_pos h1]
          rw [hc0, memcmp_neg] at h1
          refine ihr _ hs ?_ ha
          intro y hy
          simp only [before, List.mem_append, List.mem_singleton] at hy
          rcases hy with (hy | hy) | hy
          · exact hb y hy
          · exact Nat.lt_trans (hs'.1.2.1.2.2 y hy x (by simp)) h1
          · subst hy; exact h1
        · rw [if_neg h1]
          have hne : x.addr ≠ p.addr := by
            intro he
            have hpos := Nat.two_pow_pos (32 - p.len)
            exact hcx ((hr _).2 (by rw [he]; omega))
          have hgt : p.addr.toNat < x.addr.toNat := by
            rw [hc0, memcmp_neg] at h1
            have : x.addr.toNat ≠ p.addr.toNat := fun h => hne (BitVec.eq_of_toNat_eq h)
            omega
          have h2 : 0 < cmpPrefix x p := by rw [hc0, memcmp_pos]; exact hgt
          rw [if_pos h2]
          refine ihl _ hs hb ?_
          intro y hy
          simp only [after, List.mem_append, List.mem_cons] at hy
          rcases hy with (hy | hy) | hy
          · subst hy; exact ⟨hgt, by simpa using hcx⟩
          · have hxy : x.addr.toNat < y.addr.toNat := hs'.1.2.1.2.1.1 y hy
            refine ⟨Nat.lt_trans hgt hxy, ?_⟩
            cases hq : prefix4Contains p y.addr with
            | false => rfl
            | true =>
              exfalso
              have := (hr _).1 hq
              exact hcx ((hr _).2 (by omega))
          · exact ha y hy
  have := aux T [] hs (by simp [before]) (by simp [after])
  revert this
  cases find (fun t => cmpPrefix t p) T [] with
  | hit q => exact fun h => ⟨h.1, (prefix4_contains_correct p _ hp.1).1 h.2⟩
  | slot c =>
    intro h t ht hm
    have := h t ht
    rw [(prefix4_contains_correct p _ hp.1).2 hm] at this
    simp at this

theorem filter_takeWhile {α} (f : α → Bool) (l : List α) (h : l.Pairwise (fun a b => f b = true → f a = true)) :
    l.filter f = l.takeWhile f := by
  induction l with
  | nil => rfl
  | cons a l ih =>
    rw [List.pairwise_cons] at h
    by_cases ha : f a = true
    · rw [List.filter_cons_of_pos ha, List.takeWhile_cons_of_pos ha, ih h.2]
    · rw [List.filter_cons_of_neg ha, List.takeWhile_cons_of_neg ha, List.filter_eq_nil_iff]
      exact fun b hb hfb => ha (h.1 b hb hfb)

open RbTree in
/-- **C17.** What `rm_from_addr_tree` visits — the table that `find_by_prefix` lands on, the ones before it as long as
they are in the prefix, the ones after it as long as they are in the prefix — is all the tables of the tree
whose address is in the prefix, each one once. -/
theorem prefix_walk (T : Tree AT) (hs : Srt addrKey (inorder T)) (p : Prefix4) (hp : Canonical4 p) :
    match find (fun t => cmpPrefix t p) T [] with
    | .hit q =>
      ((before q.ctx ++ inorder q.l).reverse.takeWhile (fun t => prefix4Contains p t.addr)).reverse ++
        q.x :: (inorder q.r ++ after q.ctx).takeWhile (fun t => prefix4Contains p t.addr) =
      (inorder T).filter (fun t => prefix4Contains p t.addr)
    | .slot _ => (inorder T).filter (fun t => prefix4Contains p t.addr) = [] := by
  have h := prefix_lookup T hs p hp
  have hv : prefix4Validate p = true := (prefix4Validate_iff p).2 hp
  have hr : ∀ a : Addr4, prefix4Contains p a = true ↔ p.addr.toNat ≤ a.toNat ∧ a.toNat < p.addr.toNat + 2 ^ (32 - p.len) := by
    intro a; rw [prefix4Contains_iff_range p a hv]
  revert h
  cases find (fun t => cmpPrefix t p) T [] with
  | slot c =>
    intro h
    dsimp only at h ⊢
    rw [List.filter_eq_nil_iff]
    intro t ht hc
    exact h t ht ((prefix4_contains_correct p _ hp.1).1 hc)
  | hit q =>
    rintro ⟨h1, h2⟩
    dsimp only
    have hx : prefix4Contains p q.x.addr = true := (prefix4_contains_correct p _ hp.1).2 h2
    have hin : inorder T = (before q.ctx ++ inorder q.l) ++ q.x :: (inorder q.r ++ after q.ctx) := by
      rw [← h1, Loc.tree, plug_inorder]
      simp [inorder]
    rw [hin] at hs ⊢
    have hs' := List.pairwise_append.1 hs
    have hs2 := List.pairwise_cons.1 hs'.2.1
    rw [List.filter_append, List.filter_cons_of_pos (by simpa using hx)]
    have hrx := (hr _).1 hx
    congr 1
    · rw [← filter_takeWhile, List.filter_reverse, List.reverse_reverse]
      rw [List.pairwise_reverse]
      refine List.Pairwise.imp_of_mem ?_ hs'.1
      intro a b ha hb hab hfa
      have h3 : b.addr.toNat < q.x.addr.toNat := hs'.2.2 b hb q.x (List.mem_cons_self ..)
      have h4 : a.addr.toNat < b.addr.toNat := hab
      have := (hr _).1 hfa
      exact (hr _).2 (by omega)
    · congr 1
      rw [← filter_takeWhile]
      refine List.Pairwise.imp_of_mem ?_ hs2.2
      intro a b ha hb hab hfb
      have h3 : q.x.addr.toNat < a.addr.toNat := hs2.1 a ha
      have h4 : a.addr.toNat < b.addr.toNat := hab
      have := (hr _).1 hfb
      exact (hr _).2 (by omega)

end Jool.Pool4
