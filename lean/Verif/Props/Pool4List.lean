import Verif.Model.Pool4List
import Verif.Props.Pool4Defects
/-
C60: iteration limits and listing of pool4.
-/
namespace Jool.Pool4
open Pool4Spec PrefixSpec

/-! ## Listing -/

/-- What identifies an entry of a listing. -/
def Sample.id (s : Sample) : BitVec 32 × E := (s.mark, s.e)

/-- Tables with different marks, each without repeated ranges. -/
structure Distinct (l : List MT) : Prop where
  marks : l.Pairwise (fun a b => a.mark ≠ b.mark)
  es : ∀ t ∈ l, t.t.es.Nodup

theorem findMark_append (l r : List MT) (t : MT) (h : ∀ x ∈ l, x.mark ≠ t.mark) :
    findMark (l ++ t :: r) t.mark = some t := by
  induction l with
  | nil => simp [findMark]
  | cons a l ih =>
    unfold findMark at *
    rw [List.cons_append, List.find?_cons_of_neg (by simpa using h a (List.mem_cons_self ..))]
    exact ih (fun x hx => h x (List.mem_cons_of_mem _ hx))

theorem dropWhile_ne {α} (p : α → Bool) (l r : List α) (x : α) (h : ∀ y ∈ l, p y = true)
    (hx : p x = false) : (l ++ x :: r).dropWhile p = x :: r := by
  induction l with
  | nil => simp [List.dropWhile_cons, hx]
  | cons a l ih =>
    rw [List.cons_append, List.dropWhile_cons_of_pos (h a (List.mem_cons_self ..))]
    exact ih (fun y hy => h y (List.mem_cons_of_mem _ hy))

theorem dropWhile_nil {α} (p : α → Bool) (l : List α) (h : ∀ y ∈ l, p y = true) : l.dropWhile p = [] := by
  induction l with
  | nil => rfl
  | cons a l ih =>
    rw [List.dropWhile_cons_of_pos (h a (List.mem_cons_self ..))]
    exact ih (fun y hy => h y (List.mem_cons_of_mem _ hy))

/-- Where a sample of the listing comes from. -/
theorem samples_split (l : List MT) (a b : List Sample) (s : Sample) (h : samples l = a ++ s :: b) :
    ∃ l1 t l2 e1 e e2, l = l1 ++ t :: l2 ∧ t.t.es = e1 ++ e :: e2 ∧ s = sampleOf t e ∧
      b = e2.map (sampleOf t) ++ samples l2 := by
  induction l generalizing a with
  | nil => simp [samples] at h
  | cons t l ih =>
    have hc : samples (t :: l) = t.t.es.map (sampleOf t) ++ samples l := by simp [samples]
    rw [hc] at h
    rcases List.append_eq_append_iff.1 h with ⟨c, h1, h2⟩ | ⟨c, h1, h2⟩
    · -- the sample is beyond the first table
      obtain ⟨l1, t', l2, e1, e, e2, k1, k2, k3, k4⟩ := ih c h2
      exact ⟨t :: l1, t', l2, e1, e, e2, by rw [k1]; rfl, k2, k3, k4⟩
    · cases c with
      | nil =>
        simp only [List.append_nil, List.nil_append] at h1 h2
        obtain ⟨l1, t', l2, e1, e, e2, k1, k2, k3, k4⟩ := ih [] (by rw [List.nil_append]; exact h2.symm)
        exact ⟨t :: l1, t', l2, e1, e, e2, by rw [k1]; rfl, k2, k3, k4⟩
      | cons s' c =>
        rw [List.cons_append] at h2
        injection h2 with h2 h3
        subst h2
        obtain ⟨e1, er, k1, k2, k3⟩ := List.map_eq_append_iff.1 h1
        obtain ⟨e, e2, k4, k5, k6⟩ := List.map_eq_cons_iff.1 k3
        exact ⟨[], t, l, e1, e, e2, rfl, by rw [k1, k4], k5.symm, by rw [h3, ← k6]⟩

/-- **C60.** The answer to a request with an offset is what follows the offset in the current listing. -/
theorem foreach_after (l : List MT) (hd : Distinct l) (a b : List Sample) (s : Sample) (h : samples l = a ++ s :: b) :
    foreachSample l (some s.id) = some b := by
  obtain ⟨l1, t, l2, e1, e, e2, rfl, h2, rfl, rfl⟩ := samples_split l a b s h
  have hm : ∀ x ∈ l1, x.mark ≠ t.mark := by
    intro x hx
    exact (List.pairwise_append.1 hd.marks).2.2 x hx t (List.mem_cons_self ..)
  have hn := hd.es t (by simp)
  rw [h2] at hn
  have he : ∀ y ∈ e1, y ≠ e := by
    intro y hy
    exact (List.nodup_append.1 hn).2.2 y hy e (List.mem_cons_self ..)
  show foreachSample (l1 ++ t :: l2) (some (t.mark, e)) = _
  unfold foreachSample
  dsimp only
  rw [findMark_append _ _ _ hm]
  dsimp only
  have k1 : (e1 ++ e :: e2).dropWhile (fun e' => decide (e' ≠ e)) = e :: e2 :=
    dropWhile_ne _ _ _ _ (fun y hy => decide_eq_true (he y hy)) (decide_eq_false (by simp))
  have k2 : (l1 ++ t :: l2).dropWhile (fun x => decide (x.mark ≠ t.mark)) = t :: l2 :=
    dropWhile_ne _ _ _ _ (fun y hy => decide_eq_true (hm y hy)) (decide_eq_false (by simp))
  rw [h2, k1, k2]
  rfl

/-- **C60.** If the offset is not in the listing any more, the client is told so. -/
theorem foreach_lost (l : List MT) (id : BitVec 32 × E) (h : ∀ s ∈ samples l, s.id ≠ id) :
    foreachSample l (some id) = none := by
  obtain ⟨m, r⟩ := id
  simp only [foreachSample]
  cases hf : findMark l m with
  | none => rfl
  | some t =>
    obtain ⟨ht, hm⟩ := findMark_some hf
    dsimp only
    have : t.t.es.dropWhile (fun e => decide (e ≠ r)) = [] := by
      refine dropWhile_nil _ _ (fun e he => decide_eq_true ?_)
      intro her
      exact h (sampleOf t e) (List.mem_flatMap.2 ⟨t, ht, List.mem_map.2 ⟨e, he, rfl⟩⟩) (by rw [← hm, ← her]; rfl)
    rw [this]

/-- The continuation of a listing, for tables that do not change. -/
theorem listLoop_quiet (l : List MT) (hd : Distinct l) (caps : List Nat) (hcap : ∀ c ∈ caps, 0 < c)
    (off : Option (BitVec 32 × E)) (rest : List Sample) (a : List Sample) (ha : samples l = a ++ rest)
    (hoff : foreachSample l off = some rest) (hlen : rest.length < caps.length) :
    listLoop (caps.map (fun c => (l, c))) off = (rest, .done) := by
  induction caps generalizing off rest a with
  | nil => simp at hlen
  | cons c cs ih =>
    have hc := hcap c (List.mem_cons_self ..)
    simp only [List.map_cons, listLoop, page, hoff]
    by_cases hl : c < rest.length
    · rw [decide_eq_true hl]
      dsimp only
      obtain ⟨s, hs⟩ : ∃ s, (rest.take c).getLast? = some s := by
        cases hg : (rest.take c).getLast? with
        | some s => exact ⟨s, rfl⟩
        | none =>
          rw [List.getLast?_eq_none_iff, List.take_eq_nil_iff] at hg
          rcases hg with hg | hg
          · omega
          · simp [hg] at hl
      obtain ⟨ys, hys⟩ := List.getLast?_eq_some_iff.1 hs
      have hsplit : samples l = (a ++ ys) ++ s :: rest.drop c := by
        rw [ha]
        conv => lhs; rw [← List.take_append_drop c rest, hys]
        simp
      have hnext := foreach_after l hd _ _ _ hsplit
      have hd2 : (rest.drop c).length < cs.length := by
        rw [List.length_drop]; simp only [List.length_cons] at hlen; omega
      rw [hs]
      simp only [Option.map_some]
      have := ih (fun x hx => hcap x (List.mem_cons_of_mem _ hx)) (some s.id) (rest.drop c) (a ++ ys ++ [s])
        (by rw [hsplit]; simp) hnext hd2
      rw [Sample.id] at this
      rw [this]
      simp only [List.take_append_drop]
    · rw [decide_eq_false hl, List.take_of_length_le (by omega)]

theorem distinct_of_good {db : Pool} (hg : Good db) (p : Proto) : Distinct (db p).marks := by
  refine ⟨?_, ?_⟩
  · refine (hg.wf p).m.sorted.imp ?_
    intro a b h he
    have := markKey_congr he
    omega
  · intro t ht
    have hw := (hg.wf p).m.wf t ht
    refine List.Pairwise.imp_of_mem ?_ hw.sorted
    intro a b ha hb h he
    subst he
    have := (hw.ok a ha).1
    rcases h with h | ⟨_, h⟩ <;> omega

/-- **C60.** Listing a pool that nobody is modifying yields each range of each mark exactly once, whatever the sizes of
the pages. -/
theorem listing_complete (hist : List Op) (db : Pool) (hr : run empty hist = .ok db) (p : Proto) (caps : List Nat)
    (hcap : ∀ c ∈ caps, 0 < c) (hlen : (samples (db p).marks).length < caps.length) :
    ∃ s, listLoop (caps.map (fun c => ((db p).marks, c))) none = (s, .done) ∧ s.Nodup ∧
      ∀ m e, (∃ x ∈ s, x.mark = m ∧ x.e = e) ↔ ∃ t ∈ (db p).marks, t.mark = m ∧ e ∈ t.t.es := by
  have hd := distinct_of_good (run_good hist good_empty hr) p
  refine ⟨samples (db p).marks, listLoop_quiet _ hd caps hcap none _ [] rfl rfl hlen, ?_, ?_⟩
  · unfold samples List.Nodup
    rw [List.pairwise_flatMap]
    refine ⟨fun t ht => ?_, ?_⟩
    · rw [List.pairwise_map]
      refine (hd.es t ht).imp ?_
      intro a b hab h
      exact hab (by injection h)
    · refine hd.marks.imp ?_
      intro a b hab x hx y hy h
      obtain ⟨e, _, rfl⟩ := List.mem_map.1 hx
      obtain ⟨f, _, rfl⟩ := List.mem_map.1 hy
      exact hab (by injection h)
  · intro m e
    simp only [samples, List.mem_flatMap, List.mem_map]
    constructor
    · rintro ⟨x, ⟨t, ht, f, hf, rfl⟩, rfl, rfl⟩
      exact ⟨t, ht, rfl, hf⟩
    · rintro ⟨t, ht, rfl, he⟩
      exact ⟨sampleOf t e, ⟨t, ht, e, he, rfl⟩, rfl, rfl⟩

/-- **C60.** Whatever happens between the requests: the pages are ordered and what is listed was there. Every page is
the part of the listing of its moment that follows the last entry of the previous page. -/
theorem page_faithful (hist : List Op) (db : Pool) (hr : run empty hist = .ok db) (p : Proto)
    (off : Option (BitVec 32 × E)) (cap : Nat) (s : List Sample) (more : Bool)
    (h : page (db p).marks off cap = .page s more) :
    ∃ a b, samples (db p).marks = a ++ s ++ b ∧ (more = true ↔ b ≠ []) ∧
      (∀ id, off = some id → ∃ a' x, a = a' ++ [x] ∧ x.id = id) ∧ (off = none → a = []) := by
  have hd := distinct_of_good (run_good hist good_empty hr) p
  have key : ∀ rest, foreachSample (db p).marks off = some rest → s = rest.take cap ∧ more = decide (cap < rest.length) := by
    intro rest hrest
    simp only [page, hrest, Page.page.injEq] at h
    exact ⟨h.1.symm, h.2.symm⟩
  have fin : ∀ a rest, samples (db p).marks = a ++ rest → s = rest.take cap → more = decide (cap < rest.length) →
      samples (db p).marks = a ++ s ++ rest.drop cap ∧ (more = true ↔ rest.drop cap ≠ []) := by
    intro a rest h1 h2 h3
    refine ⟨by rw [h1, h2, List.append_assoc, List.take_append_drop], ?_⟩
    rw [h3]
    simp
  cases off with
  | none =>
    obtain ⟨h1, h2⟩ := key _ rfl
    obtain ⟨k1, k2⟩ := fin [] _ rfl h1 h2
    exact ⟨[], _, k1, k2, by simp, by simp⟩
  | some id =>
    by_cases hex : ∃ x ∈ samples (db p).marks, x.id = id
    · obtain ⟨x, hx, rfl⟩ := hex
      obtain ⟨a, b, hab⟩ := List.append_of_mem hx
      obtain ⟨h1, h2⟩ := key _ (foreach_after _ hd _ _ _ hab)
      obtain ⟨k1, k2⟩ := fin (a ++ [x]) b (by rw [hab]; simp) h1 h2
      refine ⟨a ++ [x], _, k1, k2, ?_, by simp⟩
      intro id hid
      injection hid with hid
      exact ⟨a, x, rfl, hid⟩
    · have : foreachSample (db p).marks (some id) = none := foreach_lost _ id (fun x hx he => hex ⟨x, hx, he⟩)
      simp [page, this] at h

/-! ## Iteration limits -/

/-- The settings of the table of a mark. -/
def settings (db : Pool) (p : Proto) (m : BitVec 32) : Option (Flags × BitVec 32) :=
  (findMark (db p).marks m).map (fun t => (t.flags, t.iters))

/-- What the table of a mark has after a request that carries these settings. -/
def choose (f : Flags) (iters : BitVec 32) (old : Option (Flags × BitVec 32)) : Flags × BitVec 32 :=
  if f.set then (f, iters) else old.getD (⟨false, true, false⟩, 0)

theorem find_insBy (l : List MT) (x : MT) (h : findMark l x.mark = none) (m : BitVec 32) :
    findMark (Bib.insBy markKey x l) m = if x.mark = m then some x else findMark l m := by
  unfold findMark at *
  induction l with
  | nil =>
    by_cases hm : x.mark = m <;> simp [Bib.insBy, hm]
  | cons a l ih =>
    rw [List.find?_eq_none] at h
    have ha : a.mark ≠ x.mark := by simpa using h a (List.mem_cons_self ..)
    have ih := ih (by rw [List.find?_eq_none]; exact fun y hy => h y (List.mem_cons_of_mem _ hy))
    rw [Bib.insBy]
    split
    · by_cases hm : x.mark = m <;> simp [hm]
    · by_cases ham : a.mark = m
      · have : x.mark ≠ m := fun hh => ha (ham.trans hh.symm)
        simp [ham, this]
      · rw [List.find?_cons_of_neg (by simpa using ham), ih, List.find?_cons_of_neg (by simpa using ham)]

theorem find_map (l : List MT) (f : MT → MT) (hf : ∀ t, (f t).mark = t.mark) (m : BitVec 32) :
    findMark (l.map f) m = (findMark l m).map f := by
  unfold findMark
  rw [List.find?_map]
  congr 2
  funext t
  simp [hf]

theorem addToMark_settings {kr : Kr} {l l' : List MT} {e : Entry} {n : E} (hs : addToMark kr l e n = .ok (l', false))
    (m : BitVec 32) :
    (findMark l' m).map (fun t => (t.flags, t.iters)) =
      if m = e.mark then some (choose e.flags e.iters ((findMark l m).map (fun t => (t.flags, t.iters))))
      else (findMark l m).map (fun t => (t.flags, t.iters)) := by
  unfold addToMark at hs
  cases hf : findMark l e.mark with
  | some t =>
    rw [hf] at hs
    dsimp only at hs
    cases hr : addRange kr t.t n with
    | enomem => rw [hr] at hs; simp at hs
    | done t' mv =>
      rw [hr] at hs
      dsimp only at hs
      split at hs
      · simp at hs
      · simp only [Outcome.ok.injEq, Prod.mk.injEq, and_true] at hs
        subst hs
        rw [find_map _ _ (by intro t; split; · rw [setIters_mark]
                             · rfl)]
        by_cases hm : m = e.mark
        · subst hm
          obtain ⟨_, htm⟩ := findMark_some hf
          rw [hf]
          simp only [Option.map_some, htm, if_true, setIters, choose]
          split <;> simp
        · rw [if_neg hm]
          cases hf2 : findMark l m with
          | none => rfl
          | some u =>
            obtain ⟨_, hum⟩ := findMark_some hf2
            simp only [Option.map_some, hum, hm, if_false]
  | none =>
    rw [hf] at hs
    dsimp only at hs
    by_cases hk : kr = .fail
    · subst hk; simp at hs
    · have hs' : l' = Bib.insBy markKey (setIters e ⟨e.mark, createTable n, ⟨false, true, false⟩, 0⟩) l := by
        cases kr <;> simp at hs hk <;> exact hs.symm
      subst hs'
      rw [find_insBy _ _ (by rw [setIters_mark]; exact hf), setIters_mark]
      by_cases hm : m = e.mark
      · subst hm
        rw [hf]
        simp only [if_true, Option.map_some, Option.map_none, choose, setIters]
        split <;> simp
      · rw [if_neg hm, if_neg (fun h => hm h.symm)]

theorem addLoop_settings (kr : Oracle) (e : Entry) (lo hi : Nat) (as : List Addr4) (pt pt' : PT) (hne : as ≠ [])
    (hs : addLoop kr e lo hi pt as = .ok (pt', false)) (m : BitVec 32) :
    (findMark pt'.marks m).map (fun t => (t.flags, t.iters)) =
      if m = e.mark then some (choose e.flags e.iters ((findMark pt.marks m).map (fun t => (t.flags, t.iters))))
      else (findMark pt.marks m).map (fun t => (t.flags, t.iters)) := by
  induction as generalizing pt with
  | nil => exact absurd rfl hne
  | cons x as ih =>
    rw [addLoop] at hs
    cases h1 : addToMark (kr true x) pt.marks e ⟨x, lo, hi⟩ with
    | ub u => rw [h1] at hs; simp at hs
    | ok r =>
      obtain ⟨l1, e1⟩ := r
      rw [h1] at hs
      cases e1 with
      | true => simp at hs
      | false =>
        have hm := addToMark_settings h1 m
        dsimp only at hs
        cases h2 : addToAddr (kr false x) pt.addrs ⟨x, lo, hi⟩ with
        | mk l e2 =>
          rw [h2] at hs
          cases e2 with
          | true => simp at hs
          | false =>
            dsimp only at hs
            cases as with
            | nil =>
              simp only [addLoop, Outcome.ok.injEq, Prod.mk.injEq, and_true] at hs
              rw [← hs]; exact hm
            | cons y ys =>
              rw [ih ⟨l1, l⟩ (by simp) hs, hm]
              by_cases hmm : m = e.mark
              · simp only [hmm, if_true, Option.some.injEq]
                simp only [choose]
                split <;> simp
              · simp [hmm]

/-- **C60.** A successful addition gives its settings to the table of its mark; without settings, the table keeps the
ones it had, or gets the automatic limit if it is new. Other marks and protocols keep theirs. -/
theorem add_settings (db db' : Pool) (kr : Oracle) (eph : Option (Nat × Nat)) (q : Proto) (e : Entry)
    (hs : step db (.add kr eph q e) = .ok (db', false)) (p : Proto) (m : BitVec 32) :
    settings db' p m = if p = q ∧ m = e.mark then some (choose e.flags e.iters (settings db p m)) else settings db p m := by
  simp only [step, add] at hs
  split at hs
  · simp at hs
  · rename_i hv
    split at hs
    · simp at hs
    · split at hs
      · simp at hs
      · cases hl : addLoop kr e (addPorts q e).1 (addPorts q e).2 (db q) (foreachAddr4 e.pfx) with
        | ub u => rw [hl] at hs; simp [Outcome.map] at hs
        | ok r =>
          obtain ⟨pt', e1⟩ := r
          rw [hl] at hs
          simp only [Outcome.map, Outcome.ok.injEq, Prod.mk.injEq] at hs
          obtain ⟨rfl, rfl⟩ := hs
          have hne : foreachAddr4 e.pfx ≠ [] := by
            have hl : e.pfx.len ≤ 32 := ((prefix4Validate_iff e.pfx).1 (by simpa using hv)).1
            rw [foreachAddr4_eq e.pfx hl]
            have := Nat.two_pow_pos (32 - e.pfx.len)
            intro h
            have := congrArg List.length h
            simp at this
          unfold settings
          by_cases hp : p = q
          · subst hp
            rw [setP_self, addLoop_settings kr e _ _ _ (db p) pt' hne hl m]
            by_cases hm : m = e.mark <;> simp [hm]
          · rw [setP_ne _ _ hp]; simp [hp]

/-- **C60.** An update changes the settings of the table of its mark, if there is one. -/
theorem update_settings (db : Pool) (q : Proto) (mk : BitVec 32) (f : Flags) (iters : BitVec 32) (p : Proto) (m : BitVec 32)
    (db' : Pool) (err : Bool) (hs : step db (.update q mk f iters) = .ok (db', err)) :
    (err = true → db' = db) ∧ (err = false → (settings db q mk).isSome) ∧
    (err = false → settings db' p m =
      if p = q ∧ m = mk then some (choose f iters (settings db p m)) else settings db p m) := by
  simp only [step, Outcome.ok.injEq] at hs
  unfold update at hs
  split at hs
  · simp only [Prod.mk.injEq] at hs
    obtain ⟨rfl, rfl⟩ := hs
    simp
  · split at hs
    · simp only [Prod.mk.injEq] at hs
      obtain ⟨rfl, rfl⟩ := hs
      simp
    · rename_i t hf
      simp only [Prod.mk.injEq] at hs
      obtain ⟨rfl, rfl⟩ := hs
      refine ⟨by simp, fun _ => by simp [settings, hf], fun _ => ?_⟩
      unfold settings
      by_cases hp : p = q
      · subst hp
        rw [setP_self]
        dsimp only
        rw [find_map _ _ (by intro t; split <;> rfl)]
        by_cases hm : m = mk
        · subst hm
          obtain ⟨_, htm⟩ := findMark_some hf
          rw [hf]
          simp only [Option.map_some, htm, true_and, and_self, if_true, choose]
          split <;> simp
        · simp only [hm, and_false, if_false]
          cases hf2 : findMark (db p).marks m with
          | none => rfl
          | some u =>
            obtain ⟨_, hum⟩ := findMark_some hf2
            simp [hum, hm]
      · rw [setP_ne _ _ hp]; simp [hp]

/-- **C60.** A removal does not change the settings of any mark that still has addresses. -/
theorem rm_settings (db db' : Pool) (kr : Oracle) (q : Proto) (mk : BitVec 32) (pfx : Prefix4) (x y : BitVec 16) (err : Bool)
    (hs : step db (.rm kr q mk pfx x y) = .ok (db', err)) (p : Proto) (m : BitVec 32) :
    settings db' p m = settings db p m ∨ (p = q ∧ m = mk ∧ settings db' p m = none) := by
  have hset : ∀ (l' : List MT) (as : List AT) (e1 : Bool),
      rmFromMark (kr true) mk pfx (lower x y).toNat (upper x y).toNat (db q).marks = .ok (l', e1) →
      settings (setP db q ⟨l', as⟩) p m = settings db p m ∨ (p = q ∧ m = mk ∧ settings (setP db q ⟨l', as⟩) p m = none) := by
    intro l' as e1 hm
    unfold settings
    by_cases hp : p = q
    · subst hp
      rw [setP_self]
      dsimp only
      unfold rmFromMark at hm
      cases hf : findMark (db p).marks mk with
      | none =>
        rw [hf] at hm
        simp only [Outcome.ok.injEq, Prod.mk.injEq] at hm
        rw [← hm.1]; exact .inl rfl
      | some t =>
        rw [hf] at hm
        dsimp only at hm
        cases hq : removeRange (kr true) pfx (lower x y).toNat (upper x y).toNat t.t with
        | ub u => rw [hq] at hm; simp [Outcome.map] at hm
        | ok r =>
          obtain ⟨r1, r2⟩ := r
          rw [hq] at hm
          simp only [Outcome.map, Outcome.ok.injEq, Prod.mk.injEq] at hm
          obtain ⟨rfl, rfl⟩ := hm
          cases r1 with
          | none =>
            have e : (db p).marks.filterMap (fun x => if x.mark = mk then Option.map (fun t' => { x with t := t' }) none else some x) =
                (db p).marks.filter (fun x => decide (x.mark ≠ mk)) := by
              rw [← List.filterMap_eq_filter]
              congr 1
              funext z
              by_cases hz : z.mark = mk <;> simp [Option.guard, hz]
            rw [e]
            by_cases hm : m = mk
            · subst hm
              refine .inr ⟨rfl, rfl, ?_⟩
              simp [findMark]
            · left
              congr 1
              unfold findMark
              rw [List.find?_filter]
              congr 1
              funext z
              by_cases hz : z.mark = m
              · simp [hz, hm]
              · simp [hz]
          | some t' =>
            left
            have e : (db p).marks.filterMap (fun x => if x.mark = mk then Option.map (fun t' => { x with t := t' }) (some t') else some x) =
                (db p).marks.map (fun x => if x.mark = mk then { x with t := t' } else x) := by
              rw [← List.filterMap_eq_map]
              congr 1
              funext z
              by_cases hz : z.mark = mk <;> simp [hz]
            rw [e, find_map _ _ (by intro t; split <;> rfl), Option.map_map]
            congr 1
            funext z
            dsimp only [Function.comp]
            split <;> rfl
    · rw [setP_ne _ _ hp]; exact .inl rfl
  simp only [step, rm] at hs
  split at hs
  · simp only [Outcome.ok.injEq, Prod.mk.injEq] at hs
    rw [← hs.1]; exact .inl rfl
  · cases hm : rmFromMark (kr true) mk pfx (lower x y).toNat (upper x y).toNat (db q).marks with
    | ub u => rw [hm] at hs; simp at hs
    | ok r =>
      obtain ⟨m', e1⟩ := r
      rw [hm] at hs
      cases e1 with
      | true =>
        simp only [Outcome.ok.injEq, Prod.mk.injEq] at hs
        rw [← hs.1]; exact hset _ _ _ hm
      | false =>
        dsimp only at hs
        cases ha : rmFromAddr (kr false) pfx (lower x y).toNat (upper x y).toNat (db q).addrs with
        | ub u => rw [ha] at hs; simp [Outcome.map] at hs
        | ok r =>
          rw [ha] at hs
          simp only [Outcome.map, Outcome.ok.injEq, Prod.mk.injEq] at hs
          rw [← hs.1]; exact hset _ _ _ hm

/-- A limit that is neither automatic nor infinite is not zero (zero is how "no limit" is written down). -/
def Sensible (s : Flags × BitVec 32) : Prop :=
  s.1.auto = true ∨ s.1.infinite = true ∨ s.2 ≠ 0

/-- Both words at once make no sense either. -/
def Coherent (s : Flags × BitVec 32) : Prop := ¬ (s.1.auto = true ∧ s.1.infinite = true)

def SaneSettings (db : Pool) : Prop :=
  ∀ p, ∀ t ∈ (db p).marks, Sensible (t.flags, t.iters) ∧ Coherent (t.flags, t.iters)

theorem choose_sane (f : Flags) (iters : BitVec 32) (old : Option (Flags × BitVec 32)) (hok : itersOk f iters = true)
    (ho : ∀ s, old = some s → Sensible s ∧ Coherent s) : Sensible (choose f iters old) ∧ Coherent (choose f iters old) := by
  unfold choose
  obtain ⟨s, a, i⟩ := f
  cases s with
  | true =>
    simp only [if_true, Sensible, Coherent]
    unfold itersOk at hok
    by_cases hz : iters = 0 <;> cases a <;> cases i <;> simp [hz] at hok ⊢
    exact hz
  | false =>
    cases old with
    | none => exact ⟨.inl rfl, by simp [Coherent]⟩
    | some s => simpa using ho s rfl

theorem addToMark_sane {kr : Kr} {l l' : List MT} {e : Entry} {n : E} {err : Bool}
    (hs : addToMark kr l e n = .ok (l', err)) (hok : itersOk e.flags e.iters = true)
    (hl : ∀ t ∈ l, Sensible (t.flags, t.iters) ∧ Coherent (t.flags, t.iters)) :
    ∀ t ∈ l', Sensible (t.flags, t.iters) ∧ Coherent (t.flags, t.iters) := by
  have key : ∀ t : MT, (Sensible (t.flags, t.iters) ∧ Coherent (t.flags, t.iters)) → ∀ t' : Tbl,
      Sensible ((setIters e { t with t := t' }).flags, (setIters e { t with t := t' }).iters) ∧
      Coherent ((setIters e { t with t := t' }).flags, (setIters e { t with t := t' }).iters) := by
    intro t ht t'
    have := choose_sane e.flags e.iters (some (t.flags, t.iters)) hok (by simpa using ht)
    unfold choose at this
    unfold setIters
    split
    · rename_i h; simpa [h] using this
    · exact ht
  unfold addToMark at hs
  cases hf : findMark l e.mark with
  | some t =>
    rw [hf] at hs
    dsimp only at hs
    cases hr : addRange kr t.t n with
    | enomem => rw [hr] at hs; simp at hs; rw [← hs.1]; exact hl
    | done t' mv =>
      rw [hr] at hs
      dsimp only at hs
      split at hs
      · simp at hs
      · simp only [Outcome.ok.injEq, Prod.mk.injEq] at hs
        rw [← hs.1]
        intro x hx
        obtain ⟨y, hy, rfl⟩ := List.mem_map.1 hx
        split
        · exact key y (hl y hy) t'
        · exact hl y hy
  | none =>
    rw [hf] at hs
    dsimp only at hs
    cases kr with
    | fail => simp at hs; rw [← hs.1]; exact hl
    | _ =>
      simp only [Outcome.ok.injEq, Prod.mk.injEq] at hs
      rw [← hs.1]
      intro x hx
      rcases (Bib.mem_insBy _ _ _ _).1 hx with rfl | hx
      · exact key ⟨e.mark, createTable n, ⟨false, true, false⟩, 0⟩ ⟨.inl rfl, by simp [Coherent]⟩ _
      · exact hl x hx

theorem addLoop_sane (kr : Oracle) (e : Entry) (lo hi : Nat) (as : List Addr4) (pt pt' : PT) (err : Bool)
    (hs : addLoop kr e lo hi pt as = .ok (pt', err)) (hok : itersOk e.flags e.iters = true)
    (hl : ∀ t ∈ pt.marks, Sensible (t.flags, t.iters) ∧ Coherent (t.flags, t.iters)) :
    ∀ t ∈ pt'.marks, Sensible (t.flags, t.iters) ∧ Coherent (t.flags, t.iters) := by
  induction as generalizing pt with
  | nil => simp only [addLoop, Outcome.ok.injEq, Prod.mk.injEq] at hs; rw [← hs.1]; exact hl
  | cons x as ih =>
    rw [addLoop] at hs
    cases h1 : addToMark (kr true x) pt.marks e ⟨x, lo, hi⟩ with
    | ub u => rw [h1] at hs; simp at hs
    | ok r =>
      obtain ⟨l1, e1⟩ := r
      rw [h1] at hs
      have hm := addToMark_sane h1 hok hl
      cases e1 with
      | true =>
        simp only [Outcome.ok.injEq, Prod.mk.injEq] at hs
        rw [← hs.1]; exact hl
      | false =>
        dsimp only at hs
        cases h2 : addToAddr (kr false x) pt.addrs ⟨x, lo, hi⟩ with
        | mk l e2 =>
          rw [h2] at hs
          cases e2 with
          | true =>
            simp only [Outcome.ok.injEq, Prod.mk.injEq] at hs
            rw [← hs.1]; exact hm
          | false => exact ih _ hs hm

theorem step_sane {db db' : Pool} {o : Op} {err : Bool} (hs : step db o = .ok (db', err)) (hg : SaneSettings db) :
    SaneSettings db' := by
  have hset : ∀ (p : Proto) (pt : PT),
      (∀ t ∈ pt.marks, Sensible (t.flags, t.iters) ∧ Coherent (t.flags, t.iters)) → SaneSettings (setP db p pt) := by
    intro p pt h q
    by_cases hq : q = p
    · subst hq; rw [setP_self]; exact h
    · rw [setP_ne _ _ hq]; exact hg q
  cases o with
  | flush =>
    simp only [step, Outcome.ok.injEq, Prod.mk.injEq] at hs
    rw [← hs.1]
    intro p t ht
    simp [flush, empty] at ht
  | update q mk f iters =>
    simp only [step, Outcome.ok.injEq] at hs
    unfold update at hs
    split at hs
    · simp only [Prod.mk.injEq] at hs; rw [← hs.1]; exact hg
    · rename_i hok
      split at hs
      · simp only [Prod.mk.injEq] at hs; rw [← hs.1]; exact hg
      · simp only [Prod.mk.injEq] at hs
        rw [← hs.1]
        refine hset _ _ ?_
        intro t ht
        obtain ⟨y, hy, rfl⟩ := List.mem_map.1 ht
        split
        · rename_i hc
          have := choose_sane f iters none (by simpa using hok) (by simp)
          simpa [choose, hc.2] using this
        · exact hg q y hy
  | add kr eph q e =>
    simp only [step, add] at hs
    split at hs
    · simp only [Outcome.ok.injEq, Prod.mk.injEq] at hs; rw [← hs.1]; exact hg
    · split at hs
      · simp only [Outcome.ok.injEq, Prod.mk.injEq] at hs; rw [← hs.1]; exact hg
      · rename_i hok
        split at hs
        · simp only [Outcome.ok.injEq, Prod.mk.injEq] at hs; rw [← hs.1]; exact hg
        · cases hl : addLoop kr e (addPorts q e).1 (addPorts q e).2 (db q) (foreachAddr4 e.pfx) with
          | ub u => rw [hl] at hs; simp [Outcome.map] at hs
          | ok r =>
            rw [hl] at hs
            simp only [Outcome.map, Outcome.ok.injEq, Prod.mk.injEq] at hs
            rw [← hs.1]
            exact hset _ _ (addLoop_sane kr e _ _ _ _ r.1 r.2 hl (by simpa using hok) (hg q))
  | rm kr q mk pfx x y =>
    have hm : ∀ (l' : List MT) (e1 : Bool),
        rmFromMark (kr true) mk pfx (lower x y).toNat (upper x y).toNat (db q).marks = .ok (l', e1) →
        ∀ t ∈ l', Sensible (t.flags, t.iters) ∧ Coherent (t.flags, t.iters) := by
      intro l' e1 h
      unfold rmFromMark at h
      cases hf : findMark (db q).marks mk with
      | none =>
        rw [hf] at h
        simp only [Outcome.ok.injEq, Prod.mk.injEq] at h
        rw [← h.1]; exact hg q
      | some t =>
        rw [hf] at h
        dsimp only at h
        cases hq : removeRange (kr true) pfx (lower x y).toNat (upper x y).toNat t.t with
        | ub u => rw [hq] at h; simp [Outcome.map] at h
        | ok r =>
          rw [hq] at h
          simp only [Outcome.map, Outcome.ok.injEq, Prod.mk.injEq] at h
          rw [← h.1]
          intro z hz
          obtain ⟨w, hw, hwz⟩ := List.mem_filterMap.1 hz
          split at hwz
          · obtain ⟨t', _, rfl⟩ := Option.map_eq_some_iff.1 hwz
            exact hg q w hw
          · injection hwz with hwz; subst hwz; exact hg q _ hw
    simp only [step, rm] at hs
    split at hs
    · simp only [Outcome.ok.injEq, Prod.mk.injEq] at hs; rw [← hs.1]; exact hg
    · cases h1 : rmFromMark (kr true) mk pfx (lower x y).toNat (upper x y).toNat (db q).marks with
      | ub u => rw [h1] at hs; simp at hs
      | ok r =>
        obtain ⟨m', e1⟩ := r
        rw [h1] at hs
        cases e1 with
        | true =>
          simp only [Outcome.ok.injEq, Prod.mk.injEq] at hs
          rw [← hs.1]; exact hset _ _ (hm _ _ h1)
        | false =>
          dsimp only at hs
          cases ha : rmFromAddr (kr false) pfx (lower x y).toNat (upper x y).toNat (db q).addrs with
          | ub u => rw [ha] at hs; simp [Outcome.map] at hs
          | ok r =>
            rw [ha] at hs
            simp only [Outcome.map, Outcome.ok.injEq, Prod.mk.injEq] at hs
            rw [← hs.1]; exact hset _ _ (hm _ _ h1)

/-- **C60.** In every reachable pool: a limit that is neither automatic nor infinite is positive, and no limit is both. -/
theorem settings_sane (hist : List Op) (db : Pool) (hr : run empty hist = .ok db) (p : Proto) (m : BitVec 32)
    (s : Flags × BitVec 32) (hs : settings db p m = some s) : Sensible s ∧ Coherent s := by
  have key : ∀ (hist : List Op) (d : Pool), SaneSettings d → run d hist = .ok db → SaneSettings db := by
    intro hist
    induction hist with
    | nil => intro d hd h; simp only [run, Outcome.ok.injEq] at h; exact h ▸ hd
    | cons o os ih =>
      intro d hd h
      rw [run] at h
      cases h1 : step d o with
      | ub u => rw [h1] at h; simp at h
      | ok r => rw [h1] at h; exact ih r.1 (step_sane (err := r.2) h1 hd) h
  obtain ⟨t, ht, rfl⟩ := Option.map_eq_some_iff.1 hs
  exact key hist empty (by intro p t ht; simp [empty] at ht) hr p t (findMark_some ht).1

/-- How many candidates a packet may try, by the documentation: the number the user gave; as many as there are
(`none`); or about 1% of the addresses, but no less than 1024 and no more than 8192. -/
def allowed (s : Flags × BitVec 32) (addresses : Nat) : Option Nat :=
  if s.1.infinite then none
  else if s.1.auto then some (min 8192 (max 1024 (addresses / 128)))
  else some s.2.toNat

/-- **C60.** The limit that packets obey, which is also the one that is listed (zero meaning none). -/
theorem limit_correct (hist : List Op) (db : Pool) (hr : run empty hist = .ok db) (p : Proto) (m : BitVec 32)
    (t : MT) (hf : findMark (db p).marks m = some t) :
    (maxIterations t = 0 ↔ allowed (t.flags, t.iters) t.t.count.toNat = none) ∧
    ∀ n, allowed (t.flags, t.iters) t.t.count.toNat = some n → (maxIterations t).toNat = n := by
  have hs := settings_sane hist db hr p m (t.flags, t.iters) (by simp [settings, hf])
  obtain ⟨mk, tb, ⟨s, a, i⟩, it⟩ := t
  simp only [Sensible, Coherent] at hs
  unfold maxIterations allowed
  cases i with
  | true => simp
  | false =>
    cases a with
    | false =>
      have : it ≠ 0 := by simpa using hs.1
      simpa using this
    | true =>
      simp only [Bool.false_eq_true, if_false, Bool.not_true, if_true]
      have hsh : (tb.count >>> 7).toNat = tb.count.toNat / 128 := by
        rw [BitVec.toNat_ushiftRight, Nat.shiftRight_eq_div_pow]
      generalize hr : tb.count >>> 7 = r at *
      rw [← hsh]
      have h1 : (r < 1024#32) ↔ r.toNat < 1024 := by rw [BitVec.lt_def]; rfl
      have h2 : (8192#32 < r) ↔ 8192 < r.toNat := by rw [BitVec.lt_def]; rfl
      simp only [h1, h2]
      split
      · refine ⟨by simp, ?_⟩
        rintro n ⟨⟩
        show 1024 = _
        omega
      · split
        · refine ⟨by simp, ?_⟩
          rintro n ⟨⟩
          show 8192 = _
          omega
        · refine ⟨?_, ?_⟩
          · simp only [reduceCtorEq, iff_false]
            intro h
            have h3 : r.toNat = 0 := by rw [h]; rfl
            omega
          · rintro n ⟨⟩
            omega

theorem cands_limit (n : Nat) (d : Dom) (h0 : d.maxIter ≠ 0) (hle : d.counter.toNat ≤ d.maxIter.toNat)
    (hn : d.counter.toNat + n ≤ d.count.toNat) : (cands n d).length ≤ d.maxIter.toNat - d.counter.toNat := by
  induction n generalizing d with
  | zero => simp [cands]
  | succ n ih =>
    rw [cands]
    cases hx : (next d).1 with
    | none => simp
    | some c =>
      dsimp only
      have hk : ¬ (d.count < d.counter + 1 ∨ (d.maxIter ≠ 0 ∧ d.maxIter < d.counter + 1)) := by
        intro h
        rw [next_none d h] at hx
        simp at hx
      have hmi : (next d).2.maxIter = d.maxIter := by
        unfold next; dsimp only; split <;> try rfl
        split <;> try rfl
        split <;> rfl
      have hct : (next d).2.count = d.count := by
        unfold next; dsimp only; split <;> try rfl
        split <;> try rfl
        split <;> rfl
      have hco : (next d).2.counter = d.counter + 1 := by
        unfold next; dsimp only; split <;> try rfl
        split <;> try rfl
        split <;> rfl
      have hlt : ¬ d.maxIter < d.counter + 1 := fun h => hk (.inr ⟨h0, h⟩)
      rw [BitVec.lt_def] at hlt
      have hadd : (d.counter + 1).toNat = d.counter.toNat + 1 := by
        have h3 := d.count.isLt
        have h4 : (1 : BitVec 32).toNat = 1 := rfl
        rw [BitVec.toNat_add, h4, Nat.mod_eq_of_lt (by omega)]
      have := ih (next d).2 (by rw [hmi]; exact h0) (by rw [hmi, hco]; omega) (by rw [hco, hct]; omega)
      rw [hmi, hco] at this
      simp only [List.length_cons]
      omega

/-- **C60.** A packet never tries more candidates than allowed. -/
theorem packet_limit (hist : List Op) (db : Pool) (hr : run empty hist = .ok db) (p : Proto) (m : BitVec 32)
    (off : BitVec 32) (t : MT) (hf : findMark (db p).marks m = some t) (d : Dom)
    (hd : domainFind db p m none off = .ok (some d)) (n : Nat)
    (hn : allowed (t.flags, t.iters) t.t.count.toNat = some n) : (masks d).cands.length ≤ n := by
  obtain ⟨h1, h2⟩ := limit_correct hist db hr p m t hf
  have hne : isEmpty db = false := by
    cases he : isEmpty db with
    | false => rfl
    | true =>
      have := (findMark_some hf).1
      unfold isEmpty at he
      cases p <;> simp at he <;> simp [he] at this
  simp only [domainFind, hne, Bool.false_eq_true, if_false, hf, domainOf] at hd
  split at hd
  · simp at hd
  · simp only [Outcome.ok.injEq] at hd
    obtain ⟨s, _, rfl⟩ := Option.map_eq_some_iff.1 hd
    have h0 : maxIterations t ≠ 0 := by
      intro h
      rw [h1.1 h] at hn
      simp at hn
    have := cands_limit t.t.count.toNat ⟨t.t.count, 0, maxIterations t, t.t.es, s.1, s.2, false⟩ h0 (Nat.zero_le _)
      (by simp)
    rw [h2 n hn] at this
    exact Nat.le_trans this (Nat.sub_le ..)

/-! ## Concrete cases -/

/-- Two marks; the first one with three ranges and a limit. -/
def exList : List Op :=
  [.add (fun _ _ => .stay) none .UDP ⟨0, 1, ⟨true, false, false⟩, ⟨0xC0000200, 31⟩, 10, 20⟩,
   .add (fun _ _ => .stay) none .UDP ⟨0, 0, ⟨false, false, false⟩, ⟨0xC0000200, 32⟩, 30, 40⟩,
   .add (fun _ _ => .stay) none .UDP ⟨7, 0, ⟨false, false, false⟩, ⟨0xC0000205, 32⟩, 1, 1⟩]

/-- It can be built, and it is listed with pages of one, two and one entries. -/
example : (exMarks exList .UDP).map (fun l => listLoop [(l, 1), (l, 2), (l, 1), (l, 1), (l, 1)] none) =
    some ([⟨7, ⟨false, true, false⟩, 1024, ⟨0xC0000205, 1, 1⟩⟩,
      ⟨0, ⟨true, false, false⟩, 1, ⟨0xC0000200, 10, 20⟩⟩, ⟨0, ⟨true, false, false⟩, 1, ⟨0xC0000200, 30, 40⟩⟩,
      ⟨0, ⟨true, false, false⟩, 1, ⟨0xC0000201, 10, 20⟩⟩], .done) := by decide +kernel

/-- With the limit, a packet tries one candidate out of thirty three. -/
example : exCands exList .UDP 0 5 = some [15] := by decide +kernel

/-- The last entry of the page is removed before the next request. -/
example : (exMarks exList .UDP).bind (fun l =>
    (exMarks (exList ++ [.rm (fun _ _ => .stay) .UDP 7 ⟨0xC0000205, 32⟩ 0 65535]) .UDP).map (fun l' =>
      (listLoop [(l, 1), (l', 9)] none).2)) = some .again := by decide +kernel

/-- Settings that are refused: a finite limit of zero, and automatic and infinite at once. -/
example : itersOk ⟨true, false, false⟩ 0 = false ∧ itersOk ⟨true, true, true⟩ 5 = false := by decide

end Jool.Pool4
