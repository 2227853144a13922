import Verif.Lemmas.FileKernel
/-
The first pass over a configuration file, and the whole.
-/
namespace Jool.File
open Jool.Nla Jool.NlAttr
open Jool.JooldMsg (Byte)
open Jool.Text (Text Inet caseEq GType GVal)
open Jool.Json (Json)

/-- The value of the first member with tag `n`. -/
def findKey (l : List (Text × Json)) (n : Text) : Option Json := (l.find? (fun p => caseEq p.1 n)).map (·.2)

theorem findKey_cons (p : Text × Json) (l : List (Text × Json)) (n : Text) :
    findKey (p :: l) n = if caseEq p.1 n = true then some p.2 else findKey l n := by
  unfold findKey
  by_cases h : caseEq p.1 n = true
  · rw [if_pos h, List.find?_cons_of_pos (p := fun p : Text × Json => caseEq p.1 n) h]; rfl
  · rw [if_neg h, List.find?_cons_of_neg (p := fun p : Text × Json => caseEq p.1 n) h]

theorem member_eq (l : List (Text × Json)) (n : Text) : member l n = findKey (real l) n := rfl

theorem findKey_mem {l : List (Text × Json)} {n : Text} {j : Json} (h : findKey l n = some j) : ∃ p ∈ l, caseEq p.1 n = true ∧ p.2 = j := by
  unfold findKey at h
  rw [Option.map_eq_some_iff] at h
  obtain ⟨p, hp, rfl⟩ := h
  exact ⟨p, List.mem_of_find?_eq_some hp, by simpa using List.find?_some hp, rfl⟩

theorem findKey_none {l : List (Text × Json)} {p : Text × Json} {n : Text} (hp : caseEq p.1 n = true)
    (h : ∀ q ∈ l, caseEq p.1 q.1 = false) : findKey l n = none := by
  unfold findKey
  have : l.find? (fun p => caseEq p.1 n) = none := by
    rw [List.find?_eq_none]
    intro q hq hn
    have := h q hq
    rw [caseEq_trans hp, caseEq_symm] at this
    rw [this] at hn
    cases hn
  rw [this]; rfl

/-- With distinct tags, every member is the first one with its tag. -/
theorem findKey_of_mem {l : List (Text × Json)} (hd : l.Pairwise (fun p q => caseEq p.1 q.1 = false)) {p : Text × Json} (hp : p ∈ l) {n : Text}
    (hn : caseEq p.1 n = true) : findKey l n = some p.2 := by
  induction l with
  | nil => cases hp
  | cons q l ih =>
    rw [List.pairwise_cons] at hd
    rw [findKey_cons]
    rcases List.mem_cons.1 hp with rfl | hp
    · rw [if_pos hn]
    · rw [if_neg]
      · exact ih hd.2 hp
      · intro hq
        have := hd.1 p hp
        rw [caseEq_trans hq, caseEq_symm, hn] at this
        cases this

/-- What is known of the name after the first pass. -/
def NameIs (opt : Option Text) (o : Option Json) (before after : Option Text) : Prop :=
  match o with
  | none => after = before
  | some j => ∃ n, j = .str n ∧ nameOk n = true ∧ (opt = none ∨ opt = some n) ∧ after = some n

/-- What is known of the flags. -/
def FrameIs (o : Option Json) (before after : BitVec 8) : Prop :=
  match o with
  | none => after = before
  | some j => j = .str "netfilter".toList ∧ after = before ||| 4 ∨ j = .str "iptables".toList ∧ after = before ||| 8

theorem instanceTag_ok {opt : Option Text} {j : Json} {s s' : Option Text × BitVec 8} :
    instanceTag opt j s = (s', .ok) ↔ NameIs opt (some j) s.1 s'.1 ∧ s'.2 = s.2 := by
  unfold instanceTag NameIs
  constructor
  · intro h
    cases j with
    | str n =>
      dsimp only at h
      split at h
      · injection h with _ h; cases h
      · split at h
        · injection h with _ h; cases h
        · rename_i h1 h2
          injection h with h _
          subst h
          refine ⟨⟨n, rfl, by simpa using h1, ?_, rfl⟩, rfl⟩
          cases opt with
          | none => exact Or.inl rfl
          | some o => right; simp at h2; rw [h2]
    | _ => injection h with _ h; cases h
  · rintro ⟨⟨n, rfl, h1, h2, h3⟩, h4⟩
    dsimp only
    rw [if_neg (by rw [h1]; decide), if_neg]
    · rw [← h3, ← h4]
    · rcases h2 with rfl | rfl <;> simp

theorem frameworkTag_ok {j : Json} {s s' : Option Text × BitVec 8} :
    frameworkTag j s = (s', .ok) ↔ FrameIs (some j) s.2 s'.2 ∧ s'.1 = s.1 := by
  unfold frameworkTag FrameIs
  constructor
  · intro h
    cases j with
    | str n =>
      dsimp only at h
      split at h
      · rename_i h1; injection h with h _; subst h; exact ⟨Or.inl ⟨by rw [h1], rfl⟩, rfl⟩
      · split at h
        · rename_i h1; injection h with h _; subst h; exact ⟨Or.inr ⟨by rw [h1], rfl⟩, rfl⟩
        · injection h with _ h; cases h
    | _ => injection h with _ h; cases h
  · rintro ⟨⟨rfl, h⟩ | ⟨rfl, h⟩, h4⟩
    · dsimp only
      rw [if_pos rfl, ← h, ← h4]
    · dsimp only
      rw [if_neg (by decide), if_pos rfl, ← h, ← h4]

/-- The rows of the first pass. -/
theorem prepare_rows {opt : Option Text} {m : Meta (Option Text × BitVec 8)} (h : m ∈ prepareMeta opt) :
    (m.name = "instance".toList ∧ m.run = instanceTag opt) ∨ (m.name = "framework".toList ∧ m.run = frameworkTag)
    ∨ (caseEq m.name "instance".toList = false ∧ caseEq m.name "framework".toList = false ∧ m.run = doNothing) := by
  simp only [prepareMeta, List.mem_cons, List.not_mem_nil, or_false] at h
  rcases h with rfl | rfl | rfl | rfl | rfl | rfl | rfl | rfl
  · exact Or.inl ⟨rfl, rfl⟩
  · exact Or.inr (Or.inl ⟨rfl, rfl⟩)
  all_goals exact Or.inr (Or.inr ⟨by decide, by decide, rfl⟩)

theorem other_name {t a b : Text} (h : caseEq t a = true) (hn : caseEq a b = false) : caseEq t b = false := by
  rw [caseEq_trans h]; exact hn

theorem prepareAll_ok (opt : Option Text) : ∀ (l : List (Text × Json)) (s s' : Option Text × BitVec 8),
    l.Pairwise (fun p q => caseEq p.1 q.1 = false) → runAll (prepareMeta opt) l s = (s', .ok) →
    NameIs opt (findKey l "instance".toList) s.1 s'.1 ∧ FrameIs (findKey l "framework".toList) s.2 s'.2 := by
  intro l
  induction l with
  | nil => intro s s' _ h; injection h with h; subst h; exact ⟨rfl, rfl⟩
  | cons p l ih =>
    intro s s' hd h
    rw [List.pairwise_cons] at hd
    rw [runAll] at h
    cases hf : (prepareMeta opt).find? (fun m => caseEq p.1 m.name) with
    | none => rw [hf] at h; injection h with _ h; cases h
    | some m =>
      rw [hf] at h
      dsimp only at h
      have hp : caseEq p.1 m.name = true := by simpa using List.find?_some hf
      rcases hr : m.run p.2 s with ⟨s1, st⟩
      rw [hr] at h
      cases st with
      | ok =>
        dsimp only at h
        obtain ⟨h1, h2⟩ := ih _ _ hd.2 h
        rw [findKey_cons, findKey_cons]
        rcases prepare_rows (List.mem_of_find?_eq_some hf) with ⟨hn, hrun⟩ | ⟨hn, hrun⟩ | ⟨hn1, hn2, hrun⟩
        · rw [hn] at hp
          rw [hrun] at hr
          obtain ⟨k1, k2⟩ := instanceTag_ok.1 hr
          rw [if_pos hp, if_neg (by rw [other_name hp (by decide)]; exact Bool.false_ne_true)]
          rw [findKey_none hp hd.1] at h1
          have h1 : s'.1 = s1.1 := h1
          rw [h1, ← k2]
          exact ⟨k1, h2⟩
        · rw [hn] at hp
          rw [hrun] at hr
          obtain ⟨k1, k2⟩ := frameworkTag_ok.1 hr
          rw [if_pos hp, if_neg (by rw [other_name hp (by decide)]; exact Bool.false_ne_true)]
          rw [findKey_none hp hd.1] at h2
          have h2 : s'.2 = s1.2 := h2
          rw [h2, ← k2]
          exact ⟨h1, k1⟩
        · rw [hrun] at hr
          injection hr with hr
          subst hr
          rw [if_neg (by rw [other_name hp hn1]; exact Bool.false_ne_true), if_neg (by rw [other_name hp hn2]; exact Bool.false_ne_true)]
          exact ⟨h1, h2⟩
      | nomem | no | ub u => injection h with _ h; cases h

theorem prepareAll_complete (opt : Option Text) : ∀ (l : List (Text × Json)) (s : Option Text × BitVec 8),
    (∀ p ∈ l, ∃ m ∈ prepareMeta opt, caseEq p.1 m.name = true) →
    (∀ p ∈ l, caseEq p.1 "instance".toList = true → ∃ n, p.2 = .str n ∧ nameOk n = true ∧ (opt = none ∨ opt = some n)) →
    (∀ p ∈ l, caseEq p.1 "framework".toList = true → p.2 = .str "netfilter".toList ∨ p.2 = .str "iptables".toList) →
    (runAll (prepareMeta opt) l s).2 = .ok := by
  intro l
  induction l with
  | nil => intro s _ _ _; rfl
  | cons p l ih =>
    intro s hk hi hfw
    rw [runAll]
    cases hf : (prepareMeta opt).find? (fun m => caseEq p.1 m.name) with
    | none =>
      obtain ⟨m, hm, hp⟩ := hk p (.head _)
      exact absurd hp (List.find?_eq_none.1 hf m hm)
    | some m =>
      dsimp only
      have hp : caseEq p.1 m.name = true := by simpa using List.find?_some hf
      have hr : ∃ s1, m.run p.2 s = (s1, .ok) := by
        rcases prepare_rows (List.mem_of_find?_eq_some hf) with ⟨hn, hrun⟩ | ⟨hn, hrun⟩ | ⟨hn1, hn2, hrun⟩
        · rw [hn] at hp
          rw [hrun]
          obtain ⟨n, h1, h2, h3⟩ := hi p (.head _) hp
          exact ⟨(some n, s.2), instanceTag_ok.2 ⟨⟨n, h1, h2, h3, rfl⟩, rfl⟩⟩
        · rw [hn] at hp
          rw [hrun]
          rcases hfw p (.head _) hp with h | h
          · exact ⟨(s.1, s.2 ||| 4), frameworkTag_ok.2 ⟨Or.inl ⟨h, rfl⟩, rfl⟩⟩
          · exact ⟨(s.1, s.2 ||| 8), frameworkTag_ok.2 ⟨Or.inr ⟨h, rfl⟩, rfl⟩⟩
        · rw [hrun]; exact ⟨s, rfl⟩
      obtain ⟨s1, hr⟩ := hr
      rw [hr]
      exact ih s1 (fun q hq => hk q (.tail _ hq)) (fun q hq => hi q (.tail _ hq)) (fun q hq => hfw q (.tail _ hq))

theorem prepare_distinct (opt : Option Text) : Distinct (prepareMeta opt) := by
  have : List.Pairwise (fun a b => caseEq a b = false) ((prepareMeta opt).map (·.name)) := by
    show List.Pairwise _ ["instance".toList, "framework".toList, "global".toList, "eamt".toList, "blacklist4".toList, "denylist4".toList,
      "pool4".toList, "bib".toList]
    decide
  exact List.pairwise_map.1 this

/-- The name of the framework. -/
def FrameSays (o : Option Json) (fw : BitVec 8) : Prop :=
  o = some (.str "netfilter".toList) ∧ fw = 4 ∨ o = some (.str "iptables".toList) ∧ fw = 8

theorem prepare_ok {xt : BitVec 8} {opt : Option Text} {j : Json} {name : Text} {flags : BitVec 8} (h : prepare xt opt j = .ok (name, flags)) :
    ∃ l fw, j = .obj l ∧ FrameSays (member l "framework".toList) fw ∧ flags = xt ||| fw ∧ nameOk name = true
      ∧ (member l "instance".toList = some (.str name) ∧ (opt = none ∨ opt = some name)
        ∨ member l "instance".toList = none ∧ opt = some name) := by
  unfold prepare at h
  split at h
  · cases h
  · rename_i hopt
    rcases hr : handleObject j (prepareMeta opt) (none, xt) with ⟨⟨iname, fl⟩, st⟩
    rw [hr] at h
    cases st with
    | ok =>
      obtain ⟨l, rfl, ht, hm, hrun⟩ := (handleObject_ok (prepare_distinct opt)).1 hr
      obtain ⟨h1, h2⟩ := prepareAll_ok opt _ _ _ ht.2 hrun
      have hfs := hm ⟨"framework".toList, true, frameworkTag⟩ (.tail _ (.head _)) rfl
      rw [← member_eq] at h1 h2
      have hfw : ∃ fw, FrameSays (member l "framework".toList) fw ∧ fl = xt ||| fw := by
        cases hfm : member l "framework".toList with
        | none => rw [hfm] at hfs; cases hfs
        | some k =>
          rw [hfm] at h2
          rcases h2 with ⟨rfl, h2⟩ | ⟨rfl, h2⟩
          · exact ⟨4, Or.inl ⟨rfl, rfl⟩, h2⟩
          · exact ⟨8, Or.inr ⟨rfl, rfl⟩, h2⟩
      obtain ⟨fw, hfw1, hfw2⟩ := hfw
      cases him : member l "instance".toList with
      | none =>
        rw [him] at h1
        have h1 : iname = none := h1
        subst h1
        cases opt with
        | none => cases h
        | some o =>
          cases h
          refine ⟨l, fw, rfl, hfw1, hfw2, by simpa using hopt, Or.inr ⟨him, rfl⟩⟩
      | some k =>
        rw [him] at h1
        obtain ⟨n, rfl, k1, k2, k3⟩ := h1
        have k3 : iname = some n := k3
        subst k3
        cases h
        exact ⟨l, fw, rfl, hfw1, hfw2, k1, Or.inl ⟨him, k2⟩⟩
    | nomem | no | ub u => cases h

theorem prepare_complete {xt : BitVec 8} (hxt : xt = 1 ∨ xt = 2) {opt : Option Text} {l : List (Text × Json)} {name : Text} {fw : BitVec 8}
    (ht : Tagged (rootTags xt) l) (hi : member l "instance".toList = some (.str name)) (hn : nameOk name = true)
    (ho : opt = none ∨ opt = some name) (hf : FrameSays (member l "framework".toList) fw) :
    prepare xt opt (.obj l) = .ok (name, xt ||| fw) := by
  have hk : ∀ p ∈ real l, ∃ m ∈ prepareMeta opt, caseEq p.1 m.name = true := by
    intro p hp
    obtain ⟨n, hn, hc⟩ := ht.1 p hp
    have hsub : ∀ n ∈ rootTags xt, n ∈ (prepareMeta opt).map (·.name) := by
      show ∀ n ∈ rootTags xt, n ∈ ["instance".toList, "framework".toList, "global".toList, "eamt".toList, "blacklist4".toList,
        "denylist4".toList, "pool4".toList, "bib".toList]
      rcases hxt with rfl | rfl <;> decide
    obtain ⟨m, hm, rfl⟩ := List.mem_map.1 (hsub n hn)
    exact ⟨m, hm, hc⟩
  have hfr : ∀ p ∈ real l, caseEq p.1 "framework".toList = true → p.2 = .str "netfilter".toList ∨ p.2 = .str "iptables".toList := by
    intro p hp hc
    have := findKey_of_mem ht.2 hp hc
    rw [← member_eq] at this
    rcases hf with ⟨h, _⟩ | ⟨h, _⟩
    · rw [h] at this; injection this with this; exact Or.inl this.symm
    · rw [h] at this; injection this with this; exact Or.inr this.symm
  have hin : ∀ p ∈ real l, caseEq p.1 "instance".toList = true → ∃ n, p.2 = .str n ∧ nameOk n = true ∧ (opt = none ∨ opt = some n) := by
    intro p hp hc
    have := findKey_of_mem ht.2 hp hc
    rw [← member_eq, hi] at this
    injection this with this
    exact ⟨name, this.symm, hn, ho⟩
  have hok := prepareAll_complete opt (real l) (none, xt) hk hin hfr
  have htag : Tagged ((prepareMeta opt).map (·.name)) l := by
    refine ⟨?_, ht.2⟩
    intro p hp
    obtain ⟨m, hm, hc⟩ := hk p hp
    exact ⟨m.name, List.mem_map_of_mem hm, hc⟩
  have hmand : ∀ m ∈ prepareMeta opt, m.mandatory = true → (member l m.name).isSome = true := by
    intro m hm hmm
    simp only [prepareMeta, List.mem_cons, List.not_mem_nil, or_false] at hm
    rcases hm with rfl | rfl | rfl | rfl | rfl | rfl | rfl | rfl
    · cases hmm
    · rcases hf with ⟨h, _⟩ | ⟨h, _⟩ <;> rw [h] <;> rfl
    all_goals cases hmm
  have he := handleObject_eq (prepare_distinct opt) htag hmand (none, xt)
  rcases hr : runAll (prepareMeta opt) (real l) (none, xt) with ⟨⟨iname, fl⟩, st⟩
  rw [hr] at hok he
  have hok : st = .ok := hok
  subst hok
  obtain ⟨h1, h2⟩ := prepareAll_ok opt _ _ _ ht.2 hr
  rw [← member_eq] at h1 h2
  rw [hi] at h1
  obtain ⟨n, k0, _, _, k3⟩ := h1
  injection k0 with k0
  subst k0
  have k3 : iname = some name := k3
  subst k3
  have hfl : fl = xt ||| fw := by
    rcases hf with ⟨h, rfl⟩ | ⟨h, rfl⟩
    · rw [h] at h2
      rcases h2 with ⟨_, h2⟩ | ⟨h2, _⟩
      · exact h2
      · injection h2 with h2; exact absurd h2 (by decide)
    · rw [h] at h2
      rcases h2 with ⟨h2, _⟩ | ⟨_, h2⟩
      · injection h2 with h2; exact absurd h2 (by decide)
      · exact h2
  unfold prepare
  rw [if_neg (by rcases ho with rfl | rfl <;> simp [hn]), he, hfl]

theorem prepare_safe (xt : BitVec 8) (opt : Option Text) (j : Json) (u : UB) : prepare xt opt j ≠ .ub u := by
  unfold prepare
  split
  · intro h; cases h
  · have : (handleObject j (prepareMeta opt) (none, xt)).2 ≠ .ub u := by
      apply handleObject_rel (fun _ _ st => st ≠ .ub u)
      · intro s h; cases h
      · intro _ _ _ h; cases h
      · intro _ _ _ _ _ h; exact h
      · intro m hm j s
        rcases prepare_rows hm with ⟨_, hr⟩ | ⟨_, hr⟩ | ⟨_, _, hr⟩
        · rw [hr]; unfold instanceTag; split
          · split
            · intro h; cases h
            · split <;> intro h <;> cases h
          · intro h; cases h
        · rw [hr]; unfold frameworkTag; split
          · split
            · intro h; cases h
            · split <;> intro h <;> cases h
          · intro h; cases h
        · rw [hr]; intro h; cases h
    rcases hr : handleObject j (prepareMeta opt) (none, xt) with ⟨⟨iname, fl⟩, st⟩
    rw [hr] at this
    cases st with
    | ok => dsimp only; split <;> intro h <;> cases h
    | ub v => intro h; cases h; exact this rfl
    | nomem | no => intro h; cases h

end Jool.File
