import Verif.Lemmas.FileObj
/-
Entries of configuration files: they are accepted exactly if they say something, and then they are what they say.
-/
namespace Jool.File
open Jool.NlAttr
open Jool.Text (Text Inet caseEq GType GVal)
open Jool.Json (Json)

/-- A row of a table of fields. -/
abbrev Row := Text × Bool × (Json → Option Field)

/-- A table of fields. -/
def table (rows : List Row) : List (Meta Fields) := rows.zipIdx.map (fun x => field x.2 x.1.1 x.1.2.1 x.1.2.2)

/-- The names differ. -/
def RowsDistinct (rows : List Row) : Prop := rows.Pairwise (fun a b => caseEq a.1 b.1 = false)

theorem table_names (rows : List Row) : (table rows).map (·.name) = rows.map (·.1) := by
  unfold table
  rw [List.map_map]
  have : ((fun m : Meta Fields => m.name) ∘ fun x : Row × Nat => field x.2 x.1.1 x.1.2.1 x.1.2.2) = (fun r : Row => r.1) ∘ Prod.fst := rfl
  rw [this, ← List.map_map, List.zipIdx_map_fst]

theorem table_distinct {rows : List Row} (h : RowsDistinct rows) : Distinct (table rows) := by
  unfold Distinct
  have : List.Pairwise (fun a b => caseEq a b = false) ((table rows).map (·.name)) := by
    rw [table_names]
    exact List.pairwise_map.2 h
  exact List.pairwise_map.1 this

theorem rows_unique {rows : List Row} (h : RowsDistinct rows) {a b : Nat} {r q : Row} (ha : rows[a]? = some r)
    (hb : rows[b]? = some q) {t : Text} (hr : caseEq t r.1 = true) (hq : caseEq t q.1 = true) : a = b ∧ r = q := by
  obtain ⟨ha', rfl⟩ := List.getElem?_eq_some_iff.1 ha
  obtain ⟨hb', rfl⟩ := List.getElem?_eq_some_iff.1 hb
  have hp := List.pairwise_iff_getElem.1 h
  have hab : a = b := by
    rcases Nat.lt_trichotomy a b with hlt | heq | hgt
    · have := hp a b ha' hb' hlt
      rw [← caseEq_trans hr, hq] at this; cases this
    · exact heq
    · have := hp b a hb' ha' hgt
      rw [← caseEq_trans hq, hr] at this; cases this
  subst hab
  exact ⟨rfl, rfl⟩

/-- The members after the rows of `l` were handled. -/
def filled (rows : List Row) (l : List (Text × Json)) (s : Fields) : Fields := fun i =>
  match rows[i]? with
  | none => s i
  | some r => match l.find? (fun p => caseEq p.1 r.1) with | none => s i | some p => r.2.2 p.2

theorem find_table (rows : List Row) (tag : Text) :
    (∃ k r, rows[k]? = some r ∧ caseEq tag r.1 = true
      ∧ (table rows).find? (fun m => caseEq tag m.name) = some (field k r.1 r.2.1 r.2.2))
    ∨ (∀ r ∈ rows, caseEq tag r.1 = false) ∧ (table rows).find? (fun m => caseEq tag m.name) = none := by
  unfold table
  rw [List.find?_map]
  have e : ((fun m : Meta Fields => caseEq tag m.name) ∘ fun x : Row × Nat => field x.2 x.1.1 x.1.2.1 x.1.2.2)
      = fun x : Row × Nat => caseEq tag x.1.1 := rfl
  rw [e]
  cases hf : rows.zipIdx.find? (fun x : Row × Nat => caseEq tag x.1.1) with
  | some x =>
    left
    refine ⟨x.2, x.1, ?_, by simpa using List.find?_some hf, rfl⟩
    exact List.mem_zipIdx_iff_getElem?.1 (List.mem_of_find?_eq_some hf)
  | none =>
    right
    refine ⟨?_, rfl⟩
    intro r hr
    obtain ⟨k, hk⟩ := List.getElem?_of_mem hr
    have := List.find?_eq_none.1 hf (r, k) (List.mem_zipIdx_iff_getElem?.2 hk)
    simpa using this

theorem runAll_table {rows : List Row} (hd : RowsDistinct rows) : ∀ (l : List (Text × Json)) (_ : Once l) (s s' : Fields),
    runAll (table rows) l s = (s', .ok) ↔
      (∀ p ∈ l, ∃ r ∈ rows, caseEq p.1 r.1 = true ∧ (r.2.2 p.2).isSome = true) ∧ s' = filled rows l s := by
  intro l
  induction l with
  | nil =>
    intro _ s s'
    have : filled rows [] s = s := by
      funext i
      unfold filled
      cases rows[i]? <;> rfl
    rw [this, runAll]
    constructor
    · intro h; injection h with h; exact ⟨(by intro p hp; cases hp), h.symm⟩
    · rintro ⟨_, rfl⟩; rfl
  | cons p l ih =>
    intro ho s s'
    unfold Once at ho
    rw [List.pairwise_cons] at ho
    rw [runAll]
    rcases find_table rows p.1 with ⟨k, r, hk, hc, hf⟩ | ⟨hn, hf⟩
    · rw [hf]
      dsimp only [field]
      cases hv : r.2.2 p.2 with
      | none =>
        dsimp only
        constructor
        · intro h; injection h with _ h; cases h
        · rintro ⟨h, _⟩
          obtain ⟨q, hq, hcq, hs⟩ := h p (List.mem_cons_self ..)
          obtain ⟨k', hk'⟩ := List.getElem?_of_mem hq
          obtain ⟨_, rfl⟩ := rows_unique hd hk hk' hc hcq
          rw [hv] at hs; cases hs
      | some v =>
        dsimp only
        rw [ih ho.2]
        have e : filled rows l (fun i => if i = k then some v else s i) = filled rows (p :: l) s := by
          funext i
          unfold filled
          cases hi : rows[i]? with
          | none =>
            dsimp only
            rw [if_neg]
            rintro rfl
            rw [hk] at hi; cases hi
          | some q =>
            dsimp only
            by_cases hcq : caseEq p.1 q.1 = true
            · obtain ⟨rfl, rfl⟩ := rows_unique hd hk hi hc hcq
              rw [List.find?_cons_of_pos (p := fun p : Text × Json => caseEq p.1 r.1) hc]
              have : l.find? (fun p => caseEq p.1 r.1) = none := by
                rw [List.find?_eq_none]
                intro q hq
                have := ho.1 q hq
                rw [caseEq_symm, ] at this
                rw [caseEq_symm q.1, ← caseEq_trans hc, caseEq_symm, this]
                exact Bool.false_ne_true
              rw [this]
              dsimp only
              rw [if_pos rfl, hv]
            · rw [List.find?_cons_of_neg (p := fun p : Text × Json => caseEq p.1 q.1) hcq]
              rw [if_neg]
              rintro rfl
              rw [hk] at hi
              injection hi with hi
              subst hi
              exact hcq hc
        rw [e]
        constructor
        · rintro ⟨h1, h2⟩
          refine ⟨?_, h2⟩
          intro q hq
          rcases List.mem_cons.1 hq with rfl | hq
          · exact ⟨r, List.mem_of_getElem? hk, hc, by rw [hv]; rfl⟩
          · exact h1 q hq
        · rintro ⟨h1, h2⟩
          exact ⟨fun q hq => h1 q (List.mem_cons_of_mem _ hq), h2⟩
    · rw [hf]
      dsimp only
      constructor
      · intro h; injection h with _ h; cases h
      · rintro ⟨h, _⟩
        obtain ⟨q, hq, hcq, hs⟩ := h p (List.mem_cons_self ..)
        rw [hn q hq] at hcq; cases hcq

/-- A member is acceptable. -/
def RowOk (r : Row) (o : Option Json) : Prop :=
  match o with
  | none => r.2.1 = false
  | some j => (r.2.2 j).isSome = true

/-- What the members of an object give. -/
def values (rows : List Row) (l : List (Text × Json)) : Fields := fun i =>
  match rows[i]? with
  | none => none
  | some r => (member l r.1).bind r.2.2

/-- `handle_object` of a table of fields. -/
theorem object_fields {rows : List Row} (hd : RowsDistinct rows) {j : Json} {f : Fields} :
    handleObject j (table rows) (fun _ => none) = (f, .ok) ↔
      ∃ l, j = .obj l ∧ Tagged (rows.map (·.1)) l ∧ (∀ r ∈ rows, RowOk r (member l r.1)) ∧ f = values rows l := by
  rw [handleObject_ok (table_distinct hd), table_names]
  have hv : ∀ l, filled rows (real l) (fun _ => none) = values rows l := by
    intro l
    funext i
    unfold filled values member
    cases rows[i]? with
    | none => rfl
    | some r => dsimp only; cases (real l).find? (fun p => caseEq p.1 r.1) <;> rfl
  constructor
  · rintro ⟨l, rfl, ht, hm, hr⟩
    obtain ⟨h1, h2⟩ := (runAll_table hd (real l) ht.2 _ _).1 hr
    refine ⟨l, rfl, ht, ?_, by rw [h2, hv]⟩
    intro r hr
    obtain ⟨k, hk⟩ := List.getElem?_of_mem hr
    unfold RowOk
    cases hmem : member l r.1 with
    | none =>
      dsimp only
      have := hm (field k r.1 r.2.1 r.2.2) (by
        unfold table
        exact List.mem_map.2 ⟨(r, k), List.mem_zipIdx_iff_getElem?.2 hk, rfl⟩)
      dsimp only [field] at this
      rw [hmem] at this
      cases hb : r.2.1 with
      | false => rfl
      | true => cases this hb
    | some j =>
      dsimp only
      unfold member at hmem
      rw [Option.map_eq_some_iff] at hmem
      obtain ⟨p, hp, rfl⟩ := hmem
      obtain ⟨q, hq, hcq, hs⟩ := h1 p (List.mem_of_find?_eq_some hp)
      obtain ⟨k', hk'⟩ := List.getElem?_of_mem hq
      have hc : caseEq p.1 r.1 = true := by simpa using List.find?_some hp
      obtain ⟨_, rfl⟩ := rows_unique hd hk hk' hc hcq
      exact hs
  · rintro ⟨l, rfl, ht, hm, rfl⟩
    refine ⟨l, rfl, ht, ?_, ?_⟩
    · intro m hmm hmand
      unfold table at hmm
      obtain ⟨⟨r, k⟩, hk, rfl⟩ := List.mem_map.1 hmm
      have := hm r (List.mem_of_getElem? (List.mem_zipIdx_iff_getElem?.1 hk))
      dsimp only [field] at hmand ⊢
      unfold RowOk at this
      cases hmem : member l r.1 with
      | none => rw [hmem] at this; dsimp only at this; rw [hmand] at this; cases this
      | some j => rfl
    · rw [runAll_table hd _ ht.2, hv]
      refine ⟨?_, rfl⟩
      intro p hp
      obtain ⟨n, hn, hc⟩ := ht.1 p hp
      obtain ⟨r, hr, rfl⟩ := List.mem_map.1 hn
      refine ⟨r, hr, hc, ?_⟩
      have := hm r hr
      have hmem : member l r.1 = some p.2 := by
        unfold member
        cases hf : (real l).find? (fun p => caseEq p.1 r.1) with
        | none =>
          have := List.find?_eq_none.1 hf p hp
          exact absurd hc this
        | some q =>
          have hcq : caseEq q.1 r.1 = true := by simpa using List.find?_some hf
          have hq := List.mem_of_find?_eq_some hf
          have hpq : caseEq p.1 q.1 = true := by rw [caseEq_trans hc, caseEq_symm, hcq]
          have : p = q := by
            obtain ⟨a, ha, rfl⟩ := List.getElem_of_mem hp
            obtain ⟨b, hb, rfl⟩ := List.getElem_of_mem hq
            have hpw := List.pairwise_iff_getElem.1 ht.2
            rcases Nat.lt_trichotomy a b with hlt | heq | hgt
            · rw [hpw a b ha hb hlt] at hpq; cases hpq
            · subst heq; rfl
            · rw [caseEq_symm, hpw b a hb ha hgt] at hpq; cases hpq
          subst this
          rfl
      rw [hmem] at this
      exact this

/-- Objects of fields are accepted or refused. -/
theorem object_st (rows : List Row) (j : Json) (s : Fields) :
    (handleObject j (table rows) s).2 = .ok ∨ (handleObject j (table rows) s).2 = .no := by
  apply handleObject_rel (fun _ _ st => st = .ok ∨ st = .no)
  · intro s; exact Or.inl rfl
  · intro _ _ _; exact Or.inr rfl
  · intro _ _ _ _ _ h; exact h
  · intro m hm j s
    unfold table at hm
    obtain ⟨⟨r, k⟩, _, rfl⟩ := List.mem_map.1 hm
    dsimp only [field]
    cases r.2.2 j with
    | none => exact Or.inr rfl
    | some v => exact Or.inl rfl

theorem built_ok {α : Type} {r : Fields × St} {f : Fields → Option α} {a : α} :
    built r f = .ok a ↔ ∃ s, r = (s, .ok) ∧ f s = some a := by
  obtain ⟨s, st⟩ := r
  unfold built
  cases st with
  | ok =>
    dsimp only
    cases hf : f s with
    | none =>
      dsimp only
      constructor
      · intro h; cases h
      · rintro ⟨s', h, h'⟩
        injection h with h
        subst h
        rw [hf] at h'; cases h'
    | some b =>
      dsimp only
      constructor
      · intro h; injection h with h; subst h; exact ⟨s, rfl, hf⟩
      · rintro ⟨s', h, h'⟩
        injection h with h
        subst h
        rw [hf] at h'; injection h' with h'; rw [h']
  | nomem => exact ⟨fun h => (by cases h), fun ⟨_, h, _⟩ => (by cases h)⟩
  | no => exact ⟨fun h => (by cases h), fun ⟨_, h, _⟩ => (by cases h)⟩
  | ub u => exact ⟨fun h => (by cases h), fun ⟨_, h, _⟩ => (by cases h)⟩

/-- If all that was accepted can be used, there is no undefined behaviour. -/
theorem built_safe {α : Type} {rows : List Row} (hd : RowsDistinct rows) {f : Fields → Option α} {j : Json}
    (h : ∀ l, (∀ r ∈ rows, RowOk r (member l r.1)) → (f (values rows l)).isSome = true) :
    ∀ u, built (handleObject j (table rows) (fun _ => none)) f ≠ .ub u := by
  intro u
  rcases hr : handleObject j (table rows) (fun _ => none) with ⟨s, st⟩
  have hst := object_st rows j (fun _ => none)
  rw [hr] at hst
  unfold built
  rcases hst with rfl | rfl
  · obtain ⟨l, _, _, h3, h4⟩ := (object_fields hd).1 hr
    have := h l h3
    rw [← h4] at this
    dsimp only
    cases hf : f s with
    | none => rw [hf] at this; cases this
    | some a => intro h; cases h
  · intro h; cases h

/-! ### The values -/

theorem prefix6_says {i : Inet} {j : Json} {v : Field} :
    json2prefix6 i j = some v ↔ ∃ s p, j = .str s ∧ Text.strToPrefix6 i s = some p ∧ v = .p6 p := by
  unfold json2prefix6
  constructor
  · intro h
    cases j with
    | str s =>
      obtain ⟨p, hp, rfl⟩ := Option.map_eq_some_iff.1 h
      exact ⟨s, p, rfl, hp, rfl⟩
    | _ => cases h
  · rintro ⟨s, p, rfl, hp, rfl⟩
    dsimp only
    rw [hp]; rfl

theorem prefix4_says {i : Inet} {j : Json} {v : Field} :
    json2prefix4 i j = some v ↔ ∃ s p, j = .str s ∧ Text.strToPrefix4 i s = some p ∧ v = .p4 p := by
  unfold json2prefix4
  constructor
  · intro h
    cases j with
    | str s =>
      obtain ⟨p, hp, rfl⟩ := Option.map_eq_some_iff.1 h
      exact ⟨s, p, rfl, hp, rfl⟩
    | _ => cases h
  · rintro ⟨s, p, rfl, hp, rfl⟩
    dsimp only
    rw [hp]; rfl

theorem taddr6_says {i : Inet} {j : Json} {v : Field} :
    json2taddr6 i j = some v ↔ ∃ s p, j = .str s ∧ Text.strToT6 i s = some p ∧ v = .t6 p := by
  unfold json2taddr6
  constructor
  · intro h
    cases j with
    | str s =>
      obtain ⟨p, hp, rfl⟩ := Option.map_eq_some_iff.1 h
      exact ⟨s, p, rfl, hp, rfl⟩
    | _ => cases h
  · rintro ⟨s, p, rfl, hp, rfl⟩
    dsimp only
    rw [hp]; rfl

theorem taddr4_says {i : Inet} {j : Json} {v : Field} :
    json2taddr4 i j = some v ↔ ∃ s p, j = .str s ∧ Text.strToT4 i s = some p ∧ v = .t4 p := by
  unfold json2taddr4
  constructor
  · intro h
    cases j with
    | str s =>
      obtain ⟨p, hp, rfl⟩ := Option.map_eq_some_iff.1 h
      exact ⟨s, p, rfl, hp, rfl⟩
    | _ => cases h
  · rintro ⟨s, p, rfl, hp, rfl⟩
    dsimp only
    rw [hp]; rfl

theorem ports_says {j : Json} {v : Field} :
    json2portRange j = some v ↔ ∃ s a b, j = .str s ∧ Text.strToPortRange s = some (a, b) ∧ v = .ports a b := by
  unfold json2portRange
  constructor
  · intro h
    cases j with
    | str s =>
      obtain ⟨⟨a, b⟩, hp, rfl⟩ := Option.map_eq_some_iff.1 h
      exact ⟨s, a, b, rfl, hp, rfl⟩
    | _ => cases h
  · rintro ⟨s, a, b, rfl, hp, rfl⟩
    dsimp only
    rw [hp]; rfl

theorem uint_says {j : Json} {a b v : Nat} : uint j a b = some v ↔ IsUint j a b v := by
  unfold uint IsUint
  constructor
  · intro h
    cases j with
    | num n =>
      dsimp only at h
      cases hn : n.uint with
      | none => rw [hn] at h; cases h
      | some w =>
        rw [hn] at h
        dsimp only at h
        split at h
        · cases h
        · rename_i hr
          injection h with h
          subst h
          exact ⟨n, rfl, hn, by omega, by omega⟩
    | _ => cases h
  · rintro ⟨n, rfl, hn, h1, h2⟩
    dsimp only
    rw [hn]
    dsimp only
    rw [if_neg (by omega)]

theorem mark_says {j : Json} {v : Field} :
    json2mark j = some v ↔ ∃ n u, j = .num n ∧ IsUint j 0 4294967295 u ∧ v = .mark (BitVec.ofInt 32 n.int) := by
  unfold json2mark
  constructor
  · intro h
    cases hu : uint j 0 4294967295 with
    | none => rw [hu] at h; cases h
    | some u =>
      obtain ⟨n, rfl, _⟩ := uint_says.1 hu
      rw [hu] at h
      injection h with h
      exact ⟨n, u, rfl, uint_says.1 hu, h.symm⟩
  · rintro ⟨n, u, rfl, hu, rfl⟩
    rw [uint_says.2 hu]

theorem iters_says {j : Json} {v : Field} :
    json2maxIterations j = some v ↔ ∃ f n, ItersSay (some j) f n ∧ v = .iters f n := by
  unfold json2maxIterations ItersSay
  constructor
  · intro h
    cases j with
    | num n =>
      dsimp only at h
      obtain ⟨u, hu, rfl⟩ := Option.map_eq_some_iff.1 h
      exact ⟨_, _, Or.inl ⟨u, uint_says.1 hu, rfl, rfl⟩, rfl⟩
    | str s =>
      dsimp only at h
      split at h
      · rename_i hs
        injection h with h
        exact ⟨3, 0, Or.inr (Or.inl ⟨by rw [hs], rfl, rfl⟩), h.symm⟩
      · split at h
        · rename_i hs
          injection h with h
          exact ⟨5, 0, Or.inr (Or.inr ⟨by rw [hs], rfl, rfl⟩), h.symm⟩
        · cases h
    | _ => cases h
  · rintro ⟨f, n, h, rfl⟩
    rcases h with ⟨u, hu, rfl, rfl⟩ | ⟨rfl, rfl, rfl⟩ | ⟨rfl, rfl, rfl⟩
    · obtain ⟨m, rfl, hu⟩ := hu
      dsimp only
      rw [uint_says.2 ⟨m, rfl, hu⟩]; rfl
    · rfl
    · rfl

theorem strToProto_says {s : Text} {p : BitVec 8} :
    strToProto s = some p ↔ (caseEq s "TCP".toList = true ∧ p = 0 ∨ caseEq s "UDP".toList = true ∧ p = 1
      ∨ caseEq s "ICMP".toList = true ∧ p = 2) := by
  unfold strToProto
  rw [caseEq_symm "TCP".toList, caseEq_symm "UDP".toList, caseEq_symm "ICMP".toList]
  have h1 : caseEq "TCP".toList "UDP".toList = false := by decide
  have h2 : caseEq "TCP".toList "ICMP".toList = false := by decide
  have h3 : caseEq "UDP".toList "ICMP".toList = false := by decide
  by_cases ht : caseEq s "TCP".toList = true
  · rw [if_pos ht, caseEq_trans ht, caseEq_trans ht, caseEq_trans ht, h1, h2, caseEq_refl]
    constructor
    · intro h; injection h with h; exact Or.inl ⟨rfl, h.symm⟩
    · rintro (⟨_, rfl⟩ | ⟨h, _⟩ | ⟨h, _⟩)
      · rfl
      · cases h
      · cases h
  · rw [if_neg ht]
    by_cases hu : caseEq s "UDP".toList = true
    · rw [if_pos hu, caseEq_trans hu "ICMP".toList, h3]
      constructor
      · intro h; injection h with h; exact Or.inr (Or.inl ⟨hu, h.symm⟩)
      · rintro (⟨h, _⟩ | ⟨_, rfl⟩ | ⟨h, _⟩)
        · exact absurd h ht
        · rfl
        · cases h
    · rw [if_neg hu]
      by_cases hi : caseEq s "ICMP".toList = true
      · rw [if_pos hi]
        constructor
        · intro h; injection h with h; exact Or.inr (Or.inr ⟨hi, h.symm⟩)
        · rintro (⟨h, _⟩ | ⟨h, _⟩ | ⟨_, rfl⟩)
          · exact absurd h ht
          · exact absurd h hu
          · rfl
      · rw [if_neg hi]
        constructor
        · intro h; cases h
        · rintro (⟨h, _⟩ | ⟨h, _⟩ | ⟨h, _⟩)
          · exact absurd h ht
          · exact absurd h hu
          · exact absurd h hi

theorem proto_says {j : Json} {v : Field} : json2proto j = some v ↔ ∃ p, ProtoSays j p ∧ v = .proto p := by
  unfold json2proto ProtoSays
  constructor
  · intro h
    cases j with
    | str s =>
      obtain ⟨p, hp, rfl⟩ := Option.map_eq_some_iff.1 h
      exact ⟨p, ⟨s, rfl, strToProto_says.1 hp⟩, rfl⟩
    | _ => cases h
  · rintro ⟨p, ⟨s, rfl, h⟩, rfl⟩
    dsimp only
    rw [strToProto_says.2 h]; rfl

/-! ### The entries -/

def eamRows (i : Inet) : List Row := [
  ("ipv6 prefix".toList, true, json2prefix6 i),
  ("ipv4 prefix".toList, true, json2prefix4 i)]

def pool4Rows (i : Inet) : List Row := [
  ("mark".toList, false, json2mark),
  ("protocol".toList, true, json2proto),
  ("prefix".toList, true, json2prefix4 i),
  ("port range".toList, false, json2portRange),
  ("max-iterations".toList, false, json2maxIterations)]

def bibRows (i : Inet) : List Row := [
  ("ipv6 address".toList, true, json2taddr6 i),
  ("ipv4 address".toList, true, json2taddr4 i),
  ("protocol".toList, true, json2proto)]

theorem names_distinct {rows : List Row} (h : (rows.map (·.1)).Pairwise (fun a b => caseEq a b = false)) : RowsDistinct rows :=
  List.pairwise_map.1 h

theorem eamRows_distinct (i : Inet) : RowsDistinct (eamRows i) :=
  names_distinct (show List.Pairwise (fun a b => caseEq a b = false) ["ipv6 prefix".toList, "ipv4 prefix".toList] by decide)

theorem pool4Rows_distinct (i : Inet) : RowsDistinct (pool4Rows i) :=
  names_distinct (show List.Pairwise (fun a b => caseEq a b = false)
    ["mark".toList, "protocol".toList, "prefix".toList, "port range".toList, "max-iterations".toList] by decide)

theorem bibRows_distinct (i : Inet) : RowsDistinct (bibRows i) :=
  names_distinct (show List.Pairwise (fun a b => caseEq a b = false)
    ["ipv6 address".toList, "ipv4 address".toList, "protocol".toList] by decide)

/-- A member that must be there, and is acceptable. -/
theorem rowOk_true {n : Text} {f : Json → Option Field} {o : Option Json} :
    RowOk (n, true, f) o ↔ ∃ j v, o = some j ∧ f j = some v := by
  unfold RowOk
  constructor
  · intro h
    cases o with
    | none => cases h
    | some j =>
      obtain ⟨v, hv⟩ := Option.isSome_iff_exists.1 h
      exact ⟨j, v, rfl, hv⟩
  · rintro ⟨j, v, rfl, h⟩
    dsimp only
    rw [h]; rfl

/-- A member that may be there, and is acceptable if it is. -/
theorem rowOk_false {n : Text} {f : Json → Option Field} {o : Option Json} :
    RowOk (n, false, f) o ↔ o = none ∨ ∃ j v, o = some j ∧ f j = some v := by
  unfold RowOk
  constructor
  · intro h
    cases o with
    | none => exact Or.inl rfl
    | some j =>
      obtain ⟨v, hv⟩ := Option.isSome_iff_exists.1 h
      exact Or.inr ⟨j, v, rfl, hv⟩
  · rintro (rfl | ⟨j, v, rfl, h⟩)
    · rfl
    · dsimp only
      rw [h]; rfl

/-- EAM entries. -/
theorem eamEntry_ok {i : Inet} {j : Json} {e : Eam.Entry} : eamEntry i j = .ok e ↔ EamSays i j e := by
  have hr : eamEntry i j = built (handleObject j (table (eamRows i)) (fun _ => none)) (fun f =>
      match f 0, f 1 with
      | some (.p6 a), some (.p4 b) => some ⟨a, b⟩
      | _, _ => none) := rfl
  rw [hr, built_ok]
  unfold EamSays
  constructor
  · rintro ⟨s, hs, hf⟩
    obtain ⟨l, rfl, ht, hrow, rfl⟩ := (object_fields (eamRows_distinct i)).1 hs
    obtain ⟨j6, v6, hm6, hv6⟩ := rowOk_true.1 (hrow (_, _, _) (.head _))
    obtain ⟨j4, v4, hm4, hv4⟩ := rowOk_true.1 (hrow (_, _, _) (.tail _ (.head _)))
    obtain ⟨s6, p6, rfl, h6, rfl⟩ := prefix6_says.1 hv6
    obtain ⟨s4, p4, rfl, h4, rfl⟩ := prefix4_says.1 hv4
    have e0 : values (eamRows i) l 0 = (member l "ipv6 prefix".toList).bind (json2prefix6 i) := rfl
    have e1 : values (eamRows i) l 1 = (member l "ipv4 prefix".toList).bind (json2prefix4 i) := rfl
    rw [e0, e1, hm6, hm4, Option.bind_some, Option.bind_some, hv6, hv4] at hf
    injection hf with hf
    subst hf
    exact ⟨l, s6, s4, rfl, ht, hm6, h6, hm4, h4⟩
  · rintro ⟨l, s6, s4, rfl, ht, hm6, h6, hm4, h4⟩
    have hv6 := prefix6_says.2 ⟨s6, _, rfl, h6, rfl⟩
    have hv4 := prefix4_says.2 ⟨s4, _, rfl, h4, rfl⟩
    refine ⟨values (eamRows i) l, (object_fields (eamRows_distinct i)).2 ⟨l, rfl, ht, ?_, rfl⟩, ?_⟩
    · intro r hr
      unfold eamRows at hr
      rcases List.mem_cons.1 hr with rfl | hr
      · exact rowOk_true.2 ⟨_, _, hm6, hv6⟩
      · rcases List.mem_cons.1 hr with rfl | hr
        · exact rowOk_true.2 ⟨_, _, hm4, hv4⟩
        · cases hr
    · have e0 : values (eamRows i) l 0 = (member l "ipv6 prefix".toList).bind (json2prefix6 i) := rfl
      have e1 : values (eamRows i) l 1 = (member l "ipv4 prefix".toList).bind (json2prefix4 i) := rfl
      rw [e0, e1, hm6, hm4, Option.bind_some, Option.bind_some, hv6, hv4]

theorem eamEntry_safe (i : Inet) (j : Json) : ∀ u, eamEntry i j ≠ .ub u := by
  have hr : eamEntry i j = built (handleObject j (table (eamRows i)) (fun _ => none)) (fun f =>
      match f 0, f 1 with
      | some (.p6 a), some (.p4 b) => some ⟨a, b⟩
      | _, _ => none) := rfl
  rw [hr]
  apply built_safe (eamRows_distinct i)
  intro l hrow
  obtain ⟨j6, v6, hm6, hv6⟩ := rowOk_true.1 (hrow (_, _, _) (.head _))
  obtain ⟨j4, v4, hm4, hv4⟩ := rowOk_true.1 (hrow (_, _, _) (.tail _ (.head _)))
  obtain ⟨s6, p6, rfl, h6, rfl⟩ := prefix6_says.1 hv6
  obtain ⟨s4, p4, rfl, h4, rfl⟩ := prefix4_says.1 hv4
  have e0 : values (eamRows i) l 0 = (member l "ipv6 prefix".toList).bind (json2prefix6 i) := rfl
  have e1 : values (eamRows i) l 1 = (member l "ipv4 prefix".toList).bind (json2prefix4 i) := rfl
  rw [e0, e1, hm6, hm4, Option.bind_some, Option.bind_some, hv6, hv4]
  rfl

/-- Denylist entries. -/
theorem denyEntry_ok {i : Inet} {j : Json} {p : Prefix4} : denyEntry i j = .ok p ↔ DenySays i j p := by
  unfold denyEntry DenySays
  constructor
  · intro h
    cases j with
    | str s =>
      dsimp only at h
      cases hp : Text.strToPrefix4 i s with
      | none => rw [hp] at h; cases h
      | some q => rw [hp] at h; injection h with h; subst h; exact ⟨s, rfl, hp⟩
    | _ => cases h
  · rintro ⟨s, rfl, h⟩
    dsimp only
    rw [h]

theorem denyEntry_safe (i : Inet) (j : Json) : ∀ u, denyEntry i j ≠ .ub u := by
  intro u
  unfold denyEntry
  cases j with
  | str s => dsimp only; cases Text.strToPrefix4 i s <;> (intro h; cases h)
  | _ => intro h; cases h

/-- BIB entries. -/
theorem bibEntry_ok {i : Inet} {j : Json} {e : WBib} : bibEntry i j = .ok e ↔ BibSays i j e := by
  have hr : bibEntry i j = built (handleObject j (table (bibRows i)) (fun _ => none)) (fun f =>
      match f 0, f 1, f 2 with
      | some (.t6 a), some (.t4 b), some (.proto p) => some ⟨a, b, p, true⟩
      | _, _, _ => none) := rfl
  rw [hr, built_ok]
  unfold BibSays
  have e0 : ∀ l, values (bibRows i) l 0 = (member l "ipv6 address".toList).bind (json2taddr6 i) := fun _ => rfl
  have e1 : ∀ l, values (bibRows i) l 1 = (member l "ipv4 address".toList).bind (json2taddr4 i) := fun _ => rfl
  have e2 : ∀ l, values (bibRows i) l 2 = (member l "protocol".toList).bind json2proto := fun _ => rfl
  constructor
  · rintro ⟨s, hs, hf⟩
    obtain ⟨l, rfl, ht, hrow, rfl⟩ := (object_fields (bibRows_distinct i)).1 hs
    obtain ⟨j6, v6, hm6, hv6⟩ := rowOk_true.1 (hrow (_, _, _) (.head _))
    obtain ⟨j4, v4, hm4, hv4⟩ := rowOk_true.1 (hrow (_, _, _) (.tail _ (.head _)))
    obtain ⟨jp, vp, hmp, hvp⟩ := rowOk_true.1 (hrow (_, _, _) (.tail _ (.tail _ (.head _))))
    obtain ⟨s6, p6, rfl, h6, rfl⟩ := taddr6_says.1 hv6
    obtain ⟨s4, p4, rfl, h4, rfl⟩ := taddr4_says.1 hv4
    obtain ⟨pr, hp, rfl⟩ := proto_says.1 hvp
    rw [e0, e1, e2, hm6, hm4, hmp, Option.bind_some, Option.bind_some, Option.bind_some, hv6, hv4, hvp] at hf
    injection hf with hf
    subst hf
    exact ⟨l, s6, s4, jp, rfl, ht, hm6, h6, hm4, h4, hmp, hp, rfl⟩
  · rintro ⟨l, s6, s4, jp, rfl, ht, hm6, h6, hm4, h4, hmp, hp, hst⟩
    have hv6 := taddr6_says.2 ⟨s6, _, rfl, h6, rfl⟩
    have hv4 := taddr4_says.2 ⟨s4, _, rfl, h4, rfl⟩
    have hvp := proto_says.2 ⟨_, hp, rfl⟩
    refine ⟨values (bibRows i) l, (object_fields (bibRows_distinct i)).2 ⟨l, rfl, ht, ?_, rfl⟩, ?_⟩
    · intro r hr
      unfold bibRows at hr
      rcases List.mem_cons.1 hr with rfl | hr
      · exact rowOk_true.2 ⟨_, _, hm6, hv6⟩
      · rcases List.mem_cons.1 hr with rfl | hr
        · exact rowOk_true.2 ⟨_, _, hm4, hv4⟩
        · rcases List.mem_cons.1 hr with rfl | hr
          · exact rowOk_true.2 ⟨_, _, hmp, hvp⟩
          · cases hr
    · rw [e0, e1, e2, hm6, hm4, hmp, Option.bind_some, Option.bind_some, Option.bind_some, hv6, hv4, hvp]
      dsimp only
      rw [← hst]

theorem bibEntry_safe (i : Inet) (j : Json) : ∀ u, bibEntry i j ≠ .ub u := by
  have hr : bibEntry i j = built (handleObject j (table (bibRows i)) (fun _ => none)) (fun f =>
      match f 0, f 1, f 2 with
      | some (.t6 a), some (.t4 b), some (.proto p) => some ⟨a, b, p, true⟩
      | _, _, _ => none) := rfl
  rw [hr]
  have e0 : ∀ l, values (bibRows i) l 0 = (member l "ipv6 address".toList).bind (json2taddr6 i) := fun _ => rfl
  have e1 : ∀ l, values (bibRows i) l 1 = (member l "ipv4 address".toList).bind (json2taddr4 i) := fun _ => rfl
  have e2 : ∀ l, values (bibRows i) l 2 = (member l "protocol".toList).bind json2proto := fun _ => rfl
  apply built_safe (bibRows_distinct i)
  intro l hrow
  obtain ⟨j6, v6, hm6, hv6⟩ := rowOk_true.1 (hrow (_, _, _) (.head _))
  obtain ⟨j4, v4, hm4, hv4⟩ := rowOk_true.1 (hrow (_, _, _) (.tail _ (.head _)))
  obtain ⟨jp, vp, hmp, hvp⟩ := rowOk_true.1 (hrow (_, _, _) (.tail _ (.tail _ (.head _))))
  obtain ⟨s6, p6, rfl, h6, rfl⟩ := taddr6_says.1 hv6
  obtain ⟨s4, p4, rfl, h4, rfl⟩ := taddr4_says.1 hv4
  obtain ⟨pr, hp, rfl⟩ := proto_says.1 hvp
  rw [e0, e1, e2, hm6, hm4, hmp, Option.bind_some, Option.bind_some, Option.bind_some, hv6, hv4, hvp]
  rfl

/-- A mark that is stored as it is. -/
def MarkSmall (o : Option Json) : Prop :=
  match o with
  | some (.num n) => ∀ v, n.uint = some v → v < 2147483647
  | _ => True

/-- The mark of a pool4 entry. -/
def markOf (o : Option Field) : BitVec 32 := match o with | some (.mark m) => m | _ => 0
def minOf (o : Option Field) : BitVec 16 := match o with | some (.ports a _) => a | _ => 61001
def maxOf (o : Option Field) : BitVec 16 := match o with | some (.ports _ b) => b | _ => 65535
def flagsOf (o : Option Field) : BitVec 8 := match o with | some (.iters a _) => a | _ => 0
def itersOf (o : Option Field) : BitVec 32 := match o with | some (.iters _ b) => b | _ => 0

def pool4Of (f : Fields) : Option WPool4 :=
  match f 1, f 2 with
  | some (.proto proto), some (.p4 pfx) =>
    some { mark := markOf (f 0), proto := proto, pfx := pfx, min := minOf (f 3), max := maxOf (f 3), flags := flagsOf (f 4), iters := itersOf (f 4) }
  | _, _ => none

theorem pool4Entry_eq (i : Inet) (j : Json) :
    pool4Entry i j = built (handleObject j (table (pool4Rows i)) (fun _ => none)) pool4Of := rfl

theorem pool4_vals (i : Inet) (l : List (Text × Json)) :
    values (pool4Rows i) l 0 = (member l "mark".toList).bind json2mark
    ∧ values (pool4Rows i) l 1 = (member l "protocol".toList).bind json2proto
    ∧ values (pool4Rows i) l 2 = (member l "prefix".toList).bind (json2prefix4 i)
    ∧ values (pool4Rows i) l 3 = (member l "port range".toList).bind json2portRange
    ∧ values (pool4Rows i) l 4 = (member l "max-iterations".toList).bind json2maxIterations := ⟨rfl, rfl, rfl, rfl, rfl⟩

theorem pool4Entry_safe (i : Inet) (j : Json) : ∀ u, pool4Entry i j ≠ .ub u := by
  rw [pool4Entry_eq]
  apply built_safe (pool4Rows_distinct i)
  intro l hrow
  obtain ⟨jp, vp, hmp, hvp⟩ := rowOk_true.1 (hrow (_, _, _) (.tail _ (.head _)))
  obtain ⟨j4, v4, hm4, hv4⟩ := rowOk_true.1 (hrow (_, _, _) (.tail _ (.tail _ (.head _))))
  obtain ⟨s4, p4, rfl, h4, rfl⟩ := prefix4_says.1 hv4
  obtain ⟨pr, hp, rfl⟩ := proto_says.1 hvp
  unfold pool4Of
  obtain ⟨_, e1, e2, _, _⟩ := pool4_vals i l
  rw [e1, e2, hmp, hm4, Option.bind_some, Option.bind_some, hvp, hv4]
  rfl

/-- Optional members. -/
theorem ports_row {o : Option Json} {n : Text} (h : RowOk (n, false, json2portRange) o) {a b : BitVec 16} :
    PortsSay o a b ↔ minOf (o.bind json2portRange) = a ∧ maxOf (o.bind json2portRange) = b := by
  unfold PortsSay
  rcases rowOk_false.1 h with rfl | ⟨j, v, rfl, hv⟩
  · exact ⟨fun h => ⟨h.1.symm, h.2.symm⟩, fun h => ⟨h.1.symm, h.2.symm⟩⟩
  · dsimp only
    rw [Option.bind_some, hv]
    obtain ⟨s, x, y, rfl, hs, rfl⟩ := ports_says.1 hv
    dsimp only [minOf, maxOf]
    constructor
    · rintro ⟨s', h1, h2⟩
      injection h1 with h1
      subst h1
      rw [hs] at h2
      injection h2 with h2
      injection h2 with h3 h4
      exact ⟨h3, h4⟩
    · rintro ⟨rfl, rfl⟩
      exact ⟨s, rfl, hs⟩

theorem isUint_inj {j : Json} {a b c d u v : Nat} (h : IsUint j a b u) (h' : IsUint j c d v) : u = v := by
  obtain ⟨n, rfl, hn, _⟩ := h
  obtain ⟨m, hm, hm', _⟩ := h'
  injection hm with hm
  subst hm
  rw [hn] at hm'
  injection hm'

theorem itersSay_inj {j : Json} {f f' : BitVec 8} {n n' : BitVec 32} (h : ItersSay (some j) f n) (h' : ItersSay (some j) f' n') :
    f = f' ∧ n = n' := by
  unfold ItersSay at h h'
  dsimp only at h h'
  rcases h with ⟨u, hu, rfl, rfl⟩ | ⟨rfl, rfl, rfl⟩ | ⟨rfl, rfl, rfl⟩
  · rcases h' with ⟨v, hv, rfl, rfl⟩ | ⟨rfl, rfl, rfl⟩ | ⟨rfl, rfl, rfl⟩
    · rw [isUint_inj hu hv]; exact ⟨rfl, rfl⟩
    · obtain ⟨_, h, _⟩ := hu; cases h
    · obtain ⟨_, h, _⟩ := hu; cases h
  · rcases h' with ⟨v, hv, rfl, rfl⟩ | ⟨_, rfl, rfl⟩ | ⟨h, rfl, rfl⟩
    · obtain ⟨_, h, _⟩ := hv; cases h
    · exact ⟨rfl, rfl⟩
    · injection h with h
      exact absurd h (by decide)
  · rcases h' with ⟨v, hv, rfl, rfl⟩ | ⟨h, rfl, rfl⟩ | ⟨_, rfl, rfl⟩
    · obtain ⟨_, h, _⟩ := hv; cases h
    · injection h with h
      exact absurd h (by decide)
    · exact ⟨rfl, rfl⟩

theorem iters_row {o : Option Json} {n : Text} (h : RowOk (n, false, json2maxIterations) o) {a : BitVec 8} {b : BitVec 32} :
    ItersSay o a b ↔ flagsOf (o.bind json2maxIterations) = a ∧ itersOf (o.bind json2maxIterations) = b := by
  rcases rowOk_false.1 h with rfl | ⟨j, v, rfl, hv⟩
  · exact ⟨fun h => ⟨h.1.symm, h.2.symm⟩, fun h => ⟨h.1.symm, h.2.symm⟩⟩
  · rw [Option.bind_some, hv]
    obtain ⟨f, m, hs, rfl⟩ := iters_says.1 hv
    dsimp only [flagsOf, itersOf]
    constructor
    · intro h; exact itersSay_inj hs h
    · rintro ⟨rfl, rfl⟩; exact hs

theorem int_of_uint {n : Json.Num} {v : Nat} (h : n.uint = some v) (hv : v < 2147483647) : n.int = v := by
  have key : ∀ v, n.upTo 4294967295 = some v → v < 2147483647 → n.upTo 2147483647 = some v := by
    intro v h hv
    unfold Json.Num.upTo at h ⊢
    by_cases he : 0 ≤ n.exp
    · rw [if_pos he] at h ⊢
      split at h
      · injection h with h
        rw [if_pos (by omega), h]
      · cases h
    · rw [if_neg he] at h ⊢
      split at h
      · injection h with h
        have hpos : 0 < 10 ^ (-n.exp).toNat := Nat.pow_pos (by omega)
        have : n.mant < 2147483647 * 10 ^ (-n.exp).toNat := by
          rw [← Nat.div_lt_iff_lt_mul hpos, h]; exact hv
        rw [if_pos (Nat.le_of_lt this), h]
      · cases h
  unfold Json.Num.uint at h
  unfold Json.Num.int
  by_cases hn : n.neg = true
  · rw [if_pos hn]
    rw [hn, Bool.true_and] at h
    split at h
    · cases h
    · rename_i hm
      have hm : n.mant = 0 := by simpa using hm
      have hz : ∀ m, n.upTo m = some 0 := by
        intro m
        unfold Json.Num.upTo
        rw [hm, Nat.zero_mul, Nat.zero_div]
        split
        · rw [if_pos (Nat.zero_le _)]
        · rw [if_pos (Nat.zero_le _)]
      rw [hz] at h ⊢
      injection h with h
      subst h
      rfl
  · rw [if_neg hn]
    rw [Bool.not_eq_true] at hn
    rw [hn, Bool.false_and, if_neg Bool.false_ne_true] at h
    rw [key v h hv]

theorem mark_row {o : Option Json} {n : Text} (h : RowOk (n, false, json2mark) o) (hs : MarkSmall o) {m : BitVec 32} :
    MarkSays o m ↔ markOf (o.bind json2mark) = m := by
  unfold MarkSays
  rcases rowOk_false.1 h with rfl | ⟨j, v, rfl, hv⟩
  · exact ⟨fun h => h.symm, fun h => h.symm⟩
  · rw [Option.bind_some, hv]
    obtain ⟨k, u, rfl, hu, rfl⟩ := mark_says.1 hv
    dsimp only [markOf]
    unfold MarkSmall at hs
    dsimp only at hs
    have hk : k.uint = some u := by
      obtain ⟨k', hk, hk', _⟩ := hu
      injection hk with hk
      subst hk
      exact hk'
    have hi : BitVec.ofInt 32 k.int = BitVec.ofNat 32 u := by
      rw [int_of_uint hk (hs u hk)]
      exact BitVec.ofInt_natCast 32 u
    rw [hi]
    constructor
    · rintro ⟨w, hw, rfl⟩; rw [isUint_inj hu hw]
    · rintro rfl; exact ⟨u, hu, rfl⟩

/-- The mark of this entry is small. -/
def SmallMark (j : Json) : Prop := ∀ l, j = .obj l → MarkSmall (member l "mark".toList)

/-- Pool4 entries. -/
theorem pool4Entry_ok {i : Inet} {j : Json} {e : WPool4} (hs : SmallMark j) : pool4Entry i j = .ok e ↔ Pool4Says i j e := by
  rw [pool4Entry_eq, built_ok]
  unfold Pool4Says
  constructor
  · rintro ⟨s, hs', hf⟩
    obtain ⟨l, rfl, ht, hrow, rfl⟩ := (object_fields (pool4Rows_distinct i)).1 hs'
    have r0 := hrow (_, _, _) (.head _)
    obtain ⟨jp, vp, hmp, hvp⟩ := rowOk_true.1 (hrow (_, _, _) (.tail _ (.head _)))
    obtain ⟨j4, v4, hm4, hv4⟩ := rowOk_true.1 (hrow (_, _, _) (.tail _ (.tail _ (.head _))))
    have r3 := hrow (_, _, _) (.tail _ (.tail _ (.tail _ (.head _))))
    have r4 := hrow (_, _, _) (.tail _ (.tail _ (.tail _ (.tail _ (.head _)))))
    obtain ⟨s4, p4, rfl, h4, rfl⟩ := prefix4_says.1 hv4
    obtain ⟨pr, hp, rfl⟩ := proto_says.1 hvp
    obtain ⟨e0, e1, e2, e3, e4⟩ := pool4_vals i l
    unfold pool4Of at hf
    rw [e0, e1, e2, e3, e4, hmp, hm4, Option.bind_some, Option.bind_some, hvp, hv4] at hf
    dsimp only at hf
    injection hf with hf
    subst hf
    exact ⟨l, jp, s4, rfl, ht, (mark_row r0 (hs l rfl)).2 rfl, hmp, hp, hm4, h4, (ports_row r3).2 ⟨rfl, rfl⟩,
      (iters_row r4).2 ⟨rfl, rfl⟩⟩
  · rintro ⟨l, jp, s4, rfl, ht, hmark, hmp, hp, hm4, h4, hports, hiters⟩
    have hv4 := prefix4_says.2 ⟨s4, _, rfl, h4, rfl⟩
    have hvp := proto_says.2 ⟨_, hp, rfl⟩
    have r0 : RowOk ("mark".toList, false, json2mark) (member l "mark".toList) := by
      rw [rowOk_false]
      unfold MarkSays at hmark
      cases ho : member l "mark".toList with
      | none => exact Or.inl rfl
      | some j =>
        rw [ho] at hmark
        obtain ⟨v, hv, _⟩ := hmark
        obtain ⟨n, rfl, hv'⟩ := hv
        exact Or.inr ⟨_, _, rfl, mark_says.2 ⟨n, v, rfl, ⟨n, rfl, hv'⟩, rfl⟩⟩
    have r3 : RowOk ("port range".toList, false, json2portRange) (member l "port range".toList) := by
      rw [rowOk_false]
      unfold PortsSay at hports
      cases ho : member l "port range".toList with
      | none => exact Or.inl rfl
      | some j =>
        rw [ho] at hports
        obtain ⟨s, rfl, hs⟩ := hports
        exact Or.inr ⟨_, _, rfl, ports_says.2 ⟨s, _, _, rfl, hs, rfl⟩⟩
    have r4 : RowOk ("max-iterations".toList, false, json2maxIterations) (member l "max-iterations".toList) := by
      rw [rowOk_false]
      cases ho : member l "max-iterations".toList with
      | none => exact Or.inl rfl
      | some j =>
        rw [ho] at hiters
        exact Or.inr ⟨_, _, rfl, iters_says.2 ⟨_, _, hiters, rfl⟩⟩
    refine ⟨values (pool4Rows i) l, (object_fields (pool4Rows_distinct i)).2 ⟨l, rfl, ht, ?_, rfl⟩, ?_⟩
    · intro r hr
      unfold pool4Rows at hr
      rcases List.mem_cons.1 hr with rfl | hr
      · exact r0
      rcases List.mem_cons.1 hr with rfl | hr
      · exact rowOk_true.2 ⟨_, _, hmp, hvp⟩
      rcases List.mem_cons.1 hr with rfl | hr
      · exact rowOk_true.2 ⟨_, _, hm4, hv4⟩
      rcases List.mem_cons.1 hr with rfl | hr
      · exact r3
      rcases List.mem_cons.1 hr with rfl | hr
      · exact r4
      · cases hr
    · obtain ⟨e0, e1, e2, e3, e4⟩ := pool4_vals i l
      unfold pool4Of
      rw [e0, e1, e2, e3, e4, hmp, hm4, Option.bind_some, Option.bind_some, hvp, hv4]
      dsimp only
      rw [(mark_row r0 (hs l rfl)).1 hmark, ((ports_row r3).1 hports).1, ((ports_row r3).1 hports).2, ((iters_row r4).1 hiters).1,
        ((iters_row r4).1 hiters).2]

end Jool.File
