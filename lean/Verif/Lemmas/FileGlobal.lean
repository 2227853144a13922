import Verif.Lemmas.FileMsg
/-
The settings of a configuration file, and the message that carries them.
-/
namespace Jool.File
open Jool.Nla Jool.NlAttr
open Jool.JooldMsg (Byte)
open Jool.Text (Text Inet caseEq GType GVal)
open Jool.Json (Json)

variable {σ : Type}

theorem runAll_cons_some {ms : List (Meta σ)} {p : Text × Json} {ps : List (Text × Json)} {s : σ} {m : Meta σ}
    (h : ms.find? (fun m => caseEq p.1 m.name) = some m) :
    runAll ms (p :: ps) s = match m.run p.2 s with | (s, .ok) => runAll ms ps s | r => r := by
  rw [runAll, h]
  rfl

/-- Objects whose tags are right are handled member by member. -/
theorem handleObject_eq {ms : List (Meta σ)} (hd : Distinct ms) {l : List (Text × Json)} (ht : Tagged (ms.map (·.name)) l)
    (hm : ∀ m ∈ ms, m.mandatory = true → (member l m.name).isSome = true) (s : σ) :
    handleObject (.obj l) ms s = runAll ms (real l) s := by
  rcases hr : runAll ms (real l) s with ⟨s', st⟩
  have hch : ∀ (l : List (Text × Json)) (F : Text → Bool) (_ : Caseless F) (_ : Once (real l)) (_ : ∀ p ∈ real l, F p.1 = false) (s : σ),
      (runAll ms (real l) s).2 ≠ .ok → (children l (flagged F ms) s).2 = runAll ms (real l) s := by
    intro l
    induction l with
    | nil => intro F _ _ _ s h; exact absurd rfl h
    | cons p l ih =>
      intro F hF ho hf s hne
      rw [real_cons] at ho hf hne ⊢
      rw [children, handleChild]
      by_cases hc : caseEq p.1 "comment".toList = true
      · rw [if_pos hc] at ho hf hne ⊢
        rw [if_pos hc]
        exact ih F hF ho hf s hne
      · rw [if_neg hc] at ho hf hne ⊢
        rw [if_neg hc, findTag_eq _ _ hF hd, hf p (.head _)]
        cases hfind : ms.find? (fun m => caseEq p.1 m.name) with
        | none => rw [runAll, hfind]
        | some m =>
          rw [runAll_cons_some hfind] at hne ⊢
          dsimp only [Bool.false_eq_true, if_false]
          rcases hrun : m.run p.2 s with ⟨s1, st1⟩
          rw [hrun] at hne
          rw [if_neg Bool.false_ne_true]
          unfold Once at ho
          rw [List.pairwise_cons] at ho
          cases st1 with
          | ok =>
            exact ih _ (hF.also p.1) ho.2 (by
              intro q hq
              unfold also
              rw [hf q (.tail _ hq), ho.1 q hq]; rfl) _ hne
          | _ => rfl
  by_cases hok : st = .ok
  · subst hok
    exact (handleObject_ok hd).2 ⟨l, rfl, ht, hm, hr⟩
  · have := hch l (fun _ => false) (fun _ _ _ => rfl) ht.2 (fun _ _ => rfl) s (by rw [hr]; exact hok)
    unfold handleObject
    have hflag : ms.map (fun m => (m, false)) = flagged (fun _ => false) ms := rfl
    rw [hflag]
    rcases hc : children l (flagged (fun _ => false) ms) s with ⟨fs, s2, st2⟩
    rw [hc, hr] at this
    injection this with h1 h2
    subst h1 h2
    cases st2 with
    | ok => cases hok rfl
    | _ => dsimp only; rw [hc]

/-! ### Values -/

theorem mapM_says {α β : Type} {f : α → Option β} {l : List α} : ∀ {ks : List β}, l.mapM f = some ks ↔ Each (fun j k => f j = some k) l ks := by
  induction l with
  | nil =>
    intro ks
    rw [List.mapM_nil]
    constructor
    · intro h; injection h with h; subst h; exact .nil
    · intro h; cases h; rfl
  | cons a l ih =>
    intro ks
    rw [List.mapM_cons]
    constructor
    · intro h
      cases hf : f a with
      | none => rw [hf] at h; cases h
      | some b =>
        rw [hf] at h
        cases hl : l.mapM f with
        | none => rw [hl] at h; cases h
        | some bs =>
          rw [hl] at h
          injection h with h
          subst h
          exact .cons hf (ih.1 hl)
    · intro h
      cases h with
      | cons h1 h2 => rw [h1, ih.2 h2]; rfl

theorem each_map {α β γ : Type} {R : α → β → Prop} {f : β → γ} {as : List α} {cs : List γ} :
    Each (fun a c => ∃ b, R a b ∧ c = f b) as cs ↔ ∃ bs, Each R as bs ∧ cs = bs.map f := by
  constructor
  · intro h
    induction h with
    | nil => exact ⟨[], .nil, rfl⟩
    | cons h _ ih =>
      obtain ⟨b, hb, rfl⟩ := h
      obtain ⟨bs, hbs, rfl⟩ := ih
      exact ⟨b :: bs, .cons hb hbs, rfl⟩
  · rintro ⟨bs, h, rfl⟩
    induction h with
    | nil => exact .nil
    | cons h _ ih => exact .cons ⟨_, h, rfl⟩ ih

theorem jsonVal_says {i : Inet} {ty : GType} {j : Json} {v : GVal} : jsonVal i ty j = some v ↔ ValSays i ty j v := by
  have hstr : ∀ ty : GType, (match j with
      | .str s => Text.str2nl i s ty
      | .null => Text.str2nl i "null".toList ty
      | _ => none) = some v ↔ ∃ s, (j = .str s ∨ j = .null ∧ s = "null".toList) ∧ Text.str2nl i s ty = some v := by
    intro ty
    constructor
    · intro h
      cases j with
      | str s => exact ⟨s, Or.inl rfl, h⟩
      | null => exact ⟨_, Or.inr ⟨rfl, rfl⟩, h⟩
      | _ => cases h
    · rintro ⟨s, rfl | ⟨rfl, rfl⟩, h⟩ <;> exact h
  cases ty with
  | bool =>
    unfold jsonVal ValSays
    constructor
    · intro h
      cases j with
      | bool b => injection h with h; exact ⟨b, rfl, h.symm⟩
      | _ => cases h
    · rintro ⟨b, rfl, rfl⟩; rfl
  | u8 =>
    unfold jsonVal ValSays
    dsimp only
    rw [Option.map_eq_some_iff]
    constructor
    · rintro ⟨k, hk, rfl⟩; exact ⟨k, uint_says.1 hk, rfl⟩
    · rintro ⟨k, hk, rfl⟩; exact ⟨k, uint_says.2 hk, rfl⟩
  | u32 =>
    unfold jsonVal ValSays
    dsimp only
    rw [Option.map_eq_some_iff]
    constructor
    · rintro ⟨k, hk, rfl⟩; exact ⟨k, uint_says.1 hk, rfl⟩
    · rintro ⟨k, hk, rfl⟩; exact ⟨k, uint_says.2 hk, rfl⟩
  | plateaus =>
    unfold jsonVal ValSays
    have e : ∀ (l : List Json) (ks : List (BitVec 16)), l.mapM (fun k => (uint k 0 65535).map (BitVec.ofNat 16)) = some ks ↔
        ∃ ns, Each (fun j k => IsUint j 0 65535 k) l ns ∧ ks = ns.map (BitVec.ofNat 16) := by
      intro l ks
      rw [mapM_says, ← each_map]
      constructor
      · intro h
        refine each_mono h ?_
        intro a _ b hb
        obtain ⟨n, hn, rfl⟩ := Option.map_eq_some_iff.1 hb
        exact ⟨n, uint_says.1 hn, rfl⟩
      · intro h
        refine each_mono h ?_
        rintro a _ b ⟨n, hn, rfl⟩
        rw [uint_says.2 hn]; rfl
    dsimp only
    constructor
    · intro h
      cases j with
      | arr l =>
        dsimp only at h
        obtain ⟨ks, hk, rfl⟩ := Option.map_eq_some_iff.1 h
        obtain ⟨ns, h1, rfl⟩ := (e l ks).1 hk
        exact ⟨l, ns, rfl, h1, rfl⟩
      | _ => cases h
    · rintro ⟨l, ns, rfl, h1, rfl⟩
      dsimp only
      rw [(e l _).2 ⟨ns, h1, rfl⟩]; rfl
  | timeout => exact hstr .timeout
  | prefix6 => exact hstr .prefix6
  | prefix4 => exact hstr .prefix4
  | hairpin => exact hstr .hairpin

/-- A setting as an attribute. -/
def aVal (id : Nat) : GVal → Attr
  | .bool b => aU8 id (if b then 1 else 0)
  | .u8 n => aU8 id n
  | .u32 n => aU32 id n
  | .timeout n => aU32 id n
  | .plateaus l => aNest id (l.map (aU16 ENTRY))
  | .prefix6 (some p) => aPrefix6 id p
  | .prefix6 none => aNull id
  | .prefix4 (some p) => aPrefix4 id p
  | .prefix4 none => aNull id
  | .hairpin m => aU8 id m

/-- A list without elements. -/
def hollow : GVal → Bool
  | .plateaus [] => true
  | _ => false

/-- What arrives of a setting. -/
def valAttrs (id : Nat) (v : GVal) : List Attr := if hollow v then [] else [aVal id v]

/-- What arrives of the settings. -/
def setAttrs (x : List (Nat × GVal)) : List Attr := x.flatMap (fun y => valAttrs y.1 y.2)

theorem putVal_eq (cap id : Nat) (v : GVal) (skb : List Byte) :
    putVal cap id v skb = if skb.length + (enc (aVal id v)).length ≤ cap then some (skb ++ (valAttrs id v).flatMap enc) else none := by
  have one : ∀ {w : Writer} {a : Attr}, Writes cap w a →
      w skb = if skb.length + (enc a).length ≤ cap then some (skb ++ [a].flatMap enc) else none := by
    intro w a h
    rw [h skb, List.flatMap_cons, List.flatMap_nil, List.append_nil]
  cases v with
  | bool b => exact one (w_u8 _ _ _)
  | u8 n => exact one (w_u8 _ _ _)
  | u32 n => exact one (w_u32 _ _ _)
  | timeout n => exact one (w_u32 _ _ _)
  | hairpin n => exact one (w_u8 _ _ _)
  | prefix6 o => cases o with | some p => exact one (w_prefix6 _ _ _) | none => exact one (w_null6 _ _)
  | prefix4 o => cases o with | some p => exact one (w_prefix4 _ _ _) | none => exact one (w_null4 _ _)
  | plateaus l =>
    have hw : WritesAll cap (l.map (putU16 cap ENTRY)) (l.map (aU16 ENTRY)) := by
      induction l with
      | nil => exact .nil
      | cons a l ih => exact .cons (w_u16 _ _ _) ih
    have := w_nest (t := id) hw skb
    show uNest cap id (l.map (putU16 cap ENTRY)) skb = _
    unfold uNest
    rw [this]
    show _ = if skb.length + (enc (aNest id (l.map (aU16 ENTRY)))).length ≤ cap then _ else _
    split
    · rw [Option.map_some]
      congr 1
      rw [List.length_append]
      cases l with
      | nil =>
        rw [if_pos (by rw [List.map_nil, enc_aNest]; rfl)]
        exact (List.append_nil _).symm
      | cons a l =>
        rw [if_neg]
        · show _ = skb ++ [aNest id ((a :: l).map (aU16 ENTRY))].flatMap enc
          rw [List.flatMap_cons, List.flatMap_nil, List.append_nil]
        · rw [enc_aNest, List.map_cons, List.flatMap_cons, List.length_append, len_u16]
          omega
    · rfl

/-! ### The object -/

theorem settings_distinct (c : Ctx) : Distinct (globalMeta c) := by
  unfold Distinct
  have : List.Pairwise (fun a b => caseEq a b = false) ((globalMeta c).map (·.name)) := by
    show List.Pairwise _ (settings.map (·.1))
    decide +kernel
  exact List.pairwise_map.1 this

theorem globalMeta_names (c : Ctx) : (globalMeta c).map (·.name) = settings.map (·.1) := rfl

/-- The row of a setting. -/
def globalRow (c : Ctx) (g : Text × Nat × GType) : Meta (List Byte) := ⟨g.1, false, fun j out =>
    match jsonVal c.i g.2.2 j with
    | none => (out, .no)
    | some v => match putVal c.cap g.2.1 v out with | none => (out, .nomem) | some out => (out, .ok)⟩

theorem globalMeta_eq (c : Ctx) : globalMeta c = settings.map (globalRow c) := rfl

theorem find_global (c : Ctx) (tag : Text) :
    (globalMeta c).find? (fun m => caseEq tag m.name) = (settings.find? (fun g => caseEq tag g.1)).map (globalRow c) := by
  rw [globalMeta_eq, List.find?_map]
  rfl

/-- The table has the settings of the documentation. -/
theorem doc_iff {x : Text × Nat × GType} : x ∈ documented ↔ x ∈ settings := by
  have h1 : ∀ x ∈ documented, x ∈ settings := by decide +kernel
  have h2 : ∀ x ∈ settings, x ∈ documented := by decide +kernel
  exact ⟨h1 x, h2 x⟩

theorem doc_tagged {l : List (Text × Json)} : Tagged (documented.map (·.1)) l ↔ Tagged (settings.map (·.1)) l := by
  have h : ∀ p : Text × Json, (∃ n ∈ documented.map (·.1), caseEq p.1 n = true) ↔ ∃ n ∈ settings.map (·.1), caseEq p.1 n = true := by
    intro p
    constructor <;> rintro ⟨n, hn, hc⟩ <;> obtain ⟨x, hx, rfl⟩ := List.mem_map.1 hn
    · exact ⟨_, List.mem_map_of_mem (doc_iff.1 hx), hc⟩
    · exact ⟨_, List.mem_map_of_mem (doc_iff.2 hx), hc⟩
  unfold Tagged
  simp only [h]

theorem settings_unique {g h : Text × Nat × GType} (hg : g ∈ settings) (hh : h ∈ settings) {t : Text} (h1 : caseEq t g.1 = true)
    (h2 : caseEq t h.1 = true) : g = h := by
  have hp : settings.Pairwise (fun a b => caseEq a.1 b.1 = false) := by decide +kernel
  obtain ⟨a, ha, rfl⟩ := List.getElem_of_mem hg
  obtain ⟨b, hb, rfl⟩ := List.getElem_of_mem hh
  have hpw := List.pairwise_iff_getElem.1 hp
  have hab : caseEq settings[a].1 settings[b].1 = true := by rw [← caseEq_trans h1]; exact h2
  rcases Nat.lt_trichotomy a b with hlt | heq | hgt
  · rw [hpw a b ha hb hlt] at hab; cases hab
  · subst heq; rfl
  · rw [caseEq_symm, hpw b a hb ha hgt] at hab; cases hab

/-- The room that settings need while they are written. -/
def setRoom (x : List (Nat × GVal)) : Nat := (x.map (fun y => (enc (aVal y.1 y.2)).length)).sum

theorem valAttrs_len (id : Nat) (v : GVal) : ((valAttrs id v).flatMap enc).length ≤ (enc (aVal id v)).length := by
  unfold valAttrs
  split
  · exact Nat.zero_le _
  · rw [List.flatMap_cons, List.flatMap_nil, List.append_nil]

theorem setAttrs_cons (y : Nat × GVal) (x : List (Nat × GVal)) :
    (setAttrs (y :: x)).flatMap enc = (valAttrs y.1 y.2).flatMap enc ++ (setAttrs x).flatMap enc := by
  unfold setAttrs
  rw [List.flatMap_cons, List.flatMap_append]

theorem globals_ok (c : Ctx) : ∀ (l : List (Text × Json)) (out out' : List Byte), out.length ≤ c.cap →
    runAll (globalMeta c) l out = (out', .ok) →
    ∃ x, Each (SettingSays c.i) l x ∧ out' = out ++ (setAttrs x).flatMap enc ∧ out'.length ≤ c.cap := by
  intro l
  induction l with
  | nil => intro out out' hc h; injection h with h; exact ⟨[], .nil, by rw [← h]; exact (List.append_nil _).symm, h ▸ hc⟩
  | cons p l ih =>
    intro out out' hc h
    rw [runAll, find_global] at h
    cases hf : settings.find? (fun g => caseEq p.1 g.1) with
    | none => rw [hf] at h; injection h with _ h; cases h
    | some g =>
      rw [hf] at h
      dsimp only [Option.map, globalRow] at h
      cases hv : jsonVal c.i g.2.2 p.2 with
      | none => rw [hv] at h; injection h with _ h; cases h
      | some v =>
        rw [hv] at h
        dsimp only at h
        rw [putVal_eq] at h
        by_cases hroom : out.length + (enc (aVal g.2.1 v)).length ≤ c.cap
        · rw [if_pos hroom] at h
          dsimp only at h
          have hl := valAttrs_len g.2.1 v
          obtain ⟨x, h1, h2, h3⟩ := ih _ _ (by rw [List.length_append]; omega) h
          refine ⟨(g.2.1, v) :: x, .cons ⟨g.1, g.2.2, doc_iff.2 (List.mem_of_find?_eq_some hf), by simpa using List.find?_some hf, jsonVal_says.1 hv⟩ h1,
            ?_, h3⟩
          rw [h2, setAttrs_cons, List.append_assoc]
        · rw [if_neg hroom] at h; injection h with _ h; cases h

theorem globals_complete (c : Ctx) {l : List (Text × Json)} {x : List (Nat × GVal)} (h : Each (SettingSays c.i) l x) :
    ∀ out : List Byte, out.length + setRoom x ≤ c.cap → runAll (globalMeta c) l out = (out ++ (setAttrs x).flatMap enc, .ok) := by
  induction h with
  | nil => intro out _; rw [runAll]; exact congrArg (·, St.ok) (List.append_nil _).symm
  | @cons p y l x hp _ ih =>
    intro out hroom
    obtain ⟨n, ty, hmem, hc, hv⟩ := hp
    have hmem := doc_iff.1 hmem
    rw [runAll, find_global]
    have hf : settings.find? (fun g => caseEq p.1 g.1) = some (n, y.1, ty) := by
      cases hf : settings.find? (fun g => caseEq p.1 g.1) with
      | none => exact absurd hc (List.find?_eq_none.1 hf _ hmem)
      | some g =>
        rw [settings_unique (List.mem_of_find?_eq_some hf) hmem (by simpa using List.find?_some hf) hc]
    rw [hf]
    dsimp only [Option.map, globalRow]
    rw [jsonVal_says.2 hv]
    dsimp only
    have hl := valAttrs_len y.1 y.2
    unfold setRoom at hroom
    rw [List.map_cons, List.sum_cons] at hroom
    rw [putVal_eq, if_pos (by omega)]
    dsimp only
    rw [ih _ (by unfold setRoom; rw [List.length_append]; omega), setAttrs_cons, List.append_assoc]

/-! ### The message -/

/-- The attributes of the message. -/
def globalsBody (x : List (Nat × GVal)) : List Byte := if setAttrs x = [] then [] else enc (aNest GLOBALS (setAttrs x))

/-- A message with settings. -/
def IsGlobals (cap : Nat) (hd : List Byte) (m : Msg) : Prop := ∃ x, m = hd ++ globalsBody x ∧ 4 + ((setAttrs x).flatMap enc).length ≤ cap

theorem globalsObj_ok (c : Ctx) {j : Json} {out' : List Byte} (hc : 4 ≤ c.cap)
    (h : handleObject j (globalMeta c) (enc ⟨GLOBALS, true, []⟩) = (out', .ok)) :
    ∃ x, GlobalsSay c.i j x ∧ nestEnd GLOBALS out' = globalsBody x ∧ 4 + ((setAttrs x).flatMap enc).length ≤ c.cap := by
  obtain ⟨l, rfl, ht, _, hr⟩ := (handleObject_ok (settings_distinct c)).1 h
  obtain ⟨x, h1, rfl, h3⟩ := globals_ok c _ _ _ (by rw [start_len]; exact hc) hr
  rw [List.length_append, start_len] at h3
  exact ⟨x, ⟨l, rfl, doc_tagged.2 ht, h1⟩, nestEnd_eq .., h3⟩

theorem handleGlobal_ran (c : Ctx) (name : Text) {hd : List Byte} (hh : Req.uHdr c.xt (some (bytes name)) c.flags = some hd)
    (j : Json) (log : List Msg) : Ran c (IsGlobals c.cap hd) log (handleGlobal c name j log).1 (handleGlobal c name j log).2 := by
  unfold handleGlobal
  rw [hh]
  dsimp only
  unfold nestStart
  by_cases hc : 4 ≤ c.cap
  · rw [if_pos hc]
    dsimp only
    rcases hr : handleObject j (globalMeta c) (enc ⟨GLOBALS, true, []⟩) with ⟨out, st⟩
    cases st with
    | ok =>
      obtain ⟨x, _, h2, h3⟩ := globalsObj_ok c hc hr
      exact ran_send c ⟨x, by rw [h2], h3⟩ log
    | _ => exact Ran.refl ..
  · rw [if_neg hc]; exact Ran.refl ..

theorem handleGlobal_ok (c : Ctx) (name : Text) {hd : List Byte} (hh : Req.uHdr c.xt (some (bytes name)) c.flags = some hd)
    {j : Json} {log log' : List Msg} (h : handleGlobal c name j log = (log', .ok)) :
    ∃ x, GlobalsSay c.i j x ∧ log' = log ++ [hd ++ globalsBody x] ∧ 4 + ((setAttrs x).flatMap enc).length ≤ c.cap := by
  unfold handleGlobal at h
  rw [hh] at h
  dsimp only at h
  unfold nestStart at h
  by_cases hc : 4 ≤ c.cap
  · rw [if_pos hc] at h
    dsimp only at h
    rcases hr : handleObject j (globalMeta c) (enc ⟨GLOBALS, true, []⟩) with ⟨out, st⟩
    rw [hr] at h
    cases st with
    | ok =>
      obtain ⟨x, h1, h2, h3⟩ := globalsObj_ok c hc hr
      dsimp only at h
      rw [h2] at h
      injection h with h _
      exact ⟨x, h1, h.symm, h3⟩
    | _ => injection h with _ h; cases h
  · rw [if_neg hc] at h; injection h with _ h; cases h

theorem handleGlobal_complete (c : Ctx) (name : Text) {hd : List Byte} (hh : Req.uHdr c.xt (some (bytes name)) c.flags = some hd)
    {j : Json} {x : List (Nat × GVal)} (hs : GlobalsSay c.i j x) (hroom : 4 + setRoom x ≤ c.cap) (log : List Msg) :
    (handleGlobal c name j log).2 = .ok ∨ Refused c (handleGlobal c name j log).1 := by
  obtain ⟨l, rfl, ht, he⟩ := hs
  unfold handleGlobal
  rw [hh]
  dsimp only
  unfold nestStart
  rw [if_pos (by omega)]
  dsimp only
  have := handleObject_eq (settings_distinct c) (doc_tagged.1 ht) (by
    intro m hm hmand
    rw [globalMeta_eq] at hm
    obtain ⟨g, _, rfl⟩ := List.mem_map.1 hm
    cases hmand) (enc ⟨GLOBALS, true, []⟩)
  rw [this, globals_complete c he _ (by rw [start_len]; exact hroom)]
  dsimp only
  rcases send_cases c (hd ++ nestEnd GLOBALS (enc ⟨GLOBALS, true, []⟩ ++ (setAttrs x).flatMap enc)) log with ⟨hs, _⟩ | ⟨hs, hr⟩
  · rw [hs]; exact Or.inl rfl
  · rw [hs]; exact Or.inr hr

theorem handleGlobal_safe (c : Ctx) (name : Text) (j : Json) (log : List Msg) (u : UB) : (handleGlobal c name j log).2 ≠ .ub u := by
  unfold handleGlobal
  split
  · intro h; cases h
  · split
    · intro h; cases h
    · rename_i out _
      have := handleObject_rel (ms := globalMeta c) (fun _ _ st => st ≠ .ub u) (fun _ h => by cases h) (fun _ _ _ h => by cases h)
        (fun _ _ _ _ _ h => h) (by
          intro m hm j s
          rw [globalMeta_eq] at hm
          obtain ⟨g, _, rfl⟩ := List.mem_map.1 hm
          dsimp only [globalRow]
          split
          · intro h; cases h
          · split <;> intro h <;> cases h) j out
      have hsend : ∀ m, (send c m log).2 ≠ .ub u := by
        intro m
        rcases send_cases c m log with ⟨hs, _⟩ | ⟨hs, hr⟩ <;> rw [hs] <;> intro h <;> cases h
      split
      · exact hsend _
      · rename_i hr
        rw [hr] at this
        exact this

end Jool.File
