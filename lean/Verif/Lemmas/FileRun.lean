import Verif.Lemmas.FileGlobal
/-
The two passes over a configuration file.
-/
namespace Jool.File
open Jool.Nla Jool.NlAttr
open Jool.JooldMsg (Byte)
open Jool.Text (Text Inet caseEq GType GVal)
open Jool.Json (Json)

/-! ### Lists -/

/-- What is known of a kind of list. -/
structure Kind (c : Ctx) (ty : Nat) {α : Type} (parse : Json → Got α) (w : α → Writer) (f : α → Attr) : Prop where
  writes : ∀ a, Writes c.cap (w a) (f a)
  safe : ∀ j u, parse j ≠ .ub u

theorem handleArray_eq {c : Ctx} {name : Text} {ty : Nat} {α : Type} {parse : Json → Got α} {w : α → Writer} {f : α → Attr}
    (k : Kind c ty parse w f) {hd : List Byte} (hh : Req.uHdr c.xt (some (bytes name)) c.flags = some hd) (j : Json) (log : List Msg) :
    handleArray c name ty parse w j log = match j with | .arr l => arr c hd ty parse f l [] log | _ => (log, .no) := by
  unfold handleArray
  rw [hh]
  cases j with
  | arr l => exact arrayLoop_eq c hd ty parse k.writes l [] log (fun h => absurd rfl h)
  | _ => rfl

theorem handleArray_ran {c : Ctx} {name : Text} {ty : Nat} {α : Type} {parse : Json → Got α} {w : α → Writer} {f : α → Attr}
    (k : Kind c ty parse w f) {hd : List Byte} (hh : Req.uHdr c.xt (some (bytes name)) c.flags = some hd) (j : Json) (log : List Msg) :
    Ran c (IsList c.cap hd ty f) log (handleArray c name ty parse w j log).1 (handleArray c name ty parse w j log).2 := by
  rw [handleArray_eq k hh]
  cases j with
  | arr l => exact arr_ran c hd ty parse f l [] log (fun h => absurd rfl h)
  | _ => exact Ran.refl ..

theorem handleArray_ok {c : Ctx} {name : Text} {ty : Nat} {α : Type} {parse : Json → Got α} {w : α → Writer} {f : α → Attr}
    (k : Kind c ty parse w f) {hd : List Byte} (hh : Req.uHdr c.xt (some (bytes name)) c.flags = some hd) {j : Json} {log log' : List Msg}
    (h : handleArray c name ty parse w j log = (log', .ok)) :
    ∃ es msgs, ListSays (fun j e => parse j = .ok e) j es ∧ log' = log ++ msgs ∧ Carries c.cap hd ty f es msgs := by
  rw [handleArray_eq k hh] at h
  cases j with
  | arr l =>
    obtain ⟨es, msgs, h1, h2, h3⟩ := arr_ok c hd ty parse f l [] log log' (fun h => absurd rfl h) h
    exact ⟨es, msgs, ⟨l, rfl, h1⟩, h2, h3⟩
  | _ => injection h with _ h; cases h

theorem handleArray_complete {c : Ctx} {name : Text} {ty : Nat} {α : Type} {parse : Json → Got α} {w : α → Writer} {f : α → Attr}
    (k : Kind c ty parse w f) {hd : List Byte} (hh : Req.uHdr c.xt (some (bytes name)) c.flags = some hd) (hc : 4 ≤ c.cap)
    (hroom : ∀ a, size f [a] ≤ c.cap) {j : Json} {es : List α} (h : ListSays (fun j e => parse j = .ok e) j es) (log : List Msg) :
    (handleArray c name ty parse w j log).2 = .ok ∨ Refused c (handleArray c name ty parse w j log).1 := by
  rw [handleArray_eq k hh]
  obtain ⟨l, rfl, h⟩ := h
  exact arr_complete c hd ty parse f hc hroom h [] log

theorem handleArray_safe {c : Ctx} {name : Text} {ty : Nat} {α : Type} {parse : Json → Got α} {w : α → Writer}
    {f : α → Attr} (k : Kind c ty parse w f) (j : Json) (log : List Msg) (u : UB) : (handleArray c name ty parse w j log).2 ≠ .ub u := by
  cases hh : Req.uHdr c.xt (some (bytes name)) c.flags with
  | some hd =>
    rw [handleArray_eq k hh]
    cases j with
    | arr l => exact arr_safe c hd ty parse f k.safe l [] log u
    | _ => intro h; cases h
  | none =>
    unfold handleArray
    rw [hh]
    cases j with
    | arr l => dsimp only; split <;> intro h <;> cases h
    | _ => intro h; cases h

theorem kind_eam (c : Ctx) : Kind c EAMT (eamEntry c.i) (fun e => uPutEam c.cap ENTRY (some e.p6) (some e.p4)) (aEam ENTRY) :=
  ⟨fun e => w_uEam _ _ e, eamEntry_safe c.i⟩
theorem kind_deny (c : Ctx) : Kind c DENY (denyEntry c.i) (fun p => putPrefix4 c.cap ENTRY (some p)) (aPrefix4 ENTRY) :=
  ⟨fun e => w_prefix4 _ _ e, denyEntry_safe c.i⟩
theorem kind_pool4 (c : Ctx) : Kind c POOL4 (pool4Entry c.i) (fun e => uPutPool4 c.cap ENTRY e) (aPool4 ENTRY) :=
  ⟨fun e => w_uPool4 _ _ e, pool4Entry_safe c.i⟩
theorem kind_bib (c : Ctx) :
    Kind c BIB (bibEntry c.i) (fun e => uPutBib c.cap ENTRY (some e.a6) (some e.a4) e.proto e.static) (aBib ENTRY) :=
  ⟨fun e => w_uBib _ _ e, bibEntry_safe c.i⟩

theorem size_one {α : Type} (f : α → Attr) (a : α) : size f [a] = 4 + (enc (f a)).length := by
  unfold size
  rw [List.map_cons, List.map_nil, List.flatMap_cons, List.flatMap_nil, List.append_nil]

/-! ### Parts -/

/-- The messages of a part. -/
inductive SectMsgs (c : Ctx) (hd : List Byte) : Sect → List Msg → Prop
  | globals {l} : 4 + ((setAttrs l).flatMap enc).length ≤ c.cap → SectMsgs c hd (.globals l) [hd ++ globalsBody l]
  | eamt {l msgs} : Carries c.cap hd EAMT (aEam ENTRY) l msgs → SectMsgs c hd (.eamt l) msgs
  | deny {l msgs} : Carries c.cap hd DENY (aPrefix4 ENTRY) l msgs → SectMsgs c hd (.deny l) msgs
  | pool4 {l msgs} : Carries c.cap hd POOL4 (aPool4 ENTRY) l msgs → SectMsgs c hd (.pool4 l) msgs
  | bib {l msgs} : Carries c.cap hd BIB (aBib ENTRY) l msgs → SectMsgs c hd (.bib l) msgs

/-- The messages of all parts. -/
inductive SectsMsgs (c : Ctx) (hd : List Byte) : List Sect → List Msg → Prop
  | nil : SectsMsgs c hd [] []
  | cons {s ss m ms} : SectMsgs c hd s m → SectsMsgs c hd ss ms → SectsMsgs c hd (s :: ss) (m ++ ms)

/-- A message of a part. -/
def IsPart (c : Ctx) (hd : List Byte) (m : Msg) : Prop :=
  IsGlobals c.cap hd m ∨ IsList c.cap hd EAMT (aEam ENTRY) m ∨ IsList c.cap hd DENY (aPrefix4 ENTRY) m
    ∨ IsList c.cap hd POOL4 (aPool4 ENTRY) m ∨ IsList c.cap hd BIB (aBib ENTRY) m

/-- The table of the second pass. -/
def rootMeta (c : Ctx) (name : Text) : List (Meta (List Msg)) := if c.xt = 1 then siitMeta c name else nat64Meta c name

theorem rootMeta_names (c : Ctx) (name : Text) : (rootMeta c name).map (·.name) = rootTags c.xt := by
  unfold rootMeta rootTags
  split <;> rfl

theorem rootMeta_distinct (c : Ctx) (name : Text) : Distinct (rootMeta c name) := by
  have : List.Pairwise (fun a b => caseEq a b = false) ((rootMeta c name).map (·.name)) := by
    rw [rootMeta_names]
    unfold rootTags
    split <;> decide
  exact List.pairwise_map.1 this

/-- Rows are safe. -/
theorem row_safe (c : Ctx) (name : Text) {m : Meta (List Msg)} (hm : m ∈ rootMeta c name) (j : Json) (log : List Msg) (u : UB) :
    (m.run j log).2 ≠ .ub u := by
  unfold rootMeta at hm
  split at hm
  · simp only [siitMeta, List.mem_cons, List.not_mem_nil, or_false] at hm
    rcases hm with rfl | rfl | rfl | rfl | rfl | rfl
    · intro h; cases h
    · intro h; cases h
    · exact handleGlobal_safe _ _ _ _ u
    · exact handleArray_safe (kind_eam c) j log u
    · exact handleArray_safe (kind_deny c) j log u
    · exact handleArray_safe (kind_deny c) j log u
  · simp only [nat64Meta, List.mem_cons, List.not_mem_nil, or_false] at hm
    rcases hm with rfl | rfl | rfl | rfl | rfl
    · intro h; cases h
    · intro h; cases h
    · exact handleGlobal_safe _ _ _ _ u
    · exact handleArray_safe (kind_pool4 c) j log u
    · exact handleArray_safe (kind_bib c) j log u

/-- Rows stop when something is refused. -/
theorem row_ran (c : Ctx) (name : Text) {hd : List Byte} (hh : Req.uHdr c.xt (some (bytes name)) c.flags = some hd)
    {m : Meta (List Msg)} (hm : m ∈ rootMeta c name) (j : Json) (log : List Msg) :
    Ran c (IsPart c hd) log (m.run j log).1 (m.run j log).2 := by
  have hg := (handleGlobal_ran c name hh j log).mono (Q := IsPart c hd) (fun _ h => Or.inl h)
  unfold rootMeta at hm
  split at hm
  · simp only [siitMeta, List.mem_cons, List.not_mem_nil, or_false] at hm
    rcases hm with rfl | rfl | rfl | rfl | rfl | rfl
    · exact Ran.refl ..
    · exact Ran.refl ..
    · exact hg
    · exact (handleArray_ran (kind_eam c) hh j log).mono (fun _ h => Or.inr (Or.inl h))
    · exact (handleArray_ran (kind_deny c) hh j log).mono (fun _ h => Or.inr (Or.inr (Or.inl h)))
    · exact (handleArray_ran (kind_deny c) hh j log).mono (fun _ h => Or.inr (Or.inr (Or.inl h)))
  · simp only [nat64Meta, List.mem_cons, List.not_mem_nil, or_false] at hm
    rcases hm with rfl | rfl | rfl | rfl | rfl
    · exact Ran.refl ..
    · exact Ran.refl ..
    · exact hg
    · exact (handleArray_ran (kind_pool4 c) hh j log).mono (fun _ h => Or.inr (Or.inr (Or.inr (Or.inl h))))
    · exact (handleArray_ran (kind_bib c) hh j log).mono (fun _ h => Or.inr (Or.inr (Or.inr (Or.inr h))))

/-- Name of the instance, or framework. -/
def isId (t : Text) : Bool := caseEq t "instance".toList || caseEq t "framework".toList

/-- The marks of this list of pool4 entries are small. -/
def SmallMarks (j : Json) : Prop := ∀ l, j = .arr l → ∀ k ∈ l, SmallMark k

theorem isId_eq {t n : Text} (h : caseEq t n = true) : isId t = isId n := by
  unfold isId
  rw [caseEq_trans h, caseEq_trans h]

theorem listSays_mono {α : Type} {R S : Json → α → Prop} {j : Json} {es : List α} (h : ListSays R j es)
    (hrs : ∀ l, j = .arr l → ∀ k ∈ l, ∀ e, R k e → S k e) : ListSays S j es := by
  obtain ⟨l, rfl, h⟩ := h
  exact ⟨l, rfl, each_mono h (hrs l rfl)⟩

/-- Decide about the name of a row. -/
local macro "dec" : tactic => `(tactic| first | decide | (dsimp only; decide))

/-- What a row made of a member. -/
theorem row_ok (c : Ctx) (hxt : c.xt = 1 ∨ c.xt = 2) (name : Text) {hd : List Byte}
    (hh : Req.uHdr c.xt (some (bytes name)) c.flags = some hd) {m : Meta (List Msg)} (hm : m ∈ rootMeta c name) {p : Text × Json}
    (hp : caseEq p.1 m.name = true) (hs : caseEq p.1 "pool4".toList = true → SmallMarks p.2) {log log' : List Msg}
    (h : m.run p.2 log = (log', .ok)) :
    isId p.1 = true ∧ log' = log ∨ isId p.1 = false ∧ ∃ s msgs, SectSays c.i c.xt p s ∧ SectMsgs c hd s msgs ∧ log' = log ++ msgs := by
  rw [isId_eq hp]
  have hg : handleGlobal c name p.2 log = (log', .ok) → caseEq p.1 "global".toList = true →
      ∃ s msgs, SectSays c.i c.xt p s ∧ SectMsgs c hd s msgs ∧ log' = log ++ msgs := by
    intro h hp
    obtain ⟨x, h1, h2, h3⟩ := handleGlobal_ok c name hh h
    exact ⟨_, _, .globals hp h1, .globals h3, h2⟩
  have hd' : denyTag c name p.2 log = (log', .ok) → c.xt = 1 →
      (caseEq p.1 "denylist4".toList = true ∨ caseEq p.1 "blacklist4".toList = true) →
      ∃ s msgs, SectSays c.i c.xt p s ∧ SectMsgs c hd s msgs ∧ log' = log ++ msgs := by
    intro h hx hp
    obtain ⟨es, msgs, h1, h2, h3⟩ := handleArray_ok (kind_deny c) hh h
    exact ⟨_, _, .deny hx hp (listSays_mono h1 (fun _ _ _ _ _ => denyEntry_ok.1)), .deny h3, h2⟩
  unfold rootMeta at hm
  split at hm
  · rename_i hx
    simp only [siitMeta, List.mem_cons, List.not_mem_nil, or_false] at hm
    rcases hm with rfl | rfl | rfl | rfl | rfl | rfl
    · exact Or.inl ⟨by dec, by injection h with h _; exact h.symm⟩
    · exact Or.inl ⟨by dec, by injection h with h _; exact h.symm⟩
    · exact Or.inr ⟨by dec, hg h hp⟩
    · refine Or.inr ⟨by dec, ?_⟩
      obtain ⟨es, msgs, h1, h2, h3⟩ := handleArray_ok (kind_eam c) hh h
      exact ⟨_, _, .eamt hx hp (listSays_mono h1 (fun _ _ _ _ _ => eamEntry_ok.1)), .eamt h3, h2⟩
    · exact Or.inr ⟨by dec, hd' h hx (Or.inr hp)⟩
    · exact Or.inr ⟨by dec, hd' h hx (Or.inl hp)⟩
  · rename_i hx
    have hx : c.xt = 2 := by rcases hxt with h | h; exact absurd h hx; exact h
    simp only [nat64Meta, List.mem_cons, List.not_mem_nil, or_false] at hm
    rcases hm with rfl | rfl | rfl | rfl | rfl
    · exact Or.inl ⟨by dec, by injection h with h _; exact h.symm⟩
    · exact Or.inl ⟨by dec, by injection h with h _; exact h.symm⟩
    · exact Or.inr ⟨by dec, hg h hp⟩
    · refine Or.inr ⟨by dec, ?_⟩
      obtain ⟨es, msgs, h1, h2, h3⟩ := handleArray_ok (kind_pool4 c) hh h
      exact ⟨_, _, .pool4 hx hp (listSays_mono h1 (fun l hl k hk e => (pool4Entry_ok (hs hp l hl k hk)).1)), .pool4 h3, h2⟩
    · refine Or.inr ⟨by dec, ?_⟩
      obtain ⟨es, msgs, h1, h2, h3⟩ := handleArray_ok (kind_bib c) hh h
      exact ⟨_, _, .bib hx hp (listSays_mono h1 (fun _ _ _ _ _ => bibEntry_ok.1)), .bib h3, h2⟩

/-- The room that a part needs. -/
def Fits (cap : Nat) : Sect → Prop
  | .globals l => 4 + setRoom l ≤ cap
  | _ => True

theorem two_names {t a b : Text} (h : caseEq t a = true) (h' : caseEq t b = true) : caseEq a b = true := by
  rw [← caseEq_trans h]; exact h'

/-- Members that say something are accepted, unless the kernel refuses. -/
theorem row_complete (c : Ctx) (hcap : 76 ≤ c.cap) (name : Text) {hd : List Byte}
    (hh : Req.uHdr c.xt (some (bytes name)) c.flags = some hd) {m : Meta (List Msg)} (hm : m ∈ rootMeta c name) {p : Text × Json}
    (hp : caseEq p.1 m.name = true) (hs : caseEq p.1 "pool4".toList = true → SmallMarks p.2)
    (h : isId p.1 = false → ∃ s, SectSays c.i c.xt p s ∧ Fits c.cap s) (log : List Msg) :
    (m.run p.2 log).2 = .ok ∨ Refused c (m.run p.2 log).1 := by
  have hid : isId p.1 = isId m.name := isId_eq hp
  have hdeny : isId p.1 = false → (caseEq p.1 "denylist4".toList = true ∨ caseEq p.1 "blacklist4".toList = true) →
      (denyTag c name p.2 log).2 = .ok ∨ Refused c (denyTag c name p.2 log).1 := by
    intro hid' hp'
    obtain ⟨s, hsay, hfit⟩ := h hid'
    cases hsay with
    | deny _ _ hl =>
      exact handleArray_complete (kind_deny c) hh (by omega) (fun a => by rw [size_one, len_prefix4]; omega)
        (listSays_mono hl (fun _ _ _ _ _ => denyEntry_ok.2)) log
    | globals hn _ | eamt _ hn _ | pool4 _ hn _ | bib _ hn _ =>
      rcases hp' with hp' | hp' <;> exact absurd (two_names hp' hn) (by dec)
  have hglob : isId p.1 = false → caseEq p.1 "global".toList = true →
      (handleGlobal c name p.2 log).2 = .ok ∨ Refused c (handleGlobal c name p.2 log).1 := by
    intro hid' hp'
    obtain ⟨s, hsay, hfit⟩ := h hid'
    cases hsay with
    | globals _ hg => exact handleGlobal_complete c name hh hg hfit log
    | eamt _ hn _ | pool4 _ hn _ | bib _ hn _ => exact absurd (two_names hp' hn) (by dec)
    | deny _ hn _ => rcases hn with hn | hn <;> exact absurd (two_names hp' hn) (by dec)
  unfold rootMeta at hm
  split at hm
  · simp only [siitMeta, List.mem_cons, List.not_mem_nil, or_false] at hm
    rcases hm with rfl | rfl | rfl | rfl | rfl | rfl
    · exact Or.inl rfl
    · exact Or.inl rfl
    · exact hglob (hid.trans (by dec)) hp
    · obtain ⟨s, hsay, hfit⟩ := h (hid.trans (by dec))
      cases hsay with
      | eamt _ _ hl =>
        exact handleArray_complete (kind_eam c) hh (by omega) (fun a => by rw [size_one, len_eam]; omega)
          (listSays_mono hl (fun _ _ _ _ _ => eamEntry_ok.2)) log
      | globals hn _ | pool4 _ hn _ | bib _ hn _ => exact absurd (two_names hp hn) (by dec)
      | deny _ hn _ => rcases hn with hn | hn <;> exact absurd (two_names hp hn) (by dec)
    · exact hdeny (hid.trans (by dec)) (Or.inr hp)
    · exact hdeny (hid.trans (by dec)) (Or.inl hp)
  · simp only [nat64Meta, List.mem_cons, List.not_mem_nil, or_false] at hm
    rcases hm with rfl | rfl | rfl | rfl | rfl
    · exact Or.inl rfl
    · exact Or.inl rfl
    · exact hglob (hid.trans (by dec)) hp
    · obtain ⟨s, hsay, hfit⟩ := h (hid.trans (by dec))
      cases hsay with
      | pool4 _ _ hl =>
        exact handleArray_complete (kind_pool4 c) hh (by omega) (fun a => by rw [size_one, len_pool4]; omega)
          (listSays_mono hl (fun l hl k hk e => (pool4Entry_ok (hs hp l hl k hk)).2)) log
      | globals hn _ | eamt _ hn _ | bib _ hn _ => exact absurd (two_names hp hn) (by dec)
      | deny _ hn _ => rcases hn with hn | hn <;> exact absurd (two_names hp hn) (by dec)
    · obtain ⟨s, hsay, hfit⟩ := h (hid.trans (by dec))
      cases hsay with
      | bib _ _ hl =>
        exact handleArray_complete (kind_bib c) hh (by omega) (fun a => by rw [size_one, len_bib]; omega)
          (listSays_mono hl (fun _ _ _ _ _ => bibEntry_ok.2)) log
      | globals hn _ | eamt _ hn _ | pool4 _ hn _ => exact absurd (two_names hp hn) (by dec)
      | deny _ hn _ => rcases hn with hn | hn <;> exact absurd (two_names hp hn) (by dec)

/-! ### The second pass -/

/-- The members that are neither name nor framework. -/
def others (l : List (Text × Json)) : List (Text × Json) := l.filter (fun p => !isId p.1)

theorem parts_eq (l : List (Text × Json)) : parts l = others (real l) := by
  unfold parts others isId
  congr 1
  funext p
  rw [Bool.not_or]

theorem others_cons (p : Text × Json) (l : List (Text × Json)) : others (p :: l) = if isId p.1 = true then others l else p :: others l := by
  unfold others
  rw [List.filter_cons]
  by_cases h : isId p.1 = true
  · rw [if_pos h, if_neg (by rw [h]; decide)]
  · rw [if_neg h]
    rw [Bool.not_eq_true] at h
    rw [if_pos (by rw [h]; rfl)]

theorem runAll_ok (c : Ctx) (hxt : c.xt = 1 ∨ c.xt = 2) (name : Text) {hd : List Byte}
    (hh : Req.uHdr c.xt (some (bytes name)) c.flags = some hd) :
    ∀ (l : List (Text × Json)) (log log' : List Msg), (∀ p ∈ l, caseEq p.1 "pool4".toList = true → SmallMarks p.2) →
    runAll (rootMeta c name) l log = (log', .ok) →
    ∃ x msgs, Each (SectSays c.i c.xt) (others l) x ∧ SectsMsgs c hd x msgs ∧ log' = log ++ msgs := by
  intro l
  induction l with
  | nil => intro log log' _ h; injection h with h; exact ⟨[], [], .nil, .nil, by rw [← h, List.append_nil]⟩
  | cons p l ih =>
    intro log log' hs h
    rw [runAll] at h
    cases hf : (rootMeta c name).find? (fun m => caseEq p.1 m.name) with
    | none => rw [hf] at h; injection h with _ h; cases h
    | some m =>
      rw [hf] at h
      dsimp only at h
      rcases hr : m.run p.2 log with ⟨log1, st⟩
      rw [hr] at h
      cases st with
      | ok =>
        dsimp only at h
        obtain ⟨x, msgs, h1, h2, h3⟩ := ih _ _ (fun q hq => hs q (.tail _ hq)) h
        rw [others_cons]
        rcases row_ok c hxt name hh (List.mem_of_find?_eq_some hf) (by simpa using List.find?_some hf) (hs p (.head _)) hr with
          ⟨hi, rfl⟩ | ⟨hi, s, m1, h4, h5, rfl⟩
        · rw [if_pos hi]; exact ⟨x, msgs, h1, h2, h3⟩
        · rw [if_neg (by rw [hi]; exact Bool.false_ne_true)]
          exact ⟨s :: x, m1 ++ msgs, .cons h4 h1, .cons h5 h2, by rw [h3, List.append_assoc]⟩
      | nomem | no | ub u => injection h with _ h; cases h

theorem runAll_complete (c : Ctx) (hcap : 76 ≤ c.cap) (name : Text) {hd : List Byte}
    (hh : Req.uHdr c.xt (some (bytes name)) c.flags = some hd) :
    ∀ (l : List (Text × Json)) (x : List Sect) (log : List Msg), (∀ p ∈ l, caseEq p.1 "pool4".toList = true → SmallMarks p.2) →
    (∀ p ∈ l, ∃ n ∈ rootTags c.xt, caseEq p.1 n = true) → Each (SectSays c.i c.xt) (others l) x → (∀ s ∈ x, Fits c.cap s) →
    (runAll (rootMeta c name) l log).2 = .ok ∨ Refused c (runAll (rootMeta c name) l log).1 := by
  intro l
  induction l with
  | nil => intro x log _ _ _ _; exact Or.inl rfl
  | cons p l ih =>
    intro x log hs hn he hfit
    rw [runAll]
    cases hf : (rootMeta c name).find? (fun m => caseEq p.1 m.name) with
    | none =>
      obtain ⟨n, hn1, hn2⟩ := hn p (.head _)
      rw [← rootMeta_names c name] at hn1
      obtain ⟨m, hm, rfl⟩ := List.mem_map.1 hn1
      exact absurd hn2 (List.find?_eq_none.1 hf m hm)
    | some m =>
      dsimp only
      rw [others_cons] at he
      have hrest : ∃ x', Each (SectSays c.i c.xt) (others l) x' ∧ (∀ s ∈ x', Fits c.cap s) := by
        by_cases hi : isId p.1 = true
        · rw [if_pos hi] at he; exact ⟨x, he, hfit⟩
        · rw [if_neg hi] at he
          cases he with
          | cons h1 h2 => exact ⟨_, h2, fun s hs => hfit s (.tail _ hs)⟩
      have hsect : isId p.1 = false → ∃ s, SectSays c.i c.xt p s ∧ Fits c.cap s := by
        intro hi
        rw [if_neg (by rw [hi]; exact Bool.false_ne_true)] at he
        cases he with
        | cons h1 h2 => exact ⟨_, h1, hfit _ (.head _)⟩
      have hrow := row_complete c hcap name hh (List.mem_of_find?_eq_some hf) (by simpa using List.find?_some hf) (hs p (.head _)) hsect log
      rcases hr : m.run p.2 log with ⟨log1, st⟩
      rw [hr] at hrow
      obtain ⟨x', hx1, hx2⟩ := hrest
      cases st with
      | ok => exact ih x' log1 (fun q hq => hs q (.tail _ hq)) (fun q hq => hn q (.tail _ hq)) hx1 hx2
      | nomem | no | ub u => exact hrow

/-- All the lists of pool4 entries have small marks. -/
def MarksSmall (j : Json) : Prop := ∀ l, j = .obj l → ∀ p ∈ real l, caseEq p.1 "pool4".toList = true → SmallMarks p.2

theorem root_ok (c : Ctx) (hxt : c.xt = 1 ∨ c.xt = 2) (name : Text) {hd : List Byte}
    (hh : Req.uHdr c.xt (some (bytes name)) c.flags = some hd) {j : Json} (hs : MarksSmall j) {log log' : List Msg}
    (h : handleObject j (rootMeta c name) log = (log', .ok)) :
    ∃ l x msgs, j = .obj l ∧ Tagged (rootTags c.xt) l ∧ (member l "instance".toList).isSome = true
      ∧ (member l "framework".toList).isSome = true ∧ Each (SectSays c.i c.xt) (parts l) x ∧ SectsMsgs c hd x msgs
      ∧ log' = log ++ msgs := by
  obtain ⟨l, rfl, ht, hm, hr⟩ := (handleObject_ok (rootMeta_distinct c name)).1 h
  obtain ⟨x, msgs, h1, h2, h3⟩ := runAll_ok c hxt name hh _ _ _ (hs l rfl) hr
  rw [rootMeta_names] at ht
  rw [← parts_eq] at h1
  have hi : ∃ m ∈ rootMeta c name, m.name = "instance".toList ∧ m.mandatory = true := by
    unfold rootMeta; split
    · exact ⟨_, .head _, rfl, rfl⟩
    · exact ⟨_, .head _, rfl, rfl⟩
  have hf : ∃ m ∈ rootMeta c name, m.name = "framework".toList ∧ m.mandatory = true := by
    unfold rootMeta; split
    · exact ⟨_, .tail _ (.head _), rfl, rfl⟩
    · exact ⟨_, .tail _ (.head _), rfl, rfl⟩
  obtain ⟨mi, hi1, hi2, hi3⟩ := hi
  obtain ⟨mf, hf1, hf2, hf3⟩ := hf
  exact ⟨l, x, msgs, rfl, ht, hi2 ▸ hm mi hi1 hi3, hf2 ▸ hm mf hf1 hf3, h1, h2, h3⟩

theorem root_complete (c : Ctx) (hcap : 76 ≤ c.cap) (name : Text) {hd : List Byte}
    (hh : Req.uHdr c.xt (some (bytes name)) c.flags = some hd) {l : List (Text × Json)} (hs : MarksSmall (.obj l))
    (ht : Tagged (rootTags c.xt) l) (hi : (member l "instance".toList).isSome = true) (hf : (member l "framework".toList).isSome = true)
    {x : List Sect} (hx : Each (SectSays c.i c.xt) (parts l) x) (hfit : ∀ s ∈ x, Fits c.cap s) (log : List Msg) :
    (handleObject (.obj l) (rootMeta c name) log).2 = .ok ∨ Refused c (handleObject (.obj l) (rootMeta c name) log).1 := by
  rw [handleObject_eq (rootMeta_distinct c name) (by rw [rootMeta_names]; exact ht)]
  · rw [parts_eq] at hx
    exact runAll_complete c hcap name hh _ x log (hs l rfl) ht.1 hx hfit
  · intro m hm hmand
    unfold rootMeta at hm
    split at hm
    · simp only [siitMeta, List.mem_cons, List.not_mem_nil, or_false] at hm
      rcases hm with rfl | rfl | rfl | rfl | rfl | rfl
      · exact hi
      · exact hf
      all_goals cases hmand
    · simp only [nat64Meta, List.mem_cons, List.not_mem_nil, or_false] at hm
      rcases hm with rfl | rfl | rfl | rfl | rfl
      · exact hi
      · exact hf
      all_goals cases hmand

theorem root_ran (c : Ctx) (name : Text) {hd : List Byte} (hh : Req.uHdr c.xt (some (bytes name)) c.flags = some hd) (j : Json)
    (log : List Msg) :
    Ran c (IsPart c hd) log (handleObject j (rootMeta c name) log).1 (handleObject j (rootMeta c name) log).2 := by
  apply handleObject_rel (fun a b st => Ran c (IsPart c hd) a b st)
  · intro s; exact Ran.refl ..
  · intro _ _ h; exact h.no _
  · intro _ _ _ _ h h'; exact h.trans h'
  · intro m hm j s; exact row_ran c name hh hm j s

theorem root_safe (c : Ctx) (name : Text) (j : Json) (log : List Msg) (u : UB) : (handleObject j (rootMeta c name) log).2 ≠ .ub u := by
  apply handleObject_rel (fun _ _ st => st ≠ .ub u)
  · intro s h; cases h
  · intro _ _ _ h; cases h
  · intro _ _ _ _ _ h; exact h
  · intro m hm j s; exact row_safe c name hm j s u

end Jool.File
