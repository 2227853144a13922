import Verif.Lemmas.FileEntry
import Verif.Lemmas.NlAttr
/-
The messages that carry a configuration file.
-/
namespace Jool.File
open Jool.Nla Jool.NlAttr
open Jool.JooldMsg (Byte)
open Jool.Text (Text Inet caseEq GType GVal)
open Jool.Json (Json)

/-! ### Conversations -/

/-- After `log`, all of these are accepted. -/
def Accepted (c : Ctx) : List Msg → List Msg → Prop
  | _, [] => True
  | log, m :: ms => c.kernel log m = true ∧ Accepted c (log ++ [m]) ms

theorem accepted_append {c : Ctx} {a b : List Msg} : ∀ {log : List Msg},
    Accepted c log (a ++ b) ↔ Accepted c log a ∧ Accepted c (log ++ a) b := by
  induction a with
  | nil => intro log; rw [List.nil_append, List.append_nil]; exact ⟨fun h => ⟨trivial, h⟩, fun h => h.2⟩
  | cons m a ih =>
    intro log
    rw [List.cons_append, Accepted, Accepted, ih, List.append_assoc, List.singleton_append, and_assoc]

theorem accepted_iff {c : Ctx} {msgs : List Msg} : ∀ {log : List Msg},
    Accepted c log msgs ↔ ∀ pre m post, msgs = pre ++ m :: post → c.kernel (log ++ pre) m = true := by
  induction msgs with
  | nil =>
    intro log
    refine ⟨?_, fun _ => trivial⟩
    intro _ pre m post h
    cases pre <;> cases h
  | cons x xs ih =>
    intro log
    rw [Accepted, ih]
    constructor
    · rintro ⟨h1, h2⟩ pre m post h
      cases pre with
      | nil => injection h with h _; subst h; rw [List.append_nil]; exact h1
      | cons y pre =>
        injection h with h3 h4
        subst h3
        have := h2 pre m post h4
        rw [List.append_assoc, List.singleton_append] at this
        exact this
    · intro h
      refine ⟨?_, ?_⟩
      · have := h [] x xs rfl
        rw [List.append_nil] at this
        exact this
      · intro pre m post hp
        have := h (x :: pre) m post (by rw [hp]; rfl)
        rw [List.append_assoc, List.singleton_append]
        exact this

/-- From `log` to `log'`, messages `P` were sent; only the last one may have been refused, and then the result is an error. -/
def Ran (c : Ctx) (P : Msg → Prop) (log log' : List Msg) (st : St) : Prop :=
  ∃ msgs, log' = log ++ msgs ∧ (∀ m ∈ msgs, P m) ∧ (st = .ok → Accepted c log msgs)
    ∧ ∃ acc rest, msgs = acc ++ rest ∧ rest.length ≤ 1 ∧ Accepted c log acc

theorem Ran.refl (c : Ctx) (P : Msg → Prop) (log : List Msg) (st : St) : Ran c P log log st :=
  ⟨[], (List.append_nil _).symm, (by intro m hm; cases hm), fun _ => trivial, [], [], rfl, by decide, trivial⟩

theorem Ran.no {c : Ctx} {P : Msg → Prop} {log log' : List Msg} (h : Ran c P log log' .ok) (st : St) : Ran c P log log' st := by
  obtain ⟨msgs, h1, h2, h3, h4⟩ := h
  exact ⟨msgs, h1, h2, fun _ => h3 rfl, h4⟩

theorem Ran.trans {c : Ctx} {P : Msg → Prop} {a b d : List Msg} {st : St} (h : Ran c P a b .ok) (h' : Ran c P b d st) :
    Ran c P a d st := by
  obtain ⟨m1, rfl, h2, h3, _⟩ := h
  obtain ⟨m2, rfl, k2, k3, acc, rest, rfl, kr, ka⟩ := h'
  refine ⟨m1 ++ (acc ++ rest), by rw [List.append_assoc], ?_, ?_, m1 ++ acc, rest, by rw [List.append_assoc], kr, ?_⟩
  · intro m hm
    rcases List.mem_append.1 hm with h | h
    · exact h2 m h
    · exact k2 m h
  · intro e; exact accepted_append.2 ⟨h3 rfl, k3 e⟩
  · exact accepted_append.2 ⟨h3 rfl, ka⟩

theorem Ran.mono {c : Ctx} {P Q : Msg → Prop} (hpq : ∀ m, P m → Q m) {a b : List Msg} {st : St} (h : Ran c P a b st) : Ran c Q a b st := by
  obtain ⟨m, h1, h2, h3⟩ := h
  exact ⟨m, h1, fun x hx => hpq x (h2 x hx), h3⟩

theorem ran_send (c : Ctx) {P : Msg → Prop} {m : Msg} (hm : P m) (log : List Msg) : Ran c P log (send c m log).1 (send c m log).2 := by
  refine ⟨[m], rfl, ?_, ?_, [], [m], rfl, Nat.le_refl _, trivial⟩
  · intro x hx; rw [List.mem_singleton.1 hx]; exact hm
  · intro h
    unfold send at h
    dsimp only at h
    split at h
    · rename_i hk; exact ⟨hk, trivial⟩
    · cases h

/-- The last message was refused. -/
def Refused (c : Ctx) (log' : List Msg) : Prop := ∃ pre m, log' = pre ++ [m] ∧ c.kernel pre m = false

theorem send_cases (c : Ctx) (m : Msg) (log : List Msg) :
    send c m log = (log ++ [m], .ok) ∧ c.kernel log m = true ∨ send c m log = (log ++ [m], .no) ∧ Refused c (log ++ [m]) := by
  unfold send
  cases hk : c.kernel log m with
  | true => left; exact ⟨rfl, rfl⟩
  | false => right; exact ⟨rfl, log, m, rfl, hk⟩

/-! ### Lists -/

theorem enc_nested (ty : Nat) (as : List Attr) :
    enc (aNest ty as) = le 2 (4 + (as.flatMap enc).length) ++ le 2 (ty + 2 ^ 15) ++ as.flatMap enc := by
  have hm := encs_mod as
  unfold enc aNest
  dsimp only
  rw [if_pos rfl]
  have : align (4 + (as.flatMap enc).length) - (4 + (as.flatMap enc).length) = 0 := by
    unfold align; omega
  rw [show (4 + (List.flatMap (fun a => le 2 (4 + a.data.length) ++ le 2 (a.ty + if a.nested = true then 2 ^ 15 else 0) ++ a.data
    ++ List.replicate (align (4 + a.data.length) - (4 + a.data.length)) 0#8) as).length) = 4 + (as.flatMap enc).length from rfl, this,
    List.replicate_zero, List.append_nil]
  rfl

theorem start_len (ty : Nat) : (enc ⟨ty, true, []⟩).length = 4 := by rw [enc_length]; simp [align]

theorem nestEnd_eq (ty : Nat) (as : List Attr) :
    nestEnd ty (enc ⟨ty, true, []⟩ ++ as.flatMap enc) = if as = [] then [] else enc (aNest ty as) := by
  unfold nestEnd
  rw [List.length_append, start_len]
  cases as with
  | nil => rfl
  | cons a as =>
    have hl : (enc a).length ≥ 4 := by rw [enc_length]; have := align_ge (4 + a.data.length); omega
    have : ((a :: as).flatMap enc).length ≥ 4 := by
      rw [List.flatMap_cons, List.length_append]; omega
    rw [if_neg (by omega), if_neg (by intro h; cases h), enc_nested]
    rw [List.drop_append_of_le_length (Nat.le_of_eq (start_len ty).symm), List.drop_of_length_le (Nat.le_of_eq (start_len ty)),
      List.nil_append]

/-- The size of a list of entries as an attribute. -/
def size {α : Type} (f : α → Attr) (es : List α) : Nat := 4 + ((es.map f).flatMap enc).length

/-- The message with these entries. -/
def listMsg {α : Type} (hd : List Byte) (ty : Nat) (f : α → Attr) (es : List α) : Msg := hd ++ enc (aNest ty (es.map f))

/-- `arrayLoop` in terms of the entries that wait. -/
def arr (c : Ctx) (hd : List Byte) (ty : Nat) {α : Type} (parse : Json → Got α) (f : α → Attr) :
    List Json → List α → List Msg → List Msg × St
  | [], es, log => if es.isEmpty then (log, .ok) else send c (listMsg hd ty f es) log
  | j :: js, es, log =>
    if c.cap < 4 then (log, .nomem)
    else
      match parse j with
      | .no => (log, .no)
      | .ub u => (log, .ub u)
      | .ok a =>
        if size f (es ++ [a]) ≤ c.cap then arr c hd ty parse f js (es ++ [a]) log
        else if es.isEmpty then (log, .nomem)
        else
          match send c (listMsg hd ty f es) log with
          | (log, .ok) => if size f [a] ≤ c.cap then arr c hd ty parse f js [a] log else (log, .nomem)
          | r => r

/-- The entries that wait, as `handle_array` has them. -/
def cur {α : Type} (ty : Nat) (f : α → Attr) (es : List α) : Option (List Byte × Nat) :=
  if es.isEmpty then none else some (enc ⟨ty, true, []⟩ ++ (es.map f).flatMap enc, es.length)

theorem arrayLoop_eq (c : Ctx) (hd : List Byte) (ty : Nat) {α : Type} (parse : Json → Got α) {w : α → Writer} {f : α → Attr}
    (hw : ∀ a, Writes c.cap (w a) (f a)) : ∀ (js : List Json) (es : List α) (log : List Msg), (es ≠ [] → size f es ≤ c.cap) →
    arrayLoop c hd ty parse w js (cur ty f es) log = arr c hd ty parse f js es log := by
  have hempty : ∀ es : List α, es ≠ [] → es.isEmpty = false := by intro es h; cases es with | nil => cases h rfl | cons => rfl
  have hmsg : ∀ es : List α, es ≠ [] → hd ++ nestEnd ty (enc ⟨ty, true, []⟩ ++ (es.map f).flatMap enc) = listMsg hd ty f es := by
    intro es he
    rw [nestEnd_eq, if_neg (by intro h; exact he (List.map_eq_nil_iff.1 h))]
    rfl
  have hwrite : ∀ (es : List α) (a : α), w a (enc ⟨ty, true, []⟩ ++ (es.map f).flatMap enc)
      = if size f (es ++ [a]) ≤ c.cap then some (enc ⟨ty, true, []⟩ ++ ((es ++ [a]).map f).flatMap enc) else none := by
    intro es a
    rw [hw a]
    have e1 : (enc ⟨ty, true, []⟩ ++ (es.map f).flatMap enc).length + (enc (f a)).length = size f (es ++ [a]) := by
      unfold size
      simp only [List.length_append, start_len, List.map_append, List.flatMap_append, List.map_cons, List.map_nil,
        List.flatMap_cons, List.flatMap_nil, List.append_nil]
      omega
    have e2 : enc ⟨ty, true, []⟩ ++ (es.map f).flatMap enc ++ enc (f a) = enc ⟨ty, true, []⟩ ++ ((es ++ [a]).map f).flatMap enc := by
      simp only [List.append_assoc, List.map_append, List.flatMap_append, List.map_cons, List.map_nil,
        List.flatMap_cons, List.flatMap_nil, List.append_nil]
    rw [e1, e2]
  intro js
  induction js with
  | nil =>
    intro es log _
    cases es with
    | nil => unfold cur; rfl
    | cons e es =>
      rw [arr, ← hmsg _ (by simp)]
      unfold cur
      rfl
  | cons j js ih =>
    intro es log hes
    rw [arr]
    unfold arrayLoop
    have hstart : current c ty (cur ty f es)
        = if c.cap < 4 then none else some (enc ⟨ty, true, []⟩ ++ (es.map f).flatMap enc, es.length) := by
      cases es with
      | nil =>
        by_cases h : c.cap < 4
        · have : nestStart c ty = none := by unfold nestStart; exact if_neg (by omega)
          rw [if_pos h]; unfold current cur; rw [this]; rfl
        · have : nestStart c ty = some (enc ⟨ty, true, []⟩) := by unfold nestStart; exact if_pos (by omega)
          rw [if_neg h]; unfold current cur; rw [this]
          simp
      | cons e es =>
        have := hes (by simp)
        unfold size at this
        have hlt : ¬ c.cap < 4 := by omega
        rw [if_neg hlt]
        rfl
    rw [hstart]
    by_cases hcap : c.cap < 4
    · rw [if_pos hcap, if_pos hcap]
    · rw [if_neg hcap, if_neg hcap]
      dsimp only
      cases parse j with
      | no => rfl
      | ub u => rfl
      | ok a =>
        dsimp only
        rw [hwrite]
        by_cases hfit : size f (es ++ [a]) ≤ c.cap
        · rw [if_pos hfit, if_pos hfit]
          dsimp only
          rw [← ih (es ++ [a]) log (fun _ => hfit)]
          unfold cur
          rw [hempty (es ++ [a]) (by simp), List.length_append]
          rfl
        · rw [if_neg hfit, if_neg hfit]
          dsimp only
          cases es with
          | nil => rfl
          | cons e es =>
            rw [if_neg (by rw [List.length_cons]; omega), hempty _ (by simp), if_neg Bool.false_ne_true, hmsg _ (by simp)]
            rcases send_cases c (listMsg hd ty f (e :: es)) log with ⟨hs, _⟩ | ⟨hs, _⟩
            · rw [hs]
              dsimp only
              unfold nestStart
              rw [if_pos (by omega)]
              dsimp only
              have := hwrite [] a
              rw [List.map_nil, List.flatMap_nil, List.append_nil, List.nil_append] at this
              rw [this]
              by_cases hf2 : size f [a] ≤ c.cap
              · rw [if_pos hf2, if_pos hf2]
                dsimp only
                rw [← ih [a] _ (fun _ => hf2)]
                rfl
              · rw [if_neg hf2, if_neg hf2]
            · rw [hs]

/-- The messages carry the entries, in order. -/
inductive Carries {α : Type} (cap : Nat) (hd : List Byte) (ty : Nat) (f : α → Attr) : List α → List Msg → Prop
  | nil : Carries cap hd ty f [] []
  | cons {cs es : List α} {msgs : List Msg} : cs ≠ [] → size f cs ≤ cap → Carries cap hd ty f es msgs →
      Carries cap hd ty f (cs ++ es) (listMsg hd ty f cs :: msgs)

/-- A message with a list. -/
def IsList {α : Type} (cap : Nat) (hd : List Byte) (ty : Nat) (f : α → Attr) (m : Msg) : Prop :=
  ∃ es, m = listMsg hd ty f es ∧ es ≠ [] ∧ size f es ≤ cap

theorem arr_ran (c : Ctx) (hd : List Byte) (ty : Nat) {α : Type} (parse : Json → Got α) (f : α → Attr) :
    ∀ (js : List Json) (es : List α) (log : List Msg), (es ≠ [] → size f es ≤ c.cap) →
    Ran c (IsList c.cap hd ty f) log (arr c hd ty parse f js es log).1 (arr c hd ty parse f js es log).2 := by
  intro js
  induction js with
  | nil =>
    intro es log he
    rw [arr]
    cases es with
    | nil => exact Ran.refl ..
    | cons e es => exact ran_send c ⟨_, rfl, by simp, he (by simp)⟩ log
  | cons j js ih =>
    intro es log he
    rw [arr]
    by_cases hcap : c.cap < 4
    · rw [if_pos hcap]; exact Ran.refl ..
    rw [if_neg hcap]
    cases parse j with
    | no => exact Ran.refl ..
    | ub u => exact Ran.refl ..
    | ok a =>
      dsimp only
      by_cases hfit : size f (es ++ [a]) ≤ c.cap
      · rw [if_pos hfit]; exact ih _ _ (fun _ => hfit)
      · rw [if_neg hfit]
        cases es with
        | nil => exact Ran.refl ..
        | cons e es =>
          dsimp only [List.isEmpty]
          rw [if_neg Bool.false_ne_true]
          have hs' := ran_send c (P := IsList c.cap hd ty f) (m := listMsg hd ty f (e :: es)) ⟨_, rfl, by simp, he (by simp)⟩ log
          rcases send_cases c (listMsg hd ty f (e :: es)) log with ⟨hs, _⟩ | ⟨hs, _⟩
          · rw [hs] at hs' ⊢
            dsimp only
            by_cases hf2 : size f [a] ≤ c.cap
            · rw [if_pos hf2]
              exact hs'.trans (ih _ _ (fun _ => hf2))
            · rw [if_neg hf2]
              exact hs'.no _
          · rw [hs] at hs' ⊢
            exact hs'

theorem arr_ok (c : Ctx) (hd : List Byte) (ty : Nat) {α : Type} (parse : Json → Got α) (f : α → Attr) :
    ∀ (js : List Json) (es : List α) (log log' : List Msg), (es ≠ [] → size f es ≤ c.cap) →
    arr c hd ty parse f js es log = (log', .ok) →
    ∃ es' msgs, Each (fun j e => parse j = .ok e) js es' ∧ log' = log ++ msgs ∧ Carries c.cap hd ty f (es ++ es') msgs := by
  intro js
  induction js with
  | nil =>
    intro es log log' he h
    rw [arr] at h
    cases es with
    | nil =>
      injection h with h
      exact ⟨[], [], .nil, by rw [← h, List.append_nil], .nil⟩
    | cons e es =>
      rw [List.isEmpty, if_neg Bool.false_ne_true] at h
      rcases send_cases c (listMsg hd ty f (e :: es)) log with ⟨hs, _⟩ | ⟨hs, _⟩
      · rw [hs] at h
        injection h with h
        exact ⟨[], [_], .nil, h.symm, .cons (by simp) (he (by simp)) .nil⟩
      · rw [hs] at h; injection h with _ h; cases h
  | cons j js ih =>
    intro es log log' he h
    rw [arr] at h
    by_cases hcap : c.cap < 4
    · rw [if_pos hcap] at h; injection h with _ h; cases h
    rw [if_neg hcap] at h
    cases hp : parse j with
    | no => rw [hp] at h; injection h with _ h; cases h
    | ub u => rw [hp] at h; injection h with _ h; cases h
    | ok a =>
      rw [hp] at h
      dsimp only at h
      by_cases hfit : size f (es ++ [a]) ≤ c.cap
      · rw [if_pos hfit] at h
        obtain ⟨es', msgs, h1, h2, h3⟩ := ih _ _ _ (fun _ => hfit) h
        rw [List.append_assoc, List.singleton_append] at h3
        exact ⟨a :: es', msgs, .cons hp h1, h2, h3⟩
      · rw [if_neg hfit] at h
        cases es with
        | nil => injection h with _ h; cases h
        | cons e es =>
          rw [List.isEmpty, if_neg Bool.false_ne_true] at h
          rcases send_cases c (listMsg hd ty f (e :: es)) log with ⟨hs, _⟩ | ⟨hs, _⟩
          · rw [hs] at h
            dsimp only at h
            by_cases hf2 : size f [a] ≤ c.cap
            · rw [if_pos hf2] at h
              obtain ⟨es', msgs, h1, h2, h3⟩ := ih _ _ _ (fun _ => hf2) h
              exact ⟨a :: es', _ :: msgs, .cons hp h1, by rw [h2, List.append_assoc, List.singleton_append],
                .cons (by simp) (he (by simp)) h3⟩
            · rw [if_neg hf2] at h; injection h with _ h; cases h
          · rw [hs] at h; injection h with _ h; cases h

theorem arr_complete (c : Ctx) (hd : List Byte) (ty : Nat) {α : Type} (parse : Json → Got α) (f : α → Attr) (hc : 4 ≤ c.cap)
    (hroom : ∀ a, size f [a] ≤ c.cap) {js : List Json} {es' : List α} (hj : Each (fun j e => parse j = .ok e) js es') :
    ∀ (es : List α) (log : List Msg), (arr c hd ty parse f js es log).2 = .ok ∨ Refused c (arr c hd ty parse f js es log).1 := by
  induction hj with
  | nil =>
    intro es log
    rw [arr]
    cases es with
    | nil => exact Or.inl rfl
    | cons e es =>
      rw [List.isEmpty, if_neg Bool.false_ne_true]
      rcases send_cases c (listMsg hd ty f (e :: es)) log with ⟨hs, _⟩ | ⟨hs, hr⟩
      · rw [hs]; exact Or.inl rfl
      · rw [hs]; exact Or.inr hr
  | cons hp _ ih =>
    intro es log
    rw [arr, if_neg (by omega), hp]
    dsimp only
    split
    · exact ih _ _
    · rename_i hfit
      cases es with
      | nil => exact absurd (hroom _) hfit
      | cons e es =>
        rw [List.isEmpty, if_neg Bool.false_ne_true]
        rcases send_cases c (listMsg hd ty f (e :: es)) log with ⟨hs, _⟩ | ⟨hs, hr⟩
        · rw [hs]
          dsimp only
          rw [if_pos (hroom _)]
          exact ih _ _
        · rw [hs]; exact Or.inr hr

theorem arr_safe (c : Ctx) (hd : List Byte) (ty : Nat) {α : Type} (parse : Json → Got α) (f : α → Attr) (hp : ∀ j u, parse j ≠ .ub u) :
    ∀ (js : List Json) (es : List α) (log : List Msg) (u : UB), (arr c hd ty parse f js es log).2 ≠ .ub u := by
  have hsend : ∀ m log u, (send c m log).2 ≠ .ub u := by
    intro m log u
    rcases send_cases c m log with ⟨hs, _⟩ | ⟨hs, _⟩ <;> rw [hs] <;> intro h <;> cases h
  intro js
  induction js with
  | nil =>
    intro es log u
    rw [arr]
    split
    · intro h; cases h
    · exact hsend _ _ _
  | cons j js ih =>
    intro es log u
    rw [arr]
    split
    · intro h; cases h
    cases hpj : parse j with
    | no => intro h; cases h
    | ub v => exact absurd hpj (hp j v)
    | ok a =>
      dsimp only
      split
      · exact ih _ _ _
      · split
        · intro h; cases h
        · rcases send_cases c (listMsg hd ty f es) log with ⟨hs, _⟩ | ⟨hs, hr⟩
          · rw [hs]
            dsimp only
            split
            · exact ih _ _ _
            · intro h; cases h
          · rw [hs]; intro h; cases h

theorem each_mono {α β : Type} {R S : α → β → Prop} {as : List α} {bs : List β} (h : Each R as bs) (hrs : ∀ a ∈ as, ∀ b, R a b → S a b) :
    Each S as bs := by
  induction h with
  | nil => exact .nil
  | cons h _ ih => exact .cons (hrs _ (.head _) _ h) (ih (fun a ha => hrs a (.tail _ ha)))

end Jool.File
