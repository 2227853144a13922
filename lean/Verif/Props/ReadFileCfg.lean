import Verif.Props.ReadFile
/-
C93, the settings of the daemon: what it is configured with is what its two files say, and what they do not say has its default
(`configured`). `ttl_256` and `any_root` show what is not refused.
-/
namespace Jool.ReadFile
open Jool.Text (Text caseEq)
open Jool.Json (Json Num IsText)

/-! ### Specification -/

/-- The first member of that name (in capitals or not) has the value `v`. -/
def Says (l : List (Text × Json)) (k : Text) (v : Json) : Prop :=
  ∃ a n b, l = a ++ (n, v) :: b ∧ caseEq n k = true ∧ ∀ p ∈ a, caseEq p.1 k = false

/-- There is no member of that name. -/
def Silent (l : List (Text × Json)) (k : Text) : Prop := ∀ p ∈ l, caseEq p.1 k = false

/-- A text: `x` if the file says so, otherwise `d`. -/
def Field (l : List (Text × Json)) (k : String) (d x : Option Text) : Prop :=
  (∃ s, Says l k.toList (.str s) ∧ x = some s) ∨ Silent l k.toList ∧ x = d

/-- The integer part of a number is `z`. -/
def Trunc (n : Num) (z : Int) : Prop :=
  ∃ m : Nat, (if 0 ≤ n.exp then m = n.mant * 10 ^ n.exp.toNat else m = n.mant / 10 ^ (-n.exp).toNat) ∧
    z = if n.neg then -(m : Int) else (m : Int)

/-- The configuration that the files describe. -/
structure Described (m n : List (Text × Json)) (c : Cfg) : Prop where
  iname : Field m "instance" (some "default".toList) (some c.iname)
  addr : Field n "multicast address" none c.addr
  port : Field n "multicast port" (some "6400".toList) (some c.port)
  inIf : Field n "in interface" none c.inIf
  outIf : Field n "out interface" none c.outIf
  ttl : (∃ k, Says n "ttl".toList (.num k) ∧ Trunc k c.ttl) ∨ Silent n "ttl".toList ∧ c.ttl = 1
  range : 0 ≤ c.ttl ∧ c.ttl ≤ 256

/-! ### Lookups -/

theorem item_some {l : List (Text × Json)} {k : Text} {v : Json} : item (.obj l) k = some v ↔ Says l k v := by
  unfold item Says
  rw [Option.map_eq_some_iff]
  constructor
  · rintro ⟨⟨n, w⟩, h, rfl⟩
    rw [List.find?_eq_some_iff_append] at h
    obtain ⟨hc, a, b, rfl, ha⟩ := h
    exact ⟨a, n, b, rfl, hc, fun p hp => by simpa using ha p hp⟩
  · rintro ⟨a, n, b, rfl, hc, ha⟩
    exact ⟨(n, v), List.find?_eq_some_iff_append.2 ⟨hc, a, b, rfl, fun p hp => by simp [ha p hp]⟩, rfl⟩

theorem item_none {l : List (Text × Json)} {k : Text} : item (.obj l) k = none ↔ Silent l k := by
  unfold item Silent
  rw [Option.map_eq_none_iff, List.find?_eq_none]
  exact ⟨fun h p hp => by simpa using h p hp, fun h p hp => by simp [h p hp]⟩

/-- The first one is the only one that counts. -/
theorem says_unique {l : List (Text × Json)} {k : Text} {v w : Json} (h : Says l k v) (h' : Says l k w) : v = w := by
  have := item_some.2 h
  rw [item_some.2 h'] at this
  injection this with e
  exact e.symm

theorem str_field {l : List (Text × Json)} {k : String} {d x : Option Text} :
    (∃ v, str? (.obj l) k.toList = some v ∧ (v.orElse fun _ => d) = x) ↔ Field l k d x := by
  unfold Field str?
  cases hi : item (.obj l) k.toList with
  | none =>
    have hs := item_none.1 hi
    constructor
    · rintro ⟨v, h, e⟩
      cases h
      exact .inr ⟨hs, e.symm⟩
    · rintro (⟨s, h, _⟩ | ⟨_, e⟩)
      · rw [item_some.2 h] at hi
        cases hi
      · exact ⟨none, rfl, e.symm⟩
  | some j =>
    have hs := item_some.1 hi
    constructor
    · rintro ⟨v, h, e⟩
      cases j <;> simp only [reduceCtorEq] at h
      cases h
      exact .inl ⟨_, hs, e.symm⟩
    · rintro (⟨s, h, e⟩ | ⟨h, _⟩)
      · cases says_unique hs h
        exact ⟨some s, rfl, e.symm⟩
      · rw [item_none.2 h] at hi
        cases hi

theorem upTo_trunc {n : Num} {max v : Nat} (h : n.upTo max = some v) :
    (if 0 ≤ n.exp then v = n.mant * 10 ^ n.exp.toNat else v = n.mant / 10 ^ (-n.exp).toNat) := by
  unfold Num.upTo at h
  split at h <;> rename_i he
  · rw [if_pos he]
    split at h
    · cases h; rfl
    · cases h
  · rw [if_neg he]
    split at h
    · cases h; rfl
    · cases h

theorem upTo_small {n : Num} {max m : Nat}
    (h : if 0 ≤ n.exp then m = n.mant * 10 ^ n.exp.toNat else m = n.mant / 10 ^ (-n.exp).toNat) (hm : m < max) : n.upTo max = some m := by
  unfold Num.upTo
  split at h <;> rename_i he
  · rw [if_pos he, if_pos (by omega), h]
  · rw [if_neg he, if_pos, h]
    rw [h] at hm
    have := (Nat.div_lt_iff_lt_mul (Nat.pow_pos (by decide : 0 < 10))).1 hm
    omega

/-- An integer that the reader accepts is the integer part of the number. -/
theorem int_trunc {n : Num} {z : Int} (h : 0 ≤ z ∧ z ≤ 256) : isInt n = true ∧ n.int = z ↔ Trunc n z := by
  unfold isInt Num.int Trunc
  constructor
  · rintro ⟨hi, rfl⟩
    cases hn : n.neg with
    | true =>
      simp only [hn, if_true] at hi ⊢
      obtain ⟨v, hv⟩ := Option.isSome_iff_exists.1 hi
      exact ⟨v, upTo_trunc hv, by rw [hv]⟩
    | false =>
      simp only [hn, Bool.false_eq_true, if_false] at hi ⊢
      obtain ⟨v, hv⟩ := Option.isSome_iff_exists.1 hi
      exact ⟨v, upTo_trunc hv, by rw [hv]⟩
  · rintro ⟨m, hm, hz⟩
    cases hn : n.neg with
    | true =>
      simp only [hn, if_true] at hz ⊢
      rw [upTo_small hm (by omega)]
      exact ⟨rfl, hz.symm⟩
    | false =>
      simp only [hn, Bool.false_eq_true, if_false] at hz ⊢
      rw [upTo_small hm (by omega)]
      exact ⟨rfl, hz.symm⟩

theorem int_field {l : List (Text × Json)} {z : Int} (h : 0 ≤ z ∧ z ≤ 256) :
    (∃ t, int? (.obj l) "ttl".toList = some t ∧ t.getD 1 = z) ↔
      ((∃ k, Says l "ttl".toList (.num k) ∧ Trunc k z) ∨ Silent l "ttl".toList ∧ z = 1) := by
  unfold int?
  cases hi : item (.obj l) "ttl".toList with
  | none =>
    have hs := item_none.1 hi
    constructor
    · rintro ⟨v, h, e⟩
      cases h
      exact .inr ⟨hs, e.symm⟩
    · rintro (⟨s, h, _⟩ | ⟨_, e⟩)
      · rw [item_some.2 h] at hi
        cases hi
      · exact ⟨none, rfl, e.symm⟩
  | some j =>
    have hs := item_some.1 hi
    constructor
    · rintro ⟨v, h', e⟩
      cases j <;> simp only [reduceCtorEq] at h'
      rename_i n
      split at h' <;> cases h'
      rename_i hn
      exact .inl ⟨n, hs, (int_trunc h).1 ⟨hn, e⟩⟩
    · rintro (⟨n, h', e⟩ | ⟨h', _⟩)
      · cases says_unique hs h'
        obtain ⟨h1, h2⟩ := (int_trunc h).2 e
        exact ⟨some n.int, by simp only [h1, if_true], h2⟩
      · rw [item_none.2 h'] at hi
        cases hi

/-- **C93** The daemon starts with a configuration if and only if it is the one that the files describe. -/
theorem configured {mod net : Text} {m n : List (Text × Json)} (hm : IsText (.obj m) mod) (hn : IsText (.obj n) net) (c : Cfg) :
    daemon mod net = .ok (some c) ↔ Described m n c := by
  unfold daemon
  simp only [cstr_eq (isText_nul hm), cstr_eq (isText_nul hn), Json.reads hm, Json.reads hn]
  unfold modConfig netConfig
  constructor
  · intro h
    cases hi : str? (.obj m) "instance".toList with
    | none => simp only [hi, Option.map_none] at h; cases h
    | some i =>
      simp only [hi, Option.map_some] at h
      injection h with h
      obtain ⟨a, ha, h⟩ := Option.bind_eq_some_iff.1 h
      obtain ⟨p, hp, h⟩ := Option.bind_eq_some_iff.1 h
      obtain ⟨i1, hi1, h⟩ := Option.bind_eq_some_iff.1 h
      obtain ⟨o, ho, h⟩ := Option.bind_eq_some_iff.1 h
      cases ht : int? (.obj n) "ttl".toList with
      | none => simp only [ht] at h; cases h
      | some t =>
        simp only [ht] at h
        split at h
        · cases h
        rename_i hr
        injection h with h
        subst h
        have hr' : 0 ≤ t.getD 1 ∧ t.getD 1 ≤ 256 := by
          simp only [Bool.or_eq_true, decide_eq_true_eq, not_or, Int.not_lt] at hr
          exact hr
        exact {
          iname := str_field.1 ⟨i, hi, by cases i <;> rfl⟩
          addr := str_field.1 ⟨a, ha, rfl⟩
          port := str_field.1 ⟨p, hp, by cases p <;> rfl⟩
          inIf := str_field.1 ⟨i1, hi1, rfl⟩
          outIf := str_field.1 ⟨o, ho, rfl⟩
          ttl := (int_field hr').1 ⟨t, ht, rfl⟩
          range := hr' }
  · intro h
    obtain ⟨i, hi, ei⟩ := str_field.2 h.iname
    obtain ⟨a, ha, ea⟩ := str_field.2 h.addr
    obtain ⟨p, hp, ep⟩ := str_field.2 h.port
    obtain ⟨i1, hi1, ei1⟩ := str_field.2 h.inIf
    obtain ⟨o, ho, eo⟩ := str_field.2 h.outIf
    obtain ⟨t, ht, et⟩ := (int_field h.range).2 h.ttl
    simp only [hi, ha, hp, hi1, ho, ht, Option.map_some, Option.bind_some]
    rw [if_neg (by
      simp only [Bool.or_eq_true, decide_eq_true_eq, not_or, Int.not_lt]
      show 0 ≤ t.getD 1 ∧ t.getD 1 ≤ 256
      rw [et]
      exact h.range)]
    obtain ⟨c1, c2, c3, c4, c5, c6⟩ := c
    have e1 : i.getD Cfg.default.iname = c1 := by cases i <;> exact Option.some.inj ei
    have e3 : p.getD Cfg.default.port = c3 := by cases p <;> exact Option.some.inj ep
    have e2 : (a.orElse fun _ => Cfg.default.addr) = c2 := ea
    have e4 : (i1.orElse fun _ => Cfg.default.inIf) = c4 := ei1
    have e5 : (o.orElse fun _ => Cfg.default.outIf) = c5 := eo
    have e6 : t.getD Cfg.default.ttl = c6 := et
    simp only [e1, e2, e3, e4, e5, e6]

/-! ### What is not refused -/

/-- No datagram has the hop limit 256, but the check admits it. -/
theorem ttl_256 : ∃ c, daemon "{}".toList "{\"ttl\":256}".toList = .ok (some c) ∧ c.ttl = 256 :=
  ⟨⟨"default".toList, none, "6400".toList, none, none, 256⟩, by decide +kernel, rfl⟩

/-- Files whose value is not an object are taken for empty ones. -/
theorem any_root : daemon "[\"instance\"]".toList "5".toList = .ok (some Cfg.default) := by decide +kernel

/-! ### Examples -/

section
def modText : Text := "{ \"Instance\": \"alpha\" }".toList
def netText : Text := "{ \"multicast address\": \"ff08::db8:64:64\",\n  \"ttl\": 3e0, \"out interface\": \"eth0\", \"ttl\": 9 }".toList

example : daemon modText netText =
    .ok (some ⟨"alpha".toList, some "ff08::db8:64:64".toList, "6400".toList, none, some "eth0".toList, 3⟩) := by decide +kernel
example : daemon modText "{\"ttl\": \"3\"}".toList = .ok none := by decide +kernel
example : daemon modText "{\"ttl\": -1}".toList = .ok none := by decide +kernel

/-- A stream that fails in the middle, and recovers. -/
example : (⟨true, true, some 2, true, true⟩ : Sys).good "{}".toList.length ∧
    Plays 2 "{}".toList [⟨['{'], true⟩, ⟨['}'], true⟩] ∧
    fileToString ⟨true, true, some 2, true, true⟩ [⟨['{'], true⟩, ⟨['}'], true⟩] = ([.opened, .alloc, .closed], .ok "{}".toList) :=
  ⟨⟨rfl, rfl, rfl, rfl, rfl, by decide⟩, ⟨['}'], rfl, by decide, fun _ => .inr rfl, [], rfl, by decide, fun _ => .inl rfl, trivial⟩, by decide⟩

/-- One that fails for good. -/
example : fileToString ⟨true, true, some 2, true, true⟩ [⟨['{'], true⟩, ⟨[], true⟩] = ([.opened, .alloc, .freed, .closed], .error) := by decide

theorem empty_text : IsText (.obj []) "{}".toList :=
  ⟨[], "{}".toList, [], Json.ws_nil, Json.Spells.none Json.ws_nil, Json.ws_nil, rfl⟩

example : Described [] [] Cfg.default := (configured empty_text empty_text _).1 (by decide +kernel)

example (c : File.Ctx) : fileParse c none ⟨true, true, some 2, true, true⟩ [⟨"{}".toList, false⟩] = some (File.load c none (.obj [])) :=
  loads empty_text ⟨rfl, rfl, rfl, rfl, rfl, by decide⟩ ⟨[], rfl, by decide, fun _ => .inl rfl, trivial⟩ rfl
end

end Jool.ReadFile
