import Verif.Lemmas.Json
/-
C73: JSON texts. Props/JsonText says which texts spell which value. The reader finds that value (`reads`), whatever the
spelling; it comes to an end on every text (`terminates`); and it stays inside the text and the strings that it allocates,
unless there is an incomplete escape sequence (`safe_partial`; `overflow` and `overrun` show that it does not otherwise).
-/
namespace Jool.Json
open Jool.Text (Text)

/-- **C73** Every spelling of a value is read as that value. -/
theorem reads {v : Json} {s : Text} (h : IsText v s) : parse s = .ok (some v) := by
  obtain ⟨a, t, b, ha, hv, hb, rfl⟩ := h
  have hi := value_ok hv (2 * (a ++ t ++ b).length + 1) b (ws_stop' hb) (by simp only [List.length_append]; omega)
  obtain ⟨c, r, rfl, h1, _⟩ := spells_first hv
  unfold parse
  have e : skip (a ++ c :: r ++ b) = c :: r ++ b := by rw [List.append_assoc, skip_ws ha, List.cons_append, skip_cons _ h1]
  rw [e, hi]
  rfl

/-- So no text spells two values. -/
theorem unambiguous {v w : Json} {s : Text} (h : IsText v s) (h' : IsText w s) : v = w := by
  have := reads h
  rw [reads h'] at this
  injection this with this
  injection this with this
  exact this.symm

/-- **C73** The reader ends on every text. The other way of ending is to leave the memory that it may use. -/
theorem terminates (s : Text) : (∃ o, parse s = .ok o) ∨ parse s = .ub .outOfBounds := by
  have h := (all_good (2 * s.length + 1)).1 (skip s) (by have := skip_len s; omega)
  unfold parse
  cases hp : parseValue (2 * s.length + 1) (skip s) with
  | ok o => exact .inl ⟨_, rfl⟩
  | ub u =>
    rw [hp] at h
    exact .inr (by rw [h.1]; rfl)

/-- **C73** It is memory safe if no escape sequence of the text is cut short. -/
theorem safe_partial {s : Text} (hs : Clean s) : ∃ o, parse s = .ok o := by
  have h := (all_good (2 * s.length + 1)).1 (skip s) (by have := skip_len s; omega)
  unfold parse
  cases hp : parseValue (2 * s.length + 1) (skip s) with
  | ok o => exact ⟨_, rfl⟩
  | ub u =>
    rw [hp] at h
    exact absurd (skip_clean hs) h.2

/-- A number without fraction and exponent is the number that its digits say, if it fits in 32 bits. -/
theorem reads_uint {ds : Text} (h : Digits ds) (hz : ds = ['0'] ∨ ds.head? ≠ some '0') :
    ∃ n, parse ds = .ok (some (.num n)) ∧ n.uint = if worth ds < 2 ^ 32 then some (worth ds) else none := by
  have hn := Number.mk false ds [] 0 [] h hz (.inl rfl) (.inl ⟨rfl, rfl⟩)
  simp only [Bool.false_eq_true, if_false, List.nil_append, if_true, List.append_nil] at hn
  refine ⟨_, reads ⟨[], ds, [], (fun _ h => by cases h), .num hn, (fun _ h => by cases h), by simp⟩, ?_⟩
  have e : (4294967295 : Nat) = 2 ^ 32 - 1 := by decide
  simp only [Num.uint, Num.upTo, Bool.false_and, Bool.false_eq_true, if_false]
  simp only [List.length_nil, Int.ofNat_zero, Int.sub_zero, Int.le_refl, if_true, Int.toNat_zero, Nat.pow_zero, Nat.mul_one]
  split
  · rw [if_pos (by omega)]
  · rw [if_neg (by omega)]

/-- **C73** The general statement of memory safety fails: here the string is measured up to the second quote (one character), but the
copy skips it with the three that follow, and goes on writing. -/
theorem overflow : parse "\"\\u\"aaaaa\"".toList = .ub .outOfBounds := rfl

/-- And here the reader goes beyond the end of the text. -/
theorem overrun : parse "\"\\".toList = .ub .outOfBounds ∧ parse "\"\\u12".toList = .ub .outOfBounds := ⟨rfl, rfl⟩

/-- What is left after the value is white space. -/
theorem text_rest {v : Json} {s : Text} (h : IsText v s) : ∃ b, Ws b ∧ parseValue (2 * s.length + 1) (skip s) = .ok (some (v, b)) := by
  obtain ⟨a, t, b, ha, hv, hb, rfl⟩ := h
  have hi := value_ok hv (2 * (a ++ t ++ b).length + 1) b (ws_stop' hb) (by simp only [List.length_append]; omega)
  obtain ⟨c, r, rfl, h1, _⟩ := spells_first hv
  have e : skip (a ++ c :: r ++ b) = c :: r ++ b := by rw [List.append_assoc, skip_ws ha, List.cons_append, skip_cons _ h1]
  exact ⟨b, hb, by rw [e, hi]⟩

/-- **C73** The converse of `reads` fails: what follows the value is ignored, whatever it is. -/
theorem lenient : ∃ s v, parse s = .ok (some v) ∧ ∀ w, ¬ IsText w s := by
  refine ⟨"{} \"pool4\": []".toList, .obj [], rfl, fun w h => ?_⟩
  obtain ⟨b, hb, h⟩ := text_rest h
  have e : parseValue (2 * "{} \"pool4\": []".toList.length + 1) (skip "{} \"pool4\": []".toList)
      = .ok (some (.obj [], " \"pool4\": []".toList)) := rfl
  rw [e] at h
  injection h with h
  injection h with h
  injection h with _ h
  subst h
  rcases hb '"' (by decide) with h | h | h | h <;> exact absurd h (by decide)

/-- More that RFC 8259 does not allow: a number without digits, a zero in front, a string without its closing quote. -/
example : parse "-".toList = .ok (some (.num ⟨true, 0, 0⟩)) ∧ parse "05".toList = .ok (some (.num ⟨false, 5, 0⟩)) ∧
    parse "\"abc".toList = .ok (some (.str "abc".toList)) := ⟨rfl, rfl, rfl⟩

theorem ws_nil : Ws [] := fun _ h => by cases h
theorem ws_one : Ws [' '] := fun c h => .inl (by simpa using h)

example : Chars (utf8 0xE9 ++ []) "\\u00e9".toList :=
  .unicode "00e9".toList 0xE9 ⟨_, _, _, _, 0, 0, 14, 9, rfl, .inl rfl, .inl rfl, .inl rfl, .inl rfl, rfl⟩ (by decide) (by decide) .nil

example : utf8 0xE9 = [Char.ofNat 0xC3, Char.ofNat 0xA9] := rfl
example : utf8 0x1D11E = [0xF0, 0x9D, 0x84, 0x9E].map Char.ofNat := rfl

theorem sample : IsText (.obj [("a".toList, .str (utf8 0xE9 ++ [])), ("b".toList, .arr [.null, .num ⟨true, 15, -1⟩])])
    "{\"a\": \"\\u00e9\",\"b\":[null,-1.5 ]}\n".toList := by
  refine ⟨[], "{\"a\": \"\\u00e9\",\"b\":[null,-1.5 ]}".toList, "\n".toList, ws_nil, ?_, fun c h => .inr (.inr (.inl (by simpa using h))), rfl⟩
  have h1 : Chars "a".toList "a".toList := .plain 'a' (by decide) (by decide) (by decide) .nil
  have h2 : Chars "b".toList "b".toList := .plain 'b' (by decide) (by decide) (by decide) .nil
  have h3 : Chars (utf8 0xE9 ++ []) ("\\u00e9".toList) :=
    .unicode "00e9".toList 0xE9 ⟨_, _, _, _, 0, 0, 14, 9, rfl, .inl rfl, .inl rfl, .inl rfl, .inl rfl, rfl⟩ (by decide) (by decide) .nil
  have h4 : Spells (.num ⟨true, 15, -1⟩) "-1.5".toList :=
    .num (Number.mk true ['1'] ['5'] 0 [] ⟨by decide, by decide⟩ (.inr (by decide)) (.inr ⟨by decide, by decide⟩) (.inl ⟨rfl, rfl⟩))
  have h5 : Elems [.null, .num ⟨true, 15, -1⟩] "null,-1.5 ".toList := .more ws_nil .null ws_nil (.one (a := []) ws_nil h4 ws_one)
  exact .obj (t := "\"a\": \"\\u00e9\",\"b\":[null,-1.5 ]".toList)
    (.more (a := []) (b := []) (c := [' ']) (d := []) ws_nil h1 ws_nil ws_one (.str h3) ws_nil
      (.one (a := []) (b := []) (c := []) (d := []) ws_nil h2 ws_nil ws_nil (.arr h5) ws_nil))

example : parse "{\"a\": \"\\u00e9\",\"b\":[null,-1.5 ]}\n".toList
    = .ok (some (.obj [("a".toList, .str ([0xC3, 0xA9].map Char.ofNat)), ("b".toList, .arr [.null, .num ⟨true, 15, -1⟩])])) := reads sample

theorem clean_plain {c : Char} {r : Text} (hc : c ≠ '\\') (h : Clean r) : Clean (c :: r) := by
  cases r with
  | nil => exact hc
  | cons d r => simpa only [Clean, if_neg hc] using h

theorem clean_pair {d : Char} {r : Text} (hu : d = 'u' → ∃ h n r', r = h ++ r' ∧ Hex4 h n) (h : Clean r) : Clean ('\\' :: d :: r) := by
  simpa only [Clean, if_true] using ⟨hu, h⟩

/-- A clean text that is no JSON text: `{\\u] \u12aB`. -/
example : Clean ['{', '\\', '\\', 'u', ']', '\\', 'u', '1', '2', 'a', 'B'] :=
  have h : Hex4 ['1', '2', 'a', 'B'] 0x12AB := ⟨_, _, _, _, 1, 2, 10, 11, rfl, .inl rfl, .inl rfl, .inl rfl, .inr rfl, rfl⟩
  clean_plain (by decide) (clean_pair (fun h => absurd h (by decide)) (clean_plain (by decide) (clean_plain (by decide)
    (clean_pair (fun _ => ⟨_, _, [], rfl, h⟩)
      (clean_plain (by decide) (clean_plain (by decide) (clean_plain (by decide) (clean_plain (by decide) trivial))))))))

end Jool.Json
