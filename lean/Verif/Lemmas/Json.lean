import Verif.Props.JsonText
import Verif.Lemmas.Text
/-
For C73: the reader follows every spelling, part by part; and what it does to any text.
-/
namespace Jool.Json
open Jool.Text (Text isDigit value)

/-! ## Characters -/

theorem hex_digit {c : Char} {n : Nat} (h : Hex c n) : hexDigit c = some n ∧ n < 16 ∧ c ≠ '"' ∧ c ≠ '\\' := by
  have hn : n < 16 := by
    rcases h with h | h
    · have := (List.getElem?_eq_some_iff.1 h).1; exact this
    · have := (List.getElem?_eq_some_iff.1 h).1; exact this
  have key : ∀ n : Fin 16, ∀ c ∈ ["0123456789abcdef".toList[n.val]?, "0123456789ABCDEF".toList[n.val]?],
      ∀ d ∈ c, hexDigit d = some n.val ∧ d ≠ '"' ∧ d ≠ '\\' := by decide
  have := key ⟨n, hn⟩ (some c) (by rcases h with h | h <;> simp only [h] <;> simp) c rfl
  exact ⟨this.1, hn, this.2⟩

theorem hex4_parse {t : Text} {n : Nat} (h : Hex4 t n) (r : Text) : parseHex4 (t ++ r) = n := by
  obtain ⟨a, b, c, d, x, y, z, w, rfl, ha, hb, hc, hd, rfl⟩ := h
  simp only [List.cons_append, List.nil_append, parseHex4, (hex_digit ha).1, (hex_digit hb).1, (hex_digit hc).1, (hex_digit hd).1]
  omega

theorem hex4_len {t : Text} {n : Nat} (h : Hex4 t n) : t.length = 4 ∧ n < 65536 := by
  obtain ⟨a, b, c, d, x, y, z, w, rfl, ha, hb, hc, hd, rfl⟩ := h
  have := (hex_digit ha).2.1
  have := (hex_digit hb).2.1
  have := (hex_digit hc).2.1
  have := (hex_digit hd).2.1
  exact ⟨rfl, by omega⟩

theorem hex4_chars {t : Text} {n : Nat} (h : Hex4 t n) : ∀ c ∈ t, c ≠ '"' ∧ c ≠ '\\' := by
  obtain ⟨a, b, c, d, x, y, z, w, rfl, ha, hb, hc, hd, rfl⟩ := h
  intro e he
  simp only [List.mem_cons, List.not_mem_nil, or_false] at he
  rcases he with rfl | rfl | rfl | rfl
  · exact (hex_digit ha).2.2
  · exact (hex_digit hb).2.2
  · exact (hex_digit hc).2.2
  · exact (hex_digit hd).2.2

theorem low_bits (x : Nat) : (x ||| 0x80) &&& 0xBF = 0x80 + x % 64 := by
  have h : (x ||| 0x80) &&& 0xBF = ((x % 64) ||| 0x80) &&& 0xBF := by
    apply Nat.eq_of_testBit_eq
    intro i
    have e : x % 64 = x % 2 ^ 6 := rfl
    rw [e]
    simp only [Nat.testBit_and, Nat.testBit_or, Nat.testBit_mod_two_pow]
    by_cases hi : i < 6
    · simp [hi]
    · by_cases h6 : i = 6
      · subst h6; simp [show Nat.testBit 0xBF 6 = false by decide]
      · by_cases h7 : i = 7
        · subst h7; simp [show Nat.testBit 0x80 7 = true by decide]
        · have : Nat.testBit 0xBF i = false := Nat.testBit_lt_two_pow (Nat.lt_of_lt_of_le (by decide : 0xBF < 2 ^ 8) (Nat.pow_le_pow_right (by omega) (by omega)))
          simp [this]
  rw [h]
  have key : ∀ y : Fin 64, (y.val ||| 0x80) &&& 0xBF = 0x80 + y.val := by decide
  exact key ⟨x % 64, Nat.mod_lt _ (by omega)⟩

theorem encode_utf8 (n : Nat) (h : n < 0x110000) : encode n = utf8 n := by
  have t : ∀ k, ((n >>> (6 * k)) ||| 0x80) &&& 0xBF = 0x80 + n / 2 ^ (6 * k) % 64 := fun k => by
    rw [low_bits, Nat.shiftRight_eq_div_pow]
  have f2 : ∀ y : Fin 32, (y.val ||| 0xC0) % 256 = 0xC0 + y.val := by decide
  have f3 : ∀ y : Fin 16, (y.val ||| 0xE0) % 256 = 0xE0 + y.val := by decide
  have f4 : ∀ y : Fin 8, (y.val ||| 0xF0) % 256 = 0xF0 + y.val := by decide
  unfold encode utf8
  simp only [t]
  by_cases h1 : n < 0x80
  · simp only [h1, if_pos]
    have e : (n >>> (6 * (1 - 1)) ||| firstByteMark.getD 1 0) % 256 = n := by
      show (n ||| 0) % 256 = n
      rw [Nat.or_zero]; omega
    rw [e]
    rfl
  · by_cases h2 : n < 0x800
    · simp only [h1, h2, if_pos, if_neg, not_false_eq_true]
      have e : (n >>> (6 * (2 - 1)) ||| firstByteMark.getD 2 0) % 256 = 0xC0 + n / 64 := by
        rw [Nat.shiftRight_eq_div_pow]
        exact f2 ⟨n / 2 ^ 6, by omega⟩
      rw [e]
      simp
    · by_cases h3 : n < 0x10000
      · simp only [h1, h2, h3, if_pos, if_neg, not_false_eq_true]
        have e : (n >>> (6 * (3 - 1)) ||| firstByteMark.getD 3 0) % 256 = 0xE0 + n / 4096 := by
          rw [Nat.shiftRight_eq_div_pow]
          exact f3 ⟨n / 2 ^ 12, by omega⟩
        rw [e]
        simp
      · simp only [h1, h2, h3, if_neg, not_false_eq_true]
        have e : (n >>> (6 * (4 - 1)) ||| firstByteMark.getD 4 0) % 256 = 0xF0 + n / 262144 := by
          rw [Nat.shiftRight_eq_div_pow]
          exact f4 ⟨n / 2 ^ 18, by omega⟩
        rw [e]
        simp

theorem utf8_len (n : Nat) : 1 ≤ (utf8 n).length ∧ (utf8 n).length ≤ 4 ∧ (n < 0x10000 → (utf8 n).length ≤ 3) := by
  unfold utf8
  rw [List.length_map]
  split
  · simp
  · split
    · simp
    · split
      · simp
      · simp; omega

theorem surrogates {n m : Nat} (h1 : 0xD800 ≤ n) (h2 : n < 0xDC00) (h3 : 0xDC00 ≤ m) (h4 : m < 0xE000) :
    (((n &&& 0x3FF) <<< 10) ||| (m &&& 0x3FF)) + 0x10000 = 0x10000 + (n - 0xD800) * 0x400 + (m - 0xDC00) := by
  have e : ∀ x, x &&& 0x3FF = x % 1024 := fun x => Nat.and_two_pow_sub_one_eq_mod x 10
  rw [e, e, ← Nat.shiftLeft_add_eq_or_of_lt (by omega : m % 1024 < 2 ^ 10), Nat.shiftLeft_eq]
  omega


/-! ## Strings -/

theorem escapes_spec : ∀ p ∈ escapes, p.1 ≠ 'u' ∧ escape p.1 = Char.ofNat p.2 := by decide

theorem measure_plain {c : Char} (r : Text) (n : Nat) (h1 : c ≠ '"') (h2 : c ≠ '\\') : measure (c :: r) n = measure r (n + 1) := by
  cases r with
  | nil => simp [measure, h1, h2]
  | cons d r => simp [measure, h1, h2]

theorem measure_plains : ∀ (l r : Text) (n : Nat), (∀ c ∈ l, c ≠ '"' ∧ c ≠ '\\') → measure (l ++ r) n = measure r (n + l.length)
  | [], _, _, _ => rfl
  | c :: l, r, n, h => by
    have hc := h c List.mem_cons_self
    rw [List.cons_append, measure_plain _ _ hc.1 hc.2, measure_plains l r _ (fun d hd => h d (List.mem_cons_of_mem _ hd))]
    simp only [List.length_cons]; congr 1; omega

theorem measure_esc (d : Char) (r : Text) (n : Nat) : measure ('\\' :: d :: r) n = measure r (n + 1) := by
  simp [measure]

theorem measure_hex {t : Text} {k : Nat} (h : Hex4 t k) (r : Text) (n : Nat) :
    measure ('\\' :: 'u' :: (t ++ r)) n = measure r (n + 5) := by
  rw [measure_esc, measure_plains _ _ _ (hex4_chars h), (hex4_len h).1]

theorem chars_measure {s t : Text} (h : Chars s t) :
    ∀ n rest, ∃ m, measure (t ++ '"' :: rest) n = .ok (n + m) ∧ s.length ≤ m := by
  induction h with
  | nil =>
    intro n rest
    refine ⟨0, ?_, Nat.le_refl _⟩
    cases rest <;> simp [measure]
  | plain c h1 h2 h3 _ ih =>
    intro n rest
    obtain ⟨m, hm, hl⟩ := ih (n + 1) rest
    refine ⟨m + 1, ?_, by simp only [List.length_cons]; omega⟩
    rw [List.cons_append, measure_plain _ _ h2 h3, hm]
    congr 1; omega
  | escape e k he _ ih =>
    intro n rest
    obtain ⟨m, hm, hl⟩ := ih (n + 1) rest
    refine ⟨m + 1, ?_, by simp only [List.length_cons]; omega⟩
    rw [List.cons_append, List.cons_append, measure_esc, hm]
    congr 1; omega
  | unicode h k hh h0 hk _ ih =>
    intro n rest
    obtain ⟨m, hm, hl⟩ := ih (n + 5) rest
    have := (utf8_len k).2.2 (hex4_len hh).2
    refine ⟨m + 5, ?_, by simp only [List.length_append]; omega⟩
    rw [List.cons_append, List.cons_append, List.append_assoc, List.cons_append, measure_hex hh, hm]
    congr 1; omega
  | pair h l k j hh hk1 hk2 hl' hj1 hj2 _ ih =>
    intro n rest
    obtain ⟨m, hm, hl⟩ := ih (n + 10) rest
    have := (utf8_len (0x10000 + (k - 0xD800) * 0x400 + (j - 0xDC00))).2.1
    refine ⟨m + 10, ?_, by simp only [List.length_append]; omega⟩
    simp only [List.cons_append, List.append_assoc, measure_hex hh, measure_hex hl', hm]
    congr 1; omega

theorem write_ok {cap : Nat} {out t : Text} (h : (out ++ t).length ≤ cap) : write cap out t = .ok (out ++ t) := if_pos h

theorem advance_app {k : Nat} {t : Text} (r : Text) (h : t.length = k) : advance k (t ++ r) = .ok r := by
  subst h
  simp [advance]

theorem unicode_ok {t : Text} {n : Nat} (h : Hex4 t n) (h0 : n ≠ 0) (hn : n < 0xD800 ∨ 0xE000 ≤ n) (r : Text) :
    unicode (t ++ r) = .ok (utf8 n, r) := by
  unfold unicode
  simp only [hex4_parse h, advance_app r (hex4_len h).1, Outcome.bind]
  have := (hex4_len h).2
  rw [if_neg, if_neg, encode_utf8 n (by omega)]
  · simp only [Bool.and_eq_true, decide_eq_true_eq]; omega
  · simp only [Bool.or_eq_true, Bool.and_eq_true, decide_eq_true_eq, beq_iff_eq]; omega

theorem unicode_pair {t u : Text} {n m : Nat} (h : Hex4 t n) (h1 : 0xD800 ≤ n) (h2 : n < 0xDC00) (h' : Hex4 u m) (h3 : 0xDC00 ≤ m)
    (h4 : m < 0xE000) (r : Text) :
    unicode (t ++ '\\' :: 'u' :: (u ++ r)) = .ok (utf8 (0x10000 + (n - 0xD800) * 0x400 + (m - 0xDC00)), r) := by
  unfold unicode
  simp only [hex4_parse h, advance_app _ (hex4_len h).1, Outcome.bind]
  rw [if_neg, if_pos]
  · simp only [hex4_parse h', advance_app _ (hex4_len h').1, surrogates h1 h2 h3 h4]
    rw [if_neg, encode_utf8 _ (by omega)]
    simp only [Bool.or_eq_true, decide_eq_true_eq]; omega
  · simp only [Bool.and_eq_true, decide_eq_true_eq]; omega
  · simp only [Bool.or_eq_true, Bool.and_eq_true, decide_eq_true_eq, beq_iff_eq]; omega

theorem chars_copy {s t : Text} (h : Chars s t) :
    ∀ cap f out rest, out.length + s.length + 1 ≤ cap → t.length < f → copy cap f out (t ++ '"' :: rest) = .ok (out ++ s, rest) := by
  induction h with
  | nil =>
    intro cap f out rest hc hf
    cases f with
    | zero => omega
    | succ f =>
      simp only [List.nil_append, copy, if_pos]
      rw [write_ok (by simp only [List.length_append, List.length_cons, List.length_nil] at *; omega)]
      simp [Outcome.map]
  | plain c h1 h2 h3 _ ih =>
    intro cap f out rest hc hf
    cases f with
    | zero => omega
    | succ f =>
      simp only [List.cons_append, copy, if_neg h2, if_neg h3]
      simp only [List.length_cons] at hc hf
      rw [write_ok (by simp only [List.length_append, List.length_cons, List.length_nil] at *; omega)]
      simp only [Outcome.bind]
      rw [ih cap f _ rest (by simp only [List.length_append, List.length_cons, List.length_nil]; omega) (by omega)]
      simp
  | escape e k he _ ih =>
    intro cap f out rest hc hf
    cases f with
    | zero => omega
    | succ f =>
      have ⟨hu, hs⟩ := escapes_spec _ he
      simp only [List.cons_append, copy, if_neg (show ¬ '\\' = '"' by decide), if_pos, if_neg hu, hs]
      simp only [List.length_cons] at hc hf
      rw [write_ok (by simp only [List.length_append, List.length_cons, List.length_nil] at *; omega)]
      simp only [Outcome.bind]
      rw [ih cap f _ rest (by simp only [List.length_append, List.length_cons, List.length_nil]; omega) (by omega)]
      simp
  | unicode h k hh h0 hk _ ih =>
    intro cap f out rest hc hf
    cases f with
    | zero => omega
    | succ f =>
      simp only [List.cons_append, List.append_assoc, copy, if_neg (show ¬ '\\' = '"' by decide), if_pos, unicode_ok hh h0 hk]
      simp only [List.length_cons, List.length_append, List.cons_append] at hc hf
      simp only [Outcome.bind]
      rw [write_ok (by simp only [List.length_append] at *; omega)]
      dsimp only
      rw [ih cap f _ rest (by simp only [List.length_append]; omega) (by omega)]
      simp
  | pair h l k j hh hk1 hk2 hl' hj1 hj2 _ ih =>
    intro cap f out rest hc hf
    cases f with
    | zero => omega
    | succ f =>
      simp only [List.cons_append, List.append_assoc, copy, if_neg (show ¬ '\\' = '"' by decide), if_pos,
        unicode_pair hh hk1 hk2 hl' hj1 hj2]
      simp only [List.length_cons, List.length_append, List.cons_append] at hc hf
      simp only [Outcome.bind]
      rw [write_ok (by simp only [List.length_append] at *; omega)]
      dsimp only
      rw [ih cap f _ rest (by simp only [List.length_append]; omega) (by omega)]
      simp

theorem chars_string {s t : Text} (h : Chars s t) (rest : Text) : parseString ('"' :: (t ++ '"' :: rest)) = .ok (some (s, rest)) := by
  obtain ⟨m, hm, hl⟩ := chars_measure h 0 rest
  simp only [parseString, hm, Outcome.bind]
  rw [chars_copy h _ _ [] rest (by simp only [List.length_nil]; omega) (by simp only [List.length_append, List.length_cons]; omega)]
  simp [Outcome.map]

/-! ## Numbers -/

theorem foldl_worth : ∀ (l : Text) (a : Nat),
    l.foldl (fun a c => 10 * a + (c.toNat - 48)) a = a * 10 ^ l.length + worth l
  | [], a => by simp [worth]
  | c :: l, a => by
    rw [List.foldl_cons, foldl_worth l, worth, List.length_cons, Nat.pow_succ, Nat.add_mul, Nat.mul_comm 10 a, Nat.mul_assoc,
      Nat.mul_comm 10 (10 ^ l.length), Nat.add_assoc]

theorem value_worth (l : Text) : value l = worth l := by
  unfold value; rw [foldl_worth]; simp

theorem digit_iff (c : Char) : isDigit c = true ↔ '0' ≤ c ∧ c ≤ '9' := by
  simp only [isDigit, Bool.and_eq_true, decide_eq_true_eq]
  exact Iff.rfl

/-- What follows does not continue a number. -/
def Stop : Text → Prop
  | [] => True
  | c :: _ => isDigit c = false ∧ c ≠ '.' ∧ c ≠ 'e' ∧ c ≠ 'E'

theorem Stop.stops : ∀ {r : Text}, Stop r → Text.Stops r
  | [], _ => trivial
  | _ :: _, h => h.1

theorem exp_ok {e : Int} {et : Text}
    (h : (e = 0 ∧ et = []) ∨ ∃ x sg es, (x = 'e' ∨ x = 'E') ∧ Digits es ∧ et = x :: sg ++ es ∧
        ((sg = [] ∨ sg = ['+']) ∧ e = (worth es : Int) ∨ sg = ['-'] ∧ e = -(worth es : Int))) {rest : Text} (hr : Stop rest) :
    expPart (et ++ rest) = (e, rest) := by
  rcases h with ⟨rfl, rfl⟩ | ⟨x, sg, es, hx, hes, rfl, h⟩
  · cases rest with
    | nil => rfl
    | cons c r => simp only [List.nil_append, expPart, if_neg (show ¬ (c = 'e' ∨ c = 'E') from fun h => by rcases h with h | h; exact hr.2.2.1 h; exact hr.2.2.2 h)]
  · have hd : ∀ c ∈ es, isDigit c = true := fun c hc => (digit_iff c).2 (hes.2 c hc)
    have hw := Text.takeWhile_digits hd hr.stops
    have h1 := hw.1
    have h2 := hw.2
    rcases h with ⟨rfl | rfl, rfl⟩ | ⟨rfl, rfl⟩
    · cases es with
      | nil => exact absurd rfl hes.1
      | cons d es =>
        have hd0 := hd d List.mem_cons_self
        have p1 : d ≠ '+' := Text.digit_ne hd0 (by decide)
        have p2 : d ≠ '-' := Text.digit_ne hd0 (by decide)
        simp only [List.cons_append] at h1 h2
        simp only [List.cons_append, List.nil_append, expPart, if_pos hx]
        split
        · rename_i h; injection h with h _; exact absurd h p1
        · rename_i h; injection h with h _; exact absurd h p2
        · rw [h1, h2, value_worth]
    · simp only [List.cons_append, List.nil_append, expPart, if_pos hx, h1, h2, value_worth]
    · simp only [List.cons_append, List.nil_append, expPart, if_pos hx, h1, h2, value_worth]

theorem worth_zero (l : Text) : worth ('0' :: l) = worth l := by
  show (48 - 48) * 10 ^ l.length + worth l = worth l
  simp

/-- What follows the digits of a number: not a digit, and not a point. -/
theorem exp_first {e : Int} {et : Text}
    (h : (e = 0 ∧ et = []) ∨ ∃ x sg es, (x = 'e' ∨ x = 'E') ∧ Digits es ∧ et = x :: sg ++ es ∧
        ((sg = [] ∨ sg = ['+']) ∧ e = (worth es : Int) ∨ sg = ['-'] ∧ e = -(worth es : Int))) {rest : Text} (hr : Stop rest) :
    Text.Stops (et ++ rest) ∧ fracPart (et ++ rest) = [] := by
  rcases h with ⟨rfl, rfl⟩ | ⟨x, sg, es, hx, hes, rfl, h⟩
  · refine ⟨hr.stops, ?_⟩
    cases rest with
    | nil => rfl
    | cons c r =>
      have hc : c ≠ '.' := hr.2.1
      simp only [List.nil_append]
      unfold fracPart
      split
      · rename_i h; injection h with h _; exact absurd h hc
      · rfl
  · rcases hx with rfl | rfl <;> exact ⟨by show isDigit _ = false; decide, rfl⟩

theorem digits_text {l : Text} (h : Digits l) : ∀ c ∈ l, isDigit c = true := fun c hc => (digit_iff c).2 (h.2 c hc)

/-- The part of a number that follows the digits before the point. -/
theorem frac_ok {e : Int} {et fs rest : Text} (hf : fs = [] ∨ Digits fs)
    (h : (e = 0 ∧ et = []) ∨ ∃ x sg es, (x = 'e' ∨ x = 'E') ∧ Digits es ∧ et = x :: sg ++ es ∧
        ((sg = [] ∨ sg = ['+']) ∧ e = (worth es : Int) ∨ sg = ['-'] ∧ e = -(worth es : Int))) (hr : Stop rest) :
    let s := (if fs = [] then [] else '.' :: fs) ++ (et ++ rest)
    Text.Stops s ∧ fracPart s = fs ∧ expPart (if fs = [] then s else s.drop (fs.length + 1)) = (e, rest) := by
  intro s
  have ⟨h1, h2⟩ := exp_first h hr
  rcases hf with rfl | hf
  · refine ⟨h1, h2, ?_⟩
    exact exp_ok h hr
  · have hs : s = '.' :: (fs ++ (et ++ rest)) := by simp only [s, if_neg hf.1, List.cons_append]
    rw [hs]
    refine ⟨by show isDigit _ = false; decide, (Text.takeWhile_digits (digits_text hf) h1).1, ?_⟩
    rw [if_neg hf.1]
    simp only [List.drop_succ_cons, List.drop_left]
    exact exp_ok h hr

theorem no_minus : ∀ {body : Text}, (∀ r, body ≠ '-' :: r) → minus body = (false, body)
  | [], _ => rfl
  | c :: r, h => by simp only [minus, if_neg (show ¬ c = '-' from fun e => h r (by rw [e]))]

theorem parseNumber_of {neg : Bool} {ds fs rest t : Text} {e : Int} (body u : Text)
    (hz : zero body = u) (ht : t = (if neg then ['-'] else []) ++ body)
    (hb : ∀ r, body ≠ '-' :: r) (hu : intPart u = ds)
    (hfr : fracPart (u.drop ds.length) = fs)
    (hex : expPart (if fs = [] then u.drop ds.length else (u.drop ds.length).drop (fs.length + 1)) = (e, rest)) :
    parseNumber t = (⟨neg, worth (ds ++ fs), e - fs.length⟩, rest) := by
  have hh := no_minus hb
  cases neg with
  | true =>
    subst ht
    simp only [if_true, List.cons_append, List.nil_append, parseNumber, minus, hz, hu, hfr, hex, value_worth]
  | false =>
    subst ht
    simp only [parseNumber, hh, hz, hu, hfr, hex, value_worth]

theorem number_ok {n : Num} {t : Text} (h : Number n t) {rest : Text} (hr : Stop rest) : parseNumber (t ++ rest) = (n, rest) := by
  obtain ⟨neg, ds, fs, e, et, hds, hz, hf, he⟩ := h
  have ⟨h1, h2, h3⟩ := frac_ok hf he hr
  generalize hs : (if fs = [] then [] else '.' :: fs) ++ (et ++ rest) = s at *
  have ht : (if neg then ['-'] else []) ++ ds ++ (if fs = [] then [] else '.' :: fs) ++ et ++ rest
      = (if neg then ['-'] else []) ++ (ds ++ s) := by rw [← hs]; simp only [List.append_assoc]
  rw [ht]
  have hd := digits_text hds
  cases ds with
  | nil => exact absurd rfl hds.1
  | cons d ds =>
    have hd0 := hd d List.mem_cons_self
    have hm : ∀ r, d :: ds ++ s ≠ '-' :: r := by
      intro r h
      simp only [List.cons_append, List.cons.injEq] at h
      exact absurd h.1 (Text.digit_ne hd0 (by decide))
    rcases hz with hz | hz
    · injection hz with hz1 hz2
      subst hz1; subst hz2
      have hi : intPart s = [] := by
        cases s with
        | nil => rfl
        | cons c r =>
          have hc : isDigit c = false := h1
          simp only [intPart]
          rw [if_neg]
          simp only [isDigit, Bool.and_eq_false_iff, decide_eq_false_iff_not] at hc
          simp only [Bool.and_eq_true, decide_eq_true_eq]
          omega
      have := parseNumber_of (neg := neg) (ds := []) (fs := fs) (e := e) (rest := rest) ('0' :: s) s rfl rfl hm hi h2 h3
      simp only [List.cons_append, List.nil_append, worth_zero] at this ⊢
      exact this
    · have hd1 : d ≠ '0' := fun h => hz (by rw [h]; rfl)
      have hi : intPart (d :: ds ++ s) = d :: ds := by
        have hw := (Text.takeWhile_digits (fun c hc => hd c (List.mem_cons_of_mem _ hc)) h1).1
        simp only [List.cons_append, intPart, hw]
        rw [if_pos]
        have hne : d.toNat ≠ 48 := fun h => hd1 (Char.toNat_inj.1 h)
        simp only [isDigit, Bool.and_eq_true, decide_eq_true_eq] at hd0 ⊢
        omega
      have hu : zero (d :: ds ++ s) = d :: ds ++ s := by simp only [List.cons_append, zero, if_neg hd1]
      exact parseNumber_of (neg := neg) (ds := d :: ds) (d :: ds ++ s) (d :: ds ++ s) hu rfl hm hi
        (by rw [List.drop_left]; exact h2) (by rw [List.drop_left]; exact h3)

theorem number_first {n : Num} {t : Text} (h : Number n t) : ∃ c r, t = c :: r ∧ (c = '-' ∨ isDigit c = true) := by
  obtain ⟨neg, ds, fs, e, et, hds, hz, hf, he⟩ := h
  cases neg with
  | true => exact ⟨'-', _, rfl, .inl rfl⟩
  | false =>
    cases ds with
    | nil => exact absurd rfl hds.1
    | cons d ds => exact ⟨d, _, rfl, .inr (digits_text hds d List.mem_cons_self)⟩


/-! ## Values -/

theorem skip_ws {w : Text} (h : Ws w) (r : Text) : skip (w ++ r) = skip r := by
  unfold skip
  rw [List.dropWhile_append_of_pos]
  intro c hc
  rcases h c hc with rfl | rfl | rfl | rfl <;> decide

theorem skip_cons {c : Char} (r : Text) (h : 32 < c.toNat) : skip (c :: r) = c :: r := by
  unfold skip
  rw [List.dropWhile_cons_of_neg]
  simp only [decide_eq_true_eq]; omega

theorem skip_skip (s : Text) : skip (skip s) = skip s := by
  unfold skip
  induction s with
  | nil => rfl
  | cons c r ih =>
    by_cases h : c.toNat ≤ 32
    · rw [List.dropWhile_cons_of_pos (by simpa using h), ih]
    · rw [List.dropWhile_cons_of_neg (by simpa using h), List.dropWhile_cons_of_neg (by simpa using h)]

theorem ws_stop {w : Text} (h : Ws w) {c : Char} (r : Text) (hc : isDigit c = false ∧ c ≠ '.' ∧ c ≠ 'e' ∧ c ≠ 'E') : Stop (w ++ c :: r) := by
  cases w with
  | nil => exact hc
  | cons d w =>
    rcases h d List.mem_cons_self with rfl | rfl | rfl | rfl <;> (show _ ∧ _ ∧ _ ∧ _; decide)

theorem ws_stop' {w : Text} (h : Ws w) : Stop w := by
  cases w with
  | nil => trivial
  | cons d w =>
    rcases h d List.mem_cons_self with rfl | rfl | rfl | rfl <;> (show _ ∧ _ ∧ _ ∧ _; decide)

/-- A value starts with something that is neither white space nor a closing bracket. -/
theorem spells_first {v : Json} {t : Text} (h : Spells v t) : ∃ c r, t = c :: r ∧ 32 < c.toNat ∧ c ≠ ']' ∧ c ≠ '}' := by
  cases h with
  | null => exact ⟨'n', _, rfl, by decide⟩
  | true => exact ⟨'t', _, rfl, by decide⟩
  | false => exact ⟨'f', _, rfl, by decide⟩
  | num h =>
    obtain ⟨c, r, ht, hc⟩ := number_first h
    refine ⟨c, r, ht, ?_⟩
    rcases hc with rfl | hc
    · decide
    · refine ⟨?_, Text.digit_ne hc (by decide), Text.digit_ne hc (by decide)⟩
      simp only [isDigit, Bool.and_eq_true, decide_eq_true_eq] at hc
      omega
  | str _ => exact ⟨'"', _, rfl, by decide⟩
  | empty _ => exact ⟨'[', _, rfl, by decide⟩
  | arr _ => exact ⟨'[', _, rfl, by decide⟩
  | none _ => exact ⟨'{', _, rfl, by decide⟩
  | obj _ => exact ⟨'{', _, rfl, by decide⟩

/-- No literal starts with the character. -/
theorem no_literal {c : Char} (r : Text) (h1 : c ≠ 'n') (h2 : c ≠ 'f') (h3 : c ≠ 't') :
    "null".toList.isPrefixOf (c :: r) = false ∧ "false".toList.isPrefixOf (c :: r) = false ∧ "true".toList.isPrefixOf (c :: r) = false := by
  refine ⟨?_, ?_, ?_⟩
  · show (('n' == c) && _) = false
    rw [beq_eq_false_iff_ne.2 (Ne.symm h1)]; rfl
  · show (('f' == c) && _) = false
    rw [beq_eq_false_iff_ne.2 (Ne.symm h2)]; rfl
  · show (('t' == c) && _) = false
    rw [beq_eq_false_iff_ne.2 (Ne.symm h3)]; rfl

theorem elems_first {l : List Json} {t : Text} (h : Elems l t) (r : Text) : ∃ c r', skip (t ++ r) = c :: r' ∧ c ≠ ']' := by
  have key : ∀ {v a t} (r : Text), Ws a → Spells v t → ∃ c r', skip (a ++ (t ++ r)) = c :: r' ∧ c ≠ ']' := by
    intro v a t r ha hv
    obtain ⟨c, r', rfl, h1, h2, _⟩ := spells_first hv
    exact ⟨c, r' ++ r, by rw [skip_ws ha, List.cons_append, skip_cons _ h1], h2⟩
  cases h with
  | one ha hv hb => rw [List.append_assoc, List.append_assoc]; exact key _ ha hv
  | more ha hv hb _ => rw [List.append_assoc, List.append_assoc, List.append_assoc]; exact key _ ha hv

theorem members_first {l : List (Text × Json)} {t : Text} (h : Members l t) (r : Text) : ∃ r', skip (t ++ r) = '"' :: r' := by
  have key : ∀ {a : Text} (r : Text), Ws a → ∃ r', skip (a ++ '"' :: r) = '"' :: r' := by
    intro a r ha
    exact ⟨r, by rw [skip_ws ha, skip_cons _ (by decide)]⟩
  cases h with
  | one ha hs hb hc hv hd => simp only [List.append_assoc, List.cons_append]; exact key _ ha
  | more ha hs hb hc hv hd _ => simp only [List.append_assoc, List.cons_append]; exact key _ ha

theorem parseElems_skip (f : Nat) (s : Text) : parseElems f (skip s) = parseElems f s := by
  cases f with
  | zero => simp only [parseElems]
  | succ f => simp only [parseElems, skip_skip]

theorem parseMembers_skip (f : Nat) (s : Text) : parseMembers f (skip s) = parseMembers f s := by
  cases f with
  | zero => simp only [parseMembers]
  | succ f => simp only [parseMembers, skip_skip]

mutual
theorem value_ok : ∀ {v : Json} {t : Text}, Spells v t → ∀ f rest, Stop rest → 2 * t.length + 1 ≤ f →
    parseValue f (t ++ rest) = .ok (some (v, rest))
  | _, _, h, 0, _, _, hf => by omega
  | _, _, .null, f + 1, rest, _, _ => rfl
  | _, _, .true, f + 1, rest, _, _ => rfl
  | _, _, .false, f + 1, rest, _, _ => rfl
  | _, _, .num (n := n) h, f + 1, rest, hr, _ => by
    have hp := number_ok h hr
    obtain ⟨c, r, rfl, hc⟩ := number_first h
    have hq : c ≠ '"' ∧ c ≠ 'n' ∧ c ≠ 'f' ∧ c ≠ 't' := by
      rcases hc with rfl | hc
      · decide
      · exact ⟨Text.digit_ne hc (by decide), Text.digit_ne hc (by decide), Text.digit_ne hc (by decide), Text.digit_ne hc (by decide)⟩
    have ⟨l1, l2, l3⟩ := no_literal (r ++ rest) hq.2.1 hq.2.2.1 hq.2.2.2
    rw [List.cons_append] at hp ⊢
    rw [parseValue]
    simp only [l1, l2, l3, Bool.false_eq_true, if_false, if_neg hq.1, if_pos hc, hp]
  | _, _, .str (t := t) h, f + 1, rest, _, _ => by
    have ⟨l1, l2, l3⟩ := no_literal (c := '"') (t ++ '"' :: rest) (by decide) (by decide) (by decide)
    have e : '"' :: t ++ ['"'] ++ rest = '"' :: (t ++ '"' :: rest) := by simp
    rw [e, parseValue]
    simp only [l1, l2, l3, Bool.false_eq_true, if_false, if_true, chars_string h, Parsed.andThen, Outcome.bind]
  | _, _, .empty (w := w) hw, f + 1, rest, _, _ => by
    have ⟨l1, l2, l3⟩ := no_literal (c := '[') (w ++ ']' :: rest) (by decide) (by decide) (by decide)
    have e : '[' :: w ++ [']'] ++ rest = '[' :: (w ++ ']' :: rest) := by simp
    rw [e, parseValue]
    have hs : skip (w ++ ']' :: rest) = ']' :: rest := by rw [skip_ws hw, skip_cons _ (by decide)]
    simp only [l1, l2, l3, Bool.false_eq_true, if_false, if_true, hs, if_neg (show ¬ '[' = '"' by decide),
      if_neg (show ¬ ('[' = '-' ∨ isDigit '[' = true) by decide)]
  | _, _, .arr (l := l) (t := t) h, f + 1, rest, _, hf => by
    have ⟨l1, l2, l3⟩ := no_literal (c := '[') (t ++ ']' :: rest) (by decide) (by decide) (by decide)
    have e : '[' :: t ++ [']'] ++ rest = '[' :: (t ++ ']' :: rest) := by simp
    rw [e, parseValue]
    obtain ⟨c, r', hs, hc⟩ := elems_first h (']' :: rest)
    have hi := elems_ok h f rest (by simp only [List.length_append, List.length_cons, List.length_nil] at hf; omega)
    rw [← parseElems_skip] at hi
    simp only [l1, l2, l3, Bool.false_eq_true, if_false, if_true, if_neg (show ¬ '[' = '"' by decide),
      if_neg (show ¬ ('[' = '-' ∨ isDigit '[' = true) by decide)]
    rw [hs] at hi ⊢
    split
    · rename_i h; injection h with h _; exact absurd h hc
    · simp only [hi, Parsed.andThen, Outcome.bind]
  | _, _, .none (w := w) hw, f + 1, rest, _, _ => by
    have ⟨l1, l2, l3⟩ := no_literal (c := '{') (w ++ '}' :: rest) (by decide) (by decide) (by decide)
    have e : '{' :: w ++ ['}'] ++ rest = '{' :: (w ++ '}' :: rest) := by simp
    rw [e, parseValue]
    have hs : skip (w ++ '}' :: rest) = '}' :: rest := by rw [skip_ws hw, skip_cons _ (by decide)]
    simp only [l1, l2, l3, Bool.false_eq_true, if_false, if_true, hs, if_neg (show ¬ '{' = '"' by decide),
      if_neg (show ¬ '{' = '[' by decide), if_neg (show ¬ ('{' = '-' ∨ isDigit '{' = true) by decide)]
  | _, _, .obj (l := l) (t := t) h, f + 1, rest, _, hf => by
    have ⟨l1, l2, l3⟩ := no_literal (c := '{') (t ++ '}' :: rest) (by decide) (by decide) (by decide)
    have e : '{' :: t ++ ['}'] ++ rest = '{' :: (t ++ '}' :: rest) := by simp
    rw [e, parseValue]
    obtain ⟨r', hs⟩ := members_first h ('}' :: rest)
    have hi := members_ok h f rest (by simp only [List.length_append, List.length_cons, List.length_nil] at hf; omega)
    rw [← parseMembers_skip] at hi
    simp only [l1, l2, l3, Bool.false_eq_true, if_false, if_true, if_neg (show ¬ '{' = '"' by decide),
      if_neg (show ¬ '{' = '[' by decide), if_neg (show ¬ ('{' = '-' ∨ isDigit '{' = true) by decide)]
    rw [hs] at hi ⊢
    split
    · rename_i h; injection h with h _; exact absurd h (by decide)
    · simp only [hi, Parsed.andThen, Outcome.bind]
theorem elems_ok : ∀ {l : List Json} {t : Text}, Elems l t → ∀ f rest, 2 * t.length + 2 ≤ f →
    parseElems f (t ++ ']' :: rest) = .ok (some (l, rest))
  | _, _, h, 0, _, hf => by omega
  | _, _, .one (a := a) (t := t) (b := b) ha hv hb, f + 1, rest, hf => by
    have hi := value_ok hv f (b ++ ']' :: rest) (ws_stop hb _ (by decide)) (by simp only [List.length_append] at hf; omega)
    obtain ⟨c, r, rfl, h1, _⟩ := spells_first hv
    have e : a ++ c :: r ++ b ++ ']' :: rest = a ++ (c :: r ++ (b ++ ']' :: rest)) := by simp
    rw [e, parseElems, skip_ws ha]
    rw [List.cons_append] at hi ⊢
    rw [skip_cons _ h1, hi]
    simp only [Parsed.andThen, Outcome.bind, skip_ws hb, skip_cons (c := ']') rest (by decide)]
  | _, _, .more (a := a) (t := t) (b := b) (u := u) ha hv hb hl, f + 1, rest, hf => by
    have hi := value_ok hv f (b ++ ',' :: (u ++ ']' :: rest)) (ws_stop hb _ (by decide)) (by simp only [List.length_append] at hf; omega)
    have hj := elems_ok hl f rest (by simp only [List.length_append, List.length_cons] at hf; omega)
    obtain ⟨c, r, rfl, h1, _⟩ := spells_first hv
    have e : a ++ c :: r ++ b ++ ',' :: u ++ ']' :: rest = a ++ (c :: r ++ (b ++ ',' :: (u ++ ']' :: rest))) := by simp
    rw [e, parseElems, skip_ws ha]
    rw [List.cons_append] at hi ⊢
    rw [skip_cons _ h1, hi]
    simp only [Parsed.andThen, Outcome.bind, skip_ws hb, skip_cons (c := ',') _ (by decide), hj]
theorem members_ok : ∀ {l : List (Text × Json)} {t : Text}, Members l t → ∀ f rest, 2 * t.length + 2 ≤ f →
    parseMembers f (t ++ '}' :: rest) = .ok (some (l, rest))
  | _, _, h, 0, _, hf => by omega
  | _, _, .one (a := a) (s := s) (b := b) (c := w) (t := t) (d := d) ha hk hb hc hv hd, f + 1, rest, hf => by
    have hi := value_ok hv f (d ++ '}' :: rest) (ws_stop hd _ (by decide)) (by simp only [List.length_append, List.length_cons] at hf; omega)
    obtain ⟨c, r, rfl, h1, _⟩ := spells_first hv
    have e : a ++ ('"' :: s ++ ['"']) ++ b ++ ':' :: (w ++ c :: r ++ d) ++ '}' :: rest
        = a ++ '"' :: (s ++ '"' :: (b ++ ':' :: (w ++ (c :: r ++ (d ++ '}' :: rest))))) := by simp
    rw [e, parseMembers, skip_ws ha, skip_cons _ (by decide), chars_string hk]
    rw [List.cons_append] at hi ⊢
    simp only [Parsed.andThen, Outcome.bind, skip_ws hb, skip_cons (c := ':') _ (by decide), skip_ws hc, skip_cons (c := c) _ h1, hi,
      skip_ws hd, skip_cons (c := '}') _ (by decide)]
  | _, _, .more (a := a) (s := s) (b := b) (c := w) (t := t) (d := d) (u := u) ha hk hb hc hv hd hl, f + 1, rest, hf => by
    have hi := value_ok hv f (d ++ ',' :: (u ++ '}' :: rest)) (ws_stop hd _ (by decide)) (by simp only [List.length_append, List.length_cons] at hf; omega)
    have hj := members_ok hl f rest (by simp only [List.length_append, List.length_cons] at hf; omega)
    obtain ⟨c, r, rfl, h1, _⟩ := spells_first hv
    have e : a ++ ('"' :: s ++ ['"']) ++ b ++ ':' :: (w ++ c :: r ++ d ++ ',' :: u) ++ '}' :: rest
        = a ++ '"' :: (s ++ '"' :: (b ++ ':' :: (w ++ (c :: r ++ (d ++ ',' :: (u ++ '}' :: rest)))))) := by simp
    rw [e, parseMembers, skip_ws ha, skip_cons _ (by decide), chars_string hk]
    rw [List.cons_append] at hi ⊢
    simp only [Parsed.andThen, Outcome.bind, skip_ws hb, skip_cons (c := ':') _ (by decide), skip_ws hc, skip_cons (c := c) _ h1, hi,
      skip_ws hd, skip_cons (c := ',') _ (by decide), hj]
end


/-! ## Any text -/

theorem clean_cons {c : Char} {r : Text} (hc : c ≠ '\\') (h : Clean (c :: r)) : Clean r := by
  cases r with
  | nil => trivial
  | cons d r => simpa only [Clean, if_neg hc] using h

theorem clean_esc {d : Char} {r : Text} (h : Clean ('\\' :: d :: r)) : (d = 'u' → ∃ h n r', r = h ++ r' ∧ Hex4 h n) ∧ Clean r := by
  simpa only [Clean, if_true] using h

theorem clean_app : ∀ {l r : Text}, (∀ c ∈ l, c ≠ '\\') → Clean (l ++ r) → Clean r
  | [], _, _, h => h
  | c :: _, _, hl, h => clean_app (fun d hd => hl d (List.mem_cons_of_mem _ hd)) (clean_cons (hl c List.mem_cons_self) h)

theorem clean_drop {p : Char → Bool} (hp : p '\\' = false) : ∀ {s : Text}, Clean s → Clean (s.dropWhile p)
  | [], h => h
  | c :: s, h => by
    by_cases hc : p c = true
    · rw [List.dropWhile_cons_of_pos hc]
      exact clean_drop hp (clean_cons (by rintro rfl; rw [hp] at hc; cases hc) h)
    · rw [List.dropWhile_cons_of_neg hc]; exact h

theorem drop_len (p : Char → Bool) (s : Text) : (s.dropWhile p).length ≤ s.length := (List.dropWhile_suffix p).length_le

theorem skip_clean {s : Text} : Clean s → Clean (skip s) := clean_drop (by decide)
theorem skip_len (s : Text) : (skip s).length ≤ s.length := drop_len _ s

theorem measure_fine : ∀ (k : Nat) (s : Text) (n : Nat), s.length ≤ k → ∀ u, measure s n = .ub u → u = .outOfBounds
  | _, [], n, _, u, h => by simp only [measure] at h; cases h
  | _, [c], n, _, u, h => by
    simp only [measure] at h
    split at h
    · cases h
    · split at h
      · injection h with h; exact h.symm
      · cases h
  | 0, c :: d :: r, n, hk, _, _ => by simp only [List.length_cons] at hk; omega
  | k + 1, c :: d :: r, n, hk, u, h => by
    simp only [List.length_cons] at hk
    simp only [measure] at h
    split at h
    · cases h
    · split at h
      · exact measure_fine k r _ (by omega) u h
      · exact measure_fine k (d :: r) _ (by simp only [List.length_cons]; omega) u h

theorem write_fine (cap : Nat) (out t : Text) : write cap out t = .ok (out ++ t) ∨ write cap out t = .ub .outOfBounds := by
  unfold write; split
  · exact .inl rfl
  · exact .inr rfl

theorem advance_fine (k : Nat) (s : Text) : (advance k s = .ok (s.drop k)) ∨ advance k s = .ub .outOfBounds := by
  unfold advance; split
  · exact .inl rfl
  · exact .inr rfl

/-- Where `unicode` goes on. -/
def Goes (s : Text) (x : Outcome (Text × Text)) : Prop :=
  match x with
  | .ub u => u = .outOfBounds
  | .ok (_, r) => r.length ≤ s.length ∧ ((∃ h n r', s = h ++ r' ∧ Hex4 h n) → Clean s → Clean r)

theorem hex4_clean {h r : Text} {n : Nat} (hh : Hex4 h n) (hc : Clean (h ++ r)) : Clean r :=
  clean_app (fun c hc => (hex4_chars hh c hc).2) hc

theorem drop4_clean {s : Text} (hs : ∃ h n r', s = h ++ r' ∧ Hex4 h n) (hc : Clean s) : Clean (s.drop 4) := by
  obtain ⟨h, n, r', rfl, hh⟩ := hs
  rw [← (hex4_len hh).1, List.drop_left]
  exact hex4_clean hh hc

theorem unicode_goes (s : Text) : Goes s (unicode s) := by
  have hd : Goes s (.ok ([], s.drop 4)) := ⟨by simp only [List.length_drop]; omega, drop4_clean⟩
  have hd' : ∀ t, Goes s (.ok (t, s.drop 4)) := fun t => ⟨by simp only [List.length_drop]; omega, drop4_clean⟩
  unfold unicode
  rcases advance_fine 4 s with h | h
  · simp only [h, Outcome.bind]
    split
    · exact hd
    · split
      · split
        · rename_i r' hr
          have key : ∀ t, Goes s (.ok (t, r'.drop 4)) := fun t => by
            refine ⟨?_, fun hs hc => ?_⟩
            · have := congrArg List.length hr
              simp only [List.length_drop, List.length_cons] at this ⊢
              omega
            · have := drop4_clean hs hc
              rw [hr] at this
              have := clean_esc this
              exact drop4_clean (this.1 rfl) this.2
          rcases advance_fine 4 r' with h' | h'
          · simp only [h']
            split
            · exact key _
            · exact key _
          · simp only [h']; rfl
        · exact hd
      · exact hd' _
  · simp only [h, Outcome.bind]; rfl

/-- Where `copy` ends. -/
def Ends (s : Text) (x : Outcome (Text × Text)) : Prop :=
  match x with
  | .ub u => u = .outOfBounds
  | .ok (_, r) => r.length ≤ s.length ∧ (Clean s → Clean r)

theorem Ends.mono {s r : Text} {x : Outcome (Text × Text)} (h : Ends r x) (hl : r.length ≤ s.length) (hc : Clean s → Clean r) : Ends s x := by
  unfold Ends at h ⊢
  split at h
  · exact h
  · exact ⟨by omega, fun hs => h.2 (hc hs)⟩

theorem copy_fine (cap : Nat) : ∀ (f : Nat) (out s : Text), s.length < f → Ends s (copy cap f out s)
  | 0, _, _, h => by omega
  | f + 1, out, [], _ => by
    simp only [copy]
    rcases write_fine cap out [Char.ofNat 0] with h | h
    · simp only [h, Outcome.map]; exact ⟨Nat.le_refl _, id⟩
    · simp only [h, Outcome.map]; rfl
  | f + 1, out, c :: r, hf => by
    simp only [List.length_cons] at hf
    simp only [copy]
    split
    · rename_i hc
      rcases write_fine cap out [Char.ofNat 0] with h | h
      · simp only [h, Outcome.map]; exact ⟨by simp only [List.length_cons]; omega, clean_cons (by subst hc; decide)⟩
      · simp only [h, Outcome.map]; rfl
    · split
      · rename_i hc
        subst hc
        cases r with
        | nil => rfl
        | cons d r =>
          simp only [List.length_cons] at hf
          dsimp only
          split
          · rename_i hd
            subst hd
            have hg := unicode_goes r
            generalize unicode r = x at hg
            cases x with
            | ub u => exact hg
            | ok p =>
              obtain ⟨t, r''⟩ := p
              simp only [Outcome.bind]
              obtain ⟨hl, hcl⟩ := hg
              rcases write_fine cap out t with h | h
              · simp only [h]
                exact (copy_fine cap f (out ++ t) r'' (by omega)).mono (by simp only [List.length_cons]; omega)
                  fun hc => hcl ((clean_esc hc).1 rfl) (clean_esc hc).2
              · simp only [h]; rfl
          · rcases write_fine cap out [escape d] with h | h
            · simp only [h, Outcome.bind]
              exact (copy_fine cap f (out ++ [escape d]) r (by omega)).mono (by simp only [List.length_cons]; omega)
                fun hc => (clean_esc hc).2
            · simp only [h, Outcome.bind]; rfl
      · rename_i h1 h2
        rcases write_fine cap out [c] with h | h
        · simp only [h, Outcome.bind]
          exact (copy_fine cap f (out ++ [c]) r (by omega)).mono (by simp only [List.length_cons]; omega) (clean_cons h2)
        · simp only [h, Outcome.bind]; rfl

theorem encode_len (uc : Nat) : (encode uc).length ≤ 4 ∧ (uc < 0x10000 → (encode uc).length ≤ 3) := by
  unfold encode
  by_cases h1 : uc < 0x80
  · simp [h1]
  · by_cases h2 : uc < 0x800
    · simp [h1, h2]
    · by_cases h3 : uc < 0x10000
      · simp [h1, h2, h3]
      · simp [h1, h2, h3]

/-- What `unicode` writes is not longer than what it consumes was counted. -/
theorem unicode_counted {s : Text} (hs : ∃ h n r', s = h ++ r' ∧ Hex4 h n) (hc : Clean s) (n : Nat) :
    ∃ t r k, unicode s = .ok (t, r) ∧ t.length ≤ k + 1 ∧ measure s n = measure r (n + k) ∧ r.length ≤ s.length ∧ Clean r := by
  obtain ⟨h, m, r, rfl, hh⟩ := hs
  have hm : measure (h ++ r) n = measure r (n + 4) := by rw [measure_plains _ _ _ (hex4_chars hh), (hex4_len hh).1]
  have hr := hex4_clean hh hc
  have hlen : r.length ≤ (h ++ r).length := by simp
  unfold unicode
  simp only [hex4_parse hh, advance_app r (hex4_len hh).1, Outcome.bind]
  split
  · exact ⟨[], r, 4, rfl, by simp, hm, hlen, hr⟩
  · split
    · split
      · rename_i r'
        obtain ⟨h', m', r'', rfl, hh'⟩ := (clean_esc hr).1 rfl
        have hr' := hex4_clean hh' (clean_esc hr).2
        have hm' : measure (h ++ '\\' :: 'u' :: (h' ++ r'')) n = measure r'' (n + 9) := by rw [hm, measure_hex hh']
        have hl : r''.length ≤ (h ++ '\\' :: 'u' :: (h' ++ r'')).length := by simp; omega
        simp only [hex4_parse hh', advance_app r'' (hex4_len hh').1]
        split
        · exact ⟨[], r'', 9, rfl, by simp, hm', hl, hr'⟩
        · exact ⟨_, r'', 9, rfl, Nat.le_trans (encode_len _).1 (by omega), hm', hl, hr'⟩
      · exact ⟨[], r, 4, rfl, by simp, hm, hlen, hr⟩
    · exact ⟨_, r, 4, rfl, Nat.le_trans (encode_len _).1 (by omega), hm, hlen, hr⟩

theorem copy_clean : ∀ (k : Nat) (s : Text), s.length ≤ k → Clean s → ∀ n,
    ∃ m, measure s n = .ok (n + m) ∧ ∀ cap f out, s.length < f → out.length + m + 1 ≤ cap → ∃ p, copy cap f out s = .ok p
  | _, [], _, _, n => by
    refine ⟨0, by simp only [measure]; rfl, ?_⟩
    intro cap f out hf hcap
    cases f with
    | zero => omega
    | succ f =>
      simp only [copy]
      rw [write_ok (by simp only [List.length_append, List.length_cons, List.length_nil] at *; omega)]
      exact ⟨_, rfl⟩
  | 0, c :: r, hk, _, _ => by simp only [List.length_cons] at hk; omega
  | k + 1, c :: r, hk, hc, n => by
    simp only [List.length_cons] at hk
    by_cases h1 : c = '"'
    · subst h1
      refine ⟨0, by cases r <;> simp [measure], ?_⟩
      intro cap f out hf hcap
      cases f with
      | zero => omega
      | succ f =>
        simp only [copy, if_true]
        rw [write_ok (by simp only [List.length_append, List.length_cons, List.length_nil] at *; omega)]
        exact ⟨_, rfl⟩
    · by_cases h2 : c = '\\'
      · subst h2
        cases r with
        | nil => exact absurd rfl hc
        | cons d r =>
          simp only [List.length_cons] at hk
          obtain ⟨hu, hr⟩ := clean_esc hc
          by_cases h3 : d = 'u'
          · subst h3
            obtain ⟨t, r', j, hun, ht, hm, hl, hcl⟩ := unicode_counted (hu rfl) hr (n + 1)
            obtain ⟨m, hm', hcopy⟩ := copy_clean k r' (by omega) hcl (n + 1 + j)
            refine ⟨m + 1 + j, by rw [measure_esc, hm, hm']; congr 1; omega, ?_⟩
            intro cap f out hf hcap
            simp only [List.length_cons] at hf
            cases f with
            | zero => omega
            | succ f =>
              simp only [copy, if_neg h1, if_true, hun, Outcome.bind]
              rw [write_ok (by simp only [List.length_append] at *; omega)]
              dsimp only
              exact hcopy cap f _ (by omega) (by simp only [List.length_append]; omega)
          · obtain ⟨m, hm', hcopy⟩ := copy_clean k r (by omega) hr (n + 1)
            refine ⟨m + 1, by rw [measure_esc, hm']; congr 1; omega, ?_⟩
            intro cap f out hf hcap
            simp only [List.length_cons] at hf
            cases f with
            | zero => omega
            | succ f =>
              simp only [copy, if_neg h1, if_true, if_neg h3]
              rw [write_ok (by simp only [List.length_append, List.length_cons, List.length_nil] at *; omega)]
              exact hcopy cap f _ (by omega) (by simp only [List.length_append, List.length_cons, List.length_nil]; omega)
      · obtain ⟨m, hm', hcopy⟩ := copy_clean k r (by omega) (clean_cons h2 hc) (n + 1)
        refine ⟨m + 1, by rw [measure_plain _ _ h1 h2, hm']; congr 1; omega, ?_⟩
        intro cap f out hf hcap
        simp only [List.length_cons] at hf
        cases f with
        | zero => omega
        | succ f =>
          simp only [copy, if_neg h1, if_neg h2]
          rw [write_ok (by simp only [List.length_append, List.length_cons, List.length_nil] at *; omega)]
          exact hcopy cap f _ (by omega) (by simp only [List.length_append, List.length_cons, List.length_nil]; omega)

/-- The outcomes that a text allows: the reader ends; it consumes something if it succeeds; and if the text is clean, it is safe and
leaves a clean text. -/
def Good {α : Type} (s : Text) (x : Parsed α) : Prop :=
  match x with
  | .ub u => u = .outOfBounds ∧ ¬ Clean s
  | .ok none => True
  | .ok (some (_, r)) => r.length < s.length ∧ (Clean s → Clean r)

theorem Good.mono {α : Type} {s r : Text} {x : Parsed α} (h : Good r x) (hl : r.length ≤ s.length) (hc : Clean s → Clean r) : Good s x := by
  unfold Good at h ⊢
  split at h
  · exact ⟨h.1, fun hs => h.2 (hc hs)⟩
  · trivial
  · exact ⟨by omega, fun hs => h.2 (hc hs)⟩

theorem Good.andThen {α β : Type} {s : Text} {x : Parsed α} {f : α → Text → Parsed β} (h : Good s x)
    (hf : ∀ a r, r.length < s.length → (Clean s → Clean r) → Good s (f a r)) : Good s (Parsed.andThen x f) := by
  unfold Good at h
  split at h
  · exact h
  · exact trivial
  · exact hf _ _ h.1 h.2

theorem string_good (s : Text) : Good s (parseString s) := by
  unfold parseString
  split
  · rename_i r
    cases hm : measure r 0 with
    | ub u =>
      simp only [Outcome.bind]
      refine ⟨measure_fine _ r 0 (Nat.le_refl _) u hm, fun hc => ?_⟩
      obtain ⟨m, h, _⟩ := copy_clean _ r (Nat.le_refl _) (clean_cons (by decide) hc) 0
      rw [hm] at h; cases h
    | ok n =>
      simp only [Outcome.bind]
      have hfine := copy_fine (n + 1) (r.length + 1) [] r (by omega)
      cases hcp : copy (n + 1) (r.length + 1) [] r with
      | ub u =>
        rw [hcp] at hfine
        refine ⟨hfine, fun hc => ?_⟩
        obtain ⟨m, h, hcopy⟩ := copy_clean _ r (Nat.le_refl _) (clean_cons (by decide) hc) 0
        rw [hm] at h
        injection h with h
        obtain ⟨p, hp⟩ := hcopy (n + 1) (r.length + 1) [] (by omega) (by simp only [List.length_nil]; omega)
        rw [hcp] at hp; cases hp
      | ok p =>
        obtain ⟨o, r'⟩ := p
        rw [hcp] at hfine
        exact ⟨by simp only [List.length_cons]; have := hfine.1; omega, fun hc => hfine.2 (clean_cons (by decide) hc)⟩
  · trivial

/-- `r` is what is left of `s` after some characters that are not backslashes. -/
def After (s r : Text) : Prop := ∃ l, s = l ++ r ∧ ∀ c ∈ l, c ≠ '\\'

theorem After.refl (s : Text) : After s s := ⟨[], rfl, fun _ h => by cases h⟩
theorem After.trans {a b c : Text} (h : After a b) (h' : After b c) : After a c := by
  obtain ⟨l, rfl, hl⟩ := h
  obtain ⟨m, rfl, hm⟩ := h'
  exact ⟨l ++ m, by simp, fun x hx => by rcases List.mem_append.1 hx with hx | hx; exact hl x hx; exact hm x hx⟩
theorem After.cons {c : Char} (r : Text) (h : c ≠ '\\') : After (c :: r) r := ⟨[c], rfl, fun x hx => by simp at hx; subst hx; exact h⟩
theorem After.le {s r : Text} (h : After s r) : r.length ≤ s.length := by obtain ⟨l, rfl, _⟩ := h; simp
theorem After.clean {s r : Text} (h : After s r) (hc : Clean s) : Clean r := by obtain ⟨l, rfl, hl⟩ := h; exact clean_app hl hc

theorem after_dropWhile {p : Char → Bool} (hp : p '\\' = false) (s : Text) : After s (s.dropWhile p) :=
  ⟨s.takeWhile p, List.takeWhile_append_dropWhile.symm, fun c hc => by
    rintro rfl
    have := List.all_takeWhile (p := p) (l := s)
    have := List.all_eq_true.1 this _ hc
    rw [hp] at this; cases this⟩

theorem after_drop (l s : Text) (hl : ∀ c ∈ l, c ≠ '\\') (h : l <+: s) : After s (s.drop l.length) := by
  obtain ⟨r, rfl⟩ := h
  exact ⟨l, by rw [List.drop_left], hl⟩

theorem isDigit_ne {c : Char} (h : isDigit c = true) : c ≠ '\\' := Text.digit_ne h (by decide)

theorem after_exp (s : Text) : After s (expPart s).2 := by
  cases s with
  | nil => exact .refl _
  | cons c r =>
    simp only [expPart]
    split
    · rename_i hc
      have h1 : After (c :: r) r := .cons r (by rcases hc with rfl | rfl <;> decide)
      split
      · exact h1.trans ((After.cons _ (by decide)).trans (after_dropWhile (by decide) _))
      · exact h1.trans ((After.cons _ (by decide)).trans (after_dropWhile (by decide) _))
      · exact h1.trans (after_dropWhile (by decide) _)
    · exact .refl _

theorem mem_takeWhile_digit {l : Text} {c : Char} (h : c ∈ l.takeWhile isDigit) : isDigit c = true :=
  List.all_eq_true.1 (List.all_takeWhile (p := isDigit) (l := l)) _ h

theorem after_int (s : Text) : After s (s.drop (intPart s).length) := by
  apply after_drop
  · intro c hc
    cases s with
    | nil => simp [intPart] at hc
    | cons d r =>
      simp only [intPart] at hc
      split at hc
      · rename_i h
        rcases List.mem_cons.1 hc with rfl | hc
        · rintro rfl; revert h; decide
        · exact isDigit_ne (mem_takeWhile_digit hc)
      · cases hc
  · cases s with
    | nil => exact List.prefix_refl _
    | cons d r =>
      simp only [intPart]
      split
      · exact (List.prefix_cons_inj _).2 (List.takeWhile_prefix _)
      · exact List.nil_prefix

theorem after_frac (s : Text) : After s (if fracPart s = [] then s else s.drop ((fracPart s).length + 1)) := by
  split
  · exact .refl _
  · rename_i h
    unfold fracPart at h ⊢
    split at h
    · rename_i r
      simp only [List.drop_succ_cons]
      refine (After.cons r (by decide)).trans (after_drop _ _ ?_ (List.takeWhile_prefix _))
      intro c hc
      exact isDigit_ne (mem_takeWhile_digit hc)
    · exact absurd rfl h

theorem after_zero (s : Text) : After s (zero s) := by
  cases s with
  | nil => exact .refl _
  | cons c r =>
    simp only [zero]
    split
    · rename_i h; subst h; exact .cons r (by decide)
    · exact .refl _

theorem after_number (s : Text) : After (minus s).2 (parseNumber s).2 := by
  simp only [parseNumber]
  exact (after_zero _).trans ((after_int _).trans ((after_frac _).trans (after_exp _)))

/-- A number consumes its first character. -/
theorem number_good {c : Char} (r : Text) (h : c = '-' ∨ isDigit c = true) :
    (parseNumber (c :: r)).2.length < (c :: r).length ∧ (Clean (c :: r) → Clean (parseNumber (c :: r)).2) := by
  have ha := after_number (c :: r)
  have hne : c ≠ '\\' := by rcases h with rfl | h; decide; exact isDigit_ne h
  by_cases hm : c = '-'
  · subst hm
    have hms : (minus ('-' :: r)).2 = r := by simp [minus]
    rw [hms] at ha
    exact ⟨by have := ha.le; simp only [List.length_cons]; omega, fun hc => ha.clean (clean_cons hne hc)⟩
  · have hd : isDigit c = true := by rcases h with h | h; exact absurd h hm; exact h
    have hms : minus (c :: r) = (false, c :: r) := by simp [minus, hm]
    by_cases hz : c = '0'
    · subst hz
      have : After r (parseNumber ('0' :: r)).2 := by
        simp only [parseNumber, hms, zero, if_true]
        exact (after_int _).trans ((after_frac _).trans (after_exp _))
      exact ⟨by have := this.le; simp only [List.length_cons]; omega, fun hc => this.clean (clean_cons hne hc)⟩
    · have hi : intPart (c :: r) = c :: r.takeWhile isDigit := by
        simp only [intPart]
        rw [if_pos]
        have : c.toNat ≠ 48 := fun h => hz (Char.toNat_inj.1 h)
        simp only [isDigit, Bool.and_eq_true, decide_eq_true_eq] at hd ⊢
        omega
      have : After (r.drop (r.takeWhile isDigit).length) (parseNumber (c :: r)).2 := by
        simp only [parseNumber, hms, zero, if_neg hz, hi, List.length_cons, List.drop_succ_cons]
        exact (after_frac _).trans (after_exp _)
      have hle := this.le
      simp only [List.length_drop] at hle
      refine ⟨by simp only [List.length_cons]; omega, fun hc => ?_⟩
      exact this.clean ((after_drop _ r (fun d hd => isDigit_ne (mem_takeWhile_digit hd)) (List.takeWhile_prefix _)).clean (clean_cons hne hc))

theorem literal_good {l s : Text} (v : Json) (h : l.isPrefixOf s = true) (hl : ∀ c ∈ l, c ≠ '\\') (h0 : l ≠ []) :
    Good s (.ok (some (v, s.drop l.length))) := by
  have hp := List.isPrefixOf_iff_prefix.1 h
  have ha := after_drop l s hl hp
  refine ⟨?_, ha.clean⟩
  have := hp.length_le
  have : 0 < l.length := List.length_pos_iff.2 h0
  rw [List.length_drop]; omega

theorem all_good : ∀ (f : Nat),
    (∀ s, 2 * s.length + 1 ≤ f → Good s (parseValue f s)) ∧ (∀ s, 2 * s.length + 2 ≤ f → Good s (parseElems f s)) ∧
    (∀ s, 2 * s.length + 2 ≤ f → Good s (parseMembers f s))
  | 0 => ⟨fun _ h => by omega, fun _ h => by omega, fun _ h => by omega⟩
  | f + 1 => by
    obtain ⟨ihv, ihe, ihm⟩ := all_good f
    refine ⟨?_, ?_, ?_⟩
    · intro s hf
      cases s with
      | nil => exact trivial
      | cons c r =>
      simp only [List.length_cons] at hf
      rw [parseValue]
      split
      · rename_i h; exact literal_good _ h (by decide) (by decide)
      · split
        · rename_i h; exact literal_good _ h (by decide) (by decide)
        · split
          · rename_i h; exact literal_good _ h (by decide) (by decide)
          · · split
              · refine (string_good _).andThen fun a r' h1 h2 => ?_
                exact ⟨h1, h2⟩
              · split
                · rename_i h; exact number_good r h
                · split
                  · rename_i hc
                    subst hc
                    have hsk : Clean ('[' :: r) → Clean (skip r) := fun h => skip_clean (clean_cons (by decide) h)
                    have hsl := skip_len r
                    split
                    · rename_i r' hr
                      rw [hr] at hsk hsl
                      exact ⟨by simp only [List.length_cons] at *; omega, fun h => clean_cons (by decide) (hsk h)⟩
                    · refine Good.andThen ((ihe _ (by omega)).mono (by simp only [List.length_cons]; omega) hsk) fun a r' h1 h2 => ?_
                      exact ⟨h1, h2⟩
                  · split
                    · rename_i hc
                      subst hc
                      have hsk : Clean ('{' :: r) → Clean (skip r) := fun h => skip_clean (clean_cons (by decide) h)
                      have hsl := skip_len r
                      split
                      · rename_i r' hr
                        rw [hr] at hsk hsl
                        exact ⟨by simp only [List.length_cons] at *; omega, fun h => clean_cons (by decide) (hsk h)⟩
                      · refine Good.andThen ((ihm _ (by omega)).mono (by simp only [List.length_cons]; omega) hsk) fun a r' h1 h2 => ?_
                        exact ⟨h1, h2⟩
                    · exact trivial
    · intro s hf
      have hsl := skip_len s
      rw [parseElems]
      refine Good.andThen ((ihv _ (by omega)).mono hsl skip_clean) fun v r h1 h2 => ?_
      have hrl := skip_len r
      have hrc : Clean s → Clean (skip r) := fun h => skip_clean (h2 h)
      split
      · rename_i r' hr
        rw [hr] at hrl hrc
        simp only [List.length_cons] at hrl
        refine Good.andThen ((ihe r' (by omega)).mono (by omega) fun h => clean_cons (by decide) (hrc h)) fun l r h1 h2 => ?_
        exact ⟨h1, h2⟩
      · rename_i r' hr
        rw [hr] at hrl hrc
        simp only [List.length_cons] at hrl
        exact ⟨by omega, fun h => clean_cons (by decide) (hrc h)⟩
      · exact trivial
    · intro s hf
      have hsl := skip_len s
      rw [parseMembers]
      refine Good.andThen ((string_good _).mono hsl skip_clean) fun k r h1 h2 => ?_
      have hrl := skip_len r
      have hrc : Clean s → Clean (skip r) := fun h => skip_clean (h2 h)
      split
      · rename_i r' hr
        rw [hr] at hrl hrc
        simp only [List.length_cons] at hrl
        have hsl' := skip_len r'
        have hsc' : Clean s → Clean (skip r') := fun h => skip_clean (clean_cons (by decide) (hrc h))
        refine Good.andThen ((ihv _ (by omega)).mono (by omega) hsc') fun v r h1 h2 => ?_
        have hrl := skip_len r
        have hrc : Clean s → Clean (skip r) := fun h => skip_clean (h2 h)
        split
        · rename_i r' hr
          rw [hr] at hrl hrc
          simp only [List.length_cons] at hrl
          refine Good.andThen ((ihm r' (by omega)).mono (by omega) fun h => clean_cons (by decide) (hrc h)) fun l r h1 h2 => ?_
          exact ⟨h1, h2⟩
        · rename_i r' hr
          rw [hr] at hrl hrc
          simp only [List.length_cons] at hrl
          exact ⟨by omega, fun h => clean_cons (by decide) (hrc h)⟩
        · exact trivial
      · exact trivial

end Jool.Json
