import Verif.Model.Json
/-
The specification for C73: which texts spell which value, after RFC 8259 and RFC 3629. The theorems are in Props/Json.
-/
namespace Jool.Json
open Jool.Text (Text)

/-- RFC 8259, section 2: white space. -/
def Ws (w : Text) : Prop := ∀ c ∈ w, c = ' ' ∨ c = Char.ofNat 9 ∨ c = Char.ofNat 10 ∨ c = Char.ofNat 13

/-- A hexadecimal digit and its worth. -/
def Hex (c : Char) (n : Nat) : Prop := "0123456789abcdef".toList[n]? = some c ∨ "0123456789ABCDEF".toList[n]? = some c

/-- Four of them. -/
def Hex4 (t : Text) (n : Nat) : Prop :=
  ∃ a b c d x y z w, t = [a, b, c, d] ∧ Hex a x ∧ Hex b y ∧ Hex c z ∧ Hex d w ∧ n = 4096 * x + 256 * y + 16 * z + w

/-- RFC 3629, section 3: the bytes of a character. -/
def utf8 (n : Nat) : Text :=
  (if n < 0x80 then [n]
   else if n < 0x800 then [0xC0 + n / 64, 0x80 + n % 64]
   else if n < 0x10000 then [0xE0 + n / 4096, 0x80 + n / 64 % 64, 0x80 + n % 64]
   else [0xF0 + n / 262144, 0x80 + n / 4096 % 64, 0x80 + n / 64 % 64, 0x80 + n % 64]).map Char.ofNat

/-- RFC 8259, section 7: the escapes of two characters. -/
def escapes : List (Char × Nat) :=
  [('"', 0x22), ('\\', 0x5C), ('/', 0x2F), ('b', 8), ('f', 12), ('n', 10), ('r', 13), ('t', 9)]

/-- RFC 8259, section 7: `Chars s t`: between quotes, `t` spells the string `s`. (U+0000 is left out: it cannot be in a C string.) -/
inductive Chars : Text → Text → Prop
  | nil : Chars [] []
  | plain {s t} (c : Char) : 32 ≤ c.toNat → c ≠ '"' → c ≠ '\\' → Chars s t → Chars (c :: s) (c :: t)
  | escape {s t} (e : Char) (n : Nat) : (e, n) ∈ escapes → Chars s t → Chars (Char.ofNat n :: s) ('\\' :: e :: t)
  | unicode {s t} (h : Text) (n : Nat) : Hex4 h n → n ≠ 0 → (n < 0xD800 ∨ 0xE000 ≤ n) → Chars s t →
      Chars (utf8 n ++ s) ('\\' :: 'u' :: h ++ t)
  | pair {s t} (h l : Text) (n m : Nat) : Hex4 h n → 0xD800 ≤ n → n < 0xDC00 → Hex4 l m → 0xDC00 ≤ m → m < 0xE000 → Chars s t →
      Chars (utf8 (0x10000 + (n - 0xD800) * 0x400 + (m - 0xDC00)) ++ s) ('\\' :: 'u' :: h ++ '\\' :: 'u' :: l ++ t)

/-- One digit or more. -/
def Digits (t : Text) : Prop := t ≠ [] ∧ ∀ c ∈ t, '0' ≤ c ∧ c ≤ '9'

/-- The number that they are, in base ten. -/
def worth : Text → Nat
  | [] => 0
  | c :: r => (c.toNat - 48) * 10 ^ r.length + worth r

/-- RFC 8259, section 6: `minus`, `int`, `frac` and `exp`. -/
inductive Number : Num → Text → Prop
  | mk (neg : Bool) (ds fs : Text) (e : Int) (et : Text) : Digits ds → (ds = ['0'] ∨ ds.head? ≠ some '0') →
      (fs = [] ∨ Digits fs) →
      ((e = 0 ∧ et = []) ∨ ∃ x sg es, (x = 'e' ∨ x = 'E') ∧ Digits es ∧ et = x :: sg ++ es ∧
        ((sg = [] ∨ sg = ['+']) ∧ e = (worth es : Int) ∨ sg = ['-'] ∧ e = -(worth es : Int))) →
      Number ⟨neg, worth (ds ++ fs), e - fs.length⟩
        ((if neg then ['-'] else []) ++ ds ++ (if fs = [] then [] else '.' :: fs) ++ et)

mutual
/-- RFC 8259, sections 3 to 6: `t` spells the value. -/
inductive Spells : Json → Text → Prop
  | null : Spells .null "null".toList
  | true : Spells (.bool true) "true".toList
  | false : Spells (.bool false) "false".toList
  | num {n t} : Number n t → Spells (.num n) t
  | str {s t} : Chars s t → Spells (.str s) ('"' :: t ++ ['"'])
  | empty {w} : Ws w → Spells (.arr []) ('[' :: w ++ [']'])
  | arr {l t} : Elems l t → Spells (.arr l) ('[' :: t ++ [']'])
  | none {w} : Ws w → Spells (.obj []) ('{' :: w ++ ['}'])
  | obj {l t} : Members l t → Spells (.obj l) ('{' :: t ++ ['}'])
/-- Elements, separated by commas. -/
inductive Elems : List Json → Text → Prop
  | one {v a t b} : Ws a → Spells v t → Ws b → Elems [v] (a ++ t ++ b)
  | more {v a t b l u} : Ws a → Spells v t → Ws b → Elems l u → Elems (v :: l) (a ++ t ++ b ++ ',' :: u)
/-- Members, separated by commas. -/
inductive Members : List (Text × Json) → Text → Prop
  | one {k v a s b c t d} : Ws a → Chars k s → Ws b → Ws c → Spells v t → Ws d →
      Members [(k, v)] (a ++ ('"' :: s ++ ['"']) ++ b ++ ':' :: (c ++ t ++ d))
  | more {k v a s b c t d l u} : Ws a → Chars k s → Ws b → Ws c → Spells v t → Ws d → Members l u →
      Members ((k, v) :: l) (a ++ ('"' :: s ++ ['"']) ++ b ++ ':' :: (c ++ t ++ d ++ ',' :: u))
end

/-- RFC 8259, section 2: a value between white space. -/
def IsText (v : Json) (s : Text) : Prop := ∃ a t b, Ws a ∧ Spells v t ∧ Ws b ∧ s = a ++ t ++ b

/-- No escape sequence of the text is cut short: there is something after a backslash, and four hexadecimal digits after `\u`. -/
def Clean : Text → Prop
  | [] => True
  | [c] => c ≠ '\\'
  | c :: d :: r => if c = '\\' then (d = 'u' → ∃ h n r', r = h ++ r' ∧ Hex4 h n) ∧ Clean r else Clean (d :: r)

end Jool.Json
