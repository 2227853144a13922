import Verif.Model.Text
/-
The reader of JSON texts, `src/usr/util/cJSON.c`. (`usr/` abbreviates `src/usr/`.)

A text is the list of the bytes of the file (a `Char` is a byte) up to its end or its first NUL. The buffer has a NUL after them
(usr/util/file.c:87); memory ends there. A pointer into the text is what is left of it: `[]` means that it points to
the NUL, and to go beyond is `UB.outOfBounds`.

Simplifications.
* `malloc()` succeeds, lengths fit in an `int`, and the stack is large enough for the nesting of the text.
* Numbers are exact here and doubles there. They agree if there is no fraction and no exponent, and the number is at most 2^53:
  then every intermediate result is an integer that a double can hold. The exponent (an `int` there) does not overflow.
* `ep`, the position of the error, is not modelled: only the error message shows it.
-/
namespace Jool.Json
open Jool.Text (Text isDigit value)

/-- A number: ± mant × 10^exp. (`valuedouble`) -/
structure Num where
  neg : Bool
  mant : Nat
  exp : Int
deriving DecidableEq, Repr, Inhabited

/-- usr/util/cJSON.h:60-87 `struct cJSON`: `type`, and the members that go with it. Children are in the order of `next`. -/
inductive Json
  | null
  | bool (b : Bool)
  | num (n : Num)
  | str (s : Text)
  | arr (l : List Json)
  | obj (l : List (Text × Json))
deriving Repr, Inhabited

/-- The integer part of |n|, if |n| ≤ max. -/
def Num.upTo (n : Num) (max : Nat) : Option Nat :=
  if 0 ≤ n.exp then
    if n.mant * 10 ^ n.exp.toNat ≤ max then some (n.mant * 10 ^ n.exp.toNat) else none
  else
    if n.mant ≤ max * 10 ^ (-n.exp).toNat then some (n.mant / 10 ^ (-n.exp).toNat) else none

/-- usr/util/cJSON.c:98-101 `valueuint`, and whether `VALUENUM_UINT` is set. (A negative zero is not less than 0.) -/
def Num.uint (n : Num) : Option Nat :=
  if n.neg && n.mant != 0 then none else n.upTo 4294967295

/-- usr/util/cJSON.c:93-96 `valueint`. If the number is out of range, the member keeps the 0 of line 65. -/
def Num.int (n : Num) : Int :=
  if n.neg then match n.upTo 2147483648 with | some v => -(v : Int) | none => 0
  else match n.upTo 2147483647 with | some v => (v : Int) | none => 0

/-- usr/util/cJSON.c:123-127: the digits before the point, unless the first is not in 1-9. -/
def intPart : Text → Text
  | c :: r => if 49 ≤ c.toNat && c.toNat ≤ 57 then c :: r.takeWhile isDigit else []
  | [] => []

/-- usr/util/cJSON.c:130-136: the digits after the point. -/
def fracPart : Text → Text
  | '.' :: r => r.takeWhile isDigit
  | _ => []

/-- usr/util/cJSON.c:139-150: the exponent, and what is left. -/
def expPart : Text → Int × Text
  | c :: r =>
    if c = 'e' ∨ c = 'E' then
      match r with
      | '+' :: r' => ((value (r'.takeWhile isDigit) : Nat), r'.dropWhile isDigit)
      | '-' :: r' => (-(value (r'.takeWhile isDigit) : Nat), r'.dropWhile isDigit)
      | r' => ((value (r'.takeWhile isDigit) : Nat), r'.dropWhile isDigit)
    else (0, c :: r)
  | [] => (0, [])

/-- usr/util/cJSON.c:112-116: whether there is a minus, and what is left. -/
def minus : Text → Bool × Text
  | [] => (false, [])
  | c :: r => if c = '-' then (true, r) else (false, c :: r)

/-- usr/util/cJSON.c:118-120: what follows a zero. -/
def zero : Text → Text
  | [] => []
  | c :: r => if c = '0' then r else c :: r

/-- usr/util/cJSON.c:107-157 `parse_number`. -/
def parseNumber (s : Text) : Num × Text :=
  let neg := (minus s).1
  let s := zero (minus s).2
  let ds := intPart s
  let s := s.drop ds.length
  let fs := fracPart s
  let s := if fs = [] then s else s.drop (fs.length + 1)
  let e := expPart s
  (⟨neg, value (ds ++ fs), e.1 - fs.length⟩, e.2)

/-- One digit of usr/util/cJSON.c:165-207. -/
def hexDigit (c : Char) : Option Nat :=
  if 48 ≤ c.toNat && c.toNat ≤ 57 then some (c.toNat - 48)
  else if 65 ≤ c.toNat && c.toNat ≤ 70 then some (10 + c.toNat - 65)
  else if 97 ≤ c.toNat && c.toNat ≤ 102 then some (10 + c.toNat - 97)
  else none

/-- usr/util/cJSON.c:165-207 `parse_hex4`: 0 if there are not four digits. -/
def parseHex4 : Text → Nat
  | a :: b :: c :: d :: _ =>
    match hexDigit a, hexDigit b, hexDigit c, hexDigit d with
    | some a, some b, some c, some d => ((a * 16 + b) * 16 + c) * 16 + d
    | _, _, _, _ => 0
  | _ => 0

/-- usr/util/cJSON.c:210-212. -/
def firstByteMark : List Nat := [0x00, 0x00, 0xC0, 0xE0, 0xF0, 0xF8, 0xFC]

/-- The bytes that usr/util/cJSON.c:283-305 writes. (A `Char` here is one byte.) -/
def encode (uc : Nat) : Text :=
  let len := if uc < 0x80 then 1 else if uc < 0x800 then 2 else if uc < 0x10000 then 3 else 4
  let tail (k : Nat) : Char := Char.ofNat (((uc >>> (6 * k)) ||| 0x80) &&& 0xBF)
  Char.ofNat (((uc >>> (6 * (len - 1))) ||| firstByteMark.getD len 0) % 256)
    :: (if 4 ≤ len then [tail 2] else []) ++ (if 3 ≤ len then [tail 1] else []) ++ (if 2 ≤ len then [tail 0] else [])

/-- usr/util/cJSON.c:226-228: the first loop of `parse_string`, which counts. -/
def measure : Text → Nat → Outcome Nat
  | [], n => .ok n
  | [c], n => if c = '"' then .ok n else if c = '\\' then .ub .outOfBounds else .ok (n + 1)
  | c :: d :: r, n =>
    if c = '"' then .ok n
    else if c = '\\' then measure r (n + 1)
    else measure (d :: r) (n + 1)

/-- usr/util/cJSON.c:245-259, 307-309: the character that a backslash and `c` stand for. -/
def escape (c : Char) : Char :=
  if c = 'b' then Char.ofNat 8 else if c = 'f' then Char.ofNat 12 else if c = 'n' then Char.ofNat 10
  else if c = 'r' then Char.ofNat 13 else if c = 't' then Char.ofNat 9 else c

/-- `k` bytes further; the text must have them. -/
def advance (k : Nat) (s : Text) : Outcome Text := if k ≤ s.length then .ok (s.drop k) else .ub .outOfBounds

/-- usr/util/cJSON.c:260-306: `s` is what follows the `u`. What is written, and where the loop goes on. -/
def unicode (s : Text) : Outcome (Text × Text) :=
  let uc := parseHex4 s
  (advance 4 s).bind fun r =>
  if (0xDC00 ≤ uc && uc ≤ 0xDFFF) || uc == 0 then .ok ([], r)
  else if 0xD800 ≤ uc && uc ≤ 0xDBFF then
    match r with
    | '\\' :: 'u' :: r' =>
      let uc2 := parseHex4 r'
      (advance 4 r').bind fun r'' =>
      if uc2 < 0xDC00 || 0xDFFF < uc2 then .ok ([], r'')
      else .ok (encode ((((uc &&& 0x3FF) <<< 10) ||| (uc2 &&& 0x3FF)) + 0x10000), r'')
    | _ => .ok ([], r)
  else .ok (encode uc, r)

/-- Writes `t` after `out` into a buffer of `cap` bytes. -/
def write (cap : Nat) (out t : Text) : Outcome Text :=
  if (out ++ t).length ≤ cap then .ok (out ++ t) else .ub .outOfBounds

/-- usr/util/cJSON.c:237-315: the second loop of `parse_string`, which copies, and what follows it. The first argument bounds the
number of rounds (each of them consumes something). -/
def copy (cap : Nat) : Nat → Text → Text → Outcome (Text × Text)
  | 0, _, _ => .ub .infiniteLoop
  | f + 1, out, s =>
    match s with
    | [] => (write cap out [Char.ofNat 0]).map fun _ => (out, [])
    | c :: r =>
      if c = '"' then (write cap out [Char.ofNat 0]).map fun _ => (out, r)
      else if c = '\\' then
        match r with
        | [] => .ub .outOfBounds
        | d :: r' =>
          if d = 'u' then
            (unicode r').bind fun (t, r'') => (write cap out t).bind fun out => copy cap f out r''
          else (write cap out [escape d]).bind fun out => copy cap f out r'
      else (write cap out [c]).bind fun out => copy cap f out r

/-- A function that fails, or returns a value and where it stopped. -/
abbrev Parsed (α : Type) := Outcome (Option (α × Text))

/-- usr/util/cJSON.c:214-319 `parse_string`. -/
def parseString : Text → Parsed Text
  | '"' :: s => (measure s 0).bind fun n => (copy (n + 1) (s.length + 1) [] s).map some
  | _ => .ok none

/-- usr/util/cJSON.c:327-332 `skip`. -/
def skip (s : Text) : Text := s.dropWhile (fun c => c.toNat ≤ 32)

/-- If the parser succeeded, go on. -/
def Parsed.andThen {α β} (p : Parsed α) (f : α → Text → Parsed β) : Parsed β :=
  Outcome.bind p fun
    | none => .ok none
    | some (a, r) => f a r

mutual
/-- usr/util/cJSON.c:373-400 `parse_value`. The first argument bounds the depth of the recursion plus the rounds of the loops. -/
def parseValue : Nat → Text → Parsed Json
  | 0, _ => .ub .infiniteLoop
  | f + 1, s =>
    if "null".toList.isPrefixOf s then .ok (some (.null, s.drop 4))
    else if "false".toList.isPrefixOf s then .ok (some (.bool false, s.drop 5))
    else if "true".toList.isPrefixOf s then .ok (some (.bool true, s.drop 4))
    else
      match s with
      | [] => .ok none
      | c :: r =>
        if c = '"' then Parsed.andThen (parseString (c :: r)) fun t r => .ok (some (.str t, r))
        else if c = '-' ∨ isDigit c = true then .ok (some (.num (parseNumber (c :: r)).1, (parseNumber (c :: r)).2))
        else if c = '[' then
          -- 403-417 `parse_array`
          match skip r with
          | ']' :: r' => .ok (some (.arr [], r'))
          | r' => Parsed.andThen (parseElems f r') fun l r => .ok (some (.arr l, r))
        else if c = '{' then
          -- 443-458 `parse_object`
          match skip r with
          | '}' :: r' => .ok (some (.obj [], r'))
          | r' => Parsed.andThen (parseMembers f r') fun l r => .ok (some (.obj l, r))
        else .ok none
/-- usr/util/cJSON.c:419-440, the rest of `parse_array`: an element, and what follows it. -/
def parseElems : Nat → Text → Parsed (List Json)
  | 0, _ => .ub .infiniteLoop
  | f + 1, s =>
    Parsed.andThen (parseValue f (skip s)) fun v r =>
    match skip r with
    | ',' :: r' => Parsed.andThen (parseElems f r') fun l r => .ok (some (v :: l, r))
    | ']' :: r' => .ok (some ([v], r'))
    | _ => .ok none
/-- usr/util/cJSON.c:459-497, the rest of `parse_object`. -/
def parseMembers : Nat → Text → Parsed (List (Text × Json))
  | 0, _ => .ub .infiniteLoop
  | f + 1, s =>
    Parsed.andThen (parseString (skip s)) fun k r =>
    match skip r with
    | ':' :: r' =>
      Parsed.andThen (parseValue f (skip r')) fun v r =>
      match skip r with
      | ',' :: r' => Parsed.andThen (parseMembers f r') fun l r => .ok (some ((k, v) :: l, r))
      | '}' :: r' => .ok (some ([(k, v)], r'))
      | _ => .ok none
    | _ => .ok none
end

/-- usr/util/cJSON.c:335-370 `cJSON_ParseWithOpts`, `cJSON_Parse`: what follows the value is not looked at. -/
def parse (s : Text) : Outcome (Option Json) :=
  (parseValue (2 * s.length + 1) (skip s)).map fun o => o.map (·.1)

end Jool.Json
