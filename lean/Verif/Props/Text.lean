import Verif.Lemmas.Text
import Verif.Props.Requests
/-
C72. What the client prints can be typed back, and what is typed means what it says.
-/
namespace Jool.Text
open Jool.NlAttr Jool.Req
open Jool.JooldMsg (Byte)

/-- What libc promises about addresses: what it prints it reads back, in so many characters, of these kinds. -/
structure Inet.Ok (i : Inet) : Prop where
  v4 : ∀ a, i.pton4 (i.ntop4 a) = some a
  v6 : ∀ a, i.pton6 (i.ntop6 a) = some a
  len4 : ∀ a, (i.ntop4 a).length ≤ 15
  len6 : ∀ a, (i.ntop6 a).length ≤ 45
  chars4 : ∀ a, ∀ c ∈ i.ntop4 a, isDigit c = true ∨ c = '.'
  chars6 : ∀ a, ∀ c ∈ i.ntop6 a, isDigit c = true ∨ c ∈ ['a', 'b', 'c', 'd', 'e', 'f', ':', '.']
  dot : ∀ a, '.' ∈ i.ntop4 a
  colon : ∀ a, ':' ∈ i.ntop6 a

/-! ## Numbers -/

/-- **Numbers.** A text is read as a number iff it starts with digits and these are worth no more than the limit; the number is what
they are worth. -/
theorem number_partial (s : Text) (max : Nat) (hm : max < 2 ^ 64) :
    strToUll s max = if s.takeWhile isDigit ≠ [] ∧ value (s.takeWhile isDigit) ≤ max
      then some ⟨value (s.takeWhile isDigit), false, s.dropWhile isDigit⟩ else none := by
  cases s with
  | nil => rfl
  | cons c r =>
    by_cases hc : isDigit c = true
    · have hne : (c :: r).takeWhile isDigit ≠ [] := by simp [hc]
      unfold strToUll
      rw [if_pos (show validateUint (c :: r) = true from hc)]
      dsimp only
      rw [strtoull_first r hc]
      by_cases hv : value ((c :: r).takeWhile isDigit) < 2 ^ 64
      · rw [if_pos hv]
        simp only [Bool.false_eq_true, if_false]
        by_cases hx : value ((c :: r).takeWhile isDigit) ≤ max
        · rw [if_neg (by omega), if_pos ⟨hne, hx⟩]
        · rw [if_pos (by omega), if_neg (fun h => hx h.2)]
      · rw [if_neg hv, if_pos rfl, if_neg (fun h => hv (by have := h.2; omega))]
    · have h1 : validateUint (c :: r) = false := by simpa [validateUint] using hc
      have h2 : (c :: r).takeWhile isDigit = [] := by simp [hc]
      unfold strToUll
      rw [h1, h2]
      rfl

/-- What follows the digits is not looked at: "80x" is 80, and so is "80,90". -/
theorem garbage_accepted : strToU16 "80x".toList = some 80 ∧ strToU16 "80,90".toList = some 80
    ∧ strToU32 "5 apples".toList = some 5 := by decide

example : strToU16 "65535".toList = some 65535 ∧ strToU16 "65536".toList = none ∧ strToU16 "-1".toList = none
    ∧ strToU16 " 1".toList = none ∧ strToU16 [] = none := by decide

/-! ## Timeouts -/

/-- Specification: what `HH:MM:SS` (or less) is worth, in seconds. -/
def clock (parts : List Text) : Nat := parts.foldl (fun a p => 60 * a + value p) 0

/-- A time of day as it should be written: numbers separated by colons. -/
def colons : List Text → Text
  | [] => []
  | [p] => p
  | p :: q :: l => p ++ ':' :: colons (q :: l)

/-- The part after the point, or nothing. -/
def point : Option Text → Text
  | none => []
  | some f => '.' :: f

/-- Well written: one, two or three numbers, and at least three digits after the point; none too big for 64 bits. -/
def WellWritten (parts : List Text) (frac : Option Text) : Prop :=
  (1 ≤ parts.length ∧ parts.length ≤ 3) ∧ (∀ p ∈ parts, Digits p ∧ value p < 2 ^ 64)
  ∧ ∀ f ∈ frac, Digits f ∧ 3 ≤ f.length ∧ value f < 2 ^ 64

theorem stops_point (f : Option Text) : Stops (point f) := by cases f <;> trivial

theorem timeout_tail {sec : Nat} {f : Option Text} {s : Text} (hs : seconds s = some (sec, point f))
    (hf : ∀ g ∈ f, Digits g ∧ 3 ≤ g.length ∧ value g < 2 ^ 64) :
    strToTimeout s = some (BitVec.ofNat 32 (1000 * sec + (f.map value).getD 0)) := by
  unfold strToTimeout
  rw [hs]
  cases f with
  | none =>
    simp only [point, if_true, Option.map_none, Option.getD_none, Nat.add_zero]
    congr 1
    apply BitVec.eq_of_toNat_eq
    simp only [BitVec.toNat_ofNat]
    omega
  | some g =>
    obtain ⟨h1, h2, h3⟩ := hf g rfl
    have hn := strtoull_digits (rest := []) h1 trivial h3
    rw [List.append_nil] at hn
    simp only [point]
    rw [if_neg (by omega), hn]
    simp only [Bool.false_eq_true, if_false, if_true, Option.map_some, Option.getD_some]
    congr 1
    apply BitVec.eq_of_toNat_eq
    simp only [BitVec.toNat_ofNat]
    omega

/-- **Timeouts.** A timeout that is written as it should be is read as what it is worth, in milliseconds — modulo 2³². -/
theorem timeout_reads_partial (parts : List Text) (frac : Option Text) (h : WellWritten parts frac) :
    strToTimeout (colons parts ++ point frac)
      = some (BitVec.ofNat 32 (1000 * clock parts + (frac.map value).getD 0)) := by
  obtain ⟨⟨hl, hu⟩, hp, hf⟩ := h
  have hst := stops_point frac
  match parts, hl, hu, hp with
  | [a], _, _, hp =>
    obtain ⟨d1, v1⟩ := hp a List.mem_cons_self
    refine timeout_tail ?_ hf
    have := strtoull_digits d1 hst v1
    unfold seconds
    simp only [colons, this, clock, List.foldl_cons, List.foldl_nil, Nat.mul_zero, Nat.zero_add]
    cases frac <;> rfl
  | [a, b], _, _, hp =>
    obtain ⟨d1, v1⟩ := hp a List.mem_cons_self
    obtain ⟨d2, v2⟩ := hp b (List.mem_cons_of_mem _ List.mem_cons_self)
    have e1 := strtoull_digits (rest := ':' :: (b ++ point frac)) d1 rfl v1
    have e2 := strtoull_digits d2 hst v2
    have hs : seconds (colons [a, b] ++ point frac) = some ((60 * value a + value b) % 2 ^ 64, point frac) := by
      unfold seconds
      rw [show colons [a, b] ++ point frac = a ++ ':' :: (b ++ point frac) by simp [colons], e1]
      simp only [Bool.false_eq_true, if_false, sexagesimal, e2]
      cases frac <;> rfl
    rw [timeout_tail hs hf]
    congr 1
    apply BitVec.eq_of_toNat_eq
    simp only [BitVec.toNat_ofNat, clock, List.foldl_cons, List.foldl_nil]
    generalize (frac.map value).getD 0 = k
    omega
  | [a, b, c], _, _, hp =>
    obtain ⟨d1, v1⟩ := hp a List.mem_cons_self
    obtain ⟨d2, v2⟩ := hp b (List.mem_cons_of_mem _ List.mem_cons_self)
    obtain ⟨d3, v3⟩ := hp c (List.mem_cons_of_mem _ (List.mem_cons_of_mem _ List.mem_cons_self))
    have e1 := strtoull_digits (rest := ':' :: (b ++ ':' :: (c ++ point frac))) d1 rfl v1
    have e2 := strtoull_digits (rest := ':' :: (c ++ point frac)) d2 rfl v2
    have e3 := strtoull_digits d3 hst v3
    have hs : seconds (colons [a, b, c] ++ point frac)
        = some ((60 * ((60 * value a + value b) % 2 ^ 64) + value c) % 2 ^ 64, point frac) := by
      unfold seconds
      rw [show colons [a, b, c] ++ point frac = a ++ ':' :: (b ++ ':' :: (c ++ point frac)) by simp [colons], e1]
      simp only [Bool.false_eq_true, if_false, sexagesimal, e2, e3]
    rw [timeout_tail hs hf]
    congr 1
    apply BitVec.eq_of_toNat_eq
    simp only [BitVec.toNat_ofNat, clock, List.foldl_cons, List.foldl_nil]
    generalize (frac.map value).getD 0 = k
    omega

/-- What must not follow `n` numbers: anything but a point (or another colon), less than three characters after the point, or
anything after the digits that follow the point. -/
inductive BadTail (n : Nat) : Text → Prop
  | unit (c : Char) (r : Text) (hd : isDigit c = false) (hp : c ≠ '.') (hc : c = ':' → n = 3) : BadTail n (c :: r)
  | short (f : Text) (h : f.length < 3) : BadTail n ('.' :: f)
  | after (g : Text) (c : Char) (r : Text) (hg : Digits g) (hv : value g < 2 ^ 64) (hd : isDigit c = false) :
    BadTail n ('.' :: (g ++ c :: r))

theorem seconds_tail {parts : List Text} {t : Text} (hl : 1 ≤ parts.length ∧ parts.length ≤ 3)
    (hp : ∀ p ∈ parts, Digits p ∧ value p < 2 ^ 64) (hs : Stops t) (hc : ∀ r, t = ':' :: r → parts.length = 3) :
    ∃ sec, seconds (colons parts ++ t) = some (sec, t) := by
  have nc : parts.length ≠ 3 → ∀ r, t ≠ ':' :: r := fun hn r hr => hn (hc r hr)
  obtain ⟨hl, hu⟩ := hl
  match parts, hl, hu, hp, nc with
  | [a], _, _, hp, nc =>
    obtain ⟨d1, v1⟩ := hp a List.mem_cons_self
    have e := strtoull_digits d1 hs v1
    refine ⟨value a, ?_⟩
    unfold seconds
    simp only [colons, e, Bool.false_eq_true, if_false]
    split
    · exact absurd rfl (nc (by simp) _)
    · rfl
  | [a, b], _, _, hp, nc =>
    obtain ⟨d1, v1⟩ := hp a List.mem_cons_self
    obtain ⟨d2, v2⟩ := hp b (List.mem_cons_of_mem _ List.mem_cons_self)
    have e1 := strtoull_digits (rest := ':' :: (b ++ t)) d1 rfl v1
    have e2 := strtoull_digits d2 hs v2
    refine ⟨(60 * value a + value b) % 2 ^ 64, ?_⟩
    unfold seconds
    rw [show colons [a, b] ++ t = a ++ ':' :: (b ++ t) by simp [colons], e1]
    simp only [Bool.false_eq_true, if_false, sexagesimal, e2]
    split
    · rename_i h; cases h
    · rename_i r hr
      simp only [Option.some.injEq, Prod.mk.injEq] at hr
      exact absurd hr.2 (nc (by simp) _)
    · rename_i hr; exact hr.symm
  | [a, b, c], _, _, hp, _ =>
    obtain ⟨d1, v1⟩ := hp a List.mem_cons_self
    obtain ⟨d2, v2⟩ := hp b (List.mem_cons_of_mem _ List.mem_cons_self)
    obtain ⟨d3, v3⟩ := hp c (List.mem_cons_of_mem _ (List.mem_cons_of_mem _ List.mem_cons_self))
    have e1 := strtoull_digits (rest := ':' :: (b ++ ':' :: (c ++ t))) d1 rfl v1
    have e2 := strtoull_digits (rest := ':' :: (c ++ t)) d2 rfl v2
    have e3 := strtoull_digits d3 hs v3
    refine ⟨(60 * ((60 * value a + value b) % 2 ^ 64) + value c) % 2 ^ 64, ?_⟩
    unfold seconds
    rw [show colons [a, b, c] ++ t = a ++ ':' :: (b ++ ':' :: (c ++ t)) by simp [colons], e1]
    simp only [Bool.false_eq_true, if_false, sexagesimal, e2, e3]

/-- **Timeouts.** A text that begins as a timeout but does not end as one is refused. -/
theorem timeout_refuses_partial (parts : List Text) (t : Text) (hl : 1 ≤ parts.length ∧ parts.length ≤ 3)
    (hp : ∀ p ∈ parts, Digits p ∧ value p < 2 ^ 64) (h : BadTail parts.length t) : strToTimeout (colons parts ++ t) = none := by
  have key : Stops t ∧ ∀ r, t = ':' :: r → parts.length = 3 := by
    cases h with
    | unit c r hd hp hc => exact ⟨hd, fun r' hr => hc (by cases hr; rfl)⟩
    | short f h => exact ⟨rfl, fun r' hr => by cases hr⟩
    | after g c r hg hv hd => exact ⟨rfl, fun r' hr => by cases hr⟩
  obtain ⟨sec, hs⟩ := seconds_tail hl hp key.1 key.2
  unfold strToTimeout
  rw [hs]
  cases h with
  | unit c r hd hp hc =>
    split
    · rename_i h; cases h
    · rename_i h; simp only [Option.some.injEq, Prod.mk.injEq, List.cons.injEq] at h; exact absurd h.2.1 hp
    · rename_i h; cases h; rfl
  | short f h => simp only [h, if_true]
  | after g c r hg hv hd =>
    have e := strtoull_digits (rest := c :: r) hg hd hv
    simp only [e]
    split
    · rfl
    · simp

example : BadTail 1 "m".toList ∧ BadTail 2 ".5".toList ∧ BadTail 3 ".500s".toList ∧ BadTail 3 ":00".toList :=
  ⟨.unit _ _ rfl (by decide) (by decide), .short _ (by decide),
    .after "500".toList 's' [] (by unfold Digits; decide) (by decide +kernel) rfl, .unit _ _ rfl (by decide) (by decide)⟩

/-! ## Booleans -/

/-- **Booleans.** The words that are documented are read as what they say, in whatever case; nothing else is read. -/
theorem bool_reads (s : Text) (b : Bool) : strToBool s = some b ↔
    s.map Char.toLower ∈ if b then ["true".toList, "1".toList, "yes".toList, "on".toList]
      else ["false".toList, "0".toList, "no".toList, "off".toList] := by
  have e : ∀ w : Text, w.map Char.toLower = w → (caseEq s w = true ↔ s.map Char.toLower = w) := by
    intro w hw
    unfold caseEq
    rw [hw, beq_iff_eq]
  unfold strToBool
  simp only [Bool.or_eq_true, e "true".toList (by decide), e "1".toList (by decide), e "yes".toList (by decide),
    e "on".toList (by decide), e "false".toList (by decide), e "0".toList (by decide), e "no".toList (by decide), e "off".toList (by decide)]
  by_cases h1 : s.map Char.toLower ∈ ["true".toList, "1".toList, "yes".toList, "on".toList]
  · have h1' := h1
    simp only [List.mem_cons, List.not_mem_nil, or_false] at h1
    rw [if_pos (by simpa [or_assoc] using h1)]
    cases b with
    | true => simp only [if_true, h1']
    | false =>
      simp only [Bool.false_eq_true, if_false]
      constructor
      · intro h; cases h
      · intro h
        rcases h1 with h1 | h1 | h1 | h1 <;> rw [h1] at h <;> revert h <;> decide
  · have h1' := h1
    simp only [List.mem_cons, List.not_mem_nil, or_false] at h1
    rw [if_neg (by simpa [or_assoc] using h1)]
    by_cases h2 : s.map Char.toLower ∈ ["false".toList, "0".toList, "no".toList, "off".toList]
    · have h2' := h2
      simp only [List.mem_cons, List.not_mem_nil, or_false] at h2
      rw [if_pos (by simpa [or_assoc] using h2)]
      cases b with
      | true => simp only [if_true, h1', iff_false]; decide
      | false => simp only [Bool.false_eq_true, if_false, h2']
    · have h2' := h2
      simp only [List.mem_cons, List.not_mem_nil, or_false] at h2
      rw [if_neg (by simpa [or_assoc] using h2)]
      cases b with
      | true => simp only [if_true, h1', iff_false]; decide
      | false => simp only [Bool.false_eq_true, if_false, h2', iff_false]; decide

example : strToBool "Yes".toList = some true ∧ strToBool "OFF".toList = some false ∧ strToBool "2".toList = none := by decide

/-- What is missing: a timeout that does not fit in 32 bits of milliseconds (49.7 days) is accepted as another one. -/
theorem timeout_wraps : strToTimeout "4294968".toList = some 704 ∧ strToTimeout "1193:02:48".toList = some 704 := by
  decide +kernel

/-- Neither are texts that are not times refused: the empty text is zero, a negative number is a large one. And the part after the
point is always a number of milliseconds, however many digits it has. -/
theorem timeout_nonsense : strToTimeout [] = some 0 ∧ strToTimeout "-1".toList = some 4294966296
    ∧ strToTimeout "::5".toList = some 5000 ∧ strToTimeout "1.0005".toList = some 1005
    ∧ strToTimeout "1.5000".toList = some 6000 := by decide +kernel

example : strToTimeout "1:02:03.004".toList = some 3723004 ∧ strToTimeout "90".toList = some 90000
    ∧ strToTimeout "1.5".toList = none ∧ strToTimeout "5m".toList = none
    ∧ strToTimeout "99999999999999999999".toList = none := by decide +kernel

example : WellWritten ["1".toList, "02".toList, "03".toList] (some "004".toList) := by
  refine ⟨by decide, ?_, ?_⟩
  · unfold Digits; decide
  · intro f hf; cases hf; unfold Digits; decide

/-- The text of a timeout, as numbers. -/
theorem timeout2str_eq (ms : BitVec 32) : timeout2str ms
    = colons [dec (ms.toNat / 3600000), pad 2 (ms.toNat % 3600000 / 60000), pad 2 (ms.toNat % 60000 / 1000)]
      ++ point (if ms.toNat % 1000 = 0 then none else some (pad 3 (ms.toNat % 1000)))
    ∧ (timeout2str ms).length ≤ 14 := by
  have hlt := ms.isLt
  have l1 := dec_len (n := ms.toNat / 3600000) 3 (by omega)
  have l2 := pad_len (w := 2) (n := ms.toNat % 3600000 / 60000) 1 (by decide) (by omega)
  have l3 := pad_len (w := 2) (n := ms.toNat % 60000 / 1000) 1 (by decide) (by omega)
  have l4 := pad_len (w := 3) (n := ms.toNat % 1000) 2 (by decide) (by omega)
  unfold timeout2str TIMEOUT_BUFLEN
  dsimp only
  by_cases h0 : ms.toNat % 1000 = 0
  · rw [if_pos h0, if_pos h0, List.take_of_length_le (by simp only [List.length_append, List.length_cons]; omega)]
    refine ⟨by simp [colons, point], ?_⟩
    simp only [List.length_append, List.length_cons]; omega
  · rw [if_neg h0, if_neg h0, List.take_of_length_le (by simp only [List.length_append, List.length_cons]; omega)]
    refine ⟨by simp [colons, point], ?_⟩
    simp only [List.length_append, List.length_cons]; omega

/-- **Timeouts are printed whole** — the buffer has room for all of them — **and can be typed back.** -/
theorem timeout_roundtrip (ms : BitVec 32) : strToTimeout (timeout2str ms) = some ms
    ∧ (timeout2str ms).length + 1 ≤ TIMEOUT_BUFLEN := by
  obtain ⟨h1, h2⟩ := timeout2str_eq ms
  refine ⟨?_, by unfold TIMEOUT_BUFLEN; omega⟩
  have hlt := ms.isLt
  have hf : ∀ f ∈ (if ms.toNat % 1000 = 0 then none else some (pad 3 (ms.toNat % 1000)) : Option Text),
      Digits f ∧ 3 ≤ f.length ∧ value f < 2 ^ 64 := by
    intro f hf
    split at hf
    · cases hf
    · cases hf
      refine ⟨pad_digits _ _, ?_, by rw [value_pad]; omega⟩
      simp only [pad, List.length_append, List.length_replicate]; omega
  rw [h1, timeout_reads_partial _ _ ⟨⟨by simp, by simp⟩, ?_, hf⟩]
  · congr 1
    apply BitVec.eq_of_toNat_eq
    simp only [BitVec.toNat_ofNat, clock, List.foldl_cons, List.foldl_nil, value_dec, value_pad]
    have q1 : ms.toNat / 3600000 = ms.toNat / 1000 / 60 / 60 := by omega
    have q2 : ms.toNat % 3600000 / 60000 = ms.toNat / 1000 / 60 % 60 := by omega
    have q3 : ms.toNat % 60000 / 1000 = ms.toNat / 1000 % 60 := by omega
    rw [q1, q2, q3, show 60 * (60 * (60 * 0 + ms.toNat / 1000 / 60 / 60) + ms.toNat / 1000 / 60 % 60) + ms.toNat / 1000 % 60
      = ms.toNat / 1000 by omega]
    split
    · simp only [Option.map_none, Option.getD_none]; omega
    · simp only [Option.map_some, Option.getD_some, value_pad]; omega
  · intro p hp
    simp only [List.mem_cons, List.not_mem_nil, or_false] at hp
    rcases hp with rfl | rfl | rfl
    · exact ⟨dec_digits _, by rw [value_dec]; omega⟩
    · exact ⟨pad_digits _ _, by rw [value_pad]; omega⟩
    · exact ⟨pad_digits _ _, by rw [value_pad]; omega⟩

example : timeout2str 3723004 = "1:02:03.004".toList ∧ timeout2str 0xffffffff = "1193:02:47.295".toList := by decide +kernel

/-! ## Ports, prefixes, transport addresses, plateaus -/

/-- **Port ranges.** A range that is written as two numbers is read as these; one number is the range of that port. -/
theorem range_roundtrip (a b : BitVec 16) : strToPortRange (dec a.toNat ++ '-' :: dec b.toNat) = some (a, b)
    ∧ strToPortRange (dec a.toNat) = some (a, a) := by
  have ha := a.isLt
  have hb := b.isLt
  constructor
  · unfold strToPortRange
    rw [strToUll_dec _ (stops_of _ (by decide)) (by decide) (by omega)]
    simp only
    rw [strToUll_dec' (by decide) (by omega)]
    simp
  · unfold strToPortRange
    rw [strToUll_dec' (by decide) (by omega)]
    simp

/-- The listing pads ports with spaces. A range that is copied from there is read as one port only, without complaint. -/
theorem range_spaces : strToPortRange "10000 -20000".toList = some (10000, 10000)
    ∧ strToPortRange "80- 90".toList = none ∧ strToPortRange "   80-   90".toList = none := by decide +kernel

theorem ne_nil_of_mem {α} {l : List α} {a : α} (h : a ∈ l) : l ≠ [] := by rintro rfl; cases h

theorem slash4 {i : Inet} (hi : i.Ok) (a : Addr4) {d : Char} (h1 : isDigit d = false) (h2 : d ≠ '.') : d ∉ i.ntop4 a := fun hm => by
  rcases hi.chars4 a d hm with h | h
  · rw [h] at h1; cases h1
  · exact h2 h

theorem slash6 {i : Inet} (hi : i.Ok) (a : Addr6) {d : Char} (h1 : isDigit d = false)
    (h2 : d ∉ ['a', 'b', 'c', 'd', 'e', 'f', ':', '.']) : d ∉ i.ntop6 a := fun hm => by
  rcases hi.chars6 a d hm with h | h
  · rw [h] at h1; cases h1
  · exact h2 h

/-- **IPv4 prefixes** are read back, with their length or without. -/
theorem prefix4_roundtrip {i : Inet} (hi : i.Ok) (p : Prefix4) (hl : p.len ≤ 32) :
    strToPrefix4 i (i.ntop4 p.addr ++ '/' :: dec p.len) = some p
    ∧ (p.len = 32 → strToPrefix4 i (i.ntop4 p.addr) = some p) := by
  have h1 := hi.len4 p.addr
  have h2 := dec_len (n := p.len) 1 (by omega)
  have h3 : '/' ∉ i.ntop4 p.addr := slash4 hi _ (by decide) (by decide)
  have h4 : '/' ∉ dec p.len := not_mem_digits (dec_digits _) (by decide)
  have h5 := ne_nil_of_mem (hi.dot p.addr)
  constructor
  · unfold strToPrefix4 strToPrefix
    rw [if_neg (by simp only [List.length_append, List.length_cons]; omega), tokens_cons _ h5 h3,
      tokens_one (dec_digits _).1 h4]
    simp only [hi.v4]
    rw [strToU8_dec (by decide) hl]
    rfl
  · intro h32
    unfold strToPrefix4 strToPrefix
    rw [if_neg (by omega), tokens_one h5 h3]
    simp only [hi.v4, Option.map_some, ← h32]

/-- **IPv6 prefixes** are read back, with their length or without. -/
theorem prefix6_roundtrip {i : Inet} (hi : i.Ok) (p : Prefix6) (hl : p.len ≤ 128) :
    strToPrefix6 i (i.ntop6 p.addr ++ '/' :: dec p.len) = some p
    ∧ (p.len = 128 → strToPrefix6 i (i.ntop6 p.addr) = some p) := by
  have h1 := hi.len6 p.addr
  have h2 := dec_len (n := p.len) 2 (by omega)
  have h3 : '/' ∉ i.ntop6 p.addr := slash6 hi _ (by decide) (by decide)
  have h4 : '/' ∉ dec p.len := not_mem_digits (dec_digits _) (by decide)
  have h5 := ne_nil_of_mem (hi.colon p.addr)
  constructor
  · unfold strToPrefix6 strToPrefix
    rw [if_neg (by simp only [List.length_append, List.length_cons]; omega), tokens_cons _ h5 h3,
      tokens_one (dec_digits _).1 h4]
    simp only [hi.v6]
    rw [strToU8_dec (by decide) hl]
    rfl
  · intro h32
    unfold strToPrefix6 strToPrefix
    rw [if_neg (by omega), tokens_one h5 h3]
    simp only [hi.v6, Option.map_some, ← h32]

/-- **Transport addresses** are read back. -/
theorem taddr_roundtrip {i : Inet} (hi : i.Ok) (t6 : T6) (t4 : T4) :
    strToT6 i (i.ntop6 t6.addr ++ '#' :: dec t6.port.toNat) = some t6
    ∧ strToT4 i (i.ntop4 t4.addr ++ '#' :: dec t4.port.toNat) = some t4 := by
  constructor
  · have hp := t6.port.isLt
    have h1 := hi.len6 t6.addr
    have h2 := dec_len (n := t6.port.toNat) 4 (by omega)
    have h3 : '#' ∉ i.ntop6 t6.addr := slash6 hi _ (by decide) (by decide)
    have h4 : '#' ∉ dec t6.port.toNat := not_mem_digits (dec_digits _) (by decide)
    unfold strToT6 strToAddrPort
    rw [if_neg (by simp only [List.length_append, List.length_cons]; omega),
      tokens_cons _ (ne_nil_of_mem (hi.colon t6.addr)) h3, tokens_one (dec_digits _).1 h4]
    simp only [hi.v6]
    rw [strToU16_dec]
    rfl
  · have hp := t4.port.isLt
    have h1 := hi.len4 t4.addr
    have h2 := dec_len (n := t4.port.toNat) 4 (by omega)
    have h3 : '#' ∉ i.ntop4 t4.addr := slash4 hi _ (by decide) (by decide)
    have h4 : '#' ∉ dec t4.port.toNat := not_mem_digits (dec_digits _) (by decide)
    unfold strToT4 strToAddrPort
    rw [if_neg (by simp only [List.length_append, List.length_cons]; omega),
      tokens_cons _ (ne_nil_of_mem (hi.dot t4.addr)) h3, tokens_one (dec_digits _).1 h4]
    simp only [hi.v4]
    rw [strToU16_dec]
    rfl

theorem tokens_nums : ∀ l : List (BitVec 16), l ≠ [] → tokens ',' (printNums l) = l.map (fun v => dec v.toNat)
  | [], h => absurd rfl h
  | [v], _ => tokens_one (dec_digits _).1 (not_mem_digits (dec_digits _) (by decide))
  | v :: w :: l, _ => by
    rw [printNums, tokens_cons _ (dec_digits _).1 (not_mem_digits (dec_digits _) (by decide)),
      tokens_nums (w :: l) (by simp)]
    rfl

theorem mapM_dec : ∀ l : List (BitVec 16), (l.map (fun v => dec v.toNat)).mapM strToU16 = some l
  | [] => rfl
  | v :: l => by
    rw [List.map_cons, List.mapM_cons, strToU16_dec, mapM_dec l]
    rfl

/-- **MTU plateaus** are read back: one to 64 of them. -/
theorem plateaus_roundtrip (l : List (BitVec 16)) (h1 : l ≠ []) (h2 : l.length ≤ 64) :
    strToPlateaus (printNums l) = some l := by
  unfold strToPlateaus
  dsimp only
  rw [tokens_nums l h1, if_neg (by simpa using h1), if_neg (by rw [List.length_map]; omega), mapM_dec]

example : strToPlateaus "65535,1500,,1280".toList = some [65535, 1500, 1280] ∧ strToPlateaus ",".toList = none
    ∧ strToPlateaus "1500 1280".toList = some [1500] := by decide +kernel

/-! ## Settings -/

/-- Specification: the type of a value, and what its types can express. -/
def GVal.type : GVal → GType
  | .bool _ => .bool | .u8 _ => .u8 | .u32 _ => .u32 | .timeout _ => .timeout | .plateaus _ => .plateaus
  | .prefix6 _ => .prefix6 | .prefix4 _ => .prefix4 | .hairpin _ => .hairpin

def GVal.Sane : GVal → Prop
  | .plateaus l => l ≠ [] ∧ l.length ≤ 64
  | .prefix6 p => ∃ q, p = some q ∧ q.len ≤ 128
  | .prefix4 p => ∃ q, p = some q ∧ q.len ≤ 32
  | .hairpin m => m = 0 ∨ m = 1 ∨ m = 2
  | _ => True

/-- What a reader of CSV makes of a field: quotes are not part of it. -/
def unquote (s : Text) : Text := if s.head? = some '"' then (s.drop 1).dropLast else s

theorem printNums_head (l : List (BitVec 16)) : l = [] ∨ ∃ c r, printNums l = c :: r ∧ isDigit c = true := by
  match l with
  | [] => exact .inl rfl
  | [v] =>
    obtain ⟨h1, h2⟩ := dec_digits v.toNat
    right
    cases hd : dec v.toNat with
    | nil => exact absurd hd h1
    | cons c r => exact ⟨c, r, by rw [printNums, hd], h2 c (by rw [hd]; exact List.mem_cons_self)⟩
  | v :: w :: l =>
    obtain ⟨h1, h2⟩ := dec_digits v.toNat
    right
    cases hd : dec v.toNat with
    | nil => exact absurd hd h1
    | cons c r =>
      exact ⟨c, r ++ ',' :: printNums (w :: l), by rw [printNums, hd]; rfl, h2 c (by rw [hd]; exact List.mem_cons_self)⟩

theorem head_digits {l : Text} (h : Digits l) : ∃ c r, l = c :: r ∧ isDigit c = true := by
  cases l with
  | nil => exact absurd rfl h.1
  | cons c r => exact ⟨c, r, rfl, h.2 c List.mem_cons_self⟩

theorem unquote_digit {s : Text} (h : ∃ c r, s = c :: r ∧ isDigit c = true) : unquote s = s := by
  obtain ⟨c, r, rfl, hc⟩ := h
  unfold unquote
  rw [if_neg]
  intro e
  simp only [List.head?_cons, Option.some.injEq] at e
  rw [e] at hc; revert hc; decide

theorem unquote_of {s : Text} (h : '"' ∉ s) : unquote s = s := by
  unfold unquote
  rw [if_neg]
  intro e
  exact h (List.mem_of_head? e)

/-- **Settings.** The value of a setting, as it appears in the CSV listing, can be typed back. -/
theorem setting_roundtrip_partial {i : Inet} (hi : i.Ok) (v : GVal) (hv : v.Sane) :
    str2nl i (unquote (print i true v)) v.type = some v := by
  cases v with
  | bool b => cases b <;> rfl
  | u8 n =>
    have hn := n.isLt
    rw [print, unquote_digit (head_digits (dec_digits _))]
    simp only [GVal.type, str2nl]
    rw [strToU8_dec (by decide) (by omega)]
    simp
  | u32 n =>
    rw [print, unquote_digit (head_digits (dec_digits _))]
    simp only [GVal.type, str2nl, strToU32_dec, Option.map_some]
  | timeout ms =>
    have h1 : ∃ c r, timeout2str ms = c :: r ∧ isDigit c = true := by
      rw [(timeout2str_eq ms).1]
      obtain ⟨c, r, h, hc⟩ := head_digits (dec_digits (ms.toNat / 3600000))
      exact ⟨c, _, by rw [colons, h]; rfl, hc⟩
    rw [print, if_pos rfl, unquote_digit h1]
    simp only [GVal.type, str2nl, (timeout_roundtrip ms).1, Option.map_some]
  | plateaus l =>
    have h1 : unquote (print i true (.plateaus l)) = printNums l := by
      simp [print, unquote]
    rw [h1]
    simp only [GVal.type, str2nl, plateaus_roundtrip l hv.1 hv.2, Option.map_some]
  | prefix6 p =>
    obtain ⟨q, rfl, hq⟩ := hv
    have h1 : '"' ∉ i.ntop6 q.addr ++ '/' :: dec q.len := by
      rw [List.mem_append, List.mem_cons]
      rintro (h | h | h)
      · exact slash6 hi _ (by decide) (by decide) h
      · revert h; decide
      · exact not_mem_digits (dec_digits _) (by decide) h
    have h2 : i.ntop6 q.addr ++ '/' :: dec q.len ≠ "null".toList := by
      intro e
      have : '/' ∈ "null".toList := e ▸ List.mem_append_right _ List.mem_cons_self
      revert this; decide
    have h3 : print i true (.prefix6 (some q)) = i.ntop6 q.addr ++ '/' :: dec q.len := rfl
    rw [h3, unquote_of h1]
    simp only [GVal.type, str2nl]
    rw [if_neg h2, (prefix6_roundtrip hi q hq).1]
    rfl
  | prefix4 p =>
    obtain ⟨q, rfl, hq⟩ := hv
    have h1 : '"' ∉ i.ntop4 q.addr ++ '/' :: dec q.len := by
      rw [List.mem_append, List.mem_cons]
      rintro (h | h | h)
      · exact slash4 hi _ (by decide) (by decide) h
      · revert h; decide
      · exact not_mem_digits (dec_digits _) (by decide) h
    have h2 : i.ntop4 q.addr ++ '/' :: dec q.len ≠ "null".toList := by
      intro e
      have : '/' ∈ "null".toList := e ▸ List.mem_append_right _ List.mem_cons_self
      revert this; decide
    have h3 : print i true (.prefix4 (some q)) = i.ntop4 q.addr ++ '/' :: dec q.len := rfl
    rw [h3, unquote_of h1]
    simp only [GVal.type, str2nl]
    rw [if_neg h2, (prefix4_roundtrip hi q hq).1]
    rfl
  | hairpin m =>
    rcases hv with rfl | rfl | rfl <;> rfl

/-- What is missing: a prefix that is not set is printed as nothing, or as `(unset)`, and neither can be typed. (`null` is what has
to be typed.) Nor can the timeouts of the other listing, which carry a legend. -/
theorem unset_refused (i : Inet) : (∀ csv, str2nl i (unquote (print i csv (.prefix6 none))) .prefix6 ≠ some (.prefix6 none))
    ∧ (∀ csv, str2nl i (unquote (print i csv (.prefix4 none))) .prefix4 ≠ some (.prefix4 none))
    ∧ str2nl i "null".toList .prefix6 = some (.prefix6 none) ∧ str2nl i "null".toList .prefix4 = some (.prefix4 none)
    ∧ str2nl i (print i false (.timeout 60000)) .timeout = none := by
  refine ⟨?_, ?_, rfl, rfl, show (strToTimeout (timeout2str 60000 ++ " (HH:MM:SS)".toList)).map GVal.timeout = none by decide +kernel⟩
  · intro csv h
    have h1 : ∀ s : Text, s ≠ "null".toList → str2nl i s .prefix6 ≠ some (.prefix6 none) := by
      intro s hs h
      simp only [str2nl, if_neg hs, Option.map_eq_some_iff] at h
      obtain ⟨_, _, h⟩ := h
      cases h
    cases csv
    · exact h1 _ (show unquote "(unset)".toList ≠ _ by decide) h
    · exact h1 _ (show unquote [] ≠ _ by decide) h
  · intro csv h
    have h1 : ∀ s : Text, s ≠ "null".toList → str2nl i s .prefix4 ≠ some (.prefix4 none) := by
      intro s hs h
      simp only [str2nl, if_neg hs, Option.map_eq_some_iff] at h
      obtain ⟨_, _, h⟩ := h
      cases h
    cases csv
    · exact h1 _ (show unquote "(unset)".toList ≠ _ by decide) h
    · exact h1 _ (show unquote [] ≠ _ by decide) h

/-! ## Commands: what is sent is what was typed -/

/-- Specification: a text says which number of iterations is wanted. -/
def SaysIters (s : Text) (flags : BitVec 8) (n : BitVec 32) : Prop :=
  s = "auto".toList ∧ flags = 3 ∨ s = "infinity".toList ∧ flags = 5 ∨ flags = 1 ∧ strToU32 s = some n

/-- What the parsers have set so far was said by what they have been given. -/
structure Said (i : Inet) (l : List Arg) (a : Args) : Prop where
  p6 : ∀ p, a.p6 = some p → ∃ s, .pos s ∈ l ∧ strToPrefix6 i s = some p
  p4 : ∀ p, a.p4 = some p → ∃ s, .pos s ∈ l ∧ strToPrefix4 i s = some p
  a6 : ∀ t, a.a6 = some t → ∃ s, .pos s ∈ l ∧ strToT6 i s = some t
  a4 : ∀ t, a.a4 = some t → ∃ s, .pos s ∈ l ∧ strToT4 i s = some t
  range : ∀ r, a.range = some r → ∃ s, .pos s ∈ l ∧ strToPortRange s = some r
  tcp : .tcp ∈ l ↔ a.proto = some 0
  udp : .udp ∈ l ↔ a.proto = some 1
  icmp : .icmp ∈ l ↔ a.proto = some 2
  proto : a.proto = none ∨ a.proto = some 0 ∨ a.proto = some 1 ∨ a.proto = some 2
  mark : (∃ s, .mark s ∈ l ∧ strToU32 s = some a.mark) ∨ a.mark = 0 ∧ ∀ s, Arg.mark s ∉ l
  iters : (∃ s, .iters s ∈ l ∧ SaysIters s a.flags a.iters) ∨ a.flags = 0 ∧ a.iters = 0 ∧ ∀ s, Arg.iters s ∉ l
  force : .force ∈ l ↔ a.force = true
  quick : .quick ∈ l ↔ a.quick = true

theorem said_nil (i : Inet) : Said i [] {} := by
  constructor <;> simp

/-- Text of an argument that leaves everything but positional fields alone. -/
theorem said_pos {i : Inet} {l : List Arg} {a b : Args} (s : Text) (h : Said i l a)
    (e6 : b.p6 = a.p6 ∨ ∃ p, b.p6 = some p ∧ strToPrefix6 i s = some p)
    (e4 : b.p4 = a.p4 ∨ ∃ p, b.p4 = some p ∧ strToPrefix4 i s = some p)
    (t6 : b.a6 = a.a6 ∨ ∃ p, b.a6 = some p ∧ strToT6 i s = some p)
    (t4 : b.a4 = a.a4 ∨ ∃ p, b.a4 = some p ∧ strToT4 i s = some p)
    (er : b.range = a.range ∨ ∃ r, b.range = some r ∧ strToPortRange s = some r)
    (hrest : b.proto = a.proto ∧ b.mark = a.mark ∧ b.flags = a.flags ∧ b.iters = a.iters ∧ b.force = a.force ∧ b.quick = a.quick) :
    Said i (l ++ [.pos s]) b := by
  obtain ⟨r1, r2, r3, r4, r5, r6⟩ := hrest
  have old : ∀ {P : Text → Prop}, (∃ s, Arg.pos s ∈ l ∧ P s) → ∃ s', Arg.pos s' ∈ l ++ [.pos s] ∧ P s' := by
    rintro P ⟨s', h1, h2⟩; exact ⟨s', List.mem_append_left _ h1, h2⟩
  have new : Arg.pos s ∈ l ++ [Arg.pos s] := List.mem_append_right _ List.mem_cons_self
  constructor
  · intro p hp
    rcases e6 with e | ⟨q, e, hq⟩
    · exact old (h.p6 p (e ▸ hp))
    · rw [e] at hp; cases hp; exact ⟨s, new, hq⟩
  · intro p hp
    rcases e4 with e | ⟨q, e, hq⟩
    · exact old (h.p4 p (e ▸ hp))
    · rw [e] at hp; cases hp; exact ⟨s, new, hq⟩
  · intro p hp
    rcases t6 with e | ⟨q, e, hq⟩
    · exact old (h.a6 p (e ▸ hp))
    · rw [e] at hp; cases hp; exact ⟨s, new, hq⟩
  · intro p hp
    rcases t4 with e | ⟨q, e, hq⟩
    · exact old (h.a4 p (e ▸ hp))
    · rw [e] at hp; cases hp; exact ⟨s, new, hq⟩
  · intro p hp
    rcases er with e | ⟨q, e, hq⟩
    · exact old (h.range p (e ▸ hp))
    · rw [e] at hp; cases hp; exact ⟨s, new, hq⟩
  · rw [r1, ← h.tcp]; simp
  · rw [r1, ← h.udp]; simp
  · rw [r1, ← h.icmp]; simp
  · rw [r1]; exact h.proto
  · rw [r2]; simpa using h.mark
  · rw [r3, r4]; simpa using h.iters
  · rw [r5, ← h.force]; simp
  · rw [r6, ← h.quick]; simp

theorem said_other {i : Inet} {l : List Arg} {a : Args} (h : Said i l a) (x : Arg) (hx : x = .force ∨ x = .quick) :
    Said i (l ++ [x]) { a with force := x == .force || a.force, quick := x == .quick || a.quick } := by
  obtain ⟨h1, h2, h3, h4, h5, h6, h7, h8, h9, h10, h11, h12, h13⟩ := h
  rcases hx with rfl | rfl
  all_goals
    constructor <;> simp only [List.mem_append, List.mem_singleton, reduceCtorEq, or_false] <;> try assumption
  all_goals simp [h12, h13]

theorem said_proto {i : Inet} {l : List Arg} {a b : Args} (h : Said i l a) {x : Arg} {n : BitVec 8}
    (hx : x = .tcp ∧ n = 0 ∨ x = .udp ∧ n = 1 ∨ x = .icmp ∧ n = 2) (hb : setProto n a = some b) : Said i (l ++ [x]) b := by
  obtain ⟨h1, h2, h3, h4, h5, h6, h7, h8, h9, h10, h11, h12, h13⟩ := h
  unfold setProto at hb
  split at hb
  · rename_i hn
    cases hb
    rw [hn] at h6 h7 h8
    simp only [reduceCtorEq, iff_false] at h6 h7 h8
    rcases hx with ⟨rfl, rfl⟩ | ⟨rfl, rfl⟩ | ⟨rfl, rfl⟩
    all_goals
      constructor <;> simp only [List.mem_append, List.mem_singleton, reduceCtorEq, or_false] <;> try assumption
    all_goals simp [h6, h7, h8]
  · cases hb

theorem said_mark {i : Inet} {l : List Arg} {a b : Args} (h : Said i l a) (s : Text) (hb : markArg s a = some b) :
    Said i (l ++ [.mark s]) b := by
  obtain ⟨h1, h2, h3, h4, h5, h6, h7, h8, h9, h10, h11, h12, h13⟩ := h
  simp only [markArg, Option.map_eq_some_iff] at hb
  obtain ⟨n, hn, rfl⟩ := hb
  constructor <;> simp only [List.mem_append, List.mem_singleton, reduceCtorEq, or_false] <;> try assumption
  exact .inl ⟨s, .inr rfl, hn⟩

theorem said_iters {i : Inet} {l : List Arg} {a b : Args} (h : Said i l a) (s : Text) (hb : maxIterations s a = some b) :
    Said i (l ++ [.iters s]) b := by
  obtain ⟨h1, h2, h3, h4, h5, h6, h7, h8, h9, h10, h11, h12, h13⟩ := h
  unfold maxIterations at hb
  split at hb
  · cases hb
    rename_i hs
    constructor <;> simp only [List.mem_append, List.mem_singleton, reduceCtorEq, or_false] <;> try assumption
    exact .inl ⟨s, .inr rfl, .inl ⟨hs, rfl⟩⟩
  · split at hb
    · cases hb
      rename_i hs
      constructor <;> simp only [List.mem_append, List.mem_singleton, reduceCtorEq, or_false] <;> try assumption
      exact .inl ⟨s, .inr rfl, .inr (.inl ⟨hs, rfl⟩)⟩
    · simp only [Option.map_eq_some_iff] at hb
      obtain ⟨n, hn, rfl⟩ := hb
      constructor <;> simp only [List.mem_append, List.mem_singleton, reduceCtorEq, or_false] <;> try assumption
      exact .inl ⟨s, .inr rfl, .inr (.inr ⟨rfl, hn⟩)⟩

theorem said_force {i : Inet} {l : List Arg} {a : Args} (h : Said i l a) : Said i (l ++ [.force]) { a with force := true } :=
  said_other h .force (.inl rfl)

theorem said_quick {i : Inet} {l : List Arg} {a : Args} (h : Said i l a) : Said i (l ++ [.quick]) { a with quick := true } :=
  said_other h .quick (.inr rfl)

theorem said_eamt {i : Inet} {l : List Arg} {a b : Args} (h : Said i l a) (s : Text) (hb : eamtColumn i s a = some b) :
    Said i (l ++ [.pos s]) b := by
  unfold eamtColumn at hb
  split at hb
  · simp only [Option.map_eq_some_iff] at hb
    obtain ⟨p, hp, rfl⟩ := hb
    exact said_pos s h (.inr ⟨p, rfl, hp⟩) (.inl rfl) (.inl rfl) (.inl rfl) (.inl rfl) ⟨rfl, rfl, rfl, rfl, rfl, rfl⟩
  · split at hb
    · simp only [Option.map_eq_some_iff] at hb
      obtain ⟨p, hp, rfl⟩ := hb
      exact said_pos s h (.inl rfl) (.inr ⟨p, rfl, hp⟩) (.inl rfl) (.inl rfl) (.inl rfl) ⟨rfl, rfl, rfl, rfl, rfl, rfl⟩
    · cases hb

theorem said_prefix4 {i : Inet} {l : List Arg} {a b : Args} (h : Said i l a) (s : Text) (hb : prefix4Arg i s a = some b) :
    Said i (l ++ [.pos s]) b := by
  simp only [prefix4Arg, Option.map_eq_some_iff] at hb
  obtain ⟨p, hp, rfl⟩ := hb
  exact said_pos s h (.inl rfl) (.inr ⟨p, rfl, hp⟩) (.inl rfl) (.inl rfl) (.inl rfl) ⟨rfl, rfl, rfl, rfl, rfl, rfl⟩

theorem said_pool4 {i : Inet} {l : List Arg} {a b : Args} (h : Said i l a) (s : Text) (hb : pool4Arg i s a = some b) :
    Said i (l ++ [.pos s]) b := by
  unfold pool4Arg at hb
  split at hb
  · simp only [Option.map_eq_some_iff] at hb
    obtain ⟨p, hp, rfl⟩ := hb
    exact said_pos s h (.inl rfl) (.inr ⟨p, rfl, hp⟩) (.inl rfl) (.inl rfl) (.inl rfl) ⟨rfl, rfl, rfl, rfl, rfl, rfl⟩
  · simp only [Option.map_eq_some_iff] at hb
    obtain ⟨p, hp, rfl⟩ := hb
    exact said_pos s h (.inl rfl) (.inl rfl) (.inl rfl) (.inl rfl) (.inr ⟨p, rfl, hp⟩) ⟨rfl, rfl, rfl, rfl, rfl, rfl⟩

theorem said_taddr {i : Inet} {l : List Arg} {a b : Args} (h : Said i l a) (s : Text) (hb : taddr i s a = some b) :
    Said i (l ++ [.pos s]) b := by
  unfold taddr at hb
  split at hb
  · simp only [Option.map_eq_some_iff] at hb
    obtain ⟨p, hp, rfl⟩ := hb
    exact said_pos s h (.inl rfl) (.inl rfl) (.inr ⟨p, rfl, hp⟩) (.inl rfl) (.inl rfl) ⟨rfl, rfl, rfl, rfl, rfl, rfl⟩
  · split at hb
    · simp only [Option.map_eq_some_iff] at hb
      obtain ⟨p, hp, rfl⟩ := hb
      exact said_pos s h (.inl rfl) (.inl rfl) (.inl rfl) (.inr ⟨p, rfl, hp⟩) (.inl rfl) ⟨rfl, rfl, rfl, rfl, rfl, rfl⟩
    · cases hb

theorem said (i : Inet) (l : List Arg) (a : Args)
    (h : parse (eamtAddOpts i) l = some a ∨ parse (eamtRmOpts i) l = some a ∨ parse (denyAddOpts i) l = some a
      ∨ parse (denyRmOpts i) l = some a ∨ parse (pool4AddOpts i) l = some a ∨ parse (pool4RmOpts i) l = some a
      ∨ parse (bibOpts i) l = some a) : Said i l a := by
  rcases h with h | h | h | h | h | h | h
  all_goals
    refine parse_inv (said_nil i) ?_ l a h
    intro l x a b hs hb
    cases x
  all_goals first
    | (cases hb; done)
    | exact said_eamt hs _ hb
    | exact said_prefix4 hs _ hb
    | exact said_pool4 hs _ hb
    | exact said_taddr hs _ hb
    | exact said_mark hs _ hb
    | exact said_iters hs _ hb
    | exact said_proto hs (.inl ⟨rfl, rfl⟩) hb
    | exact said_proto hs (.inr (.inl ⟨rfl, rfl⟩)) hb
    | exact said_proto hs (.inr (.inr ⟨rfl, rfl⟩)) hb
    | (cases hb; exact said_force hs)
    | (cases hb; exact said_quick hs)

theorem prefix4_len {i : Inet} {s : Text} {p : Prefix4} (h : strToPrefix4 i s = some p) : p.len ≤ 32 := by
  simp only [strToPrefix4, Option.map_eq_some_iff] at h
  obtain ⟨⟨a, n⟩, h, rfl⟩ := h
  dsimp only
  unfold strToPrefix at h
  split at h
  · cases h
  · split at h
    · cases h
    · split at h
      · cases h
      · split at h
        · cases h; exact Nat.le_refl _
        · simp only [Option.map_eq_some_iff, strToU8] at h
          obtain ⟨v, ⟨m, hm, rfl⟩, h⟩ := h
          rw [number_partial _ _ (by decide)] at hm
          split at hm
          · rename_i hc
            cases hm
            cases h
            exact Nat.le_trans (Nat.mod_le _ _) hc.2
          · cases hm

theorem prefix6_len {i : Inet} {s : Text} {p : Prefix6} (h : strToPrefix6 i s = some p) : p.len ≤ 128 := by
  simp only [strToPrefix6, Option.map_eq_some_iff] at h
  obtain ⟨⟨a, n⟩, h, rfl⟩ := h
  dsimp only
  unfold strToPrefix at h
  split at h
  · cases h
  · split at h
    · cases h
    · split at h
      · cases h
      · split at h
        · cases h; exact Nat.le_refl _
        · simp only [Option.map_eq_some_iff, strToU8] at h
          obtain ⟨v, ⟨m, hm, rfl⟩, h⟩ := h
          rw [number_partial _ _ (by decide)] at hm
          split at hm
          · rename_i hc
            cases hm
            cases h
            exact Nat.le_trans (Nat.mod_le _ _) hc.2
          · cases hm

/-- Specification: one of the arguments is the text of this prefix. -/
def Typed6 (i : Inet) (l : List Arg) (p : Prefix6) : Prop := p.len ≤ 128 ∧ ∃ s, .pos s ∈ l ∧ strToPrefix6 i s = some p
def Typed4 (i : Inet) (l : List Arg) (p : Prefix4) : Prop := p.len ≤ 32 ∧ ∃ s, .pos s ∈ l ∧ strToPrefix4 i s = some p

theorem Said.typed6 {i : Inet} {l : List Arg} {a : Args} (h : Said i l a) {p : Prefix6} (hp : a.p6 = some p) : Typed6 i l p := by
  obtain ⟨s, h1, h2⟩ := h.p6 p hp
  exact ⟨prefix6_len h2, s, h1, h2⟩
theorem Said.typed4 {i : Inet} {l : List Arg} {a : Args} (h : Said i l a) {p : Prefix4} (hp : a.p4 = some p) : Typed4 i l p := by
  obtain ⟨s, h1, h2⟩ := h.p4 p hp
  exact ⟨prefix4_len h2, s, h1, h2⟩

/-- Specification: the protocol that the options name; TCP if there is none. -/
def SaysProto (l : List Arg) (b : BitVec 8) : Prop :=
  (.udp ∈ l ↔ b = 1) ∧ (.icmp ∈ l ↔ b = 2) ∧ (b = 0 ∨ b = 1 ∨ b = 2) ∧ (.tcp ∈ l → b = 0)

theorem Said.saysProto {i : Inet} {l : List Arg} {a : Args} (h : Said i l a) : SaysProto l (a.proto.getD 0) := by
  have h6 := h.tcp
  have h7 := h.udp
  have h8 := h.icmp
  have h9 := h.proto
  unfold SaysProto
  rcases h9 with e | e | e | e <;> rw [e] at h6 h7 h8 ⊢ <;> simp_all

/-- **`eamt add`, `eamt remove`.** What is sent has the prefixes that were typed, is forced iff so it was typed, and has proper
lengths. -/
theorem eamt_said (i : Inet) (l : List Arg) (r : Ask) :
    (eamtAdd i l = some r → ∃ x f, r = .eamAdd x f ∧ Typed6 i l x.p6 ∧ Typed4 i l x.p4 ∧ (f = true ↔ .force ∈ l))
    ∧ (eamtRm i l = some r → ∃ p6 p4, r = .eamRm p6 p4 ∧ (p6.isSome ∨ p4.isSome) ∧ (∀ p ∈ p6, Typed6 i l p)
        ∧ ∀ p ∈ p4, Typed4 i l p) := by
  constructor
  · intro h
    unfold eamtAdd at h
    split at h
    · cases h
    · rename_i a ha
      have hs := said i l a (.inl ha)
      split at h
      · rename_i p6 p4 h6 h4
        cases h
        exact ⟨_, _, rfl, hs.typed6 h6, hs.typed4 h4, hs.force.symm⟩
      · cases h
  · intro h
    unfold eamtRm at h
    split at h
    · cases h
    · rename_i a ha
      have hs := said i l a (.inr (.inl ha))
      split at h
      · cases h
      · rename_i hn
        cases h
        refine ⟨_, _, rfl, ?_, fun p hp => hs.typed6 hp, fun p hp => hs.typed4 hp⟩
        cases h6 : a.p6 with
        | some => exact .inl rfl
        | none =>
          cases h4 : a.p4 with
          | some => exact .inr rfl
          | none => exact absurd ⟨h6, h4⟩ hn

/-- **`denylist4 add`, `denylist4 remove`.** -/
theorem deny_said (i : Inet) (l : List Arg) (r : Ask) :
    (denyAdd i l = some r → ∃ p f, r = .denyAdd p f ∧ Typed4 i l p ∧ (f = true ↔ .force ∈ l))
    ∧ (denyRm i l = some r → ∃ p, r = .denyRm p ∧ Typed4 i l p) := by
  constructor
  · intro h
    unfold denyAdd at h
    split at h
    · cases h
    · rename_i a ha
      have hs := said i l a (.inr (.inr (.inl ha)))
      simp only [Option.map_eq_some_iff] at h
      obtain ⟨p, hp, rfl⟩ := h
      exact ⟨p, _, rfl, hs.typed4 hp, hs.force.symm⟩
  · intro h
    unfold denyRm at h
    split at h
    · cases h
    · rename_i a ha
      have hs := said i l a (.inr (.inr (.inr (.inl ha))))
      simp only [Option.map_eq_some_iff] at h
      obtain ⟨p, hp, rfl⟩ := h
      exact ⟨p, rfl, hs.typed4 hp⟩

/-- Specification: the mark that was typed, or zero. -/
def SaysMark (l : List Arg) (m : BitVec 32) : Prop :=
  (∃ s, .mark s ∈ l ∧ strToU32 s = some m) ∨ m = 0 ∧ ∀ s, Arg.mark s ∉ l

/-- **`pool4 add`, `pool4 remove`.** What is sent has the prefix, ports, protocol, mark and iterations that were typed. Prefixes that
are shorter than /24 are not added unless forced. Without ports, all of them are removed. -/
theorem pool4_said (i : Inet) (l : List Arg) (r : Ask) :
    (pool4Add i l = some r → ∃ w f, r = .pool4Add w f ∧ Typed4 i l w.pfx
        ∧ (∃ s, .pos s ∈ l ∧ strToPortRange s = some (w.min, w.max)) ∧ SaysProto l w.proto ∧ (w.proto = 0 → .tcp ∈ l)
        ∧ SaysMark l w.mark
        ∧ ((∃ s, .iters s ∈ l ∧ SaysIters s w.flags w.iters) ∨ w.flags = 0 ∧ w.iters = 0 ∧ ∀ s, Arg.iters s ∉ l)
        ∧ (f = true ↔ .force ∈ l) ∧ (w.pfx.len < 24 → f = true))
    ∧ (pool4Rm i l = some r → ∃ w q, r = .pool4Rm w q ∧ Typed4 i l w.pfx
        ∧ ((∃ s, .pos s ∈ l ∧ strToPortRange s = some (w.min, w.max)) ∨ w.min = 0 ∧ w.max = 65535) ∧ SaysProto l w.proto
        ∧ SaysMark l w.mark ∧ (q = true ↔ .quick ∈ l)) := by
  constructor
  · intro h
    unfold pool4Add at h
    split at h
    · cases h
    · rename_i a ha
      have hs := said i l a (.inr (.inr (.inr (.inr (.inl ha)))))
      split at h
      · rename_i p r b hp hr hb
        split at h
        · cases h
        · rename_i hn
          cases h
          have hpr := hs.saysProto
          rw [hb] at hpr
          refine ⟨_, _, rfl, hs.typed4 hp, hs.range r hr, hpr, ?_, hs.mark, hs.iters, hs.force.symm, ?_⟩
          · intro h0
            rw [hs.tcp, hb]; exact congrArg some h0
          · intro hl
            dsimp only at hl ⊢
            cases hf : a.force with
            | true => rfl
            | false => rw [hf] at hn; exact absurd (by simp [hl]) hn
      · cases h
  · intro h
    unfold pool4Rm at h
    split at h
    · cases h
    · rename_i a ha
      have hs := said i l a (.inr (.inr (.inr (.inr (.inr (.inl ha))))))
      simp only [Option.map_eq_some_iff] at h
      obtain ⟨p, hp, rfl⟩ := h
      refine ⟨_, _, rfl, hs.typed4 hp, ?_, hs.saysProto, hs.mark, hs.quick.symm⟩
      cases hr : a.range with
      | none => exact .inr ⟨rfl, rfl⟩
      | some r => exact .inl (hs.range r hr)

/-- **`bib add`, `bib remove`.** -/
theorem bib_said (i : Inet) (l : List Arg) (r : Ask) :
    (bibAdd i l = some r → ∃ a6 a4 b, r = .bibAdd a6 a4 b ∧ (∃ s, .pos s ∈ l ∧ strToT6 i s = some a6)
        ∧ (∃ s, .pos s ∈ l ∧ strToT4 i s = some a4) ∧ SaysProto l b)
    ∧ (bibRm i l = some r → ∃ a6 a4 b, r = .bibRm a6 a4 b ∧ (a6.isSome ∨ a4.isSome)
        ∧ (∀ t ∈ a6, ∃ s, .pos s ∈ l ∧ strToT6 i s = some t) ∧ (∀ t ∈ a4, ∃ s, .pos s ∈ l ∧ strToT4 i s = some t)
        ∧ SaysProto l b) := by
  constructor
  · intro h
    unfold bibAdd at h
    split at h
    · cases h
    · rename_i a ha
      have hs := said i l a (.inr (.inr (.inr (.inr (.inr (.inr ha))))))
      split at h
      · rename_i t6 t4 h6 h4
        cases h
        exact ⟨_, _, _, rfl, hs.a6 _ h6, hs.a4 _ h4, hs.saysProto⟩
      · cases h
  · intro h
    unfold bibRm at h
    split at h
    · cases h
    · rename_i a ha
      have hs := said i l a (.inr (.inr (.inr (.inr (.inr (.inr ha))))))
      split at h
      · cases h
      · rename_i hn
        cases h
        refine ⟨_, _, _, rfl, ?_, fun p hp => hs.a6 p hp, fun p hp => hs.a4 p hp, hs.saysProto⟩
        cases h6 : a.a6 with
        | some => exact .inl rfl
        | none =>
          cases h4 : a.a4 with
          | some => exact .inr rfl
          | none => exact absurd ⟨h6, h4⟩ hn

/-! ## Commands: what is listed can be typed -/

theorem colon_mem6 {i : Inet} (hi : i.Ok) (a : Addr6) (r : Text) : ':' ∈ i.ntop6 a ++ r := List.mem_append_left _ (hi.colon a)
theorem dot_mem4 {i : Inet} (hi : i.Ok) (a : Addr4) (r : Text) : '.' ∈ i.ntop4 a ++ r := List.mem_append_left _ (hi.dot a)
theorem no_colon4 {i : Inet} (hi : i.Ok) (a : Addr4) (c : Char) (n : Nat) (hc : c ≠ ':') : ':' ∉ i.ntop4 a ++ c :: dec n := by
  rw [List.mem_append, List.mem_cons]
  rintro (h | h | h)
  · exact slash4 hi _ (by decide) (by decide) h
  · exact hc h.symm
  · exact not_mem_digits (dec_digits _) (by decide) h

/-- **EAMT.** The fields of a line of the listing, typed after `eamt add`, ask for that entry; after `eamt remove`, for its removal. -/
theorem eamt_typed {i : Inet} (hi : i.Ok) (x : Eam.Entry) (h6 : x.p6.len ≤ 128) (h4 : x.p4.len ≤ 32) :
    eamtAdd i ((eamtLine i x).map .pos) = some (.eamAdd x false)
    ∧ eamtAdd i (.force :: (eamtLine i x).map .pos) = some (.eamAdd x true)
    ∧ eamtRm i ((eamtLine i x).map .pos) = some (.eamRm (some x.p6) (some x.p4)) := by
  have e6 : ∀ a, eamtColumn i (i.ntop6 x.p6.addr ++ '/' :: dec x.p6.len) a = some { a with p6 := some x.p6 } := by
    intro a
    unfold eamtColumn
    rw [if_pos (colon_mem6 hi _ _), (prefix6_roundtrip hi x.p6 h6).1]; rfl
  have e4 : ∀ a, eamtColumn i (i.ntop4 x.p4.addr ++ '/' :: dec x.p4.len) a = some { a with p4 := some x.p4 } := by
    intro a
    unfold eamtColumn
    rw [if_neg (no_colon4 hi _ _ _ (by decide)), if_pos (dot_mem4 hi _ _), (prefix4_roundtrip hi x.p4 h4).1]; rfl
  refine ⟨?_, ?_, ?_⟩
  · simp [eamtAdd, parse, eamtLine, eamtAddOpts, e6, e4]
  · simp [eamtAdd, parse, eamtLine, eamtAddOpts, e6, e4]
  · simp [eamtRm, parse, eamtLine, eamtRmOpts, e6, e4]

/-- **denylist4.** -/
theorem deny_typed {i : Inet} (hi : i.Ok) (p : Prefix4) (hl : p.len ≤ 32) :
    denyAdd i [.pos (denyLine i p)] = some (.denyAdd p false)
    ∧ denyAdd i [.force, .pos (denyLine i p)] = some (.denyAdd p true)
    ∧ denyRm i [.pos (denyLine i p)] = some (.denyRm p) := by
  have e4 : ∀ a, prefix4Arg i (denyLine i p) a = some { a with p4 := some p } := by
    intro a
    unfold prefix4Arg denyLine
    rw [(prefix4_roundtrip hi p hl).1]; rfl
  refine ⟨?_, ?_, ?_⟩
  · simp [denyAdd, parse, denyAddOpts, e4]
  · simp [denyAdd, parse, denyAddOpts, e4]
  · simp [denyRm, parse, denyRmOpts, e4]

/-- The option of a protocol. -/
def protoArg (b : BitVec 8) : Arg := if b = 0 then .tcp else if b = 1 then .udp else .icmp

theorem pool4Arg_prefix {i : Inet} (hi : i.Ok) (p : Prefix4) (hl : p.len ≤ 32) (a : Args) :
    pool4Arg i (if p.len = 32 then i.ntop4 p.addr else i.ntop4 p.addr ++ '/' :: dec p.len) a = some { a with p4 := some p } := by
  unfold pool4Arg
  split
  · rename_i h
    rw [if_pos (hi.dot _), (prefix4_roundtrip hi p hl).2 h]; rfl
  · rw [if_pos (dot_mem4 hi _ _), (prefix4_roundtrip hi p hl).1]; rfl

theorem pool4Arg_range (i : Inet) (x y : BitVec 16) (a : Args) :
    pool4Arg i (dec x.toNat ++ '-' :: dec y.toNat) a = some { a with range := some (x, y) } := by
  unfold pool4Arg
  rw [if_neg, (range_roundtrip x y).1]
  · rfl
  · rw [List.mem_append, List.mem_cons]
    rintro (h | h | h)
    · exact not_mem_digits (dec_digits _) (by decide) h
    · revert h; decide
    · exact not_mem_digits (dec_digits _) (by decide) h

/-- **pool4.** The mark, protocol, address and ports of a line of the CSV listing, typed after `pool4 add`, ask for that entry; and
so does the number of iterations if it is a fixed number. After `pool4 remove`, they ask for its removal. -/
theorem pool4_typed_partial {i : Inet} (hi : i.Ok) (w : WPool4) (mark addr min max iters : Text) (name fixed : Text) (q : Bool)
    (hline : pool4Line i w = [mark, name, addr, min, max, iters, fixed]) (hl : w.pfx.len ≤ 32)
    (hp : w.proto = 0 ∨ w.proto = 1 ∨ w.proto = 2) :
    (w.flags = 1 → pool4Add i [protoArg w.proto, .mark mark, .iters iters, .force, .pos addr, .pos (min ++ '-' :: max)]
      = some (.pool4Add w true))
    ∧ (w.flags = 1 → 24 ≤ w.pfx.len → pool4Add i [protoArg w.proto, .mark mark, .iters iters, .pos addr, .pos (min ++ '-' :: max)]
      = some (.pool4Add w false))
    ∧ (pool4Add i [protoArg w.proto, .mark mark, .force, .pos addr, .pos (min ++ '-' :: max)]
      = some (.pool4Add { w with flags := 0, iters := 0 } true))
    ∧ pool4Rm i ((if q then [.quick] else []) ++ [protoArg w.proto, .mark mark, .pos addr, .pos (min ++ '-' :: max)])
      = some (.pool4Rm { w with flags := 0, iters := 0 } q) := by
  simp only [pool4Line, List.cons.injEq, and_true] at hline
  obtain ⟨rfl, _, rfl, rfl, rfl, hit, _⟩ := hline
  have e2 : ∀ a, markArg (dec w.mark.toNat) a = some { a with mark := w.mark } := by
    intro a; unfold markArg; rw [strToU32_dec]; rfl
  have e3 : ∀ a, w.flags = 1 → maxIterations iters a = some { a with flags := 1, iters := w.iters } := by
    intro a hf
    have hne : ∀ s : Text, ¬ Digits s → dec w.iters.toNat ≠ s := fun s hs he => hs (he ▸ dec_digits _)
    have hi : iters = dec w.iters.toNat := by rw [← hit, hf]; rfl
    unfold maxIterations
    rw [hi, if_neg (hne _ (by unfold Digits; decide)), if_neg (hne _ (by unfold Digits; decide)), strToU32_dec]; rfl
  have e4 := pool4Arg_prefix hi w.pfx hl
  have e5 := pool4Arg_range i w.min w.max
  clear hit
  obtain ⟨mk, it, fl, pr, pf, mn, mx⟩ := w
  dsimp only at *
  refine ⟨?_, ?_, ?_, ?_⟩
  · rintro rfl
    rcases hp with rfl | rfl | rfl <;> simp [pool4Add, parse, protoArg, setProto, pool4AddOpts, e2, e3, e4, e5]
  · rintro rfl h24
    have h24' : ¬ pf.len < 24 := by omega
    rcases hp with rfl | rfl | rfl <;> simp [pool4Add, parse, protoArg, setProto, pool4AddOpts, e2, e3, e4, e5, h24']
  · rcases hp with rfl | rfl | rfl <;> simp [pool4Add, parse, protoArg, setProto, pool4AddOpts, e2, e4, e5]
  · cases q <;> rcases hp with rfl | rfl | rfl <;> simp [pool4Rm, parse, protoArg, setProto, pool4RmOpts, e2, e4, e5]

/-- What is missing: an infinite number of iterations is listed as `infinite` but has to be typed as `infinity`. -/
theorem infinite_refused (i : Inet) (w : WPool4) (h : w.flags &&& 4 ≠ 0) :
    "infinite".toList ∈ pool4Line i w ∧ (∀ a, maxIterations "infinite".toList a = none)
    ∧ ∀ a : Args, maxIterations "infinity".toList a = some { a with flags := 5 } := by
  refine ⟨?_, fun a => rfl, fun a => rfl⟩
  simp only [pool4Line, if_pos h, List.mem_cons]
  simp

/-- The other fields of the line: the name of the protocol, whether the iterations are infinite, whether they were chosen by the user. -/
theorem pool4_words {i : Inet} (w : WPool4) (mark addr min max iters name fixed : Text) (hline : pool4Line i w = [mark, name, addr, min, max, iters, fixed])
    (hp : w.proto = 0 ∨ w.proto = 1 ∨ w.proto = 2) :
    (name = "TCP".toList ↔ w.proto = 0) ∧ (name = "UDP".toList ↔ w.proto = 1) ∧ (name = "ICMP".toList ↔ w.proto = 2)
    ∧ (iters = "infinite".toList ↔ w.flags &&& 4 ≠ 0) ∧ (fixed = "1".toList ↔ w.flags &&& 2 = 0) ∧ (fixed = "0".toList ↔ w.flags &&& 2 ≠ 0) := by
  simp only [pool4Line, List.cons.injEq, and_true] at hline
  obtain ⟨_, rfl, _, _, _, rfl, rfl⟩ := hline
  have hd : dec w.iters.toNat ≠ "infinite".toList := fun he => by
    have := dec_digits w.iters.toNat
    rw [he] at this
    revert this
    unfold Digits
    decide
  refine ⟨?_, ?_, ?_, ?_, ?_, ?_⟩
  · rcases hp with h | h | h <;> rw [h] <;> decide
  · rcases hp with h | h | h <;> rw [h] <;> decide
  · rcases hp with h | h | h <;> rw [h] <;> decide
  · by_cases c : w.flags &&& 4 ≠ 0
    · rw [if_pos c]; exact ⟨fun _ => c, fun _ => rfl⟩
    · rw [if_neg c]; exact ⟨fun h => absurd h hd, fun h => absurd h c⟩
  · by_cases c : w.flags &&& 2 ≠ 0
    · rw [if_pos c]; exact ⟨fun h => absurd h (by decide), fun h => absurd h c⟩
    · rw [if_neg c]; exact ⟨fun _ => Decidable.of_not_not c, fun _ => rfl⟩
  · by_cases c : w.flags &&& 2 ≠ 0
    · rw [if_pos c]; exact ⟨fun _ => c, fun _ => rfl⟩
    · rw [if_neg c]; exact ⟨fun h => absurd h (by decide), fun h => absurd h c⟩

/-- **BIB.** The transport addresses of a line of the listing (`--numeric`), typed after `bib add` or `bib remove` with the option of
the table, ask for that entry. -/
theorem bib_typed {i : Inet} (hi : i.Ok) (a6 : T6) (a4 : T4) (b : BitVec 8) (hb : b = 0 ∨ b = 1 ∨ b = 2) :
    bibAdd i (protoArg b :: (bibLine i a6 a4).map .pos) = some (.bibAdd a6 a4 b)
    ∧ bibRm i (protoArg b :: (bibLine i a6 a4).map .pos) = some (.bibRm (some a6) (some a4) b) := by
  have e6 : ∀ a, taddr i (i.ntop6 a6.addr ++ '#' :: dec a6.port.toNat) a = some { a with a6 := some a6 } := by
    intro a
    unfold taddr
    rw [if_pos (colon_mem6 hi _ _), (taddr_roundtrip hi a6 a4).1]; rfl
  have e4 : ∀ a, taddr i (i.ntop4 a4.addr ++ '#' :: dec a4.port.toNat) a = some { a with a4 := some a4 } := by
    intro a
    unfold taddr
    rw [if_neg (no_colon4 hi _ _ _ (by decide)), if_pos (dot_mem4 hi _ _), (taddr_roundtrip hi a6 a4).2]; rfl
  constructor
  · rcases hb with rfl | rfl | rfl <;> simp [bibAdd, parse, bibLine, protoArg, setProto, bibOpts, e6, e4]
  · rcases hb with rfl | rfl | rfl <;> simp [bibRm, parse, bibLine, protoArg, setProto, bibOpts, e6, e4]

/-! ## From the command line to the databases -/

/-- **A SIIT command line does to the instance what it says**: whatever the options and arguments, if the client sends a request, the
instance undergoes what was typed. -/
theorem siit_command (i : Inet) (l : List Arg) (st : State) (e : Env) (a : Ask) (cap : Nat) (iname : Option (List Byte))
    (msg : List Byte) (s : Siit)
    (hl : eamtAdd i l = some a ∨ denyAdd i l = some a ∨ denyRm i l = some a
      ∨ ∃ p6 p4, eamtRm i l = some a ∧ a = .eamRm (some p6) (some p4))
    (hmsg : a.msg cap 1 iname = some msg) (ha : e.admin = true) (hon : st.siitOn = true) (hs : st.siit (target iname) = some s) :
    handle st e a.cmd msg = (askedS e s a).map (fun r => (st.setSiit (target iname) r.1, [], r.2)) := by
  refine siit_request st e a cap iname msg s hmsg ?_ ha hon hs
  rcases hl with h | h | h | ⟨p6, p4, h, e⟩
  · obtain ⟨x, f, rfl, h6, h4, _⟩ := (eamt_said i l a).1 h
    exact ⟨by have := h6.1; omega, by have := h4.1; omega⟩
  · obtain ⟨p, f, rfl, h4, _⟩ := (deny_said i l a).1 h
    have := h4.1
    show p.len < 256
    omega
  · obtain ⟨p, rfl, h4⟩ := (deny_said i l a).2 h
    have := h4.1
    show p.len < 256
    omega
  · obtain ⟨q6, q4, hq, _, h6, h4⟩ := (eamt_said i l a).2 h
    rw [e] at hq
    cases hq
    rw [e]
    exact ⟨p6, p4, rfl, rfl, by have := (h6 p6 rfl).1; omega, by have := (h4 p4 rfl).1; omega⟩

/-- **A NAT64 command line does to the instance what it says.** -/
theorem nat64_command (i : Inet) (l : List Arg) (st : State) (e : Env) (a : Ask) (cap : Nat) (iname : Option (List Byte))
    (msg : List Byte) (s : Nat64)
    (hl : pool4Add i l = some a ∨ pool4Rm i l = some a ∨ bibAdd i l = some a ∨ bibRm i l = some a)
    (hmsg : a.msg cap 2 iname = some msg) (ha : e.admin = true) (hon : st.nat64On = true)
    (hs : st.nat64 (target iname) = some s) :
    handle st e a.cmd msg = (askedN e s a).map (fun r => (st.setNat64 (target iname) r.1, r.2.1, r.2.2)) := by
  refine nat64_request st e a cap iname msg s hmsg ?_ ha hon hs
  rcases hl with h | h | h | h
  · obtain ⟨w, f, rfl, h4, _⟩ := (pool4_said i l a).1 h
    have := h4.1
    show w.pfx.len < 256
    omega
  · obtain ⟨w, f, rfl, h4, _⟩ := (pool4_said i l a).2 h
    have := h4.1
    show w.pfx.len < 256
    omega
  · obtain ⟨a6, a4, b, rfl, _⟩ := (bib_said i l a).1 h
    exact trivial
  · obtain ⟨a6, a4, b, rfl, h, _⟩ := (bib_said i l a).2 h
    exact h

/-! ## The contract of libc can be met -/

/-- Digits in base 16, so many of them. -/
def hexDigit (d : Nat) : Char := if d < 10 then digit d else Char.ofNat (87 + d)
def unhexDigit (c : Char) : Nat := if isDigit c then c.toNat - 48 else c.toNat - 87
def hexN : Nat → Nat → Text
  | 0, _ => []
  | k + 1, n => hexN k (n / 16) ++ [hexDigit (n % 16)]
def unhex (l : Text) : Nat := l.foldl (fun a c => 16 * a + unhexDigit c) 0

theorem hexDigit_ok : ∀ d < 16, unhexDigit (hexDigit d) = d ∧ hexDigit d ≠ ':'
    ∧ (isDigit (hexDigit d) = true ∨ hexDigit d ∈ ['a', 'b', 'c', 'd', 'e', 'f', ':', '.']) := by decide

theorem unhex_hexN : ∀ k n, unhex (hexN k n) = n % 16 ^ k
  | 0, n => by simp [hexN, unhex, Nat.mod_one]
  | k + 1, n => by
    have h := unhex_hexN k (n / 16)
    unfold unhex at h ⊢
    rw [hexN, List.foldl_append, h]
    simp only [List.foldl_cons, List.foldl_nil, (hexDigit_ok (n % 16) (Nat.mod_lt _ (by decide))).1]
    rw [Nat.pow_succ, Nat.mul_comm (16 ^ k) 16, Nat.mod_mul, Nat.add_comm]

theorem hexN_len : ∀ k n, (hexN k n).length = k
  | 0, _ => rfl
  | k + 1, n => by rw [hexN, List.length_append, hexN_len k]; rfl

theorem hexN_chars : ∀ k n, ∀ c ∈ hexN k n, c ≠ ':'
    ∧ (isDigit c = true ∨ c ∈ ['a', 'b', 'c', 'd', 'e', 'f', ':', '.'])
  | 0, _, c, h => by cases h
  | k + 1, n, c, h => by
    rw [hexN, List.mem_append, List.mem_singleton] at h
    rcases h with h | rfl
    · exact hexN_chars k _ c h
    · exact (hexDigit_ok (n % 16) (Nat.mod_lt _ (by decide))).2

/-- A colon after every four characters. -/
def ins4 : Text → Text
  | a :: b :: c :: d :: e :: r => a :: b :: c :: d :: ':' :: ins4 (e :: r)
  | l => l

theorem ins4_filter : ∀ l : Text, (∀ c ∈ l, c ≠ ':') → (ins4 l).filter (fun c => c != ':') = l
  | a :: b :: c :: d :: e :: r, h => by
    have hh : ∀ x ∈ [a, b, c, d], (x != ':') = true := by
      intro x hx
      simp only [bne_iff_ne]
      exact h x (by
        simp only [List.mem_cons, List.not_mem_nil, or_false] at hx ⊢
        rcases hx with h | h | h | h <;> simp [h])
    have ih := ins4_filter (e :: r) (fun x hx => h x (by
      simp only [List.mem_cons] at hx ⊢
      rcases hx with h | h <;> simp [h]))
    rw [ins4]
    simp only [List.filter_cons, hh a (by simp), hh b (by simp), hh c (by simp), hh d (by simp), if_true, ih,
      show ((':' : Char) != ':') = false from rfl, Bool.false_eq_true, if_false]
  | [], _ => rfl
  | [a], h => by simp [ins4, h a]
  | [a, b], h => by simp [ins4, h a, h b]
  | [a, b, c], h => by simp [ins4, h a, h b, h c]
  | [a, b, c, d], h => by simp [ins4, h a, h b, h c, h d]

theorem ins4_mem : ∀ l : Text, ∀ c ∈ ins4 l, c ∈ l ∨ c = ':'
  | a :: b :: c :: d :: e :: r, x, h => by
    rw [ins4] at h
    simp only [List.mem_cons] at h ⊢
    rcases h with h | h | h | h | h | h
    · simp [h]
    · simp [h]
    · simp [h]
    · simp [h]
    · simp [h]
    · have := ins4_mem (e :: r) x h
      simp only [List.mem_cons] at this
      rcases this with (h | h) | h <;> simp [h]
  | [], _, h => by cases h
  | [_], _, h => .inl h
  | [_, _], _, h => .inl h
  | [_, _, _], _, h => .inl h
  | [_, _, _, _], _, h => .inl h

theorem ins4_len : ∀ l : Text, 4 * (ins4 l).length ≤ 5 * l.length
  | a :: b :: c :: d :: e :: r => by
    have := ins4_len (e :: r)
    rw [ins4]
    simp only [List.length_cons] at this ⊢
    omega
  | [] => by decide
  | [_] => by simp [ins4]
  | [_, _] => by simp [ins4]
  | [_, _, _] => by simp [ins4]
  | [_, _, _, _] => by simp [ins4]

theorem ins4_colon (l : Text) (h : 4 < l.length) : ':' ∈ ins4 l := by
  match l, h with
  | a :: b :: c :: d :: e :: r, _ => rw [ins4]; simp

/-- Dotted decimal, and the eight groups of four hexadecimal digits. -/
def plain : Inet where
  ntop4 a := dec (a.toNat / 16777216) ++ '.' :: (dec (a.toNat / 65536 % 256) ++ '.' :: (dec (a.toNat / 256 % 256)
    ++ '.' :: dec (a.toNat % 256)))
  pton4 s :=
    match tokens '.' s with
    | [a, b, c, d] => some (BitVec.ofNat 32 (((value a * 256 + value b) * 256 + value c) * 256 + value d))
    | _ => none
  ntop6 a := ins4 (hexN 32 a.toNat)
  pton6 s := some (BitVec.ofNat 128 (unhex (s.filter (fun c => c != ':'))))

theorem plain6 (a : Addr6) : plain.ntop6 a = ins4 (hexN 32 a.toNat) := by simp only [plain]

/-- The hypotheses about libc are met by the plain notation. -/
theorem plain_ok : plain.Ok := by
  have nodot : ∀ n, '.' ∉ dec n := fun n => not_mem_digits (dec_digits n) (by decide)
  constructor
  · intro a
    have ha := a.isLt
    simp only [plain]
    rw [tokens_cons _ (dec_digits _).1 (nodot _), tokens_cons _ (dec_digits _).1 (nodot _),
      tokens_cons _ (dec_digits _).1 (nodot _), tokens_one (dec_digits _).1 (nodot _)]
    simp only [value_dec, Option.some.injEq]
    apply BitVec.eq_of_toNat_eq
    rw [BitVec.toNat_ofNat, show ((a.toNat / 16777216 * 256 + a.toNat / 65536 % 256) * 256 + a.toNat / 256 % 256) * 256
      + a.toNat % 256 = a.toNat by omega]
    omega
  · intro a
    have ha := a.isLt
    simp only [plain]
    rw [ins4_filter _ (fun c hc => (hexN_chars _ _ c hc).1), unhex_hexN]
    congr 1
    apply BitVec.eq_of_toNat_eq
    rw [BitVec.toNat_ofNat]
    omega
  · intro a
    have ha := a.isLt
    simp only [plain, List.length_append, List.length_cons]
    have h1 := dec_len (n := a.toNat / 16777216) 2 (by omega)
    have h2 := dec_len (n := a.toNat / 65536 % 256) 2 (by omega)
    have h3 := dec_len (n := a.toNat / 256 % 256) 2 (by omega)
    have h4 := dec_len (n := a.toNat % 256) 2 (by omega)
    omega
  · intro a
    have h1 := ins4_len (hexN 32 a.toNat)
    rw [hexN_len] at h1
    simp only [plain]
    omega
  · intro a c hc
    simp only [plain, List.mem_append, List.mem_cons] at hc
    rcases hc with h | h | h | h | h | h | h
    · exact .inl ((dec_digits _).2 c h)
    · exact .inr h
    · exact .inl ((dec_digits _).2 c h)
    · exact .inr h
    · exact .inl ((dec_digits _).2 c h)
    · exact .inr h
    · exact .inl ((dec_digits _).2 c h)
  · intro a c hc
    rw [plain6] at hc
    rcases ins4_mem _ c hc with h | rfl
    · exact (hexN_chars _ _ c h).2
    · exact .inr (by decide)
  · intro a
    simp [plain]
  · intro a
    rw [plain6]
    exact ins4_colon (hexN 32 a.toNat) (by have := hexN_len 32 a.toNat; omega)

example : plain.ntop4 0xc0000201 = "192.0.2.1".toList
    ∧ plain.ntop6 0x20010db8000000000000000000000001 = "2001:0db8:0000:0000:0000:0000:0000:0001".toList := by decide +kernel

/-- `jool_siit eamt add 2001:db8::/120 192.0.2.0/24` -/
example : eamtAdd plain [.pos "2001:0db8:0000:0000:0000:0000:0000:0000/120".toList, .pos "192.0.2.0/24".toList]
    = some (.eamAdd ⟨⟨0x20010db8000000000000000000000000, 120⟩, ⟨0xc0000200, 24⟩⟩ false) := by decide +kernel

/-- `jool pool4 add --udp --mark 7 --max-iterations infinity 192.0.2.1 100-200` -/
example : pool4Add plain [.udp, .mark "7".toList, .iters "infinity".toList, .pos "192.0.2.1".toList, .pos "100-200".toList]
    = some (.pool4Add ⟨7, 0, 5, 1, ⟨0xc0000201, 32⟩, 100, 200⟩ false)
    ∧ pool4Add plain [.tcp, .pos "192.0.0.0/16".toList, .pos "1-2".toList] = none
    ∧ pool4Add plain [.tcp, .udp, .pos "192.0.2.1".toList, .pos "1-2".toList] = none := by decide +kernel

end Jool.Text
