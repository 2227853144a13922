import Verif.Model.Text
/-
Lemmas about `Verif.Model.Text`: decimal numbers and `strtoull()`, `strtok()`, the loop of the parser of options.
-/
namespace Jool.Text
open Jool.NlAttr Jool.Req

/-! ## Decimal numbers -/

theorem digit_toNat : ∀ d < 10, (digit d).toNat = 48 + d := by decide
theorem isDigit_digit : ∀ d < 10, isDigit (digit d) = true := by decide

/-- A number, written in digits. -/
def Digits (l : Text) : Prop := l ≠ [] ∧ ∀ c ∈ l, isDigit c = true

theorem value_snoc (l : Text) (c : Char) : value (l ++ [c]) = 10 * value l + (c.toNat - 48) := by
  simp [value, List.foldl_append]

theorem decF_spec : ∀ f n, n < 10 ^ (f + 1) → value (decF f n) = n ∧ Digits (decF f n)
  | 0, n, h => by
    have hn : n < 10 := by simpa using h
    have h1 : n % 10 = n := Nat.mod_eq_of_lt hn
    refine ⟨?_, by simp [decF], ?_⟩
    · simp [decF, value, h1, digit_toNat n hn]
    · intro c hc
      simp only [decF, h1, List.mem_singleton] at hc
      rw [hc]; exact isDigit_digit n hn
  | f + 1, n, h => by
    by_cases hn : n < 10
    · refine ⟨?_, ?_, ?_⟩
      · simp [decF, hn, value, digit_toNat n hn]
      · simp [decF, hn]
      · intro c hc
        simp only [decF, if_pos hn, List.mem_singleton] at hc
        rw [hc]; exact isDigit_digit n hn
    · have h10 : n % 10 < 10 := Nat.mod_lt _ (by decide)
      obtain ⟨h1, h2, h3⟩ := decF_spec f (n / 10) (by
        rw [Nat.pow_succ] at h; omega)
      refine ⟨?_, ?_, ?_⟩
      · rw [decF, if_neg hn, value_snoc, h1, digit_toNat _ h10]; omega
      · simp [decF, hn]
      · intro c hc
        rw [decF, if_neg hn, List.mem_append, List.mem_singleton] at hc
        rcases hc with hc | rfl
        · exact h3 c hc
        · exact isDigit_digit _ h10

theorem lt_pow10 (n : Nat) : n < 10 ^ (n + 1) := by
  have : n < 10 ^ n := Nat.lt_pow_self (by decide)
  rw [Nat.pow_succ]; omega

theorem value_dec (n : Nat) : value (dec n) = n := (decF_spec n n (lt_pow10 n)).1
theorem dec_digits (n : Nat) : Digits (dec n) := (decF_spec n n (lt_pow10 n)).2

theorem decF_len : ∀ f k n, n < 10 ^ (k + 1) → (decF f n).length ≤ k + 1
  | 0, _, _, _ => by simp [decF]
  | f + 1, k, n, h => by
    by_cases hn : n < 10
    · simp [decF, hn]
    · cases k with
      | zero => simp at h; omega
      | succ k =>
        have := decF_len f k (n / 10) (by rw [Nat.pow_succ] at h; omega)
        rw [decF, if_neg hn, List.length_append]
        simp only [List.length_singleton]; omega

theorem dec_len {n : Nat} (k : Nat) (h : n < 10 ^ (k + 1)) : (dec n).length ≤ k + 1 := decF_len n k n h

theorem foldl_zeros (k : Nat) (l : Text) :
    (List.replicate k '0' ++ l).foldl (fun a c => 10 * a + (c.toNat - 48)) 0
      = l.foldl (fun a c => 10 * a + (c.toNat - 48)) 0 := by
  induction k with
  | zero => rfl
  | succ k ih => rw [List.replicate_succ, List.cons_append, List.foldl_cons]; exact ih

theorem value_pad (w n : Nat) : value (pad w n) = n := by
  unfold pad value
  rw [foldl_zeros]
  exact value_dec n

theorem pad_digits (w n : Nat) : Digits (pad w n) := by
  refine ⟨?_, ?_⟩
  · have := (dec_digits n).1
    simp [pad, this]
  · intro c hc
    simp only [pad, List.mem_append, List.mem_replicate] at hc
    rcases hc with ⟨_, rfl⟩ | hc
    · decide
    · exact (dec_digits n).2 c hc

theorem pad_len {w n : Nat} (k : Nat) (hw : w ≤ k + 1) (h : n < 10 ^ (k + 1)) : (pad w n).length ≤ k + 1 := by
  have := dec_len k h
  simp only [pad, List.length_append, List.length_replicate]
  omega

/-! ## `strtoull()` -/

/-- The text does not go on with a digit. -/
def Stops : Text → Prop
  | c :: _ => isDigit c = false
  | [] => True

theorem takeWhile_digits {ds rest : Text} (h : ∀ c ∈ ds, isDigit c = true) (hr : Stops rest) :
    (ds ++ rest).takeWhile isDigit = ds ∧ (ds ++ rest).dropWhile isDigit = rest := by
  have h0 : rest.takeWhile isDigit = [] ∧ rest.dropWhile isDigit = rest := by
    cases rest with
    | nil => exact ⟨rfl, rfl⟩
    | cons c r => simp only [Stops] at hr; simp [hr]
  rw [List.takeWhile_append_of_pos h, List.dropWhile_append_of_pos h, h0.1, h0.2, List.append_nil]
  exact ⟨rfl, rfl⟩

theorem digit_not_space {c : Char} (h : isDigit c = true) : isSpace c = false := by
  simp only [isDigit, Bool.and_eq_true, decide_eq_true_eq] at h
  simp only [isSpace, Bool.or_eq_false_iff, beq_eq_false_iff_ne, Bool.and_eq_false_iff, decide_eq_false_iff_not]
  omega

theorem digit_ne {c d : Char} (h : isDigit c = true) (hd : isDigit d = false) : c ≠ d := by
  rintro rfl; rw [h] at hd; cases hd

theorem sign_digit {c : Char} (r : Text) (h : isDigit c = true) : sign (c :: r) = (false, c :: r) := by
  unfold sign
  split
  · rename_i h1; injection h1 with h1 _; exact absurd h1 (digit_ne h (by decide))
  · rename_i h1; injection h1 with h1 _; exact absurd h1 (digit_ne h (by decide))
  · rfl

theorem strtoull_first {c : Char} (r : Text) (h : isDigit c = true) :
    strtoull (c :: r) = if value ((c :: r).takeWhile isDigit) < 2 ^ 64
      then ⟨value ((c :: r).takeWhile isDigit), false, (c :: r).dropWhile isDigit⟩
      else ⟨2 ^ 64 - 1, true, (c :: r).dropWhile isDigit⟩ := by
  have h1 : (c :: r).dropWhile isSpace = c :: r := by simp [digit_not_space h]
  have h2 : (c :: r).takeWhile isDigit ≠ [] := by simp [h]
  unfold strtoull
  dsimp only
  rw [h1, sign_digit r h]
  dsimp only
  rw [if_neg h2]
  simp only [Bool.false_eq_true, if_false]

theorem strtoull_digits {ds rest : Text} (h : Digits ds) (hr : Stops rest) (hv : value ds < 2 ^ 64) :
    strtoull (ds ++ rest) = ⟨value ds, false, rest⟩ := by
  obtain ⟨h1, h2⟩ := takeWhile_digits h.2 hr
  cases ds with
  | nil => exact absurd rfl h.1
  | cons c r =>
    rw [List.cons_append] at h1 h2 ⊢
    rw [strtoull_first _ (h.2 c List.mem_cons_self), h1, h2, if_pos hv]

theorem stops_of {c : Char} (r : Text) (h : isDigit c = false) : Stops (c :: r) := h

theorem strToUll_digits {ds rest : Text} {max : Nat} (h : Digits ds) (hr : Stops rest) (hm : max < 2 ^ 64)
    (hv : value ds ≤ max) : strToUll (ds ++ rest) max = some ⟨value ds, false, rest⟩ := by
  have hs := strtoull_digits h hr (by omega)
  have hval : validateUint (ds ++ rest) = true := by
    cases ds with
    | nil => exact absurd rfl h.1
    | cons c r => exact h.2 c List.mem_cons_self
  unfold strToUll
  rw [if_pos hval]
  dsimp only
  rw [hs]
  simp only [Bool.false_eq_true, if_false]
  rw [if_neg (by omega)]

theorem strToUll_dec {n max : Nat} (rest : Text) (hr : Stops rest) (hm : max < 2 ^ 64) (hv : n ≤ max) :
    strToUll (dec n ++ rest) max = some ⟨n, false, rest⟩ := by
  have := strToUll_digits (dec_digits n) hr hm (by rw [value_dec]; exact hv)
  rwa [value_dec] at this

theorem strToUll_dec' {n max : Nat} (hm : max < 2 ^ 64) (hv : n ≤ max) : strToUll (dec n) max = some ⟨n, false, []⟩ := by
  have := strToUll_dec (n := n) [] trivial hm hv
  rwa [List.append_nil] at this

theorem strToU16_dec (v : BitVec 16) : strToU16 (dec v.toNat) = some v := by
  unfold strToU16
  rw [strToUll_dec' (by decide) (by have := v.isLt; omega)]
  simp

theorem strToU32_dec (v : BitVec 32) : strToU32 (dec v.toNat) = some v := by
  unfold strToU32
  rw [strToUll_dec' (by decide) (by have := v.isLt; omega)]
  simp

theorem strToU8_dec {n max : Nat} (hm : max < 256) (h : n ≤ max) : strToU8 (dec n) max = some n := by
  unfold strToU8
  rw [strToUll_dec' (by omega) h]
  simp only [Option.map_some, Option.some.injEq]
  omega

/-! ## `strtok()` -/

theorem tokGo_run {d : Char} : ∀ (a acc rest : Text), d ∉ a → tokGo d acc (a ++ rest) = tokGo d (acc ++ a) rest
  | [], acc, rest, _ => by rw [List.nil_append, List.append_nil]
  | c :: a, acc, rest, h => by
    have h1 : c ≠ d := fun e => h (e ▸ List.mem_cons_self)
    have h2 : d ∉ a := fun e => h (List.mem_cons_of_mem _ e)
    rw [List.cons_append, tokGo, if_neg h1, tokGo_run a _ rest h2, List.append_assoc]; rfl

theorem tokens_cons {d : Char} {a : Text} (rest : Text) (ha : a ≠ []) (h : d ∉ a) :
    tokens d (a ++ d :: rest) = a :: tokens d rest := by
  unfold tokens
  rw [tokGo_run a [] _ h, List.nil_append, tokGo, if_pos rfl, if_neg ha]

theorem tokens_one {d : Char} {a : Text} (ha : a ≠ []) (h : d ∉ a) : tokens d a = [a] := by
  have := tokGo_run a [] [] h
  rw [List.append_nil, List.nil_append] at this
  unfold tokens
  rw [this, tokGo, if_neg ha]

theorem not_mem_digits {d : Char} {l : Text} (h : Digits l) (hd : isDigit d = false) : d ∉ l := fun hm => by
  have := h.2 d hm; rw [this] at hd; cases hd

/-! ## Options -/

theorem parse_inv {f : Arg → Args → Option Args} {P : List Arg → Args → Prop} (h0 : P [] {})
    (hs : ∀ l x a b, P l a → f x a = some b → P (l ++ [x]) b) (l : List Arg) (b : Args) (h : parse f l = some b) : P l b := by
  suffices ∀ (l l0 : List Arg) (a : Args), P l0 a → l.foldlM (fun a x => f x a) a = some b → P (l0 ++ l) b by
    have := this l [] {} h0 h
    rwa [List.nil_append] at this
  intro l
  induction l with
  | nil => intro l0 a hp he; simp at he; rw [List.append_nil, ← he]; exact hp
  | cons x l ih =>
    intro l0 a hp he
    rw [List.foldlM_cons] at he
    cases hx : f x a with
    | none => rw [hx] at he; cases he
    | some a' =>
      rw [hx] at he
      have := ih (l0 ++ [x]) a' (hs l0 x a a' hp hx) he
      rwa [List.append_assoc, List.singleton_append] at this

end Jool.Text
