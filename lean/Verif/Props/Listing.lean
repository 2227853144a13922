import Verif.Model.Listing
import Verif.Props.Text
/-
C95: the CSV listings are CSV files, with one record for each entry, and each record says what the entry is.
-/
namespace Jool.CsvSpec
open Jool.Text (Text)

/-- RFC 4180, with the line ends of Unix. A field is written as it is, or between quotes. -/
def Plain (t : Text) : Prop := ∀ c ∈ t, c ≠ ',' ∧ c ≠ '"' ∧ c ≠ '\n' ∧ c ≠ '\r'

/-- Between quotes, quotes are doubled. -/
def esc : Text → Text
  | [] => []
  | c :: r => if c = '"' then '"' :: '"' :: esc r else c :: esc r

/-- How a field is written, and what it says. -/
inductive Field : Text → Text → Prop
  | plain {t} : Plain t → Field t t
  | quoted (v) : Field ('"' :: (esc v ++ ['"'])) v

inductive Record : Text → List Text → Prop
  | last {t v} : Field t v → Record (t ++ ['\n']) [v]
  | cons {t v r vs} : Field t v → Record r vs → Record (t ++ ',' :: r) (v :: vs)

inductive File : Text → List (List Text) → Prop
  | nil : File [] []
  | cons {t vs r rows} : Record t vs → File r rows → File (t ++ r) (vs :: rows)

/-- What follows a field. -/
def Ends (r : Text) : Prop := ∃ c r', r = c :: r' ∧ (c = ',' ∨ c = '\n')

theorem plain_unique : ∀ {t t' r r' : Text}, Plain t → Plain t' → Ends r → Ends r' → t ++ r = t' ++ r' → t = t' ∧ r = r'
  | [], [], _, _, _, _, _, _, e => ⟨rfl, e⟩
  | [], c :: t', r, r', _, h', ⟨d, w, e1, e2⟩, _, e => by
    rw [e1, List.nil_append, List.cons_append] at e
    injection e with e _
    have := h' c List.mem_cons_self
    rcases e2 with e2 | e2 <;> subst e2 <;> subst e <;> simp at this
  | c :: t, [], r, r', h, _, _, ⟨d, w, e1, e2⟩, e => by
    rw [e1, List.nil_append, List.cons_append] at e
    injection e with e _
    have := h c List.mem_cons_self
    rcases e2 with e2 | e2 <;> subst e2 <;> subst e <;> simp at this
  | c :: t, c' :: t', r, r', h, h', g, g', e => by
    rw [List.cons_append, List.cons_append] at e
    injection e with e1 e2
    obtain ⟨k1, k2⟩ := plain_unique (fun x hx => h x (List.mem_cons_of_mem _ hx)) (fun x hx => h' x (List.mem_cons_of_mem _ hx)) g g' e2
    exact ⟨by rw [e1, k1], k2⟩

theorem ends_quote {r : Text} (h : Ends r) (w : Text) : r ≠ '"' :: w := by
  obtain ⟨c, r', rfl, h⟩ := h
  intro e
  injection e with e _
  rcases h with h | h <;> subst h <;> simp at e

theorem esc_unique : ∀ {v v' r r' : Text}, Ends r → Ends r' → esc v ++ '"' :: r = esc v' ++ '"' :: r' → v = v' ∧ r = r'
  | [], [], r, r', _, _, e => by
    simp only [esc, List.nil_append] at e
    injection e with _ e
    exact ⟨rfl, e⟩
  | [], c :: v, r, r', h, _, e => by
    simp only [esc, List.nil_append] at e
    by_cases q : c = '"'
    · rw [if_pos q] at e
      injection e with _ e
      exact absurd e (ends_quote h _)
    · rw [if_neg q] at e
      injection e with e _
      exact absurd e.symm q
  | c :: v, [], r, r', _, h, e => by
    simp only [esc, List.nil_append] at e
    by_cases q : c = '"'
    · rw [if_pos q] at e
      injection e with _ e
      exact absurd e.symm (ends_quote h _)
    · rw [if_neg q] at e
      injection e with e _
      exact absurd e q
  | c :: v, c' :: v', r, r', h, h', e => by
    simp only [esc] at e
    by_cases q : c = '"'
    · by_cases q' : c' = '"'
      · rw [if_pos q, if_pos q'] at e
        injection e with _ e
        injection e with _ e
        obtain ⟨k1, k2⟩ := esc_unique h h' e
        exact ⟨by rw [q, q', k1], k2⟩
      · rw [if_pos q, if_neg q'] at e
        injection e with e _
        exact absurd e.symm q'
    · by_cases q' : c' = '"'
      · rw [if_neg q, if_pos q'] at e
        injection e with e _
        exact absurd e q
      · rw [if_neg q, if_neg q'] at e
        injection e with e1 e2
        obtain ⟨k1, k2⟩ := esc_unique h h' e2
        exact ⟨by rw [e1, k1], k2⟩

theorem field_unique {t t' v v' r r' : Text} (h : Field t v) (h' : Field t' v') (g : Ends r) (g' : Ends r') (e : t ++ r = t' ++ r') : v = v' ∧ r = r' := by
  cases h with
  | plain p =>
    cases h' with
    | plain p' => exact plain_unique p p' g g' e
    | quoted w =>
      cases t with
      | nil => rw [List.nil_append] at e; exact absurd e (ends_quote g _)
      | cons c t =>
        rw [List.cons_append, List.cons_append] at e
        injection e with e _
        have := p c List.mem_cons_self
        exact absurd e this.2.1
  | quoted w =>
    cases h' with
    | plain p' =>
      cases t' with
      | nil => rw [List.nil_append] at e; exact absurd e.symm (ends_quote g' _)
      | cons c t =>
        rw [List.cons_append, List.cons_append] at e
        injection e with e _
        have := p' c List.mem_cons_self
        exact absurd e.symm this.2.1
    | quoted w' =>
      rw [List.cons_append, List.cons_append, List.append_assoc, List.append_assoc] at e
      injection e with _ e
      exact esc_unique g g' e

theorem ends_comma (r : Text) : Ends (',' :: r) := ⟨_, _, rfl, .inl rfl⟩
theorem ends_line (r : Text) : Ends ('\n' :: r) := ⟨_, _, rfl, .inr rfl⟩

theorem record_unique {t : Text} {vs : List Text} (h : Record t vs) : ∀ {t' vs' r r'}, Record t' vs' → t ++ r = t' ++ r' → vs = vs' ∧ r = r' := by
  induction h with
  | last f =>
    intro t' vs' r r' h' e
    cases h' with
    | last f' =>
      rw [List.append_assoc, List.append_assoc] at e
      obtain ⟨k1, k2⟩ := field_unique f f' (ends_line _) (ends_line _) e
      injection k2 with _ k2
      exact ⟨by rw [k1], k2⟩
    | cons f' h' =>
      rw [List.append_assoc, List.append_assoc] at e
      obtain ⟨k1, k2⟩ := field_unique f f' (ends_line _) (ends_comma _) e
      injection k2 with k2 _
      exact absurd k2 (by decide)
  | cons f h ih =>
    intro t' vs' r r' h' e
    cases h' with
    | last f' =>
      rw [List.append_assoc, List.append_assoc] at e
      obtain ⟨k1, k2⟩ := field_unique f f' (ends_comma _) (ends_line _) e
      injection k2 with k2 _
      exact absurd k2 (by decide)
    | cons f' h' =>
      rw [List.append_assoc, List.append_assoc] at e
      obtain ⟨k1, k2⟩ := field_unique f f' (ends_comma _) (ends_comma _) e
      injection k2 with _ k2
      obtain ⟨k3, k4⟩ := ih h' k2
      exact ⟨by rw [k1, k3], k4⟩

theorem record_nil {t : Text} {vs : List Text} (h : Record t vs) : t ≠ [] := by
  cases h <;> simp

/-- **C95.** A text is read in one way. -/
theorem unique {t : Text} {rows rows' : List (List Text)} (h : File t rows) (h' : File t rows') : rows = rows' := by
  induction h generalizing rows' with
  | nil =>
    generalize e : ([] : Text) = t at h'
    cases h' with
    | nil => rfl
    | cons k _ => exact absurd (List.append_eq_nil_iff.1 e.symm).1 (record_nil k)
  | cons k _ ih =>
    rename_i t1 vs r rows1 _
    generalize e : t1 ++ r = t at h'
    cases h' with
    | nil => exact absurd (List.append_eq_nil_iff.1 e).1 (record_nil k)
    | cons k' w =>
      obtain ⟨e1, e2⟩ := record_unique k k' e
      rw [e1, ih (by rw [e2]; exact w)]

end Jool.CsvSpec

namespace Jool.ListingSpec
open Jool.Text
open Jool.NlAttr (WBib WSess WPool4 WInst)

/-- Digits that are worth `n`. -/
def Num (t : Text) (n : Nat) : Prop := Digits t ∧ value t = n

/-- Hours, minutes and seconds, maybe with milliseconds. -/
def Time (t : Text) (ms : BitVec 32) : Prop :=
  ∃ h m s f, t = colons [h, m, s] ++ point f ∧ WellWritten [h, m, s] f ∧ 1000 * clock [h, m, s] + (f.map value).getD 0 = ms.toNat

def protos : List (BitVec 8 × Text) := [(0, "TCP".toList), (1, "UDP".toList), (2, "ICMP".toList)]

/-- RFC 6146 section 3.5.2. -/
def states : List (BitVec 8 × Text) := [(0, "ESTABLISHED".toList), (1, "V6_INIT".toList), (2, "V4_INIT".toList), (3, "V4_FIN_RCV".toList), (4, "V6_FIN_RCV".toList),
  (5, "V4_FIN_V6_FIN_RCV".toList), (6, "TRANS".toList)]

/-- Two fields that are an address and a port. -/
def At6 (i : Inet) (a p : Text) (t : T6) : Prop := i.pton6 a = some t.addr ∧ Num p t.port.toNat
def At4 (i : Inet) (a p : Text) (t : T4) : Prop := i.pton4 a = some t.addr ∧ Num p t.port.toNat

/-- What the record of a session says. -/
def IsSession (i : Inet) (proto : BitVec 8) (e : WSess) (row : List Text) : Prop :=
  ∃ p a b c d f g h k t st, row = [p, a, b, c, d, f, g, h, k, t] ++ st ∧ (proto, p) ∈ protos ∧ At6 i a b e.src6 ∧ At6 i c d e.dst6 ∧ At4 i f g e.src4 ∧ At4 i h k e.dst4 ∧ Time t e.ms ∧
    if proto = 0 then ∃ n, st = [n] ∧ (e.state, n) ∈ states else st = []

def IsBib (i : Inet) (e : WBib) (row : List Text) : Prop :=
  ∃ p a b c d n, row = [p, a, b, c, d, n] ∧ (e.proto, p) ∈ protos ∧ At6 i a b e.a6 ∧ At4 i c d e.a4 ∧ Num n (if e.static then 1 else 0)

/-- `address/length`. -/
def Is6 (i : Inet) (t : Text) (p : Prefix6) : Prop := ∃ a n, t = a ++ '/' :: n ∧ '/' ∉ a ∧ '/' ∉ n ∧ i.pton6 a = some p.addr ∧ Num n p.len
def Is4 (i : Inet) (t : Text) (p : Prefix4) : Prop := ∃ a n, t = a ++ '/' :: n ∧ '/' ∉ a ∧ '/' ∉ n ∧ i.pton4 a = some p.addr ∧ Num n p.len

def IsEam (i : Inet) (e : Eam.Entry) (row : List Text) : Prop := ∃ a b, row = [a, b] ∧ Is6 i a e.p6 ∧ Is4 i b e.p4

/-- Flags 2 and 4: the number of iterations is computed; there is no limit. -/
def IsPool4 (i : Inet) (w : WPool4) (row : List Text) : Prop :=
  ∃ m p a x y n f, row = [m, p, a, x, y, n, f] ∧ Num m w.mark.toNat ∧ (w.proto, p) ∈ protos ∧ (Is4 i a w.pfx ∨ w.pfx.len = 32 ∧ '/' ∉ a ∧ i.pton4 a = some w.pfx.addr) ∧
    Num x w.min.toNat ∧ Num y w.max.toNat ∧ (if w.flags &&& 4 = 0 then Num n w.iters.toNat else n = "infinite".toList) ∧ Num f (if w.flags &&& 2 = 0 then 1 else 0)

end Jool.ListingSpec

namespace Jool.Listing
open Jool.Text
open Jool.NlAttr (WBib WSess WPool4 WInst)
open Jool.CsvSpec
open Jool.ListingSpec

set_option linter.unusedVariables false

theorem num_dec (n : Nat) : Num (dec n) n := ⟨dec_digits n, value_dec n⟩

theorem plain_of {t : Text} (h : ∀ c ∈ t, isDigit c = true ∨ c ∈ ['a', 'b', 'c', 'd', 'e', 'f', ':', '.', '/']) : Plain t := by
  intro c hc
  rcases h c hc with q | q
  · refine ⟨?_, ?_, ?_, ?_⟩ <;> rintro rfl <;> revert q <;> decide
  · simp only [List.mem_cons, List.not_mem_nil, or_false] at q
    rcases q with rfl | rfl | rfl | rfl | rfl | rfl | rfl | rfl | rfl <;> decide

theorem plain_dec (n : Nat) : Plain (dec n) := plain_of (fun c hc => .inl ((dec_digits n).2 c hc))

theorem plain_append {a b : Text} (h : Plain a) (h' : Plain b) : Plain (a ++ b) := by
  intro c hc
  rcases List.mem_append.1 hc with q | q
  · exact h c q
  · exact h' c q

theorem plain_cons {c : Char} {b : Text} (h : c ≠ ',' ∧ c ≠ '"' ∧ c ≠ '\n' ∧ c ≠ '\r') (h' : Plain b) : Plain (c :: b) := by
  intro d hd
  rcases List.mem_cons.1 hd with rfl | q
  · exact h
  · exact h' d q

variable {i : Inet}

theorem plain4 (hi : i.Ok) (a : Addr4) : Plain (i.ntop4 a) := plain_of (fun c hc => (hi.chars4 a c hc).imp id (fun q => by subst q; decide))
theorem plain6 (hi : i.Ok) (a : Addr6) : Plain (i.ntop6 a) := plain_of (fun c hc => (hi.chars6 a c hc).imp id (fun q => by
  simp only [List.mem_cons, List.not_mem_nil, or_false] at q ⊢
  rcases q with q | q | q | q | q | q | q | q <;> simp [q]))

theorem time_of (ms : BitVec 32) : Time (timeout2str ms) ms ∧ Plain (timeout2str ms) := by
  obtain ⟨h1, -⟩ := timeout2str_eq ms
  have hlt := ms.isLt
  constructor
  · refine ⟨_, _, _, _, h1, ⟨⟨by simp, by simp⟩, ?_, ?_⟩, ?_⟩
    · intro p hp
      simp only [List.mem_cons, List.not_mem_nil, or_false] at hp
      rcases hp with rfl | rfl | rfl
      · exact ⟨dec_digits _, by rw [value_dec]; omega⟩
      · exact ⟨pad_digits _ _, by rw [value_pad]; omega⟩
      · exact ⟨pad_digits _ _, by rw [value_pad]; omega⟩
    · intro f hf
      split at hf
      · cases hf
      · cases hf
        refine ⟨pad_digits _ _, ?_, by rw [value_pad]; omega⟩
        simp only [pad, List.length_append, List.length_replicate]; omega
    · simp only [clock, List.foldl_cons, List.foldl_nil, value_dec, value_pad]
      split
      · simp only [Option.map_none, Option.getD_none]; omega
      · simp only [Option.map_some, Option.getD_some, value_pad]; omega
  · rw [h1]
    apply plain_of
    intro c hc
    simp only [colons, List.mem_append, List.mem_cons] at hc
    rcases hc with (q | q | q | q | q) | q
    · exact .inl ((dec_digits _).2 c q)
    · subst q; exact .inr (by decide)
    · exact .inl ((pad_digits _ _).2 c q)
    · subst q; exact .inr (by decide)
    · exact .inl ((pad_digits _ _).2 c q)
    · split at q
      · cases q
      · rcases List.mem_cons.1 q with q | q
        · subst q; exact .inr (by decide)
        · exact .inl ((pad_digits _ _).2 c q)

theorem proto_of {b : BitVec 8} (h : b = 0 ∨ b = 1 ∨ b = 2) : (b, protoName b) ∈ protos ∧ Plain (protoName b) := by
  rcases h with rfl | rfl | rfl <;> refine ⟨by decide, ?_⟩ <;> unfold Plain <;> decide

theorem state_of {b : BitVec 8} (h : b.toNat ≤ 6) : (b, stateName b) ∈ states ∧ Plain (stateName b) := by
  have : b = 0 ∨ b = 1 ∨ b = 2 ∨ b = 3 ∨ b = 4 ∨ b = 5 ∨ b = 6 := by
    have e : b = BitVec.ofNat 8 b.toNat := by rw [BitVec.ofNat_toNat, BitVec.setWidth_eq]
    rw [e]
    generalize b.toNat = n at h
    have : n = 0 ∨ n = 1 ∨ n = 2 ∨ n = 3 ∨ n = 4 ∨ n = 5 ∨ n = 6 := by omega
    rcases this with rfl | rfl | rfl | rfl | rfl | rfl | rfl <;> decide
  rcases this with rfl | rfl | rfl | rfl | rfl | rfl | rfl <;> refine ⟨by decide, ?_⟩ <;> unfold Plain <;> decide

/-! ### Files -/

/-- A record whose fields are written as they are. -/
def line : List Text → Text
  | [] => ['\n']
  | [t] => t ++ ['\n']
  | t :: u :: l => t ++ ',' :: line (u :: l)

theorem line_record : ∀ {l : List Text}, l ≠ [] → (∀ t ∈ l, Plain t) → Record (line l) l
  | [t], _, h => .last (.plain (h t List.mem_cons_self))
  | t :: u :: l, _, h => .cons (.plain (h t List.mem_cons_self)) (line_record (by simp) (fun x hx => h x (List.mem_cons_of_mem _ hx)))

theorem file_map {α : Type} {f : α → Text} {g : α → List Text} : ∀ {l : List α}, (∀ e ∈ l, Record (f e) (g e)) → File (l.flatMap f) (l.map g)
  | [], _ => .nil
  | e :: l, h => by
    rw [List.flatMap_cons, List.map_cons]
    exact .cons (h e List.mem_cons_self) (file_map (fun x hx => h x (List.mem_cons_of_mem _ hx)))

/-- The names of the columns, unless they are not wanted. -/
def head (noHeaders : Bool) (h : List String) : List (List Text) := if noHeaders then [] else [h.map String.toList]

theorem file_head {noHeaders : Bool} {s : String} {h : List String} {t : Text} {rows : List (List Text)} (hr : Record (s.toList ++ ['\n']) (h.map String.toList)) (hf : File t rows) :
    File (header noHeaders s ++ t) (head noHeaders h ++ rows) := by
  unfold header head
  cases noHeaders with
  | true => simpa using hf
  | false => exact .cons hr hf

theorem head_record {s : String} {h : List String} (e : s.toList ++ ['\n'] = line (h.map String.toList)) (hne : h.map String.toList ≠ [])
    (hp : (h.map String.toList).all (fun t => t.all (fun c => c != ',' && c != '"' && c != '\n' && c != '\r')) = true) : Record (s.toList ++ ['\n']) (h.map String.toList) := by
  rw [e]
  refine line_record hne ?_
  intro t ht c hc
  rw [List.all_eq_true] at hp
  have := hp t ht
  rw [List.all_eq_true] at this
  have := this c hc
  simp only [Bool.and_eq_true, bne_iff_ne, ne_eq] at this
  exact ⟨this.1.1.1, this.1.1.2, this.1.2, this.2⟩

end Jool.Listing
