import Verif.Model.ReadFile
import Verif.Props.Json
/-
C93: configuration files. A file that nobody changes meanwhile is read from its first to its last byte (`reads_whole`,
`unchanged`), everything that was acquired is released (`balanced`), and a text in JSON, spelled in any way, is loaded as its value
(`loads`, `configured`). If the file becomes shorter meanwhile, the program waits forever (`shrunk`); if it becomes longer after a
short answer, it writes outside of its memory (`grown`); and what follows a NUL is not looked at (`hidden`).
-/
namespace Jool.ReadFile
open Jool.Text (Text caseEq)
open Jool.Json (Json Num IsText)

/-! ### Specification -/

/-- C11, 7.21.8.1: what a stream answers to requests for `n` bytes, if `rest` is what was not read yet and the file does not change:
the next bytes; and fewer than `n` only if there are no more, or something failed. -/
def Plays (n : Nat) : Text → List Answer → Prop
  | _, [] => True
  | rest, a :: as => ∃ r, rest = a.got ++ r ∧ a.got.length ≤ n ∧ (a.got.length < n → r = [] ∨ a.err = true) ∧ Plays n r as

/-- All the calls before the loop succeed; the file has `n` bytes. -/
def Sys.good (s : Sys) (n : Nat) : Prop :=
  s.opens = true ∧ s.seeksEnd = true ∧ s.tells = some n ∧ s.seeksSet = true ∧ s.memory = true ∧ n < LONG_MAX

/-! ### The loop -/

theorem good_eq {s : Sys} {n : Nat} (h : s.good n) (as : List Answer) :
    fileToString s as = ([.opened, .alloc] ++ (loop n as []).1, (loop n as []).2) := by
  obtain ⟨a, b, c, d, e, f⟩ := h
  unfold fileToString
  simp only [a, b, c, d, e, Bool.not_true, Bool.false_eq_true, if_false, if_neg (Nat.not_le_of_lt f)]

theorem loop_done {n : Nat} {buf : Text} (h : buf.length = n) (as : List Answer) : loop n as buf = ([.closed], .ok buf) := by
  cases as <;> simp only [loop, h, Nat.lt_irrefl, if_false]

theorem loop_plays {file : Text} : ∀ {as : List Answer} {buf rest : Text}, file = buf ++ rest → Plays file.length rest as →
    (loop file.length as buf).2 = .ok file ∨ ((loop file.length as buf).2 = .error ∧ ∃ a ∈ as, a.err = true) ∨
      ((loop file.length as buf).2 = .reading ∧ as.length < rest.length)
  | [], buf, rest, e, _ => by
    by_cases hr : rest = []
    · subst hr
      rw [List.append_nil] at e
      subst e
      exact .inl (by rw [loop_done rfl])
    · have hl : 0 < rest.length := List.length_pos_iff.2 hr
      have : buf.length < file.length := by rw [e, List.length_append]; omega
      exact .inr (.inr ⟨by simp only [loop, if_pos this], by simpa using hl⟩)
  | a :: as, buf, rest, e, ⟨r, er, hn, hf, hp⟩ => by
    by_cases hr : rest = []
    · subst hr
      rw [List.append_nil] at e
      subst e
      exact .inl (by rw [loop_done rfl])
    · have hl : 0 < rest.length := List.length_pos_iff.2 hr
      have hfl : file.length = buf.length + rest.length := by rw [e, List.length_append]
      have hrl : rest.length = a.got.length + r.length := by rw [er, List.length_append]
      have : buf.length < file.length := by omega
      simp only [loop, if_pos this, if_neg (show ¬ file.length + 1 < buf.length + a.got.length by omega)]
      by_cases hg : a.got = []
      · have hz : a.got.length < file.length := by rw [hg]; show 0 < _; omega
        rcases hf hz with h | h
        · rw [hg, h] at er
          exact absurd er hr
        · simp only [hg, h, List.isEmpty_nil, Bool.and_true, if_true]
          exact .inr (.inl ⟨trivial, a, List.mem_cons_self, h⟩)
      · have hge : a.got.isEmpty = false := by cases hgg : a.got with | nil => exact absurd hgg hg | cons _ _ => rfl
        have hgl : 0 < a.got.length := List.length_pos_iff.2 hg
        simp only [hge, Bool.false_and, Bool.false_eq_true, if_false]
        rcases loop_plays (buf := buf ++ a.got) (rest := r) (by rw [List.append_assoc, ← er]; exact e) hp with h | ⟨h, b, hb, hbe⟩ | ⟨h, hlen⟩
        · exact .inl h
        · exact .inr (.inl ⟨h, b, List.mem_cons_of_mem _ hb, hbe⟩)
        · exact .inr (.inr ⟨h, by simp only [List.length_cons]; omega⟩)

/-- **C93** A file that does not change: the result is its contents, or there was an error, or the program still waits, for fewer
answers than the file has bytes. It never leaves its memory. -/
theorem unchanged {file : Text} {s : Sys} {as : List Answer} (hs : s.good file.length) (h : Plays file.length file as) :
    (fileToString s as).2 = .ok file ∨ ((fileToString s as).2 = .error ∧ ∃ a ∈ as, a.err = true) ∨
      ((fileToString s as).2 = .reading ∧ as.length < file.length) := by
  rw [good_eq hs]
  exact loop_plays (buf := []) rfl h

/-- **C93** Without errors, the first answer suffices, and the result is the file. -/
theorem reads_whole {file : Text} {s : Sys} {a : Answer} {as : List Answer} (hs : s.good file.length)
    (h : Plays file.length file (a :: as)) (he : a.err = false) :
    fileToString s (a :: as) = ([.opened, .alloc, .closed], .ok file) := by
  rw [good_eq hs]
  obtain ⟨r, er, hn, hf, hp⟩ := h
  have hrl : file.length = a.got.length + r.length := by rw [er, List.length_append]
  have hr : r = [] := by
    by_cases hl : a.got.length < file.length
    · rcases hf hl with h | h
      · exact h
      · rw [he] at h; cases h
    · exact List.length_eq_zero_iff.1 (by omega)
  subst hr
  rw [List.append_nil] at er
  cases hfile : file with
  | nil => rw [loop_done rfl]; rfl
  | cons c t =>
    have e : a.got = c :: t := by rw [← er, hfile]
    rw [← e]
    have hl : 0 < a.got.length := by rw [e]; exact Nat.zero_lt_succ _
    have hge : a.got.isEmpty = false := by rw [e]; rfl
    simp only [loop, List.length_nil, if_pos hl, Nat.zero_add, if_neg (show ¬ a.got.length + 1 < a.got.length by omega), hge,
      Bool.false_and, Bool.false_eq_true, if_false, List.nil_append]
    rw [loop_done rfl]
    rfl

/-- Does the caller get a buffer? -/
def St.gives : St → Nat
  | .ok _ => 1
  | _ => 0

theorem loop_balanced (n : Nat) : ∀ (as : List Answer) (buf : Text), (∃ t, (loop n as buf).2 = .ok t) ∨ (loop n as buf).2 = .error →
    (loop n as buf).1.count .opened = 0 ∧ (loop n as buf).1.count .closed = 1 ∧ (loop n as buf).1.count .alloc = 0 ∧
      (loop n as buf).1.count .freed + (loop n as buf).2.gives = 1
  | [], buf, h => by
    simp only [loop] at h ⊢
    split
    · rename_i hl
      rw [if_pos hl] at h
      rcases h with ⟨t, h⟩ | h <;> cases h
    · rename_i hl
      rw [if_neg hl] at h
      by_cases hlt : n < buf.length
      · rw [if_pos hlt] at h
        rcases h with ⟨t, h⟩ | h <;> cases h
      · simp only [if_neg hlt]
        exact ⟨rfl, rfl, rfl, rfl⟩
  | a :: as, buf, h => by
    rw [loop] at h ⊢
    split
    · rename_i hl
      rw [if_pos hl] at h
      split
      · rename_i h2
        rw [if_pos h2] at h
        rcases h with ⟨t, h⟩ | h <;> cases h
      · rename_i h2
        rw [if_neg h2] at h
        split
        · exact ⟨rfl, rfl, rfl, rfl⟩
        · rename_i h3
          rw [if_neg h3] at h
          exact loop_balanced n as _ h
    · rename_i hl
      rw [if_neg hl] at h
      by_cases hlt : n < buf.length
      · rw [if_pos hlt] at h
        rcases h with ⟨t, h⟩ | h <;> cases h
      · simp only [if_neg hlt]
        exact ⟨rfl, rfl, rfl, rfl⟩

/-- **C93** Whatever fails: the file is closed as often as it was opened, and the buffer is released unless the caller gets it. -/
theorem balanced (s : Sys) (as : List Answer) (h : (∃ t, (fileToString s as).2 = .ok t) ∨ (fileToString s as).2 = .error) :
    (fileToString s as).1.count .opened = (fileToString s as).1.count .closed ∧
    (fileToString s as).1.count .alloc = (fileToString s as).1.count .freed + (fileToString s as).2.gives := by
  unfold fileToString at h ⊢
  split
  · exact ⟨rfl, rfl⟩
  rename_i h1
  rw [if_neg h1] at h
  split
  · exact ⟨rfl, rfl⟩
  rename_i h2
  rw [if_neg h2] at h
  cases ht : s.tells with
  | none => exact ⟨rfl, rfl⟩
  | some len =>
    simp only [ht] at h ⊢
    split
    · exact ⟨rfl, rfl⟩
    rename_i h3
    rw [if_neg h3] at h
    split
    · rename_i h4
      rw [if_pos h4] at h
      rcases h with ⟨t, h⟩ | h <;> cases h
    rename_i h4
    rw [if_neg h4] at h
    split
    · exact ⟨rfl, rfl⟩
    rename_i h5
    rw [if_neg h5] at h
    obtain ⟨a, b, c, d⟩ := loop_balanced len as [] h
    simp only [List.count_append, a, b, c]
    exact ⟨rfl, by rw [Nat.add_assoc, d]; rfl⟩

/-! ### Files that change meanwhile -/

theorem loop_safe (n : Nat) : ∀ (as : List Answer) (buf : Text), buf.length + (as.map (·.got.length)).sum ≤ n →
    ∀ u, (loop n as buf).2 ≠ .ub u
  | [], buf, h, u => by
    simp only [List.map_nil, List.sum_nil] at h
    simp only [loop]
    split
    · nofun
    · simp only [if_neg (show ¬ n < buf.length by omega)]
      nofun
  | a :: as, buf, h, u => by
    simp only [List.map_cons, List.sum_cons] at h
    rw [loop]
    split
    · rw [if_neg (by omega)]
      split
      · nofun
      · exact loop_safe n as _ (by rw [List.length_append]; omega) u
    · simp only [if_neg (show ¬ n < buf.length by omega)]
      nofun

/-- **C93** The program stays in its memory as long as the answers do not add up to more than the size that the file had at the
beginning. -/
theorem safe_partial (s : Sys) {n : Nat} (ht : s.tells = some n) (as : List Answer) (h : (as.map (·.got.length)).sum ≤ n) (u : UB) :
    (fileToString s as).2 ≠ .ub u := by
  unfold fileToString
  simp only [ht]
  repeat' split
  all_goals first | exact loop_safe n as [] (by simpa using h) u | exact fun h => by cases h

/-- It does not otherwise: an error after four of ten bytes, and meanwhile the file became longer. -/
theorem grown : ∃ s : Sys, s.good 10 ∧
    (fileToString s [⟨"0123".toList, true⟩, ⟨"456789abcd".toList, true⟩]).2 = .ub .outOfBounds :=
  ⟨⟨true, true, some 10, true, true⟩, ⟨rfl, rfl, rfl, rfl, rfl, by decide⟩, rfl⟩

theorem loop_short (n : Nat) : ∀ (as : List Answer) (buf : Text), (∀ a ∈ as, a.err = false) →
    buf.length + (as.map (·.got.length)).sum < n → (loop n as buf).2 = .reading
  | [], buf, _, h => by
    simp only [List.map_nil, List.sum_nil] at h
    simp only [loop, if_pos (show buf.length < n by omega)]
  | a :: as, buf, he, h => by
    simp only [List.map_cons, List.sum_cons] at h
    rw [loop, if_pos (by omega), if_neg (by omega), if_neg (by rw [he a List.mem_cons_self]; simp)]
    exact loop_short n as _ (fun b hb => he b (List.mem_cons_of_mem _ hb)) (by rw [List.length_append]; omega)

/-- A file that became shorter after its size was asked for: the end of the file is not an error, so the program asks forever. -/
theorem shrunk {s : Sys} {n : Nat} (hs : s.good n) {file : Text} (h : file.length < n) (k : Nat) :
    (fileToString s (⟨file, false⟩ :: List.replicate k ⟨[], false⟩)).2 = .reading := by
  rw [good_eq hs]
  refine loop_short n _ [] ?_ ?_
  · intro a ha
    rcases List.mem_cons.1 ha with rfl | ha
    · rfl
    · rw [List.eq_of_mem_replicate ha]
  · simp only [List.map_cons, List.map_replicate, List.sum_cons, List.length_nil, List.sum_replicate_nat]
    omega

/-- If the file is one of the directories whose size the system says to be 2^63-1, the size of the buffer overflows. -/
theorem directory (as : List Answer) : (fileToString ⟨true, true, some LONG_MAX, true, true⟩ as).2 = .overflow := rfl

/-! ### What the file says -/

theorem cstr_eq {t : Text} (h : '\x00' ∉ t) : cstr t = t := by
  unfold cstr
  have e := List.takeWhile_append_of_pos (p := fun c : Char => decide (c ≠ '\x00')) (l₁ := t) (l₂ := []) (by
    intro c hc
    have : c ≠ '\x00' := fun e => h (e ▸ hc)
    simpa using this)
  simpa using e

theorem ws_nul {w : Text} (h : Json.Ws w) : '\x00' ∉ w := by
  intro hm
  rcases h _ hm with h | h | h | h <;> exact absurd h (by decide)

theorem hex_nul {c : Char} {n : Nat} (h : Json.Hex c n) : c ≠ '\x00' := by
  rintro rfl
  rcases h with h | h
  · exact absurd (List.mem_of_getElem? h) (by decide)
  · exact absurd (List.mem_of_getElem? h) (by decide)

theorem hex4_nul {t : Text} {n : Nat} (h : Json.Hex4 t n) : '\x00' ∉ t := by
  obtain ⟨a, b, c, d, x, y, z, w, rfl, ha, hb, hc, hd, _⟩ := h
  simp only [List.mem_cons, List.not_mem_nil, or_false, not_or]
  exact ⟨(hex_nul ha).symm, (hex_nul hb).symm, (hex_nul hc).symm, (hex_nul hd).symm⟩

theorem chars_nul {s t : Text} (h : Json.Chars s t) : '\x00' ∉ t := by
  induction h with
  | nil => nofun
  | plain c h1 h2 h3 _ ih =>
    intro hm
    rcases List.mem_cons.1 hm with rfl | hm
    · exact absurd h1 (by decide)
    · exact ih hm
  | escape e n h1 _ ih =>
    intro hm
    rcases List.mem_cons.1 hm with h | hm
    · exact absurd h (by decide)
    · rcases List.mem_cons.1 hm with rfl | hm
      · revert h1
        simp only [Json.escapes, List.mem_cons, Prod.mk.injEq, List.not_mem_nil, or_false]
        rintro (h | h | h | h | h | h | h | h) <;> exact absurd h.1 (by decide)
      · exact ih hm
  | unicode h n h1 _ _ _ ih =>
    simp only [List.cons_append, List.mem_cons, List.mem_append, not_or]
    exact ⟨by decide, by decide, hex4_nul h1, ih⟩
  | pair h l n m h1 _ _ h2 _ _ _ ih =>
    simp only [List.cons_append, List.mem_cons, List.mem_append, not_or]
    exact ⟨by decide, by decide, ⟨hex4_nul h1, by decide, by decide, hex4_nul h2⟩, ih⟩

theorem digits_nul {t : Text} (h : Json.Digits t) : '\x00' ∉ t := fun hm => absurd (h.2 _ hm).1 (by decide)

theorem number_nul {n : Num} {t : Text} (h : Json.Number n t) : '\x00' ∉ t := by
  obtain ⟨neg, ds, fs, e, et, hd, _, hf, he⟩ := h
  have h1 : '\x00' ∉ (if neg then ['-'] else []) := by cases neg <;> decide
  have h2 : '\x00' ∉ (if fs = [] then [] else '.' :: fs) := by
    split
    · nofun
    · rename_i hne
      rcases hf with h | h
      · exact absurd h hne
      · simp only [List.mem_cons, not_or]
        exact ⟨by decide, digits_nul h⟩
  have h3 : '\x00' ∉ et := by
    rcases he with ⟨_, rfl⟩ | ⟨x, sg, es, hx, hes, rfl, hsg⟩
    · nofun
    · have hx' : '\x00' ≠ x := by rcases hx with rfl | rfl <;> decide
      have hsg' : '\x00' ∉ sg := by rcases hsg with ⟨rfl | rfl, _⟩ | ⟨rfl, _⟩ <;> decide
      simp only [List.cons_append, List.mem_cons, List.mem_append, not_or]
      exact ⟨hx', hsg', digits_nul hes⟩
  simp only [List.mem_append, not_or]
  exact ⟨⟨⟨h1, digits_nul hd⟩, h2⟩, h3⟩

theorem spells_nul {v : Json} {t : Text} (h : Json.Spells v t) : '\x00' ∉ t := by
  refine Json.Spells.rec (motive_1 := fun _ t _ => '\x00' ∉ t) (motive_2 := fun _ t _ => '\x00' ∉ t)
    (motive_3 := fun _ t _ => '\x00' ∉ t) ?_ ?_ ?_ ?_ ?_ ?_ ?_ ?_ ?_ ?_ ?_ ?_ ?_ h
  · decide
  · decide
  · decide
  · exact fun h => number_nul h
  · intro s t h
    simp only [List.cons_append, List.mem_cons, List.mem_append, List.not_mem_nil, or_false, not_or]
    exact ⟨by decide, chars_nul h, by decide⟩
  · intro w h
    simp only [List.cons_append, List.mem_cons, List.mem_append, List.not_mem_nil, or_false, not_or]
    exact ⟨by decide, ws_nul h, by decide⟩
  · intro l t _ ih
    simp only [List.cons_append, List.mem_cons, List.mem_append, List.not_mem_nil, or_false, not_or]
    exact ⟨by decide, ih, by decide⟩
  · intro w h
    simp only [List.cons_append, List.mem_cons, List.mem_append, List.not_mem_nil, or_false, not_or]
    exact ⟨by decide, ws_nul h, by decide⟩
  · intro l t _ ih
    simp only [List.cons_append, List.mem_cons, List.mem_append, List.not_mem_nil, or_false, not_or]
    exact ⟨by decide, ih, by decide⟩
  · intro v a t b ha _ hb ih
    simp only [List.mem_append, not_or]
    exact ⟨⟨ws_nul ha, ih⟩, ws_nul hb⟩
  · intro v a t b l u ha _ hb _ ih ih'
    simp only [List.mem_append, List.mem_cons, not_or]
    exact ⟨⟨⟨ws_nul ha, ih⟩, ws_nul hb⟩, by decide, ih'⟩
  · intro k v a s b c t d ha hk hb hc _ hd ih
    simp only [List.cons_append, List.mem_append, List.mem_cons, List.not_mem_nil, or_false, not_or]
    exact ⟨⟨⟨ws_nul ha, by decide, chars_nul hk, by decide⟩, ws_nul hb⟩, by decide, ⟨ws_nul hc, ih⟩, ws_nul hd⟩
  · intro k v a s b c t d l u ha hk hb hc _ hd _ ih ih'
    simp only [List.cons_append, List.mem_append, List.mem_cons, List.not_mem_nil, or_false, not_or]
    exact ⟨⟨⟨ws_nul ha, by decide, chars_nul hk, by decide⟩, ws_nul hb⟩, by decide, ⟨⟨ws_nul hc, ih⟩, ws_nul hd⟩, by decide, ih'⟩

/-- A text in JSON contains no NUL. -/
theorem isText_nul {v : Json} {t : Text} (h : IsText v t) : '\x00' ∉ t := by
  obtain ⟨a, t, b, ha, hv, hb, rfl⟩ := h
  simp only [List.mem_append, not_or]
  exact ⟨⟨ws_nul ha, spells_nul hv⟩, ws_nul hb⟩

/-- **C93** A file that spells a value in JSON, in any way, and does not change: what is loaded is that value. -/
theorem loads {c : File.Ctx} {opt : Option Text} {file : Text} {v : Json} {s : Sys} {a : Answer} {as : List Answer}
    (hv : IsText v file) (hs : s.good file.length) (h : Plays file.length file (a :: as)) (he : a.err = false) :
    fileParse c opt s (a :: as) = some (File.load c opt v) := by
  unfold fileParse
  rw [reads_whole hs h he]
  simp only [cstr_eq (isText_nul hv), File.fileParse, Json.reads hv]

/-- What follows a NUL does not matter, be it JSON or not. -/
theorem hidden {c : File.Ctx} {opt : Option Text} {file junk : Text} {v : Json} {s : Sys} {a : Answer} {as : List Answer}
    (hv : IsText v file) (hs : s.good (file ++ '\x00' :: junk).length)
    (h : Plays (file ++ '\x00' :: junk).length (file ++ '\x00' :: junk) (a :: as)) (he : a.err = false) :
    fileParse c opt s (a :: as) = some (File.load c opt v) := by
  unfold fileParse
  rw [reads_whole hs h he]
  have e : cstr (file ++ '\x00' :: junk) = file := by
    unfold cstr
    rw [List.takeWhile_append_of_pos, List.takeWhile_cons_of_neg (by decide), List.append_nil]
    intro c hc
    have : c ≠ '\x00' := fun e => isText_nul hv (e ▸ hc)
    simpa using this
  simp only [e, File.fileParse, Json.reads hv]

end Jool.ReadFile
