import Verif.Model.NlAttr
import Verif.Props.JooldMsg
/-
Lemmas about Netlink attributes: what is written can be walked again; validated attributes can be read safely.
-/
namespace Jool.Nla
open Jool.JooldMsg (Byte be unbe be_length unbe_be)

theorem le_length (n x : Nat) : (le n x).length = n := by
  induction n generalizing x with
  | zero => rfl
  | succ n ih => simp [le, ih]

theorem unle_le (n x : Nat) : unle (le n x) = x % 256 ^ n := by
  induction n generalizing x with
  | zero => simp [le, unle, Nat.mod_one]
  | succ n ih =>
    rw [le, unle, ih, Nat.pow_succ', Nat.mod_mul]
    simp only [BitVec.toNat_ofNat]

theorem align_ge (n : Nat) : n ≤ align n := by unfold align; omega

theorem align_align (n : Nat) : align n % 4 = 0 := by unfold align; omega

theorem enc_length (a : Attr) : (enc a).length = align (4 + a.data.length) := by
  have := align_ge (4 + a.data.length)
  simp only [enc, List.length_append, le_length, List.length_replicate]
  omega

/-- The attributes that the format can express. -/
def Small (a : Attr) : Prop := a.ty < 2 ^ 14 ∧ a.data.length + 4 < 2 ^ 16

instance (a : Attr) : Decidable (Small a) := inferInstanceAs (Decidable (_ ∧ _))

theorem walk_nil (n : Nat) : walk n [] = ([], 0) := by cases n <;> simp [walk]

theorem walk_enc (n : Nat) (a : Attr) (l : List Byte) (h : Small a) :
    walk (n + 1) (enc a ++ l) = (a :: (walk n l).1, (walk n l).2) := by
  obtain ⟨h1, h2⟩ := h
  have hlen := enc_length a
  have hal := align_ge (4 + a.data.length)
  have ht : (enc a ++ l).take 2 = le 2 (4 + a.data.length) := by
    simp only [enc, List.append_assoc]
    exact List.take_left' (le_length _ _)
  have hu : unle ((enc a ++ l).take 2) = 4 + a.data.length := by
    rw [ht, unle_le]; exact Nat.mod_eq_of_lt (by omega)
  have hd : ((enc a ++ l).drop 2).take 2 = le 2 (a.ty + if a.nested then 2 ^ 15 else 0) := by
    simp only [enc, List.append_assoc]
    rw [List.drop_left' (le_length _ _)]
    exact List.take_left' (le_length _ _)
  have hu2 : unle (((enc a ++ l).drop 2).take 2) = a.ty + if a.nested then 2 ^ 15 else 0 := by
    rw [hd, unle_le]; apply Nat.mod_eq_of_lt; split <;> omega
  have hll : (enc a ++ l).length = align (4 + a.data.length) + l.length := by rw [List.length_append, hlen]
  have hdat : ((enc a ++ l).take (4 + a.data.length)).drop 4 = a.data := by
    have : enc a ++ l = (le 2 (4 + a.data.length) ++ le 2 (a.ty + if a.nested then 2 ^ 15 else 0)) ++ (a.data ++
        (List.replicate (align (4 + a.data.length) - (4 + a.data.length)) 0#8 ++ l)) := by
      simp only [enc, List.append_assoc]
    have hhd : (le 2 (4 + a.data.length) ++ le 2 (a.ty + if a.nested then 2 ^ 15 else 0)).length = 4 := by
      simp [le_length]
    rw [this, List.drop_take, List.drop_left' hhd]
    have : 4 + a.data.length - 4 = a.data.length := by omega
    rw [this]
    exact List.take_left' rfl
  have hdr : (enc a ++ l).drop (align (4 + a.data.length)) = l := List.drop_left' hlen
  rw [walk, if_neg (by omega), hu, if_neg (by omega), hu2, hdat, hdr]
  have e1 : (a.ty + if a.nested then 2 ^ 15 else 0) % 2 ^ 14 = a.ty := by split <;> omega
  have e2 : ((a.ty + if a.nested then 2 ^ 15 else 0) / 2 ^ 15 % 2 == 1) = a.nested := by
    cases a.nested
    · simp only [Bool.false_eq_true, if_false]
      rw [show (a.ty + 0) / 2 ^ 15 = 0 by omega]; rfl
    · simp only [if_true]
      rw [show (a.ty + 2 ^ 15) / 2 ^ 15 = 1 by omega]; rfl
  rw [e1, e2]

theorem walk_encs (as : List Attr) (h : ∀ a ∈ as, Small a) : ∀ n, as.length ≤ n → walk n (as.flatMap enc) = (as, 0) := by
  induction as with
  | nil => intro n _; exact walk_nil n
  | cons a as ih =>
    intro n hn
    obtain ⟨m, rfl⟩ : ∃ m, n = m + 1 := ⟨n - 1, by simp at hn; omega⟩
    rw [List.flatMap_cons, walk_enc m a _ (h a (List.mem_cons_self ..)),
      ih (fun b hb => h b (List.mem_cons_of_mem _ hb)) m (by simpa using hn)]

theorem encs_length (as : List Attr) : as.length ≤ (as.flatMap enc).length := by
  induction as with
  | nil => simp
  | cons a as ih =>
    rw [List.flatMap_cons, List.length_append, List.length_cons, enc_length]
    have := align_ge (4 + a.data.length)
    omega

/-- What was written in a row is found again by walking. -/
theorem attrs_encs (as : List Attr) (h : ∀ a ∈ as, Small a) : attrs (as.flatMap enc) = (as, 0) :=
  walk_encs as h _ (encs_length as)

theorem kParse_encs (s : Bool) (pol : List Pol) (as : List Attr) (h : ∀ a ∈ as, Small a)
    (hv : as.all (kAccepts s pol) = true) :
    kParse s pol (as.flatMap enc) = .ok as := by
  unfold kParse
  rw [attrs_encs as h]
  dsimp only
  simp [hv]

theorem uParse_encs (pol : List Pol) (as : List Attr) (h : ∀ a ∈ as, Small a)
    (hv : as.all (uAccepts pol) = true) :
    uParse pol (as.flatMap enc) = .ok as := by
  unfold uParse
  rw [attrs_encs as h]
  exact if_pos hv

/-! ### Writers -/

/-- The writer appends this attribute if there is room, and fails otherwise. -/
def Writes (cap : Nat) (w : Writer) (a : Attr) : Prop :=
  ∀ skb : List Byte, w skb = if skb.length + (enc a).length ≤ cap then some (skb ++ enc a) else none

theorem put_writes (cap ty : Nat) (d : List Byte) : Writes cap (put cap ty d) ⟨ty, false, d⟩ := by
  intro skb
  unfold put
  rw [enc_length]

/-- A list of writers, one attribute each. -/
inductive WritesAll (cap : Nat) : List Writer → List Attr → Prop
  | nil : WritesAll cap [] []
  | cons {w a ws as} (h : Writes cap w a) (hs : WritesAll cap ws as) : WritesAll cap (w :: ws) (a :: as)

theorem seq_writes {cap : Nat} {ws : List Writer} {as : List Attr} (h : WritesAll cap ws as) :
    ∀ skb : List Byte, skb.length ≤ cap → seq ws skb =
      if skb.length + (as.flatMap enc).length ≤ cap then some (skb ++ as.flatMap enc) else none := by
  induction h with
  | nil => intro skb hc; simp [seq, hc]
  | cons hw _ ih =>
    rename_i w a ws as _
    intro skb hc
    rw [seq, hw skb, List.flatMap_cons, List.length_append]
    by_cases h1 : skb.length + (enc a).length ≤ cap
    · rw [if_pos h1, Option.bind_some, ih _ (by rw [List.length_append]; exact h1), List.length_append, Nat.add_assoc,
        List.append_assoc]
    · rw [if_neg h1, if_neg (by omega)]; rfl

theorem encs_mod (as : List Attr) : (as.flatMap enc).length % 4 = 0 := by
  induction as with
  | nil => rfl
  | cons a as ih =>
    rw [List.flatMap_cons, List.length_append, enc_length]
    have := align_align (4 + a.data.length)
    omega

theorem nest_writes {cap ty : Nat} {ws : List Writer} {as : List Attr} (h : WritesAll cap ws as) :
    Writes cap (nest cap ty ws) ⟨ty, true, as.flatMap enc⟩ := by
  intro skb
  have hm := encs_mod as
  have hn : (enc ⟨ty, true, []⟩).length = 4 := by rw [enc_length]; simp [align]
  have hl : (enc ⟨ty, true, as.flatMap enc⟩).length = 4 + (as.flatMap enc).length := by
    rw [enc_length]; dsimp only; unfold align; omega
  unfold nest
  by_cases h1 : skb.length + 4 ≤ cap
  · rw [if_pos h1, seq_writes h _ (by rw [List.length_append, hn]; exact h1), List.length_append, hn, hl]
    by_cases h2 : skb.length + 4 + (as.flatMap enc).length ≤ cap
    · rw [if_pos h2, if_pos (by omega)]
      simp only [Option.map_some, Option.some.injEq]
      have e1 : (skb ++ enc ⟨ty, true, []⟩ ++ as.flatMap enc).length - skb.length = 4 + (as.flatMap enc).length := by
        simp only [List.length_append, hn]; omega
      have e2 : (skb ++ enc ⟨ty, true, []⟩ ++ as.flatMap enc).drop (skb.length + 4) = as.flatMap enc := by
        apply List.drop_left'
        rw [List.length_append, hn]
      rw [e1, e2]
      have e3 : align (4 + (as.flatMap enc).length) - (4 + (as.flatMap enc).length) = 0 := by unfold align; omega
      simp only [enc, e3, List.replicate_zero, List.append_nil, if_true, List.append_assoc]
    · rw [if_neg h2, if_neg (by omega)]; rfl
  · rw [if_neg h1, if_neg (by omega)]

/-! ### Reading safely -/

/-- No undefined behaviour. -/
def Safe {α} (r : Res α) : Prop := ∀ u, r ≠ .ub u

theorem safe_ok {α} (a : α) : Safe (Res.ok a) := fun _ h => by cases h
theorem safe_err {α} (e : Err) : Safe (Res.err e : Res α) := fun _ h => by cases h

theorem safe_bind {α β} {r : Res α} {f : α → Res β} (h : Safe r) (hf : ∀ a, r = .ok a → Safe (f a)) : Safe (r.bind f) := by
  intro u
  cases r with
  | ok a => exact hf a rfl u
  | err e => intro hh; cases hh
  | ub v => exact absurd rfl (h v)

theorem bind_eq {α β} (r : Res α) (f : α → Res β) : (r >>= f) = r.bind f := rfl
theorem pure_eq {α} (a : α) : (pure a : Res α) = .ok a := rfl
theorem ok_bind {α β} (a : α) (f : α → Res β) : (Res.ok a).bind f = f a := rfl
theorem err_bind {α β} (e : Err) (f : α → Res β) : (Res.err e : Res α).bind f = .err e := rfl
theorem ub_bind {α β} (e : UB) (f : α → Res β) : (Res.ub e : Res α).bind f = .ub e := rfl

theorem kParse_safe (s : Bool) (pol : List Pol) (l : List Byte) : Safe (kParse s pol l) := by
  unfold kParse
  dsimp only
  split
  · exact safe_err _
  · split
    · exact safe_err _
    · exact safe_ok _

theorem kParseNested_safe (s : Bool) (pol : List Pol) (a : Attr) : Safe (kParseNested s pol a) := by
  unfold kParseNested
  split
  · exact safe_err _
  · exact kParse_safe _ _ _

theorem get_mem {tb : List Attr} {t : Nat} {a : Attr} (h : get tb t = some a) : a ∈ tb ∧ a.ty = t := by
  unfold get at h
  have := List.mem_of_getLast? h
  simpa using this

/-- Attributes of a parsed message have been validated. -/
theorem kParse_valid {s : Bool} {pol : List Pol} {l : List Byte} {tb : List Attr} (h : kParse s pol l = .ok tb) {t : Nat}
    {p : Pol} (hp : polOf pol t = some p) {a : Attr} (ha : get tb t = some a) : kValid s a p = true := by
  unfold kParse at h
  dsimp only at h
  split at h
  · cases h
  · rename_i hv
    split at h
    · cases h
    · simp only [Res.ok.injEq] at h
      obtain ⟨hm, ht⟩ := get_mem ha
      rw [Bool.not_eq_true, Bool.not_eq_false', List.all_eq_true] at hv
      have := hv a (h ▸ hm)
      unfold kAccepts at this
      rw [ht, hp] at this
      exact this

theorem kParseNested_valid {s : Bool} {pol : List Pol} {r : Attr} {tb : List Attr} (h : kParseNested s pol r = .ok tb) {t : Nat}
    {p : Pol} (hp : polOf pol t = some p) {a : Attr} (ha : get tb t = some a) : kValid s a p = true := by
  unfold kParseNested at h
  split at h
  · cases h
  · exact kParse_valid h hp ha

theorem intOk_len {s : Bool} {n : Nat} {a : Attr} (h : intOk s n a = true) : n ≤ a.data.length := by
  unfold intOk at h
  split at h
  · simp at h; omega
  · simpa using h

theorem payload_safe {n : Nat} {a : Attr} (h : n ≤ a.data.length) : Safe (payload n (some a)) := by
  unfold payload; dsimp only; rw [if_pos h]; exact safe_ok _

theorem getU8_safe {a : Attr} (h : 1 ≤ a.data.length) : Safe (getU8 (some a)) :=
  safe_bind (payload_safe h) (fun _ _ => safe_ok _)
theorem getU16_safe {a : Attr} (h : 2 ≤ a.data.length) : Safe (getU16 (some a)) :=
  safe_bind (payload_safe h) (fun _ _ => safe_ok _)
theorem getU32_safe {a : Attr} (h : 4 ≤ a.data.length) : Safe (getU32 (some a)) :=
  safe_bind (payload_safe h) (fun _ _ => safe_ok _)

end Jool.Nla
