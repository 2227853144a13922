import Verif.Lemmas.Nla
/-
What Jool's attributes look like, and how both ends read them.
-/
namespace Jool.NlAttr
open Jool.Nla
open Jool.JooldMsg (Byte be unbe be_length unbe_be)

/-! ### Shapes -/

def aRaw (t : Nat) (d : List Byte) : Attr := ⟨t, false, d⟩
def aU8 (t : Nat) (x : BitVec 8) : Attr := aRaw t (le 1 x.toNat)
def aU16 (t : Nat) (x : BitVec 16) : Attr := aRaw t (le 2 x.toNat)
def aU32 (t : Nat) (x : BitVec 32) : Attr := aRaw t (le 4 x.toNat)
def aAddr6 (t : Nat) (x : Addr6) : Attr := aRaw t (be 16 x.toNat)
def aAddr4 (t : Nat) (x : Addr4) : Attr := aRaw t (be 4 x.toNat)
def aNest (t : Nat) (as : List Attr) : Attr := ⟨t, true, as.flatMap enc⟩

def aPrefix6 (t : Nat) (p : Prefix6) : Attr := aNest t [aAddr6 1 p.addr, aU8 2 (BitVec.ofNat 8 p.len)]
def aPrefix4 (t : Nat) (p : Prefix4) : Attr := aNest t [aAddr4 1 p.addr, aU8 2 (BitVec.ofNat 8 p.len)]
def aNull (t : Nat) : Attr := aNest t [aU8 2 0]
def aTaddr6 (t : Nat) (a : T6) : Attr := aNest t [aAddr6 1 a.addr, aU16 2 a.port]
def aTaddr4 (t : Nat) (a : T4) : Attr := aNest t [aAddr4 1 a.addr, aU16 2 a.port]
def aEam (t : Nat) (e : Eam.Entry) : Attr := aNest t [aPrefix6 1 e.p6, aPrefix4 2 e.p4]
def aPool4 (t : Nat) (e : WPool4) : Attr :=
  aNest t [aU32 1 e.mark, aU32 2 e.iters, aU8 3 e.flags, aU8 4 e.proto, aPrefix4 5 e.pfx, aU16 6 e.min, aU16 7 e.max]
def aBib (t : Nat) (e : WBib) : Attr :=
  aNest t [aTaddr6 1 e.a6, aTaddr4 2 e.a4, aU8 3 e.proto, aU8 4 (if e.static then 1 else 0)]
def aSess (t : Nat) (e : WSess) (timer : BitVec 8) : Attr :=
  aNest t [aTaddr6 1 e.src6, aTaddr6 2 e.dst6, aTaddr4 3 e.src4, aTaddr4 4 e.dst4, aU8 5 e.proto, aU8 6 e.state,
    aU8 7 timer, aU32 8 e.ms]
def aSessU (t : Nat) (e : WSess) : Attr :=
  aNest t [aTaddr6 1 e.src6, aTaddr6 2 e.dst6, aTaddr4 3 e.src4, aTaddr4 4 e.dst4, aU8 5 e.proto, aU8 6 e.state,
    aU32 8 e.ms]
def aInst (t : Nat) (e : WInst) : Attr := aNest t [aU32 1 e.ns, aU8 2 e.xf, aRaw 3 (e.name ++ [0#8])]

/-! ### Sizes -/

theorem enc_aRaw (t : Nat) (d : List Byte) : (enc (aRaw t d)).length = align (4 + d.length) := enc_length _
theorem enc_aNest (t : Nat) (as : List Attr) : (enc (aNest t as)).length = 4 + (as.flatMap enc).length := by
  rw [enc_length]
  have := encs_mod as
  unfold aNest align
  dsimp only
  omega

theorem data_aNest (t : Nat) (as : List Attr) : (aNest t as).data.length = (as.flatMap enc).length := rfl

theorem len_u8 (t x) : (enc (aU8 t x)).length = 8 := by simp [aU8, enc_aRaw, le_length, align]
theorem len_u16 (t x) : (enc (aU16 t x)).length = 8 := by simp [aU16, enc_aRaw, le_length, align]
theorem len_u32 (t x) : (enc (aU32 t x)).length = 8 := by simp [aU32, enc_aRaw, le_length, align]
theorem len_addr6 (t x) : (enc (aAddr6 t x)).length = 20 := by simp [aAddr6, enc_aRaw, be_length, align]
theorem len_addr4 (t x) : (enc (aAddr4 t x)).length = 8 := by simp [aAddr4, enc_aRaw, be_length, align]
theorem len_prefix6 (t x) : (enc (aPrefix6 t x)).length = 32 := by simp [aPrefix6, enc_aNest, len_u8, len_addr6]
theorem len_prefix4 (t x) : (enc (aPrefix4 t x)).length = 20 := by simp [aPrefix4, enc_aNest, len_u8, len_addr4]
theorem len_null (t) : (enc (aNull t)).length = 12 := by simp [aNull, enc_aNest, len_u8]
theorem len_taddr6 (t x) : (enc (aTaddr6 t x)).length = 32 := by simp [aTaddr6, enc_aNest, len_u16, len_addr6]
theorem len_taddr4 (t x) : (enc (aTaddr4 t x)).length = 20 := by simp [aTaddr4, enc_aNest, len_u16, len_addr4]
theorem len_eam (t x) : (enc (aEam t x)).length = 56 := by simp [aEam, enc_aNest, len_prefix6, len_prefix4]
theorem len_pool4 (t x) : (enc (aPool4 t x)).length = 72 := by
  simp [aPool4, enc_aNest, len_prefix4, len_u8, len_u16, len_u32]
theorem len_bib (t x) : (enc (aBib t x)).length = 72 := by simp [aBib, enc_aNest, len_taddr6, len_taddr4, len_u8]
theorem len_sess (t x y) : (enc (aSess t x y)).length = 140 := by
  simp [aSess, enc_aNest, len_taddr6, len_taddr4, len_u8, len_u32]
theorem len_sessU (t x) : (enc (aSessU t x)).length = 132 := by
  simp [aSessU, enc_aNest, len_taddr6, len_taddr4, len_u8, len_u32]
theorem len_inst (t x) (h : x.name.length ≤ 15) : (enc (aInst t x)).length ≤ 40 := by
  simp only [aInst, enc_aNest, len_u8, len_u32, enc_aRaw, List.flatMap_cons, List.flatMap_nil, List.length_append,
    List.length_cons, List.length_nil, align]
  omega

theorem small_of {a : Attr} (ht : a.ty < 2 ^ 14) (h : (enc a).length < 2 ^ 16) : Small a := by
  refine ⟨ht, ?_⟩
  rw [enc_length] at h
  have := align_ge (4 + a.data.length)
  omega

/-! ### Writers -/

theorem w_u8 (cap t x) : Writes cap (putU8 cap t x) (aU8 t x) := put_writes _ _ _
theorem w_u16 (cap t x) : Writes cap (putU16 cap t x) (aU16 t x) := put_writes _ _ _
theorem w_u32 (cap t x) : Writes cap (putU32 cap t x) (aU32 t x) := put_writes _ _ _
theorem w_addr6 (cap t x) : Writes cap (putAddr6 cap t x) (aAddr6 t x) := put_writes _ _ _
theorem w_addr4 (cap t x) : Writes cap (putAddr4 cap t x) (aAddr4 t x) := put_writes _ _ _
theorem w_raw (cap t d) : Writes cap (put cap t d) (aRaw t d) := put_writes _ _ _
theorem w_nest {cap t ws as} (h : WritesAll cap ws as) : Writes cap (nest cap t ws) (aNest t as) := nest_writes h

theorem w_prefix6 (cap t p) : Writes cap (putPrefix6 cap t (some p)) (aPrefix6 t p) :=
  w_nest (.cons (w_addr6 _ _ _) (.cons (w_u8 _ _ _) .nil))
theorem w_prefix4 (cap t p) : Writes cap (putPrefix4 cap t (some p)) (aPrefix4 t p) :=
  w_nest (.cons (w_addr4 _ _ _) (.cons (w_u8 _ _ _) .nil))
theorem w_null6 (cap t) : Writes cap (putPrefix6 cap t none) (aNull t) := w_nest (.cons (w_u8 _ _ _) .nil)
theorem w_null4 (cap t) : Writes cap (putPrefix4 cap t none) (aNull t) := w_nest (.cons (w_u8 _ _ _) .nil)
theorem w_taddr6 (cap t p) : Writes cap (putTaddr6 cap t p) (aTaddr6 t p) :=
  w_nest (.cons (w_addr6 _ _ _) (.cons (w_u16 _ _ _) .nil))
theorem w_taddr4 (cap t p) : Writes cap (putTaddr4 cap t p) (aTaddr4 t p) :=
  w_nest (.cons (w_addr4 _ _ _) (.cons (w_u16 _ _ _) .nil))
theorem w_kEam (cap t e) : Writes cap (kPutEam cap t e) (aEam t e) :=
  w_nest (.cons (w_prefix6 _ _ _) (.cons (w_prefix4 _ _ _) .nil))
theorem w_uEam (cap t) (e : Eam.Entry) : Writes cap (uPutEam cap t (some e.p6) (some e.p4)) (aEam t e) :=
  w_nest (.cons (w_prefix6 _ _ _) (.cons (w_prefix4 _ _ _) .nil))
theorem w_kPool4 (cap t e) : Writes cap (kPutPool4 cap t e) (aPool4 t e) :=
  w_nest (.cons (w_u32 _ _ _) (.cons (w_u32 _ _ _) (.cons (w_u8 _ _ _) (.cons (w_u8 _ _ _) (.cons (w_prefix4 _ _ _) (.cons (w_u16 _ _ _)
    (.cons (w_u16 _ _ _) .nil)))))))
theorem w_uPool4 (cap t e) : Writes cap (uPutPool4 cap t e) (aPool4 t e) :=
  w_nest (.cons (w_u32 _ _ _) (.cons (w_u32 _ _ _) (.cons (w_u8 _ _ _) (.cons (w_u8 _ _ _) (.cons (w_prefix4 _ _ _) (.cons (w_u16 _ _ _)
    (.cons (w_u16 _ _ _) .nil)))))))
theorem w_kBib (cap t e) : Writes cap (kPutBib cap t e) (aBib t e) :=
  w_nest (.cons (w_taddr6 _ _ _) (.cons (w_taddr4 _ _ _) (.cons (w_u8 _ _ _) (.cons (w_u8 _ _ _) .nil))))
theorem w_uBib (cap t) (e : WBib) : Writes cap (uPutBib cap t (some e.a6) (some e.a4) e.proto e.static) (aBib t e) :=
  w_nest (.cons (w_taddr6 _ _ _) (.cons (w_taddr4 _ _ _) (.cons (w_u8 _ _ _) (.cons (w_u8 _ _ _) .nil))))
theorem w_kSess (cap t e r) : Writes cap (kPutSess cap t e r) (aSess t e r) :=
  w_nest (.cons (w_taddr6 _ _ _) (.cons (w_taddr6 _ _ _) (.cons (w_taddr4 _ _ _) (.cons (w_taddr4 _ _ _) (.cons (w_u8 _ _ _)
    (.cons (w_u8 _ _ _) (.cons (w_u8 _ _ _) (.cons (w_u32 _ _ _) .nil))))))))
theorem w_uSess (cap t e) : Writes cap (uPutSess cap t e) (aSessU t e) :=
  w_nest (.cons (w_taddr6 _ _ _) (.cons (w_taddr6 _ _ _) (.cons (w_taddr4 _ _ _) (.cons (w_taddr4 _ _ _) (.cons (w_u8 _ _ _)
    (.cons (w_u8 _ _ _) (.cons (w_u32 _ _ _) .nil)))))))
theorem w_inst (cap t e) : Writes cap (putInst cap t e) (aInst t e) :=
  w_nest (.cons (w_u32 _ _ _) (.cons (w_u8 _ _ _) (.cons (w_raw _ _ _) .nil)))

/-! ### Validation -/

theorem ka_u8 (s t x) : kValid s (aU8 t x) .u8 = true := by cases s <;> simp [kValid, intOk, aU8, aRaw, le_length]
theorem ka_u16 (s t x) : kValid s (aU16 t x) .u16 = true := by cases s <;> simp [kValid, intOk, aU16, aRaw, le_length]
theorem ka_u32 (s t x) : kValid s (aU32 t x) .u32 = true := by cases s <;> simp [kValid, intOk, aU32, aRaw, le_length]
theorem ka_addr6 (s t x) : kValid s (aAddr6 t x) (.addr 16) = true := by
  cases s <;> simp [kValid, aAddr6, aRaw, be_length]
theorem ka_addr4 (s t x) : kValid s (aAddr4 t x) (.addr 4) = true := by
  cases s <;> simp [kValid, aAddr4, aRaw, be_length]
theorem ka_nest (s t a as) : kValid s (aNest t (a :: as)) .nested = true := by
  have : 4 ≤ ((a :: as).flatMap enc).length := by
    rw [List.flatMap_cons, List.length_append, enc_length]
    have := align_ge (4 + a.data.length)
    omega
  simp only [kValid, aNest, Bool.or_true, Bool.true_and, Bool.or_eq_true]
  exact Or.inr (decide_eq_true this)

theorem ua_u8 (t x) : uValid (aU8 t x) .u8 = true := by simp [uValid, aU8, aRaw, le_length]
theorem ua_u16 (t x) : uValid (aU16 t x) .u16 = true := by simp [uValid, aU16, aRaw, le_length]
theorem ua_u32 (t x) : uValid (aU32 t x) .u32 = true := by simp [uValid, aU32, aRaw, le_length]
theorem ua_addr6 (t x) : uValid (aAddr6 t x) (.addr 16) = true := by simp [uValid, aAddr6, aRaw, be_length]
theorem ua_addr4 (t x) : uValid (aAddr4 t x) (.addr 4) = true := by simp [uValid, aAddr4, aRaw, be_length]

theorem kParseNested_nest (s : Bool) (pol : List Pol) (t : Nat) (as : List Attr) (h : ∀ a ∈ as, Small a)
    (hv : as.all (kAccepts s pol) = true) : kParseNested s pol (aNest t as) = .ok as := by
  unfold kParseNested
  have : (s && !(aNest t as).nested) = false := by simp [aNest]
  rw [this]
  exact kParse_encs s pol as h hv

/-! ### Scalars -/

theorem getU8_aU8 (t x) : getU8 (some (aU8 t x)) = .ok x := by
  have h : (aU8 t x).data = le 1 x.toNat := rfl
  unfold getU8 payload
  dsimp only
  rw [h, if_pos (by rw [le_length]), ok_bind, List.take_of_length_le (by rw [le_length]), unle_le]
  congr 1
  apply BitVec.eq_of_toNat_eq
  have := x.isLt
  simp only [BitVec.toNat_ofNat]; omega

theorem getU16_aU16 (t x) : getU16 (some (aU16 t x)) = .ok x := by
  have h : (aU16 t x).data = le 2 x.toNat := rfl
  unfold getU16 payload
  dsimp only
  rw [h, if_pos (by rw [le_length]), ok_bind, List.take_of_length_le (by rw [le_length]), unle_le]
  congr 1
  apply BitVec.eq_of_toNat_eq
  have := x.isLt
  simp only [BitVec.toNat_ofNat]; omega

theorem getU32_aU32 (t x) : getU32 (some (aU32 t x)) = .ok x := by
  have h : (aU32 t x).data = le 4 x.toNat := rfl
  unfold getU32 payload
  dsimp only
  rw [h, if_pos (by rw [le_length]), ok_bind, List.take_of_length_le (by rw [le_length]), unle_le]
  congr 1
  apply BitVec.eq_of_toNat_eq
  have := x.isLt
  simp only [BitVec.toNat_ofNat]; omega

theorem payload_all (n : Nat) (a : Attr) (h : a.data.length = n) : payload n (some a) = .ok a.data := by
  unfold payload
  dsimp only
  rw [if_pos (by omega), List.take_of_length_le (by omega)]

theorem uAddr6_a (t x) : uAddr6 (some (aAddr6 t x)) = .ok x := by
  unfold uAddr6
  rw [payload_all 16 _ (be_length ..), ok_bind]
  congr 1
  show BitVec.ofNat 128 (unbe (be 16 x.toNat)) = x
  rw [unbe_be]
  apply BitVec.eq_of_toNat_eq
  have := x.isLt
  simp only [BitVec.toNat_ofNat]; omega

theorem uAddr4_a (t x) : uAddr4 (some (aAddr4 t x)) = .ok x := by
  unfold uAddr4
  rw [payload_all 4 _ (be_length ..), ok_bind]
  congr 1
  show BitVec.ofNat 32 (unbe (be 4 x.toNat)) = x
  rw [unbe_be]
  apply BitVec.eq_of_toNat_eq
  have := x.isLt
  simp only [BitVec.toNat_ofNat]; omega

theorem kAddr6_a (t x) : kAddr6 (some (aAddr6 t x)) = .ok x := by
  have : kBytes 16 (some (aAddr6 t x)) = payload 16 (some (aAddr6 t x)) := by
    unfold kBytes nonNull
    rw [ok_bind, if_neg]
    show ¬ (be 16 x.toNat).length < 16
    rw [be_length]; omega
  unfold kAddr6
  rw [this]
  exact uAddr6_a t x

theorem kAddr4_a (t x) : kAddr4 (some (aAddr4 t x)) = .ok x := by
  have : kBytes 4 (some (aAddr4 t x)) = payload 4 (some (aAddr4 t x)) := by
    unfold kBytes nonNull
    rw [ok_bind, if_neg]
    show ¬ (be 4 x.toNat).length < 4
    rw [be_length]; omega
  unfold kAddr4
  rw [this]
  exact uAddr4_a t x

/-! ### Compounds -/

theorem ty_raw (t d) : (aRaw t d).ty = t := rfl
theorem ty_u8 (t d) : (aU8 t d).ty = t := rfl
theorem ty_u16 (t d) : (aU16 t d).ty = t := rfl
theorem ty_u32 (t d) : (aU32 t d).ty = t := rfl
theorem ty_addr6 (t d) : (aAddr6 t d).ty = t := rfl
theorem ty_addr4 (t d) : (aAddr4 t d).ty = t := rfl
theorem ty_prefix6 (t d) : (aPrefix6 t d).ty = t := rfl
theorem ty_prefix4 (t d) : (aPrefix4 t d).ty = t := rfl
theorem ty_null (t) : (aNull t).ty = t := rfl
theorem ty_taddr6 (t d) : (aTaddr6 t d).ty = t := rfl
theorem ty_taddr4 (t d) : (aTaddr4 t d).ty = t := rfl
theorem ty_nest (t d) : (aNest t d).ty = t := rfl

set_option linter.unusedSimpArgs false

theorem ka_prefix6 (s t x) : kValid s (aPrefix6 t x) .nested = true := ka_nest ..
theorem ka_prefix4 (s t x) : kValid s (aPrefix4 t x) .nested = true := ka_nest ..
theorem ka_null (s t) : kValid s (aNull t) .nested = true := ka_nest ..
theorem ka_taddr6 (s t x) : kValid s (aTaddr6 t x) .nested = true := ka_nest ..
theorem ka_taddr4 (s t x) : kValid s (aTaddr4 t x) .nested = true := ka_nest ..
theorem ua_nested (a) : uValid a .nested = true := rfl
theorem ka_name (s t) (n : List Byte) (h : n.length ≤ 15) : kValid s (aRaw t (n ++ [0#8])) (.name 16) = true := by
  have : (n ++ [0#8]).take 16 = n ++ [0#8] := List.take_of_length_le (by simp; omega)
  simp [kValid, aRaw, this]
  omega
theorem ua_name (t) (n : List Byte) (h : n.length ≤ 15) : uValid (aRaw t (n ++ [0#8])) (.name 16) = true := by
  simp [uValid, aRaw]
  omega

/-- The attributes are accepted. -/
macro "accepted" : tactic => `(tactic| simp [kAccepts, uAccepts, polOf, ty_raw, ty_u8, ty_u16, ty_u32, ty_addr6, ty_addr4,
  ty_prefix6, ty_prefix4, ty_null, ty_taddr6, ty_taddr4, prefix6Policy, prefix4Policy, taddr6Policy, taddr4Policy, eamPolicy,
  pool4Policy, bibPolicy, sessionPolicy, instancePolicy, ka_u8, ka_u16, ka_u32, ka_addr6, ka_addr4, ka_prefix6, ka_prefix4,
  ka_null, ka_taddr6, ka_taddr4, ua_u8, ua_u16, ua_u32, ua_addr6, ua_addr4, ua_nested])

theorem all_small {as : List Attr} (h : as.all (fun a => decide (Small a)) = true) : ∀ a ∈ as, Small a := by
  intro a ha
  simpa using List.all_eq_true.mp h a ha

theorem small_u8 (t x) (h : t < 2 ^ 14) : Small (aU8 t x) := small_of h (by rw [len_u8]; omega)
theorem small_u16 (t x) (h : t < 2 ^ 14) : Small (aU16 t x) := small_of h (by rw [len_u16]; omega)
theorem small_u32 (t x) (h : t < 2 ^ 14) : Small (aU32 t x) := small_of h (by rw [len_u32]; omega)
theorem small_addr6 (t x) (h : t < 2 ^ 14) : Small (aAddr6 t x) := small_of h (by rw [len_addr6]; omega)
theorem small_addr4 (t x) (h : t < 2 ^ 14) : Small (aAddr4 t x) := small_of h (by rw [len_addr4]; omega)
theorem small_prefix6 (t x) (h : t < 2 ^ 14) : Small (aPrefix6 t x) := small_of h (by rw [len_prefix6]; omega)
theorem small_prefix4 (t x) (h : t < 2 ^ 14) : Small (aPrefix4 t x) := small_of h (by rw [len_prefix4]; omega)
theorem small_null (t) (h : t < 2 ^ 14) : Small (aNull t) := small_of h (by rw [len_null]; omega)
theorem small_taddr6 (t x) (h : t < 2 ^ 14) : Small (aTaddr6 t x) := small_of h (by rw [len_taddr6]; omega)
theorem small_taddr4 (t x) (h : t < 2 ^ 14) : Small (aTaddr4 t x) := small_of h (by rw [len_taddr4]; omega)
theorem small_eam (t x) (h : t < 2 ^ 14) : Small (aEam t x) := small_of h (by rw [len_eam]; omega)
theorem small_pool4 (t x) (h : t < 2 ^ 14) : Small (aPool4 t x) := small_of h (by rw [len_pool4]; omega)
theorem small_bib (t x) (h : t < 2 ^ 14) : Small (aBib t x) := small_of h (by rw [len_bib]; omega)
theorem small_sess (t x y) (h : t < 2 ^ 14) : Small (aSess t x y) := small_of h (by rw [len_sess]; omega)
theorem small_sessU (t x) (h : t < 2 ^ 14) : Small (aSessU t x) := small_of h (by rw [len_sessU]; omega)
theorem small_inst (t x) (h : t < 2 ^ 14) (hn : x.name.length ≤ 15) : Small (aInst t x) :=
  small_of h (by have := len_inst t x hn; omega)
theorem small_name (t) (n : List Byte) (h : t < 2 ^ 14) (hn : n.length ≤ 15) : Small (aRaw t (n ++ [0#8])) :=
  small_of h (by rw [enc_aRaw]; unfold align; simp; omega)

/-- Each of a concrete list of attributes is small. -/
macro "smalls" : tactic => `(tactic| (
  apply all_small
  simp [small_u8, small_u16, small_u32, small_addr6, small_addr4, small_prefix6, small_prefix4, small_null, small_taddr6,
    small_taddr4]))

/-- Follows a reader. -/
macro "reading" "[" l:Lean.Parser.Tactic.simpLemma,* "]" : tactic => `(tactic| simp [nonNull, deref, bind_eq, ok_bind, Nla.get,
  ty_raw, ty_u8, ty_u16, ty_u32, ty_addr6, ty_addr4, ty_prefix6, ty_prefix4, ty_null, ty_taddr6, ty_taddr4, kU8, kU16, kU32,
  getU8_aU8, getU16_aU16, getU32_aU32, kAddr6_a, kAddr4_a, uAddr6_a, uAddr4_a, pure_eq, optional, $l,*])

theorem kPrefix6Opt_a (s t p) (h : p.len < 256) : kPrefix6Opt s (some (aPrefix6 t p)) = .ok (some p) := by
  have hp : kParseNested s prefix6Policy (aPrefix6 t p) = .ok [aAddr6 1 p.addr, aU8 2 (BitVec.ofNat 8 p.len)] :=
    kParseNested_nest _ _ _ _ (by smalls) (by accepted)
  reading [kPrefix6Opt, hp, Nat.mod_eq_of_lt h]

theorem kPrefix6_a (s t p) (h : p.len < 256) : kPrefix6 s (some (aPrefix6 t p)) = .ok p := by
  reading [kPrefix6, kPrefix6Opt_a, h]

theorem kPrefix4Opt_a (s t p) (h : p.len < 256) : kPrefix4Opt s (some (aPrefix4 t p)) = .ok (some p) := by
  have hp : kParseNested s prefix4Policy (aPrefix4 t p) = .ok [aAddr4 1 p.addr, aU8 2 (BitVec.ofNat 8 p.len)] :=
    kParseNested_nest _ _ _ _ (by smalls) (by accepted)
  reading [kPrefix4Opt, hp, Nat.mod_eq_of_lt h]

theorem kPrefix4_a (s t p) (h : p.len < 256) : kPrefix4 s (some (aPrefix4 t p)) = .ok p := by
  reading [kPrefix4, kPrefix4Opt_a, h]

/-- A prefix that is only a length is no prefix. -/
theorem kPrefix6_null (s t) : kPrefix6 s (some (aNull t)) = .err .EINVAL := by
  have hp : kParseNested s prefix6Policy (aNull t) = .ok [aU8 2 0] :=
    kParseNested_nest _ _ _ _ (by smalls) (by accepted)
  reading [kPrefix6, kPrefix6Opt, hp]

theorem kPrefix4_null (s t) : kPrefix4 s (some (aNull t)) = .err .EINVAL := by
  have hp : kParseNested s prefix4Policy (aNull t) = .ok [aU8 2 0] :=
    kParseNested_nest _ _ _ _ (by smalls) (by accepted)
  reading [kPrefix4, kPrefix4Opt, hp]

theorem kPrefix6Opt_null (s t) : kPrefix6Opt s (some (aNull t)) = .ok none := by
  have hp : kParseNested s prefix6Policy (aNull t) = .ok [aU8 2 0] :=
    kParseNested_nest _ _ _ _ (by smalls) (by accepted)
  reading [kPrefix6Opt, hp]

theorem kPrefix4Opt_null (s t) : kPrefix4Opt s (some (aNull t)) = .ok none := by
  have hp : kParseNested s prefix4Policy (aNull t) = .ok [aU8 2 0] :=
    kParseNested_nest _ _ _ _ (by smalls) (by accepted)
  reading [kPrefix4Opt, hp]

theorem kTaddr6_a (s t p) : kTaddr6 s (some (aTaddr6 t p)) = .ok p := by
  have hp : kParseNested s taddr6Policy (aTaddr6 t p) = .ok [aAddr6 1 p.addr, aU16 2 p.port] :=
    kParseNested_nest _ _ _ _ (by smalls) (by accepted)
  reading [kTaddr6, hp]

theorem kTaddr4_a (s t p) : kTaddr4 s (some (aTaddr4 t p)) = .ok p := by
  have hp : kParseNested s taddr4Policy (aTaddr4 t p) = .ok [aAddr4 1 p.addr, aU16 2 p.port] :=
    kParseNested_nest _ _ _ _ (by smalls) (by accepted)
  reading [kTaddr4, hp]

theorem kEam_a (s t) (e : Eam.Entry) (h6 : e.p6.len < 256) (h4 : e.p4.len < 256) :
    kEam s (some (aEam t e)) = .ok e := by
  have hp : kParseNested s eamPolicy (aEam t e) = .ok [aPrefix6 1 e.p6, aPrefix4 2 e.p4] :=
    kParseNested_nest _ _ _ _ (by smalls) (by accepted)
  reading [kEam, hp, kPrefix6_a, kPrefix4_a, h6, h4]

theorem kPool4_a (s t) (e : WPool4) (h : e.pfx.len < 256) : kPool4 s (some (aPool4 t e)) = .ok e := by
  have hp : kParseNested s pool4Policy (aPool4 t e) = .ok [aU32 1 e.mark, aU32 2 e.iters, aU8 3 e.flags, aU8 4 e.proto,
      aPrefix4 5 e.pfx, aU16 6 e.min, aU16 7 e.max] :=
    kParseNested_nest _ _ _ _ (by smalls) (by accepted)
  reading [kPool4, hp, kPrefix4_a, h]

theorem kBib_a (s t) (e : WBib) : kBib s (some (aBib t e)) = .ok e := by
  have hp : kParseNested s bibPolicy (aBib t e) = .ok [aTaddr6 1 e.a6, aTaddr4 2 e.a4, aU8 3 e.proto,
      aU8 4 (if e.static then 1 else 0)] :=
    kParseNested_nest _ _ _ _ (by smalls) (by accepted)
  obtain ⟨a6, a4, pr, st⟩ := e
  cases st <;> reading [kBib, hp, kTaddr6_a, kTaddr4_a]

theorem kSessOffset_a (s t) (e : WSess) : kSessOffset s (aSessU t e) = .ok (e.src4, e.dst4) := by
  have hp : kParseNested s sessionPolicy (aSessU t e) = .ok [aTaddr6 1 e.src6, aTaddr6 2 e.dst6, aTaddr4 3 e.src4,
      aTaddr4 4 e.dst4, aU8 5 e.proto, aU8 6 e.state, aU32 8 e.ms] :=
    kParseNested_nest _ _ _ _ (by smalls) (by accepted)
  reading [kSessOffset, hp, kTaddr4_a]

theorem takeWhile_name (n : List Byte) (h : 0#8 ∉ n) : (n ++ [0#8]).takeWhile (fun b => b != 0#8) = n := by
  rw [List.takeWhile_append_of_pos]
  · simp
  · intro b hb
    simp only [bne_iff_ne, ne_eq]
    intro he
    exact h (he ▸ hb)

theorem kStr_a (t) (n : List Byte) (hn : n.length ≤ 15) (h : 0#8 ∉ n) : kStr 16 (some (aRaw t (n ++ [0#8]))) = .ok n := by
  have e : (aRaw t (n ++ [0#8])).data = n ++ [0#8] := rfl
  have : (n ++ [0#8]).take 16 = n ++ [0#8] := List.take_of_length_le (by simp; omega)
  unfold kStr
  rw [nonNull, bind_eq, ok_bind, e, this, if_pos (by simp), takeWhile_name n h]
  rfl

theorem kInst_a (s t) (e : WInst) (hn : e.name.length ≤ 15) (h : 0#8 ∉ e.name) : kInst s (aInst t e) = .ok e := by
  have hp : kParseNested s instancePolicy (aInst t e) = .ok [aU32 1 e.ns, aU8 2 e.xf, aRaw 3 (e.name ++ [0#8])] := by
    apply kParseNested_nest
    · apply all_small
      simp [small_u32, small_u8, small_name, hn]
    · simp [kAccepts, polOf, ty_u32, ty_u8, ty_raw, instancePolicy, ka_u32, ka_u8, ka_name, hn]
  reading [kInst, hp, kStr_a, hn, h]

/-! ### The client -/

theorem uParse_nest (pol : List Pol) (t : Nat) (as : List Attr) (h : ∀ a ∈ as, Small a)
    (hv : as.all (uAccepts pol) = true) : uParse pol (aNest t as).data = .ok as := uParse_encs pol as h hv

theorem uParseNested_nest (pol : List Pol) (t : Nat) (as : List Attr) (h : ∀ a ∈ as, Small a)
    (hv : as.all (uAccepts pol) = true) (hm : mandatory pol as = true) : uParseNested pol (aNest t as) = .ok as := by
  unfold uParseNested
  rw [uParse_nest pol t as h hv, bind_eq, ok_bind, if_pos hm]
  rfl

/-- The mandatory attributes are there. -/
macro "complete" : tactic => `(tactic| simp [mandatory, List.range, List.range.loop, polOf, Nla.get, taddr6Policy, taddr4Policy,
  eamPolicy, pool4Policy, bibPolicy, sessionPolicy, instancePolicy, ty_raw, ty_u8, ty_u16, ty_u32, ty_addr6, ty_addr4,
  ty_prefix6, ty_prefix4, ty_taddr6, ty_taddr4])

theorem uPrefix6_a (t p) (h : p.len < 256) : uPrefix6 (some (aPrefix6 t p)) = .ok p := by
  have hp : uParse prefix6Policy (aPrefix6 t p).data = .ok [aAddr6 1 p.addr, aU8 2 (BitVec.ofNat 8 p.len)] :=
    uParse_nest _ t _ (by smalls) (by accepted)
  reading [uPrefix6, hp, Nat.mod_eq_of_lt h]

theorem uPrefix4_a (t p) (h : p.len < 256) : uPrefix4 (some (aPrefix4 t p)) = .ok p := by
  have hp : uParse prefix4Policy (aPrefix4 t p).data = .ok [aAddr4 1 p.addr, aU8 2 (BitVec.ofNat 8 p.len)] :=
    uParse_nest _ t _ (by smalls) (by accepted)
  reading [uPrefix4, hp, Nat.mod_eq_of_lt h]

theorem uTaddr6_a (t p) : uTaddr6 (some (aTaddr6 t p)) = .ok p := by
  have hp : uParseNested taddr6Policy (aTaddr6 t p) = .ok [aAddr6 1 p.addr, aU16 2 p.port] :=
    uParseNested_nest _ t _ (by smalls) (by accepted) (by complete)
  reading [uTaddr6, hp]

theorem uTaddr4_a (t p) : uTaddr4 (some (aTaddr4 t p)) = .ok p := by
  have hp : uParseNested taddr4Policy (aTaddr4 t p) = .ok [aAddr4 1 p.addr, aU16 2 p.port] :=
    uParseNested_nest _ t _ (by smalls) (by accepted) (by complete)
  reading [uTaddr4, hp]

theorem uEam_a (t) (e : Eam.Entry) (h6 : e.p6.len < 256) (h4 : e.p4.len < 256) : uEam (aEam t e) = .ok e := by
  have hp : uParseNested eamPolicy (aEam t e) = .ok [aPrefix6 1 e.p6, aPrefix4 2 e.p4] :=
    uParseNested_nest _ t _ (by smalls) (by accepted) (by complete)
  reading [uEam, hp, uPrefix6_a, uPrefix4_a, h6, h4]

theorem uPool4_a (t) (e : WPool4) (h : e.pfx.len < 256) : uPool4 (aPool4 t e) = .ok e := by
  have hp : uParseNested pool4Policy (aPool4 t e) = .ok [aU32 1 e.mark, aU32 2 e.iters, aU8 3 e.flags, aU8 4 e.proto,
      aPrefix4 5 e.pfx, aU16 6 e.min, aU16 7 e.max] :=
    uParseNested_nest _ t _ (by smalls) (by accepted) (by complete)
  reading [uPool4, hp, uPrefix4_a, h]

theorem uBib_a (t) (e : WBib) : uBib (aBib t e) = .ok e := by
  have hp : uParseNested bibPolicy (aBib t e) = .ok [aTaddr6 1 e.a6, aTaddr4 2 e.a4, aU8 3 e.proto,
      aU8 4 (if e.static then 1 else 0)] :=
    uParseNested_nest _ t _ (by smalls) (by accepted) (by complete)
  obtain ⟨a6, a4, pr, st⟩ := e
  cases st <;> reading [uBib, hp, uTaddr6_a, uTaddr4_a]

theorem uSess_a (t) (e : WSess) (r : BitVec 8) : uSess (aSess t e r) = .ok e := by
  have hp : uParseNested sessionPolicy (aSess t e r) = .ok [aTaddr6 1 e.src6, aTaddr6 2 e.dst6, aTaddr4 3 e.src4,
      aTaddr4 4 e.dst4, aU8 5 e.proto, aU8 6 e.state, aU8 7 r, aU32 8 e.ms] :=
    uParseNested_nest _ t _ (by smalls) (by accepted) (by complete)
  reading [uSess, hp, uTaddr4_a, uTaddr6_a]

theorem uInst_a (t) (e : WInst) (hn : e.name.length ≤ 15) (h : 0#8 ∉ e.name) : uInst (aInst t e) = .ok e := by
  have hp : uParseNested instancePolicy (aInst t e) = .ok [aU32 1 e.ns, aU8 2 e.xf, aRaw 3 (e.name ++ [0#8])] := by
    apply uParseNested_nest
    · apply all_small
      simp [small_u32, small_u8, small_name, hn]
    · simp [uAccepts, polOf, ty_u32, ty_u8, ty_raw, instancePolicy, ua_u32, ua_u8, ua_name, hn]
    · complete
  have hd : (aRaw 3 (e.name ++ [0#8])).data = e.name ++ [0#8] := rfl
  have := takeWhile_name e.name h
  reading [uInst, hp, hd, this]

end Jool.NlAttr
