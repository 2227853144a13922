import Verif.Model.Csum
import Mathlib.Data.ZMod.Basic
import Mathlib.Tactic.Ring
import Mathlib.Tactic.LinearCombination

/-! # Arithmetic of the Internet checksum modulo 65535 -/

namespace Jool.Csum

abbrev Z := ZMod 65535

theorem cast_of_mod {a b : Nat} (h : a % 65535 = b % 65535) : (a : Z) = (b : Z) :=
  (ZMod.natCast_eq_natCast_iff a b 65535).2 h

theorem mod_of_cast {a b : Nat} (h : (a : Z) = (b : Z)) : a % 65535 = b % 65535 :=
  (ZMod.natCast_eq_natCast_iff a b 65535).1 h

theorem cast_zero {a : Nat} : (a : Z) = 0 ↔ a % 65535 = 0 := by
  constructor
  · intro h
    have := mod_of_cast (a := a) (b := 0) (by simpa using h)
    simpa using this
  · intro h
    have := cast_of_mod (a := a) (b := 0) (by simpa using h)
    simpa using this

theorem csumAdd_toNat (a b : BitVec 32) : (csumAdd a b).toNat =
    if a.toNat + b.toNat < 4294967296 then a.toNat + b.toNat
    else a.toNat + b.toNat - 4294967295 := by
  unfold csumAdd
  have ha := a.isLt
  have hb := b.isLt
  simp only [BitVec.toNat_add]
  split <;> split <;> simp only [BitVec.toNat_ofNat] <;> omega

/-- `csum_add()` adds modulo 65535. -/
theorem csumAdd_cast (a b : BitVec 32) :
    ((csumAdd a b).toNat : Z) = (a.toNat : Z) + (b.toNat : Z) := by
  rw [csumAdd_toNat, ← Nat.cast_add]
  have ha := a.isLt
  have hb := b.isLt
  split
  · rfl
  · apply cast_of_mod
    omega

/-- It only gives zero when both summands are. -/
theorem csumAdd_zero {a b : BitVec 32} (h : csumAdd a b = 0#32) : a = 0#32 ∧ b = 0#32 := by
  have := congrArg BitVec.toNat h
  rw [csumAdd_toNat] at this
  simp only [BitVec.toNat_ofNat, Nat.zero_mod] at this
  have ha := a.isLt
  have hb := b.isLt
  constructor <;> apply BitVec.eq_of_toNat_eq <;> simp only [BitVec.toNat_ofNat] <;>
    split at this <;> omega

theorem not32_cast (a : BitVec 32) : ((~~~ a).toNat : Z) = - (a.toNat : Z) := by
  have h : ((~~~ a).toNat + a.toNat) % 65535 = 0 := by
    rw [BitVec.toNat_not]
    have := a.isLt
    omega
  have := cast_zero.2 h
  push_cast at this
  linear_combination this

theorem not16_cast (a : BitVec 16) : ((~~~ a).toNat : Z) = - (a.toNat : Z) := by
  have h : ((~~~ a).toNat + a.toNat) % 65535 = 0 := by
    rw [BitVec.toNat_not]
    have := a.isLt
    omega
  have := cast_zero.2 h
  push_cast at this
  linear_combination this

theorem csumSub_cast (a b : BitVec 32) :
    ((csumSub a b).toNat : Z) = (a.toNat : Z) - (b.toNat : Z) := by
  unfold csumSub
  rw [csumAdd_cast, not32_cast]
  ring

theorem unfold_cast (c : BitVec 16) : ((csumUnfold c).toNat : Z) = (c.toNat : Z) := by
  unfold csumUnfold
  rw [BitVec.toNat_setWidth, Nat.mod_eq_of_lt]
  have := c.isLt
  omega

theorem csumFold_toNat (s : BitVec 32) : (csumFold s).toNat =
    65535 - ((s.toNat % 65536 + s.toNat / 65536) % 65536
      + (s.toNat % 65536 + s.toNat / 65536) / 65536) := by
  unfold csumFold
  have hs := s.isLt
  have hm : ∀ x : Nat, x &&& 65535 = x % 65536 := fun x => Nat.and_two_pow_sub_one_eq_mod x 16
  simp only [BitVec.toNat_not, BitVec.toNat_setWidth, BitVec.toNat_add, BitVec.toNat_and,
    BitVec.toNat_ushiftRight, BitVec.toNat_ofNat, Nat.shiftRight_eq_div_pow]
  norm_num only [hm]
  omega

/-- `csum_fold()` negates modulo 65535. -/
theorem fold_cast (s : BitVec 32) : ((csumFold s).toNat : Z) = - (s.toNat : Z) := by
  have h : ((csumFold s).toNat + s.toNat) % 65535 = 0 := by
    rw [csumFold_toNat]
    have := s.isLt
    omega
  have := cast_zero.2 h
  push_cast at this
  linear_combination this

/-- `csum_fold()` only gives all ones for zero. -/
theorem fold_ones (s : BitVec 32) : csumFold s = 0xFFFF#16 ↔ s = 0#32 := by
  constructor
  · intro h
    have := congrArg BitVec.toNat h
    rw [csumFold_toNat] at this
    simp only [BitVec.toNat_ofNat] at this
    have := s.isLt
    apply BitVec.eq_of_toNat_eq
    simp only [BitVec.toNat_ofNat]
    omega
  · rintro rfl
    decide

/-- The sum of the native words of a byte string, modulo 65535. -/
def S (le : Bool) (l : List Byte) : Z := (wsum le l : Z)

theorem S_nil (le : Bool) : S le [] = 0 := by simp [S, wsum]

theorem S_cons2 (le : Bool) (a b : Byte) (t : List Byte) :
    S le (a :: b :: t) = (w16 le a b : Z) + S le t := by
  simp [S, wsum]

theorem wsum_append (le : Bool) : ∀ (a b : List Byte), a.length % 2 = 0 →
    wsum le (a ++ b) = wsum le a + wsum le b
  | [], b, _ => by simp [wsum]
  | [x], b, h => by simp at h
  | x :: y :: t, b, h => by
    simp only [List.length_cons] at h
    have := wsum_append le t b (by omega)
    simp only [List.cons_append, wsum, this]
    omega

theorem S_append (le : Bool) {a b : List Byte} (h : a.length % 2 = 0) :
    S le (a ++ b) = S le a + S le b := by
  unfold S
  rw [wsum_append le a b h]
  push_cast
  ring

theorem c65536 : (65536 : Z) = 1 := by
  have := cast_of_mod (a := 65536) (b := 1) (by decide)
  simpa using this

theorem w16_swap (a b : Byte) : ((w16 true a b : Nat) : Z) = 256 * ((w16 false a b : Nat) : Z) := by
  simp only [w16, if_true, Bool.false_eq_true, if_false]
  push_cast
  linear_combination (- (a.toNat : Z)) * c65536

/-- Swapping the bytes of every word multiplies the sum by 256. -/
theorem S_swap : ∀ l : List Byte, S true l = 256 * S false l
  | [] => by simp [S_nil]
  | [a] => by
    simp only [S, wsum]
    exact w16_swap a 0#8
  | a :: b :: t => by
    rw [S_cons2, S_cons2, w16_swap, S_swap t]
    ring

/-- So whether the sum is zero does not depend on the byte order. -/
theorem S_zero (le : Bool) (l : List Byte) : S le l = 0 ↔ S false l = 0 := by
  cases le
  · rfl
  · rw [S_swap]
    constructor
    · intro h
      have h2 : (65536 : Z) * S false l = 0 := by linear_combination 256 * h
      rw [c65536, one_mul] at h2
      exact h2
    · intro h
      rw [h, mul_zero]

theorem part_cast (K : Kernel) (l : List Byte) (i : BitVec 32) :
    ((K.part l i).toNat : Z) = S K.le l + (i.toNat : Z) := by
  have := cast_of_mod (K.part_mod l i)
  rw [this]
  push_cast
  rfl

theorem nofold4_cast (K : Kernel) (s d : BitVec 32) (len : Nat) (p : Byte) (i : BitVec 32) :
    ((K.nofold4 s d len p i).toNat : Z) = S K.le (pseudo4 s d len p) + (i.toNat : Z) := by
  have := cast_of_mod (K.nofold4_mod s d len p i)
  rw [this]
  push_cast
  rfl

theorem magic6_cast (K : Kernel) (s d : BitVec 128) (len : Nat) (p : Byte) (i : BitVec 32) :
    ((K.magic6 s d len p i).toNat : Z) = - (S K.le (pseudo6 s d len p) + (i.toNat : Z)) := by
  have := cast_zero.2 (K.magic6_mod s d len p i)
  push_cast at this
  simp only [S]
  linear_combination this

theorem byte_split (c : BitVec 16) :
    (c.extractLsb' 8 8).toNat * 256 + (c.extractLsb' 0 8).toNat = c.toNat := by
  have := c.isLt
  simp only [BitVec.extractLsb'_toNat, Nat.shiftRight_eq_div_pow]
  omega

theorem store_cast (le : Bool) (c : BitVec 16) : S le (store le c) = (c.toNat : Z) := by
  have h := byte_split c
  unfold store
  cases le <;> simp only [Bool.false_eq_true, if_false, if_true, S, wsum, w16, Nat.add_zero, h]

theorem store_length (le : Bool) (c : BitVec 16) : (store le c).length = 2 := by
  unfold store; cases le <;> rfl

theorem be16_length (v : BitVec 16) : (be16 v).length = 2 := rfl
theorem be32_length (v : BitVec 32) : (be32 v).length = 4 := rfl
theorem be128_length (v : BitVec 128) : (be128 v).length = 16 := rfl
theorem pseudo4_length (s d : BitVec 32) (len : Nat) (p : Byte) :
    (pseudo4 s d len p).length = 12 := rfl
theorem pseudo6_length (s d : BitVec 128) (len : Nat) (p : Byte) :
    (pseudo6 s d len p).length = 40 := rfl

theorem load_toNat (le : Bool) (l : List Byte) (off : Nat) :
    (load le l off).toNat = w16 le (l.getD off 0#8) (l.getD (off + 1) 0#8) := by
  unfold load
  rw [BitVec.toNat_ofNat, Nat.mod_eq_of_lt]
  have h1 := (l.getD off 0#8).isLt
  have h2 := (l.getD (off + 1) 0#8).isLt
  simp only [w16]
  split <;> omega

/-- A header with a checksum field: the sum without the field plus the field. -/
theorem S_put (le : Bool) (l : List Byte) (off : Nat) (two : List Byte)
    (ho : off % 2 = 0) (hl : off ≤ l.length) (h2 : two.length = 2) :
    S le (put l off two) = S le (l.take off) + S le two + S le (l.drop (off + 2)) := by
  unfold put
  rw [S_append, S_append]
  · simp [List.length_take]; omega
  · simp [List.length_take, h2]; omega

theorem S_two_zero (le : Bool) : S le [0#8, 0#8] = 0 := by
  simp [S, wsum, w16]

theorem put_split (l : List Byte) (off : Nat) (h : off + 2 ≤ l.length) :
    put l off [l.getD off 0#8, l.getD (off + 1) 0#8] = l := by
  unfold put
  have e1 : l.drop off = l.getD off 0#8 :: l.getD (off + 1) 0#8 :: l.drop (off + 2) := by
    rw [List.drop_eq_getElem_cons (by omega), List.drop_eq_getElem_cons (by omega)]
    simp only [List.getD_eq_getElem?_getD]
    rw [List.getElem?_eq_getElem (by omega), List.getElem?_eq_getElem (by omega)]
    rfl
  conv_rhs => rw [← List.take_append_drop off l, e1]
  simp

/-- What is loaded is what the field contributes to the sum. -/
theorem S_load (le : Bool) (l : List Byte) (off : Nat) (ho : off % 2 = 0)
    (h : off + 2 ≤ l.length) :
    S le l = S le (put l off [0#8, 0#8]) + ((load le l off).toNat : Z) := by
  conv_lhs => rw [← put_split l off h]
  rw [S_put le _ _ _ ho (by omega) rfl, S_put le _ _ _ ho (by omega) rfl, S_two_zero, load_toNat]
  simp only [S, wsum]
  push_cast
  ring

theorem S_put_zero (le : Bool) (l : List Byte) (off : Nat) (two : List Byte)
    (ho : off % 2 = 0) (hl : off ≤ l.length) (h2 : two.length = 2) :
    S le (put l off two) = S le (put l off [0#8, 0#8]) + S le two := by
  rw [S_put le _ _ _ ho hl h2, S_put le _ _ _ ho hl rfl, S_two_zero]
  ring

theorem put_take (l : List Byte) (off hl : Nat) (two : List Byte) (h : off + 2 ≤ hl)
    (hlen : hl ≤ l.length) (h2 : two.length = 2) :
    (put l off two).take hl = put (l.take hl) off two := by
  unfold put
  rw [List.take_append, List.take_append]
  have e1 : (l.take off).length = off := by simp; omega
  rw [e1]
  rw [List.take_of_length_le (l := l.take off) (by omega)]
  rw [List.take_of_length_le (l := two) (by omega)]
  rw [List.take_take, List.drop_take]
  have : min off hl = off := by omega
  rw [this]
  congr 2
  simp
  omega

theorem put_drop (l : List Byte) (off hl : Nat) (two : List Byte) (h : off + 2 ≤ hl)
    (hlen : hl ≤ l.length) (h2 : two.length = 2) :
    (put l off two).drop hl = l.drop hl := by
  unfold put
  rw [List.drop_append, List.drop_append]
  have e1 : (l.take off).length = off := by simp; omega
  rw [e1]
  rw [List.drop_of_length_le (l := l.take off) (by omega)]
  rw [List.drop_of_length_le (l := two) (by omega)]
  rw [List.drop_drop]
  simp only [List.nil_append, List.length_append, e1, h2]
  congr 1
  omega

theorem put_append (l r : List Byte) (off : Nat) (two : List Byte) (h : off + 2 ≤ l.length) :
    put (l ++ r) off two = put l off two ++ r := by
  unfold put
  rw [List.take_append_of_le_length (by omega), List.drop_append_of_le_length (by omega)]
  simp

theorem put_length (l : List Byte) (off : Nat) (two : List Byte) (h : off + 2 ≤ l.length)
    (h2 : two.length = 2) : (put l off two).length = l.length := by
  unfold put
  simp [h2]
  omega

theorem put_put (l : List Byte) (off : Nat) (a b : List Byte) (h : off + 2 ≤ l.length)
    (ha : a.length = 2) : put (put l off a) off b = put l off b := by
  have e1 : (l.take off).length = off := by simp; omega
  unfold put
  rw [List.drop_left' (l₁ := l.take off ++ a) (by simp [ha]; omega), List.append_assoc (l.take off) a,
    List.take_left' e1]

theorem load_append (le : Bool) (l r : List Byte) (off : Nat) (h : off + 2 ≤ l.length) :
    load le (l ++ r) off = load le l off := by
  unfold load
  simp only [List.getD_eq_getElem?_getD]
  rw [List.getElem?_append_left (by omega), List.getElem?_append_left (by omega)]

theorem load_take (le : Bool) (l : List Byte) (off n : Nat) (h : off + 2 ≤ n) :
    load le (l.take n) off = load le l off := by
  unfold load
  simp only [List.getD_eq_getElem?_getD]
  rw [List.getElem?_take_of_lt (by omega), List.getElem?_take_of_lt (by omega)]

theorem load_put (le : Bool) (l : List Byte) (off : Nat) (c : BitVec 16) (h : off ≤ l.length) :
    load le (put l off (store le c)) off = c := by
  apply BitVec.eq_of_toNat_eq
  rw [load_toNat]
  have e1 : (l.take off).length = off := by simp; omega
  have hb := byte_split c
  unfold put
  rw [List.append_assoc]
  simp only [List.getD_eq_getElem?_getD]
  rw [List.getElem?_append_right (i := off) (by omega),
    List.getElem?_append_right (i := off + 1) (by omega), e1]
  have e2 : off + 1 - off = 1 := by omega
  rw [Nat.sub_self, e2]
  unfold store w16
  cases le <;> simpa using hb

end Jool.Csum
