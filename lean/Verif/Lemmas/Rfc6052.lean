import Verif.Lemmas.Addr
/- Byte-level lemmas for RFC 6052. -/
namespace Jool

/-- Byte `j` counting from the right. -/
def rbyte {n : Nat} (x : BitVec n) (j : Nat) : BitVec 8 := (x >>> (8 * j)).setWidth 8

theorem rbyte_append_zero {n : Nat} (x : BitVec n) (b : BitVec 8) : rbyte (x ++ b) 0 = b := by
  apply BitVec.eq_of_getLsbD_eq
  intro i hi
  simp [rbyte, BitVec.getLsbD_append, hi]

theorem rbyte_append_succ {n : Nat} (x : BitVec n) (b : BitVec 8) (j : Nat) :
    rbyte (x ++ b) (j + 1) = rbyte x j := by
  apply BitVec.eq_of_getLsbD_eq
  intro i hi
  have h1 : ¬ (8 * (j + 1) + i < 8) := by omega
  have h2 : 8 * (j + 1) + i - 8 = 8 * j + i := by omega
  simp [rbyte, BitVec.getLsbD_append, hi, h1, h2]

theorem rbyte_self (b : BitVec 8) : rbyte b 0 = b := by
  apply BitVec.eq_of_getLsbD_eq
  intro i hi
  simp [rbyte, hi]

theorem Addr4.byte_ofBytes (b0 b1 b2 b3 : BitVec 8) :
    Addr4.byte (.ofBytes b0 b1 b2 b3) 0 = b0 ∧ Addr4.byte (.ofBytes b0 b1 b2 b3) 1 = b1 ∧
    Addr4.byte (.ofBytes b0 b1 b2 b3) 2 = b2 ∧ Addr4.byte (.ofBytes b0 b1 b2 b3) 3 = b3 := by
  refine ⟨?_, ?_, ?_, ?_⟩ <;> change rbyte (_ ++ _ : BitVec 32) _ = _ <;>
    (simp only [Nat.reduceSub]
     repeat' first | exact rbyte_append_zero _ _ | exact rbyte_self _ | rw [rbyte_append_succ])

@[simp] theorem Addr6.byte_ofBytes_0 (b0 b1 b2 b3 b4 b5 b6 b7 b8 b9 b10 b11 b12 b13 b14 b15 : BitVec 8) :
    Addr6.byte (.ofBytes b0 b1 b2 b3 b4 b5 b6 b7 b8 b9 b10 b11 b12 b13 b14 b15) 0 = b0 := by
  change rbyte (_ ++ _ : BitVec 128) (15 - 0) = _
  simp only [Nat.reduceSub]
  repeat' first | exact rbyte_append_zero _ _ | exact rbyte_self _ | rw [rbyte_append_succ]

@[simp] theorem Addr6.byte_ofBytes_1 (b0 b1 b2 b3 b4 b5 b6 b7 b8 b9 b10 b11 b12 b13 b14 b15 : BitVec 8) :
    Addr6.byte (.ofBytes b0 b1 b2 b3 b4 b5 b6 b7 b8 b9 b10 b11 b12 b13 b14 b15) 1 = b1 := by
  change rbyte (_ ++ _ : BitVec 128) (15 - 1) = _
  simp only [Nat.reduceSub]
  repeat' first | exact rbyte_append_zero _ _ | exact rbyte_self _ | rw [rbyte_append_succ]

@[simp] theorem Addr6.byte_ofBytes_2 (b0 b1 b2 b3 b4 b5 b6 b7 b8 b9 b10 b11 b12 b13 b14 b15 : BitVec 8) :
    Addr6.byte (.ofBytes b0 b1 b2 b3 b4 b5 b6 b7 b8 b9 b10 b11 b12 b13 b14 b15) 2 = b2 := by
  change rbyte (_ ++ _ : BitVec 128) (15 - 2) = _
  simp only [Nat.reduceSub]
  repeat' first | exact rbyte_append_zero _ _ | exact rbyte_self _ | rw [rbyte_append_succ]

@[simp] theorem Addr6.byte_ofBytes_3 (b0 b1 b2 b3 b4 b5 b6 b7 b8 b9 b10 b11 b12 b13 b14 b15 : BitVec 8) :
    Addr6.byte (.ofBytes b0 b1 b2 b3 b4 b5 b6 b7 b8 b9 b10 b11 b12 b13 b14 b15) 3 = b3 := by
  change rbyte (_ ++ _ : BitVec 128) (15 - 3) = _
  simp only [Nat.reduceSub]
  repeat' first | exact rbyte_append_zero _ _ | exact rbyte_self _ | rw [rbyte_append_succ]

@[simp] theorem Addr6.byte_ofBytes_4 (b0 b1 b2 b3 b4 b5 b6 b7 b8 b9 b10 b11 b12 b13 b14 b15 : BitVec 8) :
    Addr6.byte (.ofBytes b0 b1 b2 b3 b4 b5 b6 b7 b8 b9 b10 b11 b12 b13 b14 b15) 4 = b4 := by
  change rbyte (_ ++ _ : BitVec 128) (15 - 4) = _
  simp only [Nat.reduceSub]
  repeat' first | exact rbyte_append_zero _ _ | exact rbyte_self _ | rw [rbyte_append_succ]

@[simp] theorem Addr6.byte_ofBytes_5 (b0 b1 b2 b3 b4 b5 b6 b7 b8 b9 b10 b11 b12 b13 b14 b15 : BitVec 8) :
    Addr6.byte (.ofBytes b0 b1 b2 b3 b4 b5 b6 b7 b8 b9 b10 b11 b12 b13 b14 b15) 5 = b5 := by
  change rbyte (_ ++ _ : BitVec 128) (15 - 5) = _
  simp only [Nat.reduceSub]
  repeat' first | exact rbyte_append_zero _ _ | exact rbyte_self _ | rw [rbyte_append_succ]

@[simp] theorem Addr6.byte_ofBytes_6 (b0 b1 b2 b3 b4 b5 b6 b7 b8 b9 b10 b11 b12 b13 b14 b15 : BitVec 8) :
    Addr6.byte (.ofBytes b0 b1 b2 b3 b4 b5 b6 b7 b8 b9 b10 b11 b12 b13 b14 b15) 6 = b6 := by
  change rbyte (_ ++ _ : BitVec 128) (15 - 6) = _
  simp only [Nat.reduceSub]
  repeat' first | exact rbyte_append_zero _ _ | exact rbyte_self _ | rw [rbyte_append_succ]

@[simp] theorem Addr6.byte_ofBytes_7 (b0 b1 b2 b3 b4 b5 b6 b7 b8 b9 b10 b11 b12 b13 b14 b15 : BitVec 8) :
    Addr6.byte (.ofBytes b0 b1 b2 b3 b4 b5 b6 b7 b8 b9 b10 b11 b12 b13 b14 b15) 7 = b7 := by
  change rbyte (_ ++ _ : BitVec 128) (15 - 7) = _
  simp only [Nat.reduceSub]
  repeat' first | exact rbyte_append_zero _ _ | exact rbyte_self _ | rw [rbyte_append_succ]

@[simp] theorem Addr6.byte_ofBytes_8 (b0 b1 b2 b3 b4 b5 b6 b7 b8 b9 b10 b11 b12 b13 b14 b15 : BitVec 8) :
    Addr6.byte (.ofBytes b0 b1 b2 b3 b4 b5 b6 b7 b8 b9 b10 b11 b12 b13 b14 b15) 8 = b8 := by
  change rbyte (_ ++ _ : BitVec 128) (15 - 8) = _
  simp only [Nat.reduceSub]
  repeat' first | exact rbyte_append_zero _ _ | exact rbyte_self _ | rw [rbyte_append_succ]

@[simp] theorem Addr6.byte_ofBytes_9 (b0 b1 b2 b3 b4 b5 b6 b7 b8 b9 b10 b11 b12 b13 b14 b15 : BitVec 8) :
    Addr6.byte (.ofBytes b0 b1 b2 b3 b4 b5 b6 b7 b8 b9 b10 b11 b12 b13 b14 b15) 9 = b9 := by
  change rbyte (_ ++ _ : BitVec 128) (15 - 9) = _
  simp only [Nat.reduceSub]
  repeat' first | exact rbyte_append_zero _ _ | exact rbyte_self _ | rw [rbyte_append_succ]

@[simp] theorem Addr6.byte_ofBytes_10 (b0 b1 b2 b3 b4 b5 b6 b7 b8 b9 b10 b11 b12 b13 b14 b15 : BitVec 8) :
    Addr6.byte (.ofBytes b0 b1 b2 b3 b4 b5 b6 b7 b8 b9 b10 b11 b12 b13 b14 b15) 10 = b10 := by
  change rbyte (_ ++ _ : BitVec 128) (15 - 10) = _
  simp only [Nat.reduceSub]
  repeat' first | exact rbyte_append_zero _ _ | exact rbyte_self _ | rw [rbyte_append_succ]

@[simp] theorem Addr6.byte_ofBytes_11 (b0 b1 b2 b3 b4 b5 b6 b7 b8 b9 b10 b11 b12 b13 b14 b15 : BitVec 8) :
    Addr6.byte (.ofBytes b0 b1 b2 b3 b4 b5 b6 b7 b8 b9 b10 b11 b12 b13 b14 b15) 11 = b11 := by
  change rbyte (_ ++ _ : BitVec 128) (15 - 11) = _
  simp only [Nat.reduceSub]
  repeat' first | exact rbyte_append_zero _ _ | exact rbyte_self _ | rw [rbyte_append_succ]

@[simp] theorem Addr6.byte_ofBytes_12 (b0 b1 b2 b3 b4 b5 b6 b7 b8 b9 b10 b11 b12 b13 b14 b15 : BitVec 8) :
    Addr6.byte (.ofBytes b0 b1 b2 b3 b4 b5 b6 b7 b8 b9 b10 b11 b12 b13 b14 b15) 12 = b12 := by
  change rbyte (_ ++ _ : BitVec 128) (15 - 12) = _
  simp only [Nat.reduceSub]
  repeat' first | exact rbyte_append_zero _ _ | exact rbyte_self _ | rw [rbyte_append_succ]

@[simp] theorem Addr6.byte_ofBytes_13 (b0 b1 b2 b3 b4 b5 b6 b7 b8 b9 b10 b11 b12 b13 b14 b15 : BitVec 8) :
    Addr6.byte (.ofBytes b0 b1 b2 b3 b4 b5 b6 b7 b8 b9 b10 b11 b12 b13 b14 b15) 13 = b13 := by
  change rbyte (_ ++ _ : BitVec 128) (15 - 13) = _
  simp only [Nat.reduceSub]
  repeat' first | exact rbyte_append_zero _ _ | exact rbyte_self _ | rw [rbyte_append_succ]

@[simp] theorem Addr6.byte_ofBytes_14 (b0 b1 b2 b3 b4 b5 b6 b7 b8 b9 b10 b11 b12 b13 b14 b15 : BitVec 8) :
    Addr6.byte (.ofBytes b0 b1 b2 b3 b4 b5 b6 b7 b8 b9 b10 b11 b12 b13 b14 b15) 14 = b14 := by
  change rbyte (_ ++ _ : BitVec 128) (15 - 14) = _
  simp only [Nat.reduceSub]
  repeat' first | exact rbyte_append_zero _ _ | exact rbyte_self _ | rw [rbyte_append_succ]

@[simp] theorem Addr6.byte_ofBytes_15 (b0 b1 b2 b3 b4 b5 b6 b7 b8 b9 b10 b11 b12 b13 b14 b15 : BitVec 8) :
    Addr6.byte (.ofBytes b0 b1 b2 b3 b4 b5 b6 b7 b8 b9 b10 b11 b12 b13 b14 b15) 15 = b15 := by
  change rbyte (_ ++ _ : BitVec 128) (15 - 15) = _
  simp only [Nat.reduceSub]
  repeat' first | exact rbyte_append_zero _ _ | exact rbyte_self _ | rw [rbyte_append_succ]


@[simp] theorem Addr4.byte_ofBytes_0 (b0 b1 b2 b3 : BitVec 8) :
    Addr4.byte (.ofBytes b0 b1 b2 b3) 0 = b0 := (Addr4.byte_ofBytes b0 b1 b2 b3).1
@[simp] theorem Addr4.byte_ofBytes_1 (b0 b1 b2 b3 : BitVec 8) :
    Addr4.byte (.ofBytes b0 b1 b2 b3) 1 = b1 := (Addr4.byte_ofBytes b0 b1 b2 b3).2.1
@[simp] theorem Addr4.byte_ofBytes_2 (b0 b1 b2 b3 : BitVec 8) :
    Addr4.byte (.ofBytes b0 b1 b2 b3) 2 = b2 := (Addr4.byte_ofBytes b0 b1 b2 b3).2.2.1
@[simp] theorem Addr4.byte_ofBytes_3 (b0 b1 b2 b3 : BitVec 8) :
    Addr4.byte (.ofBytes b0 b1 b2 b3) 3 = b3 := (Addr4.byte_ofBytes b0 b1 b2 b3).2.2.2

theorem Addr6.byte_getMsbD (a : Addr6) (k r : Nat) (hk : k < 16) (hr : r < 8) :
    (a.byte k).getMsbD r = a.getMsbD (8 * k + r) := by
  have h1 : 8 * k + r < 128 := by omega
  have h2 : 8 - 1 - r < 8 := by omega
  have h3 : 8 * (15 - k) + (8 - 1 - r) = 128 - 1 - (8 * k + r) := by omega
  simp only [Addr6.byte, BitVec.getMsbD, hr, h1, decide_true, Bool.true_and,
    BitVec.getLsbD_setWidth, BitVec.getLsbD_ushiftRight, h2, h3]

theorem Addr4.byte_getMsbD (a : Addr4) (k r : Nat) (hk : k < 4) (hr : r < 8) :
    (Addr4.byte a k).getMsbD r = a.getMsbD (8 * k + r) := by
  have h1 : 8 * k + r < 32 := by omega
  have h2 : 8 - 1 - r < 8 := by omega
  have h3 : 8 * (3 - k) + (8 - 1 - r) = 32 - 1 - (8 * k + r) := by omega
  simp only [Addr4.byte, BitVec.getMsbD, hr, h1, decide_true, Bool.true_and,
    BitVec.getLsbD_setWidth, BitVec.getLsbD_ushiftRight, h2, h3]

theorem Addr6.getMsbD_eq_byte (a : Addr6) (j : Nat) (hj : j < 128) :
    a.getMsbD j = (a.byte (j / 8)).getMsbD (j % 8) := by
  rw [Addr6.byte_getMsbD _ _ _ (by omega) (by omega)]
  congr 1; omega

theorem Addr4.getMsbD_eq_byte (a : Addr4) (j : Nat) (hj : j < 32) :
    a.getMsbD j = (Addr4.byte a (j / 8)).getMsbD (j % 8) := by
  rw [Addr4.byte_getMsbD _ _ _ (by omega) (by omega)]
  congr 1; omega

theorem Addr6.ext_bits (a b : Addr6) (h : ∀ j, j < 128 → a.getMsbD j = b.getMsbD j) : a = b :=
  BitVec.eq_of_getMsbD_eq h

theorem Addr4.ext_bits (a b : Addr4) (h : ∀ j, j < 32 → a.getMsbD j = b.getMsbD j) : a = b :=
  BitVec.eq_of_getMsbD_eq h

end Jool
