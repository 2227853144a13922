import Verif.Model.Addr
import Verif.Model.Rfc6052
/- Bit-level lemmas about the address model. -/
namespace Jool

theorem getPrefix4Mask_getMsbD (len i : Nat) (h : len ≤ 32) :
    (getPrefix4Mask len).getMsbD i = decide (i < len) := by
  unfold getPrefix4Mask
  have key : ∀ k, (0xffffffff#64).getLsbD k = decide (k < 32) := by
    intro k
    have : (0xffffffff#64) = (BitVec.allOnes 32).setWidth 64 := by decide
    rw [this, BitVec.getLsbD_setWidth, BitVec.getLsbD_allOnes]
    by_cases h : k < 64 <;> by_cases h' : k < 32 <;> simp_all <;> omega
  by_cases hi : i < 32
  · simp only [BitVec.getMsbD, hi, decide_true, Bool.true_and, BitVec.getLsbD_setWidth,
      BitVec.getLsbD_shiftLeft, key]
    by_cases hl : i < len <;> simp [hl] <;> omega
  · simp [BitVec.getMsbD, hi]; omega

/-- Membership, bit by bit. -/
theorem prefix4Contains_iff_bits (p : Prefix4) (a : Addr4) (h : p.len ≤ 32) :
    prefix4Contains p a = true ↔ ∀ i, i < p.len → a.getMsbD i = p.addr.getMsbD i := by
  unfold prefix4Contains
  rw [beq_iff_eq]
  constructor
  · intro e i hi
    have := congrArg (fun x => BitVec.getMsbD x i) e
    simp only [BitVec.getMsbD_and, getPrefix4Mask_getMsbD _ _ h, hi, decide_true,
      Bool.and_true] at this
    exact this.symm
  · intro e
    apply BitVec.eq_of_getMsbD_eq
    intro i _
    simp only [BitVec.getMsbD_and, getPrefix4Mask_getMsbD _ _ h]
    by_cases hi : i < p.len
    · simp [e i hi]
    · simp [hi]

theorem prefix6Contains_iff_bits (p : Prefix6) (a : Addr6) (h : p.len ≤ 128) :
    prefix6Contains p a = true ↔ ∀ i, i < p.len → a.getMsbD i = p.addr.getMsbD i := by
  unfold prefix6Contains
  rw [beq_iff_eq]
  constructor
  · intro e i hi
    have := congrArg (fun x => BitVec.getLsbD x (p.len - 1 - i)) e
    simp only [BitVec.getLsbD_ushiftRight, BitVec.getLsbD_xor, BitVec.getLsbD_zero] at this
    have e1 : 128 - p.len + (p.len - 1 - i) = 128 - 1 - i := by omega
    rw [e1] at this
    have hi' : i < 128 := by omega
    simp only [BitVec.getMsbD, hi', decide_true, Bool.true_and]
    revert this
    cases p.addr.getLsbD (128 - 1 - i) <;> cases a.getLsbD (128 - 1 - i) <;> simp
  · intro e
    apply BitVec.eq_of_getLsbD_eq
    intro i hi
    simp only [BitVec.getLsbD_ushiftRight, BitVec.getLsbD_xor, BitVec.getLsbD_zero]
    by_cases hk : 128 - p.len + i < 128
    · have := e (128 - 1 - (128 - p.len + i)) (by omega)
      have h2 : 128 - 1 - (128 - p.len + i) < 128 := by omega
      have h3 : 128 - 1 - (128 - 1 - (128 - p.len + i)) = 128 - p.len + i := by omega
      simp only [BitVec.getMsbD, h2, decide_true, Bool.true_and, h3] at this
      rw [this]; simp
    · rw [BitVec.getLsbD_of_ge _ _ (by omega), BitVec.getLsbD_of_ge _ _ (by omega)]; rfl


theorem and_twoPow_ne_zero {w : Nat} (x : BitVec w) (k : Nat) (hk : k < w) :
    (x &&& (1#w <<< k) != 0#w) = x.getLsbD k := by
  rw [← BitVec.twoPow_eq]
  cases h : x.getLsbD k with
  | true =>
    have : x &&& BitVec.twoPow w k ≠ 0#w := by
      intro e
      have := congrArg (fun y => BitVec.getLsbD y k) e
      simp only [BitVec.getLsbD_and, BitVec.getLsbD_twoPow, h, hk, decide_true, Bool.and_self,
        BitVec.getLsbD_zero] at this
      cases this
    simpa using this
  | false =>
    have : x &&& BitVec.twoPow w k = 0#w := by
      apply BitVec.eq_of_getLsbD_eq
      intro i hi
      simp only [BitVec.getLsbD_and, BitVec.getLsbD_twoPow, BitVec.getLsbD_zero]
      by_cases hik : k = i
      · subst hik; simp [h]
      · simp [hik]
    simp [this]

theorem addr4GetBit_eq (a : Addr4) (pos : Nat) (h : pos < 32) :
    addr4GetBit a pos = a.getMsbD pos := by
  unfold addr4GetBit
  rw [and_twoPow_ne_zero _ _ (by omega)]
  simp [BitVec.getMsbD, h]

theorem shiftRight5 (n : Nat) : n >>> 5 = n / 32 := by
  rw [Nat.shiftRight_eq_div_pow]

theorem and31 (n : Nat) : n &&& 0x1F = n % 32 := Nat.and_two_pow_sub_one_eq_mod n 5

theorem addr6GetBit_eq (a : Addr6) (pos : Nat) (h : pos < 128) :
    addr6GetBit a pos = a.getMsbD pos := by
  unfold addr6GetBit
  rw [and_twoPow_ne_zero _ _ (by omega)]
  have h31 : 31 - (pos &&& 0x1F) < 32 := by omega
  simp only [Addr6.quadrant, BitVec.getLsbD_setWidth, BitVec.getLsbD_ushiftRight, h31,
    decide_true, Bool.true_and, BitVec.getMsbD, h]
  rw [shiftRight5, and31]
  congr 1
  omega

theorem prefix6ValidateLoop_iff (a : Addr6) (fuel i : Nat) (h : i + fuel = 128) :
    prefix6ValidateLoop a i fuel = true ↔ ∀ j, i ≤ j → j < 128 → a.getMsbD j = false := by
  induction fuel generalizing i with
  | zero => simp [prefix6ValidateLoop]; intro j h1 h2; omega
  | succ n ih =>
    simp only [prefix6ValidateLoop]
    rw [addr6GetBit_eq _ _ (by omega)]
    cases hb : a.getMsbD i with
    | true =>
      simp only [if_true, Bool.false_eq_true, false_iff]
      intro hall
      have := hall i (Nat.le_refl _) (by omega)
      simp [hb] at this
    | false =>
      simp only [Bool.false_eq_true, if_false]
      rw [ih (i + 1) (by omega)]
      constructor
      · intro hall j h1 h2
        by_cases hij : j = i
        · subst hij; exact hb
        · exact hall j (by omega) h2
      · intro hall j h1 h2
        exact hall j (by omega) h2

theorem prefix6Validate_iff (p : Prefix6) :
    prefix6Validate p = true ↔
      p.len ≤ 128 ∧ ∀ j, p.len ≤ j → j < 128 → p.addr.getMsbD j = false := by
  unfold prefix6Validate
  split
  · simp; omega
  · rw [prefix6ValidateLoop_iff _ _ _ (by omega)]
    constructor
    · intro h; exact ⟨by omega, h⟩
    · intro h; exact h.2

theorem prefix4Validate_iff (p : Prefix4) :
    prefix4Validate p = true ↔
      p.len ≤ 32 ∧ ∀ j, p.len ≤ j → j < 32 → p.addr.getMsbD j = false := by
  unfold prefix4Validate
  split
  · simp; omega
  · rename_i hl
    have hl : p.len ≤ 32 := by omega
    rw [beq_iff_eq]
    constructor
    · intro e
      refine ⟨hl, fun j h1 h2 => ?_⟩
      have := congrArg (fun x => BitVec.getMsbD x j) e
      simp only [BitVec.getMsbD_and, BitVec.getMsbD_not, getPrefix4Mask_getMsbD _ _ hl] at this
      have h3 : ¬ j < p.len := by omega
      simpa [h2, h3] using this
    · rintro ⟨_, e⟩
      apply BitVec.eq_of_getMsbD_eq
      intro j hj
      simp only [BitVec.getMsbD_and, BitVec.getMsbD_not, getPrefix4Mask_getMsbD _ _ hl]
      by_cases h3 : j < p.len
      · simp [h3]
      · rw [e j (by omega) hj]; simp

/-- Membership through division. -/
theorem prefix4Contains_iff_div (p : Prefix4) (a : Addr4) (h : p.len ≤ 32) :
    prefix4Contains p a = true ↔ a.toNat / 2 ^ (32 - p.len) = p.addr.toNat / 2 ^ (32 - p.len) := by
  rw [prefix4Contains_iff_bits p a h]
  have e : a.toNat / 2 ^ (32 - p.len) = p.addr.toNat / 2 ^ (32 - p.len) ↔
      a >>> (32 - p.len) = p.addr >>> (32 - p.len) := by
    rw [← BitVec.toNat_inj]
    simp [Nat.shiftRight_eq_div_pow]
  rw [e]
  constructor
  · intro hb
    apply BitVec.eq_of_getLsbD_eq
    intro i hi
    simp only [BitVec.getLsbD_ushiftRight]
    by_cases hk : 32 - p.len + i < 32
    · have := hb (32 - 1 - (32 - p.len + i)) (by omega)
      have h2 : 32 - 1 - (32 - p.len + i) < 32 := by omega
      have h3 : 32 - 1 - (32 - 1 - (32 - p.len + i)) = 32 - p.len + i := by omega
      simpa only [BitVec.getMsbD, h2, decide_true, Bool.true_and, h3] using this
    · rw [BitVec.getLsbD_of_ge _ _ (by omega), BitVec.getLsbD_of_ge _ _ (by omega)]
  · intro hb i hi
    have := congrArg (fun x => BitVec.getLsbD x (p.len - 1 - i)) hb
    simp only [BitVec.getLsbD_ushiftRight] at this
    have e1 : 32 - p.len + (p.len - 1 - i) = 32 - 1 - i := by omega
    rw [e1] at this
    have hi' : i < 32 := by omega
    simpa only [BitVec.getMsbD, hi', decide_true, Bool.true_and] using this

/-- A canonical prefix starts at a multiple of its size. -/
theorem prefix4Validate_mod (p : Prefix4) (h : prefix4Validate p = true) :
    p.addr.toNat % 2 ^ (32 - p.len) = 0 := by
  obtain ⟨hl, hz⟩ := (prefix4Validate_iff p).1 h
  apply Nat.eq_of_testBit_eq
  intro i
  rw [Nat.testBit_mod_two_pow, Nat.zero_testBit]
  by_cases hi : i < 32 - p.len
  · have := hz (32 - 1 - i) (by omega) (by omega)
    have h2 : 32 - 1 - i < 32 := by omega
    have h3 : 32 - 1 - (32 - 1 - i) = i := by omega
    simp only [BitVec.getMsbD, h2, decide_true, Bool.true_and, h3] at this
    simp [BitVec.testBit_toNat, this]
  · simp [hi]

/-- Membership in a canonical prefix is an interval. -/
theorem prefix4Contains_iff_range (p : Prefix4) (a : Addr4) (h : prefix4Validate p = true) :
    prefix4Contains p a = true ↔
      p.addr.toNat ≤ a.toNat ∧ a.toNat < p.addr.toNat + 2 ^ (32 - p.len) := by
  have hl := ((prefix4Validate_iff p).1 h).1
  have hm := prefix4Validate_mod p h
  rw [prefix4Contains_iff_div p a hl]
  have hpos : 0 < 2 ^ (32 - p.len) := Nat.two_pow_pos _
  have e := Nat.div_add_mod p.addr.toNat (2 ^ (32 - p.len))
  rw [hm, Nat.add_zero] at e
  constructor
  · intro hd
    have e2 := Nat.div_add_mod a.toNat (2 ^ (32 - p.len))
    rw [hd] at e2
    have := Nat.mod_lt a.toNat hpos
    omega
  · rintro ⟨h1, h2⟩
    rw [Nat.div_eq_iff hpos]
    rw [Nat.mul_comm] at e
    omega

theorem prefix4_base_bound (p : Prefix4) (h : prefix4Validate p = true) :
    p.addr.toNat + 2 ^ (32 - p.len) ≤ 2 ^ 32 := by
  have hl := ((prefix4Validate_iff p).1 h).1
  have hm := prefix4Validate_mod p h
  have hlt := p.addr.isLt
  have hd : 2 ^ (32 - p.len) ∣ 2 ^ 32 := Nat.pow_dvd_pow 2 (by omega)
  have hd2 : 2 ^ (32 - p.len) ∣ p.addr.toNat := Nat.dvd_of_mod_eq_zero hm
  obtain ⟨c, hc⟩ := hd
  obtain ⟨d, hd⟩ := hd2
  rw [hc, hd] at hlt
  have : d < c := Nat.lt_of_mul_lt_mul_left hlt
  rw [hc, hd]
  calc 2 ^ (32 - p.len) * d + 2 ^ (32 - p.len) = 2 ^ (32 - p.len) * (d + 1) := by
        rw [Nat.mul_add, Nat.mul_one]
    _ ≤ 2 ^ (32 - p.len) * c := Nat.mul_le_mul_left _ this

theorem prefix4GetAddrCount_toNat (p : Prefix4) (_h : p.len ≤ 32) :
    (prefix4GetAddrCount p).toNat = 2 ^ (32 - p.len) := by
  unfold prefix4GetAddrCount
  rw [BitVec.toNat_shiftLeft]
  have : 2 ^ (32 - p.len) ≤ 2 ^ 32 := Nat.pow_le_pow_right (by omega) (by omega)
  have h1 : (1#64).toNat = 1 := rfl
  rw [h1, Nat.shiftLeft_eq, Nat.one_mul, Nat.mod_eq_of_lt (by omega)]

theorem foreachAddr4Loop_eq (p : Prefix4) (fuel : Nat) (c : BitVec 64)
    (hn : (prefix4Next p).toNat ≤ 2 ^ 33) (hf : (prefix4Next p).toNat - c.toNat ≤ fuel) :
    foreachAddr4Loop p c fuel =
      (List.range ((prefix4Next p).toNat - c.toNat)).map
        (fun i => BitVec.ofNat 32 (c.toNat + i)) := by
  induction fuel generalizing c with
  | zero =>
    have : (prefix4Next p).toNat - c.toNat = 0 := by omega
    rw [this]; rfl
  | succ n ih =>
    simp only [foreachAddr4Loop]
    by_cases hlt : c.toNat < (prefix4Next p).toNat
    · have h1 : c.ult (prefix4Next p) = true := by simpa [BitVec.ult] using hlt
      have hc : (c + 1#64).toNat = c.toNat + 1 := by
        rw [BitVec.toNat_add]
        have : (1#64).toNat = 1 := rfl
        rw [this]; omega
      rw [if_pos h1, ih _ (by omega), hc]
      have e : (prefix4Next p).toNat - c.toNat = ((prefix4Next p).toNat - (c.toNat + 1)) + 1 := by
        omega
      rw [e, List.range_succ_eq_map, List.map_cons, List.map_map]
      congr 1
      apply List.map_congr_left
      intro i _
      simp only [Function.comp_apply]
      congr 1
      simp only [Nat.succ_eq_add_one]; omega
    · have h1 : ¬ (c.ult (prefix4Next p) = true) := by simpa [BitVec.ult] using hlt
      rw [if_neg h1]
      have : (prefix4Next p).toNat - c.toNat = 0 := by omega
      rw [this]; rfl

theorem prefix4Next_toNat (p : Prefix4) (h : p.len ≤ 32) :
    (prefix4Next p).toNat = p.addr.toNat + 2 ^ (32 - p.len) := by
  unfold prefix4Next
  rw [BitVec.toNat_add, prefix4GetAddrCount_toNat p h, BitVec.toNat_setWidth]
  have : 2 ^ (32 - p.len) ≤ 2 ^ 32 := Nat.pow_le_pow_right (by omega) (by omega)
  have := p.addr.isLt
  rw [Nat.mod_eq_of_lt (by omega : p.addr.toNat < 2 ^ 64)]
  rw [Nat.mod_eq_of_lt (by omega)]; omega

theorem foreachAddr4_eq (p : Prefix4) (h : p.len ≤ 32) :
    foreachAddr4 p = (List.range (2 ^ (32 - p.len))).map
        (fun i => BitVec.ofNat 32 (p.addr.toNat + i)) := by
  unfold foreachAddr4
  have hp : 2 ^ (32 - p.len) ≤ 2 ^ 32 := Nat.pow_le_pow_right (by omega) (by omega)
  have ha := p.addr.isLt
  have hn := prefix4Next_toNat p h
  have hs : (BitVec.setWidth 64 p.addr).toNat = p.addr.toNat := by
    rw [BitVec.toNat_setWidth, Nat.mod_eq_of_lt (by omega)]
  rw [foreachAddr4Loop_eq p _ _ (by omega) (by rw [hs]; omega), hs, hn]
  rw [Nat.add_sub_cancel_left]

end Jool
