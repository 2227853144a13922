import Verif.Props.Eam
/-
C11: translation with an entry.

Specification: the bits of the prefix, then the bits that follow the other prefix in the given address, then zeroes.
-/
namespace Jool.Eam
open Jool.PrefixSpec

theorem bit_getLsbD {n : Nat} (k j : Nat) (hj : j < n) : ((1#n) <<< k).getLsbD j = decide (j = k) := by
  rw [show (1#n) <<< k = BitVec.twoPow n k from rfl, BitVec.getLsbD_twoPow]
  by_cases h : j = k
  · subst h; simp [hj]
  · simp [h]; intro _; omega

theorem setBit4 (a : Addr4) (pos j : Nat) (v : Bool) (hp : pos < 32) (hj : j < 32) :
    (addr4SetBit a pos v).getMsbD j = if j = pos then v else a.getMsbD j := by
  unfold addr4SetBit
  cases v
  · simp only [Bool.false_eq_true, if_false, BitVec.getMsbD, hj, decide_true, Bool.true_and, BitVec.getLsbD_and,
      BitVec.getLsbD_not]
    rw [bit_getLsbD _ _ (by omega)]
    by_cases h : j = pos
    · subst h; simp
    · simp only [if_neg h]
      rw [show decide (32 - 1 - j = 31 - pos) = false from decide_eq_false (by omega)]
      simp [show 31 - j < 32 by omega]
  · simp only [if_true, BitVec.getMsbD, hj, decide_true, Bool.true_and, BitVec.getLsbD_or]
    rw [bit_getLsbD _ _ (by omega)]
    by_cases h : j = pos
    · subst h; simp
    · simp only [if_neg h]
      rw [decide_eq_false (by omega)]
      simp

theorem setBit6 (a : Addr6) (pos j : Nat) (v : Bool) (hp : pos < 128) (hj : j < 128) :
    (addr6SetBit a pos v).getMsbD j = if j = pos then v else a.getMsbD j := by
  unfold addr6SetBit
  have hk : 32 * (3 - (pos >>> 5)) + (31 - (pos &&& 0x1F)) = 127 - pos := by
    rw [shiftRight5, and31]; omega
  dsimp only
  rw [hk]
  cases v
  · simp only [Bool.false_eq_true, if_false, BitVec.getMsbD, hj, decide_true, Bool.true_and, BitVec.getLsbD_and,
      BitVec.getLsbD_not]
    rw [bit_getLsbD _ _ (by omega)]
    by_cases h : j = pos
    · subst h; simp
    · simp only [if_neg h]
      rw [show decide (128 - 1 - j = 127 - pos) = false from decide_eq_false (by omega)]
      simp [show 127 - j < 128 by omega]
  · simp only [if_true, BitVec.getMsbD, hj, decide_true, Bool.true_and, BitVec.getLsbD_or]
    rw [bit_getLsbD _ _ (by omega)]
    by_cases h : j = pos
    · subst h; simp
    · simp only [if_neg h]
      rw [decide_eq_false (by omega)]
      simp

theorem loop64_spec (e : Entry) (a6 : Addr6) (h4 : e.p4.len ≤ 32) (hs : 32 - e.p4.len ≤ 128 - e.p6.len)
    (h6 : e.p6.len ≤ 128) (n i : Nat) (hn : e.p4.len + i + n = 32) (a : Addr4) (j : Nat) (hj : j < 32) :
    (loop64 e a6 i n a).getMsbD j =
      if e.p4.len + i ≤ j then a6.getMsbD (e.p6.len + (j - e.p4.len)) else a.getMsbD j := by
  induction n generalizing i a with
  | zero =>
    rw [loop64, if_neg (by omega)]
  | succ n ih =>
    rw [loop64, ih (i + 1) (by omega), setBit4 _ _ _ _ (by omega) hj, addr6GetBit_eq _ _ (by omega)]
    by_cases hji : j = e.p4.len + i
    · rw [if_neg (by omega), if_pos hji, if_pos (by omega)]
      congr 1; omega
    · by_cases hle : e.p4.len + i ≤ j
      · rw [if_pos (by omega), if_pos hle]
      · rw [if_neg (by omega), if_neg hji, if_neg hle]

theorem loop46_spec (e : Entry) (a4 : Addr4) (h4 : e.p4.len ≤ 32) (hs : 32 - e.p4.len ≤ 128 - e.p6.len)
    (h6 : e.p6.len ≤ 128) (n i : Nat) (hn : e.p4.len + i + n = 32) (a : Addr6) (j : Nat) (hj : j < 128) :
    (loop46 e a4 i n a).getMsbD j =
      if e.p6.len + i ≤ j ∧ j < e.p6.len + (32 - e.p4.len) then a4.getMsbD (e.p4.len + (j - e.p6.len))
      else a.getMsbD j := by
  induction n generalizing i a with
  | zero =>
    rw [loop46, if_neg (by omega)]
  | succ n ih =>
    rw [loop46, ih (i + 1) (by omega), setBit6 _ _ _ _ (by omega) hj, addr4GetBit_eq _ _ (by omega)]
    by_cases hji : j = e.p6.len + i
    · rw [if_neg (by omega), if_pos hji, if_pos (by omega)]
      congr 1; omega
    · by_cases hle : e.p6.len + i ≤ j ∧ j < e.p6.len + (32 - e.p4.len)
      · rw [if_pos (by omega), if_pos hle]
      · rw [if_neg (by omega), if_neg hji, if_neg hle]

/-- C11: 6 to 4, bit by bit. -/
theorem xlat64_bits (e : Entry) (h : Valid e) (a : Addr6) (j : Nat) (hj : j < 32) :
    (xlat64With e a).getMsbD j =
      if j < e.p4.len then e.p4.addr.getMsbD j else a.getMsbD (e.p6.len + (j - e.p4.len)) := by
  unfold xlat64With
  rw [loop64_spec e a h.2.1.1 h.2.2 h.1.1 _ 0 (by have := h.2.1.1; omega) _ j hj]
  by_cases hl : j < e.p4.len
  · rw [if_neg (by omega), if_pos hl]
  · rw [if_pos (by omega), if_neg hl]

/-- C11: 4 to 6, bit by bit. -/
theorem xlat46_bits (e : Entry) (h : Valid e) (a : Addr4) (j : Nat) (hj : j < 128) :
    (xlat46With e a).getMsbD j =
      if j < e.p6.len then e.p6.addr.getMsbD j
      else if j < e.p6.len + (32 - e.p4.len) then a.getMsbD (e.p4.len + (j - e.p6.len))
      else false := by
  unfold xlat46With
  rw [loop46_spec e a h.2.1.1 h.2.2 h.1.1 _ 0 (by have := h.2.1.1; omega) _ j hj]
  by_cases hl : j < e.p6.len
  · rw [if_neg (by omega), if_pos hl]
  · rw [if_neg hl]
    by_cases hm : j < e.p6.len + (32 - e.p4.len)
    · rw [if_pos (by omega), if_pos hm]
    · rw [if_neg (by omega), if_neg hm, h.1.2 j (by omega) hj]

/-- C11: the results are addresses of the other prefix. -/
theorem xlat46_inside (e : Entry) (h : Valid e) (a : Addr4) : Mem6 e.p6 (xlat46With e a) := by
  intro i hi
  rw [xlat46_bits e h a i (by have := h.1.1; omega), if_pos hi]

theorem xlat64_inside (e : Entry) (h : Valid e) (a : Addr6) : Mem4 e.p4 (xlat64With e a) := by
  intro i hi
  rw [xlat64_bits e h a i (by have := h.2.1.1; omega), if_pos hi]

/-- C11: 4 to 6 to 4 is the identity. -/
theorem roundtrip46 (e : Entry) (h : Valid e) (a : Addr4) (hm : Mem4 e.p4 a) : xlat64With e (xlat46With e a) = a := by
  have h4 := h.2.1.1
  have h6 := h.1.1
  have hs := h.2.2
  apply BitVec.eq_of_getMsbD_eq
  intro j hj
  rw [xlat64_bits e h _ j hj]
  by_cases hl : j < e.p4.len
  · rw [if_pos hl, hm j hl]
  · rw [if_neg hl, xlat46_bits e h a _ (by omega), if_neg (by omega), if_pos (by omega)]
    congr 1; omega

/-- C11: 6 to 4 to 6 is the identity exactly if the bits that do not fit are zero. -/
theorem roundtrip64 (e : Entry) (h : Valid e) (a : Addr6) (hm : Mem6 e.p6 a) :
    xlat46With e (xlat64With e a) = a ↔
      ∀ j, e.p6.len + (32 - e.p4.len) ≤ j → j < 128 → a.getMsbD j = false := by
  have h4 := h.2.1.1
  have h6 := h.1.1
  have hs := h.2.2
  constructor
  · intro he j h1 h2
    rw [← he, xlat46_bits e h _ j h2, if_neg (by omega), if_neg (by omega)]
  · intro hz
    apply BitVec.eq_of_getMsbD_eq
    intro j hj
    rw [xlat46_bits e h _ j hj]
    by_cases hl : j < e.p6.len
    · rw [if_pos hl, hm j hl]
    · rw [if_neg hl]
      by_cases hl2 : j < e.p6.len + (32 - e.p4.len)
      · rw [if_pos hl2, xlat64_bits e h _ _ (by omega), if_neg (by omega)]
        congr 1; omega
      · rw [if_neg hl2, hz j (by omega) hj]

/-- Two IPv4 addresses of an entry never share their IPv6 address. -/
theorem xlat46_inj (e : Entry) (h : Valid e) (a b : Addr4) (ha : Mem4 e.p4 a) (hb : Mem4 e.p4 b)
    (he : xlat46With e a = xlat46With e b) : a = b := by
  rw [← roundtrip46 e h a ha, he, roundtrip46 e h b hb]

/-- C11, on the table: while the table keeps the entry the longest match for both addresses, the translations of the
table are each other's inverse. In particular always when there are no overlaps. -/
theorem table_roundtrip {t : Eamt} {M : List Entry} (h : Holds t M) (a : Addr4) (a6 : Addr6) (e e' : Entry) (a' : Addr4)
    (h1 : xlat46 t a = .ok (some (a6, e))) (h2 : xlat64 t a6 = .ok (some (a', e'))) (he : e' = e) : a' = a := by
  subst he
  obtain ⟨r, k1, k2⟩ := lookup4 h a
  obtain ⟨r', k3, k4⟩ := lookup6 h a6
  rw [k1] at h1
  rw [k3] at h2
  cases r with
  | none => simp at h1
  | some x =>
    cases r' with
    | none => simp at h2
    | some y =>
      simp only [Option.map_some, Outcome.ok.injEq, Option.some.injEq, Prod.mk.injEq] at h1 h2
      obtain ⟨rfl, rfl⟩ := h1
      obtain ⟨rfl, rfl⟩ := h2
      rcases k2 with ⟨k2, _⟩ | ⟨z, hz, hz', hm, _⟩
      · simp at k2
      · simp only [Option.some.injEq] at hz'
        subst hz'
        exact roundtrip46 _ (h.valid _ hz) a hm

/-- If no IPv6 prefixes overlap, the second lookup finds the entry of the first. -/
theorem table_reversible {t : Eamt} {M : List Entry} (h : Holds t M)
    (hd : ∀ x ∈ M, ∀ y ∈ M, ∀ b, Mem6 x.p6 b → Mem6 y.p6 b → x = y) (a : Addr4) (a6 : Addr6) (e : Entry)
    (h1 : xlat46 t a = .ok (some (a6, e))) : xlat64 t a6 = .ok (some (a, e)) := by
  obtain ⟨r, k1, k2⟩ := lookup4 h a
  rw [k1] at h1
  cases r with
  | none => simp at h1
  | some x =>
    simp only [Option.map_some, Outcome.ok.injEq, Option.some.injEq, Prod.mk.injEq] at h1
    obtain ⟨rfl, rfl⟩ := h1
    rcases k2 with ⟨k2, _⟩ | ⟨z, hz, hz', hm, _⟩
    · simp at k2
    · simp only [Option.some.injEq] at hz'
      subst hz'
      obtain ⟨r', k3, k4⟩ := lookup6 h (xlat46With x a)
      have hin := xlat46_inside x (h.valid x hz) a
      rcases k4 with ⟨_, k4⟩ | ⟨y, hy, rfl, k5, _⟩
      · exact absurd hin (k4 x hz)
      · have := hd y hy x hz _ k5 hin
        subst this
        rw [k3]
        simp [roundtrip46 y (h.valid y hz) a hm]

/-! The example of RFC 7757: 192.0.2.0/24 and 2001:db8:aaaa::/56. -/
private def ex : Entry := ⟨⟨0x20010db8aaaa00000000000000000000#128, 56⟩, ⟨0xC0000200#32, 24⟩⟩
example : Valid ex := (validate_iff _).1 (by decide +kernel)
example : Mem4 ex.p4 0xC0000207#32 := (prefix4_contains_correct _ _ (by decide)).1 (by decide +kernel)
example : xlat46With ex 0xC0000207#32 = 0x20010db8aaaa00070000000000000000#128 := by decide +kernel
example : xlat64With ex 0x20010db8aaaa00070000000000000001#128 = 0xC0000207#32 := by decide +kernel

end Jool.Eam
