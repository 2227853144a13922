import Verif.Model.RtrieKey
import Verif.Lemmas.Rtrie
/-
C08: the byte-wise comparison of keys is the bit-wise one, and reads only the bytes that the keys have.
-/
namespace Jool.RtrieKey
open Jool.Rtrie (lcp)

/-- The bits of a byte, the most significant first. -/
def byteBits (b : BitVec 8) : List Bool := (List.range 8).map b.getMsbD

def bitsOf (l : List (BitVec 8)) : List Bool := l.flatMap byteBits

/-- The key that a structure stands for. -/
def BKey.bits (k : BKey) : List Bool := (bitsOf k.bytes).take k.len

/-- The pointer of the key leads to all of the bytes that its length announces. -/
def BKey.Ok (k : BKey) : Prop := k.len ≤ 8 * k.bytes.length

theorem byteBits_length (b : BitVec 8) : (byteBits b).length = 8 := by simp [byteBits]

theorem byteBits_inj {x y : BitVec 8} (h : byteBits x = byteBits y) : x = y := by
  apply BitVec.eq_of_getMsbD_eq
  intro i hi
  have := congrArg (fun l => l[i]?) h
  simpa [byteBits, hi] using this

theorem getBit_ne (x y : BitVec 8) (i : Nat) (hi : i < 8) : getBit x i ≠ getBit y i ↔ x.getMsbD i ≠ y.getMsbD i := by
  have : ∀ z : BitVec 8, getBit z i = if z.getMsbD i then 1#8 else 0#8 := by
    intro z
    apply BitVec.eq_of_getLsbD_eq
    intro j hj
    unfold getBit
    rw [BitVec.getLsbD_and, BitVec.getLsbD_ushiftRight, BitVec.getLsbD_one]
    simp only [BitVec.getMsbD, hi, decide_true, Bool.true_and]
    by_cases hj0 : j = 0
    · subst hj0
      have e : 8 - 1 - i = 7 - i + 0 := by omega
      rw [e]
      cases h : z.getLsbD (7 - i + 0) <;> simp
    · have : ¬ (0 = j) := fun e => hj0 e.symm
      cases z.getLsbD (8 - 1 - i) <;> simp [hj0, BitVec.getLsbD_one]
  rw [this x, this y]
  cases x.getMsbD i <;> cases y.getMsbD i <;> simp

theorem byteBits_drop (x : BitVec 8) (i : Nat) (hi : i < 8) :
    (byteBits x).drop i = x.getMsbD i :: (byteBits x).drop (i + 1) := by
  rw [List.drop_eq_getElem_cons (by rw [byteBits_length]; exact hi)]
  simp [byteBits]

theorem bitLoop_eq (x y : BitVec 8) (i n : Nat) (h : i + n ≤ 8) :
    bitLoop x y i n = lcp (((byteBits x).drop i).take n) (((byteBits y).drop i).take n) := by
  induction n generalizing i with
  | zero => simp [bitLoop, lcp]
  | succ n ih =>
    rw [bitLoop, byteBits_drop x i (by omega), byteBits_drop y i (by omega)]
    simp only [List.take_succ_cons, lcp]
    by_cases hc : x.getMsbD i = y.getMsbD i
    · rw [if_neg (by rw [getBit_ne x y i (by omega)]; simpa using hc), if_pos hc, ih (i + 1) (by omega)]
    · rw [if_pos ((getBit_ne x y i (by omega)).2 hc), if_neg hc]

theorem lcp_append_same (a x y : List Bool) : lcp (a ++ x) (a ++ y) = a.length + lcp x y := by
  induction a with
  | nil => simp
  | cons b a ih => simp only [List.cons_append, lcp, if_true, ih, List.length_cons]; omega

theorem lcp_append_ne (a b x y : List Bool) (hl : a.length = b.length) (hne : a ≠ b) :
    lcp (a ++ x) (b ++ y) = lcp a b := by
  induction a generalizing b with
  | nil => cases b with
    | nil => exact absurd rfl hne
    | cons => simp at hl
  | cons u a ih =>
    cases b with
    | nil => simp at hl
    | cons v b =>
      simp only [List.cons_append, lcp]
      by_cases h : u = v
      · subst h
        rw [if_pos rfl, if_pos rfl, ih b (by simpa using hl) (fun e => hne (by rw [e]))]
      · rw [if_neg h, if_neg h]

theorem matchLoop_eq (b1 b2 : List (BitVec 8)) (n bits : Nat) (hb : bits < 8) (h1 : 8 * n + bits ≤ 8 * b1.length)
    (h2 : 8 * n + bits ≤ 8 * b2.length) :
    matchLoop b1 b2 n bits = .ok (lcp ((bitsOf b1).take (8 * n + bits)) ((bitsOf b2).take (8 * n + bits))) := by
  induction n generalizing b1 b2 with
  | zero =>
    rw [matchLoop.eq_def]
    by_cases h0 : bits = 0
    · subst h0; simp [lcp]
    · cases b1 with
      | nil => simp at h1; omega
      | cons x xs =>
        cases b2 with
        | nil => simp at h2; omega
        | cons y ys =>
          simp only [h0, if_false, bitsOf, List.flatMap_cons]
          rw [bitLoop_eq x y 0 bits (by omega)]
          simp only [Nat.mul_zero, Nat.zero_add, List.drop_zero]
          rw [List.take_append_of_le_length (by rw [byteBits_length]; omega),
            List.take_append_of_le_length (by rw [byteBits_length]; omega)]
  | succ n ih =>
    cases b1 with
    | nil => simp at h1
    | cons x xs =>
      cases b2 with
      | nil => simp at h2
      | cons y ys =>
        simp only [List.length_cons] at h1 h2
        rw [matchLoop]
        have e : 8 * (n + 1) + bits = 8 + (8 * n + bits) := by omega
        simp only [bitsOf, List.flatMap_cons]
        have ht : ∀ (z : BitVec 8) (r : List Bool), (byteBits z ++ r).take (8 + (8 * n + bits)) =
            byteBits z ++ r.take (8 * n + bits) := by
          intro z r
          rw [List.take_append, byteBits_length, List.take_of_length_le (by rw [byteBits_length]; omega)]
          congr 2; omega
        rw [e, ht, ht]
        by_cases hxy : x = y
        · subst hxy
          rw [if_neg (by simp), ih xs ys (by omega) (by omega), lcp_append_same, byteBits_length]
          simp only [Outcome.map, bitsOf]
          congr 1; omega
        · rw [if_pos hxy, lcp_append_ne _ _ _ _ (by rw [byteBits_length, byteBits_length])
            (fun h => hxy (byteBits_inj h)), bitLoop_eq x y 0 8 (by omega)]
          simp only [List.drop_zero]
          rw [List.take_of_length_le (by rw [byteBits_length]; omega),
            List.take_of_length_le (by rw [byteBits_length]; omega)]

theorem keyMatch'_eq (k1 k2 : BKey) (bits : Nat) (h1 : bits ≤ 8 * k1.bytes.length) (h2 : bits ≤ 8 * k2.bytes.length) :
    keyMatch' k1 k2 bits = .ok (lcp ((bitsOf k1.bytes).take bits) ((bitsOf k2.bytes).take bits)) := by
  unfold keyMatch'
  have hd : bits >>> 3 = bits / 8 := by rw [Nat.shiftRight_eq_div_pow]
  have hm : bits &&& 7 = bits % 8 := by
    have := Nat.and_two_pow_sub_one_eq_mod bits 3
    simpa using this
  rw [hd, hm]
  have e : 8 * (bits / 8) + bits % 8 = bits := by omega
  have := matchLoop_eq k1.bytes k2.bytes (bits / 8) (bits % 8) (by omega) (by omega) (by omega)
  rw [e] at this
  exact this

theorem lcp_take_min (a b : List Bool) (m n : Nat) :
    lcp (a.take (min m n)) (b.take (min m n)) = lcp (a.take m) (b.take n) := by
  induction a generalizing b m n with
  | nil => simp [lcp]
  | cons x a ih =>
    cases b with
    | nil => cases m <;> cases n <;> simp [lcp]
    | cons y b =>
      cases m with
      | zero => simp [lcp]
      | succ m =>
        cases n with
        | zero => simp [lcp]
        | succ n =>
          rw [Nat.succ_min_succ]
          simp only [List.take_succ_cons, lcp, ih]

/-- C08: `key_match` counts the leading bits in common, and stays within both keys. -/
theorem keyMatch_eq (k1 k2 : BKey) (h1 : k1.Ok) (h2 : k2.Ok) : keyMatch k1 k2 = .ok (lcp k1.bits k2.bits) := by
  unfold keyMatch BKey.bits
  unfold BKey.Ok at h1 h2
  rw [keyMatch'_eq _ _ _ (by omega) (by omega), lcp_take_min]

theorem bitsOf_length (l : List (BitVec 8)) : (bitsOf l).length = 8 * l.length := by
  induction l with
  | nil => rfl
  | cons x l ih => simp only [bitsOf, List.flatMap_cons, List.length_append, byteBits_length, List.length_cons]
                   simp only [bitsOf] at ih; rw [ih]; omega

theorem bits_length (k : BKey) (h : k.Ok) : k.bits.length = k.len := by
  unfold BKey.bits
  rw [List.length_take, bitsOf_length]
  unfold BKey.Ok at h
  omega

/-- C08: `key_contains` tells whether the first key is a prefix of the second. -/
theorem keyContains_eq (k1 k2 : BKey) (h1 : k1.Ok) (h2 : k2.Ok) :
    ∃ b, keyContains k1 k2 = .ok b ∧ (b = true ↔ k1.bits <+: k2.bits) := by
  unfold keyContains
  split
  · rename_i hle
    unfold BKey.Ok at h1 h2
    rw [keyMatch'_eq _ _ _ h1 (by omega)]
    refine ⟨_, rfl, ?_⟩
    have hmin : min k1.len k2.len = k1.len := by omega
    have e := lcp_take_min (bitsOf k1.bytes) (bitsOf k2.bytes) k1.len k2.len
    rw [hmin] at e
    rw [e, beq_iff_eq]
    have := (Rtrie.le_iff_lcp k1.bits k2.bits).symm
    rw [bits_length k1 h1] at this
    exact this
  · rename_i hle
    refine ⟨false, rfl, by simp, ?_⟩
    intro h
    have := h.length_le
    rw [bits_length _ h1, bits_length _ h2] at this
    omega

/-- C08: `key_equals` tells whether the keys are the same. -/
theorem keyEquals_eq (k1 k2 : BKey) (h1 : k1.Ok) (h2 : k2.Ok) :
    ∃ b, keyEquals k1 k2 = .ok b ∧ (b = true ↔ k1.bits = k2.bits) := by
  obtain ⟨c, hc, hc'⟩ := keyContains_eq k1 k2 h1 h2
  unfold keyContains at hc
  unfold keyEquals
  by_cases he : k1.len = k2.len
  · rw [if_pos (by omega)] at hc
    rw [if_pos he]
    refine ⟨c, hc, hc'.trans ⟨fun h => h.eq_of_length ?_, fun h => h ▸ List.prefix_refl _⟩⟩
    rw [bits_length _ h1, bits_length _ h2, he]
  · rw [if_neg he]
    refine ⟨false, rfl, by simp, ?_⟩
    intro h
    have := congrArg List.length h
    rw [bits_length _ h1, bits_length _ h2] at this
    exact absurd this he

/-- C08: the key of an inner node has all of its bytes, and they are the right ones. -/
theorem inodeKey_eq (k : BKey) (h : k.Ok) : ∃ k', inodeKey k = .ok k' ∧ k'.Ok ∧ k'.bits = k.bits := by
  unfold BKey.Ok at h
  have hb : bitsToBytes k.len = (k.len + 7) / 8 := by
    unfold bitsToBytes
    split
    · rw [Nat.shiftRight_eq_div_pow]; omega
    · omega
  unfold inodeKey
  rw [hb, if_pos (by omega)]
  refine ⟨_, rfl, ?_, ?_⟩
  · unfold BKey.Ok
    simp only [List.length_take]
    omega
  · unfold BKey.bits
    dsimp only
    have : ∀ (l : List (BitVec 8)) (n : Nat), bitsOf (l.take n) = (bitsOf l).take (8 * n) := by
      intro l
      induction l with
      | nil => intro n; simp [bitsOf]
      | cons x l ih =>
        intro n
        cases n with
        | zero => simp [bitsOf]
        | succ n =>
          have := ih n
          simp only [bitsOf, List.take_succ_cons, List.flatMap_cons] at this ⊢
          rw [this, List.take_append, byteBits_length, List.take_of_length_le (l := byteBits x) (by rw [byteBits_length]; omega)]
          congr 2
    rw [this, List.take_take]
    congr 1
    omega

/-! ## Cases -/

/-- 192.0.2.128/25 contains 192.0.2.192/26, whose key is read from a four-byte address. -/
example : BKey.Ok ⟨[192, 0, 2, 128], 25⟩ ∧ BKey.Ok ⟨[192, 0, 2, 192], 26⟩ ∧
    keyContains ⟨[192, 0, 2, 128], 25⟩ ⟨[192, 0, 2, 192], 26⟩ = .ok true ∧
    keyMatch ⟨[192, 0, 2, 128], 25⟩ ⟨[192, 0, 3, 192], 26⟩ = .ok 23 := by
  refine ⟨by unfold BKey.Ok; decide, by unfold BKey.Ok; decide, by decide, by decide⟩

/-- A key without all of its bytes would be read out of bounds. -/
example : keyMatch ⟨[192, 0], 25⟩ ⟨[192, 0, 2, 192], 26⟩ = .ub .outOfBounds := by decide

end Jool.RtrieKey
