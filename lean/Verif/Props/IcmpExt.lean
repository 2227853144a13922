import Verif.Model.IcmpExt

/-!
# C41: ICMP extensions of translated errors
-/

namespace Jool.IcmpExtSpec

/-- RFC 4884, seen from the receiver: an ICMP error with payload `p` and length
    field `f` (units of `unit` bytes) carries extension `e`.  The datagram
    part has at least 128 bytes, and the extension is the rest. -/
def Carries (unit : Nat) (p : List (BitVec 8)) (f : Nat) (e : List (BitVec 8)) : Prop :=
  0 < f ∧ f < 256 ∧ 128 ≤ f * unit ∧ f * unit ≤ p.length ∧ p.drop (f * unit) = e

/-- `d` is the beginning of `l`, perhaps followed by zeroes. -/
def PrefixPadded (d l : List (BitVec 8)) : Prop :=
  ∃ k n, d = l.take k ++ List.replicate n 0

end Jool.IcmpExtSpec

namespace Jool.IcmpExt
open IcmpExtSpec

theorem int_small {x : BitVec 64} (h : x.toNat < 2147483648) : int x = (x.toNat : Int) := by
  unfold int
  rw [BitVec.toInt_eq_toNat_of_lt]
  · rw [BitVec.toNat_setWidth, Nat.mod_eq_of_lt (by omega)]
  · rw [BitVec.toNat_setWidth, Nat.mod_eq_of_lt (by omega)]
    omega

theorem align_eq (x : BitVec 64) {b : Nat} (hb : b ≤ 3) : (align x b).toNat = x.toNat / 2 ^ b * 2 ^ b := by
  have h : align x b = (x >>> b) <<< b := by
    unfold align
    apply BitVec.eq_of_getLsbD_eq
    intro i hi
    simp only [BitVec.getLsbD_and, BitVec.getLsbD_shiftLeft, BitVec.getLsbD_allOnes,
      BitVec.getLsbD_ushiftRight]
    by_cases hib : i < b
    · simp [hib]
    · have e1 : i - b < 64 := by omega
      have e2 : b + (i - b) = i := by omega
      simp [hib, hi, e1, e2]
  rw [h, BitVec.toNat_shiftLeft, BitVec.toNat_ushiftRight, Nat.shiftRight_eq_div_pow,
    Nat.shiftLeft_eq, Nat.mod_eq_of_lt]
  exact Nat.lt_of_le_of_lt (Nat.div_mul_le_self _ _) x.isLt

theorem copyBits_ok {src : List Byte} {off n room : Nat} (h1 : off + n ≤ src.length) (h2 : n ≤ room) :
    copyBits src off (n : Int) room = Copy.ok ((src.drop off).take n) := by
  unfold copyBits
  have e : ((n : Int)).toNat = n := by omega
  rw [if_neg (by omega), e, if_neg (by omega), if_neg (by omega)]

/-- `fix_ie()` without overflows: the pieces, in order. -/
theorem fixIe_ext {ohl : Nat} {old inPay : List Byte} {ieo : Nat} {ipl pad iel : BitVec 64} {f : Nat}
    (ho : ohl < 65536) (h1 : ipl.toNat ≤ old.length) (h2 : ieo + iel.toNat = inPay.length)
    (h3 : 0 < iel.toNat) (hp : pad.toNat ≤ 65536)
    (hb : old.length < 1073741824) (hi : inPay.length < 536870912) :
    fixIe ohl old inPay ieo ipl pad iel f =
      Res.ok (old.take ipl.toNat ++ List.replicate pad.toNat 0#8 ++ inPay.drop ieo) f := by
  have ht : (BitVec.ofNat 64 ohl + ipl + pad + iel).toNat =
      ohl + ipl.toNat + pad.toNat + iel.toNat := by
    simp only [BitVec.toNat_add, BitVec.toNat_ofNat]
    omega
  unfold fixIe
  simp only
  rw [int_small (by rw [ht]; omega), ht, if_neg (by omega)]
  have hr : (((ohl + ipl.toNat + pad.toNat + iel.toNat : Nat) : Int)).toNat - ohl =
      ipl.toNat + pad.toNat + iel.toNat := by omega
  rw [hr, int_small (x := ipl) (by omega), copyBits_ok (by omega) (by omega)]
  simp only [List.drop_zero]
  have hl : (old.take ipl.toNat).length = ipl.toNat := by simp; omega
  have hpi : (int pad).toNat = pad.toNat := by rw [int_small (by omega)]; omega
  rw [if_neg (by intro h; rw [h] at h3; exact absurd h3 (by decide)), if_neg (by
    rw [hpi, hl, int_small (by omega)]; omega)]
  rw [hpi, hl, List.length_replicate, int_small (x := iel) (by omega),
    copyBits_ok (by omega) (by omega)]
  simp only
  have he : (inPay.drop ieo).take iel.toNat = inPay.drop ieo := List.take_of_length_le (by simp; omega)
  rw [he, if_pos (by simp; omega)]

theorem fixIe_noext {ohl : Nat} {old inPay : List Byte} {ieo : Nat} {ipl : BitVec 64} {f : Nat}
    (ho : ohl < 65536) (h1 : ipl.toNat ≤ old.length) (hb : old.length < 1073741824) :
    fixIe ohl old inPay ieo ipl 0#64 0#64 f = Res.ok (old.take ipl.toNat) f := by
  have ht : (BitVec.ofNat 64 ohl + ipl + 0#64 + 0#64).toNat = ohl + ipl.toNat := by
    simp only [BitVec.toNat_add, BitVec.toNat_ofNat]
    omega
  unfold fixIe
  simp only
  rw [int_small (by rw [ht]; omega), ht, if_neg (by omega)]
  have hr : (((ohl + ipl.toNat : Nat) : Int)).toNat - ohl = ipl.toNat := by omega
  rw [hr, int_small (x := ipl) (by omega), copyBits_ok (by omega) (by omega)]
  have hl : (old.take ipl.toNat).length = ipl.toNat := by simp; omega
  simp only [List.drop_zero, if_true]
  rw [if_pos hl]

/-- The sizes the callers use. -/
def Args.Ok (a : Args) (ohl : Nat) : Prop :=
  ohl + 128 ≤ a.max ∧ a.max ≤ 1280 ∧ 2 ≤ a.bits ∧ a.bits ≤ 3 ∧ a.max - ohl < 256 * 2 ^ a.bits

theorem min64_toNat (a b : BitVec 64) : (min64 a b).toNat = min a.toNat b.toNat := by
  unfold min64
  split <;> omega

/-- The extension is kept: it fits next to 128 bytes of datagram. -/
theorem handle_fits {a : Args} {ohl : Nat} (ha : a.Ok ohl) {ipl : Nat} {inPay old : List Byte}
    (h0 : 0 < ipl) (h1 : ipl < inPay.length) (hf : a.force = false)
    (hfit : ohl + 128 + (inPay.length - ipl) ≤ a.max)
    (hold : inPay.length - ipl ≤ old.length)
    (hb : old.length < 536870912) (hi : inPay.length < 536870912) :
    ∃ d f, handle a ipl inPay ohl old = Res.ok (d ++ inPay.drop ipl) f ∧
      PrefixPadded d (old.take (old.length - (inPay.length - ipl))) ∧
      Carries (2 ^ a.bits) (d ++ inPay.drop ipl) f (inPay.drop ipl) ∧
      ohl + (d ++ inPay.drop ipl).length ≤ a.max ∧
      (d.length = 128 ∨ d.length ≤ old.length - (inPay.length - ipl) ∧
        (old.length - (inPay.length - ipl) < d.length + 2 ^ a.bits ∨
         a.max < ohl + (d ++ inPay.drop ipl).length + 2 ^ a.bits)) := by
  obtain ⟨k1, k2, k3, k4, k5⟩ := ha
  have hmi : (BitVec.ofNat 64 a.max - (BitVec.ofNat 64 ohl + 128#64)).toNat = a.max - (ohl + 128) := by
    simp only [BitVec.toNat_sub, BitVec.toNat_add, BitVec.toNat_ofNat]
    omega
  have hii : (BitVec.ofNat 64 (inPay.length - ipl)).toNat = inPay.length - ipl := by
    simp only [BitVec.toNat_ofNat]; omega
  have hx : (min64 (BitVec.ofNat 64 (ohl + old.length)) (BitVec.ofNat 64 a.max)
      - BitVec.ofNat 64 (inPay.length - ipl) - BitVec.ofNat 64 ohl).toNat =
      min (ohl + old.length) a.max - (inPay.length - ipl) - ohl := by
    simp only [BitVec.toNat_sub, min64_toNat, BitVec.toNat_ofNat]
    omega
  unfold handle
  rw [if_neg (by omega), if_neg (by omega), if_neg (by omega)]
  simp only
  rw [if_neg (by rw [hmi, hii, hf]; simp; omega)]
  generalize ho : align (min64 (BitVec.ofNat 64 (ohl + old.length)) (BitVec.ofNat 64 a.max)
      - BitVec.ofNat 64 (inPay.length - ipl) - BitVec.ofNat 64 ohl) a.bits = o
  have hoN : o.toNat = (min (ohl + old.length) a.max - (inPay.length - ipl) - ohl) /
      2 ^ a.bits * 2 ^ a.bits := by rw [← ho, align_eq _ k4, hx]
  have hu : (2 ^ a.bits = 4 ∨ 2 ^ a.bits = 8) := by
    have : a.bits = 2 ∨ a.bits = 3 := by omega
    rcases this with h | h <;> simp [h]
  have hpad : ∃ pad : BitVec 64, (if o.toNat < 128 then 128#64 - o else 0#64) = pad ∧
      pad.toNat = 128 - o.toNat := by
    refine ⟨_, rfl, ?_⟩
    split
    · simp only [BitVec.toNat_sub, BitVec.toNat_ofNat]; omega
    · simp only [BitVec.toNat_ofNat]; omega
  obtain ⟨pad, hpe, hpN⟩ := hpad
  rw [hpe]
  have hsum : (o + pad).toNat = o.toNat + pad.toNat := by
    simp only [BitVec.toNat_add]
    omega
  have hfield : ((o + pad) >>> a.bits).toNat = (o.toNat + pad.toNat) / 2 ^ a.bits := by
    rw [BitVec.toNat_ushiftRight, Nat.shiftRight_eq_div_pow, hsum]
  have hol2 : o.toNat ≤ min (ohl + old.length) a.max - (inPay.length - ipl) - ohl := by
    rw [hoN]
    exact Nat.div_mul_le_self _ _
  have hole : o.toNat ≤ old.length - (inPay.length - ipl) := by
    omega
  have hfe := fixIe_ext (ohl := ohl) (old := old) (inPay := inPay) (ieo := ipl) (ipl := o) (pad := pad)
    (iel := BitVec.ofNat 64 (inPay.length - ipl)) (f := ((o + pad) >>> a.bits).toNat)
    (by omega) (by omega) (by omega) (by omega) (by omega) (by omega) (by omega)
  have hmul : (o.toNat + pad.toNat) / 2 ^ a.bits * 2 ^ a.bits = o.toNat + pad.toNat := by
    rcases hu with h | h <;> rw [h] at hoN ⊢ <;> omega
  have hd : (List.take o.toNat old ++ List.replicate pad.toNat 0#8).length = o.toNat + pad.toNat := by
    simp; omega
  have hd2 : (List.take o.toNat old ++ List.replicate pad.toNat 0#8 ++ List.drop ipl inPay).length =
      o.toNat + pad.toNat + (inPay.length - ipl) := by
    rw [List.length_append, hd, List.length_drop]
  refine ⟨old.take o.toNat ++ List.replicate pad.toNat 0#8, _, hfe, ?_, ?_, ?_, ?_⟩
  · refine ⟨o.toNat, pad.toNat, ?_⟩
    rw [List.take_take]
    congr 2
    omega
  · rw [hfield]
    refine ⟨?_, ?_, ?_, ?_, ?_⟩
    · rcases hu with h | h <;> rw [h] at hmul ⊢ <;> omega
    · rcases hu with h | h <;> rw [h] at hmul k5 ⊢ <;> omega
    · rw [hmul]; omega
    · rw [hmul, List.length_append, hd]; omega
    · rw [hmul, ← hd, List.drop_left]
  · rw [hd2]
    omega
  · rw [hd2, hd]
    rcases hu with h | h <;> rw [h] at hoN ⊢ <;> omega

/-- The extension is removed: it does not fit, or the new error has none. -/
theorem handle_removed {a : Args} {ohl : Nat} (ha : a.Ok ohl) {ipl : Nat} {inPay old : List Byte}
    (h0 : 0 < ipl) (h1 : ipl < inPay.length)
    (hfit : a.force = true ∨ a.max < ohl + 128 + (inPay.length - ipl))
    (hold : inPay.length - ipl ≤ old.length)
    (hb : old.length < 536870912) (hi : inPay.length < 536870912) :
    handle a ipl inPay ohl old =
      Res.ok ((old.take (old.length - (inPay.length - ipl))).take (a.max - ohl)) 0 := by
  obtain ⟨k1, k2, k3, k4, k5⟩ := ha
  have hmi : (BitVec.ofNat 64 a.max - (BitVec.ofNat 64 ohl + 128#64)).toNat = a.max - (ohl + 128) := by
    simp only [BitVec.toNat_sub, BitVec.toNat_add, BitVec.toNat_ofNat]
    omega
  have hii : (BitVec.ofNat 64 (inPay.length - ipl)).toNat = inPay.length - ipl := by
    simp only [BitVec.toNat_ofNat]; omega
  have hx : (min64 (BitVec.ofNat 64 (ohl + old.length) - BitVec.ofNat 64 (inPay.length - ipl))
      (BitVec.ofNat 64 a.max) - BitVec.ofNat 64 ohl).toNat =
      min (a.max - ohl) (old.length - (inPay.length - ipl)) := by
    simp only [BitVec.toNat_sub, min64_toNat, BitVec.toNat_ofNat]
    omega
  unfold handle
  rw [if_neg (by omega), if_neg (by omega), if_neg (by omega)]
  simp only
  rw [if_pos (by
    rw [hmi, hii]
    rcases hfit with h | h
    · exact Or.inl (by rw [h])
    · exact Or.inr (by omega))]
  rw [fixIe_noext (by omega) (by omega) (by omega), hx, List.take_take]

theorem handle_none {a : Args} {ipl ohl : Nat} {inPay old : List Byte}
    (h : ipl = 0 ∨ ipl = inPay.length) : handle a ipl inPay ohl old = Res.ok old 0 := by
  unfold handle
  rcases h with h | h
  · rw [if_pos h]
  · by_cases h0 : ipl = 0
    · rw [if_pos h0]
    · rw [if_neg h0, if_pos h]

theorem handle_big {a : Args} {ipl ohl : Nat} {inPay old : List Byte}
    (h : inPay.length < ipl) : handle a ipl inPay ohl old = Res.drop := by
  unfold handle
  rw [if_neg (by omega), if_neg (by omega), if_pos h]

/-- What a translated error with length field `f` (in bytes: `ipl`), payload
    `inPay`, and translated payload `old` must look like. -/
inductive Good (unit max ohl : Nat) (force : Bool) (ipl : Nat) (inPay old : List Byte) : Res → Prop
  /-- The length field points beyond the packet. -/
  | big : inPay.length < ipl → Good unit max ohl force ipl inPay old Res.drop
  /-- There is no extension. -/
  | plain : ipl = 0 ∨ ipl = inPay.length →
      Good unit max ohl force ipl inPay old (Res.ok (old.take (max - ohl)) 0)
  /-- There is one, but the new error cannot have it, or it does not fit. -/
  | removed : 0 < ipl → ipl < inPay.length →
      force = true ∨ max < ohl + 128 + (inPay.length - ipl) →
      Good unit max ohl force ipl inPay old
        (Res.ok ((old.take (old.length - (inPay.length - ipl))).take (max - ohl)) 0)
  /-- There is one: it is carried over unchanged, behind as much of the
      translated datagram as fits and at least 128 bytes. -/
  | kept (d : List Byte) (f : Nat) : 0 < ipl → ipl < inPay.length → force = false →
      ohl + 128 + (inPay.length - ipl) ≤ max →
      PrefixPadded d (old.take (old.length - (inPay.length - ipl))) →
      Carries unit (d ++ inPay.drop ipl) f (inPay.drop ipl) →
      ohl + (d ++ inPay.drop ipl).length ≤ max →
      (d.length = 128 ∨ d.length ≤ old.length - (inPay.length - ipl) ∧
        (old.length - (inPay.length - ipl) < d.length + unit ∨
         max < ohl + (d ++ inPay.drop ipl).length + unit)) →
      Good unit max ohl force ipl inPay old (Res.ok (d ++ inPay.drop ipl) f)

theorem good_of {a : Args} {ohl : Nat} (ha : a.Ok ohl) {ipl : Nat} {inPay old : List Byte}
    (hold : 0 < ipl → ipl < inPay.length → inPay.length - ipl ≤ old.length)
    (hb : old.length < 536870912) (hi : inPay.length < 536870912) :
    Good (2 ^ a.bits) a.max ohl a.force ipl inPay old
      (trim a.max ohl (store8 (handle a ipl inPay ohl old))) := by
  by_cases hp : ipl = 0 ∨ ipl = inPay.length
  · rw [handle_none hp]
    exact Good.plain hp
  · by_cases hbig : inPay.length < ipl
    · rw [handle_big hbig]
      exact Good.big hbig
    · have h0 : 0 < ipl := by omega
      have h1 : ipl < inPay.length := by omega
      by_cases hr : a.force = true ∨ a.max < ohl + 128 + (inPay.length - ipl)
      · rw [handle_removed ha h0 h1 hr (hold h0 h1) hb hi]
        have e : trim a.max ohl (store8 (Res.ok (List.take (a.max - ohl)
            (List.take (old.length - (inPay.length - ipl)) old)) 0)) =
            Res.ok (List.take (a.max - ohl)
            (List.take (old.length - (inPay.length - ipl)) old)) 0 := by
          simp [trim, store8, List.take_take]
        rw [e]
        exact Good.removed h0 h1 hr
      · have hf : a.force = false := by
          cases h : a.force
          · rfl
          · exact absurd (Or.inl h) hr
        obtain ⟨d, f, e, g1, g2, g3, g4⟩ := handle_fits ha h0 h1 hf (by omega) (hold h0 h1) hb hi
        rw [e]
        have e2 : trim a.max ohl (store8 (Res.ok (d ++ inPay.drop ipl) f)) =
            Res.ok (d ++ inPay.drop ipl) f := by
          simp only [trim, store8]
          rw [Nat.mod_eq_of_lt g2.2.1, List.take_of_length_le (by omega)]
        rw [e2]
        exact Good.kept d f h0 h1 hf (by omega) g1 g2 g3 g4

/-- **C41.** 6→4.  `old` is the translated datagram followed by the extension:
    the hypothesis says that the length field covers at least what the nested
    IPv6 headers shrank by. -/
theorem ext64_partial (field : BitVec 8) {inPay old : List Byte}
    (hold : 0 < field.toNat * 8 → field.toNat * 8 < inPay.length →
      inPay.length - field.toNat * 8 ≤ old.length)
    (hb : old.length < 536870912) (hi : inPay.length < 536870912) :
    Good 4 576 28 false (field.toNat * 8) inPay old (ext64 field inPay old) :=
  good_of (a := ⟨576, 2, false⟩) (ohl := 28) (by unfold Args.Ok; decide) hold hb hi

/-- Which ICMPv6 errors cannot have an extension although the ICMPv4 error can:
    Parameter Problem and Packet Too Big (RFC 4884 section 4). -/
theorem shouldRemove_spec (t c : BitVec 8) : shouldRemove t c = true ↔
    (t = 12#8 ∨ t = 3#8 ∧ (c = 2#8 ∨ c = 4#8)) := by
  unfold shouldRemove
  split
  · simp_all
  · split
    · simp_all
    · split
      · simp_all
      · simp_all

/-- **C41.** 4→6. -/
theorem ext46_partial (t c field : BitVec 8) {inPay old : List Byte}
    (hold : 0 < field.toNat * 4 → field.toNat * 4 < inPay.length →
      inPay.length - field.toNat * 4 ≤ old.length)
    (hb : old.length < 536870912) (hi : inPay.length < 536870912) :
    Good 8 1280 48 (shouldRemove t c) (field.toNat * 4) inPay old (ext46 t c field inPay old) :=
  good_of (a := ⟨1280, 3, shouldRemove t c⟩) (ohl := 48) (by unfold Args.Ok; simp) hold hb hi

/-- In particular, no error exceeds its protocol's limit and every length field
    that is written says where an extension starts. -/
theorem ext64_bounds_partial (field : BitVec 8) {inPay old p : List Byte} {f : Nat}
    (hold : 0 < field.toNat * 8 → field.toNat * 8 < inPay.length →
      inPay.length - field.toNat * 8 ≤ old.length)
    (hb : old.length < 536870912) (hi : inPay.length < 536870912)
    (h : ext64 field inPay old = Res.ok p f) :
    28 + p.length ≤ 576 ∧ (f ≠ 0 → Carries 4 p f (inPay.drop (field.toNat * 8))) := by
  have g := ext64_partial field hold hb hi
  rw [h] at g
  cases g with
  | plain _ => exact ⟨by simp; omega, fun h => absurd rfl h⟩
  | removed _ _ _ => exact ⟨by simp; omega, fun h => absurd rfl h⟩
  | kept d f _ _ _ _ _ h6 h7 _ => exact ⟨h7, fun _ => h6⟩

theorem ext46_bounds_partial (t c field : BitVec 8) {inPay old p : List Byte} {f : Nat}
    (hold : 0 < field.toNat * 4 → field.toNat * 4 < inPay.length →
      inPay.length - field.toNat * 4 ≤ old.length)
    (hb : old.length < 536870912) (hi : inPay.length < 536870912)
    (h : ext46 t c field inPay old = Res.ok p f) :
    48 + p.length ≤ 1280 ∧ (f ≠ 0 → Carries 8 p f (inPay.drop (field.toNat * 4))) := by
  have g := ext46_partial t c field hold hb hi
  rw [h] at g
  cases g with
  | plain _ => exact ⟨by simp; omega, fun h => absurd rfl h⟩
  | removed _ _ _ => exact ⟨by simp; omega, fun h => absurd rfl h⟩
  | kept d f _ _ _ _ _ h6 h7 _ => exact ⟨h7, fun _ => h6⟩

/-- **C41, defect.** 6→4: an ICMPv6 error whose length field says 8 bytes, with
    a nested packet of 40 + 8 bytes (which becomes 20 + 8).  The outgoing
    length underflows, and the copy runs off the buffers. -/
theorem ext64_underflow : ∃ inPay old : List Byte, inPay.length = 48 ∧ old.length = 28 ∧
    ext64 1#8 inPay old = Res.ub :=
  ⟨List.replicate 48 0#8, List.replicate 28 0#8, rfl, rfl, by decide +kernel⟩

/-- 4→6: the same with a nested header of 60 bytes (40 bytes of options), which
    becomes one of 40. -/
theorem ext46_underflow : ∃ inPay old : List Byte, inPay.length = 68 ∧ old.length = 48 ∧
    ext46 11#8 0#8 1#8 inPay old = Res.ub :=
  ⟨List.replicate 68 0#8, List.replicate 48 0#8, rfl, rfl, by decide +kernel⟩

/-- An extension of 8 bytes after 16 · 8 bytes of datagram survives: the
    hypotheses of `ext64_partial` are met. -/
example : ext64 16#8 (List.replicate 128 1#8 ++ List.replicate 8 2#8)
    (List.replicate 108 1#8 ++ List.replicate 8 2#8) =
    Res.ok (List.replicate 108 1#8 ++ List.replicate 20 0#8 ++ List.replicate 8 2#8) 32 := by
  decide +kernel

end Jool.IcmpExt
