import Verif.Lemmas.Csum

/-!
# C38: checksums stay valid, and corruption stays visible

The specification is RFC 1071: add the big-endian 16-bit words with end-around
carry; the packet is intact when the result is all ones.
-/

namespace Jool.CsumSpec

/-- One's complement addition of 16-bit numbers: end-around carry (RFC 1071). -/
def ocAdd (a b : Nat) : Nat := if a + b > 0xFFFF then a + b - 0xFFFF else a + b

/-- One's complement sum of the words in network byte order. -/
def ocSum : List (BitVec 8) → Nat
  | [] => 0
  | [a] => a.toNat * 256
  | a :: b :: t => ocAdd (a.toNat * 256 + b.toNat) (ocSum t)

/-- RFC 1071: "If the result is all 1 bits, the check succeeds." -/
def Valid (l : List (BitVec 8)) : Prop := ocSum l = 0xFFFF

instance (l : List (BitVec 8)) : Decidable (Valid l) := by unfold Valid; infer_instance

/-- `n` bytes in network order. -/
def bytes (n v : Nat) : List (BitVec 8) :=
  (List.range n).reverse.map fun i => BitVec.ofNat 8 (v / 256 ^ i)

/-- IPv4 pseudo-header (RFC 793, RFC 768). -/
def ph4 (s d : BitVec 32) (len : Nat) (proto : BitVec 8) : List (BitVec 8) :=
  bytes 4 s.toNat ++ bytes 4 d.toNat ++ [0, proto] ++ bytes 2 len

/-- IPv6 pseudo-header (RFC 8200 section 8.1). -/
def ph6 (s d : BitVec 128) (len : Nat) (proto : BitVec 8) : List (BitVec 8) :=
  bytes 16 s.toNat ++ bytes 16 d.toNat ++ bytes 4 len ++ [0, 0, 0, proto]

end Jool.CsumSpec

namespace Jool.Csum
open CsumSpec

theorem ocAdd_le {a b : Nat} (ha : a ≤ 0xFFFF) (hb : b ≤ 0xFFFF) : ocAdd a b ≤ 0xFFFF := by
  unfold ocAdd; split <;> omega

theorem ocSum_le : ∀ l, ocSum l ≤ 0xFFFF
  | [] => by simp [ocSum]
  | [a] => by have := a.isLt; simp only [ocSum]; omega
  | a :: b :: t => by
    have h1 := a.isLt
    have h2 := b.isLt
    exact ocAdd_le (by omega) (ocSum_le t)

theorem ocAdd_cast (a b : Nat) : ((ocAdd a b : Nat) : Z) = (a : Z) + (b : Z) := by
  rw [← Nat.cast_add]
  apply cast_of_mod
  unfold ocAdd
  split <;> omega

theorem ocSum_cast : ∀ l, ((ocSum l : Nat) : Z) = S false l
  | [] => by simp [ocSum, S_nil]
  | [a] => by simp [ocSum, S, wsum, w16]
  | a :: b :: t => by
    rw [S_cons2, ← ocSum_cast t]
    simp only [ocSum, ocAdd_cast, w16, Bool.false_eq_true, if_false]

theorem ocSum_zero : ∀ l, ocSum l = 0 ↔ allZero l
  | [] => by simp [ocSum, allZero]
  | [a] => by
    simp only [ocSum, allZero, List.mem_singleton, forall_eq]
    constructor
    · intro h
      apply BitVec.eq_of_toNat_eq
      simp only [BitVec.toNat_ofNat]
      omega
    · rintro rfl
      rfl
  | a :: b :: t => by
    have ih := ocSum_zero t
    have h1 := a.isLt
    have h2 := b.isLt
    have h3 := ocSum_le t
    have e : ocSum (a :: b :: t) = 0 ↔ a.toNat = 0 ∧ b.toNat = 0 ∧ ocSum t = 0 := by
      simp only [ocSum, ocAdd]
      constructor
      · intro h
        split at h <;> omega
      · rintro ⟨h1, h2, h3⟩
        simp [h1, h2, h3]
    rw [e, ih]
    simp only [allZero, List.mem_cons, forall_eq_or_imp]
    have z : ∀ x : Byte, x.toNat = 0 ↔ x = 0#8 := fun x =>
      ⟨fun h => BitVec.eq_of_toNat_eq (by simpa using h), fun h => by rw [h]; rfl⟩
    rw [z, z]

/-- Valid means: the sum is zero modulo 65535, and something was summed. -/
theorem valid_iff (le : Bool) (l : List Byte) : Valid l ↔ S le l = 0 ∧ ¬ allZero l := by
  unfold Valid
  rw [S_zero le, ← ocSum_zero, ← ocSum_cast, cast_zero]
  have := ocSum_le l
  omega

theorem bytes2 (v : BitVec 16) : bytes 2 v.toNat = be16 v := by
  have := v.isLt
  have h1 : bytes 2 v.toNat = [BitVec.ofNat 8 (v.toNat / 256 ^ 1), BitVec.ofNat 8 (v.toNat / 256 ^ 0)] := rfl
  rw [h1]
  unfold be16
  congr 1
  · apply BitVec.eq_of_toNat_eq
    simp [BitVec.extractLsb'_toNat, Nat.shiftRight_eq_div_pow]
  · congr 1
    apply BitVec.eq_of_toNat_eq
    simp [BitVec.extractLsb'_toNat]

theorem byte_at {n : Nat} (v : BitVec n) (i : Nat) :
    BitVec.ofNat 8 (v.toNat / 256 ^ i) = v.extractLsb' (8 * i) 8 := by
  apply BitVec.eq_of_toNat_eq
  simp only [BitVec.toNat_ofNat, BitVec.extractLsb'_toNat, Nat.shiftRight_eq_div_pow, Nat.pow_mul,
    Nat.reducePow]

theorem ext_ext {n : Nat} (v : BitVec n) (a b c d : Nat) (h : c + d ≤ b) :
    (v.extractLsb' a b).extractLsb' c d = v.extractLsb' (a + c) d := by
  apply BitVec.eq_of_getLsbD_eq
  intro i hi
  simp only [BitVec.getLsbD_extractLsb', hi, decide_true, Bool.true_and]
  have : c + i < b := by omega
  simp [this, Nat.add_assoc]

theorem bytes4 (v : BitVec 32) : bytes 4 v.toNat = be32 v := by
  have h1 : bytes 4 v.toNat = [BitVec.ofNat 8 (v.toNat / 256 ^ 3), BitVec.ofNat 8 (v.toNat / 256 ^ 2),
    BitVec.ofNat 8 (v.toNat / 256 ^ 1), BitVec.ofNat 8 (v.toNat / 256 ^ 0)] := rfl
  rw [h1]
  simp only [byte_at, be32, be16, List.cons_append, List.nil_append]
  rw [ext_ext _ _ _ _ _ (by omega), ext_ext _ _ _ _ _ (by omega), ext_ext _ _ _ _ _ (by omega),
    ext_ext _ _ _ _ _ (by omega)]

theorem bytes16 (v : BitVec 128) : bytes 16 v.toNat = be128 v := by
  have h1 : bytes 16 v.toNat = [BitVec.ofNat 8 (v.toNat / 256 ^ 15), BitVec.ofNat 8 (v.toNat / 256 ^ 14),
    BitVec.ofNat 8 (v.toNat / 256 ^ 13), BitVec.ofNat 8 (v.toNat / 256 ^ 12),
    BitVec.ofNat 8 (v.toNat / 256 ^ 11), BitVec.ofNat 8 (v.toNat / 256 ^ 10),
    BitVec.ofNat 8 (v.toNat / 256 ^ 9), BitVec.ofNat 8 (v.toNat / 256 ^ 8),
    BitVec.ofNat 8 (v.toNat / 256 ^ 7), BitVec.ofNat 8 (v.toNat / 256 ^ 6),
    BitVec.ofNat 8 (v.toNat / 256 ^ 5), BitVec.ofNat 8 (v.toNat / 256 ^ 4),
    BitVec.ofNat 8 (v.toNat / 256 ^ 3), BitVec.ofNat 8 (v.toNat / 256 ^ 2),
    BitVec.ofNat 8 (v.toNat / 256 ^ 1), BitVec.ofNat 8 (v.toNat / 256 ^ 0)] := rfl
  rw [h1]
  simp only [byte_at, be128, be32, be16, List.cons_append, List.nil_append]
  simp (disch := omega) only [ext_ext]

theorem bytes_mod (n v : Nat) : bytes n (v % 256 ^ n) = bytes n v := by
  unfold bytes
  apply List.map_congr_left
  intro i hi
  have hi : i < n := by simpa using hi
  apply BitVec.eq_of_toNat_eq
  simp only [BitVec.toNat_ofNat]
  have e : 256 ^ n = 256 ^ i * 256 ^ (n - i) := by rw [← Nat.pow_add]; congr 1; omega
  rw [e, Nat.mod_mul_right_div_self]
  have e2 : 256 ^ (n - i) = 2 ^ 8 * 256 ^ (n - i - 1) := by
    have : n - i = (n - i - 1) + 1 := by omega
    conv_lhs => rw [this, Nat.pow_succ]
    rw [Nat.mul_comm]
    rfl
  rw [e2, Nat.mod_mul_right_mod]

/-- The bytes the kernel's helpers sum are the RFC's pseudo-headers. -/
theorem ph4_eq (s d : BitVec 32) (len : Nat) (p : Byte) : ph4 s d len p = pseudo4 s d len p := by
  unfold ph4 pseudo4
  rw [bytes4, bytes4, ← bytes2, BitVec.toNat_ofNat, ← bytes_mod 2 len]
  rfl

theorem ph6_eq (s d : BitVec 128) (len : Nat) (p : Byte) : ph6 s d len p = pseudo6 s d len p := by
  unfold ph6 pseudo6
  rw [bytes16, bytes16, ← bytes4, BitVec.toNat_ofNat, ← bytes_mod 4 len]
  rfl

/-- The length and protocol words of a pseudo-header. -/
def lenProto (le : Bool) (len : Nat) (p : Byte) : Z :=
  S le [0#8, p] + S le (be16 (BitVec.ofNat 16 len))

theorem S_pseudo4 (le : Bool) (s d : BitVec 32) (len : Nat) (p : Byte) :
    S le (pseudo4 s d len p) = S le (be32 s) + S le (be32 d) + lenProto le len p := by
  unfold pseudo4 lenProto
  rw [S_append, S_append, S_append]
  · ring
  all_goals simp [be32_length]

theorem S_be32_small (le : Bool) {len : Nat} (h : len < 65536) :
    S le (be32 (BitVec.ofNat 32 len)) = S le (be16 (BitVec.ofNat 16 len)) := by
  unfold be32
  have e1 : (BitVec.ofNat 32 len).extractLsb' 16 16 = 0#16 := by
    apply BitVec.eq_of_toNat_eq
    simp only [BitVec.extractLsb'_toNat, BitVec.toNat_ofNat, Nat.shiftRight_eq_div_pow]
    omega
  have e2 : (BitVec.ofNat 32 len).extractLsb' 0 16 = BitVec.ofNat 16 len := by
    apply BitVec.eq_of_toNat_eq
    simp only [BitVec.extractLsb'_toNat, BitVec.toNat_ofNat, Nat.shiftRight_eq_div_pow]
    omega
  rw [e1, e2, S_append _ rfl]
  have : be16 (0#16) = [0#8, 0#8] := by decide
  rw [this, S_two_zero, zero_add]

theorem S_pseudo6 (le : Bool) (s d : BitVec 128) {len : Nat} (h : len < 65536) (p : Byte) :
    S le (pseudo6 s d len p) = S le (be128 s) + S le (be128 d) + lenProto le len p := by
  unfold pseudo6 lenProto
  rw [S_append, S_append, S_append, S_be32_small le h]
  · have : ([0#8, 0#8, 0#8, p] : List Byte) = [0#8, 0#8] ++ [0#8, p] := rfl
    rw [this, S_append _ rfl, S_two_zero]
    ring
  all_goals simp [be32_length, be128_length]

theorem S_p4 (le : Bool) (s d : BitVec 32) (len : Nat) (p : Byte) (l : List Byte) :
    S le (pseudo4 s d len p ++ l) = S le (be32 s) + S le (be32 d) + lenProto le len p + S le l := by
  rw [S_append _ (by rw [pseudo4_length]), S_pseudo4]

theorem S_p6 (le : Bool) (s d : BitVec 128) {len : Nat} (h : len < 65536) (p : Byte) (l : List Byte) :
    S le (pseudo6 s d len p ++ l) = S le (be128 s) + S le (be128 d) + lenProto le len p + S le l := by
  rw [S_append _ (by rw [pseudo6_length]), S_pseudo6 _ _ _ h]

theorem lenProto_zero (le : Bool) : lenProto le 0 0#8 = 0 := by
  unfold lenProto
  have : be16 (BitVec.ofNat 16 0) = [0#8, 0#8] := by decide
  rw [this, S_two_zero, zero_add]

/-- A protocol number keeps the pseudo-header from being all zero. -/
theorem pseudo4_nonzero {s d : BitVec 32} {len : Nat} {p : Byte} (h : p ≠ 0#8) (l : List Byte) :
    ¬ allZero (pseudo4 s d len p ++ l) := by
  intro hz
  exact h (hz p (by simp [pseudo4]))

theorem pseudo6_nonzero {s d : BitVec 128} {len : Nat} {p : Byte} (h : p ≠ 0#8) (l : List Byte) :
    ¬ allZero (pseudo6 s d len p ++ l) := by
  intro hz
  exact h (hz p (by simp [pseudo6]))

/-- The headers this file talks about. -/
def Geo.Ok (g : Geo) : Prop :=
  g.off % 2 = 0 ∧ g.hl % 2 = 0 ∧ 4 ≤ g.off ∧ g.off + 2 ≤ g.hl ∧ g.proto ≠ 0#8

theorem tcp_ok : tcp.Ok := by unfold Geo.Ok; decide
theorem udp_ok : udp.Ok := by unfold Geo.Ok; decide

theorem setPorts_length (ports : Option (BitVec 16 × BitVec 16)) {l : List Byte}
    (h : 4 ≤ l.length) : (setPorts ports l).length = l.length := by
  unfold setPorts
  cases ports with
  | none => rfl
  | some p => simp [be16_length]; omega

theorem setPorts_drop (ports : Option (BitVec 16 × BitVec 16)) {l : List Byte} (n : Nat)
    (h : 4 ≤ n) : (setPorts ports l).drop n = l.drop n := by
  unfold setPorts
  cases ports with
  | none => rfl
  | some p =>
    simp only
    rw [List.drop_append, List.drop_of_length_le (by simp [be16_length]; omega), List.drop_drop]
    simp [be16_length]
    congr 1
    omega

/-- Sum of a segment (and whatever follows it): header without checksum, the
    checksum, the rest. -/
theorem S_seg (le : Bool) {g : Geo} (hg : g.Ok) {seg : List Byte} (extra : List Byte)
    (h : g.hl ≤ seg.length) :
    S le (seg ++ extra) = S le (cleared g (seg.take g.hl)) + ((load le seg g.off).toNat : Z)
      + S le (seg.drop g.hl ++ extra) := by
  obtain ⟨h1, h2, _, h4, _⟩ := hg
  have hl : (seg.take g.hl).length = g.hl := by simp; omega
  conv_lhs => rw [← List.take_append_drop g.hl seg, List.append_assoc]
  rw [S_append le (by rw [hl]; exact h2), S_load le _ g.off h1 (by omega), load_take _ _ _ _ h4]
  rfl

theorem S_out (le : Bool) {g : Geo} (hg : g.Ok) {seg : List Byte} (extra : List Byte)
    (ports : Option (BitVec 16 × BitVec 16)) (h : g.hl ≤ seg.length) (c : BitVec 16) :
    S le (put (setPorts ports seg) g.off (store le c) ++ extra) =
      S le ((cleared g (setPorts ports seg)).take g.hl) + (c.toNat : Z)
      + S le (seg.drop g.hl ++ extra) := by
  obtain ⟨h1, h2, h3, h4, h5⟩ := hg
  have hl : (setPorts ports seg).length = seg.length := setPorts_length ports (by omega)
  have hl2 : (put (setPorts ports seg) g.off (store le c)).length = seg.length := by
    rw [put_length _ _ _ (by omega) (store_length _ _), hl]
  rw [S_seg le ⟨h1, h2, h3, h4, h5⟩ extra (by omega), load_put _ _ _ _ (by omega),
    put_drop _ _ _ _ h4 (by omega) (store_length _ _), setPorts_drop _ _ (by omega)]
  congr 3
  unfold cleared
  rw [put_take _ _ _ _ h4 (by omega) (store_length _ _), put_take _ _ _ _ h4 (by omega) rfl,
    put_put _ _ _ _ (by simp; omega) (store_length _ _)]

theorem update64_cast (K : Kernel) (c : BitVec 16) (s6 d6 : BitVec 128) (a : List Byte)
    (s4 d4 : BitVec 32) (b : List Byte) :
    ((update64 K c s6 d6 a s4 d4 b).toNat : Z) = (c.toNat : Z)
      + (S K.le (be128 s6) + S K.le (be128 d6)) + S K.le a
      - (S K.le (be32 s4) + S K.le (be32 d4)) - S K.le b := by
  unfold update64 pseudohdr6 pseudohdr4
  simp only [fold_cast, csumAdd_cast, csumSub_cast, not32_cast, unfold_cast, magic6_cast,
    nofold4_cast, part_cast, S_pseudo4, S_pseudo6 K.le s6 d6 (show 0 < 65536 by omega),
    lenProto_zero]
  have : ((0#32).toNat : Z) = 0 := by simp
  rw [this]
  ring

theorem update46_cast (K : Kernel) (c : BitVec 16) (s4 d4 : BitVec 32) (a : List Byte)
    (s6 d6 : BitVec 128) (b : List Byte) :
    ((update46 K c s4 d4 a s6 d6 b).toNat : Z) = (c.toNat : Z)
      + (S K.le (be32 s4) + S K.le (be32 d4)) + S K.le a
      - (S K.le (be128 s6) + S K.le (be128 d6)) - S K.le b := by
  unfold update46
  simp only [fold_cast, csumAdd_cast, csumSub_cast, not32_cast, unfold_cast, magic6_cast,
    nofold4_cast, part_cast, S_pseudo4, S_pseudo6 K.le s6 d6 (show 0 < 65536 by omega),
    lenProto_zero]
  have : ((0#32).toNat : Z) = 0 := by simp
  rw [this]
  ring

theorem mangle_cast (m : Bool) (c : BitVec 16) :
    (((if m ∧ c = 0#16 then 0xFFFF#16 else c : BitVec 16).toNat : Nat) : Z) = (c.toNat : Z) := by
  split
  · rename_i h
    rw [h.2]
    exact cast_of_mod (by decide)
  · rfl

theorem xlat64_valid (K : Kernel) {g : Geo} (hg : g.Ok) (m : Bool) {sm : Summed}
    (hs : sm ≠ Summed.partial_) (ports : Option (BitVec 16 × BitVec 16)) (s6 d6 : BitVec 128)
    {seg : List Byte} (h : g.hl ≤ seg.length) (s4 d4 : BitVec 32) (extra : List Byte) {len : Nat}
    (hlen : len < 65536) :
    Valid (ph4 s4 d4 len g.proto ++ ((xlat64 K g m sm ports s6 d6 seg s4 d4).seg ++ extra)) ↔
    Valid (ph6 s6 d6 len g.proto ++ (seg ++ extra)) := by
  rw [ph4_eq, ph6_eq, valid_iff K.le, valid_iff K.le]
  simp only [pseudo4_nonzero hg.2.2.2.2, pseudo6_nonzero hg.2.2.2.2, not_false_eq_true, and_true]
  rw [S_p4, S_p6 _ _ _ hlen, S_seg K.le hg extra h]
  unfold xlat64
  simp only [hs, ne_eq, not_false_eq_true, if_true]
  rw [S_out K.le hg extra ports h, mangle_cast, update64_cast]
  constructor <;> intro hh <;> linear_combination hh

/-- **C38.** TCP, 6→4: whatever follows the header (in this fragment or in
    later ones), the translated datagram passes the checksum test exactly when
    the original did, on machines of either byte order. -/
theorem tcp64_valid (K : Kernel) {sm : Summed} (hs : sm ≠ Summed.partial_)
    (ports : Option (BitVec 16 × BitVec 16)) (s6 d6 : BitVec 128)
    {seg : List Byte} (h : 20 ≤ seg.length) (s4 d4 : BitVec 32) (extra : List Byte) {len : Nat}
    (hlen : len < 65536) :
    Valid (ph4 s4 d4 len 6#8 ++ ((tcp64 K sm ports s6 d6 seg s4 d4).seg ++ extra)) ↔
    Valid (ph6 s6 d6 len 6#8 ++ (seg ++ extra)) :=
  xlat64_valid K tcp_ok false hs ports s6 d6 h s4 d4 extra hlen

/-- **C38.** UDP, 6→4: the same. -/
theorem udp64_valid (K : Kernel) {sm : Summed} (hs : sm ≠ Summed.partial_)
    (ports : Option (BitVec 16 × BitVec 16)) (s6 d6 : BitVec 128)
    {seg : List Byte} (h : 8 ≤ seg.length) (s4 d4 : BitVec 32) (extra : List Byte) {len : Nat}
    (hlen : len < 65536) :
    Valid (ph4 s4 d4 len 17#8 ++ ((udp64 K sm ports s6 d6 seg s4 d4).seg ++ extra)) ↔
    Valid (ph6 s6 d6 len 17#8 ++ (seg ++ extra)) :=
  xlat64_valid K udp_ok true hs ports s6 d6 h s4 d4 extra hlen

/-- **C38.** UDP, 6→4: the translated datagram never says "no checksum". -/
theorem udp64_nonzero (K : Kernel) {sm : Summed} (hs : sm ≠ Summed.partial_)
    (ports : Option (BitVec 16 × BitVec 16)) (s6 d6 : BitVec 128)
    {seg : List Byte} (h : 8 ≤ seg.length) (s4 d4 : BitVec 32) :
    (((udp64 K sm ports s6 d6 seg s4 d4).seg.drop 6).take 2) ≠ [0#8, 0#8] := by
  intro he
  have hl : (setPorts ports seg).length = seg.length := setPorts_length ports (by omega)
  unfold udp64 xlat64 at he
  simp only [hs, ne_eq, not_false_eq_true, if_true, true_and] at he
  have e6 : udp.off = 6 := rfl
  rw [e6] at he
  generalize hc : (if _ = 0#16 then 0xFFFF#16 else _ : BitVec 16) = c at he
  have hne : c ≠ 0#16 := by
    rw [← hc]
    split
    · decide
    · assumption
  unfold put at he
  rw [List.append_assoc, List.drop_left' (by simp; omega), List.take_left' (store_length _ _)] at he
  apply hne
  have := byte_split c
  apply BitVec.eq_of_toNat_eq
  rw [← this]
  unfold store at he
  cases hle : K.le <;> simp only [hle, if_true, Bool.false_eq_true, if_false, List.cons.injEq,
    and_true] at he <;> rw [he.1, he.2] <;> rfl

/-- **C38.** TCP, 4→6. -/
theorem tcp46_valid (K : Kernel) {sm : Summed} (hs : sm ≠ Summed.partial_)
    (ports : Option (BitVec 16 × BitVec 16)) (s4 d4 : BitVec 32)
    {seg : List Byte} (h : 20 ≤ seg.length) (more : List (List Byte)) (s6 d6 : BitVec 128)
    (extra : List Byte) {len : Nat} (hlen : len < 65536) :
    Valid (ph6 s6 d6 len 6#8 ++ ((tcp46 K sm ports s4 d4 seg more s6 d6).seg ++ extra)) ↔
    Valid (ph4 s4 d4 len 6#8 ++ (seg ++ extra)) := by
  rw [ph4_eq, ph6_eq, valid_iff K.le, valid_iff K.le]
  simp only [pseudo4_nonzero (show (6#8 : Byte) ≠ 0#8 by decide),
    pseudo6_nonzero (show (6#8 : Byte) ≠ 0#8 by decide), not_false_eq_true, and_true]
  rw [S_p4, S_p6 _ _ _ hlen, S_seg K.le tcp_ok extra h]
  unfold tcp46
  simp only [hs, ne_eq, not_false_eq_true, if_true]
  rw [S_out K.le tcp_ok extra ports h, update46_cast]
  constructor <;> intro hh <;> linear_combination hh

/-- **C38.** UDP, 4→6, when the datagram has a checksum. -/
theorem udp46_valid (K : Kernel) {sm : Summed} (hs : sm ≠ Summed.partial_) (nat64 mf amend : Bool)
    (ports : Option (BitVec 16 × BitVec 16)) (s4 d4 : BitVec 32)
    {seg : List Byte} (h : 8 ≤ seg.length) (hc : ((seg.drop 6).take 2) ≠ [0#8, 0#8])
    (more : List (List Byte)) (s6 d6 : BitVec 128)
    (extra : List Byte) {len : Nat} (hlen : len < 65536) :
    ∃ o, udp46 K sm nat64 mf amend ports s4 d4 seg more s6 d6 = some o ∧
    (Valid (ph6 s6 d6 len 17#8 ++ (o.seg ++ extra)) ↔
     Valid (ph4 s4 d4 len 17#8 ++ (seg ++ extra))) := by
  have hne : load K.le seg udp.off ≠ 0#16 := by
    intro h0
    apply hc
    have e := load_toNat K.le seg 6
    have h0 : load K.le seg 6 = 0#16 := h0
    rw [h0] at e
    have e1 : (seg.drop 6).take 2 = [seg.getD 6 0#8, seg.getD 7 0#8] := by
      rw [List.drop_eq_getElem_cons (by omega), List.drop_eq_getElem_cons (by omega)]
      simp only [List.getD_eq_getElem?_getD]
      rw [List.getElem?_eq_getElem (by omega), List.getElem?_eq_getElem (by omega)]
      rfl
    rw [e1]
    have z : ∀ x : Byte, x.toNat = 0 → x = 0#8 := fun x h => BitVec.eq_of_toNat_eq (by simpa using h)
    simp only [w16, BitVec.toNat_ofNat, Nat.zero_mod, Nat.reduceAdd] at e
    rw [z (seg.getD 6 0#8) (by split at e <;> omega), z (seg.getD 7 0#8) (by split at e <;> omega)]
  refine ⟨_, by unfold udp46; simp only [hne, if_false, hs, ne_eq, not_false_eq_true, if_true]; rfl, ?_⟩
  rw [ph4_eq, ph6_eq, valid_iff K.le, valid_iff K.le]
  simp only [pseudo4_nonzero (show (17#8 : Byte) ≠ 0#8 by decide),
    pseudo6_nonzero (show (17#8 : Byte) ≠ 0#8 by decide), not_false_eq_true, and_true]
  rw [S_p4, S_p6 _ _ _ hlen, S_seg K.le udp_ok extra h]
  rw [S_out K.le udp_ok extra ports h, update46_cast]
  constructor <;> intro hh <;> linear_combination hh

/-- **C38.** UDP, 4→6, no checksum: translated exactly when the translator is
    stateful, or is told to compute such checksums and sees the whole datagram. -/
theorem udp46_drop (K : Kernel) (sm : Summed) (nat64 mf amend : Bool)
    (ports : Option (BitVec 16 × BitVec 16)) (s4 d4 : BitVec 32)
    {seg : List Byte} (hc : ((seg.drop 6).take 2) = [0#8, 0#8])
    (more : List (List Byte)) (s6 d6 : BitVec 128) :
    udp46 K sm nat64 mf amend ports s4 d4 seg more s6 d6 = none ↔
      nat64 = false ∧ (mf = true ∨ amend = false) := by
  have h0 : load K.le seg udp.off = 0#16 := by
    apply BitVec.eq_of_toNat_eq
    rw [load_toNat]
    have e6 : udp.off = 6 := rfl
    have g : ∀ i, i < 2 → seg.getD (6 + i) 0#8 = 0#8 := by
      intro i hi
      have : ((seg.drop 6).take 2)[i]? = ([0#8, 0#8] : List Byte)[i]? := by rw [hc]
      rw [List.getElem?_take_of_lt hi, List.getElem?_drop] at this
      rw [List.getD_eq_getElem?_getD, this]
      match i, hi with
      | 0, _ => rfl
      | 1, _ => rfl
    have g0 := g 0 (by omega)
    have g1 := g 1 (by omega)
    rw [e6, show 6 + 1 = 6 + 1 from rfl, g1]
    rw [Nat.add_zero] at g0
    rw [g0]
    unfold w16
    split <;> rfl
  unfold udp46 canCompute
  simp only [h0, if_true]
  cases nat64 <;> cases mf <;> cases amend <;> simp

/-- The sum of what leaves after the NIC (or the kernel) finished a partial
    checksum does not depend on the partial checksum but for its value. -/
theorem S_finish (K : Kernel) {off : Nat} {seg : List Byte} (ho : off % 2 = 0)
    (h : off + 2 ≤ seg.length) :
    S K.le (finish K off seg) = - ((load K.le seg off).toNat : Z) := by
  unfold finish
  simp only
  rw [S_put_zero _ _ _ _ ho (by omega) (store_length _ _), store_cast]
  have := mangle_cast true (csumFold (K.part seg 0#32))
  simp only [true_and] at this
  rw [this, fold_cast, part_cast, S_load K.le seg off ho h]
  have : ((0#32).toNat : Z) = 0 := by simp
  rw [this]
  ring

theorem partial6_valid (K : Kernel) {g : Geo} (hg : g.Ok) (ports : Option (BitVec 16 × BitVec 16))
    {seg : List Byte} (h : g.hl ≤ seg.length) (hlen : seg.length < 65536) (s6 d6 : BitVec 128) :
    Valid (ph6 s6 d6 seg.length g.proto ++ finish K g.off (put (setPorts ports seg) g.off
      (store K.le (~~~ K.magic6 s6 d6 seg.length g.proto 0#32)))) := by
  obtain ⟨h1, h2, h3, h4, h5⟩ := hg
  have hl : (setPorts ports seg).length = seg.length := setPorts_length ports (by omega)
  rw [ph6_eq, valid_iff K.le]
  refine ⟨?_, pseudo6_nonzero h5 _⟩
  rw [S_append _ (by rw [pseudo6_length]), S_finish K h1 (by
    rw [put_length _ _ _ (by omega) (store_length _ _)]; omega), load_put _ _ _ _ (by omega),
    not16_cast, magic6_cast]
  have : ((0#32).toNat : Z) = 0 := by simp
  rw [this]
  ring

/-- **C38.** TCP, 4→6, checksum left to the hardware, not fragmented by us: the
    datagram that leaves is valid. -/
theorem tcp46_partial_valid (K : Kernel) (ports : Option (BitVec 16 × BitVec 16)) (s4 d4 : BitVec 32)
    {seg : List Byte} (h : 20 ≤ seg.length) (hlen : seg.length < 65536) (s6 d6 : BitVec 128) :
    Valid (ph6 s6 d6 seg.length 6#8 ++
      finish K 16 (tcp46 K Summed.partial_ ports s4 d4 seg [] s6 d6).seg) :=
  partial6_valid K tcp_ok ports h hlen s6 d6

/-- **C38.** UDP, 4→6, checksum absent or left to the hardware, not fragmented
    by us: what leaves, if anything does, is valid. -/
theorem udp46_partial_valid (K : Kernel) (sm : Summed) (nat64 mf amend : Bool)
    (ports : Option (BitVec 16 × BitVec 16)) (s4 d4 : BitVec 32)
    {seg : List Byte} (h : 8 ≤ seg.length) (hlen : seg.length < 65536) (s6 d6 : BitVec 128) {o : Out}
    (ho : udp46 K sm nat64 mf amend ports s4 d4 seg [] s6 d6 = some o)
    (hp : o.summed = Summed.partial_) :
    Valid (ph6 s6 d6 seg.length 17#8 ++ finish K 6 o.seg) := by
  have key := partial6_valid K udp_ok ports h hlen s6 d6
  unfold udp46 at ho
  simp only [ne_eq, not_true_eq_false, if_false] at ho
  split at ho
  · split at ho
    · rw [← Option.some.inj ho]
      exact key
    · exact absurd ho (by simp)
  · split at ho
    · rename_i hs
      rw [← Option.some.inj ho] at hp
      exact absurd hp hs
    · rw [← Option.some.inj ho]
      exact key

/-- **C38.** TCP and UDP, 6→4, checksum left to the hardware. -/
theorem xlat64_partial_valid (K : Kernel) {g : Geo} (hg : g.Ok) (m : Bool)
    (ports : Option (BitVec 16 × BitVec 16))
    (s6 d6 : BitVec 128) {seg : List Byte} (h : g.hl ≤ seg.length) (s4 d4 : BitVec 32) :
    Valid (ph4 s4 d4 seg.length g.proto ++
      finish K g.off (xlat64 K g m Summed.partial_ ports s6 d6 seg s4 d4).seg) := by
  obtain ⟨h1, h2, h3, h4, h5⟩ := hg
  have hl : (setPorts ports seg).length = seg.length := setPorts_length ports (by omega)
  rw [ph4_eq, valid_iff K.le]
  refine ⟨?_, pseudo4_nonzero h5 _⟩
  unfold xlat64
  simp only [ne_eq, not_true_eq_false, if_false]
  rw [S_append _ (by rw [pseudo4_length]), S_finish K h1 (by
    rw [put_length _ _ _ (by omega) (store_length _ _)]; omega), load_put _ _ _ _ (by omega),
    not16_cast, fold_cast, nofold4_cast]
  have : ((0#32).toNat : Z) = 0 := by simp
  rw [this]
  ring

theorem parts_cast (K : Kernel) : ∀ (fs : List (List Byte)) (i : BitVec 32),
    (∀ f ∈ fs.dropLast, f.length % 2 = 0) →
    ((fs.foldl (fun c f => K.part f c) i).toNat : Z) = (i.toNat : Z) + S K.le fs.flatten
  | [], i, _ => by simp [S_nil]
  | [f], i, _ => by
    simp only [List.foldl_cons, List.foldl_nil, List.flatten_cons, List.flatten_nil,
      List.append_nil, part_cast]
    ring
  | f :: f2 :: t, i, h => by
    have hd : (f :: f2 :: t).dropLast = f :: (f2 :: t).dropLast := rfl
    rw [hd] at h
    have ih := parts_cast K (f2 :: t) (K.part f i) (fun x hx => h x (by simp [hx]))
    rw [List.foldl_cons, ih, part_cast, List.flatten_cons (l := f), S_append _ (h f (by simp))]
    ring

theorem list6_valid (K : Kernel) {g : Geo} (hg : g.Ok) (ports : Option (BitVec 16 × BitVec 16))
    {seg : List Byte} (h : g.hl ≤ seg.length) {more : List (List Byte)} (hm : more ≠ [])
    (he : ∀ f ∈ (seg :: more).dropLast, f.length % 2 = 0)
    (hlen : (seg ++ more.flatten).length < 65536) (s6 d6 : BitVec 128) :
    Valid (ph6 s6 d6 (seg ++ more.flatten).length g.proto ++ (put (setPorts ports seg) g.off
      (store K.le (listCsum K s6 d6 g.proto (cleared g (setPorts ports seg) :: more))) ++
        more.flatten)) := by
  obtain ⟨h1, h2, h3, h4, h5⟩ := id hg
  have hl : (setPorts ports seg).length = seg.length := setPorts_length ports (by omega)
  have hc : (cleared g (setPorts ports seg)).length = seg.length := by
    unfold cleared
    rw [put_length _ _ _ (by omega) rfl, hl]
  have hd : ∀ f : List Byte, (f :: more).dropLast = f :: more.dropLast := by
    intro f
    cases more with
    | nil => exact absurd rfl hm
    | cons => rfl
  rw [hd] at he
  have hse : seg.length % 2 = 0 := he seg (by simp)
  rw [ph6_eq, valid_iff K.le]
  refine ⟨?_, pseudo6_nonzero h5 _⟩
  rw [S_p6 _ _ _ hlen, S_append _ (by
    rw [put_length _ _ _ (by omega) (store_length _ _), hl]; exact hse),
    S_put_zero _ _ _ _ h1 (by omega) (store_length _ _), store_cast]
  unfold listCsum
  rw [magic6_cast, parts_cast K _ _ (by
    rw [hd]
    intro f hf
    rcases List.mem_cons.1 hf with rfl | hf
    · rw [hc]; exact hse
    · exact he f (by simp [hf]))]
  have e : ((cleared g (setPorts ports seg) :: more).map List.length).sum =
      (seg ++ more.flatten).length := by
    simp [hc, List.length_flatten]
  rw [e, S_pseudo6 _ _ _ hlen, List.flatten_cons, S_append _ (by rw [hc]; exact hse)]
  have : ((0#32).toNat : Z) = 0 := by simp
  rw [this]
  unfold cleared
  ring

/-- **C38.** 4→6, checksum not computed yet, and the translator fragments: the
    checksum it computes covers the whole datagram.  (The translator's own
    fragments have even lengths, all but the last.) -/
theorem tcp46_list_valid (K : Kernel) (ports : Option (BitVec 16 × BitVec 16)) (s4 d4 : BitVec 32)
    {seg : List Byte} (h : 20 ≤ seg.length) {more : List (List Byte)} (hm : more ≠ [])
    (he : ∀ f ∈ (seg :: more).dropLast, f.length % 2 = 0)
    (hlen : (seg ++ more.flatten).length < 65536) (s6 d6 : BitVec 128) :
    Valid (ph6 s6 d6 (seg ++ more.flatten).length 6#8 ++
      ((tcp46 K Summed.partial_ ports s4 d4 seg more s6 d6).seg ++ more.flatten)) := by
  have := list6_valid K tcp_ok ports h hm he hlen s6 d6
  unfold tcp46
  simp only [ne_eq, not_true_eq_false, if_false, hm, not_false_eq_true, if_true]
  exact this

/-- The same for UDP, as long as the original has a (partial) checksum; compare
    `udp46_slow_zero`. -/
theorem udp46_list_valid (K : Kernel) (nat64 mf amend : Bool)
    (ports : Option (BitVec 16 × BitVec 16)) (s4 d4 : BitVec 32)
    {seg : List Byte} (h : 8 ≤ seg.length) (hc : load K.le seg 6 ≠ 0#16)
    {more : List (List Byte)} (hm : more ≠ [])
    (he : ∀ f ∈ (seg :: more).dropLast, f.length % 2 = 0)
    (hlen : (seg ++ more.flatten).length < 65536) (s6 d6 : BitVec 128) :
    ∃ o, udp46 K Summed.partial_ nat64 mf amend ports s4 d4 seg more s6 d6 = some o ∧
    Valid (ph6 s6 d6 (seg ++ more.flatten).length 17#8 ++ (o.seg ++ more.flatten)) := by
  have := list6_valid K udp_ok ports h hm he hlen s6 d6
  have hc : load K.le seg udp.off ≠ 0#16 := hc
  unfold udp46
  simp only [ne_eq, not_true_eq_false, if_false, hm, not_false_eq_true, if_true, hc]
  exact ⟨_, rfl, this⟩

/-! ## ICMP -/

theorem echo_eq (t c : Byte) (ck : List Byte) (hck : ck.length = 2) (id : Option (BitVec 16))
    (seg : List Byte) : echo t c ck id seg = put (echo t c [0#8, 0#8] id seg) 2 ck := by
  obtain ⟨a, b, rfl⟩ : ∃ a b, ck = [a, b] := by
    match ck, hck with
    | [a, b], _ => exact ⟨a, b, rfl⟩
  unfold echo put
  simp

theorem echo_length (t c : Byte) (ck : List Byte) (hck : ck.length = 2) (id : Option (BitVec 16))
    {seg : List Byte} (h : 8 ≤ seg.length) : (echo t c ck id seg).length = seg.length := by
  unfold echo
  cases id <;> simp [hck, be16_length] <;> omega

theorem echo_drop (t c : Byte) (ck : List Byte) (hck : ck.length = 2) (id : Option (BitVec 16))
    {seg : List Byte} (h : 8 ≤ seg.length) : (echo t c ck id seg).drop 8 = seg.drop 8 := by
  have h6 : ∃ i : List Byte, i.length = 2 ∧ echo t c ck id seg = ([t, c] ++ ck ++ i) ++ seg.drop 6 := by
    cases id with
    | none => exact ⟨(seg.drop 4).take 2, by simp; omega, rfl⟩
    | some v => exact ⟨be16 v, rfl, rfl⟩
  obtain ⟨i, hi, e⟩ := h6
  rw [e, List.drop_append, List.drop_of_length_le (by simp [hck, hi]), List.drop_drop]
  simp [hck, hi]

theorem S_icmp (le : Bool) {seg : List Byte} (h : 8 ≤ seg.length) :
    S le seg = S le (put (seg.take 8) 2 [0#8, 0#8]) + ((load le seg 2).toNat : Z)
      + S le (seg.drop 8) := by
  have hl : (seg.take 8).length = 8 := by simp; omega
  conv_lhs => rw [← List.take_append_drop 8 seg]
  rw [S_append le (by rw [hl]), S_load le _ 2 rfl (by omega), load_take _ _ _ _ (by omega)]

theorem S_echo (le : Bool) (t c : Byte) (ck : BitVec 16) (id : Option (BitVec 16))
    {seg : List Byte} (h : 8 ≤ seg.length) :
    S le (echo t c (store le ck) id seg) =
      S le ((echo t c [0#8, 0#8] id seg).take 8) + (ck.toNat : Z) + S le (seg.drop 8) := by
  have hl := echo_length t c [0#8, 0#8] rfl id h
  have hl2 := echo_length t c (store le ck) (store_length _ _) id h
  rw [S_icmp le (seg := echo t c (store le ck) id seg) (by omega), echo_drop _ _ _ (store_length _ _) _ h,
    echo_eq _ _ _ (store_length _ _), load_put _ _ _ _ (by omega)]
  congr 3
  rw [put_take _ _ _ _ (by omega) (by omega) (store_length _ _), put_put _ _ _ _ (by simp; omega)
    (store_length _ _)]
  unfold echo put
  cases id <;> simp

/-- **C38.** Pings, 6→4: the ICMPv4 message is valid exactly when the ICMPv6
    message was, unless the ICMPv4 message is nothing but zeroes. -/
theorem echo64_valid_partial (K : Kernel) (t c : Byte) (id : Option (BitVec 16)) (s6 d6 : BitVec 128)
    {seg : List Byte} (h : 8 ≤ seg.length) :
    Valid (echo64 K t c id s6 d6 seg) ↔
    Valid (ph6 s6 d6 seg.length 58#8 ++ seg) ∧ ¬ allZero (echo64 K t c id s6 d6 seg) := by
  rw [ph6_eq, valid_iff K.le, valid_iff K.le]
  simp only [pseudo6_nonzero (show (58#8 : Byte) ≠ 0#8 by decide), not_false_eq_true, and_true]
  apply and_congr_left'
  rw [S_append _ (by rw [pseudo6_length]), S_icmp K.le h]
  unfold echo64
  simp only
  rw [S_echo K.le t c _ id h]
  simp only [fold_cast, csumAdd_cast, csumSub_cast, not32_cast, unfold_cast, magic6_cast, part_cast]
  have : ((0#32).toNat : Z) = 0 := by simp
  rw [this]
  constructor <;> intro hh <;> linear_combination hh

/-- **C38.** Echo requests, 6→4. -/
theorem echo64_request (K : Kernel) (c : Byte) (id : Option (BitVec 16)) (s6 d6 : BitVec 128)
    {seg : List Byte} (h : 8 ≤ seg.length) :
    Valid (echo64 K 8#8 c id s6 d6 seg) ↔ Valid (ph6 s6 d6 seg.length 58#8 ++ seg) := by
  rw [echo64_valid_partial K _ _ _ _ _ h]
  refine and_iff_left ?_
  intro hz
  have := hz 8#8 (by simp [echo64, echo])
  exact absurd this (by decide)

/-- **C38.** Pings, 4→6: the ICMPv6 message is valid exactly when the ICMPv4
    message was, or the ICMPv4 message was nothing but zeroes. -/
theorem echo46_valid_partial (K : Kernel) (t c : Byte) (id : Option (BitVec 16)) (s6 d6 : BitVec 128)
    {seg : List Byte} (h : 8 ≤ seg.length) :
    Valid (ph6 s6 d6 seg.length 58#8 ++ echo46 K t c id s6 d6 seg) ↔ Valid seg ∨ allZero seg := by
  have hz : allZero seg → S K.le seg = 0 := by
    intro hz
    rw [S_zero, ← ocSum_cast, (ocSum_zero seg).2 hz]
    rfl
  rw [ph6_eq, valid_iff K.le, valid_iff K.le]
  simp only [pseudo6_nonzero (show (58#8 : Byte) ≠ 0#8 by decide), not_false_eq_true, and_true]
  have e : (S K.le seg = 0 ∧ ¬ allZero seg ∨ allZero seg) ↔ S K.le seg = 0 := by
    by_cases h0 : allZero seg
    · simp [h0, hz h0]
    · simp [h0]
  rw [e, S_append _ (by rw [pseudo6_length]), S_icmp K.le h]
  unfold echo46
  simp only
  rw [S_echo K.le t c _ id h]
  simp only [csumAdd_cast, csumSub_cast, not32_cast, unfold_cast, magic6_cast, part_cast]
  have : ((0#32).toNat : Z) = 0 := by simp
  rw [this]
  constructor <;> intro hh <;> linear_combination hh

theorem validate6_iff (K : Kernel) (s6 d6 : BitVec 128) (seg : List Byte) :
    validate6 K Summed.none s6 d6 seg = true ↔ Valid (ph6 s6 d6 seg.length 58#8 ++ seg) := by
  unfold validate6
  simp only [ne_eq, not_true_eq_false, if_false, decide_eq_true_eq]
  rw [ph6_eq, valid_iff K.le, S_append _ (by rw [pseudo6_length])]
  simp only [pseudo6_nonzero (show (58#8 : Byte) ≠ 0#8 by decide), not_false_eq_true, and_true]
  have key := magic6_cast K s6 d6 seg.length 58#8 (K.part seg 0#32)
  rw [part_cast] at key
  have h0 : ((0#32).toNat : Z) = 0 := by simp
  rw [h0] at key
  constructor
  · intro h
    rw [h] at key
    have h1 : ((0#16).toNat : Z) = 0 := by simp
    rw [h1] at key
    linear_combination key
  · intro h
    have h2 : ((K.magic6 s6 d6 seg.length 58#8 (K.part seg 0#32)).toNat : Z) = 0 := by
      linear_combination key - h
    rw [cast_zero] at h2
    have h3 : K.magic6 s6 d6 seg.length 58#8 (K.part seg 0#32) ≠ 0xFFFF#16 := by
      intro ho
      have := (K.magic6_ones _ _ _ _ _ ho).1
      exact pseudo6_nonzero (show (58#8 : Byte) ≠ 0#8 by decide) [] (by simpa using this)
    apply BitVec.eq_of_toNat_eq
    have h4 := (K.magic6 s6 d6 seg.length 58#8 (K.part seg 0#32)).isLt
    have h5 : (K.magic6 s6 d6 seg.length 58#8 (K.part seg 0#32)).toNat ≠ 65535 := by
      intro h; exact h3 (BitVec.eq_of_toNat_eq (by rw [h]; rfl))
    simp only [BitVec.toNat_ofNat]
    omega

theorem validate4_iff (K : Kernel) (seg : List Byte) :
    validate4 K Summed.none seg = true ↔ Valid seg := by
  unfold validate4
  simp only [ne_eq, not_true_eq_false, if_false, decide_eq_true_eq]
  rw [valid_iff K.le]
  have key := fold_cast (K.part seg 0#32)
  rw [part_cast] at key
  have h0 : ((0#32).toNat : Z) = 0 := by simp
  rw [h0] at key
  have h1 : ((0#16).toNat : Z) = 0 := by simp
  have hz : allZero seg → S K.le seg = 0 := by
    intro hz
    rw [S_zero, ← ocSum_cast, (ocSum_zero seg).2 hz]
    rfl
  constructor
  · intro h
    rw [h, h1] at key
    refine ⟨by linear_combination key, ?_⟩
    intro hz
    rw [(K.part_zero seg 0#32).2 ⟨hz, rfl⟩] at h
    exact absurd h (by decide)
  · rintro ⟨h, hn⟩
    have h2 : ((csumFold (K.part seg 0#32)).toNat : Z) = 0 := by
      linear_combination key - h
    rw [cast_zero] at h2
    have h3 : csumFold (K.part seg 0#32) ≠ 0xFFFF#16 := by
      intro ho
      exact hn ((K.part_zero _ _).1 ((fold_ones _).1 ho)).1
    apply BitVec.eq_of_toNat_eq
    have h4 := (csumFold (K.part seg 0#32)).isLt
    have h5 : (csumFold (K.part seg 0#32)).toNat ≠ 65535 := by
      intro h; exact h3 (BitVec.eq_of_toNat_eq (by rw [h]; rfl))
    simp only [BitVec.toNat_ofNat]
    omega

theorem S_fresh (K : Kernel) {l : List Byte} {off : Nat} (ho : off % 2 = 0) (h : off + 2 ≤ l.length) :
    S K.le (put l off (store K.le (csumFold (K.part (put l off [0#8, 0#8]) 0#32)))) = 0 := by
  rw [S_put_zero _ _ _ _ ho (by omega) (store_length _ _), store_cast, fold_cast, part_cast]
  have : ((0#32).toNat : Z) = 0 := by simp
  rw [this]
  ring

theorem put_nonzero {l : List Byte} {off : Nat} {two : List Byte}
    (h : ¬ allZero (put l off [0#8, 0#8])) : ¬ allZero (put l off two) := by
  intro hz
  apply h
  intro b hb
  unfold put at hb hz
  simp only [List.mem_append] at hb
  rcases hb with (hb | hb) | hb
  · exact hz b (by simp [hb])
  · simp only [List.mem_cons, List.not_mem_nil, or_false, or_self] at hb
    exact hb
  · exact hz b (by simp [hb])

/-- **C38.** ICMP errors, 6→4, when the kernel knows nothing about the checksum:
    the error is translated exactly when it is intact, into an error that is
    intact.  (Any ICMPv4 error has a nonzero type, so it is not all zeroes.) -/
theorem error64_valid (K : Kernel) (s6 d6 : BitVec 128) (seg : List Byte) {out : List Byte}
    (h : 8 ≤ out.length) (hz : ¬ allZero (put out 2 [0#8, 0#8])) :
    (Valid (ph6 s6 d6 seg.length 58#8 ++ seg) →
      ∃ o, error64 K Summed.none s6 d6 seg out = some o ∧ Valid o) ∧
    (¬ Valid (ph6 s6 d6 seg.length 58#8 ++ seg) → error64 K Summed.none s6 d6 seg out = none) := by
  constructor
  · intro hv
    unfold error64
    rw [if_pos ((validate6_iff K s6 d6 seg).2 hv)]
    refine ⟨_, rfl, ?_⟩
    rw [valid_iff K.le]
    exact ⟨S_fresh K rfl (by omega), put_nonzero hz⟩
  · intro hv
    unfold error64
    rw [if_neg (fun h => hv ((validate6_iff K s6 d6 seg).1 h))]

/-- **C38.** ICMP errors, 4→6. -/
theorem error46_valid (K : Kernel) (seg : List Byte) {out : List Byte} (h : 8 ≤ out.length)
    (s6 d6 : BitVec 128) :
    (Valid seg → ∃ o, error46 K Summed.none seg out s6 d6 = some o ∧
      Valid (ph6 s6 d6 out.length 58#8 ++ o)) ∧
    (¬ Valid seg → error46 K Summed.none seg out s6 d6 = none) := by
  constructor
  · intro hv
    unfold error46
    rw [if_pos ((validate4_iff K seg).2 hv)]
    refine ⟨_, rfl, ?_⟩
    rw [ph6_eq, valid_iff K.le]
    refine ⟨?_, pseudo6_nonzero (by decide) _⟩
    rw [S_append _ (by rw [pseudo6_length]), S_put_zero _ _ _ _ rfl (by omega) (store_length _ _),
      store_cast, magic6_cast, part_cast]
    have : ((0#32).toNat : Z) = 0 := by simp
    rw [this]
    ring
  · intro hv
    unfold error46
    rw [if_neg (fun h => hv ((validate4_iff K seg).1 h))]

/-- **C38.** The IPv4 header checksum is right, both when the header is built
    and when the length is fixed after trimming an ICMP error. -/
theorem ipHeader_valid (K : Kernel) {hdr : List Byte} (h : 20 ≤ hdr.length)
    (hv : hdr.getD 0 0#8 ≠ 0#8) : Valid (ipHeader K hdr) := by
  rw [valid_iff K.le]
  refine ⟨S_fresh K rfl (by omega), ?_⟩
  intro hz
  apply hv
  apply hz
  unfold ipHeader put
  match hdr, h with
  | a :: t, _ => simp

/-! ## A kernel that meets the contract, and concrete packets -/

theorem w16_lt (le : Bool) (a b : Byte) : w16 le a b < 65536 := by
  have h1 := a.isLt
  have h2 := b.isLt
  unfold w16
  split <;> omega

theorem genPart_cast (le : Bool) : ∀ l i, ((genPart le l i).toNat : Z) = S le l + (i.toNat : Z)
  | [], i => by simp [genPart, S_nil]
  | [a], i => by
    have := w16_lt le a 0#8
    simp only [genPart, csumAdd_cast, BitVec.toNat_ofNat, S, wsum]
    rw [Nat.mod_eq_of_lt (by omega)]
    ring
  | a :: b :: t, i => by
    have := w16_lt le a b
    simp only [genPart]
    rw [genPart_cast le t, csumAdd_cast, S_cons2, BitVec.toNat_ofNat, Nat.mod_eq_of_lt (by omega)]
    ring

theorem w16_zero (le : Bool) (a b : Byte) : BitVec.ofNat 32 (w16 le a b) = 0#32 ↔ a = 0#8 ∧ b = 0#8 := by
  have h1 := a.isLt
  have h2 := b.isLt
  have z : ∀ x : Byte, x.toNat = 0 ↔ x = 0#8 := fun x =>
    ⟨fun h => BitVec.eq_of_toNat_eq (by simpa using h), fun h => by rw [h]; rfl⟩
  rw [← z, ← z]
  constructor
  · intro h
    have := congrArg BitVec.toNat h
    rw [BitVec.toNat_ofNat, Nat.mod_eq_of_lt (by have := w16_lt le a b; omega)] at this
    unfold w16 at this
    simp only [BitVec.toNat_ofNat, Nat.zero_mod] at this
    split at this <;> omega
  · rintro ⟨ha, hb⟩
    unfold w16
    simp [ha, hb]

theorem csumAdd_zero_iff (a b : BitVec 32) : csumAdd a b = 0#32 ↔ a = 0#32 ∧ b = 0#32 :=
  ⟨csumAdd_zero, by rintro ⟨rfl, rfl⟩; decide⟩

theorem genPart_zero (le : Bool) : ∀ l i, genPart le l i = 0#32 ↔ allZero l ∧ i = 0#32
  | [], i => by simp [genPart, allZero]
  | [a], i => by
    simp only [genPart, csumAdd_zero_iff, w16_zero, allZero, List.mem_singleton, forall_eq]
    constructor
    · rintro ⟨h1, h2, _⟩; exact ⟨h2, h1⟩
    · rintro ⟨h1, h2⟩; exact ⟨h2, h1, trivial⟩
  | a :: b :: t, i => by
    simp only [genPart]
    rw [genPart_zero le t, csumAdd_zero_iff, w16_zero]
    simp only [allZero, List.mem_cons, forall_eq_or_imp]
    constructor
    · rintro ⟨h1, h2, h3, h4⟩; exact ⟨⟨h3, h4, h1⟩, h2⟩
    · rintro ⟨⟨h1, h2, h3⟩, h4⟩; exact ⟨h3, h4, h1, h2⟩

/-- The reference kernel, of either byte order. -/
def generic (le : Bool) : Kernel where
  le := le
  part := genPart le
  nofold4 s d len p i := genPart le (pseudo4 s d len p) i
  magic6 s d len p i := csumFold (genPart le (pseudo6 s d len p) i)
  part_mod l i := mod_of_cast (by rw [genPart_cast]; push_cast; rfl)
  part_zero := genPart_zero le
  nofold4_mod s d len p i := mod_of_cast (by rw [genPart_cast]; push_cast; rfl)
  magic6_mod s d len p i := cast_zero.1 (by
    push_cast
    rw [fold_cast, genPart_cast]
    simp only [S]
    ring)
  magic6_ones s d len p i h := (genPart_zero le _ _).1 ((fold_ones _).1 h)

def exS6 : BitVec 128 := 0x20010db8000000000000000000000001#128
def exD6 : BitVec 128 := 0x0064ff9b0000000000000000c0000201#128
def exS4 : BitVec 32 := 0xC6336401#32
def exD4 : BitVec 32 := 0xC0000201#32

/-- A UDP datagram over IPv6, with the right checksum: 5000 → 53, "abc". -/
def exUdp : List Byte :=
  [0x13#8, 0x88#8, 0x00#8, 0x35#8, 0x00#8, 0x0b#8, 0x37#8, 0xfd#8, 0x61#8, 0x62#8, 0x63#8]

/-- `udp64_valid` is about something: an intact datagram, translated by a NAT64
    on machines of both byte orders, and the same datagram corrupted. -/
example : Valid (ph6 exS6 exD6 11 17#8 ++ exUdp) ∧
    (∀ le, Valid (ph4 exS4 exD4 11 17#8 ++
      (udp64 (generic le) Summed.none (some (61000#16, 53#16)) exS6 exD6 exUdp exS4 exD4).seg)) ∧
    (∀ le, ¬ Valid (ph4 exS4 exD4 11 17#8 ++
      (udp64 (generic le) Summed.none (some (61000#16, 53#16)) exS6 exD6
        (exUdp.dropLast ++ [0x64#8]) exS4 exD4).seg)) := by
  refine ⟨by decide +kernel, ?_, ?_⟩ <;> intro le <;> cases le <;> decide +kernel

/-- `tcp46_list_valid`, `tcp46_valid` and `tcp64_valid` cover this segment too. -/
example : Valid (ph6 exS6 exD6 22 6#8 ++
    ((tcp46 (generic true) Summed.partial_ none exS4 exD4
      ((List.range 20).map (BitVec.ofNat 8)) [[1#8, 2#8]] exS6 exD6).seg ++ [1#8, 2#8])) := by
  decide +kernel

/-- **C38, defect.** UDP, 4→6: an intact datagram can be given the checksum
    zero, which IPv6 receivers must discard (RFC 8200 section 8.1).  The 6→4
    direction replaces that zero by `0xFFFF` (`udp64_nonzero`). -/
theorem udp46_zero_out : ∃ seg, 8 ≤ seg.length ∧ ((seg.drop 6).take 2) ≠ [0#8, 0#8] ∧
    Valid (ph4 exS4 exD4 seg.length 17#8 ++ seg) ∧
    ∀ le, ∃ o, udp46 (generic le) Summed.none true false false none exS4 exD4 seg [] exS6 exD6 = some o ∧
      (o.seg.drop 6).take 2 = [0#8, 0#8] := by
  refine ⟨[0x13#8, 0x88#8, 0x00#8, 0x35#8, 0x00#8, 0x0a#8, 0x03#8, 0x85#8, 0xfc#8, 0x61#8],
    by decide, by decide, by decide +kernel, ?_⟩
  intro le
  refine ⟨⟨[0x13#8, 0x88#8, 0x00#8, 0x35#8, 0x00#8, 0x0a#8, 0x00#8, 0x00#8, 0xfc#8, 0x61#8],
    Summed.none⟩, ?_, by decide⟩
  cases le <;> decide +kernel

/-- **C38, defect.** UDP, 4→6, without a checksum, and too big for the IPv6
    link: the checksum is left to the hardware even though the translator cut
    the datagram into fragments, so it only covers the first one. -/
theorem udp46_slow_zero : ∃ seg more o,
    udp46 (generic true) Summed.none true false true none exS4 exD4 seg [more] exS6 exD6 = some o ∧
    o.summed = Summed.partial_ ∧
    ¬ Valid (ph6 exS6 exD6 (seg ++ more).length 17#8 ++ (finish (generic true) 6 o.seg ++ more)) := by
  refine ⟨[0x13#8, 0x88#8, 0x00#8, 0x35#8, 0x00#8, 0x10#8, 0#8, 0#8], [1#8, 2#8, 3#8, 4#8],
    _, rfl, rfl, ?_⟩
  decide +kernel

/-- **C38, defect.** An intact ICMPv6 echo reply with identifier 0, sequence
    number 0 and a payload of zeroes becomes an ICMPv4 message of zeroes,
    checksum included.  Its checksum should be `0xFFFF`: receivers drop it. -/
theorem echo64_zero : ∃ seg, Valid (ph6 exS6 exD6 seg.length 58#8 ++ seg) ∧
    ∀ le, ¬ Valid (echo64 (generic le) 0#8 0#8 none exS6 exD6 seg) := by
  refine ⟨[129#8, 0#8, 0x8e#8, 0xff#8, 0#8, 0#8, 0#8, 0#8, 0#8, 0#8], by decide +kernel, ?_⟩
  intro le
  cases le <;> decide +kernel

/-- And the other way: the corrupted ICMPv4 message becomes an intact ICMPv6
    message. -/
theorem echo46_zero : ∃ seg, ¬ Valid seg ∧
    ∀ le, Valid (ph6 exS6 exD6 seg.length 58#8 ++ echo46 (generic le) 129#8 0#8 none exS6 exD6 seg) := by
  refine ⟨List.replicate 10 0#8, by decide +kernel, ?_⟩
  intro le
  cases le <;> decide +kernel

/-- **C38, defect.** When the NIC delivered its own sum of the packet
    (`CHECKSUM_COMPLETE`), nobody has compared it with the packet's checksum
    yet, but the translator skips its validation: a corrupted ICMP error
    becomes an intact one, in both directions. -/
theorem error_complete : ∃ seg out, ¬ Valid seg ∧ ¬ Valid (ph6 exS6 exD6 seg.length 58#8 ++ seg) ∧
    (∃ o, error64 (generic true) Summed.complete exS6 exD6 seg out = some o ∧ Valid o) ∧
    (∃ o, error46 (generic true) Summed.complete seg out exS6 exD6 = some o ∧
      Valid (ph6 exS6 exD6 out.length 58#8 ++ o)) := by
  refine ⟨[3#8, 1#8, 0#8, 0#8, 0#8, 0#8, 0#8, 0#8, 0x45#8, 0#8],
    [1#8, 0#8, 0#8, 0#8, 0#8, 0#8, 0#8, 0#8, 0x60#8, 0#8], by decide +kernel, by decide +kernel, ?_, ?_⟩
  · refine ⟨_, rfl, by decide +kernel⟩
  · refine ⟨_, rfl, by decide +kernel⟩

/-- `error64_valid` on an intact error, and `ipHeader_valid` on a header. -/
example : Valid (ipHeader (generic true) (0x45#8 :: List.replicate 19 7#8)) := by decide +kernel

end Jool.Csum
