import Verif.Lemmas.Addr
/-
C04–C06: prefixes.

Specification: a prefix denotes the set of addresses whose first `len` bits equal its own.
-/
namespace Jool.PrefixSpec

/-- `a` is one of the addresses of `p`. -/
def Mem4 (p : Prefix4) (a : Addr4) : Prop := ∀ i, i < p.len → a.getMsbD i = p.addr.getMsbD i
def Mem6 (p : Prefix6) (a : Addr6) : Prop := ∀ i, i < p.len → a.getMsbD i = p.addr.getMsbD i

/-- No bits beyond the length. -/
def Canonical4 (p : Prefix4) : Prop :=
  p.len ≤ 32 ∧ ∀ j, p.len ≤ j → j < 32 → p.addr.getMsbD j = false
def Canonical6 (p : Prefix6) : Prop :=
  p.len ≤ 128 ∧ ∀ j, p.len ≤ j → j < 128 → p.addr.getMsbD j = false

/-- An address from one of 0.0.0.0/8, 127.0.0.0/8, 169.254.0.0/16, 224.0.0.0/4 or
255.255.255.255, as value ranges. -/
def LowScope (a : Addr4) : Prop :=
  a.toNat / 2 ^ 24 = 0 ∨ a.toNat / 2 ^ 24 = 127 ∨ a.toNat / 2 ^ 16 = 169 * 256 + 254 ∨
  a.toNat / 2 ^ 28 = 14 ∨ a.toNat = 2 ^ 32 - 1

end Jool.PrefixSpec

namespace Jool
open PrefixSpec

/-- **C04.** The IPv4 containment test is exact. -/
theorem prefix4_contains_correct (p : Prefix4) (a : Addr4) (h : p.len ≤ 32) :
    prefix4Contains p a = true ↔ Mem4 p a := prefix4Contains_iff_bits p a h

/-- **C04.** The IPv6 containment test is exact. -/
theorem prefix6_contains_correct (p : Prefix6) (a : Addr6) (h : p.len ≤ 128) :
    prefix6Contains p a = true ↔ Mem6 p a := prefix6Contains_iff_bits p a h

/-- **C04.** Two prefixes are reported as intersecting iff they share an address. -/
theorem prefix4_intersects_correct (p q : Prefix4) (hp : p.len ≤ 32) (hq : q.len ≤ 32) :
    prefix4Intersects p q = true ↔ ∃ a, Mem4 p a ∧ Mem4 q a := by
  unfold prefix4Intersects
  rw [Bool.or_eq_true, prefix4_contains_correct p _ hp, prefix4_contains_correct q _ hq]
  constructor
  · rintro (h | h)
    · exact ⟨q.addr, h, fun _ _ => rfl⟩
    · exact ⟨p.addr, fun _ _ => rfl, h⟩
  · rintro ⟨a, h1, h2⟩
    by_cases hl : p.len ≤ q.len
    · left; intro i hi; rw [← h1 i hi, ← h2 i (by omega)]
    · right; intro i hi; rw [← h2 i hi, ← h1 i (by omega)]

/-- **C04.** Walking the addresses of a canonical prefix visits each of its addresses exactly
once, in increasing order, nothing else, and as many as the reported count. -/
theorem prefix4_foreach_correct (p : Prefix4) (h : Canonical4 p) :
    (∀ a, a ∈ foreachAddr4 p ↔ Mem4 p a) ∧
    (foreachAddr4 p).Pairwise (fun a b => a.toNat < b.toNat) ∧
    (foreachAddr4 p).length = (prefix4GetAddrCount p).toNat := by
  have hv : prefix4Validate p = true := (prefix4Validate_iff p).2 h
  have hb := prefix4_base_bound p hv
  have hval : ∀ i, i < 2 ^ (32 - p.len) →
      (BitVec.ofNat 32 (p.addr.toNat + i)).toNat = p.addr.toNat + i := by
    intro i hi
    rw [BitVec.toNat_ofNat, Nat.mod_eq_of_lt (by omega)]
  rw [foreachAddr4_eq p h.1]
  refine ⟨fun a => ?_, ?_, ?_⟩
  · rw [← prefix4_contains_correct p a h.1, prefix4Contains_iff_range p a hv, List.mem_map]
    constructor
    · rintro ⟨i, hi, rfl⟩
      rw [List.mem_range] at hi
      rw [hval i hi]; omega
    · rintro ⟨h1, h2⟩
      refine ⟨a.toNat - p.addr.toNat, by rw [List.mem_range]; omega, ?_⟩
      apply BitVec.eq_of_toNat_eq
      rw [hval _ (by omega)]; omega
  · rw [List.pairwise_map]
    apply List.Pairwise.imp_of_mem _ List.pairwise_lt_range
    intro i j hi hj hij
    rw [List.mem_range] at hi hj
    rw [hval i hi, hval j hj]; omega
  · rw [List.length_map, List.length_range, prefix4GetAddrCount_toNat p h.1]

/-- **C05.** -/
theorem prefix4_validate_correct (p : Prefix4) : prefix4Validate p = true ↔ Canonical4 p :=
  prefix4Validate_iff p

/-- **C05.** -/
theorem prefix6_validate_correct (p : Prefix6) : prefix6Validate p = true ↔ Canonical6 p :=
  prefix6Validate_iff p

private theorem subnet_mem (s : Prefix4) (a : Addr4) (h : s.len ≤ 32) :
    Mem4 s a ↔ a.toNat / 2 ^ (32 - s.len) = s.addr.toNat / 2 ^ (32 - s.len) := by
  rw [← prefix4_contains_correct s a h, prefix4Contains_iff_div s a h]

/-- The five subnets denote the low-scope addresses. -/
theorem lowScope_iff (a : Addr4) : LowScope a ↔ ∃ s ∈ scopeSubnets, Mem4 s a := by
  unfold scopeSubnets LowScope
  simp only [List.mem_cons, List.not_mem_nil, or_false, exists_eq_or_imp, exists_eq_left]
  rw [subnet_mem _ _ (by decide), subnet_mem _ _ (by decide), subnet_mem _ _ (by decide),
    subnet_mem _ _ (by decide), subnet_mem _ _ (by decide)]
  simp

/-- **C06.** Without force a prefix is refused iff one of its addresses has low scope; with force
it is never refused for this reason. -/
theorem prefix4_validate_scope_correct (p : Prefix4) (h : p.len ≤ 32) (force : Bool) :
    prefix4ValidateScope p force = true ↔ (force = true ∨ ∀ a, Mem4 p a → ¬ LowScope a) := by
  have key : prefix4HasSubnetScope p = true ↔ ∃ a, Mem4 p a ∧ LowScope a := by
    unfold prefix4HasSubnetScope
    rw [List.any_eq_true]
    constructor
    · rintro ⟨s, hs, hi⟩
      have hsl : s.len ≤ 32 := by
        clear hi; revert s; unfold scopeSubnets; decide
      obtain ⟨a, h1, h2⟩ := (prefix4_intersects_correct p s h hsl).1 hi
      exact ⟨a, h1, (lowScope_iff a).2 ⟨s, hs, h2⟩⟩
    · rintro ⟨a, h1, h2⟩
      obtain ⟨s, hs, h3⟩ := (lowScope_iff a).1 h2
      have hsl : s.len ≤ 32 := by
        clear h3; revert s; unfold scopeSubnets; decide
      exact ⟨s, hs, (prefix4_intersects_correct p s h hsl).2 ⟨a, h1, h3⟩⟩
  unfold prefix4ValidateScope
  cases force with
  | true => simp
  | false =>
    simp only [Bool.not_false, Bool.true_and, Bool.not_eq_true', Bool.false_eq_true, false_or]
    rw [← Bool.not_eq_true, key]
    constructor
    · intro hn a ha hl; exact hn ⟨a, ha, hl⟩
    · rintro hn ⟨a, ha, hl⟩; exact hn a ha hl

private theorem mask_eq (a c : Addr4) (len : Nat) (h : len ≤ 32) (hc : c &&& getPrefix4Mask len = c) :
    (a &&& getPrefix4Mask len == c) = true ↔ a.toNat / 2 ^ (32 - len) = c.toNat / 2 ^ (32 - len) := by
  rw [← prefix4Contains_iff_div ⟨c, len⟩ a h]
  unfold prefix4Contains
  simp only [hc, beq_iff_eq]
  exact eq_comm

/-- **C06.** The per-address test is the same list. -/
theorem addr4_scope_correct (a : Addr4) : addr4IsScopeSubnet a = true ↔ LowScope a := by
  have m8 : (0xff000000#32) = getPrefix4Mask 8 := by decide
  have m16 : (0xffff0000#32) = getPrefix4Mask 16 := by decide
  have m4 : (0xf0000000#32) = getPrefix4Mask 4 := by decide
  unfold addr4IsScopeSubnet LowScope
  rw [m8, m16, m4]
  simp only [Bool.or_eq_true]
  rw [mask_eq _ _ _ (by decide) (by decide), mask_eq _ _ _ (by decide) (by decide),
    mask_eq _ _ _ (by decide) (by decide), mask_eq _ _ _ (by decide) (by decide), beq_iff_eq,
    ← BitVec.toNat_inj]
  simp [or_assoc]

/-- Non-vacuity. -/
example : Canonical4 ⟨0xc0000200#32, 24⟩ := (prefix4_validate_correct _).1 (by decide)
example : ¬ Canonical4 ⟨0xc0000201#32, 24⟩ := fun h => absurd ((prefix4_validate_correct _).2 h) (by decide)
example : Canonical6 ⟨0x0064ff9b000000000000000000000000#128, 96⟩ :=
  (prefix6_validate_correct _).1 (by decide)
example : ¬ Canonical6 ⟨0x0064ff9b000000000000000000000001#128, 127⟩ := fun h =>
  absurd ((prefix6_validate_correct _).2 h) (by decide)
example : prefix4Intersects ⟨0x0a000000#32, 8⟩ ⟨0x0a010000#32, 16⟩ = true := by decide
example : prefix4ValidateScope ⟨0x00000000#32, 0⟩ false = false := by decide
example : LowScope 0x7f000001#32 := (addr4_scope_correct _).1 (by decide)

end Jool
