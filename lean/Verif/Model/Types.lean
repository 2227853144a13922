import Verif.Model.Addr
/-
Shared vocabulary: transport addresses, the outcome type with undefined behaviour.
-/
namespace Jool

/-- Reasons for which the C code has no defined behaviour (or never returns). -/
inductive UB | useAfterFree | nullDeref | outOfBounds | divByZero | infiniteLoop | uninitialized | badShift
deriving DecidableEq, Repr, Inhabited

/-- Outcome of running C code. -/
inductive Outcome (α : Type)
  | ok (a : α)
  | ub (u : UB)
deriving DecidableEq, Repr

namespace Outcome
def bind {α β} (o : Outcome α) (f : α → Outcome β) : Outcome β :=
  match o with
  | .ok a => f a
  | .ub u => .ub u

def map {α β} (f : α → β) (o : Outcome α) : Outcome β :=
  match o with
  | .ok a => .ok (f a)
  | .ub u => .ub u
end Outcome

/-- src/common/types.h:`l4_protocol` without OTHER. -/
inductive Proto | TCP | UDP | ICMP
deriving DecidableEq, Repr, Inhabited

/-- src/common/types.h `struct ipv4_transport_addr`. -/
structure T4 where
  addr : BitVec 32
  port : BitVec 16
deriving DecidableEq, Repr, Inhabited

/-- src/common/types.h `struct ipv6_transport_addr`. -/
structure T6 where
  addr : BitVec 128
  port : BitVec 16
deriving DecidableEq, Repr, Inhabited

/-- Sign of `memcmp` over two big-endian addresses (mod/address.h:83-87; kernel's `ipv6_addr_cmp`):
the numeric comparison. -/
def memcmpSign {n : Nat} (a b : BitVec n) : Int :=
  if a.toNat < b.toNat then -1 else if b.toNat < a.toNat then 1 else 0

/-- mod/address.c:280-290 `taddr4_compare`. -/
def taddr4Compare (a b : T4) : Int :=
  let gap := memcmpSign a.addr b.addr
  if gap ≠ 0 then gap else (a.port.toNat : Int) - (b.port.toNat : Int)

/-- mod/address.c:268-278 `taddr6_compare`. -/
def taddr6Compare (a b : T6) : Int :=
  let gap := memcmpSign a.addr b.addr
  if gap ≠ 0 then gap else (a.port.toNat : Int) - (b.port.toNat : Int)

/-- Position of a transport address in the order of `taddr4Compare`
(`taddr4Compare_neg`, `taddr4Compare_zero`). -/
def T4.key (a : T4) : Nat := a.addr.toNat * 65536 + a.port.toNat
/-- Position of a transport address in the order of `taddr6Compare`. -/
def T6.key (a : T6) : Nat := a.addr.toNat * 65536 + a.port.toNat

theorem T4.key_inj {a b : T4} (h : a.key = b.key) : a = b := by
  obtain ⟨a1, a2⟩ := a; obtain ⟨b1, b2⟩ := b
  simp only [T4.key] at h
  have ha := a2.isLt; have hb := b2.isLt
  have h1 : a1.toNat = b1.toNat := by omega
  have h2 : a2.toNat = b2.toNat := by omega
  rw [BitVec.eq_of_toNat_eq h1, BitVec.eq_of_toNat_eq h2]

theorem T6.key_inj {a b : T6} (h : a.key = b.key) : a = b := by
  obtain ⟨a1, a2⟩ := a; obtain ⟨b1, b2⟩ := b
  simp only [T6.key] at h
  have ha := a2.isLt; have hb := b2.isLt
  have h1 : a1.toNat = b1.toNat := by omega
  have h2 : a2.toNat = b2.toNat := by omega
  rw [BitVec.eq_of_toNat_eq h1, BitVec.eq_of_toNat_eq h2]

/-- The C comparison is the order of `key`: negative iff smaller. -/
theorem taddr4Compare_neg (a b : T4) : taddr4Compare a b < 0 ↔ a.key < b.key := by
  have ha := a.port.isLt; have hb := b.port.isLt
  unfold taddr4Compare memcmpSign T4.key
  by_cases h1 : a.addr.toNat < b.addr.toNat
  · simp [h1] <;> omega
  · by_cases h2 : b.addr.toNat < a.addr.toNat
    · simp [h1, h2] <;> omega
    · simp [h1, h2] <;> omega

theorem taddr4Compare_pos (a b : T4) : 0 < taddr4Compare a b ↔ b.key < a.key := by
  have ha := a.port.isLt; have hb := b.port.isLt
  unfold taddr4Compare memcmpSign T4.key
  by_cases h1 : a.addr.toNat < b.addr.toNat
  · simp [h1] <;> omega
  · by_cases h2 : b.addr.toNat < a.addr.toNat
    · simp [h1, h2] <;> omega
    · simp [h1, h2] <;> omega

theorem taddr4Compare_zero (a b : T4) : taddr4Compare a b = 0 ↔ a = b := by
  constructor
  · intro h
    have h1 := taddr4Compare_neg a b
    have h2 := taddr4Compare_pos a b
    exact T4.key_inj (by omega)
  · rintro rfl
    have h1 := taddr4Compare_neg a a
    have h2 := taddr4Compare_pos a a
    omega

theorem taddr6Compare_neg (a b : T6) : taddr6Compare a b < 0 ↔ a.key < b.key := by
  have ha := a.port.isLt; have hb := b.port.isLt
  unfold taddr6Compare memcmpSign T6.key
  by_cases h1 : a.addr.toNat < b.addr.toNat
  · simp [h1] <;> omega
  · by_cases h2 : b.addr.toNat < a.addr.toNat
    · simp [h1, h2] <;> omega
    · simp [h1, h2] <;> omega

theorem taddr6Compare_pos (a b : T6) : 0 < taddr6Compare a b ↔ b.key < a.key := by
  have ha := a.port.isLt; have hb := b.port.isLt
  unfold taddr6Compare memcmpSign T6.key
  by_cases h1 : a.addr.toNat < b.addr.toNat
  · simp [h1] <;> omega
  · by_cases h2 : b.addr.toNat < a.addr.toNat
    · simp [h1, h2] <;> omega
    · simp [h1, h2] <;> omega

theorem taddr6Compare_zero (a b : T6) : taddr6Compare a b = 0 ↔ a = b := by
  constructor
  · intro h
    have h1 := taddr6Compare_neg a b
    have h2 := taddr6Compare_pos a b
    exact T6.key_inj (by omega)
  · rintro rfl
    have h1 := taddr6Compare_neg a a
    have h2 := taddr6Compare_pos a a
    omega

end Jool
