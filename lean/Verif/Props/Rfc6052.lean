import Verif.Lemmas.Rfc6052
import Mathlib.Tactic.IntervalCases
/-
C01–C03: RFC 6052 address mapping.

The specification is written on bit positions, straight from RFC 6052 section 2.2: after the
prefix come the 32 bits of the IPv4 address, skipping bits 64..71 (the reserved "u" octet) unless
the prefix is 96 bits long; everything else is zero.
-/
namespace Jool.Rfc6052Spec

/-- RFC 6052 section 2.2: the allowed prefix lengths. -/
def legal (len : Nat) : Prop := len = 32 ∨ len = 40 ∨ len = 48 ∨ len = 56 ∨ len = 64 ∨ len = 96

/-- Position, in the IPv6 address, of bit `i` of the IPv4 address. -/
def pos (len i : Nat) : Nat := if len + i < 64 ∨ len = 96 then len + i else len + i + 8

/-- `x` is the IPv4-embedded IPv6 address of `a` under prefix `p`. -/
structure Layout (p : Prefix6) (a : Addr4) (x : Addr6) : Prop where
  pref : ∀ j, j < p.len → x.getMsbD j = p.addr.getMsbD j
  v4 : ∀ i, i < 32 → x.getMsbD (pos p.len i) = a.getMsbD i
  rest : ∀ j, j < 128 → p.len ≤ j → (∀ i, i < 32 → j ≠ pos p.len i) → x.getMsbD j = false

/-- An IPv6 address with nothing but zeros outside of the prefix and the IPv4 bits. -/
def Canonical (len : Nat) (x : Addr6) : Prop :=
  ∀ j, j < 128 → len ≤ j → (∀ i, i < 32 → j ≠ pos len i) → x.getMsbD j = false

instance (len : Nat) : Decidable (legal len) := by unfold legal; infer_instance

end Jool.Rfc6052Spec

namespace Jool
open Rfc6052Spec

/-- A layout determines every bit. -/
theorem Rfc6052Spec.Layout.unique {p : Prefix6} {a : Addr4} {x y : Addr6}
    (hx : Layout p a x) (hy : Layout p a y) : x = y := by
  apply Addr6.ext_bits
  intro j hj
  by_cases h1 : j < p.len
  · rw [hx.pref j h1, hy.pref j h1]
  · by_cases h2 : ∃ i, i < 32 ∧ j = pos p.len i
    · obtain ⟨i, hi, rfl⟩ := h2
      rw [hx.v4 i hi, hy.v4 i hi]
    · rw [hx.rest j hj (by omega) (fun i hi e => h2 ⟨i, hi, e⟩),
        hy.rest j hj (by omega) (fun i hi e => h2 ⟨i, hi, e⟩)]


private theorem bit6 (x : Addr6) (k r : Nat) (hk : k < 16) (hr : r < 8) :
    x.getMsbD (8 * k + r) = (x.byte k).getMsbD r := (Addr6.byte_getMsbD x k r hk hr).symm

private theorem bit4 (x : Addr4) (k r : Nat) (hk : k < 4) (hr : r < 8) :
    x.getMsbD (8 * k + r) = (Addr4.byte x k).getMsbD r := (Addr4.byte_getMsbD x k r hk hr).symm

/-- Split a bit position in byte and bit. -/
private theorem split8 (j : Nat) : ∃ k r, r < 8 ∧ j = 8 * k + r := ⟨j / 8, j % 8, by omega, by omega⟩

private theorem bit6' (x : Addr6) (n k r : Nat) (hn : n = 8 * k + r) (hk : k < 16) (hr : r < 8) :
    x.getMsbD n = (x.byte k).getMsbD r := by subst hn; exact bit6 x k r hk hr

/-- **C02.** Embedding succeeds exactly for the legal lengths, and then yields exactly the layout
of RFC 6052. -/
theorem rfc6052_4to6_correct (p : Prefix6) (a : Addr4) (x : Addr6) :
    rfc6052_4to6 p a = some x ↔ legal p.len ∧ Layout p a x := by
  have fwd : ∀ x, rfc6052_4to6 p a = some x → legal p.len ∧ Layout p a x := by
    intro x h
    unfold rfc6052_4to6 at h
    obtain ⟨paddr, plen⟩ := p
    simp only at h
    split at h
    all_goals try (simp at h; done)
    all_goals
      (rw [Option.some.injEq] at h
       refine ⟨by simp [legal], ?_, ?_, ?_⟩
       · intro j hj
         obtain ⟨k, r, hr, rfl⟩ := split8 j
         have hk : k < 12 := by simp only at hj; omega
         rw [bit6 _ _ _ (by omega) hr, bit6 _ _ _ (by omega) hr, ← h]
         simp only at hj
         interval_cases k <;> first | (simp; done) | omega
       · intro j hj
         obtain ⟨k, r, hr, rfl⟩ := split8 j
         have hk : k < 4 := by omega
         rw [bit4 _ _ _ (by omega) hr]
         simp only [pos, or_true, if_true]
         interval_cases k
         all_goals
           (first
            | rw [if_pos (by omega)]
            | rw [if_neg (by omega)]
            | skip)
         all_goals
           (first | rw [bit6' _ _ 0 r (by omega) (by omega) hr] | rw [bit6' _ _ 1 r (by omega) (by omega) hr] | rw [bit6' _ _ 2 r (by omega) (by omega) hr] | rw [bit6' _ _ 3 r (by omega) (by omega) hr] | rw [bit6' _ _ 4 r (by omega) (by omega) hr] | rw [bit6' _ _ 5 r (by omega) (by omega) hr] | rw [bit6' _ _ 6 r (by omega) (by omega) hr] | rw [bit6' _ _ 7 r (by omega) (by omega) hr] | rw [bit6' _ _ 8 r (by omega) (by omega) hr] | rw [bit6' _ _ 9 r (by omega) (by omega) hr] | rw [bit6' _ _ 10 r (by omega) (by omega) hr] | rw [bit6' _ _ 11 r (by omega) (by omega) hr] | rw [bit6' _ _ 12 r (by omega) (by omega) hr] | rw [bit6' _ _ 13 r (by omega) (by omega) hr] | rw [bit6' _ _ 14 r (by omega) (by omega) hr] | rw [bit6' _ _ 15 r (by omega) (by omega) hr])
         all_goals (rw [← h]; simp)
       · intro j hj hge hne
         obtain ⟨k, r, hr, rfl⟩ := split8 j
         have hk : k < 16 := by omega
         simp only at hge hne
         simp only [pos, or_true, if_true] at hne
         rw [bit6 _ _ _ (by omega) hr, ← h]
         interval_cases k
         all_goals
           (first
            | (exfalso; omega)
            | (simp; done)
            | (exfalso
               first
               | (refine hne (r + 0) ?_ ?_ <;> (try split) <;> omega)
               | (refine hne (r + 8) ?_ ?_ <;> (try split) <;> omega)
               | (refine hne (r + 16) ?_ ?_ <;> (try split) <;> omega)
               | (refine hne (r + 24) ?_ ?_ <;> (try split) <;> omega))))
  constructor
  · exact fwd x
  · rintro ⟨hl, hx⟩
    have : ∃ y, rfc6052_4to6 p a = some y := by
      unfold rfc6052_4to6
      rcases hl with h | h | h | h | h | h <;> simp [h]
    obtain ⟨y, hy⟩ := this
    rw [hy, Layout.unique (fwd y hy).2 hx]

/-- **C02.** Extraction succeeds exactly on addresses of the prefix (legal lengths only) and
returns the bits at the RFC 6052 positions. -/
theorem rfc6052_6to4_correct (p : Prefix6) (x : Addr6) (a : Addr4) :
    rfc6052_6to4 p x = some a ↔
      legal p.len ∧ (∀ j, j < p.len → x.getMsbD j = p.addr.getMsbD j) ∧
      (∀ i, i < 32 → x.getMsbD (pos p.len i) = a.getMsbD i) := by
  have fwd : ∀ a, rfc6052_6to4 p x = some a →
      legal p.len ∧ (∀ j, j < p.len → x.getMsbD j = p.addr.getMsbD j) ∧
      (∀ i, i < 32 → x.getMsbD (pos p.len i) = a.getMsbD i) := by
    intro a h
    unfold rfc6052_6to4 at h
    split at h
    · simp at h
    · rename_i hc
      have hc : prefix6Contains p x = true := by simpa using hc
      obtain ⟨paddr, plen⟩ := p
      simp only at h
      split at h
      all_goals try (simp at h; done)
      all_goals
        (rw [Option.some.injEq] at h
         refine ⟨by simp [legal], (prefix6Contains_iff_bits _ x (by simp)).1 hc, ?_⟩
         intro j hj
         obtain ⟨k, r, hr, rfl⟩ := split8 j
         have hk : k < 4 := by omega
         rw [bit4 _ _ _ (by omega) hr]
         simp only [pos, or_true, if_true]
         interval_cases k
         all_goals
           (first
            | rw [if_pos (by omega)]
            | rw [if_neg (by omega)]
            | skip)
         all_goals
           (first | rw [bit6' _ _ 0 r (by omega) (by omega) hr] | rw [bit6' _ _ 1 r (by omega) (by omega) hr] | rw [bit6' _ _ 2 r (by omega) (by omega) hr] | rw [bit6' _ _ 3 r (by omega) (by omega) hr] | rw [bit6' _ _ 4 r (by omega) (by omega) hr] | rw [bit6' _ _ 5 r (by omega) (by omega) hr] | rw [bit6' _ _ 6 r (by omega) (by omega) hr] | rw [bit6' _ _ 7 r (by omega) (by omega) hr] | rw [bit6' _ _ 8 r (by omega) (by omega) hr] | rw [bit6' _ _ 9 r (by omega) (by omega) hr] | rw [bit6' _ _ 10 r (by omega) (by omega) hr] | rw [bit6' _ _ 11 r (by omega) (by omega) hr] | rw [bit6' _ _ 12 r (by omega) (by omega) hr] | rw [bit6' _ _ 13 r (by omega) (by omega) hr] | rw [bit6' _ _ 14 r (by omega) (by omega) hr] | rw [bit6' _ _ 15 r (by omega) (by omega) hr])
         all_goals (rw [← h]; simp))
  constructor
  · exact fwd a
  · rintro ⟨hl, hp, hx⟩
    have hlen : p.len ≤ 128 := by rcases hl with h | h | h | h | h | h <;> omega
    have hc : prefix6Contains p x = true := (prefix6Contains_iff_bits p x hlen).2 hp
    have : ∃ y, rfc6052_6to4 p x = some y := by
      unfold rfc6052_6to4
      rcases hl with h | h | h | h | h | h <;> simp [h, hc]
    obtain ⟨y, hy⟩ := this
    rw [hy]
    congr 1
    apply Addr4.ext_bits
    intro j hj
    rw [← (fwd y hy).2.2 j hj, hx j hj]

/-- **C01.** Embedding then extracting with the same prefix returns the original address. -/
theorem rfc6052_roundtrip (p : Prefix6) (a : Addr4) (h : legal p.len) :
    ∃ x, rfc6052_4to6 p a = some x ∧ rfc6052_6to4 p x = some a := by
  have : ∃ y, rfc6052_4to6 p a = some y := by
    unfold rfc6052_4to6
    rcases h with h | h | h | h | h | h <;> simp [h]
  obtain ⟨x, hx⟩ := this
  have L := ((rfc6052_4to6_correct p a x).1 hx).2
  exact ⟨x, hx, (rfc6052_6to4_correct p x a).2 ⟨h, L.pref, L.v4⟩⟩

/-- **C02.** Illegal lengths are refused in both directions; addresses outside of the prefix are
refused. -/
theorem rfc6052_refusals (p : Prefix6) :
    (¬ legal p.len → ∀ a, rfc6052_4to6 p a = none) ∧
    (¬ legal p.len → ∀ x, rfc6052_6to4 p x = none) ∧
    (∀ x j, j < p.len → x.getMsbD j ≠ p.addr.getMsbD j → rfc6052_6to4 p x = none) := by
  refine ⟨fun h a => ?_, fun h x => ?_, fun x j hj hne => ?_⟩
  · cases e : rfc6052_4to6 p a with
    | none => rfl
    | some x => exact absurd ((rfc6052_4to6_correct p a x).1 e).1 h
  · cases e : rfc6052_6to4 p x with
    | none => rfl
    | some a => exact absurd ((rfc6052_6to4_correct p x a).1 e).1 h
  · cases e : rfc6052_6to4 p x with
    | none => rfl
    | some a => exact absurd (((rfc6052_6to4_correct p x a).1 e).2.1 j hj) hne

/-- **C03.** Embedding is injective (even across which prefix bits are set beyond its length). -/
theorem rfc6052_4to6_injective (p : Prefix6) (a b : Addr4) (x : Addr6)
    (ha : rfc6052_4to6 p a = some x) (hb : rfc6052_4to6 p b = some x) : a = b := by
  have La := ((rfc6052_4to6_correct p a x).1 ha).2
  have Lb := ((rfc6052_4to6_correct p b x).1 hb).2
  apply Addr4.ext_bits
  intro j hj
  rw [← La.v4 j hj, Lb.v4 j hj]

/-- **C03.** Extract-then-embed gives back the same IPv6 address exactly when everything outside of
the prefix and the IPv4 bits is zero. -/
theorem rfc6052_extract_embed (p : Prefix6) (x : Addr6) (a : Addr4)
    (h : rfc6052_6to4 p x = some a) :
    rfc6052_4to6 p a = some x ↔ Canonical p.len x := by
  obtain ⟨hl, hp, hv⟩ := (rfc6052_6to4_correct p x a).1 h
  rw [rfc6052_4to6_correct]
  constructor
  · rintro ⟨_, L⟩; exact L.rest
  · intro hc; exact ⟨hl, hp, hv, hc⟩

/-- **C03.** Two IPv6 addresses with the same IPv4 image which are both canonical are equal. -/
theorem rfc6052_6to4_injective_on_canonical (p : Prefix6) (x y : Addr6) (a : Addr4)
    (hx : rfc6052_6to4 p x = some a) (hy : rfc6052_6to4 p y = some a)
    (cx : Canonical p.len x) (cy : Canonical p.len y) : x = y := by
  have e1 := (rfc6052_extract_embed p x a hx).2 cx
  have e2 := (rfc6052_extract_embed p y a hy).2 cy
  rw [e1] at e2
  exact Option.some.inj e2

/-- Non-vacuity: the well-known prefix and 192.0.2.33. -/
example : rfc6052_4to6 ⟨0x0064ff9b000000000000000000000000#128, 96⟩ 0xc0000221#32
    = some 0x0064ff9b0000000000000000c0000221#128 := by decide
/-- RFC 6052 section 2.4's example for a /40. -/
example : rfc6052_4to6 ⟨0x20010db8010000000000000000000000#128, 40⟩ 0xc0000221#32
    = some 0x20010db801c000020021000000000000#128 := by decide
example : rfc6052_6to4 ⟨0x20010db8010000000000000000000000#128, 40⟩
    0x20010db801c000020021000000000000#128 = some 0xc0000221#32 := by decide
/-- A non-canonical address (garbage in the reserved octet) does not round-trip. -/
example : rfc6052_6to4 ⟨0x20010db8010000000000000000000000#128, 40⟩
    0x20010db801c00002ff21000000000000#128 = some 0xc0000221#32 := by decide

end Jool
