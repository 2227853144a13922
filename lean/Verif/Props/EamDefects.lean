import Verif.Props.EamTable
import Verif.Props.RtrieDefects
/-
C08–C10, C12: histories that the EAMT gets wrong, and histories that the theorems cover.
-/
namespace Jool.Eam
open Jool.Rtrie (Key Trie Code)
open Jool.PrefixSpec

private def e (a6 : Addr6) (l6 : Nat) (a4 : Addr4) (l4 : Nat) : Entry := ⟨⟨a6, l6⟩, ⟨a4, l4⟩⟩
private def A (x : Entry) : Op := .add .all x false
private def AF (x : Entry) : Op := .add .all x true
private def R4 (x : Entry) : Op := .rm .all none (some x.p4)

/-- What an address is translated to at the end of a history, and which entry did it. -/
def after46 (os : List Op) (a : Addr4) : Outcome (List Code × Option (Addr6 × Entry)) :=
  (run init os).bind (fun p => (xlat46 p.1 a).map (fun r => (p.2, r)))
def after64 (os : List Op) (a : Addr6) : Outcome (List Code × Option (Addr4 × Entry)) :=
  (run init os).bind (fun p => (xlat64 p.1 a).map (fun r => (p.2, r)))

/-! 10.0.0.64/26, 10.0.0.128/25 and 10.0.0.0/24, with unrelated IPv6 prefixes. -/
private def a64 : Entry := e 0x20010db8000000010000000000000000#128 64 0x0A000040#32 26
private def a128 : Entry := e 0x20010db8000000020000000000000000#128 64 0x0A000080#32 25
private def a0 : Entry := e 0x20010db8000000030000000000000000#128 64 0x0A000000#32 24

/-- C10 is false: without the force flag, a prefix that contains an existing one is accepted. Only the first address of
the new prefix is looked up. -/
theorem superset_accepted :
    (run init [A a64, A a0]).map (·.2) = .ok [.ok, .ok] ∧ In4 a0.p4 a64.p4 ∧ a0.p4 ≠ a64.p4 := by
  refine ⟨by decide +kernel, ⟨by decide, ?_⟩, by decide⟩
  exact (prefix4_contains_correct _ _ (by decide)).1 (by decide +kernel)

/-- C09 is false, and no force flag is needed: three additions and one removal write to freed memory. -/
theorem use_after_free : (run init [A a64, A a128, A a0, R4 a64]).map (·.2) = .ub .useAfterFree := by decide +kernel

/-! 10.0.0.0/8, 10.0.0.0/11, 10.32.0.0/11, 10.0.0.0/10, 10.0.0.0/9, with unrelated IPv6 prefixes. -/
private def b8 : Entry := e 0x20010db8000000080000000000000000#128 64 0x0A000000#32 8
private def b11 : Entry := e 0x20010db80000000b0000000000000000#128 64 0x0A000000#32 11
private def b11' : Entry := e 0x20010db80000001b0000000000000000#128 64 0x0A200000#32 11
private def b10 : Entry := e 0x20010db80000000a0000000000000000#128 64 0x0A000000#32 10
private def b9 : Entry := e 0x20010db8000000090000000000000000#128 64 0x0A000000#32 9

/-- C08 is false: with these entries, 10.0.0.1 is translated with the one of 10.0.0.0/9 and not with the longest,
10.0.0.0/11. -/
theorem not_longest :
    (after46 [AF b8, AF b11, AF b11', AF b10, AF b9] 0x0A000001#32).map (fun r => (r.1, r.2.map (·.2))) =
      .ok ([.ok, .ok, .ok, .ok, .ok], some b9) := by decide +kernel

/-- C12 is false: removing an entry whose IPv4 prefix has two others inside needs memory for the IPv4 half. If there is
none, the IPv6 half has already lost the entry: it is still used from 4 to 6, no longer from 6 to 4, it still counts,
and it cannot be removed anymore by its IPv6 prefix. -/
theorem rm_nomem_diverges :
    (run init [AF b8, AF b11, AF b11', .rm { Mem.all with inode4 := false } none (some b8.p4)]).bind (fun p =>
      (xlat64 p.1 0x20010db8000000080000000000000001#128).bind (fun r6 =>
        (xlat46 p.1 0x0AFF0001#32).map (fun r4 => (p.2, r6.map (·.2), r4.map (·.2), p.1.count)))) =
      .ok ([.ok, .ok, .ok, .enomem], none, some b8, 3) ∧
    (run init [AF b8, AF b11, AF b11', .rm { Mem.all with inode4 := false } none (some b8.p4),
      .rm .all (some b8.p6) none, .rm .all none (some b8.p4)]).map (·.2) =
      .ok [.ok, .ok, .ok, .enomem, .esrch, .esrch] := by
  refine ⟨by decide +kernel, by decide +kernel⟩

/-- `eamt_is_empty` (unused so far) answers the opposite. -/
theorem isEmpty_inverted {t : Eamt} {M : List Entry} (h : Holds t M) : isEmpty t = true ↔ M ≠ [] := by
  unfold isEmpty
  rw [Rtrie.isEmpty_inverted h.r6]
  constructor
  · rintro ⟨k, hk⟩ rfl
    obtain ⟨x, hx, _⟩ := (tab_ne_none _).1 hk
    simp at hx
  · intro hne
    obtain ⟨x, hx⟩ := List.exists_mem_of_ne_nil M hne
    exact ⟨_, (tab_ne_none _).2 ⟨x, hx, rfl⟩⟩

/-! ## Covered cases -/

/-- Neighbours, without force: the history is `Plain`. It includes an addition that is refused and a removal. -/
example : Plain [] [A a64, A a128, A a64, R4 a64, .flush] := by
  have n1 : ¬ In4 a128.p4 a64.p4 := fun h => absurd ((prefix4_contains_correct _ _ (by decide)).2 h.2) (by decide +kernel)
  have n2 : ¬ In6 a128.p6 a64.p6 := fun h => absurd ((prefix6_contains_correct _ _ (by decide)).2 h.2) (by decide +kernel)
  have n3 : ¬ In4 a64.p4 a128.p4 := fun h => absurd ((prefix4_contains_correct _ _ (by decide)).2 h.2) (by decide +kernel)
  have n4 : ¬ In6 a64.p6 a128.p6 := fun h => absurd ((prefix6_contains_correct _ _ (by decide)).2 h.2) (by decide +kernel)
  have three : ∀ M : List Entry, (∀ x ∈ M, x = a64 ∨ x = a128) → Plain M [A a64, R4 a64, .flush] := by
    intro M hM
    refine ⟨?_, fun _ _ _ => ⟨fun _ _ _ h => by simp [R4] at h, fun _ _ _ => ⟨fun _ _ _ h => by simp at h,
      fun _ _ _ => trivial⟩⟩⟩
    rintro m x f ⟨⟩
    refine ⟨rfl, fun x hx => ?_⟩
    rcases hM x hx with rfl | rfl
    · exact ⟨fun _ => rfl, fun _ => rfl⟩
    · exact ⟨fun h => absurd h n4, fun h => absurd h n3⟩
  refine ⟨?_, ?_⟩
  · rintro m x f ⟨⟩; exact ⟨rfl, fun x hx => by simp at hx⟩
  · intro c M' hs
    have h1 : ∀ x ∈ M', x = a64 := by cases hs <;> simp
    refine ⟨?_, ?_⟩
    · rintro m x f ⟨⟩
      refine ⟨rfl, fun x hx => ?_⟩
      rw [h1 x hx]
      exact ⟨fun h => absurd h n2, fun h => absurd h n1⟩
    · intro c' M'' hs'
      apply three
      cases hs' <;> intro x hx
      · exact .inl (h1 x hx)
      · exact .inl (h1 x hx)
      · exact .inl (h1 x hx)
      · rcases List.mem_cons.1 hx with h | h
        · exact .inr h
        · exact .inl (h1 x h)

example : after46 [A a64, A a128, A a64] 0x0A000090#32 =
    .ok ([.ok, .ok, .eexist], some (0x20010db8000000022000000000000000#128, a128)) := by decide +kernel

example : (after46 [AF b8, AF b9, AF b10, AF b11] 0x0A000001#32).map (fun r => (r.1, r.2.map (·.2))) =
    .ok ([.ok, .ok, .ok, .ok], some b11) := by decide +kernel

end Jool.Eam
