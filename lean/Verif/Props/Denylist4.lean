import Verif.Model.Denylist4
import Verif.Props.Prefix
/-
C07: the denylist is a faithful multiset.

Specification: a function "how many live copies of each prefix".
-/
namespace Jool.Denylist4Spec
open Jool.Denylist4 PrefixSpec

/-- Abstract state: number of live copies. -/
abbrev Abs := Prefix4 → Nat

def bump (s : Abs) (p : Prefix4) (f : Nat → Nat) : Abs := fun q => if q = p then f (s q) else s q

/-- Is the prefix acceptable? Stated on the meaning of prefixes. -/
def Acceptable (p : Prefix4) (force : Bool) : Prop :=
  Canonical4 p ∧ (force = true ∨ ∀ a, Mem4 p a → ¬ LowScope a)

/-- Allowed transitions of the abstract denylist, with the answer. -/
inductive Step : Abs → Op → Abs → Option Err → Prop
  | addOk (s p force) : Acceptable p force → Step s (.add p force false) (bump s p (· + 1)) none
  | addBad (s p force oom) : ¬ Acceptable p force → Step s (.add p force oom) s (some .EINVAL)
  | addOom (s p force) : Acceptable p force → Step s (.add p force true) s (some .ENOMEM)
  | rmOk (s p) : 0 < s p → Step s (.rm p) (bump s p (· - 1)) none
  | rmNo (s p) : s p = 0 → Step s (.rm p) s (some .ESRCH)
  | flushOk (s) : Step s (.flush false) (fun _ => 0) none
  | flushOom (s) : Step s (.flush true) s (some .ENOMEM)

/-- Abstract executions. -/
inductive Exec : Abs → List Op → Abs → List (Option Err) → Prop
  | nil (s) : Exec s [] s []
  | cons {s op s1 r ops s2 rs} : Step s op s1 r → Exec s1 ops s2 rs →
      Exec s (op :: ops) s2 (r :: rs)

end Jool.Denylist4Spec

namespace Jool.Denylist4
open Denylist4Spec PrefixSpec

/-- Abstraction: count the copies. -/
def abs (l : Pool) : Abs := fun p => l.count p

private theorem rmLoop_some (p : Prefix4) (l l' : Pool) (h : rmLoop p l = some l') :
    0 < l.count p ∧ ∀ q, l'.count q = if q = p then l.count q - 1 else l.count q := by
  induction l generalizing l' with
  | nil => simp [rmLoop] at h
  | cons e es ih =>
    simp only [rmLoop] at h
    split at h
    · rename_i hp
      subst hp
      cases h
      refine ⟨by simp, fun q => ?_⟩
      by_cases hq : q = p
      · subst hq; simp
      · have : ¬ p = q := fun e => hq e.symm
        simp [hq, this]
    · rename_i hp
      cases hr : rmLoop p es with
      | none => simp [hr] at h
      | some es' =>
        simp [hr] at h
        subst h
        obtain ⟨h1, h2⟩ := ih es' hr
        refine ⟨by rw [List.count_cons]; omega, fun q => ?_⟩
        rw [List.count_cons, List.count_cons, h2 q]
        by_cases hq : q = p
        · subst hq
          have : ¬ e = q := fun x => hp x.symm
          simp [this]
        · simp [hq]

private theorem rmLoop_none (p : Prefix4) (l : Pool) (h : rmLoop p l = none) : l.count p = 0 := by
  induction l with
  | nil => rfl
  | cons e es ih =>
    simp only [rmLoop] at h
    split at h
    · simp at h
    · rename_i hp
      have : ¬ e = p := fun x => hp x.symm
      simp at h
      rw [List.count_cons, ih h]; simp [this]

private theorem acceptable_iff (p : Prefix4) (force : Bool) :
    (prefix4Validate p = true ∧ prefix4ValidateScope p force = true) ↔ Acceptable p force := by
  unfold Acceptable
  rw [prefix4_validate_correct]
  constructor
  · rintro ⟨h1, h2⟩; exact ⟨h1, (prefix4_validate_scope_correct p h1.1 force).1 h2⟩
  · rintro ⟨h1, h2⟩; exact ⟨h1, (prefix4_validate_scope_correct p h1.1 force).2 h2⟩

/-- One request refines one abstract step, answer included. -/
theorem step_refines (l : Pool) (op : Op) : Step (abs l) op (abs (step l op).1) (step l op).2 := by
  cases op with
  | add p force oom =>
    have hacc := acceptable_iff p force
    simp only [step, add]
    cases h1 : prefix4Validate p with
    | false =>
      simp only [Bool.not_false, if_true]
      exact .addBad _ _ _ _ (fun h => by have := (hacc.2 h).1; simp [h1] at this)
    | true =>
      cases h2 : prefix4ValidateScope p force with
      | false =>
        simp only [Bool.not_true, Bool.false_eq_true, if_false, Bool.not_false, if_true]
        exact .addBad _ _ _ _ (fun h => by have := (hacc.2 h).2; simp [h2] at this)
      | true =>
        have ha := hacc.1 ⟨h1, h2⟩
        cases oom with
        | true => simpa using Step.addOom (abs l) p force ha
        | false =>
          have e : abs (l ++ [p]) = bump (abs l) p (· + 1) := by
            funext q
            simp only [abs, bump, List.count_append, List.count_cons, List.count_nil]
            by_cases hq : q = p
            · subst hq; simp
            · have : ¬ p = q := fun x => hq x.symm
              simp [hq, this]
          simp only [Bool.not_true, Bool.false_eq_true, if_false]
          rw [e]
          exact .addOk _ _ _ ha
  | rm p =>
    simp only [step, rm]
    cases h : rmLoop p l with
    | none => exact .rmNo _ _ (rmLoop_none p l h)
    | some l' =>
      obtain ⟨h1, h2⟩ := rmLoop_some p l l' h
      have e : abs l' = bump (abs l) p (· - 1) := by
        funext q
        simp only [abs, bump]
        exact h2 q
      simp only
      rw [e]
      exact .rmOk _ _ h1
  | flush oom =>
    cases oom with
    | true => exact .flushOom _
    | false =>
      have : abs ([] : Pool) = fun _ => 0 := by funext q; rfl
      simp only [step, flush, Bool.false_eq_true, if_false]
      rw [this]
      exact .flushOk _

/-- **C07.** Every history of requests is an execution of the abstract multiset with the same
answers. -/
theorem denylist_refines (l : Pool) (ops : List Op) :
    Exec (abs l) ops (abs (run l ops).1) (run l ops).2 := by
  induction ops generalizing l with
  | nil => exact .nil _
  | cons op ops ih =>
    simp only [run]
    exact .cons (step_refines l op) (ih _)

/-- Everything ever stored is a canonical prefix. -/
theorem run_canonical (l : Pool) (ops : List Op) (h : ∀ p ∈ l, Canonical4 p) :
    ∀ p ∈ (run l ops).1, Canonical4 p := by
  induction ops generalizing l with
  | nil => exact h
  | cons op ops ih =>
    simp only [run]
    apply ih
    have st := step_refines l op
    intro p hp
    have hc : 0 < abs (step l op).1 p := List.count_pos_iff.2 hp
    generalize abs (step l op).1 = s1 at st hc
    generalize (step l op).2 = r at st
    cases st with
    | addOk p' force ha =>
      by_cases hq : p = p'
      · subst hq; exact ha.1
      · simp only [bump, hq, if_false] at hc; exact h p (List.count_pos_iff.1 hc)
    | addBad => exact h p (List.count_pos_iff.1 hc)
    | addOom => exact h p (List.count_pos_iff.1 hc)
    | rmOk p' _ =>
      by_cases hq : p = p'
      · subst hq; simp only [bump, if_true] at hc; exact h p (List.count_pos_iff.1 (by unfold abs at hc; omega))
      · simp only [bump, hq, if_false] at hc; exact h p (List.count_pos_iff.1 hc)
    | rmNo => exact h p (List.count_pos_iff.1 hc)
    | flushOk => exact absurd hc (Nat.lt_irrefl 0)
    | flushOom => exact h p (List.count_pos_iff.1 hc)

private theorem contains_iff (l : Pool) (a : Addr4) :
    contains l a = true ↔ ∃ p ∈ l, prefix4Contains p a = true := by
  induction l with
  | nil => simp [contains]
  | cons e es ih =>
    simp only [contains]
    split
    · rename_i h; simp [h]
    · rename_i h; simp [h, ih]

/-- **C07.** After any history starting from the empty denylist, an address is denied iff it
belongs to a prefix with a live copy. -/
theorem denylist_contains_correct (ops : List Op) (a : Addr4) :
    contains (run [] ops).1 a = true ↔ ∃ p, 0 < abs (run [] ops).1 p ∧ Mem4 p a := by
  have hc := run_canonical [] ops (by simp)
  rw [contains_iff]
  constructor
  · rintro ⟨p, hp, hm⟩
    exact ⟨p, List.count_pos_iff.2 hp, (prefix4_contains_correct p a (hc p hp).1).1 hm⟩
  · rintro ⟨p, hp, hm⟩
    have hp := List.count_pos_iff.1 hp
    exact ⟨p, hp, (prefix4_contains_correct p a (hc p hp).1).2 hm⟩

/-! ### Listing -/

private theorem foreachLoop_none (l : Pool) (cap : Nat) :
    foreachLoop l none cap = (l.take cap, none, if cap < l.length then 1 else 0) := by
  induction l generalizing cap with
  | nil => cases cap <;> simp [foreachLoop]
  | cons e es ih =>
    cases cap with
    | zero => simp [foreachLoop]
    | succ n => simp [foreachLoop, ih n]

private theorem foreachLoop_some (o : Prefix4) (a b : Pool) (cap : Nat) (h : o ∉ a) :
    foreachLoop (a ++ o :: b) (some o) cap = foreachLoop b none cap := by
  induction a with
  | nil => simp [foreachLoop]
  | cons e es ih =>
    have h1 : ¬ o = e := by intro x; subst x; simp at h
    have h2 : o ∉ es := by intro x; simp [x] at h
    simp [foreachLoop, h1, ih h2]

private theorem page_split (b : Pool) (cap : Nat) (h0 : 0 < cap) (h1 : cap < b.length) :
    ∃ t last, b.take cap = t ++ [last] ∧ b = t ++ last :: b.drop cap := by
  have hne : b.take cap ≠ [] := by
    rw [ne_eq, List.take_eq_nil_iff]
    rintro (h | h)
    · omega
    · subst h; simp at h1
  refine ⟨_, _, (List.dropLast_concat_getLast hne).symm, ?_⟩
  have := List.take_append_drop cap b
  rw [← List.dropLast_concat_getLast hne, List.append_assoc] at this
  exact this.symm

private theorem client_after (a b : Pool) (o : Prefix4) (cap fuel : Nat) (hcap : 0 < cap)
    (hf : b.length < fuel) (hn : (a ++ o :: b).Nodup) :
    client (a ++ o :: b) cap fuel (some o) = some b := by
  induction fuel generalizing a o b with
  | zero => omega
  | succ n ih =>
    have hoa : o ∉ a := by
      intro hmem
      have := (List.nodup_append.1 hn).2.2 o hmem o (by simp)
      exact this rfl
    simp only [client, foreach]
    rw [foreachLoop_some o a b cap hoa, foreachLoop_none]
    by_cases hlt : cap < b.length
    · obtain ⟨t, last, ht, e1⟩ := page_split b cap hcap hlt
      have e2 : a ++ o :: b = (a ++ o :: t) ++ last :: b.drop cap := by
        conv => lhs; rw [e1]
        simp
      have hg : (List.take cap b).getLast? = some last := by rw [ht]; simp
      have hrec := ih (a ++ o :: t) (b.drop cap) last (by simp; omega) (e2 ▸ hn)
      rw [← e2] at hrec
      simp [hlt, hg, hrec]
    · rw [List.take_of_length_le (by omega)]
      simp [hlt]

/-- **C07 (listing, partial).** Whatever the page size, the paginated listing of a denylist
*without repeated prefixes* returns every entry exactly once, in order.
Missing: repeated prefixes (see `denylist_listing_loops`). -/
theorem denylist_listing_partial (l : Pool) (cap : Nat) (hcap : 0 < cap) (hn : l.Nodup) :
    client l cap (l.length + 1) none = some l := by
  simp only [client, foreach, foreachLoop_none]
  by_cases hlt : cap < l.length
  · obtain ⟨t, last, ht, e1⟩ := page_split l cap hcap hlt
    have hg : (List.take cap l).getLast? = some last := by rw [ht]; simp
    have hrec := client_after t (l.drop cap) last cap l.length hcap (by simp; omega) (e1 ▸ hn)
    rw [← e1] at hrec
    simp [hlt, hg, hrec]
  · rw [List.take_of_length_le (by omega)]
    simp [hlt]

/-- The history of the counterexample below: the same prefix twice (which the kernel module
accepts), then another one. -/
def loopHistory : List Op :=
  [.add ⟨0xc0000200#32, 24⟩ false false, .add ⟨0xc0000200#32, 24⟩ false false,
   .add ⟨0xc6336400#32, 24⟩ false false]

private theorem loop_page (fuel : Nat) (p q : Prefix4) :
    client [p, p, q] 1 fuel (some p) = none := by
  induction fuel with
  | zero => rfl
  | succ n ih => simp [client, foreach, foreachLoop, ih]

/-- **C07 (listing), negative.** The full statement "pagination neither repeats nor omits" fails:
`denylist4_add` accepts duplicates, and when a page ends at the second copy the next request
restarts after the *first* one. The client never finishes, whatever number of requests it makes. -/
theorem denylist_listing_loops :
    ∃ ops, (run [] ops).2 = [none, none, none] ∧
      ∀ fuel, client (run [] ops).1 1 fuel none = none := by
  refine ⟨loopHistory, by decide, fun fuel => ?_⟩
  have e : (run [] loopHistory).1 =
      [⟨0xc0000200#32, 24⟩, ⟨0xc0000200#32, 24⟩, ⟨0xc6336400#32, 24⟩] := by decide
  rw [e]
  cases fuel with
  | zero => rfl
  | succ n =>
    have h := loop_page n ⟨0xc0000200#32, 24⟩ ⟨0xc6336400#32, 24⟩
    simp [client, foreach, foreachLoop, h]

/-- Non-vacuity: a history with an accepted, a refused and a removed prefix. -/
example : run [] [.add ⟨0xc0000200#32, 24⟩ false false, .add ⟨0x7f000000#32, 8⟩ false false,
      .add ⟨0xc6336400#32, 24⟩ false false, .rm ⟨0xc0000200#32, 24⟩]
    = ([⟨0xc6336400#32, 24⟩], [none, some .EINVAL, none, none]) := by decide
example : client [⟨0xc0000200#32, 24⟩, ⟨0xc6336400#32, 24⟩, ⟨0xcb007100#32, 24⟩] 1 4 none
    = some [⟨0xc0000200#32, 24⟩, ⟨0xc6336400#32, 24⟩, ⟨0xcb007100#32, 24⟩] := by decide

end Jool.Denylist4
