import Verif.Props.InstList
import Verif.Props.XlatorDefects
/-
C80: counterexamples and examples.
-/
namespace Jool.InstList
open Jool.Xlator Jool.InstListSpec

def look (r : List (List Node) × End) : List (List (Nat × Name)) × End := (r.1.map fun p => p.map fun n => (n.xl.ns, n.xl.name), r.2)

/-- A list in two requests: the first after the operations `a`, the second after the operations `b` too. -/
def twice (a b : List Op) (k1 k2 : Nat) : Outcome (List (List (Nat × Name)) × End) :=
  (run H0 World.empty a).bind fun w => (run H0 w b).map fun w' => look (pages 1 none [(w, k1), (w', k2)])

def threeOps : List Op := [.add calm 0 9 [97] g96 false, .add calm 0 9 [98] g96 false, .add calm 0 9 [99] g96 false]

/-- Three instances, in two pages. -/
example : twice threeOps [] 2 2 = .ok ([[(0, [99]), (0, [98])], [(0, [97])]], .done) := by decide

/-- Others come and go (`listing_partial`). -/
example : twice threeOps [.add calm 0 9 [100] g96 false, .rm 0 1 [99]] 2 2 = .ok ([[(0, [99]), (0, [98])], [(0, [97])]], .done) := by decide

/-- The instance after which the list should continue is removed: the list fails (`listing_lost`). -/
example : twice threeOps [.rm 0 1 [98]] 2 2 = .ok ([[(0, [99]), (0, [98])]], .lost) := by decide

/-- An instance that is replaced between two pages (a configuration file is loaded) is missing in the list, although it exists before and after. -/
theorem replaced_missed : twice threeOps [.init calm 0 9 [97] g96, .replace calm 3] 2 2 = .ok ([[(0, [99]), (0, [98])], []], .done) := by decide

/-- If the last instance of a page is replaced, others are listed twice. -/
theorem replaced_twice : twice threeOps [.init calm 0 9 [98] g96, .replace calm 3] 2 2 = .ok ([[(0, [99]), (0, [98])], [(0, [99]), (0, [97])]], .done) := by decide

/-- So they are if it is removed and created again. -/
theorem recreated_twice : twice threeOps [.rm 0 1 [98], .add calm 0 9 [98] g96 false] 2 2 = .ok ([[(0, [99]), (0, [98])], [(0, [99]), (0, [97])]], .done) := by decide

/-- Two namespaces whose addresses only differ in the high 32 bits. -/
def lowOps : List Op := [.add calm 0 9 [98] g96 false, .add calm 4294967296 9 [97] g96 false, .add calm 0 9 [97] g96 false]

theorem low_serve : (run H0 World.empty lowOps).map (fun w =>
      ((match serve w 1 1 none with | .page [n] true => some (entryOf n) | _ => none),
        (match serve w 1 1 (some ⟨0, 8, [97]⟩) with | .page [n] true => some (entryOf n, n.xl.ns) | _ => none))) =
    .ok (some ⟨0, 8, [97]⟩, some (⟨0, 8, [97]⟩, 4294967296)) := by decide

/-- The list of their instances never ends, if they have the same name and a page ends between them; what comes after them is never listed. -/
theorem low_bits_forever : ∃ w, Reachable H0 w ∧ ∀ k, (pages 1 none (List.replicate k (w, 1))).2 = .unfinished := by
  obtain ⟨w, e⟩ := never_undefined H0 lowOps
  have h := low_serve
  rw [e] at h
  simp only [Outcome.map, Outcome.ok.injEq, Prod.mk.injEq] at h
  obtain ⟨h1, h2⟩ := h
  refine ⟨w, ⟨_, e⟩, ?_⟩
  have step : ∀ k, (pages 1 (some ⟨0, 8, [97]⟩) (List.replicate k (w, 1))).2 = .unfinished := by
    intro k
    induction k with
    | zero => rfl
    | succ k ih =>
      rw [List.replicate_succ, pages]
      split at h2
      · rename_i n hs
        rw [hs]
        simp only [Option.some.injEq, Prod.mk.injEq] at h2
        simp only [List.getLast?_singleton, h2.1]
        exact ih
      · cases h2
  intro k
  cases k with
  | zero => rfl
  | succ k =>
    rw [List.replicate_succ, pages]
    split at h1
    · rename_i n hs
      rw [hs]
      simp only [Option.some.injEq] at h1
      simp only [List.getLast?_singleton, h1]
      exact step k
    · cases h1

def distinctB (w : World) : Bool :=
  w.table.all fun m => w.table.all fun n => decide (m.xl.ns % 2 ^ 32 = n.xl.ns % 2 ^ 32 → m.xl.name = n.xl.name → m = n)

def checkB (w w' : World) : Bool :=
  distinctB w && distinctB w' && (match pages 1 none [(w, 2), (w', 2)] with
    | ([p, _], .done) => p.getLast?.all fun n => w'.table.contains n
    | _ => false)

theorem distinct_of {w : World} (h : distinctB w = true) : Distinct32 1 w := by
  intro m hm n hn _ _ h1 h2
  have := List.all_eq_true.1 (List.all_eq_true.1 h m hm) n hn
  exact of_decide_eq_true this h1 h2

/-- The hypotheses of `listing_partial` hold when others come and go. -/
example : ∃ w w', Reachable H0 w ∧ Linked H0 w [(w', 2)] ∧ (∀ q ∈ [(w, 2), (w', 2)], Distinct32 1 q.1) ∧ Kept (pages 1 none [(w, 2), (w', 2)]).1 [(w, 2), (w', 2)] ∧
    (pages 1 none [(w, 2), (w', 2)]).2 = .done := by
  have h : ((run H0 World.empty threeOps).bind fun w => (run H0 w [.add calm 0 9 [100] g96 false, .rm 0 1 [99]]).map fun w' => checkB w w') = .ok true := by decide
  obtain ⟨w, e, h⟩ := bind_ok h
  obtain ⟨w', e', h⟩ := map_ok h
  unfold checkB at h
  rw [Bool.and_eq_true, Bool.and_eq_true] at h
  obtain ⟨⟨h1, h2⟩, h3⟩ := h
  refine ⟨w, w', ⟨_, e⟩, ⟨⟨_, e'⟩, trivial⟩, ?_, ?_, ?_⟩
  · intro q hq
    simp only [List.mem_cons, List.not_mem_nil, or_false] at hq
    rcases hq with rfl | rfl
    · exact distinct_of h1
    · exact distinct_of h2
  · split at h3
    · rename_i p p2 hp
      rw [hp]
      intro i p' n x k g1 g2 g3
      match i with
      | 0 =>
        simp at g1 g3
        subst g1
        rw [g2] at h3
        rw [← g3.1]
        simpa using h3
      | i + 1 => simp at g3
    · cases h3
  · split at h3
    · rename_i hp; rw [hp]
    · cases h3

end Jool.InstList
