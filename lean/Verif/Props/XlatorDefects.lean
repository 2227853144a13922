import Verif.Props.XlatorReplace
/-
C48, C50: counterexamples and examples.
-/
namespace Jool.Xlator

/-- An environment in which everything works. -/
def calm : Env := ⟨true, fun _ => true, true, true, true, true⟩
/-- A hash function with nothing but collisions. -/
def H0 : Hash := fun _ _ _ => 7
/-- pool6 = 64:ff9b::/96. -/
def g96 : Glob := ⟨true, (0x0064ff9b000000000000000000000000, 96), 0⟩

/-- A Netfilter NAT64 instance exists, and another one is created by loading a configuration file. -/
def twoOps : List Op :=
  [.add calm 0 6 [97] g96 false, .init calm 0 6 [98] g96, .replace calm 1]

/-- Loading a configuration file can create a second Netfilter instance of the same type in a namespace. -/
theorem netfilter_two : ∃ w, Reachable H0 w ∧ ¬ OneNf w ∧ ∀ n ∈ w.table, isNetfilter n.xl.flags = true ∧
    xtOf n.xl.flags = 2 ∧ n.xl.ns = 0 := by
  obtain ⟨w, e⟩ := never_undefined H0 twoOps
  have ht : (run H0 World.empty twoOps).map (fun w => w.table.map fun n => (n.xl.ns, n.xl.flags, n.xl.name)) =
      .ok [(0, 6, [98]), (0, 6, [97])] := by decide
  rw [e] at ht
  injection ht with ht
  obtain ⟨m, t, h1, h2, ht⟩ := List.map_eq_cons_iff.1 ht
  obtain ⟨n, t', h3, h4, ht⟩ := List.map_eq_cons_iff.1 ht
  rw [List.map_eq_nil_iff] at ht
  subst ht h3
  injection h2 with m1 m2
  injection m2 with m2 m3
  injection h4 with n1 n2
  injection n2 with n2 n3
  refine ⟨w, ⟨_, e⟩, fun h => ?_, fun k hk => ?_⟩
  · have : m = n := h m (by rw [h1]; simp) n (by rw [h1]; simp) (by rw [m2]; rfl) (by rw [n2]; rfl) (by rw [m1, n1])
      (by rw [m2, n2])
    rw [this, n3] at m3
    cases m3
  · rw [h1] at hk
    simp only [List.mem_cons, List.not_mem_nil, or_false] at hk
    rcases hk with rfl | rfl
    · rw [m1, m2]; decide
    · rw [n1, n2]; decide

/-- A SIIT and a NAT64 instance, both Netfilter, in one namespace. -/
def bothOps : List Op := [.add calm 0 5 [97] g96 false, .add calm 0 6 [98] g96 false]

/-- Packets always go to the first Netfilter instance of the namespace, whatever its type: the other one never
receives any. -/
theorem netfilter_shadow :
    (run H0 World.empty bothOps).map (fun w =>
      (w.table.map fun n => (xtOf n.xl.flags, n.xl.name), (lookupNf 0 w).map fun n => (xtOf n.xl.flags, n.xl.name),
        w.hooks.length)) =
    .ok ([(2, [98]), (1, [97])], some (1, [97]), 2) := by decide

/-- While an instance is being replaced there is a moment when it can't be found, though it exists before and after. -/
theorem replace_window {H : Hash} {w : World} (h : Reachable H w) {ns : Ns} {flags : Flags} {name : Name} {n : Node}
    (hl : lookup H ns flags name w = .ok n) : lookup H ns flags name (unlinked w n) = .error .ESRCH := by
  obtain ⟨h1, h2, h3, h4, h5, h6, h7⟩ := ((lookup_spec h ns flags name).1 n).1 hl
  have hr := (rm_spec h ns (xtOf flags) name h2 h1).2.2
  have hf : findInstance H w ns (xtOf flags) name = some n := (find_iff h.good.shape h2 n).2 ⟨h3, h4, h5, h6⟩
  have hnone : findInstance H (unlinked w n) ns (xtOf flags) name = none := by
    unfold findInstance
    rw [List.find?_eq_none]
    intro m hm hp
    have hm' : m ∈ (rm H ns (xtOf flags) name w).1.table := by
      unfold rm
      rw [h2, h1, hf]
      exact hm
    have := (hr m).1 hm'
    simp only [Bool.and_eq_true] at hp
    rw [xt_match (h.good.shape.valid m this.1).xt h2] at hp
    simp only [beq_iff_eq] at hp
    exact this.2 ⟨hp.1.1.2.symm, hp.1.2, hp.2.symm⟩
  unfold lookup
  rw [h1, h2, hnone]
  rfl

/-! ## Examples -/

/-- A packet finds the NAT64 instance (reader 1); meanwhile the instance is replaced by a candidate (copy 2) with other settings, the
candidate is released, the new instance is removed; neither can be destroyed; the packet takes its copy; now both are
destroyed. The packet's databases are the only ones left, then none. -/
def busyOps : List Op :=
  [.add calm 0 6 [97] g96 false, .pin 0 0x0E [97], .init calm 0 6 [97] { g96 with rest := 1 }, .replace calm 2, .put 2,
   .reap 0, .rm 0 2 [97], .reap 3, .grab 1, .reap 3, .reap 0]

/-- References per database, instances, unlinked instances, settings of the copies, hooks. -/
def summary (w : World) : List (List Nat) :=
  [(List.range 8).map w.heap.count, [w.table.length], [w.limbo.length], w.clones.map (·.2.globals.rest),
    [w.hooks.length]]

example : (run H0 World.empty (busyOps.take 2)).map summary = .ok [[1, 1, 1, 1, 0, 0, 0, 0], [1], [0], [], [1]] := by decide
/-- After the replacement the new instance has the old BIB (2) and queue (3); the candidate has its own (6, 7). -/
example : (run H0 World.empty (busyOps.take 4)).map summary =
    .ok [[1, 1, 1, 1, 2, 2, 1, 1], [1], [1], [1], [1]] := by decide
/-- Before the packet takes its copy nothing is destroyed. -/
example : (run H0 World.empty (busyOps.take 8)).map summary = .ok [[1, 1, 1, 1, 1, 1, 0, 0], [0], [2], [], [1]] := by decide
example : (run H0 World.empty busyOps).map summary = .ok [[1, 1, 1, 1, 0, 0, 0, 0], [0], [0], [0], [0]] := by decide
example : (run H0 World.empty (busyOps ++ [.put 1])).map summary =
    .ok [[0, 0, 0, 0, 0, 0, 0, 0], [0], [0], [], [0]] := by decide

/-- Refusals: the same name; a second Netfilter instance; a change of framework; a change of pool6. -/
example : (run H0 World.empty [.add calm 0 6 [97] g96 false]).bind (fun w =>
    ((step H0 w (.add calm 0 10 [97] g96 false)).map (·.2))) = .ok .EEXIST := by decide
example : (run H0 World.empty [.add calm 0 6 [97] g96 false]).bind (fun w =>
    ((step H0 w (.add calm 0 6 [98] g96 false)).map (·.2))) = .ok .EEXIST := by decide
example : (run H0 World.empty [.add calm 0 6 [97] g96 false]).bind (fun w =>
    ((step H0 w (.add calm 0 10 [98] g96 false)).map (·.2))) = .ok .ok := by decide
example : (run H0 World.empty [.add calm 0 6 [97] g96 false, .init calm 0 10 [97] g96]).bind (fun w =>
    ((step H0 w (.replace calm 1)).map (·.2))) = .ok .EINVAL := by decide
example : (run H0 World.empty [.add calm 0 6 [97] g96 false, .init calm 0 6 [97] { g96 with pool6 := (0, 96) }]).bind (fun w =>
    ((step H0 w (.replace calm 1)).map (·.2))) = .ok .EINVAL := by decide

/-- The hypothesis of `netfilter_unique_partial` for a history with a replacement. -/
example : Replaces H0 World.empty (busyOps.take 4) := by
  refine ⟨fun _ _ _ h => (by cases h), fun r hr => ⟨fun _ _ _ h => (by cases h), fun r' hr' => ?_⟩⟩
  refine ⟨fun _ _ _ h => (by cases h), fun r2 hr2 => ?_⟩
  refine ⟨fun e c x h hc => ?_, fun _ _ => trivial⟩
  have h0 : (run H0 World.empty (busyOps.take 3)).map (fun w => w.clones.map fun c => (c.2.ns, c.2.flags, c.2.name)) =
      .ok [(0, 6, [97])] := by decide
  have h2 : (run H0 World.empty (busyOps.take 3)).map (fun w => (findInstance H0 w 0 2 [97]).isSome) = .ok true := by
    decide
  have hrun : run H0 World.empty (busyOps.take 3) = .ok r2.1 := by
    simp only [busyOps, List.take, run, hr, hr', hr2, Outcome.bind]
  rw [hrun] at h0 h2
  injection h0 with h1
  injection h2 with h2
  obtain ⟨k, t, e1, e2, e3⟩ := List.map_eq_cons_iff.1 h1
  rw [List.map_eq_nil_iff] at e3
  subst e3
  rw [e1] at hc
  injection h with he hcc
  have hx : x = k := by
    have := List.mem_of_find?_eq_some hc
    simpa using this
  subst hx
  injection e2 with a1 a2
  injection a2 with a2 a3
  rw [a1, a2, a3]
  exact h2

end Jool.Xlator
