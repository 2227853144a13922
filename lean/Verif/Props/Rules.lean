import Verif.Model.Rules
import Verif.Props.XlatorTable
/-
C94: rules of iptables. A rule that asks for an instance by a valid name hands its packets to that instance, and to no other one
(`named_partial`, `packets`); the kernel only accepts rules whose name is a string (`checked`). What `iptables-save` prints can be
restored (`restored_partial`) unless there are blanks or quotes in the name, or it is empty (`blank`, `quote`, `empty`). A rule with a
name that is refused is not refused: it becomes a rule for the instance "default" (`ignored`).
-/
namespace Jool.Rules
open Jool.Xlator

/-! ### Specification -/

/-- A name for an instance: at most 15 printable characters of ASCII. (127 counts as one.) -/
def IsName (n : Name) : Prop := n.length ≤ 15 ∧ ∀ c ∈ n, 32 ≤ c ∧ c ≤ 127

instance (n : Name) : Decidable (IsName n) := by unfold IsName; infer_instance

/-- The name that a rule should have: the last one that was given. -/
def wanted (names : List Name) : Name := names.getLast?.getD DEFAULT

/-- The rule is of this kind and for this instance. -/
def Info.For (i : Info) (type : Flags) (n : Name) : Prop :=
  i.type = type ∧ ∃ rest, i.iname = n ++ 0 :: rest ∧ i.iname.length = 16

/-! ### Names -/

theorem validate_str : ∀ (k : Nat) (s : Name), 0 ∉ s →
    (validate k s = true ↔ s.length < k ∧ ∀ c ∈ s, 32 ≤ c ∧ c ≤ 127)
  | 0, s, _ => by simp [validate]
  | k + 1, [], _ => by simp [validate]
  | k + 1, c :: cs, h => by
    have h0 : c ≠ 0 := fun e => h (by rw [e]; exact List.mem_cons_self)
    have ih := validate_str k cs (fun hm => h (List.mem_cons_of_mem _ hm))
    simp only [validate, if_neg h0]
    by_cases hc : c < 32 ∨ 128 ≤ c
    · rw [if_pos hc]
      constructor
      · nofun
      · rintro ⟨_, h⟩
        have := h c List.mem_cons_self
        omega
    · rw [if_neg hc, ih]
      simp only [List.length_cons, List.mem_cons, forall_eq_or_imp]
      constructor
      · rintro ⟨a, b⟩
        exact ⟨by omega, by omega, b⟩
      · rintro ⟨a, _, b⟩
        exact ⟨by omega, b⟩

theorem validate_buf : ∀ (k : Nat) (b : List Nat), b.length = k →
    (validate k b = true ↔ ∃ n rest, b = n ++ 0 :: rest ∧ ∀ c ∈ n, 32 ≤ c ∧ c ≤ 127)
  | 0, b, h => by
    rw [List.length_eq_zero_iff.1 h]
    simp [validate]
  | k + 1, [], h => by cases h
  | k + 1, c :: cs, h => by
    have ih := validate_buf k cs (by simpa using h)
    simp only [validate]
    by_cases h0 : c = 0
    · rw [if_pos h0]
      subst h0
      exact ⟨fun _ => ⟨[], cs, rfl, nofun⟩, fun _ => rfl⟩
    · rw [if_neg h0]
      by_cases hc : c < 32 ∨ 128 ≤ c
      · rw [if_pos hc]
        constructor
        · nofun
        · rintro ⟨n, rest, e, hn⟩
          cases n with
          | nil => exact absurd (List.cons.inj e).1 h0
          | cons d n =>
            have := hn d List.mem_cons_self
            have := (List.cons.inj e).1
            omega
      · rw [if_neg hc, ih]
        constructor
        · rintro ⟨n, rest, rfl, hn⟩
          refine ⟨c :: n, rest, rfl, ?_⟩
          intro d hd
          rcases List.mem_cons.1 hd with rfl | hd
          · omega
          · exact hn d hd
        · rintro ⟨n, rest, e, hn⟩
          cases n with
          | nil => exact absurd (List.cons.inj e).1 h0
          | cons d n => exact ⟨n, rest, (List.cons.inj e).2, fun c hc => hn c (List.mem_cons_of_mem _ hc)⟩

theorem isName_zero {n : Name} (h : IsName n) : 0 ∉ n := fun hm => absurd (h.2 0 hm).1 (by decide)

theorem cstr_append {n rest : List Nat} (h : 0 ∉ n) : cstr (n ++ 0 :: rest) = n := by
  unfold cstr
  rw [List.takeWhile_append_of_pos, List.takeWhile_cons_of_neg (by decide), List.append_nil]
  intro c hc
  have : c ≠ 0 := fun e => h (e ▸ hc)
  simpa using this

/-- **C94** Which rules the kernel accepts, whoever made them: the name is a string inside of its buffer, and it is a valid one. -/
theorem checked (i : Info) (h : i.iname.length = 16) :
    checkentry i = true ↔ (∃ n, IsName n ∧ i.For i.type n) ∧ (i.type = 1 ∨ i.type = 2) := by
  unfold checkentry
  rw [Bool.and_eq_true, validate_buf 16 i.iname h]
  simp only [xtValid, Bool.or_eq_true, beq_iff_eq]
  refine and_congr ⟨?_, ?_⟩ Iff.rfl
  · rintro ⟨n, rest, e, hn⟩
    have : n.length ≤ 15 := by
      have := congrArg List.length e
      simp only [h, List.length_append, List.length_cons] at this
      omega
    exact ⟨n, ⟨this, hn⟩, rfl, rest, e, h⟩
  · rintro ⟨n, hn, _, rest, e, _⟩
    exact ⟨n, rest, e, hn.2⟩

/-! ### Rules -/

theorem strcpy_for {dst : List Nat} {s : Name} (hd : dst.length = 16) (h : s.length ≤ 15) :
    ∃ rest, strcpy dst s = .ok (s ++ 0 :: rest) ∧ (s ++ 0 :: rest).length = 16 := by
  refine ⟨dst.drop (s.length + 1), by rw [strcpy, if_pos (by omega)], ?_⟩
  simp only [List.length_append, List.length_cons, List.length_drop]
  omega

/-- The options of one rule: they all name instances. A word of a command line has no NUL. -/
def opts (names : List Name) : List Opt := names.map fun n => ⟨'i', n⟩

theorem parseAll_for {type : Flags} : ∀ {names : List Name} {i : Info} {n : Name}, (∀ m ∈ names, 0 ∉ m) → i.For type n →
    ∃ i', parseAll (opts names) i = .ok (some i') ∧ i'.For type ((names.filter fun m => decide (IsName m)).getLast?.getD n)
  | [], i, n, _, h => ⟨i, rfl, h⟩
  | m :: names, i, n, hz, h => by
    have h0 := hz m List.mem_cons_self
    have hz' : ∀ m ∈ names, 0 ∉ m := fun k hk => hz k (List.mem_cons_of_mem _ hk)
    have hv := validate_str 16 m h0
    show ∃ i', (parse ⟨'i', m⟩ i).bind _ = _ ∧ _
    unfold parse
    rw [if_neg (by simp)]
    by_cases hm : IsName m
    · have hval : validate 16 m = true := hv.2 ⟨by have := hm.1; omega, hm.2⟩
      obtain ⟨ht, rest, e, hl⟩ := h
      obtain ⟨rest', e', hl'⟩ := strcpy_for (dst := i.iname) (s := m) hl hm.1
      simp only [hval, Bool.not_true, Bool.false_eq_true, if_false, e', Outcome.map, Outcome.bind,
        show (1 : Int) ≠ 0 from by decide]
      obtain ⟨i', h1, h2⟩ := parseAll_for (type := type) (names := names) (i := { i with iname := m ++ 0 :: rest' }) (n := m) hz'
        ⟨ht, rest', rfl, hl'⟩
      refine ⟨i', h1, ?_⟩
      rw [List.filter_cons_of_pos (by simpa using hm), List.getLast?_cons]
      simpa using h2
    · have hval : validate 16 m = false := by
        cases hval : validate 16 m with
        | false => rfl
        | true =>
          have := hv.1 hval
          exact absurd ⟨by have := this.1; omega, this.2⟩ hm
      simp only [hval, Bool.not_false, if_true, Outcome.bind, show (-22 : Int) ≠ 0 from by decide, if_false]
      obtain ⟨i', h1, h2⟩ := parseAll_for (type := type) (names := names) (i := i) (n := n) hz' h
      exact ⟨i', h1, by rw [List.filter_cons_of_neg (by simpa using hm)]; exact h2⟩

theorem default_name : IsName DEFAULT := by decide

/-- The rule that results from any options: the last valid name counts. Nothing is written outside of the rule. -/
theorem made {type : Flags} (ht : type = 1 ∨ type = 2) {mem : List Nat} (hm : mem.length = 16) {names : List Name}
    (hz : ∀ m ∈ names, 0 ∉ m) :
    ∃ i, add type mem (opts names) = .ok (some i) ∧ i.For type (wanted (names.filter fun m => decide (IsName m))) := by
  obtain ⟨rest, e, hl⟩ := strcpy_for (dst := mem) (s := DEFAULT) hm default_name.1
  obtain ⟨i, h1, h2⟩ := parseAll_for (type := type) (names := names) (i := ⟨DEFAULT ++ 0 :: rest, type⟩) (n := DEFAULT) hz
    ⟨rfl, rest, rfl, hl⟩
  refine ⟨i, ?_, h2⟩
  have hname : IsName (wanted (names.filter fun m => decide (IsName m))) := by
    unfold wanted
    cases hg : (names.filter fun m => decide (IsName m)).getLast? with
    | none => exact default_name
    | some m => simpa using (List.mem_filter.1 (List.mem_of_getLast? hg)).2
  have hc : checkentry i = true := (checked i h2.2.choose_spec.2).2 ⟨⟨_, hname, rfl, h2.2⟩, by rw [h2.1]; exact ht⟩
  simp only [add, init, e, Outcome.map, Outcome.bind, h1, Option.bind_some, hc, if_true]

/-- **C94** If the names are valid, the rule is for the last one (without any, for "default"). -/
theorem named_partial {type : Flags} (ht : type = 1 ∨ type = 2) {mem : List Nat} (hm : mem.length = 16) {names : List Name}
    (hn : ∀ m ∈ names, IsName m) : ∃ i, add type mem (opts names) = .ok (some i) ∧ i.For type (wanted names) := by
  obtain ⟨i, h1, h2⟩ := made ht hm (names := names) (fun m h => isName_zero (hn m h))
  rw [List.filter_eq_self.2 (fun m h => by simpa using hn m h)] at h2
  exact ⟨i, h1, h2⟩

/-- The full statement (a rule with an invalid name is refused) is false: it is accepted, and it is for "default". -/
theorem ignored {type : Flags} (ht : type = 1 ∨ type = 2) {mem : List Nat} (hm : mem.length = 16) {n : Name} (h0 : 0 ∉ n)
    (hn : ¬ IsName n) : ∃ i, add type mem (opts [n]) = .ok (some i) ∧ i.For type DEFAULT := by
  obtain ⟨i, h1, h2⟩ := made ht hm (names := [n]) (fun m h => by rw [List.mem_singleton.1 h]; exact h0)
  rw [List.filter_cons_of_neg (by simpa using hn)] at h2
  exact ⟨i, h1, h2⟩

/-- Unknown options are refused. -/
theorem unknown {type : Flags} {mem : List Nat} (hm : mem.length = 16) {o : Opt} (ho : o.val ≠ 'i') (os : List Opt) :
    add type mem (o :: os) = .ok none := by
  obtain ⟨rest, e, hl⟩ := strcpy_for (dst := mem) (s := DEFAULT) hm default_name.1
  simp only [add, init, e, Outcome.map, Outcome.bind, parseAll, parse, if_pos ho, if_true, Option.bind_none]

/-- **C94** The packets of a rule in a namespace go to the instance of that name, if it is of that type, in that namespace, and was
made for iptables. If there is none, they go on with the next rule. -/
theorem packets {H : Hash} {w : World} (h : Reachable H w) {type : Flags} (ht : type = 1 ∨ type = 2) {n : Name} (hn : IsName n) {i : Info}
    (hi : i.For type n) (ns : Ns) (x : Node) :
    target H ns i w = some x ↔
      x ∈ w.table ∧ x.xl.ns = ns ∧ xtOf x.xl.flags = type ∧ x.xl.name = n ∧ xfOf x.xl.flags = 8 := by
  obtain ⟨e, rest, en, _⟩ := hi
  have hc : cstr i.iname = n := by rw [en]; exact cstr_append (isName_zero hn)
  have hx : xtOf (8 ||| type) = type := by rcases ht with rfl | rfl <;> decide
  have hf : xfOf (8 ||| type) = 8 := by rcases ht with rfl | rfl <;> decide
  have hv : xtValid type = true := by rcases ht with rfl | rfl <;> decide
  have hnv : nameValid n = true := by
    simp only [nameValid, Bool.and_eq_true, decide_eq_true_eq, List.all_eq_true]
    exact ⟨by have := hn.1; omega, fun c hc => by have := hn.2 c hc; omega⟩
  have hl := (lookup_spec h ns (8 ||| type) n).1 x
  rw [hx, hf] at hl
  have hxf : x ∈ w.table → (x.xl.flags &&& 8 ≠ 0 ↔ xfOf x.xl.flags = 8) := by
    intro hm
    have := (instances_valid h hm).2.1
    revert this
    generalize x.xl.flags = f
    revert f
    unfold xfOf
    decide +kernel
  unfold target
  rw [hc, e]
  constructor
  · intro ht
    cases hlk : lookup H ns (8 ||| type) n w with
    | error _ => rw [hlk] at ht; cases ht
    | ok y =>
      rw [hlk] at ht
      cases ht
      obtain ⟨_, _, a, b, c, d, e⟩ := hl.1 hlk
      exact ⟨a, b, c, d, (hxf a).1 e⟩
  · rintro ⟨a, b, c, d, e⟩
    rw [hl.2 ⟨hnv, hv, a, b, c, d, (hxf a).2 e⟩]

/-! ### Saving and restoring -/

/-- Neither blanks nor quotes. -/
def Plain (n : Name) : Prop := ∀ c ∈ n, c ≠ 32 ∧ c ≠ 9 ∧ c ≠ 10 ∧ c ≠ 34

theorem words_plain : ∀ {n : Name} (cur rest : List Nat), Plain n → words false cur (n ++ rest) = words false (cur ++ n) rest
  | [], cur, rest, _ => by simp
  | c :: n, cur, rest, h => by
    obtain ⟨h1, h2, h3, h4⟩ := h c List.mem_cons_self
    rw [List.cons_append, words, if_neg h4, if_neg (by omega), words_plain _ _ (fun d hd => h d (List.mem_cons_of_mem _ hd)),
      List.append_assoc, List.singleton_append]

/-- **C94** What `iptables-save` prints of a rule makes the same rule again. -/
theorem restored_partial {type : Flags} (ht : type = 1 ∨ type = 2) {mem : List Nat} (hm : mem.length = 16) {n : Name} (hn : IsName n)
    (h0 : n ≠ []) (hp : Plain n) {i : Info} (hi : i.For type n) :
    ∃ i', restore type mem (save i) = .ok (some i') ∧ i'.For type n := by
  obtain ⟨e, rest, en, _⟩ := hi
  have hc : cstr i.iname = n := by rw [en]; exact cstr_append (isName_zero hn)
  have hw : words false [] (save i) = [OPTION, n] := by
    unfold save
    rw [hc]
    have : (32 :: OPTION ++ [32] ++ n ++ [32] : List Nat) = 32 :: (OPTION ++ (32 :: (n ++ [32]))) := by simp
    rw [this, words, if_neg (by decide), if_pos (.inl rfl), if_pos rfl, words_plain _ _ (by unfold Plain; decide), List.nil_append, words,
      if_neg (by decide), if_pos (.inl rfl), if_neg (by decide), words_plain _ _ hp, List.nil_append, words, if_neg (by decide),
      if_pos (.inl rfl), if_neg h0, words, if_pos rfl]
  obtain ⟨i', h1, h2⟩ := named_partial ht hm (names := [n]) (fun m h => by rw [List.mem_singleton.1 h]; exact hn)
  refine ⟨i', ?_, h2⟩
  rw [restore, hw]
  simp only [options, if_true, Option.map_some]
  exact h1

/-- The rule of a name, as the kernel has it. -/
def ruleOf (n : Name) : Info := ⟨n ++ List.replicate (16 - n.length) 0, 2⟩
def zeros : List Nat := List.replicate 16 0

/-- "a b" is saved as two words, and refused. -/
theorem blank : IsName [97, 32, 98] ∧ (ruleOf [97, 32, 98]).For 2 [97, 32, 98] ∧ restore 2 zeros (save (ruleOf [97, 32, 98])) = .ok none :=
  ⟨by decide, ⟨rfl, List.replicate 12 0, rfl, rfl⟩, by decide +kernel⟩

/-- Quotes are not saved as such. The rule of `a"b"` is for another instance afterwards: for `ab`. -/
theorem quote : IsName [97, 34, 98, 34] ∧ (ruleOf [97, 34, 98, 34]).For 2 [97, 34, 98, 34] ∧
    ∃ i, restore 2 zeros (save (ruleOf [97, 34, 98, 34])) = .ok (some i) ∧ i.For 2 [97, 98] :=
  ⟨by decide, ⟨rfl, List.replicate 11 0, rfl, rfl⟩, ⟨[97, 98, 0, 97, 117, 108, 116, 0, 0, 0, 0, 0, 0, 0, 0, 0], 2⟩, by decide +kernel,
    rfl, [97, 117, 108, 116, 0, 0, 0, 0, 0, 0, 0, 0, 0], rfl, rfl⟩

/-- The empty name is saved as nothing. -/
theorem empty : IsName [] ∧ (ruleOf []).For 2 [] ∧ restore 2 zeros (save (ruleOf [])) = .ok none :=
  ⟨by decide, ⟨rfl, List.replicate 15 0, rfl, rfl⟩, by decide +kernel⟩

/-! ### Examples -/

/-- Two names of a NAT64's rule; the second one counts. -/
example : add 2 zeros (opts [[97, 97, 97, 97, 97, 97, 97, 97, 97], [98]]) =
    .ok (some ⟨[98, 0, 97, 97, 97, 97, 97, 97, 97, 0, 0, 0, 0, 0, 0, 0], 2⟩) := by decide +kernel

/-- A name of 16 characters: `ignored`. -/
example : ¬ IsName (List.replicate 16 97) ∧
    add 2 zeros (opts [List.replicate 16 97]) = .ok (some ⟨DEFAULT ++ List.replicate 9 0, 2⟩) := by decide +kernel

example : ∃ i, restore 1 zeros (save ⟨[97, 92, 98] ++ List.replicate 13 0, 1⟩) = .ok (some i) ∧ i.For 1 [97, 92, 98] :=
  restored_partial (.inl rfl) rfl (by decide) (by decide) (by unfold Plain; decide) ⟨rfl, List.replicate 12 0, rfl, rfl⟩

/-- Namespace 0 has two instances called `a`: a SIIT for iptables and a NAT64 for netfilter. A rule of JOOL_SIIT finds the first one, a
rule of JOOL none, and in other namespaces there are none. -/
def calm : Xlator.Env := ⟨true, fun _ => true, true, true, true, true⟩
def twoOps : List Op :=
  [.add calm 0 9 [97] ⟨false, (0, 0), 0⟩ false, .add calm 0 6 [97] ⟨true, (0x0064ff9b000000000000000000000000, 96), 0⟩ false]

example : (run (fun _ _ _ => 7) World.empty twoOps).map (fun w =>
    ((target (fun _ _ _ => 7) 0 ⟨97 :: List.replicate 15 0, 1⟩ w).map (fun n => n.xl.flags),
     (target (fun _ _ _ => 7) 0 ⟨97 :: List.replicate 15 0, 2⟩ w).map (fun n => n.xl.flags),
     (target (fun _ _ _ => 7) 1 ⟨97 :: List.replicate 15 0, 1⟩ w).map (fun n => n.xl.flags))) = .ok (some 9, none, none) := by
  decide +kernel

end Jool.Rules
