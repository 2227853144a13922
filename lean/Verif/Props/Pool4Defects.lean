import Verif.Props.Pool4Index
/-
C14–C18: concrete cases. First pools that meet the hypotheses of the theorems, then the inputs on which the
claims fail.
-/
namespace Jool.Pool4
open Pool4Spec PrefixSpec

/-! ## Reading concrete runs -/

def exMarks (h : List Op) (p : Proto) : Option (List MT) :=
  match run empty h with
  | .ok db => some (db p).marks
  | .ub _ => none

def exUb {α} : Outcome α → Option UB | .ok _ => none | .ub u => some u

def exFind (h : List Op) (p : Proto) (mark off : BitVec 32) : Option (Outcome (Option Dom)) :=
  match run empty h with
  | .ok db => some (domainFind db p mark none off)
  | .ub _ => none

/-- The candidates that a packet gets. -/
def exCands (h : List Op) (p : Proto) (mark off : BitVec 32) : Option (List (BitVec 16)) :=
  match exFind h p mark off with
  | some (.ok (some d)) => some ((masks d).cands.map (fun c => c.1.port))
  | _ => none

def mildB (db : Pool) : Op → Bool
  | .add _ _ p e => (db p).marks.all (fun t => !decide (t.mark = e.mark) || t.t.es.all (fun x =>
      !decide (e.pfx.len ≤ 32) || !prefix4Contains e.pfx x.addr || decide (x.max + 1 < (addPorts p e).1) ||
        decide ((addPorts p e).2 + 1 < x.min) ||
        (decide (x.min ≤ (addPorts p e).1) && decide ((addPorts p e).2 ≤ x.max)))) && decide (e.pfx.len ≤ 32)
  | .rm _ p mark pfx min max => (db p).marks.all (fun t => !decide (t.mark = mark) || t.t.es.all (fun x =>
      !prefix4Contains pfx x.addr || !(decide (x.min < (lower min max).toNat) && decide ((upper min max).toNat < x.max))))
      && decide (pfx.len ≤ 32)
  | _ => true

def mildRunB : Pool → List Op → Bool
  | _, [] => true
  | db, o :: os => mildB db o && match step db o with
    | .ok r => mildRunB r.1 os
    | .ub _ => true

theorem mildB_iff (db : Pool) (o : Op) (h : mildB db o = true) : Mild db o := by
  cases o with
  | add kr eph p e =>
    intro t ht hm x hx hmem
    simp only [mildB, Bool.and_eq_true, List.all_eq_true, Bool.or_eq_true, Bool.not_eq_true', decide_eq_true_eq,
      decide_eq_false_iff_not] at h
    have hc := (prefix4_contains_correct e.pfx x.addr h.2).2 hmem
    rcases h.1 t ht with h1 | h1
    · exact absurd hm h1
    · have := h1 x hx
      rw [hc] at this
      have h2 := h.2
      rcases this with (((h3 | h3) | h3) | h3) | h3
      · omega
      · simp at h3
      · exact .inl h3
      · exact .inr (.inl h3)
      · exact .inr (.inr h3)
  | rm kr p mark pfx a b =>
    intro t ht hm x hx hmem
    simp only [mildB, Bool.and_eq_true, List.all_eq_true, Bool.or_eq_true, Bool.not_eq_true', decide_eq_true_eq,
      decide_eq_false_iff_not, Bool.and_eq_false_iff] at h
    have hc := (prefix4_contains_correct pfx x.addr h.2).2 hmem
    rcases h.1 t ht with h1 | h1
    · exact absurd hm h1
    · rcases h1 x hx with h2 | h2
      · rw [hc] at h2; simp at h2
      · rintro ⟨h3, h4⟩
        rcases h2 with h2 | h2
        · exact h2 h3
        · exact h2 h4
  | update => trivial
  | flush => trivial

theorem mildRunB_iff (os : List Op) (db : Pool) (h : mildRunB db os = true) : MildRun db os := by
  induction os generalizing db with
  | nil => trivial
  | cons o os ih =>
    simp only [mildRunB, Bool.and_eq_true] at h
    refine ⟨mildB_iff db o h.1, ?_⟩
    intro db' err hs
    rw [hs] at h
    exact ih db' h.2

def krStay : Oracle := fun _ _ => .stay
def krMove : Oracle := fun _ _ => .move

/-- 203.0.113.8 -/
def exA : Addr4 := 0xCB007108#32
/-- An addition of ports of one address. -/
def exAdd (p : Proto) (mark : BitVec 32) (lo hi : BitVec 16) : Op :=
  .add krStay none p ⟨mark, 0, ⟨false, false, false⟩, ⟨exA, 32⟩, lo, hi⟩
def exRm (p : Proto) (mark : BitVec 32) (lo hi : BitVec 16) : Op := .rm krStay p mark ⟨exA, 32⟩ lo hi

/-- Additions to two marks and two addresses, a removal that takes the end of a range and a change of settings. -/
def exHist : List Op :=
  [exAdd .TCP 0 100 104, exAdd .TCP 0 200 201, exAdd .TCP 7 100 104,
   .add krStay none .TCP ⟨0, 0, ⟨true, false, true⟩, ⟨0xCB00710A#32, 31⟩, 50, 51⟩, exRm .TCP 0 103 150]

theorem exHist_run : exMarks exHist .TCP = some
    [⟨7, ⟨5, [⟨exA, 100, 104⟩]⟩, ⟨false, true, false⟩, 0⟩,
     ⟨0, ⟨9, [⟨exA, 100, 102⟩, ⟨exA, 200, 201⟩, ⟨0xCB00710A#32, 50, 51⟩, ⟨0xCB00710B#32, 50, 51⟩]⟩,
       ⟨true, false, true⟩, 0⟩] := by
  decide +kernel

theorem exHist_mild : MildRun empty exHist := mildRunB_iff _ _ (by decide +kernel)

theorem exHist_noFail : ∀ o ∈ exHist, NoFail o := by
  intro o ho
  simp only [exHist, List.mem_cons, List.not_mem_nil, or_false] at ho
  rcases ho with rfl | rfl | rfl | rfl | rfl <;> (intro b a; simp [krStay])

theorem exHist_noZero : ∀ o ∈ exHist, NoZero o := by
  intro o ho
  simp only [exHist, List.mem_cons, List.not_mem_nil, or_false] at ho
  rcases ho with rfl | rfl | rfl | rfl | rfl <;> simp [NoZero, exAdd, exRm]

/-- The hypotheses of `counter_partial`, `pool4_sane_partial` and, through it, `enumeration` hold of this pool. -/
example : ∃ db, run empty exHist = .ok db ∧ ∀ t ∈ (db .TCP).marks, Sane t := by
  have h := exHist_run
  unfold exMarks at h
  cases hr : run empty exHist with
  | ub u => rw [hr] at h; simp at h
  | ok db =>
    rw [hr] at h
    simp only [Option.some.injEq] at h
    refine ⟨db, rfl, fun t ht => pool4_sane_partial exHist exHist_noFail exHist_mild exHist_noZero db hr .TCP t ht ?_⟩
    rw [h] at ht
    simp only [List.mem_cons, List.not_mem_nil, or_false] at ht
    rcases ht with rfl | rfl <;> decide +kernel

/-- The candidates of a packet without mark, from an offset that wraps around. -/
example : exCands exHist .TCP 0 16 = some [50, 51, 100, 101, 102, 200, 201, 50, 51] := by decide +kernel

/-! ## C15, C16: the counter -/

/-- **C15** (negation). Adding 100–301 after 100–200 leaves 202 addresses and a counter of 101: `fix_collisions` and
`ipv4_range_fuse` do not count what the fused range gained. -/
theorem counter_fuse :
    exMarks [exAdd .TCP 0 100 200, exAdd .TCP 0 100 301] .TCP =
      some [⟨0, ⟨101, [⟨exA, 100, 301⟩]⟩, ⟨false, true, false⟩, 0⟩] ∧
    (taddrs [⟨exA, 100, 301⟩]).length = 202 := by
  decide +kernel

/-- **C16** (negation). A consequence: of a pool with the ports 10, 11 and 12, a packet is offered only one. The rest
is never tried, so the packet is dropped as soon as that one is taken. -/
theorem enumeration_skips :
    exMarks [exAdd .TCP 0 10 10, exAdd .TCP 0 10 12] .TCP =
      some [⟨0, ⟨1, [⟨exA, 10, 12⟩]⟩, ⟨false, true, false⟩, 0⟩] ∧
    ∀ off : BitVec 32, exCands [exAdd .TCP 0 10 10, exAdd .TCP 0 10 12] .TCP 0 off = some [10] := by
  refine ⟨by decide +kernel, fun off => ?_⟩
  have h : ∀ t : MT, t = ⟨0, ⟨1, [⟨exA, 10, 12⟩]⟩, ⟨false, true, false⟩, 0⟩ → domainOf t off = domainOf t 0 := by
    rintro t rfl
    simp [domainOf, Nat.mod_one]
  have h0 : exCands [exAdd .TCP 0 10 10, exAdd .TCP 0 10 12] .TCP 0 0 = some [10] := by decide +kernel
  have hm : exMarks [exAdd .TCP 0 10 10, exAdd .TCP 0 10 12] .TCP =
      some [⟨0, ⟨1, [⟨exA, 10, 12⟩]⟩, ⟨false, true, false⟩, 0⟩] := by decide +kernel
  unfold exCands exFind at h0 ⊢
  unfold exMarks at hm
  cases hr : run empty [exAdd .TCP 0 10 10, exAdd .TCP 0 10 12] with
  | ub u => rw [hr] at hm; simp at hm
  | ok db =>
    rw [hr] at hm h0
    simp only [Option.some.injEq] at hm
    have he : isEmpty db = false := by simp [isEmpty, hm]
    simp only [domainFind, he, hm, findMark, Bool.false_eq_true, if_false, List.find?_cons_of_pos, decide_true] at h0 ⊢
    rw [h _ rfl]
    exact h0

/-- **C15** (negation). Removing the middle of a range counts the upper half twice: 4 addresses, counter 6. -/
theorem counter_hole :
    exMarks [exAdd .TCP 0 10 14, exRm .TCP 0 12 12] .TCP =
      some [⟨0, ⟨6, [⟨exA, 10, 11⟩, ⟨exA, 13, 14⟩]⟩, ⟨false, true, false⟩, 0⟩] ∧
    (taddrs [⟨exA, 10, 11⟩, ⟨exA, 13, 14⟩]).length = 4 := by
  decide +kernel

/-- **C16** (negation). A consequence: candidates are repeated, and some offsets do not correspond to any position. -/
theorem enumeration_repeats :
    exCands [exAdd .TCP 0 10 14, exRm .TCP 0 12 12] .TCP 0 0 = some [10, 11, 13, 14, 10, 11] ∧
    (exFind [exAdd .TCP 0 10 14, exRm .TCP 0 12 12] .TCP 0 5).bind (fun o => exUb o) = none ∧
    exCands [exAdd .TCP 0 10 14, exRm .TCP 0 12 12] .TCP 0 5 = none := by
  decide +kernel

/-- **C15** (negation). The wrong counter can be zero while the table has addresses; then the next packet divides by
zero. -/
theorem counter_div_zero :
    exMarks [exAdd .TCP 0 100 200, exAdd .TCP 0 100 301, exRm .TCP 0 100 200] .TCP =
      some [⟨0, ⟨0, [⟨exA, 201, 301⟩]⟩, ⟨false, true, false⟩, 0⟩] ∧
    exFind [exAdd .TCP 0 100 200, exAdd .TCP 0 100 301, exRm .TCP 0 100 200] .TCP 0 0 = some (.ub .divByZero) := by
  decide +kernel

/-- **C15** (negation). So does a request for the single port 0 of TCP or UDP, which is stored as the range 1–0. -/
theorem port_zero_div_zero :
    exMarks [exAdd .UDP 0 0 0] .UDP = some [⟨0, ⟨0, [⟨exA, 1, 0⟩]⟩, ⟨false, true, false⟩, 0⟩] ∧
    exFind [exAdd .UDP 0 0 0] .UDP 0 0 = some (.ub .divByZero) := by
  decide +kernel

/-- An addition without iteration settings does not fail if the allocator does not. -/
theorem addLoop_ok (kr : Oracle) (hk : ∀ b a, kr b a = .stay) (e : Entry) (lo hi : Nat) (as : List Addr4) (pt : PT) :
    ∃ pt', addLoop kr e lo hi pt as = .ok (pt', false) := by
  induction as generalizing pt with
  | nil => exact ⟨pt, rfl⟩
  | cons a as ih =>
    have h1 : ∃ m, addToMark (kr true a) pt.marks e ⟨a, lo, hi⟩ = .ok (m, false) := by
      rw [hk]
      unfold addToMark addRange
      split
      · cases addFuse _ _ _ <;> simp
      · simp
    have h2 : ∃ l, addToAddr (kr false a) pt.addrs ⟨a, lo, hi⟩ = (l, false) := by
      rw [hk]
      unfold addToAddr addRange
      split
      · cases addFuse _ _ _ <;> simp
      · simp
    obtain ⟨m, h1⟩ := h1
    obtain ⟨l, h2⟩ := h2
    rw [addLoop, h1]
    dsimp only
    rw [h2]
    exact ih _

theorem taddrs_const_length (as : List Addr4) (lo hi : Nat) :
    (taddrs (as.map (fun a => ⟨a, lo, hi⟩))).length = as.length * (hi + 1 - lo) := by
  induction as with
  | nil => simp [taddrs]
  | cons a as ih =>
    rw [List.map_cons, taddrs_cons, List.length_append, taddrs_single_length, ih, List.length_cons, Nat.succ_mul]
    simp only [cnt]; omega

/-- **C15** (negation). All the identifiers of a prefix of 16 bits or less: the number of transport addresses is a
multiple of 2^32, so the counter, even though it is right modulo 2^32, is zero, and every ICMP packet divides by
zero. -/
theorem icmp_div_zero (pfx : Prefix4) (hp : Canonical4 pfx) (hl : pfx.len ≤ 16) (mark : BitVec 32) :
    ∃ db, run empty [.add krStay none .ICMP ⟨mark, 0, ⟨false, false, false⟩, pfx, 0, 65535⟩] = .ok db ∧
      ∀ off, domainFind db .ICMP mark none off = .ub .divByZero := by
  generalize he : Entry.mk mark 0 ⟨false, false, false⟩ pfx 0 65535 = e
  have hpf : e.pfx = pfx := by rw [← he]
  have hv : prefix4Validate e.pfx = true := hpf ▸ (prefix4Validate_iff pfx).2 hp
  have hi : itersOk e.flags e.iters = true := by rw [← he]; rfl
  obtain ⟨pt, hpt⟩ := addLoop_ok krStay (fun _ _ => rfl) e (addPorts .ICMP e).1 (addPorts .ICMP e).2
    (foreachAddr4 e.pfx) (empty .ICMP)
  have hs : step empty (.add krStay none .ICMP e) = .ok (setP empty .ICMP pt, false) := by
    simp only [step, add, hv, hi, ephOk, Bool.not_true, Bool.false_eq_true, if_false, hpt, Outcome.map]
  have hr : run empty [.add krStay none .ICMP e] = .ok (setP empty .ICMP pt) := by
    rw [run, hs]; rfl
  refine ⟨setP empty .ICMP pt, hr, ?_⟩
  generalize hdb : setP empty .ICMP pt = db at hr
  have hn : ∀ o ∈ [Op.add krStay none .ICMP e], NoFail o := by
    intro o ho
    simp only [List.mem_singleton] at ho
    subst ho
    intro b a; simp [krStay]
  have hset : ∀ a : T4, In db .ICMP mark a ↔ Mem4 pfx a.addr := by
    intro a
    rw [pool4_set _ hn db hr]
    constructor
    · rintro ⟨pre, o, post, d, d', h1, _, _, h4, _⟩
      have : o = Op.add krStay none .ICMP e := by
        have : o ∈ [Op.add krStay none .ICMP e] := by rw [h1]; simp
        simpa using this
      subst this
      exact hpf ▸ h4.2.2.1.1
    · intro hm
      refine ⟨[], _, [], empty, _, rfl, rfl, hs, ⟨rfl, by rw [← he], ⟨hpf.symm ▸ hm, .inl ?_⟩, .inl rfl⟩, by simp⟩
      rw [← he]
      simp only [BitVec.le_def]
      have := a.port.isLt
      exact ⟨Nat.zero_le _, by show _ ≤ 65535; omega⟩
  have hmem : ∀ a : Addr4, a ∈ foreachAddr4 pfx ↔ Mem4 pfx a := (prefix4_foreach_correct pfx hp).1
  have hasc := (prefix4_foreach_correct pfx hp).2.1
  have hlen : (foreachAddr4 pfx).length = 2 ^ (32 - pfx.len) := by
    rw [foreachAddr4_eq pfx hp.1]; simp
  -- the prefix is not empty
  have hin : In db .ICMP mark ⟨pfx.addr, 0⟩ := (hset _).2 (fun i _ => rfl)
  obtain ⟨t, ht, htm, _⟩ := hin
  have hg := run_good _ good_empty hr
  have hc := counter_partial _ hn ⟨by intro t ht; simp [empty] at ht, by intro _ _ _; trivial⟩ db hr .ICMP t ht
  have hwf : WFes ((foreachAddr4 pfx).map (fun a => (⟨a, 0, 65535⟩ : E))) := by
    refine ⟨?_, ?_⟩
    · rw [List.pairwise_map]
      exact hasc.imp (fun h => .inl h)
    · intro e he
      obtain ⟨a, _, rfl⟩ := List.mem_map.1 he
      exact ⟨Nat.zero_le _, Nat.zero_le _, Nat.le_refl _⟩
  have hperm : (taddrs t.t.es).Perm (taddrs ((foreachAddr4 pfx).map (fun a => ⟨a, 0, 65535⟩))) := by
    rw [List.perm_ext_iff_of_nodup hc.2.1 (taddrs_nodup _ hwf)]
    intro a
    rw [hc.2.2 a, htm, hset a, mem_taddrs _ hwf.ok, ← hmem]
    constructor
    · intro h
      refine ⟨⟨a.addr, 0, 65535⟩, List.mem_map.2 ⟨a.addr, h, rfl⟩, rfl, Nat.zero_le _, ?_⟩
      have := a.port.isLt
      show _ ≤ 65535
      omega
    · rintro ⟨x, hx, h1, _⟩
      obtain ⟨b, hb, rfl⟩ := List.mem_map.1 hx
      exact h1 ▸ hb
  have hz : t.t.count = 0 := by
    rw [hc.1, hperm.length_eq, taddrs_const_length, hlen]
    apply BitVec.eq_of_toNat_eq
    rw [BitVec.toNat_ofNat]
    obtain ⟨k, hk⟩ : ∃ k, 32 - pfx.len = 16 + k := ⟨16 - pfx.len, by omega⟩
    rw [hk, Nat.pow_add]
    show 2 ^ 16 * 2 ^ k * 65536 % 2 ^ 32 = 0
    rw [Nat.mul_right_comm, show 2 ^ 16 * 65536 = 2 ^ 32 from rfl, Nat.mul_mod_right]
  intro off
  have hne : isEmpty db = false := by
    cases hq : isEmpty db with
    | false => rfl
    | true =>
      simp only [isEmpty, Bool.and_eq_true, List.isEmpty_iff] at hq
      rw [hq.2] at ht; simp at ht
  rw [domainFind, if_neg (by simp [hne])]
  cases hf : findMark (db .ICMP).marks mark with
  | none => exact absurd htm (findMark_none hf t ht)
  | some u =>
    obtain ⟨hu, hum⟩ := findMark_some hf
    have : u = t := (hg.wf .ICMP).m.unique hu ht (hum.trans htm.symm)
    subst this
    simp only [domainOf, hz, if_true]

/-! ## C14: tables that move -/

/-- **C14** (negation). A second range, with iteration settings in the request: `slip_in` grows the table; if the
allocator moves it, `add_to_mark_tree` writes the settings to the old one. -/
theorem add_use_after_free :
    exUb (run empty [exAdd .TCP 0 10 10,
      .add krMove none .TCP ⟨0, 0, ⟨true, true, false⟩, ⟨exA, 32⟩, 20, 20⟩]) = some .useAfterFree := by
  decide +kernel

/-- **C14** (negation). A removal from the middle of a range: if the allocator moves the table, `remove_range` goes on
with the old one. -/
theorem rm_use_after_free :
    exUb (run empty [exAdd .TCP 0 10 14, .rm krMove .TCP 0 ⟨exA, 32⟩ 12 12]) = some .useAfterFree := by
  decide +kernel

/-- **C14** (negation). The same removal when memory is exhausted: the request fails, but the range has lost its upper
half. -/
theorem rm_enomem_loses :
    exMarks [exAdd .TCP 0 10 14, .rm (fun _ _ => .fail) .TCP 0 ⟨exA, 32⟩ 12 12] .TCP =
      some [⟨0, ⟨4, [⟨exA, 10, 11⟩]⟩, ⟨false, true, false⟩, 0⟩] := by
  decide +kernel

/-! ## C17 -/

def exTwo : List Op := [exAdd .TCP 1 100 200, exAdd .TCP 2 100 200, exAdd .TCP 3 300 301, exRm .TCP 1 100 200]

/-- **C17** (negation). The same addresses in the pools of the marks 1 and 2: removing them from mark 1 removes them
from the index by address too. Mark 2 still has them, and still hands them out, but packets towards them are not
recognized as being for the translator. -/
theorem contains_incomplete : ∃ db, run empty exTwo = .ok db ∧ In db .TCP 2 ⟨exA, 150⟩ ∧
    ∀ own, contains own db .TCP ⟨exA, 150⟩ = false := by
  have h : exMarks exTwo .TCP = some [⟨3, ⟨2, [⟨exA, 300, 301⟩]⟩, ⟨false, true, false⟩, 0⟩,
      ⟨2, ⟨101, [⟨exA, 100, 200⟩]⟩, ⟨false, true, false⟩, 0⟩] := by decide +kernel
  have h2 : (match run empty exTwo with
      | .ok db => some (db .TCP).addrs
      | .ub _ => none) = some [⟨exA, ⟨2, [⟨exA, 300, 301⟩]⟩⟩] := by decide +kernel
  unfold exMarks at h
  cases hr : run empty exTwo with
  | ub u => rw [hr] at h; simp at h
  | ok db =>
    rw [hr] at h h2
    simp only [Option.some.injEq] at h h2
    refine ⟨db, rfl, ⟨⟨2, ⟨101, [⟨exA, 100, 200⟩]⟩, ⟨false, true, false⟩, 0⟩, by rw [h]; simp, rfl,
      ⟨exA, 100, 200⟩, by simp, rfl, by decide, by decide⟩, ?_⟩
    intro own
    have hg := run_good exTwo good_empty hr
    have he : isEmpty db = false := by simp [isEmpty, h]
    rw [← Bool.not_eq_true, contains_aset hg own .TCP _ he, h2]
    rintro ⟨t, ht, e, hee, _, h3, h4⟩
    simp only [List.mem_singleton] at ht
    subst ht
    simp only [List.mem_singleton] at hee
    subst hee
    simp at h3

/-! ## C18 -/

open RbTree

/-- The tables of a mark tree matter only for their marks here. -/
def exMT (mark : BitVec 32) : MT := ⟨mark, ⟨1, [⟨exA, 1, 1⟩]⟩, ⟨false, true, false⟩, 0⟩

/-- `rbtree_add` without rebalancing. -/
def exLink (t : Tree MT) (mark : BitVec 32) : Tree MT :=
  match find (fun x => cmpMark x mark) t [] with
  | .hit _ => t
  | .slot c => link c (exMT mark)

/-- A left rotation at the root. -/
def rotL {α} : Tree α → Tree α
  | .node l x (.node m y r) => .node (.node l x m) y r
  | t => t

def exTree : Tree MT :=
  rotL ([0x90000000#32, 0xf0000000#32, 0x70000000#32, 0x20000000#32, 0x80000000#32, 0x50000000#32,
    0x10000000#32, 0x60000000#32].foldl exLink .leaf)

/-- A rotation preserves the sequence. -/
theorem rotL_inorder {α} (t : Tree α) : inorder (rotL t) = inorder t := by
  unfold rotL
  split <;> simp [inorder]

/-- **C18** (negation). Eight marks, all different, added in this order. `cmp_mark` overflows, so what is to the left
and to the right of a node depends on the node. After the eighth insertion the kernel's `rb_insert_color`
rotates the root to the left (it is the only rotation of this history), and one of the marks, although stored,
is not found any more: its packets are dropped. -/
theorem mark_lost :
    (exMT 0xf0000000#32) ∈ inorder exTree ∧ (inorder exTree).length = 8 ∧
    (find (fun x => cmpMark x 0xf0000000#32) exTree []).entry = none := by
  decide +kernel

/-- Before the rotation, all of them are found. -/
example : [0x90000000#32, 0xf0000000#32, 0x70000000#32, 0x20000000#32, 0x80000000#32, 0x50000000#32,
    0x10000000#32, 0x60000000#32].all (fun m => ((find (fun x => cmpMark x m) ([0x90000000#32, 0xf0000000#32,
      0x70000000#32, 0x20000000#32, 0x80000000#32, 0x50000000#32, 0x10000000#32, 0x60000000#32].foldl exLink .leaf)
        []).entry).isSome) = true := by
  decide +kernel

/-- A tree that `mark_lookup_partial` covers, for a stored mark and for one that is not. -/
example : Srt markKey (inorder ([5, 1, 9, 3].foldl exLink .leaf)) ∧ Close (inorder ([5, 1, 9, 3].foldl exLink .leaf)) 3 ∧
    Close (inorder ([5, 1, 9, 3].foldl exLink .leaf)) 4 := by
  simp only [Srt, Close]
  decide +kernel

end Jool.Pool4
