import Verif.Props.ListingTables
import Verif.Model.File
/-
C95: the listings of pool4, of settings, of statistics and of instances.
-/
namespace Jool.ListingSpec
open Jool.Text
open Jool.NlAttr (WInst)

/-- The value of a setting can be typed back; prefixes that are not set are nothing. -/
def IsSetting (i : Inet) (v : GVal) (t : Text) : Prop :=
  t = [] ∧ (v = .prefix6 none ∨ v = .prefix4 none) ∨ t ≠ [] ∧ str2nl i t v.type = some v

/-- What the record of a statistic says: its name, its value, maybe its explanation. -/
def IsStat (names : List String) (explain : Bool) (e : Nat × BitVec 64) (row : List Text) : Prop :=
  ∃ n v x, row = n :: v :: x ∧ (∃ s, 1 ≤ e.1 ∧ names[e.1 - 1]? = some s ∧ n = s.toList) ∧ Num v e.2.toNat ∧ x.length = if explain then 1 else 0

def digits16 : List Char := ['0', '1', '2', '3', '4', '5', '6', '7', '8', '9', 'a', 'b', 'c', 'd', 'e', 'f']

/-- Digits in base 16 that are worth `n`, the first ones first. -/
inductive Hex : Text → Nat → Prop
  | one {c d} : digits16[d]? = some c → Hex [c] d
  | more {t c n d} : Hex t n → digits16[d]? = some c → Hex (t ++ [c]) (16 * n + d)

/-- What the record of an instance says. Framework: bit 2 is Netfilter, bit 3 is iptables. -/
def IsInst (e : WInst) (row : List Text) : Prop :=
  ∃ h n f, row = [h, n, f] ∧ Hex h e.ns.toNat ∧ n.map Char.toNat = e.name.map BitVec.toNat ∧ (f = "netfilter".toList ↔ e.xf.getLsbD 2 = true) ∧
    (f = "iptables".toList ↔ e.xf.getLsbD 2 = false ∧ e.xf.getLsbD 3 = true)

end Jool.ListingSpec

namespace Jool.Listing
open Jool.Text
open Jool.NlAttr (WBib WSess WPool4 WInst)
open Jool.CsvSpec
open Jool.ListingSpec

set_option linter.unusedVariables false

variable {i : Inet}

/-! ### pool4 -/

def pool4Row (i : Inet) (w : WPool4) : List Text :=
  [dec w.mark.toNat, protoName w.proto, i.ntop4 w.pfx.addr ++ (if w.pfx.len ≠ 32 then '/' :: dec w.pfx.len else []), dec w.min.toNat, dec w.max.toNat,
    if w.flags &&& 4 ≠ 0 then "infinite".toList else dec w.iters.toNat, dec (if w.flags &&& 2 ≠ 0 then 0 else 1)]

def pool4Columns : List String := ["Mark", "Protocol", "Address", "Min port", "Max port", "Iterations", "Iterations fixed"]

theorem pool4Line_eq (w : WPool4) : pool4Line i w = line (pool4Row i w) := by
  unfold pool4Line pool4Row
  by_cases h : w.flags &&& 4 ≠ 0
  · rw [if_pos h, if_pos h]; simp only [line, List.append_assoc, List.cons_append, List.nil_append]; rfl
  · rw [if_neg h, if_neg h]; simp only [line, List.append_assoc, List.cons_append, List.nil_append]

/-- **C95.** `pool4 display --csv`. -/
theorem pool4s_listed (hi : i.Ok) (noHeaders : Bool) (l : List WPool4) (hp : ∀ e ∈ l, e.proto = 0 ∨ e.proto = 1 ∨ e.proto = 2) :
    ∃ row : WPool4 → List Text, File (pool4s i noHeaders l) (head noHeaders pool4Columns ++ l.map row) ∧ ∀ e ∈ l, IsPool4 i e (row e) ∧ (row e).length = pool4Columns.length := by
  refine ⟨pool4Row i, ?_, ?_⟩
  · unfold pool4s
    refine file_head (head_record (by decide +kernel) (by decide) (by decide +kernel)) (file_map ?_)
    intro e he
    rw [pool4Line_eq]
    refine line_record (List.cons_ne_nil _ _) ?_
    intro t ht
    unfold pool4Row at ht
    simp only [List.mem_cons, List.not_mem_nil, or_false] at ht
    rcases ht with q | q | q | q | q | q | q <;> subst q
    · exact plain_dec _
    · exact (proto_of (hp e he)).2
    · refine plain_append (Listing.plain4 hi _) ?_
      split
      · exact plain_cons (by decide) (plain_dec _)
      · intro c hc; cases hc
    · exact plain_dec _
    · exact plain_dec _
    · split
      · unfold Plain; decide
      · exact plain_dec _
    · exact plain_dec _
  · intro e he
    refine ⟨⟨_, _, _, _, _, _, _, rfl, num_dec _, (proto_of (hp e he)).1, ?_, num_dec _, num_dec _, ?_, ?_⟩, rfl⟩
    · by_cases q : e.pfx.len ≠ 32
      · rw [if_pos q]; exact .inl (is4_of hi _).1
      · rw [if_neg q, List.append_nil]
        exact .inr ⟨by omega, slash4 hi _ (by decide) (by decide), hi.v4 _⟩
    · by_cases q : e.flags &&& 4 = 0
      · rw [if_pos q, if_neg (by simpa using q)]; exact num_dec _
      · rw [if_neg q, if_pos q]
    · by_cases q : e.flags &&& 2 = 0
      · rw [if_pos q, if_neg (by simpa using q)]; exact num_dec _
      · rw [if_neg q, if_pos q]; exact num_dec _

/-- **C95.** A record says which entry it is: all of it but the iterations that are not listed and the other flags. -/
theorem pool4_determined {e e' : WPool4} {row : List Text} (h : IsPool4 i e row) (h' : IsPool4 i e' row) :
    e.mark = e'.mark ∧ e.proto = e'.proto ∧ e.pfx = e'.pfx ∧ e.min = e'.min ∧ e.max = e'.max ∧ (e.flags &&& 4 = 0 ↔ e'.flags &&& 4 = 0) ∧
      (e.flags &&& 2 = 0 ↔ e'.flags &&& 2 = 0) ∧ (e.flags &&& 4 = 0 → e.iters = e'.iters) := by
  obtain ⟨m, p, a, x, y, n, f, rfl, w1, w2, w3, w4, w5, w6, w7⟩ := h
  obtain ⟨m', p', a', x', y', n', f', e0, v1, v2, v3, v4, v5, v6, v7⟩ := h'
  simp only [List.cons.injEq] at e0
  obtain ⟨rfl, rfl, rfl, rfl, rfl, rfl, rfl, -⟩ := e0
  have hinf : ∀ k, ¬ Num "infinite".toList k := by
    intro k hk
    exact absurd (hk.1.2 'i' (by decide)) (by decide)
  refine ⟨BitVec.eq_of_toNat_eq (num_unique w1 v1), protos_unique w2 v2, ?_, BitVec.eq_of_toNat_eq (num_unique w4 v4), BitVec.eq_of_toNat_eq (num_unique w5 v5), ?_, ?_, ?_⟩
  · rcases w3 with w3 | ⟨l1, l2, l3⟩ <;> rcases v3 with v3 | ⟨k1, k2, k3⟩
    · exact is4_unique w3 v3
    · obtain ⟨a, n, rfl, -⟩ := w3
      exact absurd (by simp) k2
    · obtain ⟨a, n, rfl, -⟩ := v3
      exact absurd (by simp) l2
    · have e1 := Option.some.inj (l3.symm.trans k3)
      have e2 := l1.trans k1.symm
      cases hx : e.pfx with
      | mk a b =>
        cases hy : e'.pfx with
        | mk c d =>
          rw [hx, hy] at e1 e2
          simp only at e1 e2
          rw [e1, e2]
  · constructor
    · intro q
      rw [if_pos q] at w6
      by_cases r : e'.flags &&& 4 = 0
      · exact r
      · rw [if_neg r] at v6; subst v6; exact absurd w6 (hinf _)
    · intro q
      rw [if_pos q] at v6
      by_cases r : e.flags &&& 4 = 0
      · exact r
      · rw [if_neg r] at w6; subst w6; exact absurd v6 (hinf _)
  · have := num_unique w7 v7
    by_cases q : e.flags &&& 2 = 0 <;> by_cases r : e'.flags &&& 2 = 0
    · exact ⟨fun _ => r, fun _ => q⟩
    · rw [if_pos q, if_neg r] at this; cases this
    · rw [if_neg q, if_pos r] at this; cases this
    · exact ⟨fun z => absurd z q, fun z => absurd z r⟩
  · intro q
    rw [if_pos q] at w6
    by_cases r : e'.flags &&& 4 = 0
    · rw [if_pos r] at v6
      exact BitVec.eq_of_toNat_eq (num_unique w6 v6)
    · rw [if_neg r] at v6; subst v6; exact absurd w6 (hinf _)

/-! ### Settings -/

theorem settings_plain : ∀ s ∈ File.settings, Plain s.1 := by
  unfold Plain
  decide +kernel

theorem settings_type : ∀ s ∈ File.settings, ∀ s' ∈ File.settings, s.1 = s'.1 → s = s' := by decide +kernel

theorem esc_plain : ∀ {t : Text}, '"' ∉ t → esc t = t
  | [], _ => rfl
  | c :: t, h => by
    rw [esc, if_neg (fun e => h (by rw [e]; exact List.mem_cons_self)), esc_plain (fun q => h (List.mem_cons_of_mem _ q))]

theorem printNums_quote : ∀ l : List (BitVec 16), '"' ∉ printNums l
  | [] => by simp [printNums]
  | [v] => by rw [printNums]; exact not_mem_digits (dec_digits _) (by decide)
  | v :: w :: l => by
    rw [printNums, List.mem_append, List.mem_cons]
    rintro (h | h | h)
    · exact not_mem_digits (dec_digits _) (by decide) h
    · revert h; decide
    · exact printNums_quote (w :: l) h

/-- How a value is written: as it is, or between quotes. -/
theorem print_field (hi : i.Ok) (v : GVal) (hv : v.Sane ∨ v = .prefix6 none ∨ v = .prefix4 none) : Field (Text.print i true v) (unquote (Text.print i true v)) ∧ IsSetting i v (unquote (Text.print i true v)) := by
  have hq : ∀ {t : Text}, Plain t → Field t (unquote t) := by
    intro t ht
    rw [unquote_of (fun q => (ht _ q).2.1 rfl)]
    exact .plain ht
  constructor
  · cases v with
    | bool b => exact hq (by cases b <;> unfold Plain <;> simp only [Text.print] <;> decide)
    | u8 n => exact hq (plain_dec _)
    | u32 n => exact hq (plain_dec _)
    | timeout n => exact hq (time_of n).2
    | plateaus l =>
      have h1 : unquote (Text.print i true (.plateaus l)) = printNums l := by simp [Text.print, unquote]
      rw [h1]
      have := Field.quoted (printNums l)
      rw [esc_plain (printNums_quote l)] at this
      exact this
    | prefix6 p =>
      cases p with
      | none => exact hq (by intro c hc; cases hc)
      | some q => exact hq (is6_of hi q).2
    | prefix4 p =>
      cases p with
      | none => exact hq (by intro c hc; cases hc)
      | some q => exact hq (is4_of hi q).2
    | hairpin m =>
      rcases hv with hv | hv | hv
      · rcases hv with rfl | rfl | rfl <;> exact hq (by unfold Plain; simp only [Text.print]; decide)
      · cases hv
      · cases hv
  · rcases hv with hv | hv | hv
    · refine .inr ⟨?_, setting_roundtrip_partial hi v hv⟩
      intro e
      have hr := setting_roundtrip_partial hi v hv
      rw [e] at hr
      cases v with
      | bool b => cases b <;> cases e
      | u8 n => revert hr; simp only [GVal.type]; intro hr; exact absurd hr (by rw [show str2nl i [] .u8 = none from rfl]; simp)
      | u32 n => revert hr; simp only [GVal.type]; intro hr; exact absurd hr (by rw [show str2nl i [] .u32 = none from rfl]; simp)
      | timeout n =>
        rw [Text.print, if_pos rfl, unquote_of (fun q => ((time_of n).2 _ q).2.1 rfl), (timeout2str_eq n).1] at e
        obtain ⟨c, r, h, -⟩ := head_digits (dec_digits (n.toNat / 3600000))
        rw [colons, h] at e
        cases e
      | plateaus l =>
        have h1 : unquote (Text.print i true (.plateaus l)) = printNums l := by simp [Text.print, unquote]
        rw [h1] at e
        rcases printNums_head l with q | ⟨c, r, h, -⟩
        · exact hv.1 q
        · rw [h] at e; cases e
      | prefix6 p =>
        obtain ⟨q, rfl, -⟩ := hv
        rw [show Text.print i true (.prefix6 (some q)) = i.ntop6 q.addr ++ '/' :: dec q.len from rfl, unquote_of (fun w => ((is6_of hi q).2 _ w).2.1 rfl)] at e
        simp at e
      | prefix4 p =>
        obtain ⟨q, rfl, -⟩ := hv
        rw [show Text.print i true (.prefix4 (some q)) = i.ntop4 q.addr ++ '/' :: dec q.len from rfl, unquote_of (fun w => ((is4_of hi q).2 _ w).2.1 rfl)] at e
        simp at e
      | hairpin m => rcases hv with rfl | rfl | rfl <;> cases e
    · subst hv; exact .inl ⟨rfl, .inl rfl⟩
    · subst hv; exact .inl ⟨rfl, .inr rfl⟩

/-- **C95.** `global display --csv`: the names of the settings, and their values, which can be typed back. -/
theorem globals_listed (hi : i.Ok) (noHeaders : Bool) (l : List (Text × GVal)) (hn : ∀ e ∈ l, ∃ id, (e.1, id, e.2.type) ∈ File.settings)
    (hv : ∀ e ∈ l, e.2.Sane ∨ e.2 = .prefix6 none ∨ e.2 = .prefix4 none) :
    ∃ val : GVal → Text, File (globals i noHeaders l) (head noHeaders ["Field", "Value"] ++ l.map (fun e => [e.1, val e.2])) ∧ ∀ e ∈ l, IsSetting i e.2 (val e.2) := by
  refine ⟨fun v => unquote (Text.print i true v), ?_, fun e he => (print_field hi e.2 (hv e he)).2⟩
  unfold globals
  refine file_head (head_record (by decide +kernel) (by decide) (by decide +kernel)) (file_map ?_)
  intro e he
  obtain ⟨id, h⟩ := hn e he
  have : e.1 ++ [','] ++ Text.print i true e.2 ++ ['\n'] = e.1 ++ ',' :: (Text.print i true e.2 ++ ['\n']) := by simp
  rw [this]
  exact .cons (.plain (settings_plain _ h)) (.last (print_field hi e.2 (hv e he)).1)

theorem setting_determined {n t : Text} {v v' : GVal} {id id' : Nat} (hn : (n, id, v.type) ∈ File.settings) (hn' : (n, id', v'.type) ∈ File.settings) (h : IsSetting i v t)
    (h' : IsSetting i v' t) : v = v' := by
  have e := settings_type _ hn _ hn' rfl
  simp only [Prod.mk.injEq, true_and] at e
  rcases h with ⟨q, h⟩ | ⟨q, h⟩ <;> rcases h' with ⟨q', h'⟩ | ⟨q', h'⟩
  · rcases h with rfl | rfl <;> rcases h' with rfl | rfl
    · rfl
    · cases e.2
    · cases e.2
    · rfl
  · exact absurd q q'
  · exact absurd q' q
  · rw [e.2] at h
    exact Option.some.inj (h.symm.trans h')

/-! ### Statistics -/

theorem names_plain : ∀ m ∈ metadatas, Plain m.1.toList := by
  have : metadatas.all (fun m => m.1.toList.all (fun c => c != ',' && c != '"' && c != '\n' && c != '\r')) = true := by decide +kernel
  intro m hm c hc
  rw [List.all_eq_true] at this
  have := this m hm
  rw [List.all_eq_true] at this
  have := this c hc
  simp only [Bool.and_eq_true, bne_iff_ne, ne_eq] at this
  exact ⟨this.1.1.1, this.1.1.2, this.1.2, this.2⟩

theorem quoteless (l : List Char) (h : l.all (· != '"') = true) : '"' ∉ (String.ofList l).toList := by
  rw [String.toList_ofList]
  intro q
  rw [List.all_eq_true] at h
  simpa using h _ q

set_option maxRecDepth 20000 in
theorem docs_quote : ∀ m ∈ metadatas, '"' ∉ m.2.toList := by
  simp only [metadatas, List.forall_mem_cons]
  repeat' apply And.intro
  all_goals first
    | exact quoteless _ (by decide +kernel)
    | (intro m hm; cases hm)

theorem metaOf_mem {id : Nat} (h : 1 ≤ id) (h' : id < metadatas.length) : metaOf id ∈ metadatas ∧ metadatas[id - 1]? = some (metaOf id) := by
  unfold metaOf
  rw [if_neg (by omega)]
  have hl : id - 1 < metadatas.length := by omega
  rw [List.getElem?_eq_getElem hl]
  exact ⟨List.getElem_mem hl, rfl⟩

/-- **C95.** `stats display --csv`: the statistics that are not zero (or all of them), in their order. -/
theorem stats_listed (noHeaders all explain : Bool) (l : List (Nat × BitVec 64)) (hid : ∀ e ∈ l, 1 ≤ e.1 ∧ e.1 < metadatas.length) :
    ∃ row : Nat × BitVec 64 → List Text,
      File (stats noHeaders all explain l) (head noHeaders (if explain then ["Stat", "Value", "Explanation"] else ["Stat", "Value"]) ++ (l.filter (fun e => all || e.2 != 0)).map row) ∧
      ∀ e ∈ l, IsStat (metadatas.map Prod.fst) explain e (row e) := by
  refine ⟨fun e => [(metaOf e.1).1.toList, dec e.2.toNat] ++ (if explain then [(metaOf e.1).2.toList] else []), ?_, ?_⟩
  · unfold stats
    refine file_head ?_ ?_
    · cases explain <;> exact head_record (by decide +kernel) (by decide) (by decide +kernel)
    · have hrec : ∀ e ∈ l, (all || e.2 != 0) = true → Record (statLine all explain e) ([(metaOf e.1).1.toList, dec e.2.toNat] ++ (if explain then [(metaOf e.1).2.toList] else [])) := by
        intro e he ha
        have hm := (metaOf_mem (hid e he).1 (hid e he).2).1
        unfold statLine
        rw [if_neg (by cases all <;> simp_all)]
        cases explain with
        | false =>
          have : (metaOf e.1).1.toList ++ [','] ++ dec e.2.toNat ++ [] ++ ['\n'] = (metaOf e.1).1.toList ++ ',' :: (dec e.2.toNat ++ ['\n']) := by simp
          exact this ▸ .cons (.plain (names_plain _ hm)) (.last (.plain (plain_dec _)))
        | true =>
          have : (metaOf e.1).1.toList ++ [','] ++ dec e.2.toNat ++ ([',', '"'] ++ (metaOf e.1).2.toList ++ ['"']) ++ ['\n'] =
            (metaOf e.1).1.toList ++ ',' :: (dec e.2.toNat ++ ',' :: ('"' :: (esc (metaOf e.1).2.toList ++ ['"']) ++ ['\n'])) := by
            rw [esc_plain (docs_quote _ hm)]; simp
          exact this ▸ .cons (.plain (names_plain _ hm)) (.cons (.plain (plain_dec _)) (.last (.quoted _)))
      have hskip : ∀ e, (all || e.2 != 0) = false → statLine all explain e = [] := by
        intro e ha
        unfold statLine
        rw [if_pos (by cases all <;> simp_all)]
      clear hid
      induction l with
      | nil => exact .nil
      | cons e l ih =>
        rw [List.flatMap_cons, List.filter_cons]
        have ih' := ih (fun x hx => hrec x (List.mem_cons_of_mem _ hx))
        by_cases q : (all || e.2 != 0) = true
        · rw [if_pos q, List.map_cons]
          exact .cons (hrec e List.mem_cons_self q) ih'
        · rw [if_neg q, hskip e (by simpa using q), List.nil_append]
          exact ih'
  · intro e he
    obtain ⟨-, hm⟩ := metaOf_mem (hid e he).1 (hid e he).2
    refine ⟨_, _, _, rfl, ⟨(metaOf e.1).1, (hid e he).1, ?_, rfl⟩, num_dec _, by cases explain <;> rfl⟩
    rw [List.getElem?_map, hm]; rfl

theorem names_nodup : (metadatas.map Prod.fst).Nodup := by decide +kernel

theorem stat_determined {explain : Bool} {e e' : Nat × BitVec 64} {row : List Text} (h : IsStat (metadatas.map Prod.fst) explain e row)
    (h' : IsStat (metadatas.map Prod.fst) explain e' row) : e = e' := by
  obtain ⟨n, v, x, rfl, ⟨s, w0, w1, rfl⟩, w2, -⟩ := h
  obtain ⟨n', v', x', e0, ⟨s', v0, v1, rfl⟩, v2, -⟩ := h'
  simp only [List.cons.injEq] at e0
  obtain ⟨q, rfl, -⟩ := e0
  have q := String.toList_inj.1 q
  subst q
  obtain ⟨k1, k2⟩ := List.getElem?_eq_some_iff.1 w1
  obtain ⟨k3, k4⟩ := List.getElem?_eq_some_iff.1 v1
  have := (List.getElem_inj (h₀ := k1) (h₁ := k3) names_nodup).1 (k2.trans k4.symm)
  have e2 := BitVec.eq_of_toNat_eq (num_unique w2 v2)
  obtain ⟨a, b⟩ := e
  obtain ⟨c, d⟩ := e'
  simp only at this e2 w0 v0
  rw [e2, show a = c by omega]

/-- What is missing in `stats_listed`: **the last statistic has a name, and it is listed without it.** -/
theorem last_unnamed (v : BitVec 64) : (metadatas[metadatas.length - 1]?).map Prod.fst = some "JSTAT_PADDING" ∧ statLine true false (metadatas.length, v) = "????,".toList ++ dec v.toNat ++ ['\n'] := by
  refine ⟨by decide +kernel, ?_⟩
  unfold statLine metaOf
  rw [if_neg (by simp), if_pos (.inr (Nat.le_refl _))]
  simp

/-! ### Instances -/

theorem hexF_ok : ∀ (f n : Nat), n < f → Hex (hexF f n) n ∧ Plain (hexF f n)
  | 0, _, h => absurd h (Nat.not_lt_zero _)
  | f + 1, n, h => by
    have hd : ∀ d < 16, digits16[d]? = some (Nat.digitChar d) ∧ (Nat.digitChar d ≠ ',' ∧ Nat.digitChar d ≠ '"' ∧ Nat.digitChar d ≠ '\n' ∧ Nat.digitChar d ≠ '\r') := by decide
    unfold hexF
    by_cases q : n < 16
    · rw [if_pos q]
      exact ⟨.one (hd n q).1, plain_cons (hd n q).2 (by intro c hc; cases hc)⟩
    · rw [if_neg q]
      obtain ⟨k1, k2⟩ := hexF_ok f (n / 16) (by omega)
      have hm := hd (n % 16) (by omega)
      refine ⟨?_, plain_append k2 (plain_cons hm.2 (by intro c hc; cases hc))⟩
      have := Hex.more k1 hm.1
      rw [Nat.div_add_mod] at this
      exact this

theorem hex_ok (n : Nat) : Hex (hex n) n ∧ Plain (hex n) := hexF_ok _ _ (Nat.lt_succ_self n)

theorem digit_unique {c : Char} {d d' : Nat} (h : digits16[d]? = some c) (h' : digits16[d']? = some c) : d = d' := by
  obtain ⟨k1, k2⟩ := List.getElem?_eq_some_iff.1 h
  obtain ⟨k3, k4⟩ := List.getElem?_eq_some_iff.1 h'
  exact (List.getElem_inj (h₀ := k1) (h₁ := k3) (by decide : digits16.Nodup)).1 (k2.trans k4.symm)

theorem hex_ne {t : Text} {n : Nat} (h : Hex t n) : t ≠ [] := by cases h <;> simp

theorem hex_unique {t : Text} {n : Nat} (h : Hex t n) : ∀ {m}, Hex t m → n = m := by
  induction h with
  | one k =>
    intro m h'
    rename_i c d
    generalize e : [c] = t at h'
    cases h' with
    | one k' => injection e with e; subst e; exact digit_unique k k'
    | @more t' c' n' d' w _ =>
      cases t' with
      | nil => exact absurd rfl (hex_ne w)
      | cons a b => simp at e
  | more w k ih =>
    intro m h'
    rename_i t c n d
    generalize e : t ++ [c] = u at h'
    cases h' with
    | one k' =>
      cases t with
      | nil => exact absurd rfl (hex_ne w)
      | cons a b => simp at e
    | more w' k' =>
      obtain ⟨e1, e2⟩ := List.append_inj' e rfl
      injection e2 with e2
      subst e1 e2
      rw [ih w', digit_unique k k']

theorem char_byte (b : BitVec 8) : (Char.ofNat b.toNat).toNat = b.toNat := by
  revert b; decide +kernel

def instRow (e : WInst) : List Text :=
  [hex e.ns.toNat, nameText e.name, if e.xf &&& 4 ≠ 0 then "netfilter".toList else if e.xf &&& 8 ≠ 0 then "iptables".toList else "unknown".toList]

theorem instLine_eq (e : WInst) : instLine e = line (instRow e) := by
  unfold instLine instRow
  simp only [line, List.append_assoc, List.cons_append, List.nil_append]

/-- **C95.** `instance display --csv`. What is missing: names that are not plain. -/
theorem instances_partial (noHeaders : Bool) (l : List WInst) (hn : ∀ e ∈ l, ∀ b ∈ e.name, b ≠ 44 ∧ b ≠ 34 ∧ b ≠ 10 ∧ b ≠ 13) :
    ∃ row : WInst → List Text, File (instances noHeaders l) (head noHeaders ["Namespace", "Name", "Framework"] ++ l.map row) ∧ ∀ e ∈ l, IsInst e (row e) := by
  have hfw : ∀ b : BitVec 8, Plain (if b &&& 4 ≠ 0 then "netfilter".toList else if b &&& 8 ≠ 0 then "iptables".toList else "unknown".toList) := by
    intro b
    split
    · unfold Plain; decide
    · split <;> unfold Plain <;> decide
  refine ⟨instRow, ?_, ?_⟩
  · unfold instances
    refine file_head (head_record (by decide +kernel) (by decide) (by decide +kernel)) (file_map ?_)
    intro e he
    rw [instLine_eq]
    refine line_record (List.cons_ne_nil _ _) ?_
    intro t ht
    unfold instRow at ht
    simp only [List.mem_cons, List.not_mem_nil, or_false] at ht
    rcases ht with q | q | q <;> subst q
    · exact (hex_ok _).2
    · intro c hc
      unfold nameText at hc
      obtain ⟨b, hb, rfl⟩ := List.mem_map.1 hc
      have h := hn e he b hb
      have hx : ∀ (d : Char) (k : BitVec 8), d.toNat = k.toNat → b ≠ k → Char.ofNat b.toNat ≠ d := by
        intro d k h1 h2 h3
        apply h2
        apply BitVec.eq_of_toNat_eq
        rw [← char_byte b, h3, h1]
      exact ⟨hx _ 44 rfl h.1, hx _ 34 rfl h.2.1, hx _ 10 rfl h.2.2.1, hx _ 13 rfl h.2.2.2⟩
    · exact hfw _
  · intro e he
    refine ⟨_, _, _, rfl, (hex_ok _).1, ?_, ?_, ?_⟩
    · unfold nameText
      rw [List.map_map]
      exact List.map_congr_left (fun b _ => char_byte b)
    · have : ∀ b : BitVec 8, ((if b &&& 4 ≠ 0 then "netfilter".toList else if b &&& 8 ≠ 0 then "iptables".toList else "unknown".toList) = "netfilter".toList ↔ b.getLsbD 2 = true) := by decide +kernel
      exact this _
    · have : ∀ b : BitVec 8, ((if b &&& 4 ≠ 0 then "netfilter".toList else if b &&& 8 ≠ 0 then "iptables".toList else "unknown".toList) = "iptables".toList ↔ b.getLsbD 2 = false ∧ b.getLsbD 3 = true) := by
        decide +kernel
      exact this _

theorem inst_determined {e e' : WInst} {row : List Text} (h : IsInst e row) (h' : IsInst e' row) :
    e.ns = e'.ns ∧ e.name = e'.name ∧ e.xf.getLsbD 2 = e'.xf.getLsbD 2 ∧ (e.xf.getLsbD 2 = false → e.xf.getLsbD 3 = e'.xf.getLsbD 3) := by
  obtain ⟨a, n, f, rfl, w1, w2, w3, w4⟩ := h
  obtain ⟨a', n', f', e0, v1, v2, v3, v4⟩ := h'
  simp only [List.cons.injEq] at e0
  obtain ⟨rfl, rfl, rfl, -⟩ := e0
  have h2 : e.xf.getLsbD 2 = e'.xf.getLsbD 2 := Bool.eq_iff_iff.2 (w3.symm.trans v3)
  refine ⟨BitVec.eq_of_toNat_eq (hex_unique w1 v1), ?_, h2, ?_⟩
  · exact List.map_inj_right (fun x y => BitVec.eq_of_toNat_eq) |>.1 (w2.symm.trans v2)
  · intro q
    have := w4.symm.trans v4
    rw [← h2, q] at this
    simp only [true_and] at this
    exact Bool.eq_iff_iff.2 this

/-- What is missing in `instances_partial`: **a name with a comma is two fields.** -/
theorem instance_comma : File (instances true [⟨0xabc, 4, [97, 44, 98]⟩]) [["abc".toList, "a".toList, "b".toList, "netfilter".toList]] := by
  have : instances true [⟨0xabc, 4, [97, 44, 98]⟩] = line ["abc".toList, "a".toList, "b".toList, "netfilter".toList] ++ [] := by decide +kernel
  rw [this]
  exact .cons (line_record (by decide) (by unfold Plain; decide)) .nil

/-- So no reader of CSV sees the instance. -/
theorem instance_lost : ¬ ∃ row, File (instances true [⟨0xabc, 4, [97, 44, 98]⟩]) [row] ∧ IsInst ⟨0xabc, 4, [97, 44, 98]⟩ row := by
  rintro ⟨row, h, a, n, f, rfl, -⟩
  have := unique h instance_comma
  simp at this

/-! ### Different tables, different listings -/

theorem head_cancel {noHeaders : Bool} {h : List String} {a b : List (List Text)} (e : head noHeaders h ++ a = head noHeaders h ++ b) : a = b := List.append_cancel_left e

theorem map_determined {α β : Type} {k : α → β} {P : α → List Text → Prop} {row row' : α → List Text} (hd : ∀ e e' r, P e r → P e' r → k e = k e') :
    ∀ {l l' : List α}, l.map row = l'.map row' → (∀ e ∈ l, P e (row e)) → (∀ e ∈ l', P e (row' e)) → l.map k = l'.map k
  | [], [], _, _, _ => rfl
  | [], _ :: _, e, _, _ => by cases e
  | _ :: _, [], e, _, _ => by cases e
  | x :: l, y :: l', e, h, h' => by
    rw [List.map_cons, List.map_cons] at e
    injection e with e1 e2
    have k1 := h x List.mem_cons_self
    rw [e1] at k1
    rw [List.map_cons, List.map_cons, hd _ _ _ k1 (h' y List.mem_cons_self), map_determined hd e2 (fun z hz => h z (List.mem_cons_of_mem _ hz)) (fun z hz => h' z (List.mem_cons_of_mem _ hz))]

/-- **C95.** Two tables whose listings are the same are the same table. -/
theorem bibs_injective (hi : i.Ok) (nm : Names) (noHeaders : Bool) (l l' : List WBib) (hp : ∀ e ∈ l, e.proto = 0 ∨ e.proto = 1 ∨ e.proto = 2)
    (hp' : ∀ e ∈ l', e.proto = 0 ∨ e.proto = 1 ∨ e.proto = 2) (e : bibs i nm noHeaders true l = bibs i nm noHeaders true l') : l = l' := by
  obtain ⟨r, f, w⟩ := bibs_listed hi nm noHeaders l hp
  obtain ⟨r', f', w'⟩ := bibs_listed hi nm noHeaders l' hp'
  rw [← e] at f'
  have := map_determined (k := id) (P := IsBib i) (fun _ _ _ a b => bib_determined a b) (head_cancel (unique f f')) (fun x hx => (w x hx).1) (fun x hx => (w' x hx).1)
  simpa using this

theorem eams_injective (hi : i.Ok) (noHeaders : Bool) (l l' : List Eam.Entry) (e : eams i noHeaders l = eams i noHeaders l') : l = l' := by
  obtain ⟨r, f, w⟩ := eams_listed hi noHeaders l
  obtain ⟨r', f', w'⟩ := eams_listed hi noHeaders l'
  rw [← e] at f'
  have := map_determined (k := id) (P := IsEam i) (fun _ _ _ a b => eam_determined a b) (head_cancel (unique f f')) (fun x hx => (w x hx).1) (fun x hx => (w' x hx).1)
  simpa using this

theorem denied_injective (hi : i.Ok) (noHeaders : Bool) (l l' : List Prefix4) (e : denied i noHeaders l = denied i noHeaders l') : l = l' := by
  obtain ⟨r, f, w⟩ := denied_listed hi noHeaders l
  obtain ⟨r', f', w'⟩ := denied_listed hi noHeaders l'
  rw [← e] at f'
  have := map_determined (k := id) (P := fun p row => ∃ t, row = [t] ∧ Is4 i t p) (by
    rintro a b c ⟨t, rfl, h1⟩ ⟨t', e1, h2⟩
    injection e1 with e1
    subst e1
    exact is4_unique h1 h2) (head_cancel (unique f f')) (fun x hx => ⟨_, rfl, w x hx⟩) (fun x hx => ⟨_, rfl, w' x hx⟩)
  simpa using this

/-- **C95.** Sessions: addresses, ports and expirations (and, for TCP, states: `session_determined`). -/
theorem sessions_injective (hi : i.Ok) (nm : Names) (noHeaders : Bool) {proto : BitVec 8} (hp : proto = 0 ∨ proto = 1 ∨ proto = 2) (l l' : List WSess) (hs : ∀ e ∈ l, e.state.toNat ≤ 6)
    (hs' : ∀ e ∈ l', e.state.toNat ≤ 6) (e : sessions i nm noHeaders true proto l = sessions i nm noHeaders true proto l') :
    l.map (fun x => (x.src6, x.dst6, x.src4, x.dst4, x.ms, if proto = 0 then some x.state else none)) =
      l'.map (fun x => (x.src6, x.dst6, x.src4, x.dst4, x.ms, if proto = 0 then some x.state else none)) := by
  obtain ⟨r, f, w⟩ := sessions_partial hi nm noHeaders hp l hs
  obtain ⟨r', f', w'⟩ := sessions_partial hi nm noHeaders hp l' hs'
  rw [← e] at f'
  refine map_determined (P := IsSession i proto) ?_ (head_cancel (unique f f')) w w'
  intro a b row h1 h2
  obtain ⟨-, k1, k2, k3, k4, k5, k6⟩ := session_determined h1 h2
  simp only [k1, k2, k3, k4, k5]
  by_cases q : proto = 0
  · rw [if_pos q, if_pos q, k6 q]
  · rw [if_neg q, if_neg q]

theorem globals_injective (hi : i.Ok) (noHeaders : Bool) (l l' : List (Text × GVal)) (hn : ∀ e ∈ l, ∃ id, (e.1, id, e.2.type) ∈ File.settings) (hn' : ∀ e ∈ l', ∃ id, (e.1, id, e.2.type) ∈ File.settings)
    (hv : ∀ e ∈ l, e.2.Sane ∨ e.2 = .prefix6 none ∨ e.2 = .prefix4 none) (hv' : ∀ e ∈ l', e.2.Sane ∨ e.2 = .prefix6 none ∨ e.2 = .prefix4 none)
    (e : globals i noHeaders l = globals i noHeaders l') : l = l' := by
  obtain ⟨r, f, w⟩ := globals_listed hi noHeaders l hn hv
  obtain ⟨r', f', w'⟩ := globals_listed hi noHeaders l' hn' hv'
  rw [← e] at f'
  have := map_determined (k := id) (P := fun e row => ∃ t, row = [e.1, t] ∧ IsSetting i e.2 t ∧ ∃ id, (e.1, id, e.2.type) ∈ File.settings) (by
    rintro ⟨a, v⟩ ⟨b, v'⟩ row ⟨t, rfl, h1, id, h2⟩ ⟨t', e1, h3, id', h4⟩
    simp only [List.cons.injEq, and_true] at e1
    obtain ⟨rfl, rfl⟩ := e1
    exact congrArg (Prod.mk a) (setting_determined h2 h4 h1 h3)) (head_cancel (unique f f')) (fun x hx => ⟨_, rfl, w x hx, hn x hx⟩) (fun x hx => ⟨_, rfl, w' x hx, hn' x hx⟩)
  simpa using this

theorem stats_injective (noHeaders all explain : Bool) (l l' : List (Nat × BitVec 64)) (hid : ∀ e ∈ l, 1 ≤ e.1 ∧ e.1 < metadatas.length) (hid' : ∀ e ∈ l', 1 ≤ e.1 ∧ e.1 < metadatas.length)
    (e : stats noHeaders all explain l = stats noHeaders all explain l') : l.filter (fun e => all || e.2 != 0) = l'.filter (fun e => all || e.2 != 0) := by
  obtain ⟨r, f, w⟩ := stats_listed noHeaders all explain l hid
  obtain ⟨r', f', w'⟩ := stats_listed noHeaders all explain l' hid'
  rw [← e] at f'
  have := map_determined (k := id) (P := IsStat (metadatas.map Prod.fst) explain) (fun _ _ _ a b => stat_determined a b) (head_cancel (unique f f'))
    (fun x hx => w x (List.mem_filter.1 hx).1) (fun x hx => w' x (List.mem_filter.1 hx).1)
  simpa using this

/-! ### Examples -/

def exNames : Names := ⟨fun _ => none, fun _ => none⟩
def exSess : WSess := { (default : WSess) with src6 := ⟨0x20010db8000000000000000000000001, 5000⟩, dst6 := ⟨0x0064ff9b0000000000000000c0000201, 80⟩, src4 := ⟨0xcb007101, 61001⟩, dst4 := ⟨0xc0000201, 80⟩, ms := 61000, state := 6 }

/-- Listings that meet the hypotheses; a TCP one, and a UDP one with a field less than its header. -/
example : ∃ a b, File (sessions Text.plain exNames false true 0 [exSess]) [sessionColumns.map String.toList, a] ∧ IsSession Text.plain 0 exSess a ∧ a.length = 11 ∧
    File (sessions Text.plain exNames false true 1 [exSess]) [sessionColumns.map String.toList, b] ∧ IsSession Text.plain 1 exSess b ∧ b.length = 10 := by
  obtain ⟨r, f, w⟩ := sessions_partial plain_ok exNames false (.inl rfl : (0 : BitVec 8) = 0 ∨ _) [exSess] (by decide)
  obtain ⟨r', f', w'⟩ := sessions_partial plain_ok exNames false (.inr (.inl rfl) : (1 : BitVec 8) = 0 ∨ _) [exSess] (by decide)
  have h := w _ List.mem_cons_self
  have h' := w' _ List.mem_cons_self
  refine ⟨_, _, f, h, session_width h, f', h', ?_⟩
  have := session_short (by decide) h'
  have e : sessionColumns.length = 11 := rfl
  omega

example : timeout2str 61000 = "00:01:01".toList ∨ timeout2str 61000 = "0:01:01".toList := by decide +kernel
example : bibLine Text.plain exNames true ⟨⟨0, 5000⟩, ⟨0xcb007101, 61001⟩, 1, true⟩ = "UDP,".toList ++ Text.plain.ntop6 0 ++ ",5000,203.0.113.1,61001,1\n".toList := by decide +kernel
example : denied Text.plain false [⟨0xc0a80000, 16⟩, ⟨0x0a000000, 8⟩] = "IPv4 Prefix\n192.168.0.0/16\n10.0.0.0/8\n".toList := by decide +kernel
example : pool4s Text.plain true [⟨5, 0, 7, 1, ⟨0xc0000201, 32⟩, 10, 20⟩, ⟨0, 1024, 1, 0, ⟨0xc6336400, 24⟩, 1, 65535⟩] =
    "5,UDP,192.0.2.1,10,20,infinite,0\n0,TCP,198.51.100.0/24,1,65535,1024,1\n".toList := by decide +kernel
example : globals Text.plain true [("mtu-plateaus".toList, .plateaus [1500, 1280]), ("pool6".toList, .prefix6 none), ("manually-enabled".toList, .bool true)] =
    "mtu-plateaus,\"1500,1280\"\npool6,\nmanually-enabled,TRUE\n".toList := by decide +kernel
example : stats false false false [(1, 7), (2, 0), (3, 12)] = "Stat,Value\nJSTAT_RECEIVED6,7\nJSTAT_SUCCESS,12\n".toList := by decide +kernel
example : instances false [⟨0xabc, 4, [97]⟩, ⟨0xf0, 8, [98, 99]⟩] = "Namespace,Name,Framework\nabc,a,netfilter\nf0,bc,iptables\n".toList := by decide +kernel

end Jool.Listing
