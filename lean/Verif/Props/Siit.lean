import Verif.Model.Siit
import Verif.Props.EamTable
import Verif.Props.Rfc6052
import Verif.Props.Denylist4
/-
C13, C62, C63: how SIIT translates addresses.
-/
namespace Jool.Siit
open Jool.PrefixSpec
open Jool.Rfc6052Spec (legal Layout pos)
open Jool.Eam (Entry Valid Holds IsBest6 IsBest4)

/-! ## The specification -/

/-- The denylist has this address. -/
def Denied (s : Inst) (a : Addr4) : Prop := ∃ p ∈ s.deny, Mem4 p a

/-- The address is one of the translator's, or the broadcast address of one of its networks. -/
def Own (s : Inst) (a : Addr4) : Prop :=
  ∃ i ∈ s.ifas, i.addr = a ∨
    (i.plen < 31 ∧ ∀ j, j < 32 → a.getMsbD j = if j < i.plen then i.addr.getMsbD j else true)

def Off (s : Inst) (a : Addr4) : Prop := LowScope a ∨ Own s a

/-- `a4` is the counterpart of `a6` according to the entry: after the prefixes, the same bits. -/
def Suffix (e : Entry) (a4 : Addr4) (a6 : Addr6) : Prop :=
  ∀ i, i < 32 - e.p4.len → a4.getMsbD (e.p4.len + i) = a6.getMsbD (e.p6.len + i)

/-- Extraction according to RFC 6052. -/
def Embeds (p : Prefix6) (a4 : Addr4) (a6 : Addr6) : Prop :=
  legal p.len ∧ Mem6 p a6 ∧ ∀ i, i < 32 → a6.getMsbD (pos p.len i) = a4.getMsbD i

/-- What happens to an IPv6 address. `screen`: whether unsuitable results are refused. -/
inductive Spec64 (s : Inst) (M : List Entry) (a : Addr6) (screen : Bool) : Ax Addr4 → Prop
  | loopback : a = 1#128 → Spec64 s M a screen .accept
  | eam (e a4) : a ≠ 1#128 → IsBest6 M a (some e) → Mem4 e.p4 a4 → Suffix e a4 a → (screen = true → ¬ Off s a4) →
      Spec64 s M a screen (.cont a4 (.eamt e))
  | eamOff (e a4) : a ≠ 1#128 → IsBest6 M a (some e) → Mem4 e.p4 a4 → Suffix e a4 a → screen = true → Off s a4 →
      Spec64 s M a screen .accept
  | pool (p a4) : a ≠ 1#128 → (∀ x ∈ M, ¬ Mem6 x.p6 a) → s.pool6 = some p → Embeds p a4 a →
      (screen = true → ¬ Denied s a4 ∧ ¬ Off s a4) → Spec64 s M a screen (.cont a4 (.rfc6052 p))
  | poolOff (p a4) : a ≠ 1#128 → (∀ x ∈ M, ¬ Mem6 x.p6 a) → s.pool6 = some p → Embeds p a4 a →
      screen = true → Denied s a4 ∨ Off s a4 → Spec64 s M a screen .accept
  | nothing : a ≠ 1#128 → (∀ x ∈ M, ¬ Mem6 x.p6 a) → (∀ p, s.pool6 = some p → ¬ Mem6 p a) →
      Spec64 s M a screen .tryElse

/-- What happens to an IPv4 address. `eam`: whether the EAMT is to be used. -/
inductive Spec46 (s : Inst) (M : List Entry) (a : Addr4) (eam screen : Bool) : Ax Addr6 → Prop
  | off : screen = true → Off s a → Spec46 s M a eam screen .accept
  | eam (e a6) : (screen = true → ¬ Off s a) → eam = true → IsBest4 M a (some e) → Mem6 e.p6 a6 → Suffix e a a6 →
      (∀ j, e.p6.len + (32 - e.p4.len) ≤ j → j < 128 → a6.getMsbD j = false) →
      Spec46 s M a eam screen (.cont a6 (.eamt e))
  | denied : (screen = true → ¬ Off s a) → (eam = true → ∀ x ∈ M, ¬ Mem4 x.p4 a) → Denied s a →
      Spec46 s M a eam screen .accept
  | pool (p a6) : (screen = true → ¬ Off s a) → (eam = true → ∀ x ∈ M, ¬ Mem4 x.p4 a) → ¬ Denied s a →
      s.pool6 = some p → Layout p a a6 → Spec46 s M a eam screen (.cont a6 (.rfc6052 p))
  | nothing : (screen = true → ¬ Off s a) → (eam = true → ∀ x ∈ M, ¬ Mem4 x.p4 a) → ¬ Denied s a →
      s.pool6 = none → Spec46 s M a eam screen .tryElse

/-- The instance is sane: what the configuration validators guarantee. -/
structure Ok (s : Inst) (M : List Entry) : Prop where
  eam : Holds s.eamt M
  pool6 : ∀ p, s.pool6 = some p → legal p.len
  deny : ∀ p ∈ s.deny, p.len ≤ 32
  ifas : ∀ i ∈ s.ifas, ∀ j, j < 32 → i.mask.getMsbD j = decide (j < i.plen)

/-! ## Lemmas -/

theorem illegal_iff (a : Addr6) : isIllegalSource a = true ↔ a = 1#128 := by
  constructor
  · intro h
    unfold isIllegalSource Addr6.quadrant at h
    simp only [Bool.and_eq_true, beq_iff_eq] at h
    obtain ⟨⟨⟨h0, h1⟩, h2⟩, h3⟩ := h
    have e0 := congrArg BitVec.toNat h0
    have e1 := congrArg BitVec.toNat h1
    have e2 := congrArg BitVec.toNat h2
    have e3 := congrArg BitVec.toNat h3
    simp only [BitVec.toNat_setWidth, BitVec.toNat_ushiftRight, Nat.shiftRight_eq_div_pow, BitVec.toNat_ofNat] at e0 e1 e2 e3
    apply BitVec.eq_of_toNat_eq
    rw [BitVec.toNat_ofNat]
    have := a.isLt
    omega
  · rintro rfl; decide

theorem denied_iff {s : Inst} {M : List Entry} (h : Ok s M) (a : Addr4) :
    Denylist4.contains s.deny a = true ↔ Denied s a := by
  unfold Denied
  have := h.deny
  generalize s.deny = l at *
  induction l with
  | nil => simp [Denylist4.contains]
  | cons p l ih =>
    rw [Denylist4.contains]
    have hp := prefix4_contains_correct p a (this p (by simp))
    split
    · rename_i hc
      simp only [List.mem_cons, exists_eq_or_imp, true_iff]
      exact .inl (hp.1 hc)
    · rename_i hc
      refine Iff.trans (ih (fun q hq => this q (List.mem_cons_of_mem _ hq))) ?_
      simp only [List.mem_cons, exists_eq_or_imp]
      constructor
      · exact .inr
      · rintro (hh | hh)
        · exact absurd (hp.2 hh) hc
        · exact hh

theorem broadcast_iff (i : Ifa) (hi : ∀ j, j < 32 → i.mask.getMsbD j = decide (j < i.plen)) (a : Addr4) :
    i.addr ||| ~~~ i.mask = a ↔ ∀ j, j < 32 → a.getMsbD j = if j < i.plen then i.addr.getMsbD j else true := by
  have key : ∀ j, j < 32 → (i.addr ||| ~~~ i.mask).getMsbD j = if j < i.plen then i.addr.getMsbD j else true := by
    intro j hj
    rw [BitVec.getMsbD_or, BitVec.getMsbD_not, hi j hj]
    by_cases h : j < i.plen
    · simp [h]
    · simp [h, hj]
  constructor
  · rintro rfl j hj; exact key j hj
  · intro h
    apply BitVec.eq_of_getMsbD_eq
    intro j hj
    rw [key j hj, h j hj]

theorem own_iff {s : Inst} {M : List Entry} (h : Ok s M) (a : Addr4) : interfaceContains s.ifas a = true ↔ Own s a := by
  unfold Own
  have := h.ifas
  generalize s.ifas = l at *
  induction l with
  | nil => simp [interfaceContains]
  | cons i l ih =>
    rw [interfaceContains]
    have hb := broadcast_iff i (this i (by simp)) a
    have hc : checkIfa i a = true ↔ (i.addr = a ∨
        (i.plen < 31 ∧ ∀ j, j < 32 → a.getMsbD j = if j < i.plen then i.addr.getMsbD j else true)) := by
      unfold checkIfa
      rw [← hb]
      by_cases h1 : i.plen < 31 ∧ i.addr ||| ~~~ i.mask = a
      · simp [h1]
      · rw [if_neg h1]
        by_cases h2 : i.addr = a
        · simp [h2]
        · simp only [h2, if_false, Bool.false_eq_true, false_or, false_iff]
          exact h1
    split
    · rename_i hh
      simp only [List.mem_cons, exists_eq_or_imp, true_iff]
      exact .inl (hc.1 hh)
    · rename_i hh
      refine Iff.trans (ih (fun q hq => this q (List.mem_cons_of_mem _ hq))) ?_
      simp only [List.mem_cons, exists_eq_or_imp]
      constructor
      · exact .inr
      · rintro (k | k)
        · exact absurd (hc.2 k) hh
        · exact k

theorem off_iff {s : Inst} {M : List Entry} (h : Ok s M) (a : Addr4) : mustNotTranslate s a = true ↔ Off s a := by
  unfold mustNotTranslate Off
  rw [Bool.or_eq_true, addr4_scope_correct, own_iff h]

theorem suffix64 (e : Entry) (hv : Valid e) (a : Addr6) : Suffix e (Eam.xlat64With e a) a := by
  intro i hi
  rw [Eam.xlat64_bits e hv a _ (by omega), if_neg (by omega)]
  congr 1; omega

theorem suffix46 (e : Entry) (hv : Valid e) (a : Addr4) : Suffix e a (Eam.xlat46With e a) := by
  intro i hi
  have := hv.2.2
  rw [Eam.xlat46_bits e hv a _ (by omega), if_neg (by omega), if_pos (by omega)]
  congr 1; omega

/-- The specification leaves no freedom. -/
theorem suffix_unique4 {e : Entry} {x y : Addr4} {a : Addr6} (hx : Mem4 e.p4 x) (hy : Mem4 e.p4 y)
    (sx : Suffix e x a) (sy : Suffix e y a) : x = y := by
  apply BitVec.eq_of_getMsbD_eq
  intro j hj
  by_cases h : j < e.p4.len
  · rw [hx j h, hy j h]
  · have h1 := sx (j - e.p4.len) (by omega)
    have h2 := sy (j - e.p4.len) (by omega)
    rw [show e.p4.len + (j - e.p4.len) = j by omega] at h1 h2
    rw [h1, h2]

theorem best6_unique {s : Inst} {M : List Entry} (h : Holds s.eamt M) {a : Addr6} {x y : Entry}
    (hx : IsBest6 M a (some x)) (hy : IsBest6 M a (some y)) : x = y := by
  rcases hx with ⟨hx, _⟩ | ⟨x', hx', e, mx, lx⟩
  · simp at hx
  rcases hy with ⟨hy, _⟩ | ⟨y', hy', e', my, ly⟩
  · simp at hy
  simp only [Option.some.injEq] at e e'
  subst e; subst e'
  apply h.u6 x hx' y hy'
  apply (Eam.key_eq _ _ _ _).2
  have e1 := lx y hy' my
  have e2 := ly x hx' mx
  exact ⟨by omega, fun i hi => ((my i (by omega)).symm.trans (mx i hi))⟩

theorem best4_unique {s : Inst} {M : List Entry} (h : Holds s.eamt M) {a : Addr4} {x y : Entry}
    (hx : IsBest4 M a (some x)) (hy : IsBest4 M a (some y)) : x = y := by
  rcases hx with ⟨hx, _⟩ | ⟨x', hx', e, mx, lx⟩
  · simp at hx
  rcases hy with ⟨hy, _⟩ | ⟨y', hy', e', my, ly⟩
  · simp at hy
  simp only [Option.some.injEq] at e e'
  subst e; subst e'
  apply h.u4 x hx' y hy'
  apply (Eam.key_eq _ _ _ _).2
  have e1 := lx y hy' my
  have e2 := ly x hx' mx
  exact ⟨by omega, fun i hi => ((my i (by omega)).symm.trans (mx i hi))⟩

theorem best6_mem {M : List Entry} {a : Addr6} {x : Entry} (hx : IsBest6 M a (some x)) : x ∈ M ∧ Mem6 x.p6 a := by
  rcases hx with ⟨hx, _⟩ | ⟨x', hx', e, mx, _⟩
  · simp at hx
  · simp only [Option.some.injEq] at e; subst e; exact ⟨hx', mx⟩

theorem best4_mem {M : List Entry} {a : Addr4} {x : Entry} (hx : IsBest4 M a (some x)) : x ∈ M ∧ Mem4 x.p4 a := by
  rcases hx with ⟨hx, _⟩ | ⟨x', hx', e, mx, _⟩
  · simp at hx
  · simp only [Option.some.injEq] at e; subst e; exact ⟨hx', mx⟩

/-! ## C13: addresses -/

theorem siit64_sound {s : Inst} {M : List Entry} (h : Ok s M) (a : Addr6) (screen : Bool) :
    ∃ r, siit64 s a screen = .ok r ∧ Spec64 s M a screen r := by
  unfold siit64
  by_cases h1 : a = 1#128
  · rw [if_pos ((illegal_iff a).2 h1)]
    exact ⟨_, rfl, .loopback h1⟩
  rw [if_neg (fun k => h1 ((illegal_iff a).1 k))]
  obtain ⟨r, k1, k2⟩ := Eam.lookup6 h.eam a
  rw [k1]
  have succ : ∀ a4 m, (screen = true ∧ Off s a4 ∧ success64 s screen a4 m = .accept) ∨
      ((screen = true → ¬ Off s a4) ∧ success64 s screen a4 m = .cont a4 m) := by
    intro a4 m
    unfold success64
    cases screen with
    | false => right; simp
    | true =>
      by_cases ho : Off s a4
      · left; refine ⟨rfl, ho, ?_⟩; rw [(off_iff h a4).2 ho]; rfl
      · right; refine ⟨fun _ => ho, ?_⟩
        rw [if_neg]; simp only [Bool.true_and]; exact fun k => ho ((off_iff h a4).1 k)
  cases r with
  | some e =>
    obtain ⟨he, hm⟩ := best6_mem k2
    have hv := h.eam.valid e he
    refine ⟨_, rfl, ?_⟩
    simp only [Option.map_some]
    rcases succ (Eam.xlat64With e a) (.eamt e) with ⟨q1, q2, q3⟩ | ⟨q1, q2⟩
    · rw [q3]; exact .eamOff e _ h1 k2 (Eam.xlat64_inside e hv a) (suffix64 e hv a) q1 q2
    · rw [q2]; exact .eam e _ h1 k2 (Eam.xlat64_inside e hv a) (suffix64 e hv a) q1
  | none =>
    have hno : ∀ x ∈ M, ¬ Mem6 x.p6 a := by
      rcases k2 with ⟨_, k2⟩ | ⟨x, _, k2, _⟩
      · exact k2
      · simp at k2
    refine ⟨_, rfl, ?_⟩
    simp only [Option.map_none]
    unfold fallback64
    cases hp : s.pool6 with
    | none => exact .nothing h1 hno (by simp [hp])
    | some p =>
      dsimp only
      have hl := h.pool6 p hp
      cases hx : rfc6052_6to4 p a with
      | none =>
        refine .nothing h1 hno ?_
        rw [hp]
        rintro _ ⟨⟩ hm
        have hc := (prefix6_contains_correct p a (by unfold legal at hl; omega)).2 hm
        unfold rfc6052_6to4 at hx
        rw [hc] at hx
        rcases hl with hl | hl | hl | hl | hl | hl <;> simp [hl] at hx
      | some a4 =>
        have hE : Embeds p a4 a := (rfc6052_6to4_correct p a a4).1 hx
        dsimp only
        cases screen with
        | false =>
          simp only [Bool.false_and, Bool.false_eq_true, if_false]
          rcases succ a4 (.rfc6052 p) with ⟨q1, _⟩ | ⟨q1, q2⟩
          · simp at q1
          · rw [q2]; exact .pool p a4 h1 hno hp hE (by simp)
        | true =>
          by_cases hd : Denied s a4
          · rw [(denied_iff h a4).2 hd]
            exact .poolOff p a4 h1 hno hp hE rfl (.inl hd)
          · rw [if_neg (by simp only [Bool.true_and]; exact fun k => hd ((denied_iff h a4).1 k))]
            rcases succ a4 (.rfc6052 p) with ⟨q1, q2, q3⟩ | ⟨q1, q2⟩
            · rw [q3]; exact .poolOff p a4 h1 hno hp hE rfl (.inr q2)
            · rw [q2]; exact .pool p a4 h1 hno hp hE (fun _ => ⟨hd, q1 rfl⟩)

theorem embeds_unique {p : Prefix6} {x y : Addr4} {a : Addr6} (hx : Embeds p x a) (hy : Embeds p y a) : x = y := by
  apply BitVec.eq_of_getMsbD_eq
  intro i hi
  rw [← hx.2.2 i hi, hy.2.2 i hi]

theorem spec64_unique {s : Inst} {M : List Entry} (h : Ok s M) {a : Addr6} {screen : Bool} {r r' : Ax Addr4}
    (k : Spec64 s M a screen r) (k' : Spec64 s M a screen r') : r = r' := by
  cases k with
  | loopback q => cases k' <;> first | rfl | (exact absurd q ‹a ≠ 1#128›)
  | eam e a4 q1 q2 q3 q4 q5 =>
    obtain ⟨m1, m2⟩ := best6_mem q2
    cases k' with
    | loopback q => exact absurd q q1
    | eam e' a4' _ p2 p3 p4 _ =>
      have := best6_unique h.eam q2 p2; subst this
      rw [suffix_unique4 q3 p3 q4 p4]
    | eamOff e' a4' _ p2 p3 p4 p5 p6 =>
      have := best6_unique h.eam q2 p2; subst this
      rw [← suffix_unique4 q3 p3 q4 p4] at p6
      exact absurd p6 (q5 p5)
    | pool _ _ _ p2 => exact absurd m2 (p2 e m1)
    | poolOff _ _ _ p2 => exact absurd m2 (p2 e m1)
    | nothing _ p2 => exact absurd m2 (p2 e m1)
  | eamOff e a4 q1 q2 q3 q4 q5 q6 =>
    obtain ⟨m1, m2⟩ := best6_mem q2
    cases k' with
    | loopback q => rfl
    | eam e' a4' _ p2 p3 p4 p5 =>
      have := best6_unique h.eam q2 p2; subst this
      rw [suffix_unique4 q3 p3 q4 p4] at q6
      exact absurd q6 (p5 q5)
    | eamOff => rfl
    | pool _ _ _ p2 => exact absurd m2 (p2 e m1)
    | poolOff => rfl
    | nothing _ p2 => exact absurd m2 (p2 e m1)
  | pool p a4 q1 q2 q3 q4 q5 =>
    cases k' with
    | loopback q => exact absurd q q1
    | eam e' a4' _ p2 => exact absurd (best6_mem p2).2 (q2 _ (best6_mem p2).1)
    | eamOff e' a4' _ p2 => exact absurd (best6_mem p2).2 (q2 _ (best6_mem p2).1)
    | pool p' a4' _ _ p3 p4 _ =>
      rw [q3] at p3; simp only [Option.some.injEq] at p3; subst p3
      rw [embeds_unique q4 p4]
    | poolOff p' a4' _ _ p3 p4 p5 p6 =>
      rw [q3] at p3; simp only [Option.some.injEq] at p3; subst p3
      rw [← embeds_unique q4 p4] at p6
      obtain ⟨n1, n2⟩ := q5 p5
      rcases p6 with p6 | p6
      · exact absurd p6 n1
      · exact absurd p6 n2
    | nothing _ _ p3 => exact absurd q4.2.1 (p3 p q3)
  | poolOff p a4 q1 q2 q3 q4 q5 q6 =>
    cases k' with
    | loopback q => rfl
    | eam e' a4' _ p2 => exact absurd (best6_mem p2).2 (q2 _ (best6_mem p2).1)
    | eamOff e' a4' _ p2 => rfl
    | pool p' a4' _ _ p3 p4 p5 =>
      rw [q3] at p3; simp only [Option.some.injEq] at p3; subst p3
      rw [embeds_unique q4 p4] at q6
      obtain ⟨n1, n2⟩ := p5 q5
      rcases q6 with q6 | q6
      · exact absurd q6 n1
      · exact absurd q6 n2
    | poolOff => rfl
    | nothing _ _ p3 => exact absurd q4.2.1 (p3 p q3)
  | nothing q1 q2 q3 =>
    cases k' with
    | loopback q => exact absurd q q1
    | eam e' a4' _ p2 => exact absurd (best6_mem p2).2 (q2 _ (best6_mem p2).1)
    | eamOff e' a4' _ p2 => exact absurd (best6_mem p2).2 (q2 _ (best6_mem p2).1)
    | pool p' a4' _ _ p3 p4 _ => exact absurd p4.2.1 (q3 p' p3)
    | poolOff p' a4' _ _ p3 p4 _ => exact absurd p4.2.1 (q3 p' p3)
    | nothing => rfl

/-- C13: what happens to an IPv6 address is exactly what the specification says. -/
theorem siit64_spec {s : Inst} {M : List Entry} (h : Ok s M) (a : Addr6) (screen : Bool) (r : Ax Addr4) :
    siit64 s a screen = .ok r ↔ Spec64 s M a screen r := by
  obtain ⟨r', k1, k2⟩ := siit64_sound h a screen
  rw [k1]
  constructor
  · intro e; simp only [Outcome.ok.injEq] at e; rw [← e]; exact k2
  · intro k; rw [spec64_unique h k2 k]

theorem siit46_sound {s : Inst} {M : List Entry} (h : Ok s M) (a : Addr4) (eam screen : Bool) :
    ∃ r, siit46 s a eam screen = .ok r ∧ Spec46 s M a eam screen r := by
  unfold siit46
  by_cases h1 : screen = true ∧ Off s a
  · rw [if_pos (by rw [h1.1, (off_iff h a).2 h1.2]; rfl)]
    exact ⟨_, rfl, .off h1.1 h1.2⟩
  rw [if_neg (by rw [Bool.and_eq_true, off_iff h a]; exact h1)]
  have hs : screen = true → ¬ Off s a := fun q1 q2 => h1 ⟨q1, q2⟩
  have fb : (eam = true → ∀ x ∈ M, ¬ Mem4 x.p4 a) → Spec46 s M a eam screen (fallback46 s a) := by
    intro hno
    unfold fallback46
    by_cases hd : Denied s a
    · rw [(denied_iff h a).2 hd]; exact .denied hs hno hd
    · rw [if_neg (fun k => hd ((denied_iff h a).1 k))]
      cases hp : s.pool6 with
      | none => exact .nothing hs hno hd hp
      | some p =>
        dsimp only
        obtain ⟨x, hx, _⟩ := rfc6052_roundtrip p a (h.pool6 p hp)
        rw [hx]
        exact .pool p x hs hno hd hp ((rfc6052_4to6_correct p a x).1 hx).2
  cases eam with
  | false => exact ⟨_, rfl, fb (by simp)⟩
  | true =>
    simp only [if_true]
    obtain ⟨r, k1, k2⟩ := Eam.lookup4 h.eam a
    rw [k1]
    refine ⟨_, rfl, ?_⟩
    cases r with
    | some e =>
      obtain ⟨he, hm⟩ := best4_mem k2
      have hv := h.eam.valid e he
      refine .eam e _ hs rfl k2 (Eam.xlat46_inside e hv a) (suffix46 e hv a) ?_
      intro j q1 q2
      rw [Eam.xlat46_bits e hv a j q2, if_neg (by omega), if_neg (by omega)]
    | none =>
      apply fb
      intro _
      rcases k2 with ⟨_, k2⟩ | ⟨x, _, k2, _⟩
      · exact k2
      · simp at k2

theorem suffix_unique6 {e : Entry} {a : Addr4} {x y : Addr6} (hx : Mem6 e.p6 x) (hy : Mem6 e.p6 y)
    (sx : Suffix e a x) (sy : Suffix e a y)
    (zx : ∀ j, e.p6.len + (32 - e.p4.len) ≤ j → j < 128 → x.getMsbD j = false)
    (zy : ∀ j, e.p6.len + (32 - e.p4.len) ≤ j → j < 128 → y.getMsbD j = false) : x = y := by
  apply BitVec.eq_of_getMsbD_eq
  intro j hj
  by_cases h : j < e.p6.len
  · rw [hx j h, hy j h]
  · by_cases h2 : j < e.p6.len + (32 - e.p4.len)
    · have h1 := sx (j - e.p6.len) (by omega)
      have h2 := sy (j - e.p6.len) (by omega)
      rw [show e.p6.len + (j - e.p6.len) = j by omega] at h1 h2
      rw [← h1, h2]
    · rw [zx j (by omega) hj, zy j (by omega) hj]

theorem spec46_unique {s : Inst} {M : List Entry} (h : Ok s M) {a : Addr4} {eam screen : Bool} {r r' : Ax Addr6}
    (k : Spec46 s M a eam screen r) (k' : Spec46 s M a eam screen r') : r = r' := by
  cases k with
  | off q1 q2 =>
    cases k' with
    | off => rfl
    | eam _ _ p1 => exact absurd q2 (p1 q1)
    | denied => rfl
    | pool _ _ p1 => exact absurd q2 (p1 q1)
    | nothing p1 => exact absurd q2 (p1 q1)
  | eam e a6 q1 q2 q3 q4 q5 q6 =>
    obtain ⟨m1, m2⟩ := best4_mem q3
    cases k' with
    | off p1 p2 => exact absurd p2 (q1 p1)
    | eam e' a6' _ _ p3 p4 p5 p6 =>
      have := best4_unique h.eam q3 p3; subst this
      rw [suffix_unique6 q4 p4 q5 p5 q6 p6]
    | denied _ p2 => exact absurd m2 (p2 q2 e m1)
    | pool _ _ _ p2 => exact absurd m2 (p2 q2 e m1)
    | nothing _ p2 => exact absurd m2 (p2 q2 e m1)
  | denied q1 q2 q3 =>
    cases k' with
    | off => rfl
    | eam e' _ _ p2 p3 => exact absurd (best4_mem p3).2 (q2 p2 _ (best4_mem p3).1)
    | denied => rfl
    | pool _ _ _ _ p3 => exact absurd q3 p3
    | nothing _ _ p3 => exact absurd q3 p3
  | pool p a6 q1 q2 q3 q4 q5 =>
    cases k' with
    | off p1 p2 => exact absurd p2 (q1 p1)
    | eam e' _ _ p2 p3 => exact absurd (best4_mem p3).2 (q2 p2 _ (best4_mem p3).1)
    | denied _ _ p3 => exact absurd p3 q3
    | pool p' a6' _ _ _ p4 p5 =>
      rw [q4] at p4; simp only [Option.some.injEq] at p4; subst p4
      rw [q5.unique p5]
    | nothing _ _ _ p4 => rw [q4] at p4; simp at p4
  | nothing q1 q2 q3 q4 =>
    cases k' with
    | off p1 p2 => exact absurd p2 (q1 p1)
    | eam e' _ _ p2 p3 => exact absurd (best4_mem p3).2 (q2 p2 _ (best4_mem p3).1)
    | denied _ _ p3 => exact absurd p3 q3
    | pool _ _ _ _ _ p4 => rw [q4] at p4; simp at p4
    | nothing => rfl

/-- C13: what happens to an IPv4 address is exactly what the specification says. -/
theorem siit46_spec {s : Inst} {M : List Entry} (h : Ok s M) (a : Addr4) (eam screen : Bool) (r : Ax Addr6) :
    siit46 s a eam screen = .ok r ↔ Spec46 s M a eam screen r := by
  obtain ⟨r', k1, k2⟩ := siit46_sound h a eam screen
  rw [k1]
  constructor
  · intro e; simp only [Outcome.ok.injEq] at e; rw [← e]; exact k2
  · intro k; rw [spec46_unique h k2 k]

/-- C13: there and back with the same entry or the same prefix is the identity. -/
theorem siit_roundtrip {s : Inst} {M : List Entry} (h : Ok s M) (a a' : Addr4) (a6 : Addr6) (eam sc sc' : Bool)
    (m : Method) (h1 : siit46 s a eam sc = .ok (.cont a6 m)) (h2 : siit64 s a6 sc' = .ok (.cont a' m)) : a' = a := by
  have k1 := (siit46_spec h _ _ _ _).1 h1
  have k2 := (siit64_spec h _ _ _).1 h2
  cases k1 with
  | eam e _ _ _ q3 q4 q5 _ =>
    cases k2 with
    | eam _ _ _ _ p3 p4 _ =>
      exact suffix_unique4 p3 (best4_mem q3).2 p4 q5
  | pool p _ _ _ _ q4 q5 =>
    cases k2 with
    | pool _ _ _ _ _ p4 _ =>
      exact embeds_unique p4 ⟨h.pool6 p q4, q5.pref, q5.v4⟩

end Jool.Siit
