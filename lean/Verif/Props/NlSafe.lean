import Verif.Lemmas.NlAttr
/-
C68: the kernel reads requests safely, whatever the bytes; what is missing is noticed. The client is less careful.
-/
namespace Jool.NlAttr
open Jool.Nla
open Jool.JooldMsg (Byte be unbe be_length unbe_be)

/-! ## Safety of the kernel's readers -/

theorem nonNull_safe (o : Option Attr) : Safe (nonNull o) := by cases o; exact safe_err _; exact safe_ok _

theorem valid_u8 {s a} (h : kValid s a .u8 = true) : 1 ≤ a.data.length := intOk_len h
theorem valid_u16 {s a} (h : kValid s a .u16 = true) : 2 ≤ a.data.length := intOk_len h
theorem valid_u32 {s a} (h : kValid s a .u32 = true) : 4 ≤ a.data.length := intOk_len h

/-- A reader of one attribute, applied to an attribute that was validated (or is missing). -/
theorem kU8_safe {s pol a tb t} (h : kParseNested s pol a = .ok tb) (hp : polOf pol t = some .u8) :
    Safe (kU8 (Nla.get tb t)) := by
  unfold kU8
  refine safe_bind (nonNull_safe _) (fun x hx => ?_)
  cases hg : Nla.get tb t with
  | none => rw [hg] at hx; cases hx
  | some y =>
    rw [hg] at hx
    simp only [nonNull, Res.ok.injEq] at hx
    subst hx
    exact getU8_safe (valid_u8 (kParseNested_valid h hp hg))

theorem kU16_safe {s pol a tb t} (h : kParseNested s pol a = .ok tb) (hp : polOf pol t = some .u16) :
    Safe (kU16 (Nla.get tb t)) := by
  unfold kU16
  refine safe_bind (nonNull_safe _) (fun x hx => ?_)
  cases hg : Nla.get tb t with
  | none => rw [hg] at hx; cases hx
  | some y =>
    rw [hg] at hx
    simp only [nonNull, Res.ok.injEq] at hx
    subst hx
    exact getU16_safe (valid_u16 (kParseNested_valid h hp hg))

theorem kU32_safe {s pol a tb t} (h : kParseNested s pol a = .ok tb) (hp : polOf pol t = some .u32) :
    Safe (kU32 (Nla.get tb t)) := by
  unfold kU32
  refine safe_bind (nonNull_safe _) (fun x hx => ?_)
  cases hg : Nla.get tb t with
  | none => rw [hg] at hx; cases hx
  | some y =>
    rw [hg] at hx
    simp only [nonNull, Res.ok.injEq] at hx
    subst hx
    exact getU32_safe (valid_u32 (kParseNested_valid h hp hg))

theorem optional_safe {α} {z : α} {f : Option Attr → Res α} {o : Option Attr} (h : ∀ a, o = some a → Safe (f (some a))) :
    Safe (optional z f o) := by
  cases o with
  | none => exact safe_ok _
  | some a => exact h a rfl

theorem kBytes_safe (n : Nat) (o : Option Attr) : Safe (kBytes n o) := by
  unfold kBytes
  refine safe_bind (nonNull_safe _) (fun x _ => ?_)
  split
  · exact safe_err _
  · exact payload_safe (by omega)

theorem kAddr6_safe (o : Option Attr) : Safe (kAddr6 o) := safe_bind (kBytes_safe _ _) (fun _ _ => safe_ok _)
theorem kAddr4_safe (o : Option Attr) : Safe (kAddr4 o) := safe_bind (kBytes_safe _ _) (fun _ _ => safe_ok _)

theorem kPrefix6Opt_safe (s : Bool) (o : Option Attr) : Safe (kPrefix6Opt s o) := by
  unfold kPrefix6Opt
  refine safe_bind (nonNull_safe _) (fun a _ => safe_bind (kParseNested_safe _ _ _) (fun tb htb => ?_))
  split
  · exact safe_err _
  · rename_i l hl
    split
    · exact safe_ok _
    · exact safe_bind (getU8_safe (valid_u8 (kParseNested_valid htb rfl hl)))
        (fun _ _ => safe_bind (kAddr6_safe _) (fun _ _ => safe_ok _))

theorem kPrefix4Opt_safe (s : Bool) (o : Option Attr) : Safe (kPrefix4Opt s o) := by
  unfold kPrefix4Opt
  refine safe_bind (nonNull_safe _) (fun a _ => safe_bind (kParseNested_safe _ _ _) (fun tb htb => ?_))
  split
  · exact safe_err _
  · rename_i l hl
    split
    · exact safe_ok _
    · exact safe_bind (getU8_safe (valid_u8 (kParseNested_valid htb rfl hl)))
        (fun _ _ => safe_bind (kAddr4_safe _) (fun _ _ => safe_ok _))

theorem kPrefix6_safe (s : Bool) (o : Option Attr) : Safe (kPrefix6 s o) := by
  unfold kPrefix6
  refine safe_bind (kPrefix6Opt_safe _ _) (fun p _ => ?_)
  cases p
  · exact safe_err _
  · exact safe_ok _

theorem kPrefix4_safe (s : Bool) (o : Option Attr) : Safe (kPrefix4 s o) := by
  unfold kPrefix4
  refine safe_bind (kPrefix4Opt_safe _ _) (fun p _ => ?_)
  cases p
  · exact safe_err _
  · exact safe_ok _

theorem kTaddr6_safe (s : Bool) (o : Option Attr) : Safe (kTaddr6 s o) :=
  safe_bind (nonNull_safe _) (fun _ _ => safe_bind (kParseNested_safe _ _ _) (fun _ htb =>
    safe_bind (kAddr6_safe _) (fun _ _ => safe_bind (kU16_safe htb rfl) (fun _ _ => safe_ok _))))

theorem kTaddr4_safe (s : Bool) (o : Option Attr) : Safe (kTaddr4 s o) :=
  safe_bind (nonNull_safe _) (fun _ _ => safe_bind (kParseNested_safe _ _ _) (fun _ htb =>
    safe_bind (kAddr4_safe _) (fun _ _ => safe_bind (kU16_safe htb rfl) (fun _ _ => safe_ok _))))

theorem kEam_safe (s : Bool) (o : Option Attr) : Safe (kEam s o) :=
  safe_bind (nonNull_safe _) (fun _ _ => safe_bind (kParseNested_safe _ _ _) (fun _ _ =>
    safe_bind (kPrefix6_safe _ _) (fun _ _ => safe_bind (kPrefix4_safe _ _) (fun _ _ => safe_ok _))))

theorem kPool4_safe (s : Bool) (o : Option Attr) : Safe (kPool4 s o) :=
  safe_bind (nonNull_safe _) (fun _ _ => safe_bind (kParseNested_safe _ _ _) (fun _ htb =>
    safe_bind (optional_safe (fun _ ha => getU32_safe (valid_u32 (kParseNested_valid htb rfl ha)))) (fun _ _ =>
    safe_bind (optional_safe (fun _ ha => getU32_safe (valid_u32 (kParseNested_valid htb rfl ha)))) (fun _ _ =>
    safe_bind (optional_safe (fun _ ha => getU8_safe (valid_u8 (kParseNested_valid htb rfl ha)))) (fun _ _ =>
    safe_bind (kU8_safe htb rfl) (fun _ _ => safe_bind (kPrefix4_safe _ _) (fun _ _ =>
    safe_bind (kU16_safe htb rfl) (fun _ _ => safe_bind (kU16_safe htb rfl) (fun _ _ => safe_ok _)))))))))

theorem kBib_safe (s : Bool) (o : Option Attr) : Safe (kBib s o) :=
  safe_bind (nonNull_safe _) (fun _ _ => safe_bind (kParseNested_safe _ _ _) (fun _ htb =>
    safe_bind (kTaddr6_safe _ _) (fun _ _ => safe_bind (kTaddr4_safe _ _) (fun _ _ =>
    safe_bind (kU8_safe htb rfl) (fun _ _ =>
    safe_bind (optional_safe (fun _ ha => getU8_safe (valid_u8 (kParseNested_valid htb rfl ha)))) (fun _ _ => safe_ok _))))))

theorem kEamRm_safe (s : Bool) (o : Option Attr) : Safe (kEamRm s o) := by
  unfold kEamRm
  refine safe_bind (nonNull_safe _) (fun _ _ => safe_bind (kParseNested_safe _ _ _) (fun _ _ => ?_))
  split
  · exact safe_err _
  · exact safe_bind (optional_safe (fun _ _ => safe_bind (kPrefix6_safe _ _) (fun _ _ => safe_ok _))) (fun _ _ =>
      safe_bind (optional_safe (fun _ _ => safe_bind (kPrefix4_safe _ _) (fun _ _ => safe_ok _))) (fun _ _ => safe_ok _))

theorem kBibRm_safe (s : Bool) (o : Option Attr) : Safe (kBibRm s o) := by
  unfold kBibRm
  refine safe_bind (nonNull_safe _) (fun _ _ => safe_bind (kParseNested_safe _ _ _) (fun _ htb => ?_))
  split
  · exact safe_err _
  · exact safe_bind (optional_safe (fun _ _ => safe_bind (kTaddr6_safe _ _) (fun _ _ => safe_ok _))) (fun _ _ =>
      safe_bind (optional_safe (fun _ _ => safe_bind (kTaddr4_safe _ _) (fun _ _ => safe_ok _))) (fun _ _ =>
      safe_bind (optional_safe (fun _ ha => safe_bind (getU8_safe (valid_u8 (kParseNested_valid htb rfl ha)))
        (fun _ _ => safe_ok _))) (fun _ _ =>
      safe_bind (optional_safe (fun _ ha => getU8_safe (valid_u8 (kParseNested_valid htb rfl ha)))) (fun _ _ => safe_ok _))))

theorem kSessOffset_safe (s : Bool) (a : Attr) : Safe (kSessOffset s a) :=
  safe_bind (kParseNested_safe _ _ _) (fun _ _ => safe_bind (optional_safe (fun _ _ => kTaddr4_safe _ _)) (fun _ _ =>
    safe_bind (optional_safe (fun _ _ => kTaddr4_safe _ _)) (fun _ _ => safe_ok _)))

theorem kInstAdd_safe (s : Bool) (o : Option Attr) : Safe (kInstAdd s o) :=
  safe_bind (nonNull_safe _) (fun _ _ => safe_bind (kParseNested_safe _ _ _) (fun _ htb =>
    safe_bind (kU8_safe htb rfl) (fun _ _ => safe_bind (optional_safe (fun _ _ => kPrefix6Opt_safe _ _))
      (fun _ _ => safe_ok _))))

theorem kStr_safe {s pol a tb t} (h : kParseNested s pol a = .ok tb) (hp : polOf pol t = some (.name 16)) :
    Safe (kStr 16 (Nla.get tb t)) := by
  unfold kStr
  refine safe_bind (nonNull_safe _) (fun x hx => ?_)
  cases hg : Nla.get tb t with
  | none => rw [hg] at hx; cases hx
  | some y =>
    rw [hg] at hx
    simp only [nonNull, Res.ok.injEq] at hx
    subst hx
    have := kParseNested_valid h hp hg
    simp only [kValid, Bool.and_eq_true] at this
    rw [if_pos this.1.2]
    exact safe_ok _

theorem kInst_safe (s : Bool) (a : Attr) : Safe (kInst s a) :=
  safe_bind (kParseNested_safe _ _ _) (fun _ htb => safe_bind (kU32_safe htb rfl) (fun _ _ =>
    safe_bind (kU8_safe htb rfl) (fun _ _ => safe_bind (kStr_safe htb rfl) (fun _ _ => safe_ok _))))

/-- **C68.** No attribute whatsoever as operand, offset or address of a request, nor its absence, makes the kernel read outside
of the attribute or follow a NULL pointer. -/
theorem kernel_reads_safely (s : Bool) (o : Option Attr) :
    Safe (kEam s o) ∧ Safe (kEamRm s o) ∧ Safe (kPool4 s o) ∧ Safe (kBib s o) ∧ Safe (kBibRm s o) ∧ Safe (kPrefix4 s o)
    ∧ Safe (kInstAdd s o) ∧ Safe (kAddr6 o) ∧ Safe (kAddr4 o)
    ∧ (∀ a, o = some a → Safe (kSessOffset s a) ∧ Safe (kInst s a)) :=
  ⟨kEam_safe _ _, kEamRm_safe _ _, kPool4_safe _ _, kBib_safe _ _, kBibRm_safe _ _, kPrefix4_safe _ _, kInstAdd_safe _ _,
    kAddr6_safe _, kAddr4_safe _, fun a _ => ⟨kSessOffset_safe s a, kInst_safe s a⟩⟩

/-! ## What must be there -/

/-- Types that occur in a payload. -/
def Has (a : Attr) (t : Nat) : Prop := ∃ x ∈ (attrs a.data).1, x.ty = t

instance (a : Attr) (t : Nat) : Decidable (Has a t) := inferInstanceAs (Decidable (∃ x ∈ _, _))

theorem parsed {s pol a tb} (h : kParseNested s pol a = .ok tb) : tb = (attrs a.data).1 := by
  unfold kParseNested kParse at h
  dsimp only at h
  split at h
  · cases h
  · split at h
    · cases h
    · split at h
      · cases h
      · exact (Res.ok.inj h).symm

theorem get_none {s pol a tb t} (h : kParseNested s pol a = .ok tb) (hn : ¬ Has a t) : Nla.get tb t = none := by
  cases hg : Nla.get tb t with
  | none => rfl
  | some x =>
    obtain ⟨h1, h2⟩ := get_mem hg
    exact absurd ⟨x, parsed h ▸ h1, h2⟩ hn

theorem bind_ok {α β} {r : Res α} {f : α → Res β} {b : β} (h : r.bind f = .ok b) : ∃ a, r = .ok a ∧ f a = .ok b := by
  cases r with
  | ok a => exact ⟨a, rfl, h⟩
  | err e => cases h
  | ub u => cases h

theorem kU8_none : kU8 none = .err .EINVAL := rfl
theorem kU16_none : kU16 none = .err .EINVAL := rfl

/-- A pool4 entry has a protocol, a prefix and both ports. -/
theorem pool4_requires {s a e} (h : kPool4 s (some a) = .ok e) : Has a 4 ∧ Has a 5 ∧ Has a 6 ∧ Has a 7 := by
  unfold kPool4 at h
  obtain ⟨_, h1, h⟩ := bind_ok h
  cases h1
  obtain ⟨tb, htb, h⟩ := bind_ok h
  obtain ⟨_, _, h⟩ := bind_ok h
  obtain ⟨_, _, h⟩ := bind_ok h
  obtain ⟨_, _, h⟩ := bind_ok h
  obtain ⟨_, h4, h⟩ := bind_ok h
  obtain ⟨_, h5, h⟩ := bind_ok h
  obtain ⟨_, h6, h⟩ := bind_ok h
  obtain ⟨_, h7, h⟩ := bind_ok h
  refine ⟨?_, ?_, ?_, ?_⟩ <;> apply Decidable.byContradiction <;> intro hn <;> have hg := get_none htb hn
  · rw [hg] at h4; cases h4
  · rw [hg] at h5; cases h5
  · rw [hg] at h6; cases h6
  · rw [hg] at h7; cases h7

/-- Its mark, iterations and flags are zero unless they are there. -/
theorem pool4_defaults {s a e} (h : kPool4 s (some a) = .ok e) :
    (¬ Has a 1 → e.mark = 0) ∧ (¬ Has a 2 → e.iters = 0) ∧ (¬ Has a 3 → e.flags = 0) := by
  unfold kPool4 at h
  obtain ⟨_, h1, h⟩ := bind_ok h
  cases h1
  obtain ⟨tb, htb, h⟩ := bind_ok h
  obtain ⟨_, h1, h⟩ := bind_ok h
  obtain ⟨_, h2, h⟩ := bind_ok h
  obtain ⟨_, h3, h⟩ := bind_ok h
  obtain ⟨_, h4, h⟩ := bind_ok h
  obtain ⟨_, h5, h⟩ := bind_ok h
  obtain ⟨_, h6, h⟩ := bind_ok h
  obtain ⟨_, h7, h⟩ := bind_ok h
  cases h
  refine ⟨?_, ?_, ?_⟩ <;> intro hn <;> have hg := get_none htb hn
  · rw [hg] at h1; cases h1; rfl
  · rw [hg] at h2; cases h2; rfl
  · rw [hg] at h3; cases h3; rfl

/-- A new BIB entry has both addresses and a protocol; it is not static unless it says so. -/
theorem bib_requires {s a e} (h : kBib s (some a) = .ok e) :
    Has a 1 ∧ Has a 2 ∧ Has a 3 ∧ (¬ Has a 4 → e.static = false) := by
  unfold kBib at h
  obtain ⟨_, h1, h⟩ := bind_ok h
  cases h1
  obtain ⟨tb, htb, h⟩ := bind_ok h
  obtain ⟨_, h1, h⟩ := bind_ok h
  obtain ⟨_, h2, h⟩ := bind_ok h
  obtain ⟨_, h3, h⟩ := bind_ok h
  obtain ⟨_, h4, h⟩ := bind_ok h
  cases h
  refine ⟨?_, ?_, ?_, ?_⟩
  · apply Decidable.byContradiction; intro hn; rw [get_none htb hn] at h1; cases h1
  · apply Decidable.byContradiction; intro hn; rw [get_none htb hn] at h2; cases h2
  · apply Decidable.byContradiction; intro hn; rw [get_none htb hn] at h3; cases h3
  · intro hn; rw [get_none htb hn] at h4; cases h4; rfl

/-- An EAM has both prefixes. -/
theorem eam_requires {s a e} (h : kEam s (some a) = .ok e) : Has a 1 ∧ Has a 2 := by
  unfold kEam at h
  obtain ⟨_, h1, h⟩ := bind_ok h
  cases h1
  obtain ⟨tb, htb, h⟩ := bind_ok h
  obtain ⟨_, h1, h⟩ := bind_ok h
  obtain ⟨_, h2, h⟩ := bind_ok h
  refine ⟨?_, ?_⟩ <;> apply Decidable.byContradiction <;> intro hn <;> have hg := get_none htb hn
  · rw [hg] at h1; cases h1
  · rw [hg] at h2; cases h2

/-- A prefix has an address of exactly four bytes, and a length. -/
theorem prefix4_requires {s a p} (h : kPrefix4 s (some a) = .ok p) :
    Has a 2 ∧ ∃ x ∈ (attrs a.data).1, x.ty = 1 ∧ x.data.length = 4 := by
  unfold kPrefix4 at h
  obtain ⟨o, h0, h⟩ := bind_ok h
  unfold kPrefix4Opt at h0
  obtain ⟨_, h1, h0⟩ := bind_ok h0
  cases h1
  obtain ⟨tb, htb, h0⟩ := bind_ok h0
  cases hl : Nla.get tb 2 with
  | none => rw [hl] at h0; cases h0
  | some l =>
    rw [hl] at h0
    cases hd : Nla.get tb 1 with
    | none => rw [hd] at h0; cases h0; cases h
    | some d =>
      rw [hd] at h0
      obtain ⟨_, _, h0⟩ := bind_ok h0
      obtain ⟨_, h1, _⟩ := bind_ok h0
      obtain ⟨_, h1, _⟩ := bind_ok h1
      obtain ⟨hm, ht⟩ := get_mem hd
      obtain ⟨hm2, ht2⟩ := get_mem hl
      have hv := kParseNested_valid (t := 1) htb rfl hd
      rw [← parsed htb]
      refine ⟨⟨l, parsed htb ▸ hm2, ht2⟩, d, hm, ht, ?_⟩
      unfold kBytes nonNull at h1
      rw [ok_bind] at h1
      split at h1
      · cases h1
      · simp only [kValid, Bool.and_eq_true, decide_eq_true_eq] at hv
        omega

/-- A transport address has an address of exactly four bytes, and a port. -/
theorem taddr4_requires {s a p} (h : kTaddr4 s (some a) = .ok p) :
    Has a 2 ∧ ∃ x ∈ (attrs a.data).1, x.ty = 1 ∧ x.data.length = 4 := by
  unfold kTaddr4 at h
  obtain ⟨_, h1, h0⟩ := bind_ok h
  cases h1
  obtain ⟨tb, htb, h0⟩ := bind_ok h0
  obtain ⟨_, ha, h0⟩ := bind_ok h0
  obtain ⟨_, hp, h0⟩ := bind_ok h0
  refine ⟨?_, ?_⟩
  · apply Decidable.byContradiction; intro hn; rw [get_none htb hn] at hp; cases hp
  · cases hd : Nla.get tb 1 with
    | none => rw [hd] at ha; cases ha
    | some d =>
      rw [hd] at ha
      obtain ⟨hm, ht⟩ := get_mem hd
      have hv := kParseNested_valid (t := 1) htb rfl hd
      rw [← parsed htb]
      refine ⟨d, hm, ht, ?_⟩
      obtain ⟨_, h1, _⟩ := bind_ok ha
      unfold kBytes nonNull at h1
      rw [ok_bind] at h1
      split at h1
      · cases h1
      · simp only [kValid, Bool.and_eq_true, decide_eq_true_eq] at hv
        omega

/-! ## The client -/

/-- An entry of a listing with everything in it is read without trouble (`Verif.Props.NlAttr`), but **the client trusts the
kernel**: the check of mandatory attributes skips the last one, and all addresses. A transport address without a port, or an EAM
without its IPv4 prefix, makes it follow a NULL pointer. -/
theorem client_null_port :
    uTaddr4 (some (aNest 1 [aAddr4 1 0xc0000201])) = .ub .nullDeref := by decide +kernel

theorem client_null_addr :
    uTaddr6 (some (aNest 1 [aU16 2 80])) = .ub .nullDeref := by decide +kernel

theorem client_null_eam :
    uEam (aNest 1 [aPrefix6 1 ⟨0x20010db8000000000000000000000000, 64⟩]) = .ub .nullDeref := by decide +kernel

/-- The kernel refuses the same attributes. -/
theorem kernel_null_port (s : Bool) : kTaddr4 s (some (aNest 1 [aAddr4 1 0xc0000201])) = .err .EINVAL := by
  cases s <;> decide +kernel

/-! ## Examples -/

/-- An operand with the mandatory attributes only. -/
def exPool4 : Attr := aNest 10 [aU8 4 1, aPrefix4 5 ⟨0xc0000200, 24⟩, aU16 6 1, aU16 7 65535]

example : kPool4 true (some exPool4) = .ok ⟨0, 0, 0, 1, ⟨0xc0000200, 24⟩, 1, 65535⟩ := by decide +kernel
example : ¬ Has exPool4 1 ∧ Has exPool4 4 := by decide +kernel
/-- Without a port. -/
example : kPool4 true (some (aNest 10 [aU8 4 1, aPrefix4 5 ⟨0xc0000200, 24⟩, aU16 6 1])) = .err .EINVAL := by decide +kernel
/-- An address of three bytes; of five. -/
example : kPrefix4 false (some (aNest 10 [aRaw 1 [1, 2, 3], aU8 2 24])) = .err .EINVAL
    ∧ kPrefix4 false (some (aNest 10 [aRaw 1 [1, 2, 3, 4, 5], aU8 2 24])) = .err .parse := by decide +kernel
/-- Noise. -/
example : kBib false (some ⟨10, false, [1, 2, 3, 4, 5, 6, 7]⟩) = .err .EINVAL := by decide +kernel
example : kBib true (some ⟨10, true, [8, 0, 1, 0x80, 5, 6, 7]⟩) = .err .parse := by decide +kernel

end Jool.NlAttr
