import Verif.Model.Options

/-!
# C43: looking for an unexpired source route
-/

namespace Jool.OptionsSpec

abbrev Byte := BitVec 8

/-- IPv4 options (RFC 791): no operation; any other option with its body; a
    loose or strict source route: pointer and addresses. -/
inductive Opt where
  | noop
  | other (type : Byte) (body : List Byte)
  | route (strict : Bool) (ptr : Byte) (addrs : List Byte)

/-- Options have a length byte, so they are at most 255 bytes long. -/
def Opt.Ok : Opt → Prop
  | noop => True
  | other t body => t ≠ 0 ∧ t ≠ 1 ∧ t ≠ 131 ∧ t ≠ 137 ∧ body.length + 2 < 256
  | route _ _ addrs => addrs.length + 3 < 256

/-- Their encoding. -/
def Opt.encode : Opt → List Byte
  | noop => [1]
  | other t body => t :: BitVec.ofNat 8 (body.length + 2) :: body
  | route strict ptr addrs =>
    (if strict then 137 else 131) :: BitVec.ofNat 8 (addrs.length + 3) :: ptr :: addrs

/-- RFC 791: the route is exhausted when the pointer is greater than the
    length.  Only the first source route counts; there can be only one. -/
def unexpired : List Opt → Bool
  | [] => false
  | Opt.route _ ptr addrs :: _ => decide (ptr.toNat ≤ addrs.length + 3)
  | _ :: t => unexpired t

end Jool.OptionsSpec

namespace Jool.Options
open OptionsSpec

theorem scan_succ (opts : List Byte) (n p : Nat) : scan opts (n + 1) p =
    if p ≥ opts.length then R.ans false
    else if opts.getD p 0#8 = 131#8 ∨ opts.getD p 0#8 = 137#8 then
      if p + 2 < opts.length then
        R.ans (decide ((opts.getD (p + 1) 0#8).toNat ≥ (opts.getD (p + 2) 0#8).toNat))
      else R.stray
    else if opts.getD p 0#8 = 0#8 then R.ans false
    else if opts.getD p 0#8 = 1#8 then scan opts n (p + 1)
    else if p + 1 < opts.length then scan opts n (p + (opts.getD (p + 1) 0#8).toNat)
    else R.stray := rfl

theorem getD_at (pre l : List Byte) (i : Nat) :
    (pre ++ l).getD (pre.length + i) 0#8 = l.getD i 0#8 := by
  simp only [List.getD_eq_getElem?_getD]
  rw [List.getElem?_append_right (by omega)]
  congr 2
  omega

theorem scan_encode : ∀ (os : List Opt) (pre pad : List Byte) (n : Nat),
    (∀ o ∈ os, o.Ok) → (∀ b ∈ pad, b = 0#8) → os.length < n →
    scan (pre ++ (os.map Opt.encode).flatten ++ pad) n pre.length = R.ans (unexpired os)
  | [], pre, pad, n + 1, _, hp, _ => by
    simp only [List.map_nil, List.flatten_nil, List.append_nil, unexpired]
    rw [scan_succ]
    split
    · rfl
    · rename_i h
      have e : (pre ++ pad).getD pre.length 0#8 = 0#8 := by
        have := getD_at pre pad 0
        rw [Nat.add_zero] at this
        rw [this]
        cases pad with
        | nil => rfl
        | cons b t => simp [hp b (by simp)]
      rw [e]
      simp
  | o :: os, pre, pad, n + 1, ho, hp, hn => by
    have hoo := ho o (by simp)
    have ih := scan_encode os (pre ++ o.encode) pad n (fun x hx => ho x (by simp [hx])) hp
      (by simp at hn; omega)
    have e : pre ++ ((o :: os).map Opt.encode).flatten ++ pad =
        pre ++ (o.encode ++ ((os.map Opt.encode).flatten ++ pad)) := by simp
    have e2 : pre ++ o.encode ++ (os.map Opt.encode).flatten ++ pad =
        pre ++ (o.encode ++ ((os.map Opt.encode).flatten ++ pad)) := by simp
    rw [e2] at ih
    rw [e]
    generalize hL : (os.map Opt.encode).flatten ++ pad = L at *
    have g := getD_at pre (o.encode ++ L)
    have g0 := g 0
    rw [Nat.add_zero] at g0
    rw [scan_succ, g0, g 1, g 2]
    cases o with
    | noop =>
      simp only [Opt.encode, List.cons_append, List.nil_append, List.length_append,
        List.length_cons, List.length_nil, unexpired] at ih ⊢
      rw [if_neg (by omega)]
      simpa using ih
    | other t body =>
      obtain ⟨h0, h1, h2, h3, h4⟩ := hoo
      have h0 : t ≠ 0#8 := h0
      have h1 : t ≠ 1#8 := h1
      have h2 : t ≠ 131#8 := h2
      have h3 : t ≠ 137#8 := h3
      simp only [Opt.encode, List.cons_append, List.length_append,
        List.length_cons, unexpired] at ih ⊢
      rw [if_neg (by omega)]
      simp only [List.getD_cons_zero, List.getD_cons_succ, h0, h1, h2, h3, or_self, if_false]
      rw [if_pos (by omega), BitVec.toNat_ofNat, Nat.mod_eq_of_lt (by omega)]
      exact ih
    | route strict ptr addrs =>
      have h4 : addrs.length + 3 < 256 := hoo
      simp only [Opt.encode, List.cons_append, List.length_append,
        List.length_cons, unexpired]
      rw [if_neg (by omega)]
      simp only [List.getD_cons_zero, List.getD_cons_succ]
      rw [if_pos (by cases strict <;> simp), if_pos (by omega), BitVec.toNat_ofNat,
        Nat.mod_eq_of_lt (by omega)]

/-- **C43.** On every header whose options are well formed (padded with zeroes),
    the scan ends within one round per option, does not read outside of the
    header, and answers what RFC 791 says. -/
theorem scan_wellformed_partial (os : List Opt) (pad : List Byte) (ho : ∀ o ∈ os, o.Ok)
    (hp : ∀ b ∈ pad, b = 0#8) :
    scan ((os.map Opt.encode).flatten ++ pad) (os.length + 1) 0 = R.ans (unexpired os) := by
  have := scan_encode os [] pad (os.length + 1) ho hp (by omega)
  simpa using this

/-- The positions that the scan visits. -/
inductive Visits (opts : List Byte) : Nat → Prop
  | start : Visits opts 0
  | noop {p} : Visits opts p → p < opts.length → opts.getD p 0#8 = 1#8 → Visits opts (p + 1)
  | skip {p} : Visits opts p → p + 1 < opts.length →
      opts.getD p 0#8 ≠ 0#8 → opts.getD p 0#8 ≠ 1#8 → opts.getD p 0#8 ≠ 131#8 →
      opts.getD p 0#8 ≠ 137#8 → Visits opts (p + (opts.getD (p + 1) 0#8).toNat)

/-- The scan is stuck at `p`: an option other than the one-byte options and
    the source routes, of length zero. -/
def Stuck (opts : List Byte) (p : Nat) : Prop :=
  p + 1 < opts.length ∧ opts.getD p 0#8 ≠ 0#8 ∧ opts.getD p 0#8 ≠ 1#8 ∧
  opts.getD p 0#8 ≠ 131#8 ∧ opts.getD p 0#8 ≠ 137#8 ∧ opts.getD (p + 1) 0#8 = 0#8

theorem stuck_forever {opts : List Byte} {p : Nat} (h : Stuck opts p) :
    ∀ n, scan opts n p = R.running
  | 0 => rfl
  | n + 1 => by
    obtain ⟨h1, h2, h3, h4, h5, h6⟩ := h
    rw [scan_succ, if_neg (by omega), if_neg (fun h => h.elim h4 h5), if_neg h2, if_neg h3, if_pos h1, h6]
    exact stuck_forever ⟨h1, h2, h3, h4, h5, h6⟩ n

theorem scan_total {opts : List Byte} : ∀ (n p : Nat), Visits opts p → opts.length ≤ p + n →
    scan opts (n + 1) p ≠ R.running ∨ ∃ q, Visits opts q ∧ Stuck opts q := by
  intro n
  induction n with
  | zero =>
    intro p _ h
    rw [scan_succ, if_pos (by omega)]
    exact Or.inl (by simp)
  | succ n ih =>
    intro p hv h
    rw [scan_succ]
    split
    · exact Or.inl (by simp)
    · rename_i hp
      split
      · left; split <;> simp
      · rename_i hr
        split
        · exact Or.inl (by simp)
        · rename_i h0
          split
          · rename_i h1
            exact ih (p + 1) (Visits.noop hv (by omega) h1) (by omega)
          · rename_i h1
            split
            · rename_i hl
              have hr' : opts.getD p 0#8 ≠ 131#8 ∧ opts.getD p 0#8 ≠ 137#8 :=
                ⟨fun h => hr (Or.inl h), fun h => hr (Or.inr h)⟩
              by_cases hz : opts.getD (p + 1) 0#8 = 0#8
              · exact Or.inr ⟨p, hv, hl, h0, h1, hr'.1, hr'.2, hz⟩
              · have : (opts.getD (p + 1) 0#8).toNat ≠ 0 := by
                  intro h
                  exact hz (BitVec.eq_of_toNat_eq (by simpa using h))
                exact ih _ (Visits.skip hv hl h0 h1 hr'.1 hr'.2) (by omega)
            · exact Or.inl (by simp)

/-- **C43.** Termination, exactly: on any bytes whatsoever the scan ends (within
    one round per byte) unless it comes across an option of length zero. -/
theorem scan_terminates_partial (opts : List Byte) :
    scan opts (opts.length + 1) 0 ≠ R.running ∨ ∃ q, Visits opts q ∧ Stuck opts q :=
  scan_total _ _ Visits.start (by omega)

theorem visits_scan {opts : List Byte} {q : Nat} (h : Visits opts q) :
    ∃ k, ∀ n, scan opts (n + k) 0 = scan opts n q := by
  induction h with
  | start => exact ⟨0, fun n => rfl⟩
  | @noop p _ hp h1 ih =>
    obtain ⟨k, hk⟩ := ih
    refine ⟨k + 1, fun n => ?_⟩
    rw [show n + (k + 1) = (n + 1) + k by omega, hk, scan_succ, if_neg (by omega), if_neg, if_neg, if_pos h1]
    · rw [h1]; decide
    · rw [h1]; decide
  | @skip p _ hp h0 h1 h2 h3 ih =>
    obtain ⟨k, hk⟩ := ih
    refine ⟨k + 1, fun n => ?_⟩
    rw [show n + (k + 1) = (n + 1) + k by omega, hk, scan_succ, if_neg (by omega),
      if_neg (fun h => h.elim h2 h3), if_neg h0, if_neg h1, if_pos hp]

theorem scan_mono {opts : List Byte} : ∀ (n p : Nat), scan opts n p ≠ R.running →
    scan opts (n + 1) p = scan opts n p
  | 0, p, h => absurd rfl h
  | n + 1, p, h => by
    have e := scan_succ opts n p
    rw [e] at h
    rw [scan_succ opts (n + 1), e]
    by_cases h1 : p ≥ opts.length
    · simp only [if_pos h1]
    · simp only [if_neg h1] at h ⊢
      by_cases h2 : opts.getD p 0#8 = 131#8 ∨ opts.getD p 0#8 = 137#8
      · simp only [if_pos h2]
      · simp only [if_neg h2] at h ⊢
        by_cases h3 : opts.getD p 0#8 = 0#8
        · simp only [if_pos h3]
        · simp only [if_neg h3] at h ⊢
          by_cases h4 : opts.getD p 0#8 = 1#8
          · simp only [if_pos h4] at h ⊢
            exact scan_mono n _ h
          · simp only [if_neg h4] at h ⊢
            by_cases h5 : p + 1 < opts.length
            · simp only [if_pos h5] at h ⊢
              exact scan_mono n _ h
            · simp only [if_neg h5]

theorem scan_mono' {opts : List Byte} {n p : Nat} (h : scan opts n p ≠ R.running) :
    ∀ k, scan opts (n + k) p = scan opts n p
  | 0 => rfl
  | k + 1 => by
    have ih := scan_mono' h k
    rw [← Nat.add_assoc, scan_mono _ _ (by rw [ih]; exact h), ih]

/-- **C43.** The other half: an option of length zero that is visited keeps the
    scan busy forever. -/
theorem scan_stuck {opts : List Byte} {q : Nat} (hv : Visits opts q) (hs : Stuck opts q) (n : Nat) :
    scan opts n 0 = R.running := by
  obtain ⟨k, hk⟩ := visits_scan hv
  apply Decidable.byContradiction
  intro h
  have e := scan_mono' h k
  rw [hk, stuck_forever hs] at e
  exact h e.symm

/-- **C43, defect.** An option of length zero (here, a router alert) makes the
    kernel loop forever.  Nothing upstream refuses such a header: the kernel
    parses the options after the PREROUTING hook. -/
theorem scan_hangs : ∃ opts : List Byte, opts.length = 4 ∧ ∀ n, scan opts n 0 = R.running :=
  ⟨[148#8, 0#8, 0#8, 0#8], rfl, stuck_forever (by unfold Stuck; decide)⟩

/-- **C43, defect.** A source route in the last byte makes the scan read beyond
    the header, and decide according to the transport header's bytes. -/
theorem scan_strays : ∃ opts : List Byte, opts.length = 4 ∧ scan opts 9 0 = R.stray :=
  ⟨[1#8, 1#8, 1#8, 131#8], rfl, by decide⟩

/-- A loose source route that still has a hop to go, behind a no-op. -/
example : scan [1#8, 131#8, 7#8, 4#8, 192#8, 0#8, 2#8, 1#8] 3 0 = R.ans true :=
  scan_wellformed_partial [Opt.noop, Opt.route false 4#8 [192#8, 0#8, 2#8, 1#8]] []
    (by simp [Opt.Ok]) (by simp)

end Jool.Options
