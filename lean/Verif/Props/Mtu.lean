import Verif.Model.Mtu
/-
C40 (MTU advice) and C47 (plateaus).
-/
namespace Jool
namespace Mtu

theorem umin_toNat (a b : U32) : (umin a b).toNat = min a.toNat b.toNat := by
  unfold umin; split <;> omega
theorem umax_toNat (a b : U32) : (umax a b).toNat = max a.toNat b.toNat := by
  unfold umax; split <;> omega

/-! ## C47 -/

/-- What the loop keeps true. `s`: the sorted array. -/
structure Inv (count : Nat) (s v : Nat → Nat) (i j : Nat) : Prop where
  lt : i < j
  rest : ∀ k, j ≤ k → v k = s k
  first : v 0 = s 0
  decr : ∀ a b, a < b → b ≤ i → v b < v a
  last : v i = s (j - 1)
  from' : ∀ a, a ≤ i → ∃ b, b < j ∧ (b < count ∨ b = 0) ∧ v a = s b
  to' : ∀ b, b < j → ∃ a, a ≤ i ∧ v a = s b
  nz : ∀ b, 0 < b → b < j → s b ≠ 0
  bound : j ≤ count ∨ j = 1

/-- What the loop yields. -/
structure Done (count : Nat) (s v : Nat → Nat) (i : Nat) : Prop where
  first : v 0 = s 0
  decr : ∀ a b, a < b → b ≤ i → v b < v a
  from' : ∀ a, a ≤ i → ∃ b, (b < count ∨ b = 0) ∧ v a = s b
  to' : ∀ b, b < count → s b ≠ 0 → ∃ a, a ≤ i ∧ v a = s b
  nz : s 0 ≠ 0 → ∀ a, a ≤ i → v a ≠ 0
  bound : i < count ∨ i = 0

theorem Inv.done {count s v i j} (h : Inv count s v i j) (hstop : ∀ b, j ≤ b → b < count → s b = 0) :
    Done count s v i where
  first := h.first
  decr := h.decr
  from' a ha := by obtain ⟨b, _, hb, e⟩ := h.from' a ha; exact ⟨b, hb, e⟩
  to' b hb hne := by
    by_cases hj : b < j
    · exact h.to' b hj
    · exact absurd (hstop b (by omega) hb) hne
  nz h0 a ha := by
    obtain ⟨b, hb, _, e⟩ := h.from' a ha
    rw [e]
    by_cases hb0 : b = 0
    · rw [hb0]; exact h0
    · exact h.nz b (by omega) hb
  bound := by have := h.bound; have := h.lt; omega

theorem compact_done {count : Nat} {s : Nat → Nat} (hs : ∀ a b, a ≤ b → b < count → s b ≤ s a) :
    ∀ v i j, Inv count s v i j → Done count s (compact count v i j).1 (compact count v i j).2 := by
  intro v i j h
  fun_induction compact count v i j with
  | case1 v i j hj hz =>
    apply h.done
    intro b hb hbc
    have h1 := hs j b hb hbc
    rw [h.rest j (Nat.le_refl _)] at hz
    omega
  | case2 v i j hj hz hne ih =>
    apply ih
    have hsj := h.rest j (Nat.le_refl _)
    have hlt : v j < v i := by
      have h2 := hs (j - 1) j (by omega) hj
      have h3 := h.last
      have : v j ≠ v i := fun e => hne e.symm
      omega
    have hij := h.lt
    refine ⟨by omega, ?_, ?_, ?_, ?_, ?_, ?_, ?_, Or.inl (by omega)⟩
    · intro k hk
      have : k ≠ i + 1 := by omega
      simp [this]; exact h.rest k (by omega)
    · simp; exact h.first
    · intro a b hab hb
      by_cases hb' : b = i + 1
      · subst hb'
        have : a ≠ i + 1 := by omega
        simp [this]
        by_cases ha : a = i
        · subst ha; exact hlt
        · have := h.decr a i (by omega) (Nat.le_refl _); omega
      · have : a ≠ i + 1 := by omega
        simp [this, hb']
        exact h.decr a b hab (by omega)
    · simp [hsj]
    · intro a ha
      by_cases ha' : a = i + 1
      · exact ⟨j, by omega, Or.inl hj, by simp [ha', hsj]⟩
      · obtain ⟨b, hb, hc, e⟩ := h.from' a (by omega)
        exact ⟨b, by omega, hc, by simp [ha', e]⟩
    · intro b hb
      by_cases hb' : b = j
      · exact ⟨i + 1, Nat.le_refl _, by simp [hb', hsj]⟩
      · obtain ⟨a, ha, e⟩ := h.to' b (by omega)
        have : a ≠ i + 1 := by omega
        exact ⟨a, by omega, by simp [this, e]⟩
    · intro b h0 hb
      by_cases hb' : b = j
      · rw [hb', ← hsj]; exact hz
      · exact h.nz b h0 (by omega)
  | case3 v i j hj hz hne ih =>
    apply ih
    have hsj := h.rest j (Nat.le_refl _)
    have he : v i = v j := by simpa using hne
    have hij := h.lt
    refine ⟨by omega, fun k hk => h.rest k (by omega), h.first, h.decr, ?_, ?_, ?_, ?_, Or.inl (by omega)⟩
    · simp [he, hsj]
    · intro a ha
      obtain ⟨b, hb, hc, e⟩ := h.from' a ha
      exact ⟨b, by omega, hc, e⟩
    · intro b hb
      by_cases hb' : b = j
      · exact ⟨i, Nat.le_refl _, by rw [he, hb', hsj]⟩
      · exact h.to' b (by omega)
    · intro b h0 hb
      by_cases hb' : b = j
      · rw [hb', ← hsj]; exact hz
      · exact h.nz b h0 (by omega)
  | case4 v i j hj =>
    apply h.done
    intro b hb hbc; omega

theorem Inv.start (count : Nat) (s : Nat → Nat) : Inv count s s 0 1 where
  lt := by omega
  rest _ _ := rfl
  first := rfl
  decr := by intro a b h1 h2; omega
  last := rfl
  from' a ha := ⟨0, by omega, Or.inr rfl, by rw [show a = 0 by omega]⟩
  to' b hb := ⟨0, by omega, by rw [show b = 0 by omega]⟩
  nz := by intro b h1 h2; omega
  bound := Or.inr rfl

theorem sorted_lt {input : List Nat} {stale : Nat → Nat} {k : Nat} (h : k < input.length) :
    ∃ h' : k < (input.mergeSort (fun a b => decide (b ≤ a))).length,
      sorted input stale k = (input.mergeSort (fun a b => decide (b ≤ a)))[k] := by
  have h' : k < (input.mergeSort (fun a b => decide (b ≤ a))).length := by simpa using h
  exact ⟨h', by simp [sorted, List.getElem?_eq_getElem h']⟩

theorem sorted_desc (input : List Nat) (stale : Nat → Nat) (a b : Nat) (hab : a ≤ b) (hb : b < input.length) :
    sorted input stale b ≤ sorted input stale a := by
  obtain ⟨hb', eb⟩ := sorted_lt (stale := stale) hb
  obtain ⟨ha', ea⟩ := sorted_lt (stale := stale) (show a < input.length by omega)
  rw [ea, eb]
  by_cases h : a = b
  · subst h; exact Nat.le_refl _
  · have hp := List.pairwise_mergeSort (le := fun a b : Nat => decide (b ≤ a))
      (by intro a b c; simp; omega) (by intro a b; simp; omega) input
    have := List.pairwise_iff_getElem.1 hp a b ha' hb' (by omega)
    simpa using this

theorem sorted_mem (input : List Nat) (stale : Nat → Nat) (x : Nat) :
    x ∈ input ↔ ∃ k, k < input.length ∧ sorted input stale k = x := by
  have hperm := List.mergeSort_perm input (fun a b => decide (b ≤ a))
  rw [← hperm.mem_iff, List.mem_iff_getElem]
  constructor
  · rintro ⟨k, hk, e⟩
    have hk' : k < input.length := by simpa using hk
    obtain ⟨_, e'⟩ := sorted_lt (stale := stale) hk'
    exact ⟨k, hk', by rw [e', e]⟩
  · rintro ⟨k, hk, e⟩
    obtain ⟨h', e'⟩ := sorted_lt (stale := stale) hk
    exact ⟨k, h', by rw [← e', e]⟩

/-- C47, for every nonempty list: the stored list is strictly decreasing (so it has no duplicates) and it has
exactly the nonzero elements of the given list. -/
theorem plateaus_stored_partial (stale : Nat → Nat) (input out : List Nat) (hne : input ≠ [])
    (h : setPlateaus stale input = some out) :
    out.Pairwise (· > ·) ∧ (∀ x, x ∈ out ↔ x ∈ input ∧ x ≠ 0) ∧ out ≠ [] ∧ out.length ≤ 64 := by
  unfold setPlateaus at h
  split at h
  · cases h
  rename_i hlen
  have hd := compact_done (sorted_desc input stale) _ 0 1 (Inv.start input.length (sorted input stale))
  have hcnt : 0 < input.length := List.length_pos_iff.2 hne
  simp only at h
  generalize hc : compact input.length (sorted input stale) 0 1 = r at h hd
  obtain ⟨v', i⟩ := r
  simp only at h hd
  split at h
  · cases h
  rename_i h0
  cases h
  have hs0 : sorted input stale 0 ≠ 0 := by rw [← hd.first]; exact h0
  have hpw : ((List.range (i + 1)).map v').Pairwise (· > ·) := by
    rw [List.pairwise_iff_getElem]
    intro a b ha hb hab
    simp at ha hb ⊢
    exact hd.decr a b hab (by omega)
  have hmem : ∀ x, x ∈ (List.range (i + 1)).map v' ↔ x ∈ input ∧ x ≠ 0 := by
    intro x
    rw [sorted_mem input stale]
    simp only [List.mem_map, List.mem_range]
    constructor
    · rintro ⟨a, ha, rfl⟩
      obtain ⟨b, hb, e⟩ := hd.from' a (by omega)
      exact ⟨⟨b, by omega, e.symm⟩, hd.nz hs0 a (by omega)⟩
    · rintro ⟨⟨k, hk, rfl⟩, hx⟩
      obtain ⟨a, ha, e⟩ := hd.to' k hk hx
      exact ⟨a, by omega, e⟩
  refine ⟨hpw, hmem, by simp, ?_⟩
  have := hd.bound
  simp; omega

/-- C47: a nonempty list that has no usable element is refused, and only that (and lists that are too long). -/
theorem plateaus_refused_partial (stale : Nat → Nat) (input : List Nat) (hne : input ≠ []) :
    setPlateaus stale input = none ↔ 64 < input.length ∨ ∀ x ∈ input, x = 0 := by
  unfold setPlateaus
  have hcnt : 0 < input.length := List.length_pos_iff.2 hne
  split
  · rename_i h; simp [h]
  rename_i hlen
  have hd := compact_done (sorted_desc input stale) _ 0 1 (Inv.start input.length (sorted input stale))
  simp only
  generalize hc : compact input.length (sorted input stale) 0 1 = r at hd
  obtain ⟨v', i⟩ := r
  simp only at hd ⊢
  have hall : sorted input stale 0 = 0 ↔ ∀ x ∈ input, x = 0 := by
    constructor
    · intro h x hx
      obtain ⟨k, hk, rfl⟩ := (sorted_mem input stale x).1 hx
      have := sorted_desc input stale 0 k (by omega) hk
      omega
    · intro h
      exact h _ ((sorted_mem input stale _).2 ⟨0, hcnt, rfl⟩)
  rw [hd.first]
  by_cases h : sorted input stale 0 = 0
  · simp only [h, if_true, true_iff]
    exact Or.inr (hall.1 h)
  · simp [h]
    refine ⟨by omega, ?_⟩
    have := mt hall.2 h
    simpa using this

/-- C47, defect: an empty list is not refused if the table had something in it: the first of the old plateaus stays
(and the command succeeds). -/
theorem plateaus_empty_accepted (stale : Nat → Nat) (h : stale 0 ≠ 0) : setPlateaus stale [] = some [stale 0] := by
  have : compact 0 (sorted [] stale) 0 1 = (sorted [] stale, 0) := by unfold compact; simp
  simp [setPlateaus, this, sorted, h]

example : setPlateaus (fun _ => 9) [0, 1280, 1500, 0, 1500] = some [1500, 1280] := by
  simp [setPlateaus, sorted, compact, List.mergeSort, List.MergeSort.Internal.splitInTwo, List.merge,
    List.range, List.range.loop]

/-! ## C40 -/

/-- Specification of the MTU that the message asks for: the MTU field or, if it is zero (RFC 1191 section 5: the
router does not know about it), the largest plateau which is less than the length of the packet that did not fit
(RFC 1191 section 7.1); zero if there is none. -/
def _root_.Jool.MtuSpec.Asked (plateaus : List (BitVec 16)) (pkt totLen : BitVec 16) (a : Nat) : Prop :=
  if pkt ≠ 0 then a = pkt.toNat
  else (∃ p ∈ plateaus, p.toNat = a ∧ a < totLen.toNat ∧ ∀ q ∈ plateaus, q.toNat < totLen.toNat → q.toNat ≤ a) ∨
    (a = 0 ∧ ∀ q ∈ plateaus, ¬ q.toNat < totLen.toNat)

open MtuSpec

theorem pickPlateau_best {plateaus : List (BitVec 16)} (hs : plateaus.Pairwise (fun a b => b.toNat < a.toNat))
    {l p : BitVec 16} (h : pickPlateau plateaus l = some p) :
    p ∈ plateaus ∧ p.toNat < l.toNat ∧ ∀ q ∈ plateaus, q.toNat < l.toNat → q.toNat ≤ p.toNat := by
  unfold pickPlateau at h
  induction plateaus with
  | nil => cases h
  | cons x xs ih =>
    rw [List.pairwise_cons] at hs
    simp only [List.find?_cons] at h
    split at h
    · rename_i hx
      cases h
      refine ⟨by simp, by simpa using hx, ?_⟩
      intro q hq _
      rcases List.mem_cons.1 hq with rfl | hq
      · exact Nat.le_refl _
      · have := hs.1 q hq; omega
    · rename_i hx
      obtain ⟨h1, h2, h3⟩ := ih hs.2 h
      refine ⟨List.mem_cons_of_mem _ h1, h2, ?_⟩
      intro q hq hlt
      rcases List.mem_cons.1 hq with rfl | hq
      · simp at hx; omega
      · exact h3 q hq hlt

/-- The number that the code works with is what the message asks for. -/
theorem asked_exists {plateaus : List (BitVec 16)} (hs : plateaus.Pairwise (fun a b => b.toNat < a.toNat))
    (pkt totLen : BitVec 16) :
    Asked plateaus pkt totLen
      (if pkt.setWidth 32 = (0 : U32) then
        match pickPlateau plateaus totLen with
        | some p => p.setWidth 32
        | none => pkt.setWidth 32
      else pkt.setWidth 32 : U32).toNat := by
  have hz : (pkt.setWidth 32 = (0 : U32)) ↔ pkt = 0 := by
    rw [← BitVec.toNat_inj, ← BitVec.toNat_inj]
    have := pkt.isLt
    simp
    omega
  have hw : ∀ p : BitVec 16, (p.setWidth 32).toNat = p.toNat := by
    intro p; have := p.isLt; simp; omega
  by_cases h : pkt = 0
  · rw [if_pos (hz.2 h)]
    unfold Asked
    rw [if_neg (by simp [h])]
    cases hp : pickPlateau plateaus totLen with
    | some p =>
      obtain ⟨h1, h2, h3⟩ := pickPlateau_best hs hp
      exact Or.inl ⟨p, h1, by simp only [hw], by simp only [hw]; exact h2, by simp only [hw]; exact h3⟩
    | none =>
      refine Or.inr ⟨by simp [h], ?_⟩
      intro q hq
      unfold pickPlateau at hp
      have := List.find?_eq_none.1 hp q hq
      simpa using this
  · rw [if_neg (by rw [hz]; exact h)]
    unfold Asked
    rw [if_pos h, hw]

theorem add20 (a : U32) : (a + 20).toNat ≤ a.toNat + 20 := by
  rw [BitVec.toNat_add]; exact Nat.mod_le _ _
theorem add20_eq (a : U32) (h : a.toNat < 2 ^ 32 - 20) : (a + 20).toNat = a.toNat + 20 := by
  rw [BitVec.toNat_add]; simp; omega
theorem sub20_eq (a : U32) (h : 20 ≤ a.toNat) : (a - 20).toNat = a.toNat - 20 := by
  have := a.isLt
  rw [BitVec.toNat_sub]; simp; omega

/-- C40, IPv4 to IPv6, lower bound: a Packet Too Big never asks for less than the minimum MTU of IPv6. -/
theorem mtu6_minimum (plateaus pkt inMtu outMtu totLen) : 1280 ≤ (mtu6 plateaus pkt inMtu outMtu totLen).toNat := by
  unfold mtu6 minimumMtu6
  simp only
  generalize umin _ _ = x
  split
  · simp
  · omega

/-- C40, IPv4 to IPv6, upper bound, for all MTUs and every table of plateaus: the advertised MTU never exceeds what
the message asked for (plus the 20 bytes in which headers differ), nor the MTU of the IPv6 next hop, nor that of the
IPv4 next hop (plus 20); unless that is less than 1280. -/
theorem mtu6_upper {plateaus : List (BitVec 16)} (hs : plateaus.Pairwise (fun a b => b.toNat < a.toNat))
    (pkt totLen inMtu outMtu) :
    ∃ a, Asked plateaus pkt totLen a ∧
      (mtu6 plateaus pkt inMtu outMtu totLen).toNat ≤ max 1280 (a + 20) ∧
      (mtu6 plateaus pkt inMtu outMtu totLen).toNat ≤ max 1280 outMtu.toNat ∧
      (mtu6 plateaus pkt inMtu outMtu totLen).toNat ≤ max 1280 (inMtu.toNat + 20) := by
  refine ⟨_, asked_exists hs pkt totLen, ?_⟩
  unfold mtu6 minimumMtu6
  simp only
  generalize (if pkt.setWidth 32 = (0 : U32) then _ else _ : U32) = a
  have h1 := add20 a
  have h2 := add20 inMtu
  have h3 := umin_toNat (a + 20) (umin outMtu (inMtu + 20))
  have h4 := umin_toNat outMtu (inMtu + 20)
  split
  · simp; omega
  · omega

/-- C40, IPv4 to IPv6: the value is the one in RFC 7915 section 4.2, if the MTU of the incoming device is known. -/
theorem mtu6_rfc_partial {plateaus : List (BitVec 16)} (hs : plateaus.Pairwise (fun a b => b.toNat < a.toNat))
    (pkt totLen inMtu outMtu) (hin : inMtu.toNat < 2 ^ 32 - 20) :
    ∃ a, Asked plateaus pkt totLen a ∧
      (mtu6 plateaus pkt inMtu outMtu totLen).toNat =
        max 1280 (min (a + 20) (min outMtu.toNat (inMtu.toNat + 20))) := by
  refine ⟨_, asked_exists hs pkt totLen, ?_⟩
  unfold mtu6 minimumMtu6
  simp only
  have hlt : (if pkt.setWidth 32 = (0 : U32) then
        match pickPlateau plateaus totLen with
        | some p => p.setWidth 32
        | none => pkt.setWidth 32
      else pkt.setWidth 32 : U32).toNat < 2 ^ 16 := by
    have hw : ∀ p : BitVec 16, (p.setWidth 32).toNat < 2 ^ 16 := by
      intro p; have := p.isLt; simp; omega
    split
    · split
      · exact hw _
      · exact hw _
    · exact hw _
  generalize (if pkt.setWidth 32 = (0 : U32) then _ else _ : U32) = a at hlt
  have h1 := add20_eq a (by omega)
  have h2 := add20_eq inMtu hin
  have h3 := umin_toNat (a + 20) (umin outMtu (inMtu + 20))
  have h4 := umin_toNat outMtu (inMtu + 20)
  split
  · simp; omega
  · omega

/-- The MTU of an unknown incoming device is 0xffffffff, and adding 20 to it wraps around: the result is 1280 instead
of what the RFC says. (The code says this only happens in hairpinning and tests.) -/
theorem mtu6_infinite : mtu6 [] 1500 0xffffffff 9000 0 = 1280 := by decide

example : mtu6 [1500, 1492, 1006] 0 1500 1500 1500 = 1500 := by decide
example : mtu6 [1400, 1300, 1006] 0 1500 1500 1400 = 1320 := by decide
example : mtu6 [1500, 1492, 1006] 1400 1500 1500 1500 = 1420 := by decide

/-- C40, IPv6 to IPv4, upper bound. Missing: values under 20 wrap around (`mtu4_wraps`). -/
theorem mtu4_upper_partial (pkt inMtu outMtu) (hp : 20 ≤ pkt.toNat) (hi : 20 ≤ inMtu.toNat) :
    (mtu4 pkt inMtu outMtu).toNat ≤ pkt.toNat - 20 ∧ (mtu4 pkt inMtu outMtu).toNat ≤ outMtu.toNat ∧
      (mtu4 pkt inMtu outMtu).toNat ≤ inMtu.toNat - 20 := by
  have h1 := sub20_eq pkt hp
  have h2 := sub20_eq inMtu hi
  have h3 := umin_toNat (pkt - 20) (umin outMtu (inMtu - 20))
  have h4 := umin_toNat outMtu (inMtu - 20)
  have h5 : (mtu4 pkt inMtu outMtu).toNat ≤ (umin (pkt - 20) (umin outMtu (inMtu - 20))).toNat := by
    unfold mtu4 minimum; rw [BitVec.toNat_setWidth]; exact Nat.mod_le _ _
  omega

/-- C40, IPv6 to IPv4: the value of RFC 7915 section 5.2, if nothing wraps around and the result fits in the
field. -/
theorem mtu4_rfc_partial (pkt inMtu outMtu) (hp : 20 ≤ pkt.toNat) (hi : 20 ≤ inMtu.toNat)
    (hfit : min (pkt.toNat - 20) (min outMtu.toNat (inMtu.toNat - 20)) < 2 ^ 16) :
    (mtu4 pkt inMtu outMtu).toNat = min (pkt.toNat - 20) (min outMtu.toNat (inMtu.toNat - 20)) := by
  have h1 := sub20_eq pkt hp
  have h2 := sub20_eq inMtu hi
  have h3 := umin_toNat (pkt - 20) (umin outMtu (inMtu - 20))
  have h4 := umin_toNat outMtu (inMtu - 20)
  unfold mtu4 minimum; rw [BitVec.toNat_setWidth]
  omega

/-- C40, IPv6 to IPv4: if the message and the links respect the minimum MTUs of their protocols (RFC 8200: 1280,
RFC 791: 68) and the IPv4 link the maximum size of IPv4 packets, so does the translated message. -/
theorem mtu4_minimum_partial (pkt inMtu outMtu) (hp : 1280 ≤ pkt.toNat) (hi : 1280 ≤ inMtu.toNat)
    (ho : 68 ≤ outMtu.toNat) (ho' : outMtu.toNat < 2 ^ 16) : 68 ≤ (mtu4 pkt inMtu outMtu).toNat := by
  rw [mtu4_rfc_partial _ _ _ (by omega) (by omega) (by omega)]
  omega

/-- C40, defect: a Packet Too Big that asks for less than 20 bytes becomes a Fragmentation Needed that allows as
much as the local links do. -/
theorem mtu4_wraps : mtu4 0 1500 1500 = 1480 ∧ mtu4 19 9000 9000 = 8980 := by decide

/-- C40, defect: a Packet Too Big under the minimum (of either protocol) is not corrected. -/
theorem mtu4_below_minimum : mtu4 25 1500 1500 = 5 := by decide

/-- C40, defect: an MTU that does not fit in the field is truncated, instead of saturated. -/
theorem mtu4_truncates : mtu4 65556 100000 100000 = 0 := by decide

example : mtu4 1500 1500 1500 = 1480 := by decide
example : mtu4 9000 9020 1400 = 1400 := by decide

/-- C40: the errors that the translator itself sends. An IPv6 node is never told less than 1280, nor more than
what, once translated, fits in the IPv4 next hop; unless that is less than 1280. -/
theorem ownPtb_bounds (n : U32) :
    1280 ≤ (ownPtb n).toNat ∧ (1280 < (ownPtb n).toNat → (ownPtb n).toNat - 20 ≤ n.toNat) := by
  have h1 := umax_toNat 1280 (n + 20)
  have h2 := add20 n
  unfold ownPtb
  rw [h1]
  have e : (1280 : U32).toNat = 1280 := rfl
  have e' : (576 : U32).toNat = 576 := rfl
  omega

/-- C40: an IPv4 node is never told less than 576, nor more than what fits in the IPv6 next hop once the header of
a packet (that is not a fragment) grows by 20 bytes. `1280 ≤ n` is what the code checks before it gets here. -/
theorem ownFn_bounds (n : U32) (hn : 1280 ≤ n.toNat) :
    576 ≤ (ownFn n).toNat ∧ (ownFn n).toNat + 20 ≤ n.toNat := by
  have h1 := umax_toNat 576 (n - 20)
  have h2 := sub20_eq n (by omega)
  unfold ownFn
  rw [h1]
  have e : (1280 : U32).toNat = 1280 := rfl
  have e' : (576 : U32).toNat = 576 := rfl
  omega

end Mtu
end Jool
