import Verif.Lemmas.Globals
import Verif.Props.Prefix
import Verif.Props.Mtu
/-
C51: the global settings keep their minima. C65: the settings that are listed are complete, and can be loaded back.

Specification: the tables `Applies`, `Legal`, `expected` and `shown` say, for each number of a setting, which instances
have it, which values are legal, which member it changes, and how it is listed. They were written from the
documentation (docs/en/usr-flags-global.md), not from the table of the program.
-/
namespace Jool.Globals

open PrefixSpec

/-! ## Specification -/

/-- The instances of type `xt` have setting number `id`. -/
def Applies (xt : Xt) (id : Nat) : Prop :=
  match xt with
  | .siit => 1 ≤ id ∧ id ≤ 13
  | .nat64 => (1 ≤ id ∧ id ≤ 8) ∨ (14 ≤ id ∧ id ≤ 32)

instance (xt : Xt) (id : Nat) : Decidable (Applies xt id) := by unfold Applies; cases xt <;> infer_instance

/-- RFC 6052 section 2.2: the length is one of six, and bits 64 to 71 (the byte of the u-bit) are zero. The latter is only
demanded without `force`. -/
def LegalPool6 (force : Bool) (p : Prefix6) : Prop :=
  Canonical6 p ∧ p.len ∈ [32, 40, 48, 56, 64, 96] ∧ (force = true ∨ ∀ i, 64 ≤ i → i < 72 → p.addr.getMsbD i = false)

def Legal6791v4 (force : Bool) (p : Prefix4) : Prop :=
  Canonical4 p ∧ (force = true ∨ ∀ a, Mem4 p a → ¬ LowScope a)

/-- `v` is a legal value of setting `id`. -/
def Legal (force : Bool) : Nat → Val → Prop
  | 2, .pfx6 (some len) (some a) => LegalPool6 force ⟨a, len.toNat⟩
  | 2, .pfx6 (some _) none => True
  | 3, .u32 v => 1280 ≤ v.toNat
  | 8, .list l => l.length ≤ 64 ∧ (l = [] ∨ ∃ x ∈ l, x ≠ 0)
  | 10, .u8 v => v.toNat ≤ 2
  | 12, .pfx6 (some len) (some a) => Canonical6 ⟨a, len.toNat⟩
  | 12, .pfx6 (some _) none => True
  | 13, .pfx4 (some len) (some a) => Legal6791v4 force ⟨a, len.toNat⟩
  | 13, .pfx4 (some _) none => True
  | 18, .u8 v => v.toNat ≤ 15
  | 20, .u32 v => 2 * 60 * 60 * 1000 ≤ v.toNat
  | 21, .u32 v => 4 * 60 * 1000 ≤ v.toNat
  | 22, .u32 v => 2 * 60 * 1000 ≤ v.toNat
  | id, .u8 _ => id ∈ [1, 4, 5, 6, 7, 9, 11, 14, 15, 16, 17, 19, 24, 25, 27, 28]
  | id, .u32 _ => id ∈ [23, 26, 29, 30, 31, 32]
  | _, _ => False

def flag (old : Bool) : Option Val → Bool
  | some (.u8 v) => decide (v ≠ 0)
  | _ => old
def byte (old : BitVec 8) : Option Val → BitVec 8
  | some (.u8 v) => v
  | _ => old
def word (old : BitVec 32) : Option Val → BitVec 32
  | some (.u32 v) => v
  | _ => old
def pfx6 (old : Option Prefix6) : Option Val → Option Prefix6
  | some (.pfx6 (some len) (some a)) => some ⟨a, len.toNat⟩
  | some (.pfx6 (some _) none) => none
  | _ => old
def pfx4 (old : Option Prefix4) : Option Val → Option Prefix4
  | some (.pfx4 (some len) (some a)) => some ⟨a, len.toNat⟩
  | some (.pfx4 (some _) none) => none
  | _ => old

/-- The attribute, if the setting is one of the type's. -/
def given (xt : Xt) (attrs : Attrs) (id : Nat) : Option Val := if Applies xt id then attrs id else none

/-- The settings after the attributes are applied to `g`; except that the plateaus are `plateaus`. -/
def expected (xt : Xt) (attrs : Attrs) (plateaus : List Nat) (g : Globals) : Globals :=
  let a := given xt attrs
  { enabled := flag g.enabled (a 1)
    pool6 := pfx6 g.pool6 (a 2)
    lowestMtu := word g.lowestMtu (a 3)
    debug := flag g.debug (a 4)
    resetTc := flag g.resetTc (a 5)
    resetTos := flag g.resetTos (a 6)
    newTos := byte g.newTos (a 7)
    plateaus := plateaus
    csumZero := flag g.csumZero (a 9)
    hairpin := byte g.hairpin (a 10)
    randomize := flag g.randomize (a 11)
    pool6791v6 := pfx6 g.pool6791v6 (a 12)
    pool6791v4 := pfx4 g.pool6791v4 (a 13)
    dropByAddr := flag g.dropByAddr (a 14)
    dropExternalTcp := flag g.dropExternalTcp (a 15)
    dropIcmp6Info := flag g.dropIcmp6Info (a 16)
    srcIcmp6Better := flag g.srcIcmp6Better (a 17)
    fArgs := byte g.fArgs (a 18)
    handleRst := flag g.handleRst (a 19)
    ttlTcpEst := word g.ttlTcpEst (a 20)
    ttlTcpTrans := word g.ttlTcpTrans (a 21)
    ttlUdp := word g.ttlUdp (a 22)
    ttlIcmp := word g.ttlIcmp (a 23)
    bibLogging := flag g.bibLogging (a 24)
    sessionLogging := flag g.sessionLogging (a 25)
    maxStoredPkts := word g.maxStoredPkts (a 26)
    jooldEnabled := flag g.jooldEnabled (a 27)
    jooldFlushAsap := flag g.jooldFlushAsap (a 28)
    jooldDeadline := word g.jooldDeadline (a 29)
    jooldCapacity := word g.jooldCapacity (a 30)
    jooldMaxPayload := word g.jooldMaxPayload (a 31)
    jooldMaxSessions := word g.jooldMaxSessions (a 32) }

/-- The plateaus after the update. An empty list keeps the first of the old ones (see `Jool.Mtu.plateaus_empty_accepted`). -/
def PlateausFrom (old : List Nat) (a : Option Val) (new : List Nat) : Prop :=
  match a with
  | some (.list l) =>
    if l = [] then new = old.take 1
    else new.Pairwise (· > ·) ∧ ∀ x, x ∈ new ↔ x ≠ 0 ∧ ∃ y ∈ l, y.toNat = x
  | _ => new = old

/-- What every usable configuration satisfies, other than the minimum of the ICMP timeout. -/
structure Valid (xt : Xt) (g : Globals) : Prop where
  mtu : 1280 ≤ g.lowestMtu.toNat
  plateausNe : g.plateaus ≠ []
  plateausDesc : g.plateaus.Pairwise (· > ·)
  plateausRange : ∀ x ∈ g.plateaus, 0 < x ∧ x < 65536
  plateausLen : g.plateaus.length ≤ 64
  pool6 : ∀ p, g.pool6 = some p → LegalPool6 true p
  hairpin : xt = .siit → g.hairpin.toNat ≤ 2
  pool6791v6 : xt = .siit → ∀ p, g.pool6791v6 = some p → Canonical6 p
  pool6791v4 : xt = .siit → ∀ p, g.pool6791v4 = some p → Canonical4 p
  fArgs : xt = .nat64 → g.fArgs.toNat ≤ 15
  tcpEst : xt = .nat64 → 2 * 60 * 60 * 1000 ≤ g.ttlTcpEst.toNat
  tcpTrans : xt = .nat64 → 4 * 60 * 1000 ≤ g.ttlTcpTrans.toNat
  udp : xt = .nat64 → 2 * 60 * 1000 ≤ g.ttlUdp.toNat

/-! ## Proofs -/

private theorem of_iff (xt : Xt) : ∀ m ∈ metas, (m.of xt = true ↔ Applies xt m.id) := by
  cases xt <;>
  simp only [metas, List.mem_cons, List.not_mem_nil, or_false, forall_eq_or_imp, forall_eq, Meta.of, Applies] <;>
  simp

private theorem applies_mem {xt : Xt} {id : Nat} (h : Applies xt id) : ∃ m ∈ metas, m.id = id := by
  have : id ∈ metas.map (·.id) := by
    rw [metas_ids, List.mem_range'_1]
    cases xt <;> simp only [Applies] at h <;> omega
  obtain ⟨m, hm, e⟩ := List.mem_map.1 this
  exact ⟨m, hm, e⟩

private theorem ubit_iff (a : Addr6) : (a >>> 56).setWidth 8 = 0#8 ↔ ∀ i, 64 ≤ i → i < 72 → a.getMsbD i = false := by
  constructor
  · intro h i h1 h2
    have h3 := congrArg (fun x => x.getLsbD (71 - i)) h
    simp only [BitVec.getLsbD_setWidth, BitVec.getLsbD_ushiftRight, BitVec.getLsbD_zero,
      (by omega : 56 + (71 - i) = 127 - i)] at h3
    have h4 : decide (71 - i < 8) = true := by simp; omega
    rw [h4, Bool.true_and] at h3
    simp only [BitVec.getMsbD_eq_getLsbD, (by omega : 128 - 1 - i = 127 - i), h3, Bool.and_false]
  · intro h
    apply BitVec.eq_of_getLsbD_eq
    intro i hi
    have h3 := h (71 - i) (by omega) (by omega)
    have h4 : decide (71 - i < 128) = true := by simp; omega
    simp only [BitVec.getMsbD_eq_getLsbD, h4, Bool.true_and, (by omega : 128 - 1 - (71 - i) = 56 + i)] at h3
    simp only [BitVec.getLsbD_setWidth, BitVec.getLsbD_ushiftRight, h3, BitVec.getLsbD_zero, Bool.and_false]

private theorem pool6Validate_iff (p : Prefix6) (force : Bool) :
    pool6Validate (some p) force = true ↔ LegalPool6 force p := by
  have h1 : validatePool6Len p.len = true ↔ p.len ∈ [32, 40, 48, 56, 64, 96] := by
    simp [validatePool6Len, or_assoc]
  have h2 : validateUbit p force = true ↔
      (force = true ∨ ∀ i, 64 ≤ i → i < 72 → p.addr.getMsbD i = false) := by
    simp only [validateUbit, Bool.or_eq_true, beq_iff_eq, ubit_iff]
  simp only [pool6Validate, Bool.and_eq_true, prefix6_validate_correct, h1, h2, LegalPool6, and_assoc]

private theorem validate6791v4_iff (p : Prefix4) (force : Bool) :
    validate6791v4 (some p) force = true ↔ Legal6791v4 force p := by
  simp only [validate6791v4, Bool.and_eq_true, Legal6791v4, prefix4_validate_correct]
  constructor
  · rintro ⟨h1, h2⟩; exact ⟨h1, (prefix4_validate_scope_correct p h1.1 force).1 h2⟩
  · rintro ⟨h1, h2⟩; exact ⟨h1, (prefix4_validate_scope_correct p h1.1 force).2 h2⟩

private theorem map_ne_zero (l : List (BitVec 16)) :
    (∀ x ∈ l.map (·.toNat), x = 0) ↔ ¬ ∃ x ∈ l, x ≠ 0 := by
  constructor
  · rintro h ⟨x, hx, h0⟩
    exact h0 (BitVec.eq_of_toNat_eq (h _ (List.mem_map_of_mem hx)))
  · intro h x hx
    obtain ⟨y, hy, rfl⟩ := List.mem_map.1 hx
    by_cases h0 : y = 0
    · simp [h0]
    · exact absurd ⟨y, hy, h0⟩ h

private theorem plateaus_iff (force : Bool) (old : List Nat) (h0 : old[0]?.getD 0 ≠ 0) (l : List (BitVec 16)) :
    (getPlateaus force old (.list l)).2 = true ↔ l.length ≤ 64 ∧ (l = [] ∨ ∃ x ∈ l, x ≠ 0) := by
  simp only [getPlateaus]
  by_cases hl : l = []
  · subst hl
    rw [List.map_nil, Mtu.plateaus_empty_accepted (fun k => old[k]?.getD 0) h0]
    simp
  · have hne : l.map (·.toNat) ≠ [] := by simpa using hl
    have := Mtu.plateaus_refused_partial (fun k => old[k]?.getD 0) _ hne
    rw [map_ne_zero] at this
    cases hs : Mtu.setPlateaus (fun k => old[k]?.getD 0) (l.map (·.toNat)) with
    | none =>
      rw [hs] at this
      have := this.1 rfl
      simp only [List.length_map] at this
      constructor
      · intro h; cases h
      · rintro ⟨h1, h2 | h2⟩
        · exact absurd h2 hl
        · rcases this with h | h
          · omega
          · exact absurd h2 h
    | some o =>
      rw [hs] at this
      have := mt this.2 (by simp)
      simp only [List.length_map, not_or, Decidable.not_not] at this
      simp only [true_iff]
      exact ⟨by omega, Or.inr this.2⟩

private theorem dec_ok_iff (force : Bool) (g : Globals) (h0 : g.plateaus[0]?.getD 0 ≠ 0) (v : Val) :
    ∀ m ∈ metas, ((m.dec force (m.get g) v).2 = true ↔ Legal force m.id v) := by
  simp only [metas, List.mem_cons, List.not_mem_nil, or_false, forall_eq_or_imp, forall_eq]
  refine ⟨?_, ?_, ?_, ?_, ?_, ?_, ?_, ?_, ?_, ?_, ?_, ?_, ?_, ?_, ?_, ?_, ?_, ?_, ?_, ?_, ?_, ?_, ?_, ?_, ?_, ?_, ?_, ?_,
    ?_, ?_, ?_, ?_⟩
  case refine_2 =>
    rcases v with v | v | v | ⟨_ | len, _ | a⟩ | ⟨_ | len, _ | a⟩ <;>
      simp [getPool6, prefix6Optional, Legal, pool6Validate_iff]
    rfl
  case refine_8 =>
    cases v with
    | list l => exact plateaus_iff force _ h0 l
    | _ => simp [getPlateaus, Legal]
  case refine_12 =>
    rcases v with v | v | v | ⟨_ | len, _ | a⟩ | ⟨_ | len, _ | a⟩ <;>
      simp [get6791v6, prefix6Optional, Legal, prefix6_validate_correct]
  case refine_13 =>
    rcases v with v | v | v | ⟨_ | len, _ | a⟩ | ⟨_ | len, _ | a⟩ <;>
      simp [get6791v4, prefix4Optional, Legal, validate6791v4_iff]
    rfl
  case refine_10 =>
    cases v with
    | u8 v =>
      simp only [getHairpin, Legal]
      generalize g.hairpin = o
      have : (v ≠ 0 ∧ v ≠ 1 ∧ v ≠ 2) ↔ ¬ v.toNat ≤ 2 := by revert v; decide
      simp only [this]
      split <;> simp_all
    | _ => simp [getHairpin, Legal]
  all_goals
    cases v <;> simp [getBool, getU8, getU32, getMtu, getTtl, getFArgs, Legal, BitVec.lt_def, apply_ite]

private theorem head_ne {xt : Xt} {g : Globals} (h : Valid xt g) : g.plateaus[0]?.getD 0 ≠ 0 := by
  cases hp : g.plateaus with
  | nil => exact absurd hp h.plateausNe
  | cons x l =>
    have := (h.plateausRange x (by simp [hp])).1
    simp; omega

/-- C51. An update is accepted iff each of the values (of settings that the instance has) is legal. -/
theorem update_accepts_iff {xt : Xt} {g : Globals} (hv : Valid xt g) (force : Bool) (attrs : Attrs) :
    (update xt force attrs g).2 = true ↔ ∀ id v, Applies xt id → attrs id = some v → Legal force id v := by
  rw [update_ok_iff]
  constructor
  · intro h id v hi ha
    obtain ⟨m, hm, rfl⟩ := applies_mem hi
    exact (dec_ok_iff force g (head_ne hv) v m hm).1 (h m hm ((of_iff xt m hm).2 hi) v ha)
  · intro h m hm hx v ha
    exact (dec_ok_iff force g (head_ne hv) v m hm).2 (h m.id v ((of_iff xt m hm).1 hx) ha)

/-! What the readers store. -/

private theorem get_flag (force old : Bool) (a : Option Val) :
    (match a with | some v => (getBool force old v).1 | none => old) = flag old a := by
  rcases a with _ | v | v | v | ⟨l, a⟩ | ⟨l, a⟩ <;> simp [getBool, flag, bne]
  rfl

private theorem get_byte (force : Bool) (old : BitVec 8) (a : Option Val) :
    (match a with | some v => (getU8 force old v).1 | none => old) = byte old a := by
  rcases a with _ | v | v | v | ⟨l, a⟩ | ⟨l, a⟩ <;> rfl

private theorem get_word (force : Bool) (old : BitVec 32) (a : Option Val) :
    (match a with | some v => (getU32 force old v).1 | none => old) = word old a := by
  rcases a with _ | v | v | v | ⟨l, a⟩ | ⟨l, a⟩ <;> rfl

private theorem get_pool6 (force : Bool) (old : Option Prefix6) (a : Option Val) :
    (match a with | some v => (getPool6 force old v).1 | none => old) = pfx6 old a := by
  rcases a with _ | v | v | v | ⟨_ | l, _ | a⟩ | ⟨l, a⟩ <;> rfl

private theorem get_v6 (force : Bool) (old : Option Prefix6) (a : Option Val) :
    (match a with | some v => (get6791v6 force old v).1 | none => old) = pfx6 old a := by
  rcases a with _ | v | v | v | ⟨_ | l, _ | a⟩ | ⟨l, a⟩ <;> rfl

private theorem get_v4 (force : Bool) (old : Option Prefix4) (a : Option Val) :
    (match a with | some v => (get6791v4 force old v).1 | none => old) = pfx4 old a := by
  rcases a with _ | v | v | v | ⟨l, a⟩ | ⟨_ | l, _ | a⟩ <;> rfl

private theorem get_mtu (force : Bool) (old : BitVec 32) (a : Option Val) (new : BitVec 32)
    (hn : new = match a with | some v => (getMtu force old v).1 | none => old)
    (h : ∀ v, a = some v → (getMtu force old v).2 = true) : new = word old a := by
  rw [hn]
  rcases a with _ | v | v | v | ⟨l, a⟩ | ⟨l, a⟩ <;> try rfl
  have := h _ rfl
  simp only [getMtu] at this ⊢
  split at this
  · cases this
  · rename_i h; rw [if_neg h]; rfl

private theorem get_ttl (min : BitVec 32) (force : Bool) (old : BitVec 32) (a : Option Val) (new : BitVec 32)
    (hn : new = match a with | some v => (getTtl min force old v).1 | none => old)
    (h : ∀ v, a = some v → (getTtl min force old v).2 = true) : new = word old a := by
  rw [hn]
  rcases a with _ | v | v | v | ⟨l, a⟩ | ⟨l, a⟩ <;> try rfl
  have := h _ rfl
  simp only [getTtl] at this ⊢
  split at this
  · cases this
  · rename_i h; rw [if_neg h]; rfl

private theorem get_hairpin (force : Bool) (old : BitVec 8) (a : Option Val) (new : BitVec 8)
    (hn : new = match a with | some v => (getHairpin force old v).1 | none => old)
    (h : ∀ v, a = some v → (getHairpin force old v).2 = true) : new = byte old a := by
  rw [hn]
  rcases a with _ | v | v | v | ⟨l, a⟩ | ⟨l, a⟩ <;> try rfl
  have := h _ rfl
  simp only [getHairpin] at this ⊢
  split at this
  · cases this
  · rename_i h; rw [if_neg h]; rfl

private theorem get_fargs (force : Bool) (old : BitVec 8) (a : Option Val) (new : BitVec 8)
    (hn : new = match a with | some v => (getFArgs force old v).1 | none => old)
    (h : ∀ v, a = some v → (getFArgs force old v).2 = true) : new = byte old a := by
  rw [hn]
  rcases a with _ | v | v | v | ⟨l, a⟩ | ⟨l, a⟩ <;> try rfl
  have := h _ rfl
  simp only [getFArgs] at this ⊢
  split at this
  · cases this
  · rename_i h; rw [if_neg h]; rfl

private theorem get_plateaus (force : Bool) (old : List Nat) (h0 : old[0]?.getD 0 ≠ 0) (a : Option Val)
    (new : List Nat) (hn : new = match a with | some v => (getPlateaus force old v).1 | none => old)
    (h : ∀ v, a = some v → (getPlateaus force old v).2 = true) :
    PlateausFrom old a new ∧ (old.length ≤ 64 → new.length ≤ 64) ∧ new ≠ [] := by
  have hold : old ≠ [] := by rintro rfl; exact h0 rfl
  rcases a with _ | v | v | l | ⟨l, a⟩ | ⟨l, a⟩ <;> try exact ⟨hn, by rw [hn]; exact id, by rw [hn]; exact hold⟩
  have := h _ rfl
  simp only [getPlateaus] at this hn
  by_cases hl : l = []
  · subst hl
    rw [List.map_nil, Mtu.plateaus_empty_accepted (fun k => old[k]?.getD 0) h0] at hn
    simp only at hn
    subst hn
    refine ⟨?_, by simp, by simp⟩
    cases old with
    | nil => exact absurd rfl h0
    | cons x l => rfl
  · have hne : l.map (·.toNat) ≠ [] := by simpa using hl
    cases hs : Mtu.setPlateaus (fun k => old[k]?.getD 0) (l.map (·.toNat)) with
    | none => rw [hs] at this; cases this
    | some o =>
      rw [hs] at hn
      simp only at hn
      subst hn
      obtain ⟨h1, h2, h3, h4⟩ := Mtu.plateaus_stored_partial _ _ _ hne hs
      refine ⟨?_, fun _ => h4, h3⟩
      simp only [PlateausFrom, if_neg hl]
      refine ⟨h1, fun x => ?_⟩
      rw [h2, List.mem_map, and_comm]

/-- C51. After an accepted update, the settings are the given ones, and the others are as before. -/
theorem update_exact {xt : Xt} {g g' : Globals} (hv : Valid xt g) {force : Bool} {attrs : Attrs}
    (h : update xt force attrs g = (g', true)) :
    g' = expected xt attrs g'.plateaus g ∧ PlateausFrom g.plateaus (given xt attrs 8) g'.plateaus ∧
    g'.plateaus ≠ [] ∧ g'.plateaus.length ≤ 64 := by
  have hok : (update xt force attrs g).2 = true := by rw [h]
  have hget := update_get hok
  have hall := (update_ok_iff xt force attrs g).1 hok
  rw [h] at hget
  have key : ∀ m ∈ metas, m.get g' =
      match given xt attrs m.id with
      | some v => (m.dec force (m.get g) v).1
      | none => m.get g := by
    intro m hm
    rw [hget m hm]
    unfold given
    by_cases hx : m.of xt = true
    · rw [if_pos ((of_iff xt m hm).1 hx), hx]
      cases attrs m.id <;> rfl
    · rw [if_neg (mt (of_iff xt m hm).2 hx)]
      rw [Bool.not_eq_true] at hx
      rw [hx]
  have hacc : ∀ m ∈ metas, ∀ v, given xt attrs m.id = some v → (m.dec force (m.get g) v).2 = true := by
    intro m hm v hg
    unfold given at hg
    split at hg
    · rename_i hx; exact hall m hm ((of_iff xt m hm).2 hx) v hg
    · cases hg
  clear hget hall
  simp only [metas, List.mem_cons, List.not_mem_nil, or_false, forall_eq_or_imp, forall_eq] at key hacc
  obtain ⟨k1, k2, k3, k4, k5, k6, k7, k8, k9, k10, k11, k12, k13, k14, k15, k16, k17, k18, k19, k20, k21, k22, k23, k24,
    k25, k26, k27, k28, k29, k30, k31, k32⟩ := key
  obtain ⟨_, _, a3, _, _, _, _, a8, _, a10, _, _, _, _, _, _, _, a18, _, a20, a21, a22, _, _, _, _, _, _, _, _, _, _⟩ :=
    hacc
  obtain ⟨p1, p2, p3⟩ := get_plateaus force _ (head_ne hv) _ _ k8 a8
  refine ⟨?_, p1, p3, p2 hv.plateausLen⟩
  cases g'
  simp only [expected, Globals.mk.injEq]
  simp only [get_flag, get_byte, get_word, get_pool6, get_v6, get_v4, true_and] at *
  replace k3 := get_mtu force _ _ _ k3 a3
  replace k10 := get_hairpin force _ _ _ k10 a10
  replace k18 := get_fargs force _ _ _ k18 a18
  replace k20 := get_ttl _ force _ _ _ k20 a20
  replace k21 := get_ttl _ force _ _ _ k21 a21
  replace k22 := get_ttl _ force _ _ _ k22 a22
  exact ⟨k1, k2, k3, k4, k5, k6, k7, k9, k10, k11, k12, k13, k14, k15, k16, k17, k18, k19, k20, k21, k22, k23, k24,
    k25, k26, k27, k28, k29, k30, k31, k32⟩

private theorem word_min {force : Bool} {id lo : Nat} (hid : ∀ v, Legal force id (.u32 v) → lo ≤ v.toNat)
    {old : BitVec 32} (ho : lo ≤ old.toNat) {a : Option Val} (h : ∀ v, a = some v → Legal force id v) :
    lo ≤ (word old a).toNat := by
  rcases a with _ | v | v | v | ⟨l, a⟩ | ⟨l, a⟩ <;> try exact ho
  exact hid v (h _ rfl)

private theorem byte_max {force : Bool} {id hi : Nat} (hid : ∀ v, Legal force id (.u8 v) → v.toNat ≤ hi)
    {old : BitVec 8} (ho : old.toNat ≤ hi) {a : Option Val} (h : ∀ v, a = some v → Legal force id v) :
    (byte old a).toNat ≤ hi := by
  rcases a with _ | v | v | v | ⟨l, a⟩ | ⟨l, a⟩ <;> try exact ho
  exact hid v (h _ rfl)

private theorem pfx6_ok {force : Bool} {id : Nat} {P : Prefix6 → Prop}
    (hid : ∀ len a, Legal force id (.pfx6 (some len) (some a)) → P ⟨a, len.toNat⟩)
    {old : Option Prefix6} (ho : ∀ p, old = some p → P p) {a : Option Val} (h : ∀ v, a = some v → Legal force id v) :
    ∀ p, pfx6 old a = some p → P p := by
  rcases a with _ | v | v | v | ⟨_ | l, _ | a⟩ | ⟨l, a⟩ <;> try exact ho
  · intro p hp; cases hp
  · intro p hp; cases hp; exact hid _ _ (h _ rfl)

private theorem pfx4_ok {force : Bool} {id : Nat} {P : Prefix4 → Prop}
    (hid : ∀ len a, Legal force id (.pfx4 (some len) (some a)) → P ⟨a, len.toNat⟩)
    {old : Option Prefix4} (ho : ∀ p, old = some p → P p) {a : Option Val} (h : ∀ v, a = some v → Legal force id v) :
    ∀ p, pfx4 old a = some p → P p := by
  rcases a with _ | v | v | v | ⟨l, a⟩ | ⟨_ | l, _ | a⟩ <;> try exact ho
  · intro p hp; cases hp
  · intro p hp; cases hp; exact hid _ _ (h _ rfl)

theorem LegalPool6.forced {force : Bool} {p : Prefix6} (h : LegalPool6 force p) : LegalPool6 true p :=
  ⟨h.1, h.2.1, .inl rfl⟩

/-- An accepted update of usable settings yields usable settings. -/
theorem Valid.update {xt : Xt} {g g' : Globals} (hv : Valid xt g) {force : Bool} {attrs : Attrs}
    (h : update xt force attrs g = (g', true)) : Valid xt g' := by
  obtain ⟨he, hp, hne, hlen⟩ := update_exact hv h
  have hL : ∀ id v, given xt attrs id = some v → Legal force id v := by
    intro id v hg
    unfold given at hg
    split at hg
    · rename_i hx
      exact (update_accepts_iff hv force attrs).1 (by rw [h]) id v hx hg
    · cases hg
  have hpl : g'.plateaus.Pairwise (· > ·) ∧ ∀ x ∈ g'.plateaus, 0 < x ∧ x < 65536 := by
    generalize given xt attrs 8 = a at hp
    rcases a with _ | v | v | l | ⟨l, a⟩ | ⟨l, a⟩ <;>
      try exact ⟨by rw [hp]; exact hv.plateausDesc, by rw [hp]; exact hv.plateausRange⟩
    simp only [PlateausFrom] at hp
    split at hp
    · rw [hp]
      exact ⟨hv.plateausDesc.sublist (List.take_sublist _ _), fun x hx => hv.plateausRange x (List.mem_of_mem_take hx)⟩
    · refine ⟨hp.1, fun x hx => ?_⟩
      obtain ⟨h0, y, _, rfl⟩ := (hp.2 x).1 hx
      have := y.isLt
      omega
  generalize g'.plateaus = pl at he hp hne hlen hpl
  subst he
  exact {
    mtu := word_min (fun v h => h) hv.mtu (hL 3)
    plateausNe := hne
    plateausDesc := hpl.1
    plateausRange := hpl.2
    plateausLen := hlen
    pool6 := pfx6_ok (id := 2) (force := force) (fun len a (h : LegalPool6 force ⟨a, len.toNat⟩) => h.forced) hv.pool6 (hL 2)
    hairpin := fun hx => byte_max (fun v h => h) (hv.hairpin hx) (hL 10)
    pool6791v6 := fun hx => pfx6_ok (fun _ _ h => h) (hv.pool6791v6 hx) (hL 12)
    pool6791v4 := fun hx => pfx4_ok (id := 13) (force := force) (fun len a (h : Legal6791v4 force ⟨a, len.toNat⟩) => h.1)
      (hv.pool6791v4 hx) (hL 13)
    fArgs := fun hx => byte_max (fun v h => h) (hv.fArgs hx) (hL 18)
    tcpEst := fun hx => word_min (fun v h => h) (hv.tcpEst hx) (hL 20)
    tcpTrans := fun hx => word_min (fun v h => h) (hv.tcpTrans hx) (hL 21)
    udp := fun hx => word_min (fun v h => h) (hv.udp hx) (hL 22) }

/-- The initial settings are usable. -/
theorem init_valid {xt : Xt} {debug : Bool} {pool6 : Option Prefix6} {g : Globals} (h : init debug pool6 = some g) :
    Valid xt g ∧ 60 * 1000 ≤ g.ttlIcmp.toNat := by
  unfold init at h
  split at h
  · rename_i hp
    cases h
    refine ⟨⟨?_, by simp, by simp, by simp, by simp, ?_, fun _ => ?_, by simp, by simp, fun _ => ?_, fun _ => ?_,
      fun _ => ?_, fun _ => ?_⟩, ?_⟩ <;> try (dsimp only; decide)
    rintro p rfl
    exact (pool6Validate_iff p true).1 hp
  · cases h

/-! ## Histories -/

/-- C51, one update. An update that is refused changes nothing; the settings of an instance after an accepted one are
the given ones and, for the rest, the old ones. -/
theorem handleUpdate_spec {xt : Xt} {g : Globals} (hv : Valid xt g) (force : Bool) (attrs : Attrs) (env : Bool) :
    ((handleUpdate xt force attrs env g).2 = false → (handleUpdate xt force attrs env g).1 = g) ∧
    ((handleUpdate xt force attrs env g).2 = true →
      (handleUpdate xt force attrs env g).1 =
        expected xt attrs (handleUpdate xt force attrs env g).1.plateaus g ∧
      PlateausFrom g.plateaus (given xt attrs 8) (handleUpdate xt force attrs env g).1.plateaus) ∧
    ((handleUpdate xt force attrs env g).2 = true ↔
      env = true ∧ (∀ id v, Applies xt id → attrs id = some v → Legal force id v) ∧
      (xt = .nat64 → g.pool6.isSome ∧ pfx6 g.pool6 (attrs 2) = g.pool6)) := by
  have hacc := update_accepts_iff hv force attrs
  simp only [handleUpdate]
  rcases hu : Globals.update xt force attrs g with ⟨new, ok⟩
  rw [hu] at hacc
  cases ok with
  | false =>
    refine ⟨fun _ => rfl, fun h => (by cases h), ?_⟩
    constructor
    · intro h; cases h
    · rintro ⟨_, h, _⟩
      have := hacc.2 h
      cases this
  | true =>
    obtain ⟨he, hp, _, _⟩ := update_exact hv hu
    have hpool : new.pool6 = pfx6 g.pool6 (attrs 2) := by
      have : given xt attrs 2 = attrs 2 := by
        unfold given; rw [if_pos]; cases xt <;> decide
      rw [he]; simp only [expected, this]
    have hr : replaceOk xt (some g) new = true ↔ (xt = .nat64 → g.pool6.isSome ∧ pfx6 g.pool6 (attrs 2) = g.pool6) := by
      cases xt with
      | siit => simp [replaceOk]
      | nat64 =>
        simp only [replaceOk, hpool, Bool.and_eq_true, beq_iff_eq, true_imp_iff]
        constructor
        · rintro ⟨h1, h2⟩; exact ⟨by rw [h2]; exact h1, h2.symm⟩
        · rintro ⟨h1, h2⟩; exact ⟨by rw [h2]; exact h1, h2.symm⟩
    simp only
    cases henv : env && replaceOk xt (some g) new with
    | true =>
      simp only [if_true]
      rw [Bool.and_eq_true, hr] at henv
      refine ⟨fun h => (by cases h), fun _ => ⟨he, hp⟩, ?_⟩
      simp only [true_iff]
      exact ⟨henv.1, hacc.1 rfl, henv.2⟩
    | false =>
      simp only [Bool.false_eq_true, if_false, forall_const, false_imp_iff, false_iff, true_and]
      rintro ⟨h1, _, h3⟩
      rw [h1, hr.2 h3] at henv
      cases henv

/-- Every instance and candidate has usable settings. -/
def Inv (xt : Xt) (w : World) : Prop :=
  (∀ g, w.running = some g → Valid xt g ∧ (xt = .nat64 → g.pool6.isSome)) ∧ ∀ g ∈ w.cands, Valid xt g

private theorem replaceOk_some {xt : Xt} {old : Option Globals} {g : Globals} (h : replaceOk xt old g = true) :
    xt = .nat64 → g.pool6.isSome := by
  rintro rfl
  simp only [replaceOk, Bool.and_eq_true] at h
  exact h.1

private theorem inv_step {xt : Xt} {w : World} (hi : Inv xt w) (op : Op) : Inv xt (step xt w op).1 := by
  obtain ⟨hr, hc⟩ := hi
  cases op with
  | add debug pool6 env =>
    simp only [step]
    rcases w with ⟨_ | r, cs⟩
    · cases hn : init debug pool6 with
      | none => exact ⟨hr, hc⟩
      | some g =>
        simp only
        split
        · rename_i h
          rw [Bool.and_eq_true] at h
          refine ⟨fun g' hg => ?_, hc⟩
          cases hg
          exact ⟨(init_valid hn).1, replaceOk_some h.2⟩
        · exact ⟨hr, hc⟩
    · cases init debug pool6 <;> exact ⟨hr, hc⟩
  | rm => exact ⟨fun g h => (by cases h), hc⟩
  | update force attrs env =>
    simp only [step]
    rcases w with ⟨_ | r, cs⟩
    · exact ⟨hr, hc⟩
    · simp only [handleUpdate]
      rcases hu : Globals.update xt force attrs r with ⟨new, _ | _⟩
      · exact ⟨hr, hc⟩
      · simp only
        split
        · rename_i h
          rw [Bool.and_eq_true] at h
          refine ⟨fun g' hg => ?_, hc⟩
          cases hg
          exact ⟨(hr r rfl).1.update hu, replaceOk_some h.2⟩
        · exact ⟨hr, hc⟩
  | candNew debug =>
    simp only [step]
    cases hn : init debug none with
    | none => exact ⟨hr, hc⟩
    | some g =>
      refine ⟨hr, fun g' hg => ?_⟩
      rcases List.mem_cons.1 hg with rfl | hg
      · exact (init_valid hn).1
      · exact hc g' hg
  | candUpdate k force attrs =>
    simp only [step]
    cases hk : w.cands[k]? with
    | none => exact ⟨hr, hc⟩
    | some g =>
      have hg : Valid xt g := hc g (List.mem_of_getElem? hk)
      simp only
      rcases hu : Globals.update xt force attrs g with ⟨new, _ | _⟩
      · exact ⟨hr, fun g' hg => hc g' (List.mem_of_mem_eraseIdx hg)⟩
      · refine ⟨hr, fun g' hg' => ?_⟩
        rcases List.mem_or_eq_of_mem_set hg' with h | rfl
        · exact hc g' h
        · exact hg.update hu
  | candDrop k => exact ⟨hr, fun g' hg => hc g' (List.mem_of_mem_eraseIdx hg)⟩
  | candCommit k env =>
    simp only [step]
    cases hk : w.cands[k]? with
    | none => exact ⟨hr, hc⟩
    | some g =>
      have hg : Valid xt g := hc g (List.mem_of_getElem? hk)
      simp only
      split
      · rename_i h
        rw [Bool.and_eq_true] at h
        refine ⟨fun g' hg' => ?_, fun g' hg => hc g' (List.mem_of_mem_eraseIdx hg)⟩
        cases hg'
        exact ⟨hg, replaceOk_some h.2⟩
      · exact ⟨hr, fun g' hg => hc g' (List.mem_of_mem_eraseIdx hg)⟩

private theorem inv_run {xt : Xt} {w : World} (hi : Inv xt w) (ops : List Op) : Inv xt (run xt w ops) := by
  induction ops generalizing w with
  | nil => exact hi
  | cons op ops ih => exact ih (inv_step hi op)

/-- C51, for everything but the ICMP timeout: whatever the history, the settings of the instance are usable; each request
that fails leaves the running settings alone; a NAT64 instance has a pool6, which does not change until the instance is
removed.

Missing from the full property: the minimum of the ICMP timeout, which the program does not enforce (`icmp_timeout_zero`). -/
theorem history_valid_partial (xt : Xt) (ops : List Op) (g : Globals) (h : (run xt ⟨none, []⟩ ops).running = some g) :
    Valid xt g ∧ (xt = .nat64 → g.pool6.isSome) :=
  (inv_run (xt := xt) (w := ⟨none, []⟩) ⟨fun g h => (by cases h), fun g h => (by cases h)⟩ ops).1 g h

/-- C51. A request that fails does not change the running settings. -/
theorem refused_unchanged (xt : Xt) (w : World) (op : Op) (h : (step xt w op).2 = false) :
    (step xt w op).1.running = w.running := by
  cases op with
  | add debug pool6 env =>
    simp only [step] at h ⊢
    split
    · split
      · rename_i h1 h2 h3; simp only [h1, h2, h3] at h; cases h
      · rfl
    · rfl
  | rm =>
    rcases w with ⟨_ | r, cs⟩
    · rfl
    · cases h
  | update force attrs env =>
    simp only [step] at h ⊢
    split
    · rfl
    · rename_i g hg
      rw [hg] at h
      simp only [handleUpdate] at h ⊢
      rcases hu : Globals.update xt force attrs g with ⟨new, _ | _⟩
      · exact hg.symm
      · rw [hu] at h
        simp only at h ⊢
        split
        · rename_i h3; rw [if_pos h3] at h; cases h
        · exact hg.symm
  | candNew debug => simp only [step]; split <;> rfl
  | candUpdate k force attrs => 
    simp only [step]
    split
    · rfl
    · split <;> rfl
  | candDrop k => rfl
  | candCommit k env =>
    simp only [step] at h ⊢
    split
    · rfl
    · rename_i g hg
      rw [hg] at h
      simp only at h
      split
      · rename_i h3; rw [if_pos h3] at h; cases h
      · rfl

/-- Only `rm` ends the life of an instance; until then a NAT64 translates with the same prefix. -/
theorem nat64_pool6_fixed {w : World} {g : Globals} (hw : w.running = some g) (ops : List Op)
    (hops : ∀ op ∈ ops, op ≠ .rm) :
    ∃ g', (run .nat64 w ops).running = some g' ∧ g'.pool6 = g.pool6 := by
  induction ops generalizing w g with
  | nil => exact ⟨g, hw, rfl⟩
  | cons op ops ih =>
    have hstep : ∃ g', (step .nat64 w op).1.running = some g' ∧ g'.pool6 = g.pool6 := by
      cases op with
      | rm => exact absurd rfl (hops _ List.mem_cons_self)
      | add debug pool6 env =>
        simp only [step, hw]
        cases init debug pool6 <;> exact ⟨g, rfl, rfl⟩
      | update force attrs env =>
        simp only [step, hw, handleUpdate]
        rcases hu : Globals.update .nat64 force attrs g with ⟨new, _ | _⟩
        · exact ⟨g, rfl, rfl⟩
        · simp only
          split
          · rename_i h
            simp only [replaceOk, Bool.and_eq_true, beq_iff_eq] at h
            exact ⟨new, rfl, h.2.2.symm⟩
          · exact ⟨g, rfl, rfl⟩
      | candNew debug => simp only [step]; split <;> exact ⟨g, hw, rfl⟩
      | candUpdate k force attrs =>
        simp only [step]
        split
        · exact ⟨g, hw, rfl⟩
        · split <;> exact ⟨g, hw, rfl⟩
      | candDrop k => exact ⟨g, hw, rfl⟩
      | candCommit k env =>
        simp only [step]
        split
        · exact ⟨g, hw, rfl⟩
        · rename_i c hc
          split
          · rename_i h
            simp only [replaceOk, Bool.and_eq_true, hw, beq_iff_eq] at h
            exact ⟨c, rfl, h.2.2.symm⟩
          · exact ⟨g, hw, rfl⟩
    obtain ⟨g1, h1, e1⟩ := hstep
    obtain ⟨g2, h2, e2⟩ := ih h1 fun o ho => hops o (List.mem_cons_of_mem _ ho)
    exact ⟨g2, h2, e2.trans e1⟩

/-! ## The ICMP timeout -/

/-- RFC 5508 REQ-2 (and `ICMP_DEFAULT` of RFC 6146 section 4): an ICMP session must last 60 seconds at least. This is the part
of C51 that fails: any value is accepted, for instance zero. -/
theorem icmp_timeout_unchecked (v : BitVec 32) (force : Bool) :
    ∃ ops g, (run .nat64 ⟨none, []⟩ ops).running = some g ∧ g.ttlIcmp = v ∧
      ∀ op ∈ ops, op = .add false (some ⟨0x0064ff9b#128 <<< 96, 96⟩) true ∨
        op = .update force (fun id => if id = 23 then some (.u32 v) else none) true := by
  obtain ⟨g0, h0⟩ : ∃ g0, init false (some ⟨0x0064ff9b#128 <<< 96, 96⟩) = some g0 := by
    unfold init; rw [if_pos (by decide)]; exact ⟨_, rfl⟩
  have hp0 : g0.pool6 = some ⟨0x0064ff9b#128 <<< 96, 96⟩ := by
    unfold init at h0; rw [if_pos (by decide)] at h0; cases h0; rfl
  have hv := (init_valid (xt := .nat64) h0).1
  obtain ⟨_, h2, h3⟩ := handleUpdate_spec hv force (fun id => if id = 23 then some (.u32 v) else none) true
  have hlegal : ∀ (id : Nat) (w : Val), Applies .nat64 id → (if id = 23 then some (.u32 v) else none) = some w →
      Legal force id w := by
    intro id w _ ha
    split at ha
    · rename_i e; cases ha; subst e
      simp [Legal]
    · cases ha
  have hok := h3.2 ⟨rfl, hlegal, fun _ => ⟨by rw [hp0]; rfl, rfl⟩⟩
  obtain ⟨he, _⟩ := h2 hok
  refine ⟨[.add false (some ⟨0x0064ff9b#128 <<< 96, 96⟩) true,
    .update force (fun id => if id = 23 then some (.u32 v) else none) true],
    (handleUpdate .nat64 force (fun id => if id = 23 then some (.u32 v) else none) true g0).1, ?_, ?_, ?_⟩
  · have : replaceOk .nat64 none g0 = true := by simp [replaceOk, hp0]
    simp only [run, step, h0, this, Bool.and_self, if_true]
  · rw [he]; rfl
  · intro op hop
    simpa using hop

theorem icmp_timeout_zero : ∃ ops g, (run .nat64 ⟨none, []⟩ ops).running = some g ∧ ¬ 60 * 1000 ≤ g.ttlIcmp.toNat := by
  obtain ⟨ops, g, h, e, _⟩ := icmp_timeout_unchecked 0 false
  exact ⟨ops, g, h, by rw [e]; decide⟩

/-! ## Listing -/

def shownFlag (b : Bool) : Val := .u8 (if b then 1 else 0)
def shownPfx6 : Option Prefix6 → Val
  | none => .pfx6 (some 0) none
  | some p => .pfx6 (some (BitVec.ofNat 8 p.len)) (some p.addr)
def shownPfx4 : Option Prefix4 → Val
  | none => .pfx4 (some 0) none
  | some p => .pfx4 (some (BitVec.ofNat 8 p.len)) (some p.addr)

/-- How setting number `id` is listed. -/
def shown (g : Globals) : Nat → Val
  | 1 => shownFlag g.enabled
  | 2 => shownPfx6 g.pool6
  | 3 => .u32 g.lowestMtu
  | 4 => shownFlag g.debug
  | 5 => shownFlag g.resetTc
  | 6 => shownFlag g.resetTos
  | 7 => .u8 g.newTos
  | 8 => .list (g.plateaus.map (BitVec.ofNat 16))
  | 9 => shownFlag g.csumZero
  | 10 => .u8 g.hairpin
  | 11 => shownFlag g.randomize
  | 12 => shownPfx6 g.pool6791v6
  | 13 => shownPfx4 g.pool6791v4
  | 14 => shownFlag g.dropByAddr
  | 15 => shownFlag g.dropExternalTcp
  | 16 => shownFlag g.dropIcmp6Info
  | 17 => shownFlag g.srcIcmp6Better
  | 18 => .u8 g.fArgs
  | 19 => shownFlag g.handleRst
  | 20 => .u32 g.ttlTcpEst
  | 21 => .u32 g.ttlTcpTrans
  | 22 => .u32 g.ttlUdp
  | 23 => .u32 g.ttlIcmp
  | 24 => shownFlag g.bibLogging
  | 25 => shownFlag g.sessionLogging
  | 26 => .u32 g.maxStoredPkts
  | 27 => shownFlag g.jooldEnabled
  | 28 => shownFlag g.jooldFlushAsap
  | 29 => .u32 g.jooldDeadline
  | 30 => .u32 g.jooldCapacity
  | 31 => .u32 g.jooldMaxPayload
  | _ => .u32 g.jooldMaxSessions

/-- A complete listing: each setting of the type, once, in order. -/
def listing (xt : Xt) (g : Globals) : List (Nat × Val) :=
  ((List.range' 1 32).filter (Applies xt ·)).map fun id => (id, shown g id)

private theorem items_eq (xt : Xt) (g : Globals) : items xt g metas = listing xt g := by
  have hb : ∀ b, putBool b = shownFlag b := fun _ => rfl
  have h6 : ∀ p, putPfx6 p = shownPfx6 p := fun p => by cases p <;> rfl
  have h4 : ∀ p, putPfx4 p = shownPfx4 p := fun p => by cases p <;> rfl
  cases xt
  · have : (List.range' 1 32).filter (Applies .siit ·) = [1, 2, 3, 4, 5, 6, 7, 8, 9, 10, 11, 12, 13] := by decide
    rw [listing, this]
    simp only [items, metas, Meta.of, List.filter, List.map, hb, h6, h4]
    rfl
  · have : (List.range' 1 32).filter (Applies .nat64 ·) = [1, 2, 3, 4, 5, 6, 7, 8, 14, 15, 16, 17, 18, 19, 20, 21, 22,
      23, 24, 25, 26, 27, 28, 29, 30, 31, 32] := by decide
    rw [listing, this]
    simp only [items, metas, Meta.of, List.filter, List.map, hb, h6]
    rfl

private theorem listing_ids (xt : Xt) (g : Globals) :
    (listing xt g).map (·.1) = (List.range' 1 32).filter (Applies xt ·) := by
  simp [listing, List.map_map, Function.comp_def]

/-- C65. However many settings fit in each message (one at least), the client receives the complete listing, without
repetitions. -/
theorem pages_complete (xt : Xt) (g : Globals) (rooms : List Nat) (hpos : ∀ r ∈ rooms, 1 ≤ r)
    (hsum : (listing xt g).length ≤ rooms.sum) : pages xt g rooms 0 = (listing xt g, true) := by
  have hnd : ((listing xt g).map (·.1)).Nodup := by
    rw [listing_ids]; exact (List.nodup_range' (step := 1)).filter _
  have h0 : ∀ y ∈ listing xt g, y.1 ≠ 0 := by
    intro y hy
    have : y.1 ∈ (listing xt g).map (·.1) := List.mem_map_of_mem hy
    rw [listing_ids, List.mem_filter, List.mem_range'_1] at this
    omega
  -- what is left, after `pre`
  have key : ∀ (rooms : List Nat) (pre post : List (Nat × Val)) (last : Nat), listing xt g = pre ++ post →
      (last = (pre.getLast?.map (·.1)).getD 0) → (∀ r ∈ rooms, 1 ≤ r) → post.length ≤ rooms.sum →
      (post ≠ [] ∨ rooms ≠ []) → pages xt g rooms last = (post, true) := by
    intro rooms
    induction rooms with
    | nil =>
      intro pre post last _ _ _ hs hne
      rcases hne with h | h
      · have : post.length = 0 := by simpa using hs
        exact absurd (List.length_eq_zero_iff.1 this) h
      · exact absurd rfl h
    | cons r rs ih =>
      intro pre post last hl hlast hpos hs _
      have hpage : foreach xt g last r = (post.take r, decide (r < post.length)) := by
        rcases List.eq_nil_or_concat pre with rfl | ⟨pre', y, rfl⟩
        · simp only [List.getLast?_nil, Option.map_none, Option.getD_none] at hlast
          subst hlast
          unfold foreach
          rw [foreachLoop_zero, items_eq, hl, List.nil_append]
        · simp only [List.concat_eq_append, List.getLast?_append, List.getLast?_singleton, Option.map_some,
            Option.getD_some, Option.some_or] at hlast
          subst hlast
          have hl' : listing xt g = pre' ++ (y.1, y.2) :: post := by rw [hl]; simp
          refine foreachLoop_offset xt g y.1 (h0 y (by rw [hl']; simp)) r metas pre' post y.2 ?_ ?_
          · rw [items_eq, hl']
          · intro z hz e
            rw [hl', List.map_append, List.nodup_append] at hnd
            exact hnd.2.2 z.1 (List.mem_map_of_mem hz) y.1 (by simp) e
      have hr := hpos r List.mem_cons_self
      simp only [pages, hpage]
      by_cases hmore : r < post.length
      · rw [if_pos (by simpa using hmore)]
        have hne : post.take r ≠ [] := by
          intro e
          have := congrArg List.length e
          simp only [List.length_take, List.length_nil] at this
          omega
        have := ih (pre ++ post.take r) (post.drop r) (((post.take r).getLast?.map (·.1)).getD last)
          (by rw [List.append_assoc, List.take_append_drop, hl])
          (by
            rw [List.getLast?_append]
            cases hg : (post.take r).getLast? with
            | none => exact absurd (List.getLast?_eq_none_iff.1 hg) hne
            | some z => simp)
          (fun x hx => hpos x (List.mem_cons_of_mem _ hx))
          (by simp only [List.length_drop, List.sum_cons] at *; omega)
          (.inl (by
            intro e
            have := congrArg List.length e
            simp only [List.length_drop, List.length_nil] at this
            omega))
        rw [this]
        simp [List.take_append_drop]
      · rw [if_neg (by simpa using hmore), List.take_of_length_le (by omega)]
  refine key rooms [] _ 0 rfl rfl hpos hsum (.inl ?_)
  intro e
  have := listing_ids xt g
  rw [e] at this
  cases xt <;> exact absurd this (by decide)

/-! ## Loading a listing back -/

/-- The attributes that a list amounts to. -/
def attrsOf (l : List (Nat × Val)) : Attrs := fun id => (l.find? (·.1 == id)).map (·.2)

private theorem find_map (l : List Nat) (f : Nat → Val) (id : Nat) :
    ((l.map fun i => (i, f i)).find? (·.1 == id)).map (·.2) = if id ∈ l then some (f id) else none := by
  induction l with
  | nil => rfl
  | cons x l ih =>
    simp only [List.map_cons, List.find?_cons]
    by_cases h : x = id
    · subst h; simp
    · have : (x == id) = false := by simpa using h
      rw [this]
      simp only [ih, List.mem_cons]
      have : ¬ id = x := fun e => h e.symm
      simp [this]

private theorem attrsOf_listing {xt : Xt} {id : Nat} (g : Globals) (h : Applies xt id) :
    attrsOf (listing xt g) id = some (shown g id) := by
  unfold attrsOf listing
  rw [find_map, if_pos]
  rw [List.mem_filter, List.mem_range'_1]
  refine ⟨?_, by simpa using h⟩
  cases xt <;> simp only [Applies] at h <;> omega

private theorem desc_unique {l l' : List Nat} (h : l.Pairwise (· > ·)) (h' : l'.Pairwise (· > ·))
    (hm : ∀ x, x ∈ l ↔ x ∈ l') : l = l' := by
  induction l generalizing l' with
  | nil =>
    cases l' with
    | nil => rfl
    | cons y l' => exact absurd ((hm y).2 List.mem_cons_self) (by simp)
  | cons x l ih =>
    cases l' with
    | nil => exact absurd ((hm x).1 List.mem_cons_self) (by simp)
    | cons y l' =>
      obtain ⟨h1, h2⟩ := List.pairwise_cons.1 h
      obtain ⟨h1', h2'⟩ := List.pairwise_cons.1 h'
      have hxy : x = y := by
        have hx := (hm x).1 List.mem_cons_self
        have hy := (hm y).2 List.mem_cons_self
        rcases List.mem_cons.1 hx with e | hx
        · exact e
        · rcases List.mem_cons.1 hy with e | hy
          · exact e.symm
          · have := h1 y hy; have := h1' x hx; omega
      subst hxy
      congr 1
      refine ih h2 h2' fun z => ?_
      have := hm z
      simp only [List.mem_cons] at this
      constructor
      · intro hz
        rcases this.1 (.inr hz) with e | e
        · have := h1 z hz; omega
        · exact e
      · intro hz
        rcases this.2 (.inr hz) with e | e
        · have := h1' z hz; omega
        · exact e

private theorem flag_shown (old b : Bool) : flag old (some (shownFlag b)) = b := by cases b <;> rfl
private theorem pfx6_shown {old p : Option Prefix6} (h : ∀ q, p = some q → q.len ≤ 128) :
    pfx6 old (some (shownPfx6 p)) = p := by
  cases p with
  | none => rfl
  | some p =>
    have := h p rfl
    simp only [shownPfx6, pfx6, BitVec.toNat_ofNat]
    rw [Nat.mod_eq_of_lt (by omega)]
private theorem pfx4_shown {old p : Option Prefix4} (h : ∀ q, p = some q → q.len ≤ 32) :
    pfx4 old (some (shownPfx4 p)) = p := by
  cases p with
  | none => rfl
  | some p =>
    have := h p rfl
    simp only [shownPfx4, pfx4, BitVec.toNat_ofNat]
    rw [Nat.mod_eq_of_lt (by omega)]

private theorem toNat_map {l : List Nat} (h : ∀ x ∈ l, x < 65536) :
    (l.map (BitVec.ofNat 16)).map (·.toNat) = l := by
  rw [List.map_map]
  conv => rhs; rw [← List.map_id l]
  apply List.map_congr_left
  intro x hx
  simp only [Function.comp, BitVec.toNat_ofNat, id]
  exact Nat.mod_eq_of_lt (h x hx)

private theorem cases32 {xt : Xt} {id : Nat} (hi : Applies xt id) :
    id = 1 ∨ id = 2 ∨ id = 3 ∨ id = 4 ∨ id = 5 ∨ id = 6 ∨ id = 7 ∨ id = 8 ∨ id = 9 ∨ id = 10 ∨ id = 11 ∨
    id = 12 ∨ id = 13 ∨ id = 14 ∨ id = 15 ∨ id = 16 ∨ id = 17 ∨ id = 18 ∨ id = 19 ∨ id = 20 ∨ id = 21 ∨ id = 22 ∨
    id = 23 ∨ id = 24 ∨ id = 25 ∨ id = 26 ∨ id = 27 ∨ id = 28 ∨ id = 29 ∨ id = 30 ∨ id = 31 ∨ id = 32 := by
  have h32 : id ≤ 32 ∧ 1 ≤ id := by cases xt <;> simp only [Applies] at hi <;> omega
  omega

/-- C65. Loading a complete listing of the settings of an instance, with `--force`, in any instance of the same type succeeds
and yields the same settings. -/
theorem listing_restores {xt : Xt} {g g0 : Globals} (hv : Valid xt g) (hv0 : Valid xt g0) :
    ∃ g', update xt true (attrsOf (listing xt g)) g0 = (g', true) ∧ ∀ id, Applies xt id → shown g' id = shown g id := by
  have hok : (update xt true (attrsOf (listing xt g)) g0).2 = true := by
    rw [update_accepts_iff hv0]
    intro id v hi ha
    rw [attrsOf_listing g hi] at ha
    cases ha
    have h6 : ∀ n p, Canonical6 p → (n = 2 → LegalPool6 true p) → (n = 2 ∨ n = 12) → Legal true n (shownPfx6 (some p)) := by
      intro n p h1 h2 h3
      have : (BitVec.ofNat 8 p.len).toNat = p.len := by
        have := h1.1
        simp only [BitVec.toNat_ofNat]; omega
      rcases h3 with rfl | rfl
      · show LegalPool6 true ⟨p.addr, (BitVec.ofNat 8 p.len).toNat⟩
        rw [this]; exact h2 rfl
      · show Canonical6 ⟨p.addr, (BitVec.ofNat 8 p.len).toNat⟩
        rw [this]; exact h1
    have hc := cases32 hi
    have hxs : 9 ≤ id → id ≤ 13 → xt = .siit := by
      intro h1 h2; cases xt with
      | siit => rfl
      | nat64 => simp only [Applies] at hi; omega
    have hxn : 14 ≤ id → xt = .nat64 := by
      intro h1; cases xt with
      | nat64 => rfl
      | siit => simp only [Applies] at hi; omega
    rcases hc with rfl | rfl | rfl | rfl | rfl | rfl | rfl | rfl | rfl | rfl | rfl | rfl | rfl | rfl | rfl | rfl | rfl |
      rfl | rfl | rfl | rfl | rfl | rfl | rfl | rfl | rfl | rfl | rfl | rfl | rfl | rfl | rfl <;>
      try (simp only [shown, shownFlag, Legal]; decide)
    · cases hp : g.pool6 with
      | none => simp only [shown, hp]; trivial
      | some p =>
        simp only [shown, hp]
        exact h6 2 p (hv.pool6 p hp).1 (fun _ => hv.pool6 p hp) (.inl rfl)
    · exact hv.mtu
    · refine ⟨by simpa using hv.plateausLen, .inr ?_⟩
      obtain ⟨x, hx⟩ := List.exists_mem_of_ne_nil _ hv.plateausNe
      refine ⟨_, List.mem_map_of_mem hx, ?_⟩
      intro e
      have := congrArg BitVec.toNat e
      have := hv.plateausRange x hx
      simp at *
      omega
    · exact hv.hairpin (hxs (by omega) (by omega))
    · cases hp : g.pool6791v6 with
      | none => simp only [shown, hp]; trivial
      | some p =>
        simp only [shown, hp]
        exact h6 12 p (hv.pool6791v6 (hxs (by omega) (by omega)) p hp) (by omega) (.inr rfl)
    · cases hp : g.pool6791v4 with
      | none => simp only [shown, hp]; trivial
      | some p =>
        have h1 := hv.pool6791v4 (hxs (by omega) (by omega)) p hp
        have : (BitVec.ofNat 8 p.len).toNat = p.len := by
          have := h1.1
          simp only [BitVec.toNat_ofNat]; omega
        simp only [shown, hp]
        show Legal6791v4 true ⟨p.addr, (BitVec.ofNat 8 p.len).toNat⟩
        rw [this]; exact ⟨h1, .inl rfl⟩
    · exact hv.fArgs (hxn (by omega))
    · exact hv.tcpEst (hxn (by omega))
    · exact hv.tcpTrans (hxn (by omega))
    · exact hv.udp (hxn (by omega))
  refine ⟨(update xt true (attrsOf (listing xt g)) g0).1, Prod.ext rfl hok, fun id hi => ?_⟩
  have hpair : update xt true (attrsOf (listing xt g)) g0 = ((update xt true (attrsOf (listing xt g)) g0).1, true) :=
    Prod.ext rfl hok
  obtain ⟨he, hp, _⟩ := update_exact hv0 hpair
  generalize (update xt true (attrsOf (listing xt g)) g0).1 = g' at he hp
  have hgiven : given xt (attrsOf (listing xt g)) id = some (shown g id) := by
    unfold given; rw [if_pos hi, attrsOf_listing g hi]
  have hplat : id = 8 → g'.plateaus = g.plateaus := by
    rintro rfl
    rw [hgiven] at hp
    simp only [shown, PlateausFrom, List.map_eq_nil_iff, if_neg hv.plateausNe] at hp
    refine desc_unique hp.1 hv.plateausDesc fun x => ?_
    rw [hp.2]
    have hm : (∃ y ∈ g.plateaus.map (BitVec.ofNat 16), y.toNat = x) ↔ x ∈ g.plateaus := by
      conv => rhs; rw [← toNat_map fun x hx => (hv.plateausRange x hx).2]
      rw [List.mem_map]
    rw [hm]
    constructor
    · exact fun h => h.2
    · exact fun h => ⟨by have := (hv.plateausRange x h).1; omega, h⟩
  have h6 : id = 12 → ∀ q, g.pool6791v6 = some q → q.len ≤ 128 := by
    rintro rfl q hq
    have : xt = .siit := by
      cases xt with
      | siit => rfl
      | nat64 => simp only [Applies] at hi; omega
    exact (hv.pool6791v6 this q hq).1
  have h4 : id = 13 → ∀ q, g.pool6791v4 = some q → q.len ≤ 32 := by
    rintro rfl q hq
    have : xt = .siit := by
      cases xt with
      | siit => rfl
      | nat64 => simp only [Applies] at hi; omega
    exact (hv.pool6791v4 this q hq).1
  have hc := cases32 hi
  rcases hc with rfl | rfl | rfl | rfl | rfl | rfl | rfl | rfl | rfl | rfl | rfl | rfl | rfl | rfl | rfl | rfl | rfl |
    rfl | rfl | rfl | rfl | rfl | rfl | rfl | rfl | rfl | rfl | rfl | rfl | rfl | rfl | rfl <;>
    (simp only [shown] at hgiven ⊢; try rw [hplat rfl]) <;> rw [he] <;> simp only [expected, hgiven] <;>
    first
      | rfl
      | rw [flag_shown]
      | rw [pfx6_shown fun q hq => (hv.pool6 q hq).1.1]
      | rw [pfx6_shown (h6 rfl)]
      | rw [pfx4_shown (h4 rfl)]

/-! ## Examples -/

private def exPool6 : Prefix6 := ⟨0x0064ff9b#128 <<< 96, 96⟩
private def one (id : Nat) (v : Val) : Attrs := fun i => if i = id then some v else none

/-- A history: an instance, an accepted update, three refused ones (a value that is too small, one that is legal followed by one
that is not, another pool6), and an upload. -/
example : (run .nat64 ⟨none, []⟩ [
      .add false (some exPool6) true,
      .update false (one 22 (.u32 120000)) true,
      .update false (one 22 (.u32 119999)) true,
      .update false (fun i => if i = 3 then some (.u32 1500) else if i = 21 then some (.u32 7) else none) true,
      .update true (one 2 (.pfx6 (some 64) (some (0x2001#128 <<< 112)))) true,
      .candNew false, .candUpdate 0 false (one 2 (.pfx6 (some 96) (some exPool6.addr))),
      .candUpdate 0 false (one 18 (.u8 15))]).running.map (fun g => (g.ttlUdp, g.lowestMtu, g.fArgs, g.pool6)) =
    some (120000, 1280, 11, some exPool6) := by decide +kernel

/-- … and its end. -/
example : (run .nat64 ⟨none, []⟩ [
      .add false (some exPool6) true,
      .candNew false, .candUpdate 0 false (one 2 (.pfx6 (some 96) (some exPool6.addr))),
      .candUpdate 0 false (one 18 (.u8 15)), .candCommit 0 true]).running.map (fun g => (g.fArgs, g.pool6)) =
    some (15, some exPool6) := by decide +kernel

/-- A listing in pieces. -/
example : ∃ g, init false (some exPool6) = some g ∧
    ((pages .siit g [5, 1, 7] 0).1.map (·.1), (pages .siit g [5, 1, 7] 0).2) =
      ([1, 2, 3, 4, 5, 6, 7, 8, 9, 10, 11, 12, 13], true) ∧
    (pages .siit g [5, 1, 6] 0).2 = false := by
  refine ⟨_, rfl, by decide +kernel, by decide +kernel⟩

/-- The settings of a new instance are usable: the hypothesis of the theorems above. -/
example : ∃ g, init false (some exPool6) = some g ∧ Valid .nat64 g := by
  have : ∃ g, init false (some exPool6) = some g := ⟨_, rfl⟩
  obtain ⟨g, h⟩ := this
  exact ⟨g, h, (init_valid h).1⟩

end Jool.Globals
