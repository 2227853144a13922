import Verif.Props.Siit
import Mathlib.Tactic.IntervalCases
/-
C62, C63: which packets SIIT translates, with which addresses, and hairpinning of EAM nodes.
-/
namespace Jool.Siit
open Jool.PrefixSpec
open Jool.Rfc6052Spec (legal Layout pos)
open Jool.Eam (Entry Valid Holds IsBest6 IsBest4)

/-! ## C62: the source of ICMP errors -/

/-- C62: the source that replaces an untranslatable one belongs to the configured prefix; the rest of it is the hop limit
(or random). Without prefix, it is left for the routing to fill in. -/
theorem find6791v4_spec (s : Inst) (hop : BitVec 8) (rnd : BitVec 32) :
    (s.v4src = none → find6791v4 s hop rnd = 0#32) ∧
    (∀ p, s.v4src = some p → Canonical4 p → Mem4 p (find6791v4 s hop rnd) ∧
      ∀ j, p.len ≤ j → j < 32 → (find6791v4 s hop rnd).getMsbD j =
        (if s.randomize then rnd else hop.setWidth 32).getMsbD j) := by
  unfold find6791v4
  refine ⟨fun h => by rw [h], fun p h hc => ?_⟩
  rw [h]
  dsimp only
  have key : ∀ j, j < 32 → ∀ n : BitVec 32, (p.addr ||| (n &&& ~~~ getPrefix4Mask p.len)).getMsbD j =
      if j < p.len then p.addr.getMsbD j else n.getMsbD j := by
    intro j hj n
    rw [BitVec.getMsbD_or, BitVec.getMsbD_and, BitVec.getMsbD_not, getPrefix4Mask_getMsbD _ _ hc.1]
    by_cases hl : j < p.len
    · simp [hl]
    · simp [hl, hj, hc.2 j (by omega) hj]
  refine ⟨fun i hi => ?_, fun j q1 q2 => ?_⟩
  · rw [key i (by have := hc.1; omega), if_pos hi]
  · rw [key j q2, if_neg (by omega)]

theorem byte_bit (a : Addr6) (i k : Nat) (hi : i < 16) (hk : k < 8) : (a.byte i).getMsbD k = a.getMsbD (8 * i + k) := by
  unfold Addr6.byte
  simp only [BitVec.getMsbD, BitVec.getLsbD_setWidth, BitVec.getLsbD_ushiftRight, hk, decide_true, Bool.true_and]
  rw [decide_eq_true (by omega : 8 - 1 - k < 8), decide_eq_true (by omega : 8 * i + k < 128)]
  simp only [Bool.true_and]
  congr 1; omega

/-- C62: same for IPv6; any random bytes. -/
theorem byte6791_spec (p : Prefix6) (hp : p.len ≤ 128) (rnd : Nat → BitVec 8) (i k : Nat) (hi : i < 16) (hk : k < 8)
    (hl : 8 * i + k < p.len) : (byte6791 p rnd i).getMsbD k = p.addr.getMsbD (8 * i + k) := by
  have h3 : p.len >>> 3 = p.len / 8 := by rw [Nat.shiftRight_eq_div_pow]
  have h7 : p.len &&& 7 = p.len % 8 := Nat.and_two_pow_sub_one_eq_mod p.len 3
  unfold byte6791
  dsimp only
  rw [h3, h7]
  split
  · rw [if_neg (by omega), byte_bit _ _ _ hi hk]
  · rw [if_neg (by omega)]
    split
    · rename_i h1 h2
      have hb : (BitVec.ofNat 8 ((1 <<< (8 - p.len % 8)) - 1)).getMsbD k = false := by
        rw [BitVec.getMsbD, BitVec.getLsbD_ofNat, Nat.one_shiftLeft, Nat.testBit_two_pow_sub_one]
        simp; omega
      rw [BitVec.getMsbD_or, BitVec.getMsbD_and, hb, byte_bit _ _ _ hi hk]
      simp
    · rw [byte_bit _ _ _ hi hk]

/-- C62: the IPv6 source that replaces an untranslatable one belongs to the configured prefix. -/
theorem find6791v6_spec (s : Inst) (rnd : Nat → BitVec 8) :
    (s.v6src = none → find6791v6 s rnd = 0#128) ∧
    (∀ p, s.v6src = some p → p.len ≤ 128 → Mem6 p (find6791v6 s rnd)) := by
  unfold find6791v6
  refine ⟨fun h => by rw [h], fun p h hp => ?_⟩
  rw [h]
  dsimp only
  intro j hj
  have hb : ∀ i, i < 16 → (Addr6.ofBytes (byte6791 p rnd 0) (byte6791 p rnd 1) (byte6791 p rnd 2) (byte6791 p rnd 3)
      (byte6791 p rnd 4) (byte6791 p rnd 5) (byte6791 p rnd 6) (byte6791 p rnd 7) (byte6791 p rnd 8)
      (byte6791 p rnd 9) (byte6791 p rnd 10) (byte6791 p rnd 11) (byte6791 p rnd 12) (byte6791 p rnd 13)
      (byte6791 p rnd 14) (byte6791 p rnd 15)).byte i = byte6791 p rnd i := by
    intro i hi
    generalize byte6791 p rnd = b
    interval_cases i <;> simp
  have e := byte_bit (Addr6.ofBytes (byte6791 p rnd 0) (byte6791 p rnd 1) (byte6791 p rnd 2) (byte6791 p rnd 3)
      (byte6791 p rnd 4) (byte6791 p rnd 5) (byte6791 p rnd 6) (byte6791 p rnd 7) (byte6791 p rnd 8)
      (byte6791 p rnd 9) (byte6791 p rnd 10) (byte6791 p rnd 11) (byte6791 p rnd 12) (byte6791 p rnd 13)
      (byte6791 p rnd 14) (byte6791 p rnd 15)) (j / 8) (j % 8) (by omega) (by omega)
  rw [show 8 * (j / 8) + j % 8 = j by omega, hb _ (by omega)] at e
  rw [← e, byte6791_spec p hp rnd _ _ (by omega) (by omega) (by omega)]
  congr 1; omega

/-! ## C62: packets -/

/-- The outgoing source: the translation of the source, or for ICMP errors without one, a substitute. -/
def Source64 (s : Inst) (M : List Entry) (v : View Addr6) (rnd : BitVec 32) (src : Addr4) (m : Method) : Prop :=
  Spec64 s M v.src (!v.icmpError) (.cont src m) ∨
  (v.icmpError = true ∧ Spec64 s M v.src false .tryElse ∧ m = .rfc6791 ∧ src = find6791v4 s v.hopLimit rnd)

def Source46 (s : Inst) (M : List Entry) (v : View Addr4) (eam : Bool) (rnd : Nat → BitVec 8) (src : Addr6) : Prop :=
  (∃ m, Spec46 s M v.src eam (!v.icmpError) (.cont src m)) ∨
  (v.icmpError = true ∧ Spec46 s M v.src eam false .tryElse ∧ src = find6791v6 s rnd)

/-- The packet is going back to an EAM node whose counterpart does not know its IPv6 address: the destination (or, inside
of an ICMP error, the source) was translated with pool6 although an entry has its IPv4 address. -/
def Turns (s : Inst) (M : List Entry) (v : View Addr6) (src dst : Addr4) (ms md : Method) : Prop :=
  s.mode = .intrinsic ∧
  ((v.outer = true ∧ v.icmpError = false ∧ (∃ p, md = .rfc6052 p) ∧ ∃ x ∈ M, Mem4 x.p4 dst) ∨
   (v.outer = false ∧ (∃ p, ms = .rfc6052 p) ∧ ∃ x ∈ M, Mem4 x.p4 src))

inductive Packet64 (s : Inst) (M : List Entry) (v : View Addr6) (flag : Bool) (rnd : BitVec 32) : Res Addr4 → Prop
  | cont (src dst ms md h) : Spec64 s M v.dst true (.cont dst md) → Source64 s M v rnd src ms →
      (h = true ↔ flag = true ∨ Turns s M v src dst ms md) → Packet64 s M v flag rnd (.cont src dst h)
  | badDst (r) : Spec64 s M v.dst true r → (r = .accept ∨ r = .tryElse) →
      Packet64 s M v flag rnd (.untranslatable .src64)
  | badSrc (dst md r) : Spec64 s M v.dst true (.cont dst md) → Spec64 s M v.src (!v.icmpError) r →
      (r = .accept ∨ (v.icmpError = false ∧ r = .tryElse)) → Packet64 s M v flag rnd (.untranslatable .dst64)

/-- Whether the source may be translated with the EAMT. -/
def SrcEam (s : Inst) (v : View Addr4) (flag : Bool) : Prop :=
  ¬ ((s.mode = .simple ∨ flag = true) ∧ v.outer = true ∧ (v.icmpError = false ∨ v.src = v.innerDst))

/-- Whether the destination may be translated with the EAMT. -/
def DstEam (s : Inst) (v : View Addr4) (flag : Bool) : Prop := ¬ ((s.mode = .simple ∨ flag = true) ∧ v.outer = false)

inductive Packet46 (s : Inst) (M : List Entry) (v : View Addr4) (flag : Bool) (rnd : Nat → BitVec 8) : Res Addr6 → Prop
  | cont (src dst md es ed) : (es = true ↔ SrcEam s v flag) → (ed = true ↔ DstEam s v flag) →
      Spec46 s M v.dst ed true (.cont dst md) → Source46 s M v es rnd src → Packet46 s M v flag rnd (.cont src dst flag)
  | badDst (ed r) : (ed = true ↔ DstEam s v flag) → Spec46 s M v.dst ed true r → (r = .accept ∨ r = .tryElse) →
      Packet46 s M v flag rnd (.untranslatable .dst46)
  | badSrc (dst md es ed r) : (es = true ↔ SrcEam s v flag) → (ed = true ↔ DstEam s v flag) →
      Spec46 s M v.dst ed true (.cont dst md) → Spec46 s M v.src es (!v.icmpError) r →
      (r = .accept ∨ (v.icmpError = false ∧ r = .tryElse)) → Packet46 s M v flag rnd (.untranslatable .src46)

theorem hairpin64_spec {s : Inst} {M : List Entry} (h : Ok s M) (v : View Addr6) (flag : Bool) (src dst : Addr4)
    (ms md : Method) : ∃ b, hairpin64 s v flag src dst ms md = .ok b ∧
      (b = true ↔ flag = true ∨ Turns s M v src dst ms md) := by
  unfold hairpin64 Turns
  by_cases hm : s.mode = .intrinsic
  · rw [if_pos hm]
    dsimp only
    obtain ⟨bd, d1, d2⟩ := Eam.contains4_spec h.eam dst
    obtain ⟨bs, s1, s2⟩ := Eam.contains4_spec h.eam src
    rw [d1, s1, ← d2, ← s2]
    cases v.outer <;> cases v.icmpError <;> cases md <;> cases ms <;> cases bd <;> cases bs <;> cases flag <;>
      simp [Outcome.bind, Outcome.map, hm]
  · rw [if_neg hm]
    exact ⟨flag, rfl, by simp [hm]⟩

/-- C62, C63: IPv6 packets. -/
theorem addrs64_spec {s : Inst} {M : List Entry} (h : Ok s M) (v : View Addr6) (flag : Bool) (rnd : BitVec 32) :
    ∃ r, addrs64 s v flag rnd = .ok r ∧ Packet64 s M v flag rnd r := by
  unfold addrs64
  obtain ⟨d, d1, d2⟩ := siit64_sound h v.dst true
  rw [d1]
  dsimp only [Outcome.bind]
  cases d with
  | tryElse => exact ⟨_, rfl, .badDst _ d2 (.inr rfl)⟩
  | accept => exact ⟨_, rfl, .badDst _ d2 (.inl rfl)⟩
  | drop => cases d2
  | cont dst md =>
    dsimp only
    obtain ⟨r, r1, r2⟩ := siit64_sound h v.src (!v.icmpError)
    rw [r1]
    dsimp only
    cases r with
    | accept => exact ⟨_, rfl, .badSrc dst md _ d2 r2 (.inl rfl)⟩
    | drop => cases r2
    | cont src ms =>
      dsimp only [source64]
      obtain ⟨b, b1, b2⟩ := hairpin64_spec h v flag src dst ms md
      rw [b1]
      exact ⟨_, rfl, .cont src dst ms md b d2 (.inl r2) b2⟩
    | tryElse =>
      dsimp only [source64]
      cases hi : v.icmpError with
      | false => exact ⟨_, rfl, .badSrc dst md _ d2 r2 (.inr ⟨hi, rfl⟩)⟩
      | true =>
        simp only [if_true]
        rw [hi] at r2
        obtain ⟨b, b1, b2⟩ := hairpin64_spec h v flag (find6791v4 s v.hopLimit rnd) dst .rfc6791 md
        rw [b1]
        exact ⟨_, rfl, .cont _ dst _ md b d2 (.inr ⟨hi, r2, rfl, rfl⟩) b2⟩

theorem disableSrc_iff (s : Inst) (v : View Addr4) (flag : Bool) :
    (!disableSrcEam v (decide (s.mode = .simple) || flag)) = true ↔ SrcEam s v flag := by
  unfold disableSrcEam SrcEam
  by_cases hm : s.mode = .simple <;> cases flag <;> cases v.outer <;> cases v.icmpError <;>
    by_cases he : v.src = v.innerDst <;> simp [hm, he]

theorem disableDst_iff (s : Inst) (v : View Addr4) (flag : Bool) :
    (!disableDstEam v (decide (s.mode = .simple) || flag)) = true ↔ DstEam s v flag := by
  unfold disableDstEam DstEam
  by_cases hm : s.mode = .simple <;> cases flag <;> cases v.outer <;> simp [hm]

/-- C62, C63: IPv4 packets. -/
theorem addrs46_spec {s : Inst} {M : List Entry} (h : Ok s M) (v : View Addr4) (flag : Bool) (rnd : Nat → BitVec 8) :
    ∃ r, addrs46 s v flag rnd = .ok r ∧ Packet46 s M v flag rnd r := by
  unfold addrs46
  dsimp only
  have es := disableSrc_iff s v flag
  have ed := disableDst_iff s v flag
  generalize (!disableSrcEam v (decide (s.mode = .simple) || flag)) = ES at es ⊢
  generalize (!disableDstEam v (decide (s.mode = .simple) || flag)) = ED at ed ⊢
  obtain ⟨d, d1, d2⟩ := siit46_sound h v.dst ED true
  rw [d1]
  dsimp only [Outcome.bind]
  cases d with
  | tryElse => exact ⟨_, rfl, .badDst _ _ ed d2 (.inr rfl)⟩
  | accept => exact ⟨_, rfl, .badDst _ _ ed d2 (.inl rfl)⟩
  | drop => cases d2
  | cont dst md =>
    dsimp only
    obtain ⟨r, r1, r2⟩ := siit46_sound h v.src ES (!v.icmpError)
    rw [r1]
    dsimp only [Outcome.map]
    cases r with
    | accept => exact ⟨_, rfl, .badSrc dst md _ _ _ es ed d2 r2 (.inl rfl)⟩
    | drop => cases r2
    | cont src ms => exact ⟨_, rfl, .cont src dst md _ _ es ed d2 (.inl ⟨ms, r2⟩)⟩
    | tryElse =>
      dsimp only [source46]
      cases hi : v.icmpError with
      | false => exact ⟨_, rfl, .badSrc dst md _ _ _ es ed d2 r2 (.inr ⟨hi, rfl⟩)⟩
      | true =>
        simp only [if_true]
        rw [hi] at r2
        exact ⟨_, rfl, .cont _ dst md _ _ es ed d2 (.inr ⟨hi, r2, rfl⟩)⟩

/-- C54, C62: the counters are mixed up. Whenever the destination of an IPv6 packet cannot be translated, the counter for
sources is incremented; and vice versa. -/
theorem stat64_swapped {s : Inst} {M : List Entry} (h : Ok s M) (v : View Addr6) (flag : Bool) (rnd : BitVec 32)
    (st : Stat) (hr : addrs64 s v flag rnd = .ok (.untranslatable st)) :
    (st = .src64 ∧ ∀ dst m, ¬ Spec64 s M v.dst true (.cont dst m)) ∨
    (st = .dst64 ∧ (∃ dst m, Spec64 s M v.dst true (.cont dst m)) ∧
      ∀ src m, ¬ Spec64 s M v.src (!v.icmpError) (.cont src m)) := by
  obtain ⟨r, k1, k2⟩ := addrs64_spec h v flag rnd
  rw [hr] at k1
  simp only [Outcome.ok.injEq] at k1
  subst k1
  cases k2 with
  | badDst r q1 q2 =>
    refine .inl ⟨rfl, fun dst m q => ?_⟩
    have := spec64_unique h q1 q
    subst this
    rcases q2 with q2 | q2 <;> simp at q2
  | badSrc dst md r q0 q1 q2 =>
    refine .inr ⟨rfl, ⟨dst, md, q0⟩, fun src m q => ?_⟩
    have := spec64_unique h q1 q
    subst this
    rcases q2 with q2 | ⟨_, q2⟩ <;> simp at q2

/-! ## C63: hairpinning of EAM nodes -/

/-- An EAM node: its addresses are translated into each other, the IPv4 address may also be embedded in pool6, and
nothing prohibits its translation. -/
structure Node (s : Inst) (M : List Entry) (p : Prefix6) where
  a6 : Addr6
  a4 : Addr4
  e : Entry
  /-- The IPv4 address embedded in pool6: how others see the node. -/
  face : Addr6
  to4 : Spec64 s M a6 true (.cont a4 (.eamt e))
  to6 : Spec46 s M a4 true true (.cont a6 (.eamt e))
  embedded : Layout p a4 face
  plain : face ≠ 1#128 ∧ ∀ x ∈ M, ¬ Mem6 x.p6 face
  allowed : ¬ Denied s a4

theorem Node.fine {s : Inst} {M : List Entry} {p : Prefix6} (n : Node s M p) : ¬ Off s n.a4 := by
  have := n.to4
  generalize hm : Ax.cont n.a4 (Method.eamt n.e) = r at this
  cases this with
  | eam e a4 _ _ _ _ q => injection hm with h1 _; subst h1; exact q rfl
  | _ => simp at hm

theorem Node.faceTo4 {s : Inst} {M : List Entry} {p : Prefix6} (h : Ok s M) (hp : s.pool6 = some p) (n : Node s M p)
    (screen : Bool) : Spec64 s M n.face screen (.cont n.a4 (.rfc6052 p)) :=
  .pool p n.a4 n.plain.1 n.plain.2 hp ⟨h.pool6 p hp, n.embedded.pref, n.embedded.v4⟩ (fun _ => ⟨n.allowed, n.fine⟩)

theorem Node.toAlias {s : Inst} {M : List Entry} {p : Prefix6} (hp : s.pool6 = some p) (n : Node s M p)
    (screen : Bool) : Spec46 s M n.a4 false screen (.cont n.face (.rfc6052 p)) :=
  .pool p n.face (fun _ => n.fine) (by simp) n.allowed hp n.embedded

theorem Node.entry {s : Inst} {M : List Entry} {p : Prefix6} (n : Node s M p) : ∃ x ∈ M, Mem4 x.p4 n.a4 := by
  have := n.to6
  generalize hm : Ax.cont n.a6 (Method.eamt n.e) = r at this
  cases this with
  | eam e a6 _ _ q _ _ _ => exact ⟨e, best4_mem q⟩
  | _ => simp at hm

/-- C63: the first half: a packet from a node to the alias of another. -/
theorem uturn_first {s : Inst} {M : List Entry} {p : Prefix6} (h : Ok s M) (hp : s.pool6 = some p)
    (hm : s.mode = .intrinsic) (x y : Node s M p) (hop : BitVec 8) (z : Addr6) (flag : Bool) (rnd : BitVec 32) :
    addrs64 s ⟨true, false, x.a6, y.face, hop, z⟩ flag rnd = .ok (.cont x.a4 y.a4 true) := by
  have d := (siit64_spec h _ _ _).2 (y.faceTo4 h hp true)
  have r := (siit64_spec h _ _ _).2 x.to4
  unfold addrs64
  dsimp only
  rw [d]
  dsimp only [Outcome.bind]
  rw [show (!false) = true from rfl, r]
  dsimp only [source64]
  obtain ⟨b, b1, b2⟩ := hairpin64_spec h ⟨true, false, x.a6, y.face, hop, z⟩ flag x.a4 y.a4 (.eamt x.e) (.rfc6052 p)
  rw [b1, b2.2 (.inr ⟨hm, .inl ⟨rfl, rfl, ⟨p, rfl⟩, y.entry⟩⟩)]
  rfl

/-- C63: the second half: the packet arrives at the other node, from the alias of the first. -/
theorem uturn_second {s : Inst} {M : List Entry} {p : Prefix6} (h : Ok s M) (hp : s.pool6 = some p)
    (x y : Node s M p) (hop : BitVec 8) (z : Addr4) (flag : Bool) (hf : s.mode = .simple ∨ flag = true)
    (rnd : Nat → BitVec 8) :
    addrs46 s ⟨true, false, x.a4, y.a4, hop, z⟩ flag rnd = .ok (.cont x.face y.a6 flag) := by
  have d := (siit46_spec h _ _ _ _).2 y.to6
  have r := (siit46_spec h _ _ _ _).2 (x.toAlias hp true)
  have hh : (decide (s.mode = .simple) || flag) = true := by
    rcases hf with hf | hf
    · simp [hf]
    · simp [hf]
  unfold addrs46
  dsimp only
  rw [hh]
  simp only [disableDstEam, disableSrcEam, Bool.not_true, Bool.and_false, Bool.not_false, Bool.or_false,
    Bool.false_eq_true, if_false, if_true]
  rw [d]
  dsimp only [Outcome.bind]
  rw [r]
  rfl

/-- C63: two EAM nodes behind the same translator can talk. Node `x` sends a packet to the alias of node `y`; `y` receives
it from the alias of `x`; and when it answers, `x` receives the answer from the address it had sent the packet to. -/
theorem hairpin_conversation {s : Inst} {M : List Entry} {p : Prefix6} (h : Ok s M) (hp : s.pool6 = some p)
    (hm : s.mode = .intrinsic) (x y : Node s M p) (hop : BitVec 8) (z : Addr6) (z4 : Addr4) (rnd : BitVec 32)
    (rnd6 : Nat → BitVec 8) :
    (∃ f, addrs64 s ⟨true, false, x.a6, y.face, hop, z⟩ false rnd = .ok (.cont x.a4 y.a4 f) ∧
      addrs46 s ⟨true, false, x.a4, y.a4, hop, z4⟩ f rnd6 = .ok (.cont x.face y.a6 f)) ∧
    (∃ f, addrs64 s ⟨true, false, y.a6, x.face, hop, z⟩ false rnd = .ok (.cont y.a4 x.a4 f) ∧
      addrs46 s ⟨true, false, y.a4, x.a4, hop, z4⟩ f rnd6 = .ok (.cont y.face x.a6 f)) :=
  ⟨⟨true, uturn_first h hp hm x y hop z false rnd, uturn_second h hp x y hop z4 true (.inr rfl) rnd6⟩,
   ⟨true, uturn_first h hp hm y x hop z false rnd, uturn_second h hp y x hop z4 true (.inr rfl) rnd6⟩⟩

/-- C63: what an ICMP error carries. If something complains about a packet on its way to `y` (which came from the alias of
`x`), `x` gets to see the packet that it had sent, to the alias of `y`. -/
theorem hairpin_error {s : Inst} {M : List Entry} {p : Prefix6} (h : Ok s M) (hp : s.pool6 = some p)
    (hm : s.mode = .intrinsic) (x y : Node s M p) (hop : BitVec 8) (z : Addr6) (z4 : Addr4) (flag : Bool)
    (rnd : BitVec 32) (rnd6 : Nat → BitVec 8) :
    addrs64 s ⟨false, false, x.face, y.a6, hop, z⟩ flag rnd = .ok (.cont x.a4 y.a4 true) ∧
    addrs46 s ⟨false, false, x.a4, y.a4, hop, z4⟩ true rnd6 = .ok (.cont x.a6 y.face true) := by
  constructor
  · have d := (siit64_spec h _ _ _).2 y.to4
    have r := (siit64_spec h _ _ _).2 (x.faceTo4 h hp true)
    unfold addrs64
    dsimp only
    rw [d]
    dsimp only [Outcome.bind]
    rw [show (!false) = true from rfl, r]
    dsimp only [source64]
    obtain ⟨b, b1, b2⟩ := hairpin64_spec h ⟨false, false, x.face, y.a6, hop, z⟩ flag x.a4 y.a4 (.rfc6052 p) (.eamt y.e)
    rw [b1, b2.2 (.inr ⟨hm, .inr ⟨rfl, ⟨p, rfl⟩, x.entry⟩⟩)]
    rfl
  · have d := (siit46_spec h _ _ _ _).2 (y.toAlias hp true)
    have r := (siit46_spec h _ _ _ _).2 x.to6
    unfold addrs46
    simp only [disableDstEam, disableSrcEam, Bool.or_true, Bool.not_true, Bool.not_false, Bool.and_true, Bool.or_true,
      Bool.false_eq_true, if_false, if_true]
    rw [d]
    dsimp only [Outcome.bind]
    rw [r]
    rfl

/-- C63: with the mode off, no packet is sent back. -/
theorem no_hairpin {s : Inst} {M : List Entry} (h : Ok s M) (hm : s.mode ≠ .intrinsic) (v : View Addr6)
    (rnd : BitVec 32) (src dst : Addr4) (f : Bool) (hr : addrs64 s v false rnd = .ok (.cont src dst f)) : f = false := by
  obtain ⟨r, k1, k2⟩ := addrs64_spec h v false rnd
  rw [hr] at k1
  simp only [Outcome.ok.injEq] at k1
  subst k1
  cases k2 with
  | cont _ _ ms md _ _ _ q =>
    cases f with
    | false => rfl
    | true =>
      rcases q.1 rfl with q | q
      · simp at q
      · exact absurd q.1 hm

/-- One byte of such an address: with the right random byte, any byte the prefix allows. -/
theorem byte6791_onto (p : Prefix6) (h0 : ∀ j, p.len ≤ j → p.addr.getMsbD j = false) (a : Addr6)
    (ha : Mem6 p a) (i : Nat) (hi : i < 16) : byte6791 p a.byte i = a.byte i := by
  have h3 : p.len >>> 3 = p.len / 8 := by rw [Nat.shiftRight_eq_div_pow]
  have h7 : p.len &&& 7 = p.len % 8 := Nat.and_two_pow_sub_one_eq_mod p.len 3
  have hpre : ∀ k, k < 8 → 8 * i + k < p.len → p.addr.getMsbD (8 * i + k) = a.getMsbD (8 * i + k) :=
    fun k _ hl => (ha (8 * i + k) hl).symm
  unfold byte6791
  dsimp only
  rw [h3, h7]
  have hlow : ¬ (p.len / 8 ≤ i) → p.addr.byte i = a.byte i := by
    intro h
    apply BitVec.eq_of_getMsbD_eq
    intro k hk
    rw [byte_bit _ _ _ hi hk, byte_bit _ _ _ hi hk]
    exact hpre k hk (by omega)
  split
  · split
    · rfl
    · rename_i h; exact hlow h
  · split
    · rfl
    · split
      · rename_i h1 h2 h4
        apply BitVec.eq_of_getMsbD_eq
        intro k hk
        rw [BitVec.getMsbD_or, BitVec.getMsbD_and, byte_bit _ _ _ hi hk, byte_bit _ _ _ hi hk]
        have hb : (BitVec.ofNat 8 ((1 <<< (8 - p.len % 8)) - 1)).getMsbD k = decide (p.len % 8 ≤ k) := by
          rw [BitVec.getMsbD, BitVec.getLsbD_ofNat, Nat.one_shiftLeft, Nat.testBit_two_pow_sub_one,
            decide_eq_true hk, decide_eq_true (by omega : 8 - 1 - k < 8), Bool.true_and, Bool.true_and, decide_eq_decide]
          omega
        rw [hb]
        by_cases hl : p.len % 8 ≤ k
        · rw [h0 _ (by omega)]; simp [hl]
        · rw [hpre k hk (by omega)]; simp [hl]
      · rename_i h1 h2 h4; exact hlow (by omega)

/-- C62: every address of the prefix can come up: all the bits beyond the prefix are random. -/
theorem find6791v6_onto (s : Inst) (p : Prefix6) (hs : s.v6src = some p)
    (h0 : ∀ j, p.len ≤ j → p.addr.getMsbD j = false) (a : Addr6) (ha : Mem6 p a) :
    ∃ rnd, find6791v6 s rnd = a := by
  refine ⟨a.byte, ?_⟩
  unfold find6791v6
  rw [hs]
  dsimp only
  simp only [byte6791_onto p h0 a ha _ (by omega : 0 < 16), byte6791_onto p h0 a ha _ (by omega : 1 < 16),
    byte6791_onto p h0 a ha _ (by omega : 2 < 16), byte6791_onto p h0 a ha _ (by omega : 3 < 16),
    byte6791_onto p h0 a ha _ (by omega : 4 < 16), byte6791_onto p h0 a ha _ (by omega : 5 < 16),
    byte6791_onto p h0 a ha _ (by omega : 6 < 16), byte6791_onto p h0 a ha _ (by omega : 7 < 16),
    byte6791_onto p h0 a ha _ (by omega : 8 < 16), byte6791_onto p h0 a ha _ (by omega : 9 < 16),
    byte6791_onto p h0 a ha _ (by omega : 10 < 16), byte6791_onto p h0 a ha _ (by omega : 11 < 16),
    byte6791_onto p h0 a ha _ (by omega : 12 < 16), byte6791_onto p h0 a ha _ (by omega : 13 < 16),
    byte6791_onto p h0 a ha _ (by omega : 14 < 16), byte6791_onto p h0 a ha _ (by omega : 15 < 16)]
  apply BitVec.eq_of_getMsbD_eq
  intro j hj
  rw [Addr6.getMsbD_eq_byte _ _ hj, Addr6.getMsbD_eq_byte a _ hj]
  have h : j / 8 < 16 := by omega
  congr 1
  generalize j / 8 = k at h
  interval_cases k <;> simp

/-- The hypotheses hold of a prefix whose length is not a multiple of 8. -/
example : (∀ j, 44 ≤ j → (0x20010db8000000000000000000000000#128).getMsbD j = false) ∧
    Mem6 ⟨0x20010db8000000000000000000000000#128, 44⟩ 0x20010db800010000fedcba9876543210#128 := by
  refine ⟨fun j hj => ?_, fun i hi => ?_⟩
  · by_cases h : j < 128
    · have : ∀ j : Fin 128, 44 ≤ j.val → (0x20010db8000000000000000000000000#128).getMsbD j.val = false := by decide
      exact this ⟨j, h⟩ hj
    · simp [BitVec.getMsbD, h]
  · have : ∀ i : Fin 44, (0x20010db800010000fedcba9876543210#128).getMsbD i.val =
        (0x20010db8000000000000000000000000#128).getMsbD i.val := by decide
    exact this ⟨i, hi⟩

end Jool.Siit
