import Verif.Model.WholeSiit
import Verif.Props.SiitPackets
import Verif.Props.WireErrSix
/-
C82: a SIIT instance, from the bytes that arrive to the bytes that leave.
-/
namespace Jool.WholeSiitSpec
open Jool.Pkt (Byte)
open Jool.WireSpec
open Jool.Siit (View Res)
open Jool.WholeSiit (Fate Env)

/-- The addresses in the bytes of an IPv4 packet: one that is not an error, an error, the packet inside of an error. -/
def plain4 (d : List Byte) : View Addr4 := ⟨true, false, BitVec.ofNat 32 (src4 d), BitVec.ofNat 32 (dst4 d), BitVec.ofNat 8 (ttl4 d), 0#32⟩
def error4 (d : List Byte) : View Addr4 := ⟨true, true, BitVec.ofNat 32 (src4 d), BitVec.ofNat 32 (dst4 d), BitVec.ofNat 8 (ttl4 d), BitVec.ofNat 32 (dst4 (d.drop (l4 d + 8)))⟩
def about4 (k : List Byte) : View Addr4 := ⟨false, false, BitVec.ofNat 32 (src4 k), BitVec.ofNat 32 (dst4 k), BitVec.ofNat 8 (ttl4 k), 0#32⟩

/-- The same for IPv6. -/
def view6 (outer err : Bool) (d : List Byte) : View Addr6 := ⟨outer, err, BitVec.ofNat 128 (src6 d), BitVec.ofNat 128 (dst6 d), BitVec.ofNat 8 (hop6 d), 0#128⟩

/-- The type of an ICMP message is one that RFC 7915 translates. -/
def Typed46 (d : List Byte) : Prop := proto4 d = 1 → ∃ t c, IcmpSpec.Rfc46 (byte d (l4 d)) (byte d (l4 d + 1)) t c
def Typed64 (d : List Byte) (l n : Nat) : Prop := n = 58 → ∃ t c, IcmpSpec.Rfc64 (byte d l) (byte d (l + 1)) t c

/-- The source address that is written: the one that was found, or the one that the kernel selects. -/
def From46 (e : Env Addr6) (err : Bool) (src src' : Addr6) : Prop := src ≠ 0#128 ∧ src' = src ∨ src = 0#128 ∧ err = true ∧ e.saddr = some src'
def From64 (e : Env Addr4) (src src' : Addr4) : Prop := src ≠ 0#32 ∧ src' = src ∨ src = 0#32 ∧ e.saddr = some src'

/-- What becomes of a packet that is not an error. `addr`: the verdicts about its addresses. `typed`: see above. `leaves`: whether its headers can be translated. `source`: the
source address that is written. `is`: what it becomes. `turn`: whether it is a hairpin. -/
inductive Plain {A : Type} (e : Env A) (turn : Bool → Bool) (addr : Res A → Prop) (typed leaves : Prop) (source : A → A → Prop) (is : A → A → List Byte → Prop) : Fate → Prop
  | kernel (st) : addr (.untranslatable st) → Plain e turn addr typed leaves source is .untranslatable
  | type (src dst h) : addr (.cont src dst h) → ¬ typed → Plain e turn addr typed leaves source is .drop
  | fail (src dst h f) : addr (.cont src dst h) → typed → e.fail = some f → Plain e turn addr typed leaves source is f
  | anonymous (src dst h) : addr (.cont src dst h) → typed → e.fail = none → (∀ src', ¬ source src src') → Plain e turn addr typed leaves source is .drop
  | lost (src dst h src') : addr (.cont src dst h) → typed → e.fail = none → source src src' → ¬ leaves ∨ (turn h = false ∧ e.sendFails = true) →
      Plain e turn addr typed leaves source is .drop
  | hairpin (src dst h src' o) : addr (.cont src dst h) → typed → e.fail = none → source src src' → leaves → turn h = true → is src' dst o →
      Plain e turn addr typed leaves source is (.hairpin o)
  | sent (src dst h src' o) : addr (.cont src dst h) → typed → e.fail = none → source src src' → leaves → turn h = false → e.sendFails = false → is src' dst o →
      Plain e turn addr typed leaves source is (.sent o)

/-- What becomes of an error. `inner`: the verdicts about the addresses of the packet inside, if the packet was (or was not) known to be a hairpin by then. -/
inductive Error {A : Type} (e : Env A) (turn : Bool → Bool) (addr : Res A → Prop) (inner : Bool → Res A → Prop) (typed leaves : Prop) (source : A → A → Prop)
    (is : A → A → A → A → List Byte → Prop) : Fate → Prop
  | kernel (st) : addr (.untranslatable st) → Error e turn addr inner typed leaves source is .untranslatable
  | type (src dst h) : addr (.cont src dst h) → ¬ typed → Error e turn addr inner typed leaves source is .drop
  | inside (src dst h st) : addr (.cont src dst h) → typed → inner h (.untranslatable st) → Error e turn addr inner typed leaves source is .untranslatable
  | fail (src dst h isrc idst h' f) : addr (.cont src dst h) → typed → inner h (.cont isrc idst h') → e.fail = some f → Error e turn addr inner typed leaves source is f
  | anonymous (src dst h isrc idst h') : addr (.cont src dst h) → typed → inner h (.cont isrc idst h') → e.fail = none → (∀ src', ¬ source src src') →
      Error e turn addr inner typed leaves source is .drop
  | lost (src dst h isrc idst h' src') : addr (.cont src dst h) → typed → inner h (.cont isrc idst h') → e.fail = none → source src src' →
      ¬ leaves ∨ (turn h' = false ∧ e.sendFails = true) → Error e turn addr inner typed leaves source is .drop
  | hairpin (src dst h isrc idst h' src' o) : addr (.cont src dst h) → typed → inner h (.cont isrc idst h') → e.fail = none → source src src' → leaves → turn h' = true →
      is src' dst isrc idst o → Error e turn addr inner typed leaves source is (.hairpin o)
  | sent (src dst h isrc idst h' src' o) : addr (.cont src dst h) → typed → inner h (.cont isrc idst h') → e.fail = none → source src src' → leaves → turn h' = false →
      e.sendFails = false → is src' dst isrc idst o → Error e turn addr inner typed leaves source is (.sent o)

/-- A packet that is accepted and is in memory as the kernel leaves it. -/
structure Arrives4 (s0 : Pkt.Skb) (a : Pkt.Acc) (p : Build.P) : Prop where
  accepted : Pkt.init4 s0 = some a
  inside : s0.linear ≤ s0.data.length
  held : Build.Holds p a
  words : 5 ≤ words4 s0.data
  size : s0.data.length < 65536

structure Arrives6 (s0 : Pkt.Skb) (a : Pkt.Acc) (p : Build.P) : Prop where
  accepted : Pkt.init6 s0 = some a
  inside : s0.linear ≤ s0.data.length
  held : Build.Holds p a

end Jool.WholeSiitSpec

namespace Jool.WholeSiit
open Jool.Pkt (Byte L4 Meta Acc at8)
open Jool.Siit
open Jool.Eam (Entry)
open Jool.WireSpec
open Jool.WholeSiitSpec
open Jool.Wire (fhOf)

set_option linter.unusedVariables false

/-! ## What is read is what the bytes say -/

theorem ofToNat {n k : Nat} {v : BitVec n} (h : v.toNat = k) : v = BitVec.ofNat n k := by rw [← h]; simp

theorem ip4_view {d : List Byte} (h : 20 ≤ d.length) : (Wire.ip4 d).src = BitVec.ofNat 32 (src4 d) ∧ (Wire.ip4 d).dst = BitVec.ofNat 32 (dst4 d) ∧
    (Wire.ip4 d).ttl = BitVec.ofNat 8 (ttl4 d) := by
  obtain ⟨-, -, -, -, r5, -, r7, r8⟩ := Wire.read4 h
  exact ⟨ofToNat r7, ofToNat r8, ofToNat r5⟩

theorem ip6_view {d : List Byte} (h : 40 ≤ d.length) : (Wire.ip6 d).src = BitVec.ofNat 128 (src6 d) ∧ (Wire.ip6 d).dst = BitVec.ofNat 128 (dst6 d) ∧
    (Wire.ip6 d).hop = BitVec.ofNat 8 (hop6 d) := by
  obtain ⟨-, r2, r3, r4⟩ := Wire.read6 h
  exact ⟨ofToNat r3, ofToNat r4, ofToNat r2⟩

variable {s : Inst} {M : List Entry} {x : Wire.Ctx} {y : Wire.ErrCtx} {flag : Bool} {s0 : Pkt.Skb} {a : Acc} {p : Build.P} {i : Meta}

theorem view4_plain (A : Arrives4 s0 a p) (hi : a.inner = none) : view4 a = plain4 s0.data := by
  have h20 := (Wire.complete4 A.accepted A.inside).1
  obtain ⟨r1, r2, r3⟩ := ip4_view h20
  unfold view4 plain4
  rw [(Pkt.init4_ok A.accepted).data, hi, ← r1, ← r2, ← r3]
  rfl

/-- Where the packet inside of an ICMPv4 error is. -/
theorem pay4 (A : Arrives4 s0 a p) (hi : a.inner = some i) : a.m.pay = l4 s0.data + 8 ∧ proto4 s0.data = 1 ∧ a.m.l4 = l4 s0.data ∧ a.m.proto = L4.icmp ∧ l4 s0.data + 8 ≤ s0.data.length := by
  have O := Pkt.init4_ok A.accepted
  obtain ⟨hpi, -, -⟩ := O.inner i hi
  obtain ⟨h20, hl, hc, hfr⟩ := Wire.complete4 A.accepted A.inside
  have h1 : proto4 s0.data = 1 := by
    have := O.proto
    rw [hpi, Wire.proto4_of h20] at this
    by_cases q6 : proto4 s0.data = 6
    · rw [if_pos q6] at this; cases this
    · rw [if_neg q6] at this
      by_cases q17 : proto4 s0.data = 17
      · rw [if_pos q17] at this; cases this
      · rw [if_neg q17] at this
        by_cases q1 : proto4 s0.data = 1
        · exact q1
        · rw [if_neg q1] at this; cases this
  have h8 := hc.echo h1
  rw [List.length_drop] at h8
  have hD := O.data
  have hH := O.hdr
  unfold Pkt.HdrEnd at hH
  rw [(Wire.first4_off h20).2 (hfr h1).1, hpi] at hH
  simp only [if_true] at hH
  have hl4 := O.l4
  rw [Wire.ihl4_words h20] at hl4
  exact ⟨by omega, h1, hl4, hpi, by omega⟩

theorem view4_error (A : Arrives4 s0 a p) (hi : a.inner = some i) : view4 a = error4 s0.data := by
  have h20 := (Wire.complete4 A.accepted A.inside).1
  obtain ⟨r1, r2, r3⟩ := ip4_view h20
  have P := Wire.inPkt4 A.accepted A.inside hi
  have hk : (Wire.insideAcc a i).skb.data = s0.data.drop (l4 s0.data + 8) := by
    show a.skb.data.drop a.m.pay = _
    rw [(Pkt.init4_ok A.accepted).data, (pay4 A hi).1]
  have p1 := P.full
  rw [hk] at p1
  obtain ⟨-, q2, -⟩ := ip4_view p1
  unfold view4 error4
  rw [(Pkt.init4_ok A.accepted).data, hi, ← r1, ← r2, ← r3, ← q2, (pay4 A hi).1]
  rfl

theorem isError4_iff {d : List Byte} {k : Nat} (h : k + 1 ≤ d.length) : Icmp.isIcmp4Error (at8 d k) = true ↔ field d k 1 ∈ [3, 4, 5, 11, 12] := by
  rw [Wire.isIcmp4Error_iff, Wire.at8_field h]

theorem inView4_eq (A : Arrives4 s0 a p) (hi : a.inner = some i)
    (hnest : proto4 (s0.data.drop (l4 s0.data + 8)) = 1 → field (s0.data.drop (l4 s0.data + 8)) (l4 (s0.data.drop (l4 s0.data + 8))) 1 ∉ [3, 4, 5, 11, 12]) :
    inView4 a i = about4 (s0.data.drop (l4 s0.data + 8)) := by
  have P := Wire.inPkt4 A.accepted A.inside hi
  have hD := (Pkt.init4_ok A.accepted).data
  have hpay := (pay4 A hi).1
  have hk : (Wire.insideAcc a i).skb.data = s0.data.drop (l4 s0.data + 8) := by
    show a.skb.data.drop a.m.pay = _
    rw [hD, hpay]
  obtain ⟨p1, p2, p3, p4, p5, p6, p7, p8, p9, p10⟩ := P
  rw [hk] at p1 p2 p3 p4 p5 p6 p7
  have p6' := p6
  rw [Wire.ihl4_words p1] at p6'
  have pC := Wire.complete_in p1 p4 p5 p6' p7
  obtain ⟨q1, q2, q3⟩ := ip4_view p1
  have hE : innerError Icmp.isIcmp4Error a i = false := by
    unfold innerError
    by_cases q : i.proto = L4.icmp
    · have h1 : proto4 (s0.data.drop (l4 s0.data + 8)) = 1 := by
        have := p7
        rw [Wire.proto4_of p1] at this
        rw [show (Wire.insideAcc a i).m.proto = L4.icmp from q] at this
        by_cases q6 : proto4 (s0.data.drop (l4 s0.data + 8)) = 6
        · rw [if_pos q6] at this; cases this
        · rw [if_neg q6] at this
          by_cases q17 : proto4 (s0.data.drop (l4 s0.data + 8)) = 17
          · rw [if_pos q17] at this; cases this
          · rw [if_neg q17] at this
            by_cases q1 : proto4 (s0.data.drop (l4 s0.data + 8)) = 1
            · exact q1
            · rw [if_neg q1] at this; cases this
      have h8 := pC.echo h1
      rw [List.length_drop] at h8
      have hn := hnest h1
      rw [← isError4_iff (by omega)] at hn
      have e : at8 a.skb.data i.l4 = at8 (s0.data.drop (l4 s0.data + 8)) (l4 (s0.data.drop (l4 s0.data + 8))) := by
        rw [p8, p6', hD, hpay]
        unfold at8
        rw [List.getD_eq_getElem?_getD, List.getD_eq_getElem?_getD, List.getElem?_drop]
      rw [e, decide_eq_true q]
      simpa using hn
    · rw [decide_eq_false q]; rfl
  unfold inView4 about4
  rw [hE, hD, hpay]
  dsimp only
  rw [q1, q2, q3]

theorem icmp4_iff (A : Arrives4 s0 a p) : a.m.proto = L4.icmp ↔ proto4 s0.data = 1 := by
  have h20 := (Wire.complete4 A.accepted A.inside).1
  rw [(Pkt.init4_ok A.accepted).proto, Wire.proto4_of h20]
  by_cases q6 : proto4 s0.data = 6
  · simp [q6]
  · by_cases q17 : proto4 s0.data = 17
    · simp [q17]
    · by_cases q1 : proto4 s0.data = 1 <;> simp [q6, q17, q1]

theorem typed46_iff (A : Arrives4 s0 a p) : typed Icmp.xlat46Type a = true ↔ Typed46 s0.data := by
  obtain ⟨h20, hl, hc, -⟩ := Wire.complete4 A.accepted A.inside
  unfold typed Typed46
  rw [Bool.or_eq_true, decide_eq_true_iff, (Pkt.init4_ok A.accepted).data, hl, ← icmp4_iff A]
  constructor
  · intro h q
    have h1 := (icmp4_iff A).1 q
    have h8 := hc.echo h1
    rw [List.length_drop] at h8
    rcases h with h | h
    · exact absurd q h
    · obtain ⟨⟨t, c⟩, ht⟩ := Option.isSome_iff_exists.1 h
      refine ⟨t, c, ?_⟩
      rw [Wire.byte_eq (by omega), Wire.byte_eq (by omega)]
      exact (Icmp.icmp46_table _ _ _ _).1 ht
  · intro h
    by_cases q : a.m.proto = L4.icmp
    · have h1 := (icmp4_iff A).1 q
      have h8 := hc.echo h1
      rw [List.length_drop] at h8
      obtain ⟨t, c, ht⟩ := h q
      rw [Wire.byte_eq (by omega), Wire.byte_eq (by omega)] at ht
      rw [(Icmp.icmp46_table _ _ _ _).2 ht]
      exact .inr rfl
    · exact .inl q

/-! ## 4 to 6 -/

theorem from46_some {e : Env Addr6} {err : Bool} {src src' : Addr6} : from46 e err src = some src' ↔ From46 e err src src' := by
  unfold from46 From46
  by_cases h : src = 0#128
  · rw [if_pos h]
    cases err <;> simp [h]
  · rw [if_neg h]
    simp [h, eq_comm]

theorem from46_none {e : Env Addr6} {err : Bool} {src : Addr6} (h : from46 e err src = none) (src' : Addr6) : ¬ From46 e err src src' := by
  rw [← from46_some, h]
  simp

/-- **C82.** An IPv4 packet that is not an error. -/
theorem plain46_partial (e : Env Addr6) (rnd rnd2 : Nat → BitVec 8) (h : Ok s M) (A : Arrives4 s0 a p) (hi : a.inner = none) (h58 : proto4 s0.data ≠ 58)
    (htcp : off4 s0.data = 0 → proto4 s0.data = 6 → 5 ≤ field s0.data (l4 s0.data + 12) 1 / 16) :
    ∃ f, pass46 s x y e flag rnd rnd2 p a = .ok f ∧
      Plain e (fun _ => false) (Packet46 s M (plain4 s0.data) flag rnd) (Typed46 s0.data) (Leaves46 (siit x flag) s0.data) (From46 e false)
        (fun s6 d6 o => Sent46 (siit x flag) s6 d6 s0.data o) f := by
  obtain ⟨r, k1, k2⟩ := addrs46_spec h (plain4 s0.data) flag rnd
  have hT := typed46_iff A
  unfold pass46 flow46
  rw [view4_plain A hi, k1, hi]
  dsimp only [Outcome.bind]
  cases r with
  | untranslatable st => exact ⟨_, rfl, .kernel st k2⟩
  | drop st => cases k2
  | cont src dst h' =>
    dsimp only [after]
    by_cases q : typed Icmp.xlat46Type a = true
    · rw [if_pos q]
      dsimp only
      have t := hT.1 q
      cases hf : e.fail with
      | some f => exact ⟨f, rfl, .fail _ _ _ f k2 t hf⟩
      | none =>
        dsimp only [Option.isSome_none]
        cases hs : from46 e false src with
        | none => exact ⟨_, rfl, .anonymous _ _ _ k2 t hf (from46_none hs)⟩
        | some src' =>
          have hs' := from46_some.1 hs
          dsimp only
          obtain ⟨r, w1, w2, w3⟩ := Wire.packet46_partial (x := siit x flag) src' dst A.accepted A.inside A.held A.words htcp hi A.size h58
          rw [w1]
          dsimp only [Outcome.map]
          cases r with
          | none => exact ⟨_, rfl, .lost _ _ _ _ k2 t hf hs' (.inl (fun q => w2.2 q rfl))⟩
          | some o =>
            have L := w2.1 (by simp)
            unfold leave
            cases hx : e.sendFails with
            | true => exact ⟨_, rfl, .lost _ _ _ _ k2 t hf hs' (.inr ⟨rfl, hx⟩)⟩
            | false => exact ⟨_, rfl, .sent _ _ _ _ o k2 t hf hs' L rfl hx (w3 o rfl)⟩
    · rw [if_neg q]
      exact ⟨_, rfl, .type _ _ _ k2 (fun t => q (hT.2 t))⟩

/-- **C82.** An ICMPv4 error. -/
theorem error46_partial (e : Env Addr6) (rnd rnd2 : Nat → BitVec 8) (h : Ok s M) (A : Arrives4 s0 a p) (hi : a.inner = some i)
    (h58 : proto4 (s0.data.drop (l4 s0.data + 8)) ≠ 58)
    (htcp : proto4 (s0.data.drop (l4 s0.data + 8)) = 6 → 5 ≤ field (s0.data.drop (l4 s0.data + 8)) (l4 (s0.data.drop (l4 s0.data + 8)) + 12) 1 / 16)
    (hnest : proto4 (s0.data.drop (l4 s0.data + 8)) = 1 → field (s0.data.drop (l4 s0.data + 8)) (l4 (s0.data.drop (l4 s0.data + 8))) 1 ∉ [3, 4, 5, 11, 12])
    (hext : field s0.data (l4 s0.data + 5) 1 ≠ 0 → l4 (s0.data.drop (l4 s0.data + 8)) ≤ field s0.data (l4 s0.data + 5) 1 * 4 + l6 (s0.data.drop (l4 s0.data + 8))) :
    ∃ f, pass46 s x y e flag rnd rnd2 p a = .ok f ∧
      Error e (fun _ => false) (Packet46 s M (error4 s0.data) flag rnd) (fun b => Packet46 s M (about4 (s0.data.drop (l4 s0.data + 8))) b rnd2) (Typed46 s0.data)
        (ErrLeaves46 (siit x flag) s0.data) (From46 e true) (fun s6 d6 is6 id6 o => ErrSent46 (siit x flag) (siitErr y) s6 d6 is6 id6 s0.data o) f := by
  obtain ⟨r, k1, k2⟩ := addrs46_spec h (error4 s0.data) flag rnd
  have hT := typed46_iff A
  unfold pass46 flow46
  rw [view4_error A hi, k1, hi]
  dsimp only [Outcome.bind]
  cases r with
  | untranslatable st => exact ⟨_, rfl, .kernel st k2⟩
  | drop st => cases k2
  | cont src dst h' =>
    dsimp only [after]
    by_cases q : typed Icmp.xlat46Type a = true
    · rw [if_pos q, inView4_eq A hi hnest]
      have t := hT.1 q
      obtain ⟨ri, j1, j2⟩ := addrs46_spec h (about4 (s0.data.drop (l4 s0.data + 8))) h' rnd2
      rw [j1]
      dsimp only
      cases ri with
      | untranslatable st => exact ⟨_, rfl, .inside _ _ _ st k2 t j2⟩
      | drop st => cases j2
      | cont isrc idst h'' =>
        dsimp only
        cases hf : e.fail with
        | some f => exact ⟨f, rfl, .fail _ _ _ _ _ _ f k2 t j2 hf⟩
        | none =>
          dsimp only [Option.isSome_some]
          cases hs : from46 e true src with
          | none => exact ⟨_, rfl, .anonymous _ _ _ _ _ _ k2 t j2 hf (from46_none hs)⟩
          | some src' =>
            have hs' := from46_some.1 hs
            dsimp only
            obtain ⟨r, w1, w2, w3⟩ := Wire.error46_partial (x := siit x flag) (y := siitErr y) src' dst isrc idst A.accepted A.inside A.held A.words hi A.size h58 htcp hnest hext
            rw [w1]
            dsimp only [Outcome.map]
            cases r with
            | none => exact ⟨_, rfl, .lost _ _ _ _ _ _ _ k2 t j2 hf hs' (.inl (fun q => w2.2 q rfl))⟩
            | some o =>
              have L := w2.1 (by simp)
              unfold leave
              cases hx : e.sendFails with
              | true => exact ⟨_, rfl, .lost _ _ _ _ _ _ _ k2 t j2 hf hs' (.inr ⟨rfl, hx⟩)⟩
              | false => exact ⟨_, rfl, .sent _ _ _ _ _ _ _ o k2 t j2 hf hs' L rfl hx (w3 o rfl)⟩
    · rw [if_neg q]
      exact ⟨_, rfl, .type _ _ _ k2 (fun t => q (hT.2 t))⟩

/-! ## 6 to 4 -/

theorem view6_eq (A : Arrives6 s0 a p) (h40 : 40 ≤ s0.data.length) : view6 a = WholeSiitSpec.view6 true a.inner.isSome s0.data := by
  obtain ⟨r1, r2, r3⟩ := ip6_view h40
  unfold view6 WholeSiitSpec.view6
  rw [(Pkt.init6_ok A.accepted).data]
  dsimp only
  rw [r1, r2, r3]

theorem inView6_eq {L : Nat} (A : Arrives6 s0 a p) (hi : a.inner = some i) (hH : Headers s0.data 40 (next6 s0.data) none L 58) :
    inView6 a i = WholeSiitSpec.view6 false false (s0.data.drop (L + 8)) := by
  obtain ⟨hD, h40, hfh, hl, hpay, h8, -, herr⟩ := Wire.errHdr64 A.accepted A.inside A.held hi hH
  obtain ⟨n, P⟩ := Wire.inPkt6 A.accepted A.inside hi
  have hk : (Wire.insideAcc a i).skb.data = s0.data.drop (L + 8) := by
    show a.skb.data.drop a.m.pay = _
    rw [hD, hpay]
  have p1 := P.full
  have p2 := P.noError
  have p3 := P.il4
  rw [hk] at p1 p2
  obtain ⟨r1, r2, r3⟩ := ip6_view p1
  have hE : innerError Icmp.isIcmp6Error a i = false := by
    unfold innerError
    by_cases q : i.proto = L4.icmp
    · have hn := p2 q
      have e : at8 a.skb.data i.l4 = at8 (s0.data.drop (L + 8)) (Wire.insideAcc a i).m.l4 := by
        rw [p3, hD, hpay]
        unfold at8
        rw [List.getD_eq_getElem?_getD, List.getD_eq_getElem?_getD, List.getElem?_drop]
      rw [e, decide_eq_true q]
      simpa using hn
    · rw [decide_eq_false q]; rfl
  unfold inView6 WholeSiitSpec.view6
  rw [hE, hD, hpay]
  dsimp only
  rw [r1, r2, r3]

theorem headers64 {L n : Nat} {fh : Option Nat} (A : Arrives6 s0 a p) (hH : Headers s0.data 40 (next6 s0.data) fh L n) :
    40 ≤ s0.data.length ∧ fh = fhOf a.m ∧ L = a.m.l4 ∧ (a.m.proto = L4.icmp ↔ n = 58) ∧ (a.m.proto = L4.tcp ↔ n = 6) ∧ (n = 58 → L + 8 ≤ s0.data.length) := by
  have O := Pkt.init6_ok A.accepted
  have hD := O.data
  have h40 : 40 ≤ s0.data.length := by have := O.len; omega
  obtain ⟨n', hH', -, hP⟩ := Wire.headers6 A.accepted (by rw [hD]; exact h40)
  rw [hD] at hH'
  obtain ⟨rfl, rfl, rfl⟩ := Wire.headers_unique hH hH'
  have hic := O.icmp
  rw [Wire.proto6_toNat] at hP
  have e1 : a.m.proto = L4.icmp ↔ n'.toNat = 58 := by
    rw [hP]
    by_cases q6 : n'.toNat = 6
    · simp [q6]
    · by_cases q17 : n'.toNat = 17
      · simp [q17]
      · by_cases q1 : n'.toNat = 58 <;> simp [q6, q17, q1]
  refine ⟨h40, rfl, rfl, e1, ?_, ?_⟩
  · rw [hP]
    by_cases q6 : n'.toNat = 6
    · simp [q6]
    · by_cases q17 : n'.toNat = 17
      · simp [q17]
      · by_cases q1 : n'.toNat = 58 <;> simp [q6, q17, q1]
  · intro q
    exact (hic (e1.2 q)).2.1

theorem typed64_iff {L n : Nat} {fh : Option Nat} (A : Arrives6 s0 a p) (hH : Headers s0.data 40 (next6 s0.data) fh L n) :
    typed Icmp.xlat64Type a = true ↔ Typed64 s0.data L n := by
  obtain ⟨h40, rfl, rfl, e1, -, e3⟩ := headers64 A hH
  unfold typed Typed64
  rw [Bool.or_eq_true, decide_eq_true_iff, (Pkt.init6_ok A.accepted).data, ← e1]
  constructor
  · intro h q
    have h8 := e3 (e1.1 q)
    rcases h with h | h
    · exact absurd q h
    · obtain ⟨⟨t, c⟩, ht⟩ := Option.isSome_iff_exists.1 h
      refine ⟨t, c, ?_⟩
      rw [Wire.byte_eq (by omega), Wire.byte_eq (by omega)]
      exact (Icmp.icmp64_table _ _ _ _).1 ht
  · intro h
    by_cases q : a.m.proto = L4.icmp
    · have h8 := e3 (e1.1 q)
      obtain ⟨t, c, ht⟩ := h q
      rw [Wire.byte_eq (by omega), Wire.byte_eq (by omega)] at ht
      rw [(Icmp.icmp64_table _ _ _ _).2 ht]
      exact .inr rfl
    · exact .inl q

theorem from64_some {e : Env Addr4} {src src' : Addr4} : from64 e src = some src' ↔ From64 e src src' := by
  unfold from64 From64
  by_cases h : src = 0#32
  · rw [if_pos h]
    simp [h]
  · rw [if_neg h]
    simp [h, eq_comm]

theorem from64_none {e : Env Addr4} {src : Addr4} (h : from64 e src = none) (src' : Addr4) : ¬ From64 e src src' := by
  rw [← from64_some, h]
  simp

/-- **C82.** An IPv6 packet that is not an error. -/
theorem plain64_partial (e : Env Addr4) (rnd rnd2 : BitVec 32) (sel2 : BitVec 16) (segleft : Option Nat) {L n : Nat} {fh : Option Nat} (h : Ok s M) (A : Arrives6 s0 a p)
    (hi : a.inner = none) (hH : Headers s0.data 40 (next6 s0.data) fh L n) (h1 : n ≠ 1) (hlen : s0.data.length - L ≤ 65515)
    (htcp : n = 6 → offAt s0.data fh = 0 → 5 ≤ field s0.data (L + 12) 1 / 16) :
    ∃ f, pass64 s x y e rnd rnd2 sel2 segleft p a = .ok f ∧
      Plain e id (Packet64 s M (WholeSiitSpec.view6 true false s0.data) false rnd) (Typed64 s0.data L n) (Leaves64 segleft s0.data L n) (From64 e)
        (fun s4 d4 o => Sent64 (siit x false) s4 d4 s0.data fh L n o) f := by
  obtain ⟨h40, hf, hl, e1, e2, e3⟩ := headers64 A hH
  obtain ⟨r, k1, k2⟩ := addrs64_spec h (WholeSiitSpec.view6 true false s0.data) false rnd
  have hT := typed64_iff A hH
  have hV := view6_eq A h40
  rw [hi] at hV
  unfold pass64 flow64
  rw [hV]
  dsimp only [Option.isSome_none]
  rw [k1, hi]
  dsimp only [Outcome.bind]
  cases r with
  | untranslatable st => exact ⟨_, rfl, .kernel st k2⟩
  | drop st => cases k2
  | cont src dst h' =>
    dsimp only [after]
    by_cases q : typed Icmp.xlat64Type a = true
    · rw [if_pos q]
      dsimp only
      have t := hT.1 q
      cases hf' : e.fail with
      | some f => exact ⟨f, rfl, .fail _ _ _ f k2 t hf'⟩
      | none =>
        dsimp only
        cases hs : from64 e src with
        | none => exact ⟨_, rfl, .anonymous _ _ _ k2 t hf' (from64_none hs)⟩
        | some src' =>
          have hs' := from64_some.1 hs
          dsimp only
          obtain ⟨n', r, w0, w1, w2, w3⟩ := Wire.packet64_partial (x := siit x false) src' dst segleft A.accepted A.inside A.held
            (fun q1 q2 => by rw [← hl]; exact htcp (e2.1 q1) (by rw [hf]; exact q2)) hi (by rw [← hl]; exact hlen)
            (fun fh' l' q => by
              obtain ⟨-, -, u⟩ := Wire.headers_unique hH q
              exact h1 u)
          rw [← hl, ← hf] at w0
          obtain ⟨-, -, rfl⟩ := Wire.headers_unique hH w0
          rw [← hl] at w2 w3
          rw [← hf] at w3
          rw [w1]
          dsimp only [Outcome.map]
          cases r with
          | none => exact ⟨_, rfl, .lost _ _ _ _ k2 t hf' hs' (.inl (fun q => w2.2 q rfl))⟩
          | some o =>
            have L := w2.1 (by simp)
            unfold leave
            cases h' with
            | true => exact ⟨_, rfl, .hairpin _ _ _ _ o k2 t hf' hs' L rfl (w3 o rfl)⟩
            | false =>
              cases hx : e.sendFails with
              | true => exact ⟨_, rfl, .lost _ _ _ _ k2 t hf' hs' (.inr ⟨rfl, hx⟩)⟩
              | false => exact ⟨_, rfl, .sent _ _ _ _ o k2 t hf' hs' L rfl hx (w3 o rfl)⟩
    · rw [if_neg q]
      exact ⟨_, rfl, .type _ _ _ k2 (fun t => q (hT.2 t))⟩

/-- **C82.** An ICMPv6 error. -/
theorem error64_partial (e : Env Addr4) (rnd rnd2 : BitVec 32) (sel2 : BitVec 16) (segleft : Option Nat) {L il n : Nat} {fh : Option Nat} (h : Ok s M) (A : Arrives6 s0 a p)
    (hi : a.inner = some i) (hlen : s0.data.length < 65536) (hH : Headers s0.data 40 (next6 s0.data) none L 58)
    (hI : Headers (s0.data.drop (L + 8)) 40 (next6 (s0.data.drop (L + 8))) fh il n) (h1 : n ≠ 1) (htcp : n = 6 → 5 ≤ field (s0.data.drop (L + 8)) (il + 12) 1 / 16)
    (hext : ext6 (byte s0.data L) = true → field s0.data (L + 4) 1 ≠ 0 → il ≤ field s0.data (L + 4) 1 * 8 + 20) :
    ∃ f, pass64 s x y e rnd rnd2 sel2 segleft p a = .ok f ∧
      Error e id (Packet64 s M (WholeSiitSpec.view6 true true s0.data) false rnd) (fun b => Packet64 s M (WholeSiitSpec.view6 false false (s0.data.drop (L + 8))) b rnd2)
        (Typed64 s0.data L 58) (ErrLeaves64 (siit x false) segleft s0.data L il n) (From64 e)
        (fun s4 d4 is4 id4 o => ErrSent64 (siit x false) (siitErr y) s4 d4 is4 id4 s0.data L fh il n o) f := by
  obtain ⟨h40, hf, hl, e1, e2, e3⟩ := headers64 A hH
  obtain ⟨r, k1, k2⟩ := addrs64_spec h (WholeSiitSpec.view6 true true s0.data) false rnd
  have hT := typed64_iff A hH
  have hV := view6_eq A h40
  rw [hi] at hV
  unfold pass64 flow64
  rw [hV]
  dsimp only [Option.isSome_some]
  rw [k1, hi]
  dsimp only [Outcome.bind]
  cases r with
  | untranslatable st => exact ⟨_, rfl, .kernel st k2⟩
  | drop st => cases k2
  | cont src dst h' =>
    dsimp only [after]
    by_cases q : typed Icmp.xlat64Type a = true
    · rw [if_pos q, inView6_eq A hi hH]
      have t := hT.1 q
      obtain ⟨ri, j1, j2⟩ := addrs64_spec h (WholeSiitSpec.view6 false false (s0.data.drop (L + 8))) h' rnd2
      rw [j1]
      dsimp only
      cases ri with
      | untranslatable st => exact ⟨_, rfl, .inside _ _ _ st k2 t j2⟩
      | drop st => cases j2
      | cont isrc idst h'' =>
        dsimp only
        cases hf' : e.fail with
        | some f => exact ⟨f, rfl, .fail _ _ _ _ _ _ f k2 t j2 hf'⟩
        | none =>
          dsimp only
          cases hs : from64 e src with
          | none => exact ⟨_, rfl, .anonymous _ _ _ _ _ _ k2 t j2 hf' (from64_none hs)⟩
          | some src' =>
            have hs' := from64_some.1 hs
            dsimp only
            obtain ⟨r, w1, w2, w3⟩ := Wire.error64_partial (x := siit x false) (y := siitErr y) src' dst isrc idst sel2 segleft A.accepted A.inside A.held hi hlen hH hI h1 htcp hext
            rw [w1]
            dsimp only [Outcome.map]
            cases r with
            | none => exact ⟨_, rfl, .lost _ _ _ _ _ _ _ k2 t j2 hf' hs' (.inl (fun q => w2.2 q rfl))⟩
            | some o =>
              have L := w2.1 (by simp)
              unfold leave
              cases h'' with
              | true => exact ⟨_, rfl, .hairpin _ _ _ _ _ _ _ o k2 t j2 hf' hs' L rfl (w3 o rfl)⟩
              | false =>
                cases hx : e.sendFails with
                | true => exact ⟨_, rfl, .lost _ _ _ _ _ _ _ k2 t j2 hf' hs' (.inr ⟨rfl, hx⟩)⟩
                | false => exact ⟨_, rfl, .sent _ _ _ _ _ _ _ o k2 t j2 hf' hs' L rfl hx (w3 o rfl)⟩
    · rw [if_neg q]
      exact ⟨_, rfl, .type _ _ _ k2 (fun t => q (hT.2 t))⟩

end Jool.WholeSiit
