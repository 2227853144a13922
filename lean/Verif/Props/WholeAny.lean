import Verif.Model.WholeAny
import Verif.Props.Whole
import Verif.Props.WireSlow
/-
C90: IPv4 packets of any size through a NAT64, from the bytes that arrive to the bytes that leave.
-/
namespace Jool.WholeSpec
open Jool.Pkt (Byte Acc)
open Jool.Nat64Spec (Kind)
open Jool.WireSpec

/-- What the IPv6 node gets for the IPv4 packet `d` is a packet of this kind from `S` to `D`: either one, or pieces of at most `mpl` bytes which, put together, are one. -/
inductive Gets6 (x : Wire.Ctx) (mpl : Nat) (d : List Byte) (k : Kind) (S D : T6) : List (List Byte) → Prop
  | whole (o fh) (is : Is6 o fh (l6 d) (to6 (proto4 d)) k S D) (sent : Sent46 (Whole.assign x S.port D.port) S.addr D.addr d o) : Gets6 x mpl d k S D [o]
  | split (os) (is : Says 128 129 58 (to6 (proto4 d)) (joined os) k S.port D.port) (sent : Split46 (Whole.assign x S.port D.port) S.addr D.addr mpl d os) : Gets6 x mpl d k S D os

/-- The size of the packet `d` as one IPv6 packet. -/
def size6 (d : List Byte) : Nat := l6 d + (d.length - l4 d)

/-- `d` must not be split, and is too big. -/
def TooBig (nexthop : Nat) (d : List Byte) : Prop := df4 d = 1 ∧ nexthop < size6 d

/-- `d` is split. -/
def Splits (mpl : Nat) (d : List Byte) : Prop := df4 d = 0 ∧ mpl < size6 d

end Jool.WholeSpec

namespace Jool.WholeAny
open Jool.Pkt (Byte L4 Acc at8 at16)
open Jool.Nat64 (Port Fu Tuple)
open Jool.Nat64Spec
open Jool.WireSpec
open Jool.WholeSpec
open Jool.Whole (pkt4 assign pass6)
open Jool.Bib (SessKey Answerable)

set_option linter.unusedVariables false

variable {cfg : Nat64.Cfg} {P : Prefix6} {s : Nat64.St} {c : Nat64.Ctx} {x : Wire.Ctx} {nexthop lim : BitVec 32} {fails : Nat → Bool} {p : Build.P} {a : Acc} {s0 : Pkt.Skb}

/-! ## Sending -/

theorem handOver_ok {fails : Nat → Bool} : ∀ {os : List (List Byte)} {i : Nat}, (handOver fails i os).2 = true → (handOver fails i os).1 = os ∧ ∀ j < os.length, fails (i + j) = false
  | [], i, _ => ⟨rfl, fun j h => by simp at h⟩
  | o :: os, i, h => by
    unfold handOver at h ⊢
    split at h
    · cases h
    · next q =>
      rw [if_neg q]
      obtain ⟨h1, h2⟩ := handOver_ok (os := os) h
      refine ⟨by simp only [h1], ?_⟩
      intro j hj
      cases j with
      | zero => simpa using q
      | succ j =>
        rw [List.length_cons] at hj
        have := h2 j (by omega)
        rw [show i + (j + 1) = i + 1 + j by omega]
        exact this

theorem handOver_fails {fails : Nat → Bool} : ∀ {os : List (List Byte)} {i : Nat}, (handOver fails i os).2 = false →
    ∃ j, j < os.length ∧ (handOver fails i os).1 = os.take j ∧ fails (i + j) = true ∧ ∀ j' < j, fails (i + j') = false
  | [], i, h => by cases h
  | o :: os, i, h => by
    unfold handOver at h ⊢
    split at h
    · next q =>
      rw [if_pos q]
      exact ⟨0, by simp, rfl, q, fun j' hj => by omega⟩
    · next q =>
      rw [if_neg q]
      obtain ⟨j, h1, h2, h3, h4⟩ := handOver_fails (os := os) h
      refine ⟨j + 1, by simpa using h1, by simp only [h2, List.take_succ_cons], by rw [show i + (j + 1) = i + 1 + j by omega]; exact h3, ?_⟩
      intro j' hj
      cases j' with
      | zero => simpa using q
      | succ j' =>
        rw [show i + (j' + 1) = i + 1 + j' by omega]
        exact h4 j' (by omega)

theorem leave_sent {w : Wire.Fate} {os : List (List Byte)} (h : leave fails w = .sent os) : w = .sent os ∧ ∀ j < os.length, fails j = false := by
  cases w with
  | badMtu => cases h
  | tooBig m => cases h
  | dropped => cases h
  | sent l =>
    unfold leave at h
    simp only at h
    split at h
    · next q =>
      injection h with h
      obtain ⟨h1, h2⟩ := handOver_ok q
      rw [h1] at h
      subst h
      exact ⟨rfl, fun j hj => by have := h2 j hj; rw [Nat.zero_add] at this; exact this⟩
    · cases h

theorem leave_ok {w : Wire.Fate} {os : List (List Byte)} (h : w = .sent os) (hf : ∀ j < os.length, fails j = false) : leave fails w = .sent os := by
  subst h
  unfold leave
  simp only
  cases e : (handOver fails 0 os).2 with
  | true => rw [if_pos rfl, (handOver_ok e).1]
  | false =>
    obtain ⟨j, h1, -, h3, -⟩ := handOver_fails e
    rw [Nat.zero_add, hf j h1] at h3
    cases h3

/-- **C90.** If the network refuses one of the pieces, it has got those before, and gets none behind. -/
theorem leave_broken {w : Wire.Fate} {l : List (List Byte)} (h : leave fails w = .broken l) :
    ∃ os j, w = .sent os ∧ j < os.length ∧ l = os.take j ∧ fails j = true ∧ ∀ j' < j, fails j' = false := by
  cases w with
  | badMtu => cases h
  | tooBig m => cases h
  | dropped => cases h
  | sent os =>
    unfold leave at h
    simp only at h
    split at h
    · cases h
    · next q =>
      injection h with h
      obtain ⟨j, h1, h2, h3, h4⟩ := handOver_fails (by simpa using q)
      refine ⟨os, j, rfl, h1, by rw [← h, h2], by rw [Nat.zero_add] at h3; exact h3, fun j' hj => ?_⟩
      have := h4 j' hj
      rw [Nat.zero_add] at this
      exact this

/-! ## The tables -/

/-- Which packets get as far as the translation, and with which addresses: those that the tables let through. -/
theorem pass4_core {k : Kind} {S D : T4} {r0 : Nat64.Res} {q : Nat64.Pkt Addr6} {k' : Kind} {S' D' : T6} (hA : Active cfg P)
    (V : view4 (pkt4 a) = some (k, S, D)) (hr : Nat64.core4 cfg s c (pkt4 a) = .ok r0) (ho : r0.out = .sent6 q) (V6 : view6 q = some (k', S', D')) :
    k' = k ∧ ∀ w, Wire.forward46 (assign x S'.port D'.port) S'.addr D'.addr nexthop lim p a = .ok w → pass4 cfg P s c x nexthop lim fails p a = .ok ⟨r0.st, r0.ev, leave fails w⟩ := by
  have ht := (Nat64.view4_tuple V).1
  rcases Nat64.core4_common hr with ⟨_, _, w, h'⟩ | ⟨P', _, hP', hc⟩
  · rw [ho] at h'; cases h'
  · rw [hA.2] at hP'; cases hP'
    unfold Nat64.common4 at hc
    rw [ht] at hc
    simp only at hc
    obtain ⟨f, hf, hc⟩ := Nat64.map_ok hc
    unfold Nat64.finish4 at hc
    cases hk : f.res with
    | error e => rw [hk] at hc; cases hc; cases e <;> cases ho
    | ok known =>
      rw [hk] at hc
      simp only at hc
      cases hcm : Nat64.compute4 P f.st ⟨S, D, k.proto⟩ known with
      | error e => rw [hcm] at hc; cases hc; cases e <;> cases ho
      | ok t =>
        rw [hcm] at hc
        simp only at hc
        cases hq : Nat64.translate4 cfg P c (pkt4 a) t with
        | error e => rw [hq] at hc; cases hc; cases e <;> cases ho
        | ok q' =>
          rw [hq] at hc
          simp only at hc
          cases hc
          have hfl : c.fail = none := by
            cases h : c.fail with
            | none => rfl
            | some e => unfold Nat64.translate4 at hq; rw [h] at hq; cases hq
          have hsf : c.sendFails = false := by
            cases h : c.sendFails with
            | false => rfl
            | true => unfold Nat64.send at ho; rw [h] at ho; cases ho
          have hqq : q' = q := by
            unfold Nat64.send at ho; rw [hsf] at ho
            simpa using ho
          subst hqq
          have e2 := Nat64.translate4_view V hq
          rw [V6] at e2
          simp only [Option.some.injEq, Prod.mk.injEq] at e2
          obtain ⟨rfl, rfl, rfl⟩ := e2
          have hsa : Nat64.saddr6 cfg P (pkt4 a) t = some t.src.addr := by simp [Nat64.saddr6, (Nat64.view4_tuple V).2.1]
          have hports : k'.port t.src.port t.src.port = t.src.port ∧ k'.port t.dst.port t.src.port = t.dst.port := by
            refine ⟨by cases k' <;> rfl, ?_⟩
            unfold Nat64.compute4 at hcm
            split at hcm
            · cases hcm
            · split at hcm
              · cases hcm
              · cases hcm
                cases k' <;> rfl
          refine ⟨rfl, fun w hw => ?_⟩
          rw [hports.1, hports.2] at hw
          unfold pass4
          rw [ht]
          simp only
          rw [hf]
          show end4 cfg P c x nexthop lim fails p a ⟨S, D, k'.proto⟩ f = .ok _
          unfold end4
          rw [hk]
          simp only
          rw [hcm]
          simp only
          rw [hfl]
          simp only
          rw [hsa]
          simp only
          rw [hw]
          rfl

/-- And no others. -/
theorem pass4_tables {k : Kind} {S D : T4} {r : Res} (hA : Active cfg P) (hsf : c.sendFails = false) (V : view4 (pkt4 a) = some (k, S, D))
    (hr : pass4 cfg P s c x nexthop lim fails p a = .ok r) (ho : ∀ e, r.fate ≠ .stop e) : ∃ q S' D' w, view6 q = some (k, S', D') ∧
      Wire.forward46 (assign x S'.port D'.port) S'.addr D'.addr nexthop lim p a = .ok w ∧ r.fate = leave fails w ∧ Nat64.core4 cfg s c (pkt4 a) = .ok ⟨r.st, r.ev, .sent6 q⟩ := by
  have ht := (Nat64.view4_tuple V).1
  unfold pass4 at hr
  rw [ht] at hr
  obtain ⟨f, hf, hr⟩ := Nat64.bind_ok hr
  unfold end4 at hr
  cases hk : f.res with
  | error e => rw [hk] at hr; cases hr; exact absurd rfl (ho e)
  | ok known =>
    rw [hk] at hr
    simp only at hr
    cases hc : Nat64.compute4 P f.st ⟨S, D, k.proto⟩ known with
    | error e => rw [hc] at hr; cases hr; exact absurd rfl (ho e)
    | ok t =>
      rw [hc] at hr
      simp only at hr
      cases hfl : c.fail with
      | some e => rw [hfl] at hr; cases hr; exact absurd rfl (ho e)
      | none =>
        have hsa : Nat64.saddr6 cfg P (pkt4 a) t = some t.src.addr := by simp [Nat64.saddr6, (Nat64.view4_tuple V).2.1]
        rw [hfl, hsa] at hr
        obtain ⟨w, hw, rfl⟩ := Nat64.map_ok hr
        obtain ⟨q, hq⟩ := Whole.translate4_ok (cfg := cfg) (P := P) V hfl t
        refine ⟨q, _, _, w, Nat64.translate4_view V hq, ?_, rfl, ?_⟩
        · have hports : k.port t.src.port t.src.port = t.src.port ∧ k.port t.dst.port t.src.port = t.dst.port := by
            refine ⟨by cases k <;> rfl, ?_⟩
            unfold Nat64.compute4 at hc
            split at hc
            · cases hc
            · split at hc
              · cases hc
              · cases hc
                cases k <;> rfl
          rw [hports.1, hports.2]
          exact hw
        · unfold Nat64.core4
          rw [hA.1, hA.2]
          simp only [Bool.not_true, Bool.false_eq_true, if_false]
          unfold Nat64.common4
          rw [ht]
          simp only
          rw [hf]
          show Outcome.ok (Nat64.finish4 ..) = _
          unfold Nat64.finish4
          rw [hk]
          simp only
          rw [hc]
          simp only
          rw [hq]
          simp only
          unfold Nat64.send
          simp [hsf]

/-! ## The bytes -/

/-- What leaves, if the addresses and ports are these. -/
theorem bytes46 {k : Kind} {S D : T4} {S' D' : T6} (A : Arrives4 s0 a p) (I : Is4 s0.data k S D) (hp : k.port D'.port S'.port = D'.port) :
    ∃ w, Wire.forward46 (assign x S'.port D'.port) S'.addr D'.addr nexthop lim p a = .ok w ∧
      (w = .badMtu ↔ min nexthop.toNat lim.toNat < 1280) ∧
      (∀ m, w = .tooBig m ↔ 1280 ≤ min nexthop.toNat lim.toNat ∧ TooBig nexthop.toNat s0.data ∧ m = nexthop.toNat - 20) ∧
      ((∃ os, w = .sent os) ↔ 1280 ≤ min nexthop.toNat lim.toNat ∧ ¬ TooBig nexthop.toNat s0.data ∧ x.route = false ∧ 2 ≤ ttl4 s0.data) ∧
      ∀ os, w = .sent os → Gets6 x (min nexthop.toNat lim.toNat) s0.data k S' D' os ∧ (2 ≤ os.length ↔ Splits (min nexthop.toNat lim.toNat) s0.data) ∧
        ∀ o ∈ os, o.length ≤ nexthop.toNat ∧ (df4 s0.data = 0 → o.length ≤ lim.toNat) := by
  have h58 := Whole.not58 I
  obtain ⟨h20, hl, -, -⟩ := Wire.complete4 A.accepted A.inside
  have hl4 : 20 ≤ l4 s0.data := by
    have := A.words
    unfold WireSpec.l4
    omega
  have hsz := A.size
  obtain ⟨w, h1, h2, h3, h4, h5⟩ := Wire.forward46_partial (x := assign x S'.port D'.port) S'.addr D'.addr nexthop lim A.accepted A.inside A.held A.words A.tcp A.noError A.size
    (by rw [I.first]; omega) (by omega) (n := size6 s0.data) rfl rfl
  rw [Whole.leaves46_iff I] at h4
  refine ⟨w, h1, h2, fun m => by rw [h3 m]; unfold TooBig; exact ⟨fun ⟨q1, q2, q3, q4⟩ => ⟨q1, ⟨q2, q3⟩, q4⟩, fun ⟨q1, ⟨q2, q3⟩, q4⟩ => ⟨q1, q2, q3, q4⟩⟩, h4, ?_⟩
  intro os hos
  obtain ⟨g1, g2, g3⟩ := h5 os hos
  have hd2 : df4 s0.data < 2 := Nat.mod_lt _ (by omega)
  by_cases hS : Splits (min nexthop.toNat lim.toNat) s0.data
  · have sp := g3 hS.1 hS.2
    refine ⟨.split os ?_ sp, ⟨fun _ => hS, fun _ => sp.several⟩, g1⟩
    obtain ⟨-, hc, -⟩ := Whole.view4_of A.accepted A.inside I
    have := Whole.says_out (u1 := 128#8) (u2 := 129#8) sp.seg I.first ⟨fun _ => hc.tcp trivial, fun _ => hc.udp trivial, hc.echo⟩ (by decide) (n' := to6 (proto4 s0.data)) (icmp' := 58)
      (by intro q; rw [q]; rfl) (by intro q; rw [q]; rfl) (by intro q; rw [q]; rfl) I.seg
    rw [hp] at this
    exact this
  · have hone : df4 s0.data = 1 ∨ size6 s0.data ≤ min nexthop.toNat lim.toNat := by
      unfold Splits at hS
      omega
    obtain ⟨o, rfl, so⟩ := g2 hone
    obtain ⟨fh, H⟩ := Whole.is6_of A I so
    rw [hp] at H
    exact ⟨.whole o fh H so, ⟨fun q => by simp at q, fun q => absurd q hS⟩, g1⟩

/-! ## C90 -/

/-- **C90.** Whatever the tables let through: what becomes of it depends on its size, on DF, on the two MTUs, on its TTL and on source routes, and on nothing else. The tables
have changed as if it were small. -/
theorem fate46_partial {k : Kind} {S D : T4} {r0 : Nat64.Res} {q : Nat64.Pkt Addr6} (hA : Active cfg P) (A : Arrives4 s0 a p) (I : Is4 s0.data k S D)
    (hr : Nat64.core4 cfg s c (pkt4 a) = .ok r0) (ho : r0.out = .sent6 q) {mpl : Nat} (hm : mpl = min nexthop.toNat lim.toNat) :
    ∃ r, pass4 cfg P s c x nexthop lim fails p a = .ok r ∧ r.st = r0.st ∧ r.ev = r0.ev ∧
      (r.fate = .badMtu ↔ mpl < 1280) ∧
      (∀ m, r.fate = .tooBig m ↔ 1280 ≤ mpl ∧ TooBig nexthop.toNat s0.data ∧ m = nexthop.toNat - 20) ∧
      (r.fate = .cut ↔ 1280 ≤ mpl ∧ ¬ TooBig nexthop.toNat s0.data ∧ ¬ (x.route = false ∧ 2 ≤ ttl4 s0.data)) ∧
      ((∀ i, fails i = false) → ((∃ os, r.fate = .sent os) ↔ 1280 ≤ mpl ∧ ¬ TooBig nexthop.toNat s0.data ∧ x.route = false ∧ 2 ≤ ttl4 s0.data)) := by
  subst hm
  obtain ⟨-, -, V⟩ := Whole.view4_of A.accepted A.inside I
  obtain ⟨-, b, -, -, -, a6, -, V6⟩ := Nat64.translated46 hA.2 V hr ho
  obtain ⟨-, h⟩ := pass4_core (x := x) (p := p) (nexthop := nexthop) (lim := lim) (fails := fails) hA V hr ho V6
  obtain ⟨w, e1, e2, e3, e4, e5⟩ := bytes46 (x := x) (nexthop := nexthop) (lim := lim) (S' := ⟨a6, k.port S.port b.src6.port⟩) (D' := b.src6) A I (by cases k <;> rfl)
  refine ⟨_, h w e1, rfl, rfl, ?_, ?_, ?_, ?_⟩
  · rw [← e2]
    show leave fails w = .badMtu ↔ _
    cases w with
    | badMtu => simp [leave]
    | tooBig m => simp [leave]
    | dropped => simp [leave]
    | sent os => simp only [leave]; split <;> simp
  · intro m
    rw [← e3 m]
    show leave fails w = .tooBig m ↔ _
    cases w with
    | badMtu => simp [leave]
    | tooBig m => simp [leave]
    | dropped => simp [leave]
    | sent os => simp only [leave]; split <;> simp
  · show leave fails w = .cut ↔ _
    cases w with
    | badMtu =>
      have := e2.1 rfl
      simp only [leave, reduceCtorEq, false_iff]
      omega
    | tooBig m =>
      have := (e3 m).1 rfl
      simp only [leave, reduceCtorEq, false_iff]
      exact fun q => q.2.1 this.2.1
    | dropped =>
      simp only [leave, true_iff]
      have n2 : ¬ min nexthop.toNat lim.toNat < 1280 := fun q => by cases e2.2 q
      have n3 : ¬ TooBig nexthop.toNat s0.data := fun q => by cases (e3 _).2 ⟨by omega, q, rfl⟩
      refine ⟨by omega, n3, fun q => ?_⟩
      obtain ⟨os, q'⟩ := e4.2 ⟨by omega, n3, q⟩
      cases q'
    | sent os =>
      have := e4.1 ⟨os, rfl⟩
      simp only [leave]
      constructor
      · intro q
        split at q <;> cases q
      · exact fun q => absurd this.2.2 q.2.2
  · intro hf
    rw [← e4]
    constructor
    · rintro ⟨os, q⟩
      exact ⟨os, (leave_sent q).1⟩
    · rintro ⟨os, q⟩
      exact ⟨os, leave_ok q (fun j _ => hf j)⟩

/-- **C90.** The packets that leave a NAT64 for an IPv4 packet of any size: they go to the IPv6 transport address of the BIB entry whose IPv4 transport address is the
destination in the bytes that arrived; they come from the address that contains the source; put together they are a packet of the same kind, with the ports of the entry and
of the source; each fits; and the rest is C77 and C88. -/
theorem out46_partial {k : Kind} {S D : T4} {r : Res} {os : List (List Byte)} (hA : Active cfg P) (hsf : c.sendFails = false) (A : Arrives4 s0 a p) (I : Is4 s0.data k S D)
    (hr : pass4 cfg P s c x nexthop lim fails p a = .ok r) (ho : r.fate = .sent os) :
    Pool4.contains cfg.own s.pool4 k.proto D = true ∧ ∃ b ∈ bibs s k.proto, b ∈ bibs r.st k.proto ∧ ∃ a6, b.src4 = D ∧ rfc6052_4to6 P S.addr = some a6 ∧
      Gets6 x (min nexthop.toNat lim.toNat) s0.data k ⟨a6, k.port S.port b.src6.port⟩ b.src6 os ∧ (2 ≤ os.length ↔ Splits (min nexthop.toNat lim.toNat) s0.data) ∧
      ∀ o ∈ os, o.length ≤ nexthop.toNat ∧ (df4 s0.data = 0 → o.length ≤ lim.toNat) := by
  obtain ⟨-, -, V⟩ := Whole.view4_of A.accepted A.inside I
  obtain ⟨q, S', D', w, V6, h1, h2, h3⟩ := pass4_tables hA hsf V hr (fun e q => by rw [ho] at q; cases q)
  obtain ⟨hp, b, hb, hbd, hb', a6, ha, V6'⟩ := Nat64.translated46 hA.2 V h3 rfl
  rw [V6] at V6'
  simp only [Option.some.injEq, Prod.mk.injEq, true_and] at V6'
  obtain ⟨rfl, rfl⟩ := V6'
  obtain ⟨w', e1, -, -, -, e5⟩ := bytes46 (x := x) (nexthop := nexthop) (lim := lim) (S' := ⟨a6, k.port S.port b.src6.port⟩) (D' := b.src6) A I (by cases k <;> rfl)
  rw [h1] at e1
  cases e1
  rw [ho] at h2
  obtain ⟨g1, g2, g3⟩ := e5 os (leave_sent h2.symm).1
  exact ⟨hp, b, hb', hb, a6, hbd, ha, g1, g2, g3⟩

/-- **C90.** A conversation that an IPv6 node starts, and answers of any size: as long as the session is listed, whatever bytes arrive the other way and may be split or fit
leave to the node, at the address and port in `s0`, from the address and port which `s0` was sent to; whatever may not be split and does not fit is answered with an error. -/
theorem answered_partial {segleft : Option Nat} {fh : Option Nat} {l n : Nat} {k : Kind} {S D : T6} {r : Whole.Res} {o : List Byte} (hs : Reach s) (hA : Active cfg P) (A : Arrives6 s0 a p)
    (I : Is6 s0.data fh l n k S D) (hr : pass6 cfg P s c x segleft p a = .ok r) (ho : r.fate = .sent o) :
    ∃ (b : Bib.BibKey) (d : T4) (y : Addr6), Is4 o k b.src4 d ∧ b.src6 = S ∧ (y = D.addr ↔ Rfc6052Spec.Canonical P.len D.addr) ∧ rfc6052_6to4 P y = rfc6052_6to4 P D.addr ∧
      ∀ cfg' s' c' x' nexthop' lim' s0' a' p' k', Reach s' → Active cfg' P → Smooth c' → Arrives4 s0' a' p' → Is4 s0'.data k' d b.src4 → k'.proto = k.proto →
        SessKey.mk b d ∈ sessions s' k.proto → Pool4.contains cfg'.own s'.pool4 k.proto b.src4 = true → (k.proto = .TCP → Answerable ((s'.tables .TCP).info ⟨b, d⟩)) →
        x'.route = false → 2 ≤ ttl4 s0'.data → 1280 ≤ min nexthop'.toNat lim'.toNat →
        ∃ r', pass4 cfg' P s' c' x' nexthop' lim' (fun _ => false) p' a' = .ok r' ∧ (TooBig nexthop'.toNat s0'.data → r'.fate = .tooBig (nexthop'.toNat - 20)) ∧
          (¬ TooBig nexthop'.toNat s0'.data → ∃ os, r'.fate = .sent os ∧ Gets6 x' (min nexthop'.toNat lim'.toNat) s0'.data k' ⟨y, D.port⟩ S os ∧
            (2 ≤ os.length ↔ Splits (min nexthop'.toNat lim'.toNat) s0'.data)) := by
  obtain ⟨rfl, rfl, -, V⟩ := Whole.view6_of A.accepted A.inside I
  obtain ⟨b0, hb0, a4, q, h1, h2, h3, h4, h5⟩ := Whole.pass6_sent hs hA V hr ho
  obtain ⟨b', d, V4, hbs, y, hy1, hy2, hback⟩ := Nat64.roundtrip64 hs hA.2 V (h5 none) rfl
  rw [h4] at V4
  simp only [Option.some.injEq, Prod.mk.injEq, true_and] at V4
  obtain ⟨v1, v2⟩ := V4
  have hS : Is4 o k b'.src4 d := by
    rw [← v1, ← v2]
    obtain ⟨w, e1, -, e3⟩ := Whole.bytes64 (segleft := segleft) A I (assign x b0.src4.port (k.port D.port b0.src4.port)) b0.src4.addr a4
    rw [h3] at e1
    cases e1
    have := Whole.is4_of A I (e3 o rfl)
    have e : k.port (k.port D.port b0.src4.port) b0.src4.port = k.port D.port b0.src4.port := by cases k <;> rfl
    rw [e] at this
    exact this
  refine ⟨b', d, y, hS, hbs, hy1, hy2, ?_⟩
  intro cfg' s' c' x' nexthop' lim' s0' a' p' k' hs' hA' hc' A' I' hk hse hp hans hro htt hmt
  obtain ⟨-, -, V'⟩ := Whole.view4_of A'.accepted A'.inside I'
  obtain ⟨r0, p0, hr0, ho0, V6⟩ := hback cfg' s' c' (pkt4 a') k' hs' hA' hc' V' hk hse hp hans
  obtain ⟨-, hpass⟩ := pass4_core (x := x') (p := p') (nexthop := nexthop') (lim := lim') (fails := fun _ => false) hA' V' hr0 ho0 V6
  have e : k'.port S.port D.port = S.port := by
    have sg := I.seg
    cases k <;> cases k' <;> first | rfl | exact sg.2.2.2 | exact absurd hk (by simp [Kind.proto])
  obtain ⟨w, e1, e2, e3, e4, e5⟩ := bytes46 (x := x') (nexthop := nexthop') (lim := lim') (S' := ⟨y, D.port⟩) (D' := S) A' I' e
  refine ⟨_, hpass w e1, ?_, ?_⟩
  · intro hb
    have : w = .tooBig _ := (e3 _).2 ⟨hmt, hb, rfl⟩
    rw [this]
    rfl
  · intro hb
    obtain ⟨os, hw⟩ := e4.2 ⟨hmt, hb, hro, htt⟩
    obtain ⟨g1, g2, -⟩ := e5 os hw
    exact ⟨os, leave_ok hw (fun _ _ => rfl), g1, g2⟩

end Jool.WholeAny
