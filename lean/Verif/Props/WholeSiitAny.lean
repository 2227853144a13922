import Verif.Model.WholeSiitAny
import Verif.Props.WholeAny
import Verif.Props.WholeSiit
import Verif.Props.WholeSiitEx
/-
C90, SIIT: IPv4 packets of any size, from the bytes that arrive to the bytes that leave.
-/
namespace Jool.WholeSiitSpec
open Jool.Pkt (Byte)
open Jool.WireSpec
open Jool.WholeSpec (TooBig Splits)
open Jool.Siit (Res)
open Jool.WholeSiit (Env siit)
open Jool.WholeSiitAny (stopped)

/-- The packet `d`, translated for these addresses: one packet, or pieces. -/
inductive Out46 (x : Wire.Ctx) (mpl : Nat) (s6 d6 : BitVec 128) (d : List Byte) : List (List Byte) → Prop
  | whole (o) : ¬ Splits mpl d → Sent46 x s6 d6 d o → Out46 x mpl s6 d6 d [o]
  | split (os) : Splits mpl d → Split46 x s6 d6 mpl d os → Out46 x mpl s6 d6 d os

/-- What becomes of a packet `d` that is not an error and may have any size. `addr`: the verdicts about its addresses. -/
inductive Any (e : Env Addr6) (addr : Res Addr6 → Prop) (x : Wire.Ctx) (nexthop lim : Nat) (fails : Nat → Bool) (d : List Byte) : WholeSiitAny.Fate → Prop
  | kernel (st) : addr (.untranslatable st) → Any e addr x nexthop lim fails d .untranslatable
  | type (src dst h) : addr (.cont src dst h) → ¬ Typed46 d → Any e addr x nexthop lim fails d .drop
  | fail (src dst h f) : addr (.cont src dst h) → Typed46 d → e.fail = some f → Any e addr x nexthop lim fails d (stopped f)
  | anonymous (src dst h) : addr (.cont src dst h) → Typed46 d → e.fail = none → (∀ src', ¬ From46 e false src src') → Any e addr x nexthop lim fails d .drop
  | badMtu (src dst h src') : addr (.cont src dst h) → Typed46 d → e.fail = none → From46 e false src src' → min nexthop lim < 1280 → Any e addr x nexthop lim fails d .badMtu
  | tooBig (src dst h src') : addr (.cont src dst h) → Typed46 d → e.fail = none → From46 e false src src' → 1280 ≤ min nexthop lim → TooBig nexthop d →
      Any e addr x nexthop lim fails d (.tooBig (nexthop - 20))
  | lost (src dst h src') : addr (.cont src dst h) → Typed46 d → e.fail = none → From46 e false src src' → 1280 ≤ min nexthop lim → ¬ TooBig nexthop d → ¬ Leaves46 x d →
      Any e addr x nexthop lim fails d .drop
  | sent (src dst h src' os) : addr (.cont src dst h) → Typed46 d → e.fail = none → From46 e false src src' → 1280 ≤ min nexthop lim → ¬ TooBig nexthop d → Leaves46 x d →
      Out46 x (min nexthop lim) src' dst d os → (∀ o ∈ os, o.length ≤ nexthop) → (∀ j < os.length, fails j = false) → Any e addr x nexthop lim fails d (.sent os)
  | broken (src dst h src' os j) : addr (.cont src dst h) → Typed46 d → e.fail = none → From46 e false src src' → 1280 ≤ min nexthop lim → ¬ TooBig nexthop d → Leaves46 x d →
      Out46 x (min nexthop lim) src' dst d os → j < os.length → fails j = true → (∀ j' < j, fails j' = false) → Any e addr x nexthop lim fails d (.broken (os.take j))

end Jool.WholeSiitSpec

namespace Jool.WholeSiitAny
open Jool.Pkt (Byte L4 Meta Acc at8)
open Jool.Siit
open Jool.Eam (Entry)
open Jool.WireSpec
open Jool.WholeSpec (TooBig Splits size6)
open Jool.WholeSiitSpec
open Jool.WholeSiit (Env flow46 from46 siit siitErr typed46_iff view4_plain from46_some from46_none after typed)

set_option linter.unusedVariables false

variable {s : Inst} {M : List Entry} {x : Wire.Ctx} {y : Wire.ErrCtx} {flag : Bool} {s0 : Pkt.Skb} {a : Acc} {p : Build.P} {i : Meta} {fails : Nat → Bool}

theorem hand_cases (os : List (List Byte)) : (hand fails os = .sent os ∧ ∀ j < os.length, fails j = false) ∨
    ∃ j, j < os.length ∧ hand fails os = .broken (os.take j) ∧ fails j = true ∧ ∀ j' < j, fails j' = false := by
  unfold hand
  cases e : (WholeAny.handOver fails 0 os).2 with
  | true =>
    obtain ⟨h1, h2⟩ := WholeAny.handOver_ok e
    rw [if_pos rfl, h1]
    exact .inl ⟨rfl, fun j hj => by have := h2 j hj; rw [Nat.zero_add] at this; exact this⟩
  | false =>
    obtain ⟨j, h1, h2, h3, h4⟩ := WholeAny.handOver_fails e
    rw [if_neg (by simp), h2]
    exact .inr ⟨j, h1, rfl, by rw [Nat.zero_add] at h3; exact h3, fun j' hj => by have := h4 j' hj; rw [Nat.zero_add] at this; exact this⟩

theorem umin_min (n l : BitVec 32) : (Mtu.umin n l).toNat = min n.toNat l.toNat := by
  unfold Mtu.umin
  split
  · next h => omega
  · next h => omega

/-- **C90.** An IPv4 packet of any size that is not an error, through a SIIT. -/
theorem any46_partial (e : Env Addr6) (nexthop lim : BitVec 32) (rnd rnd2 : Nat → BitVec 8) (h : Ok s M) (A : Arrives4 s0 a p) (hi : a.inner = none) (h58 : proto4 s0.data ≠ 58)
    (htcp : off4 s0.data = 0 → proto4 s0.data = 6 → 5 ≤ field s0.data (l4 s0.data + 12) 1 / 16) (hoff : off4 s0.data * 8 + (s0.data.length - l4 s0.data) ≤ 65527) :
    ∃ f, pass46 s x y e nexthop lim fails flag rnd rnd2 p a = .ok f ∧
      Any e (Packet46 s M (plain4 s0.data) flag rnd) (siit x flag) nexthop.toNat lim.toNat fails s0.data f := by
  obtain ⟨r, k1, k2⟩ := addrs46_spec h (plain4 s0.data) flag rnd
  have hT := typed46_iff A
  unfold pass46 flow46
  rw [view4_plain A hi, k1, hi]
  dsimp only [Outcome.bind]
  cases r with
  | untranslatable st => exact ⟨_, rfl, .kernel st k2⟩
  | drop st => cases k2
  | cont src dst h' =>
    dsimp only [after]
    by_cases q : typed Icmp.xlat46Type a = true
    · rw [if_pos q]
      dsimp only
      have t := hT.1 q
      cases hf : e.fail with
      | some f => exact ⟨stopped f, rfl, .fail _ _ _ f k2 t hf⟩
      | none =>
        dsimp only [Option.isSome_none]
        cases hs : from46 e false src with
        | none => exact ⟨_, rfl, .anonymous _ _ _ k2 t hf (from46_none hs)⟩
        | some src' =>
          have hs' := from46_some.1 hs
          dsimp only
          obtain ⟨r, w1, w2, w3, w4, w5⟩ := Wire.forward46_partial (x := siit x flag) src' dst nexthop lim A.accepted A.inside A.held A.words htcp hi A.size hoff h58 rfl rfl
          rw [w1]
          dsimp only [Outcome.map]
          have big : ∀ {m}, 1280 ≤ min nexthop.toNat lim.toNat → r ≠ .tooBig m → m = nexthop.toNat - 20 → ¬ TooBig nexthop.toNat s0.data := by
            intro m hm hr hmm hb
            exact hr ((w3 m).2 ⟨hm, hb.1, hb.2, hmm⟩)
          cases r with
          | badMtu => exact ⟨_, rfl, .badMtu _ _ _ _ k2 t hf hs' (w2.1 rfl)⟩
          | tooBig m =>
            obtain ⟨g1, g2, g3, g4⟩ := (w3 m).1 rfl
            subst g4
            exact ⟨_, rfl, .tooBig _ _ _ _ k2 t hf hs' g1 ⟨g2, g3⟩⟩
          | dropped =>
            have g : 1280 ≤ min nexthop.toNat lim.toNat := Nat.not_lt.1 (fun q => by cases w2.2 q)
            have b := big (m := nexthop.toNat - 20) g (by simp) rfl
            refine ⟨_, rfl, .lost _ _ _ _ k2 t hf hs' g b (fun L => ?_)⟩
            obtain ⟨os, ho⟩ := w4.2 ⟨g, b, L⟩
            cases ho
          | sent os =>
            obtain ⟨g, b, L⟩ := w4.1 ⟨os, rfl⟩
            obtain ⟨v1, v2, v3⟩ := w5 os rfl
            have O : Out46 (siit x flag) (min nexthop.toNat lim.toNat) src' dst s0.data os := by
              by_cases sp : Splits (min nexthop.toNat lim.toNat) s0.data
              · exact .split _ sp (v3 sp.1 sp.2)
              · have d2 : df4 s0.data < 2 := Nat.mod_lt _ (by omega)
                obtain ⟨o, ho, S⟩ := v2 (by
                  by_cases hd : df4 s0.data = 1
                  · exact .inl hd
                  · exact .inr (Nat.not_lt.1 (fun q => sp ⟨by omega, q⟩)))
                subst ho
                exact .whole _ sp S
            rcases hand_cases (fails := fails) os with ⟨c1, c2⟩ | ⟨j, c1, c2, c3, c4⟩
            · exact ⟨_, congrArg _ c1, .sent _ _ _ _ os k2 t hf hs' g b L O (fun o ho => (v1 o ho).1) c2⟩
            · exact ⟨_, congrArg _ c2, .broken _ _ _ _ os j k2 t hf hs' g b L O c1 c3 c4⟩
    · rw [if_neg q]
      exact ⟨_, rfl, .type _ _ _ k2 (fun t => q (hT.2 t))⟩

theorem flow_inside {src dst h' rnd rnd2} (hi : a.inner = some i) : flow46 s flag rnd rnd2 a ≠ .ok (.go src dst none h') := by
  intro q
  unfold flow46 at q
  rw [hi] at q
  cases e : addrs46 s (WholeSiit.view4 a) flag rnd with
  | ub u => rw [e] at q; cases q
  | ok r =>
    rw [e] at q
    dsimp only [Outcome.bind] at q
    cases r with
    | untranslatable _ => cases q
    | drop _ => cases q
    | cont s1 d1 h1 =>
      dsimp only [after] at q
      split at q
      · cases e2 : addrs46 s (WholeSiit.inView4 a i) h1 rnd2 with
        | ub u => rw [e2] at q; cases q
        | ok r2 =>
          rw [e2] at q
          dsimp only at q
          cases r2 <;> cases q
      · cases q

/-- **C90.** An ICMPv4 error never is too big: what becomes of it is what C82 says, unless the MTU is below 1280. -/
theorem error46_small (e : Env Addr6) (nexthop lim : BitVec 32) (rnd rnd2 : Nat → BitVec 8) (hi : a.inner = some i) {f : WholeSiit.Fate} (hm : 1280 ≤ min nexthop.toNat lim.toNat)
    (hs : e.sendFails = false) (hw : WholeSiit.pass46 s x y e flag rnd rnd2 p a = .ok f) :
    pass46 s x y e nexthop lim (fun _ => false) flag rnd rnd2 p a = .ok (stopped f) := by
  unfold WholeSiit.pass46 at hw
  unfold pass46
  cases hfl : flow46 s flag rnd rnd2 a with
  | ub u => rw [hfl] at hw; cases hw
  | ok fl =>
    rw [hfl] at hw
    dsimp only [Outcome.bind] at hw ⊢
    cases fl with
    | stop f0 => cases hw; rfl
    | go src dst inside h' =>
      dsimp only at hw ⊢
      cases he : e.fail with
      | some f0 => rw [he] at hw; cases hw; rfl
      | none =>
        rw [he] at hw
        dsimp only at hw ⊢
        cases hs' : from46 e a.inner.isSome src with
        | none => rw [hs'] at hw; cases hw; rfl
        | some src' =>
          rw [hs'] at hw
          dsimp only at hw ⊢
          cases inside with
          | none => exact absurd hfl (flow_inside hi)
          | some pr =>
            obtain ⟨is, id⟩ := pr
            rw [hi] at hw ⊢
            dsimp only at hw ⊢
            rw [umin_min, if_neg (by omega)]
            cases ht : Wire.translateErr46 (siit x flag) (siitErr y) src' dst is id p a i with
            | ub u => rw [ht] at hw; cases hw
            | ok w =>
              rw [ht] at hw
              dsimp only [Outcome.map] at hw ⊢
              injection hw with hw
              subst hw
              cases w with
              | none => rfl
              | some o =>
                rw [hs]
                rfl

variable {X6 Y6 : Addr6} {X4 Y4 : Addr4}

/-- **C90.** The answers of a conversation reach the IPv6 node whatever their size, unless they ask not to be split. -/
theorem come_any_partial {e : Env Addr6} (nexthop lim : BitVec 32) (rnd rnd2 : Nat → BitVec 8) (h : Ok s M) (hm : s.mode ≠ .simple) (P : Pair s M X6 X4) (Q : Pair s M Y6 Y4) (A : Arrives4 s0 a p)
    (hi : a.inner = none) (h58 : proto4 s0.data ≠ 58) (htcp : off4 s0.data = 0 → proto4 s0.data = 6 → 5 ≤ field s0.data (l4 s0.data + 12) 1 / 16)
    (hoff : off4 s0.data * 8 + (s0.data.length - l4 s0.data) ≤ 65527) (hsrc : BitVec.ofNat 32 (src4 s0.data) = Y4) (hdst : BitVec.ofNat 32 (dst4 s0.data) = X4)
    (hl : Leaves46 (siit x false) s0.data) (he : e.fail = none) (hmtu : 1280 ≤ min nexthop.toNat lim.toNat) :
    (TooBig nexthop.toNat s0.data → pass46 s x y e nexthop lim (fun _ => false) false rnd rnd2 p a = .ok (.tooBig (nexthop.toNat - 20))) ∧
    (¬ TooBig nexthop.toNat s0.data → ∃ os, pass46 s x y e nexthop lim (fun _ => false) false rnd rnd2 p a = .ok (.sent os) ∧ Out46 (siit x false) (min nexthop.toNat lim.toNat) Y6 X6 s0.data os ∧
      ∀ o ∈ os, o.length ≤ nexthop.toNat) := by
  obtain ⟨f, k1, k2⟩ := any46_partial (x := x) (y := y) (flag := false) (fails := fun _ => false) e nexthop lim rnd rnd2 h A hi h58 htcp hoff
  rw [k1]
  unfold plain4 at k2
  rw [hsrc, hdst] at k2
  have key := fun r => WholeSiit.pair_res46 (r := r) h hm Q P (outer := true) (hop := BitVec.ofNat 8 (ttl4 s0.data)) (rnd := rnd)
  cases k2 with
  | kernel st w => cases key _ w
  | type _ _ _ _ w => exact absurd (WholeSiit.typed_echo46 hl) w
  | fail _ _ _ _ _ _ w => rw [he] at w; cases w
  | anonymous src dst b w1 _ _ w4 =>
    cases key _ w1
    exact absurd (.inl ⟨Q.some6, rfl⟩) (w4 Y6)
  | badMtu _ _ _ _ _ _ _ _ w => exact absurd w (by omega)
  | tooBig _ _ _ _ _ _ _ _ _ w => exact ⟨fun _ => rfl, fun q => absurd w q⟩
  | lost _ _ _ _ _ _ _ _ _ _ w => exact absurd hl w
  | sent src dst b src' os w1 _ _ w4 _ w6 _ w8 w9 _ =>
    cases key _ w1
    rcases w4 with ⟨-, rfl⟩ | ⟨w4, -⟩
    · exact ⟨fun q => absurd q w6, fun _ => ⟨os, rfl, w8, w9⟩⟩
    · exact absurd w4 Q.some6
  | broken _ _ _ _ _ _ _ _ _ _ _ _ _ _ _ w _ => cases w

/-! ## A big answer, a big answer that must not be split, and a complaint -/

/-- From port 53 of 8.8.8.8 to port 5000 of 192.0.2.1: 1400 bytes. `flags`: DF is 64. -/
def exBig (flags : Byte) : Pkt.Skb :=
  ⟨[0x45#8, 0#8, 5#8, 0x94#8, 1#8, 2#8, flags, 0#8, 64#8, 17#8, 0#8, 0#8, 8#8, 8#8, 8#8, 8#8, 192#8, 0#8, 2#8, 1#8] ++
    ([0#8, 53#8, 19#8, 136#8, 5#8, 0x80#8, 7#8, 7#8] ++ List.replicate 1400 9#8), 1428⟩

open Jool.Build (Holds place place_holds got) in
open Jool.Wire (exCtx exErr) in
open Jool.WholeSiit (exPairs fine exX6 exY6) in
example : ∃ os, pass46 (exInst .off) exCtx exErr (fine _) 1500#32 1280#32 (fun _ => false) false (fun _ => 0#8) (fun _ => 0#8) (place (got (Pkt.init4 (exBig 0#8))) 16) (got (Pkt.init4 (exBig 0#8))) = .ok (.sent os) ∧
    Split46 (siit exCtx false) exY6 exX6 1280 (exBig 0#8).data os := by
  obtain ⟨M, h, P, Q⟩ := exPairs
  obtain ⟨os, k1, k2, -⟩ := (come_any_partial (x := exCtx) (y := exErr) (e := fine _) 1500#32 1280#32 (fun _ => 0#8) (fun _ => 0#8) h (by decide) P Q
    (s0 := exBig 0#8) (a := got (Pkt.init4 (exBig 0#8))) ⟨by decide +kernel, by decide +kernel, place_holds 16 (by decide +kernel), by decide +kernel, by decide +kernel⟩ (by decide +kernel) (by decide +kernel)
    (by decide +kernel) (by decide +kernel) (by decide +kernel) (by decide +kernel) ⟨rfl, fun _ => by decide +kernel, by decide +kernel, by decide +kernel⟩ rfl (by decide)).2
    (fun q => absurd q.1 (by decide +kernel))
  refine ⟨os, k1, ?_⟩
  cases k2 with
  | whole _ w _ => exact absurd ⟨by decide +kernel, by decide +kernel⟩ w
  | split _ _ w => exact w

open Jool.Build (Holds place place_holds got) in
open Jool.Wire (exCtx exErr) in
open Jool.WholeSiit (exPairs fine exX6 exY6) in
example : pass46 (exInst .off) exCtx exErr (fine _) 1400#32 1280#32 (fun _ => false) false (fun _ => 0#8) (fun _ => 0#8) (place (got (Pkt.init4 (exBig 64#8))) 16) (got (Pkt.init4 (exBig 64#8))) = .ok (.tooBig 1380) := by
  obtain ⟨M, h, P, Q⟩ := exPairs
  exact (come_any_partial (x := exCtx) (y := exErr) (e := fine _) 1400#32 1280#32 (fun _ => 0#8) (fun _ => 0#8) h (by decide) P Q
    (s0 := exBig 64#8) ⟨by decide +kernel, by decide +kernel, place_holds 16 (by decide +kernel), by decide +kernel, by decide +kernel⟩ (by decide +kernel) (by decide +kernel)
    (by decide +kernel) (by decide +kernel) (by decide +kernel) (by decide +kernel) ⟨rfl, fun _ => by decide +kernel, by decide +kernel, by decide +kernel⟩ rfl (by decide)).1
    ⟨by decide +kernel, by decide +kernel⟩

open Jool.Build (Holds place place_holds got) in
open Jool.Wire (exCtx exErr insideOf) in
open Jool.WholeSiit (exPairs fine exX6 exY6 exComplaint4) in
example : ∃ o, pass46 (exInst .off) exCtx exErr (fine _) 1500#32 1280#32 (fun _ => false) false (fun _ => 0#8) (fun _ => 0#8) (place (got (Pkt.init4 exComplaint4)) 16) (got (Pkt.init4 exComplaint4)) = .ok (.sent [o]) ∧
    ErrSent46 (siit exCtx false) (siitErr exErr) 0x0064ff9b000000000000000009090909#128 exX6 exX6 exY6 exComplaint4.data o := by
  obtain ⟨M, h, P, Q⟩ := exPairs
  obtain ⟨o, k1, k2⟩ := WholeSiit.complaint46_partial (s0 := exComplaint4) (a := got (Pkt.init4 exComplaint4)) (R6 := 0x0064ff9b000000000000000009090909#128) (i := insideOf (got (Pkt.init4 exComplaint4))) (x := exCtx) (y := exErr) (e := fine _) (fun _ => 0#8) (fun _ => 0#8) h (by decide) P Q
    ⟨by decide +kernel, by decide +kernel, place_holds 16 (by decide +kernel), by decide +kernel, by decide +kernel⟩ (by decide +kernel) (by decide +kernel)
    (by decide +kernel) (by decide +kernel) (by decide +kernel) (.inl ⟨.rfc6052 exPool, (siit46_spec h _ _ _ _).1 (by decide +kernel)⟩) (by decide) (by decide +kernel) (by decide +kernel) (by decide +kernel)
    ⟨rfl, fun _ => by decide +kernel, ⟨1, 0, (Icmp.icmp46_table _ _ _ _).1 (by decide +kernel)⟩, by decide +kernel, fun _ => by decide +kernel, by decide +kernel,
      by decide +kernel, by decide +kernel⟩ rfl rfl
  exact ⟨o, error46_small (i := insideOf (got (Pkt.init4 exComplaint4))) _ _ _ _ _ (by decide +kernel) (by decide) rfl k1, k2⟩

end Jool.WholeSiitAny
