import Verif.Props.WholeSiit
import Verif.Props.WireBack
import Verif.Props.SiitExample
import Verif.Props.WireErrEx
/-
C82, C83: conversations through a SIIT instance, byte by byte; hairpinning of EAM nodes, byte by byte.
-/
namespace Jool.WholeSiitSpec
open Jool.Pkt (Byte)
open Jool.Siit (Inst Spec64 Spec46)
open Jool.Eam (Entry)

/-- Two addresses that are translated into each other. -/
structure Pair (s : Inst) (M : List Entry) (a6 : Addr6) (a4 : Addr4) : Prop where
  to4 : ∃ m, Spec64 s M a6 true (.cont a4 m)
  to6 : ∃ m, Spec46 s M a4 true true (.cont a6 m)
  some6 : a6 ≠ 0#128
  some4 : a4 ≠ 0#32

end Jool.WholeSiitSpec

namespace Jool.WholeSiit
open Jool.Pkt (Byte L4 Meta Acc at8)
open Jool.Siit
open Jool.PrefixSpec
open Jool.Eam (Entry)
open Jool.WireSpec
open Jool.WholeSiitSpec
open Jool.Wire (fhOf)
open Jool.Build (Holds)

set_option linter.unusedVariables false

variable {s : Inst} {M : List Entry}

theorem unscreened64 {a : Addr6} {b : Addr4} {m : Method} (h : Spec64 s M a true (.cont b m)) (sc : Bool) : Spec64 s M a sc (.cont b m) := by
  cases h with
  | eam e _ h1 h2 h3 h4 h5 => exact .eam e b h1 h2 h3 h4 (fun _ => h5 rfl)
  | pool p _ h1 h2 h3 h4 h5 => exact .pool p b h1 h2 h3 h4 (fun _ => h5 rfl)

theorem unscreened46 {a : Addr4} {b : Addr6} {m : Method} {eam : Bool} (h : Spec46 s M a eam true (.cont b m)) (sc : Bool) : Spec46 s M a eam sc (.cont b m) := by
  cases h with
  | eam e _ h1 h2 h3 h4 h5 h6 => exact .eam e b (fun _ => h1 rfl) h2 h3 h4 h5 h6
  | pool p _ h1 h2 h3 h4 h5 => exact .pool p b (fun _ => h1 rfl) h2 h3 h4 h5

/-- Whoever is known under a pair is not known under an alias. -/
theorem straight {X6 : Addr6} {X4 : Addr4} {p : Prefix6} (P : Pair s M X6 X4) (h : Spec64 s M X6 sc (.cont X4 (.rfc6052 p))) : ¬ ∃ x ∈ M, Mem4 x.p4 X4 := by
  rintro ⟨x, hx, hm⟩
  obtain ⟨m, h6⟩ := P.to6
  cases h with
  | pool _ _ q1 q2 q3 q4 q5 =>
    cases h6 with
    | eam e _ w1 w2 w3 w4 w5 w6 => exact q2 e (best4_mem w3).1 w4
    | pool _ _ w1 w2 w3 w4 w5 => exact w2 rfl x hx hm

theorem pair_res64 {X6 Y6 : Addr6} {X4 Y4 : Addr4} (h : Ok s M) (P : Pair s M X6 X4) (Q : Pair s M Y6 Y4) {outer : Bool} {hop : BitVec 8} {rnd : BitVec 32} {r : Res Addr4}
    (k : Packet64 s M ⟨outer, false, X6, Y6, hop, 0#128⟩ false rnd r) : r = .cont X4 Y4 false := by
  obtain ⟨mx, hX⟩ := P.to4
  obtain ⟨my, hY⟩ := Q.to4
  cases k with
  | cont src dst ms md b k1 k2 k3 =>
    have e1 := spec64_unique h hY k1
    injection e1 with e1 e2
    subst e1 e2
    rcases k2 with k2 | ⟨k2, -⟩
    · have e3 := spec64_unique h hX k2
      injection e3 with e3 e4
      subst e3 e4
      have : b = false := by
        by_contra hb
        rcases k3.1 (by simpa using hb) with q | ⟨-, q⟩
        · simp at q
        · rcases q with ⟨-, -, ⟨p, q⟩, q'⟩ | ⟨-, ⟨p, q⟩, q'⟩
          · rw [q] at k1; exact straight Q k1 q'
          · rw [q] at k2; exact straight P k2 q'
      rw [this]
    · simp at k2
  | badDst r k1 k2 =>
    have := spec64_unique h hY k1
    subst this
    simp at k2
  | badSrc dst md r k1 k2 k3 =>
    have := spec64_unique h hX k2
    subst this
    simp at k3

theorem err_res64 {Y6 : Addr6} {R4 Y4 : Addr4} {R6 : Addr6} {mr : Method} (h : Ok s M) (Q : Pair s M Y6 Y4) {hop : BitVec 8} {rnd : BitVec 32} {r : Res Addr4}
    (hR : Source64 s M ⟨true, true, R6, Y6, hop, 0#128⟩ rnd R4 mr) (k : Packet64 s M ⟨true, true, R6, Y6, hop, 0#128⟩ false rnd r) : r = .cont R4 Y4 false := by
  obtain ⟨my, hY⟩ := Q.to4
  cases k with
  | cont src dst ms md b k1 k2 k3 =>
    have e1 := spec64_unique h hY k1
    injection e1 with e1 e2
    subst e1 e2
    have e3 : src = R4 := by
      rcases hR with hR | ⟨-, hR, -, hR'⟩ <;> rcases k2 with k2 | ⟨-, k2, -, k2'⟩
      · have := spec64_unique h k2 hR
        injection this
      · have := spec64_unique h k2 hR; cases this
      · have := spec64_unique h k2 hR; cases this
      · rw [k2', hR']
    subst e3
    have : b = false := by
      by_contra hb
      rcases k3.1 (by simpa using hb) with q | ⟨-, q⟩
      · simp at q
      · rcases q with ⟨-, q, -⟩ | ⟨q, -⟩ <;> simp at q
    rw [this]
  | badDst r k1 k2 =>
    have := spec64_unique h hY k1
    subst this
    simp at k2
  | badSrc dst md r k1 k2 k3 =>
    rcases hR with hR | ⟨-, hR, -, hR'⟩
    · have := spec64_unique h hR k2
      subst this
      simp at k3
    · have := spec64_unique h hR k2
      subst this
      simp at k3

theorem eams46 {v : View Addr4} (hm : s.mode ≠ .simple) : SrcEam s v false ∧ DstEam s v false := by
  unfold SrcEam DstEam
  simp [hm]

theorem pair_res46 {X6 Y6 : Addr6} {X4 Y4 : Addr4} (h : Ok s M) (hm : s.mode ≠ .simple) (P : Pair s M X6 X4) (Q : Pair s M Y6 Y4) {outer : Bool} {hop : BitVec 8}
    {rnd : Nat → BitVec 8} {r : Res Addr6} (k : Packet46 s M ⟨outer, false, X4, Y4, hop, 0#32⟩ false rnd r) : r = .cont X6 Y6 false := by
  obtain ⟨mx, hX⟩ := P.to6
  obtain ⟨my, hY⟩ := Q.to6
  cases k with
  | cont src dst md es ed k1 k2 k3 k4 =>
    rw [k2.2 (eams46 hm).2] at k3
    rw [k1.2 (eams46 hm).1] at k4
    have e1 := spec46_unique h hY k3
    injection e1 with e1 e2
    subst e1 e2
    rcases k4 with ⟨m, k4⟩ | ⟨k4, -⟩
    · have e3 := spec46_unique h hX k4
      injection e3 with e3 e4
      rw [e3]
    · simp at k4
  | badDst ed r k1 k2 k3 =>
    rw [k1.2 (eams46 hm).2] at k2
    have := spec46_unique h hY k2
    subst this
    simp at k3
  | badSrc dst md es ed r k1 k2 k3 k4 k5 =>
    rw [k1.2 (eams46 hm).1] at k4
    have := spec46_unique h hX k4
    subst this
    simp at k5

theorem err_res46 {Y6 : Addr6} {R4 Y4 z : Addr4} {R6 : Addr6} (h : Ok s M) (hm : s.mode ≠ .simple) (Q : Pair s M Y6 Y4) {hop : BitVec 8} {rnd : Nat → BitVec 8} {r : Res Addr6}
    (hR : Source46 s M ⟨true, true, R4, Y4, hop, z⟩ true rnd R6) (k : Packet46 s M ⟨true, true, R4, Y4, hop, z⟩ false rnd r) : r = .cont R6 Y6 false := by
  obtain ⟨my, hY⟩ := Q.to6
  cases k with
  | cont src dst md es ed k1 k2 k3 k4 =>
    rw [k2.2 (eams46 hm).2] at k3
    rw [k1.2 (eams46 hm).1] at k4
    have e1 := spec46_unique h hY k3
    injection e1 with e1 e2
    subst e1 e2
    have e3 : src = R6 := by
      rcases hR with ⟨m, hR⟩ | ⟨-, hR, hR'⟩ <;> rcases k4 with ⟨m', k4⟩ | ⟨-, k4, k4'⟩
      · have := spec46_unique h k4 hR
        injection this
      · have := spec46_unique h k4 hR; cases this
      · have := spec46_unique h k4 hR; cases this
      · rw [k4', hR']
    rw [e3]
  | badDst ed r k1 k2 k3 =>
    rw [k1.2 (eams46 hm).2] at k2
    have := spec46_unique h hY k2
    subst this
    simp at k3
  | badSrc dst md es ed r k1 k2 k3 k4 k5 =>
    rw [k1.2 (eams46 hm).1] at k4
    rcases hR with ⟨m, hR⟩ | ⟨-, hR, hR'⟩
    · have := spec46_unique h hR k4
      subst this
      simp at k5
    · have := spec46_unique h hR k4
      subst this
      simp at k5

variable {x : Wire.Ctx} {y : Wire.ErrCtx} {s0 : Pkt.Skb} {a : Acc} {p : Build.P} {i : Meta} {X6 Y6 R6 : Addr6} {X4 Y4 R4 : Addr4}

theorem typed_echo64 {d : List Byte} {l n : Nat} {seg : Option Nat} (L : Leaves64 seg d l n) : Typed64 d l n := by
  intro q
  unfold byte
  rcases L.echo q with e | e <;> rw [e]
  · exact ⟨_, _, .echoRequest _⟩
  · exact ⟨_, _, .echoReply _⟩

theorem typed_echo46 {d : List Byte} {x : Wire.Ctx} (L : Leaves46 x d) : Typed46 d := by
  intro q
  unfold byte
  rcases L.echo q with e | e <;> rw [e]
  · exact ⟨_, _, .echoRequest _⟩
  · exact ⟨_, _, .echoReply _⟩

/-- **C82.** What the IPv6 node sends to the other one leaves from its IPv4 address to the other's. -/
theorem go_partial {e : Env Addr4} (rnd rnd2 : BitVec 32) (sel2 : BitVec 16) {L n : Nat} {fh : Option Nat} (h : Ok s M) (P : Pair s M X6 X4) (Q : Pair s M Y6 Y4)
    (A : Arrives6 s0 a p) (hi : a.inner = none) (hH : Headers s0.data 40 (next6 s0.data) fh L n) (h1 : n ≠ 1) (hlen : s0.data.length - L ≤ 65515)
    (htcp : n = 6 → offAt s0.data fh = 0 → 5 ≤ field s0.data (L + 12) 1 / 16)
    (hsrc : BitVec.ofNat 128 (src6 s0.data) = X6) (hdst : BitVec.ofNat 128 (dst6 s0.data) = Y6) (hl : Leaves64 none s0.data L n) (he : e.fail = none) (hs : e.sendFails = false) :
    ∃ o, pass64 s x y e rnd rnd2 sel2 none p a = .ok (.sent o) ∧ Sent64 (siit x false) X4 Y4 s0.data fh L n o := by
  obtain ⟨f, k1, k2⟩ := plain64_partial (x := x) (y := y) e rnd rnd2 sel2 none h A hi hH h1 hlen htcp
  unfold WholeSiitSpec.view6 at k2
  rw [hsrc, hdst] at k2
  have key := fun r => pair_res64 (r := r) h P Q (outer := true) (hop := BitVec.ofNat 8 (hop6 s0.data)) (rnd := rnd)
  cases k2 with
  | kernel st w => cases key _ w
  | type _ _ _ _ w => exact absurd (typed_echo64 hl) w
  | fail _ _ _ _ _ _ w => rw [he] at w; cases w
  | anonymous src dst b w1 _ _ w4 =>
    cases key _ w1
    exact absurd (.inl ⟨P.some4, rfl⟩) (w4 X4)
  | lost _ _ _ _ _ _ _ _ w =>
    rcases w with w | w
    · exact absurd hl w
    · rw [hs] at w; cases w.2
  | hairpin _ _ _ _ o w1 _ _ _ _ w6 _ =>
    cases key _ w1
    cases w6
  | sent src dst b src' o w1 _ _ w4 _ _ _ w8 =>
    cases key _ w1
    rcases w4 with ⟨-, rfl⟩ | ⟨w4, -⟩
    · exact ⟨o, k1, w8⟩
    · exact absurd w4 P.some4

/-- **C82.** What the IPv4 node answers leaves from the address that the IPv6 node sent to. -/
theorem come_partial {e : Env Addr6} (rnd rnd2 : Nat → BitVec 8) (h : Ok s M) (hm : s.mode ≠ .simple) (P : Pair s M X6 X4) (Q : Pair s M Y6 Y4) (A : Arrives4 s0 a p) (hi : a.inner = none)
    (h58 : proto4 s0.data ≠ 58) (htcp : off4 s0.data = 0 → proto4 s0.data = 6 → 5 ≤ field s0.data (l4 s0.data + 12) 1 / 16)
    (hsrc : BitVec.ofNat 32 (src4 s0.data) = Y4) (hdst : BitVec.ofNat 32 (dst4 s0.data) = X4) (hl : Leaves46 (siit x false) s0.data) (he : e.fail = none) (hs : e.sendFails = false) :
    ∃ o, pass46 s x y e false rnd rnd2 p a = .ok (.sent o) ∧ Sent46 (siit x false) Y6 X6 s0.data o := by
  obtain ⟨f, k1, k2⟩ := plain46_partial (x := x) (y := y) (flag := false) e rnd rnd2 h A hi h58 htcp
  unfold plain4 at k2
  rw [hsrc, hdst] at k2
  have key := fun r => pair_res46 (r := r) h hm Q P (outer := true) (hop := BitVec.ofNat 8 (ttl4 s0.data)) (rnd := rnd)
  cases k2 with
  | kernel st w => cases key _ w
  | type _ _ _ _ w => exact absurd (typed_echo46 hl) w
  | fail _ _ _ _ _ _ w => rw [he] at w; cases w
  | anonymous src dst b w1 _ _ w4 =>
    cases key _ w1
    exact absurd (.inl ⟨Q.some6, rfl⟩) (w4 Y6)
  | lost _ _ _ _ _ _ _ _ w =>
    rcases w with w | w
    · exact absurd hl w
    · rw [hs] at w; cases w.2
  | hairpin _ _ _ _ o w1 _ _ _ _ w6 _ => cases w6
  | sent src dst b src' o w1 _ _ w4 _ _ _ w8 =>
    cases key _ w1
    rcases w4 with ⟨-, rfl⟩ | ⟨w4, -⟩
    · exact ⟨o, k1, w8⟩
    · exact absurd w4 Q.some6

/-- **C82.** If something in the IPv4 network complains about a packet of the conversation, the IPv6 node gets to see the addresses that it had used. `R6`: who complains, or what
stands in for it (RFC 6791). -/
theorem complaint46_partial {e : Env Addr6} (rnd rnd2 : Nat → BitVec 8) (h : Ok s M) (hm : s.mode ≠ .simple) (P : Pair s M X6 X4) (Q : Pair s M Y6 Y4) (A : Arrives4 s0 a p)
    (hi : a.inner = some i) (h58 : proto4 (s0.data.drop (l4 s0.data + 8)) ≠ 58)
    (htcp : proto4 (s0.data.drop (l4 s0.data + 8)) = 6 → 5 ≤ field (s0.data.drop (l4 s0.data + 8)) (l4 (s0.data.drop (l4 s0.data + 8)) + 12) 1 / 16)
    (hnest : proto4 (s0.data.drop (l4 s0.data + 8)) = 1 → field (s0.data.drop (l4 s0.data + 8)) (l4 (s0.data.drop (l4 s0.data + 8))) 1 ∉ [3, 4, 5, 11, 12])
    (hext : field s0.data (l4 s0.data + 5) 1 ≠ 0 → l4 (s0.data.drop (l4 s0.data + 8)) ≤ field s0.data (l4 s0.data + 5) 1 * 4 + l6 (s0.data.drop (l4 s0.data + 8)))
    (hR : Source46 s M (error4 s0.data) true rnd R6) (hR0 : R6 ≠ 0#128) (hdst : BitVec.ofNat 32 (dst4 s0.data) = X4)
    (hisrc : BitVec.ofNat 32 (src4 (s0.data.drop (l4 s0.data + 8))) = X4) (hidst : BitVec.ofNat 32 (dst4 (s0.data.drop (l4 s0.data + 8))) = Y4)
    (hl : ErrLeaves46 (siit x false) s0.data) (he : e.fail = none) (hs : e.sendFails = false) :
    ∃ o, pass46 s x y e false rnd rnd2 p a = .ok (.sent o) ∧ ErrSent46 (siit x false) (siitErr y) R6 X6 X6 Y6 s0.data o := by
  obtain ⟨f, k1, k2⟩ := error46_partial (x := x) (y := y) (flag := false) e rnd rnd2 h A hi h58 htcp hnest hext
  unfold error4 at k2 hR
  unfold about4 at k2
  rw [hdst] at k2 hR
  rw [hisrc, hidst] at k2
  rw [hidst] at hR
  have key := fun r => err_res46 (r := r) h hm P hR
  have inn := fun r => pair_res46 (r := r) h hm P Q (outer := false) (hop := BitVec.ofNat 8 (ttl4 (s0.data.drop (l4 s0.data + 8)))) (rnd := rnd2)
  cases k2 with
  | kernel st w => cases key _ w
  | type _ _ _ _ w => exact absurd (fun _ => hl.type) w
  | inside _ _ b st w1 _ w2 =>
    cases key _ w1
    cases inn _ w2
  | fail _ _ _ _ _ _ _ _ _ _ w => rw [he] at w; cases w
  | anonymous src dst b _ _ _ w1 _ _ _ w4 =>
    cases key _ w1
    exact absurd (.inl ⟨hR0, rfl⟩) (w4 R6)
  | lost _ _ _ _ _ _ _ _ _ _ _ _ w =>
    rcases w with w | w
    · exact absurd hl w
    · rw [hs] at w; cases w.2
  | hairpin _ _ _ _ _ _ _ o _ _ _ _ _ _ w6 _ => cases w6
  | sent src dst b isrc idst b' src' o w1 _ w2 _ w4 _ _ _ w8 =>
    cases key _ w1
    cases inn _ w2
    rcases w4 with ⟨-, rfl⟩ | ⟨w4, -⟩
    · exact ⟨o, k1, w8⟩
    · exact absurd w4 hR0

/-- **C82.** And the other way around. -/
theorem complaint64_partial {e : Env Addr4} (rnd rnd2 : BitVec 32) (sel2 : BitVec 16) {L il n : Nat} {fh : Option Nat} (h : Ok s M) (P : Pair s M X6 X4) (Q : Pair s M Y6 Y4)
    (A : Arrives6 s0 a p) (hi : a.inner = some i) (hlen : s0.data.length < 65536) (hH : Headers s0.data 40 (next6 s0.data) none L 58)
    (hI : Headers (s0.data.drop (L + 8)) 40 (next6 (s0.data.drop (L + 8))) fh il n) (h1 : n ≠ 1) (htcp : n = 6 → 5 ≤ field (s0.data.drop (L + 8)) (il + 12) 1 / 16)
    (hext : ext6 (byte s0.data L) = true → field s0.data (L + 4) 1 ≠ 0 → il ≤ field s0.data (L + 4) 1 * 8 + 20) {mr : Method}
    (hR : Source64 s M (WholeSiitSpec.view6 true true s0.data) rnd R4 mr) (hR0 : R4 ≠ 0#32) (hdst : BitVec.ofNat 128 (dst6 s0.data) = Y6)
    (hisrc : BitVec.ofNat 128 (src6 (s0.data.drop (L + 8))) = Y6) (hidst : BitVec.ofNat 128 (dst6 (s0.data.drop (L + 8))) = X6)
    (hl : ErrLeaves64 (siit x false) none s0.data L il n) (he : e.fail = none) (hs : e.sendFails = false) :
    ∃ o, pass64 s x y e rnd rnd2 sel2 none p a = .ok (.sent o) ∧ ErrSent64 (siit x false) (siitErr y) R4 Y4 Y4 X4 s0.data L fh il n o := by
  obtain ⟨f, k1, k2⟩ := error64_partial (x := x) (y := y) e rnd rnd2 sel2 none h A hi hlen hH hI h1 htcp hext
  unfold WholeSiitSpec.view6 at k2 hR
  rw [hdst] at k2 hR
  rw [hisrc, hidst] at k2
  have key := fun r => err_res64 (r := r) h Q hR
  have inn := fun r => pair_res64 (r := r) h Q P (outer := false) (hop := BitVec.ofNat 8 (hop6 (s0.data.drop (L + 8)))) (rnd := rnd2)
  cases k2 with
  | kernel st w => cases key _ w
  | type _ _ _ _ w => exact absurd (fun _ => hl.type) w
  | inside _ _ b st w1 _ w2 =>
    cases key _ w1
    cases inn _ w2
  | fail _ _ _ _ _ _ _ _ _ _ w => rw [he] at w; cases w
  | anonymous src dst b _ _ _ w1 _ _ _ w4 =>
    cases key _ w1
    exact absurd (.inl ⟨hR0, rfl⟩) (w4 R4)
  | lost _ _ _ _ _ _ _ _ _ _ _ _ w =>
    rcases w with w | w
    · exact absurd hl w
    · rw [hs] at w; cases w.2
  | hairpin _ _ _ _ _ _ _ o w1 _ w2 _ _ _ w6 _ =>
    cases key _ w1
    cases inn _ w2
    cases w6
  | sent src dst b isrc idst b' src' o w1 _ w2 _ w4 _ _ _ w8 =>
    cases key _ w1
    cases inn _ w2
    rcases w4 with ⟨-, rfl⟩ | ⟨w4, -⟩
    · exact ⟨o, k1, w8⟩
    · exact absurd w4 hR0

/-! ## Hairpinning -/

theorem hairpin64_res {pp : Prefix6} (h : Ok s M) (hp : s.pool6 = some pp) (hm : s.mode = .intrinsic) (X Y : Node s M pp) {hop : BitVec 8} {rnd : BitVec 32} {r : Res Addr4}
    (k : Packet64 s M ⟨true, false, X.a6, Y.face, hop, 0#128⟩ false rnd r) : r = .cont X.a4 Y.a4 true := by
  have hX := X.to4
  have hY := Y.faceTo4 h hp true
  cases k with
  | cont src dst ms md b k1 k2 k3 =>
    have e1 := spec64_unique h hY k1
    injection e1 with e1 e2
    subst e1 e2
    rcases k2 with k2 | ⟨k2, -⟩
    · have e3 := spec64_unique h hX k2
      injection e3 with e3 e4
      subst e3 e4
      rw [k3.2 (.inr ⟨hm, .inl ⟨rfl, rfl, ⟨pp, rfl⟩, Y.entry⟩⟩)]
    · simp at k2
  | badDst r k1 k2 =>
    have := spec64_unique h hY k1
    subst this
    simp at k2
  | badSrc dst md r k1 k2 k3 =>
    have := spec64_unique h hX k2
    subst this
    simp at k3

theorem hairpin46_res {pp : Prefix6} (h : Ok s M) (hp : s.pool6 = some pp) (X Y : Node s M pp) {hop : BitVec 8} {rnd : Nat → BitVec 8} {r : Res Addr6}
    (k : Packet46 s M ⟨true, false, X.a4, Y.a4, hop, 0#32⟩ true rnd r) : r = .cont X.face Y.a6 true := by
  have hX := X.toAlias hp true
  have hY := Y.to6
  have n1 : ¬ SrcEam s ⟨true, false, X.a4, Y.a4, hop, 0#32⟩ true := by unfold SrcEam; simp
  have n2 : DstEam s ⟨true, false, X.a4, Y.a4, hop, 0#32⟩ true := by unfold DstEam; simp
  have f1 : ∀ {es : Bool}, (es = true ↔ SrcEam s ⟨true, false, X.a4, Y.a4, hop, 0#32⟩ true) → es = false := by
    intro es q
    cases es
    · rfl
    · exact absurd (q.1 rfl) n1
  cases k with
  | cont src dst md es ed k1 k2 k3 k4 =>
    rw [k2.2 n2] at k3
    rw [f1 k1] at k4
    have e1 := spec46_unique h hY k3
    injection e1 with e1 e2
    subst e1 e2
    rcases k4 with ⟨m, k4⟩ | ⟨k4, -⟩
    · have e3 := spec46_unique h hX k4
      injection e3 with e3 e4
      rw [e3]
    · simp at k4
  | badDst ed r k1 k2 k3 =>
    rw [k1.2 n2] at k2
    have := spec46_unique h hY k2
    subst this
    simp at k3
  | badSrc dst md es ed r k1 k2 k3 k4 k5 =>
    rw [f1 k1] at k4
    have := spec46_unique h hX k4
    subst this
    simp at k5

/-- **C83.** Two EAM nodes behind the same translator, byte by byte. What `X` sends to the address that it knows of `Y` turns around, and arrives at `Y`, from the address that `Y`
knows of `X`: one hop less, same data, and a checksum that is correct if (and only if) it was. Missing: ICMP errors, splits, and packets whose checksum is still to be computed; the
second pass begins with what the validation would say of the packet that the first one wrote (mod/steps/handling_hairpinning_siit.c:25 takes it as it is). -/
theorem hairpin_partial {pp : Prefix6} {e : Env Addr4} (rnd rnd2 : BitVec 32) (sel2 : BitVec 16) {L n : Nat} {fh : Option Nat} (h : Ok s M) (hp : s.pool6 = some pp)
    (hm : s.mode = .intrinsic) (X Y : Node s M pp) (hX4 : X.a4 ≠ 0#32) (hXf : X.face ≠ 0#128)
    (A : Arrives6 s0 a p) (hi : a.inner = none) (hH : Headers s0.data 40 (next6 s0.data) fh L n) (h1 : n ≠ 1) (hlen : s0.data.length - L ≤ 65515)
    (htcp : n = 6 → offAt s0.data fh = 0 → 5 ≤ field s0.data (L + 12) 1 / 16)
    (hsrc : BitVec.ofNat 128 (src6 s0.data) = X.a6) (hdst : BitVec.ofNat 128 (dst6 s0.data) = Y.face) (hl : Leaves64 none s0.data L n) (he : e.fail = none) (hxs : x.sm ≠ .partial_) :
    ∃ m, pass64 s x y e rnd rnd2 sel2 none p a = .ok (.hairpin m) ∧ ∀ lin, lin ≤ m.length → ∃ a', Pkt.init4 ⟨m, lin⟩ = some a' ∧
      ∀ p' (e' : Env Addr6) x' y' rnd' rnd2', Holds p' a' → e'.fail = none → e'.sendFails = false → x'.route = false →
      ∃ o, pass46 s x' y' e' true rnd' rnd2' p' a' = .ok (.sent o) ∧
        Back6 1 (!x.cfg.dscp && !x.cfg.resetTos && !x'.cfg.resetTc) X.face Y.a6 s0.data fh L n o (l6 m) ∧
        (x'.sm ≠ .partial_ → Back6Sums X.face Y.a6 s0.data fh L n o (l6 m)) := by
  obtain ⟨hfh, hL, hn, hc, hfr, ht6⟩ := Wire.start64 A.accepted A.inside hH
  obtain ⟨f, k1, k2⟩ := plain64_partial (x := x) (y := y) e rnd rnd2 sel2 none h A hi hH h1 hlen htcp
  unfold WholeSiitSpec.view6 at k2
  rw [hsrc, hdst] at k2
  have key := fun r => hairpin64_res (r := r) h hp hm X Y (hop := BitVec.ofNat 8 (hop6 s0.data)) (rnd := rnd)
  have first : ∃ m, pass64 s x y e rnd rnd2 sel2 none p a = .ok (.hairpin m) ∧ Sent64 (siit x false) X.a4 Y.a4 s0.data fh L n m := by
    cases k2 with
    | kernel st w => cases key _ w
    | type _ _ _ _ w => exact absurd (typed_echo64 hl) w
    | fail _ _ _ _ _ _ w => rw [he] at w; cases w
    | anonymous src dst b w1 _ _ w4 =>
      cases key _ w1
      exact absurd (.inl ⟨hX4, rfl⟩) (w4 X.a4)
    | lost _ _ _ _ w1 _ _ _ w =>
      rcases w with w | w
      · exact absurd hl w
      · cases key _ w1
        cases w.1
    | hairpin src dst b src' o w1 _ _ w4 _ w6 w8 =>
      cases key _ w1
      rcases w4 with ⟨-, rfl⟩ | ⟨w4, -⟩
      · exact ⟨o, k1, w8⟩
      · exact absurd w4 hX4
    | sent src dst b src' o w1 _ _ w4 _ w6 _ w8 =>
      cases key _ w1
      cases w6
  obtain ⟨m, g1, S⟩ := first
  refine ⟨m, g1, ?_⟩
  intro lin hlin
  have hx : (siit x false).ports = none ∧ (siit x false).id = none := ⟨rfl, rfl⟩
  obtain ⟨a', ha', hi'⟩ := Wire.accepted64_partial A.accepted A.inside (by rw [← hfh, ← hL]; exact hH) (by rw [← hfh, ← hL]; exact S) h1 lin
  refine ⟨a', ha', ?_⟩
  intro p' e' x' y' rnd' rnd2' hp' he' hs' hr'
  obtain ⟨m1, m2, m3, m4⟩ := Wire.middle hn h1 hlen htcp hx S
  have A' : Arrives4 ⟨m, lin⟩ a' p' := ⟨ha', hlin, hp', m1, m2⟩
  obtain ⟨f', j1, j2⟩ := plain46_partial (x := x') (y := y') (flag := true) e' rnd' rnd2' h A' hi' m3 m4
  have hl' : Leaves46 (siit x' true) m := (Wire.middle_leaves h1 hfr hx hxs S).2 ⟨hr', by intro q; cases q⟩
  have as4 : BitVec.ofNat 32 (src4 m) = X.a4 := by rw [S.head.src, BitVec.ofNat_toNat, BitVec.setWidth_eq]
  have ad4 : BitVec.ofNat 32 (dst4 m) = Y.a4 := by rw [S.head.dst, BitVec.ofNat_toNat, BitVec.setWidth_eq]
  unfold plain4 at j2
  dsimp only at j2
  rw [as4, ad4] at j2
  have key' := fun r => hairpin46_res (r := r) h hp X Y (hop := BitVec.ofNat 8 (ttl4 m)) (rnd := rnd')
  cases j2 with
  | kernel st w => cases key' _ w
  | type _ _ _ _ w => exact absurd (typed_echo46 hl') w
  | fail _ _ _ _ _ _ w => rw [he'] at w; cases w
  | anonymous src dst b w1 _ _ w4 =>
    cases key' _ w1
    exact absurd (.inl ⟨hXf, rfl⟩) (w4 X.face)
  | lost _ _ _ _ _ _ _ _ w =>
    rcases w with w | w
    · exact absurd hl' w
    · rw [hs'] at w; cases w.2
  | hairpin _ _ _ _ o w1 _ _ _ _ w6 _ => cases w6
  | sent src dst b src' o w1 _ _ w4 _ _ _ w8 =>
    cases key' _ w1
    rcases w4 with ⟨-, rfl⟩ | ⟨w4, -⟩
    · refine ⟨o, j1, ?_, ?_⟩
      · exact Wire.back6 hn h1 hc hfr hx ⟨rfl, rfl⟩ S w8
      · intro q
        exact Wire.back6_sums (y := siit x' true) hc hfr hx hxs q S w8
    · exact absurd w4 hXf

end Jool.WholeSiit
