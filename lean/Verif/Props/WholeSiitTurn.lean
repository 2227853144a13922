import Verif.Model.WholeSiitTurn
import Verif.Props.WholeTurn
import Verif.Props.WholeSiitEx
/-
C83: hairpinning of EAM nodes, byte by byte, with both passes over the packet that is in memory.
-/
namespace Jool.WholeSiitTurn
open Jool.Pkt (Byte L4 Meta Acc at8 isFirst6 tcpLen)
open Jool.Csum (Summed)
open Jool.Siit
open Jool.Eam (Entry)
open Jool.WireSpec
open Jool.WholeSiitSpec
open Jool.Wire (fhOf)
open Jool.Build (Holds)
open Jool.WholeTurn (again)
open Jool.WholeSiit (Env siit siitErr pass46)

set_option linter.unusedVariables false

variable {s : Inst} {M : List Entry} {x : Wire.Ctx} {y : Wire.ErrCtx} {p : Build.P} {a : Acc} {s0 : Pkt.Skb}

/-- `leave`, if the checksum is there. -/
theorem leave_done {K : Csum.Kernel} {sm : Summed} {pr : L4} {n : Nat} {b : List Byte} (h : sm ≠ .partial_) : Wire.leave K sm pr n b = b := by
  unfold Wire.leave
  rw [if_neg h]

set_option maxHeartbeats 1000000 in
/-- **C83.** Between the two passes: fragments and other protocols, too. The packet in memory is the one that RFC 7915 describes, and what the translator remembers about it is what
it would find out if it had received the packet. -/
theorem middle {s4 d4 : BitVec 32} {segleft : Option Nat} {L n : Nat} {fh : Option Nat} (A : Arrives6 s0 a p) (hi : a.inner = none)
    (hH : Headers s0.data 40 (next6 s0.data) fh L n) (h1 : n ≠ 1) (hlen : s0.data.length - L ≤ 65515)
    (htcp : n = 6 → offAt s0.data fh = 0 → 5 ≤ field s0.data (L + 12) 1 / 16) (z : Wire.Ctx) (hz : z.sm ≠ .partial_) :
    ∃ w, Wire.build64 z s4 d4 segleft p a = .ok w ∧ Wire.translate64 z s4 d4 segleft p a = .ok (w.map (fun r => r.1.skb.bytes)) ∧
      ∀ q sm, w = some (q, sm) → sm ≠ .partial_ ∧ Pkt.init4 ⟨q.skb.bytes, q.skb.headlen⟩ = some (again q) ∧ q.skb.headlen ≤ q.skb.bytes.length ∧ Holds q (again q) ∧
        Sent64 z s4 d4 s0.data fh L n q.skb.bytes := by
  obtain ⟨h40, rfl, rfl, hp58, hp6, -⟩ := WholeSiit.headers64 A hH
  have AO := Pkt.init6_ok A.accepted
  have hD := AO.data
  obtain ⟨n', hH', -, hP⟩ := Wire.headers6 A.accepted (by rw [hD]; exact h40)
  rw [hD] at hH'
  obtain ⟨-, -, rfl⟩ := Wire.headers_unique hH hH'
  obtain ⟨-, hl6, hfh, hc, hfr⟩ := Wire.complete6 A.accepted A.inside hP
  obtain ⟨h40', hm1, hm2, -, hEnd⟩ := Pkt.summarize6_meta AO.sum
  have hP' := hP
  rw [Wire.proto6_toNat] at hP'
  have htl : n'.toNat = 6 → offAt s0.data (fhOf a.m) = 0 → tcpLen a.skb.data a.m.l4 = field s0.data (a.m.l4 + 12) 1 / 16 * 4 := by
    intro q hf
    obtain ⟨e1, e2⟩ := hc.tcp hf q
    rw [List.length_drop] at e1
    unfold tcpLen
    rw [hD, Wire.at8_field (by omega)]
  have htcp' : isFirst6 a.skb.data a.m = true → a.m.proto = L4.tcp → 20 ≤ tcpLen a.skb.data a.m.l4 := by
    intro hf q
    rw [hD, Wire.first6_off hfh] at hf
    have := htcp (hp6.mp q) hf
    rw [htl (hp6.mp q) hf]
    omega
  obtain ⟨n2, w0, c1, e0, -, sent⟩ := Wire.packet64_partial (x := z) s4 d4 segleft A.accepted A.inside A.held (fun q hf => htcp (hp6.mp q) hf) hi hlen
    (fun fh l q => h1 (Wire.headers_unique hH q).2.2)
  obtain ⟨-, -, rfl⟩ := Wire.headers_unique hH c1
  have e1 := e0
  rw [Wire.translate64_build] at e0
  obtain ⟨w, hb, hw⟩ := Nat64.map_ok e0
  have hw' : w0 = w.map (fun r => r.1.skb.bytes) := by
    rw [← hw]
    cases w with
    | none => rfl
    | some r =>
      obtain ⟨q, sm⟩ := r
      have hsm := Wire.build64_summed hb
      simp only [Option.map_some]
      rw [leave_done (fun e => hz (hsm.mp e)), ite_self]
  refine ⟨w, hb, by rw [e1, hw'], ?_⟩
  rintro q sm rfl
  have hsm := Wire.build64_summed hb
  obtain ⟨k1, k2, k3, k4, k5, bs, k6⟩ := Wire.build64_mem A.accepted A.held htcp' hi hb
  have S := sent _ hw'
  have hin : q.skb.headlen ≤ q.skb.bytes.length := by
    have e1 := k6.len
    rw [← k6.bytes] at e1
    unfold Build.Buf.len at e1
    omega
  refine ⟨fun e => hz (hsm.mp e), ?_, hin, ⟨k6.inside, k6.order, rfl, rfl, k6.nh, ?_, rfl, k2, rfl, rfl⟩, S⟩
  · have head := S.head
    obtain ⟨a', ha', hi'⟩ := Wire.accepted64_raw A.accepted A.inside hH S.head S.size S.seg h1 q.skb.headlen
    have AA := Pkt.init4_ok ha'
    obtain ⟨g1, g2⟩ := Wire.init4_linear ha' hi'
    have hlv := S.size
    have h20 : 20 ≤ q.skb.bytes.length := by omega
    have hl20 : WireSpec.l4 q.skb.bytes = 20 := by unfold WireSpec.l4; rw [head.words]
    have g3 := AA.l4
    have g4 := AA.proto
    have g5 := AA.hdr
    have hf4 : Pkt.first4 q.skb.bytes 0 = isFirst6 s0.data a.m := by
      rw [Bool.eq_iff_iff, Wire.first4_off h20, head.off, Wire.first6_off hfh]
    simp only at g1 g3 g4 g5
    rw [Wire.ihl4_words h20, hl20] at g3
    rw [Wire.proto4_of h20] at g4
    rw [hf4] at g5
    have hpr : a'.m.proto = a.m.proto := by
      have hn := (Wire.start64 A.accepted A.inside hH).2.2.1
      rw [g4, hP', head.proto]
      unfold to4
      by_cases e6 : n'.toNat = 6
      · rw [e6]; rfl
      · by_cases e17 : n'.toNat = 17
        · rw [e17]; rfl
        · by_cases e58 : n'.toNat = 58
          · rw [e58]; rfl
          · rw [if_neg e6, if_neg e17, if_neg e58, if_neg e58, if_neg e6, if_neg e17, if_neg h1]
    have hpay : a'.m.pay = q.pay := by
      unfold Pkt.HdrEnd at g5 hEnd
      rw [hpr] at g5
      cases hf : isFirst6 s0.data a.m with
      | false =>
        rw [hf] at g5 hEnd
        simp only [Bool.false_eq_true, if_false] at g5 hEnd
        omega
      | true =>
        rw [hf] at g5 hEnd
        simp only [if_true] at g5 hEnd
        rw [Wire.first6_off hfh] at hf
        cases hpp : a.m.proto with
        | tcp =>
          rw [hpp] at g5 hEnd
          simp only at g5 hEnd
          have e6 := hp6.mp hpp
          have g6 := g5.2
          have h6 := hEnd.2
          have ht := htl e6 hf
          rw [hD] at ht
          have htw : field q.skb.bytes (20 + 12) 1 = field s0.data (a.m.l4 + 12) 1 := by
            have h2 := (hc.tcp hf e6).1
            rw [← Wire.field_drop, ← Wire.field_drop, Wire.only_field (S.seg.tcp hf e6) (by omega), Wire.ported_field (by omega) (by omega)]
          rw [g6, k4, h6, ht, g3]
          unfold tcpLen
          rw [Wire.at8_field (by have := g5.1; omega), htw]
          omega
        | udp => rw [hpp] at g5 hEnd; simp only at g5 hEnd; omega
        | icmp => rw [hpp] at g5 hEnd; simp only at g5 hEnd; omega
        | other => rw [hpp] at g5 hEnd; simp only at g5 hEnd; omega
    have heq : a' = again q := by
      obtain ⟨⟨dd, ll⟩, ⟨m1, m2, m3, m4⟩, ii⟩ := a'
      have e1 : dd = q.skb.bytes := AA.data
      simp only at g1 g2 g3 hpr hpay hi'
      have e2 : ll = q.skb.headlen := by omega
      subst e1 e2 g2 g3 hi' hpay
      unfold again
      rw [k3, k1, k6.th, hpr, Nat.add_sub_cancel_left]
    rw [← heq]
    exact ha'
  · show q.skb.th = q.skb.data + (q.skb.th - q.skb.data)
    rw [k6.th]; omega

/-- Both models of the first pass, side by side. -/
theorem joined {e : Env Addr4} {t : Option Second} {rnd rnd2 : BitVec 32} {sel2 : BitVec 16} {segleft : Option Nat} {L n : Nat} {fh : Option Nat} {f : WholeSiit.Fate} (A : Arrives6 s0 a p)
    (hi : a.inner = none) (hH : Headers s0.data 40 (next6 s0.data) fh L n) (h1 : n ≠ 1) (hlen : s0.data.length - L ≤ 65515)
    (htcp : n = 6 → offAt s0.data fh = 0 → 5 ≤ field s0.data (L + 12) 1 / 16) (hx : x.sm ≠ .partial_) (he : ∀ o, e.fail ≠ some (.hairpin o))
    (h : WholeSiit.pass64 s x y e rnd rnd2 sel2 segleft p a = .ok f) :
    ((∀ m, f ≠ .hairpin m) ∧ pass64 s x y e t rnd rnd2 sel2 segleft p a = .ok (.one f)) ∨
      ∃ m q sm src dst, f = .hairpin m ∧ q.skb.bytes = m ∧ pass64 s x y e t rnd rnd2 sel2 segleft p a = turn s x t sm q ∧ sm ≠ .partial_ ∧
        Pkt.init4 ⟨m, q.skb.headlen⟩ = some (again q) ∧ q.skb.headlen ≤ m.length ∧ Holds q (again q) ∧ Sent64 (siit x false) src dst s0.data fh L n m := by
  unfold WholeSiit.pass64 at h
  unfold pass64
  obtain ⟨r, k1, k2⟩ : ∃ r, WholeSiit.flow64 s false rnd rnd2 a = .ok r ∧ _ = r := by
    cases hr : WholeSiit.flow64 s false rnd rnd2 a with
    | ub z => rw [hr] at h; cases h
    | ok r => exact ⟨r, rfl, rfl⟩
  have stops : ∀ g, r = .stop g → ∀ m, g ≠ .hairpin m := by
    intro g e1 m e2
    subst e1 e2
    unfold WholeSiit.flow64 at k1
    cases hr : Siit.addrs64 s (WholeSiit.view6 a) false rnd with
    | ub z => rw [hr] at k1; cases k1
    | ok w =>
      rw [hr, hi] at k1
      dsimp only [Outcome.bind] at k1
      cases w with
      | untranslatable _ => cases k1
      | drop _ => cases k1
      | cont s1 d1 h1 =>
        unfold WholeSiit.after at k1
        simp only at k1
        split at k1 <;> cases k1
  rw [k1] at h
  rw [k1]
  dsimp only [Outcome.bind] at h ⊢
  cases r with
  | stop g =>
    cases h
    exact .inl ⟨stops _ rfl, rfl⟩
  | go src dst inside hh =>
    simp only at h ⊢
    cases hf : e.fail with
    | some g =>
      rw [hf] at h
      cases h
      refine .inl ⟨fun m q => he m (by rw [hf, q]), rfl⟩
    | none =>
      rw [hf] at h
      simp only at h ⊢
      cases hs : WholeSiit.from64 e src with
      | none =>
        rw [hs] at h
        cases h
        exact .inl ⟨fun m q => (by cases q), rfl⟩
      | some src' =>
        rw [hs] at h
        rw [hi] at h ⊢
        simp only at h ⊢
        obtain ⟨w, b1, b2, b3⟩ := middle (s4 := src') (d4 := dst) (segleft := segleft) A hi hH h1 hlen htcp (siit x false) hx
        have b2' : (Wire.translate64 (siit x false) src' dst segleft p a).map (WholeSiit.leave e.sendFails hh) = .ok f := by
          cases inside <;> exact h
        rw [b2] at b2'
        injection b2' with b2'
        have goal : (∀ m, f ≠ .hairpin m) ∧ (if hh = true then (Wire.build64 (siit x false) src' dst segleft p a).bind (fun w => match w with
              | none => .ok (.one .drop)
              | some (q, sm) => turn s x t sm q)
            else (Wire.translate64 (siit x false) src' dst segleft p a).map (fun w => .one (WholeSiit.leave e.sendFails false w))) = .ok (.one f) ∨
            ∃ m q sm src dst', f = .hairpin m ∧ q.skb.bytes = m ∧ (if hh = true then (Wire.build64 (siit x false) src' dst segleft p a).bind (fun w => match w with
              | none => .ok (.one .drop)
              | some (q, sm) => turn s x t sm q)
            else (Wire.translate64 (siit x false) src' dst segleft p a).map (fun w => .one (WholeSiit.leave e.sendFails false w))) = turn s x t sm q ∧ sm ≠ .partial_ ∧
              Pkt.init4 ⟨m, q.skb.headlen⟩ = some (again q) ∧ q.skb.headlen ≤ m.length ∧ Holds q (again q) ∧ Sent64 (siit x false) src dst' s0.data fh L n m := by
          rw [b1, b2]
          cases hh with
          | false =>
            refine .inl ⟨?_, ?_⟩
            · intro m q
              rw [q] at b2'
              cases w with
              | none => cases b2'
              | some r => unfold WholeSiit.leave at b2'; simp only [Option.map_some, Bool.false_eq_true, if_false] at b2'; split at b2' <;> cases b2'
            · rw [if_neg (by decide), ← b2']
              rfl
          | true =>
            rw [if_pos rfl]
            cases w with
            | none =>
              refine .inl ⟨?_, ?_⟩
              · intro m q
                rw [q] at b2'
                cases b2'
              · rw [← b2']
                rfl
            | some r =>
              obtain ⟨q, sm⟩ := r
              obtain ⟨c1, c2, c3, c4, c5⟩ := b3 q sm rfl
              refine .inr ⟨_, q, sm, src', dst, ?_, rfl, rfl, c1, c2, c3, c4, c5⟩
              rw [← b2']
              rfl
        cases inside <;> exact goal

/-- **C83.** Packets that do not turn around are not affected by what the second pass is. -/
theorem straight {e : Env Addr4} {t : Option Second} {rnd rnd2 : BitVec 32} {sel2 : BitVec 16} {segleft : Option Nat} {L n : Nat} {fh : Option Nat} {f : WholeSiit.Fate} (A : Arrives6 s0 a p)
    (hi : a.inner = none) (hH : Headers s0.data 40 (next6 s0.data) fh L n) (h1 : n ≠ 1) (hlen : s0.data.length - L ≤ 65515)
    (htcp : n = 6 → offAt s0.data fh = 0 → 5 ≤ field s0.data (L + 12) 1 / 16) (hx : x.sm ≠ .partial_) (he : ∀ o, e.fail ≠ some (.hairpin o))
    (h : WholeSiit.pass64 s x y e rnd rnd2 sel2 segleft p a = .ok f) (hf : ∀ m, f ≠ .hairpin m) : pass64 s x y e t rnd rnd2 sel2 segleft p a = .ok (.one f) := by
  rcases joined (t := t) A hi hH h1 hlen htcp hx he h with ⟨-, k⟩ | ⟨m, _, _, _, _, k, _⟩
  · exact k
  · exact absurd k (hf m)

/-- **C83.** What turns around is treated, the second time, as the IPv4 packet that would have been sent: any packet, whatever the tables say about its addresses. It is translated,
left to the kernel or dropped for the reasons of C82, and for lack of memory. -/
theorem turned_partial {e : Env Addr4} {rnd rnd2 : BitVec 32} {sel2 : BitVec 16} {segleft : Option Nat} {L n : Nat} {fh : Option Nat} {m : List Byte} (h : Ok s M) (A : Arrives6 s0 a p)
    (hi : a.inner = none) (hH : Headers s0.data 40 (next6 s0.data) fh L n) (h1 : n ≠ 1) (hlen : s0.data.length - L ≤ 65515)
    (htcp : n = 6 → offAt s0.data fh = 0 → 5 ≤ field s0.data (L + 12) 1 / 16) (hx : x.sm ≠ .partial_) (he : ∀ o, e.fail ≠ some (.hairpin o))
    (hm : WholeSiit.pass64 s x y e rnd rnd2 sel2 segleft p a = .ok (.hairpin m)) :
    pass64 s x y e none rnd rnd2 sel2 segleft p a = .ok .noMemory ∧
      ∀ t : Second, ∃ f x', pass64 s x y e (some t) rnd rnd2 sel2 segleft p a = .ok (.two f) ∧ x'.cfg = x.cfg ∧ x'.sm ≠ .partial_ ∧ x'.route = false ∧
        WholeSiitSpec.Plain t.env (fun _ => false) (Packet46 s M (plain4 m) true t.rnd) (Typed46 m) (Leaves46 (siit x' true) m) (From46 t.env false)
          (fun s6 d6 o => Sent46 (siit x' true) s6 d6 m o) f := by
  constructor
  · rcases joined (t := none) A hi hH h1 hlen htcp hx he hm with ⟨k, -⟩ | ⟨m', q, sm, src, dst, k1, k2, k3, -⟩
    · exact absurd rfl (k m)
    · rw [k3]; rfl
  · intro t
    rcases joined (t := some t) A hi hH h1 hlen htcp hx he hm with ⟨k, -⟩ | ⟨m', q, sm, src, dst, k1, k2, k3, k4, k5, k6, k7, S⟩
    · exact absurd rfl (k m)
    · cases k1
      obtain ⟨-, -, hn, -, -, -⟩ := Wire.start64 A.accepted A.inside hH
      obtain ⟨m1, m2, m3, m4⟩ := Wire.middle hn h1 hlen htcp ⟨rfl, rfl⟩ S
      obtain ⟨f, j1, j2⟩ := WholeSiit.plain46_partial (x := ctx2 x t sm) (y := t.err) (flag := true) t.env t.rnd t.rnd2 h ⟨k5, k6, k7, m1, m2⟩ rfl m3 m4
      refine ⟨f, ctx2 x t sm, ?_, rfl, k4, rfl, j2⟩
      rw [k3]
      unfold turn
      simp only [j1]
      rfl

/-- **C83.** Two EAM nodes behind the same translator, byte by byte, with both passes: what `X` sends to the address that it knows of `Y` arrives at `Y`, from the address that `Y`
knows of `X`: one hop less, same data, and a checksum that is correct if (and only if) it was. Fragments and all protocols. Missing: ICMP errors, splits, and packets whose checksum
is still to be computed. -/
theorem hairpin_partial {pp : Prefix6} {e : Env Addr4} (t : Second) (rnd rnd2 : BitVec 32) (sel2 : BitVec 16) {L n : Nat} {fh : Option Nat} (h : Ok s M) (hp : s.pool6 = some pp)
    (hm : s.mode = .intrinsic) (X Y : Node s M pp) (hX4 : X.a4 ≠ 0#32) (hXf : X.face ≠ 0#128)
    (A : Arrives6 s0 a p) (hi : a.inner = none) (hH : Headers s0.data 40 (next6 s0.data) fh L n) (h1 : n ≠ 1) (hlen : s0.data.length - L ≤ 65515)
    (htcp : n = 6 → offAt s0.data fh = 0 → 5 ≤ field s0.data (L + 12) 1 / 16)
    (hsrc : BitVec.ofNat 128 (src6 s0.data) = X.a6) (hdst : BitVec.ofNat 128 (dst6 s0.data) = Y.face) (hl : Leaves64 none s0.data L n) (he : e.fail = none) (hxs : x.sm ≠ .partial_)
    (he' : t.env.fail = none) (hs' : t.env.sendFails = false) :
    ∃ o l, pass64 s x y e (some t) rnd rnd2 sel2 none p a = .ok (.two (.sent o)) ∧
      Back6 1 (!x.cfg.dscp && !x.cfg.resetTos && !x.cfg.resetTc) X.face Y.a6 s0.data fh L n o l ∧ Back6Sums X.face Y.a6 s0.data fh L n o l := by
  obtain ⟨m, g1, g2⟩ := WholeSiit.hairpin_partial (x := x) (y := y) (e := e) rnd rnd2 sel2 h hp hm X Y hX4 hXf A hi hH h1 hlen htcp hsrc hdst hl he hxs
  rcases joined (t := some t) A hi hH h1 hlen htcp hxs (by rw [he]; nofun) g1 with ⟨k, -⟩ | ⟨m', q, sm, src, dst, k1, k2, k3, k4, k5, k6, k7, S⟩
  · exact absurd rfl (k m)
  · cases k1
    obtain ⟨a', j1, j2⟩ := g2 q.skb.headlen k6
    rw [k5] at j1
    cases j1
    obtain ⟨o, i1, i2, i3⟩ := j2 q t.env (ctx2 x t sm) t.err t.rnd t.rnd2 k7 he' hs' rfl
    refine ⟨o, l6 m, ?_, i2, i3 k4⟩
    rw [k3]
    unfold turn
    simp only [i1]
    rfl

open Jool.WholeSiit (exTurn fine)
open Jool.Build (place place_holds got)
open Jool.Wire (exCtx exErr)

/-- The rest of a datagram (bytes 8 and up of it) that goes from one node to the other. -/
def exRest : Pkt.Skb := ⟨[96#8, 0#8, 0#8, 0#8, 0#8, 12#8, 44#8, 64#8, 32#8, 1#8, 13#8, 184#8, 0#8, 0#8, 0#8, 0#8, 0#8, 0#8, 0#8, 0#8, 0#8, 0#8, 0#8, 1#8, 0#8, 100#8, 255#8, 155#8, 0#8, 0#8, 0#8, 0#8, 0#8, 0#8, 0#8, 0#8, 192#8, 0#8, 2#8, 2#8,
  17#8, 0#8, 0#8, 8#8, 0#8, 0#8, 0#8, 9#8, 1#8, 2#8, 3#8, 4#8], 52⟩

/-- The datagram of `Props/WholeSiitEx.lean` arrives. -/
example : ∃ o l, pass64 (exInst .intrinsic) exCtx exErr (fine _) (some ⟨exErr, fine _, ⟨fun _ => 7#8, 0⟩, fun _ => 0#8, fun _ => 0#8⟩) 0#32 0#32 7#16 none (place (got (Pkt.init6 exTurn)) 16) (got (Pkt.init6 exTurn)) =
      .ok (.two (.sent o)) ∧
    Back6 1 true 0x0064ff9b0000000000000000c0000201#128 0x20010db8000000000000000000000002#128 exTurn.data none 40 17 o l := by
  obtain ⟨M, h, X, Y, x1, y1, x2, y2⟩ := exInst_nodes
  have hX4 : X.a4 ≠ 0#32 := by
    intro q
    exact X.fine (by
      rw [q]
      exact (off_iff h _).1 (by decide +kernel))
  obtain ⟨o, l, k1, k2, -⟩ := hairpin_partial (x := exCtx) (y := exErr) (s0 := exTurn) (a := got (Pkt.init6 exTurn)) (p := place (got (Pkt.init6 exTurn)) 16) (e := fine _) (fh := none) (L := 40) (n := 17)
    ⟨exErr, fine _, ⟨fun _ => 7#8, 0⟩, fun _ => 0#8, fun _ => 0#8⟩
    0#32 0#32 7#16 h rfl rfl X Y hX4 (by rw [x2]; decide) ⟨by decide +kernel, by decide +kernel, place_holds 16 (by decide +kernel)⟩ (by decide +kernel) (.last (by decide +kernel)) (by decide)
    (by decide +kernel) (by decide) (by rw [x1]; decide +kernel) (by rw [y2]; decide +kernel) ⟨rfl, by decide +kernel, by decide⟩ rfl (by decide) rfl rfl
  rw [x2, y1] at k2
  exact ⟨o, l, k1, k2⟩

/-- And so does a fragment that is not the first one. -/
example : ∃ o l, pass64 (exInst .intrinsic) exCtx exErr (fine _) (some ⟨exErr, fine _, ⟨fun _ => 7#8, 0⟩, fun _ => 0#8, fun _ => 0#8⟩) 0#32 0#32 7#16 none (place (got (Pkt.init6 exRest)) 16) (got (Pkt.init6 exRest)) =
      .ok (.two (.sent o)) ∧
    Back6 1 true 0x0064ff9b0000000000000000c0000201#128 0x20010db8000000000000000000000002#128 exRest.data (some 40) 48 17 o l := by
  obtain ⟨M, h, X, Y, x1, y1, x2, y2⟩ := exInst_nodes
  have hX4 : X.a4 ≠ 0#32 := by
    intro q
    exact X.fine (by
      rw [q]
      exact (off_iff h _).1 (by decide +kernel))
  obtain ⟨o, l, k1, k2, -⟩ := hairpin_partial (x := exCtx) (y := exErr) (s0 := exRest) (a := got (Pkt.init6 exRest)) (p := place (got (Pkt.init6 exRest)) 16) (e := fine _) (fh := (some 40)) (L := 48) (n := 17)
    ⟨exErr, fine _, ⟨fun _ => 7#8, 0⟩, fun _ => 0#8, fun _ => 0#8⟩
    0#32 0#32 7#16 h rfl rfl X Y hX4 (by rw [x2]; decide) ⟨by decide +kernel, by decide +kernel, place_holds 16 (by decide +kernel)⟩ (by decide +kernel) (.frag (by decide +kernel)) (by decide)
    (by decide +kernel) (by decide) (by rw [x1]; decide +kernel) (by rw [y2]; decide +kernel) ⟨rfl, by decide +kernel, by decide⟩ rfl (by decide) rfl rfl
  rw [x2, y1] at k2
  exact ⟨o, l, k1, k2⟩

end Jool.WholeSiitTurn
