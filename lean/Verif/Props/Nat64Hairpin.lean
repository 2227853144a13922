import Verif.Props.Nat64Errors
/-
C52: hairpinning.
-/
namespace Jool

namespace Nat64Spec
open Nat64
open Jool.Bib (BibKey)

/-- An ICMP error which is not sent. -/
def quiet : Out → Out
  | .dropped w _ => .dropped w none
  | o => o

end Nat64Spec

namespace Nat64
open Nat64Spec
open Jool.Bib (Table BibKey SessKey Masks Event Live WF Cont6 Answerable)

theorem contains_4to6 {P : Prefix6} {a : Addr4} {x : Addr6} (h : rfc6052_4to6 P a = some x) : prefix6Contains P x = true := by
  have hl := ((rfc6052_4to6_correct _ _ _).1 h).1
  obtain ⟨y, hy, hy'⟩ := rfc6052_roundtrip P a hl
  rw [h] at hy; cases hy
  have hb := ((rfc6052_6to4_correct _ _ _).1 hy').2.1
  refine (prefix6Contains_iff_bits P x ?_).2 hb
  rcases hl with h | h | h | h | h | h <;> omega

/-- A packet that is not an ICMP error has a view. -/
theorem tuple6_view {p : Pkt Addr6} {t} (h : tuple6 p = .ok t) (he : isError6 p = false) :
    ∃ k S D, view6 p = some (k, S, D) := by
  obtain ⟨src, dst, l4⟩ := p
  unfold tuple6 at h
  unfold isError6 at he
  unfold view6
  cases l4 with
  | udp s d => exact ⟨_, _, _, rfl⟩
  | tcp s d a b c => exact ⟨_, _, _, rfl⟩
  | other => cases h
  | icmp ty c id i =>
    dsimp only at h he ⊢
    rw [he] at h
    by_cases h1 : ty = 128
    · exact ⟨_, _, _, if_pos h1⟩
    · by_cases h2 : ty = 129
      · exact ⟨_, _, _, by rw [if_neg h1, if_pos h2]⟩
      · have h1' : (ty == (128 : Byte)) = false := beq_eq_false_iff_ne.2 h1
        have h2' : (ty == (129 : Byte)) = false := beq_eq_false_iff_ne.2 h2
        simp only [Icmp.isIcmp6Info, h1', h2', Bool.or_self, Bool.false_eq_true, if_false] at h
        cases h

/-- An ICMP error that is translated quotes a packet. -/
theorem translate6_quotes {p : Pkt Addr6} {t c o sa q} (h : tuple6 p = .ok t) (he : isError6 p = true)
    (hq : translate6 c p o sa = .ok q) : ∃ k S D, quoted6 p = some (k, S, D) := by
  obtain ⟨src, dst, l4⟩ := p
  unfold isError6 at he
  cases l4 with
  | icmp ty cd id i =>
    dsimp only at he
    have ht : ty = 1 ∨ ty = 2 ∨ ty = 3 ∨ ty = 4 := by
      simp only [Icmp.isIcmp6Error, Bool.or_eq_true, beq_iff_eq] at he
      rcases he with ((h | h) | h) | h
      · exact .inl h
      · exact .inr (.inl h)
      · exact .inr (.inr (.inl h))
      · exact .inr (.inr (.inr h))
    have h2 : Icmp.isIcmp6Info ty = false := by rcases ht with rfl | rfl | rfl | rfl <;> rfl
    unfold tuple6 at h
    simp only [h2, he, Bool.false_eq_true, if_false, if_true] at h
    cases i with
    | none => cases h
    | some i =>
      dsimp only at h
      unfold quoted6
      dsimp only
      rw [if_pos ht]
      obtain ⟨is, idd, il⟩ := i
      unfold tupleErr6 at h
      unfold inView6
      cases il with
      | udp s d => exact ⟨_, _, _, rfl⟩
      | tcp s d => exact ⟨_, _, _, rfl⟩
      | other => cases h
      | icmp t2 c2 n =>
        dsimp only at h ⊢
        by_cases e1 : t2 = 128
        · exact ⟨_, _, _, if_pos e1⟩
        · by_cases e2 : t2 = 129
          · exact ⟨_, _, _, by rw [if_neg e1, if_pos e2]⟩
          · exfalso
            split at h
            · cases h
            · rename_i hne
              unfold translate6 at hq
              cases hf : c.fail with
              | some x => rw [hf] at hq; cases hq
              | none =>
                rw [hf] at hq
                dsimp only at hq
                split at hq
                · cases hq
                · simp only [h2, Bool.false_eq_true, if_false] at hq
                  split at hq
                  · cases hq
                  · rename_i hl
                    unfold innerL4 at hl
                    dsimp only at hl
                    have : Icmp.xlat64Type t2 c2 = none := by
                      simp only [Icmp.isIcmp6Error, Bool.or_eq_true, beq_iff_eq, not_or] at hne
                      have x1 : (t2 == (128 : Byte)) = false := beq_eq_false_iff_ne.2 e1
                      have x2 : (t2 == (129 : Byte)) = false := beq_eq_false_iff_ne.2 e2
                      have y1 : (t2 == (1 : Byte)) = false := beq_eq_false_iff_ne.2 hne.1.1.1
                      have y2 : (t2 == (2 : Byte)) = false := beq_eq_false_iff_ne.2 hne.1.1.2
                      have y3 : (t2 == (3 : Byte)) = false := beq_eq_false_iff_ne.2 hne.1.2
                      have y4 : (t2 == (4 : Byte)) = false := beq_eq_false_iff_ne.2 hne.2
                      simp only [Icmp.xlat64Type, x1, x2, y1, y2, y3, y4, Bool.false_eq_true, if_false]
                    rw [this] at hl
                    cases hl
  | _ => cases he

/-- The IPv4 packet which leaves the first pass has the outgoing tuple as its tuple. -/
theorem first_pass_tuple {cfg P s c p t f known o q} (g : Good s) (ht : tuple6 p = .ok t) (F : Fu6 cfg P s c p t f)
    (hk : f.res = .ok known) (ho : compute6 P f.st t known = .ok o) (hq : translate6 c p o f.saddr = .ok q) :
    tuple4 q = .ok o ∧
    (∀ k S D, view6 p = some (k, S, D) → ∃ b ∈ bibs f.st k.proto, b.src6 = S ∧ ∃ a, rfc6052_6to4 P D.addr = some a ∧
      view4 q = some (k, b.src4, ⟨a, k.port D.port b.src4.port⟩)) ∧
    (∀ k S D, quoted6 p = some (k, S, D) → ∃ b ∈ bibs f.st k.proto, b.src6 = D ∧ ∃ a, rfc6052_6to4 P S.addr = some a ∧
      quoted4 q = some (k, ⟨a, k.port S.port b.src4.port⟩, b.src4)) := by
  have A : ∀ k S D, view6 p = some (k, S, D) → tuple4 q = .ok o ∧ ∃ b ∈ bibs f.st k.proto, b.src6 = S ∧
      ∃ a, rfc6052_6to4 P D.addr = some a ∧ view4 q = some (k, b.src4, ⟨a, k.port D.port b.src4.port⟩) := by
    intro k S D hv
    rw [(view6_tuple hv).1] at ht
    injection ht with ht; subst ht
    obtain ⟨a, m, b, se, ha, _, C, _, rfl, V, _⟩ := pass6 g hv F hk ho hq
    exact ⟨(view4_tuple V).1, b, C.mem, C.src, a, ha, V⟩
  have B : ∀ k S D, quoted6 p = some (k, S, D) → tuple4 q = .ok o ∧ ∃ b ∈ bibs f.st k.proto, b.src6 = D ∧
      ∃ a, rfc6052_6to4 P S.addr = some a ∧ quoted4 q = some (k, ⟨a, k.port S.port b.src4.port⟩, b.src4) := by
    intro k S D hv
    rw [(quoted6_tuple hv).1] at ht
    injection ht with ht; subst ht
    cases F with
    | refused e => simp [Fu.stop] at hk
    | update he' => rw [(quoted6_tuple hv).2] at he'; cases he'
    | error =>
      cases hk
      unfold compute6 at ho
      dsimp only at ho
      cases hfi : Bib.find6 (s.tables k.proto) D with
      | none => rw [hfi] at ho; cases ho
      | some b =>
        rw [hfi] at ho
        dsimp only at ho
        cases ha : rfc6052_6to4 P S.addr with
        | none => rw [ha] at ho; cases ho
        | some a =>
          rw [ha] at ho
          cases ho
          obtain ⟨V, hd, hsr⟩ := translate6_quoted hv hq
          obtain ⟨hb, hbs⟩ := Bib.find6_some hfi
          dsimp only at V
          rw [Kind.port_if, Kind.port_port] at V
          refine ⟨?_, b, ((g.wf _).same b).1 hb, hbs, a, rfl, V⟩
          rw [(quoted4_tuple V).1, Kind.port_if]
  refine ⟨?_, fun k S D h => (A k S D h).2, fun k S D h => (B k S D h).2⟩
  cases he : isError6 p with
  | false =>
    obtain ⟨k, S, D, hv⟩ := tuple6_view ht he
    exact (A k S D hv).1
  | true =>
    obtain ⟨k, S, D, hv⟩ := translate6_quotes ht he hq
    exact (B k S D hv).1

theorem quiet_finish4 (cfg P c p t f) : (finish4 cfg P c p t f Stop.out2).out = quiet (finish4 cfg P c p t f Stop.out).out := by
  have h : ∀ e : Stop, e.out2 = quiet e.out := by intro e; cases e <;> rfl
  unfold finish4
  repeat' split
  · exact h _
  · exact h _
  · exact h _
  · dsimp only
    unfold send
    split <;> rfl

/-- **C52.** What happens to a packet from IPv6. Either it is not translated, or its translation `q` is sent to IPv4 and its
destination is not in pool4, or the destination of `q` is in pool4 and everything is as if `q` had been
sent, and had come back right away (except that, if it is refused then, the ICMP error gets lost, and that the memory for a second
translation might be missing). `q`: of the node's BIB entry, to the address that the IPv6 destination contains. -/
theorem hairpin_iff {cfg s c c2 p r P} (hs : Reach s) (hA : Active cfg P) (hr : core6 cfg s c c2 p = .ok r) :
    (∃ e : Stop, r.out = e.out) ∨
    ∃ mid q o, tuple4 q = .ok o ∧
      (∀ k S D, view6 p = some (k, S, D) → ∃ b ∈ bibs mid k.proto, b.src6 = S ∧ ∃ a, rfc6052_6to4 P D.addr = some a ∧
        view4 q = some (k, b.src4, ⟨a, k.port D.port b.src4.port⟩)) ∧
      (∀ k S D, quoted6 p = some (k, S, D) → ∃ b ∈ bibs mid k.proto, b.src6 = D ∧ ∃ a, rfc6052_6to4 P S.addr = some a ∧
        quoted4 q = some (k, ⟨a, k.port S.port b.src4.port⟩, b.src4)) ∧
      ((Pool4.contains cfg.own s.pool4 o.proto o.dst = false ∧ r.st = mid ∧ r.out = send c (.sent4 q)) ∨
       (Pool4.contains cfg.own s.pool4 o.proto o.dst = true ∧
        ((c2 = none ∧ r.st = mid ∧ r.out = .dropped "hairpin" none) ∨
         ∃ c' r', c2 = some c' ∧ core4 cfg mid c' q = .ok r' ∧ r.st = r'.st ∧ r.out = quiet r'.out))) := by
  have g := reach_good hs
  have hc : common6 cfg P s c c2 p = .ok r := by
    unfold core6 at hr
    rw [hA.1, hA.2] at hr
    simpa using hr
  rcases common6_cases g hc with ⟨e, _, rfl⟩ | ⟨t, f, ht, F, H⟩
  · exact .inl ⟨e, rfl⟩
  · cases H with
    | stopped e => exact .inl ⟨e, rfl⟩
    | sent known hk o ho q hq hh =>
      obtain ⟨T, A, B⟩ := first_pass_tuple g ht F hk ho hq
      rw [F.pool] at hh
      exact .inr ⟨f.st, q, o, T, A, B, .inl ⟨hh, rfl, rfl⟩⟩
    | noMemory known hk o ho q hq hh h2 =>
      obtain ⟨T, A, B⟩ := first_pass_tuple g ht F hk ho hq
      rw [F.pool] at hh
      exact .inr ⟨f.st, q, o, T, A, B, .inr ⟨hh, .inl ⟨h2, rfl, rfl⟩⟩⟩
    | hairpin known hk o ho q hq hh c' h2 f' hf hfe =>
      obtain ⟨T, A, B⟩ := first_pass_tuple g ht F hk ho hq
      rw [F.pool] at hh
      refine .inr ⟨f.st, q, o, T, A, B, .inr ⟨hh, .inr ⟨c', finish4 cfg P c' q o f' Stop.out, h2, ?_, ?_, ?_⟩⟩⟩
      · unfold core4
        rw [hA.1, hA.2]
        simp only [Bool.not_true, Bool.false_eq_true, if_false]
        unfold common4
        rw [T]
        simp only [hfe, Outcome.map]
      · rw [(finish4_st ..).1]
      · exact quiet_finish4 ..

/-- **C52.** Two nodes behind the translator. If a packet from IPv6 is translated into a packet to IPv6, then both nodes have BIB
entries; the packet went to the address which contains the pool4 address of the second node, and it arrives from the address
that contains the pool4 address of the first one, at the transport address of the second one. -/
theorem hairpin_end_to_end {cfg s c c2 p r P k S D q} (hs : Reach s) (hP : cfg.pool6 = some P) (h : view6 p = some (k, S, D))
    (hr : core6 cfg s c c2 p = .ok r) (hq : r.out = .sent6 q) :
    ∃ b1 b2 a x, b1 ∈ bibs r.st k.proto ∧ b2 ∈ bibs r.st k.proto ∧ b1.src6 = S ∧
      rfc6052_6to4 P D.addr = some a ∧ b2.src4 = ⟨a, k.port D.port b1.src4.port⟩ ∧
      rfc6052_4to6 P b1.src4.addr = some x ∧
      view6 q = some (k, ⟨x, k.port b1.src4.port b2.src6.port⟩, b2.src6) := by
  have hA : Active cfg P := by
    rcases core6_common hr with ⟨_, _, w, h'⟩ | ⟨_, he, _, _⟩
    · rw [hq] at h'; cases h'
    · exact ⟨he, hP⟩
  rcases hairpin_iff hs hA hr with ⟨e, he⟩ | ⟨mid, q4, o, T, A, _, H⟩
  · rw [hq] at he; exact absurd he.symm ((out_not_sent e).2.1 q)
  · obtain ⟨b1, hb1, hs1, a, ha, V⟩ := A k S D h
    rcases H with ⟨_, _, h'⟩ | ⟨_, ⟨_, _, h'⟩ | ⟨c', r', _, hr', hst, hout⟩⟩
    · rw [hq] at h'; have := send_sent6 h'.symm; cases this
    · rw [hq] at h'; cases h'
    · have hout' : r'.out = .sent6 q := by
        rw [hq] at hout
        cases hx : r'.out <;> rw [hx] at hout <;> simp [quiet] at hout
        rw [hout]
      obtain ⟨_, b2, hb2, hs2, _, x, hx, V2⟩ := translated46 hP V hr' hout'
      refine ⟨b1, b2, a, x, ?_, by rw [hst]; exact hb2, hs1, ha, hs2, hx, V2⟩
      -- the second pass does not remove entries
      rw [hst]
      rcases core4_common hr' with ⟨_, _, w, h'⟩ | ⟨P', _, hP', hc⟩
      · rw [hout'] at h'; cases h'
      · rw [hP] at hP'; cases hP'
        rcases common4_fu hc with ⟨e, _, rfl⟩ | ⟨t, f, ht, F, rfl⟩
        · exact absurd hout' ((out_not_sent e).2.1 q)
        · rw [(view4_tuple V).1] at ht
          injection ht with ht; subst ht
          obtain ⟨known, o', hk, _, _⟩ := finish4_sent (fun e q => (out_not_sent e).2.1 q) hout'
          obtain ⟨_, _, _, _, _, htree, _⟩ := fu4_view V F hk
          rw [(finish4_st ..).1]
          unfold bibs BibSpec.bibs
          rw [htree]; exact hb1

/-- **C52.** A packet whose source is in pool6 is refused, and nothing changes. -/
theorem pool6_source_refused {cfg s c c2 P} {p : Pkt Addr6} (hP : cfg.pool6 = some P) (h : prefix6Contains P p.src = true) :
    ∃ r, core6 cfg s c c2 p = .ok r ∧ r.st = s ∧ r.ev = [] ∧
      ((∃ w, r.out = .returned w) ∨ ∃ w i, r.out = .dropped w i) ∧
      (cfg.enabled = true → ∀ t, tuple6 p = .ok t → r.out = .dropped "HAIRPIN_LOOP" none) := by
  unfold core6
  rw [hP]
  cases he : cfg.enabled with
  | false => exact ⟨_, rfl, rfl, rfl, .inl ⟨_, rfl⟩, fun h => by cases h⟩
  | true =>
    simp only [Bool.not_true, Bool.false_eq_true, if_false]
    unfold common6
    cases ht : tuple6 p with
    | error e =>
      refine ⟨_, rfl, rfl, rfl, ?_, fun _ t h => by cases h⟩
      have : e ≠ .stolen := by
        intro hst; subst hst
        unfold tuple6 at ht
        unfold tupleErr6 at ht
        repeat' split at ht
        all_goals cases ht
      cases e with
      | untranslatable w i => exact .inl ⟨w, rfl⟩
      | drop w i => exact .inr ⟨w, i, rfl⟩
      | stolen => exact absurd rfl this
    | ok t =>
      dsimp only
      unfold fu6
      rw [h]
      simp only [if_true, Outcome.bind, Fu.stop]
      exact ⟨_, rfl, rfl, rfl, .inr ⟨_, _, rfl⟩, fun _ _ _ => rfl⟩

theorem translate4_src {cfg P s c p t known o q} (ho : compute4 P s t known = .ok o) (hq : translate4 cfg P c p o = .ok q) :
    prefix6Contains P q.src = true := by
  have hsrc : rfc6052_4to6 P t.src.addr = some o.src.addr := by
    unfold compute4 at ho
    split at ho
    · cases ho
    · split at ho
      · cases ho
      · rename_i ha; cases ho; exact ha
  unfold translate4 at hq
  split at hq
  · cases hq
  · split at hq
    · cases hq
    · rename_i src hs
      have hc : prefix6Contains P src = true := by
        unfold saddr6 at hs
        split at hs
        · exact contains_4to6 hs
        · injection hs with hs; subst hs; exact contains_4to6 hsrc
      repeat' split at hq
      all_goals first | cases hq; done | (cases hq; exact hc)

/-- **C52.** Hairpinning does not loop: whatever the translator sends to IPv6 comes from pool6, -/
theorem sent6_source {cfg s c p r P q} (hP : cfg.pool6 = some P) (hr : core4 cfg s c p = .ok r) (hq : r.out = .sent6 q) :
    prefix6Contains P q.src = true := by
  rcases core4_common hr with ⟨_, _, w, h'⟩ | ⟨P', _, hP', hc⟩
  · rw [hq] at h'; cases h'
  · rw [hP] at hP'; cases hP'
    rcases common4_fu hc with ⟨e, _, rfl⟩ | ⟨t, f, ht, F, rfl⟩
    · exact absurd hq ((out_not_sent e).2.1 q)
    · obtain ⟨known, o, _, ho, hq'⟩ := finish4_sent (fun e q => (out_not_sent e).2.1 q) hq
      exact translate4_src ho hq'

/-- also if it was from IPv6. Hence, should it come back, it is refused, and nothing changes (`pool6_source_refused`). -/
theorem hairpin_source {cfg s c c2 p r P q} (hs : Reach s) (hP : cfg.pool6 = some P) (hr : core6 cfg s c c2 p = .ok r)
    (hq : r.out = .sent6 q) : prefix6Contains P q.src = true := by
  have hA : Active cfg P := by
    rcases core6_common hr with ⟨_, _, w, h'⟩ | ⟨_, he, _, _⟩
    · rw [hq] at h'; cases h'
    · exact ⟨he, hP⟩
  rcases hairpin_iff hs hA hr with ⟨e, he⟩ | ⟨mid, q4, o, T, A, _, H⟩
  · rw [hq] at he; exact absurd he.symm ((out_not_sent e).2.1 q)
  · rcases H with ⟨_, _, h'⟩ | ⟨_, ⟨_, _, h'⟩ | ⟨c', r', _, hr', hst, hout⟩⟩
    · rw [hq] at h'; have := send_sent6 h'.symm; cases this
    · rw [hq] at h'; cases h'
    · refine sent6_source hP hr' ?_
      rw [hq] at hout
      cases hx : r'.out <;> rw [hx] at hout <;> simp [quiet] at hout
      rw [hout]

end Nat64
end Jool
