import Verif.Props.Nat64Back
/-
C53, ICMP errors.
-/
namespace Jool

namespace Nat64Spec
open Nat64
open Jool.Bib (BibKey)

/-- What an ICMP error tells about the packet it quotes: as `view6`, without the TCP flags. -/
def inView6 (i : Inner Addr6) : Option (Kind × T6 × T6) :=
  match i.l4 with
  | .udp s d => some (.udp, ⟨i.src, s⟩, ⟨i.dst, d⟩)
  | .tcp s d => some (.tcp false false false, ⟨i.src, s⟩, ⟨i.dst, d⟩)
  | .icmp t _ id =>
    if t = 128 then some (.request, ⟨i.src, id⟩, ⟨i.dst, id⟩)
    else if t = 129 then some (.reply, ⟨i.src, id⟩, ⟨i.dst, id⟩)
    else none
  | .other => none

def inView4 (i : Inner Addr4) : Option (Kind × T4 × T4) :=
  match i.l4 with
  | .udp s d => some (.udp, ⟨i.src, s⟩, ⟨i.dst, d⟩)
  | .tcp s d => some (.tcp false false false, ⟨i.src, s⟩, ⟨i.dst, d⟩)
  | .icmp t _ id =>
    if t = 8 then some (.request, ⟨i.src, id⟩, ⟨i.dst, id⟩)
    else if t = 0 then some (.reply, ⟨i.src, id⟩, ⟨i.dst, id⟩)
    else none
  | .other => none

def Kind.noFlags : Kind → Kind
  | .tcp _ _ _ => .tcp false false false
  | k => k

/-- The packet that an ICMP error quotes. -/
def quoted6 (e : Pkt Addr6) : Option (Kind × T6 × T6) :=
  match e.l4 with
  | .icmp t _ _ (some i) => if t = 1 ∨ t = 2 ∨ t = 3 ∨ t = 4 then inView6 i else none
  | _ => none

def quoted4 (e : Pkt Addr4) : Option (Kind × T4 × T4) :=
  match e.l4 with
  | .icmp t _ _ (some i) => if t = 3 ∨ t = 4 ∨ t = 5 ∨ t = 11 ∨ t = 12 then inView4 i else none
  | _ => none

end Nat64Spec

namespace Nat64
open Nat64Spec
open Jool.Bib (Table BibKey SessKey Masks Event Live WF Cont6 Answerable)

theorem quoted6_tuple {e : Pkt Addr6} {k S D} (h : quoted6 e = some (k, S, D)) :
    tuple6 e = .ok ⟨D, S, k.proto⟩ ∧ isError6 e = true := by
  obtain ⟨src, dst, l4⟩ := e
  unfold quoted6 at h
  cases l4 with
  | icmp t c id i =>
    cases i with
    | none => cases h
    | some i =>
      dsimp only at h
      split at h
      · rename_i ht
        have h1 : Icmp.isIcmp6Error t = true := by
          rcases ht with rfl | rfl | rfl | rfl <;> rfl
        have h2 : Icmp.isIcmp6Info t = false := by
          rcases ht with rfl | rfl | rfl | rfl <;> rfl
        refine ⟨?_, h1⟩
        unfold tuple6
        simp only [h1, h2, Bool.false_eq_true, if_false, if_true]
        obtain ⟨is, id, il⟩ := i
        unfold inView6 at h
        unfold tupleErr6
        cases il with
        | udp s d => simp only [Option.some.injEq, Prod.mk.injEq] at h; obtain ⟨rfl, rfl, rfl⟩ := h; rfl
        | tcp s d => simp only [Option.some.injEq, Prod.mk.injEq] at h; obtain ⟨rfl, rfl, rfl⟩ := h; rfl
        | other => cases h
        | icmp t c n =>
          dsimp only at h ⊢
          split at h
          · rename_i ht; subst ht; cases h; rfl
          · split at h
            · rename_i ht; subst ht; cases h; rfl
            · cases h
      · cases h
  | _ => cases h

theorem quoted4_tuple {e : Pkt Addr4} {k S D} (h : quoted4 e = some (k, S, D)) :
    tuple4 e = .ok ⟨D, S, k.proto⟩ ∧ isError4 e = true := by
  obtain ⟨src, dst, l4⟩ := e
  unfold quoted4 at h
  cases l4 with
  | icmp t c id i =>
    cases i with
    | none => cases h
    | some i =>
      dsimp only at h
      split at h
      · rename_i ht
        have h1 : Icmp.isIcmp4Error t = true := by
          rcases ht with rfl | rfl | rfl | rfl | rfl <;> rfl
        have h2 : Icmp.isIcmp4Info t = false := by
          rcases ht with rfl | rfl | rfl | rfl | rfl <;> rfl
        refine ⟨?_, h1⟩
        unfold tuple4
        simp only [h1, h2, Bool.false_eq_true, if_false, if_true]
        obtain ⟨is, id, il⟩ := i
        unfold inView4 at h
        unfold tupleErr4
        cases il with
        | udp s d => simp only [Option.some.injEq, Prod.mk.injEq] at h; obtain ⟨rfl, rfl, rfl⟩ := h; rfl
        | tcp s d => simp only [Option.some.injEq, Prod.mk.injEq] at h; obtain ⟨rfl, rfl, rfl⟩ := h; rfl
        | other => cases h
        | icmp t c n =>
          dsimp only at h ⊢
          split at h
          · rename_i ht; subst ht; cases h; rfl
          · split at h
            · rename_i ht; subst ht; cases h; rfl
            · cases h
      · cases h
  | _ => cases h

theorem xlat64_error {t c : Byte} {r} (h : Icmp.xlat64Type t c = some r) (ht : t = 1 ∨ t = 2 ∨ t = 3 ∨ t = 4) :
    r.1 = 3 ∨ r.1 = 4 ∨ r.1 = 5 ∨ r.1 = 11 ∨ r.1 = 12 := by
  unfold Icmp.xlat64Type at h
  rcases ht with rfl | rfl | rfl | rfl <;> simp at h
  all_goals repeat' split at h
  all_goals cases h
  all_goals simp

theorem xlat46_error {t c : Byte} {r} (h : Icmp.xlat46Type t c = some r) (ht : t = 3 ∨ t = 4 ∨ t = 5 ∨ t = 11 ∨ t = 12) :
    r.1 = 1 ∨ r.1 = 2 ∨ r.1 = 3 ∨ r.1 = 4 := by
  unfold Icmp.xlat46Type at h
  rcases ht with rfl | rfl | rfl | rfl | rfl <;> simp at h
  all_goals repeat' split at h
  all_goals obtain ⟨_, rfl⟩ := h
  all_goals simp

/-- The packet inside of the ICMP error, after the translation. -/
theorem innerL4_view6 {i : Inner Addr4} {k S D} (h : inView4 i = some (k, S, D)) {src dst l a b}
    (hl : innerL4 Icmp.xlat46Type src dst i.l4 = some l) :
    inView6 ⟨a, b, l⟩ = some (k, ⟨a, k.port dst src⟩, ⟨b, src⟩) := by
  obtain ⟨is, id, il⟩ := i
  unfold inView4 at h
  unfold innerL4 at hl
  cases il with
  | udp s d => cases h; cases hl; rfl
  | tcp s d => cases h; cases hl; rfl
  | other => cases h
  | icmp t c n =>
    dsimp only at h hl
    split at h
    · rename_i ht; subst ht; cases h; cases hl; rfl
    · split at h
      · rename_i ht; subst ht; cases h; cases hl; rfl
      · cases h

theorem innerL4_view4 {i : Inner Addr6} {k S D} (h : inView6 i = some (k, S, D)) {src dst l a b}
    (hl : innerL4 Icmp.xlat64Type src dst i.l4 = some l) :
    inView4 ⟨a, b, l⟩ = some (k, ⟨a, k.port dst src⟩, ⟨b, src⟩) := by
  obtain ⟨is, id, il⟩ := i
  unfold inView6 at h
  unfold innerL4 at hl
  cases il with
  | udp s d => cases h; cases hl; rfl
  | tcp s d => cases h; cases hl; rfl
  | other => cases h
  | icmp t c n =>
    dsimp only at h hl
    split at h
    · rename_i ht; subst ht; cases h; cases hl; rfl
    · split at h
      · rename_i ht; subst ht; cases h; cases hl; rfl
      · cases h

theorem translate4_quoted {cfg P c e k S D o q} (h : quoted4 e = some (k, S, D)) (hq : translate4 cfg P c e o = .ok q) :
    quoted6 q = some (k, ⟨o.dst.addr, k.port o.dst.port o.src.port⟩, ⟨o.src.addr, o.src.port⟩) ∧
    q.dst = o.dst.addr ∧
    some q.src = (if cfg.srcIcmp6errsBetter then rfc6052_4to6 P e.src else some o.src.addr) := by
  have he := (quoted4_tuple h).2
  obtain ⟨src, dst, l4⟩ := e
  unfold translate4 at hq
  cases hf : c.fail with
  | some x => rw [hf] at hq; cases hq
  | none =>
    rw [hf] at hq
    dsimp only at hq
    have hs : saddr6 cfg P ⟨src, dst, l4⟩ o = (if cfg.srcIcmp6errsBetter then rfc6052_4to6 P src else some o.src.addr) := by
      unfold saddr6
      rw [he, Bool.and_true]
    rw [hs] at hq
    generalize (if cfg.srcIcmp6errsBetter then rfc6052_4to6 P src else some o.src.addr) = sa at hq ⊢
    cases sa with
    | none => cases hq
    | some a =>
      dsimp only at hq
      unfold quoted4 at h
      cases l4 with
      | icmp t cd id i =>
        cases i with
        | none => cases h
        | some i =>
          dsimp only at h hq
          split at h
          · rename_i ht
            cases hx : Icmp.xlat46Type t cd with
            | none => rw [hx] at hq; cases hq
            | some x =>
              rw [hx] at hq
              have h2 : Icmp.isIcmp4Info t = false := by
                rcases ht with rfl | rfl | rfl | rfl | rfl <;> rfl
              simp only [h2, Bool.false_eq_true, if_false] at hq
              cases hl : innerL4 Icmp.xlat46Type o.src.port o.dst.port i.l4 with
              | none => rw [hl] at hq; cases hq
              | some l =>
                rw [hl] at hq
                cases hq
                refine ⟨?_, rfl, rfl⟩
                unfold quoted6
                dsimp only
                rw [if_pos (xlat46_error hx ht)]
                exact innerL4_view6 h hl
          · cases h
      | _ => cases h

theorem translate6_quoted {c e k S D o sa q} (h : quoted6 e = some (k, S, D)) (hq : translate6 c e o sa = .ok q) :
    quoted4 q = some (k, ⟨o.dst.addr, k.port o.dst.port o.src.port⟩, ⟨o.src.addr, o.src.port⟩) ∧
    q.dst = o.dst.addr ∧ q.src = sa.getD o.src.addr := by
  obtain ⟨src, dst, l4⟩ := e
  unfold translate6 at hq
  cases hf : c.fail with
  | some x => rw [hf] at hq; cases hq
  | none =>
    rw [hf] at hq
    dsimp only at hq
    unfold quoted6 at h
    cases l4 with
    | icmp t cd id i =>
      cases i with
      | none => cases h
      | some i =>
        dsimp only at h hq
        split at h
        · rename_i ht
          cases hx : Icmp.xlat64Type t cd with
          | none => rw [hx] at hq; cases hq
          | some x =>
            rw [hx] at hq
            have h2 : Icmp.isIcmp6Info t = false := by
              rcases ht with rfl | rfl | rfl | rfl <;> rfl
            simp only [h2, Bool.false_eq_true, if_false] at hq
            cases hl : innerL4 Icmp.xlat64Type o.src.port o.dst.port i.l4 with
            | none => rw [hl] at hq; cases hq
            | some l =>
              rw [hl] at hq
              cases hq
              refine ⟨?_, rfl, rfl⟩
              unfold quoted4
              dsimp only
              rw [if_pos (xlat64_error hx ht)]
              exact innerL4_view4 h hl
        · cases h
    | _ => cases h

/-- **C53**, errors from IPv4. If the error is translated: the quoted packet came from (a pool4 address of) a BIB entry; the
translated error goes to that entry's node, and quotes the packet as the node sent it. Nothing else changes. The translated error comes
from the address that contains the IPv4 address of the error's sender, or from the quoted destination, as configured. -/
theorem error46 {cfg s c e r P k S D q} (hP : cfg.pool6 = some P) (h : quoted4 e = some (k, S, D))
    (hr : core4 cfg s c e = .ok r) (hq : r.out = .sent6 q) :
    r.st = s ∧ r.ev = [] ∧ Pool4.contains cfg.own s.pool4 k.proto S = true ∧
    ∃ b ∈ bibs s k.proto, b.src4 = S ∧ q.dst = b.src6.addr ∧ ∃ a, rfc6052_4to6 P D.addr = some a ∧
      quoted6 q = some (k, b.src6, ⟨a, k.port D.port b.src6.port⟩) ∧
      some q.src = (if cfg.srcIcmp6errsBetter then rfc6052_4to6 P e.src else some a) := by
  obtain ⟨ht, he⟩ := quoted4_tuple h
  rcases core4_common hr with ⟨_, _, w, h'⟩ | ⟨P', _, hP', hc⟩
  · rw [hq] at h'; cases h'
  · rw [hP] at hP'; cases hP'
    rcases common4_fu hc with ⟨e, _, rfl⟩ | ⟨t, f, ht', F, rfl⟩
    · exact absurd hq ((out_not_sent e).2.1 q)
    · rw [ht] at ht'
      injection ht' with ht'; subst ht'
      obtain ⟨known, o, hk, ho, hq'⟩ := finish4_sent (fun e q => (out_not_sent e).2.1 q) hq
      cases F with
      | refused e => simp [Fu.stop] at hk
      | update he' => rw [he] at he'; cases he'
      | error _ hpool =>
        cases hk
        refine ⟨(finish4_st ..).1, (finish4_st ..).2, hpool, ?_⟩
        unfold compute4 at ho
        dsimp only at ho
        cases hfi : Bib.find4 (s.tables k.proto) S with
        | none => rw [hfi] at ho; cases ho
        | some b =>
          rw [hfi] at ho
          dsimp only at ho
          cases ha : rfc6052_4to6 P D.addr with
          | none => rw [ha] at ho; cases ho
          | some a =>
            rw [ha] at ho
            cases ho
            obtain ⟨V, hd, hsr⟩ := translate4_quoted h hq'
            obtain ⟨hb, hbs⟩ := Bib.find4_some hfi
            refine ⟨b, hb, hbs, hd, a, rfl, ?_, hsr⟩
            rw [V]
            dsimp only
            rw [Kind.port_if]
            have : k.port b.src6.port (k.port D.port b.src6.port) = b.src6.port := by cases k <;> rfl
            rw [this]

/-- **C53**, errors from IPv6, which are sent to IPv4. The quoted packet went to a BIB entry's node; the translated error goes to the
quoted source, comes from the entry's pool4 address, and quotes the packet as the source sent it. Nothing else changes. -/
theorem error64 {cfg s c c2 e r P k S D q} (hs : Reach s) (hP : cfg.pool6 = some P) (h : quoted6 e = some (k, S, D))
    (hr : core6 cfg s c c2 e = .ok r) (hq : r.out = .sent4 q) :
    r.st = s ∧
    ∃ b ∈ bibs s k.proto, b.src6 = D ∧ q.src = b.src4.addr ∧ ∃ a, rfc6052_6to4 P S.addr = some a ∧ q.dst = a ∧
      quoted4 q = some (k, ⟨a, k.port S.port b.src4.port⟩, b.src4) := by
  have g := reach_good hs
  obtain ⟨ht, he⟩ := quoted6_tuple h
  obtain ⟨f, known, o, F, hk, ho, hq', hh, hst⟩ := core6_sent4 g hP ht hr hq
  cases F with
  | refused e => simp [Fu.stop] at hk
  | update he' => rw [he] at he'; cases he'
  | error =>
    cases hk
    refine ⟨hst, ?_⟩
    unfold compute6 at ho
    dsimp only at ho
    cases hfi : Bib.find6 (s.tables k.proto) D with
    | none => rw [hfi] at ho; cases ho
    | some b =>
      rw [hfi] at ho
      dsimp only at ho
      cases ha : rfc6052_6to4 P S.addr with
      | none => rw [ha] at ho; cases ho
      | some a =>
        rw [ha] at ho
        cases ho
        obtain ⟨V, hd, hsr⟩ := translate6_quoted h hq'
        obtain ⟨hb, hbs⟩ := Bib.find6_some hfi
        refine ⟨b, ((g.wf _).same b).1 hb, hbs, hsr, a, rfl, hd, ?_⟩
        rw [V]
        dsimp only
        rw [Kind.port_if, Kind.port_port]

/-- **C53** (round trip of errors). Let `q` be the IPv4 packet that was sent for the IPv6 packet `p`. At any later time at which
the BIB entry is still listed, an ICMP error that quotes `q`, if it is translated, goes to the sender of `p` and quotes `p` (with the
destination as the translator writes it). -/
theorem error_roundtrip {cfg s c c2 p r P k S D q} (hs : Reach s) (hP : cfg.pool6 = some P) (h : view6 p = some (k, S, D))
    (hr : core6 cfg s c c2 p = .ok r) (hq : r.out = .sent4 q) :
    ∃ b ∈ bibs r.st k.proto, ∃ d, view4 q = some (k, b.src4, d) ∧ ∃ x : Addr6, (x = D.addr ↔ Rfc6052Spec.Canonical P.len D.addr) ∧
      ∀ cfg' s' c' e r' e', Reach s' → cfg'.pool6 = some P → quoted4 e = some (k.noFlags, b.src4, d) →
        b ∈ bibs s' k.proto → core4 cfg' s' c' e = .ok r' → r'.out = .sent6 e' →
        e'.dst = p.src ∧ quoted6 e' = some (k.noFlags, S, ⟨x, D.port⟩) ∧ r'.st = s' := by
  obtain ⟨b, hb, hbs, a, ha, V, _⟩ := translated64 hs hP h hr hq
  have hl := ((rfc6052_6to4_correct _ _ _).1 ha).1
  obtain ⟨x, hx, hx'⟩ := rfc6052_roundtrip P a hl
  refine ⟨b, hb, _, V, x, ?_, ?_⟩
  · rw [← rfc6052_extract_embed P D.addr a ha, hx]
    simp only [Option.some.injEq]
  · intro cfg' s' c' e r' e' hs' hP' h' hb' hr' hq''
    have hk : k.noFlags.proto = k.proto := by cases k <;> rfl
    obtain ⟨h1, _, _, b', hb1, hb2, h2, a', ha', h3, _⟩ := error46 hP' h' hr' hq''
    rw [hk] at hb1
    have : b' = b := ((reach_good hs').wf _).uniq4 hb1 hb' hb2
    subst this
    dsimp only at ha'
    rw [hx] at ha'; cases ha'
    refine ⟨by rw [h2, hbs]; exact (view6_tuple h).2.2.1, ?_, h1⟩
    rw [h3, hbs]
    have hport : k.noFlags.port (k.port D.port b'.src4.port) S.port = D.port := by
      rcases view6_port h with hne | he
      · cases k <;> first | rfl | exact absurd rfl hne
      · rw [he]; cases k <;> rfl
    rw [hport]

end Nat64
end Jool
