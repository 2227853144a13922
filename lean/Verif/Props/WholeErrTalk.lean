import Verif.Props.WholeErr
/-
C84: errors about the packets of a conversation.
-/
namespace Jool.Whole
open Jool.Pkt (Byte L4 Meta Acc at8 at16)
open Jool.Nat64 (Port Fu Tuple)
open Jool.Nat64Spec
open Jool.WireSpec
open Jool.WholeSpec
open Jool.Bib (SessKey Answerable)

set_option linter.unusedVariables false

/-! ## The beginning of a packet says what the packet says -/

theorem field_take {d : List Byte} {m k n : Nat} (h : k + n ≤ m) : field (d.take m) k n = field d k n := by
  unfold field
  rw [List.drop_take, List.take_take, Nat.min_eq_left (by omega)]

theorem says_take {req rep icmp n m j : Nat} {d : List Byte} {k : Kind} {s t : Port} (hm : j + 14 ≤ m) (h : Says req rep icmp n (d.drop j) k s t) :
    Says req rep icmp n ((d.take m).drop j) k s t := by
  have e : ∀ i w, i + w ≤ 14 → field ((d.take m).drop j) i w = field (d.drop j) i w := by
    intro i w hi
    rw [Wire.field_drop, Wire.field_drop, field_take (by omega)]
  cases k with
  | udp => obtain ⟨h1, h2, h3⟩ := h; exact ⟨h1, by rw [e _ _ (by omega)]; exact h2, by rw [e _ _ (by omega)]; exact h3⟩
  | tcp a b c =>
    obtain ⟨h1, h2, h3, h4⟩ := h
    exact ⟨h1, by rw [e _ _ (by omega)]; exact h2, by rw [e _ _ (by omega)]; exact h3, by rw [e _ _ (by omega)]; exact h4⟩
  | request => obtain ⟨h1, h2, h3, h4⟩ := h; exact ⟨h1, by rw [e _ _ (by omega)]; exact h2, by rw [e _ _ (by omega)]; exact h3, h4⟩
  | reply => obtain ⟨h1, h2, h3, h4⟩ := h; exact ⟨h1, by rw [e _ _ (by omega)]; exact h2, by rw [e _ _ (by omega)]; exact h3, h4⟩

/-- The part of a packet that an ICMP error returns is from and to where the packet was. -/
theorem is4_take {o : List Byte} {m : Nat} {k : Kind} {S D : T4} (h20 : 20 ≤ m) (hm : WireSpec.l4 o + 14 ≤ m) (h : Is4 o k S D) : Is4 (o.take m) k S D := by
  have hl : WireSpec.l4 (o.take m) = WireSpec.l4 o := by unfold WireSpec.l4 words4; rw [field_take (by omega)]
  obtain ⟨h1, h2, h3, h4⟩ := h
  refine ⟨?_, ?_, ?_, ?_⟩
  · rw [← h1]; unfold off4; rw [field_take (by omega)]
  · rw [← h2]; unfold src4; rw [field_take (by omega)]
  · rw [← h3]; unfold dst4; rw [field_take (by omega)]
  · rw [hl]
    have : proto4 (o.take m) = proto4 o := by unfold proto4; rw [field_take (by omega)]
    rw [this]
    exact says_take hm h4

theorem headers_le {d : List Byte} {off nh l n : Nat} {f : Option Nat} (h : Headers d off nh f l n) : off ≤ l := by
  induction h with
  | last => exact Nat.le_refl _
  | frag => omega
  | skip _ _ ih => omega

theorem headers_take {d : List Byte} {off nh l n m : Nat} {f : Option Nat} (h : Headers d off nh f l n) (hm : l ≤ m) : Headers (d.take m) off nh f l n ∧ offAt (d.take m) f = offAt d f := by
  induction h with
  | last hn => exact ⟨.last hn, rfl⟩
  | frag hn =>
    rw [← field_take (m := m) (by omega)] at hn ⊢
    refine ⟨.frag hn, ?_⟩
    show foff _ _ = foff _ _
    unfold foff
    rw [field_take (by omega)]
  | skip hn hr ih =>
    have := headers_le hr
    obtain ⟨h1, h2⟩ := ih hm
    refine ⟨.skip hn ?_, h2⟩
    rw [field_take (by omega), field_take (by omega)]
    exact h1

theorem is6_take {o : List Byte} {m : Nat} {fh : Option Nat} {l n : Nat} {k : Kind} {S D : T6} (hm : l + 14 ≤ m) (h : Is6 o fh l n k S D) : Is6 (o.take m) fh l n k S D := by
  obtain ⟨h0, h1, h2, h3, h4⟩ := h
  have := headers_le h0
  obtain ⟨g1, g2⟩ := headers_take (m := m) h0 (by omega)
  refine ⟨?_, by rw [g2, h1], ?_, ?_, says_take hm h4⟩
  · have : next6 (o.take m) = next6 o := by unfold next6; rw [field_take (by omega)]
    rw [this]; exact g1
  · rw [← h2]; unfold src6; rw [field_take (by omega)]
  · rw [← h3]; unfold dst6; rw [field_take (by omega)]

/-! ## Errors about packets that left -/

variable {cfg : Nat64.Cfg} {P : Prefix6} {s : Nat64.St} {c : Nat64.Ctx} {x : Wire.Ctx} {segleft : Option Nat} {p : Build.P} {a : Acc} {s0 : Pkt.Skb} {k : Kind}

/-- **C84.** Some bytes `s0` from an IPv6 node leave as some bytes `o`. From then on, as long as the BIB entry is listed, an ICMPv4 error about `o` (or about the beginning of
it: `is4_take`; or about another packet from the same port to the same port), if its headers can be translated, leaves as an ICMPv6 error to the node, about a packet
from the address and port in `s0` to the address and port in `s0`. (If that address has bits which no IPv4 address determines, it is the one without them.) -/
theorem complained64_partial {fh : Option Nat} {l n : Nat} {S D : T6} {r : Res} {o : List Byte} (hs : Reach s) (hA : Active cfg P) (A : Arrives6 s0 a p)
    (I : Is6 s0.data fh l n k S D) (hr : pass6 cfg P s c x segleft p a = .ok r) (ho : r.fate = .sent o) :
    ∃ b ∈ bibs r.st k.proto, ∃ (d : T4) (w : Addr6), Is4 o k b.src4 d ∧ b.src6 = S ∧ (w = D.addr ↔ Rfc6052Spec.Canonical P.len D.addr) ∧ rfc6052_6to4 P w = rfc6052_6to4 P D.addr ∧
      ∀ cfg' s' c' x' y' s0' a' p' i' k', Reach s' → Error4 s0' a' p' i' k' b.src4 d → k'.proto = k.proto → b ∈ bibs s' k.proto →
        Pool4.contains cfg'.own s'.pool4 k.proto b.src4 = true → c'.fail = none → c'.sendFails = false → Passes46 x' s0'.data →
        ∃ r' o' src, passErr4 cfg' P s' c' x' y' p' a' i' = .ok r' ∧ r'.fate = .sent o' ∧ r'.st = s' ∧ rfc6052_4to6 P (senderOf cfg' s0'.data d) = some src ∧
          ErrSent46 (assign x' D.port S.port) (turned y' D.port S.port) src S.addr S.addr w s0'.data o' ∧
          ∃ q fh', Is6 q fh' (l6 (about4 s0'.data)) (to6 (proto4 (about4 s0'.data))) k' S ⟨w, D.port⟩ ∧
            IcmpExt.Good 8 1280 48 (noExt46 s0'.data) (field s0'.data (WireSpec.l4 s0'.data + 5) 1 * 4) (about4 s0'.data) q (.ok (o'.drop 48) (field o' 44 1)) := by
  obtain ⟨b, hb, a4, g1, g2, g3, g4⟩ := out64_partial hs hA A I hr ho
  have hl := ((rfc6052_6to4_correct _ _ _).1 g2).1
  obtain ⟨w, hw, hw'⟩ := rfc6052_roundtrip P a4 hl
  refine ⟨b, hb, _, w, g3, g1, ?_, by rw [hw', g2], ?_⟩
  · rw [← rfc6052_extract_embed P D.addr a4 g2, hw]
    simp only [Option.some.injEq]
  · intro cfg' s' c' x' y' s0' a' p' i' k' hs' E hk hb' hp hf hsf hpass
    obtain ⟨r', e1, e2, -, e3, e4⟩ := error46_partial (cfg := cfg') (P := P) (c := c') (x := x') (y := y') hs' E
    rw [hk] at e3 e4
    obtain ⟨o', ho'⟩ := e3.2 ⟨hp, ⟨b, hb', rfl⟩, hl, hf, hsf, hpass⟩
    obtain ⟨b', hb1, hb2, a6, src, f1, f2, f3, f4⟩ := e4 o' ho'
    have : b' = b := ((Nat64.reach_good hs').wf _).uniq4 hb1 hb' hb2
    subst this
    dsimp only at f1
    rw [hw] at f1; cases f1
    have hport : k'.port (k.port D.port b'.src4.port) b'.src6.port = D.port := by
      have sg := I.seg
      rw [g1]
      cases k <;> cases k' <;> first | rfl | exact sg.2.2.2.symm | exact absurd hk (by simp [Kind.proto])
    dsimp only at f3 f4
    rw [hport, g1] at f3 f4
    exact ⟨r', o', src, e1, ho', e2, f2, f3, f4⟩

/-- **C84.** Some bytes `s0` from an IPv4 node leave as some bytes `o`, to an IPv6 node. From then on, as long as the BIB entry is listed, an ICMPv6 error about `o` (or the
beginning of it, …) that leaves, leaves as an ICMPv4 error to the IPv4 node, about a packet from the address and port in `s0` to the address and port in `s0`. -/
theorem complained46_partial {S D : T4} {r : Res} {o : List Byte} (hA : Active cfg P) (A : Arrives4 s0 a p) (I : Is4 s0.data k S D)
    (hr : pass4 cfg P s c x p a = .ok r) (ho : r.fate = .sent o) :
    ∃ b ∈ bibs r.st k.proto, ∃ d : T6, (∃ fh, Is6 o fh (l6 s0.data) (to6 (proto4 s0.data)) k d b.src6) ∧ b.src4 = D ∧
      ∀ cfg' s' c' x' y' sel2 segleft' s0' a' p' i' L fh il n k', Reach s' → Error6 s0' a' p' i' L fh il n k' d b.src6 → k'.proto = k.proto → b ∈ bibs s' k.proto →
        ∃ r', passErr6 cfg' P s' c' x' y' sel2 segleft' p' a' i' = .ok r' ∧ r'.st = s' ∧
          ((∃ o', r'.fate = .sent o') ↔ prefix6Contains P (BitVec.ofNat 128 (src6 s0'.data)) = false ∧ prefix6Contains P (BitVec.ofNat 128 (dst6 s0'.data)) = true ∧
            c'.fail = none ∧ c'.sendFails = false ∧ Passes64 x' segleft' s0'.data L ∧ Pool4.contains cfg'.own s'.pool4 k.proto S = false) ∧
          ∀ o', r'.fate = .sent o' → ErrSent64 (assign x' D.port S.port) (turned y' D.port S.port) D.addr S.addr S.addr D.addr s0'.data L fh il n o' ∧
            ∃ q, Is4 q k' S D ∧
              (ext6 (byte s0'.data L) = true → IcmpExt.Good 4 576 28 false (field s0'.data (L + 4) 1 * 8) (s0'.data.drop (L + 8)) q (.ok (o'.drop 28) (field o' 25 1))) ∧
              (ext6 (byte s0'.data L) = false → o'.drop 28 = q.take 548) := by
  obtain ⟨-, b, -, hb, a6, g1, g2, g3, g4⟩ := out46_partial hA A I hr ho
  refine ⟨b, hb, _, g3, g1, ?_⟩
  intro cfg' s' c' x' y' sel2 segleft' s0' a' p' i' L fh il n k' hs' E hk hb'
  have hext : rfc6052_6to4 P a6 = some S.addr := by
    obtain ⟨z, h1, h2⟩ := rfc6052_roundtrip P S.addr ((rfc6052_4to6_correct _ _ _).1 g2).1
    rw [g2] at h1; cases h1; exact h2
  have hport : k'.port (k.port S.port b.src6.port) b.src4.port = S.port := by
    have sg := I.seg
    rw [g1]
    cases k <;> cases k' <;> first | rfl | exact sg.2.2.2 | exact absurd hk (by simp [Kind.proto])
  have hS : (⟨S.addr, S.port⟩ : T4) = S := by cases S; rfl
  have g := Nat64.reach_good hs'
  obtain ⟨r', e1, e2, -, e3, e4⟩ := error64_partial (cfg := cfg') (P := P) (c := c') (x := x') (y := y') (sel2 := sel2) (segleft := segleft') hs' E
  rw [hk] at e3 e4
  have key : ∀ o', (r'.fate = .sent o' ∨ ∃ t, r'.fate = .hairpin o' t) → (r'.fate = .sent o' ↔ Pool4.contains cfg'.own s'.pool4 k.proto S = false) ∧
      ErrSent64 (assign x' D.port S.port) (turned y' D.port S.port) D.addr S.addr S.addr D.addr s0'.data L fh il n o' ∧
            ∃ q, Is4 q k' S D ∧
              (ext6 (byte s0'.data L) = true → IcmpExt.Good 4 576 28 false (field s0'.data (L + 4) 1 * 8) (s0'.data.drop (L + 8)) q (.ok (o'.drop 28) (field o' 25 1))) ∧
              (ext6 (byte s0'.data L) = false → o'.drop 28 = q.take 548) := by
    intro o' ho'
    obtain ⟨b', hb1, hb2, a4, f1, f2, f3, f4, f5⟩ := e4 o' ho'
    have : b' = b := (g.wf _).uniq6 hb1 hb' hb2
    subst this
    dsimp only at f1
    rw [hext] at f1; cases f1
    dsimp only at f2 f3 f4 f5
    rw [hport] at f2 f4 f5
    rw [hS] at f2 f5
    rw [g1] at f4 f5
    exact ⟨f2, f4, f5⟩
  refine ⟨r', e1, e2, ⟨?_, ?_⟩, fun o' ho' => (key o' (.inl ho')).2⟩
  · rintro ⟨o', ho'⟩
    have h1 := (key o' (.inl ho')).1.1 ho'
    obtain ⟨q1, q2, q3, q4, b', hb1, hb2, a4, q5, q6⟩ := e3.1 ⟨o', .inl ho'⟩
    have : b' = b := (g.wf _).uniq6 hb1 hb' hb2
    subst this
    dsimp only at q5
    rw [hext] at q5; cases q5
    dsimp only at q6
    rw [hport, hS, h1] at q6
    refine ⟨q1, q2, q3, ?_, q4, h1⟩
    cases h : c'.sendFails with
    | false => rfl
    | true => exact absurd (q6 h) (by simp)
  · rintro ⟨q1, q2, q3, q4, q5, q6⟩
    obtain ⟨o', ho'⟩ := e3.2 ⟨q1, q2, q3, q5, b, hb', rfl, S.addr, hext, by rw [q4]; intro h; cases h⟩
    exact ⟨o', (key o' ho').1.2 q6⟩

end Jool.Whole
