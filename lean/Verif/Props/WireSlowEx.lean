import Verif.Props.WireSlow
import Verif.Props.WireEx
/-
C88: datagrams without checksum that are split, packets that fulfil the hypotheses, and the ones that are not translated as they should.
-/
namespace Jool.Wire
open Jool.Pkt (Byte L4 Meta Acc)
open Jool.Csum (Kernel Summed Z S)
open Jool.Build (Holds place place_holds got)
open Jool.WireSpec

theorem bytes2_even (n : Nat) : (CsumSpec.bytes 2 n).length % 2 = 0 := by
  unfold CsumSpec.bytes
  rw [List.length_map, List.length_reverse, List.length_range]

theorem S_bytes2 {n : Nat} (h : n < 65536) : S false (CsumSpec.bytes 2 n) = (n : Z) := by
  have e : CsumSpec.bytes 2 n = [BitVec.ofNat 8 (n / 256), BitVec.ofNat 8 n] := by
    have : CsumSpec.bytes 2 n = [BitVec.ofNat 8 (n / 256 ^ 1), BitVec.ofNat 8 (n / 256 ^ 0)] := rfl
    rw [this, Nat.pow_one, Nat.pow_zero, Nat.div_one]
  rw [e]
  unfold S
  simp only [Csum.wsum, Csum.w16, Bool.false_eq_true, if_false, BitVec.toNat_ofNat]
  congr 1
  omega

theorem lenProto_add {a b : Nat} (h : a + b < 65536) (k : Byte) : Csum.lenProto false (a + b) k = Csum.lenProto false a k + (b : Z) := by
  have e : ∀ n, n < 65536 → S false (Csum.be16 (BitVec.ofNat 16 n)) = (n : Z) := by
    intro n hn
    rw [← Csum.bytes2, BitVec.toNat_ofNat, Nat.mod_eq_of_lt hn, S_bytes2 hn]
  unfold Csum.lenProto
  rw [e _ h, e a (by omega)]
  push_cast
  ring

/-- The checksum of the beginning of a datagram is that of the datagram if and only if the rest of it, and its length, do not add anything. -/
theorem first_only {s6 d6 : BitVec 128} {c r : List Byte} (he : c.length % 2 = 0) (hr : r ≠ []) (hs : c.length + r.length < 65536)
    (hc : CsumSpec.Valid (CsumSpec.ph6 s6 d6 c.length 17#8 ++ c)) :
    CsumSpec.Valid (CsumSpec.ph6 s6 d6 (c ++ r).length 17#8 ++ (c ++ r)) ↔ CsumSpec.Valid (CsumSpec.bytes 2 r.length ++ r) := by
  have hrl : 0 < r.length := List.length_pos_iff.2 hr
  rw [Csum.valid_iff false] at hc ⊢
  rw [Csum.valid_iff false (CsumSpec.bytes 2 r.length ++ r)]
  rw [Csum.ph6_eq] at hc ⊢
  have h1 := hc.1
  rw [Csum.S_p6 false s6 d6 (by omega)] at h1
  rw [Csum.S_p6 false s6 d6 (by rw [List.length_append]; omega), List.length_append, lenProto_add (by omega), Csum.S_append false he,
    Csum.S_append false (bytes2_even _), S_bytes2 (by omega)]
  have nz : ¬ Csum.allZero (CsumSpec.bytes 2 r.length ++ r) := by
    intro q
    have e : CsumSpec.bytes 2 r.length = [BitVec.ofNat 8 (r.length / 256 ^ 1), BitVec.ofNat 8 (r.length / 256 ^ 0)] := rfl
    have q1 := q (BitVec.ofNat 8 (r.length / 256 ^ 1)) (by rw [e]; simp)
    have q2 := q (BitVec.ofNat 8 (r.length / 256 ^ 0)) (by rw [e]; simp)
    have q1 := congrArg BitVec.toNat q1
    have q2 := congrArg BitVec.toNat q2
    simp only [BitVec.toNat_ofNat] at q1 q2
    omega
  constructor
  · rintro ⟨q, -⟩
    exact ⟨by linear_combination q - h1, nz⟩
  · rintro ⟨q, -⟩
    exact ⟨by linear_combination q + h1, Csum.pseudo6_nonzero (by decide) _⟩

theorem joined_cons (o : List Byte) (os : List (List Byte)) : joined (o :: os) = o.drop 48 ++ joined os := by
  unfold joined
  rw [List.map_cons, List.flatten_cons]

/-- **C88.** A datagram without checksum that is split: whoever puts it together again finds the right checksum if and only if what is not in the first piece, together with
its length, adds up to (one's complement) zero. -/
theorem bare_right {x : Ctx} {s6 d6 : BitVec 128} {mpl : Nat} {d o : List Byte} {os : List (List Byte)} (h : Split46 x s6 d6 mpl d (o :: os)) (hb : Bare d) (hl : d.length < 65536) :
    CsumSpec.Valid (CsumSpec.ph6 s6 d6 (joined (o :: os)).length 17#8 ++ joined (o :: os)) ↔ CsumSpec.Valid (CsumSpec.bytes 2 (joined os).length ++ joined os) := by
  have hsz := h.size
  have hp := h.pieces
  have htwo := h.several
  rw [joined_cons] at hsz ⊢
  cases os with
  | nil => simp at htwo
  | cons o2 os =>
    have h2 := hp.2.1
    have hoff := h2.off
    have hsome := h2.some_
    have hfirst := hp.1.some_
    refine first_only ?_ ?_ ?_ (h.bare hb o rfl)
    · rw [List.length_drop]
      omega
    · rw [joined_cons]
      intro q
      have := congrArg List.length q
      rw [List.length_append, List.length_drop, List.length_nil] at this
      omega
    · rw [← List.length_append, hsz]
      omega

/-- **C88, defect.** If that part is zeroes (any number of them), the datagram is wrong. -/
theorem bare_wrong {x : Ctx} {s6 d6 : BitVec 128} {mpl : Nat} {d o : List Byte} {os : List (List Byte)} (h : Split46 x s6 d6 mpl d (o :: os)) (hb : Bare d) (hl : d.length < 65535)
    (hz : ∀ b ∈ joined os, b = 0#8) : ¬ CsumSpec.Valid (CsumSpec.ph6 s6 d6 (joined (o :: os)).length 17#8 ++ joined (o :: os)) := by
  rw [bare_right h hb (by omega), Csum.valid_iff false]
  have hsz := h.size
  have hp := h.pieces
  have htwo := h.several
  rw [joined_cons, List.length_append] at hsz
  have hpos : 0 < (joined os).length := by
    cases os with
    | nil => simp at htwo
    | cons o2 os =>
      have hsome := hp.2.1.some_
      rw [joined_cons, List.length_append, List.length_drop]
      omega
  rw [Csum.S_append false (bytes2_even _), S_bytes2 (by omega)]
  have e : S false (joined os) = 0 := by
    have : ∀ l : List Byte, (∀ b ∈ l, b = 0#8) → Csum.wsum false l = 0 := by
      intro l
      induction l using Csum.wsum.induct with
      | case1 => intro _; rfl
      | case2 a => intro q; rw [q a (by simp)]; rfl
      | case3 a b t ih =>
        intro q
        rw [Csum.wsum, ih (fun c hc => q c (by simp [hc])), q a (by simp), q b (by simp)]
        rfl
    unfold S
    rw [this _ hz]
    rfl
  rw [e, add_zero, Csum.cast_zero]
  omega

/-! ## Packets that fulfil the hypotheses -/

/-- 1400 bytes of payload; `flags`: the flags of the IPv4 header; `ck`: the checksum of the datagram. -/
def exBig (flags : Byte) (ck : List Byte) (b : Byte) : Pkt.Skb :=
  ⟨[0x45#8, 0#8, 5#8, 0x94#8, 1#8, 2#8, flags, 0#8, 64#8, 17#8, 0#8, 0#8] ++ List.replicate 8 1#8 ++ ([19#8, 136#8, 0#8, 53#8, 5#8, 0x80#8] ++ ck ++ List.replicate 1400 b), 1428⟩

/-- A translator that computes missing checksums. -/
def exAmend : Ctx := { exCtx with nat64 := true, amend := true }

/-- Without DF, over a link of 1500 bytes, and lowest-ipv6-mtu is 1280: it is split. -/
example (s6 d6 : BitVec 128) : ∃ os, forward46 exCtx s6 d6 1500#32 1280#32 (place (got (Pkt.init4 (exBig 0#8 [7#8, 7#8] 7#8))) 16) (got (Pkt.init4 (exBig 0#8 [7#8, 7#8] 7#8))) = .ok (.sent os) ∧
    Split46 exCtx s6 d6 1280 (exBig 0#8 [7#8, 7#8] 7#8).data os := by
  have h : Pkt.init4 (exBig 0#8 [7#8, 7#8] 7#8) = some (got (Pkt.init4 (exBig 0#8 [7#8, 7#8] 7#8))) := by decide +kernel
  obtain ⟨r, h1, -, -, h4, h5⟩ := forward46_partial (x := exCtx) (n := 1448) s6 d6 1500#32 1280#32 h (by decide +kernel) (place_holds 16 (by decide +kernel)) (by decide +kernel) (by decide +kernel)
    (by decide +kernel) (by decide +kernel) (by decide +kernel) (by decide +kernel) (by decide +kernel) rfl
  obtain ⟨os, rfl⟩ := h4.2 ⟨by decide, by decide +kernel, rfl, fun _ => by decide +kernel, by decide +kernel, by decide +kernel⟩
  exact ⟨os, h1, (h5 os rfl).2.2 (by decide +kernel) (by decide)⟩

/-- With DF, over a link of 1400 bytes: its sender is told that 1380 bytes fit. -/
example (s6 d6 : BitVec 128) : forward46 exCtx s6 d6 1400#32 1280#32 (place (got (Pkt.init4 (exBig 64#8 [7#8, 7#8] 7#8))) 16) (got (Pkt.init4 (exBig 64#8 [7#8, 7#8] 7#8))) = .ok (.tooBig 1380) := by
  have h : Pkt.init4 (exBig 64#8 [7#8, 7#8] 7#8) = some (got (Pkt.init4 (exBig 64#8 [7#8, 7#8] 7#8))) := by decide +kernel
  obtain ⟨r, h1, -, h3, -⟩ := forward46_partial (x := exCtx) (n := 1448) s6 d6 1400#32 1280#32 h (by decide +kernel) (place_holds 16 (by decide +kernel)) (by decide +kernel) (by decide +kernel)
    (by decide +kernel) (by decide +kernel) (by decide +kernel) (by decide +kernel) (by decide +kernel) rfl
  rw [h1, (h3 1380).2 ⟨by decide, by decide +kernel, by decide, rfl⟩]

/-- With DF, over a link of 1500 bytes: it is one packet, though lowest-ipv6-mtu is 1280. -/
example (s6 d6 : BitVec 128) : ∃ o, forward46 exCtx s6 d6 1500#32 1280#32 (place (got (Pkt.init4 (exBig 64#8 [7#8, 7#8] 7#8))) 16) (got (Pkt.init4 (exBig 64#8 [7#8, 7#8] 7#8))) = .ok (.sent [o]) ∧
    Sent46 exCtx s6 d6 (exBig 64#8 [7#8, 7#8] 7#8).data o := by
  have h : Pkt.init4 (exBig 64#8 [7#8, 7#8] 7#8) = some (got (Pkt.init4 (exBig 64#8 [7#8, 7#8] 7#8))) := by decide +kernel
  obtain ⟨r, h1, -, -, h4, h5⟩ := forward46_partial (x := exCtx) (n := 1448) s6 d6 1500#32 1280#32 h (by decide +kernel) (place_holds 16 (by decide +kernel)) (by decide +kernel) (by decide +kernel)
    (by decide +kernel) (by decide +kernel) (by decide +kernel) (by decide +kernel) (by decide +kernel) rfl
  obtain ⟨os, rfl⟩ := h4.2 ⟨by decide, by decide +kernel, rfl, fun _ => by decide +kernel, by decide +kernel, by decide +kernel⟩
  obtain ⟨o, rfl, ho⟩ := (h5 os rfl).2.1 (Or.inl (by decide +kernel))
  exact ⟨o, h1, ho⟩

/-- **C88, defect.** A datagram without checksum, and 1400 zeroes in it: a translator that computes checksums sends two packets, and the datagram that they make has a wrong one. -/
theorem bare_witness (s6 d6 : BitVec 128) : ∃ os, forward46 exAmend s6 d6 1500#32 1280#32 (place (got (Pkt.init4 (exBig 0#8 [0#8, 0#8] 0#8))) 16)
      (got (Pkt.init4 (exBig 0#8 [0#8, 0#8] 0#8))) = .ok (.sent os) ∧
    ¬ CsumSpec.Valid (CsumSpec.ph6 s6 d6 (joined os).length 17#8 ++ joined os) := by
  have h : Pkt.init4 (exBig 0#8 [0#8, 0#8] 0#8) = some (got (Pkt.init4 (exBig 0#8 [0#8, 0#8] 0#8))) := by decide +kernel
  obtain ⟨r, h1, -, -, h4, h5⟩ := forward46_partial (x := exAmend) (n := 1448) s6 d6 1500#32 1280#32 h (by decide +kernel) (place_holds 16 (by decide +kernel)) (by decide +kernel) (by decide +kernel)
    (by decide +kernel) (by decide +kernel) (by decide +kernel) (by decide +kernel) (by decide +kernel) rfl
  obtain ⟨os, rfl⟩ := h4.2 ⟨by decide, by decide +kernel, rfl, fun _ => by decide +kernel, by decide +kernel, by decide +kernel⟩
  have hS := (h5 os rfl).2.2 (by decide +kernel) (by decide)
  refine ⟨os, h1, ?_⟩
  have hb : Bare (exBig 0#8 [0#8, 0#8] 0#8).data := by unfold Bare; decide +kernel
  cases os with
  | nil => have := hS.several; simp at this
  | cons o os =>
    refine bare_wrong hS hb (by decide +kernel) ?_
    intro b hbm
    have hseg := hS.seg.udp (by decide +kernel) (by decide +kernel)
    have htwo := hS.several
    have hp := hS.pieces
    have h8 : 8 ≤ (o.drop 48).length := by
      cases os with
      | nil => simp at htwo
      | cons o2 os =>
        have hoff := hp.2.1.off
        have hsome := hp.1.some_
        rw [List.length_drop]
        omega
    have e : (joined (o :: os)).drop 8 = List.replicate 1400 0#8 := by
      have e : (joined (o :: os)).drop 8 = (ported exAmend.ports ((exBig 0#8 [0#8, 0#8] 0#8).data.drop (l4 (exBig 0#8 [0#8, 0#8] 0#8).data))).drop 8 := by
        apply List.ext_getElem?
        intro i
        rw [List.getElem?_drop, List.getElem?_drop]
        exact hseg.2 _ (by omega) (by omega)
      rw [e]
      decide +kernel
    rw [joined_cons, List.drop_append_of_le_length h8] at e
    exact List.eq_of_mem_replicate (n := 1400) (by rw [← e]; exact List.mem_append_right _ hbm)

end Jool.Wire
