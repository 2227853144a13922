import Verif.Lemmas.BuildBasic
/-
What the allocations leave.
-/
namespace Jool.Build
open Jool.Pkt (Byte L4 at8 at16 ihl4 fragmented4 first4)

theorem headlen_move (b : Buf) (d n t : Nat) : ({ b with data := d, nh := n, th := t } : Buf).headlen = b.tail - d := rfl

theorem getDelta_ok {p : P} {base hl l4 : Nat} {bs : List Byte} (f : Frame p.skb base hl bs) (hd : p.skb.data = base) (hn : p.skb.nh = base)
    (ht : p.skb.th = base + l4) (h20 : 20 ≤ hl) (hic : p.proto = L4.icmp → l4 < hl)
    (herr : p.proto = L4.icmp → Icmp.isIcmp4Error (at8 bs l4) = true → p.pay + 20 ≤ hl) :
    getDelta p = .ok ((40 - ihl4 bs 0 : Int) + 8 + if (decide (p.proto = L4.icmp) && Icmp.isIcmp4Error (at8 bs l4)) = true then
      (40 - ihl4 bs p.pay : Int) + (if fragmented4 bs p.pay = true then 8 else 0) else 0) := by
  unfold getDelta
  simp only [bind_eq, ihl_ok f (pos := p.skb.nh) (off := 0) (by omega) (by omega), ok_bind, isError4_ok f ht hic, pure_eq]
  by_cases h : (decide (p.proto = L4.icmp) && Icmp.isIcmp4Error (at8 bs l4)) = true
  · rw [if_pos h, if_pos h]
    simp only [Bool.and_eq_true, decide_eq_true_eq] at h
    have := herr h.1 h.2
    have hpp : p.payload = base + p.pay := by unfold P.payload; omega
    simp only [ihl_ok f hpp (by omega), needFrag_ok f hpp (by omega), ok_bind]
    congr 1
    omega
  · rw [if_neg h, if_neg h]
    congr 1
    omega

/-- Inner headers of the copy, 4 to 6. -/
theorem fastInner_ok {p : P} {base hl : Nat} {bs : List Byte} (f : Frame p.skb base hl bs) (hd : p.skb.data = base) (h20 : p.pay + 20 ≤ hl)
    (b : Buf) (hih : ihl4 bs p.pay ≤ b.tail - b.data)
    (hroom : 40 + (if fragmented4 bs p.pay = true then 8 else 0) ≤ b.data + ihl4 bs p.pay) :
    fastInner p b = .ok { b with data := b.data + ihl4 bs p.pay - (40 + if fragmented4 bs p.pay = true then 8 else 0) } := by
  have hpp : p.payload = base + p.pay := by unfold P.payload; omega
  unfold fastInner
  simp only [bind_eq, ihl_ok f hpp (by omega), needFrag_ok f hpp (by omega), ok_bind]
  rw [pull'_ok (by unfold Buf.headlen; omega)]
  simp only [ok_bind]
  by_cases hf : fragmented4 bs p.pay = true
  · rw [if_pos hf] at hroom ⊢
    rw [pushIf, if_pos hf, push_ok (by show _ ≤ _ + _; omega)]
    simp only [ok_bind]
    rw [push_ok (by show _ ≤ _ + _ - _; omega)]
    have : b.data + ihl4 bs p.pay - 8 - 40 = b.data + ihl4 bs p.pay - (40 + 8) := by omega
    simp only [this]
  · rw [if_neg hf] at hroom ⊢
    rw [pushIf, if_neg hf, ok_bind, push_ok (by show _ ≤ _ + _; omega)]

theorem allocFast_ok {e : Env} {p : P} {base hl l4 : Nat} {bs : List Byte} (f : Frame p.skb base hl bs) (hd : p.skb.data = base) (hn : p.skb.nh = base)
    (ht : p.skb.th = base + l4) (hl4 : l4 = ihl4 bs 0) (h20 : 20 ≤ l4) (hp : l4 ≤ p.pay) (hpay : p.pay ≤ hl)
    (hic : p.proto = L4.icmp → l4 < hl)
    (herr : p.proto = L4.icmp → Icmp.isIcmp4Error (at8 bs l4) = true → p.pay + 20 ≤ hl ∧ p.pay + ihl4 bs p.pay ≤ hl)
    {err fr ifr : Bool} {l3 x k : Nat} (herr' : err = (decide (p.proto = L4.icmp) && Icmp.isIcmp4Error (at8 bs l4)))
    (hfr : fr = fragmented4 bs 0) (hifr : ifr = fragmented4 bs p.pay) (hl3 : l3 = 40 + if fr = true then 8 else 0)
    (hx : x = p.pay + if err = true then ihl4 bs p.pay else 0)
    (hk : k = l3 + (p.pay - l4) + if err = true then 40 + (if ifr = true then 8 else 0) else 0) :
    ∃ o nb pre, allocFast e p = .ok o ∧ pre.length = k ∧ Frame o.skb nb (k + (hl - x)) (pre ++ bs.drop x) ∧ o.skb.data = nb ∧ o.skb.nh = nb ∧
      o.skb.th = nb + l3 ∧ o.proto = p.proto ∧ o.inner = false ∧ o.pay = l3 + (p.pay - l4) ∧ base ≤ nb := by
  obtain ⟨delta, hdelta, hdv⟩ : ∃ d : Int, getDelta p = .ok d ∧ d = (40 - ihl4 bs 0 : Int) + 8 + if err = true then
      (40 - ihl4 bs p.pay : Int) + (if ifr = true then 8 else 0) else 0 :=
    ⟨_, getDelta_ok f hd hn ht (by omega) hic (fun a b => (herr a b).1), by rw [herr', hifr]⟩
  have hroom : k ≤ delta.toNat + x := by
    subst hdv hk hx hl3
    cases err <;> cases fr <;> cases ifr <;> simp <;> omega
  have hxl : x ≤ hl := by
    subst hx
    by_cases h : err = true
    · rw [if_pos h]
      rw [h] at herr'
      have := herr'.symm
      simp only [Bool.and_eq_true, decide_eq_true_eq] at this
      have := (herr this.1 this.2).2
      omega
    · rw [if_neg h]; omega
  obtain ⟨pre, hpre, fo⟩ := copy_frame f hd e (delta.toNat + base) hxl (k := k) (by omega)
  have hl4len : p.l4len = p.pay - l4 := by unfold P.l4len P.payload; omega
  have htail := fo.tail
  let D := delta.toNat + base + x - k
  refine ⟨⟨{ pskbCopy e p.skb (delta.toNat + base) with data := D, nh := D, th := D + l3 }, p.proto, false, if fr = true then 40 else 0, l3 + (p.pay - l4)⟩, delta.toNat + base + x - k, pre, ?_, hpre, fo.move _ _ _, rfl, rfl,
    rfl, rfl, rfl, rfl, by omega⟩
  unfold allocFast
  simp only [bind_eq, hdelta, ok_bind, isError4_ok f ht hic, pure_eq, needFrag_ok f (pos := p.skb.nh) (off := 0) (by omega) (by omega),
    hl4len, hd]
  rw [← herr', ← hfr]
  generalize hB : pskbCopy e p.skb (delta.toNat + base) = B at *
  have hBd : B.data = delta.toNat + base := by rw [← hB]; rfl
  rw [pull'_ok (by unfold Buf.headlen; omega)]
  simp only [ok_bind]
  have step : ∀ b : Buf, b.data = delta.toNat + base + x - (k - (l3 + (p.pay - l4))) → (push b (p.pay - l4)).bind (fun b =>
      (pushIf fr b 8).bind fun b => (push b 40).bind fun b =>
        Outcome.ok (⟨{ b with nh := b.data, th := b.data + (40 + if fr = true then 8 else 0) }, p.proto, false, if fr = true then 40 else 0,
          40 + (if fr = true then 8 else 0) + (p.pay - l4)⟩ : P)) =
      Outcome.ok (⟨{ b with data := delta.toNat + base + x - k, nh := delta.toNat + base + x - k, th := delta.toNat + base + x - k + l3 },
        p.proto, false, if fr = true then 40 else 0, l3 + (p.pay - l4)⟩ : P) := by
    intro b hbd
    have hkl : l3 + (p.pay - l4) ≤ k := by omega
    rw [push_ok (by omega)]
    simp only [ok_bind]
    cases hfr' : fr
    · rw [hfr'] at hl3
      simp only [pushIf, Bool.false_eq_true, if_false] at hl3 ⊢
      simp only [ok_bind]
      rw [push_ok (by show _ ≤ _ - _; omega)]
      simp only [ok_bind]
      rw [hl3]
      have : b.data - (p.pay - l4) - 40 = delta.toNat + base + x - k := by omega
      rw [this]
    · rw [hfr'] at hl3
      simp only [pushIf, if_true] at hl3 ⊢
      rw [push_ok (by show _ ≤ _ - _; omega)]
      simp only [ok_bind]
      rw [push_ok (by show _ ≤ _ - _ - _; omega)]
      simp only [ok_bind]
      rw [hl3]
      have : b.data - (p.pay - l4) - 8 - 40 = delta.toNat + base + x - k := by omega
      rw [this]
  cases herr2 : err
  · rw [herr2] at hx hk
    simp only [fastInnerIf, Bool.false_eq_true, if_false] at hx hk ⊢
    simp only [ok_bind]
    rw [step _ (by show _ + _ = _; omega)]
  · rw [herr2] at hx hk herr'
    simp only [fastInnerIf, if_true] at hx hk ⊢
    have h3 := herr'.symm
    simp only [Bool.and_eq_true, decide_eq_true_eq] at h3
    have h4 := herr h3.1 h3.2
    rw [fastInner_ok f hd h4.1 _ (by show _ ≤ B.tail - (B.data + _); omega) (by show _ ≤ _ + _ + _; rw [← hifr]; omega)]
    simp only [ok_bind]
    rw [step _ (by show _ + _ + _ - _ = _; rw [← hifr]; omega)]

end Jool.Build
