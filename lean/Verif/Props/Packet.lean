import Verif.Model.Packet

/-!
# C42, C44: walking and validating headers
-/

namespace Jool.PktSpec
open Jool.Pkt

/-- RFC 8200's chain of headers, as Jool understands it: hop-by-hop, routing and
    destination options tell their length; fragment headers are eight bytes;
    anything else is the end.  `Chain d off nh off' nh'`: starting with a header of
    type `nh` at `off`, the chain ends with a header of type `nh'` at `off'`. -/
inductive Chain (d : List Byte) : Nat → Byte → Nat → Byte → Prop
  | done {off nh} : nh ∉ [0#8, 43#8, 60#8, 44#8] → Chain d off nh off nh
  | opt {off nh off' nh'} : nh ∈ [0#8, 43#8, 60#8] →
      Chain d (off + 8 * ((at8 d (off + 1)).toNat + 1)) (at8 d off) off' nh' →
      Chain d off nh off' nh'
  | frag {off off' nh'} : Chain d (off + 8) (at8 d off) off' nh' → Chain d off 44#8 off' nh'

/-- Transport protocol of an IPv6 next header number. -/
def proto6 (nh : Byte) : L4 :=
  if nh = 6#8 then L4.tcp else if nh = 17#8 then L4.udp else if nh = 58#8 then L4.icmp else L4.other

/-- Transport protocol of an IPv4 protocol number. -/
def proto4 (p : Byte) : L4 :=
  if p = 6#8 then L4.tcp else if p = 17#8 then L4.udp else if p = 1#8 then L4.icmp else L4.other

/-- All these bytes are in the linear part. -/
def Inside (linear : Nat) (rs : List (Nat × Nat)) : Prop := ∀ r ∈ rs, r.1 + r.2 ≤ linear

end Jool.PktSpec

namespace Jool.Pkt
open PktSpec

/-! ## The chain -/

/-- The chain of a packet has one end at most. -/
theorem chain_unique {d : List Byte} {off nh o1 n1 o2 n2} (h1 : Chain d off nh o1 n1) :
    Chain d off nh o2 n2 → o1 = o2 ∧ n1 = n2 := by
  induction h1 with
  | done hn =>
    intro h2
    cases h2 with
    | done _ => exact ⟨rfl, rfl⟩
    | opt h _ => simp_all
    | frag _ => simp_all
  | opt ho _ ih =>
    intro h2
    cases h2 with
    | done hn => simp_all
    | opt _ h => exact ih h
    | frag _ => simp_all
  | frag _ ih =>
    intro h2
    cases h2 with
    | done hn => simp_all
    | opt ho _ => simp_all
    | frag h => exact ih h

/-- The header iterator finds the end of the chain. -/
theorem iter_sound {d : List Byte} {lin off : Nat} {nh : Byte} {r : Byte × Nat}
    (h : iter d lin off nh = some r) : Chain d off nh r.2 r.1 := by
  fun_induction iter d lin off nh with
  | case1 off nh hn hl ih =>
    refine Chain.opt (by simpa using hn) ?_
    have e : 8 * ((at8 d (off + 1)).toNat + 1) = 8 + 8 * (at8 d (off + 1)).toNat := by omega
    rw [e]
    exact ih h
  | case2 => cases h
  | case3 =>
    rename_i ih
    exact Chain.frag (ih h)
  | case4 => cases h
  | case5 off nh h1 h2 =>
    cases h
    refine Chain.done ?_
    simp only [List.mem_cons, List.not_mem_nil, or_false]
    rintro (h | h | h | h)
    · exact h1 (Or.inl h)
    · exact h1 (Or.inr (Or.inl h))
    · exact h1 (Or.inr (Or.inr h))
    · exact h2 h

/-- And it does not read outside of the linear part if the end is in there. -/
theorem iter_complete {d : List Byte} {lin off : Nat} {nh : Byte} {o : Nat} {n : Byte}
    (h : Chain d off nh o n) (hl : o ≤ lin) : iter d lin off nh = some (n, o) ∧ off ≤ o := by
  induction h with
  | done hn =>
    simp only [List.mem_cons, List.not_mem_nil, or_false, not_or] at hn
    unfold iter
    simp [hn.1, hn.2.1, hn.2.2.1, hn.2.2.2]
  | @opt off nh o n ho _ ih =>
    obtain ⟨h1, h2⟩ := ih hl
    simp only [List.mem_cons, List.not_mem_nil, or_false] at ho
    refine ⟨?_, by omega⟩
    unfold iter
    have e : 8 + 8 * (at8 d (off + 1)).toNat = 8 * ((at8 d (off + 1)).toNat + 1) := by omega
    rw [if_pos ho, dif_pos (by omega), e]
    exact h1
  | @frag off o n _ ih =>
    obtain ⟨h1, h2⟩ := ih hl
    refine ⟨?_, by omega⟩
    unfold iter
    rw [if_neg (by decide), if_pos rfl, dif_pos (by omega)]
    exact h1

/-- What classification reports. -/
theorem walk6_chain {d : List Byte} {off : Nat} {nh : Byte} {fh : Nat} {first : Bool} {m : Meta}
    (h : walk6 d off nh fh first = some m) :
    ∃ n, Chain d off nh m.l4 n ∧ m.proto = proto6 n := by
  fun_induction walk6 d off nh fh first with
  | case1 => cases h; exact ⟨6#8, Chain.done (by decide), rfl⟩
  | case2 => cases h
  | case3 => cases h; exact ⟨6#8, Chain.done (by decide), rfl⟩
  | case4 => cases h; exact ⟨17#8, Chain.done (by decide), rfl⟩
  | case5 => cases h; exact ⟨58#8, Chain.done (by decide), rfl⟩
  | case6 => cases h
  | case7 =>
    rename_i ih
    obtain ⟨n, h1, h2⟩ := ih h
    exact ⟨n, Chain.frag h1, h2⟩
  | case8 => cases h
  | case9 => cases h
  | case10 =>
    rename_i h5 _ _ ih
    obtain ⟨n, h6, h7⟩ := ih h
    refine ⟨n, Chain.opt (by simpa using h5) ?_, h7⟩
    rw [Nat.mul_comm]
    exact h6
  | case11 => cases h
  | case12 off nh fh first h1 h2 h3 h4 h5 =>
    cases h
    refine ⟨nh, Chain.done ?_, ?_⟩
    · simp only [List.mem_cons, List.not_mem_nil, or_false]
      rintro (h | h | h | h)
      · exact h5 (Or.inl h)
      · exact h5 (Or.inr (Or.inl h))
      · exact h5 (Or.inr (Or.inr h))
      · exact h4 h
    · simp [proto6, h1, h2, h3]

/-- How far the transport header goes, given its kind. -/
def HdrEnd (d : List Byte) (m : Meta) (first : Bool) : Prop :=
  if first then
    match m.proto with
    | L4.tcp => m.l4 + 20 ≤ d.length ∧ m.pay = m.l4 + tcpLen d m.l4
    | L4.udp => m.pay = m.l4 + 8
    | L4.icmp => m.pay = m.l4 + 8
    | L4.other => m.pay = m.l4
  else m.pay = m.l4

theorem isFirst6_eq {d : List Byte} {fh : Nat} {first : Bool} (p : L4) (o q : Nat)
    (h : first = (decide (fh = 0) || first6 d fh)) : isFirst6 d ⟨fh, p, o, q⟩ = first := h.symm

theorem walk6_meta {d : List Byte} {off : Nat} {nh : Byte} {fh : Nat} {first : Bool} {m : Meta}
    (h : walk6 d off nh fh first = some m) (hoff : 0 < off)
    (hfh : fh = 0 ∨ fh + 8 ≤ off) (hfi : first = (decide (fh = 0) || first6 d fh)) :
    off ≤ m.l4 ∧ m.l4 ≤ m.pay ∧ (m.fh = 0 ∨ m.fh + 8 ≤ m.l4) ∧ m.l4 ≤ max off (d.length + 2048) ∧
    HdrEnd d m (isFirst6 d m) := by
  fun_induction walk6 d off nh fh first with
  | case1 off fh hl =>
    cases h
    rw [isFirst6_eq _ _ _ hfi]
    refine ⟨Nat.le_refl _, by simp, hfh, by dsimp only; omega, ?_⟩
    simp [HdrEnd, hl]
  | case2 => cases h
  | case3 off fh first hf =>
    cases h
    rw [isFirst6_eq _ _ _ hfi]
    refine ⟨Nat.le_refl _, by simp, hfh, by dsimp only; omega, ?_⟩
    simp [HdrEnd, hf]
  | case4 off fh first hf =>
    cases h
    rw [isFirst6_eq _ _ _ hfi]
    refine ⟨Nat.le_refl _, by dsimp only; split <;> omega, hfh, by dsimp only; omega, ?_⟩
    cases first <;> simp [HdrEnd]
  | case5 off fh first hf =>
    cases h
    rw [isFirst6_eq _ _ _ hfi]
    refine ⟨Nat.le_refl _, by dsimp only; split <;> omega, hfh, by dsimp only; omega, ?_⟩
    cases first <;> simp [HdrEnd]
  | case6 => cases h
  | case7 =>
    rename_i ih
    obtain ⟨h1, h2, h3, h4, h5⟩ := ih h (by omega) (by omega) (by simp; omega)
    exact ⟨by omega, by omega, by omega, by omega, h5⟩
  | case8 => cases h
  | case9 => cases h
  | case10 =>
    rename_i off nh fh first _ _ _ _ _ _ _ ih
    have hb := (at8 d (off + 1)).isLt
    obtain ⟨h1, h2, h3, h4, h5⟩ := ih h (by omega) (by omega) hfi
    exact ⟨by omega, by omega, by omega, by omega, h5⟩
  | case11 => cases h
  | case12 off nh fh first h1 h2 h3 h4 h5 =>
    cases h
    rw [isFirst6_eq _ _ _ hfi]
    refine ⟨Nat.le_refl _, by simp, hfh, by dsimp only; omega, ?_⟩
    cases first <;> simp [HdrEnd]

theorem summarize6_chain {d : List Byte} {off : Nat} {m : Meta} (h : summarize6 d off = some m) :
    ∃ n, Chain d (off + 40) (at8 d (off + 6)) m.l4 n ∧ m.proto = proto6 n := by
  unfold summarize6 at h
  split at h
  · exact walk6_chain h
  · cases h

theorem summarize6_meta {d : List Byte} {off : Nat} {m : Meta} (h : summarize6 d off = some m) :
    off + 40 ≤ m.l4 ∧ m.l4 ≤ m.pay ∧ (m.fh = 0 ∨ m.fh + 8 ≤ m.l4) ∧
    m.l4 ≤ max (off + 40) (d.length + 2048) ∧ HdrEnd d m (isFirst6 d m) := by
  unfold summarize6 at h
  split at h
  · exact walk6_meta h (by omega) (Or.inl rfl) (by simp)
  · cases h

theorem pull_ok {s s' : Skb} {n : Nat} (h : pull s n = some s') :
    s'.data = s.data ∧ s.linear ≤ s'.linear ∧ n ≤ s'.linear ∧ n ≤ s.data.length ∧
    (s.linear ≤ s.data.length → s'.linear ≤ s.data.length) := by
  unfold pull at h
  split at h
  · cases h
    refine ⟨rfl, ?_, ?_, by omega, ?_⟩ <;> dsimp only <;> omega
  · cases h

/-- What holds of the nested packet of an accepted ICMPv6 error. -/
structure Inner6 (d : List Byte) (off lin : Nat) (i : Meta) : Prop where
  full : off + 40 ≤ d.length
  version : (at8 d off).toNat / 16 = 6
  sum : summarize6 d off = some i
  first : isFirst6 d i = true
  noError : i.proto = L4.icmp → i.l4 + 8 ≤ d.length ∧ Icmp.isIcmp6Error (at8 d i.l4) = false
  pay : i.pay ≤ lin

theorem validateInner6_ok {s s' : Skb} {off : Nat} {i : Meta}
    (h : validateInner6 s off = some (i, s')) :
    s'.data = s.data ∧ s.linear ≤ s'.linear ∧ (s.linear ≤ s.data.length → s'.linear ≤ s.data.length) ∧
    Inner6 s.data off s'.linear i := by
  unfold validateInner6 at h
  split at h
  case isFalse => cases h
  rename_i h1
  split at h
  case isFalse => cases h
  rename_i h2
  split at h
  · cases h
  rename_i m hm
  split at h
  · cases h
  rename_i h3
  split at h
  · cases h
  rename_i h4
  split at h
  · cases h
  rename_i s2 hp
  cases h
  obtain ⟨p1, p2, p3, p4, p5⟩ := pull_ok hp
  refine ⟨p1, p2, p5, h1, h2, hm, ?_, ?_, p3⟩
  · unfold isFirst6
    by_cases hf : i.fh = 0
    · simp [hf]
    · simp only [hf, decide_false, Bool.false_or]
      simp only [Classical.not_and_iff_not_or_not, not_or, Decidable.not_not] at h3
      rcases h3 with h3 | h3
      · exact absurd h3 hf
      · exact h3.2
  · intro hi
    simp only [hi, true_and, not_or, Nat.not_lt] at h4
    exact ⟨h4.1, by simpa using h4.2⟩

/-- What holds of an accepted IPv6 packet. -/
structure Accepted6 (s : Skb) (a : Acc) : Prop where
  data : a.skb.data = s.data
  grows : s.linear ≤ a.skb.linear
  within : s.linear ≤ s.data.length → a.skb.linear ≤ s.data.length
  len : s.data.length = 40 + at16 s.data 4
  ip : 40 ≤ a.skb.linear
  sum : summarize6 s.data 0 = some a.m
  pay : a.m.pay ≤ a.skb.linear
  icmp : a.m.proto = L4.icmp → (a.m.fh = 0 ∨ fragmented6 s.data a.m.fh = false) ∧
    a.m.l4 + 8 ≤ s.data.length ∧
    (Icmp.isIcmp6Error (at8 s.data a.m.l4) = true → ∃ i, a.inner = some i)
  inner : ∀ i, a.inner = some i → a.m.proto = L4.icmp ∧
    Icmp.isIcmp6Error (at8 s.data a.m.l4) = true ∧ Inner6 s.data a.m.pay a.skb.linear i

theorem handleIcmp6_ok {s s' : Skb} {m : Meta} {i : Option Meta}
    (h : handleIcmp6 s m = some (i, s')) :
    s'.data = s.data ∧ s.linear ≤ s'.linear ∧ (s.linear ≤ s.data.length → s'.linear ≤ s.data.length) ∧
    (m.fh = 0 ∨ fragmented6 s.data m.fh = false) ∧ m.l4 + 8 ≤ s.data.length ∧
    (Icmp.isIcmp6Error (at8 s.data m.l4) = true → ∃ j, i = some j) ∧
    (∀ j, i = some j → Icmp.isIcmp6Error (at8 s.data m.l4) = true ∧ Inner6 s.data m.pay s'.linear j) := by
  unfold handleIcmp6 at h
  split at h
  · cases h
  rename_i h1
  split at h
  · cases h
  rename_i h2
  have hfr : m.fh = 0 ∨ fragmented6 s.data m.fh = false := by
    by_cases hf : m.fh = 0
    · exact Or.inl hf
    · simp only [Classical.not_and_iff_not_or_not, not_or, Decidable.not_not] at h1
      rcases h1 with h1 | h1
      · exact absurd h1 hf
      · exact Or.inr (by simpa using h1.2)
  split at h
  · rename_i he
    split at h
    · cases h
    · rename_i r hr
      obtain ⟨j, s2⟩ := r
      cases h
      obtain ⟨v1, v2, v3, v4⟩ := validateInner6_ok hr
      refine ⟨v1, v2, v3, hfr, by omega, fun _ => ⟨_, rfl⟩, ?_⟩
      intro j' hj
      cases hj
      exact ⟨he, v4⟩
  · rename_i he
    cases h
    refine ⟨rfl, Nat.le_refl _, fun h => h, hfr, by omega, fun h => absurd h he, ?_⟩
    intro j hj
    cases hj

theorem init6_ok {s : Skb} {a : Acc} (h : init6 s = some a) : Accepted6 s a := by
  unfold init6 at h
  split at h
  · cases h
  rename_i s1 hp
  obtain ⟨p1, p2, p3, p4, p5⟩ := pull_ok hp
  split at h
  · cases h
  rename_i hlen
  split at h
  · cases h
  rename_i m hm
  split at h
  · cases h
  rename_i r hr
  split at h
  · cases h
  rename_i s3 hp3
  obtain ⟨q1, q2, q3, q4, q5⟩ := pull_ok hp3
  obtain ⟨i, s2⟩ := r
  cases h
  rw [p1] at hm hlen
  by_cases hi : m.proto = L4.icmp
  · rw [if_pos hi] at hr
    obtain ⟨v1, v2, v3, v4, v5, v6, v7⟩ := handleIcmp6_ok hr
    rw [p1] at v3 v4 v5 v6 v7
    have ed : s2.data = s.data := v1.trans p1
    dsimp only at q1 q2 q5
    rw [ed] at q5
    refine ⟨q1.trans ed, by dsimp only; omega, fun h => q5 (v3 (p5 h)), by omega, by dsimp only; omega,
      hm, q3, fun _ => ⟨v4, v5, v6⟩, ?_⟩
    intro j hj
    obtain ⟨w1, w2⟩ := v7 j hj
    exact ⟨hi, w1, w2.full, w2.version, w2.sum, w2.first, w2.noError, Nat.le_trans w2.pay q2⟩
  · rw [if_neg hi] at hr
    cases hr
    dsimp only at q1 q2 q5
    rw [p1] at q5
    refine ⟨q1.trans p1, by dsimp only; omega, fun h => q5 (p5 h), by omega, by dsimp only; omega,
      hm, q3, fun h => absurd h hi, ?_⟩
    intro j hj
    cases hj

/-! ## C42 -/

/-- **C42.** Classification of any byte string terminates (it is a function), and
    no offset it computes exceeds the packet by more than the largest extension
    header: the unsigned additions cannot overflow.  (That it does not read
    outside of the packet is in the model: every read goes through
    `skb_header_pointer()`, whose failure is the `none`.) -/
theorem summarize6_bounded {d : List Byte} {off : Nat} {m : Meta} (h : summarize6 d off = some m) :
    m.pay ≤ off + d.length + 2048 + 60 := by
  obtain ⟨h1, h2, h3, h4, h5⟩ := summarize6_meta h
  have hd : off + 7 ≤ d.length := by
    unfold summarize6 at h
    split at h
    · assumption
    · cases h
  have ht : tcpLen d m.l4 ≤ 60 := by
    have := (at8 d (m.l4 + 12)).isLt
    unfold tcpLen
    omega
  unfold HdrEnd at h5
  cases hf : isFirst6 d m <;> cases hp : m.proto <;>
    simp only [hf, hp, if_true, if_false, Bool.false_eq_true] at h5 <;> omega

/-- **C42.** For every accepted packet, and whatever its bytes: the header
    iterator stays inside of the linear part, and finds the transport header where
    the classification found it.  Both are the end of the packet's header chain,
    and the classification's protocol is that of the end. -/
theorem walkers_agree {s : Skb} {a : Acc} (h : init6 s = some a) :
    ∃ n, last6 a.skb 0 = some (n, a.m.l4) ∧ a.m.proto = proto6 n ∧
      Chain s.data 40 (at8 s.data 6) a.m.l4 n := by
  have A := init6_ok h
  obtain ⟨n, hc, hn⟩ := summarize6_chain A.sum
  have hm := summarize6_meta A.sum
  have hp := A.pay
  refine ⟨n, ?_, hn, by simpa using hc⟩
  unfold last6
  rw [if_pos (by have := A.ip; omega), A.data]
  exact (iter_complete hc (by omega)).1

/-- **C42 (partial).** The same for the packet nested in an accepted ICMPv6
    error, and then how the translation classifies it.  Missing: nested packets
    whose last header has number 1, see `walkers_disagree`. -/
theorem walkers_agree_inner_partial {s : Skb} {a : Acc} {i : Meta} (h : init6 s = some a)
    (hi : a.inner = some i) :
    ∃ n, last6 a.skb a.m.pay = some (n, i.l4) ∧ i.proto = proto6 n ∧
      Chain s.data (a.m.pay + 40) (at8 s.data (a.m.pay + 6)) i.l4 n ∧
      (n ≠ 1#8 → innerProto n = i.proto) := by
  have A := init6_ok h
  have I := (A.inner i hi).2.2
  obtain ⟨n, hc, hn⟩ := summarize6_chain I.sum
  have hm := summarize6_meta I.sum
  have hp := I.pay
  refine ⟨n, ?_, hn, hc, ?_⟩
  · unfold last6
    rw [if_pos (by omega), A.data]
    exact (iter_complete hc (by omega)).1
  · intro h1
    rw [hn]
    unfold innerProto proto6
    simp [h1]

/-- Bytes of a 16-bit number. -/
def b16 (n : Nat) : List Byte := [BitVec.ofNat 8 (n / 256), BitVec.ofNat 8 n]

/-- An IPv6 header. -/
def hdr6 (payload : Nat) (nh : Byte) : List Byte :=
  [0x60#8, 0#8, 0#8, 0#8] ++ b16 payload ++ [nh, 64#8] ++ List.replicate 32 1#8

/-- An IPv4 header. -/
def hdr4 (tot : Nat) (p : Byte) : List Byte :=
  [0x45#8, 0#8] ++ b16 tot ++ [0#8, 0#8, 0#8, 0#8, 64#8, p, 0#8, 0#8] ++ List.replicate 8 1#8

/-- The next header of 40 bytes, then 8 bytes of destination options, then UDP. -/
def sample6 : Skb :=
  ⟨hdr6 24 60#8 ++ [17#8, 0#8, 1#8, 4#8, 0#8, 0#8, 0#8, 0#8] ++ List.replicate 16 7#8, 0⟩

example : (init6 sample6).map (fun a => (a.m, a.skb.linear)) = some (⟨0, L4.udp, 48, 56⟩, 56) := by
  decide +kernel

/-- **C42 does not hold of nested packets in general**: here the nested packet's
    next header is 1 (ICMP for IPv4), which validation takes for an unknown
    protocol, and the translation takes for ICMP. -/
theorem walkers_disagree :
    ∃ s a i, init6 s = some a ∧ a.inner = some i ∧ i.proto = L4.other ∧
      ∃ n, last6 a.skb a.m.pay = some (n, i.l4) ∧ innerProto n = L4.icmp := by
  refine ⟨⟨hdr6 48 58#8 ++ [1#8, 0#8, 0#8, 0#8, 0#8, 0#8, 0#8, 0#8] ++ hdr6 0 1#8, 0⟩,
    ⟨⟨hdr6 48 58#8 ++ [1#8, 0#8, 0#8, 0#8, 0#8, 0#8, 0#8, 0#8] ++ hdr6 0 1#8, 88⟩,
      ⟨0, L4.icmp, 40, 48⟩, some ⟨0, L4.other, 88, 88⟩⟩, ⟨0, L4.other, 88, 88⟩, ?_⟩
  refine ⟨by decide +kernel, by decide +kernel, by decide +kernel, 1#8, by decide +kernel, by decide +kernel⟩

/-! ## C44 -/

theorem inside_append {lin : Nat} {a b : List (Nat × Nat)} :
    Inside lin (a ++ b) ↔ Inside lin a ∧ Inside lin b := by
  unfold Inside
  simp only [List.mem_append]
  exact ⟨fun h => ⟨fun r hr => h r (Or.inl hr), fun r hr => h r (Or.inr hr)⟩,
    fun h r hr => hr.elim (h.1 r) (h.2 r)⟩

theorem inside_nil {lin : Nat} : Inside lin [] := by intro r hr; cases hr

theorem inside_cons {lin o n : Nat} {b : List (Nat × Nat)} :
    Inside lin ((o, n) :: b) ↔ o + n ≤ lin ∧ Inside lin b := by
  unfold Inside
  simp

theorem l4Reads_inside {d : List Byte} {m : Meta} {first : Bool} {lin : Nat}
    (h : HdrEnd d m first) (hp : m.pay ≤ lin)
    (htcp : m.proto = L4.tcp → first = true → 20 ≤ tcpLen d m.l4)
    (hicmp : m.proto = L4.icmp → first = true) : Inside lin (l4Reads d m first) := by
  unfold HdrEnd at h
  unfold l4Reads
  cases hf : first <;> cases hm : m.proto <;>
    simp only [hf, hm, if_true, if_false, Bool.false_eq_true, inside_cons, inside_nil, and_true,
      forall_const, reduceCtorEq, false_implies] at h htcp hicmp ⊢ <;>
    omega

/-- Reads only depend on where the header is and what it is. -/
theorem l4Reads_congr {d : List Byte} {m m' : Meta} {first : Bool} (h1 : m.proto = m'.proto)
    (h2 : m.l4 = m'.l4) : l4Reads d m first = l4Reads d m' first := by
  unfold l4Reads
  rw [h1, h2]

/-- **C44 (partial).** Everything the translation of an accepted IPv6 packet reads
    through plain pointers is inside of the linear part; this includes the headers
    of the nested packet.  The last header number must not be 1 (see
    `reads6_outside`, `reads6_inner_outside`) and the TCP header lengths must not be
    smaller than a TCP header (see `reads6_tcp`), neither outside nor inside. -/
theorem reads6_partial {s : Skb} {a : Acc} (h : init6 s = some a)
    (hout : ¬ Chain s.data 40 (at8 s.data 6) a.m.l4 1#8)
    (hinn : ∀ i, a.inner = some i → ¬ Chain s.data (a.m.pay + 40) (at8 s.data (a.m.pay + 6)) i.l4 1#8)
    (htcp : ∀ m, m = a.m ∨ a.inner = some m → m.proto = L4.tcp → 20 ≤ tcpLen s.data m.l4) :
    ∃ rs, reads6 a = some rs ∧ Inside a.skb.linear rs := by
  have A := init6_ok h
  obtain ⟨n, hl, hn, hc⟩ := walkers_agree h
  have hm := summarize6_meta A.sum
  have hpay := A.pay
  have hip := A.ip
  have hn1 : n ≠ 1#8 := by
    intro e
    rw [e] at hc
    exact hout hc
  have hfirst : a.m.proto = L4.icmp → isFirst6 s.data a.m = true := by
    intro hi
    obtain ⟨f, _⟩ := A.icmp hi
    unfold isFirst6
    rcases f with f | f
    · simp [f]
    · unfold fragmented6 at f
      unfold first6
      simp only [Bool.or_eq_false_iff, bne_eq_false_iff_eq] at f
      simp [f.1]
  have hO : Inside a.skb.linear ([(0, 40)] ++ l4Reads a.skb.data a.m (isFirst6 a.skb.data a.m) ++
      (if a.m.fh = 0 then [] else [(a.m.fh, 8)]) ++ flowReads a.m.l4 (outIsIcmp64 n)) := by
    rw [A.data]
    simp only [inside_append, inside_cons]
    refine ⟨⟨⟨⟨by omega, inside_nil⟩, ?_⟩, ?_⟩, ?_⟩
    · exact l4Reads_inside hm.2.2.2.2 hpay (fun ht _ => htcp a.m (Or.inl rfl) ht) hfirst
    · split
      · exact inside_nil
      · exact inside_cons.2 ⟨by omega, inside_nil⟩
    · unfold flowReads
      split
      · rename_i ho
        have hn58 : n = 58#8 := by simpa [outIsIcmp64, hn1] using ho
        have hpr : a.m.proto = L4.icmp := by rw [hn, hn58]; rfl
        have he := hm.2.2.2.2
        rw [hfirst hpr] at he
        simp only [HdrEnd, hpr, if_true] at he
        exact inside_cons.2 ⟨by omega, inside_nil⟩
      · exact inside_nil
  unfold reads6
  rw [hl]
  dsimp only
  cases hi : a.inner with
  | none => exact ⟨_, rfl, hO⟩
  | some i =>
    obtain ⟨k, jl, jn, jc, jp⟩ := walkers_agree_inner_partial h hi
    have I := (A.inner i hi).2.2
    have im := summarize6_meta I.sum
    have ip := I.pay
    have hk1 : k ≠ 1#8 := by
      intro e
      rw [e] at jc
      exact hinn i hi jc
    rw [jl]
    refine ⟨_, rfl, ?_⟩
    rw [inside_append, inside_append]
    refine ⟨⟨hO, inside_cons.2 ⟨by omega, inside_nil⟩⟩, ?_⟩
    have e : l4Reads s.data ⟨0, innerProto k, i.l4, i.l4⟩ true = l4Reads s.data i true :=
      l4Reads_congr (jp hk1) rfl
    dsimp only
    rw [A.data, e]
    have he := im.2.2.2.2
    rw [I.first] at he
    exact l4Reads_inside he ip (fun ht _ => htcp i (Or.inr hi) ht) (fun _ => rfl)

/-- **C44.** An accepted ICMPv6 error contains a packet, whose headers are complete
    and which is not an ICMPv6 error itself. -/
theorem one_nested6 {s : Skb} {a : Acc} (h : init6 s = some a) (hp : a.m.proto = L4.icmp)
    (he : Icmp.isIcmp6Error (at8 s.data a.m.l4) = true) :
    ∃ i, a.inner = some i ∧ a.m.pay = a.m.l4 + 8 ∧ (at8 s.data a.m.pay).toNat / 16 = 6 ∧
      a.m.pay + 40 ≤ i.l4 ∧ i.pay ≤ a.skb.linear ∧
      (i.proto = L4.icmp → Icmp.isIcmp6Error (at8 s.data i.l4) = false) := by
  have A := init6_ok h
  obtain ⟨f, _, g⟩ := A.icmp hp
  obtain ⟨i, hi⟩ := g he
  have I := (A.inner i hi).2.2
  have im := summarize6_meta I.sum
  have hm := (summarize6_meta A.sum).2.2.2.2
  refine ⟨i, hi, ?_, I.version, im.1, I.pay, fun h => (I.noError h).2⟩
  have hf : isFirst6 s.data a.m = true := by
    unfold isFirst6
    rcases f with f | f
    · simp [f]
    · unfold fragmented6 at f
      unfold first6
      simp only [Bool.or_eq_false_iff, bne_eq_false_iff_eq] at f
      simp [f.1]
  rw [hf] at hm
  simpa [HdrEnd, hp] using hm

/-- **C44 does not hold of packets with next header 1** (SIIT lets unknown
    protocols through): a packet without payload is accepted, then its "ICMP
    header" is read. -/
theorem reads6_outside : ∃ s a rs, init6 s = some a ∧ reads6 a = some rs ∧ ¬ Inside a.skb.linear rs ∧
    a.m.pay = s.data.length := by
  refine ⟨⟨hdr6 0 1#8, 40⟩, ⟨⟨hdr6 0 1#8, 40⟩, ⟨0, L4.other, 40, 40⟩, none⟩, [(0, 40), (40, 2)], ?_⟩
  refine ⟨by decide +kernel, by decide +kernel, ?_, by decide +kernel⟩
  unfold Inside
  decide

/-- Nor of ICMPv6 errors that contain such a packet. -/
theorem reads6_inner_outside :
    ∃ s a rs, init6 s = some a ∧ a.m.proto = L4.icmp ∧ reads6 a = some rs ∧ ¬ Inside a.skb.linear rs := by
  refine ⟨⟨hdr6 48 58#8 ++ [1#8, 0#8, 0#8, 0#8, 0#8, 0#8, 0#8, 0#8] ++ hdr6 0 1#8, 0⟩,
    ⟨⟨hdr6 48 58#8 ++ [1#8, 0#8, 0#8, 0#8, 0#8, 0#8, 0#8, 0#8] ++ hdr6 0 1#8, 88⟩,
      ⟨0, L4.icmp, 40, 48⟩, some ⟨0, L4.other, 88, 88⟩⟩, [(0, 40), (40, 8), (40, 2), (48, 40), (88, 8)], ?_⟩
  refine ⟨by decide +kernel, by decide +kernel, by decide +kernel, ?_⟩
  unfold Inside
  decide

/-- Nor of TCP headers that claim to be shorter than a TCP header: they are in
    the packet, but not pulled into the linear part. -/
theorem reads6_tcp :
    ∃ s a rs, init6 s = some a ∧ a.m.proto = L4.tcp ∧ reads6 a = some rs ∧ ¬ Inside a.skb.linear rs := by
  refine ⟨⟨hdr6 20 6#8 ++ List.replicate 20 0#8, 40⟩,
    ⟨⟨hdr6 20 6#8 ++ List.replicate 20 0#8, 40⟩, ⟨0, L4.tcp, 40, 40⟩, none⟩,
    [(0, 40), (40, 20), (40, 0)], ?_⟩
  refine ⟨by decide +kernel, by decide +kernel, by decide +kernel, ?_⟩
  unfold Inside
  decide

/-! ### IPv4 -/

/-- What holds of the nested packet of an accepted ICMPv4 error. -/
structure Inner4 (d : List Byte) (off lin : Nat) (i : Meta) : Prop where
  full : off + 20 ≤ d.length
  version : (at8 d off).toNat / 16 = 4
  ihl : 20 ≤ ihl4 d off
  first : first4 d off = true
  l4 : i.l4 = off + ihl4 d off
  proto : i.proto = proto4 (at8 d (off + 9))
  hdr : HdrEnd d i true
  pay : i.pay ≤ lin

theorem validateInner4_ok {s s' : Skb} {off : Nat} {i : Meta}
    (h : validateInner4 s off = some (i, s')) :
    s'.data = s.data ∧ s.linear ≤ s'.linear ∧ (s.linear ≤ s.data.length → s'.linear ≤ s.data.length) ∧
    Inner4 s.data off s'.linear i := by
  unfold validateInner4 at h
  dsimp only at h
  split at h
  case isFalse => cases h
  rename_i h1
  split at h
  · cases h
  rename_i h2
  split at h
  · cases h
  rename_i h3
  split at h
  · cases h
  rename_i h4
  split at h
  · cases h
  rename_i h5
  split at h
  · cases h
  rename_i h6
  split at h
  · cases h
  rename_i s2 hp
  cases h
  obtain ⟨p1, p2, p3, p4, p5⟩ := pull_ok hp
  refine ⟨p1, p2, p5, h1, by omega, by omega, by simpa using h5, ?_, ?_, ?_, p3⟩
  · split <;> try split <;> try split
    all_goals rfl
  · unfold proto4
    split <;> try split <;> try split
    all_goals rfl
  · split
    · rename_i hp
      simp only [HdrEnd, if_true, and_true]
      simp only [hp, true_and] at h6
      omega
    · split
      · simp [HdrEnd]
      · split <;> simp [HdrEnd]

/-- What holds of an accepted IPv4 packet. -/
structure Accepted4 (s : Skb) (a : Acc) : Prop where
  data : a.skb.data = s.data
  grows : s.linear ≤ a.skb.linear
  within : s.linear ≤ s.data.length → a.skb.linear ≤ s.data.length
  ip : 20 ≤ a.skb.linear
  l4 : a.m.l4 = ihl4 s.data 0
  proto : a.m.proto = proto4 (at8 s.data 9)
  hdr : HdrEnd s.data a.m (first4 s.data 0)
  pay : a.m.pay ≤ a.skb.linear
  icmp : a.m.proto = L4.icmp → fragmented4 s.data 0 = false ∧
    (Icmp.isIcmp4Error (at8 s.data a.m.l4) = true → ∃ i, a.inner = some i)
  inner : ∀ i, a.inner = some i → a.m.proto = L4.icmp ∧
    Icmp.isIcmp4Error (at8 s.data a.m.l4) = true ∧ Inner4 s.data a.m.pay a.skb.linear i

theorem handleIcmp4_ok {s s' : Skb} {m : Meta} {i : Option Meta}
    (h : handleIcmp4 s m = some (i, s')) :
    s'.data = s.data ∧ s.linear ≤ s'.linear ∧ (s.linear ≤ s.data.length → s'.linear ≤ s.data.length) ∧
    fragmented4 s.data 0 = false ∧
    (Icmp.isIcmp4Error (at8 s.data m.l4) = true → ∃ j, i = some j) ∧
    (∀ j, i = some j → Icmp.isIcmp4Error (at8 s.data m.l4) = true ∧ Inner4 s.data m.pay s'.linear j) := by
  unfold handleIcmp4 at h
  split at h
  · cases h
  rename_i h1
  split at h
  · cases h
  rename_i h2
  split at h
  · rename_i he
    split at h
    · cases h
    · rename_i r hr
      obtain ⟨j, s2⟩ := r
      cases h
      obtain ⟨v1, v2, v3, v4⟩ := validateInner4_ok hr
      refine ⟨v1, v2, v3, by simpa using h1, fun _ => ⟨_, rfl⟩, ?_⟩
      intro j' hj
      cases hj
      exact ⟨he, v4⟩
  · rename_i he
    cases h
    refine ⟨rfl, Nat.le_refl _, fun h => h, by simpa using h1, fun h => absurd h he, ?_⟩
    intro j hj
    cases hj

theorem summarize4_ok {s s' : Skb} {m : Meta} {i : Option Meta}
    (h : summarize4 s = some (m, i, s')) :
    s'.data = s.data ∧ s.linear ≤ s'.linear ∧ (s.linear ≤ s.data.length → s'.linear ≤ s.data.length) ∧
    m.l4 = ihl4 s.data 0 ∧ m.proto = proto4 (at8 s.data 9) ∧ HdrEnd s.data m (first4 s.data 0) ∧
    (m.proto = L4.icmp → fragmented4 s.data 0 = false ∧
      (Icmp.isIcmp4Error (at8 s.data m.l4) = true → ∃ j, i = some j)) ∧
    (∀ j, i = some j → m.proto = L4.icmp ∧ Icmp.isIcmp4Error (at8 s.data m.l4) = true ∧
      Inner4 s.data m.pay s'.linear j) := by
  unfold summarize4 at h
  dsimp only at h
  split at h
  · rename_i hp
    split at h
    · rename_i hf
      split at h
      · rename_i hl
        cases h
        refine ⟨rfl, Nat.le_refl _, fun h => h, rfl, by simp [proto4, hp], by simp [HdrEnd, hf, hl],
          by simp, by simp⟩
      · cases h
    · rename_i hf
      cases h
      refine ⟨rfl, Nat.le_refl _, fun h => h, rfl, by simp [proto4, hp], by simp [HdrEnd, hf],
        by simp, by simp⟩
  split at h
  · rename_i hp
    cases h
    refine ⟨rfl, Nat.le_refl _, fun h => h, rfl, by simp [proto4, hp], ?_, by simp, by simp⟩
    cases hf : first4 s.data 0 <;> simp [HdrEnd]
  split at h
  · rename_i hp
    split at h
    · cases h
    · rename_i r hr
      obtain ⟨j, s2⟩ := r
      cases h
      obtain ⟨v1, v2, v3, v4, v5, v6⟩ := handleIcmp4_ok hr
      refine ⟨v1, v2, v3, rfl, by simp [proto4, hp], ?_, fun _ => ⟨v4, v5⟩, ?_⟩
      · cases hf : first4 s.data 0 <;> simp [HdrEnd]
      · intro j' hj
        exact ⟨rfl, v6 j' hj⟩
  · rename_i h1 h2 h3
    cases h
    refine ⟨rfl, Nat.le_refl _, fun h => h, rfl, by simp [proto4, h1, h2, h3], ?_, by simp, by simp⟩
    cases hf : first4 s.data 0 <;> simp [HdrEnd]

theorem init4_ok {s : Skb} {a : Acc} (h : init4 s = some a) : Accepted4 s a := by
  unfold init4 at h
  split at h
  · cases h
  rename_i s1 hp
  obtain ⟨p1, p2, p3, p4, p5⟩ := pull_ok hp
  split at h
  · cases h
  rename_i r hr
  split at h
  · cases h
  rename_i s3 hp3
  obtain ⟨q1, q2, q3, q4, q5⟩ := pull_ok hp3
  obtain ⟨m, i, s2⟩ := r
  cases h
  obtain ⟨v1, v2, v3, v4, v5, v6, v7, v8⟩ := summarize4_ok hr
  rw [p1] at v1 v3 v4 v5 v6 v7 v8
  dsimp only at q1 q2 q5
  rw [v1] at q5
  refine ⟨q1.trans v1, by dsimp only; omega, fun h => q5 (v3 (p5 h)), by dsimp only; omega, v4, v5, v6,
    q3, v7, ?_⟩
  intro j hj
  obtain ⟨w1, w2, w3⟩ := v8 j hj
  exact ⟨w1, w2, w3.full, w3.version, w3.ihl, w3.first, w3.l4, w3.proto, w3.hdr,
    Nat.le_trans w3.pay q2⟩

theorem first4_of_not_fragmented {d : List Byte} (h : fragmented4 d 0 = false) : first4 d 0 = true := by
  unfold fragmented4 at h
  unfold first4
  simp only [bne_eq_false_iff_eq] at h
  simp only [beq_iff_eq]
  omega

/-- **C44 (partial).** The IPv4 side.  The kernel has made sure that the header
    length is at least 20 before Jool sees the packet; Jool only makes sure of that
    for nested packets.  Missing: packets with protocol number 58, TCP headers that
    claim less than 20 bytes. -/
theorem reads4_partial {s : Skb} {a : Acc} (h : init4 s = some a)
    (hout : at8 s.data 9 ≠ 58#8)
    (hinn : ∀ i, a.inner = some i → at8 s.data (a.m.pay + 9) ≠ 58#8)
    (htcp : ∀ m, m = a.m ∨ a.inner = some m → m.proto = L4.tcp → 20 ≤ tcpLen s.data m.l4) :
    Inside a.skb.linear (reads4 a) := by
  have A := init4_ok h
  have hpay := A.pay
  have hip := A.ip
  have hd := A.hdr
  have hl := A.l4
  have hle : a.m.l4 ≤ a.m.pay := by
    unfold HdrEnd at hd
    cases hf : first4 s.data 0 <;> cases hp : a.m.proto <;>
      simp only [hf, hp, if_true, if_false, Bool.false_eq_true] at hd <;> omega
  have hfirst : a.m.proto = L4.icmp → first4 s.data 0 = true := fun hi =>
    first4_of_not_fragmented (A.icmp hi).1
  have hO : Inside a.skb.linear ([(0, ihl4 s.data 0)] ++ l4Reads s.data a.m (first4 s.data 0) ++
      flowReads a.m.l4 (outIsIcmp46 (at8 s.data 9))) := by
    simp only [inside_append, inside_cons]
    refine ⟨⟨⟨by omega, inside_nil⟩, ?_⟩, ?_⟩
    · exact l4Reads_inside hd hpay (fun ht _ => htcp a.m (Or.inl rfl) ht) hfirst
    · unfold flowReads
      split
      · rename_i ho
        have h1 : at8 s.data 9 = 1#8 := by simpa [outIsIcmp46, hout] using ho
        have hpr : a.m.proto = L4.icmp := by rw [A.proto, h1]; rfl
        rw [hfirst hpr] at hd
        simp only [HdrEnd, hpr, if_true] at hd
        exact inside_cons.2 ⟨by omega, inside_nil⟩
      · exact inside_nil
  unfold reads4
  rw [A.data]
  dsimp only
  cases hi : a.inner with
  | none => exact hO
  | some i =>
    have I := (A.inner i hi).2.2
    have ip := I.pay
    have il := I.l4
    have ihl := I.ihl
    have ih := I.hdr
    have hile : i.l4 ≤ i.pay := by
      unfold HdrEnd at ih
      cases hp : i.proto <;> simp only [hp, if_true] at ih <;> omega
    dsimp only
    rw [inside_append, inside_append]
    refine ⟨⟨hO, inside_cons.2 ⟨by omega, inside_cons.2 ⟨by omega, inside_nil⟩⟩⟩, ?_⟩
    have hne := hinn i hi
    have hpr : innerProto (at8 s.data (a.m.pay + 9)) = i.proto := by
      rw [I.proto]
      unfold innerProto proto4
      simp [hne]
    have e : l4Reads s.data ⟨0, innerProto (at8 s.data (a.m.pay + 9)), a.m.pay + ihl4 s.data a.m.pay,
        a.m.pay + ihl4 s.data a.m.pay⟩ true = l4Reads s.data i true := l4Reads_congr hpr il.symm
    rw [e]
    exact l4Reads_inside ih ip (fun ht _ => htcp i (Or.inr hi) ht) (fun _ => rfl)

/-- An IPv4 packet with an ICMP error that contains a UDP packet. -/
def sample4 : Skb :=
  ⟨hdr4 56 1#8 ++ [3#8, 3#8, 0#8, 0#8, 0#8, 0#8, 0#8, 0#8] ++ hdr4 100 17#8 ++ List.replicate 8 7#8, 20⟩

example : (init4 sample4).map (fun a => (a.m, a.inner, a.skb.linear)) =
    some (⟨0, L4.icmp, 20, 28⟩, some ⟨0, L4.udp, 48, 56⟩, 56) := by decide +kernel

/-- An ICMPv4 error whose nested packet is an ICMPv4 error, too. -/
def nested4 : Skb :=
  ⟨hdr4 56 1#8 ++ [3#8, 3#8, 0#8, 0#8, 0#8, 0#8, 0#8, 0#8] ++ hdr4 100 1#8 ++
    [3#8, 3#8, 0#8, 0#8, 0#8, 0#8, 0#8, 0#8], 20⟩

/-- **C44 does not hold of ICMPv4 errors**: an error inside of an error is accepted,
    and nothing is known about the packet nested in the nested packet (which does
    not even exist here). -/
theorem two_nested4 :
    ∃ a i, init4 nested4 = some a ∧ a.inner = some i ∧ i.proto = L4.icmp ∧
      Icmp.isIcmp4Error (at8 nested4.data i.l4) = true ∧ i.pay = nested4.data.length := by
  refine ⟨⟨⟨nested4.data, 56⟩, ⟨0, L4.icmp, 20, 28⟩, some ⟨0, L4.icmp, 48, 56⟩⟩,
    ⟨0, L4.icmp, 48, 56⟩, ?_⟩
  refine ⟨by decide +kernel, by decide +kernel, by decide +kernel, by decide +kernel, by decide +kernel⟩

/-- Nor of packets with protocol number 58. -/
theorem reads4_outside : ∃ s a, init4 s = some a ∧ ¬ Inside a.skb.linear (reads4 a) ∧
    a.m.pay = s.data.length := by
  refine ⟨⟨hdr4 20 58#8, 20⟩, ⟨⟨hdr4 20 58#8, 20⟩, ⟨0, L4.other, 20, 20⟩, none⟩, ?_⟩
  refine ⟨by decide +kernel, ?_, by decide +kernel⟩
  unfold Inside
  decide +kernel

/-- **C44.** On the IPv4 side, an accepted ICMP error does contain a packet with
    complete headers. -/
theorem nested4_complete {s : Skb} {a : Acc} (h : init4 s = some a) (hp : a.m.proto = L4.icmp)
    (he : Icmp.isIcmp4Error (at8 s.data a.m.l4) = true) :
    ∃ i, a.inner = some i ∧ a.m.pay = a.m.l4 + 8 ∧ (at8 s.data a.m.pay).toNat / 16 = 4 ∧
      a.m.pay + 20 ≤ i.l4 ∧ i.pay ≤ a.skb.linear := by
  have A := init4_ok h
  obtain ⟨f, g⟩ := A.icmp hp
  obtain ⟨i, hi⟩ := g he
  have I := (A.inner i hi).2.2
  have hd := A.hdr
  rw [first4_of_not_fragmented f] at hd
  refine ⟨i, hi, by simpa [HdrEnd, hp] using hd, I.version, ?_, I.pay⟩
  have := I.l4
  have := I.ihl
  omega

end Jool.Pkt
