import Verif.Model.Icmp
/-
C36 (types and codes) and C37 (pointers of Parameter Problems).
-/
namespace Jool

/-! ## Specification: RFC 7915 sections 4.2 and 5.2 -/
namespace IcmpSpec

/-- RFC 7915 section 4.2, "Translating ICMPv4 Headers into ICMPv6 Headers": (type, code) becomes (type', code'). -/
inductive Rfc46 : BitVec 8 → BitVec 8 → BitVec 8 → BitVec 8 → Prop
  | echoRequest (c) : Rfc46 8 c 128 0
  | echoReply (c) : Rfc46 0 c 129 0
  /-- "Code 0, 1 (Net Unreachable, Host Unreachable): set the Code to 0 (No route to destination)" -/
  | unreachable (c) (h : c = 0 ∨ c = 1) : Rfc46 3 c 1 0
  /-- "Code 2 (Protocol Unreachable): translate to an ICMPv6 Parameter Problem (Type 4, Code 1)" -/
  | protocol : Rfc46 3 2 4 1
  /-- "Code 3 (Port Unreachable): set the Code to 4" -/
  | port : Rfc46 3 3 1 4
  /-- "Code 4 (Fragmentation Needed and DF was Set): translate to an ICMPv6 Packet Too Big (Type 2) with Code 0" -/
  | fragNeeded : Rfc46 3 4 2 0
  /-- "Code 5 (Source Route Failed): set the Code to 0" -/
  | srcRoute : Rfc46 3 5 1 0
  /-- "Code 6, 7, 8 (Network/Host Unknown, Isolated): set the Code to 0" -/
  | unknown (c) (h : c = 6 ∨ c = 7 ∨ c = 8) : Rfc46 3 c 1 0
  /-- "Code 9, 10 (administratively prohibited): set the Code to 1" -/
  | prohibited (c) (h : c = 9 ∨ c = 10) : Rfc46 3 c 1 1
  /-- "Code 11, 12 (Unreachable for this type of service): set the Code to 0" -/
  | tos (c) (h : c = 11 ∨ c = 12) : Rfc46 3 c 1 0
  /-- "Code 13 (Communication Administratively Prohibited): set the Code to 1" -/
  | filtered : Rfc46 3 13 1 1
  /-- "Code 15 (Precedence cutoff in effect): set the Code to 1" -/
  | cutoff : Rfc46 3 15 1 1
  /-- "Time Exceeded (Type 11): set the Type to 3. The Code is unchanged." -/
  | timeExceeded (c) : Rfc46 11 c 3 c
  /-- "Parameter Problem, Code 0, 2: set the Type to 4 and the Code to 0 and update the pointer" -/
  | paramProblem (c) (h : c = 0 ∨ c = 2) : Rfc46 12 c 4 0

/-- RFC 7915 section 5.2. -/
inductive Rfc64 : BitVec 8 → BitVec 8 → BitVec 8 → BitVec 8 → Prop
  | echoRequest (c) : Rfc64 128 c 8 0
  | echoReply (c) : Rfc64 129 c 0 0
  /-- "Code 0 (no route), 2 (beyond scope), 3 (address unreachable): set the Code to 1 (host unreachable)" -/
  | unreachable (c) (h : c = 0 ∨ c = 2 ∨ c = 3) : Rfc64 1 c 3 1
  /-- "Code 1 (administratively prohibited): set the Code to 10" -/
  | prohibited : Rfc64 1 1 3 10
  /-- "Code 4 (Port unreachable): set the Code to 3" -/
  | port : Rfc64 1 4 3 3
  /-- "Packet Too Big (Type 2): translate to an ICMPv4 Destination Unreachable (Type 3) with Code 4" -/
  | tooBig (c) : Rfc64 2 c 3 4
  /-- "Time Exceeded (Type 3): set the Type to 11. The Code is unchanged." -/
  | timeExceeded (c) : Rfc64 3 c 11 c
  /-- "Parameter Problem, Code 0: set Type to 12, Code to 0, and update the pointer" -/
  | headerField : Rfc64 4 0 12 0
  /-- "Parameter Problem, Code 1 (unrecognized Next Header): translate to Type 3, Code 2 (protocol unreachable)" -/
  | nextHeader : Rfc64 4 1 3 2

/-- The fields that both headers have. -/
inductive Field | version | trafficClass | length | hopLimit | protocol | src | dst
deriving DecidableEq, Repr

/-- The field that byte `n` of an IPv4 header belongs to (RFC 791), if the IPv6 header has it too. -/
def field4 (n : Nat) : Option Field :=
  if n = 0 then some .version
  else if n = 1 then some .trafficClass
  else if n = 2 ∨ n = 3 then some .length
  else if n = 8 then some .hopLimit
  else if n = 9 then some .protocol
  else if 12 ≤ n ∧ n < 16 then some .src
  else if 16 ≤ n ∧ n < 20 then some .dst
  else none

/-- The field that byte `n` of an IPv6 header belongs to (RFC 8200), if the IPv4 header has it too. -/
def field6 (n : Nat) : Option Field :=
  if n = 0 then some .version
  else if n = 1 then some .trafficClass
  else if n = 4 ∨ n = 5 then some .length
  else if n = 6 then some .protocol
  else if n = 7 then some .hopLimit
  else if 8 ≤ n ∧ n < 24 then some .src
  else if 24 ≤ n ∧ n < 40 then some .dst
  else none

/-- Byte where the field starts in an IPv4 header. -/
def start4 : Field → Nat
  | .version => 0 | .trafficClass => 1 | .length => 2 | .hopLimit => 8 | .protocol => 9 | .src => 12 | .dst => 16
/-- Byte where the field starts in an IPv6 header. -/
def start6 : Field → Nat
  | .version => 0 | .trafficClass => 1 | .length => 4 | .hopLimit => 7 | .protocol => 6 | .src => 8 | .dst => 24

end IcmpSpec

namespace Icmp
open IcmpSpec

/-! ## C36 -/

/-- C36, IPv4 to IPv6, for every type and code: translated exactly as the RFC says, and dropped if the RFC does
not mention it. -/
theorem icmp46_table (t c t' c' : Byte) : xlat46Type t c = some (t', c') ↔ Rfc46 t c t' c' := by
  constructor
  · intro h
    unfold xlat46Type at h
    repeat' split at h
    all_goals simp only [Option.some.injEq, Prod.mk.injEq, reduceCtorEq] at h
    all_goals obtain ⟨rfl, rfl⟩ := h
    all_goals simp only [beq_iff_eq, Bool.or_eq_true, not_or] at *
    all_goals subst_vars
    · exact .echoRequest _
    · exact .echoReply _
    · have h : (((((((c = 0 ∨ c = 1) ∨ c = 5) ∨ c = 6) ∨ c = 7) ∨ c = 8) ∨ c = 11) ∨ c = 12) := by assumption
      rcases h with ((((((h | h) | h) | h) | h) | h) | h) | h <;> subst h
      · exact .unreachable _ (by simp)
      · exact .unreachable _ (by simp)
      · exact .srcRoute
      · exact .unknown _ (by simp)
      · exact .unknown _ (by simp)
      · exact .unknown _ (by simp)
      · exact .tos _ (by simp)
      · exact .tos _ (by simp)
    · exact .protocol
    · exact .port
    · exact .fragNeeded
    · have h : (((c = 9 ∨ c = 10) ∨ c = 13) ∨ c = 15) := by assumption
      rcases h with ((h | h) | h) | h <;> subst h
      · exact .prohibited _ (by simp)
      · exact .prohibited _ (by simp)
      · exact .filtered
      · exact .cutoff
    · exact .timeExceeded _
    · exact .paramProblem _ (by assumption)
  · intro h
    cases h
    case unreachable h => rcases h with rfl | rfl <;> rfl
    case unknown h => rcases h with rfl | rfl | rfl <;> rfl
    case prohibited h => rcases h with rfl | rfl <;> rfl
    case tos h => rcases h with rfl | rfl <;> rfl
    case paramProblem h => rcases h with rfl | rfl <;> rfl
    all_goals rfl

/-- C36, IPv6 to IPv4, for every type and code. -/
theorem icmp64_table (t c t' c' : Byte) : xlat64Type t c = some (t', c') ↔ Rfc64 t c t' c' := by
  constructor
  · intro h
    unfold xlat64Type at h
    repeat' split at h
    all_goals simp only [Option.some.injEq, Prod.mk.injEq, reduceCtorEq] at h
    all_goals obtain ⟨rfl, rfl⟩ := h
    all_goals simp only [beq_iff_eq, Bool.or_eq_true, not_or] at *
    all_goals subst_vars
    · exact .echoRequest _
    · exact .echoReply _
    · have h : ((c = 0 ∨ c = 2) ∨ c = 3) := by assumption
      exact .unreachable _ (by rcases h with (h | h) | h <;> simp [h])
    · exact .prohibited
    · exact .port
    · exact .tooBig _
    · exact .timeExceeded _
    · exact .headerField
    · exact .nextHeader
  · intro h
    cases h
    case unreachable h => rcases h with rfl | rfl | rfl <;> rfl
    all_goals rfl

/-- C36: what the RFC does not mention is dropped, and only that. -/
theorem icmp46_dropped (t c : Byte) : xlat46Type t c = none ↔ ¬ ∃ t' c', Rfc46 t c t' c' := by
  constructor
  · rintro h ⟨t', c', h'⟩
    rw [(icmp46_table ..).2 h'] at h; cases h
  · intro h
    cases hx : xlat46Type t c with
    | none => rfl
    | some x => exact absurd ⟨x.1, x.2, (icmp46_table ..).1 hx⟩ h

theorem icmp64_dropped (t c : Byte) : xlat64Type t c = none ↔ ¬ ∃ t' c', Rfc64 t c t' c' := by
  constructor
  · rintro h ⟨t', c', h'⟩
    rw [(icmp64_table ..).2 h'] at h; cases h
  · intro h
    cases hx : xlat64Type t c with
    | none => rfl
    | some x => exact absurd ⟨x.1, x.2, (icmp64_table ..).1 hx⟩ h

/-- C36: only the types in the RFC's lists get through: no neighbor discovery, multicast listener, router or
timestamp message is ever translated, whatever its code. -/
theorem icmp46_types (t c : Byte) (h : xlat46Type t c ≠ none) : t = 0 ∨ t = 3 ∨ t = 8 ∨ t = 11 ∨ t = 12 := by
  cases hx : xlat46Type t c with
  | none => exact absurd hx h
  | some x => obtain ⟨x, y⟩ := x; have := (icmp46_table t c x y).1 hx; cases this <;> simp

theorem icmp64_types (t c : Byte) (h : xlat64Type t c ≠ none) :
    t = 1 ∨ t = 2 ∨ t = 3 ∨ t = 4 ∨ t = 128 ∨ t = 129 := by
  cases hx : xlat64Type t c with
  | none => exact absurd hx h
  | some x => obtain ⟨x, y⟩ := x; have := (icmp64_table t c x y).1 hx; cases this <;> simp

/-- C36: the code that decides if the packet carries another packet inside agrees with the translation: errors
become errors, informational messages become informational messages. -/
theorem icmp46_class (t c t' c' : Byte) (h : xlat46Type t c = some (t', c')) :
    isIcmp4Error t = isIcmp6Error t' ∧ isIcmp4Info t = isIcmp6Info t' ∧ isIcmp4Info t = !isIcmp4Error t := by
  rw [icmp46_table] at h; cases h <;> decide

theorem icmp64_class (t c t' c' : Byte) (h : xlat64Type t c = some (t', c')) :
    isIcmp6Error t = isIcmp4Error t' ∧ isIcmp6Info t = isIcmp4Info t' ∧ isIcmp6Info t = !isIcmp6Error t := by
  rw [icmp64_table] at h; cases h <;> decide

/-- C36: whatever leaves through one table can come back through the other one, and the class of the message
(echo, unreachable, too big, time exceeded, parameter problem) is the same as the original's. -/
theorem icmp46_back (t c t' c' : Byte) (h : xlat46Type t c = some (t', c')) :
    ∃ c'', xlat64Type t' c' = some (t, c'') ∧
      ((t = 3 ∧ (c = 2 ∨ c = 3 ∨ c = 4)) ∨ t = 11 → c'' = c) := by
  rw [icmp46_table] at h
  cases h
  case unreachable h => exact ⟨1, rfl, by rcases h with rfl | rfl <;> decide⟩
  case unknown h => exact ⟨1, rfl, by rcases h with rfl | rfl | rfl <;> decide⟩
  case prohibited h => exact ⟨10, rfl, by rcases h with rfl | rfl <;> decide⟩
  case tos h => exact ⟨1, rfl, by rcases h with rfl | rfl <;> decide⟩
  case paramProblem h => exact ⟨0, rfl, by rcases h with rfl | rfl <;> decide⟩
  case timeExceeded => exact ⟨c, rfl, fun _ => rfl⟩
  case echoRequest => exact ⟨0, rfl, by simp⟩
  case echoReply => exact ⟨0, rfl, by simp⟩
  all_goals exact ⟨_, rfl, by decide⟩

/-- C36: in the other direction, the only type that changes is the one of the messages that report an unknown next
header, which IPv4 only knows as an unreachable protocol; and it goes back to what it was. -/
theorem icmp64_back (t c t' c' : Byte) (h : xlat64Type t c = some (t', c')) :
    ∃ c'', xlat46Type t' c' = some (t, c'') ∧
      ((t = 1 ∧ (c = 0 ∨ c = 1 ∨ c = 4)) ∨ t = 3 ∨ t = 4 → c'' = c) := by
  rw [icmp64_table] at h
  cases h
  case unreachable h => exact ⟨0, rfl, by rcases h with rfl | rfl | rfl <;> decide⟩
  case timeExceeded => exact ⟨c, rfl, fun _ => rfl⟩
  case echoRequest => exact ⟨0, rfl, by simp⟩
  case echoReply => exact ⟨0, rfl, by simp⟩
  case tooBig => exact ⟨0, rfl, by simp⟩
  all_goals exact ⟨_, rfl, by decide⟩

/-- C36: echo requests and replies, with their identifier (unless the NAT64 assigned a new one) and their sequence
number, survive a round trip. -/
theorem echo_roundtrip (t : Byte) (ht : t = 128 ∨ t = 129) (w : BitVec 32) (m : BitVec 16) (m' : BitVec 32) :
    ∃ t', ttp64 none m t 0 w = .ok t' 0 w ∧ ttp46 none m' t' 0 w = .ok t 0 w := by
  have hw : (w.extractLsb' 16 16 ++ w.extractLsb' 0 16 : BitVec 32) = w := by
    apply BitVec.eq_of_toNat_eq
    have := w.isLt
    refine (BitVec.toNat_append (w.extractLsb' 16 16) (w.extractLsb' 0 16)).trans ?_
    simp only [BitVec.extractLsb'_toNat, Nat.shiftRight_eq_div_pow, Nat.shiftLeft_eq]
    rw [Nat.mul_comm, ← Nat.two_pow_add_eq_or_of_lt (by omega)]
    omega
  rcases ht with rfl | rfl
  · refine ⟨8, ?_, ?_⟩ <;> simp [ttp64, ttp46, xlat64Type, xlat46Type, hw]
  · refine ⟨0, ?_, ?_⟩ <;> simp [ttp64, ttp46, xlat64Type, xlat46Type, hw]

/-- C36: the branches that the code calls dead are indeed unreachable: a message whose type and code translate is
always handled by the code that fills the rest of the header. -/
theorem ttp64_not_dead (id m t c w) : ttp64 id m t c w ≠ .dead := by
  intro h
  unfold ttp64 at h
  cases hx : xlat64Type t c with
  | none => rw [hx] at h; cases h
  | some x =>
    rw [hx] at h
    have := (icmp64_table t c x.1 x.2).1 hx
    generalize x.1 = t', x.2 = c' at this
    cases this
    case unreachable hc => rcases hc with rfl | rfl | rfl <;> simp at h
    case headerField =>
      simp at h
      cases hp : ptr64 w <;> rw [hp] at h <;> simp at h
    all_goals simp at h

theorem ttp46_not_dead (id m t c w) : ttp46 id m t c w ≠ .dead := by
  intro h
  unfold ttp46 at h
  cases hx : xlat46Type t c with
  | none => rw [hx] at h; cases h
  | some x =>
    rw [hx] at h
    have := (icmp46_table t c x.1 x.2).1 hx
    generalize x.1 = t', x.2 = c' at this
    cases this
    case unreachable hc => rcases hc with rfl | rfl <;> simp at h
    case unknown hc => rcases hc with rfl | rfl | rfl <;> simp at h
    case prohibited hc => rcases hc with rfl | rfl <;> simp at h
    case tos hc => rcases hc with rfl | rfl <;> simp at h
    case paramProblem hc =>
      rcases hc with rfl | rfl <;> simp at h <;> cases hp : ptr46 w <;> rw [hp] at h <;> simp at h
    all_goals simp at h

example : xlat46Type 3 13 = some (1, 1) := by decide
example : xlat46Type 3 14 = none := by decide
example : xlat64Type 135 0 = none := by decide
example : ttp46 none 1500 3 2 77 = .ok 4 1 6 := by decide

/-! ## C37 -/

/-- The pointer that an ICMPv4 header carries: the first byte of the second word. -/
def pointer4 (word : BitVec 32) : Nat := word.toNat / 2 ^ 24

/-- C37, IPv6 to IPv4, for every 32-bit pointer: the new pointer is the first byte of the corresponding field of
the IPv4 header (RFC 7915, figure 6); if there is no such field, the packet is dropped. -/
theorem pointer64 (p : BitVec 32) :
    (ptr64 p).map BitVec.toNat = (field6 p.toNat).map start4 := by
  have h2 : (p == 2) = decide (p.toNat = 2) := by rw [Bool.eq_iff_iff]; simp [← BitVec.toNat_inj]
  have e : ∀ n : Nat, n < 2 ^ 32 → (p == BitVec.ofNat 32 n) = decide (p.toNat = n) := by
    intro n hn; rw [Bool.eq_iff_iff]; simp [← BitVec.toNat_inj, Nat.mod_eq_of_lt hn]
  unfold ptr64 field6
  simp only [show (0 : BitVec 32) = BitVec.ofNat 32 0 from rfl, show (1 : BitVec 32) = BitVec.ofNat 32 1 from rfl,
    show (2 : BitVec 32) = BitVec.ofNat 32 2 from rfl, show (3 : BitVec 32) = BitVec.ofNat 32 3 from rfl,
    show (4 : BitVec 32) = BitVec.ofNat 32 4 from rfl, show (5 : BitVec 32) = BitVec.ofNat 32 5 from rfl,
    show (6 : BitVec 32) = BitVec.ofNat 32 6 from rfl, show (7 : BitVec 32) = BitVec.ofNat 32 7 from rfl]
  rw [e 0 (by omega), e 1 (by omega), e 2 (by omega), e 3 (by omega), e 4 (by omega), e 5 (by omega),
    e 6 (by omega), e 7 (by omega)]
  simp only [Bool.or_eq_true, decide_eq_true_eq]
  generalize p.toNat = n
  repeat' split
  all_goals first
    | omega
    | rfl

/-- C37, IPv4 to IPv6, for every second word. Figure 3 of RFC 7915. -/
theorem pointer46 (w : BitVec 32) :
    (ptr46 w).map BitVec.toNat = (field4 (pointer4 w)).map start6 := by
  have hp : ((w >>> 24).setWidth 8).toNat = pointer4 w := by
    have := w.isLt
    simp [pointer4, Nat.shiftRight_eq_div_pow]
    omega
  unfold ptr46
  simp only [hp]
  generalize pointer4 w = n
  by_cases hn : 19 < n
  · rw [if_pos hn]
    have : field4 n = none := by unfold field4; (repeat' split) <;> first | rfl | omega
    rw [this]; rfl
  · rw [if_neg hn]
    have : ∀ m : Fin 20, (Option.map BitVec.toNat
        (match ptrs[m.val]? with
          | none => none
          | some x => if (x == 255) = true then none else some (BitVec.setWidth 32 x))) =
        Option.map start6 (field4 m.val) := by decide
    exact this ⟨n, by omega⟩

/-- C37: the pointer of the translated header, as the receiver reads it. -/
theorem pointer64_header (id m w t c w') (h : ttp64 id m 4 0 w = .ok t c w') :
    t = 12 ∧ c = 0 ∧ some (pointer4 w') = (field6 w.toNat).map start4 ∧ w'.toNat % 2 ^ 24 = 0 := by
  simp only [ttp64, show xlat64Type 4 0 = some (12, 0) from rfl] at h
  have hp := pointer64 w
  cases hx : ptr64 w with
  | none => rw [hx] at h; cases h
  | some p =>
    rw [hx] at h hp
    simp at h
    obtain ⟨rfl, rfl, rfl⟩ := h
    have hlt : p.toNat < 256 := by
      cases hf : field6 w.toNat with
      | none => rw [hf] at hp; cases hp
      | some f => rw [hf] at hp; simp at hp; rw [hp]; cases f <;> decide
    refine ⟨rfl, rfl, ?_, ?_⟩
    · rw [← hp]; simp [pointer4, Nat.shiftLeft_eq]; omega
    · simp [Nat.shiftLeft_eq]

theorem pointer46_header (id m w t c t' c' w') (ht : t = 12) (h : ttp46 id m t c w = .ok t' c' w') :
    t' = 4 ∧ c' = 0 ∧ some w'.toNat = (field4 (pointer4 w)).map start6 := by
  subst ht
  unfold ttp46 at h
  cases hx : xlat46Type 12 c with
  | none => rw [hx] at h; cases h
  | some x =>
    rw [hx] at h
    have hr := (icmp46_table 12 c x.1 x.2).1 hx
    rcases x with ⟨x1, x2⟩
    have hp := pointer46 w
    cases hr with
    | paramProblem _ hc =>
      rw [show (c == 0 || c == 2) = true by rcases hc with rfl | rfl <;> rfl] at h
      cases hq : ptr46 w with
      | none => rw [hq] at h; cases h
      | some p =>
        rw [hq] at h hp
        simp at h
        obtain ⟨rfl, rfl, rfl⟩ := h
        exact ⟨rfl, rfl, hp⟩

/-- C37: a pointer that survives a round trip points to the same field. -/
theorem pointer_roundtrip (p q : BitVec 32) (h : ptr64 p = some q) :
    ∃ r, ptr46 (q <<< 24) = some r ∧ field6 r.toNat = field6 p.toNat := by
  have hp := pointer64 p
  rw [h] at hp
  cases hf : field6 p.toNat with
  | none => rw [hf] at hp; cases hp
  | some f =>
    rw [hf] at hp
    simp at hp
    have hq := pointer46 (q <<< 24)
    have hlt : q.toNat < 256 := by rw [hp]; cases f <;> decide
    have hpt : pointer4 (q <<< 24) = q.toNat := by simp [pointer4, Nat.shiftLeft_eq]; omega
    rw [hpt, hp] at hq
    cases hr : ptr46 (q <<< 24) with
    | none => rw [hr] at hq; cases f <;> cases hq
    | some r =>
      rw [hr] at hq
      refine ⟨r, rfl, ?_⟩
      cases f <;> simp [field4, start4, start6] at hq <;> rw [hq] <;> rfl

/-- C37: an unreachable protocol of an IPv4 destination points to the next header field of the IPv6 header. -/
theorem protocol_unreachable (id m w) : ttp46 id m 3 2 w = .ok 4 1 (BitVec.ofNat 32 (start6 .protocol)) := by
  rfl

example : ptr64 23 = some 12 := by decide
example : ptr64 40 = none := by decide
example : ptr46 0x09ABCDEF = some 6 := by decide
example : ttp64 none 0 4 0 39 = .ok 12 0 0x10000000 := by decide

end Icmp
end Jool
