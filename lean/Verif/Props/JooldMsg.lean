import Verif.Model.JooldMsg
import Verif.Props.Rfc6052
import Verif.Props.BibJoold
/-
C32, C33: the messages with which instances synchronize their sessions.
-/
namespace Jool.JooldMsg
open Bib BibSpec

/-! ## Bytes -/

theorem be_length (n x : Nat) : (be n x).length = n := by
  induction n generalizing x with
  | zero => rfl
  | succ n ih => simp [be, ih]

theorem unbe_append (a b : List Byte) : unbe (a ++ b) = unbe a * 256 ^ b.length + unbe b := by
  have gen : ∀ (b : List Byte) (n : Nat),
      b.foldl (fun a b => a * 256 + b.toNat) n = n * 256 ^ b.length + unbe b := by
    intro b
    induction b with
    | nil => intro n; simp [unbe]
    | cons x b ih =>
      intro n
      unfold unbe
      simp only [List.foldl_cons, List.length_cons, Nat.zero_mul, Nat.zero_add]
      rw [ih, ih x.toNat, Nat.add_mul, Nat.pow_succ, Nat.mul_assoc, Nat.mul_comm 256, Nat.add_assoc]
  unfold unbe
  rw [List.foldl_append, gen]
  rfl

theorem unbe_be (n x : Nat) : unbe (be n x) = x % 256 ^ n := by
  induction n generalizing x with
  | zero => simp [be, unbe, Nat.mod_one]
  | succ n ih =>
    rw [be, unbe_append, ih]
    have : unbe [BitVec.ofNat 8 x] = x % 256 := by simp [unbe]
    rw [this, List.length_singleton, Nat.pow_one, Nat.pow_succ, Nat.mul_comm (256 ^ n), Nat.mod_mul]
    omega

theorem read_be (n x : Nat) (rest : List Byte) :
    read n (be n x ++ rest) = .ok (x % 256 ^ n, rest) := by
  have h := be_length n x
  unfold read
  rw [if_pos (by rw [List.length_append]; omega), List.take_left' h, List.drop_left' h, unbe_be]

theorem put_length (p now : Nat) (s : Sess) : (put p now s).length = 36 := by
  simp [put, be_length]

theorem readRaw_put (p now : Nat) (s : Sess) (tail : List Byte) :
    readRaw (put p now s ++ tail) = .ok
      ⟨s.src6.addr.toNat, s.src4.addr.toNat, s.dst4.addr.toNat, lifetimeMs p now s,
       s.src6.port.toNat, s.src4.port.toNat, s.dst4.port.toNat,
       protoCode s.proto * 2 ^ 5 + stateCode s.state * 2 ^ 2 + timerCode s.timer⟩ := by
  unfold readRaw put
  simp only [List.append_assoc, read_be, Outcome.bind]
  have h1 : s.src6.addr.toNat % 256 ^ 16 = s.src6.addr.toNat := Nat.mod_eq_of_lt s.src6.addr.isLt
  have h2 : s.src4.addr.toNat % 256 ^ 4 = s.src4.addr.toNat := Nat.mod_eq_of_lt s.src4.addr.isLt
  have h3 : s.dst4.addr.toNat % 256 ^ 4 = s.dst4.addr.toNat := Nat.mod_eq_of_lt s.dst4.addr.isLt
  have h4 : lifetimeMs p now s % 256 ^ 4 = lifetimeMs p now s := by
    apply Nat.mod_eq_of_lt
    unfold lifetimeMs
    dsimp only
    split <;> split <;> omega
  have h5 : s.src6.port.toNat % 256 ^ 2 = s.src6.port.toNat := Nat.mod_eq_of_lt s.src6.port.isLt
  have h6 : s.src4.port.toNat % 256 ^ 2 = s.src4.port.toNat := Nat.mod_eq_of_lt s.src4.port.isLt
  have h7 : s.dst4.port.toNat % 256 ^ 2 = s.dst4.port.toNat := Nat.mod_eq_of_lt s.dst4.port.isLt
  have h8 : (protoCode s.proto * 2 ^ 5 + stateCode s.state * 2 ^ 2 + timerCode s.timer) % 256 ^ 2
      = protoCode s.proto * 2 ^ 5 + stateCode s.state * 2 ^ 2 + timerCode s.timer := by
    generalize s.proto = pr
    generalize s.state = st
    generalize s.timer = ti
    cases pr <;> cases st <;> cases ti <;> decide
  rw [h1, h2, h3, h4, h5, h6, h7, h8]

theorem flags_proto (a : Proto) (b : TcpState) (c : TimerType) :
    protoOf ((protoCode a * 2 ^ 5 + stateCode b * 2 ^ 2 + timerCode c) / 32 % 4) = some a := by
  cases a <;> cases b <;> cases c <;> decide

theorem flags_state (a : Proto) (b : TcpState) (c : TimerType) :
    stateOf ((protoCode a * 2 ^ 5 + stateCode b * 2 ^ 2 + timerCode c) / 4 % 8) = b := by
  cases a <;> cases b <;> cases c <;> decide

theorem flags_timer (a : Proto) (b : TcpState) (c : TimerType) :
    timerOf ((protoCode a * 2 ^ 5 + stateCode b * 2 ^ 2 + timerCode c) % 4) = some c := by
  cases a <;> cases b <;> cases c <;> decide

/-! ## C32 -/

end Jool.JooldMsg

namespace Jool.JooldSpec
open JooldMsg Bib

/-- The timeouts that an instance with these settings applies to its sessions (seconds and milliseconds turned into
jiffies of `p` milliseconds; the handshake timeout is 6 seconds). -/
def settings (c : JooldMsg.Cfg) (p : Nat) (b : Bib.Cfg) : Bib.Cfg :=
  { b with ttlTcpEst := (c.tcpEst + p - 1) / p, ttlTcpTrans := (c.tcpTrans + p - 1) / p,
           ttlSyn4 := (6000 + p - 1) / p, ttlUdp := (c.udp + p - 1) / p, ttlIcmp := (c.icmp + p - 1) / p }

/-- The configured timeouts are below 2³¹ milliseconds (24.8 days). -/
def Sane (c : JooldMsg.Cfg) : Prop :=
  c.tcpEst < 2 ^ 31 ∧ c.tcpTrans < 2 ^ 31 ∧ c.udp < 2 ^ 31 ∧ c.icmp < 2 ^ 31

/-- The kinds of timer that sessions of each protocol use. -/
def Uses : Proto → TimerType → Prop
  | .TCP, _ => True
  | _, τ => τ = .EST

/-- How many jiffies the session has left to live at `now`. -/
def left (updateTime timeout now : Nat) : Nat := updateTime + timeout - now

/-- The received session is the session that was sent, and `d6` stands for its IPv4 end. -/
structure Same (s : Sess) (d6 : Addr6) (r : SessEntry) : Prop where
  src6 : r.src6 = s.src6
  src4 : r.src4 = s.src4
  dst4 : r.dst4 = s.dst4
  state : r.state = s.state
  timer : r.timer = some s.timer
  dst6 : r.dst6 = ⟨d6, if s.proto = .ICMP then s.src6.port else s.dst4.port⟩

end Jool.JooldSpec

namespace Jool.JooldMsg
open Bib BibSpec JooldSpec

theorem timeoutMs_some (c : Cfg) (q : Proto) (τ : TimerType) : ∃ t, timeoutMs c q (some τ) = some t := by
  cases q <;> cases τ <;> exact ⟨_, rfl⟩

theorem get_put (c : Cfg) (p₁ now₁ p₂ now₂ : Nat) (s : Sess) (tail : List Byte) (d6 : Addr6)
    (hd : rfc6052_4to6 c.pool6 s.dst4.addr = some d6) (t : Nat) (ht : timeoutMs c s.proto (some s.timer) = some t) :
    get c p₂ now₂ (put p₁ now₁ s ++ tail) = .ok (some (s.proto,
      { src6 := s.src6, dst6 := ⟨d6, if s.proto = .ICMP then s.src6.port else s.dst4.port⟩, src4 := s.src4,
        dst4 := s.dst4, state := s.state, timer := some s.timer,
        updateTime := sub64 (add64 now₂ (msecsToJiffies p₂ (lifetimeMs p₁ now₁ s))) (msecsToJiffies p₂ t) })) := by
  unfold get
  rw [if_neg (by rw [List.length_append, put_length]; omega), readRaw_put]
  simp only [Outcome.map, interpret, flags_proto, flags_state, flags_timer, BitVec.ofNat_toNat, BitVec.setWidth_eq,
    hd, ht]

/-- **The message carries the session.** Whatever the session, the receiver gets the addresses, ports, protocol,
state and kind of timer that were sent, and computes the IPv6 address of the IPv4 end from its own pool6. -/
theorem message_roundtrip (c : Cfg) (p₁ now₁ p₂ now₂ : Nat) (s : Sess) (d6 : Addr6)
    (hd : rfc6052_4to6 c.pool6 s.dst4.addr = some d6) :
    ∃ r, get c p₂ now₂ (put p₁ now₁ s) = .ok (some (s.proto, r)) ∧ Same s d6 r := by
  obtain ⟨t, ht⟩ := timeoutMs_some c s.proto s.timer
  have := get_put c p₁ now₁ p₂ now₂ s [] d6 hd t ht
  rw [List.append_nil] at this
  exact ⟨_, this, ⟨rfl, rfl, rfl, rfl, rfl, rfl⟩⟩

/-- If the session's IPv6 destination is the one which pool6 gives, the receiver gets it too. -/
theorem message_roundtrip_dst6 (c : Cfg) (p₁ now₁ p₂ now₂ : Nat) (s : Sess)
    (hd : rfc6052_4to6 c.pool6 s.dst4.addr = some s.dst6.addr)
    (hp : s.dst6.port = if s.proto = .ICMP then s.src6.port else s.dst4.port) :
    ∃ r, get c p₂ now₂ (put p₁ now₁ s) = .ok (some (s.proto, r)) ∧ r.dst6 = s.dst6 ∧ r.src6 = s.src6 ∧
      r.src4 = s.src4 ∧ r.dst4 = s.dst4 ∧ r.state = s.state ∧ r.timer = some s.timer := by
  obtain ⟨r, h, q⟩ := message_roundtrip c p₁ now₁ p₂ now₂ s _ hd
  refine ⟨r, h, ?_, q.src6, q.src4, q.dst4, q.state, q.timer⟩
  rw [q.dst6, ← hp]

theorem msecsToJiffies_small {p m : Nat} (h : m < 2 ^ 31) : msecsToJiffies p m = (m + p - 1) / p := by
  unfold msecsToJiffies
  rw [Nat.mod_eq_of_lt (by omega), if_neg (by omega)]

theorem ceil_bounds {p m : Nat} (hp : 0 < p) : m ≤ p * ((m + p - 1) / p) ∧ p * ((m + p - 1) / p) < m + p := by
  have h1 := Nat.div_add_mod (m + p - 1) p
  have h2 := Nat.mod_lt (m + p - 1) hp
  omega

theorem lifetimeMs_eq {p now : Nat} {s : Sess} (hw : s.updateTime + s.timeout < 2 ^ 64)
    (hb : p * left s.updateTime s.timeout now < 2 ^ 32) :
    lifetimeMs p now s = p * left s.updateTime s.timeout now := by
  unfold lifetimeMs add64
  rw [Nat.mod_eq_of_lt hw]
  dsimp only
  unfold left at *
  unfold jiffiesToMsecs
  split
  · rw [Nat.mod_eq_of_lt hb, if_neg (by omega)]
  · rename_i h
    have : s.updateTime + s.timeout - now = 0 := by omega
    rw [this]; simp

/-- The time stamp of whatever is received. -/
theorem get_put_time {c : Cfg} {p₁ now₁ p₂ now₂ : Nat} {s : Sess} {q : Proto} {r : SessEntry}
    (hr : get c p₂ now₂ (put p₁ now₁ s) = .ok (some (q, r))) {t : Nat}
    (ht : timeoutMs c s.proto (some s.timer) = some t) :
    r.updateTime = sub64 (add64 now₂ (msecsToJiffies p₂ (lifetimeMs p₁ now₁ s))) (msecsToJiffies p₂ t) := by
  obtain ⟨d6, hd⟩ : ∃ d6, rfc6052_4to6 c.pool6 s.dst4.addr = some d6 := by
    cases hd : rfc6052_4to6 c.pool6 s.dst4.addr with
    | some d => exact ⟨d, rfl⟩
    | none =>
      exfalso
      unfold get at hr
      have := readRaw_put p₁ now₁ s []
      rw [List.append_nil] at this
      rw [if_neg (by rw [put_length]; omega), this] at hr
      simp [Outcome.map, interpret, hd] at hr
  have hg := get_put c p₁ now₁ p₂ now₂ s [] d6 hd t ht
  rw [List.append_nil, hr] at hg
  simp only [Outcome.ok.injEq, Option.some.injEq, Prod.mk.injEq] at hg
  rw [hg.2]

/-- **Lifetime** (everything but the three-way handshake timer; see `lifetime_syn4`). If the session has `R` jiffies of
`p₁` milliseconds left at the sender, it has just as many milliseconds left at the receiver, rounded up to
the receiver's jiffies. Neither clock is about to overflow, and timeouts are below 2³¹ milliseconds. -/
theorem message_lifetime_partial (c : Cfg) (hc : Sane c) (b : Bib.Cfg) (p₁ now₁ p₂ now₂ : Nat) (hp : 0 < p₂) (s : Sess)
    (hu : Uses s.proto s.timer) (hs : s.timer ≠ .SYN4)
    (hw : s.updateTime + s.timeout < 2 ^ 64)
    (hb : p₁ * left s.updateTime s.timeout now₁ < 2 ^ 31)
    (h₂ : getTimeout (settings c p₂ b) s.proto s.timer ≤ now₂) (h₂' : now₂ < 2 ^ 63)
    (r : SessEntry) (hr : get c p₂ now₂ (put p₁ now₁ s) = .ok (some (s.proto, r))) :
    let R := left s.updateTime s.timeout now₁
    let R' := left r.updateTime (getTimeout (settings c p₂ b) s.proto s.timer) now₂
    p₁ * R ≤ p₂ * R' ∧ p₂ * R' < p₁ * R + p₂ := by
  intro R R'
  obtain ⟨c1, c2, c3, c4⟩ := hc
  obtain ⟨t, ht⟩ := timeoutMs_some c s.proto s.timer
  have hg := get_put_time hr ht
  have hT : msecsToJiffies p₂ t = getTimeout (settings c p₂ b) s.proto s.timer ∧ t < 2 ^ 31 := by
    clear hr hg h₂
    revert ht hu hs
    cases s.proto <;> cases s.timer <;> intro hu hs ht <;>
      simp only [timeoutMs, Uses, ne_eq, reduceCtorEq, not_true_eq_false, not_false_eq_true, Option.some.injEq] at ht hu hs
    all_goals
      subst ht
      simp only [getTimeout, settings]
      first
        | exact ⟨msecsToJiffies_small c1, c1⟩
        | exact ⟨msecsToJiffies_small c2, c2⟩
        | exact ⟨msecsToJiffies_small c3, c3⟩
        | exact ⟨msecsToJiffies_small c4, c4⟩
  have hl : lifetimeMs p₁ now₁ s = p₁ * R := lifetimeMs_eq hw (by show p₁ * R < _; exact Nat.lt_trans hb (by decide))
  have hm : msecsToJiffies p₂ (p₁ * R) = (p₁ * R + p₂ - 1) / p₂ := msecsToJiffies_small hb
  have hcb := ceil_bounds (p := p₂) (m := p₁ * R) hp
  have hdiv : (p₁ * R + p₂ - 1) / p₂ < 2 ^ 31 + 1 := by
    rw [Nat.div_lt_iff_lt_mul hp]
    have : p₁ * R < 2 ^ 31 := hb
    have : 2 ^ 31 ≤ 2 ^ 31 * p₂ := Nat.le_mul_of_pos_right _ hp
    rw [Nat.add_mul]
    omega
  have hR : R' = (p₁ * R + p₂ - 1) / p₂ := by
    show left r.updateTime _ now₂ = _
    rw [hg, hT.1, hl, hm]
    generalize getTimeout (settings c p₂ b) s.proto s.timer = T at *
    generalize (p₁ * R + p₂ - 1) / p₂ = D at *
    unfold left sub64 add64
    rw [Nat.mod_eq_of_lt (a := now₂ + D) (by omega), Nat.mod_eq_of_lt (a := T) (by omega)]
    have : now₂ + D + 2 ^ 64 - T = (now₂ + D - T) + 2 ^ 64 := by omega
    rw [this, Nat.add_mod_right, Nat.mod_eq_of_lt (by omega)]
    omega
  rw [hR]
  exact hcb

/-! ### What is missing from the lifetime -/

theorem parsed {o : Outcome (Option (Proto × SessEntry))} {q : Proto} {P : SessEntry → Prop} [DecidablePred P]
    (h : (match o with
      | .ok (some (q', r)) => decide (q' = q ∧ P r)
      | _ => false) = true) : ∃ r, o = .ok (some (q, r)) ∧ P r := by
  rcases o with (_ | ⟨q', r⟩) | u
  · cases h
  · obtain ⟨rfl, hp⟩ := of_decide_eq_true h
    exact ⟨r, rfl, hp⟩
  · cases h

/-- An ordinary pool6: 64:ff9b::/96. -/
def exCfg : Cfg := ⟨⟨0x0064ff9b000000000000000000000000#128, 96⟩, 7200000, 240000, 300000, 60000⟩

def exSess (q : Proto) (st : TcpState) (τ : TimerType) (upd timeout : Nat) : Sess :=
  ⟨q, ⟨0x20010db8000000000000000000000001#128, 5000#16⟩, ⟨0x0064ff9b0000000000000000c0000201#128, 80#16⟩,
   ⟨0xcb007101#32, 60000#16⟩, ⟨0xc0000201#32, 80#16⟩, st, τ, upd, timeout⟩

/-- The handshake timer is not carried over: a session with 6000 milliseconds left arrives with 11994, because the
receiver subtracts 6 milliseconds instead of 6 seconds. -/
theorem lifetime_syn4 :
    left (exSess .TCP .V4_INIT .SYN4 100000 6000).updateTime 6000 100000 = 6000 ∧
    ∃ r, get exCfg 1 900000 (put 1 100000 (exSess .TCP .V4_INIT .SYN4 100000 6000)) = .ok (some (.TCP, r)) ∧
      left r.updateTime (getTimeout (settings exCfg 1 default) .TCP .SYN4) 900000 = 11994 :=
  ⟨by decide, parsed (by decide +kernel)⟩

/-- In general, the handshake timer gains the difference between 6 seconds and 6 milliseconds. -/
theorem lifetime_syn4_gain (c : Cfg) (b : Bib.Cfg) (p₁ now₁ now₂ : Nat) (s : Sess) (hq : s.proto = .TCP)
    (hs : s.timer = .SYN4) (hw : s.updateTime + s.timeout < 2 ^ 64)
    (hb : p₁ * left s.updateTime s.timeout now₁ < 2 ^ 31) (h₂ : 6 ≤ now₂) (h₂' : now₂ < 2 ^ 63)
    (r : SessEntry) (hr : get c 1 now₂ (put p₁ now₁ s) = .ok (some (.TCP, r))) :
    left r.updateTime (getTimeout (settings c 1 b) .TCP .SYN4) now₂ =
      p₁ * left s.updateTime s.timeout now₁ + 5994 := by
  have ht : timeoutMs c s.proto (some s.timer) = some 6 := by rw [hq, hs]; rfl
  have hg := get_put_time hr ht
  have hl := lifetimeMs_eq (p := p₁) (now := now₁) hw (Nat.lt_trans hb (by decide))
  rw [hg, hl]
  have h6 : msecsToJiffies 1 6 = 6 := by decide
  have hg6 : getTimeout (settings c 1 b) .TCP .SYN4 = 6000 := by simp [getTimeout, settings]
  rw [h6, hg6, msecsToJiffies_small hb]
  generalize p₁ * left s.updateTime s.timeout now₁ = D at *
  unfold left sub64 add64
  have h1 : D + 1 - 1 = D := by omega
  rw [h1, Nat.div_one, Nat.mod_eq_of_lt (a := now₂ + D) (by omega)]
  omega

/-- From 2³¹ milliseconds on, the receiver never removes the session. (Both instances are configured with 2³¹ - 1
milliseconds; the sender's 4-millisecond jiffies round that up.) -/
theorem lifetime_overflow :
    msecsToJiffies 4 2147483647 = 536870912 ∧
    ∃ r, get { exCfg with tcpEst := 2147483647 } 4 (2 ^ 32)
          (put 4 (2 ^ 32) (exSess .TCP .ESTABLISHED .EST (2 ^ 32) 536870912)) = .ok (some (.TCP, r)) ∧
      left r.updateTime (getTimeout (settings { exCfg with tcpEst := 2147483647 } 4 default) .TCP .EST) (2 ^ 32) > 2 ^ 61 :=
  ⟨by decide +kernel, parsed (by decide +kernel)⟩

/-- The IPv6 address through which the IPv6 node sees the IPv4 node is not transmitted, so it is lost if it isn't the
canonical one (here, with a /64 prefix, the last byte of the address is not zero). -/
theorem dst6_not_carried :
    ∃ r, get { exCfg with pool6 := ⟨0x20010db8000000000000000000000000#128, 64⟩ } 1 0
        (put 1 0 { exSess .UDP .ESTABLISHED .EST 0 0 with
          dst6 := ⟨0x20010db80000000000c0000201000077#128, 80#16⟩ }) = .ok (some (.UDP, r)) ∧
      rfc6052_6to4 ⟨0x20010db8000000000000000000000000#128, 64⟩ 0x20010db80000000000c0000201000077#128
        = some 0xc0000201#32 ∧
      r.dst6 = ⟨0x20010db80000000000c0000201000000#128, 80#16⟩ :=
  parsed (by decide +kernel)

/-- `message_roundtrip` and `message_lifetime_partial` on a TCP connection, an UDP session and a ping. -/
example : rfc6052_4to6 exCfg.pool6 (exSess .TCP .V6_FIN_RCV .EST 5000 7200000).dst4.addr
      = some (exSess .TCP .V6_FIN_RCV .EST 5000 7200000).dst6.addr ∧
    Sane exCfg ∧ Uses .TCP .EST ∧ Uses .UDP .EST ∧
    1 * left 5000 7200000 12345 < 2 ^ 31 ∧ getTimeout (settings exCfg 4 default) .TCP .EST ≤ 2 ^ 32 ∧
    ∃ r, get exCfg 4 (2 ^ 32) (put 1 12345 (exSess .TCP .V6_FIN_RCV .EST 5000 7200000)) = .ok (some (.TCP, r)) ∧
      left 5000 7200000 12345 = 7192655 ∧
      left r.updateTime (getTimeout (settings exCfg 4 default) .TCP .EST) (2 ^ 32) = 1798164 := by
  refine ⟨by decide +kernel, by unfold Sane; decide +kernel, trivial, rfl, by decide, by decide +kernel, parsed (by decide +kernel)⟩

/-! ## C33 -/

theorem read_ok {n : Nat} {l : List Byte} (h : n ≤ l.length) :
    read n l = .ok (unbe (l.take n), l.drop n) := by unfold read; rw [if_pos h]

theorem readRaw_ok {l : List Byte} (h : 36 ≤ l.length) : ∃ r, readRaw l = .ok r := by
  unfold readRaw
  rw [read_ok (by omega)]
  simp only [Outcome.bind]
  rw [read_ok (by simp only [List.length_drop]; omega)]
  simp only
  rw [read_ok (by simp only [List.length_drop]; omega)]
  simp only
  rw [read_ok (by simp only [List.length_drop]; omega)]
  simp only
  rw [read_ok (by simp only [List.length_drop]; omega)]
  simp only
  rw [read_ok (by simp only [List.length_drop]; omega)]
  simp only
  rw [read_ok (by simp only [List.length_drop]; omega)]
  simp only
  rw [read_ok (by simp only [List.length_drop]; omega)]
  exact ⟨_, rfl⟩

theorem readRaw_ub {l : List Byte} (h : l.length < 36) : readRaw l = .ub .outOfBounds := by
  have bad : ∀ {n : Nat} {m : List Byte}, m.length < n → read n m = .ub .outOfBounds := by
    intro n m hm; unfold read; rw [if_neg (by omega)]
  unfold readRaw
  by_cases h1 : 16 ≤ l.length
  · rw [read_ok h1]; simp only [Outcome.bind]
    by_cases h2 : 4 ≤ (l.drop 16).length
    · rw [read_ok h2]; simp only
      by_cases h3 : 4 ≤ ((l.drop 16).drop 4).length
      · rw [read_ok h3]; simp only
        by_cases h4 : 4 ≤ (((l.drop 16).drop 4).drop 4).length
        · rw [read_ok h4]; simp only
          by_cases h5 : 2 ≤ ((((l.drop 16).drop 4).drop 4).drop 4).length
          · rw [read_ok h5]; simp only
            by_cases h6 : 2 ≤ (((((l.drop 16).drop 4).drop 4).drop 4).drop 2).length
            · rw [read_ok h6]; simp only
              by_cases h7 : 2 ≤ ((((((l.drop 16).drop 4).drop 4).drop 4).drop 2).drop 2).length
              · rw [read_ok h7]; simp only
                rw [bad (by simp only [List.length_drop]; omega)]
              · rw [bad (by omega)]
            · rw [bad (by omega)]
          · rw [bad (by omega)]
        · rw [bad (by omega)]
      · rw [bad (by omega)]
    · rw [bad (by omega)]
  · rw [bad (by omega)]; rfl

/-- **Which messages are read past their end**: the ones with 32, 33, 34 or 35 bytes (the size check counts the attribute's
own header), and only these. -/
theorem overread_iff (c : Cfg) (p now : Nat) (l : List Byte) :
    (∃ u, get c p now l = .ub u) ↔ 32 ≤ l.length ∧ l.length < 36 := by
  unfold get
  by_cases h : l.length + 4 < 36
  · rw [if_pos h]
    constructor
    · rintro ⟨_, h'⟩; cases h'
    · omega
  · rw [if_neg h]
    by_cases h' : l.length < 36
    · rw [readRaw_ub h']
      exact ⟨fun _ => ⟨by omega, h'⟩, fun _ => ⟨_, rfl⟩⟩
    · obtain ⟨r, hr⟩ := readRaw_ok (l := l) (by omega)
      rw [hr]
      constructor
      · rintro ⟨_, hh⟩; cases hh
      · omega

/-- **Safety** (partial: the lengths of `overread_iff` are excluded). -/
theorem parse_inside_partial (c : Cfg) (p now : Nat) (l : List Byte) (h : l.length < 32 ∨ 36 ≤ l.length) :
    ∃ r, get c p now l = .ok r := by
  cases hg : get c p now l with
  | ok r => exact ⟨r, rfl⟩
  | ub u => have := (overread_iff c p now l).1 ⟨u, hg⟩; omega

/-- The witness: a 32-byte attribute. -/
theorem parse_overreads : get exCfg 1 0 (List.replicate 32 0#8) = .ub .outOfBounds := by decide +kernel

/-- Short attributes are refused. -/
theorem parse_short (c : Cfg) (p now : Nat) (l : List Byte) (h : l.length < 32) : get c p now l = .ok none := by
  unfold get; rw [if_pos (by omega)]

/-- Bytes after the 36th do not matter. -/
theorem parse_tail (c : Cfg) (p now : Nat) (l tail : List Byte) (h : l.length = 36) :
    get c p now (l ++ tail) = get c p now l := by
  have split36 : ∀ (l : List Byte), l.length = 36 → ∀ tail, readRaw (l ++ tail) = readRaw l := by
    intro l h tail
    have ap : ∀ (n : Nat) (m : List Byte), n ≤ m.length →
        read n (m ++ tail) = .ok (unbe (m.take n), m.drop n ++ tail) := by
      intro n m hm
      rw [read_ok (by rw [List.length_append]; omega), List.take_append_of_le_length hm,
        List.drop_append_of_le_length hm]
    unfold readRaw
    rw [ap 16 l (by omega), read_ok (l := l) (n := 16) (by omega)]; simp only [Outcome.bind]
    rw [ap _ _ (by simp only [List.length_drop]; omega), read_ok (by simp only [List.length_drop]; omega)]
    simp only
    rw [ap _ _ (by simp only [List.length_drop]; omega), read_ok (by simp only [List.length_drop]; omega)]
    simp only
    rw [ap _ _ (by simp only [List.length_drop]; omega), read_ok (by simp only [List.length_drop]; omega)]
    simp only
    rw [ap _ _ (by simp only [List.length_drop]; omega), read_ok (by simp only [List.length_drop]; omega)]
    simp only
    rw [ap _ _ (by simp only [List.length_drop]; omega), read_ok (by simp only [List.length_drop]; omega)]
    simp only
    rw [ap _ _ (by simp only [List.length_drop]; omega), read_ok (by simp only [List.length_drop]; omega)]
    simp only
    rw [ap _ _ (by simp only [List.length_drop]; omega), read_ok (by simp only [List.length_drop]; omega)]
  unfold get
  rw [split36 l h tail, List.length_append, if_neg (by omega), if_neg (by omega)]

/-- Every accepted TCP session has a known timer, and pool6 gives its IPv6 destination. (The protocol is one of
the three by the type of the result.) -/
theorem parse_defined_partial (c : Cfg) (p now : Nat) (l : List Byte) (q : Proto) (r : SessEntry)
    (h : get c p now l = .ok (some (q, r))) :
    (q = .TCP → r.timer ≠ none) ∧ rfc6052_4to6 c.pool6 r.dst4.addr = some r.dst6.addr ∧
      r.dst6.port = (if q = .ICMP then r.src6.port else r.dst4.port) := by
  unfold get at h
  split at h
  · cases h
  · cases hr : readRaw l with
    | ub u => rw [hr] at h; cases h
    | ok w =>
      rw [hr] at h
      simp only [Outcome.map, Outcome.ok.injEq] at h
      unfold interpret at h
      dsimp only at h
      cases hd : rfc6052_4to6 c.pool6 (BitVec.ofNat 32 w.dst4) with
      | none => rw [hd] at h; cases h
      | some d =>
        rw [hd] at h
        dsimp only at h
        cases hq : protoOf (w.flags / 32 % 4) with
        | none => rw [hq] at h; cases h
        | some q' =>
          rw [hq] at h
          dsimp only at h
          cases ht : timeoutMs c q' (timerOf (w.flags % 4)) with
          | none => rw [ht] at h; cases h
          | some t =>
            rw [ht] at h
            simp only [Option.some.injEq, Prod.mk.injEq] at h
            obtain ⟨rfl, rfl⟩ := h
            refine ⟨?_, hd, rfl⟩
            rintro rfl hn
            dsimp only at hn
            rw [hn] at ht
            cases ht

/-- The missing part: a TCP session with a state that does not exist (7), and an UDP session with a timer that does not
exist (3), are accepted. -/
theorem parse_undefined :
    (∃ r, get exCfg 1 0 (List.replicate 34 0#8 ++ [0#8, 0x1C#8]) = .ok (some (.TCP, r)) ∧ r.state = .unknown) ∧
    (∃ r, get exCfg 1 0 (List.replicate 34 0#8 ++ [0#8, 0x23#8]) = .ok (some (.UDP, r)) ∧ r.timer = none) :=
  ⟨parsed (by decide +kernel), parsed (by decide +kernel)⟩

/-! ## Reception -/

end Jool.JooldMsg

namespace Jool.JooldSpec
open JooldMsg Bib

/-- The sessions of a message which belong in the table of `q`, in order, each with the moment when it is processed. -/
def arrivals (c : JooldMsg.Cfg) (p : Nat) (q : Proto) (l : List (Env × List Byte)) : List (Env × Op) :=
  l.filterMap (fun x => match JooldMsg.get c p x.1.now x.2 with
    | .ok (some (q', s)) => if q' = q then some (x.1, .joold s) else none
    | _ => none)

end Jool.JooldSpec

namespace Jool.JooldMsg
open Bib BibSpec JooldSpec

/-- **A message is the sequence of its sessions**: each one is added to the table of its protocol, in order, whatever
happens to the previous ones. -/
theorem sync_history {c : Cfg} {p : Nat} {l : List (Env × List Byte)} {db db' : Db} {ok : Bool}
    (h : sync c p true db (some l) = .ok (db', ok)) (q : Proto) :
    ∃ ev, run q (db q) (arrivals c p q l) = .ok (db' q, ev) := by
  have h : syncLoop c p db l = .ok (db', ok) := h
  induction l generalizing db ok with
  | nil => simp only [syncLoop, Outcome.ok.injEq, Prod.mk.injEq] at h; obtain ⟨rfl, _⟩ := h; exact ⟨[], rfl⟩
  | cons x l ih =>
    obtain ⟨e, b⟩ := x
    unfold syncLoop addNew at h
    have ha : arrivals c p q ((e, b) :: l) = (match JooldMsg.get c p e.now b with
        | .ok (some (q', s)) => if q' = q then [(e, .joold s)] else []
        | _ => []) ++ arrivals c p q l := by
      unfold arrivals
      rw [List.filterMap_cons]
      dsimp only
      rcases JooldMsg.get c p e.now b with (_ | ⟨q', s⟩) | _
      · rfl
      · dsimp only
        by_cases hq : q' = q
        · rw [if_pos hq, if_pos hq]; rfl
        · rw [if_neg hq, if_neg hq]; rfl
      · rfl
    rw [ha]
    rcases hg : JooldMsg.get c p e.now b with (_ | ⟨q', s⟩) | u
    · rw [hg] at h
      dsimp only at h
      cases hl : syncLoop c p db l with
      | ub u => rw [hl] at h; cases h
      | ok r =>
        rw [hl] at h
        simp only [Outcome.map, Outcome.ok.injEq, Prod.mk.injEq] at h
        obtain ⟨rfl, _⟩ := h
        exact ih (ok := r.2) hl hl
    · rw [hg] at h
      dsimp only at h
      cases hj : jooldAdd e q' (db q') s with
      | ub u => rw [hj] at h; cases h
      | ok r =>
        rw [hj] at h
        obtain ⟨t, ev0, res⟩ := r
        dsimp only at h
        cases hl : syncLoop c p (upd db q' t) l with
        | ub u => rw [hl] at h; cases h
        | ok r =>
          rw [hl] at h
          simp only [Outcome.map, Outcome.ok.injEq, Prod.mk.injEq] at h
          obtain ⟨rfl, _⟩ := h
          obtain ⟨ev, hev⟩ := ih (ok := r.2) hl hl
          dsimp only
          by_cases hq : q' = q
          · subst hq
            rw [if_pos rfl]
            refine ⟨ev0 ++ ev, ?_⟩
            show run q' (db q') ((e, .joold s) :: arrivals c p q' l) = _
            unfold run
            have hst : step q' (db q') e (.joold s) = .ok (t, ev0, res) := hj
            rw [hst]
            have : upd db q' t q' = t := by simp [upd]
            rw [this] at hev
            simp only [hev]
          · rw [if_neg hq]
            have : upd db q' t q = db q := by simp [upd, Ne.symm hq]
            rw [this] at hev
            exact ⟨ev, hev⟩
    · rw [hg] at h; cases h

/-- So everything that holds after any history of the tables (uniqueness, consistency, static entries kept, ...) holds
after any message. -/
theorem sync_after {c : Cfg} {p : Nat} {l : List (Env × List Byte)} {db db' : Db} {ok : Bool}
    (h : sync c p true db (some l) = .ok (db', ok)) (q : Proto) {hist ev} (ha : After q hist (db q) ev) :
    ∃ ev', After q (hist ++ arrivals c p q l) (db' q) ev' := by
  obtain ⟨ev', hr⟩ := sync_history h q
  obtain ⟨ho, hi⟩ := ha
  have app : ∀ (h1 h2 : List (Env × Op)) (t t1 t2 : Table) (e1 e2), run q t h1 = .ok (t1, e1) →
      run q t1 h2 = .ok (t2, e2) → run q t (h1 ++ h2) = .ok (t2, e1 ++ e2) := by
    intro h1
    induction h1 with
    | nil => intro h2 t t1 t2 e1 e2 a b; cases a; exact b
    | cons x h1 ih =>
      intro h2 t t1 t2 e1 e2 a b
      obtain ⟨e, o⟩ := x
      rw [List.cons_append]
      unfold run at a ⊢
      cases hs : step q t e o with
      | ub u => rw [hs] at a; cases a
      | ok r =>
        rw [hs] at a
        dsimp only at a ⊢
        cases hr' : run q r.1 h1 with
        | ub u => rw [hr'] at a; cases a
        | ok w =>
          rw [hr'] at a
          dsimp only at a
          simp only [Outcome.ok.injEq, Prod.mk.injEq] at a
          obtain ⟨rfl, rfl⟩ := a
          rw [ih h2 r.1 w.1 t2 w.2 e2 hr' b]
          simp [List.append_assoc]
  refine ⟨ev ++ ev', ?_, app _ _ _ _ _ _ _ hi hr⟩
  intro x hx
  rcases List.mem_append.1 hx with hx | hx
  · exact ho x hx
  · unfold arrivals at hx
    rw [List.mem_filterMap] at hx
    obtain ⟨y, _, hy⟩ := hx
    rcases hg : JooldMsg.get c p y.1.now y.2 with (_ | ⟨q', s⟩) | u <;> rw [hg] at hy <;> dsimp only at hy
    · cases hy
    · by_cases hq : q' = q
      · rw [if_pos hq] at hy; cases hy; trivial
      · rw [if_neg hq] at hy; cases hy
    · cases hy

/-- The answer is "success" only if every session of the message could be read, and there was memory for it. (A collision with
another entry counts as success.) -/
theorem sync_success {c : Cfg} {p : Nat} {l : List (Env × List Byte)} {db db' : Db}
    (h : sync c p true db (some l) = .ok (db', true)) :
    ∀ x ∈ l, x.1.oom.new = false ∧ ∃ q s, get c p x.1.now x.2 = .ok (some (q, s)) := by
  have h : syncLoop c p db l = .ok (db', true) := h
  induction l generalizing db with
  | nil => intro x hx; cases hx
  | cons x l ih =>
    obtain ⟨e, b⟩ := x
    unfold syncLoop addNew at h
    rcases hg : JooldMsg.get c p e.now b with (_ | ⟨q', s⟩) | u
    · rw [hg] at h
      dsimp only at h
      cases hl : syncLoop c p db l with
      | ub u => rw [hl] at h; cases h
      | ok r => rw [hl] at h; simp [Outcome.map] at h
    · rw [hg] at h
      dsimp only at h
      cases hj : jooldAdd e q' (db q') s with
      | ub u => rw [hj] at h; cases h
      | ok r =>
        rw [hj] at h
        dsimp only at h
        cases hl : syncLoop c p (upd db q' r.1) l with
        | ub u => rw [hl] at h; cases h
        | ok r' =>
          rw [hl] at h
          simp only [Outcome.map, Outcome.ok.injEq, Prod.mk.injEq, Bool.and_eq_true] at h
          obtain ⟨rfl, h1, h2⟩ := h
          have := ih (db := upd db q' r.1) (by show syncLoop c p _ l = _; rw [hl, ← h2]) (by rw [hl, ← h2])
          intro y hy
          rcases List.mem_cons.1 hy with rfl | hy
          · refine ⟨?_, q', s, hg⟩
            cases ho : e.oom.new with
            | false => rfl
            | true =>
              unfold jooldAdd at hj
              rw [ho] at hj
              simp only [if_true, Outcome.ok.injEq] at hj
              subst hj
              cases h1
          · exact this y hy
    · rw [hg] at h; cases h

/-- **Delivery.** What an instance serializes, another one adds to its own tables: the arrivals of the
message are the sessions of the given protocol, in order. -/
theorem sync_delivers (c : Cfg) (p₁ p now₁ : Nat) (q : Proto) (ss : List (Env × Sess))
    (hp : ∀ x ∈ ss, rfc6052_4to6 c.pool6 x.2.dst4.addr ≠ none) :
    ∃ rs : List (Env × SessEntry),
      arrivals c p q (ss.map (fun x => (x.1, put p₁ now₁ x.2))) = rs.map (fun x => (x.1, .joold x.2)) ∧
      List.Forall₂ (fun (x : Env × Sess) (y : Env × SessEntry) => x.1 = y.1 ∧
          ∃ d6, rfc6052_4to6 c.pool6 x.2.dst4.addr = some d6 ∧ Same x.2 d6 y.2)
        (ss.filter (fun x => decide (x.2.proto = q))) rs := by
  induction ss with
  | nil => exact ⟨[], rfl, .nil⟩
  | cons x ss ih =>
    obtain ⟨rs, h1, h2⟩ := ih (fun y hy => hp y (List.mem_cons_of_mem _ hy))
    obtain ⟨d6, hd⟩ : ∃ d6, rfc6052_4to6 c.pool6 x.2.dst4.addr = some d6 :=
      Option.ne_none_iff_exists'.1 (hp x (List.mem_cons_self ..))
    obtain ⟨r, hr, hs⟩ := message_roundtrip c p₁ now₁ p x.1.now x.2 d6 hd
    unfold arrivals at h1 ⊢
    rw [List.map_cons, List.filterMap_cons]
    dsimp only
    rw [hr]
    dsimp only
    by_cases hq : x.2.proto = q
    · rw [if_pos hq, List.filter_cons_of_pos (by simpa using hq)]
      exact ⟨(x.1, r) :: rs, by rw [h1]; rfl, .cons ⟨rfl, d6, hd, hs⟩ h2⟩
    · rw [if_neg hq, List.filter_cons_of_neg (by simpa using hq)]
      exact ⟨rs, h1, h2⟩

/-- A request without the attribute that holds the sessions dereferences NULL. -/
theorem sync_null (c : Cfg) (p : Nat) (db : Db) : sync c p true db none = .ub .nullDeref := rfl

/-- When synchronization is disabled, messages are refused. -/
theorem sync_disabled (c : Cfg) (p : Nat) (db : Db) (root) : sync c p false db root = .ok (db, false) := rfl

/-- **Conflicts are not reported.** If another IPv6 node of this instance owns the IPv4 transport address, the
session is not added, and yet the answer is "success". -/
theorem conflict_unreported {c : Cfg} {p : Nat} {e : Env} {db : Db} {l : List Byte} {q : Proto} {s : SessEntry}
    {hist ev} (ha : After q hist (db q) ev) (ho : e.oom.new = false) (hg : get c p e.now l = .ok (some (q, s)))
    (τ : TimerType) (hτ : s.timer = some τ)
    (n6 : ∀ b ∈ bibs (db q), b.src6 ≠ s.src6) (h4 : ∃ b ∈ bibs (db q), b.src4 = s.src4) :
    ∃ db', sync c p true db (some [(e, l)]) = .ok (db', true) ∧ SameContents (db q) (db' q) := by
  obtain ⟨r, ev', hr, hsame⟩ := joold_conflict ha e ho s τ hτ n6 h4
  have hr : jooldAdd e q (db q) s = .ok (r, ev', .err .EEXIST) := hr
  refine ⟨upd db q r, ?_, by simpa [upd] using hsame⟩
  show syncLoop c p db [(e, l)] = _
  simp [syncLoop, addNew, hg, hr, Outcome.map]

/-- The tables of an instance whose UDP table has one entry. -/
def exDb : Db := fun q =>
  match q with
  | .UDP => match Bib.addStatic ⟨0, default, default⟩ .UDP Bib.init
        ⟨⟨0x20010db8000000000000000000000002#128, 7#16⟩, ⟨0xcb007101#32, 60000#16⟩⟩ with
    | .ok r => r.1
    | .ub _ => Bib.init
  | _ => Bib.init

/-- `conflict_unreported` happens: the message's session and the static entry want the same IPv4 address. -/
example : ∃ hist ev s, After .UDP hist (exDb .UDP) ev ∧
    get exCfg 1 500000 (put 1 0 (exSess .UDP .ESTABLISHED .EST 0 300000)) = .ok (some (.UDP, s)) ∧
    s.timer = some .EST ∧ (∀ b ∈ bibs (exDb .UDP), b.src6 ≠ s.src6) ∧ ∃ b ∈ bibs (exDb .UDP), b.src4 = s.src4 :=
  ⟨[(⟨0, default, default⟩, .addStatic ⟨⟨0x20010db8000000000000000000000002#128, 7#16⟩, ⟨0xcb007101#32, 60000#16⟩⟩)], [],
   _, ⟨by intro x hx; rw [List.mem_singleton] at hx; subst hx; trivial, rfl⟩, rfl, by decide +kernel,
   by decide +kernel, by decide +kernel⟩

/-- `sync_history` and `sync_success` on a message with a TCP and an ICMP session: both tables get theirs. -/
example : ∃ db', sync exCfg 1 true (fun _ => Bib.init)
      (some [(⟨500000, default, default⟩, put 1 0 (exSess .TCP .ESTABLISHED .EST 0 300000)),
             (⟨500000, default, default⟩, put 1 0 (exSess .ICMP .ESTABLISHED .EST 0 60000))]) = .ok (db', true) ∧
    (sessions (db' .TCP)).length = 1 ∧ (sessions (db' .UDP)).length = 0 ∧ (sessions (db' .ICMP)).length = 1 :=
  ⟨_, rfl, by decide +kernel, by decide +kernel, by decide +kernel⟩

end Jool.JooldMsg
