import Verif.Model.Follow
import Verif.Props.ListingTables
import Verif.Props.Daemon
/-
C98: `session follow` prints the sessions that the kernel sends.
-/
namespace Jool.FollowSpec
open Jool.Text
open Jool.ListingSpec (At6 At4 Time)
open Jool.JooldMsg (Sess)

def name : Proto → Text | .TCP => "TCP".toList | .UDP => "UDP".toList | .ICMP => "ICMP".toList

/-- What the record of a session says, if it is sent at `now` and a jiffy is `p` milliseconds: protocol, the IPv6 node and its port, the mask, the IPv4 node, and how long the session
has left (if the sum does not overflow, and the difference fits in 32 bits). -/
def IsFollowed (i : Inet) (p now : Nat) (s : Sess) (row : List Text) : Prop :=
  ∃ a b c d e f t, row = [name s.proto, a, b, c, d, e, f, t] ∧ At6 i a b s.src6 ∧ At4 i c d s.src4 ∧ At4 i e f s.dst4 ∧
    ∃ ms, Time t ms ∧ (s.updateTime + s.timeout < 2 ^ 64 → p * (s.updateTime + s.timeout - now) < 2 ^ 32 → ms.toNat = p * (s.updateTime + s.timeout - now))

/-- A message of the kernel: an instance, when, and its sessions. -/
structure Batch where
  iname : Relay.Name
  nested : Bool
  p : Nat
  now : Nat
  sessions : List Sess

end Jool.FollowSpec

namespace Jool.Follow
open Jool.Text
open Jool.CsvSpec
open Jool.ListingSpec
open Jool.Listing (line line_record file_map plain_dec plain4 plain6 num_dec time_of proto_of at6_unique at4_unique time_unique)
open Jool.JooldMsg
open Jool.Nla
open Jool.Relay
open Jool.FollowSpec

set_option linter.unusedVariables false

variable {i : Inet}

/-! ### Reading -/

/-- What is read of a session. -/
def raw (p now : Nat) (s : Sess) : Raw :=
  ⟨s.src6.addr.toNat, s.src4.addr.toNat, s.dst4.addr.toNat, lifetimeMs p now s, s.src6.port.toNat, s.src4.port.toNat, s.dst4.port.toNat,
    protoCode s.proto * 2 ^ 5 + stateCode s.state * 2 ^ 2 + timerCode s.timer⟩

theorem readRaw_raw (p now : Nat) (s : Sess) : readRaw (put p now s) = .ok (raw p now s) := by
  have := readRaw_put p now s []
  rw [List.append_nil] at this
  exact this

theorem printLoop_raw (p now : Nat) (b : List Sess) : printLoop (b.map (entry p now)) = .ok (b.map (raw p now)) := by
  induction b with
  | nil => rfl
  | cons s b ih =>
    rw [List.map_cons, printLoop, if_neg (by show ¬ (put p now s).length + 4 < 36; rw [put_length]; omega)]
    show (readRaw (put p now s)).bind _ = _
    rw [readRaw_raw]
    show (printLoop _).map _ = _
    rw [ih]; rfl

theorem forward_raw (nested : Bool) (p now : Nat) (b : List Sess) (h : 40 * b.length + 4 < 2 ^ 16) :
    forward false (enc ⟨SESSION_ENTRIES, nested, wire p now b⟩) = .ok [.print (b.map (raw p now)), .ack] := by
  have hs : Small ⟨SESSION_ENTRIES, nested, wire p now b⟩ :=
    ⟨by show SESSION_ENTRIES < _; decide, by show (wire p now b).length + 4 < _; rw [wire_length]; exact h⟩
  obtain ⟨h1, h2, h3⟩ := enc_head hs
  have hl := enc_length ⟨SESSION_ENTRIES, nested, wire p now b⟩
  have ha := align_ge (4 + (wire p now b).length)
  dsimp only at h1 h2 h3 hl
  unfold forward
  rw [if_neg (by omega), if_neg (fun hc => hc h2), h1, if_neg (by omega), h3]
  show (printLoop (attrs (wire p now b)).1).map _ = _
  rw [wire_eq, attrs_encs _ (by intro a ha; obtain ⟨s, _, rfl⟩ := List.mem_map.1 ha; exact entry_small p now s), printLoop_raw]
  rfl

theorem react_follow (v kv : Nat) (me nm : Name) (nested : Bool) (p now : Nat) (b : List Sess) (hv : sameVersion v kv = true) (hb : 40 * b.length + 4 < 2 ^ 16) :
    react v me false (announce kv nm nested p now b) = if sameCase nm me then .ok [.print (b.map (raw p now)), .ack] else .ok [] := by
  have hval : validHdr v (announce kv nm nested p now b).hdr = true := by
    show (true && sameVersion v kv && (XT_NAT64 / 2 % 2 == 1)) = true
    rw [hv, xt_ok]; rfl
  unfold react
  rw [hval]
  show (if (!true) = true then _ else if (!true) = true then _ else if (!sameCase nm me) = true then _ else _) = _
  cases sameCase nm me with
  | true => exact forward_raw nested p now b hb
  | false => rfl

/-! ### Writing -/

def row (i : Inet) (p now : Nat) (s : Sess) : List Text :=
  [protoName (proto (raw p now s)), i.ntop6 s.src6.addr, dec s.src6.port.toNat, i.ntop4 s.src4.addr, dec s.src4.port.toNat, i.ntop4 s.dst4.addr, dec s.dst4.port.toNat,
    timeout2str (BitVec.ofNat 32 (lifetimeMs p now s))]

theorem sessionLine_eq (p now : Nat) (s : Sess) : sessionLine i (raw p now s) = line (row i p now s) := by
  unfold sessionLine row raw
  simp [line]

theorem proto_raw (p now : Nat) (s : Sess) : protoName (proto (raw p now s)) = name s.proto ∧ (proto (raw p now s) = 0 ∨ proto (raw p now s) = 1 ∨ proto (raw p now s) = 2) := by
  unfold proto raw
  dsimp only
  generalize s.proto = a
  generalize s.state = b
  generalize s.timer = c
  cases a <;> cases b <;> cases c <;> exact ⟨by decide, by decide⟩

theorem row_plain (hi : i.Ok) (p now : Nat) (s : Sess) : ∀ t ∈ row i p now s, Plain t := by
  intro t ht
  unfold row at ht
  simp only [List.mem_cons, List.not_mem_nil, or_false] at ht
  rcases ht with q | q | q | q | q | q | q | q <;> subst q
  · exact (proto_of (proto_raw p now s).2).2
  · exact Listing.plain6 hi _
  · exact plain_dec _
  · exact Listing.plain4 hi _
  · exact plain_dec _
  · exact Listing.plain4 hi _
  · exact plain_dec _
  · exact (time_of _).2

theorem lifetime_lt (p now : Nat) (s : Sess) : lifetimeMs p now s < 2 ^ 32 := by
  unfold lifetimeMs
  dsimp only
  split <;> split <;> omega

theorem row_is (hi : i.Ok) (p now : Nat) (s : Sess) : IsFollowed i p now s (row i p now s) := by
  refine ⟨_, _, _, _, _, _, _, ?_, ⟨hi.v6 _, num_dec _⟩, ⟨hi.v4 _, num_dec _⟩, ⟨hi.v4 _, num_dec _⟩, BitVec.ofNat 32 (lifetimeMs p now s), (time_of _).1, ?_⟩
  · unfold row
    rw [(proto_raw p now s).1]
  · intro h1 h2
    rw [BitVec.toNat_ofNat, Nat.mod_eq_of_lt (lifetime_lt p now s)]
    exact lifetimeMs_eq h1 h2

/-! ### Following -/

/-- The records of the sessions of the instance that is followed. -/
def rows (i : Inet) (me : Name) (bs : List Batch) (row : Batch → Sess → List Text) : List (List Text) :=
  (bs.filter fun b => sameCase b.iname me).flatMap fun b => b.sessions.map (row b)

def msg (kv : Nat) (b : Batch) : Msg := announce kv b.iname b.nested b.p b.now b.sessions

theorem file_append {t u : Text} {r q : List (List Text)} (h : File t r) (g : File u q) : File (t ++ u) (r ++ q) := by
  induction h with
  | nil => exact g
  | cons a _ ih => rw [List.append_assoc]; exact .cons a ih

theorem listen_file (hi : i.Ok) {v kv : Nat} (hv : sameVersion v kv = true) (me : Name) : ∀ (bs : List Batch), (∀ b ∈ bs, 40 * b.sessions.length + 4 < 2 ^ 16) →
    ∃ t, listen i v me (bs.map (msg kv)) = .ok t ∧ File t (rows i me bs fun b => row i b.p b.now)
  | [], _ => ⟨[], rfl, .nil⟩
  | b :: bs, h => by
    obtain ⟨t, h1, h2⟩ := listen_file hi hv me bs (fun x hx => h x (List.mem_cons_of_mem _ hx))
    rw [List.map_cons, listen]
    unfold msg at h1 ⊢
    rw [react_follow v kv me b.iname b.nested b.p b.now b.sessions hv (h b List.mem_cons_self), h1]
    unfold rows at h2 ⊢
    rw [List.filter_cons]
    cases sameCase b.iname me with
    | false => exact ⟨t, rfl, h2⟩
    | true =>
      refine ⟨(b.sessions.map (raw b.p b.now)).flatMap (sessionLine i) ++ t, ?_, ?_⟩
      · show Outcome.ok _ = _
        simp [printed]
      · rw [if_pos rfl, List.flatMap_cons]
        refine file_append ?_ h2
        rw [List.flatMap_map]
        refine file_map ?_
        intro s hs
        rw [sessionLine_eq]
        exact line_record (by unfold row; simp) (row_plain hi _ _ _)

/-- **C98**, whatever the names of the instances (upper and lower case are not told apart): after two lines of prose, the standard output is a CSV file with one record for each session of the
instances with the name that is followed (and none for the others), in the order in which they were sent, which says the protocol, the addresses, the ports, and how long the session has left. -/
theorem followed (hi : i.Ok) {v kv : Nat} (hv : sameVersion v kv = true) (me : Name) (bs : List Batch) (hb : ∀ b ∈ bs, 40 * b.sessions.length + 4 < 2 ^ 16) :
    ∃ t row, follow i v me (bs.map (msg kv)) = .ok t ∧ File t (banner.map (fun l => [l]) ++ rows i me bs row) ∧
      ∀ b ∈ bs, ∀ s ∈ b.sessions, IsFollowed i b.p b.now s (row b s) := by
  obtain ⟨t, h1, h2⟩ := listen_file hi hv me bs hb
  refine ⟨_, fun b => row i b.p b.now, ?_, file_append (file_map (f := (· ++ ['\n'])) (g := fun l => [l]) ?_) h2, fun b _ s _ => row_is hi _ _ _⟩
  · unfold follow; rw [h1]; rfl
  · intro l hl
    refine .last (.plain ?_)
    have : banner.all (fun t => t.all (fun c => c != ',' && c != '"' && c != '\n' && c != '\r')) = true := by decide +kernel
    rw [List.all_eq_true] at this
    have := this l hl
    rw [List.all_eq_true] at this
    intro c hc
    simpa [and_assoc] using this c hc

/-- The sessions of the instance that is followed. -/
def mine (me : Name) (bs : List Batch) : List (Batch × Sess) := (bs.filter (·.iname = me)).flatMap fun b => b.sessions.map fun s => (b, s)

/-- **C98.** `session follow`, whatever messages arrive from a kernel of the same version: after two lines of prose, the standard output is a CSV file with one record for each session of the
instance that is followed, and none for those of other instances (if no other name differs only in case), in the order in which they were sent. Each record says the protocol, the addresses, the
ports, and how long the session has left. -/
theorem followed_partial (hi : i.Ok) {v kv : Nat} (hv : sameVersion v kv = true) (me : Name) (bs : List Batch) (hb : ∀ b ∈ bs, 40 * b.sessions.length + 4 < 2 ^ 16)
    (hc : ∀ b ∈ bs, sameCase b.iname me = true → b.iname = me) :
    ∃ t row, follow i v me (bs.map (msg kv)) = .ok t ∧ File t (banner.map (fun l => [l]) ++ (mine me bs).map row) ∧
      ∀ x ∈ mine me bs, IsFollowed i x.1.p x.1.now x.2 (row x) := by
  obtain ⟨t, r, h1, h2, h3⟩ := followed hi hv me bs hb
  refine ⟨t, fun x => r x.1 x.2, h1, ?_, ?_⟩
  · have e : rows i me bs r = (mine me bs).map fun x => r x.1 x.2 := by
      unfold rows mine
      have : (bs.filter fun b => sameCase b.iname me) = bs.filter (·.iname = me) := by
        apply List.filter_congr
        intro b hm
        cases hs : sameCase b.iname me with
        | true => simp [hc b hm hs]
        | false =>
          have : b.iname ≠ me := by intro e; rw [e, sameCase_refl] at hs; cases hs
          simp [this]
      rw [this, List.map_flatMap]
      simp [Function.comp_def]
    rw [← e]; exact h2
  · intro x hx
    unfold mine at hx
    obtain ⟨b, hb1, hb2⟩ := List.mem_flatMap.1 hx
    obtain ⟨s, hs, rfl⟩ := List.mem_map.1 hb2
    exact h3 b (List.mem_filter.1 hb1).1 s hs

/-- **C98.** No sessions of the instance, nothing but the two lines. (Other instances of the same kernel are not heard.) -/
theorem others_silent {v kv : Nat} (hv : sameVersion v kv = true) (me : Name) : ∀ (bs : List Batch), (∀ b ∈ bs, 40 * b.sessions.length + 4 < 2 ^ 16) → (∀ b ∈ bs, sameCase b.iname me = false) →
    listen i v me (bs.map (msg kv)) = .ok []
  | [], _, _ => rfl
  | b :: bs, h, g => by
    rw [List.map_cons, listen]
    unfold msg
    rw [react_follow v kv me b.iname b.nested b.p b.now b.sessions hv (h b List.mem_cons_self), g b List.mem_cons_self]
    show (listen i v me (bs.map (msg kv))).map _ = _
    rw [others_silent hv me bs (fun x hx => h x (List.mem_cons_of_mem _ hx)) (fun x hx => g x (List.mem_cons_of_mem _ hx))]
    rfl

/-- **C98.** A record says which session it is. -/
theorem followed_determined {p p' now now' : Nat} {s s' : Sess} {r : List Text} (h : IsFollowed i p now s r) (h' : IsFollowed i p' now' s' r) :
    s.proto = s'.proto ∧ s.src6 = s'.src6 ∧ s.src4 = s'.src4 ∧ s.dst4 = s'.dst4 := by
  obtain ⟨a, b, c, d, e, f, t, rfl, w1, w2, w3, -⟩ := h
  obtain ⟨a', b', c', d', e', f', t', e0, v1, v2, v3, -⟩ := h'
  simp only [List.cons.injEq, and_true] at e0
  obtain ⟨k, rfl, rfl, rfl, rfl, rfl, rfl, rfl⟩ := e0
  refine ⟨?_, at6_unique w1 v1, at4_unique w2 v2, at4_unique w3 v3⟩
  revert k
  generalize s.proto = x
  generalize s'.proto = y
  cases x <;> cases y <;> intro k <;> first | rfl | (exact absurd k (by decide))

/-- **C98.** … and the time that it has left: two records are only equal if it is. -/
theorem followed_time {p p' now now' : Nat} {s s' : Sess} {r : List Text} (h : IsFollowed i p now s r) (h' : IsFollowed i p' now' s' r)
    (w : s.updateTime + s.timeout < 2 ^ 64) (w' : s'.updateTime + s'.timeout < 2 ^ 64) (b : p * (s.updateTime + s.timeout - now) < 2 ^ 32) (b' : p' * (s'.updateTime + s'.timeout - now') < 2 ^ 32) :
    p * (s.updateTime + s.timeout - now) = p' * (s'.updateTime + s'.timeout - now') := by
  obtain ⟨_, _, _, _, _, _, t, rfl, -, -, -, m, h1, h2⟩ := h
  obtain ⟨_, _, _, _, _, _, t', e0, -, -, -, m', h1', h2'⟩ := h'
  simp only [List.cons.injEq, and_true] at e0
  obtain ⟨-, -, -, -, -, -, -, rfl⟩ := e0
  have := time_unique h1 h1'
  subst this
  rw [← h2 w b, ← h2' w' b']

/-! ### What is wrong with it -/

/-- A session with almost 50 days left. -/
def long : Sess := ⟨.TCP, ⟨1, 2⟩, ⟨3, 4⟩, ⟨5, 6⟩, ⟨7, 8⟩, .ESTABLISHED, .EST, 0, 2 ^ 32⟩

/-- **C98 is violated** when more than 2³² milliseconds are left: the record says that the session is about to expire. -/
theorem long_wrong : timeout2str (BitVec.ofNat 32 (lifetimeMs 1 0 long)) = "0:00:00".toList := by decide +kernel

/-- **C98 is violated** by sessions that are cut: those of 32 to 35 bytes are read although they have no flags (all of them). -/
theorem cut_overread {a : Attr} (h1 : 32 ≤ a.data.length) (h2 : a.data.length < 36) (l : List Attr) : ∃ u, printLoop (a :: l) = .ub u := by
  obtain ⟨ty, n, d⟩ := a
  dsimp only at h1 h2
  rw [printLoop, if_neg (by show ¬ d.length + 4 < 36; omega)]
  exact ⟨_, by show (readRaw d).bind _ = _; rw [readRaw_ub h2]; rfl⟩

/-- **C98 is violated** by names that only differ in case: whoever follows `d` is shown the sessions of `D`, which for the kernel is another instance. -/
theorem case_leak (hi : i.Ok) : ∃ t r, follow i 0 [100#8] [msg 0 ⟨[68#8], false, 1, 0, [long]⟩] = .ok t ∧ File t (banner.map (fun l => [l]) ++ [r]) ∧ IsFollowed i 1 0 long r := by
  obtain ⟨t, r, h1, h2, h3⟩ := followed hi (v := 0) (kv := 0) (by decide) [100#8] [⟨[68#8], false, 1, 0, [long]⟩] (by decide)
  exact ⟨t, _, h1, h2, h3 _ List.mem_cons_self _ List.mem_cons_self⟩

/-! ### Cases -/

def icmp : Sess := ⟨.ICMP, ⟨0x20010db8000000000000000000000001#128, 7⟩, ⟨3, 7⟩, ⟨0xC0000201#32, 9⟩, ⟨0xCB007105#32, 9⟩, .ESTABLISHED, .EST, 1000, 500⟩

/-- Two messages: one of the instance that is followed, with two sessions, and one of another. -/
def two : List Batch := [⟨[100#8], false, 4, 1100, [icmp, long]⟩, ⟨[101#8], false, 4, 1100, [icmp]⟩]

example (hi : i.Ok) : ∃ t a b, follow i 0 [100#8] (two.map (msg 0)) = .ok t ∧ File t (banner.map (fun l => [l]) ++ [a, b]) ∧ IsFollowed i 4 1100 icmp a ∧ IsFollowed i 4 1100 long b := by
  obtain ⟨t, r, h1, h2, h3⟩ := followed_partial hi (v := 0) (kv := 0) (by decide) [100#8] two (by decide) (by decide)
  exact ⟨t, _, _, h1, h2, h3 _ List.mem_cons_self, h3 _ (List.mem_cons_of_mem _ List.mem_cons_self)⟩

/-- 400 jiffies of 4 milliseconds. -/
example : timeout2str (BitVec.ofNat 32 (lifetimeMs 4 1100 icmp)) = "0:00:01.600".toList := by decide +kernel

example : ∃ u, printLoop [⟨ENTRY, false, List.replicate 33 0#8⟩] = .ub u := cut_overread (by decide) (by decide) []

end Jool.Follow
