import Verif.Model.Daemon
import Verif.Lemmas.Nla
import Verif.Props.Joold
import Verif.Props.JooldMsg
/-
C86, the bytes: a batch of sessions becomes a message, the message becomes a datagram, the datagram becomes a request,
and the request yields the same sessions.
-/
namespace Jool.Relay
open Nla JooldMsg JooldSpec
open Jool.Nla (Attr enc attrs unle le)

/-- The attribute of a session. -/
def entry (p now : Nat) (s : Sess) : Attr := ⟨ENTRY, false, put p now s⟩

theorem entry_small (p now : Nat) (s : Sess) : Small (entry p now s) := by
  refine ⟨by show ENTRY < 2 ^ 14; decide, ?_⟩
  show (put p now s).length + 4 < 2 ^ 16
  rw [put_length]; decide

theorem entry_length (p now : Nat) (s : Sess) : (enc (entry p now s)).length = 40 := by
  rw [enc_length]
  show align (4 + (put p now s).length) = 40
  rw [put_length]; rfl

theorem wire_eq (p now : Nat) (b : List Sess) : wire p now b = (b.map (entry p now)).flatMap enc := by
  unfold wire; rw [List.flatMap_map]; rfl

theorem wire_length (p now : Nat) (b : List Sess) : (wire p now b).length = 40 * b.length := by
  induction b with
  | nil => rfl
  | cons s b ih =>
    have : wire p now (s :: b) = enc (entry p now s) ++ wire p now b := rfl
    rw [this, List.length_append, ih, entry_length, List.length_cons]; omega

theorem wire_append (p now : Nat) (a b : List Sess) : wire p now (a ++ b) = wire p now a ++ wire p now b := by
  unfold wire; rw [List.flatMap_append]

/-- The header and the payload of an attribute, when it is what the buffer starts with. -/
theorem enc_head {a : Attr} (h : Small a) : unle ((enc a).take 2) = 4 + a.data.length ∧
    unle (((enc a).drop 2).take 2) % 2 ^ 14 = a.ty ∧ ((enc a).take (4 + a.data.length)).drop 4 = a.data := by
  obtain ⟨h1, h2⟩ := h
  refine ⟨?_, ?_, ?_⟩
  · have ht : (enc a).take 2 = le 2 (4 + a.data.length) := by
      simp only [enc, List.append_assoc]
      exact List.take_left' (le_length _ _)
    rw [ht, unle_le]; exact Nat.mod_eq_of_lt (by omega)
  · have hd : ((enc a).drop 2).take 2 = le 2 (a.ty + if a.nested then 2 ^ 15 else 0) := by
      simp only [enc, List.append_assoc]
      rw [List.drop_left' (le_length _ _)]
      exact List.take_left' (le_length _ _)
    have hb : (a.ty + if a.nested then 2 ^ 15 else 0) < 2 ^ 16 := by split <;> omega
    rw [hd, unle_le, show (256 : Nat) ^ 2 = 2 ^ 16 by decide, Nat.mod_eq_of_lt hb]
    split <;> omega
  · have : enc a = (le 2 (4 + a.data.length) ++ le 2 (a.ty + if a.nested then 2 ^ 15 else 0)) ++ (a.data ++
        (List.replicate (align (4 + a.data.length) - (4 + a.data.length)) 0#8)) := by
      simp only [enc, List.append_assoc]
    have hhd : (le 2 (4 + a.data.length) ++ le 2 (a.ty + if a.nested then 2 ^ 15 else 0)).length = 4 := by
      simp [le_length]
    rw [this, List.drop_take, List.drop_left' hhd]
    have : 4 + a.data.length - 4 = a.data.length := by omega
    rw [this]
    exact List.take_left' rfl

/-- **The daemon detaches the container**: one datagram with the payload, one acknowledgement. -/
theorem forward_enc {nested : Bool} {data : List Byte} (h : data.length + 4 < 2 ^ 16) :
    forward true (enc ⟨SESSION_ENTRIES, nested, data⟩) = .ok [.datagram data, .ack] := by
  have hs : Small ⟨SESSION_ENTRIES, nested, data⟩ := ⟨by show SESSION_ENTRIES < _; decide, h⟩
  obtain ⟨h1, h2, h3⟩ := enc_head hs
  have hl := enc_length ⟨SESSION_ENTRIES, nested, data⟩
  have ha := align_ge (4 + data.length)
  dsimp only at h1 h2 h3 hl
  unfold forward
  rw [if_neg (by omega), if_neg (fun hc => hc h2), h1, if_neg (by omega), h3]
  rfl

/-- What a daemon without a network does with the sessions: it prints them all. -/
theorem printLoop_wire (p now : Nat) (b : List Sess) :
    ∃ rs, printLoop (b.map (entry p now)) = .ok rs ∧ rs.length = b.length := by
  induction b with
  | nil => exact ⟨[], rfl, rfl⟩
  | cons s b ih =>
    obtain ⟨rs, h1, h2⟩ := ih
    obtain ⟨r, hr⟩ := readRaw_ok (l := put p now s) (by rw [put_length])
    refine ⟨r :: rs, ?_, by simp [h2]⟩
    rw [List.map_cons, printLoop, if_neg (by show ¬ (put p now s).length + 4 < 36; rw [put_length]; omega)]
    show (readRaw (put p now s)).bind _ = _
    rw [hr]
    show (printLoop _).map _ = _
    rw [h1]; rfl

theorem forward_print (nested : Bool) (p now : Nat) (b : List Sess) (h : 40 * b.length + 4 < 2 ^ 16) :
    ∃ rs, forward false (enc ⟨SESSION_ENTRIES, nested, wire p now b⟩) = .ok [.print rs, .ack] ∧ rs.length = b.length := by
  have hs : Small ⟨SESSION_ENTRIES, nested, wire p now b⟩ :=
    ⟨by show SESSION_ENTRIES < _; decide, by show (wire p now b).length + 4 < _; rw [wire_length]; exact h⟩
  obtain ⟨h1, h2, h3⟩ := enc_head hs
  have hl := enc_length ⟨SESSION_ENTRIES, nested, wire p now b⟩
  have ha := align_ge (4 + (wire p now b).length)
  dsimp only at h1 h2 h3 hl
  obtain ⟨rs, hr, hn⟩ := printLoop_wire p now b
  refine ⟨rs, ?_, hn⟩
  unfold forward
  rw [if_neg (by omega), if_neg (fun hc => hc h2), h1, if_neg (by omega), h3]
  show (printLoop (attrs (wire p now b)).1).map _ = _
  rw [wire_eq, attrs_encs _ (by intro a ha; obtain ⟨s, _, rfl⟩ := List.mem_map.1 ha; exact entry_small p now s), hr]
  rfl

/-- Walking stops at an attribute that was cut. -/
theorem walk_cut {a : Attr} (h : Small a) {k : Nat} (hk : k < 4 + a.data.length) (n : Nat) :
    walk n ((enc a).take k) = ([], k) := by
  have hl := enc_length a
  have ha := align_ge (4 + a.data.length)
  have hlen : ((enc a).take k).length = k := by rw [List.length_take, hl]; omega
  cases n with
  | zero => rw [walk, hlen]
  | succ n =>
    rw [walk, hlen]
    by_cases h4 : k < 4
    · rw [if_pos h4]
    · rw [if_neg h4, List.take_take, show min 2 k = 2 by omega, (enc_head h).1, if_pos (by omega)]

theorem walk_encs_cut (as : List Attr) (h : ∀ a ∈ as, Small a) (l : List Byte) (r : Nat) (hc : ∀ n, walk n l = ([], r)) :
    ∀ n, as.length ≤ n → walk n (as.flatMap enc ++ l) = (as, r) := by
  induction as with
  | nil => intro n _; exact hc n
  | cons a as ih =>
    intro n hn
    obtain ⟨m, rfl⟩ : ∃ m, n = m + 1 := ⟨n - 1, by simp at hn; omega⟩
    rw [List.flatMap_cons, List.append_assoc, walk_enc m a _ (h a (List.mem_cons_self ..)),
      ih (fun b hb => h b (List.mem_cons_of_mem _ hb)) m (by simpa using hn)]

theorem entries_small (p now : Nat) (b : List Sess) : ∀ a ∈ b.map (entry p now), Small a := by
  intro a ha; obtain ⟨s, _, rfl⟩ := List.mem_map.1 ha; exact entry_small p now s

/-- **What the other daemon reads of a datagram**: the first 51 sessions. The buffer has room for a part of the next
one, which is ignored. -/
theorem attrs_received (p now : Nat) (b : List Sess) :
    (attrs (received (wire p now b))).1 = (b.take 51).map (entry p now) := by
  by_cases hb : b.length ≤ 51
  · have : received (wire p now b) = wire p now b := by
      unfold received MAX_PAYLOAD
      rw [List.take_of_length_le]; rw [wire_length]; omega
    rw [this, List.take_of_length_le hb, wire_eq, attrs_encs _ (entries_small p now b)]
  · obtain ⟨s, r, hr⟩ : ∃ s r, b.drop 51 = s :: r := by
      cases hd : b.drop 51 with
      | nil => have := congrArg List.length hd; rw [List.length_drop] at this; simp at this; omega
      | cons s r => exact ⟨s, r, rfl⟩
    have hsplit : b = b.take 51 ++ (s :: r) := by rw [← hr, List.take_append_drop]
    have hlt : (b.take 51).length = 51 := by rw [List.length_take]; omega
    have hw : wire p now b = wire p now (b.take 51) ++ (enc (entry p now s) ++ wire p now r) := by
      conv => lhs; rw [hsplit]
      rw [wire_append]; rfl
    have hrec : received (wire p now b) = wire p now (b.take 51) ++ (enc (entry p now s)).take 8 := by
      unfold received MAX_PAYLOAD
      have hl : (wire p now (b.take 51)).length = 2040 := by rw [wire_length, hlt]
      rw [hw, List.take_append, hl, List.take_of_length_le (by omega), List.take_append_of_le_length]
      rw [entry_length]; decide
    rw [hrec]
    unfold attrs
    rw [wire_eq, walk_encs_cut _ (entries_small p now _) _ 8 (fun n => walk_cut (entry_small p now s) (by show 8 < 4 + (put p now s).length; rw [put_length]; decide) n)]
    rw [List.length_append]
    have := encs_length ((b.take 51).map (entry p now))
    omega

/-- What the kernel finds in a request of the daemon: the container, if Generic Netlink accepts it. -/
theorem kParse_request (strict : Bool) {data : List Byte} (h : data.length + 4 < 2 ^ 16) :
    kParse strict NlAttr.rootPolicy (request data) =
      if data.length = 0 ∨ 4 ≤ data.length then .ok [⟨SESSION_ENTRIES, true, data⟩] else .err .parse := by
  have hs : Small ⟨SESSION_ENTRIES, true, data⟩ := ⟨by show SESSION_ENTRIES < _; decide, h⟩
  have hr : request data = [(⟨SESSION_ENTRIES, true, data⟩ : Attr)].flatMap enc := by simp [request]
  have ha := attrs_encs [⟨SESSION_ENTRIES, true, data⟩] (by intro a ha; rw [List.mem_singleton] at ha; subst ha; exact hs)
  have hk : kAccepts strict NlAttr.rootPolicy ⟨SESSION_ENTRIES, true, data⟩ = (data.length == 0 || decide (4 ≤ data.length)) := by
    show ((!strict || true) && (data.length == 0 || decide (4 ≤ data.length))) = _
    rw [Bool.or_true, Bool.true_and]
  unfold kParse
  rw [hr, ha]
  dsimp only
  rw [List.all_cons, List.all_nil, hk, Bool.and_true]
  by_cases hd : data.length = 0 ∨ 4 ≤ data.length
  · rw [if_pos hd]
    have : (data.length == 0 || decide (4 ≤ data.length)) = true := by simpa using hd
    rw [this]; simp
  · rw [if_neg hd]
    have : (data.length == 0 || decide (4 ≤ data.length)) = false := by simpa using hd
    rw [this]; simp

theorem received_length (d : List Byte) : (received d).length ≤ 2048 := by
  unfold received MAX_PAYLOAD; rw [List.length_take]; omega

/-- **The kernel's reaction to a datagram.** The container is always there (a request of the daemon can't make the kernel dereference
NULL); lengths from 1 to 3 are rejected by Generic Netlink. -/
theorem handleAdd_request (e : Env) (n : Node) (d : List Byte) :
    handleAdd e n (request (received d)) =
      if (received d).length = 0 ∨ 4 ≤ (received d).length then
        match start n with
        | none => .ok (hear e.heard n (failure n))
        | some i =>
          (sync e.cfg e.p e.jool.cfg.enabled i.db (some (stamp e.bib (attrs (received d)).1))).map fun r =>
            if r.2 then { n with insts := upd n.insts n.me (some { i with db := r.1 }) }
            else hear e.heard { n with insts := upd n.insts n.me (some { i with db := r.1 }) } (failure n)
      else .ok n := by
  unfold handleAdd
  rw [kParse_request _ (by have := received_length d; omega)]
  by_cases hd : (received d).length = 0 ∨ 4 ≤ (received d).length
  · rw [if_pos hd, if_pos hd]; rfl
  · rw [if_neg hd, if_neg hd]

end Jool.Relay
