import Verif.Props.Cmd
import Verif.Props.InstList
import Verif.Props.Rfc6056F
import Verif.Props.WholeAny
import Verif.Props.WholeSiitAny
/-
Details that wrong versions of the models showed to be missing in the theorems on C80, C87, C89 and C90.
-/

/-! ## C89: which words are which operation -/
namespace Jool.CmdSpec
open Jool.Cmd

/-- The manual: program, mode, operations. -/
def manual : List (Xt × String × List String) := [
  (3, "instance", ["display", "add", "remove", "flush", "status"]), (3, "stats", ["display"]), (1, "address", ["query"]), (3, "global", ["display"]),
  (1, "eamt", ["display", "add", "remove", "flush"]), (1, "blacklist4", ["display", "add", "remove", "flush"]), (1, "denylist4", ["display", "add", "remove", "flush"]),
  (2, "pool4", ["display", "add", "remove", "flush"]), (2, "bib", ["display", "add", "remove"]), (2, "session", ["display", "follow", "proxy", "advertise"])]

/-- The settings: of both programs, of SIIT, of NAT64. -/
def keys : List (Xt × List String) := [
  (3, ["manually-enabled", "pool6", "lowest-ipv6-mtu", "logging-debug", "zeroize-traffic-class", "override-tos", "tos", "mtu-plateaus"]),
  (1, ["amend-udp-checksum-zero", "eam-hairpin-mode", "randomize-rfc6791-addresses", "rfc6791v6-prefix", "rfc6791v4-prefix"]),
  (2, ["address-dependent-filtering", "drop-externally-initiated-tcp", "drop-icmpv6-info", "source-icmpv6-errors-better", "f-args", "handle-rst-during-fin-rcv", "tcp-est-timeout",
    "tcp-trans-timeout", "udp-timeout", "icmp-timeout", "logging-bib", "logging-session", "maximum-simultaneous-opens", "ss-enabled", "ss-flush-asap", "ss-flush-deadline", "ss-capacity",
    "ss-max-payload", "ss-max-sessions-per-packet"])]

end Jool.CmdSpec

namespace Jool.Cmd
open Jool.CmdSpec

/-- Is there a command of that name? -/
def hasCmd (xt : Xt) (b : Tok) (f : Handler) (level : List Node) : Bool :=
  level.any fun n => match n with
    | .cmd l x _ g _ => decide (l = b) && decide (xt &&& x ≠ 0) && decide (g = f)
    | .dir _ _ _ _ => false

def hasDir (xt : Xt) (a : Tok) (k : List Node → Bool) (level : List Node) : Bool :=
  level.any fun n => match n with
    | .cmd _ _ _ _ _ => false
    | .dir l x _ c => decide (l = a) && decide (xt &&& x ≠ 0) && k c

theorem hasCmd_full {xt : Xt} {b : Tok} {f : Handler} {level : List Node} (h : hasCmd xt b f level = true) : Full xt level [b] f := by
  unfold hasCmd at h
  obtain ⟨n, hn, h⟩ := List.any_eq_true.1 h
  cases n with
  | dir => cases h
  | cmd l x hd g a =>
    simp only [Bool.and_eq_true, decide_eq_true_eq] at h
    obtain ⟨⟨rfl, h2⟩, rfl⟩ := h
    exact .cmd _ _ _ _ _ _ hn h2

theorem hasDir_full {xt : Xt} {a : Tok} {k : List Node → Bool} {f : Handler} {p : List Tok} {level : List Node} (hk : ∀ c, k c = true → Full xt c p f) (h : hasDir xt a k level = true) :
    Full xt level (a :: p) f := by
  unfold hasDir at h
  obtain ⟨n, hn, h⟩ := List.any_eq_true.1 h
  cases n with
  | cmd => cases h
  | dir l x hd c =>
    simp only [Bool.and_eq_true, decide_eq_true_eq] at h
    obtain ⟨⟨rfl, h2⟩, h3⟩ := h
    exact .dir _ _ _ _ _ _ _ hn h2 (hk c h3)

/-- **C89.** The words of the manual run the operations of the manual, with what follows. -/
theorem manual_runs {xt : Xt} {strtol : Tok → Option Int} {rest : List Tok} (hs : Strings rest) {x : Xt} {mode : String} {ops : List String} (hm : (x, mode, ops) ∈ manual) (hx : xt &&& x ≠ 0)
    {o : String} (ho : o ∈ ops) : handle false xt tree strtol (mode.toList :: o.toList :: rest) = .ok (.run (.op ("handle_" ++ mode ++ "_" ++ o)) (o.toList :: rest)) := by
  have all : ∀ xt : Xt, ∀ e ∈ manual, xt &&& e.1 ≠ 0 → ∀ o ∈ e.2.2, hasDir xt e.2.1.toList (hasCmd xt o.toList (.op ("handle_" ++ e.2.1 ++ "_" ++ o))) tree = true := by decide +kernel
  have plain : ∀ e ∈ manual, '\x00' ∉ e.2.1.toList ∧ e.2.1.toList ≠ "autocomplete".toList ∧ ∀ o ∈ e.2.2, '\x00' ∉ o.toList := by decide +kernel
  have hf := hasDir_full (fun c => hasCmd_full) (all xt _ hm hx o ho)
  obtain ⟨p1, p2, p3⟩ := plain _ hm
  obtain ⟨q, w, e, h⟩ := full_runs hf rest
  have e2 : w = o.toList := by
    have e' : ([mode.toList, o.toList] : List Tok) = q ++ [w] := e
    have := congrArg List.getLast? e'
    simpa using this.symm
  subst e2
  refine (programs ?_ p2).2 h
  intro t ht
  rcases List.mem_cons.1 ht with rfl | ht
  · exact p1
  · rcases List.mem_cons.1 ht with rfl | ht
    · exact p3 o ho
    · exact hs t ht

/-- **C89.** The same for settings. -/
theorem keys_run {xt : Xt} {strtol : Tok → Option Int} {rest : List Tok} (hs : Strings rest) {x : Xt} {ks : List String} (hm : (x, ks) ∈ keys) (hx : xt &&& x ≠ 0)
    {o : String} (ho : o ∈ ks) : handle false xt tree strtol ("global".toList :: "update".toList :: o.toList :: rest) = .ok (.run (.key o) (o.toList :: rest)) := by
  have all : ∀ xt : Xt, ∀ e ∈ keys, xt &&& e.1 ≠ 0 → ∀ o ∈ e.2, hasDir xt "global".toList (hasDir xt "update".toList (hasCmd xt o.toList (.key o))) tree = true := by decide +kernel
  have plain : ∀ e ∈ keys, ∀ o ∈ e.2, '\x00' ∉ o.toList := by decide +kernel
  have hf := hasDir_full (fun c => hasDir_full (fun c => hasCmd_full)) (all xt _ hm hx o ho)
  obtain ⟨q, w, e, h⟩ := full_runs hf rest
  have e2 : w = o.toList := by
    have e' : (["global".toList, "update".toList, o.toList] : List Tok) = q ++ [w] := e
    have := congrArg List.getLast? e'
    simpa using this.symm
  subst e2
  refine (programs ?_ (by decide)).2 h
  intro t ht
  rcases List.mem_cons.1 ht with rfl | ht
  · decide
  · rcases List.mem_cons.1 ht with rfl | ht
    · decide
    · rcases List.mem_cons.1 ht with rfl | ht
      · exact plain _ hm o ho
      · exact hs t ht

/-- **C89.** The two that are named otherwise. -/
theorem others_run {strtol : Tok → Option Int} {rest : List Tok} (hs : Strings rest) :
    (∀ xt : Xt, xt ≠ 0 → handle false xt tree strtol ("file".toList :: "handle".toList :: rest) = .ok (.run (.op "handle_file_update") ("handle".toList :: rest))) ∧
    handle false nat64 tree strtol ("joold".toList :: "advertise".toList :: rest) = .ok (.run (.op "handle_session_advertise") ("advertise".toList :: rest)) := by
  have go : ∀ (xt : Xt) (a b : Tok) (f : Handler), hasDir xt a (hasCmd xt b f) tree = true → '\x00' ∉ a → '\x00' ∉ b → a ≠ "autocomplete".toList →
      handle false xt tree strtol (a :: b :: rest) = .ok (.run f (b :: rest)) := by
    intro xt a b f h h1 h2 h3
    obtain ⟨q, w, e, h⟩ := full_runs (hasDir_full (fun c => hasCmd_full) h) rest
    have e2 : w = b := by
      have e' : ([a, b] : List Tok) = q ++ [w] := e
      have := congrArg List.getLast? e'
      simpa using this.symm
    subst e2
    refine (programs ?_ h3).2 h
    intro t ht
    rcases List.mem_cons.1 ht with rfl | ht
    · exact h1
    · rcases List.mem_cons.1 ht with rfl | ht
      · exact h2
      · exact hs t ht
  constructor
  · intro xt hx
    have : ∀ xt : Xt, xt ≠ 0 → hasDir xt "file".toList (hasCmd xt "handle".toList (.op "handle_file_update")) tree = true := by decide +kernel
    exact go xt _ _ _ (this xt hx) (by decide) (by decide) (by decide)
  · exact go nat64 _ _ _ (by decide +kernel) (by decide) (by decide) (by decide)

example : handle false siit tree (fun _ => none) ["eamt".toList, "add".toList, "2001:db8::/120".toList, "192.0.2.0/24".toList] =
    .ok (.run (.op "handle_eamt_add") ["add".toList, "2001:db8::/120".toList, "192.0.2.0/24".toList]) :=
  manual_runs (x := 1) (mode := "eamt") (ops := ["display", "add", "remove", "flush"]) (o := "add") (by unfold Strings; decide +kernel) (by decide +kernel) (by decide) (by decide)

end Jool.Cmd

/-! ## C80: "hello" to names that cannot be -/
namespace Jool.InstList
open Jool.Xlator

/-- **C80.** "Hello" with an invalid name or type is an error, not a dead instance. -/
theorem hello_invalid (H : Hash) (w : World) (ns : Ns) (xt : Flags) (name : Name) (h : nameValid name = false ∨ xtValid (xtOf (12 ||| xt)) = false) :
    hello H w ns xt name = .error .EINVAL := by
  unfold hello lookup
  rcases h with h | h
  · rw [if_pos (by simp [h])]
  · by_cases q : nameValid name = false
    · rw [if_pos (by simp [q])]
    · rw [if_neg (by simpa using q), if_pos (by rw [h]; rfl)]

example : xtValid (xtOf (12 ||| (0 : Flags))) = false ∧ xtValid (xtOf (12 ||| (3 : Flags))) = false := by decide

end Jool.InstList

/-! ## C87: the number, and unknown marks -/
namespace Jool.Rfc6056

/-- **C87.** F is the number that the last four bytes of the hash are, in the byte order of the machine. -/
theorem word3_value (m : Machine) (r : Fin 16 → Byte) : (word3 m r).toNat =
    if m.little then (r 12).toNat + 256 * (r 13).toNat + 65536 * (r 14).toNat + 16777216 * (r 15).toNat
    else (r 15).toNat + 256 * (r 14).toNat + 65536 * (r 13).toNat + 16777216 * (r 12).toNat := by
  have cat : ∀ a b c d : Byte, (a ++ b ++ c ++ d).toNat = d.toNat + 256 * c.toNat + 65536 * b.toNat + 16777216 * a.toNat := by
    intro a b c d
    have := a.isLt; have := b.isLt; have := c.isLt; have := d.isLt
    rw [BitVec.toNat_append, BitVec.toNat_append, BitVec.toNat_append, ← Nat.shiftLeft_add_eq_or_of_lt (by omega), ← Nat.shiftLeft_add_eq_or_of_lt (by omega),
      ← Nat.shiftLeft_add_eq_or_of_lt (by omega), Nat.shiftLeft_eq, Nat.shiftLeft_eq, Nat.shiftLeft_eq]
    omega
  unfold word3
  split <;> exact cat _ _ _ _

/-- **C87.** If pool4 has addresses, but none for the mark (and the protocol), then no transport address is looked for, and that is what is reported. -/
theorem choose_unknown (m : Machine) (x : Fails) (fields : BitVec 8) (pool : Pool4.Pool) (mark : BitVec 32) (route : Option Addr4) (taken : T4 → Bool) (t : Nat64.Tuple T6) (eph : BitVec 32)
    (hne : Pool4.isEmpty pool = false) (hm : Pool4.findMark (pool t.proto).marks mark = none) (F : BitVec 32) (h : (f m x fields t).1 = some F) :
    choose m x fields pool mark route taken t eph = .ok (.error .noDomain, eph) := by
  unfold choose offset Pool4.domainFind
  simp only [h, Option.map_some, hne, Bool.false_eq_true, if_false, hm, Outcome.map]

/-- **C87.** If pool4 is empty, and routing yields no address: the same. -/
theorem choose_unrouted (m : Machine) (x : Fails) (fields : BitVec 8) (pool : Pool4.Pool) (mark : BitVec 32) (taken : T4 → Bool) (t : Nat64.Tuple T6) (eph : BitVec 32)
    (he : Pool4.isEmpty pool = true) (F : BitVec 32) (h : (f m x fields t).1 = some F) :
    choose m x fields pool mark none taken t eph = .ok (.error .noDomain, eph) := by
  unfold choose offset Pool4.domainFind
  simp only [h, Option.map_some, he, if_true, Option.map_none, Outcome.map]

end Jool.Rfc6056

/-! ## C90: packets of other protocols; networks that refuse errors -/
namespace Jool.WholeAny
open Jool.Pkt (Byte L4 Acc at8 at16)
open Jool.WireSpec
open Jool.WholeSpec

/-- **C90.** Packets that are neither TCP, UDP nor ICMP stop before the tables, with the answer that RFC 6146 demands. -/
theorem other_stops {cfg : Nat64.Cfg} {P : Prefix6} {s : Nat64.St} {c : Nat64.Ctx} {x : Wire.Ctx} {nexthop lim : BitVec 32} {fails : Nat → Bool} {p : Build.P} {a : Acc} {s0 : Pkt.Skb}
    (A : Arrives4 s0 a p) (h6 : proto4 s0.data ≠ 6) (h17 : proto4 s0.data ≠ 17) (h1 : proto4 s0.data ≠ 1) :
    pass4 cfg P s c x nexthop lim fails p a = .ok ⟨s, [], .stop (.untranslatable "UNKNOWN_L4_PROTO" (some .PROTO_UNREACHABLE))⟩ := by
  have h20 := (Wire.complete4 A.accepted A.inside).1
  have hp : a.m.proto = L4.other := by
    rw [(Pkt.init4_ok A.accepted).proto, Wire.proto4_of h20]
    simp [h6, h17, h1]
  have ht : Nat64.tuple4 (Whole.pkt4 a) = .error (.untranslatable "UNKNOWN_L4_PROTO" (some .PROTO_UNREACHABLE)) := by
    unfold Nat64.tuple4 Whole.pkt4 Whole.l4
    dsimp only
    rw [hp]
  unfold pass4
  rw [ht]

end Jool.WholeAny

namespace Jool.WholeSiitAny
open Jool.Pkt (Byte L4 Meta Acc at8)
open Jool.Siit
open Jool.WholeSiit (Env)

theorem hand_ok (os : List (List Byte)) : hand (fun _ => false) os = .sent os := by
  rcases hand_cases (fails := fun _ => false) os with h | ⟨j, -, -, h, -⟩
  · exact h.1
  · cases h

theorem flow_stop {s : Inst} {flag : Bool} {rnd rnd2 : Nat → BitVec 8} {a : Acc} {f : WholeSiit.Fate} (h : WholeSiit.flow46 s flag rnd rnd2 a = .ok (.stop f)) :
    f = .untranslatable ∨ f = .drop := by
  have aft : ∀ {r : Siit.Res Addr6} {k : Addr6 → Addr6 → Bool → Outcome (WholeSiit.Flow Addr6)}, (∀ a b c, k a b c = .ok (.stop f) → f = .untranslatable ∨ f = .drop) →
      WholeSiit.after r k = .ok (.stop f) → f = .untranslatable ∨ f = .drop := by
    intro r k hk h
    cases r with
    | untranslatable => cases h; exact .inl rfl
    | drop => cases h; exact .inr rfl
    | cont => exact hk _ _ _ h
  unfold WholeSiit.flow46 at h
  obtain ⟨r, -, h⟩ := Nat64.bind_ok h
  refine aft ?_ h
  intro x y z h
  split at h
  · split at h
    · cases h
    · obtain ⟨r, -, h⟩ := Nat64.bind_ok h
      exact aft (fun _ _ _ h => by cases h) h
  · cases h; exact .inr rfl

/-- **C90.** What the network refuses: the fate of a packet (be it an error or not) with any network is the one with a network that refuses nothing, except that what would have been
sent is cut before the first refusal. (`e.fail`: there is no route, no memory, …) -/
theorem refused {s : Inst} {x : Wire.Ctx} {y : Wire.ErrCtx} {e : Env Addr6} {nexthop lim : BitVec 32} {fails : Nat → Bool} {flag : Bool} {rnd rnd2 : Nat → BitVec 8} {p : Build.P} {a : Acc}
    {r : Fate} (he : ∀ f, e.fail = some f → f = .untranslatable ∨ f = .drop) (h : pass46 s x y e nexthop lim (fun _ => false) flag rnd rnd2 p a = .ok r) :
    ∃ r', pass46 s x y e nexthop lim fails flag rnd rnd2 p a = .ok r' ∧ ((∀ os, r ≠ .sent os) → r' = r) ∧
      ∀ os, r = .sent os → (r' = .sent os ∧ ∀ j < os.length, fails j = false) ∨ ∃ j, j < os.length ∧ r' = .broken (os.take j) ∧ fails j = true ∧ ∀ j' < j, fails j' = false := by
  have stay : ∀ r : Fate, (∀ os, r ≠ .sent os) → ∃ r', (Outcome.ok r : Outcome Fate) = .ok r' ∧ ((∀ os, r ≠ .sent os) → r' = r) ∧
      ∀ os, r = .sent os → (r' = .sent os ∧ ∀ j < os.length, fails j = false) ∨ ∃ j, j < os.length ∧ r' = .broken (os.take j) ∧ fails j = true ∧ ∀ j' < j, fails j' = false :=
    fun r hr => ⟨r, rfl, fun _ => rfl, fun os q => absurd q (hr os)⟩
  have handed : ∀ os, ∃ r', (Outcome.ok (hand fails os) : Outcome Fate) = .ok r' ∧ ((∀ os', Fate.sent os ≠ .sent os') → r' = Fate.sent os) ∧
      ∀ os', Fate.sent os = .sent os' → (r' = .sent os' ∧ ∀ j < os'.length, fails j = false) ∨ ∃ j, j < os'.length ∧ r' = .broken (os'.take j) ∧ fails j = true ∧ ∀ j' < j, fails j' = false :=
    fun os => ⟨_, rfl, fun q => absurd rfl (q os), fun os' q => by cases q; exact hand_cases os⟩
  have stop : ∀ f : WholeSiit.Fate, f = .untranslatable ∨ f = .drop → ∀ os, stopped f ≠ .sent os := by
    rintro f (rfl | rfl) os q <;> cases q
  unfold pass46 at h ⊢
  cases hfl : WholeSiit.flow46 s flag rnd rnd2 a with
  | ub u => rw [hfl] at h; cases h
  | ok fl =>
    rw [hfl] at h
    dsimp only [Outcome.bind] at h ⊢
    cases fl with
    | stop f => cases h; exact stay _ (stop f (flow_stop hfl))
    | go src dst inside z =>
      dsimp only at h ⊢
      cases hf : e.fail with
      | some f => rw [hf] at h; cases h; exact stay _ (stop f (he f hf))
      | none =>
        rw [hf] at h
        dsimp only at h ⊢
        cases hs' : WholeSiit.from46 e a.inner.isSome src with
        | none => rw [hs'] at h; cases h; exact stay _ (by intro os q; cases q)
        | some src' =>
          rw [hs'] at h
          dsimp only at h ⊢
          have fwd : ∀ {w : Outcome Wire.Fate}, w.map (leave (fun _ => false)) = .ok r → ∃ r', w.map (leave fails) = .ok r' ∧ ((∀ os, r ≠ .sent os) → r' = r) ∧
              ∀ os, r = .sent os → (r' = .sent os ∧ ∀ j < os.length, fails j = false) ∨ ∃ j, j < os.length ∧ r' = .broken (os.take j) ∧ fails j = true ∧ ∀ j' < j, fails j' = false := by
            intro w h
            cases w with
            | ub u => cases h
            | ok w =>
              cases w with
              | badMtu => cases h; exact stay _ (by intro os q; cases q)
              | tooBig m => cases h; exact stay _ (by intro os q; cases q)
              | dropped => cases h; exact stay _ (by intro os q; cases q)
              | sent os =>
                dsimp only [Outcome.map, leave] at h ⊢
                rw [hand_ok] at h
                cases h
                exact handed os
          cases inside with
          | none => exact fwd h
          | some pr =>
            obtain ⟨is, id⟩ := pr
            cases hi : a.inner with
            | none => rw [hi] at h; exact fwd h
            | some i =>
              rw [hi] at h
              dsimp only at h ⊢
              split at h
              · rename_i q
                rw [if_pos q]
                cases h; exact stay _ (by intro os q; cases q)
              · rename_i q
                rw [if_neg q]
                cases ht : Wire.translateErr46 (WholeSiit.siit x flag) (WholeSiit.siitErr y) src' dst is id p a i with
                | ub u => rw [ht] at h; cases h
                | ok w =>
                  rw [ht] at h
                  dsimp only [Outcome.map] at h ⊢
                  cases w with
                  | none => cases h; exact stay _ (by intro os q; cases q)
                  | some o =>
                    dsimp only at h ⊢
                    rw [hand_ok] at h
                    cases h
                    exact handed [o]

end Jool.WholeSiitAny
