import Verif.Props.Nat64Filter
import Verif.Props.Nat64Errors
import Verif.Props.Pool4Defects
/-
C52, C53, C66: concrete histories of an instance. They meet the hypotheses of the theorems in `Verif.Props.Nat64` and its
siblings, and show what the exceptions in their hypotheses are for.
-/
namespace Jool.Nat64.Ex
open Nat64Spec
open Jool.Bib (Table BibKey SessKey)
open Jool.Pool4 (exA exAdd)

/-- 64:ff9b::/96 -/
def P96 : Prefix6 := ⟨0x0064ff9b000000000000000000000000#128, 96⟩
/-- 2001:db8::/40: RFC 6052 leaves a suffix. -/
def P40 : Prefix6 := ⟨0x20010db8000000000000000000000000#128, 40⟩
def cfg : Cfg := ⟨true, some P96, false, false, fun _ => false⟩
def cfg40 : Cfg := ⟨true, some P40, false, false, fun _ => false⟩

def bcfg : Bib.Cfg := ⟨false, false, false, 10, 7200000, 240000, 6000, 300000, 60000⟩
def env : Bib.Env := ⟨1000, bcfg, ⟨false, false, false, false, false⟩⟩
/-- Address-dependent filtering. -/
def envAdf : Bib.Env := ⟨1000, { bcfg with dropByAddr := true }, ⟨false, false, false, false, false⟩⟩
def ctx : Ctx := ⟨env, 7, 0, some 2, false, .error (.untranslatable "FAILED_ROUTES" none), none, false⟩
def ctxAdf : Ctx := { ctx with env := envAdf }
/-- The routing table has no route for the translated packet (mod/rfc7915/6to4.c:337-355). -/
def ctxLost : Ctx := { ctx with fail := some (.untranslatable "FAILED_ROUTES" none) }

/-- Two IPv6 nodes and an IPv4 one. -/
def n1 : Addr6 := 0x20010db9000000000000000000000001#128
def n2 : Addr6 := 0x20010db9000000000000000000000002#128
/-- 192.0.2.5 -/
def srv : Addr4 := 0xC0000205#32
/-- 64:ff9b::192.0.2.5 -/
def srv6 : Addr6 := 0x0064ff9b0000000000000000c0000205#128
/-- 64:ff9b::203.0.113.8: the pool4 address, seen from IPv6. -/
def pool6 : Addr6 := 0x0064ff9b0000000000000000cb007108#128

/-- pool4: 203.0.113.8, ports 61000 to 61009 of the three protocols. -/
def pool : List Op := [.pool (exAdd .UDP 0 61000 61009), .pool (exAdd .TCP 0 61000 61009), .pool (exAdd .ICMP 0 61000 61009)]

def st (h : List Op) : St := match run init h with | .ok s => s | .ub _ => init
/-- What became of a packet after a history. -/
def out (h : List Op) (o : Op) : Option Out := match step (st h) o with | .ok r => r.2 | .ub _ => none

def ran (h : List Op) : Bool := match run init h with | .ok _ => true | .ub _ => false

theorem ran_ok {h : List Op} (hr : ran h = true) : run init h = .ok (st h) := by
  unfold ran at hr; unfold st
  cases hh : run init h with
  | ok s => rfl
  | ub u => rw [hh] at hr; cases hr

/-- The states of these examples are reachable. -/
theorem reach {h : List Op} (ho : ∀ o ∈ h, (match o with | .table .. => false | _ => true) = true) (hr : ran h = true) :
    Reach (st h) := by
  refine ⟨h, fun o hm => ?_, ran_ok hr⟩
  have := ho o hm
  cases o with
  | table => cases this
  | _ => exact True.intro

def u6 (s d : Addr6) (sp dp : Port) : Op := .pkt6 cfg ctx (some ctx) ⟨s, d, .udp sp dp⟩
def u4 (s d : Addr4) (sp dp : Port) : Op := .pkt4 cfg ctx ⟨s, d, .udp sp dp⟩
def u4adf (s d : Addr4) (sp dp : Port) : Op := .pkt4 cfg ctxAdf ⟨s, d, .udp sp dp⟩

/-- The first node has talked to the server. -/
def talked : List Op := pool ++ [u6 n1 srv6 5000 80]

theorem talked_reach : Reach (st talked) := reach (by decide +kernel) (by decide +kernel)

/-- 6→4 (`translated64`), with the mark, the address and a port of pool4. -/
example : out pool (u6 n1 srv6 5000 80) = some (.sent4 ⟨exA, srv, .udp 61002 80⟩) := by decide +kernel

/-- The answer (`reply64`, `roundtrip64`, `translated46`, `inbound46`). -/
example : out talked (u4 srv exA 80 61002) = some (.sent6 ⟨srv6, n1, .udp 80 5000⟩) := by decide +kernel

/-- The hypotheses of `reply64`, and so of the promise of `roundtrip64`, hold after it. -/
example : SessKey.mk ⟨⟨n1, 5000⟩, ⟨exA, 61002⟩⟩ ⟨srv, 80⟩ ∈ sessions (st talked) .UDP ∧
    Pool4.contains cfg.own (st talked).pool4 .UDP ⟨exA, 61002⟩ = true ∧ Active cfg P96 ∧ Smooth ctx := by
  refine ⟨by decide +kernel, by decide +kernel, ⟨rfl, rfl⟩, rfl, rfl, rfl⟩

/-- …and the node's later packets keep their source (`forward64`, `same_source`), to another server as well. -/
example : out (talked ++ [u4 srv exA 80 61002]) (u6 n1 (srv6 + 1) 5000 443) = some (.sent4 ⟨exA, srv + 1, .udp 61002 443⟩) := by
  decide +kernel

/-- Somebody else may use the mapping as well, unless there is address-dependent filtering (`inbound46`). -/
example : out talked (u4 (srv + 1) exA 9 61002) = some (.sent6 ⟨srv6 + 1, n1, .udp 9 5000⟩) ∧
    out talked (u4adf (srv + 1) exA 9 61002) = some (.dropped "ADF" (some .FILTER)) ∧
    out talked (u4adf srv exA 9 61002) = some (.sent6 ⟨srv6, n1, .udp 9 5000⟩) := by decide +kernel

/-- No BIB entry; not in pool4; not to pool6 (`inbound46`, `returned4_iff`, `returned4_pool`, `returned6_iff`). -/
example : out talked (u4 srv exA 80 61003) = some (.returned "BIB4_NOT_FOUND") ∧
    out talked (u4 srv exA 80 60999) = some (.returned "POOL4_MISMATCH") ∧
    out talked (u6 n1 n2 5000 80) = some (.returned "POOL6_MISMATCH") ∧
    out talked (u6 pool6 srv6 5000 80) = some (.dropped "HAIRPIN_LOOP" none) := by decide +kernel

/-! ### TCP and echoes -/

def t6 (s d : Port) (syn fin rst : Bool) : Op := .pkt6 cfg ctx (some ctx) ⟨n1, srv6, .tcp s d syn fin rst⟩
def t4 (s d : Port) (syn fin rst : Bool) : Op := .pkt4 cfg ctx ⟨srv, exA, .tcp s d syn fin rst⟩

/-- A whole connection. -/
def conn : List Op := pool ++ [t6 5000 80 true false false, t4 80 61002 true false false, t6 5000 80 false false false]

example : out pool (t6 5000 80 true false false) = some (.sent4 ⟨exA, srv, .tcp 61002 80 true false false⟩) ∧
    out (pool ++ [t6 5000 80 true false false]) (t4 80 61002 true false false)
      = some (.sent6 ⟨srv6, n1, .tcp 80 5000 true false false⟩) ∧
    out conn (t4 80 61002 false true false) = some (.sent6 ⟨srv6, n1, .tcp 80 5000 false true false⟩) := by decide +kernel

example : Reach (st conn) := reach (by decide +kernel) (by decide +kernel)

/-- It is answerable: the hypothesis of `reply64` about TCP. -/
example : Bib.Answerable (((st conn).tables .TCP).info ⟨⟨⟨n1, 5000⟩, ⟨exA, 61002⟩⟩, ⟨srv, 80⟩⟩) :=
  by unfold Bib.Answerable; decide +kernel

/-- An IPv4 SYN to an unused port is kept, until the IPv6 SYN that it crosses, or the time is over. -/
example : out pool (t4 80 61002 true false false) = some .stored := by decide +kernel

def i6 (t : Byte) (id : Port) : Op := .pkt6 cfg ctx (some ctx) ⟨n1, srv6, .icmp t 0 id none⟩
def i4 (t : Byte) (id : Port) : Op := .pkt4 cfg ctx ⟨srv, exA, .icmp t 0 id none⟩

/-- An echo and its answer. -/
example : out pool (i6 128 77) = some (.sent4 ⟨exA, srv, .icmp 8 0 61002 none⟩) ∧
    out (pool ++ [i6 128 77]) (i4 0 61002) = some (.sent6 ⟨srv6, n1, .icmp 129 0 77 none⟩) := by decide +kernel

/-! ### ICMP errors -/

/-- 198.51.100.1, a router. -/
def router : Addr4 := 0xC6336401#32
def e4 (c : Cfg) (i : Inner Addr4) : Op := .pkt4 c ctx ⟨router, exA, .icmp 3 1 0 (some i)⟩

/-- A router complains about the first packet (`error46`, `error_roundtrip`); the node sees its own packet inside. The source
is the router's only if `source-icmpv6-errors-better` is on. -/
example : out talked (e4 cfg ⟨exA, srv, .udp 61002 80⟩)
      = some (.sent6 ⟨srv6, n1, .icmp 1 0 0 (some ⟨n1, srv6, .udp 5000 80⟩)⟩) ∧
    out talked (e4 { cfg with srcIcmp6errsBetter := true } ⟨exA, srv, .udp 61002 80⟩)
      = some (.sent6 ⟨0x0064ff9b0000000000000000c6336401#128, n1, .icmp 1 0 0 (some ⟨n1, srv6, .udp 5000 80⟩)⟩) := by
  decide +kernel

/-- The node complains about the server's packet (`error64`). -/
example : out talked (.pkt6 cfg ctx (some ctx) ⟨n1, srv6, .icmp 1 4 0 (some ⟨srv6, n1, .udp 80 5000⟩)⟩)
    = some (.sent4 ⟨exA, srv, .icmp 3 3 0 (some ⟨srv, exA, .udp 80 61002⟩)⟩) := by decide +kernel

/-- An error about a packet nobody sent is returned (`returned4_error`). -/
example : out talked (e4 cfg ⟨exA, srv, .udp 61003 80⟩) = some (.returned "SESSION_NOT_FOUND") := by decide +kernel

/-! ### Hairpinning -/

/-- The second node talks to the first one's pool4 address; the first one answers (`hairpin_iff`, `hairpin_end_to_end`,
`hairpin_delivered`). -/
example : out talked (u6 n2 pool6 4000 61002) = some (.sent6 ⟨pool6, n1, .udp 61003 5000⟩) ∧
    out (talked ++ [u6 n2 pool6 4000 61002]) (u6 n1 pool6 5000 61003) = some (.sent6 ⟨pool6, n2, .udp 61002 4000⟩) := by
  decide +kernel

/-! ### Why the theorems have exceptions -/

/-- **The round trip needs a destination without suffix.** Under 2001:db8::/40, a node talks to an address with a suffix that
is not zero. The answer comes from an address that it never talked to. -/
theorem suffix_lost :
    out pool (.pkt6 cfg40 ctx (some ctx) ⟨n1, 0x20010db800c0000200050000000000ff#128, .udp 5000 80⟩)
      = some (.sent4 ⟨exA, srv, .udp 61002 80⟩) ∧
    out (pool ++ [.pkt6 cfg40 ctx (some ctx) ⟨n1, 0x20010db800c0000200050000000000ff#128, .udp 5000 80⟩])
        (.pkt4 cfg40 ctx ⟨srv, exA, .udp 80 61002⟩)
      = some (.sent6 ⟨0x20010db800c000020005000000000000#128, n1, .udp 80 5000⟩) := by decide +kernel

/-- **A returned packet may have left traces** (this is why `returned6_unchanged` asks for `Clear`). There is no route for the
packet: the kernel gets it back, but the BIB entry and the session stay. -/
theorem returned_with_traces :
    out pool (.pkt6 cfg ctxLost (some ctx) ⟨n1, srv6, .udp 5000 80⟩) = some (.returned "FAILED_ROUTES") ∧
    bibs (st pool) .UDP = [] ∧
    bibs (st (pool ++ [.pkt6 cfg ctxLost (some ctx) ⟨n1, srv6, .udp 5000 80⟩])) .UDP = [⟨⟨n1, 5000⟩, ⟨exA, 61002⟩⟩] := by
  decide +kernel

/-- **A hairpinning packet may be returned too.** Nobody has the pool4 port that it is for. The second pass has no BIB entry
for it, so the kernel gets the original IPv6 packet back; the first pass created an entry all the same. From
IPv4, the same destination would be refused the same way, but without a trace. -/
theorem hairpin_returned :
    out pool (u6 n1 pool6 5000 61005) = some (.returned "BIB4_NOT_FOUND") ∧
    bibs (st (pool ++ [u6 n1 pool6 5000 61005])) .UDP = [⟨⟨n1, 5000⟩, ⟨exA, 61002⟩⟩] := by decide +kernel

/-- **ICMP errors are routed by what is inside.** An error from a node whose destination is any address of pool6 is
translated by the packet inside; the destination that it was sent to is not compared with it. -/
theorem error_destination_ignored :
    out talked (.pkt6 cfg ctx (some ctx) ⟨n1, srv6 + 9, .icmp 1 4 0 (some ⟨srv6, n1, .udp 80 5000⟩)⟩)
      = some (.sent4 ⟨exA, srv, .icmp 3 3 0 (some ⟨srv, exA, .udp 80 61002⟩)⟩) := by decide +kernel

/-- **An echo to a pool4 address comes back to its sender.** Its only identifier becomes that of the sender's BIB entry before
the second pass looks for the destination. Node 1 has identifier 61002; node 2 sends an echo request with that identifier to
the pool4 address, and receives it itself. -/
theorem echo_bounced :
    out (pool ++ [i6 128 77]) (.pkt6 cfg ctx (some ctx) ⟨n2, pool6, .icmp 128 0 61002 none⟩)
      = some (.sent6 ⟨pool6, n2, .icmp 128 0 61002 none⟩) := by decide +kernel

end Jool.Nat64.Ex
