import Verif.Model.Text
/-
The statistics of the joold daemon: `src/usr/argp/joold/statsocket.c` (`serve_stats`) and the counters of `modsocket.c` and `netsocket.c`. The threads of the daemon are interleaved in any way.

Simplifications:
- A counter (`atomic_int`) is a 32-bit word; each increment and each load is one step, and increments wrap around.
- The threads are the one that reads the kernel's socket, the one that reads the network's, and one for each socket of the statistics. The order in which the latter loads the six counters
  (arguments of one function call) is any.
- What the datagram of the request says does not matter; the answers of `sendto` do not either (an error is logged).
-/
namespace Jool.DStats
open Jool.Text (Text dec)

/-- usr/argp/joold/modsocket.c:20-21, usr/argp/joold/netsocket.c:28-31. -/
inductive Ctr
  | modPkts | modBytes | rcvdPkts | rcvdBytes | sentPkts | sentBytes
deriving DecidableEq, Repr

/-- Increments that a thread has yet to do. -/
abbrev Todo := List (Ctr × BitVec 32)

/-- usr/argp/joold/netsocket.c:367-382 `netsocket_send`: `sent` is what `sendto` answers (`none`: an error); usr/argp/joold/modsocket.c:184-186. -/
def kernelWork (n : Nat) (sent : Option Nat) : Todo :=
  (match sent with | some m => [(.sentPkts, 1), (.sentBytes, BitVec.ofNat 32 m)] | none => []) ++ [(.modPkts, 1), (.modBytes, BitVec.ofNat 32 n)]

/-- usr/argp/joold/netsocket.c:317-318. -/
def netWork (n : Nat) : Todo := [(.rcvdPkts, 1), (.rcvdBytes, BitVec.ofNat 32 n)]

/-- `none`: the thread waits for a request. Otherwise: what it has loaded. -/
abbrev Server := Option (Ctr → Option (BitVec 32))

structure St where
  ctr : Ctr → BitVec 32
  mod : Todo
  net : Todo
  srv : Nat → Server

/-- Globals are zero at the beginning. -/
def St.init : St := ⟨fun _ => 0, [], [], fun _ => none⟩

/-- `printf("%d")`. -/
def decInt (b : BitVec 32) : Text := if b.msb then '-' :: dec (2 ^ 32 - b.toNat) else dec b.toNat

/-- usr/argp/joold/statsocket.c:131-137: the text, before it is cut. -/
def full (v : Ctr → BitVec 32) : Text :=
  "KERNEL_SENT_PKTS,".toList ++ decInt (v .modPkts) ++ "\nKERNEL_SENT_BYTES,".toList ++ decInt (v .modBytes) ++
  "\nNET_RCVD_PKTS,".toList ++ decInt (v .rcvdPkts) ++ "\nNET_RCVD_BYTES,".toList ++ decInt (v .rcvdBytes) ++
  "\nNET_SENT_PKTS,".toList ++ decInt (v .sentPkts) ++ "\nNET_SENT_BYTES,".toList ++ decInt (v .sentBytes) ++ ['\n']

/-- usr/argp/joold/statsocket.c:131-143: what is in the first `nstr` bytes of the buffer. `none`: `sendto` gets `nstr`, which is more than the buffer has. -/
def answer (v : Ctr → BitVec 32) : Option Text :=
  if 1024 ≤ (full v).length then (if (full v).length ≤ 1024 then some ("Bug!".toList ++ [Char.ofNat 0] ++ ((full v).take 1023 ++ [Char.ofNat 0]).drop 5) else none) else some (full v)

/-- What happens. -/
inductive Ev
  /-- usr/argp/joold/modsocket.c:177-191: a message with sessions comes from the kernel; `n` bytes. -/
  | kernel (n : Nat) (sent : Option Nat)
  /-- usr/argp/joold/netsocket.c:309-322: a datagram comes from the network. -/
  | datagram (n : Nat)
  /-- The next increment of either thread. -/
  | modStep | netStep
  /-- usr/argp/joold/statsocket.c:123-129. -/
  | request (i : Nat)
  | load (i : Nat) (k : Ctr)
  /-- usr/argp/joold/statsocket.c:131-145. `r` is what was loaded. -/
  | reply (i : Nat) (r : Ctr → BitVec 32)

def bump (f : Ctr → BitVec 32) (k : Ctr) (n : BitVec 32) : Ctr → BitVec 32 := fun j => if j = k then f j + n else f j

def setSrv (f : Nat → Server) (i : Nat) (v : Server) : Nat → Server := fun j => if j = i then v else f j

inductive Step : St → Ev → St → Prop
  | kernel {s} (n sent) : s.mod = [] → Step s (.kernel n sent) { s with mod := kernelWork n sent }
  | datagram {s} (n) : s.net = [] → Step s (.datagram n) { s with net := netWork n }
  | modStep {s k n t} : s.mod = (k, n) :: t → Step s .modStep { s with mod := t, ctr := bump s.ctr k n }
  | netStep {s k n t} : s.net = (k, n) :: t → Step s .netStep { s with net := t, ctr := bump s.ctr k n }
  | request {s} (i) : s.srv i = none → Step s (.request i) { s with srv := setSrv s.srv i (some fun _ => none) }
  | load {s} (i k) {f} : s.srv i = some f → f k = none →
      Step s (.load i k) { s with srv := setSrv s.srv i (some fun j => if j = k then some (s.ctr k) else f j) }
  | reply {s} (i r) : s.srv i = some (fun k => some (r k)) → Step s (.reply i r) { s with srv := setSrv s.srv i none }

/-- The threads, interleaved. -/
inductive Run : St → List Ev → St → Prop
  | nil (s) : Run s [] s
  | cons {s e s' l s''} : Step s e s' → Run s' l s'' → Run s (e :: l) s''

end Jool.DStats
