import Verif.Model.Nat64

/-!
# The choice of a transport address: RFC 6056, algorithm 3

`mod/db/pool4/rfc6056.c` (the function F), and the way from F to the transport address that a new BIB entry receives:
`mask_domain_find`, `find_available_mask` and `mask_domain_commit`.

Simplifications: MD5 (the kernel's `crypto_shash` of that name) is any function from what it was fed to sixteen bytes.
Its calls may fail at will. The BIB entries of the protocol are seen through one question: is the transport address
taken? (`Props/Rfc6056F.lean` proves that this is what `Bib.findAvailable`, which follows the trees, computes.)
-/

namespace Jool.Rfc6056
open Pool4 (Dom MT)
open Nat64 (Tuple)

abbrev Byte := BitVec 8

/-- The machine: its byte order, the bytes of `secret_key` (mod/db/pool4/rfc6056.c:69-70, 88-92), and MD5. -/
structure Machine where
  little : Bool
  key : List Byte
  md5 : List Byte → Fin 16 → Byte

/-- What fails: the allocation of the descriptor, `crypto_shash_init`, the n-th `crypto_shash_update`,
`crypto_shash_final`. -/
structure Fails where
  desc : Bool
  init : Bool
  update : Nat → Bool
  final : Bool

/-- `struct in6_addr`: sixteen bytes in network order. -/
def bytes128 (a : BitVec 128) : List Byte := (List.range 16).map (fun i => (a >>> (8 * (15 - i))).setWidth 8)

/-- `__u16` in memory (`l4` is in host byte order: src/common/types.h:149-154). -/
def bytes16 (little : Bool) (p : BitVec 16) : List Byte :=
  if little then [p.setWidth 8, (p >>> 8).setWidth 8] else [(p >>> 8).setWidth 8, p.setWidth 8]

/-- `struct shash_desc`: what it has been fed, and how many updates. -/
structure Desc where
  fed : List Byte
  updates : Nat

/-- `crypto_shash_update`. -/
def update (x : Fails) (d : Desc) (b : List Byte) : Option Desc :=
  if x.update d.updates then none else some ⟨d.fed ++ b, d.updates + 1⟩

/-- One of the conditional updates of `hash_tuple` (e.g. mod/db/pool4/rfc6056.c:118-123). -/
def updateIf (x : Fails) (fields flag : BitVec 8) (b : List Byte) (d : Desc) : Option Desc :=
  if fields &&& flag ≠ 0 then update x d b else some d

/-- mod/db/pool4/rfc6056.c:113-144 `hash_tuple`; the flags are in src/common/config.h:393-398. -/
def hashTuple (m : Machine) (x : Fails) (d : Desc) (fields : BitVec 8) (t : Tuple T6) : Option Desc :=
  (updateIf x fields 8 (bytes128 t.src.addr) d).bind fun d =>
  (updateIf x fields 4 (bytes16 m.little t.src.port) d).bind fun d =>
  (updateIf x fields 2 (bytes128 t.dst.addr) d).bind fun d =>
  (updateIf x fields 1 (bytes16 m.little t.dst.port) d).bind fun d =>
  update x d m.key

/-- `md5_result.as32[3]` (mod/db/pool4/rfc6056.c:155-158, 192), as the machine reads it. -/
def word3 (m : Machine) (r : Fin 16 → Byte) : BitVec 32 :=
  if m.little then r 15 ++ r 14 ++ r 13 ++ r 12 else r 12 ++ r 13 ++ r 14 ++ r 15

/-- What happens to the memory of the descriptor. -/
inductive Mem | alloc | free
deriving DecidableEq, Repr

/-- mod/db/pool4/rfc6056.c:153-198 `rfc6056_f`. `none`: an error code, and `*result` is not written. -/
def f (m : Machine) (x : Fails) (fields : BitVec 8) (t : Tuple T6) : Option (BitVec 32) × List Mem :=
  if x.desc then (none, [])
  else if x.init then (none, [.alloc, .free])
  else match hashTuple m x ⟨[], 0⟩ fields t with
    | none => (none, [.alloc, .free])
    | some d => if x.final then (none, [.alloc, .free]) else (some (word3 m (m.md5 d.fed)), [.alloc, .free])

/-- mod/db/pool4/db.c:1123-1126: the offset of the search, with `next_ephemeral` (db.c:153). -/
def offset (m : Machine) (x : Fails) (fields : BitVec 8) (t : Tuple T6) (eph : BitVec 32) : Option (BitVec 32) :=
  ((f m x fields t).1).map (· + eph)

/-- mod/db/bib/db.c:1279-1294, the loop of `find_available_mask`: the transport address, or −ENOENT; and the domain as
the loop leaves it. -/
def search (taken : T4 → Bool) : Nat → Dom → Option T4 × Dom
  | 0, d => (none, d)
  | n + 1, d => match Pool4.next d with
    | (none, d') => (none, d')
    | (some c, d') => if taken c.1 then search taken n d' else (some c.1, d')

/-- mod/db/bib/db.c:1263-1297 `find_available_mask`, 1295 and mod/db/pool4/db.c:1223-1226 `mask_domain_commit`: the
outcome of the search and the new `next_ephemeral`. The loop ends by itself, after at most `count + 1` turns. -/
def pick (taken : T4 → Bool) (d : Dom) (eph : BitVec 32) : Option T4 × BitVec 32 :=
  let r := search taken (d.count.toNat + 1) d
  (r.1, eph + r.2.counter)

/-- Why no transport address was found. -/
inductive Why | f6056 | noDomain | exhausted
deriving DecidableEq, Repr

/-- A new connection asks for a transport address: mod/db/pool4/db.c:1115-1178 `mask_domain_find`, then
`find_available_mask`. `route`: the source address that routing yields (asked for if pool4 is empty). -/
def choose (m : Machine) (x : Fails) (fields : BitVec 8) (pool : Pool4.Pool) (mark : BitVec 32) (route : Option Addr4)
    (taken : T4 → Bool) (t : Tuple T6) (eph : BitVec 32) : Outcome (Except Why T4 × BitVec 32) :=
  match offset m x fields t eph with
  | none => .ok (.error .f6056, eph)
  | some o => (Pool4.domainFind pool t.proto mark route o).map fun d =>
    match d with
    | none => (.error .noDomain, eph)
    | some d => match pick taken d eph with
      | (none, e) => (.error .exhausted, e)
      | (some a, e) => (.ok a, e)

/-- Connections in a row, each of which asks for a transport address and keeps it (a BIB entry). What each one gets. -/
def serve (m : Machine) (x : Fails) (fields : BitVec 8) (pool : Pool4.Pool) (mark : BitVec 32) (route : Option Addr4) :
    (T4 → Bool) → List (Tuple T6) → BitVec 32 → Outcome (List (Except Why T4) × BitVec 32)
  | _, [], eph => .ok ([], eph)
  | taken, t :: ts, eph =>
    (choose m x fields pool mark route taken t eph).bind fun r =>
      (serve m x fields pool mark route
        (match r.1 with | .ok a => fun b => taken b || b == a | .error _ => taken) ts r.2).map fun q => (r.1 :: q.1, q.2)

/-! ### Several connections at once -/

/-- The searches share `next_ephemeral`, which is read when the mask domain is made and increased when the search has
ended; between both, others may do the same. `busy`: the domains of those in between. `taken`: by the entries of the
table (the search and the insertion happen while the table is locked, mod/db/bib/db.c:1604-1608, 1669, 1726). -/
structure St where
  eph : BitVec 32
  busy : List (Nat × Dom)
  taken : T4 → Bool

/-- `begin i F t`: connection `i`, whose F is `F`, makes its mask domain from the table `t` of pool4. `finish i`: it
searches, and keeps what it found. `free a`: an entry expires. -/
inductive Ev
  | begin (i : Nat) (F : BitVec 32) (t : MT)
  | finish (i : Nat)
  | free (a : T4)

/-- What a step lets know: the connection, its transport address (if any), and how many it tried. -/
structure Note where
  who : Nat
  got : Option T4
  tries : BitVec 32

def begin (s : St) (i : Nat) (F : BitVec 32) (t : MT) : Outcome St :=
  (Pool4.domainOf t (F + s.eph)).map fun d =>
    match d with
    | none => s
    | some d => { s with busy := (i, d) :: s.busy }

def finish (s : St) (i : Nat) : St × List Note :=
  match s.busy.find? (fun b => b.1 == i) with
  | none => (s, [])
  | some b =>
    let r := search s.taken (b.2.count.toNat + 1) b.2
    ({ eph := s.eph + r.2.counter, busy := s.busy.filter (fun b => b.1 != i), taken := fun a => s.taken a || r.1 == some a },
      [⟨i, r.1, r.2.counter⟩])

def step (s : St) : Ev → Outcome (St × List Note)
  | .begin i F t => (begin s i F t).map fun s => (s, [])
  | .finish i => .ok (finish s i)
  | .free a => .ok ({ s with taken := fun b => s.taken b && b != a }, [])

def run (s : St) : List Ev → Outcome (St × List Note)
  | [] => .ok (s, [])
  | e :: es => (step s e).bind fun r => (run r.1 es).map fun q => (q.1, r.2 ++ q.2)

end Jool.Rfc6056
