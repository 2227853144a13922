import Verif.Model.Bib
/-
The IPv4 transport address pool: src/mod/common/db/pool4/db.c, src/mod/common/db/pool4/empty.c and the
port range helpers of src/common/types.c.

A table (`struct pool4_table`) is a counter plus an array of entries; the arrays are lists here. Each
protocol owns a tree of tables indexed by mark and a tree of tables indexed by address. The trees are
represented by their in-order sequence (sorted by the comparison function); what the C search does on
an actual tree is `findByMarkTree` and friends, related to the sequence in Verif.Props.Pool4.

Memory allocation is an oracle: `krealloc` may fail, extend the block in place, or move it; a moved block
makes every later use of the old pointer a use after free (`slip_in`: "@table should not be dereferenced
after this!").

Not modelled: the spinlock (each function below is one critical section; `pool4db_add` takes the lock
once per address, but nothing else in the model runs in between), protocol OTHER (rejected by `get_tree`),
`pool4db_print`, the reference counter.
-/
namespace Jool.Pool4

/-- src/common/types.h:119-122 `struct ipv4_range` as stored in a table: `prefix.len` is 32 in every stored
entry (mod/db/pool4/db.c:591), so only the address is kept. `min` and `max` are `__u16`s, which the code
promotes to `int` in every expression; they are naturals here and `Props.Pool4` proves that they stay
within 16 bits. -/
structure E where
  addr : Addr4
  min : Nat
  max : Nat
deriving DecidableEq, Repr, Inhabited

/-- src/common/types.c:71-74 `port_range_count`. -/
def cnt (e : E) : Nat := e.max + 1 - e.min

/-- src/common/types.c:66-69 `port_range_contains`. -/
def portContains (e : E) (p : Nat) : Bool := decide (e.min ≤ p) && decide (p ≤ e.max)

/-- src/common/types.c:60-64 `port_range_touches`, 89-95 `ipv4_range_touches`. (`max >= min - 1` is an `int`
comparison.) -/
def touches (a b : E) : Bool :=
  decide (a.addr = b.addr) && (decide (b.min ≤ a.max + 1) && decide (a.min ≤ b.max + 1))

/-- src/common/types.c:76-80 `port_range_fuse`, mod/db/pool4/db.c:365-368 `ipv4_range_fuse`. -/
def fuse (a b : E) : E :=
  ⟨a.addr, if a.min < b.min then a.min else b.min, if b.max < a.max then a.max else b.max⟩

/-- mod/db/pool4/db.c:346-363 `compare_range`. -/
def compareRange (r1 r2 : E) : Int :=
  let gap := memcmpSign r1.addr r2.addr
  if gap ≠ 0 then gap
  else if r1.max + 1 < r2.min then -1
  else if r2.max + 1 < r1.min then 1
  else 0

/-- mod/db/pool4/db.c:39-74 `struct pool4_table`: `taddr_count` and the array (`sample_count` is its length).
The key and the iteration limits are in `MT`, `AT`. -/
structure Tbl where
  count : BitVec 32
  es : List E
deriving DecidableEq, Repr, Inhabited

def cnt32 (e : E) : BitVec 32 := BitVec.ofNat 32 (cnt e)

/-- mod/db/pool4/db.c:370-386 `fix_collisions`: `e` is the entry, the list what follows it in the array. -/
def fixCollisions (c : BitVec 32) (e : E) : List E → BitVec 32 × List E
  | [] => (c, [e])
  | f :: r =>
    if touches e f then
      fixCollisions (c - cnt32 e - cnt32 f + cnt32 (fuse e f)) (fuse e f) r
    else (c, e :: f :: r)

/-- mod/db/pool4/db.c:432-451 `pool4_add_range`, the loop. `none`: the new range is to be slipped in. -/
def addFuse (c : BitVec 32) (n : E) : List E → Option (BitVec 32 × List E)
  | [] => none
  | e :: r =>
    if compareRange e n = 0 then some (fixCollisions c (fuse e n) r)
    else if 0 < compareRange e n then none
    else (addFuse c n r).map (fun x => (x.1, e :: x.2))

/-- mod/db/pool4/db.c:439-450 the position where the loop of `pool4_add_range` stops when nothing is fused,
and 418-427 of `slip_in`, which places the new entry there. -/
def slip (n : E) : List E → List E
  | [] => [n]
  | e :: r => if 0 < compareRange e n then n :: e :: r else e :: slip n r

/-- What the allocator does with a request: fail, succeed in place, succeed somewhere else. -/
inductive Kr | fail | stay | move
deriving DecidableEq, Repr, Inhabited

inductive AddR
  | enomem
  | done (t : Tbl) (moved : Bool)
deriving DecidableEq, Repr

/-- mod/db/pool4/db.c:432-451 `pool4_add_range` with 394-430 `slip_in`. -/
def addRange (kr : Kr) (t : Tbl) (n : E) : AddR :=
  match addFuse t.count n t.es with
  | some r => .done ⟨r.1, r.2⟩ false
  | none =>
    match kr with
    | .fail => .enomem
    | k => .done ⟨t.count + cnt32 n, slip n t.es⟩ (decide (k = .move))

/-- mod/db/pool4/db.c:658-727 `remove_range`, the loop. Result: counter, entries, error. The hole case calls
`slip_in`; if that moved the table the loop goes on with a dangling pointer. If it did not, the next visited
entry is the one that was just slipped in: it lies above the removed range, so lines 686-688 leave it alone. -/
def removeLoop (kr : Addr4 → Kr) (pfx : Prefix4) (lo hi : Nat) (c : BitVec 32) :
    List E → Outcome (BitVec 32 × List E × Bool)
  | [] => .ok (c, [], false)
  | e :: r =>
    let keep := fun (c' : BitVec 32) (l : List E) =>
      (removeLoop kr pfx lo hi c' r).map (fun x => (x.1, l ++ x.2.1, x.2.2))
    if ¬ prefix4Contains pfx e.addr then keep c [e]
    else if lo ≤ e.min ∧ e.max ≤ hi then keep (c - cnt32 e) []
    else if e.min < lo ∧ hi < e.max then
      let c1 := c - cnt32 ⟨e.addr, lo, hi⟩
      let low : E := ⟨e.addr, e.min, lo - 1⟩
      let tmp : E := ⟨e.addr, hi + 1, e.max⟩
      match kr e.addr with
      | .fail => .ok (c1, low :: r, true)
      | .move => .ub .useAfterFree
      | .stay => keep (c1 + cnt32 tmp) [low, tmp]
    else if hi < e.min ∨ e.max < lo then keep c [e]
    else if e.min < lo then
      keep (c - BitVec.ofNat 32 (e.max + 1 - lo)) [⟨e.addr, e.min, lo - 1⟩]
    else if hi < e.max then
      keep (c - BitVec.ofNat 32 (hi + 1 - e.min)) [⟨e.addr, hi + 1, e.max⟩]
    else keep c [e]

/-- mod/db/pool4/db.c:658-727 `remove_range`. `none`: the table was erased from its tree (721-724). -/
def removeRange (kr : Addr4 → Kr) (pfx : Prefix4) (lo hi : Nat) (t : Tbl) : Outcome (Option Tbl × Bool) :=
  (removeLoop kr pfx lo hi t.count t.es).map
    (fun x => (if x.2.1 = [] then none else some ⟨x.1, x.2.1⟩, x.2.2))

/-! ### Trees -/

/-- src/common/config.h:347-359 `enum iteration_flags`. -/
structure Flags where
  set : Bool
  auto : Bool
  infinite : Bool
deriving DecidableEq, Repr, Inhabited

/-- A table of the mark trees. -/
structure MT where
  mark : BitVec 32
  t : Tbl
  flags : Flags
  iters : BitVec 32
deriving DecidableEq, Repr, Inhabited

/-- A table of the address trees. -/
structure AT where
  addr : Addr4
  t : Tbl
deriving DecidableEq, Repr, Inhabited

/-- The two trees of one protocol, as in-order sequences. -/
structure PT where
  marks : List MT
  addrs : List AT
deriving DecidableEq, Repr, Inhabited

/-- mod/db/pool4/db.c:90-98 `struct pool4`. -/
abbrev Pool := Proto → PT

/-- mod/db/pool4/db.c:264-282 `pool4db_alloc`. -/
def empty : Pool := fun _ => ⟨[], []⟩

def setP (db : Pool) (p : Proto) (t : PT) : Pool := fun q => if q = p then t else db q

/-- mod/db/pool4/db.c:219-224 `is_empty`. -/
def isEmpty (db : Pool) : Bool :=
  (db .TCP).marks.isEmpty && (db .UDP).marks.isEmpty && (db .ICMP).marks.isEmpty

/-- mod/db/pool4/db.c:180-183 `cmp_mark`: wrapping 32-bit subtraction, read as signed. -/
def cmpMark (t : MT) (mark : BitVec 32) : Int := (mark - t.mark).toInt

/-- mod/db/pool4/db.c:192-195 `cmp_addr`. -/
def cmpAddr (t : AT) (a : Addr4) : Int := memcmpSign t.addr a

/-- mod/db/pool4/db.c:205-210 `cmp_prefix`. -/
def cmpPrefix (t : AT) (p : Prefix4) : Int :=
  if prefix4Contains p t.addr then 0 else memcmpSign t.addr p.addr

/-- Place of a mark in the in-order sequence of a mark tree: `cmp_mark` is negative, which leads right, when
the wanted mark is smaller as a signed integer. -/
def markKey (t : MT) : Nat := 4294967295 - (t.mark + 0x80000000#32).toNat

def addrKey (t : AT) : Nat := t.addr.toNat

/-- mod/db/pool4/db.c:185-190 `find_by_mark` on the sequence (see `Verif.Props.Pool4` for trees). -/
def findMark (l : List MT) (mark : BitVec 32) : Option MT := l.find? (fun t => decide (t.mark = mark))

/-- mod/db/pool4/db.c:197-203 `find_by_addr` on the sequence. -/
def findAddr (l : List AT) (a : Addr4) : Option AT := l.find? (fun t => decide (t.addr = a))

/-- src/common/config.h:372-385 `struct pool4_entry` without the protocol. -/
structure Entry where
  mark : BitVec 32
  iters : BitVec 32
  flags : Flags
  pfx : Prefix4
  min : BitVec 16
  max : BitVec 16
deriving DecidableEq, Repr

/-- mod/db/pool4/db.c:241-262 `create_table`. -/
def createTable (n : E) : Tbl := ⟨cnt32 n, [n]⟩

/-- Result of the functions that return 0 or an error and may misbehave. -/
abbrev Res (α : Type) := Outcome (α × Bool)

/-- mod/db/pool4/db.c:472-475, 484-487 the iteration settings of an entry. -/
def setIters (e : Entry) (t : MT) : MT :=
  if e.flags.set then { t with flags := e.flags, iters := e.iters } else t

/-- mod/db/pool4/db.c:453-498 `add_to_mark_tree` (the Boolean is "error"). -/
def addToMark (kr : Kr) (l : List MT) (e : Entry) (n : E) : Res (List MT) :=
  match findMark l e.mark with
  | some t =>
    match addRange kr t.t n with
    | .enomem => .ok (l, true)
    | .done t' moved =>
      if moved && e.flags.set then .ub .useAfterFree
      else .ok (l.map (fun x => if x.mark = e.mark then setIters e { x with t := t' } else x), false)
  | none =>
    match kr with
    | .fail => .ok (l, true)
    | _ => .ok (Bib.insBy markKey
        (setIters e ⟨e.mark, createTable n, ⟨false, true, false⟩, 0⟩) l, false)

/-- mod/db/pool4/db.c:500-532 `add_to_addr_tree`. -/
def addToAddr (kr : Kr) (l : List AT) (n : E) : List AT × Bool :=
  match findAddr l n.addr with
  | some t =>
    match addRange kr t.t n with
    | .enomem => (l, true)
    | .done t' _ => (l.map (fun x => if x.addr = n.addr then { x with t := t' } else x), false)
  | none =>
    match kr with
    | .fail => (l, true)
    | _ => (Bib.insBy addrKey ⟨n.addr, createTable n⟩ l, false)

/-- What the allocator will do during one operation: for the mark tree (`true`) and the address tree, for
each address (each address causes at most one allocation in each tree). -/
abbrev Oracle := Bool → Addr4 → Kr

/-- mod/db/pool4/db.c:592-603 the loop of `pool4db_add`. -/
def addLoop (kr : Oracle) (e : Entry) (lo hi : Nat) (pt : PT) : List Addr4 → Res PT
  | [] => .ok (pt, false)
  | a :: as =>
    match addToMark (kr true a) pt.marks e ⟨a, lo, hi⟩ with
    | .ub u => .ub u
    | .ok (_, true) => .ok (pt, true)
    | .ok (m, false) =>
      match addToAddr (kr false a) pt.addrs ⟨a, lo, hi⟩ with
      | (_, true) => .ok (⟨m, pt.addrs⟩, true)
      | (l, false) => addLoop kr e lo hi ⟨m, l⟩ as

/-- mod/db/pool4/db.c:325-344 `max_iterations_validate` (true: accepted). -/
def itersOk (f : Flags) (iters : BitVec 32) : Bool :=
  if !f.set then true
  else if f.auto && f.infinite then false
  else if decide (iters = 0) && (!f.auto && !f.infinite) then false
  else true

/-- mod/db/pool4/db.c:569-570, 801-802 `swap`. -/
def lower (a b : BitVec 16) : BitVec 16 := if b < a then b else a
def upper (a b : BitVec 16) : BitVec 16 := if b < a then a else b

/-- mod/db/pool4/db.c:569-573 the port range that `pool4db_add` stores. -/
def addPorts (p : Proto) (e : Entry) : Nat × Nat :=
  let lo := (lower e.min e.max).toNat
  (if (p = .TCP ∨ p = .UDP) ∧ lo = 0 then 1 else lo, (upper e.min e.max).toNat)

/-- mod/db/pool4/db.c:575-588 the ephemeral range check. `eph`: the namespace's range, `none` if there is no
namespace or the request is forced. -/
def ephOk (p : Proto) (eph : Option (Nat × Nat)) (ports : Nat × Nat) : Bool :=
  match p, eph with
  | .ICMP, _ => true
  | _, none => true
  | _, some r => !(decide (r.1 ≤ ports.2) && decide (ports.1 ≤ r.2))

/-- mod/db/pool4/db.c:554-621 `pool4db_add`. -/
def add (kr : Oracle) (eph : Option (Nat × Nat)) (p : Proto) (e : Entry) (db : Pool) : Res Pool :=
  if !prefix4Validate e.pfx then .ok (db, true)
  else if !itersOk e.flags e.iters then .ok (db, true)
  else if !ephOk p eph (addPorts p e) then .ok (db, true)
  else (addLoop kr e (addPorts p e).1 (addPorts p e).2 (db p) (foreachAddr4 e.pfx)).map
    (fun r => (setP db p r.1, r.2))

/-- mod/db/pool4/db.c:623-656 `pool4db_update`. -/
def update (p : Proto) (mark : BitVec 32) (f : Flags) (iters : BitVec 32) (db : Pool) : Pool × Bool :=
  if !itersOk f iters then (db, true)
  else match findMark (db p).marks mark with
    | none => (db, true)
    | some _ =>
      (setP db p ⟨(db p).marks.map (fun x => if x.mark = mark ∧ f.set then
        { x with flags := f, iters := iters } else x), (db p).addrs⟩, false)

/-- mod/db/pool4/db.c:729-744 `rm_from_mark_tree`. -/
def rmFromMark (kr : Addr4 → Kr) (mark : BitVec 32) (pfx : Prefix4) (lo hi : Nat) (l : List MT) : Res (List MT) :=
  match findMark l mark with
  | none => .ok (l, false)
  | some t =>
    (removeRange kr pfx lo hi t.t).map (fun r =>
      (l.filterMap (fun x => if x.mark = mark then r.1.map (fun t' => { x with t := t' }) else some x), r.2))

/-- mod/db/pool4/db.c:746-791 `rm_from_addr_tree`: the tables whose address is in the prefix are contiguous in
the sequence; `find_by_prefix` lands on one of them and the two loops visit the rest
(`Pool4.prefix_walk`). The order of the visits only matters when an allocation fails; here it is
ascending. -/
def rmFromAddr (kr : Addr4 → Kr) (pfx : Prefix4) (lo hi : Nat) : List AT → Res (List AT)
  | [] => .ok ([], false)
  | t :: ts =>
    if prefix4Contains pfx t.addr then
      match removeRange kr pfx lo hi t.t with
      | .ub u => .ub u
      | .ok (r, true) => .ok ((r.map (fun t' => { t with t := t' })).toList ++ ts, true)
      | .ok (r, false) =>
        (rmFromAddr kr pfx lo hi ts).map (fun x => ((r.map (fun t' => { t with t := t' })).toList ++ x.1, x.2))
    else (rmFromAddr kr pfx lo hi ts).map (fun x => (t :: x.1, x.2))

/-- mod/db/pool4/db.c:793-812 `pool4db_rm`. -/
def rm (kr : Oracle) (p : Proto) (mark : BitVec 32) (pfx : Prefix4) (min max : BitVec 16) (db : Pool) : Res Pool :=
  if !prefix4Validate pfx then .ok (db, true)
  else
    let lo := (lower min max).toNat
    let hi := (upper min max).toNat
    match rmFromMark (kr true) mark pfx lo hi (db p).marks with
    | .ub u => .ub u
    | .ok (m, true) => .ok (setP db p ⟨m, (db p).addrs⟩, true)
    | .ok (m, false) =>
      (rmFromAddr (kr false) pfx lo hi (db p).addrs).map (fun r => (setP db p ⟨m, r.1⟩, r.2))

/-- mod/db/pool4/db.c:819-824 `pool4db_flush`. -/
def flush (_ : Pool) : Pool := empty

/-- The operations that change a pool. -/
inductive Op
  | add (kr : Oracle) (eph : Option (Nat × Nat)) (p : Proto) (e : Entry)
  | rm (kr : Oracle) (p : Proto) (mark : BitVec 32) (pfx : Prefix4) (min max : BitVec 16)
  | update (p : Proto) (mark : BitVec 32) (f : Flags) (iters : BitVec 32)
  | flush

def step (db : Pool) : Op → Res Pool
  | .add kr eph p e => add kr eph p e db
  | .rm kr p mark pfx min max => rm kr p mark pfx min max db
  | .update p mark f iters => .ok (update p mark f iters db)
  | .flush => .ok (flush db, false)

def run (db : Pool) : List Op → Outcome Pool
  | [] => .ok db
  | o :: os => match step db o with
    | .ub u => .ub u
    | .ok r => run r.1 os

/-! ### Queries -/

/-- mod/db/pool4/db.c:826-846 `find_port_range`: `lo` is `first`, `hi` is one past `last`. The C loop is a
`do … while (first <= last)`; tables are never empty, so the first test does not matter. -/
def findPort (es : List E) (port lo hi : Nat) : Option E :=
  if h : lo < hi then
    let mid := lo + (hi - 1 - lo) / 2
    if port < (es.getD mid default).min then findPort es port lo mid
    else if (es.getD mid default).max < port then findPort es port (mid + 1) hi
    else some (es.getD mid default)
  else none
termination_by hi - lo

/-- mod/db/pool4/db.c:853-872 `pool4db_contains`; mod/db/pool4/empty.c:30-36 `pool4empty_contains` (`own`: is
this a global address of one of the namespace's interfaces). -/
def contains (own : Addr4 → Bool) (db : Pool) (p : Proto) (a : T4) : Bool :=
  if isEmpty db then !decide (a.port.toNat < 61001) && own a.addr
  else match findAddr (db p).addrs a.addr with
    | none => false
    | some t => (findPort t.t.es a.port.toNat 0 t.t.es.length).isSome

/-- mod/db/pool4/db.c:889-959 `compute_max_iterations` (0: no limit). -/
def maxIterations (t : MT) : BitVec 32 :=
  if t.flags.infinite then 0
  else if !t.flags.auto then t.iters
  else
    let r := t.t.count >>> 7
    if r < 1024#32 then 1024#32 else if 8192#32 < r then 8192#32 else r

/-! ### Mask domains -/

/-- mod/db/pool4/db.c:100-128 `struct mask_domain`. `cur` is the index of `current_range`; `port` is a C `int`
(−1 is a possible value). -/
structure Dom where
  count : BitVec 32
  counter : BitVec 32
  maxIter : BitVec 32
  es : List E
  cur : Nat
  port : Int
  dynamic : Bool
deriving DecidableEq, Repr

/-- mod/db/pool4/db.c:1161-1169 the loop that turns the offset into a position. -/
def seek : List E → Nat → Nat → Option (Nat × Int)
  | [], _, _ => none
  | e :: r, i, off =>
    if off ≤ cnt e then some (i, (e.min : Int) + off - 1) else seek r (i + 1) (off - cnt e)

/-- mod/db/pool4/db.c:1115-1178 `mask_domain_find` for a table that was found. `none`: dropped (the counter does
not match the entries). -/
def domainOf (t : MT) (offset : BitVec 32) : Outcome (Option Dom) :=
  if t.t.count = 0 then .ub .divByZero
  else
    .ok ((seek t.t.es 0 (offset.toNat % t.t.count.toNat)).map
      (fun s => ⟨t.t.count, 0, maxIterations t, t.t.es, s.1, s.2, false⟩))

/-- mod/db/pool4/db.c:1082-1113 `find_empty`, mod/db/pool4/empty.c:41-63 `pool4empty_find`: `addr` is the source
address that the routing of the outgoing packet yields. -/
def domainEmpty (addr : Addr4) (offset : BitVec 32) : Dom :=
  ⟨4535#32, 0, 0, [⟨addr, 61001, 65535⟩], 0, ((61001 + offset.toNat % 4535 : Nat) : Int), true⟩

/-- mod/db/pool4/db.c:1115-1178 `mask_domain_find`. `route`: the source address that `pool4empty_find` obtains, if
any. -/
def domainFind (db : Pool) (p : Proto) (mark : BitVec 32) (route : Option Addr4) (offset : BitVec 32) :
    Outcome (Option Dom) :=
  if isEmpty db then .ok (route.map (fun a => domainEmpty a offset))
  else match findMark (db p).marks mark with
    | none => .ok none
    | some t => domainOf t offset

/-- mod/db/pool4/db.c:1185-1210 `mask_domain_next`. `none`: −ENOENT. -/
def next (d : Dom) : Option (T4 × Bool) × Dom :=
  let counter := d.counter + 1
  let d1 : Dom := { d with counter := counter }
  if d.count < counter then (none, d1)
  else if d.maxIter ≠ 0 ∧ d.maxIter < counter then (none, d1)
  else
    let port := d.port + 1
    if ((d.es.getD d.cur default).max : Int) < port then
      let cur := if d.es.length ≤ d.cur + 1 then 0 else d.cur + 1
      let e := d.es.getD cur default
      (some (⟨e.addr, BitVec.ofNat 16 e.min⟩, false), { d1 with cur := cur, port := (e.min : Int) })
    else
      (some (⟨(d.es.getD d.cur default).addr, BitVec.ofInt 16 port⟩, decide (counter ≠ 1)),
        { d1 with port := port })

/-- The candidates that a caller sees if it calls `mask_domain_next` until it fails (at most `fuel` times). -/
def cands : Nat → Dom → List (T4 × Bool)
  | 0, _ => []
  | n + 1, d => match (next d).1 with
    | none => []
    | some c => c :: cands n (next d).2

/-- mod/db/pool4/db.c:1228-1241 `mask_domain_matches`. -/
def domMatches (d : Dom) (a : T4) : Bool :=
  d.es.any (fun e => decide (e.addr = a.addr) && portContains e a.port.toNat)

/-- The mask domain as the BIB sees it. -/
def masks (d : Dom) : Bib.Masks := ⟨cands d.count.toNat d, d.dynamic, domMatches d⟩

end Jool.Pool4
