import Verif.Model.Response
import Verif.Model.Bib
/-
Statistics: the counters (`mod/stats.c`), what happens to them when an instance is replaced (`mod/xlator.c`), how they are
listed (`mod/nl/stats.c`) and how the client reads the list (`usr/nl/stats.c`). (`mod/` abbreviates `src/mod/common/`, `usr/` abbreviates `src/usr/`.)

Simplifications.
* `w` is the number of bits of an `unsigned long` (32 or 64).
* `nla_put_u64_64bit` is the kernel's (lib/nlattr.c): where 64 bit accesses must be aligned (`arch`), it puts an empty attribute of type
  `JSTAT_PADDING` in front of a value that would not be. The bytes before the attributes (16 + 4 + 28) are a multiple of 8.
* `nla_get_u64` (libnl) is 0 if the payload is empty.
* A packet that is being translated while the instance is replaced is counted either before or after (in the code, it is counted by the statistics that
  are dropped).
-/
namespace Jool.Stats
open Jool.Nla Jool.NlAttr Jool.Req
open Jool.JooldMsg (Byte)

/-! ### Counters -/

/-- src/common/stats.h:14-117 `enum jool_stat_id`: `JSTAT_BIB_ENTRIES`, `JSTAT_SESSIONS`, `JSTAT_UNKNOWN`, `JSTAT_PADDING` (which is `JSTAT_MAX`). -/
def BIB_ENTRIES : Nat := 4
def SESSIONS : Nat := 5
def UNKNOWN : Nat := 83
def PADDING : Nat := 84

/-- mod/stats.c:8-10 `struct jool_mib`, one for each processor. -/
abbrev Mib (w : Nat) := Nat → Nat → BitVec w

/-- mod/stats.c:17-33 `jstat_alloc`: `alloc_percpu` zeroes. -/
def zero (w : Nat) : Mib w := fun _ _ => 0

/-- mod/stats.c:54-57, 59-62, 64-67 `jstat_inc`, `jstat_dec`, `jstat_add`, on processor `cpu`. -/
def addStat {w} (m : Mib w) (cpu id : Nat) (d : Int) : Mib w :=
  fun c i => if c = cpu ∧ i = id then m c i + BitVec.ofInt w d else m c i

/-- The kernel's `snmp_fold_field`: the sum over the processors. -/
def fold {w} (m : Mib w) (id : Nat) : Nat → BitVec w
  | 0 => 0
  | n + 1 => fold m id n + m n id

/-- mod/stats.c:73-86 `jstat_query`: one element. -/
def query {w} (ncpu : Nat) (m : Mib w) (id : Nat) : BitVec 64 := (fold m id ncpu).setWidth 64

/-! ### Instances -/

/-- The part of a NAT64 instance that counts here. -/
structure Inst (w : Nat) where
  bib : Proto → Bib.Table
  mib : Mib w

/-- What happens: an operation on the table of a protocol (its share of the two counters is `statBib`, `statSess`); any other count; the instance is
replaced by the atomic configuration of a file; a global value is updated. -/
inductive Op
  | table (p : Proto) (cpu : Nat) (e : Bib.Env) (op : Bib.Op)
  | count (cpu id : Nat) (d : Int)
  | replace
  | update

/-- mod/xlator.c:290-323 `init_nat64`. -/
def new (w : Nat) : Inst w := ⟨fun _ => Bib.init, zero w⟩

/-- mod/xlator.c:644-735 `xlator_replace`: 701-706 the replacement keeps the BIB of the old instance. mod/atomic_config.c:157-161: the replacement is
new, with statistics of its own (`jstat_alloc` at mod/xlator.c:298); 865-889 `xlator_put` drops the old ones. mod/nl/global.c:129: the replacement is a copy of the
old instance, which shares its statistics (mod/xlator.c:664). -/
def step {w} (s : Inst w) : Op → Outcome (Inst w)
  | .table p cpu e op =>
    match Bib.step p (s.bib p) e op with
    | .ub u => .ub u
    | .ok r =>
      .ok ⟨fun q => if q = p then r.1 else s.bib q,
        addStat (addStat s.mib cpu BIB_ENTRIES (r.1.statBib - (s.bib p).statBib)) cpu SESSIONS (r.1.statSess - (s.bib p).statSess)⟩
  | .count cpu id d => .ok { s with mib := addStat s.mib cpu id d }
  | .replace => .ok { s with mib := zero w }
  | .update => .ok s

def run {w} (s : Inst w) : List Op → Outcome (Inst w)
  | [] => .ok s
  | o :: r => (step s o).bind (fun s' => run s' r)

/-! ### The listing -/

/-- Kernel's `nla_put_u64_64bit`. -/
def putU64 (arch : Bool) (cap ty : Nat) (x : BitVec 64) : Writer := fun skb =>
  if arch && skb.length % 8 == 0 then
    if skb.length + 16 ≤ cap then some (skb ++ enc ⟨PADDING, false, []⟩ ++ enc ⟨ty, false, le 8 x.toNat⟩) else none
  else put cap ty (le 8 x.toNat) skb

/-- mod/nl/stats.c:42-53: `n` counters, starting at `id`. -/
def fill (arch : Bool) (cap : Nat) (vals : Nat → BitVec 64) : Nat → Nat → List Byte → List Byte × Bool
  | 0, _, skb => (skb, false)
  | n + 1, id, skb =>
    match putU64 arch cap id (vals id) skb with
    | none => (skb, true)
    | some s => fill arch cap vals n (id + 1) s

/-- mod/nl/stats.c:9-69 `handle_stats_foreach`, once the instance was found: the attributes and the flag, or an error because not even one counter fits. `last`: the offset, or zero. -/
def page (arch : Bool) (cap : Nat) (vals : Nat → BitVec 64) (last : Nat) : Option (List Byte × Bool) :=
  let r := fill arch cap vals (UNKNOWN - last) (last + 1) []
  if r.2 && r.1.isEmpty then none else some r

/-- What the callback gets: the number, the value, whether the client knows the counter. -/
structure Shown where
  id : Nat
  value : Nat
  known : Bool
deriving DecidableEq, Repr

/-- usr/nl/stats.c:160-195 `stats_query_response`: one attribute. -/
def show1 (a : Attr) : Shown := ⟨a.ty, unle (a.data.take 8), decide (1 ≤ a.ty ∧ a.ty < PADDING)⟩

/-- usr/nl/stats.c:197-229 `joolnl_stats_foreach`: `ans`: the answers' sizes and the counters' values when each of them was written. The second component: it ended well. -/
def listAll (arch : Bool) : List (Nat × (Nat → BitVec 64)) → Nat → List Shown × Bool
  | [], _ => ([], false)
  | (cap, vals) :: r, last =>
    match page arch cap vals last with
    | none => ([], false)
    | some (b, more) =>
      let l := (attrs b).1.map show1
      if more then
        let n := listAll arch r ((l.getLast?.map (·.id)).getD last)
        (l ++ n.1, n.2)
      else (l, true)

end Jool.Stats
