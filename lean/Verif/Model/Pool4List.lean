import Verif.Model.Pool4
/-
Listing of pool4: `pool4db_foreach_sample` of `src/mod/common/db/pool4/db.c`, the request handler of
`src/mod/common/nl/pool4.c` and the client's loop of `src/usr/nl/pool4.c`.
-/
namespace Jool.Pool4

/-- src/common/config.h:372-385 `struct pool4_entry`, as it is sent to userspace. -/
structure Sample where
  mark : BitVec 32
  flags : Flags
  iters : BitVec 32
  e : E
deriving DecidableEq, Repr

/-- mod/db/pool4/db.c:961-967 `__update_sample` and 1014. -/
def sampleOf (t : MT) (e : E) : Sample := ⟨t.mark, t.flags, maxIterations t, e⟩

/-- mod/db/pool4/db.c:1009-1022 the walk, from the first table. -/
def samples (l : List MT) : List Sample := l.flatMap (fun t => t.t.es.map (sampleOf t))

/-- mod/db/pool4/db.c:978-1032 `pool4db_foreach_sample`: what would be handed to the callback if the callback never
stopped the walk. `none`: −EAGAIN. The offset is a mark and a range (874-887 `find_offset`). -/
def foreachSample (l : List MT) : Option (BitVec 32 × E) → Option (List Sample)
  | none => some (samples l)
  | some (m, r) =>
    match findMark l m with
    | none => none
    | some t =>
      match t.t.es.dropWhile (fun e => decide (e ≠ r)) with
      | [] => none
      | _ :: rest => some (rest.map (sampleOf t) ++ samples (l.dropWhile (fun x => decide (x.mark ≠ m))).tail)

/-- What one request yields. -/
inductive Page
  | again
  | page (s : List Sample) (more : Bool)
deriving DecidableEq, Repr

/-- mod/nl/pool4.c:16-72 `handle_pool4_foreach` with mod/nl/nl_core.c:71-96 `jresponse_send_array`: the callback stops
the walk at the first entry that does not fit; `cap` entries do. The M flag is `more`. -/
def page (l : List MT) (offset : Option (BitVec 32 × E)) (cap : Nat) : Page :=
  match foreachSample l offset with
  | none => .again
  | some s => .page (s.take cap) (decide (cap < s.length))

/-- How a listing ends: complete, told to try again, or (in the model only) out of requests. -/
inductive End | done | again | fuel
deriving DecidableEq, Repr

/-- usr/nl/pool4.c:43-82 `joolnl_pool4_foreach`. Each request finds the tables that it finds (first component) and has
room for some entries (second). -/
def listLoop : List (List MT × Nat) → Option (BitVec 32 × E) → List Sample × End
  | [], _ => ([], .fuel)
  | (l, cap) :: rs, off =>
    match page l off cap with
    | .again => ([], .again)
    | .page s false => (s, .done)
    | .page s true =>
      let r := listLoop rs (s.getLast?.map (fun x => (x.mark, x.e)))
      (s ++ r.1, r.2)

end Jool.Pool4
