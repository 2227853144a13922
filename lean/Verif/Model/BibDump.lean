import Verif.Model.RbTree
/-
Listing the BIB and the sessions in pages: `bib_foreach`, `bib_foreach_session` (src/mod/common/db/bib/db.c),
their Netlink handlers (src/mod/common/nl/bib.c, session.c, nl_core.c) and the client's loop
(src/usr/nl/bib.c, session.c).

Simplified: the callback (`serialize_bib_entry`, `serialize_session_entry`) appends the entry to the response
until there is no room; it is the number of entries for which there is room.
-/
namespace Jool.BibDump
open Jool.Bib Jool.RbTree

/-- Where the iteration over sessions starts (`struct bib_session_tuple` in `bib_foreach_session`). -/
inductive Pos
  /-- `pos.session == NULL`: at the first session of `pos.bib`. -/
  | bib (p : Option (Loc BibKey))
  | session (p : Loc BibKey) (q : Loc T4)

/-- mod/db/bib/db.c:2100-2108 `next_session`. -/
def nextSession (p : Loc BibKey) : Option (Loc T4) → Pos
  | some q => .session p q
  | none => .bib (rbNext p)

/-- mod/db/bib/db.c:2125-2151 `find_session_offset`. `S b`: session tree of the entry. -/
def findSessionOffset (T : Tree BibKey) (S : BibKey → Tree T4) (src dst : T4) (incl : Bool) : Pos :=
  match find (fun b => taddr4Compare b.src4 src) T [] with
  | .slot c => .bib (slotNext c)
  | .hit p =>
    match (sessionSlot dst (S p.x) [] false).1 with
    | .slot c => nextSession p (slotNext c)
    | .hit q => if incl then .session p q else nextSession p (rbNext q)

/-- All the sessions of one entry: the inner loop of mod/db/bib/db.c:2188. -/
def sessionsOf (S : BibKey → Tree T4) (b : BibKey) : List SessKey :=
  (visit (inorder (S b)).length (rbFirst (S b))).map (SessKey.mk b)

/-- mod/db/bib/db.c:2177-2195, the sequence of sessions on which `bib_foreach_session` calls the callback,
if it never fails. -/
def walkSessions (T : Tree BibKey) (S : BibKey → Tree T4) (offset : Option (T4 × T4)) (incl : Bool) :
    List SessKey :=
  let pos : Pos := match offset with
    | none => .bib (rbFirst T)
    | some o => findSessionOffset T S o.1 o.2 incl
  match pos with
  | .bib p => (visit (inorder T).length p).flatMap (sessionsOf S)
  | .session p q =>
    (visit (inorder (S p.x)).length (some q)).map (SessKey.mk p.x) ++
      (visit (inorder T).length (rbNext p)).flatMap (sessionsOf S)

/-- mod/db/bib/db.c:2074-2079, the sequence of entries on which `bib_foreach` calls the callback, if it never
fails. -/
def walkBib (T : Tree BibKey) (offset : Option T4) : List BibKey :=
  visit (inorder T).length (findStartingPoint T offset false)

/-- A response (mod/nl/nl_core.c:71-96 `jresponse_send_array`). `more` is the M flag. -/
inductive Resp (α : Type)
  | page (l : List α) (more : Bool)
  | einval
deriving Repr, DecidableEq

/-- The callback loop and `jresponse_send_array`, when there is room for `n` entries. -/
def serve {α} (l : List α) (n : Nat) : Resp α :=
  if l.length ≤ n then .page l false
  else if n = 0 then .einval
  else .page (l.take n) true

inductive End
  | done
  | failed
  /-- The client did not send more requests. -/
  | unfinished
deriving Repr, DecidableEq

/-- usr/nl/bib.c:43-81 `joolnl_bib_foreach` and its session counterpart: the first request has no offset,
the following ones carry the last entry received. Every request sees its own state of the table and has its own
room. -/
def dump {α σ} (start : σ → Option α → List α) (last : Option α) : List (σ × Nat) → List α × End
  | [] => ([], .unfinished)
  | (t, n) :: reqs =>
    match serve (start t last) n with
    | .einval => ([], .failed)
    | .page l false => (l, .done)
    | .page l true =>
      let r := dump start (match l.getLast? with | some x => some x | none => last) reqs
      (l ++ r.1, r.2)

end Jool.BibDump
