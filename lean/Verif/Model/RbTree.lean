import Verif.Model.Bib
/-
Binary search trees as the BIB module uses them: `src/mod/common/db/rbtree.{h,c}` and the tree walks of
`src/mod/common/db/bib/db.c`.

`Verif.Model.Bib` keeps every tree as its in-order sequence. This file models the walks on real trees, of
any shape; `Verif.Props.RbTree` proves that they compute what `Verif.Model.Bib` says.

A `struct rb_node *` is a zipper: the node (left child, entry, right child) and the way up (`ctx`). A
`struct rb_node **rb_link` of a null pointer is the way up alone: `parent` is the head of the list and
whether the link is the `rb_left` or the `rb_right` of the parent is the constructor.

Not modelled: colors. `rb_insert_color`, `rb_erase` and `rb_next` are kernel code; the first two are
trusted to keep the in-order sequence (plus the new node, minus the old one), which is why all the theorems
are about trees of any shape.
-/
namespace Jool.RbTree
open Jool.Bib

inductive Tree (α : Type)
  | leaf
  | node (l : Tree α) (x : α) (r : Tree α)
deriving Repr, Inhabited

/-- One step on the way up. -/
inductive Frame (α : Type)
  /-- We are the left child of `x`. -/
  | left (x : α) (r : Tree α)
  /-- We are the right child of `x`. -/
  | right (l : Tree α) (x : α)
deriving Repr

abbrev Ctx (α : Type) := List (Frame α)

/-- A `struct rb_node *`, not null. -/
structure Loc (α : Type) where
  l : Tree α
  x : α
  r : Tree α
  ctx : Ctx α
deriving Repr

def inorder {α} : Tree α → List α
  | .leaf => []
  | .node l x r => inorder l ++ x :: inorder r

/-- The whole tree in which `t` hangs from `ctx`. -/
def plug {α} : Ctx α → Tree α → Tree α
  | [], t => t
  | .left x r :: c, t => plug c (.node t x r)
  | .right l x :: c, t => plug c (.node l x t)

def Loc.tree {α} (p : Loc α) : Tree α := plug p.ctx (.node p.l p.x p.r)

/-- Result of a search: a node, or a null link. -/
inductive Found (α : Type)
  | hit (p : Loc α)
  | slot (c : Ctx α)
deriving Repr

/-- mod/db/rbtree.h:20-41 `rbtree_find`, 140-165 `rbtree_find_slot` and 173-193 `rbtree_find_node`
(the three do the same walk). `cmp x`: result of `compare(x, expected)`. -/
def find {α} (cmp : α → Int) : Tree α → Ctx α → Found α
  | .leaf, c => .slot c
  | .node l x r, c =>
    if cmp x < 0 then find cmp r (.right l x :: c)
    else if 0 < cmp x then find cmp l (.left x r :: c)
    else .hit ⟨l, x, r, c⟩

/-- mod/db/rbtree.c:15-19 `treeslot_commit`, before rebalancing: `rb_link_node`. -/
def link {α} (c : Ctx α) (x : α) : Tree α := plug c (.node .leaf x .leaf)

/-- First node, in order, of the tree at `t` (the loops of the kernel's `rb_first` and `rb_next`). -/
def leftmost {α} : Tree α → Ctx α → Option (Loc α)
  | .leaf, _ => none
  | .node l x r, c =>
    match leftmost l (.left x r :: c) with
    | none => some ⟨l, x, r, c⟩
    | some p => some p

/-- The kernel's `rb_next`, when there is no right child: go up until we come from the left. -/
def up {α} : Ctx α → Tree α → Option (Loc α)
  | [], _ => none
  | .left x r :: c, t => some ⟨t, x, r, c⟩
  | .right l x :: c, t => up c (.node l x t)

/-- The kernel's `rb_next` (lib/rbtree.c; not in this repository). -/
def rbNext {α} (p : Loc α) : Option (Loc α) :=
  match p.r with
  | .node .. => leftmost p.r (.right p.l p.x :: p.ctx)
  | .leaf => up p.ctx (.node p.l p.x p.r)

/-- The kernel's `rb_first`. -/
def rbFirst {α} (t : Tree α) : Option (Loc α) := leftmost t []

/-- The node a slot hangs from. -/
def slotParent {α} : Ctx α → Option (Loc α)
  | [] => none
  | .left x r :: c => some ⟨.leaf, x, r, c⟩
  | .right l x :: c => some ⟨l, x, .leaf, c⟩

/-- mod/db/bib/db.c:2085-2093 `slot_next`. -/
def slotNext {α} : Ctx α → Option (Loc α)
  | [] => none
  | .left x r :: c => some ⟨.leaf, x, r, c⟩
  | .right l x :: c => rbNext ⟨l, x, .leaf, c⟩

/-- mod/db/bib/db.c:943-977 `find_session_slot`: the search and, separately, `*allow`. Entries are the
`dst4` of the sessions. -/
def sessionSlot (new : T4) : Tree T4 → Ctx T4 → Bool → Found T4 × Bool
  | .leaf, c, a => (.slot c, a)
  | .node l x r, c, a =>
    let a := a || decide (x.addr = new.addr)
    if taddr4Compare x new < 0 then sessionSlot new r (.right l x :: c) a
    else if 0 < taddr4Compare x new then sessionSlot new l (.left x r :: c) a
    else (.hit ⟨l, x, r, c⟩, a)

/-- Result of `try_next`. -/
inductive TryNext
  | collision (n : Loc BibKey)
  | slot (c : Ctx BibKey)
  /-- The link that the function picks is not null: committing it would lose nodes. -/
  | badSlot

/-- mod/db/bib/db.c:1219-1249 `try_next`. `pred` is a node of the tree. -/
def tryNext (pred : Loc BibKey) (a : T4) : TryNext :=
  match rbNext pred with
  | none =>
    -- slot->rb_link = &predecessor->rb_right
    match pred.r with
    | .leaf => .slot (.right pred.l pred.x :: pred.ctx)
    | .node .. => .badSlot
  | some next =>
    if next.x.src4 = a then .collision next
    else match pred.r with
      | .node .. =>
        -- slot->rb_link = &next->rb_left
        match next.l with
        | .leaf => .slot (.left next.x next.r :: next.ctx)
        | .node .. => .badSlot
      | .leaf => .slot (.right pred.l pred.x :: pred.ctx)

/-- mod/db/bib/db.c:2046-2055, the end of `find_starting_point`. -/
def startOfSlot (c : Ctx BibKey) (o : T4) : Option (Loc BibKey) :=
  match slotParent c with
  | none => none
  | some p => if taddr4Compare p.x.src4 o < 0 then rbNext p else some p

/-- mod/db/bib/db.c:2028-2056 `find_starting_point`. -/
def findStartingPoint (t : Tree BibKey) (offset : Option T4) (incl : Bool) : Option (Loc BibKey) :=
  match offset with
  | none => rbFirst t
  | some o =>
    match find (fun b => taddr4Compare b.src4 o) t [] with
    | .hit p => if incl then some p else rbNext p
    | .slot c => startOfSlot c o

/-- The nodes that a `for (; node; node = rb_next(node))` loop visits, in at most `fuel` iterations. -/
def visit {α} : Nat → Option (Loc α) → List α
  | 0, _ => []
  | _, none => []
  | n + 1, some p => p.x :: visit n (rbNext p)

end Jool.RbTree
