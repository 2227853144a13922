import Verif.Model.RbTree
/-
The tracker of memory leaks (compiled with `JKMEMLEAK`): src/mod/common/wkmalloc.c. Trees are those of `Verif.Model.RbTree`; the new
node is linked and then the tree is rebalanced (kernel code), which may give it any shape with the same sequence of entries.
Each function is a critical section (`spin_lock_bh`). An object is counted after it was allocated and before anyone else knows it
(src/mod/common/wkmalloc.h:12-48).
-/
namespace Jool.Leaks
open Jool.RbTree

/-- The kind of an object: the text of its type, without NULs. -/
abbrev Name := List (BitVec 8)

/-- The kernel's `strcmp` (lib/string.c): bytes without sign. -/
def strcmp : Name → Name → Int
  | [], [] => 0
  | [], _ :: _ => -1
  | _ :: _, [] => 1
  | a :: x, b :: y => if a.toNat < b.toNat then -1 else if b.toNat < a.toNat then 1 else strcmp x y

/-- mod/wkmalloc.c:21-24 `struct kmalloc_entry`, and the name behind it. -/
structure Entry where
  count : BitVec 32
  name : Name
deriving DecidableEq, Repr

inductive Ev
  /-- An object is allocated, and so is the entry (47-56). -/
  | alloc (n : Name)
  /-- An object is allocated, but the entry is not: 53-54. -/
  | untracked (n : Name)
  /-- An object (not NULL) is freed. -/
  | free (n : Name)
deriving DecidableEq, Repr

inductive Warn
  /-- mod/wkmalloc.c:53. -/
  | noTracker
  /-- mod/wkmalloc.c:88. -/
  | outOfTree (n : Name)
  /-- mod/wkmalloc.c:89. -/
  | unallocated (n : Name)
deriving DecidableEq, Repr

/-- The entry at `p` gets another count. -/
def setCount (p : Loc Entry) (c : BitVec 32) : Tree Entry := plug p.ctx (.node p.l { p.x with count := c } p.r)

/-- mod/wkmalloc.c:44-71 `wkmalloc_add`, 78-94 `wkmalloc_rm`: the new tree and what is warned about. -/
inductive Step : Tree Entry → Ev → Tree Entry → List Warn → Prop
  | again {t n p} : find (fun x => strcmp x.name n) t [] = .hit p → Step t (.alloc n) (setCount p (p.x.count + 1)) []
  | first {t n c t'} : find (fun x => strcmp x.name n) t [] = .slot c → inorder t' = inorder (link c ⟨1, n⟩) → Step t (.alloc n) t' []
  | untracked {t n} : Step t (.untracked n) t [.noTracker]
  | free {t n p} : find (fun x => strcmp x.name n) t [] = .hit p → p.x.count ≠ 0 → Step t (.free n) (setCount p (p.x.count - 1)) []
  | unallocated {t n p} : find (fun x => strcmp x.name n) t [] = .hit p → p.x.count = 0 → Step t (.free n) t [.unallocated n]
  | outOfTree {t n c} : find (fun x => strcmp x.name n) t [] = .slot c → Step t (.free n) t [.outOfTree n]

inductive Run : Tree Entry → List Ev → Tree Entry → List Warn → Prop
  | nil {t} : Run t [] t []
  | cons {t e t' w h t'' ws} : Step t e t' w → Run t' h t'' ws → Run t (e :: h) t'' (w ++ ws)

/-- mod/wkmalloc.c:96-113 `wkmalloc_print_leaks`: which entries are printed. -/
def report (t : Tree Entry) : List Entry := (visit (inorder t).length (rbFirst t)).filter fun x => decide (0 < x.count.toNat)

/-- `%d` of an unsigned int (mod/wkmalloc.c:106). -/
def shown (x : Entry) : Int := x.count.toInt

end Jool.Leaks
