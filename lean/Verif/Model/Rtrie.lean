import Verif.Model.Types
/-
Model of `src/mod/common/rtrie.c`: the radix trie, with its nodes on a heap, linked by pointers.

A key (`struct rtrie_key`) is the list of its `len` bits; `Verif.Props.RtrieKey` proves that the byte-wise comparison of
the code computes the number of leading bits in common. The value of a white node is abstract. An address is a number;
addresses are not reused, so that an access to a freed node is always noticed (`UB.useAfterFree`).

Sequential: RCU grace periods, and the intermediate states that concurrent readers may see, are not represented. The
kernel's linked list is a list of addresses.
-/
namespace Jool.Rtrie

abbrev Key := List Bool

/-- mod/rtrie.h:37-65 `struct rtrie_node`. `val`: what hangs off the end of a white node. -/
structure Node (V : Type) where
  left : Option Nat
  right : Option Nat
  parent : Option Nat
  white : Bool
  key : Key
  val : Option V
deriving DecidableEq, Repr

abbrev Heap (V : Type) := Nat → Option (Node V)

/-- mod/rtrie.h:67-82 `struct rtrie`. `list`: first the latest. `fresh`: the next address. `leaked`: how many nodes
were allocated and then forgotten. -/
structure Trie (V : Type) where
  heap : Heap V
  root : Option Nat
  list : List Nat
  fresh : Nat
  leaked : Nat

/-- mod/rtrie.c:142-148 `rtrie_init`. -/
def init {V} : Trie V := ⟨fun _ => none, none, [], 0, 0⟩

section
variable {V : Type}

def upd (h : Heap V) (a : Nat) (n : Node V) : Heap V := fun x => if x = a then some n else h x

/-- A `kfree`. -/
def free (h : Heap V) (a : Nat) : Heap V := fun x => if x = a then none else h x

/-- Reading a node through a pointer. -/
def deref (h : Heap V) (a : Nat) : Outcome (Node V) :=
  match h a with
  | some n => .ok n
  | none => .ub .useAfterFree

/-- Writing one field of a node through a pointer. -/
def modify (h : Heap V) (a : Nat) (f : Node V → Node V) : Outcome (Heap V) :=
  match h a with
  | some n => .ok (upd h a (f n))
  | none => .ub .useAfterFree

/-- Number of leading bits in common: mod/rtrie.c:116-119 `key_match`. -/
def lcp : Key → Key → Nat
  | a :: as, b :: bs => if a = b then lcp as bs + 1 else 0
  | _, _ => 0

/-- mod/rtrie.c:128-133 `key_contains`. -/
def contains (k1 k2 : Key) : Bool := if k1.length ≤ k2.length then lcp k1 k2 == k1.length else false

/-- mod/rtrie.c:135-140 `key_equals`. -/
def equals (k1 k2 : Key) : Bool := if k1.length = k2.length then lcp k1 k2 == k1.length else false

/-- mod/rtrie.c:190, 196 `child && key_contains(&child->key, key)`. -/
def enters (h : Heap V) (key : Key) : Option Nat → Outcome Bool
  | none => .ok false
  | some c => (deref h c).map (fun m => contains m.key key)

/-- mod/rtrie.c:189-199: the child that the search continues with. -/
def childFor (h : Heap V) (key : Key) (n : Node V) : Outcome (Option Nat) :=
  (enters h key n.left).bind (fun l =>
    if l then .ok n.left
    else (enters h key n.right).bind (fun r => .ok (if r then n.right else none)))

/-- mod/rtrie.c:185-202, the loop of `find_longest_common_prefix` at a node. Yields the last white node and the last
node. (Keys get longer at every turn, so the turns are at most `key.length + 1`; running out of fuel is reported as a
hang.) -/
def descend (h : Heap V) (key : Key) : Nat → Nat → Option Nat → Outcome (Option Nat × Nat)
  | 0, _, _ => .ub .infiniteLoop
  | fuel + 1, a, lw =>
    (deref h a).bind (fun n =>
      (childFor h key n).bind (fun c =>
        match c with
        | some c => descend h key fuel c (if n.white then some a else lw)
        | none => .ok (if n.white then some a else lw, a)))

/-- mod/rtrie.c:173-205 `find_longest_common_prefix`: the last white node (if any) and the last node. `none`: the root
is missing or does not contain the key. -/
def findLcp (t : Trie V) (key : Key) : Outcome (Option (Option Nat × Nat)) :=
  match t.root with
  | none => .ok none
  | some r =>
    (deref t.heap r).bind (fun n =>
      if contains n.key key then (descend t.heap key (key.length + 2) r none).map some else .ok none)

/-- `find_longest_common_prefix(…, true)`. -/
def findWhite (t : Trie V) (key : Key) : Outcome (Option Nat) :=
  (findLcp t key).map (fun r => r.bind (fun x => x.1))

/-- `find_longest_common_prefix(…, false)`. -/
def findAny (t : Trie V) (key : Key) : Outcome (Option Nat) :=
  (findLcp t key).map (fun r => r.map (fun x => x.2))

/-- A place that holds a pointer: `struct rtrie_node **`. -/
inductive Loc | root | left (a : Nat) | right (a : Nat)
deriving DecidableEq, Repr

/-- mod/rtrie.c:210-221 `get_parent_ptr`. -/
def parentPtr (h : Heap V) (a : Nat) (n : Node V) : Outcome Loc :=
  match n.parent with
  | none => .ok .root
  | some p => (deref h p).map (fun m => if m.left = some a then .left p else .right p)

/-- `rcu_assign_pointer(*loc, v)`. -/
def assign (t : Trie V) (loc : Loc) (v : Option Nat) : Outcome (Trie V) :=
  match loc with
  | .root => .ok { t with root := v }
  | .left a => (modify t.heap a (fun n => { n with left := v })).map (fun h => { t with heap := h })
  | .right a => (modify t.heap a (fun n => { n with right := v })).map (fun h => { t with heap := h })

/-- mod/rtrie.c:223-239 `swap_nodes`. `n`: the contents of `new`, at the fresh address. -/
def swapNodes (t : Trie V) (old : Nat) (n : Node V) : Outcome (Trie V) :=
  (deref t.heap old).bind (fun o =>
    (parentPtr t.heap old o).bind (fun loc =>
      let h1 := upd t.heap t.fresh { n with left := o.left, right := o.right, parent := o.parent }
      (assign { t with heap := h1 } loc (some t.fresh)).map (fun t1 =>
        { t1 with heap := free t1.heap old, list := (t.fresh :: t.list).erase old, fresh := t.fresh + 1 })))

/-- Results of `rtrie_add` and `rtrie_rm`. -/
inductive Code | ok | eexist | enomem | esrch | einval
deriving DecidableEq, Repr

/-- mod/rtrie.c:241-275 `add_to_root`. `new` is at the fresh address; the inode, if any, at the one after. -/
def addToRoot (t : Trie V) (n : Node V) (inodeOk : Bool) : Outcome (Trie V × Code) :=
  match t.root with
  | none => .ok ({ t with heap := upd t.heap t.fresh n, root := some t.fresh, list := t.fresh :: t.list,
                          fresh := t.fresh + 1 }, .ok)
  | some r =>
    (deref t.heap r).bind (fun rn =>
      if contains n.key rn.key then
        let h1 := upd t.heap t.fresh { n with left := some r }
        (modify h1 r (fun m => { m with parent := some t.fresh })).map (fun h2 =>
          ({ t with heap := h2, root := some t.fresh, list := t.fresh :: t.list, fresh := t.fresh + 1 }, .ok))
      else if !inodeOk then .ok ({ t with fresh := t.fresh + 1, leaked := t.leaked + 1 }, .enomem)
      else
        let i := t.fresh + 1
        let h1 := upd t.heap t.fresh { n with parent := some i }
        let h2 := upd h1 i ⟨some r, some t.fresh, none, false, n.key.take (lcp rn.key n.key), none⟩
        (modify h2 r (fun m => { m with parent := some i })).map (fun h3 =>
          ({ t with heap := h3, root := some i, list := t.fresh :: i :: t.list, fresh := t.fresh + 2 }, .ok)))

/-- mod/rtrie.c:313-336: which of the three is alone, and which two share the inode, with the length of its key. -/
def triage (l r n : Nat) (mlr mln mrn : Nat) : Option (Nat × Nat × Nat × Nat) :=
  if mlr > mln ∧ mlr > mrn then some (n, l, r, mlr)
  else if mln > mlr ∧ mln > mrn then some (r, n, l, mln)
  else if mrn > mlr ∧ mrn > mln then some (l, n, r, mrn)
  else none

/-- mod/rtrie.c:277-358 `add_full_collision`. -/
def addFullCollision (t : Trie V) (parent l r : Nat) (ln rn n : Node V) (inodeOk : Bool) : Outcome (Trie V × Code) :=
  match triage l r t.fresh (lcp ln.key rn.key) (lcp ln.key n.key) (lcp rn.key n.key) with
  | none => .ok ({ t with fresh := t.fresh + 1, leaked := t.leaked + 1 }, .einval)
  | some (small, hi1, hi2, len) =>
    if !inodeOk then .ok ({ t with fresh := t.fresh + 1, leaked := t.leaked + 1 }, .enomem)
    else
      let i := t.fresh + 1
      let h1 := upd t.heap t.fresh n
      (deref h1 hi1).bind (fun hn =>
        let h2 := upd h1 i ⟨some hi1, some hi2, none, false, hn.key.take len, none⟩
        (modify h2 parent (fun m => { m with left := some small, right := some i })).bind (fun h3 =>
        (modify h3 small (fun m => { m with parent := some parent })).bind (fun h4 =>
        (modify h4 i (fun m => { m with parent := some parent })).bind (fun h5 =>
        (modify h5 hi1 (fun m => { m with parent := some i })).bind (fun h6 =>
        (modify h6 hi2 (fun m => { m with parent := some i })).map (fun h7 =>
          ({ t with heap := h7, list := t.fresh :: i :: t.list, fresh := t.fresh + 2 }, .ok)))))))

/-- mod/rtrie.c:360-441 `rtrie_add`. `leafOk`, `inodeOk`: whether the allocations succeed. -/
def add (t : Trie V) (leafOk inodeOk : Bool) (key : Key) (v : V) : Outcome (Trie V × Code) :=
  if !leafOk then .ok (t, .enomem)
  else
    let a := t.fresh
    let n : Node V := ⟨none, none, none, true, key, some v⟩
    (findAny t key).bind (fun p =>
      match p with
      | none => addToRoot t n inodeOk
      | some p =>
        (deref t.heap p).bind (fun pn =>
          if equals pn.key key then
            if !pn.white then (swapNodes t p n).map (fun t' => (t', .ok))
            else .ok ({ t with fresh := a + 1 }, .eexist)
          else
            match pn.left, pn.right with
            | none, _ =>
              (modify (upd t.heap a { n with parent := some p }) p (fun m => { m with left := some a })).map (fun h =>
                ({ t with heap := h, list := a :: t.list, fresh := a + 1 }, .ok))
            | some _, none =>
              (modify (upd t.heap a { n with parent := some p }) p (fun m => { m with right := some a })).map (fun h =>
                ({ t with heap := h, list := a :: t.list, fresh := a + 1 }, .ok))
            | some l, some r =>
              (deref t.heap l).bind (fun ln =>
              (deref t.heap r).bind (fun rn =>
                if contains key ln.key && contains key rn.key then
                  if !pn.white then (swapNodes t p n).map (fun t' => (t', .ok))
                  else
                    let h1 := upd t.heap a { n with left := some l, right := some r, parent := some p }
                    (modify h1 p (fun m => { m with left := none, right := some a })).bind (fun h2 =>
                    (modify h2 l (fun m => { m with parent := some a })).bind (fun h3 =>
                    (modify h3 r (fun m => { m with parent := some a })).map (fun h4 =>
                      ({ t with heap := h4, list := a :: t.list, fresh := a + 1 }, .ok))))
                else if contains key ln.key then
                  let h1 := upd t.heap a { n with left := some l, parent := some p }
                  (modify h1 p (fun m => { m with left := some a })).bind (fun h2 =>
                  (modify h2 l (fun m => { m with parent := some a })).map (fun h3 =>
                    ({ t with heap := h3, list := a :: t.list, fresh := a + 1 }, .ok)))
                else if contains key rn.key then
                  let h1 := upd t.heap a { n with right := some r, parent := some p }
                  (modify h1 p (fun m => { m with right := some a })).bind (fun h2 =>
                  (modify h2 r (fun m => { m with parent := some a })).map (fun h3 =>
                    ({ t with heap := h3, list := a :: t.list, fresh := a + 1 }, .ok)))
                else addFullCollision t p l r ln rn n inodeOk))))

/-- mod/rtrie.c:446-461 `rtrie_find`. -/
def find (t : Trie V) (key : Key) : Outcome (Option V) :=
  (findWhite t key).bind (fun r =>
    match r with
    | none => .ok none
    | some a => (deref t.heap a).map (fun n => n.val))

/-- mod/rtrie.c:463-472 `rtrie_contains`. -/
def trieContains (t : Trie V) (key : Key) : Outcome Bool := (findWhite t key).map (fun r => r.isSome)

/-- mod/rtrie.c:474-483 `rtrie_is_empty`. -/
def isEmpty (t : Trie V) : Bool := t.root.isSome

/-- mod/rtrie.c:518-554, the pruning loop of `rtrie_rm`. (Goes up; at most as many turns as nodes.) -/
def prune : Nat → Trie V → Nat → Outcome (Trie V)
  | 0, _, _ => .ub .infiniteLoop
  | fuel + 1, t, a =>
    (deref t.heap a).bind (fun n =>
      (parentPtr t.heap a n).bind (fun loc =>
        match n.left, n.right with
        | some c, _ | none, some c =>
          (assign t loc (some c)).bind (fun t1 =>
          (modify t1.heap c (fun m => { m with parent := n.parent })).map (fun h =>
            { t1 with heap := free h a, list := t1.list.erase a }))
        | none, none =>
          (assign t loc none).bind (fun t1 =>
            let t2 : Trie V := { t1 with heap := free t1.heap a, list := t1.list.erase a }
            match n.parent with
            | none => .ok t2
            | some p => (deref t2.heap p).bind (fun pn => if pn.white then .ok t2 else prune fuel t2 p))))

/-- mod/rtrie.c:485-557 `rtrie_rm`. `inodeOk`: whether the allocation succeeds, if there is one. -/
def rm (t : Trie V) (inodeOk : Bool) (key : Key) : Outcome (Trie V × Code) :=
  (findWhite t key).bind (fun r =>
    match r with
    | none => .ok (t, .esrch)
    | some a =>
      (deref t.heap a).bind (fun n =>
        if !equals n.key key then .ok (t, .esrch)
        else
          match n.left, n.right with
          | some l, some r =>
            if !inodeOk then .ok (t, .enomem)
            else
              (parentPtr t.heap a n).bind (fun loc =>
              (assign { t with heap := upd t.heap t.fresh ⟨some l, some r, none, false, n.key, none⟩ } loc
                (some t.fresh)).bind (fun t1 =>
              (modify t1.heap l (fun m => { m with parent := some t.fresh })).bind (fun h2 =>
              (modify h2 r (fun m => { m with parent := some t.fresh })).map (fun h3 =>
                ({ t1 with heap := free h3 a, list := (t.fresh :: t1.list).erase a, fresh := t.fresh + 1 }, .ok)))))
          | _, _ => (prune (t.list.length + 1) t a).map (fun t' => (t', .ok))))

/-- mod/rtrie.c:559-579 `rtrie_flush`. -/
def flush (t : Trie V) : Trie V :=
  match t.root with
  | none => t
  | some _ => { t with heap := fun x => if x ∈ t.list then none else t.heap x, root := none, list := [] }

/-- mod/rtrie.c:584-606 `rtrie_foreach` with a callback that never stops it: the values handed to it. `none`: −ESRCH,
after having handed over nothing. -/
def foreach (t : Trie V) (offset : Option Key) : Outcome (Option (List V)) :=
  let rec go (h : Heap V) : List Nat → Option Key → Outcome (Option (List V))
    | [], none => .ok (some [])
    | [], some _ => .ok none
    | a :: as, some k => (deref h a).bind (fun n => go h as (if equals k n.key then none else some k))
    | a :: as, none => (deref h a).bind (fun n =>
        (go h as none).map (fun r => r.map (fun l => if n.white then n.val.toList ++ l else l)))
  if t.list.isEmpty then .ok (some []) else go t.heap t.list offset

end
end Jool.Rtrie
