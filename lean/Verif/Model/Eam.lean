import Verif.Model.Addr
import Verif.Model.Rtrie
/-
Model of `src/mod/common/db/eam.c`: the Explicit Address Mappings Table, two radix tries that hold the same entries.

`count` is a `u64` in C; here an integer. Whether allocations succeed is up to an oracle. The mutex makes updates
sequential. Log messages and reference counting are not modelled.
-/
namespace Jool.Eam
open Jool.Rtrie (Key Trie Code)

/-- common/types.h:191-194 `struct eamt_entry`. -/
structure Entry where
  p6 : Prefix6
  p4 : Prefix4
deriving DecidableEq, Repr, Inhabited

/-- mod/db/eam.c:11-13 `INIT_KEY`, `ADDR_TO_KEY`, `PREFIX_TO_KEY`: the first bits of an address. -/
def key {n : Nat} (a : BitVec n) (len : Nat) : Key := (List.range len).map (fun i => a.getMsbD i)

def key6 (p : Prefix6) : Key := key p.addr p.len
def key4 (p : Prefix4) : Key := key p.addr p.len

/-- mod/db/eam.c:32-41 `struct eam_table`. -/
structure Eamt where
  trie6 : Trie Entry
  trie4 : Trie Entry
  count : Int

/-- mod/db/eam.c:462-476 `eamt_alloc`. -/
def init : Eamt := ⟨Rtrie.init, Rtrie.init, 0⟩

/-- mod/db/eam.c:56-73 `validate_prefixes` (`true` = returns 0). -/
def validatePrefixes (e : Entry) : Bool :=
  if !prefix6Validate e.p6 then false
  else if !prefix4Validate e.p4 then false
  else if 32 - e.p4.len > 128 - e.p6.len then false
  else true

/-- mod/db/eam.c:81-105 `collision6`. -/
def collision6 (new old : Entry) (force : Bool) : Code :=
  if new.p6.len = old.p6.len then .eexist else if force then .ok else .eexist

/-- mod/db/eam.c:107-132 `collision4`. -/
def collision4 (new old : Entry) (force : Bool) : Code :=
  if new.p4.len = old.p4.len then .eexist else if force then .ok else .eexist

/-- mod/db/eam.c:145-150: the IPv6 half of `validate_overlapping`, once the lookup is done. -/
def check6 (new : Entry) (force : Bool) : Option Entry → Code
  | some old => collision6 new old force
  | none => .ok

/-- mod/db/eam.c:152-157: the IPv4 half. -/
def check4 (new : Entry) (force : Bool) : Option Entry → Code
  | some old => collision4 new old force
  | none => .ok

/-- mod/db/eam.c:134-160 `validate_overlapping`. -/
def validateOverlapping (t : Eamt) (new : Entry) (force : Bool) : Outcome Code :=
  (Rtrie.find t.trie6 (key new.p6.addr 128)).bind (fun r6 =>
    if check6 new force r6 ≠ .ok then .ok (check6 new force r6)
    else (Rtrie.find t.trie4 (key new.p4.addr 32)).map (check4 new force))

/-- Which allocations of an addition or removal succeed. `revert`: the one of undoing. -/
structure Mem where
  leaf6 : Bool
  inode6 : Bool
  leaf4 : Bool
  inode4 : Bool
  revert : Bool
deriving DecidableEq, Repr

/-- Nothing fails. -/
def Mem.all : Mem := ⟨true, true, true, true, true⟩

/-- mod/db/eam.c:211-239 `eamt_add`, with `eamt_add6` (173-190), `eamt_add4` (192-209) and `__revert_add6` (162-171). -/
def add (t : Eamt) (m : Mem) (new : Entry) (force : Bool) : Outcome (Eamt × Code) :=
  if !validatePrefixes new then .ok (t, .einval)
  else
    (validateOverlapping t new force).bind (fun c =>
      if c ≠ .ok then .ok (t, c)
      else
        (Rtrie.add t.trie6 m.leaf6 m.inode6 (key6 new.p6) new).bind (fun r6 =>
          if r6.2 ≠ .ok then .ok ({ t with trie6 := r6.1 }, r6.2)
          else
            (Rtrie.add t.trie4 m.leaf4 m.inode4 (key4 new.p4) new).bind (fun r4 =>
              if r4.2 ≠ .ok then
                (Rtrie.rm r6.1 m.revert (key6 new.p6)).map (fun rv => (⟨rv.1, r4.1, t.count⟩, r4.2))
              else .ok (⟨r6.1, r4.1, t.count + 1⟩, .ok))))

/-- mod/db/eam.c:241-252 `get_exact6`. -/
def getExact6 (t : Eamt) (p : Prefix6) : Outcome (Option Entry) :=
  (Rtrie.find t.trie6 (key6 p)).map (fun r =>
    match r with
    | some e => if e.p6.len = p.len then some e else none
    | none => none)

/-- mod/db/eam.c:254-265 `get_exact4`. -/
def getExact4 (t : Eamt) (p : Prefix4) : Outcome (Option Entry) :=
  (Rtrie.find t.trie4 (key4 p)).map (fun r =>
    match r with
    | some e => if e.p4.len = p.len then some e else none
    | none => none)

/-- mod/db/eam.c:267-291 `__rm`. -/
def rmBoth (t : Eamt) (m : Mem) (p6 : Prefix6) (p4 : Prefix4) : Outcome (Eamt × Code) :=
  (Rtrie.rm t.trie6 m.inode6 (key6 p6)).bind (fun r6 =>
    if r6.2 ≠ .ok then .ok ({ t with trie6 := r6.1 }, r6.2)
    else
      (Rtrie.rm t.trie4 m.inode4 (key4 p4)).map (fun r4 =>
        if r4.2 ≠ .ok then (⟨r6.1, r4.1, t.count⟩, r4.2)
        else (⟨r6.1, r4.1, t.count - 1⟩, .ok)))

/-- mod/db/eam.c:293-321 `eamt_rm_lockless`, 323-337 `eamt_rm`. -/
def rm (t : Eamt) (m : Mem) (p6 : Option Prefix6) (p4 : Option Prefix4) : Outcome (Eamt × Code) :=
  match p6, p4 with
  | none, none => .ok (t, .einval)
  | some p6, none =>
    (getExact6 t p6).bind (fun r =>
      match r with
      | none => .ok (t, .esrch)
      | some e => rmBoth t m p6 e.p4)
  | none, some p4 =>
    (getExact4 t p4).bind (fun r =>
      match r with
      | none => .ok (t, .esrch)
      | some e => rmBoth t m e.p6 p4)
  | some p6, some p4 =>
    (getExact6 t p6).bind (fun r6 =>
      match r6 with
      | none => .ok (t, .esrch)
      | some e6 =>
        (getExact4 t p4).bind (fun r4 =>
          match r4 with
          | none => .ok (t, .esrch)
          | some e4 => if e6 = e4 then rmBoth t m p6 p4 else .ok (t, .esrch)))

/-- mod/db/eam.c:339-343 `eamt_contains6`. -/
def contains6 (t : Eamt) (a : Addr6) : Outcome Bool := Rtrie.trieContains t.trie6 (key a 128)

/-- mod/db/eam.c:345-350 `eamt_contains4`. -/
def contains4 (t : Eamt) (a : Addr4) : Outcome Bool := Rtrie.trieContains t.trie4 (key a 32)

/-- mod/db/eam.c:373-377, the loop of `eamt_xlat_6to4` from turn `i` on. -/
def loop64 (e : Entry) (a6 : Addr6) (i : Nat) : Nat → Addr4 → Addr4
  | 0, a4 => a4
  | n + 1, a4 => loop64 e a6 (i + 1) n (addr4SetBit a4 (e.p4.len + i) (addr6GetBit a6 (e.p6.len + i)))

/-- mod/db/eam.c:370-377: what `eamt_xlat_6to4` does with the entry it found. -/
def xlat64With (e : Entry) (a6 : Addr6) : Addr4 := loop64 e a6 0 (32 - e.p4.len) e.p4.addr

/-- mod/db/eam.c:353-382 `eamt_xlat_6to4`. `none`: −ESRCH. -/
def xlat64 (t : Eamt) (a6 : Addr6) : Outcome (Option (Addr4 × Entry)) :=
  (Rtrie.find t.trie6 (key a6 128)).map (fun r => r.map (fun e => (xlat64With e a6, e)))

/-- mod/db/eam.c:405-409, the loop of `eamt_xlat_4to6` from turn `i` on. -/
def loop46 (e : Entry) (a4 : Addr4) (i : Nat) : Nat → Addr6 → Addr6
  | 0, a6 => a6
  | n + 1, a6 => loop46 e a4 (i + 1) n (addr6SetBit a6 (e.p6.len + i) (addr4GetBit a4 (e.p4.len + i)))

/-- mod/db/eam.c:402-409: what `eamt_xlat_4to6` does with the entry it found. -/
def xlat46With (e : Entry) (a4 : Addr4) : Addr6 := loop46 e a4 0 (32 - e.p4.len) e.p6.addr

/-- mod/db/eam.c:385-414 `eamt_xlat_4to6`. -/
def xlat46 (t : Eamt) (a4 : Addr4) : Outcome (Option (Addr6 × Entry)) :=
  (Rtrie.find t.trie4 (key a4 32)).map (fun r => r.map (fun e => (xlat46With e a4, e)))

/-- mod/db/eam.c:416-419 `eamt_is_empty`. -/
def isEmpty (t : Eamt) : Bool := Rtrie.isEmpty t.trie6

/-- mod/db/eam.c:432-451 `eamt_foreach`, with a callback that does not stop it. -/
def foreach (t : Eamt) (offset : Option Prefix4) : Outcome (Option (List Entry)) :=
  Rtrie.foreach t.trie4 (offset.map key4)

/-- mod/db/eam.c:453-460 `eamt_flush`. -/
def flush (t : Eamt) : Eamt := ⟨Rtrie.flush t.trie6, Rtrie.flush t.trie4, 0⟩

end Jool.Eam
