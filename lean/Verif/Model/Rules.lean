import Verif.Model.Xlator
/-
Rules of iptables: the shared objects that extend iptables (`src/usr/iptables/common.c`, `libxt_JOOL.c`, `libxt_JOOL_SIIT.c`), what
the kernel checks when a rule is added, and the instance that gets the packets of a rule
(`src/mod/common/kernel_hook_iptables.c`). (`mod/` abbreviates `src/mod/common/`, `usr/` `src/usr/`.)

Characters are numbers; `char` is signed, so the ones from 128 on are negative. The memory that iptables hands over has any
contents. What becomes of the packet once there is an instance is in `Verif.Model.Life` (`hook`) and in the models of the translation.

Assumed, about iptables: `init` is called once for every rule, then `parse` once for every option, in their order. A result of zero
means that the option is unknown, and the rule is refused; otherwise the rule is sent to the kernel as it is.
`iptables-save` prints what `save` prints, and `iptables-restore` splits that into words (`words`).
-/
namespace Jool.Rules
open Jool.Xlator

/-- src/common/iptables.h:10-13 `struct target_info`. `iname` has 16 bytes. -/
structure Info where
  iname : List Nat
  type : Flags
deriving DecidableEq, Repr, Inhabited

/-- usr/iptables/common.c:39-54 `iname_validate` (src/common/config.c:129-144 is the same), from the position that leaves `k` rounds.
The memory is the list, and a NUL after it. -/
def validate : Nat → List Nat → Bool
  | 0, _ => false
  | _ + 1, [] => true
  | k + 1, c :: cs => if c = 0 then true else if c < 32 ∨ 128 ≤ c then false else validate k cs

/-- `strcpy()` to a buffer of 16 bytes. -/
def strcpy (dst : List Nat) (s : Name) : Outcome (List Nat) :=
  if s.length < 16 then .ok (s ++ 0 :: dst.drop (s.length + 1)) else .ub .outOfBounds

/-- The string in a buffer. -/
def cstr (b : List Nat) : Name := b.takeWhile (· ≠ 0)

/-- "default" (src/common/types.h:64). -/
def DEFAULT : Name := [100, 101, 102, 97, 117, 108, 116]

/-- usr/iptables/common.c:24-29 `jool_tg_init`; the type is 2 in libxt_JOOL.c:4 and 1 in libxt_JOOL_SIIT.c:4. -/
def init (type : Flags) (mem : List Nat) : Outcome Info := (strcpy mem DEFAULT).map fun b => ⟨b, type⟩

/-- An option: its `val`, and its argument. -/
structure Opt where
  val : Char
  arg : Name
deriving DecidableEq, Repr

/-- usr/iptables/common.c:59-75 `jool_tg_parse`: the result, and the rule. -/
def parse (o : Opt) (i : Info) : Outcome (Int × Info) :=
  if o.val ≠ 'i' then .ok (0, i)
  else if !validate 16 o.arg then .ok (-22, i)
  else (strcpy i.iname o.arg).map fun b => (1, { i with iname := b })

/-- All the options. `none`: iptables refuses. -/
def parseAll : List Opt → Info → Outcome (Option Info)
  | [], i => .ok (some i)
  | o :: os, i => (parse o i).bind fun r => if r.1 = 0 then .ok none else parseAll os r.2

/-- mod/kernel_hook_iptables.c:37-61 `target_checkentry`. -/
def checkentry (i : Info) : Bool := validate 16 i.iname && xtValid i.type

/-- `iptables -A … -j JOOL …`: the rule that the kernel has at the end. -/
def add (type : Flags) (mem : List Nat) (os : List Opt) : Outcome (Option Info) :=
  (init type mem).bind fun i => (parseAll os i).map fun r => r.bind fun i => if checkentry i then some i else none

/-- mod/kernel_hook_iptables.c:9-31 `find_instance`, of `target_ipv6` and `target_ipv4` (94-148): the instance which translates a
packet; `none`: the packet goes on with the next rule. -/
def target (H : Hash) (ns : Ns) (i : Info) (w : World) : Option Node :=
  match lookup H ns (8 ||| i.type) (cstr i.iname) w with
  | .ok n => some n
  | .error _ => none

/-- " --instance " -/
def OPTION : List Nat := [45, 45, 105, 110, 115, 116, 97, 110, 99, 101]

/-- usr/iptables/common.c:90-94 `jool_tg_save`. -/
def save (i : Info) : List Nat := 32 :: OPTION ++ [32] ++ cstr i.iname ++ [32]

/-- How `iptables-restore` splits a line into words: blanks separate them, and between quotes there may be anything. -/
def words : (quoted : Bool) → (cur : List Nat) → List Nat → List (List Nat)
  | _, cur, [] => if cur = [] then [] else [cur]
  | true, cur, c :: r =>
    if c = 92 then match r with | [] => words true cur [] | d :: r => words true (cur ++ [d]) r
    else if c = 34 then cur :: words false [] r
    else words true (cur ++ [c]) r
  | false, cur, c :: r =>
    if c = 34 then words true cur r
    else if c = 32 ∨ c = 9 ∨ c = 10 then if cur = [] then words false [] r else cur :: words false [] r
    else words false (cur ++ [c]) r

/-- The options among the words. `none`: bad arguments. -/
def options : List (List Nat) → Option (List Opt)
  | [] => some []
  | o :: a :: r => if o = OPTION then (options r).map (⟨'i', a⟩ :: ·) else none
  | [_] => none

/-- `iptables-restore`, of the part of the line that comes after the target. -/
def restore (type : Flags) (mem : List Nat) (line : List Nat) : Outcome (Option Info) :=
  match options (words false [] line) with
  | none => .ok none
  | some os => add type mem os

end Jool.Rules
