import Verif.Model.File
/-
How configuration files are read: `src/usr/util/file.c`, its callers, and the settings of the daemon (`src/usr/joold/json.c`,
`joold.c`). (`usr/` abbreviates `src/usr/`.)

What the system answers is a parameter: whether the calls succeed, what `ftell()` says, and what each `fread()` delivers. The list
of the answers to `fread()` may be shorter than the number of calls; `St.reading` means that the program still waits for the next
one. Numbers are those of machines whose `long` has 64 bits.

Simplifications: error codes and messages; `strdup()` and the other allocations after the first one succeed.
-/
namespace Jool.ReadFile
open Jool.Text (Text caseEq)
open Jool.Json (Json Num)

/-- An answer of `fread()`: the bytes, and what `ferror()` says afterwards. -/
structure Answer where
  got : Text
  err : Bool
deriving DecidableEq, Repr

/-- The answers of the other calls. -/
structure Sys where
  opens : Bool
  seeksEnd : Bool
  tells : Option Nat
  seeksSet : Bool
  memory : Bool
deriving DecidableEq, Repr

/-- What is acquired and released. -/
inductive Ev | opened | closed | alloc | freed
deriving DecidableEq, Repr

inductive St
  | ok (t : Text)
  | error
  | reading
  | overflow
  | ub (u : UB)
deriving DecidableEq, Repr

/-- usr/util/file.c:69-87: the loop, and the NUL after it. The buffer has `len` + 1 bytes, and `buf` is what it contains so
far. Every call asks for `len` bytes, not for the ones that are left. -/
def loop (len : Nat) : List Answer → Text → List Ev × St
  | [], buf =>
    if buf.length < len then ([], .reading)
    else ([.closed], if len < buf.length then .ub .outOfBounds else .ok buf)
  | a :: as, buf =>
    if buf.length < len then
      if len + 1 < buf.length + a.got.length then ([], .ub .outOfBounds)
      else if a.got.isEmpty && a.err then ([.freed, .closed], .error)
      else loop len as (buf ++ a.got)
    else ([.closed], if len < buf.length then .ub .outOfBounds else .ok buf)

def LONG_MAX : Nat := 0x7fffffffffffffff

/-- usr/util/file.c:11-90 `file_to_string`. -/
def fileToString (s : Sys) (as : List Answer) : List Ev × St :=
  if !s.opens then ([], .error)
  else if !s.seeksEnd then ([.opened, .closed], .error)
  else
    match s.tells with
    | none => ([.opened, .closed], .error)
    | some len =>
      if !s.seeksSet then ([.opened, .closed], .error)
      else if LONG_MAX ≤ len then ([.opened], .overflow)
      else if !s.memory then ([.opened, .closed], .error)
      else
        let r := loop len as []
        ([.opened, .alloc] ++ r.1, r.2)

/-- What a reader of strings finds in the buffer. -/
def cstr (t : Text) : Text := t.takeWhile (· ≠ '\x00')

/-- usr/nl/file.c:720-738 `joolnl_file_parse`, with the file: the buffer is freed at the end. `none`: it has
no end, or no defined one. -/
def fileParse (c : File.Ctx) (opt : Option Text) (s : Sys) (as : List Answer) : Option (List File.Msg × File.St) :=
  match (fileToString s as).2 with
  | .ok t => some (File.fileParse c opt (cstr t))
  | .error => some ([], .no)
  | _ => none

/-! ### The settings of the daemon -/

/-- `struct netsocket_cfg` (usr/argp/joold/netsocket.h), and the instance. -/
structure Cfg where
  iname : Text
  addr : Option Text
  port : Text
  inIf : Option Text
  outIf : Option Text
  ttl : Int
deriving DecidableEq, Repr

/-- usr/joold/joold.c:60-64. -/
def Cfg.default : Cfg := ⟨"default".toList, none, "6400".toList, none, none, 1⟩

/-- usr/util/cJSON.c:519-525 `cJSON_GetObjectItem`. The elements of an array have no names, and others have no elements. -/
def item : Json → Text → Option Json
  | .obj l, k => (l.find? (fun p => caseEq p.1 k)).map (·.2)
  | _, _ => none

/-- usr/joold/json.c:43-63 `json2str`: `none` is an error, `some none` means that there is no such field. -/
def str? (j : Json) (k : Text) : Option (Option Text) :=
  match item j k with
  | none => some none
  | some (.str s) => some (some s)
  | some _ => none

/-- usr/util/cJSON.c:93-96: `VALUENUM_INT`. -/
def isInt (n : Num) : Bool := (n.upTo (if n.neg then 2147483648 else 2147483647)).isSome

/-- usr/joold/json.c:65-78 `json2int`. -/
def int? (j : Json) (k : Text) : Option (Option Int) :=
  match item j k with
  | none => some none
  | some (.num n) => if isInt n then some (some n.int) else none
  | some _ => none

/-- usr/joold/joold.c:8-21 `modsocket_config`. -/
def modConfig (j : Json) (c : Cfg) : Option Cfg :=
  (str? j "instance".toList).map fun v => { c with iname := v.getD c.iname }

/-- usr/joold/joold.c:23-52 `netsocket_config`. -/
def netConfig (j : Json) (c : Cfg) : Option Cfg :=
  (str? j "multicast address".toList).bind fun a =>
  (str? j "multicast port".toList).bind fun p =>
  (str? j "in interface".toList).bind fun i =>
  (str? j "out interface".toList).bind fun o =>
  match int? j "ttl".toList with
  | none => none
  | some t =>
    let ttl := t.getD c.ttl
    if ttl < 0 || 256 < ttl then none
    else some { c with addr := a.orElse fun _ => c.addr, port := p.getD c.port, inIf := i.orElse fun _ => c.inIf,
                       outIf := o.orElse fun _ => c.outIf, ttl }

/-- usr/joold/joold.c:60-92 `main`, until the daemon starts: the files of the two arguments. -/
def daemon (mod net : Text) : Outcome (Option Cfg) :=
  match Json.parse (cstr mod) with
  | .ub u => .ub u
  | .ok none => .ok none
  | .ok (some m) =>
    match modConfig m Cfg.default with
    | none => .ok none
    | some c =>
      match Json.parse (cstr net) with
      | .ub u => .ub u
      | .ok none => .ok none
      | .ok (some n) => .ok (netConfig n c)

end Jool.ReadFile
