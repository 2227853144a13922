import Verif.Model.Requests
/-
Text: what the client prints of numbers, timeouts, prefixes, transport addresses and entries, and how it reads what the user
types (`usr/util/str_utils.c`, the printing and reading functions of `src/common/global.c`, and the commands that add and
remove entries, `usr/argp/wargp/*.c`). (`usr/` abbreviates `src/usr/`.)

Simplifications.
* A C string is the list of its characters, without the terminator. Arguments of a program never contain that character.
* A refusal is `none`: its code and its message are not told apart.
* `inet_pton()` and `inet_ntop()` (libc) are parameters, see `Inet`. `inet_ntoa()` prints what `inet_ntop(AF_INET)` prints.
* `argp_parse()` (libc) delivers each option and each argument to the parser of the command, see `Arg`. An option that the
  command does not know is refused by it.
* `malloc()` succeeds. The regular expression of `validate_uint()` compiles.
* `getnameinfo()` is not modelled: BIB entries are printed with `--numeric`.
-/
namespace Jool.Text
open Jool.NlAttr Jool.Req

abbrev Text := List Char

/-! ## libc -/

/-- C's `isdigit()`, ASCII. -/
def isDigit (c : Char) : Bool := 48 ≤ c.toNat && c.toNat ≤ 57
/-- C's `isspace()`, in the C locale. -/
def isSpace (c : Char) : Bool := c.toNat == 32 || (9 ≤ c.toNat && c.toNat ≤ 13)
/-- The character of a decimal digit. -/
def digit (d : Nat) : Char := Char.ofNat (48 + d)

/-- The loop of `printf("%u")`; each round yields one digit. -/
def decF : Nat → Nat → Text
  | 0, n => [digit (n % 10)]
  | f + 1, n => if n < 10 then [digit n] else decF f (n / 10) ++ [digit (n % 10)]
/-- `printf("%u")`. -/
def dec (n : Nat) : Text := decF n n
/-- `printf("%0<w>u")`. -/
def pad (w n : Nat) : Text := List.replicate (w - (dec n).length) '0' ++ dec n

/-- What a string of decimal digits is worth. -/
def value (ds : Text) : Nat := ds.foldl (fun a c => 10 * a + (c.toNat - 48)) 0

/-- What `strtoull()` yields: the number, whether `errno` became `ERANGE`, and where it stopped. -/
structure Num where
  val : Nat
  range : Bool
  tail : Text
deriving DecidableEq, Repr

/-- The sign and the rest. -/
def sign : Text → Bool × Text
  | '-' :: r => (true, r)
  | '+' :: r => (false, r)
  | r => (false, r)

/-- `strtoull(s, &tail, 10)` (C11 7.22.1.4; glibc: `errno` is not touched if there are no digits): skips white space, accepts a
sign, reads digits. A `-` negates in the unsigned type. Without digits, the number is 0 and it stops where it started. -/
def strtoull (s : Text) : Num :=
  let r := sign (s.dropWhile isSpace)
  let ds := r.2.takeWhile isDigit
  let tail := r.2.dropWhile isDigit
  if ds = [] then ⟨0, false, s⟩
  else if value ds < 2 ^ 64 then ⟨if r.1 then (2 ^ 64 - value ds) % 2 ^ 64 else value ds, false, tail⟩
  else ⟨2 ^ 64 - 1, true, tail⟩

/-- `strtok()`, until NULL: the pieces between delimiters that are not empty. `acc` is the piece so far. -/
def tokGo (d : Char) : Text → Text → List Text
  | acc, [] => if acc = [] then [] else [acc]
  | acc, c :: r =>
    if c = d then if acc = [] then tokGo d [] r else acc :: tokGo d [] r
    else tokGo d (acc ++ [c]) r
def tokens (d : Char) (s : Text) : List Text := tokGo d [] s

/-- `strcasecmp(a, b) == 0`, in the C locale. -/
def caseEq (a b : Text) : Bool := a.map Char.toLower == b.map Char.toLower

/-- libc's address conversions. -/
structure Inet where
  /-- `inet_pton(AF_INET)` -/
  pton4 : Text → Option Addr4
  /-- `inet_ntop(AF_INET)`, `inet_ntoa()` -/
  ntop4 : Addr4 → Text
  /-- `inet_pton(AF_INET6)` -/
  pton6 : Text → Option Addr6
  /-- `inet_ntop(AF_INET6)` -/
  ntop6 : Addr6 → Text

/-! ## usr/util/str_utils.c -/

/-- usr/util/str_utils.c:15-53 `validate_uint`: the regular expression `^[0-9][0-9]*` is not anchored at the end. -/
def validateUint : Text → Bool
  | c :: _ => isDigit c
  | [] => false

/-- usr/util/str_utils.c:55-85 `str_to_ull`, with `min` 0 (as every caller has it). -/
def strToUll (s : Text) (max : Nat) : Option Num :=
  if validateUint s then
    let n := strtoull s
    if n.range then none else if max < n.val then none else some n
  else none

/-- usr/util/str_utils.c:87-110 `str_to_bool`. -/
def strToBool (s : Text) : Option Bool :=
  if caseEq s "true".toList || caseEq s "1".toList || caseEq s "yes".toList || caseEq s "on".toList then some true
  else if caseEq s "false".toList || caseEq s "0".toList || caseEq s "no".toList || caseEq s "off".toList then some false
  else none

/-- usr/util/str_utils.c:112-123 `str_to_u8`. -/
def strToU8 (s : Text) (max : Nat) : Option Nat := (strToUll s max).map (fun n => n.val % 256)
/-- usr/util/str_utils.c:125-134 `str_to_u16`. (On failure it also copies an uninitialized variable; the callers do not use it.) -/
def strToU16 (s : Text) : Option (BitVec 16) := (strToUll s 65535).map (fun n => BitVec.ofNat 16 n.val)
/-- usr/util/str_utils.c:136-145 `str_to_u32`. -/
def strToU32 (s : Text) : Option (BitVec 32) := (strToUll s 4294967295).map (fun n => BitVec.ofNat 32 n.val)

/-- usr/util/str_utils.c:158-170 one `:` and the number that follows it. -/
def sexagesimal (sec : Nat) (r : Text) : Option (Nat × Text) :=
  let n := strtoull r
  if n.range then none else some ((60 * sec + n.val) % 2 ^ 64, n.tail)

/-- usr/util/str_utils.c:153-170 the seconds of `str_to_timeout`, and where they end. -/
def seconds (s : Text) : Option (Nat × Text) :=
  let a := strtoull s
  if a.range then none
  else match a.tail with
    | ':' :: r =>
      match sexagesimal a.val r with
      | none => none
      | some (sec, ':' :: r') => sexagesimal sec r'
      | some p => some p
    | t => some (a.val, t)

/-- usr/util/str_utils.c:147-209 `str_to_timeout`. The arithmetic is that of `unsigned long long`; the result is copied to
32 bits. -/
def strToTimeout (s : Text) : Option (BitVec 32) :=
  match seconds s with
  | none => none
  | some (sec, '.' :: r) =>
    if r.length < 3 then none
    else
      let n := strtoull r
      if n.range then none
      else if n.tail = [] then some (BitVec.ofNat 32 ((1000 * sec + n.val) % 2 ^ 64)) else none
  | some (sec, t) => if t = [] then some (BitVec.ofNat 32 (1000 * sec % 2 ^ 64)) else none

/-- usr/util/str_utils.c:211-233 `str_to_port_range`. -/
def strToPortRange (s : Text) : Option (BitVec 16 × BitVec 16) :=
  match strToUll s 65535 with
  | none => none
  | some n =>
    match n.tail with
    | '-' :: r => (strToUll r 65535).map (fun m => (BitVec.ofNat 16 n.val, BitVec.ofNat 16 m.val))
    | _ => some (BitVec.ofNat 16 n.val, BitVec.ofNat 16 n.val)

/-- usr/util/str_utils.c:257-341 `str_to_addr4_port`, `str_to_addr6_port`: `cap` is `STR_MAX_LEN`. -/
def strToAddrPort {α} (cap : Nat) (pton : Text → Option α) (s : Text) : Option (α × BitVec 16) :=
  if s.length + 1 > cap then none
  else match tokens '#' s with
    | [] => none
    | a :: rest =>
      match pton a with
      | none => none
      | some x =>
        match rest with
        | [] => none
        | p :: _ => (strToU16 p).map (fun v => (x, v))

/-- usr/util/str_utils.c:260-298 `str_to_addr4_port`; `STR_MAX_LEN` is 16 + 1 + 5. -/
def strToT4 (i : Inet) (s : Text) : Option T4 := (strToAddrPort 22 i.pton4 s).map (fun p => ⟨p.1, p.2⟩)
/-- usr/util/str_utils.c:303-341 `str_to_addr6_port`; `STR_MAX_LEN` is 46 + 1 + 5. -/
def strToT6 (i : Inet) (s : Text) : Option T6 := (strToAddrPort 52 i.pton6 s).map (fun p => ⟨p.1, p.2⟩)

/-- usr/util/str_utils.c:343-421 `str_to_prefix4`, `str_to_prefix6`: `cap` is `STR_MAX_LEN`, `max` the longest length. -/
def strToPrefix {α} (cap max : Nat) (pton : Text → Option α) (s : Text) : Option (α × Nat) :=
  if s.length + 1 > cap then none
  else match tokens '/' s with
    | [] => none
    | a :: rest =>
      match pton a with
      | none => none
      | some x =>
        match rest with
        | [] => some (x, max)
        | l :: _ => (strToU8 l max).map (fun v => (x, v))

/-- usr/util/str_utils.c:346-381 `str_to_prefix4`; `STR_MAX_LEN` is 16 + 1 + 2. -/
def strToPrefix4 (i : Inet) (s : Text) : Option Prefix4 := (strToPrefix 19 32 i.pton4 s).map (fun p => ⟨p.1, p.2⟩)
/-- usr/util/str_utils.c:386-421 `str_to_prefix6`; `STR_MAX_LEN` is 46 + 1 + 3. -/
def strToPrefix6 (i : Inet) (s : Text) : Option Prefix6 := (strToPrefix 50 128 i.pton6 s).map (fun p => ⟨p.1, p.2⟩)

/-- usr/util/str_utils.c:423-481 `str_to_plateaus_array`; src/common/types.h:121 `PLATEAUS_MAX`. -/
def strToPlateaus (s : Text) : Option (List (BitVec 16)) :=
  let ts := tokens ',' s
  if ts = [] then none else if ts.length > 64 then none else ts.mapM strToU16

/-- usr/util/str_utils.h:80 -/
def TIMEOUT_BUFLEN : Nat := 32

/-- usr/util/str_utils.c:483-508 `timeout2str`. `snprintf()` writes at most `TIMEOUT_BUFLEN - 1` characters; `offset` is the
length that it wanted. -/
def timeout2str (ms : BitVec 32) : Text :=
  let m := ms.toNat
  let head := dec (m / 3600000) ++ ':' :: (pad 2 (m % 3600000 / 60000) ++ ':' :: pad 2 (m % 60000 / 1000))
  let full := if m % 1000 = 0 then head else head ++ '.' :: pad 3 (m % 1000)
  full.take (TIMEOUT_BUFLEN - 1)

/-! ## src/common/global.c: settings -/

/-- The types of settings (src/common/global.c:705-753). -/
inductive GType
  | bool | u8 | u32 | timeout | plateaus | prefix6 | prefix4 | hairpin
deriving DecidableEq, Repr

/-- The value of a setting. `struct config_prefix6`, `struct config_prefix4` are unset or have a prefix. -/
inductive GVal
  | bool (b : Bool)
  | u8 (n : BitVec 8)
  | u32 (n : BitVec 32)
  | timeout (ms : BitVec 32)
  | plateaus (l : List (BitVec 16))
  | prefix6 (p : Option Prefix6)
  | prefix4 (p : Option Prefix4)
  | hairpin (m : BitVec 8)
deriving DecidableEq, Repr

/-- src/common/global.c:340-355 `print_prefix`. -/
def printPrefix (csv : Bool) : Option (Text × Nat) → Text
  | none => if csv then [] else "(unset)".toList
  | some (a, len) => a ++ '/' :: dec len

/-- src/common/global.c:322-338 the loop of `print_plateaus`. -/
def printNums : List (BitVec 16) → Text
  | [] => []
  | [v] => dec v.toNat
  | v :: w :: l => dec v.toNat ++ ',' :: printNums (w :: l)

/-- src/common/global.c:371-386 `print_hairpin_mode`; src/common/config.h `EHM_OFF` 0, `EHM_SIMPLE` 1, `EHM_INTRINSIC` 2. -/
def printHairpin (m : BitVec 8) : Text :=
  if m = 0 then "off".toList else if m = 1 then "simple".toList else if m = 2 then "intrinsic".toList else "unknown".toList

/-- src/common/global.c:289-386 `print_bool`, `print_u8`, `print_u32`, `print_timeout`, `print_plateaus`, `print_prefix6`,
`print_prefix4`, `print_hairpin_mode`. -/
def print (i : Inet) (csv : Bool) : GVal → Text
  | .bool b => if csv then (if b then "TRUE".toList else "FALSE".toList) else (if b then "true".toList else "false".toList)
  | .u8 n => dec n.toNat
  | .u32 n => dec n.toNat
  | .timeout ms => if csv then timeout2str ms else timeout2str ms ++ " (HH:MM:SS)".toList
  | .plateaus l => if csv then '"' :: (printNums l ++ ['"']) else printNums l
  | .prefix6 p => printPrefix csv (p.map (fun q => (i.ntop6 q.addr, q.len)))
  | .prefix4 p => printPrefix csv (p.map (fun q => (i.ntop4 q.addr, q.len)))
  | .hairpin m => printHairpin m

/-- src/common/global.c:467-600 `str2nl_bool`, `str2nl_u8`, `str2nl_u32`, `str2nl_timeout`, `str2nl_plateaus`, `str2nl_prefix6`,
`str2nl_prefix4`, `str2nl_hairpin_mode`: the value that is put into the attribute. -/
def str2nl (i : Inet) (s : Text) : GType → Option GVal
  | .bool => (strToBool s).map .bool
  | .u8 => (strToU8 s 255).map (fun n => .u8 (BitVec.ofNat 8 n))
  | .u32 => (strToU32 s).map .u32
  | .timeout => (strToTimeout s).map .timeout
  | .plateaus => (strToPlateaus s).map .plateaus
  | .prefix6 => if s = "null".toList then some (.prefix6 none) else (strToPrefix6 i s).map (fun p => .prefix6 (some p))
  | .prefix4 => if s = "null".toList then some (.prefix4 none) else (strToPrefix4 i s).map (fun p => .prefix4 (some p))
  | .hairpin =>
    if s = "off".toList then some (.hairpin 0)
    else if s = "simple".toList then some (.hairpin 1)
    else if s = "intrinsic".toList then some (.hairpin 2)
    else none

/-! ## usr/argp: commands -/

/-- What `argp_parse()` delivers to the parser of a command: options, and arguments. -/
inductive Arg
  | tcp | udp | icmp
  | mark (s : Text)
  | iters (s : Text)
  | force
  | quick
  | pos (s : Text)
deriving DecidableEq, Repr

/-- What the parsers of a command have set so far (the `struct add_args` and `struct rm_args` of every command). -/
structure Args where
  p6 : Option Prefix6 := none
  p4 : Option Prefix4 := none
  a6 : Option T6 := none
  a4 : Option T4 := none
  range : Option (BitVec 16 × BitVec 16) := none
  proto : Option (BitVec 8) := none
  mark : BitVec 32 := 0
  flags : BitVec 8 := 0
  iters : BitVec 32 := 0
  force : Bool := false
  quick : Bool := false

/-- usr/argp/wargp.c:87-113 `wargp_parse_l4proto`. -/
def setProto (p : BitVec 8) (a : Args) : Option Args := if a.proto = none then some { a with proto := some p } else none

/-- usr/argp/wargp/eamt.c:104-121 `parse_eamt_column`. -/
def eamtColumn (i : Inet) (s : Text) (a : Args) : Option Args :=
  if ':' ∈ s then (strToPrefix6 i s).map (fun p => { a with p6 := some p })
  else if '.' ∈ s then (strToPrefix4 i s).map (fun p => { a with p4 := some p })
  else none

/-- usr/argp/wargp.c:154-165 `wargp_parse_prefix4`. -/
def prefix4Arg (i : Inet) (s : Text) (a : Args) : Option Args := (strToPrefix4 i s).map (fun p => { a with p4 := some p })

/-- usr/argp/wargp/pool4.c:198-213 `parse_pool4_entry`. -/
def pool4Arg (i : Inet) (s : Text) (a : Args) : Option Args :=
  if '.' ∈ s then (strToPrefix4 i s).map (fun p => { a with p4 := some p })
  else (strToPortRange s).map (fun r => { a with range := some r })

/-- usr/argp/wargp/bib.c:95-112 `parse_taddr`. -/
def taddr (i : Inet) (s : Text) (a : Args) : Option Args :=
  if ':' ∈ s then (strToT6 i s).map (fun t => { a with a6 := some t })
  else if '.' ∈ s then (strToT4 i s).map (fun t => { a with a4 := some t })
  else none

/-- usr/argp/wargp/pool4.c:172-190 `parse_max_iterations`; src/common/config.h:347-359 `ITERATIONS_SET` 1, `ITERATIONS_AUTO` 2,
`ITERATIONS_INFINITE` 4. -/
def maxIterations (s : Text) (a : Args) : Option Args :=
  if s = "auto".toList then some { a with flags := 1 ||| 2 }
  else if s = "infinity".toList then some { a with flags := 1 ||| 4 }
  else (strToU32 s).map (fun n => { a with flags := 1, iters := n })

/-- usr/argp/wargp.c:76-85 `wargp_parse_u32`, for the mark. -/
def markArg (s : Text) (a : Args) : Option Args := (strToU32 s).map (fun n => { a with mark := n })

/-- usr/argp/wargp.c:219-253 `wargp_parser`, `wargp_parse`: each option or argument in turn; the first refusal is final. -/
def parse (f : Arg → Args → Option Args) (l : List Arg) : Option Args := l.foldlM (fun a x => f x a) {}

/-- usr/argp/wargp/eamt.c:128-138 `add_opts`. -/
def eamtAddOpts (i : Inet) : Arg → Args → Option Args
  | .force, a => some { a with force := true }
  | .pos s, a => eamtColumn i s a
  | _, _ => none

/-- usr/argp/wargp/eamt.c:140-170 `handle_eamt_add`: the request that is sent. -/
def eamtAdd (i : Inet) (l : List Arg) : Option Ask :=
  match parse (eamtAddOpts i) l with
  | none => none
  | some a =>
    match a.p6, a.p4 with
    | some p6, some p4 => some (.eamAdd ⟨p6, p4⟩ a.force)
    | _, _ => none

/-- usr/argp/wargp/eamt.c:181-190 `remove_opts`. -/
def eamtRmOpts (i : Inet) : Arg → Args → Option Args
  | .pos s, a => eamtColumn i s a
  | _, _ => none

/-- usr/argp/wargp/eamt.c:192-220 `handle_eamt_remove`. -/
def eamtRm (i : Inet) (l : List Arg) : Option Ask :=
  match parse (eamtRmOpts i) l with
  | none => none
  | some a => if a.p6 = none ∧ a.p4 = none then none else some (.eamRm a.p6 a.p4)

/-- usr/argp/wargp/denylist4.c:94-104 `add_opts`. -/
def denyAddOpts (i : Inet) : Arg → Args → Option Args
  | .force, a => some { a with force := true }
  | .pos s, a => prefix4Arg i s a
  | _, _ => none

/-- usr/argp/wargp/denylist4.c:106-132 `handle_denylist4_add`. -/
def denyAdd (i : Inet) (l : List Arg) : Option Ask :=
  match parse (denyAddOpts i) l with
  | none => none
  | some a => a.p4.map (fun p => .denyAdd p a.force)

/-- usr/argp/wargp/denylist4.c:149-158 `remove_opts`. -/
def denyRmOpts (i : Inet) : Arg → Args → Option Args
  | .pos s, a => prefix4Arg i s a
  | _, _ => none

/-- usr/argp/wargp/denylist4.c:160-186 `handle_denylist4_remove`. -/
def denyRm (i : Inet) (l : List Arg) : Option Ask :=
  match parse (denyRmOpts i) l with
  | none => none
  | some a => a.p4.map .denyRm

/-- usr/argp/wargp/pool4.c:220-247 `add_opts`. -/
def pool4AddOpts (i : Inet) : Arg → Args → Option Args
  | .tcp, a => setProto 0 a
  | .udp, a => setProto 1 a
  | .icmp, a => setProto 2 a
  | .mark s, a => markArg s a
  | .iters s, a => maxIterations s a
  | .force, a => some { a with force := true }
  | .pos s, a => pool4Arg i s a
  | .quick, _ => none

/-- usr/argp/wargp/pool4.c:249-287 `handle_pool4_add`. -/
def pool4Add (i : Inet) (l : List Arg) : Option Ask :=
  match parse (pool4AddOpts i) l with
  | none => none
  | some a =>
    match a.p4, a.range, a.proto with
    | some p, some r, some b =>
      if p.len < 24 && !a.force then none
      else some (.pool4Add ⟨a.mark, a.iters, a.flags, b, p, r.1, r.2⟩ a.force)
    | _, _, _ => none

/-- usr/argp/wargp/pool4.c:300-327 `remove_opts`. (The protocol's offset is that of `struct add_args`; both structures have the
same members before it.) -/
def pool4RmOpts (i : Inet) : Arg → Args → Option Args
  | .tcp, a => setProto 0 a
  | .udp, a => setProto 1 a
  | .icmp, a => setProto 2 a
  | .mark s, a => markArg s a
  | .quick, a => some { a with quick := true }
  | .pos s, a => pool4Arg i s a
  | _, _ => none

/-- usr/argp/wargp/pool4.c:329-360 `handle_pool4_remove`: all ports unless told otherwise; TCP unless told otherwise. -/
def pool4Rm (i : Inet) (l : List Arg) : Option Ask :=
  match parse (pool4RmOpts i) l with
  | none => none
  | some a =>
    a.p4.map (fun p =>
      .pool4Rm ⟨a.mark, a.iters, a.flags, a.proto.getD 0, p, (a.range.getD (0, 65535)).1, (a.range.getD (0, 65535)).2⟩ a.quick)

/-- usr/argp/wargp/bib.c:124-136 and :179-191 `add_opts`, `remove_opts`. -/
def bibOpts (i : Inet) : Arg → Args → Option Args
  | .tcp, a => setProto 0 a
  | .udp, a => setProto 1 a
  | .icmp, a => setProto 2 a
  | .pos s, a => taddr i s a
  | _, _ => none

/-- usr/argp/wargp/bib.c:138-167 `handle_bib_add`. -/
def bibAdd (i : Inet) (l : List Arg) : Option Ask :=
  match parse (bibOpts i) l with
  | none => none
  | some a =>
    match a.a6, a.a4 with
    | some t6, some t4 => some (.bibAdd t6 t4 (a.proto.getD 0))
    | _, _ => none

/-- usr/argp/wargp/bib.c:193-223 `handle_bib_remove`. -/
def bibRm (i : Inet) (l : List Arg) : Option Ask :=
  match parse (bibOpts i) l with
  | none => none
  | some a => if a.a6 = none ∧ a.a4 = none then none else some (.bibRm a.a6 a.a4 (a.proto.getD 0))

/-! ## usr/argp: listings -/

/-- src/common/types.c:21-35 `l4proto_to_string`. -/
def protoName (b : BitVec 8) : Text :=
  if b = 0 then "TCP".toList else if b = 1 then "UDP".toList else if b = 2 then "ICMP".toList else "unknown".toList

/-- usr/argp/wargp/eamt.c:28-48 `print_entry`, CSV: the fields of a line. -/
def eamtLine (i : Inet) (x : Eam.Entry) : List Text :=
  [i.ntop6 x.p6.addr ++ '/' :: dec x.p6.len, i.ntop4 x.p4.addr ++ '/' :: dec x.p4.len]

/-- usr/argp/wargp/denylist4.c:28-39 `print_entry`, CSV. -/
def denyLine (i : Inet) (p : Prefix4) : Text := i.ntop4 p.addr ++ '/' :: dec p.len

/-- usr/argp/wargp/pool4.c:44-59 `display_entry_csv`: the fields of a line. -/
def pool4Line (i : Inet) (w : WPool4) : List Text :=
  [dec w.mark.toNat, protoName w.proto,
   if w.pfx.len = 32 then i.ntop4 w.pfx.addr else i.ntop4 w.pfx.addr ++ '/' :: dec w.pfx.len,
   dec w.min.toNat, dec w.max.toNat,
   if w.flags &&& 4 ≠ 0 then "infinite".toList else dec w.iters.toNat,
   if w.flags &&& 2 ≠ 0 then "0".toList else "1".toList]

/-- usr/argp/wargp/bib.c:44-49 the transport addresses of `print_entry`, and usr/argp/dns.c:41-44, :79-81 the numeric printing of
`print_addr6` and `print_addr4`. -/
def bibLine (i : Inet) (a6 : T6) (a4 : T4) : List Text :=
  [i.ntop4 a4.addr ++ '#' :: dec a4.port.toNat, i.ntop6 a6.addr ++ '#' :: dec a6.port.toNat]

end Jool.Text
