import Verif.Model.Requests
/-
Responses: the text of the errors (`mod/error_pool.c`, `mod/log.c`), the messages that the module answers with (`mod/nl/nl_core.c`), what
the handlers do with the response's buffer and with the instance's reference, and what the client understands (`usr/nl/core.c`).
(`mod/` abbreviates `src/mod/common/`, `usr/` abbreviates `src/usr/`.)

Simplifications.
* Strings are the bytes before the NUL.
* Requests are handled one at a time (Generic Netlink's mutex: the family does not set `parallel_ops`); `log_err` from elsewhere is
  the argument `foreign`.
* `nl_recvmsgs_default` (libnl) delivers every message to the `NL_CB_MSG_IN` callback and stops with the callback's result if it is
  negative.
-/
namespace Jool.Resp
open Jool.Nla Jool.NlAttr Jool.Req
open Jool.JooldMsg (Byte be unbe)

/-! ### The text of the errors -/

/-- mod/error_pool.c:24-26: the static variables. -/
structure Pool where
  enabled : Bool
  size : Nat
  db : List (List Byte)
deriving DecidableEq, Repr, Inhabited

/-- mod/error_pool.c:28-31 `error_pool_setup`, and the initial values. -/
def setup : Pool := ⟨false, 0, []⟩

/-- mod/error_pool.c:50-54 `error_pool_activate`, called by mod/nl/nl_handler.c:31-36 `pre_handle_request`. -/
def activate (p : Pool) : Pool := { p with enabled := true, size := 0 }

/-- mod/error_pool.c:57-81 `error_pool_add_message`. `oom`: there is no memory for the node. -/
def add (p : Pool) (oom : Bool) (msg : List Byte) : Pool :=
  if !p.enabled then p
  else if oom then p
  else { p with size := p.size + msg.length, db := p.db ++ [msg] }

/-- One call of `log_err`: the formatted text, and what goes wrong. -/
structure Log where
  text : List Byte
  oomMsg : Bool
  oomNode : Bool
deriving DecidableEq, Repr, Inhabited

/-- mod/log.c:30-60 `log_err`, in process context. `vsnprintf` keeps 255 characters. -/
def logErr (p : Pool) (l : Log) : Pool :=
  if l.oomMsg then p else add p l.oomNode (l.text.take 255)

/-- mod/error_pool.c:102-113: `strcpy` of each message, into a buffer of `room` bytes. -/
def copy (room : Nat) : List (List Byte) → List Byte → Outcome (List Byte)
  | [], buf => if buf.length < room then .ok buf else .ub .outOfBounds
  | m :: r, buf => if buf.length + (m.length + 1) ≤ room then copy room r (buf ++ m) else .ub .outOfBounds

/-- mod/error_pool.c:86-119 `error_pool_get_message`. `oom`: no memory for the buffer. `foreign`: what other processors log after
the buffer was allocated and before it is filled. The result is the string, `none` if there is an error. -/
def getMessage (p : Pool) (oom : Bool) (foreign : List Log) : Outcome (Pool × Option (List Byte)) :=
  if !p.enabled then .ok (p, none)
  else if oom then .ok (p, none)
  else
    let room := p.size + 1
    let p1 := foreign.foldl logErr p
    (copy room p1.db []).map (fun s => ({ p1 with size := 0, db := [] }, some s))

/-- mod/error_pool.c:121-126 `error_pool_deactivate`, called by mod/nl/nl_handler.c:38-42 `post_handle_request`. -/
def deactivate (_ : Pool) : Pool := ⟨false, 0, []⟩

/-! ### The messages -/

/-- src/common/config.h:274 `JOOLNLHDR_FLAGS_ERROR`, 284 `JOOLNLHDR_FLAGS_M`. -/
def ERROR : BitVec 8 := 1
def MORE : BitVec 8 := 8

/-- mod/nl/nl_core.c:23-43 `jresponse_init`: the header is a copy of the request's; `set` are flags that are added later. -/
def rHdr (req : List Byte) (set : BitVec 8) : List Byte :=
  req.take 9 ++ [req.getD 9 0 ||| set] ++ (req.drop 10).take 18

/-- mod/nl/nl_core.c:106-109: the code of the response. -/
def codeOf (e : Int) : Nat := if e < 0 then e.natAbs else min e.toNat 65535

/-- mod/nl/nl_core.c:119-133: the attributes of an error. `text` is the buffer of `getMessage`, of `text.length + 1` bytes. -/
def errAttrs (cap : Nat) (code : Nat) (text : List Byte) : Outcome (Option (List Byte)) :=
  match putU16 cap 1 (BitVec.ofNat 16 code) [] with
  | none => .ok none
  | some b =>
    match put cap 2 (text ++ [0#8]) b with
    | some b => .ok (some b)
    | none =>
      if text.length < 128 then .ub .outOfBounds
      else .ok (put cap 2 (text.take 128 ++ [0#8]) b)

/-- mod/nl/nl_core.c:98-148 `jresponse_send_simple`: the bytes of the response (after the Generic Netlink header). -/
def simple (cap : Nat) (req : List Byte) (e : Int) (text : List Byte) : Outcome (Option (List Byte)) :=
  if codeOf e = 0 then .ok (some (rHdr req 0))
  else (errAttrs cap (codeOf e) text).map (fun o => o.map (fun b => rHdr req ERROR ++ b))

/-! ### The client -/

/-- src/usr/util/result.h:16-20 `struct jool_result`; `none` is success. -/
abbrev Result := Option (Int × List Byte)

/-- ASCII. -/
def str (s : String) : List Byte := s.toList.map (fun c => BitVec.ofNat 8 c.toNat)

/-- src/usr/util/result.c:21-43 `result_from_error` (with memory): `vsnprintf` keeps 1023 characters; code 0 is replaced. -/
def fail (code : Int) (msg : List Byte) : Result := some (if code = 0 then -22 else code, msg.take 1023)

/-- usr/nl/core.c:70-79, 81-99, 101-112, 114-132 `validate_magic`, `validate_version`, `validate_stateness`,
`validate_joolnlhdr`: which check fails. The texts of the last two are cut short. -/
def hdrOk (h : Hdr) (xt : BitVec 8) : Result :=
  if h.magic ≠ MAGIC then
    fail (-22) (str "Don't know what to do: The packet I just received does not follow Jool's protocol.")
  else if h.version &&& 0xffff0000#32 ≠ VERSION &&& 0xffff0000#32 then fail (-22) (str "Version mismatch.")
  else if h.xt &&& xt = 0 then fail (-22) (str "Packet is meant for other translators.")
  else none

/-- usr/nl/core.c:137-140 `error_policy`. (`NLA_STRING` without limit; attributes are shorter than 65536 bytes.) -/
def errPolicy : List Pol := [.u16, .name 65535]

/-- usr/nl/core.c:160, 168: the text. -/
def report (code : Nat) (msg : List Byte) : List Byte :=
  str "The kernel module returned error " ++ str (toString code) ++ str ": " ++ msg

/-- usr/nl/core.c:135-167 `joolnl_msg2result`. `strerror`: the library's texts. -/
def msg2result (strerror : Nat → List Byte) (body : List Byte) : Res Result :=
  match uParse errPolicy body with
  | .err _ => .ok (fail (-22) (str "Could not parse Jool's Netlink response"))
  | .ub u => .ub u
  | .ok tb =>
    match Nla.get tb 1 with
    | none => .ok (fail 22 (str "The kernel module returned an error packet, but it lacks an error code attribute."))
    | some c =>
      (getU16 (some c)).bind (fun code =>
        match Nla.get tb 2 with
        | none => .ok (fail code.toNat (report code.toNat (strerror code.toNat)))
        | some m => .ok (fail code.toNat (report code.toNat (cstr m.data))))

/-- usr/nl/core.c:176-212 `response_handler`: what is in `args->result`. `cb` reads what comes after the header; 7 is `NLE_MSG_TOOSHORT`. -/
def handler (strerror : Nat → List Byte) (xt : BitVec 8) (cb : Hdr → List Byte → Res Result) (msg : List Byte) : Res Result :=
  match decHdr msg with
  | none => .ok (fail (-7) (str "The kernel module's response is too small."))
  | some (h, body) =>
    match hdrOk h xt with
    | some e => .ok (some e)
    | none => if h.flags &&& ERROR ≠ 0 then msg2result strerror body else cb h body

/-- usr/nl/core.c:224-274 `joolnl_request`, once the message is on its way and one response came: lines 210-211 make the result
negative or zero for `nl_recvmsgs_default`, and 257-273 recover the result. -/
def received (r : Result) : Result :=
  let ret : Int := match r with
    | none => 0
    | some (e, _) => if e < 0 then e else -e
  if ret < 0 then
    match r with
    | some (e, m) => if e ≠ 0 then some (e, m) else fail ret (str "Error receiving the kernel module's response")
    | none => fail ret (str "Error receiving the kernel module's response")
  else none

/-- usr/nl/common.c:18-35 `joolnl_init_foreach`: whether the listing is complete. -/
def done (h : Hdr) : Bool := h.flags &&& MORE == 0

/-- The response to one of the requests of `Verif.Model.Requests`: every handler there ends in `jresponse_send_simple`. `errno`: the
numbers of the errors. If Generic Netlink refused the message, Jool does not answer. -/
def reply (errno : Code → Int) (cap : Nat) (req text : List Byte) : Answer → Outcome (Option (List Byte))
  | .kernel => .ok none
  | .done => simple cap req 0 text
  | .error c => simple cap req (errno c) text

/-! ### The handlers: buffers and references -/

/-- `response->skb`. -/
inductive Skb | null | live
deriving DecidableEq, Repr

/-- What was sent to the client. -/
inductive Reply
  | ack
  | error (code : Nat)
  | data (more : Bool)
deriving DecidableEq, Repr

/-- `skb`: the variable `response.skb`; `buffers`: how many buffers are allocated; `refs`: references to the instance that the handler
holds; `arrays`: the arrays of `jstat_query`. -/
structure St where
  skb : Skb
  buffers : Nat
  refs : Nat
  arrays : Nat
  sent : List Reply
deriving DecidableEq, Repr

def St.init : St := ⟨.null, 0, 0, 0, []⟩

/-- What fails in one call of `jresponse_send_simple`: buffer of the text, response, attributes, delivery. -/
structure Mem where
  text : Bool
  init : Bool
  put : Bool
  reply : Bool
deriving DecidableEq, Repr, Inhabited

/-- mod/nl/nl_core.c:98-148: 111-113 the text; 115-117 `jresponse_init`; 122-131 no room; 140 `jresponse_send` (which consumes the
buffer, whether it succeeds or not); 144 `jresponse_cleanup`. Its own response is balanced. The result is the returned error. -/
def sendSimple (m : Mem) (e : Int) (s : St) : St × Int :=
  if m.text then (s, -12)
  else if m.init then (s, -12)
  else if codeOf e ≠ 0 ∧ m.put then (s, -90)
  else if m.reply then (s, -111)
  else ({ s with sent := s.sent ++ [if codeOf e = 0 then .ack else .error (codeOf e)] }, 0)

/-- mod/nl/nl_core.c:23-43 `jresponse_init`. If `genlmsg_put` fails, the buffer is freed but the variable keeps pointing at it; the callers
do not look at it again. -/
def rInit (ok : Bool) (s : St) : St × Int :=
  if ok then ({ s with skb := .live, buffers := s.buffers + 1 }, 0) else (s, -12)

/-- mod/nl/nl_core.c:60-64 `jresponse_cleanup`: `kfree_skb(NULL)` does nothing. -/
def cleanup (s : St) : St :=
  match s.skb with
  | .null => s
  | .live => { s with skb := .null, buffers := s.buffers - 1 }

/-- mod/nl/nl_core.c:46-58 `jresponse_send`: `genlmsg_reply` consumes the buffer. A NULL buffer would be dereferenced. -/
def rSend (fails more : Bool) (s : St) : Outcome (St × Int) :=
  match s.skb with
  | .null => .ub .nullDeref
  | .live =>
    let s1 := { s with skb := .null, buffers := s.buffers - 1 }
    .ok (if fails then (s1, -111) else ({ s1 with sent := s1.sent ++ [.data more] }, 0))

/-- mod/nl/nl_core.c:71-96 `jresponse_send_array`. `empty`: nothing was written; 84 reads the buffer. -/
def sendArray (m : Mem) (fails empty : Bool) (e : Int) (s : St) : Outcome (St × Int) :=
  if e < 0 then .ok (cleanup s, e)
  else if e > 0 then
    match s.skb with
    | .null => .ub .nullDeref
    | .live =>
      if empty then
        let r := sendSimple m (-22) s
        .ok (cleanup r.1, r.2)
      else rSend fails true s
  else rSend fails false s

/-- What happens around a request that lists: `start` (0 or the error of `request_handle_start`), whether the response can be
allocated, the error of the offset, the result of the iteration, whether it wrote something, what fails afterwards. -/
structure Ev where
  start : Int
  init : Bool
  offset : Int
  result : Int
  empty : Bool
  fails : Bool
  m1 : Mem
  m2 : Mem
deriving Repr

/-- `xlator_put` in `request_handle_end` (mod/nl/nl_common.c:119-123). -/
def endReq (s : St) : St := { s with refs := s.refs - 1 }

/-- From `revert_start` on. -/
def revert (m : Mem) (e : Int) (s : St) : St × Int :=
  let r := sendSimple m e s
  (endReq r.1, r.2)

/-- mod/nl/eam.c:16-64 `handle_eamt_foreach` (`twice`: it cleans up before `revert_response` does it again),
mod/nl/denylist4.c:16-60, mod/nl/pool4.c:16-74, mod/nl/bib.c:16-64, mod/nl/session.c:41-95, mod/nl/global.c:17-56. -/
def foreach (twice : Bool) (v : Ev) : Outcome (St × Int) :=
  let s := St.init
  if v.start ≠ 0 then .ok (sendSimple v.m2 v.start s)
  else
    let s := { s with refs := 1 }
    let r := rInit v.init s
    if r.2 ≠ 0 then .ok (revert v.m2 r.2 r.1)
    else
      let s := r.1
      if v.offset ≠ 0 then .ok (revert v.m2 v.offset (cleanup s))
      else if twice ∧ v.result < 0 then .ok (revert v.m2 v.result (cleanup (cleanup s)))
      else
        (sendArray v.m1 v.fails v.empty v.result s).bind (fun r =>
          if r.2 ≠ 0 then .ok (revert v.m2 r.2 (cleanup r.1))
          else .ok (endReq r.1, 0))

/-- mod/nl/instance.c:59-99 `handle_instance_foreach`: no reference to an instance. -/
def instForeach (v : Ev) : Outcome (St × Int) :=
  let s := St.init
  if v.start ≠ 0 then .ok (sendSimple v.m2 v.start s)
  else if v.offset ≠ 0 then .ok (sendSimple v.m2 v.offset s)
  else
    let r := rInit v.init s
    if r.2 ≠ 0 then .ok (sendSimple v.m2 r.2 r.1)
    else
      (sendArray v.m1 v.fails v.empty v.result r.1).bind (fun r =>
        if r.2 ≠ 0 then .ok (sendSimple v.m2 r.2 r.1) else .ok (r.1, 0))

/-- mod/nl/address.c:34-85, 87-138 `handle_address_query64`, `handle_address_query46`: `offset` is the error of the request and of the
translation; `result` that of the attributes. -/
def query (v : Ev) : Outcome (St × Int) :=
  let s := St.init
  if v.start ≠ 0 then .ok (sendSimple v.m2 v.start s)
  else
    let s := { s with refs := 1 }
    if v.offset ≠ 0 then .ok (revert v.m2 v.offset s)
    else
      let r := rInit v.init s
      if r.2 ≠ 0 then .ok (revert v.m2 r.2 r.1)
      else if v.result ≠ 0 then .ok (revert v.m2 v.result (cleanup r.1))
      else rSend v.fails false (endReq r.1)

/-- mod/nl/stats.c:9-69 `handle_stats_foreach`: `offset` is nonzero if `jstat_query` fails; `result` is the error of the attribute that did not
fit, `empty` whether it was the first one. -/
def stats (v : Ev) : Outcome (St × Int) :=
  let s := St.init
  if v.start ≠ 0 then .ok (sendSimple v.m2 v.start s)
  else
    let s := { s with refs := 1 }
    if v.offset ≠ 0 then .ok (revert v.m2 (-12) s)
    else
      let s := { s with arrays := 1 }
      let r := rInit v.init s
      if r.2 ≠ 0 then .ok (revert v.m2 r.2 { r.1 with arrays := r.1.arrays - 1 })
      else if v.result ≠ 0 ∧ v.empty then
        let s := cleanup r.1
        .ok (revert v.m2 v.result { s with arrays := s.arrays - 1 })
      else rSend v.fails (v.result != 0) (endReq { r.1 with arrays := r.1.arrays - 1 })

/-- mod/nl/instance.c:153-195 `handle_instance_hello`: `result` is that of `xlator_find_current` (0, -3 `ESRCH`, or another), `empty` whether the
attribute does not fit. -/
def hello (v : Ev) : Outcome (St × Int) :=
  let s := St.init
  if v.start ≠ 0 then .ok (sendSimple v.m2 v.start s)
  else
    let r := rInit v.init s
    if r.2 ≠ 0 then .ok (sendSimple v.m2 r.2 r.1)
    else if v.result = 0 ∨ v.result = -3 then
      if v.empty then .ok (sendSimple v.m2 (-90) r.1) else rSend v.fails false r.1
    else .ok (sendSimple v.m2 (-22) r.1)

/-- The handlers of additions, removals and flushes of mod/nl/{eam,denylist4,pool4,bib}.c, mod/nl/global.c:58-135 and
mod/nl/joold.c:36-52: `result` is that of the operation. -/
def update (v : Ev) : Outcome (St × Int) :=
  let s := St.init
  if v.start ≠ 0 then .ok (sendSimple v.m2 v.start s)
  else .ok (revert v.m2 v.result { s with refs := 1 })

/-- mod/nl/instance.c:101-151 `handle_instance_add`: `offset` is the error of `jnla_parse_nested`, which line 127 returns. `result`: the rest. -/
def instAdd (v : Ev) : Outcome (St × Int) :=
  let s := St.init
  if v.start ≠ 0 then .ok (sendSimple v.m2 v.start s)
  else if v.offset ≠ 0 then .ok (s, v.offset)
  else .ok (sendSimple v.m2 v.result s)

end Jool.Resp
