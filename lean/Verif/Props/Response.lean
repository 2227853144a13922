import Verif.Model.Response
import Verif.Props.Requests
/-
C70: every request is answered, once, and the client understands the answer: success, or the code and the text of the error; the text
consists of the messages of this request. The handlers give back what they took.
-/
namespace Jool.Resp
open Jool.Nla Jool.NlAttr Jool.Req
open Jool.JooldMsg (Byte be unbe)

/-! ## The text -/

/-- What happens during a request: messages, and the moment in which the response is written. -/
inductive Act
  | log (l : Log)
  | get (oom : Bool)
deriving DecidableEq, Repr

/-- The life of the module: messages outside of requests, and requests. -/
inductive Item
  | outside (l : Log)
  | request (as : List Act)
deriving DecidableEq, Repr

def act1 (s : Pool × List (Option (List Byte))) : Act → Outcome (Pool × List (Option (List Byte)))
  | .log l => .ok (logErr s.1 l, s.2)
  | .get oom => (getMessage s.1 oom []).map (fun r => (r.1, s.2 ++ [r.2]))

def acts : List Act → Pool × List (Option (List Byte)) → Outcome (Pool × List (Option (List Byte)))
  | [], s => .ok s
  | a :: r, s => (act1 s a).bind (acts r)

def item (s : Pool × List (Option (List Byte))) : Item → Outcome (Pool × List (Option (List Byte)))
  | .outside l => .ok (logErr s.1 l, s.2)
  | .request as => (acts as (activate s.1, s.2)).map (fun r => (deactivate r.1, r.2))

def items : List Item → Pool × List (Option (List Byte)) → Outcome (Pool × List (Option (List Byte)))
  | [], s => .ok s
  | a :: r, s => (item s a).bind (items r)

/-- Specification: the bytes of one message that reach the client. -/
def stored (l : Log) : List Byte := if l.oomMsg || l.oomNode then [] else l.text.take 255

/-- Specification: the texts of a request; each response has the messages since the previous one. -/
def texts : List Byte → List Act → List (Option (List Byte))
  | _, [] => []
  | acc, .log l :: r => texts (acc ++ stored l) r
  | acc, .get oom :: r => if oom then none :: texts acc r else some acc :: texts [] r

/-- Specification: the texts of a history. -/
def allTexts : List Item → List (Option (List Byte))
  | [] => []
  | .outside _ :: r => allTexts r
  | .request as :: r => texts [] as ++ allTexts r

/-- Between requests. -/
def Idle (p : Pool) : Prop := p.enabled = false ∧ p.size = 0 ∧ p.db = []

/-- During a request, `acc` having been logged. -/
def Busy (p : Pool) (acc : List Byte) : Prop := p.enabled = true ∧ p.db.flatten = acc ∧ p.size = acc.length

theorem logErr_idle {p : Pool} (h : Idle p) (l : Log) : logErr p l = p := by
  unfold logErr add; simp [h.1]

theorem logErr_busy {p : Pool} {acc : List Byte} (h : Busy p acc) (l : Log) : Busy (logErr p l) (acc ++ stored l) := by
  obtain ⟨h1, h2, h3⟩ := h
  unfold logErr add stored
  cases l.oomMsg <;> cases l.oomNode <;> simp [h1, h2, h3, Busy]

theorem logs_busy (ls : List Log) : ∀ {p : Pool} {acc : List Byte}, Busy p acc →
    Busy (ls.foldl logErr p) (acc ++ ls.flatMap stored) := by
  induction ls with
  | nil => intro p acc h; simpa using h
  | cons l r ih =>
    intro p acc h
    have := ih (logErr_busy h l)
    simpa [List.append_assoc] using this

/-- `strcpy` of all messages fits exactly if they are not longer than the buffer. -/
theorem copy_eq (room : Nat) (ms : List (List Byte)) : ∀ buf, buf.length < room →
    copy room ms buf = if (buf ++ ms.flatten).length < room then .ok (buf ++ ms.flatten) else .ub .outOfBounds := by
  induction ms with
  | nil => intro buf h; simp [copy]
  | cons m r ih =>
    intro buf h
    unfold copy
    split
    · rename_i hm
      rw [ih _ (by simp; omega)]
      simp [List.append_assoc]
    · rename_i hm
      rw [if_neg (by simp; omega)]

/-- **The buffer of the text.** It has room for the messages of the request. It is overrun if, and only if, something else is logged after it was
allocated. -/
theorem getMessage_eq {p : Pool} {acc : List Byte} (h : Busy p acc) (foreign : List Log) :
    getMessage p false foreign
      = if foreign.flatMap stored = [] then .ok (⟨true, 0, []⟩, some acc) else .ub .outOfBounds := by
  have hb := logs_busy foreign h
  unfold getMessage
  simp only [h.1, Bool.not_true, Bool.false_eq_true, if_false]
  rw [copy_eq _ _ _ (by simp)]
  rw [List.nil_append, hb.2.1, h.2.2]
  by_cases hf : foreign.flatMap stored = []
  · rw [if_pos hf, hf]
    have hbt : (List.foldl logErr p foreign).enabled = true := hb.1
    simp [Outcome.map, hbt]
  · have : 0 < (foreign.flatMap stored).length := List.length_pos_iff.2 hf
    rw [if_neg hf, if_neg (by rw [List.length_append]; omega)]
    rfl

/-- While a request is answered, a rule of iptables with the name of an instance that does not exist is checked (`log_err`, on another processor): the buffer
is overrun. -/
theorem pool_overrun : ∃ (p : Pool) (l : Log), Busy p (List.replicate 10 65) ∧ getMessage p false [l] = .ub .outOfBounds :=
  ⟨logErr (activate setup) ⟨List.replicate 10 65, false, false⟩, ⟨[66], false, false⟩, by refine ⟨?_, ?_, ?_⟩ <;> decide, by decide⟩

theorem acts_eq (as : List Act) : ∀ (p : Pool) (acc : List Byte) (out : List (Option (List Byte))), Busy p acc →
    ∃ p', acts as (p, out) = .ok (p', out ++ texts acc as) := by
  induction as with
  | nil => intro p acc out _; exact ⟨p, by simp [acts, texts]⟩
  | cons a r ih =>
    intro p acc out h
    cases a with
    | log l =>
      obtain ⟨p', h'⟩ := ih (logErr p l) (acc ++ stored l) out (logErr_busy h l)
      exact ⟨p', by simpa [acts, act1, Outcome.bind, texts] using h'⟩
    | get oom =>
      cases oom with
      | true =>
        obtain ⟨p', h'⟩ := ih p acc (out ++ [none]) h
        refine ⟨p', ?_⟩
        have : getMessage p true [] = .ok (p, none) := by unfold getMessage; simp [h.1]
        simp [acts, act1, this, Outcome.map, Outcome.bind, texts, h']
      | false =>
        have hb : Busy (⟨true, 0, []⟩ : Pool) [] := ⟨rfl, rfl, rfl⟩
        obtain ⟨p', h'⟩ := ih ⟨true, 0, []⟩ [] (out ++ [some acc]) hb
        refine ⟨p', ?_⟩
        have : getMessage p false [] = .ok (⟨true, 0, []⟩, some acc) := by rw [getMessage_eq h]; simp
        simp [acts, act1, this, Outcome.map, Outcome.bind, texts, h']

/-- **The texts.** Whatever was logged before, between and during the requests: the texts of the responses of a request are the messages of
this request, in order, each cut at 255 characters; no buffer is overrun. -/
theorem texts_exact (is : List Item) : ∀ (p : Pool) (out : List (Option (List Byte))), Idle p →
    ∃ p', Idle p' ∧ items is (p, out) = .ok (p', out ++ allTexts is) := by
  induction is with
  | nil => intro p out h; exact ⟨p, h, by simp [items, allTexts]⟩
  | cons i r ih =>
    intro p out h
    cases i with
    | outside l =>
      obtain ⟨p', h1, h2⟩ := ih p out h
      exact ⟨p', h1, by simpa [items, item, Outcome.bind, allTexts, logErr_idle h] using h2⟩
    | request as =>
      have hb : Busy (activate p) [] := ⟨rfl, by simp [activate, h.2.2], by simp [activate]⟩
      obtain ⟨q, hq⟩ := acts_eq as (activate p) [] out hb
      obtain ⟨p', h1, h2⟩ := ih (deactivate q) (out ++ texts [] as) ⟨rfl, rfl, rfl⟩
      exact ⟨p', h1, by simp [items, item, hq, Outcome.map, Outcome.bind, allTexts, h2]⟩

/-- From the start of the module. -/
theorem texts_exact_setup (is : List Item) : ∃ p', Idle p' ∧ items is (setup, []) = .ok (p', allTexts is) := by
  simpa using texts_exact is setup [] ⟨rfl, rfl, rfl⟩

/-- Two requests with messages, something logged between them. -/
example : allTexts [.request [.log ⟨[1], false, false⟩, .log ⟨[2, 3], false, false⟩, .get false], .outside ⟨[9], false, false⟩,
    .request [.get false]] = [some [1, 2, 3], some []] := by decide

/-! ## The answer -/

theorem codeOf_zero (e : Int) : codeOf e = 0 ↔ e = 0 := by unfold codeOf; split <;> omega

/-- For the negative codes of the kernel, and the positive ones of some of its functions. -/
theorem codeOf_abs {e : Int} (h : e.natAbs ≤ 65535) : codeOf e = e.natAbs := by unfold codeOf; split <;> omega

/-- The header of the response, as the client reads it. -/
theorem decHdr_rHdr {req : List Byte} {h : Hdr} {b0 : List Byte} (hd : decHdr req = some (h, b0)) (set : BitVec 8) (body : List Byte) :
    decHdr (rHdr req set ++ body) = some ({ h with flags := h.flags ||| set }, body) := by
  unfold decHdr HDRLEN at hd
  split at hd
  · cases hd
  · rename_i hlen
    simp only [Option.some.injEq, Prod.mk.injEq] at hd
    obtain ⟨rfl, -⟩ := hd
    match req, hlen with
    | [], hlen | [_], hlen | [_, _], hlen | [_, _, _], hlen | [_, _, _, _], hlen | [_, _, _, _, _], hlen
    | [_, _, _, _, _, _], hlen | [_, _, _, _, _, _, _], hlen | [_, _, _, _, _, _, _, _], hlen
    | [_, _, _, _, _, _, _, _, _], hlen | [_, _, _, _, _, _, _, _, _, _], hlen
    | [_, _, _, _, _, _, _, _, _, _, _], hlen => simp at hlen
    | a0 :: a1 :: a2 :: a3 :: a4 :: a5 :: a6 :: a7 :: a8 :: a9 :: a10 :: a11 :: r, hlen =>
      have hr : 16 ≤ r.length := by simp at hlen; omega
      have e1 : rHdr (a0 :: a1 :: a2 :: a3 :: a4 :: a5 :: a6 :: a7 :: a8 :: a9 :: a10 :: a11 :: r) set
          = a0 :: a1 :: a2 :: a3 :: a4 :: a5 :: a6 :: a7 :: a8 :: (a9 ||| set) :: a10 :: a11 :: r.take 16 := by
        simp [rHdr]
      rw [e1]
      have l16 : (r.take 16).length = 16 := by simp; omega
      unfold decHdr HDRLEN
      rw [if_neg (by simp; omega)]
      simp [List.drop_append, l16]

/-- The bytes of the two attributes. -/
theorem cstr_of_noNul {t : List Byte} (h : 0#8 ∉ t) : cstr (t ++ [0#8]) = t := by
  induction t with
  | nil => simp [cstr]
  | cons b r ih =>
    simp only [List.mem_cons, not_or] at h
    rw [List.cons_append, cstr_cons, if_neg (fun hb => h.1 hb.symm), ih h.2]

/-- The text that arrives: all of it, or if it does not fit, the first 128 characters. -/
def sentText (cap : Nat) (text : List Byte) : List Byte := if 8 + align (5 + text.length) ≤ cap then text else text.take 128

/-- The two attributes of an error. -/
def errBytes (code : Nat) (t : List Byte) : List Byte := [⟨1, false, le 2 code⟩, ⟨2, false, t ++ [0#8]⟩].flatMap enc

theorem errAttrs_eq (cap code : Nat) (text : List Byte) (hcap : 144 ≤ cap) (hcode : code < 65536) :
    errAttrs cap code text = .ok (some (errBytes code (sentText cap text))) := by
  have e1 : (BitVec.ofNat 16 code).toNat = code := by simp; omega
  have l1 : (enc ⟨1, false, le 2 code⟩).length = 8 := by rw [enc_length]; simp [le_length, align]
  have p1 : putU16 cap 1 (BitVec.ofNat 16 code) [] = some (enc ⟨1, false, le 2 code⟩) := by
    unfold putU16 put
    rw [e1, if_pos (by simp [le_length, align]; omega)]
    rfl
  have p2 : ∀ t : List Byte, put cap 2 (t ++ [0#8]) (enc ⟨1, false, le 2 code⟩)
      = if 8 + align (5 + t.length) ≤ cap then some (errBytes code t) else none := by
    intro t
    unfold put errBytes
    have : 4 + (t ++ [0#8]).length = 5 + t.length := by simp; omega
    rw [l1, this]
    simp
  unfold errAttrs sentText
  rw [p1]
  dsimp only
  rw [p2]
  by_cases hn : 8 + align (5 + text.length) ≤ cap
  · simp [hn]
  · have hlt : ¬ text.length < 128 := by
      intro hlt
      apply hn
      unfold align; omega
    simp only [hn, if_false]
    rw [if_neg hlt, p2, if_pos (by simp [align]; omega)]

/-- The client reads the code and the text that the module wrote. -/
theorem msg2result_eq (strerror : Nat → List Byte) {code : Nat} {t : List Byte} (h1 : 1 ≤ code) (h2 : code < 65536) (hn : 0#8 ∉ t)
    (hl : t.length + 5 < 65536) : msg2result strerror (errBytes code t) = .ok (some ((code : Int), (report code t).take 1023)) := by
  have hs : ∀ a ∈ ([⟨1, false, le 2 code⟩, ⟨2, false, t ++ [0#8]⟩] : List Attr), Small a := by
    intro a ha
    simp only [List.mem_cons, List.not_mem_nil, or_false] at ha
    rcases ha with rfl | rfl
    · exact ⟨by simp, by simp [le_length]⟩
    · exact ⟨by simp, by simp; omega⟩
  have hp : uParse errPolicy (errBytes code t) = .ok [⟨1, false, le 2 code⟩, ⟨2, false, t ++ [0#8]⟩] := by
    unfold errBytes
    apply uParse_encs _ _ hs
    rw [List.all_eq_true]
    intro a ha
    simp only [List.mem_cons, List.not_mem_nil, or_false] at ha
    rcases ha with rfl | rfl
    · simp [uAccepts, polOf, errPolicy, uValid, le_length]
    · simp [uAccepts, polOf, errPolicy, uValid]; omega
  unfold msg2result
  rw [hp]
  have g1 : Nla.get [⟨1, false, le 2 code⟩, ⟨2, false, t ++ [0#8]⟩] 1 = some ⟨1, false, le 2 code⟩ := by simp [Nla.get]
  have g2 : Nla.get [⟨1, false, le 2 code⟩, ⟨2, false, t ++ [0#8]⟩] 2 = some ⟨2, false, t ++ [0#8]⟩ := by simp [Nla.get]
  have g3 : getU16 (some ⟨1, false, le 2 code⟩) = .ok (BitVec.ofNat 16 code) := by
    unfold getU16 payload
    have : (le 2 code).take 2 = le 2 code := List.take_of_length_le (by rw [le_length])
    simp only [le_length, Nat.le_refl, if_true, ok_bind, this, unle_le]
    rw [show code % 256 ^ 2 = code by omega]
  have e1 : (BitVec.ofNat 16 code).toNat = code := by simp; omega
  dsimp only
  rw [g1]
  dsimp only
  rw [g3, ok_bind, g2]
  dsimp only
  rw [e1, cstr_of_noNul hn]
  unfold fail
  rw [if_neg (by omega)]

/-- The header of a client of type `xt` (1: SIIT, 2: NAT64). -/
def Mine (h : Hdr) (xt : BitVec 8) : Prop :=
  h.magic = MAGIC ∧ h.version = VERSION ∧ h.xt &&& xt ≠ 0 ∧ h.flags &&& (ERROR ||| MORE) = 0

theorem flags_error {f : BitVec 8} (h : f &&& (ERROR ||| MORE) = 0) :
    (f ||| 0) &&& ERROR = 0 ∧ (f ||| ERROR) &&& ERROR ≠ 0 ∧ (f ||| MORE) &&& ERROR = 0
      ∧ (f ||| 0) &&& MORE = 0 ∧ (f ||| MORE) &&& MORE ≠ 0 := by
  revert f
  decide +kernel

theorem hdrOk_mine {h : Hdr} {xt : BitVec 8} (hm : Mine h xt) (fl : BitVec 8) : hdrOk { h with flags := fl } xt = none := by
  obtain ⟨h1, h2, h3, _⟩ := hm
  unfold hdrOk
  simp only [h1, h2]
  rw [if_neg (by simp), if_neg (by simp), if_neg h3]

/-- **The client learns of an error.** Any code up to 65535 and any text: the client gets the code, without sign, and the text. -/
theorem error_arrives (strerror : Nat → List Byte) (cb : Hdr → List Byte → Res Result) {req : List Byte} {h : Hdr} {b0 : List Byte}
    (hd : decHdr req = some (h, b0)) {xt : BitVec 8} (hm : Mine h xt) {e : Int} (he : e ≠ 0) (he' : e.natAbs ≤ 65535) {text : List Byte}
    (hn : 0#8 ∉ text) {cap : Nat} (hcap : 144 ≤ cap) (hcap' : cap < 65536) :
    ∃ b r, simple cap req e text = .ok (some b) ∧ handler strerror xt cb b = .ok r
      ∧ received r = some ((e.natAbs : Int), (report e.natAbs (sentText cap text)).take 1023) := by
  have hc := codeOf_abs he'
  have hc0 : codeOf e ≠ 0 := by rw [Ne, codeOf_zero]; exact he
  have hpos : 1 ≤ e.natAbs := by omega
  have hn' : 0#8 ∉ sentText cap text := by
    unfold sentText; split
    · exact hn
    · exact fun hx => hn (List.mem_of_mem_take hx)
  have hl' : (sentText cap text).length + 5 < 65536 := by
    unfold sentText; split
    · rename_i hx; unfold align at hx; omega
    · simp; omega
  refine ⟨rHdr req ERROR ++ errBytes e.natAbs (sentText cap text), some ((e.natAbs : Int), (report e.natAbs (sentText cap text)).take 1023), ?_, ?_, ?_⟩
  · unfold simple
    rw [if_neg hc0, hc, errAttrs_eq cap _ _ hcap (by omega)]
    rfl
  · unfold handler
    rw [decHdr_rHdr hd]
    dsimp only
    rw [hdrOk_mine hm]
    dsimp only
    rw [if_pos (flags_error hm.2.2.2).2.1, msg2result_eq _ hpos (by omega) hn' hl']
  · generalize e.natAbs = n at hpos ⊢
    unfold received
    dsimp only
    rw [if_neg (show ¬ (n : Int) < 0 by omega), if_pos (show -(n : Int) < 0 by omega), if_pos (show (n : Int) ≠ 0 by omega)]

/-- **The client learns of success.** -/
theorem success_arrives (strerror : Nat → List Byte) (cb : Hdr → List Byte → Res Result) {req : List Byte} {h : Hdr} {b0 : List Byte}
    (hd : decHdr req = some (h, b0)) {xt : BitVec 8} (hm : Mine h xt) (text : List Byte) (cap : Nat) :
    ∃ b, simple cap req 0 text = .ok (some b) ∧ handler strerror xt cb b = cb h [] := by
  refine ⟨rHdr req 0, by simp [simple, codeOf], ?_⟩
  have := decHdr_rHdr hd 0 []
  rw [List.append_nil] at this
  unfold handler
  rw [this]
  dsimp only
  rw [hdrOk_mine hm]
  dsimp only
  rw [if_neg (by simpa using (flags_error hm.2.2.2).1)]
  simp

/-- **Pages.** The client that asked for a page reads the attributes of the response, and learns whether there is more. -/
theorem page_arrives (strerror : Nat → List Byte) (cb : Hdr → List Byte → Res Result) {req : List Byte} {h : Hdr} {b0 : List Byte}
    (hd : decHdr req = some (h, b0)) {xt : BitVec 8} (hm : Mine h xt) (more : Bool) (body : List Byte) :
    ∃ h', handler strerror xt cb (rHdr req (if more then MORE else 0) ++ body) = cb h' body ∧ done h' = !more := by
  refine ⟨{ h with flags := h.flags ||| (if more then MORE else 0) }, ?_, ?_⟩
  · unfold handler
    rw [decHdr_rHdr hd]
    dsimp only
    rw [hdrOk_mine hm]
    dsimp only
    rw [if_neg]
    cases more
    · simpa using (flags_error hm.2.2.2).1
    · simpa using (flags_error hm.2.2.2).2.2.1
  · unfold done
    cases more
    · simpa using (flags_error hm.2.2.2).2.2.2.1
    · simpa using (flags_error hm.2.2.2).2.2.2.2

/-- The header of every request of the library is `Mine`. -/
theorem ask_mine {a : Ask} {cap : Nat} {xt : BitVec 8} {iname : Option (List Byte)} {msg : List Byte} (hxt : xt ≠ 0)
    (h : a.msg cap xt iname = some msg) : ∃ hd b, decHdr msg = some (hd, b) ∧ Mine hd xt := by
  unfold Ask.msg uMsg at h
  cases hh : uHdr xt iname a.flags with
  | none => rw [hh] at h; cases h
  | some x =>
    rw [hh] at h
    cases hb : a.writer cap [] with
    | none => simp [hb] at h
    | some body =>
      simp only [Option.bind_some, hb, Option.map_some, Option.some.injEq] at h
      obtain ⟨hd, h1, h2, h3, h4, h5, -, -⟩ := decHdr_uHdr (body := body) hh
      refine ⟨hd, body, by rw [← h]; exact h1, h2, h3, ?_, ?_⟩
      · rw [h4]; simpa using hxt
      · rw [h5]
        cases a <;> simp only [Ask.flags] <;> (try split) <;> decide

/-- Specification: what the library reports to its user. -/
def told (errno : Code → Int) (cap : Nat) (text : List Byte) : Answer → Result
  | .error c => some (-errno c, (report (errno c).natAbs (sentText cap text)).take 1023)
  | _ => none

/-- The exchange after the handler: the response is written, arrives, and means `told`. -/
def Told (strerror : Nat → List Byte) (errno : Code → Int) (cap : Nat) (xt : BitVec 8) (msg text : List Byte) (ans : Answer) : Prop :=
  ∃ b r, reply errno cap msg text ans = .ok (some b) ∧ handler strerror xt (fun _ _ => .ok none) b = .ok r
    ∧ received r = told errno cap text ans

theorem reply_arrives (strerror : Nat → List Byte) {a : Ask} {cap cap' : Nat} {xt : BitVec 8} {iname : Option (List Byte)}
    {msg text : List Byte} {ans : Answer} {errno : Code → Int} (hxt : xt ≠ 0) (hmsg : a.msg cap xt iname = some msg) (hk : ans ≠ .kernel)
    (herr : ∀ c, -4095 ≤ errno c ∧ errno c < 0) (hn : 0#8 ∉ text) (hcap : 144 ≤ cap') (hcap' : cap' < 65536) :
    Told strerror errno cap' xt msg text ans := by
  obtain ⟨hd, b0, h1, hm⟩ := ask_mine hxt hmsg
  cases ans with
  | kernel => exact absurd rfl hk
  | done =>
    obtain ⟨b, h2, h3⟩ := success_arrives strerror (fun _ _ => .ok none) h1 hm text cap'
    exact ⟨b, none, h2, h3, rfl⟩
  | error c =>
    have := herr c
    obtain ⟨b, r, h2, h3, h4⟩ := error_arrives strerror (fun _ _ => .ok none) h1 hm (e := errno c) (by omega) (by omega) hn hcap hcap'
    refine ⟨b, r, h2, h3, ?_⟩
    rw [h4]
    have : ((errno c).natAbs : Int) = -errno c := by omega
    rw [this]
    rfl

theorem ofEam_ne (c : Rtrie.Code) : ofEam c ≠ .kernel := by unfold ofEam; split <;> simp
theorem ofDeny_ne (c : Option Denylist4.Err) : ofDeny c ≠ .kernel := by unfold ofDeny; split <;> simp
theorem ofPool4_ne (c : Bool) : ofPool4 c ≠ .kernel := by unfold ofPool4; split <;> simp
theorem ofBib_ne (c : Bib.Result) : ofBib c ≠ .kernel := by unfold ofBib; split <;> simp

theorem map_ok {α β} {o : Outcome α} {f : α → β} {y : β} (h : o.map f = .ok y) : ∃ x, o = .ok x ∧ f x = y := by
  cases o with
  | ok x => exact ⟨x, rfl, by simpa [Outcome.map] using h⟩
  | ub u => simp [Outcome.map] at h

theorem obind_ok {α β} {o : Outcome α} {f : α → Outcome β} {y : β} (h : o.bind f = .ok y) : ∃ x, o = .ok x ∧ f x = .ok y := by
  cases o with
  | ok x => exact ⟨x, rfl, h⟩
  | ub u => simp [Outcome.bind] at h

theorem askedS_ne {e : Env} {s s' : Siit} {a : Ask} {ans : Answer} (hok : SiitOk a) (h : askedS e s a = .ok (s', ans)) : ans ≠ .kernel := by
  cases a <;> simp only [SiitOk] at hok <;> simp only [askedS] at h
  · obtain ⟨x, -, hx⟩ := map_ok h; cases hx; exact ofEam_ne _
  · obtain ⟨x, -, hx⟩ := map_ok h; cases hx; exact ofEam_ne _
  · cases h; simp
  · cases h; exact ofDeny_ne _
  · cases h; exact ofDeny_ne _
  · cases h; exact ofDeny_ne _

theorem askedN_ne {e : Env} {s s' : Nat64} {ev : Events} {a : Ask} {ans : Answer} (hok : Nat64Ok a)
    (h : askedN e s a = .ok (s', ev, ans)) : ans ≠ .kernel := by
  cases a with
  | pool4Add x f =>
    simp only [askedN] at h
    split at h
    · cases h; simp
    · obtain ⟨x, -, hx⟩ := map_ok h; cases hx; exact ofPool4_ne _
  | pool4Rm x q =>
    cases q
    · simp only [askedN] at h
      split at h
      · cases h; simp
      · obtain ⟨x, -, hx⟩ := obind_ok h
        obtain ⟨y, -, hy⟩ := map_ok hx
        cases hy; exact ofPool4_ne _
    · simp only [askedN] at h
      split at h
      · cases h; simp
      · obtain ⟨x, -, hx⟩ := map_ok h; cases hx; exact ofPool4_ne _
  | pool4Flush q =>
    cases q
    · simp only [askedN] at h
      obtain ⟨x, -, hx⟩ := map_ok h; cases hx; simp
    · simp only [askedN] at h
      cases h; simp
  | bibAdd a6 a4 b =>
    simp only [askedN] at h
    split at h
    · cases h; simp
    · split at h
      · obtain ⟨x, -, hx⟩ := map_ok h; cases hx; exact ofBib_ne _
      · cases h; simp
  | bibRm a6 a4 b =>
    simp only [askedN] at h
    split at h
    · cases h; simp
    · split at h
      · cases h; simp
      · obtain ⟨x, -, hx⟩ := map_ok h; cases hx; exact ofBib_ne _
  | _ => simp [Nat64Ok] at hok

/-- **The whole exchange, SIIT.** From the user of the library to the database and back: the operation is done in the instance that the user named, and
the user is told success if and only if it succeeded; otherwise, its code and its text. -/
theorem siit_exchange (strerror : Nat → List Byte) (st : State) (e : Env) (a : Ask) (cap cap' : Nat) (iname : Option (List Byte))
    (msg text : List Byte) (s s' : Siit) (ans : Answer) (errno : Code → Int)
    (hmsg : a.msg cap 1 iname = some msg) (hok : SiitOk a) (ha : e.admin = true) (hon : st.siitOn = true)
    (hs : st.siit (target iname) = some s) (hop : askedS e s a = .ok (s', ans))
    (herr : ∀ c, -4095 ≤ errno c ∧ errno c < 0) (hn : 0#8 ∉ text) (hcap : 144 ≤ cap') (hcap' : cap' < 65536) :
    handle st e a.cmd msg = .ok (st.setSiit (target iname) s', [], ans) ∧ Told strerror errno cap' 1 msg text ans := by
  refine ⟨?_, reply_arrives strerror (by decide) hmsg (askedS_ne hok hop) herr hn hcap hcap'⟩
  rw [siit_request st e a cap iname msg s hmsg hok ha hon hs, hop]
  rfl

/-- **The whole exchange, NAT64.** -/
theorem nat64_exchange (strerror : Nat → List Byte) (st : State) (e : Env) (a : Ask) (cap cap' : Nat) (iname : Option (List Byte))
    (msg text : List Byte) (s s' : Nat64) (ev : Events) (ans : Answer) (errno : Code → Int)
    (hmsg : a.msg cap 2 iname = some msg) (hok : Nat64Ok a) (ha : e.admin = true) (hon : st.nat64On = true)
    (hs : st.nat64 (target iname) = some s) (hop : askedN e s a = .ok (s', ev, ans))
    (herr : ∀ c, -4095 ≤ errno c ∧ errno c < 0) (hn : 0#8 ∉ text) (hcap : 144 ≤ cap') (hcap' : cap' < 65536) :
    handle st e a.cmd msg = .ok (st.setNat64 (target iname) s', ev, ans) ∧ Told strerror errno cap' 2 msg text ans := by
  refine ⟨?_, reply_arrives strerror (by decide) hmsg (askedN_ne hok hop) herr hn hcap hcap'⟩
  rw [nat64_request st e a cap iname msg s hmsg hok ha hon hs, hop]
  rfl

/-- An error of 3 characters, through a SIIT client. -/
example : ∃ b r, simple 3600 ((uHdr 1 none 0).getD []) (-17) [65, 66, 67] = .ok (some b)
    ∧ handler (fun _ => []) 1 (fun _ _ => .ok none) b = .ok r ∧ received r = some (17, str "The kernel module returned error 17: ABC") := by
  refine ⟨_, _, rfl, rfl, ?_⟩
  decide +kernel

/-! ## Buffers and references -/

/-- Nothing is left over. -/
def Clean (s : St) : Prop := s.skb = .null ∧ s.buffers = 0 ∧ s.refs = 0 ∧ s.arrays = 0

/-- Nothing fails. -/
def Mem.Fine (m : Mem) : Prop := m.text = false ∧ m.init = false ∧ m.put = false ∧ m.reply = false

/-- One answer, or none if memory or delivery fails. -/
def Answered (v : Ev) (r : Reply) (s : St) : Prop :=
  s.sent.length ≤ 1 ∧ (v.m1.Fine → v.m2.Fine → v.fails = false → s.sent = [r])

theorem sendSimple_cases (m : Mem) (e : Int) (s : St) :
    (sendSimple m e s).1 = { s with sent := s.sent ++ [if codeOf e = 0 then .ack else .error (codeOf e)] } ∧ (sendSimple m e s).2 = 0
      ∨ ¬ m.Fine ∧ (sendSimple m e s).1 = s ∧ (sendSimple m e s).2 ≠ 0 := by
  unfold sendSimple Mem.Fine
  (repeat' split) <;> simp_all

/-- What the client should get. -/
def expected (v : Ev) : Reply :=
  if v.start ≠ 0 then .error (codeOf v.start)
  else if v.init = false then .error 12
  else if v.offset ≠ 0 then .error (codeOf v.offset)
  else if v.result < 0 then .error (codeOf v.result)
  else if 0 < v.result ∧ v.empty = true then .error 22
  else .data (decide (0 < v.result))

theorem simple_codeOf {e : Int} (h : e ≠ 0) : (if codeOf e = 0 then Reply.ack else .error (codeOf e)) = .error (codeOf e) :=
  if_neg (by rw [codeOf_zero]; exact h)

/-- The last answer of a handler. -/
theorem simple_answered {v : Ev} {e : Int} {s : St} (he : e ≠ 0) (hs : s.sent = [] ) :
    Answered v (.error (codeOf e)) (sendSimple v.m2 e s).1 := by
  rcases sendSimple_cases v.m2 e s with ⟨h1, _⟩ | ⟨h1, h2, _⟩
  · rw [h1, simple_codeOf he]
    simp [Answered, hs]
  · rw [h2]
    exact ⟨by simp [hs], fun _ h => absurd h h1⟩

theorem simple_keeps (m : Mem) (e : Int) (s : St) :
    (sendSimple m e s).1.skb = s.skb ∧ (sendSimple m e s).1.buffers = s.buffers ∧ (sendSimple m e s).1.refs = s.refs
      ∧ (sendSimple m e s).1.arrays = s.arrays := by
  rcases sendSimple_cases m e s with ⟨h1, _⟩ | ⟨_, h1, _⟩ <;> rw [h1] <;> simp

/-- `revert_start`, reached with one reference and no buffer. -/
theorem revert_fine {v : Ev} {e : Int} {s : St} (he : e ≠ 0) (h : s = ⟨.null, 0, 1, 0, []⟩) :
    ∃ s' e', revert v.m2 e s = (s', e') ∧ Clean s' ∧ Answered v (.error (codeOf e)) s' := by
  refine ⟨_, _, rfl, ?_, ?_⟩
  · have := simple_keeps v.m2 e s
    subst h
    simp only [endReq, Clean]
    rw [this.1, this.2.1, this.2.2.1, this.2.2.2]
    simp
  · exact simple_answered he (by rw [h])

theorem simple_fine {v : Ev} {e : Int} (he : e ≠ 0) :
    ∃ s' e', sendSimple v.m2 e St.init = (s', e') ∧ Clean s' ∧ Answered v (.error (codeOf e)) s' := by
  refine ⟨(sendSimple v.m2 e St.init).1, (sendSimple v.m2 e St.init).2, rfl, ?_, simple_answered he rfl⟩
  have := simple_keeps v.m2 e St.init
  unfold Clean
  rw [this.1, this.2.1, this.2.2.1, this.2.2.2]
  exact ⟨rfl, rfl, rfl, rfl⟩

/-- **Listings.** The handlers of listings give back what they took, whatever fails, never touch a buffer that they gave away, and answer once. -/
theorem foreach_fine (twice : Bool) (v : Ev) :
    ∃ s e, foreach twice v = .ok (s, e) ∧ Clean s ∧ Answered v (expected v) s := by
  have wrap : ∀ {o : St × Int} {r : Reply}, (∃ s' e', o = (s', e') ∧ Clean s' ∧ Answered v r s') →
      ∃ s e, Outcome.ok o = .ok (s, e) ∧ Clean s ∧ Answered v r s := by
    rintro o r ⟨s', e', rfl, h⟩
    exact ⟨s', e', rfl, h⟩
  unfold foreach expected
  dsimp only
  by_cases h0 : v.start ≠ 0
  · rw [if_pos h0, if_pos h0]
    exact wrap (simple_fine h0)
  rw [if_neg h0, if_neg h0]
  by_cases h1 : v.init = false
  · rw [h1, if_pos rfl]
    simp only [rInit, Bool.false_eq_true, if_false]
    rw [if_pos (by decide)]
    exact wrap (revert_fine (e := -12) (by decide) rfl)
  have h1 : v.init = true := by simpa using h1
  rw [h1]
  simp only [rInit, if_true, St.init, ne_eq, not_true_eq_false, if_false, Bool.true_eq_false]
  by_cases h2 : v.offset = 0
  · rw [if_neg (not_not_intro h2), if_neg (not_not_intro h2)]
    by_cases h3 : v.result < 0
    · rw [if_pos h3]
      have e3 : v.result ≠ 0 := by omega
      cases twice
      · simp only [Bool.false_eq_true, false_and, if_false, sendArray, h3, if_true, cleanup, Outcome.bind]
        rw [if_pos e3]
        exact wrap (revert_fine e3 rfl)
      · simp only [true_and, h3, if_true, cleanup]
        exact wrap (revert_fine e3 rfl)
    · have e3 : ¬ (twice = true ∧ v.result < 0) := fun h => h3 h.2
      rw [if_neg e3, if_neg h3]
      unfold sendArray
      rw [if_neg h3]
      by_cases h4 : 0 < v.result
      · rw [if_pos h4]
        by_cases h5 : v.empty = true
        · simp only [h5, if_true, h4, true_and]
          rcases sendSimple_cases v.m1 (-22) ⟨.live, 0 + 1, 1, 0, []⟩ with ⟨k1, k2⟩ | ⟨k0, k1, k2⟩
          · simp only [k1, k2, cleanup, Outcome.bind]
            refine ⟨_, _, rfl, ?_, ?_⟩
            · simp [Clean, endReq]
            · simp [Answered, endReq, codeOf]
          · simp only [k1, cleanup, Outcome.bind]
            rw [if_pos k2]
            obtain ⟨s', e', k3, k4, k5⟩ := revert_fine (v := v) k2 (rfl : (⟨.null, 0 + 1 - 1, 1, 0, []⟩ : St) = ⟨.null, 0, 1, 0, []⟩)
            exact ⟨s', e', by rw [k3], k4, k5.1, fun hf => absurd hf k0⟩
        · have h5 : v.empty = false := by simpa using h5
          simp only [h5, Bool.false_eq_true, if_false, and_false, h4, decide_true, rSend]
          cases hf : v.fails
          · simp only [Bool.false_eq_true, if_false, Outcome.bind]
            refine ⟨_, _, rfl, ?_, ?_⟩
            · simp [Clean, endReq]
            · simp [Answered, endReq]
          · simp only [if_true, Outcome.bind]
            rw [if_pos (by decide)]
            obtain ⟨s', e', k3, k4, k5⟩ := revert_fine (v := v) (e := -111) (by decide) (rfl : (⟨.null, 0 + 1 - 1, 1, 0, []⟩ : St) = ⟨.null, 0, 1, 0, []⟩)
            exact ⟨s', e', by rw [← k3]; rfl, k4, k5.1, fun _ _ hf' => by rw [hf] at hf'; cases hf'⟩
      · rw [if_neg h4]
        simp only [h4, false_and, if_false, decide_false, rSend]
        cases hf : v.fails
        · simp only [Bool.false_eq_true, if_false, Outcome.bind]
          refine ⟨_, _, rfl, ?_, ?_⟩
          · simp [Clean, endReq]
          · simp [Answered, endReq]
        · simp only [if_true, Outcome.bind]
          rw [if_pos (by decide)]
          obtain ⟨s', e', k3, k4, k5⟩ := revert_fine (v := v) (e := -111) (by decide) (rfl : (⟨.null, 0 + 1 - 1, 1, 0, []⟩ : St) = ⟨.null, 0, 1, 0, []⟩)
          exact ⟨s', e', by rw [← k3]; rfl, k4, k5.1, fun _ _ hf' => by rw [hf] at hf'; cases hf'⟩
  · rw [if_pos h2, if_pos h2]
    exact wrap (revert_fine h2 rfl)

/-- Address queries and statistics: what the client should get. -/
def expectedQ (v : Ev) : Reply :=
  if v.start ≠ 0 then .error (codeOf v.start)
  else if v.offset ≠ 0 then .error (codeOf v.offset)
  else if v.init = false then .error 12
  else if v.result ≠ 0 then .error (codeOf v.result)
  else .data false

/-- **Address queries.** -/
theorem query_fine (v : Ev) : ∃ s e, query v = .ok (s, e) ∧ Clean s ∧ Answered v (expectedQ v) s := by
  have wrap : ∀ {o : St × Int} {r : Reply}, (∃ s' e', o = (s', e') ∧ Clean s' ∧ Answered v r s') →
      ∃ s e, Outcome.ok o = .ok (s, e) ∧ Clean s ∧ Answered v r s := by
    rintro o r ⟨s', e', rfl, h⟩
    exact ⟨s', e', rfl, h⟩
  unfold query expectedQ
  dsimp only
  by_cases h0 : v.start ≠ 0
  · rw [if_pos h0, if_pos h0]
    exact wrap (simple_fine h0)
  rw [if_neg h0, if_neg h0]
  by_cases h2 : v.offset ≠ 0
  · rw [if_pos h2, if_pos h2]
    exact wrap (revert_fine h2 rfl)
  rw [if_neg h2, if_neg h2]
  by_cases h1 : v.init = false
  · rw [h1, if_pos rfl]
    simp only [rInit, Bool.false_eq_true, if_false]
    rw [if_pos (by decide)]
    exact wrap (revert_fine (e := -12) (by decide) rfl)
  have h1 : v.init = true := by simpa using h1
  rw [h1]
  simp only [rInit, if_true, St.init, ne_eq, not_true_eq_false, if_false, Bool.true_eq_false]
  by_cases h3 : v.result = 0
  · rw [if_neg (not_not_intro h3), if_neg (not_not_intro h3)]
    simp only [endReq, rSend]
    cases hf : v.fails
    · exact ⟨_, _, rfl, ⟨rfl, rfl, rfl, rfl⟩, by simp [Answered]⟩
    · exact ⟨_, _, rfl, ⟨rfl, rfl, rfl, rfl⟩, by simp, fun _ _ h => by rw [hf] at h; cases h⟩
  · rw [if_pos h3, if_pos h3]
    exact wrap (revert_fine h3 rfl)

/-- Statistics: what the client should get. -/
def expectedT (v : Ev) : Reply :=
  if v.start ≠ 0 then .error (codeOf v.start)
  else if v.offset ≠ 0 ∨ v.init = false then .error 12
  else if v.result ≠ 0 ∧ v.empty = true then .error (codeOf v.result)
  else .data (v.result != 0)

/-- **Statistics.** -/
theorem stats_fine (v : Ev) : ∃ s e, stats v = .ok (s, e) ∧ Clean s ∧ Answered v (expectedT v) s := by
  have wrap : ∀ {o : St × Int} {r : Reply}, (∃ s' e', o = (s', e') ∧ Clean s' ∧ Answered v r s') →
      ∃ s e, Outcome.ok o = .ok (s, e) ∧ Clean s ∧ Answered v r s := by
    rintro o r ⟨s', e', rfl, h⟩
    exact ⟨s', e', rfl, h⟩
  unfold stats expectedT
  dsimp only
  by_cases h0 : v.start ≠ 0
  · rw [if_pos h0, if_pos h0]
    exact wrap (simple_fine h0)
  rw [if_neg h0, if_neg h0]
  by_cases h2 : v.offset ≠ 0
  · rw [if_pos h2, if_pos (.inl h2)]
    exact wrap (revert_fine (e := -12) (by decide) rfl)
  rw [if_neg h2]
  by_cases h1 : v.init = false
  · rw [h1, if_pos (show v.offset ≠ 0 ∨ false = false from .inr rfl)]
    simp only [rInit, Bool.false_eq_true, if_false]
    rw [if_pos (by decide)]
    exact wrap (revert_fine (e := -12) (by decide) rfl)
  have h1 : v.init = true := by simpa using h1
  rw [if_neg (show ¬ (v.offset ≠ 0 ∨ v.init = false) by rw [h1]; simpa using h2), h1]
  simp only [rInit, if_true, St.init, ne_eq, not_true_eq_false, if_false]
  by_cases h3 : ¬ v.result = 0 ∧ v.empty = true
  · rw [if_pos h3, if_pos h3]
    exact wrap (revert_fine h3.1 rfl)
  · rw [if_neg h3, if_neg h3]
    simp only [endReq, rSend]
    cases hf : v.fails
    · exact ⟨_, _, rfl, ⟨rfl, rfl, rfl, rfl⟩, by simp [Answered]⟩
    · exact ⟨_, _, rfl, ⟨rfl, rfl, rfl, rfl⟩, by simp, fun _ _ h => by rw [hf] at h; cases h⟩

/-- The list of instances: as the other listings, but the offset is read before the response is allocated. -/
def expectedI (v : Ev) : Reply :=
  if v.start ≠ 0 then .error (codeOf v.start)
  else if v.offset ≠ 0 then .error (codeOf v.offset)
  else if v.init = false then .error 12
  else if v.result < 0 then .error (codeOf v.result)
  else if 0 < v.result ∧ v.empty = true then .error 22
  else .data (decide (0 < v.result))

/-- **The list of instances.** -/
theorem instForeach_fine (v : Ev) : ∃ s e, instForeach v = .ok (s, e) ∧ Clean s ∧ Answered v (expectedI v) s := by
  have wrap : ∀ {o : St × Int} {r : Reply}, (∃ s' e', o = (s', e') ∧ Clean s' ∧ Answered v r s') →
      ∃ s e, Outcome.ok o = .ok (s, e) ∧ Clean s ∧ Answered v r s := by
    rintro o r ⟨s', e', rfl, h⟩
    exact ⟨s', e', rfl, h⟩
  have lost : ∀ {e : Int} {r : Reply}, e ≠ 0 → ¬ (v.m1.Fine ∧ v.fails = false) →
      ∃ s e', Outcome.ok (sendSimple v.m2 e St.init) = .ok (s, e') ∧ Clean s ∧ Answered v r s := by
    intro e r he hf
    obtain ⟨s', e', k3, k4, k5⟩ := simple_fine (v := v) he
    exact ⟨s', e', by rw [k3], k4, k5.1, fun h1 _ h2 => absurd ⟨h1, h2⟩ hf⟩
  unfold instForeach expectedI
  dsimp only
  by_cases h0 : v.start ≠ 0
  · rw [if_pos h0, if_pos h0]
    exact wrap (simple_fine h0)
  rw [if_neg h0, if_neg h0]
  by_cases h2 : v.offset ≠ 0
  · rw [if_pos h2, if_pos h2]
    exact wrap (simple_fine h2)
  rw [if_neg h2, if_neg h2]
  by_cases h1 : v.init = false
  · rw [h1, if_pos rfl]
    simp only [rInit, Bool.false_eq_true, if_false]
    rw [if_pos (by decide)]
    exact wrap (simple_fine (e := -12) (by decide))
  have h1 : v.init = true := by simpa using h1
  rw [h1]
  simp only [rInit, if_true, ne_eq, not_true_eq_false, if_false, Bool.true_eq_false]
  unfold sendArray
  by_cases h3 : v.result < 0
  · rw [if_pos h3, if_pos h3]
    have e3 : v.result ≠ 0 := by omega
    simp only [cleanup, Outcome.bind, St.init]
    rw [if_pos e3]
    exact wrap (simple_fine e3)
  rw [if_neg h3, if_neg h3]
  by_cases h4 : 0 < v.result
  · rw [if_pos h4]
    by_cases h5 : v.empty = true
    · simp only [h5, if_true, h4, true_and]
      rcases sendSimple_cases v.m1 (-22) ⟨.live, St.init.buffers + 1, St.init.refs, St.init.arrays, St.init.sent⟩ with ⟨k1, k2⟩ | ⟨k0, k1, k2⟩
      · simp only [k1, k2, cleanup, Outcome.bind]
        exact ⟨_, _, rfl, ⟨rfl, rfl, rfl, rfl⟩, by simp [Answered, St.init, codeOf]⟩
      · simp only [k1, cleanup, Outcome.bind]
        rw [if_pos k2]
        exact lost k2 (fun h => k0 h.1)
    · have h5 : v.empty = false := by simpa using h5
      simp only [h5, Bool.false_eq_true, if_false, and_false, h4, decide_true, rSend]
      cases hf : v.fails
      · exact ⟨_, _, rfl, ⟨rfl, rfl, rfl, rfl⟩, by simp [Answered, St.init]⟩
      · exact lost (e := -111) (by decide) (fun h => by rw [hf] at h; cases h.2)
  · rw [if_neg h4]
    simp only [h4, false_and, if_false, decide_false, rSend]
    cases hf : v.fails
    · exact ⟨_, _, rfl, ⟨rfl, rfl, rfl, rfl⟩, by simp [Answered, St.init]⟩
    · exact lost (e := -111) (by decide) (fun h => by rw [hf] at h; cases h.2)

/-- **Updates.** The answer is the result of the operation. -/
theorem update_fine (v : Ev) : ∃ s e, update v = .ok (s, e) ∧ Clean s ∧
    Answered v (if v.start ≠ 0 then .error (codeOf v.start) else if v.result = 0 then .ack else .error (codeOf v.result)) s := by
  unfold update
  dsimp only
  by_cases h0 : v.start ≠ 0
  · rw [if_pos h0, if_pos h0]
    obtain ⟨s', e', k1, k2⟩ := simple_fine (v := v) h0
    exact ⟨s', e', by rw [k1], k2⟩
  rw [if_neg h0, if_neg h0]
  refine ⟨(revert v.m2 v.result ⟨.null, 0, 1, 0, []⟩).1, (revert v.m2 v.result ⟨.null, 0, 1, 0, []⟩).2, rfl, ?_, ?_⟩
  · have := simple_keeps v.m2 v.result ⟨.null, 0, 1, 0, []⟩
    unfold Clean revert endReq
    dsimp only
    rw [this.1, this.2.1, this.2.2.1, this.2.2.2]
    simp
  · rcases sendSimple_cases v.m2 v.result ⟨.null, 0, 1, 0, []⟩ with ⟨k1, _⟩ | ⟨k0, k1, _⟩
    · simp only [revert, endReq, k1, Answered, codeOf_zero]
      simp
    · exact ⟨by simp [revert, endReq, k1], fun _ h => absurd h k0⟩

/-- **Greetings.** They are answered once, but the buffer of the response is lost if and only if the name of the instance is not valid (or the attribute
does not fit). -/
theorem hello_partial (v : Ev) : ∃ s e, hello v = .ok (s, e) ∧ s.refs = 0 ∧ s.arrays = 0 ∧ s.sent.length ≤ 1
    ∧ (v.m2.Fine → v.fails = false → s.sent.length = 1)
    ∧ s.buffers = if v.start = 0 ∧ v.init = true ∧ (v.result ≠ 0 ∧ v.result ≠ -3 ∨ v.empty = true) then 1 else 0 := by
  have key : ∀ (e : Int) (s : St), e ≠ 0 → s.refs = 0 → s.arrays = 0 → s.sent = [] →
      ∃ s' e', Outcome.ok (sendSimple v.m2 e s) = .ok (s', e') ∧ s'.refs = 0 ∧ s'.arrays = 0 ∧ s'.sent.length ≤ 1
        ∧ (v.m2.Fine → v.fails = false → s'.sent.length = 1) ∧ s'.buffers = s.buffers := by
    intro e s he h1 h2 h3
    have k := simple_keeps v.m2 e s
    have a := simple_answered (v := v) he h3
    refine ⟨(sendSimple v.m2 e s).1, (sendSimple v.m2 e s).2, rfl, by rw [k.2.2.1, h1], by rw [k.2.2.2, h2], a.1, ?_, k.2.1⟩
    intro hf _
    rcases sendSimple_cases v.m2 e s with ⟨k1, _⟩ | ⟨k0, _⟩
    · rw [k1]; simp [h3]
    · exact absurd hf k0
  unfold hello
  dsimp only
  by_cases h0 : v.start = 0
  · rw [if_neg (not_not_intro h0)]
    cases h1 : v.init
    · simp only [rInit, Bool.false_eq_true, if_false, h0, false_and, and_false]
      rw [if_pos (by decide)]
      exact key (-12) St.init (by decide) rfl rfl rfl
    · simp only [rInit, if_true, ne_eq, not_true_eq_false, if_false, h0, true_and]
      by_cases h2 : v.result = 0 ∨ v.result = -3
      · rw [if_pos h2]
        cases h3 : v.empty
        · rw [if_neg (by simp), if_neg (show ¬ (¬ v.result = 0 ∧ ¬ v.result = -3 ∨ false = true) by simp; omega)]
          simp only [rSend, St.init]
          cases v.fails
          · exact ⟨_, _, rfl, rfl, rfl, by simp, by simp, rfl⟩
          · exact ⟨_, _, rfl, rfl, rfl, by simp, by simp, rfl⟩
        · rw [if_pos rfl, if_pos (.inr rfl)]
          exact key (-90) _ (by decide) rfl rfl rfl
      · rw [if_neg h2, if_pos (.inl (by omega))]
        exact key (-22) _ (by decide) rfl rfl rfl
  · rw [if_pos h0, if_neg (fun h => h0 h.1)]
    exact key _ _ h0 rfl rfl rfl

/-- The defect: a greeting with an invalid name. -/
theorem hello_leaks : ∃ v, ∀ s e, hello v = .ok (s, e) → s.buffers = 1 := by
  refine ⟨⟨0, true, 0, -22, false, false, default, default⟩, ?_⟩
  intro s e h
  obtain ⟨s', e', h1, -, -, -, -, h2⟩ := hello_partial ⟨0, true, 0, -22, false, false, default, default⟩
  rw [h1] at h
  cases h
  rw [h2]
  decide

/-- **New instances.** Answered once, unless the operand is malformed. -/
theorem instAdd_partial (v : Ev) : ∃ s e, instAdd v = .ok (s, e) ∧ Clean s ∧
    if v.start = 0 ∧ v.offset ≠ 0 then s.sent = [] ∧ e = v.offset
    else Answered v (if v.start ≠ 0 then .error (codeOf v.start) else if v.result = 0 then .ack else .error (codeOf v.result)) s := by
  unfold instAdd
  dsimp only
  by_cases h0 : v.start ≠ 0
  · rw [if_pos h0]
    obtain ⟨s', e', k1, k2, k3⟩ := simple_fine (v := v) h0
    refine ⟨s', e', by rw [k1], k2, ?_⟩
    rw [if_neg (fun h => h0 h.1), if_pos h0]
    exact k3
  rw [if_neg h0]
  by_cases h1 : v.offset ≠ 0
  · rw [if_pos h1]
    refine ⟨_, _, rfl, ⟨rfl, rfl, rfl, rfl⟩, ?_⟩
    rw [if_pos ⟨by simpa using h0, h1⟩]
    exact ⟨rfl, rfl⟩
  · rw [if_neg h1]
    refine ⟨(sendSimple v.m2 v.result St.init).1, (sendSimple v.m2 v.result St.init).2, rfl, ?_, ?_⟩
    · have := simple_keeps v.m2 v.result St.init
      unfold Clean
      rw [this.1, this.2.1, this.2.2.1, this.2.2.2]
      exact ⟨rfl, rfl, rfl, rfl⟩
    · rw [if_neg (fun h => h1 h.2), if_neg h0]
      rcases sendSimple_cases v.m2 v.result St.init with ⟨k1, _⟩ | ⟨k0, k1, _⟩
      · rw [k1]
        simp only [Answered, St.init, codeOf_zero]
        simp
      · rw [k1]
        exact ⟨by simp [St.init], fun _ h => absurd h k0⟩

/-- Nothing fails, there is one more page. -/
example : ∃ s, foreach false ⟨0, true, 0, 1, false, false, default, default⟩ = .ok (s, 0) ∧ s.sent = [.data true] := ⟨_, rfl, rfl⟩

end Jool.Resp
