import Verif.Model.Requests
import Verif.Props.NlAttr
import Verif.Props.NlSafe
/-
C69: requests do what they say, in the instance that they name, and only for privileged clients.
-/
namespace Jool.Req
open Jool.Nla Jool.NlAttr
open Jool.JooldMsg (Byte be unbe be_length unbe_be)

/-! ## Admission -/

/-- The checks that come before every operation, in terms of the message: a privileged client, the magic word, a loaded type of
translator that supports the operation, the same major and minor version, and a valid name of an existing instance. -/
theorem start_iff (st : State) (e : Env) (xt : BitVec 8) (h : Hdr) :
    start st e xt h = none ↔
      e.admin = true ∧ h.magic = MAGIC ∧ (h.xt = 1 ∧ st.siitOn = true ∨ h.xt = 2 ∧ st.nat64On = true)
      ∧ h.version.toNat / 65536 = VERSION.toNat / 65536 ∧ h.xt &&& xt ≠ 0
      ∧ inameOk (getIname h) = true
      ∧ (if h.xt = 1 then (st.siit (cstr (getIname h))).isSome else (st.nat64 (cstr (getIname h))).isSome) = true := by
  have hv : VERSION &&& 0xFFFF0000#32 = h.version &&& 0xFFFF0000#32 ↔ h.version.toNat / 65536 = VERSION.toNat / 65536 := by
    have key : ∀ x : BitVec 32, (x &&& 0xFFFF0000#32).toNat = x.toNat / 65536 * 65536 := by
      intro x
      have h1 : x &&& 0xFFFF0000#32 = (x >>> 16) <<< 16 := by
        apply BitVec.eq_of_getLsbD_eq
        intro i hi
        simp only [BitVec.getLsbD_and, BitVec.getLsbD_shiftLeft, BitVec.getLsbD_ushiftRight]
        have : (0xFFFF0000#32).getLsbD i = decide (16 ≤ i ∧ i < 32) := by
          have : ∀ j : Fin 32, (0xFFFF0000#32).getLsbD j = decide (16 ≤ j.val ∧ j.val < 32) := by decide
          exact this ⟨i, hi⟩
        rw [this]
        by_cases h16 : 16 ≤ i
        · have : 16 + (i - 16) = i := by omega
          simp [h16, hi, this]
        · simp [h16]
      rw [h1]
      simp only [BitVec.toNat_shiftLeft, BitVec.toNat_ushiftRight, Nat.shiftRight_eq_div_pow, Nat.shiftLeft_eq]
      have := x.isLt
      omega
    rw [← BitVec.toNat_inj, key, key]
    omega
  unfold start stateness exists?
  by_cases h0 : e.admin = true
  · by_cases h1 : h.magic = MAGIC
    · by_cases h2 : h.xt = 1#8
      · simp [h0, h1, h2, ← hv]
        by_cases h3 : st.siitOn = true <;> simp [h3]
        (repeat' split) <;> simp_all [Option.isSome_iff_ne_none]
      · by_cases h2' : h.xt = 2#8
        · simp [h0, h1, h2', ← hv]
          by_cases h3 : st.nat64On = true <;> simp [h3]
          (repeat' split) <;> simp_all [Option.isSome_iff_ne_none]
        · simp [h0, h1, h2, h2']
    · simp [h0, h1]
  · simp [h0]

/-! ## Headers -/

theorem cstr_cons (b : Byte) (r : List Byte) : cstr (b :: r) = if b = 0#8 then [] else b :: cstr r := by
  unfold cstr
  by_cases hb : b = 0#8 <;> simp [hb]

theorem cstr_pad (l : List Byte) (n : Nat) : cstr (cstr l ++ List.replicate n 0#8) = cstr l := by
  induction l with
  | nil => cases n <;> simp [cstr, List.replicate_succ]
  | cons b r ih =>
    rw [cstr_cons]
    by_cases hb : b = 0#8
    · cases n <;> simp [hb, cstr, List.replicate_succ]
    · rw [if_neg hb, List.cons_append, cstr_cons, if_neg hb, ih]

theorem cstr_idem (l : List Byte) : cstr (cstr l) = cstr l := by simpa using cstr_pad l 0

/-- The instance that a client means: the one it names; the default if it names none or the name is empty. -/
def target (iname : Option (List Byte)) : List Byte :=
  if cstr (iname.getD DEFAULT) = [] then DEFAULT else cstr (iname.getD DEFAULT)

theorem inameOk_default : inameOk DEFAULT = true := by decide

/-- What the kernel finds in front of a client's message. -/
theorem decHdr_uHdr {xt : BitVec 8} {iname : Option (List Byte)} {flags : BitVec 8} {hd body : List Byte}
    (h : uHdr xt iname flags = some hd) :
    ∃ hdr, decHdr (hd ++ body) = some (hdr, body) ∧ hdr.magic = MAGIC ∧ hdr.version = VERSION ∧ hdr.xt = xt
      ∧ hdr.flags = flags ∧ cstr (getIname hdr) = target iname ∧ inameOk (getIname hdr) = true := by
  unfold uHdr at h
  dsimp only at h
  split at h
  · rename_i hok
    rw [Option.some.injEq] at h
    generalize hn : cstr (iname.getD DEFAULT) = n at h hok
    have hc : cstr n = n := by rw [← hn, cstr_idem]
    have hl : n.length < 16 := by
      unfold inameOk at hok
      rw [hc] at hok
      simp only [Bool.and_eq_true, decide_eq_true_eq] at hok
      exact hok.1
    have hbe : be 4 VERSION.toNat = [4, 1, 15, 0] := by decide
    have hd' : hd = [0x6a, 0x6f, 0x6f, 0x6c, 4, 1, 15, 0, xt, flags, 0, 0] ++ (n ++ List.replicate (16 - n.length) 0#8) := by
      rw [← h, hbe]; simp [MAGIC]
    have hlen : (n ++ List.replicate (16 - n.length) 0#8).length = 16 := by simp; omega
    have hlen' : hd.length = 28 := by rw [hd', List.length_append, hlen]; rfl
    refine ⟨⟨MAGIC, VERSION, xt, flags, n ++ List.replicate (16 - n.length) 0#8⟩, ?_, rfl, rfl, rfl, rfl, ?_, ?_⟩
    · unfold decHdr HDRLEN
      rw [if_neg (by rw [List.length_append]; omega)]
      have hdrop : (hd ++ body).drop 28 = body := by rw [← hlen', List.drop_left]
      rw [hdrop, hd']
      have e16 : List.take 16 ((n ++ List.replicate (16 - n.length) 0#8) ++ body) = n ++ List.replicate (16 - n.length) 0#8 := by
        rw [List.take_append_of_le_length (by omega), List.take_of_length_le (by omega)]
      simp only [List.cons_append, List.nil_append, List.take_succ_cons, List.take_zero, List.drop_succ_cons, List.drop_zero,
        List.getD_cons_succ, List.getD_cons_zero, Option.some.injEq, Prod.mk.injEq, and_true, Hdr.mk.injEq]
      exact ⟨rfl, by decide, trivial, trivial, e16⟩
    · unfold getIname target
      rw [hn]
      cases n with
      | nil => simp [List.replicate_succ]; decide
      | cons b r =>
        have hb : b ≠ 0#8 := by
          intro hb; subst hb; simp [cstr] at hc
        simp [hb]
        have := cstr_pad (b :: r) (16 - (b :: r).length)
        rw [hc] at this
        simpa using this
    · unfold getIname
      cases n with
      | nil => simp [List.replicate_succ]; decide
      | cons b r =>
        have hb : b ≠ 0#8 := by
          intro hb; subst hb; simp [cstr] at hc
        have := cstr_pad (b :: r) (16 - (b :: r).length)
        rw [hc] at this
        rw [List.cons_append, List.getD_cons_zero, if_pos (show b ≠ 0 from hb)]
        dsimp only
        unfold inameOk at hok ⊢
        rw [hc] at hok
        rw [List.cons_append] at this
        rw [this]
        exact hok
  · cases h

/-! ## What a client asks for is what happens -/

/-- Specification: what a request of a SIIT client does to the instance. -/
def askedS (e : Env) (s : Siit) : Ask → SiitStep
  | .eamAdd x f => (Eam.add s.eamt e.mem x f).map (fun r => ({ s with eamt := r.1 }, ofEam r.2))
  | .eamRm p6 p4 => (Eam.rm s.eamt e.mem p6 p4).map (fun r => ({ s with eamt := r.1 }, ofEam r.2))
  | .eamFlush => .ok ({ s with eamt := Eam.flush s.eamt }, .done)
  | .denyAdd p f =>
    .ok ({ s with deny := (Denylist4.add s.deny p f e.oom).1 }, ofDeny (Denylist4.add s.deny p f e.oom).2)
  | .denyRm p => .ok ({ s with deny := (Denylist4.rm s.deny p).1 }, ofDeny (Denylist4.rm s.deny p).2)
  | .denyFlush => .ok ({ s with deny := (Denylist4.flush s.deny e.oom).1 }, ofDeny (Denylist4.flush s.deny e.oom).2)
  | _ => .ok (s, .kernel)

/-- The bytes are right: prefix lengths fit in a byte, and a removal by prefixes carries both of them. -/
def SiitOk : Ask → Prop
  | .eamAdd x _ => x.p6.len < 256 ∧ x.p4.len < 256
  | .eamRm p6 p4 => ∃ x6 x4, p6 = some x6 ∧ p4 = some x4 ∧ x6.len < 256 ∧ x4.len < 256
  | .denyAdd p _ | .denyRm p => p.len < 256
  | .eamFlush | .denyFlush => True
  | _ => False

theorem start_ok {st : State} {e : Env} {xt : BitVec 8} {h : Hdr} (ha : e.admin = true) (hm : h.magic = MAGIC)
    (hv : h.version = VERSION) (hx : h.xt = xt) (hn : inameOk (getIname h) = true)
    (hs : xt = 1 ∧ st.siitOn = true ∧ (st.siit (cstr (getIname h))).isSome = true
      ∨ xt = 2 ∧ st.nat64On = true ∧ (st.nat64 (cstr (getIname h))).isSome = true) : start st e xt h = none := by
  rw [start_iff]
  rcases hs with ⟨rfl, h1, h2⟩ | ⟨rfl, h1, h2⟩
  · exact ⟨ha, hm, .inl ⟨hx, h1⟩, by rw [hv], by rw [hx]; decide, hn, by rw [if_pos hx]; exact h2⟩
  · exact ⟨ha, hm, .inr ⟨hx, h1⟩, by rw [hv], by rw [hx]; decide, hn, by rw [if_neg (by rw [hx]; decide)]; exact h2⟩

/-- The way of a client's message until its handler. -/
theorem reach {st : State} {e : Env} {a : Ask} {cap : Nat} {iname : Option (List Byte)} {msg : List Byte} {xt : BitVec 8}
    (hmsg : a.msg cap xt iname = some msg) (ha : e.admin = true) (hxt : a.cmd.xt = xt)
    (hs : xt = 1 ∧ st.siitOn = true ∧ (st.siit (target iname)).isSome = true
      ∨ xt = 2 ∧ st.nat64On = true ∧ (st.nat64 (target iname)).isSome = true)
    {P : List Attr → Prop}
    (hp : ∀ body, a.writer cap [] = some body → ∃ tb, kParse e.strict rootPolicy body = .ok tb ∧ P tb) :
    ∃ h tb, P tb ∧ h.flags = a.flags ∧ cstr (getIname h) = target iname ∧ handle st e a.cmd msg = act st e a.cmd h tb := by
  unfold Ask.msg uMsg at hmsg
  cases hh : uHdr xt iname a.flags with
  | none => rw [hh] at hmsg; cases hmsg
  | some hd =>
    rw [hh] at hmsg
    cases hb : a.writer cap [] with
    | none => simp [hb] at hmsg
    | some body =>
      simp only [Option.bind_some, hb, Option.map_some, Option.some.injEq] at hmsg
      obtain ⟨h, h1, h2, h3, h4, h5, h6, h7⟩ := decHdr_uHdr (body := body) hh
      obtain ⟨tb, h8, h9⟩ := hp body hb
      refine ⟨h, tb, h9, h5, h6, ?_⟩
      have : start st e a.cmd.xt h = none := by
        rw [hxt]
        exact start_ok ha h2 h3 h4 h7 (by rw [h6]; exact hs)
      unfold handle
      rw [← hmsg, h1]
      simp only [h8, this]

/-- A message without operand. -/
theorem parse_nil (s : Bool) : kParse s rootPolicy [] = .ok [] := by cases s <;> rfl

theorem forced_iff {h : Hdr} {f : Bool} (hf : h.flags = if f then FORCE else 0) : forced h = f := by
  unfold forced; rw [hf]; cases f <;> decide

theorem quick_iff {h : Hdr} {f : Bool} (hf : h.flags = if f then QUICK else 0) : quick h = f := by
  unfold quick; rw [hf]; cases f <;> decide

/-- **SIIT requests.** A privileged client's request does to the instance that it names exactly what was asked, with the arguments
that were given, and to nothing else. -/
theorem siit_request (st : State) (e : Env) (a : Ask) (cap : Nat) (iname : Option (List Byte)) (msg : List Byte) (s : Siit)
    (hmsg : a.msg cap 1 iname = some msg) (hok : SiitOk a)
    (ha : e.admin = true) (hon : st.siitOn = true) (hs : st.siit (target iname) = some s) :
    handle st e a.cmd msg = (askedS e s a).map (fun r => (st.setSiit (target iname) r.1, [], r.2)) := by
  have hs' : (1 : BitVec 8) = 1 ∧ st.siitOn = true ∧ (st.siit (target iname)).isSome = true
      ∨ (1 : BitVec 8) = 2 ∧ st.nat64On = true ∧ (st.nat64 (target iname)).isSome = true :=
    .inl ⟨rfl, hon, by rw [hs]; rfl⟩
  have fin : ∀ (h : Hdr) (tb : List Attr), cstr (getIname h) = target iname → a.cmd.xt = 1 →
      actS e h (Nla.get tb OPERAND) a.cmd s = askedS e s a →
      act st e a.cmd h tb = (askedS e s a).map (fun r => (st.setSiit (target iname) r.1, [], r.2)) := by
    intro h tb hn hx hr
    unfold act
    dsimp only
    rw [if_pos hx, hn, hs]
    simp only [hr]
  cases a with
  | eamAdd x f =>
    obtain ⟨h, tb, h1, h2, h3, h4⟩ := reach hmsg ha rfl hs' (P := fun tb => kEam e.strict (Nla.get tb OPERAND) = .ok x)
      (fun body hb => (eam_arrives x hok.1 hok.2).1 cap body hb e.strict)
    rw [h4]
    refine fin h tb h3 rfl ?_
    simp only [actS, Ask.cmd, eamAdd, h1, withS, askedS, forced_iff h2]
  | eamRm p6 p4 =>
    obtain ⟨x6, x4, rfl, rfl, l6, l4⟩ := hok
    obtain ⟨h, tb, h1, h2, h3, h4⟩ := reach hmsg ha rfl hs'
      (P := fun tb => kEamRm e.strict (Nla.get tb OPERAND) = .ok (some x6, some x4))
      (fun body hb => (eam_rm_arrives ⟨x6, x4⟩ l6 l4).1 cap body hb e.strict)
    rw [h4]
    refine fin h tb h3 rfl ?_
    simp only [actS, Ask.cmd, eamRm, h1, withS, askedS]
  | eamFlush =>
    obtain ⟨h, tb, h1, h2, h3, h4⟩ := reach hmsg ha rfl hs' (P := fun _ => True)
      (fun body hb => ⟨[], by cases hb; exact parse_nil _, trivial⟩)
    rw [h4]
    exact fin h tb h3 rfl rfl
  | denyAdd p f =>
    obtain ⟨h, tb, h1, h2, h3, h4⟩ := reach hmsg ha rfl hs' (P := fun tb => kPrefix4 e.strict (Nla.get tb OPERAND) = .ok p)
      (fun body hb => (prefix4_arrives p hok OPERAND (.inl rfl)).1 cap body hb e.strict)
    rw [h4]
    refine fin h tb h3 rfl ?_
    simp only [actS, Ask.cmd, denyAdd, h1, withS, askedS, forced_iff h2]
  | denyRm p =>
    obtain ⟨h, tb, h1, h2, h3, h4⟩ := reach hmsg ha rfl hs' (P := fun tb => kPrefix4 e.strict (Nla.get tb OPERAND) = .ok p)
      (fun body hb => (prefix4_arrives p hok OPERAND (.inl rfl)).1 cap body hb e.strict)
    rw [h4]
    refine fin h tb h3 rfl ?_
    simp only [actS, Ask.cmd, denyRm, h1, withS, askedS]
  | denyFlush =>
    obtain ⟨h, tb, h1, h2, h3, h4⟩ := reach hmsg ha rfl hs' (P := fun _ => True)
      (fun body hb => ⟨[], by cases hb; exact parse_nil _, trivial⟩)
    rw [h4]
    exact fin h tb h3 rfl rfl
  | _ => exact hok.elim

/-- Specification: what a request of a NAT64 client does to the instance. -/
def askedN (e : Env) (s : Nat64) : Ask → Nat64Step
  | .pool4Add x f =>
    match protoOf x.proto with
    | none => .ok (s, [], .error .pool4)
    | some p => (Pool4.add e.kr (if f then none else some e.eph) p (entryOf x) s.pool4).map (fun r =>
        ({ s with pool4 := r.1 }, [], ofPool4 r.2))
  | .pool4Rm x true =>
    match protoOf x.proto with
    | none => .ok (s, [], .error .pool4)
    | some p => (Pool4.rm e.kr p x.mark x.pfx x.min x.max s.pool4).map (fun r => ({ s with pool4 := r.1 }, [], ofPool4 r.2))
  | .pool4Rm x false =>
    match protoOf x.proto with
    | none => .ok (s, [], .error .pool4)
    | some p => (Pool4.rm e.kr p x.mark x.pfx x.min x.max s.pool4).bind (fun r =>
        (bibRmRange (s.bib p) ⟨x.pfx, (rmPorts x).1, (rmPorts x).2⟩).map (fun b =>
          ((setBib { s with pool4 := r.1 } p b).1, b.2.1.map (fun ev => (p, ev)), ofPool4 r.2)))
  | .pool4Flush true => .ok ({ s with pool4 := Pool4.empty }, [], .done)
  | .pool4Flush false => (bibFlush { s with pool4 := Pool4.empty }).map (fun u => (u.1, u.2, .done))
  | .bibAdd a6 a4 b =>
    match protoOf b with
    | none => .ok (s, [], .error (.bib .EINVAL))
    | some p =>
      if Pool4.contains e.own s.pool4 p a4 then
        (Bib.addStatic e.bib p (s.bib p) ⟨a6, a4⟩).map (fun r =>
          ((setBib s p r).1, r.2.1.map (fun ev => (p, ev)), ofBib r.2.2))
      else .ok (s, [], .error (.bib .EINVAL))
  | .bibRm a6 a4 b =>
    match protoOf b with
    | none => .ok (s, [], .error (.bib .EINVAL))
    | some p =>
      match rmTarget (s.bib p) a6 a4 with
      | none => .ok (s, [], .error (.bib .ESRCH))
      | some k => (Bib.rmBib (s.bib p) k).map (fun r =>
          ((setBib s p r).1, r.2.1.map (fun ev => (p, ev)), ofBib r.2.2))
  | _ => .ok (s, [], .kernel)

/-- Prefix lengths fit in a byte; a BIB entry is removed by one of its addresses or both. -/
def Nat64Ok : Ask → Prop
  | .pool4Add x _ | .pool4Rm x _ => x.pfx.len < 256
  | .bibRm a6 a4 _ => a6.isSome ∨ a4.isSome
  | .bibAdd .. | .pool4Flush _ => True
  | _ => False

/-- **NAT64 requests.** A privileged client's request does to the instance that it names exactly what was asked, with the arguments
that were given, and to nothing else. -/
theorem nat64_request (st : State) (e : Env) (a : Ask) (cap : Nat) (iname : Option (List Byte)) (msg : List Byte) (s : Nat64)
    (hmsg : a.msg cap 2 iname = some msg) (hok : Nat64Ok a)
    (ha : e.admin = true) (hon : st.nat64On = true) (hs : st.nat64 (target iname) = some s) :
    handle st e a.cmd msg = (askedN e s a).map (fun r => (st.setNat64 (target iname) r.1, r.2.1, r.2.2)) := by
  have hs' : (2 : BitVec 8) = 1 ∧ st.siitOn = true ∧ (st.siit (target iname)).isSome = true
      ∨ (2 : BitVec 8) = 2 ∧ st.nat64On = true ∧ (st.nat64 (target iname)).isSome = true :=
    .inr ⟨rfl, hon, by rw [hs]; rfl⟩
  have fin : ∀ (h : Hdr) (tb : List Attr), cstr (getIname h) = target iname → a.cmd.xt = 2 →
      actN e h (Nla.get tb OPERAND) a.cmd s = askedN e s a →
      act st e a.cmd h tb = (askedN e s a).map (fun r => (st.setNat64 (target iname) r.1, r.2.1, r.2.2)) := by
    intro h tb hn hx hr
    unfold act
    dsimp only
    rw [if_neg (by rw [hx]; decide), hn, hs]
    simp only [hr]
  cases a with
  | pool4Add x f =>
    obtain ⟨h, tb, h1, h2, h3, h4⟩ := reach hmsg ha rfl hs' (P := fun tb => kPool4 e.strict (Nla.get tb OPERAND) = .ok x)
      (fun body hb => (pool4_arrives x hok).1 cap body hb e.strict)
    rw [h4]
    refine fin h tb h3 rfl ?_
    simp only [actN, Ask.cmd, pool4Add, h1, withN, askedN, forced_iff h2]
    rfl
  | pool4Rm x q =>
    obtain ⟨h, tb, h1, h2, h3, h4⟩ := reach hmsg ha rfl hs' (P := fun tb => kPool4 e.strict (Nla.get tb OPERAND) = .ok x)
      (fun body hb => (pool4_arrives x hok).1 cap body hb e.strict)
    rw [h4]
    refine fin h tb h3 rfl ?_
    have hq : quick h = q := quick_iff h2
    cases q
    · simp only [actN, Ask.cmd, pool4Rm, h1, withN, askedN, hq]; rfl
    · simp only [actN, Ask.cmd, pool4Rm, h1, withN, askedN, hq, if_true]
      cases protoOf x.proto with
      | none => rfl
      | some p =>
        dsimp only
        cases Pool4.rm e.kr p x.mark x.pfx x.min x.max s.pool4 <;> rfl
  | pool4Flush q =>
    obtain ⟨h, tb, h1, h2, h3, h4⟩ := reach hmsg ha rfl hs' (P := fun _ => True)
      (fun body hb => ⟨[], by cases hb; exact parse_nil _, trivial⟩)
    rw [h4]
    refine fin h tb h3 rfl ?_
    have hq : quick h = q := quick_iff h2
    cases q
    · simp only [actN, Ask.cmd, pool4Flush, askedN, hq]; rfl
    · simp only [actN, Ask.cmd, pool4Flush, askedN, hq]; rfl
  | bibAdd a6 a4 b =>
    obtain ⟨h, tb, h1, h2, h3, h4⟩ := reach hmsg ha rfl hs'
      (P := fun tb => kBib e.strict (Nla.get tb OPERAND) = .ok ⟨a6, a4, b, true⟩)
      (fun body hb => (bib_arrives a6 a4 b).1 cap body hb e.strict)
    rw [h4]
    refine fin h tb h3 rfl ?_
    simp only [actN, Ask.cmd, bibAdd, h1, withN, askedN]
    cases protoOf b with
    | none => rfl
    | some p =>
      dsimp only
      cases Pool4.contains e.own s.pool4 p a4 <;> rfl
  | bibRm a6 a4 b =>
    obtain ⟨h, tb, h1, h2, h3, h4⟩ := reach hmsg ha rfl hs'
      (P := fun tb => kBibRm e.strict (Nla.get tb OPERAND) = .ok (a6, a4, some b))
      (fun body hb => (bib_rm_arrives a6 a4 b hok).1 cap body hb e.strict)
    rw [h4]
    refine fin h tb h3 rfl ?_
    simp only [actN, Ask.cmd, bibRm, h1, withN, askedN]
    rfl
  | _ => exact hok.elim

/-- **Defect**, end to end: removing an EAM entry by one of its prefixes is refused by every instance, whatever it contains. -/
theorem eam_rm_one_fails (st : State) (e : Env) (p6 : Option Prefix6) (p4 : Option Prefix4) (cap : Nat)
    (iname : Option (List Byte)) (msg : List Byte) (s : Siit)
    (hmsg : (Ask.eamRm p6 p4).msg cap 1 iname = some msg) (h1 : p6 = none ∨ p4 = none) (h6 : ∀ p ∈ p6, p.len < 256)
    (ha : e.admin = true) (hon : st.siitOn = true) (hs : st.siit (target iname) = some s) :
    ∃ st', handle st e .eamRm msg = .ok (st', [], .error (.nl .EINVAL))
      ∧ st'.siit (target iname) = some s := by
  have hs' : (1 : BitVec 8) = 1 ∧ st.siitOn = true ∧ (st.siit (target iname)).isSome = true
      ∨ (1 : BitVec 8) = 2 ∧ st.nat64On = true ∧ (st.nat64 (target iname)).isSome = true :=
    .inl ⟨rfl, hon, by rw [hs]; rfl⟩
  obtain ⟨h, tb, k1, k2, k3, k4⟩ := reach hmsg ha rfl hs'
    (P := fun tb => kEamRm e.strict (Nla.get tb OPERAND) = .err .EINVAL)
    (fun body hb => eam_rm_one_refused p6 p4 h1 h6 cap body hb e.strict)
  refine ⟨st.setSiit (target iname) s, ?_, by simp [State.setSiit]⟩
  change handle st e .eamRm msg = act st e .eamRm h tb at k4
  rw [k4]
  unfold act
  dsimp only
  rw [k3, hs]
  simp only [Cmd.xt, if_true, actS, eamRm, k1, withS]
  rfl

/-- Any valid request to a valid name can be written in a message of 200 bytes besides the header. -/
theorem msg_exists (a : Ask) (cap : Nat) (xt : BitVec 8) (iname : Option (List Byte)) (hok : SiitOk a ∨ Nat64Ok a) (hc : 200 ≤ cap)
    (hn : inameOk (cstr (iname.getD DEFAULT)) = true) : ∃ msg, a.msg cap xt iname = some msg := by
  have hw : ∃ out, a.writer cap [] = some out := by
    cases a with
    | eamAdd x f =>
      rcases hok with h | h
      · exact (eam_arrives x h.1 h.2).2 cap hc
      · exact h.elim
    | eamRm p6 p4 =>
      rcases hok with ⟨x6, x4, rfl, rfl, h6, h4⟩ | h
      · exact (eam_rm_arrives ⟨x6, x4⟩ h6 h4).2 cap hc
      · exact h.elim
    | denyAdd p f =>
      rcases hok with h | h
      · exact (prefix4_arrives p h OPERAND (.inl rfl)).2 cap hc
      · exact h.elim
    | denyRm p =>
      rcases hok with h | h
      · exact (prefix4_arrives p h OPERAND (.inl rfl)).2 cap hc
      · exact h.elim
    | pool4Add x f =>
      rcases hok with h | h
      · exact h.elim
      · exact (pool4_arrives x h).2 cap hc
    | pool4Rm x f =>
      rcases hok with h | h
      · exact h.elim
      · exact (pool4_arrives x h).2 cap hc
    | bibAdd a6 a4 b => exact (bib_arrives a6 a4 b).2 cap hc
    | bibRm a6 a4 b =>
      rcases hok with h | h
      · exact h.elim
      · exact (bib_rm_arrives a6 a4 b h).2 cap hc
    | eamFlush | denyFlush | pool4Flush => exact ⟨[], rfl⟩
  obtain ⟨out, hw⟩ := hw
  unfold Ask.msg uMsg uHdr
  dsimp only
  rw [if_pos hn]
  simp only [Option.bind_some, hw, Option.map_some]
  exact ⟨_, rfl⟩

/-- The hypotheses can be met: a name and requests of both kinds. -/
example : inameOk (cstr ((some [65#8, 66#8] : Option (List Byte)).getD DEFAULT)) = true := by decide
example : SiitOk (.eamAdd ⟨⟨0x20010db8000000000000000000000000#128, 120⟩, ⟨0xc0000200#32, 24⟩⟩ true)
    ∧ Nat64Ok (.bibRm none (some ⟨0xc0000201#32, 80#16⟩) 1) := by
  refine ⟨⟨by decide, by decide⟩, .inr rfl⟩

end Jool.Req
