import Verif.Lemmas.FileLoad
/-
C74. Configuration files (`jool file handle`): the messages that are sent say what the file says, a file that is wrong is never
committed, and an upload that succeeds leaves exactly the configuration that the file describes.

The specification is `Verif.Props.FileSpec`: `FileSays` (what a file says) and `build` (the configuration that it describes).
-/
namespace Jool.File
open Jool.Nla Jool.NlAttr
open Jool.JooldMsg (Byte)
open Jool.Text (Text Inet caseEq GType GVal)
open Jool.Json (Json)
open Jool.Atomic (Conf Sys Key History Became requestLucky)
open Jool.Xlator (Flags xtOf)
variable {D : Type}

theorem frame_val {o : Option Json} {fw : BitVec 8} (h : FrameSays o fw) : fw = 4 ∨ fw = 8 := by
  rcases h with ⟨_, h⟩ | ⟨_, h⟩
  · exact Or.inl h
  · exact Or.inr h

/-- The three stages of an upload. -/
theorem load_stages (c : Ctx) (hxt : c.xt = 1 ∨ c.xt = 2) (hcap : 8 ≤ c.cap) (opt : Option Text) (j : Json) :
    (load c opt j).1 = [] ∧ (load c opt j).2 = .no ∨
    ∃ name fw h0 hd, prepare c.xt opt j = .ok (name, c.xt ||| fw) ∧ (fw = 4 ∨ fw = 8) ∧ nameOk name = true
      ∧ Req.uHdr c.xt (some (bytes name)) 0 = some h0 ∧ Req.uHdr c.xt (some (bytes name)) c.flags = some hd
      ∧ (load c opt j = ([initMsg h0 fw], .no) ∧ c.kernel [] (initMsg h0 fw) = false
        ∨ c.kernel [] (initMsg h0 fw) = true ∧ ((handleObject j (rootMeta c name) [initMsg h0 fw]).2 ≠ .ok
            ∧ load c opt j = handleObject j (rootMeta c name) [initMsg h0 fw]
          ∨ ∃ log, handleObject j (rootMeta c name) [initMsg h0 fw] = (log, .ok) ∧ load c opt j = send c (endMsg h0) log)) := by
  cases hp : prepare c.xt opt j with
  | no => left; unfold load; rw [hp]; exact ⟨rfl, rfl⟩
  | ub u => exact absurd hp (prepare_safe c.xt opt j u)
  | ok p =>
    right
    obtain ⟨name, flags⟩ := p
    obtain ⟨l, fw, rfl, hf, rfl, hn, _⟩ := prepare_ok hp
    obtain ⟨h0, e0⟩ := hdr_some hn c.xt 0
    obtain ⟨hd, e1⟩ := hdr_some hn c.xt c.flags
    refine ⟨name, fw, h0, hd, rfl, frame_val hf, hn, e0, e1, ?_⟩
    rw [load_eq c hxt hcap (frame_val hf) hp e0]
    rcases send_cases c (initMsg h0 fw) [] with ⟨hs, hk⟩ | ⟨hs, pre, m, hm, hk⟩
    · right
      refine ⟨hk, ?_⟩
      rw [hs]
      dsimp only [List.nil_append]
      rcases hr : handleObject (.obj l) (rootMeta c name) [initMsg h0 fw] with ⟨log, st⟩
      cases st with
      | ok => right; exact ⟨log, rfl, rfl⟩
      | nomem | no | ub u => left; exact ⟨(fun h => by cases h), rfl⟩
    · left
      rw [hs]
      cases pre with
      | nil => injection hm with hm; subst hm; exact ⟨rfl, hk⟩
      | cons a pre =>
        injection hm with _ hm
        cases pre <;> cases hm

/-! ## The conversation -/

/-- Only the last message may have been refused; if the result is success, none was. -/
def Stops (c : Ctx) (log : List Msg) (st : St) : Prop :=
  ∀ pre m post, log = pre ++ m :: post → (post ≠ [] ∨ st = .ok) → c.kernel pre m = true

theorem ran_stops {c : Ctx} {P : Msg → Prop} {log : List Msg} {st : St} (h : Ran c P [] log st) : Stops c log st := by
  obtain ⟨msgs, h1, _, h3, acc, rest, h4, h5, h6⟩ := h
  rw [List.nil_append] at h1
  subst h1
  intro pre m post hs hor
  rcases hor with hne | rfl
  · have hlen : pre.length < acc.length := by
      have := congrArg List.length (h4.symm.trans hs)
      rw [List.length_append, List.length_append, List.length_cons] at this
      have : 0 < post.length := List.length_pos_iff.2 hne
      omega
    have : ∃ post', acc = pre ++ m :: post' := by
      have e : (acc ++ rest).take acc.length = (pre ++ m :: post).take acc.length := by rw [← h4, hs]
      rw [List.take_left] at e
      obtain ⟨k, hk⟩ : ∃ k, acc.length = pre.length + (k + 1) := ⟨acc.length - pre.length - 1, by omega⟩
      rw [hk, List.take_length_add_append, List.take_succ_cons] at e
      exact ⟨_, e⟩
    obtain ⟨post', he⟩ := this
    have := (accepted_iff.1 h6) pre m post' he
    rwa [List.nil_append] at this
  · have := (accepted_iff.1 (h3 rfl)) pre m post hs
    rwa [List.nil_append] at this

theorem load_ran (c : Ctx) (hxt : c.xt = 1 ∨ c.xt = 2) (hcap : 8 ≤ c.cap) (opt : Option Text) (j : Json) :
    Ran c (fun _ => True) [] (load c opt j).1 (load c opt j).2 := by
  rcases load_stages c hxt hcap opt j with ⟨h1, h2⟩ | ⟨name, fw, h0, hd, hp, hfw, hn, e0, e1, h⟩
  · rw [h1, h2]; exact Ran.refl ..
  · have hi := ran_send c (P := fun _ => True) (m := initMsg h0 fw) trivial []
    rcases h with ⟨h, hk⟩ | ⟨hk, h⟩
    · have : send c (initMsg h0 fw) [] = ([initMsg h0 fw], .no) := by unfold send; rw [hk]; rfl
      rw [this] at hi
      rw [h]; exact hi
    · have : send c (initMsg h0 fw) [] = ([initMsg h0 fw], .ok) := by unfold send; rw [hk]; rfl
      rw [this] at hi
      have hr := (root_ran c name e1 j [initMsg h0 fw]).mono (Q := fun _ => True) (fun _ _ => trivial)
      rcases h with ⟨_, h⟩ | ⟨log, hs, h⟩
      · rw [h]; exact hi.trans hr
      · rw [hs] at hr
        rw [h]
        exact (hi.trans hr).trans (ran_send c trivial log)

/-- **Order.** A message is only sent if all the messages before it were accepted, and the upload is only reported as successful if all
of its messages were. -/
theorem stops (c : Ctx) (hxt : c.xt = 1 ∨ c.xt = 2) (hcap : 8 ≤ c.cap) (opt : Option Text) (j : Json) :
    Stops c (load c opt j).1 (load c opt j).2 := ran_stops (load_ran c hxt hcap opt j)

/-- **Nothing is sent at first sight of an error.** Before anything is sent the file was found to be an object that names a framework
and, unless the command line does, a valid instance, which is the one of the command line if there is one. -/
theorem quiet (c : Ctx) (opt : Option Text) (j : Json) (h : (load c opt j).1 ≠ []) :
    ∃ l name fw, j = .obj l ∧ FrameSays (member l "framework".toList) fw ∧ nameOk name = true
      ∧ (member l "instance".toList = some (.str name) ∧ (opt = none ∨ opt = some name)
        ∨ member l "instance".toList = none ∧ opt = some name) := by
  cases hp : prepare c.xt opt j with
  | no => unfold load at h; rw [hp] at h; exact absurd rfl h
  | ub u => exact absurd hp (prepare_safe c.xt opt j u)
  | ok p =>
    obtain ⟨l, fw, h1, h2, _, h4, h5⟩ := prepare_ok (name := p.1) (flags := p.2) hp
    exact ⟨l, p.1, fw, h1, h2, h4, h5⟩

/-- A successful second pass means that the file says something. -/
theorem says_of_pass {c : Ctx} (hxt : c.xt = 1 ∨ c.xt = 2) {opt : Option Text} {j : Json} {name : Text} {fw : BitVec 8}
    (hp : prepare c.xt opt j = .ok (name, c.xt ||| fw)) (hfw : fw = 4 ∨ fw = 8) {hd : List Byte}
    (e1 : Req.uHdr c.xt (some (bytes name)) c.flags = some hd) (hm : MarksSmall j) {log log' : List Msg}
    (h : handleObject j (rootMeta c name) log = (log', .ok)) :
    ∃ x msgs, FileSays c.i c.xt j name fw x ∧ (opt = none ∨ opt = some name) ∧ SectsMsgs c hd x msgs ∧ log' = log ++ msgs := by
  obtain ⟨l, x, msgs, rfl, ht, hi, hf, he, hs, hl⟩ := root_ok c hxt name e1 hm h
  obtain ⟨l', fw', e, k1, k2, k3, k4⟩ := prepare_ok hp
  injection e with e
  subst e
  have hfe : fw' = fw := by
    rcases hxt with hx | hx <;> rcases hfw with rfl | rfl <;> rcases frame_val k1 with rfl | rfl <;> first | rfl | (rw [hx] at k2; exact absurd k2 (by decide))
  subst hfe
  rcases k4 with ⟨k4, k5⟩ | ⟨k4, _⟩
  · exact ⟨x, msgs, ⟨l, rfl, hxt, ht, k4, k3, k1, he⟩, k5, hs, hl⟩
  · rw [k4] at hi; cases hi

/-- **A wrong file is never committed.** The message that ends the upload (as the kernel reads it) is the last one, it is only sent
after everything else was accepted, and only if the whole file says something: there is no error in it, however late. If the result is an
error, that message was refused or not sent. -/
theorem commit_last_partial (db : Dbs D) (c : Ctx) (hxt : c.xt = 1 ∨ c.xt = 2) (hcap : 8 ≤ c.cap) (hcap' : c.cap < 2 ^ 16)
    (opt : Option Text) (j : Json) (hm : MarksSmall j) {pre post : List Msg} {m : Msg} (hl : (load c opt j).1 = pre ++ m :: post) {e : Ext} {r : Atomic.Req D}
    (hr : toReq db e m = some r) (hfin : r.fin = true) :
    post = [] ∧ Accepted c [] pre ∧ ((load c opt j).2 = .ok ↔ c.kernel pre m = true)
      ∧ ∃ name fw x, FileSays c.i c.xt j name fw x ∧ (opt = none ∨ opt = some name) := by
  have hstop := stops c hxt hcap opt j
  rcases load_stages c hxt hcap opt j with ⟨h1, h2⟩ | ⟨name, fw, h0, hd, hp, hfw, hn, e0, e1, h⟩
  · rw [h1] at hl; cases pre <;> cases hl
  · have hinit : m ≠ initMsg h0 fw := by
      rintro rfl
      obtain ⟨r', k1, _, _, _, k5, _⟩ := init_read db c e0 fw e
      rw [hr] at k1; injection k1 with k1; rw [k1, k5] at hfin; cases hfin
    have hpart : ¬ IsPart c hd m := by
      intro hip
      rw [part_fin db c hcap' e1 hip hr] at hfin; cases hfin
    have hbody : ∀ {log st}, Ran c (IsPart c hd) [initMsg h0 fw] log st → m ∉ log := by
      rintro log st ⟨msgs, rfl, hall, _⟩ hmem
      rcases List.mem_append.1 hmem with hmem | hmem
      · rw [List.mem_singleton] at hmem; exact hinit hmem
      · exact hpart (hall m hmem)
    rcases h with ⟨h, hk⟩ | ⟨hk, h⟩
    · rw [h] at hl
      have : m ∈ [initMsg h0 fw] := by rw [show [initMsg h0 fw] = pre ++ m :: post from hl]; simp
      rw [List.mem_singleton] at this
      exact absurd this hinit
    · have hran := root_ran c name e1 j [initMsg h0 fw]
      rcases h with ⟨_, h⟩ | ⟨log, hs, h⟩
      · rw [h] at hl
        exact absurd (by rw [hl]; simp) (hbody hran)
      · rw [hs] at hran
        have hlog := hbody hran
        rw [h] at hl hstop ⊢
        have hl : log ++ [endMsg h0] = pre ++ m :: post := hl
        have hpost : post = [] := by
          rcases List.eq_nil_or_concat post with hpn | ⟨q, y, rfl⟩
          · exact hpn
          · exfalso
            rw [List.concat_eq_append, show pre ++ m :: (q ++ [y]) = (pre ++ m :: q) ++ [y] by simp] at hl
            have := List.append_inj_left' hl rfl
            exact hlog (by rw [this]; simp)
        subst hpost
        have hpre := List.append_inj_left' hl rfl
        have hlast := List.append_inj_right' hl rfl
        injection hlast with hlast
        subst hpre hlast
        refine ⟨rfl, ?_, ?_, ?_⟩
        · rw [accepted_iff]
          intro p x q hpq
          rw [List.nil_append]
          refine hstop p x (q ++ [endMsg h0]) ?_ (Or.inl (by simp))
          show log ++ [endMsg h0] = _
          rw [hpq]; simp
        · unfold send
          dsimp only
          constructor
          · intro hst; split at hst
            · assumption
            · cases hst
          · intro hk'; rw [if_pos hk']
        · obtain ⟨x, _, k1, k2, _⟩ := says_of_pass hxt hp hfw e1 hm hs
          exact ⟨name, fw, x, k1, k2⟩

/-! ## Files that say something are accepted -/

/-- **Completeness.** A file that says something is uploaded completely, unless the kernel refuses a message; that is then the last one.
(`cap` is the room in a message; "global" has to fit into one.) -/
theorem accepted_partial (c : Ctx) (hcap : 76 ≤ c.cap) {opt : Option Text} {j : Json} {name : Text} {fw : BitVec 8} {x : List Sect}
    (h : FileSays c.i c.xt j name fw x) (ho : opt = none ∨ opt = some name) (hm : MarksSmall j) (hfit : ∀ s ∈ x, Fits c.cap s) :
    (load c opt j).2 = .ok ∨ Refused c (load c opt j).1 := by
  obtain ⟨l, rfl, hxt, ht, hi, hn, hf, he⟩ := h
  have hp := prepare_complete hxt ht hi hn ho hf
  obtain ⟨h0, e0⟩ := hdr_some hn c.xt 0
  obtain ⟨hd, e1⟩ := hdr_some hn c.xt c.flags
  rw [load_eq c hxt (by omega) (frame_val hf) hp e0]
  rcases send_cases c (initMsg h0 fw) [] with ⟨hs, hk⟩ | ⟨hs, hr⟩
  · rw [hs]
    dsimp only
    have hroot := root_complete c hcap name e1 hm ht (by rw [hi]; rfl) (by rcases hf with ⟨h, _⟩ | ⟨h, _⟩ <;> rw [h] <;> rfl) he hfit
      ([] ++ [initMsg h0 fw])
    rcases hr : handleObject (.obj l) (rootMeta c name) ([] ++ [initMsg h0 fw]) with ⟨log, st⟩
    rw [hr] at hroot
    cases st with
    | ok =>
      dsimp only
      rcases send_cases c (endMsg h0) log with ⟨hs, _⟩ | ⟨hs, hr⟩
      · rw [hs]; exact Or.inl rfl
      · rw [hs]; exact Or.inr hr
    | nomem | no | ub u => exact hroot
  · rw [hs]; exact Or.inr hr

/-! ## What arrives -/

theorem xt_flags {xt fw : BitVec 8} (hxt : xt = 1 ∨ xt = 2) (hfw : fw = 4 ∨ fw = 8) : xtOf (fw ||| xt) = xt := by
  rcases hxt with rfl | rfl <;> rcases hfw with rfl | rfl <;> rfl

/-- An upload that has been started with this message. -/
theorem started {sys : Sys D} {db : Dbs D} {strict : Bool} {c : Ctx} {K : Key} {name : Text} (hK : K.name = nameOf name) {h0 : List Byte}
    (e0 : Req.uHdr c.xt (some (bytes name)) 0 = some h0) {fw : BitVec 8} {s s' : Atomic.St D} {all msgs : List Msg}
    (hu : Uploaded sys db strict K s all s') (ha : all = initMsg h0 fw :: msgs) (h : History sys K s none) :
    ∃ s1, History sys K s1 (some ⟨fw ||| c.xt, sys.dflt (xtOf (fw ||| c.xt)), sys.empty, sys.empty⟩) ∧ Uploaded sys db strict K s1 msgs s' := by
  induction hu with
  | done s => cases ha
  | other hs ho _ ih =>
    have := History.step h (orderly_other ho) hs
    rw [track_other ho] at this
    exact ih ha this
  | own h1 h2 h3 hr hs hrest _ =>
    injection ha with ha1 ha2
    subst ha1 ha2
    obtain ⟨r, k1, k2, k3, k4, k5, k6⟩ := init_read db c e0 fw _
    rw [hr] at k1
    injection k1 with k1
    subst k1
    have := init_step h (k2.trans (by rw [h1, h2, ← hK])) k4 k5 hs
    rw [apply_none k6, k3] at this
    exact ⟨_, this, hrest⟩

/-- **The configuration is what the file describes.** If the upload of a file is reported as successful then the file says something,
and — whatever others do meanwhile — when the kernel has accepted the messages, the instance that the file names has become exactly the
configuration that the file describes, starting from the defaults; nothing else changed at that moment. -/
theorem upload_exact_partial (sys : Sys D) (db : Dbs D) (strict : Bool) (c : Ctx) (hxt : c.xt = 1 ∨ c.xt = 2) (hcap : 8 ≤ c.cap)
    (hcap' : c.cap < 2 ^ 16) (opt : Option Text) (j : Json) (hm : MarksSmall j) {log : List Msg} (h : load c opt j = (log, .ok)) :
    ∃ name fw x front last, FileSays c.i c.xt j name fw x ∧ (opt = none ∨ opt = some name) ∧ log = front ++ [last] ∧
      ∀ (K : Key) (s s1 s2 : Atomic.St D) (e : Ext) (r : Atomic.Req D), K.name = nameOf name → (∀ y ∈ x, Full y) →
        History sys K s none → Uploaded sys db strict K s front s1 →
        e.ns = K.ns → e.pid = K.pid → toReq db e last = some r → requestLucky sys r s1 = .ok (s2, .ok) →
        ∃ conf n, build db c.force x ⟨fw ||| c.xt, sys.dflt c.xt, sys.empty, sys.empty⟩ = some conf ∧ Became s1 s2 K conf n := by
  rcases load_stages c hxt hcap opt j with ⟨h1, h2⟩ | ⟨name, fw, h0, hd, hp, hfw, hn, e0, e1, hst⟩
  · rw [h] at h2; cases h2
  · rcases hst with ⟨hst, _⟩ | ⟨_, ⟨hne, hst⟩ | ⟨log1, hs, hst⟩⟩
    · rw [h] at hst; injection hst with _ hst; cases hst
    · rw [← hst, h] at hne; exact absurd rfl hne
    · obtain ⟨x, msgs, hsay, hopt, hmsgs, rfl⟩ := says_of_pass hxt hp hfw e1 hm hs
      have hlog : log = ([initMsg h0 fw] ++ msgs) ++ [endMsg h0] := by
        rw [h] at hst; injection hst with hst _
      refine ⟨name, fw, x, _, _, hsay, hopt, hlog, ?_⟩
      intro K s s1 s2 e r hK hfull hist hup hens hepid hr hreq
      have hgood : ∀ y ∈ x, Good c.xt y := by
        obtain ⟨l, _, _, _, _, _, _, he⟩ := hsay
        have : ∀ y ∈ x, Full y → Good c.xt y := each_all he (fun _ _ hsay hf => good_of_says hsay hf)
        exact fun y hy => this y hy (hfull y hy)
      obtain ⟨fs, hreads, hchain⟩ := sects_reads db strict c e1 hcap' hmsgs hgood
      obtain ⟨s0, hist0, hup0⟩ := started hK e0 hup rfl hist
      have hist1 := uploaded_history hK hup0 hreads hist0
      obtain ⟨r', k1, k2, k3, k4, k5, k6⟩ := end_read db c e0 e
      rw [hr] at k1
      injection k1 with k1
      subst k1
      obtain ⟨cf, cf', n, hb1, hb2, hb3⟩ := Atomic.commit_exact_partial hist1 (k2.trans (by rw [hens, hepid, ← hK]))
        (by intro r'' f ho _ hi'; injection ho with ho; subst ho; rw [k4] at hi'; cases hi') k5 hreq
      rw [apply_none k6] at hb2
      injection hb2 with hb2
      subst hb2
      unfold Atomic.Req.base at hb1
      rw [k4] at hb1
      have hb1 : chain fs _ = some cf := hb1
      rw [hchain _ (xt_flags hxt hfw), xt_flags hxt hfw] at hb1
      split at hb1
      · exact ⟨cf, n, hb1, hb3⟩
      · cases hb1

/-! ## Safety -/

/-- **Safety.** Once the text has been parsed (C73), nothing undefined happens. -/
theorem load_safe (c : Ctx) (hxt : c.xt = 1 ∨ c.xt = 2) (hcap : 8 ≤ c.cap) (opt : Option Text) (j : Json) (u : UB) :
    (load c opt j).2 ≠ .ub u := by
  rcases load_stages c hxt hcap opt j with ⟨_, h⟩ | ⟨name, fw, h0, hd, hp, hfw, hn, e0, e1, h⟩
  · rw [h]; intro h; cases h
  · rcases h with ⟨h, _⟩ | ⟨_, ⟨_, h⟩ | ⟨log, _, h⟩⟩
    · rw [h]; intro h; cases h
    · rw [h]; exact root_safe c name j _ u
    · rw [h]; unfold send; dsimp only; split <;> intro h <;> cases h

theorem file_safe (c : Ctx) (hxt : c.xt = 1 ∨ c.xt = 2) (hcap : 8 ≤ c.cap) (opt : Option Text) (buf : Text)
    (h : ∀ u, Json.parse buf ≠ .ub u) (u : UB) : (fileParse c opt buf).2 ≠ .ub u := by
  unfold fileParse
  cases hp : Json.parse buf with
  | ub v => exact absurd hp (h v)
  | ok o =>
    cases o with
    | none => intro h; cases h
    | some j => exact load_safe c hxt hcap opt j u

/-! ## Defects -/

/-- A name that is only in the command line is not enough, although the first pass says that it is: the upload is started, and then
it fails. -/
theorem name_in_vain (c : Ctx) (hxt : c.xt = 1 ∨ c.xt = 2) (hcap : 8 ≤ c.cap) (opt : Option Text) (l : List (Text × Json))
    (hm : MarksSmall (.obj l)) (h : member l "instance".toList = none) : (load c opt (.obj l)).2 ≠ .ok := by
  intro hok
  rcases load_stages c hxt hcap opt (.obj l) with ⟨_, h2⟩ | ⟨name, fw, h0, hd, hp, hfw, hn, e0, e1, ⟨hst, _⟩ | ⟨_, ⟨hne, hst⟩ | ⟨log1, hs, _⟩⟩⟩
  · rw [h2] at hok; cases hok
  · rw [hst] at hok; cases hok
  · rw [hst] at hok; exact hne hok
  · obtain ⟨_, _, ⟨l', e, _, _, hi, _⟩, _⟩ := says_of_pass hxt hp hfw e1 hm hs
    injection e with e
    subst e
    rw [h] at hi; cases hi

/-! ## Examples -/

/-- A stand-in for the C library: the address is the length of the text. -/
def inet0 : Inet := ⟨fun s => some (BitVec.ofNat 32 s.length), fun _ => [], fun s => some (BitVec.ofNat 128 s.length), fun _ => []⟩

def num (n : Nat) : Json := .num ⟨false, n, 0⟩
def str (s : String) : Json := .str s.toList
def obj (l : List (String × Json)) : Json := .obj (l.map fun p => (p.1.toList, p.2))

def pool0 (mark : Nat) : Json :=
  obj [("protocol", str "TCP"), ("prefix", str "192.0.2.1/32"), ("port range", str "1-99"), ("mark", num mark)]

/-- A file. -/
def file0 (mark : Nat) : Json := obj [("comment", str "x"), ("Instance", str "a"), ("framework", str "netfilter"),
  ("global", obj [("lowest-ipv6-mtu", num 1500)]), ("pool4", .arr [pool0 mark, pool0 2])]

def ctx0 (cap : Nat) (kernel : List Msg → Msg → Bool) : Ctx := ⟨inet0, cap, 2, false, kernel⟩

/-- Each part is a message; if the room is small, the entries are distributed. -/
example : (load (ctx0 4000 fun _ _ => true) none (file0 1)).2 = .ok ∧ (load (ctx0 4000 fun _ _ => true) none (file0 1)).1.length = 4 := by
  decide +kernel
example : (load (ctx0 76 fun _ _ => true) none (file0 1)).2 = .ok ∧ (load (ctx0 76 fun _ _ => true) none (file0 1)).1.length = 5 := by
  decide +kernel

/-- The kernel refuses the second message. -/
example : (load (ctx0 76 fun l _ => l.length != 1) none (file0 1)).2 = .no ∧ (load (ctx0 76 fun l _ => l.length != 1) none (file0 1)).1.length = 2 := by
  decide +kernel

/-- Another name in the command line: nothing is sent. -/
example : load (ctx0 4000 fun _ _ => true) (some "b".toList) (file0 1) = ([], .no) := by decide +kernel

/-- An error at the end: everything before it was sent, but not the last message. -/
example : (load (ctx0 4000 fun _ _ => true) none (obj [("instance", str "a"), ("framework", str "netfilter"),
    ("global", obj [("lowest-ipv6-mtu", num 1500)]), ("pool4", .arr [str "x"])])).2 = .no ∧
  (load (ctx0 4000 fun _ _ => true) none (obj [("instance", str "a"), ("framework", str "netfilter"),
    ("global", obj [("lowest-ipv6-mtu", num 1500)]), ("pool4", .arr [str "x"])])).1.length = 2 := by decide +kernel

/-- The name of the command line is sent, in vain. -/
example : (load (ctx0 4000 fun _ _ => true) (some "b".toList) (obj [("framework", str "netfilter")])).2 = .no ∧
    (load (ctx0 4000 fun _ _ => true) (some "b".toList) (obj [("framework", str "netfilter")])).1.length = 1 := by decide +kernel

/-- The marks of the first file are small. -/
theorem file0_small : MarksSmall (file0 1) := by
  intro l hl p hp hc
  injection hl with hl
  subst hl
  have : p = ("pool4".toList, .arr [pool0 1, pool0 2]) := by
    have hf : real [("comment".toList, str "x"), ("Instance".toList, str "a"), ("framework".toList, str "netfilter"),
      ("global".toList, obj [("lowest-ipv6-mtu", num 1500)]), ("pool4".toList, .arr [pool0 1, pool0 2])] =
      [("Instance".toList, str "a"), ("framework".toList, str "netfilter"),
      ("global".toList, obj [("lowest-ipv6-mtu", num 1500)]), ("pool4".toList, .arr [pool0 1, pool0 2])] := rfl
    have hp : p ∈ real [("comment".toList, str "x"), ("Instance".toList, str "a"), ("framework".toList, str "netfilter"),
      ("global".toList, obj [("lowest-ipv6-mtu", num 1500)]), ("pool4".toList, .arr [pool0 1, pool0 2])] := hp
    rw [hf] at hp
    rcases List.mem_cons.1 hp with rfl | hp
    · exact absurd hc (by decide)
    rcases List.mem_cons.1 hp with rfl | hp
    · exact absurd hc (by decide)
    rcases List.mem_cons.1 hp with rfl | hp
    · exact absurd hc (by decide)
    exact List.mem_singleton.1 hp
  subst this
  intro l hl k hk
  injection hl with hl
  subst hl
  rcases List.mem_cons.1 hk with rfl | hk
  · intro l hl; injection hl with hl; subst hl; intro n hn; injection hn with hn; subst hn; decide +kernel
  · rw [List.mem_singleton] at hk
    subst hk
    intro l hl; injection hl with hl; subst hl; intro n hn; injection hn with hn; subst hn; decide +kernel

/-- Databases for the examples: lists of marks and addresses. -/
def db0 : Dbs (List Nat) := ⟨fun _ _ d => (d, false), fun _ _ d => (d, false), fun _ e d => (d ++ [e.mark.toNat, e.pfx.addr.toNat], true),
  fun _ _ d => (d, true), fun _ _ _ g => (g, true)⟩

def ext0 : Ext := ⟨0, 1, Xlator.calm, 0, true⟩

/-- The kernel processes messages of a client. -/
def kernelRun : Atomic.St (List Nat) → List Msg → Option (Atomic.St (List Nat))
  | s, [] => some s
  | s, m :: ms =>
    match toReq db0 ext0 m with
    | none => none
    | some r =>
      match requestLucky Atomic.sys0 r s with
      | .ok (s, .ok) => kernelRun s ms
      | _ => none

theorem kernelRun_uploaded {s s' : Atomic.St (List Nat)} {ms : List Msg} (h : kernelRun s ms = some s') (K : Key) (hk : K.ns = 0 ∧ K.pid = 1) :
    Uploaded Atomic.sys0 db0 true K s ms s' := by
  induction ms generalizing s with
  | nil => injection h with h; subst h; exact .done _
  | cons m ms ih =>
    unfold kernelRun at h
    split at h
    · cases h
    · rename_i r hr
      split at h
      · rename_i s1 hs
        exact .own hk.1.symm hk.2.symm rfl hr hs (ih h)
      · cases h

/-- The kernel accepts the messages of the file; then there is an instance with the entries of the file. -/
example : (kernelRun (Atomic.St.start Atomic.sys0) (load (ctx0 76 fun _ _ => true) none (file0 1)).1).map (fun s => s.w.table.map fun n => (n.xl.name, s.data n.xl.a))
    = some [([97], [1, 9, 2, 9])] := by decide +kernel

/-- So it says something. -/
example : ∃ name fw x, FileSays inet0 2 (file0 1) name fw x := by
  have h : (load (ctx0 4000 fun _ _ => true) none (file0 1)).2 = .ok := by decide +kernel
  rcases hl : load (ctx0 4000 fun _ _ => true) none (file0 1) with ⟨log, st⟩
  rw [hl] at h
  dsimp only at h
  subst h
  obtain ⟨name, fw, x, _, _, hs, _⟩ := upload_exact_partial Atomic.sys0 db0 true (ctx0 4000 fun _ _ => true) (Or.inr rfl) (by decide)
    (by decide) none (file0 1) file0_small hl
  exact ⟨name, fw, x, hs⟩

/-- Marks from 2147483648 are read as 0. -/
theorem mark_lost : pool4Entry inet0 (pool0 2147483648) = pool4Entry inet0 (pool0 0) := rfl

/-- … although they are in range. -/
example : MarkSays (some (num 2147483648)) 2147483648 := ⟨2147483648, ⟨_, rfl, by decide +kernel, by decide, by decide⟩, rfl⟩

/-- Fractions are cut off. -/
example : uint (.num ⟨false, 15, -1⟩) 0 255 = some 1 := by decide +kernel

/-- `jool -f` (usr/argp/main.c:673) dereferences NULL if the name is not a string. -/
theorem iname_null : getIname (obj [("instance", num 1)]) = .ub .nullDeref := rfl

end Jool.File
