import Verif.Lemmas.FileFirst
/-
The whole upload of a configuration file.
-/
namespace Jool.File
open Jool.Nla Jool.NlAttr
open Jool.JooldMsg (Byte)
open Jool.Text (Text Inet caseEq GType GVal)
open Jool.Json (Json)
open Jool.Atomic (Conf)
open Jool.Xlator (Flags xtOf)
variable {D : Type}

theorem hdr_some {name : Text} (h : nameOk name = true) (xt flags : BitVec 8) : ∃ hd, Req.uHdr xt (some (bytes name)) flags = some hd := by
  unfold Req.uHdr
  dsimp only [Option.getD_some]
  have : Req.inameOk (Req.cstr (bytes name)) = true := by
    unfold nameOk at h
    unfold Req.inameOk at h ⊢
    rw [Req.cstr_idem]
    exact h
  rw [if_pos this]
  exact ⟨_, rfl⟩

/-- The first message. -/
def initMsg (h0 : List Byte) (fw : BitVec 8) : Msg := h0 ++ enc (aU8 INIT fw)
/-- The last message. -/
def endMsg (h0 : List Byte) : Msg := h0 ++ enc (aRaw END [])

theorem ctrl_init (c : Ctx) (hcap : 8 ≤ c.cap) {name : Text} {h0 : List Byte} (h : Req.uHdr c.xt (some (bytes name)) 0 = some h0)
    (fw : BitVec 8) (log : List Msg) : ctrl c name (putU8 c.cap INIT fw) log = send c (initMsg h0 fw) log := by
  unfold ctrl
  rw [h]
  dsimp only
  rw [w_u8 c.cap INIT fw [], if_pos (by rw [len_u8]; exact hcap)]
  rfl

theorem ctrl_end (c : Ctx) (hcap : 8 ≤ c.cap) {name : Text} {h0 : List Byte} (h : Req.uHdr c.xt (some (bytes name)) 0 = some h0)
    (log : List Msg) : ctrl c name (put c.cap END []) log = send c (endMsg h0) log := by
  unfold ctrl
  rw [h]
  dsimp only
  rw [w_raw c.cap END [] [], if_pos (by rw [enc_aRaw]; exact Nat.le_trans (by decide) hcap)]
  rfl

theorem second_eq (c : Ctx) (hxt : c.xt = 1 ∨ c.xt = 2) (name : Text) {fw : BitVec 8} (hfw : fw = 4 ∨ fw = 8) (j : Json) (log : List Msg) :
    second c name (c.xt ||| fw) j log = handleObject j (rootMeta c name) log := by
  unfold second rootMeta
  rcases hxt with h | h <;> rcases hfw with rfl | rfl <;> rw [h] <;> rfl

/-- The upload, when the first pass succeeds. -/
theorem load_eq (c : Ctx) (hxt : c.xt = 1 ∨ c.xt = 2) (hcap : 8 ≤ c.cap) {opt : Option Text} {j : Json} {name : Text} {fw : BitVec 8}
    (hfw : fw = 4 ∨ fw = 8) (hp : prepare c.xt opt j = .ok (name, c.xt ||| fw)) {h0 : List Byte}
    (h0e : Req.uHdr c.xt (some (bytes name)) 0 = some h0) :
    load c opt j = match send c (initMsg h0 fw) [] with
      | (log, .ok) =>
        match handleObject j (rootMeta c name) log with
        | (log, .ok) => send c (endMsg h0) log
        | r => r
      | r => r := by
  unfold load
  rw [hp]
  dsimp only
  have e1 : (c.xt ||| fw) &&& 0x0C = fw := by
    rcases hxt with h | h <;> rcases hfw with rfl | rfl <;> rw [h] <;> rfl
  rw [e1, ctrl_init c hcap h0e]
  rcases send c (initMsg h0 fw) [] with ⟨log, st⟩
  cases st with
  | ok =>
    dsimp only
    rw [second_eq c hxt name hfw]
    rcases handleObject j (rootMeta c name) log with ⟨log, st⟩
    cases st with
    | ok => exact ctrl_end c hcap h0e log
    | nomem | no | ub u => rfl
  | nomem | no | ub u => rfl

/-! ### What the kernel reads -/

theorem init_read (db : Dbs D) (c : Ctx) {name : Text} {h0 : List Byte} (h : Req.uHdr c.xt (some (bytes name)) 0 = some h0) (fw : BitVec 8)
    (e : Ext) : ∃ r, toReq db e (initMsg h0 fw) = some r ∧ r.key = ⟨e.ns, e.pid, nameOf name⟩ ∧ r.xt = c.xt ∧ r.init = some fw
      ∧ r.fin = false ∧ Parts r none none none none none := by
  have hp : kParse e.strict rootPolicy (enc (aU8 INIT fw)) = .ok [aU8 INIT fw] := by
    have := kParse_encs e.strict rootPolicy [aU8 INIT fw] (by simpa using small_u8 INIT fw (by decide)) (by
      rw [List.all_cons, List.all_nil, Bool.and_true]; exact ka_u8 ..)
    rwa [List.flatMap_cons, List.flatMap_nil, List.append_nil] at this
  obtain ⟨r, h1, h2, h3, h4, h5, h6, h7, h8, h9, h10⟩ := listMsg_key db { c with force := false } (name := name) (hd := h0) h e hp
  rw [get_one] at h4 h5 h6 h7 h8 h9 h10
  refine ⟨r, h1, h2, h3, ?_, h10, h5, h6, h7, h8, h9⟩
  rw [h4, ty_u8, if_pos rfl, Option.map_some, getU8_aU8]

theorem end_read (db : Dbs D) (c : Ctx) {name : Text} {h0 : List Byte} (h : Req.uHdr c.xt (some (bytes name)) 0 = some h0)
    (e : Ext) : ∃ r, toReq db e (endMsg h0) = some r ∧ r.key = ⟨e.ns, e.pid, nameOf name⟩ ∧ r.xt = c.xt ∧ r.init = none
      ∧ r.fin = true ∧ Parts r none none none none none := by
  have hp : kParse e.strict rootPolicy (enc (aRaw END [])) = .ok [aRaw END []] := by
    have := kParse_encs e.strict rootPolicy [aRaw END []] (by intro a ha; rw [List.mem_singleton] at ha; subst ha; exact ⟨by decide, by decide⟩) (by
      cases e.strict <;> decide)
    rwa [List.flatMap_cons, List.flatMap_nil, List.append_nil] at this
  obtain ⟨r, h1, h2, h3, h4, h5, h6, h7, h8, h9, h10⟩ := listMsg_key db { c with force := false } (name := name) (hd := h0) h e hp
  rw [get_one] at h4 h5 h6 h7 h8 h9 h10
  exact ⟨r, h1, h2, h3, h4, h10, h5, h6, h7, h8, h9⟩

/-- The messages of the parts do not end the upload. -/
theorem part_fin (db : Dbs D) (c : Ctx) (hc : c.cap < 2 ^ 16) {name : Text} {hd : List Byte}
    (h : Req.uHdr c.xt (some (bytes name)) c.flags = some hd) {m : Msg} (hm : IsPart c hd m) {e : Ext} {r : Atomic.Req D}
    (hr : toReq db e m = some r) : r.fin = false := by
  have key : ∀ {body : List Byte} {tb : List Attr}, kParse e.strict rootPolicy body = .ok tb → (Nla.get tb END).isSome = false →
      m = hd ++ body → r.fin = false := by
    intro body tb hp hg hb
    obtain ⟨r', h1, _, _, _, _, _, _, _, _, h10⟩ := listMsg_key db c h e hp
    rw [← hb, hr] at h1
    injection h1 with h1
    rw [h1, h10, hg]
  rcases hm with ⟨x, hx, hl⟩ | ⟨es, hx, hne, hl⟩ | ⟨es, hx, hne, hl⟩ | ⟨es, hx, hne, hl⟩ | ⟨es, hx, hne, hl⟩
  · by_cases he : setAttrs x = []
    · unfold globalsBody at hx
      rw [if_pos he] at hx
      exact key (Req.parse_nil _) rfl hx
    · unfold globalsBody at hx
      rw [if_neg he] at hx
      exact key (nested_root e.strict (by decide) he (Nat.lt_of_le_of_lt hl hc)) (by rw [get_one]; rfl) hx
  all_goals
    exact key (nested_root e.strict (by decide) (by simpa using hne) (Nat.lt_of_le_of_lt hl hc)) (by rw [get_one]; rfl) hx

/-! ### Good parts -/

theorem each_pairwise {α β : Type} {R : α → β → Prop} {S : α → α → Prop} {T : β → β → Prop} {as : List α} {bs : List β} (h : Each R as bs)
    (hs : as.Pairwise S) (ht : ∀ a a' b b', R a b → R a' b' → S a a' → T b b') : bs.Pairwise T := by
  induction h with
  | nil => exact .nil
  | cons hr hrest ih =>
    rw [List.pairwise_cons] at hs
    refine .cons ?_ (ih hs.2)
    intro b' hb'
    have : ∀ {as bs}, Each R as bs → ∀ b' ∈ bs, ∃ a' ∈ as, R a' b' := by
      intro as bs h
      induction h with
      | nil => intro b hb; cases hb
      | cons hr _ ih =>
        intro b hb
        rcases List.mem_cons.1 hb with rfl | hb
        · exact ⟨_, .head _, hr⟩
        · obtain ⟨a, ha, hR⟩ := ih b hb
          exact ⟨a, .tail _ ha, hR⟩
    obtain ⟨a', ha', hR⟩ := this hrest b' hb'
    exact ht _ _ _ _ hr hR (hs.1 a' ha')

theorem each_all {α β : Type} {R : α → β → Prop} {P : β → Prop} {as : List α} {bs : List β} (h : Each R as bs)
    (hp : ∀ a b, R a b → P b) : ∀ b ∈ bs, P b := by
  induction h with
  | nil => intro b hb; cases hb
  | cons hr _ ih =>
    intro b hb
    rcases List.mem_cons.1 hb with rfl | hb
    · exact hp _ _ hr
    · exact ih b hb

/-- No list of plateaus is empty. -/
def Full : Sect → Prop
  | .globals l => ∀ y ∈ l, y.2 ≠ .plateaus []
  | _ => True

theorem good_globals {i : Inet} {j : Json} {x : List (Nat × GVal)} (h : GlobalsSay i j x) (hf : ∀ y ∈ x, y.2 ≠ .plateaus []) :
    GoodSettings x := by
  obtain ⟨l, _, ht, he⟩ := h
  refine ⟨?_, ?_, ?_⟩
  · refine each_pairwise he ht.2 ?_
    rintro p q y z ⟨n, ty, h1, h2, _⟩ ⟨n', ty', h1', h2', _⟩ hne heq
    have e1 := find_id (doc_iff.1 h1)
    have e2 := find_id (doc_iff.1 h1')
    dsimp only at e1 e2
    rw [heq, e2] at e1
    injection e1 with e1
    injection e1 with e1
    subst e1
    rw [caseEq_trans h2, caseEq_symm, h2'] at hne
    cases hne
  · intro y hy
    have := hf y hy
    cases hv : y.2 with
    | plateaus l =>
      cases l with
      | nil => exact absurd hv this
      | cons a l => rfl
    | _ => rfl
  · refine each_all he ?_
    rintro p y ⟨n, ty, h1, _, h3⟩
    exact ⟨_, doc_iff.1 h1, rfl, typed_of h3⟩

theorem good_of_says {i : Inet} {xt : BitVec 8} {p : Text × Json} {s : Sect} (h : SectSays i xt p s) (hf : Full s) : Good xt s := by
  cases h with
  | globals _ h => exact good_globals h hf
  | eamt hx _ h =>
    obtain ⟨_, _, h⟩ := h
    refine ⟨hx, each_all h ?_⟩
    rintro _ e ⟨_, _, _, _, _, _, h1, _, h2⟩
    exact ⟨prefix6_lt h1, prefix4_lt h2⟩
  | deny hx _ h =>
    obtain ⟨_, _, h⟩ := h
    refine ⟨hx, each_all h ?_⟩
    rintro _ e ⟨_, _, h1⟩
    exact prefix4_lt h1
  | pool4 hx _ h =>
    obtain ⟨_, _, h⟩ := h
    refine ⟨hx, each_all h ?_⟩
    rintro _ e ⟨_, _, _, _, _, _, _, _, _, h1, _⟩
    exact prefix4_lt h1
  | bib hx _ h => exact hx

/-! ### Uploads -/

open Jool.Atomic (Sys AOp Key History Became requestLucky astep)

/-- The messages of client `K` are accepted one after the other, while others do what they want. -/
inductive Uploaded (sys : Sys D) (db : Dbs D) (strict : Bool) (K : Key) : Atomic.St D → List Msg → Atomic.St D → Prop
  | done (s) : Uploaded sys db strict K s [] s
  | other {s s1 s2 o code msgs} : astep sys s o = .ok (s1, code) → (∀ r, o = .req r → r.key ≠ K) →
      Uploaded sys db strict K s1 msgs s2 → Uploaded sys db strict K s msgs s2
  | own {s s1 s2 e r m msgs} : e.ns = K.ns → e.pid = K.pid → e.strict = strict → toReq db e m = some r →
      requestLucky sys r s = .ok (s1, .ok) → Uploaded sys db strict K s1 msgs s2 → Uploaded sys db strict K s (m :: msgs) s2

theorem track_other {sys : Sys D} {K : Key} {m : Option (Conf D)} {o : AOp D} {code : Xlator.Code} (h : ∀ r, o = .req r → r.key ≠ K) :
    Atomic.track sys K m o code = m := by
  cases o with
  | req r => unfold Atomic.track; dsimp only; rw [if_neg (h r rfl)]
  | _ => rfl

theorem orderly_other {K : Key} {m : Option (Conf D)} {o : AOp D} (h : ∀ r, o = .req r → r.key ≠ K) : Atomic.Orderly K m o := by
  intro r f ho hk
  exact absurd hk (h r ho)

/-- A request that continues the upload. -/
theorem own_step {sys : Sys D} {K : Key} {s s1 : Atomic.St D} {m : Option (Conf D)} {r : Atomic.Req D} (h : History sys K s m) (hk : r.key = K)
    (hi : r.init = none) (hf : r.fin = false) (hs : requestLucky sys r s = .ok (s1, .ok)) : History sys K s1 (m.bind r.apply) := by
  have hst := History.step h (o := .req r)
    (by intro r' f ho _ hi'; injection ho with ho; subst ho; rw [hi] at hi'; cases hi') hs
  have ht : Atomic.track sys K m (.req r) .ok = m.bind r.apply := by
    unfold Atomic.track
    dsimp only
    rw [if_pos hk, if_pos ⟨rfl, hf⟩]
    unfold Atomic.Req.base
    rw [hi]
  rwa [ht] at hst

/-- A request that starts the upload. -/
theorem init_step {sys : Sys D} {K : Key} {s s1 : Atomic.St D} {r : Atomic.Req D} {fw : BitVec 8} (h : History sys K s none) (hk : r.key = K)
    (hi : r.init = some fw) (hf : r.fin = false) (hs : requestLucky sys r s = .ok (s1, .ok)) :
    History sys K s1 (r.apply ⟨fw ||| r.xt, sys.dflt (xtOf (fw ||| r.xt)), sys.empty, sys.empty⟩) := by
  have hst := History.step h (o := .req r) (by intro _ _ _ _ _; rfl) hs
  have ht : Atomic.track sys K none (.req r) .ok = r.apply ⟨fw ||| r.xt, sys.dflt (xtOf (fw ||| r.xt)), sys.empty, sys.empty⟩ := by
    unfold Atomic.track
    dsimp only
    rw [if_pos hk, if_pos ⟨rfl, hf⟩]
    unfold Atomic.Req.base
    rw [hi]
    rfl
  rwa [ht] at hst

theorem uploaded_history {sys : Sys D} {db : Dbs D} {strict : Bool} {K : Key} {name : Text} (hK : K.name = nameOf name) {xt : BitVec 8}
    {s s' : Atomic.St D} {msgs : List Msg} (hu : Uploaded sys db strict K s msgs s') : ∀ {fs : List (Conf D → Option (Conf D))} {m : Option (Conf D)},
    Each (Reads db strict name xt) msgs fs → History sys K s m → History sys K s' (m.bind (chain fs)) := by
  induction hu with
  | done s =>
    intro fs m he h
    cases he
    have : m.bind (chain []) = m := by cases m <;> rfl
    rw [this]
    exact h
  | other hs ho _ ih =>
    intro fs m he h
    have := History.step h (orderly_other ho) hs
    rw [track_other ho] at this
    exact ih he this
  | own h1 h2 h3 hr hs _ ih =>
    intro fs m he h
    cases he with
    | cons hread hrest =>
      obtain ⟨r', k1, k2, k3, k4, k5, k6⟩ := hread _ h3
      rw [hr] at k1
      injection k1 with k1
      subst k1
      have hst := own_step h (k2.trans (by rw [h1, h2, ← hK])) k4 k5 hs
      rw [k6] at hst
      have := ih hrest hst
      rw [Option.bind_assoc] at this
      exact this

end Jool.File
