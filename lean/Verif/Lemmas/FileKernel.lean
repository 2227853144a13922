import Verif.Lemmas.FileRun
import Verif.Props.Requests
import Verif.Props.Atomic
/-
What the kernel module reads in the messages that carry a configuration file.
-/
namespace Jool.File
open Jool.Nla Jool.NlAttr
open Jool.JooldMsg (Byte be)
open Jool.Text (Text Inet caseEq GType GVal)
open Jool.Json (Json)
open Jool.Atomic (Conf)
open Jool.Xlator (Flags xtOf)
variable {D : Type}

/-! ### Lengths -/

theorem strToPrefix_lt {α : Type} {cap max : Nat} {pton : Text → Option α} {s : Text} {p : α × Nat} (hm : max < 256)
    (h : Text.strToPrefix cap max pton s = some p) : p.2 < 256 := by
  unfold Text.strToPrefix at h
  split at h
  · cases h
  · split at h
    · cases h
    · split at h
      · cases h
      · split at h
        · cases h; exact hm
        · rw [Option.map_eq_some_iff] at h
          obtain ⟨v, hv, rfl⟩ := h
          unfold Text.strToU8 at hv
          rw [Option.map_eq_some_iff] at hv
          obtain ⟨w, _, rfl⟩ := hv
          exact Nat.mod_lt _ (by decide)

theorem prefix4_lt {i : Inet} {s : Text} {p : Prefix4} (h : Text.strToPrefix4 i s = some p) : p.len < 256 := by
  unfold Text.strToPrefix4 at h
  rw [Option.map_eq_some_iff] at h
  obtain ⟨q, hq, rfl⟩ := h
  exact strToPrefix_lt (by decide) hq

theorem prefix6_lt {i : Inet} {s : Text} {p : Prefix6} (h : Text.strToPrefix6 i s = some p) : p.len < 256 := by
  unfold Text.strToPrefix6 at h
  rw [Option.map_eq_some_iff] at h
  obtain ⟨q, hq, rfl⟩ := h
  exact strToPrefix_lt (by decide) hq

/-! ### The header -/

/-- The name of the instance, as the kernel compares it. -/
def nameOf (n : Text) : Xlator.Name := (Req.cstr (bytes n)).map (·.toNat)

theorem hdr_read {xt flags : BitVec 8} {name hd body : List Byte} (h : Req.uHdr xt (some name) flags = some hd) :
    ∃ hdr, Req.decHdr (hd ++ body) = some (hdr, body) ∧ hdr.xt = xt ∧ hdr.flags = flags ∧ Req.cstr hdr.iname = Req.cstr name := by
  obtain ⟨hdr, h1, _, _, h4, h5, _, _⟩ := Req.decHdr_uHdr (body := body) h
  refine ⟨hdr, h1, h4, h5, ?_⟩
  unfold Req.uHdr at h
  dsimp only [Option.getD_some] at h
  split at h
  · rename_i hok
    rw [Option.some.injEq] at h
    have hl : (Req.cstr name).length < 16 := by
      unfold Req.inameOk at hok
      rw [Req.cstr_idem] at hok
      simp only [Bool.and_eq_true, decide_eq_true_eq] at hok
      exact hok.1
    unfold Req.decHdr at h1
    split at h1
    · cases h1
    · rw [Option.some.injEq, Prod.mk.injEq] at h1
      rw [← h1.1]
      dsimp only
      have hlen : (Req.cstr name ++ List.replicate (16 - (Req.cstr name).length) 0#8).length = 16 := by
        rw [List.length_append, List.length_replicate]; omega
      have e : (hd ++ body).drop 12 = (Req.cstr name ++ List.replicate (16 - (Req.cstr name).length) 0#8) ++ body := by
        rw [← h]
        have : be 4 Req.VERSION.toNat = [4, 1, 15, 0] := by decide
        rw [this]
        simp [Req.MAGIC]
      rw [e, List.take_append_of_le_length (by omega), List.take_of_length_le (by omega), Req.cstr_pad]
  · cases h

/-! ### Messages -/

theorem get_one (a : Attr) (k : Nat) : Nla.get [a] k = if a.ty = k then some a else none := by
  unfold Nla.get
  by_cases h : a.ty = k
  · rw [if_pos h, List.filter_cons_of_pos (by simpa using h)]; rfl
  · rw [if_neg h, List.filter_cons_of_neg (by simpa using h)]; rfl

/-- How the kernel understands a message that neither starts nor ends an upload. -/
def Reads (db : Dbs D) (strict : Bool) (name : Text) (xt : BitVec 8) (m : Msg) (f : Conf D → Option (Conf D)) : Prop :=
  ∀ e : Ext, e.strict = strict → ∃ r, toReq db e m = some r ∧ r.key = ⟨e.ns, e.pid, nameOf name⟩ ∧ r.xt = xt ∧ r.init = none
    ∧ r.fin = false ∧ r.apply = f

theorem nested_root (s : Bool) {ty : Nat} {as : List Attr} (hty : 2 ≤ ty ∧ ty ≤ 6) (hne : as ≠ [])
    (hl : 4 + (as.flatMap enc).length < 2 ^ 16) : kParse s rootPolicy (enc (aNest ty as)) = .ok [aNest ty as] := by
  have hsm : Small (aNest ty as) := small_of (by show ty < 2 ^ 14; omega) (by rw [enc_aNest]; exact hl)
  have := kParse_encs s rootPolicy [aNest ty as] (by simpa using hsm) (by
    rw [List.all_cons, List.all_nil, Bool.and_true]
    cases as with
    | nil => exact absurd rfl hne
    | cons a as =>
      obtain ⟨h1, h2⟩ := hty
      have : ty = 2 ∨ ty = 3 ∨ ty = 4 ∨ ty = 5 ∨ ty = 6 := by omega
      rcases this with rfl | rfl | rfl | rfl | rfl <;> exact ka_nest ..)
  rwa [List.flatMap_cons, List.flatMap_nil, List.append_nil] at this

/-- The flag in the header. -/
theorem forced_flags (c : Ctx) : (c.flags &&& Req.FORCE != 0) = c.force := by
  unfold Ctx.flags
  cases c.force <;> decide

theorem addAll_map {α : Type} (read : Option Attr → Res α) (add : α → D → D × Bool) (f : α → Attr) (hty : ∀ a, (f a).ty = ENTRY) :
    ∀ (l : List α) (d : D), (∀ a ∈ l, read (some (f a)) = .ok a) →
    (if (addAll read add (l.map f) d).2 then some (addAll read add (l.map f) d).1 else none) = addEach add l d := by
  intro l
  induction l with
  | nil => intro d _; rfl
  | cons a l ih =>
    intro d hr
    have e : addAll read add ((a :: l).map f) d = if (add a d).2 then addAll read add (l.map f) (add a d).1 else add a d := by
      rw [List.map_cons, addAll, if_neg (show ¬ (f a).ty ≠ ENTRY from fun h => h (hty a)), hr a (.head _)]
    rw [e]
    rw [addEach]
    cases hb : (add a d).2 with
    | true => rw [if_pos rfl, if_pos rfl]; exact ih _ (fun b hb => hr b (.tail _ hb))
    | false => rw [if_neg Bool.false_ne_true, if_neg Bool.false_ne_true, hb]; rfl

theorem attrs_list {α : Type} (f : α → Attr) (ty : Nat) (es : List α) (hs : ∀ a, Small (f a)) :
    (attrs (aNest ty (es.map f)).data).1 = es.map f := by
  show (attrs ((es.map f).flatMap enc)).1 = _
  rw [attrs_encs _ (by intro a ha; obtain ⟨x, _, rfl⟩ := List.mem_map.1 ha; exact hs x)]

theorem listMsg_key (db : Dbs D) (c : Ctx) {name : Text} {hd : List Byte} (hh : Req.uHdr c.xt (some (bytes name)) c.flags = some hd)
    (e : Ext) {body : List Byte} {tb : List Attr} (hp : kParse e.strict rootPolicy body = .ok tb) :
    ∃ r, toReq db e (hd ++ body) = some r ∧ r.key = ⟨e.ns, e.pid, nameOf name⟩ ∧ r.xt = c.xt
      ∧ r.init = (Nla.get tb INIT).map (fun a => match getU8 (some a) with | .ok v => v | _ => 0)
      ∧ r.globals = ((Nla.get tb GLOBALS).map fun a f g =>
          match kParseGlobals e.strict f a with
          | .ok tb => db.globals f c.force (kAttrs e.strict tb) g
          | _ => (g, false))
      ∧ r.deny = ((Nla.get tb DENY).map fun a => addAll (kPrefix4 e.strict) (db.deny c.force) (attrs a.data).1)
      ∧ r.eamt = ((Nla.get tb EAMT).map fun a => addAll (kEam e.strict) (db.eam c.force) (attrs a.data).1)
      ∧ r.pool4 = ((Nla.get tb POOL4).map fun a => addAll (kPool4 e.strict) (db.pool4 c.force) (attrs a.data).1)
      ∧ r.bib = ((Nla.get tb BIB).map fun a p => addAll (kBib e.strict) (fun x => db.bib x p) (attrs a.data).1)
      ∧ r.fin = (Nla.get tb END).isSome := by
  obtain ⟨hdr, h1, h2, h3, h4⟩ := hdr_read (body := body) hh
  unfold toReq
  rw [h1]
  dsimp only
  rw [hp]
  dsimp only
  rw [h3, forced_flags]
  refine ⟨_, rfl, ?_, h2, rfl, rfl, rfl, rfl, rfl, rfl, rfl⟩
  unfold Atomic.Req.key nameOf
  rw [h4]

theorem addEach_append {α : Type} (add : α → D → D × Bool) : ∀ (l l' : List α) (d : D),
    addEach add (l ++ l') d = (addEach add l d).bind (addEach add l') := by
  intro l
  induction l with
  | nil => intro l' d; rfl
  | cons a l ih =>
    intro l' d
    rw [List.cons_append, addEach, addEach]
    split
    · exact ih _ _
    · rfl

/-- The parts that a list of attributes has. -/
structure Parts (r : Atomic.Req D) (g : Option (Flags → Xlator.Glob → Xlator.Glob × Bool)) (d e p : Option (D → D × Bool))
    (b : Option (D → D → D × Bool)) : Prop where
  globals : r.globals = g
  deny : r.deny = d
  eamt : r.eamt = e
  pool4 : r.pool4 = p
  bib : r.bib = b

theorem sec_none {α : Type} (f : α → Conf D → Option (Conf D)) : Atomic.Section none f = some := rfl
theorem sec_some {α : Type} (a : α) (f : α → Conf D → Option (Conf D)) : Atomic.Section (some a) f = f a := rfl
theorem bind_sec (o : Option (Conf D)) : o.bind some = o := by cases o <;> rfl

theorem apply_none {r : Atomic.Req D} (h : Parts r none none none none none) (conf : Conf D) : r.apply conf = some conf := by
  simp only [Atomic.Req.apply, h.globals, h.deny, h.eamt, h.pool4, h.bib, sec_none, sec_some, Option.bind_some, bind_sec]
theorem apply_globals {r : Atomic.Req D} {f} (h : Parts r (some f) none none none none) (conf : Conf D) : r.apply conf
    = if (f (xtOf conf.flags) conf.globals).2 then some { conf with globals := (f (xtOf conf.flags) conf.globals).1 } else none := by
  simp only [Atomic.Req.apply, h.globals, h.deny, h.eamt, h.pool4, h.bib, sec_none, sec_some, Option.bind_some, bind_sec]
theorem apply_deny {r : Atomic.Req D} {f} (h : Parts r none (some f) none none none) (conf : Conf D) : r.apply conf
    = if xtOf conf.flags = 1 then (if (f conf.b).2 then some (f conf.b).1 else none).map (fun b => { conf with b := b }) else none := by
  simp only [Atomic.Req.apply, h.globals, h.deny, h.eamt, h.pool4, h.bib, sec_none, sec_some, Option.bind_some, bind_sec]
  by_cases hx : xtOf conf.flags = 1 <;> cases hb : (f conf.b).2 <;> simp [hx, hb]
theorem apply_eamt {r : Atomic.Req D} {f} (h : Parts r none none (some f) none none) (conf : Conf D) : r.apply conf
    = if xtOf conf.flags = 1 then (if (f conf.a).2 then some (f conf.a).1 else none).map (fun a => { conf with a := a }) else none := by
  simp only [Atomic.Req.apply, h.globals, h.deny, h.eamt, h.pool4, h.bib, sec_none, sec_some, Option.bind_some, bind_sec]
  by_cases hx : xtOf conf.flags = 1 <;> cases hb : (f conf.a).2 <;> simp [hx, hb]
theorem apply_pool4 {r : Atomic.Req D} {f} (h : Parts r none none none (some f) none) (conf : Conf D) : r.apply conf
    = if xtOf conf.flags = 2 then (if (f conf.a).2 then some (f conf.a).1 else none).map (fun a => { conf with a := a }) else none := by
  simp only [Atomic.Req.apply, h.globals, h.deny, h.eamt, h.pool4, h.bib, sec_none, sec_some, Option.bind_some, bind_sec]
  by_cases hx : xtOf conf.flags = 2 <;> cases hb : (f conf.a).2 <;> simp [hx, hb]
theorem apply_bib {r : Atomic.Req D} {f} (h : Parts r none none none none (some f)) (conf : Conf D) : r.apply conf
    = if xtOf conf.flags = 2 then (if (f conf.a conf.b).2 then some (f conf.a conf.b).1 else none).map (fun b => { conf with b := b })
      else none := by
  simp only [Atomic.Req.apply, h.globals, h.deny, h.eamt, h.pool4, h.bib, sec_none, sec_some, Option.bind_some, bind_sec]
  by_cases hx : xtOf conf.flags = 2 <;> cases hb : (f conf.a conf.b).2 <;> simp [hx, hb]

theorem reads_eamt (db : Dbs D) (s : Bool) (c : Ctx) {name : Text} {hd : List Byte}
    (hh : Req.uHdr c.xt (some (bytes name)) c.flags = some hd) (hc : c.cap < 2 ^ 16) {es : List Eam.Entry} (hne : es ≠ [])
    (hl : size (aEam ENTRY) es ≤ c.cap) (hlen : ∀ x ∈ es, x.p6.len < 256 ∧ x.p4.len < 256) :
    Reads db s name c.xt (listMsg hd EAMT (aEam ENTRY) es)
      (fun conf => if xtOf conf.flags = 1 then (Sect.eamt es).apply db c.force conf else none) := by
  intro e he
  have hp := nested_root e.strict (ty := EAMT) (as := es.map (aEam ENTRY)) (by decide) (by simpa using hne) (Nat.lt_of_le_of_lt hl hc)
  obtain ⟨r, h1, h2, h3, h4, h5, h6, h7, h8, h9, h10⟩ := listMsg_key db c hh e hp
  rw [get_one] at h4 h5 h6 h7 h8 h9 h10
  refine ⟨r, h1, h2, h3, h4, h10, ?_⟩
  funext conf
  rw [apply_eamt ⟨h5, h6, h7, h8, h9⟩]
  beta_reduce
  rw [attrs_list (aEam ENTRY) EAMT es (fun a => small_eam _ _ (by decide)),
    addAll_map (kEam e.strict) _ (aEam ENTRY) (fun _ => rfl) es conf.a (fun x hx => kEam_a _ _ _ (hlen x hx).1 (hlen x hx).2)]
  rfl

theorem reads_deny (db : Dbs D) (s : Bool) (c : Ctx) {name : Text} {hd : List Byte}
    (hh : Req.uHdr c.xt (some (bytes name)) c.flags = some hd) (hc : c.cap < 2 ^ 16) {es : List Prefix4} (hne : es ≠ [])
    (hl : size (aPrefix4 ENTRY) es ≤ c.cap) (hlen : ∀ x ∈ es, x.len < 256) :
    Reads db s name c.xt (listMsg hd DENY (aPrefix4 ENTRY) es)
      (fun conf => if xtOf conf.flags = 1 then (Sect.deny es).apply db c.force conf else none) := by
  intro e he
  have hp := nested_root e.strict (ty := DENY) (as := es.map (aPrefix4 ENTRY)) (by decide) (by simpa using hne) (Nat.lt_of_le_of_lt hl hc)
  obtain ⟨r, h1, h2, h3, h4, h5, h6, h7, h8, h9, h10⟩ := listMsg_key db c hh e hp
  rw [get_one] at h4 h5 h6 h7 h8 h9 h10
  refine ⟨r, h1, h2, h3, h4, h10, ?_⟩
  funext conf
  rw [apply_deny ⟨h5, h6, h7, h8, h9⟩]
  beta_reduce
  rw [attrs_list (aPrefix4 ENTRY) DENY es (fun a => small_prefix4 _ _ (by decide)),
    addAll_map (kPrefix4 e.strict) _ (aPrefix4 ENTRY) (fun _ => rfl) es conf.b (fun x hx => kPrefix4_a _ _ _ (hlen x hx))]
  rfl

theorem reads_pool4 (db : Dbs D) (s : Bool) (c : Ctx) {name : Text} {hd : List Byte}
    (hh : Req.uHdr c.xt (some (bytes name)) c.flags = some hd) (hc : c.cap < 2 ^ 16) {es : List WPool4} (hne : es ≠ [])
    (hl : size (aPool4 ENTRY) es ≤ c.cap) (hlen : ∀ x ∈ es, x.pfx.len < 256) :
    Reads db s name c.xt (listMsg hd POOL4 (aPool4 ENTRY) es)
      (fun conf => if xtOf conf.flags = 2 then (Sect.pool4 es).apply db c.force conf else none) := by
  intro e he
  have hp := nested_root e.strict (ty := POOL4) (as := es.map (aPool4 ENTRY)) (by decide) (by simpa using hne) (Nat.lt_of_le_of_lt hl hc)
  obtain ⟨r, h1, h2, h3, h4, h5, h6, h7, h8, h9, h10⟩ := listMsg_key db c hh e hp
  rw [get_one] at h4 h5 h6 h7 h8 h9 h10
  refine ⟨r, h1, h2, h3, h4, h10, ?_⟩
  funext conf
  rw [apply_pool4 ⟨h5, h6, h7, h8, h9⟩]
  beta_reduce
  rw [attrs_list (aPool4 ENTRY) POOL4 es (fun a => small_pool4 _ _ (by decide)),
    addAll_map (kPool4 e.strict) _ (aPool4 ENTRY) (fun _ => rfl) es conf.a (fun x hx => kPool4_a _ _ _ (hlen x hx))]
  rfl

theorem reads_bib (db : Dbs D) (s : Bool) (c : Ctx) {name : Text} {hd : List Byte}
    (hh : Req.uHdr c.xt (some (bytes name)) c.flags = some hd) (hc : c.cap < 2 ^ 16) {es : List WBib} (hne : es ≠ [])
    (hl : size (aBib ENTRY) es ≤ c.cap) :
    Reads db s name c.xt (listMsg hd BIB (aBib ENTRY) es)
      (fun conf => if xtOf conf.flags = 2 then (Sect.bib es).apply db c.force conf else none) := by
  intro e he
  have hp := nested_root e.strict (ty := BIB) (as := es.map (aBib ENTRY)) (by decide) (by simpa using hne) (Nat.lt_of_le_of_lt hl hc)
  obtain ⟨r, h1, h2, h3, h4, h5, h6, h7, h8, h9, h10⟩ := listMsg_key db c hh e hp
  rw [get_one] at h4 h5 h6 h7 h8 h9 h10
  refine ⟨r, h1, h2, h3, h4, h10, ?_⟩
  funext conf
  rw [apply_bib ⟨h5, h6, h7, h8, h9⟩]
  beta_reduce
  rw [attrs_list (aBib ENTRY) BIB es (fun a => small_bib _ _ (by decide)),
    addAll_map (kBib e.strict) _ (aBib ENTRY) (fun _ => rfl) es conf.b (fun x hx => kBib_a _ _ _)]
  rfl

/-! ### Settings -/

/-- The value has the type. -/
def Typed : GType → GVal → Prop
  | .bool, .bool _ => True
  | .u8, .u8 _ => True
  | .u32, .u32 _ => True
  | .timeout, .timeout _ => True
  | .plateaus, .plateaus _ => True
  | .prefix6, .prefix6 o => ∀ p, o = some p → p.len < 256
  | .prefix4, .prefix4 o => ∀ p, o = some p → p.len < 256
  | .hairpin, .hairpin _ => True
  | _, _ => False

theorem typed_of {i : Inet} {ty : GType} {j : Json} {v : GVal} (h : ValSays i ty j v) : Typed ty v := by
  cases ty with
  | bool => obtain ⟨_, _, rfl⟩ := h; trivial
  | u8 => obtain ⟨_, _, rfl⟩ := h; trivial
  | u32 => obtain ⟨_, _, rfl⟩ := h; trivial
  | plateaus => obtain ⟨_, _, _, _, rfl⟩ := h; trivial
  | timeout =>
    obtain ⟨s, _, h⟩ := h
    unfold Text.str2nl at h
    rw [Option.map_eq_some_iff] at h
    obtain ⟨_, _, rfl⟩ := h
    trivial
  | prefix6 =>
    obtain ⟨s, _, h⟩ := h
    unfold Text.str2nl at h
    dsimp only at h
    split at h
    · cases h; intro p hp; cases hp
    · rw [Option.map_eq_some_iff] at h
      obtain ⟨q, hq, rfl⟩ := h
      intro p hp; cases hp; exact prefix6_lt hq
  | prefix4 =>
    obtain ⟨s, _, h⟩ := h
    unfold Text.str2nl at h
    dsimp only at h
    split at h
    · cases h; intro p hp; cases hp
    · rw [Option.map_eq_some_iff] at h
      obtain ⟨q, hq, rfl⟩ := h
      intro p hp; cases hp; exact prefix4_lt hq
  | hairpin =>
    obtain ⟨s, _, h⟩ := h
    unfold Text.str2nl at h
    dsimp only at h
    split at h
    · cases h; trivial
    · split at h
      · cases h; trivial
      · split at h
        · cases h; trivial
        · cases h

/-- The policy of a type. -/
def polT : GType → Pol
  | .bool | .u8 | .hairpin => .u8
  | .u32 | .timeout => .u32
  | .plateaus | .prefix6 | .prefix4 => .nested

/-- `globalsPol`, by the answers to its questions about the type of translator. -/
def polB (siit nat64 : Bool) (id : Nat) : Option Pol :=
  if id ∈ [1, 4, 5, 6, 7] then some .u8
  else if id = 3 then some .u32
  else if id ∈ [2, 8] then some .nested
  else if siit = true then
    if id ∈ [9, 10, 11] then some .u8 else if id ∈ [12, 13] then some .nested else none
  else if nat64 = true then
    if id ∈ [14, 15, 16, 17, 18, 19, 24, 25, 27, 28] then some .u8
    else if id ∈ [20, 21, 22, 23, 26, 29, 30, 31, 32] then some .u32 else none
  else none

theorem pol_settings (xt : Flags) {g : Text × Nat × GType} (hg : g ∈ settings) :
    globalsPol xt g.2.1 = none ∨ globalsPol xt g.2.1 = some (polT g.2.2) := by
  have h : ∀ g ∈ settings, ∀ b1 b2 : Bool, polB b1 b2 g.2.1 = none ∨ polB b1 b2 g.2.1 = some (polT g.2.2) := by decide +kernel
  have := h g hg (decide (xt = 1)) (decide (xt = 2))
  have e : polB (decide (xt = 1)) (decide (xt = 2)) g.2.1 = globalsPol xt g.2.1 := by
    unfold polB globalsPol
    simp only [decide_eq_true_eq]
  rwa [e] at this

theorem find_id {g : Text × Nat × GType} (hg : g ∈ settings) : settings.find? (fun h => h.2.1 == g.2.1) = some g := by
  have h : ∀ g ∈ settings, settings.find? (fun h => h.2.1 == g.2.1) = some g := by decide +kernel
  exact h g hg

theorem id_lt {g : Text × Nat × GType} (hg : g ∈ settings) : g.2.1 < 33 := by
  have h : ∀ g ∈ settings, g.2.1 < 33 := by decide +kernel
  exact h g hg

theorem kValid_val (s : Bool) {ty : GType} {id : Nat} {v : GVal} (h : Typed ty v) (hv : hollow v = false) : kValid s (aVal id v) (polT ty) = true := by
  cases ty <;> cases v <;> try exact False.elim h
  · exact ka_u8 ..
  · exact ka_u8 ..
  · exact ka_u32 ..
  · exact ka_u32 ..
  · rename_i l
    cases l with
    | nil => cases hv
    | cons a l => exact ka_nest ..
  · rename_i o
    cases o with
    | none => exact ka_null ..
    | some p => exact ka_prefix6 ..
  · rename_i o
    cases o with
    | none => exact ka_null ..
    | some p => exact ka_prefix4 ..
  · exact ka_u8 ..

theorem mapRes_u16 (l : List (BitVec 16)) : mapRes (fun b => getU16 (some b)) (l.map (aU16 ENTRY)) = .ok l := by
  induction l with
  | nil => rfl
  | cons a l ih =>
    rw [List.map_cons, mapRes, getU16_aU16, ih]
    rfl

theorem kVal_val (s : Bool) {ty : GType} {id : Nat} {v : GVal} (h : Typed ty v) : kVal s ty (aVal id v) = gval v := by
  cases ty <;> cases v <;> try exact False.elim h
  · unfold kVal aVal; dsimp only; rw [getU8_aU8]; rfl
  · unfold kVal aVal; dsimp only; rw [getU8_aU8]; rfl
  · unfold kVal aVal; dsimp only; rw [getU32_aU32]; rfl
  · unfold kVal aVal; dsimp only; rw [getU32_aU32]; rfl
  · rename_i l
    unfold kVal aVal
    dsimp only
    have : kParse s [.u16] (aNest id (l.map (aU16 ENTRY))).data = .ok (l.map (aU16 ENTRY)) := by
      apply kParse_encs
      · intro a ha
        obtain ⟨x, _, rfl⟩ := List.mem_map.1 ha
        exact small_u16 _ _ (by decide)
      · rw [List.all_eq_true]
        intro a ha
        obtain ⟨x, _, rfl⟩ := List.mem_map.1 ha
        exact ka_u16 ..
    rw [this]
    dsimp only
    rw [mapRes_u16]
    rfl
  · rename_i o
    cases o with
    | none => unfold kVal aVal; dsimp only; rw [kPrefix6Opt_null]; rfl
    | some p => unfold kVal aVal; dsimp only; rw [kPrefix6Opt_a _ _ _ (h p rfl)]; rfl
  · rename_i o
    cases o with
    | none => unfold kVal aVal; dsimp only; rw [kPrefix4Opt_null]; rfl
    | some p => unfold kVal aVal; dsimp only; rw [kPrefix4Opt_a _ _ _ (h p rfl)]; rfl
  · unfold kVal aVal; dsimp only; rw [getU8_aU8]; rfl

theorem ty_val (id : Nat) (v : GVal) : (aVal id v).ty = id := by
  cases v with
  | prefix6 o => cases o <;> rfl
  | prefix4 o => cases o <;> rfl
  | _ => rfl

/-- Settings that can be read again: none twice, no empty list. -/
structure GoodSettings (l : List (Nat × GVal)) : Prop where
  once : l.Pairwise (fun x y => x.1 ≠ y.1)
  full : ∀ y ∈ l, hollow y.2 = false
  known : ∀ y ∈ l, ∃ g ∈ settings, g.2.1 = y.1 ∧ Typed g.2.2 y.2

theorem setAttrs_full {l : List (Nat × GVal)} (h : ∀ y ∈ l, hollow y.2 = false) : setAttrs l = l.map (fun y => aVal y.1 y.2) := by
  induction l with
  | nil => rfl
  | cons y l ih =>
    unfold setAttrs at ih ⊢
    rw [List.flatMap_cons, ih (fun z hz => h z (.tail _ hz)), List.map_cons]
    unfold valAttrs
    rw [if_neg (by rw [h y (.head _)]; exact Bool.false_ne_true)]
    rfl

theorem get_settings {l : List (Nat × GVal)} (h : l.Pairwise (fun x y => x.1 ≠ y.1)) (id : Nat) :
    Nla.get (l.map (fun y => aVal y.1 y.2)) id = (l.find? (fun y => y.1 == id)).map (fun y => aVal y.1 y.2) := by
  induction l with
  | nil => rfl
  | cons y l ih =>
    rw [List.pairwise_cons] at h
    have ih := ih h.2
    unfold Nla.get at ih ⊢
    rw [List.map_cons]
    by_cases hy : y.1 = id
    · rw [List.filter_cons_of_pos (by rw [ty_val]; simpa using hy), List.find?_cons_of_pos (p := fun y : Nat × GVal => y.1 == id) (by simpa using hy)]
      have : (l.map (fun y => aVal y.1 y.2)).filter (fun a => a.ty == id) = [] := by
        rw [List.filter_eq_nil_iff]
        intro a ha
        obtain ⟨z, hz, rfl⟩ := List.mem_map.1 ha
        rw [ty_val]
        have := h.1 z hz
        rw [hy] at this
        simpa using fun e => this e.symm
      rw [this]
      rfl
    · rw [List.filter_cons_of_neg (by rw [ty_val]; simpa using hy), List.find?_cons_of_neg (p := fun y : Nat × GVal => y.1 == id) (by simpa using hy)]
      exact ih

theorem kAttrs_settings (s : Bool) {l : List (Nat × GVal)} (h : GoodSettings l) : kAttrs s (setAttrs l) = gattrs l := by
  funext id
  unfold kAttrs gattrs
  rw [setAttrs_full h.full, get_settings h.once]
  cases hf : l.find? (fun y => y.1 == id) with
  | none => rfl
  | some y =>
    have hid : y.1 = id := by simpa using List.find?_some hf
    obtain ⟨g, hg, he, ht⟩ := h.known y (List.mem_of_find?_eq_some hf)
    have : settings.find? (fun g => g.2.1 == id) = some g := by rw [← hid, ← he]; exact find_id hg
    rw [this]
    show some _ = some _
    rw [kVal_val s ht]

/-- A strict kernel does not know the settings of the other type of translator. -/
def knows (strict : Bool) (xt : Flags) (l : List (Nat × GVal)) : Bool := !strict || l.all (fun y => (globalsPol xt y.1).isSome)

theorem kParseGlobals_settings (s : Bool) (xt : Flags) {l : List (Nat × GVal)} (h : GoodSettings l)
    (hl : ((setAttrs l).flatMap enc).length < 2 ^ 16) :
    kParseGlobals s xt (aNest GLOBALS (setAttrs l)) = if knows s xt l then .ok (setAttrs l) else .err .parse := by
  have hsmall : ∀ a ∈ setAttrs l, Small a := by
    intro a ha
    have hm := ha
    rw [setAttrs_full h.full] at ha
    obtain ⟨y, hy, rfl⟩ := List.mem_map.1 ha
    obtain ⟨g, hg, he, _⟩ := h.known y hy
    refine small_of (by rw [ty_val, ← he]; have := id_lt hg; omega) (Nat.lt_of_le_of_lt ?_ hl)
    obtain ⟨pre, post, hsplit⟩ := List.append_of_mem hm
    rw [hsplit, List.flatMap_append, List.flatMap_cons, List.length_append, List.length_append]
    omega
  have hattrs : attrs (aNest GLOBALS (setAttrs l)).data = (setAttrs l, 0) := attrs_encs _ hsmall
  unfold kParseGlobals
  rw [hattrs, if_neg (by simp [aNest])]
  dsimp only
  have hall : (setAttrs l).all (globalOk s xt) = knows s xt l := by
    rw [setAttrs_full h.full, List.all_map, knows]
    have h1 := h.known
    have h2 := h.full
    clear hattrs hsmall hl h
    induction l with
    | nil => cases s <;> rfl
    | cons y l ih =>
      rw [List.all_cons, List.all_cons, ih (fun z hz => h1 z (.tail _ hz)) (fun z hz => h2 z (.tail _ hz))]
      obtain ⟨g, hg, he, ht⟩ := h1 y (.head _)
      have hy : (globalOk s xt ∘ fun y => aVal y.1 y.2) y
          = (!s || (globalsPol xt y.1).isSome) := by
        show (match globalsPol xt (aVal y.1 y.2).ty with | none => !s | some p => kValid s (aVal y.1 y.2) p) = _
        rw [ty_val]
        rcases pol_settings xt hg with hp | hp
        · rw [he] at hp; rw [hp]; simp
        · rw [he] at hp; rw [hp]
          dsimp only
          rw [kValid_val s ht (h2 y (.head _))]
          simp
      rw [hy]
      cases s <;> simp
  rw [hall]
  cases knows s xt l with
  | true => rw [if_neg (by decide), if_neg (by simp), if_pos rfl]
  | false => rw [if_pos (by decide), if_neg (by decide)]

/-- What the kernel does with settings. -/
theorem reads_globals (db : Dbs D) (s : Bool) (c : Ctx) {name : Text} {hd : List Byte}
    (hh : Req.uHdr c.xt (some (bytes name)) c.flags = some hd) (hc : c.cap < 2 ^ 16) {l : List (Nat × GVal)}
    (hl : 4 + ((setAttrs l).flatMap enc).length ≤ c.cap) (hg : GoodSettings l) :
    Reads db s name c.xt (hd ++ globalsBody l)
      (fun conf => if knows s (xtOf conf.flags) l then (Sect.globals l).apply db c.force conf else none) := by
  intro e he
  have hset := setAttrs_full hg.full
  cases l with
  | nil =>
    obtain ⟨r, h1, h2, h3, h4, h5, h6, h7, h8, h9, h10⟩ := listMsg_key db c hh e (Req.parse_nil e.strict)
    refine ⟨r, h1, h2, h3, h4, h10, ?_⟩
    funext conf
    rw [apply_none ⟨h5, h6, h7, h8, h9⟩, if_pos (by unfold knows; simp)]
    rfl
  | cons y l =>
    have hbody : globalsBody (y :: l) = enc (aNest GLOBALS (setAttrs (y :: l))) := by
      unfold globalsBody
      rw [if_neg (by rw [hset]; simp)]
    have hp := nested_root e.strict (ty := GLOBALS) (as := setAttrs (y :: l)) (by decide) (by rw [hset]; simp) (Nat.lt_of_le_of_lt hl hc)
    rw [hbody]
    obtain ⟨r, h1, h2, h3, h4, h5, h6, h7, h8, h9, h10⟩ := listMsg_key db c hh e hp
    rw [get_one] at h4 h5 h6 h7 h8 h9 h10
    refine ⟨r, h1, h2, h3, h4, h10, ?_⟩
    funext conf
    have h5' : r.globals = some (fun f g => if knows s f (y :: l) then db.globals f c.force (gattrs (y :: l)) g else (g, false)) := by
      rw [h5, ty_nest, if_pos rfl, Option.map_some, Option.some.injEq]
      funext f g
      rw [kParseGlobals_settings _ _ hg (by omega), he]
      cases knows s f (y :: l) with
      | false => rfl
      | true => rw [if_pos rfl, if_pos rfl, ← kAttrs_settings s hg]
    rw [apply_globals ⟨h5', h6, h7, h8, h9⟩]
    beta_reduce
    cases knows s (xtOf conf.flags) (y :: l) <;> rfl

/-! ### Parts -/

/-- One after the other. -/
def chain : List (Conf D → Option (Conf D)) → Conf D → Option (Conf D)
  | [], c => some c
  | f :: fs, c => (f c).bind (chain fs)

theorem chain_append (fs gs : List (Conf D → Option (Conf D))) (c : Conf D) : chain (fs ++ gs) c = (chain fs c).bind (chain gs) := by
  induction fs generalizing c with
  | nil => rfl
  | cons f fs ih =>
    rw [List.cons_append, chain, chain, Option.bind_assoc]
    congr 1
    funext d
    exact ih d

/-- Parts that belong to this type of translator, and can be read again. -/
def Good (xt : BitVec 8) : Sect → Prop
  | .globals l => GoodSettings l
  | .eamt l => xt = 1 ∧ ∀ x ∈ l, x.p6.len < 256 ∧ x.p4.len < 256
  | .deny l => xt = 1 ∧ ∀ x ∈ l, x.len < 256
  | .pool4 l => xt = 2 ∧ ∀ x ∈ l, x.pfx.len < 256
  | .bib _ => xt = 2

/-- The kernel knows the settings. -/
def Sect.known (strict : Bool) (xt : BitVec 8) : Sect → Bool
  | .globals l => knows strict xt l
  | _ => true

theorem apply_flags {db : Dbs D} {force : Bool} {c c' : Conf D} {s : Sect} (h : s.apply db force c = some c') : c'.flags = c.flags := by
  unfold Sect.apply at h
  split at h
  · cases h; rfl
  · dsimp only at h
    split at h
    · cases h; rfl
    · cases h
  all_goals
    rw [Option.map_eq_some_iff] at h
    obtain ⟨_, _, rfl⟩ := h
    rfl

/-- Lists in several messages. -/
theorem carries_reads (db : Dbs D) (s : Bool) (name : Text) (force : Bool) {cap : Nat} {hd : List Byte} {ty : Nat} {α : Type} {f : α → Attr}
    {xt : BitVec 8} (mk : List α → Sect) (hnil : ∀ conf : Conf D, (mk []).apply db force conf = some conf)
    (happ : ∀ (l l' : List α) (conf : Conf D), (mk (l ++ l')).apply db force conf
      = ((mk l).apply db force conf).bind (fun c => (mk l').apply db force c))
    (P : α → Prop)
    (hr : ∀ es : List α, es ≠ [] → size f es ≤ cap → (∀ x ∈ es, P x) → Reads db s name xt (listMsg hd ty f es)
      (fun conf : Conf D => if xtOf conf.flags = xt then (mk es).apply db force conf else none))
    {es : List α} {msgs : List Msg} (h : Carries cap hd ty f es msgs) (hP : ∀ x ∈ es, P x) :
    ∃ fs, Each (Reads db s name xt) msgs fs ∧ ∀ conf : Conf D, xtOf conf.flags = xt → chain fs conf = (mk es).apply db force conf := by
  induction h with
  | nil => exact ⟨[], .nil, fun conf _ => (hnil conf).symm⟩
  | cons hne hsz _ ih =>
    obtain ⟨fs, h1, h2⟩ := ih (fun x hx => hP x (List.mem_append_right _ hx))
    refine ⟨_ :: fs, .cons (hr _ hne hsz (fun x hx => hP x (List.mem_append_left _ hx))) h1, ?_⟩
    intro conf hx
    rw [chain, if_pos hx, happ]
    cases ha : (mk _).apply db force conf with
    | none => rfl
    | some c' => exact h2 c' (by rw [apply_flags ha]; exact hx)

theorem sect_reads (db : Dbs D) (s : Bool) (c : Ctx) {name : Text} {hd : List Byte}
    (hh : Req.uHdr c.xt (some (bytes name)) c.flags = some hd) (hc : c.cap < 2 ^ 16) {x : Sect} {msgs : List Msg}
    (h : SectMsgs c hd x msgs) (hg : Good c.xt x) :
    ∃ fs, Each (Reads db s name c.xt) msgs fs ∧ ∀ conf : Conf D, xtOf conf.flags = c.xt →
      chain fs conf = if x.known s c.xt then x.apply db c.force conf else none := by
  cases h with
  | globals hl =>
    refine ⟨[_], .cons (reads_globals db s c hh hc hl hg) .nil, ?_⟩
    intro conf hx
    rw [chain, hx]
    show Option.bind _ some = _
    rw [bind_sec]
    rfl
  | eamt h =>
    obtain ⟨fs, h1, h2⟩ := carries_reads db s name c.force (xt := c.xt) Sect.eamt (fun _ => rfl)
      (fun l l' conf => by
        show Option.map _ (addEach _ (l ++ l') conf.a) = (Option.map _ (addEach _ l conf.a)).bind _
        rw [addEach_append]
        cases addEach (db.eam c.force) l conf.a <;> rfl)
      _ (fun es h1 h2 h3 => by have := reads_eamt db s c hh hc h1 h2 h3; rw [← hg.1] at this; exact this) h hg.2
    exact ⟨fs, h1, h2⟩
  | deny h =>
    obtain ⟨fs, h1, h2⟩ := carries_reads db s name c.force (xt := c.xt) Sect.deny (fun _ => rfl)
      (fun l l' conf => by
        show Option.map _ (addEach _ (l ++ l') conf.b) = (Option.map _ (addEach _ l conf.b)).bind _
        rw [addEach_append]
        cases addEach (db.deny c.force) l conf.b <;> rfl)
      _ (fun es h1 h2 h3 => by have := reads_deny db s c hh hc h1 h2 h3; rw [← hg.1] at this; exact this) h hg.2
    exact ⟨fs, h1, h2⟩
  | pool4 h =>
    obtain ⟨fs, h1, h2⟩ := carries_reads db s name c.force (xt := c.xt) Sect.pool4 (fun _ => rfl)
      (fun l l' conf => by
        show Option.map _ (addEach _ (l ++ l') conf.a) = (Option.map _ (addEach _ l conf.a)).bind _
        rw [addEach_append]
        cases addEach (db.pool4 c.force) l conf.a <;> rfl)
      _ (fun es h1 h2 h3 => by have := reads_pool4 db s c hh hc h1 h2 h3; rw [← hg.1] at this; exact this) h hg.2
    exact ⟨fs, h1, h2⟩
  | bib h =>
    obtain ⟨fs, h1, h2⟩ := carries_reads db s name c.force (xt := c.xt) Sect.bib (fun _ => rfl)
      (fun l l' conf => by
        show Option.map _ (addEach _ (l ++ l') conf.b) = (Option.map _ (addEach _ l conf.b)).bind _
        rw [addEach_append]
        cases addEach (fun e => db.bib e conf.a) l conf.b <;> rfl)
      (fun _ => True) (fun es h1 h2 h3 => by
        have hg : c.xt = 2 := hg
        have := reads_bib db s c hh hc h1 h2; rw [← hg] at this; exact this) h (fun _ _ => trivial)
    exact ⟨fs, h1, h2⟩

theorem each_append {α β : Type} {R : α → β → Prop} {a a' : List α} {b b' : List β} (h : Each R a b) (h' : Each R a' b') :
    Each R (a ++ a') (b ++ b') := by
  induction h with
  | nil => exact h'
  | cons hr _ ih => exact .cons hr ih

theorem sects_reads (db : Dbs D) (s : Bool) (c : Ctx) {name : Text} {hd : List Byte}
    (hh : Req.uHdr c.xt (some (bytes name)) c.flags = some hd) (hc : c.cap < 2 ^ 16) {x : List Sect} {msgs : List Msg}
    (h : SectsMsgs c hd x msgs) (hg : ∀ y ∈ x, Good c.xt y) :
    ∃ fs, Each (Reads db s name c.xt) msgs fs ∧ ∀ conf : Conf D, xtOf conf.flags = c.xt →
      chain fs conf = if x.all (Sect.known s c.xt) then build db c.force x conf else none := by
  induction h with
  | nil => exact ⟨[], .nil, fun _ _ => rfl⟩
  | cons hm _ ih =>
    obtain ⟨fs, h1, h2⟩ := ih (fun y hy => hg y (.tail _ hy))
    obtain ⟨gs, h3, h4⟩ := sect_reads db s c hh hc hm (hg _ (.head _))
    refine ⟨gs ++ fs, each_append h3 h1, ?_⟩
    · intro conf hx
      rw [chain_append, h4 conf hx, List.all_cons, build]
      split
      · rename_i hk
        rw [hk, Bool.true_and]
        cases ha : Sect.apply db c.force conf _ with
        | none => split <;> rfl
        | some c' => exact h2 c' (by rw [apply_flags ha]; exact hx)
      · rename_i hk
        rw [if_neg (by simp [hk])]
        rfl

end Jool.File
