import Verif.Lemmas.NlAttr
/-
C67: what a client sends is what the kernel module receives, and what the kernel module lists is what the client reads.
C68: reading requests is safe and strict.
-/
namespace Jool.NlAttr
open Jool.Nla
open Jool.JooldMsg (Byte be unbe be_length unbe_be)

/-! ## Requests -/

/-- Specification. `w cap` is what the client writes into an empty message with room for `cap` bytes. If it fits, the
kernel parses the message (whether strictly or liberally), and `read`, applied to the attribute `ty`, obtains `x`.
200 bytes are enough. -/
def Arrives {α} (w : Nat → Writer) (ty : Nat) (read : Bool → Option Attr → Res α) (x : α) : Prop :=
  (∀ cap out, w cap [] = some out → ∀ strict, ∃ tb, kParse strict rootPolicy out = .ok tb
      ∧ read strict (Nla.get tb ty) = .ok x)
  ∧ ∀ cap, 200 ≤ cap → ∃ out, w cap [] = some out

theorem root_nested {s : Bool} {t : Nat} (ht : t = OPERAND ∨ t = OFFSET) {a : Attr} {as : List Attr} :
    kAccepts s rootPolicy (aNest t (a :: as)) = true := by
  have : polOf rootPolicy t = some .nested := by rcases ht with rfl | rfl <;> rfl
  unfold kAccepts
  rw [ty_nest, this]
  exact ka_nest ..

/-- One nested attribute, alone in the message. -/
theorem arrives {α} {w : Nat → Writer} {t : Nat} (ht : t = OPERAND ∨ t = OFFSET) {a : Attr} {as : List Attr}
    (hw : ∀ cap, Writes cap (w cap) (aNest t (a :: as))) (hl : (enc (aNest t (a :: as))).length ≤ 200)
    {read : Bool → Option Attr → Res α} {x : α} (hr : ∀ s, read s (some (aNest t (a :: as))) = .ok x) :
    Arrives w t read x := by
  have hs : Small (aNest t (a :: as)) :=
    small_of (by rcases ht with rfl | rfl <;> simp [ty_nest, OPERAND, OFFSET]) (by omega)
  have hg : Nla.get [aNest t (a :: as)] t = some (aNest t (a :: as)) := by simp [Nla.get, ty_nest]
  constructor
  · intro cap out h s
    have h' := hw cap []
    rw [h] at h'
    split at h'
    · rw [Option.some.injEq, List.nil_append] at h'
      have := kParse_encs s rootPolicy [aNest t (a :: as)] (by simpa using hs) (by simp [root_nested ht])
      refine ⟨[aNest t (a :: as)], ?_, ?_⟩
      · rw [h']; simpa using this
      · rw [hg]; exact hr s
    · cases h'
  · intro cap hc
    refine ⟨[] ++ enc (aNest t (a :: as)), ?_⟩
    rw [hw cap [], if_pos]
    simp only [List.length_nil]
    omega

/-- `eamt add`, and `eamt remove` with both prefixes. -/
theorem eam_arrives (e : Eam.Entry) (h6 : e.p6.len < 256) (h4 : e.p4.len < 256) :
    Arrives (fun cap => uPutEam cap OPERAND (some e.p6) (some e.p4)) OPERAND kEam e :=
  arrives (.inl rfl) (fun cap => w_uEam cap _ e) (by show (enc (aEam _ e)).length ≤ 200; rw [len_eam]; omega)
    (fun s => kEam_a s OPERAND e h6 h4)

theorem eam_rm_arrives (e : Eam.Entry) (h6 : e.p6.len < 256) (h4 : e.p4.len < 256) :
    Arrives (fun cap => uPutEam cap OPERAND (some e.p6) (some e.p4)) OPERAND kEamRm (some e.p6, some e.p4) :=
  arrives (.inl rfl) (fun cap => w_uEam cap _ e) (by show (enc (aEam _ e)).length ≤ 200; rw [len_eam]; omega)
    (fun s => by
      have hp : kParseNested s eamPolicy (aEam OPERAND e) = .ok [aPrefix6 1 e.p6, aPrefix4 2 e.p4] :=
        kParseNested_nest _ _ _ _ (by smalls) (by accepted)
      change kEamRm s (some (aEam OPERAND e)) = _
      reading [kEamRm, hp, kPrefix6_a, kPrefix4_a, h6, h4])

/-- **Defect.** `eamt remove` with only one of the prefixes, which the client admits and the kernel means to admit: the client
sends a hollow attribute in the place of the other prefix, and the kernel refuses every such request. -/
theorem eam_rm_one_refused (p6 : Option Prefix6) (p4 : Option Prefix4) (h : p6 = none ∨ p4 = none)
    (h6 : ∀ p ∈ p6, p.len < 256) (cap : Nat) (out : List Byte)
    (hw : uPutEam cap OPERAND p6 p4 [] = some out) (strict : Bool) :
    ∃ tb, kParse strict rootPolicy out = .ok tb ∧ kEamRm strict (Nla.get tb OPERAND) = .err .EINVAL := by
  have key : ∀ a6 a4 : Attr, Writes cap (putPrefix6 cap 1 p6) a6 → Writes cap (putPrefix4 cap 2 p4) a4 →
      Small a6 → Small a4 → a6.ty = 1 → a4.ty = 2 → kValid strict a6 .nested = true → kValid strict a4 .nested = true →
      (enc a6).length ≤ 90 → (enc a4).length ≤ 90 →
      (kPrefix6 strict (some a6) = .err .EINVAL ∨
        (∃ p, kPrefix6 strict (some a6) = .ok p) ∧ kPrefix4 strict (some a4) = .err .EINVAL) →
      ∃ tb, kParse strict rootPolicy out = .ok tb ∧ kEamRm strict (Nla.get tb OPERAND) = .err .EINVAL := by
    intro a6 a4 w6 w4 s6 s4 t6 t4 v6 v4 l6 l4 hr
    have hW : Writes cap (uPutEam cap OPERAND p6 p4) (aNest OPERAND [a6, a4]) := w_nest (.cons w6 (.cons w4 .nil))
    have hp : kParseNested strict eamPolicy (aNest OPERAND [a6, a4]) = .ok [a6, a4] := by
      apply kParseNested_nest
      · intro a ha
        simp only [List.mem_cons, List.not_mem_nil, or_false] at ha
        rcases ha with rfl | rfl <;> assumption
      · simp [kAccepts, polOf, t6, t4, eamPolicy, v6, v4]
    have g1 : Nla.get [a6, a4] 1 = some a6 := by simp [Nla.get, t6, t4]
    have g2 : Nla.get [a6, a4] 2 = some a4 := by simp [Nla.get, t6, t4]
    have hk : kEamRm strict (some (aNest OPERAND [a6, a4])) = .err .EINVAL := by
      simp only [kEamRm, nonNull, bind_eq, ok_bind, hp, g1, g2, optional, Option.isNone_some, Bool.and_self,
        Bool.false_eq_true, if_false]
      rcases hr with h1 | ⟨⟨p, h1⟩, h2⟩
      · rw [h1]; rfl
      · rw [h1]
        simp only [ok_bind]
        rw [h2]; rfl
    have hs : Small (aNest OPERAND [a6, a4]) := by
      apply small_of
      · simp [ty_nest, OPERAND]
      · rw [enc_aNest]; simp only [List.flatMap_cons, List.flatMap_nil, List.append_nil, List.length_append]; omega
    have h' := hW []
    rw [hw] at h'
    split at h'
    · rw [Option.some.injEq, List.nil_append] at h'
      refine ⟨[aNest OPERAND [a6, a4]], ?_, ?_⟩
      · have := kParse_encs strict rootPolicy [aNest OPERAND [a6, a4]] (by simpa using hs)
          (by simp [root_nested (.inl rfl)])
        rw [h']; simpa using this
      · have : Nla.get [aNest OPERAND [a6, a4]] OPERAND = some (aNest OPERAND [a6, a4]) := by simp [Nla.get, ty_nest]
        rw [this]; exact hk
    · cases h'
  cases p6 with
  | none =>
    cases p4 with
    | none =>
      exact key (aNull 1) (aNull 2) (w_null6 _ _) (w_null4 _ _) (small_null _ (by omega)) (small_null _ (by omega)) rfl rfl
        (ka_null ..) (ka_null ..) (by rw [len_null]; omega) (by rw [len_null]; omega) (.inl (kPrefix6_null ..))
    | some p =>
      exact key (aNull 1) (aPrefix4 2 p) (w_null6 _ _) (w_prefix4 _ _ _) (small_null _ (by omega))
        (small_prefix4 _ _ (by omega)) rfl rfl (ka_null ..) (ka_prefix4 ..) (by rw [len_null]; omega)
        (by rw [len_prefix4]; omega) (.inl (kPrefix6_null ..))
  | some p =>
    have h4 : p4 = none := by rcases h with h | h; cases h; exact h
    subst h4
    exact key (aPrefix6 1 p) (aNull 2) (w_prefix6 _ _ _) (w_null4 _ _) (small_prefix6 _ _ (by omega))
      (small_null _ (by omega)) rfl rfl (ka_prefix6 ..) (ka_null ..) (by rw [len_prefix6]; omega)
      (by rw [len_null]; omega) (.inr ⟨⟨p, kPrefix6_a strict 1 p (h6 p rfl)⟩, kPrefix4_null ..⟩)

/-- `pool4 add`, `pool4 remove`. -/
theorem pool4_arrives (e : WPool4) (h : e.pfx.len < 256) :
    Arrives (fun cap => uPutPool4 cap OPERAND e) OPERAND kPool4 e :=
  arrives (.inl rfl) (fun cap => w_uPool4 cap _ e) (by show (enc (aPool4 _ e)).length ≤ 200; rw [len_pool4]; omega)
    (fun s => kPool4_a s OPERAND e h)

/-- `bib add`: the entry is static. -/
theorem bib_arrives (a6 : T6) (a4 : T4) (proto : BitVec 8) :
    Arrives (fun cap => uPutBib cap OPERAND (some a6) (some a4) proto true) OPERAND kBib ⟨a6, a4, proto, true⟩ :=
  arrives (.inl rfl) (fun cap => w_uBib cap _ ⟨a6, a4, proto, true⟩)
    (by show (enc (aBib _ ⟨a6, a4, proto, true⟩)).length ≤ 200; rw [len_bib]; omega)
    (fun s => kBib_a s OPERAND ⟨a6, a4, proto, true⟩)

/-- `bib remove`, with any of the addresses. -/
theorem bib_rm_arrives (a6 : Option T6) (a4 : Option T4) (proto : BitVec 8) (h : a6.isSome ∨ a4.isSome) :
    Arrives (fun cap => uPutBib cap OPERAND a6 a4 proto true) OPERAND kBibRm (a6, a4, some proto) := by
  cases a6 with
  | none =>
    cases a4 with
    | none => simp at h
    | some a =>
      refine arrives (.inl rfl) (a := aTaddr4 2 a) (as := [aU8 3 proto, aU8 4 1#8])
        (fun cap => w_nest (.cons (w_taddr4 _ _ _) (.cons (w_u8 _ _ _) (.cons (w_u8 _ _ _) .nil)))) ?_ ?_
      · simp [enc_aNest, len_taddr4, len_u8]
      · intro s
        have hp : kParseNested s bibPolicy (aNest OPERAND [aTaddr4 2 a, aU8 3 proto, aU8 4 1#8])
            = .ok [aTaddr4 2 a, aU8 3 proto, aU8 4 1#8] :=
          kParseNested_nest _ _ _ _ (by smalls) (by accepted)
        reading [kBibRm, hp, kTaddr4_a]
  | some b =>
    cases a4 with
    | none =>
      refine arrives (.inl rfl) (a := aTaddr6 1 b) (as := [aU8 3 proto, aU8 4 1#8])
        (fun cap => w_nest (.cons (w_taddr6 _ _ _) (.cons (w_u8 _ _ _) (.cons (w_u8 _ _ _) .nil)))) ?_ ?_
      · simp [enc_aNest, len_taddr6, len_u8]
      · intro s
        have hp : kParseNested s bibPolicy (aNest OPERAND [aTaddr6 1 b, aU8 3 proto, aU8 4 1#8])
            = .ok [aTaddr6 1 b, aU8 3 proto, aU8 4 1#8] :=
          kParseNested_nest _ _ _ _ (by smalls) (by accepted)
        reading [kBibRm, hp, kTaddr6_a]
    | some a =>
      refine arrives (.inl rfl) (a := aTaddr6 1 b) (as := [aTaddr4 2 a, aU8 3 proto, aU8 4 1#8])
        (fun cap => w_nest (.cons (w_taddr6 _ _ _) (.cons (w_taddr4 _ _ _) (.cons (w_u8 _ _ _)
          (.cons (w_u8 _ _ _) .nil))))) ?_ ?_
      · simp [enc_aNest, len_taddr6, len_taddr4, len_u8]
      · intro s
        have hp : kParseNested s bibPolicy (aNest OPERAND [aTaddr6 1 b, aTaddr4 2 a, aU8 3 proto, aU8 4 1#8])
            = .ok [aTaddr6 1 b, aTaddr4 2 a, aU8 3 proto, aU8 4 1#8] :=
          kParseNested_nest _ _ _ _ (by smalls) (by accepted)
        reading [kBibRm, hp, kTaddr6_a, kTaddr4_a]

/-- `denylist4 add`, `denylist4 remove`; and the offset of its listing and of that of the EAMT. -/
theorem prefix4_arrives (p : Prefix4) (h : p.len < 256) (t : Nat) (ht : t = OPERAND ∨ t = OFFSET) :
    Arrives (fun cap => putPrefix4 cap t (some p)) t kPrefix4 p :=
  arrives ht (fun cap => w_prefix4 cap _ p) (by show (enc (aPrefix4 _ p)).length ≤ 200; rw [len_prefix4]; omega)
    (fun s => kPrefix4_a s t p h)

/-- `instance add`, with or without `--pool6`. -/
theorem instance_arrives (xf : BitVec 8) (pool6 : Option Prefix6) (h : ∀ p ∈ pool6, p.len < 256) :
    Arrives (fun cap => uPutInstAdd cap OPERAND xf pool6) OPERAND kInstAdd (xf, pool6) := by
  cases pool6 with
  | none =>
    refine arrives (.inl rfl) (a := aU8 1 xf) (as := [aNull 2])
      (fun cap => w_nest (.cons (w_u8 _ _ _) (.cons (w_null6 _ _) .nil))) ?_ ?_
    · simp [enc_aNest, len_null, len_u8]
    · intro s
      have hp : kParseNested s instAddPolicy (aNest OPERAND [aU8 1 xf, aNull 2]) = .ok [aU8 1 xf, aNull 2] :=
        kParseNested_nest _ _ _ _ (by smalls) (by simp [kAccepts, polOf, ty_u8, ty_null, instAddPolicy, ka_u8, ka_null])
      reading [kInstAdd, hp, kPrefix6Opt_null]
  | some p =>
    refine arrives (.inl rfl) (a := aU8 1 xf) (as := [aPrefix6 2 p])
      (fun cap => w_nest (.cons (w_u8 _ _ _) (.cons (w_prefix6 _ _ _) .nil))) ?_ ?_
    · simp [enc_aNest, len_prefix6, len_u8]
    · intro s
      have hp : kParseNested s instAddPolicy (aNest OPERAND [aU8 1 xf, aPrefix6 2 p]) = .ok [aU8 1 xf, aPrefix6 2 p] :=
        kParseNested_nest _ _ _ _ (by smalls)
          (by simp [kAccepts, polOf, ty_u8, ty_prefix6, instAddPolicy, ka_u8, ka_prefix6])
      reading [kInstAdd, hp, kPrefix6Opt_a, h p rfl]

/-- Offsets of listings. -/
theorem pool4_offset_arrives (e : WPool4) (h : e.pfx.len < 256) :
    Arrives (fun cap => uPutPool4 cap OFFSET e) OFFSET kPool4 e :=
  arrives (.inr rfl) (fun cap => w_uPool4 cap _ e) (by show (enc (aPool4 _ e)).length ≤ 200; rw [len_pool4]; omega)
    (fun s => kPool4_a s OFFSET e h)

theorem bib_offset_arrives (e : WBib) :
    Arrives (fun cap => uPutBib cap OFFSET (some e.a6) (some e.a4) e.proto e.static) OFFSET kBib e :=
  arrives (.inr rfl) (fun cap => w_uBib cap _ e) (by show (enc (aBib _ e)).length ≤ 200; rw [len_bib]; omega)
    (fun s => kBib_a s OFFSET e)

theorem instance_offset_arrives (e : WInst) (hn : e.name.length ≤ 15) (h : 0#8 ∉ e.name) :
    Arrives (fun cap => putInst cap OFFSET e) OFFSET (fun s o => (nonNull o).bind (kInst s)) e :=
  arrives (.inr rfl) (fun cap => w_inst cap _ e)
    (by show (enc (aInst _ e)).length ≤ 200; have := len_inst OFFSET e hn; omega)
    (fun s => kInst_a s OFFSET e hn h)

/-- The listing of sessions: protocol and offset in the same message. -/
theorem session_offset_arrives (proto : BitVec 8) (e : WSess) (strict : Bool) :
    (∀ cap out, seq [putU8 cap PROTO proto, uPutSess cap OFFSET e] [] = some out →
      ∃ tb, kParse strict rootPolicy out = .ok tb ∧ kU8 (Nla.get tb PROTO) = .ok proto
        ∧ (nonNull (Nla.get tb OFFSET)).bind (kSessOffset strict) = .ok (e.src4, e.dst4))
    ∧ ∀ cap, 200 ≤ cap → ∃ out, seq [putU8 cap PROTO proto, uPutSess cap OFFSET e] [] = some out := by
  have hw : ∀ cap, WritesAll cap [putU8 cap PROTO proto, uPutSess cap OFFSET e] [aU8 PROTO proto, aSessU OFFSET e] :=
    fun cap => .cons (w_u8 _ _ _) (.cons (w_uSess _ _ _) .nil)
  have hl : ([aU8 PROTO proto, aSessU OFFSET e].flatMap enc).length = 140 := by simp [len_u8, len_sessU]
  constructor
  · intro cap out h
    rw [seq_writes (hw cap) [] (by simp)] at h
    split at h
    · rw [Option.some.injEq, List.nil_append] at h
      refine ⟨[aU8 PROTO proto, aSessU OFFSET e], ?_, ?_, ?_⟩
      · rw [← h]
        apply kParse_encs
        · apply all_small
          simp [small_u8, small_sessU, PROTO, OFFSET]
        · have h1 : kAccepts strict rootPolicy (aU8 PROTO proto) = true := by
            unfold kAccepts
            rw [ty_u8, show polOf rootPolicy PROTO = some .u8 from rfl]
            exact ka_u8 ..
          have h2 : kAccepts strict rootPolicy (aSessU OFFSET e) = true := root_nested (.inr rfl)
          simp [h1, h2]
      · have : Nla.get [aU8 PROTO proto, aSessU OFFSET e] PROTO = some (aU8 PROTO proto) := by
          simp [Nla.get, ty_u8, aSessU, ty_nest, PROTO, OFFSET]
        rw [this]
        exact getU8_aU8 _ _
      · have : Nla.get [aU8 PROTO proto, aSessU OFFSET e] OFFSET = some (aSessU OFFSET e) := by
          simp [Nla.get, ty_u8, aSessU, ty_nest, PROTO, OFFSET]
        rw [this]
        exact kSessOffset_a strict OFFSET e
    · cases h
  · intro cap hc
    refine ⟨[] ++ [aU8 PROTO proto, aSessU OFFSET e].flatMap enc, ?_⟩
    rw [seq_writes (hw cap) [] (by simp), if_pos]
    rw [hl]; simp only [List.length_nil]; omega

/-! ## Listings -/

/-- Specification of one page: it holds the first `n` entries; there are more iff the flag says so; whoever gets `200` bytes
gets at least one entry; nothing overflows. -/
def PageOk {α} (w : Nat → α → Writer) (read : Attr → Res α) (es : List α) : Prop :=
  ∀ cap, ∃ n, n ≤ es.length ∧ readList read (fill (w cap) es []).1 = .ok (es.take n)
    ∧ ((fill (w cap) es []).2 = true ↔ n < es.length)
    ∧ (200 ≤ cap → es ≠ [] → 0 < n)
    ∧ (fill (w cap) es []).1.length ≤ cap

theorem fill_spec {α} {cap : Nat} {w : α → Writer} {a : α → Attr} (hw : ∀ e, Writes cap (w e) (a e)) (es : List α) :
    ∀ skb : List Byte, skb.length ≤ cap → ∃ n, n ≤ es.length
      ∧ (fill w es skb).1 = skb ++ ((es.take n).map a).flatMap enc
      ∧ ((fill w es skb).2 = true ↔ n < es.length)
      ∧ (n < es.length → ∀ e, es[n]? = some e → cap < (fill w es skb).1.length + (enc (a e)).length)
      ∧ (fill w es skb).1.length ≤ cap := by
  induction es with
  | nil => intro skb h; exact ⟨0, by simp [fill, h]⟩
  | cons e es ih =>
    intro skb h
    have h1 := hw e skb
    by_cases hc : skb.length + (enc (a e)).length ≤ cap
    · rw [if_pos hc] at h1
      obtain ⟨n, hn, e1, e2, e3, e4⟩ := ih (skb ++ enc (a e)) (by rw [List.length_append]; exact hc)
      refine ⟨n + 1, by simp; omega, ?_, ?_, ?_, ?_⟩
      · simp only [fill, h1, e1, List.take_succ_cons, List.map_cons, List.flatMap_cons, List.append_assoc]
      · simp only [fill, h1, e2, List.length_cons, Nat.add_lt_add_iff_right]
      · intro hlt x hx
        simp only [fill, h1]
        exact e3 (by simpa using hlt) x (by simpa using hx)
      · simp only [fill, h1]; exact e4
    · rw [if_neg hc] at h1
      refine ⟨0, by simp, by simp [fill, h1], by simp [fill, h1], ?_, ?_⟩
      · intro _ x hx
        simp only [List.getElem?_cons_zero, Option.some.injEq] at hx
        subst hx
        simp only [fill, h1]; omega
      · simp only [fill, h1]; exact h

theorem mapRes_ok {α β} (f : Attr → Res α) (a : β → Attr) (g : β → α) (es : List β) (h : ∀ e ∈ es, f (a e) = .ok (g e)) :
    mapRes f (es.map a) = .ok (es.map g) := by
  induction es with
  | nil => rfl
  | cons e es ih =>
    rw [List.map_cons, mapRes, h e (List.mem_cons_self ..), bind_eq, ok_bind,
      ih (fun x hx => h x (List.mem_cons_of_mem _ hx)), bind_eq, ok_bind]
    rfl

theorem page_ok {α} {w : Nat → α → Writer} {read : Attr → Res α} {a : α → Attr} (hw : ∀ cap e, Writes cap (w cap e) (a e))
    (ht : ∀ e, (a e).ty = ENTRY) (es : List α) (hr : ∀ e ∈ es, read (a e) = .ok e)
    (hl : ∀ e ∈ es, (enc (a e)).length ≤ 200) : PageOk w read es := by
  intro cap
  obtain ⟨n, hn, e1, e2, e3, e4⟩ := fill_spec (hw cap) es [] (by simp)
  rw [List.nil_append] at e1
  refine ⟨n, hn, ?_, e2, ?_, e4⟩
  · have hs : ∀ x ∈ (es.take n).map a, Small x := by
      intro x hx
      obtain ⟨e, he, rfl⟩ := List.mem_map.mp hx
      exact small_of (by rw [ht]; simp [ENTRY]) (by have := hl e (List.mem_of_mem_take he); omega)
    unfold readList
    rw [e1, attrs_encs _ hs]
    have : listOk ((es.take n).map a) = true := by
      unfold listOk
      rw [List.all_eq_true]
      intro x hx
      obtain ⟨e, _, rfl⟩ := List.mem_map.mp hx
      simp [ht]
    rw [if_pos this, mapRes_ok read a id _ (fun e he => hr e (List.mem_of_mem_take he)), List.map_id]
  · intro hc hne
    rcases Nat.eq_zero_or_pos n with h0 | h0
    · subst h0
      exfalso
      obtain ⟨x, xs, rfl⟩ := List.exists_cons_of_ne_nil hne
      have h3 := e3 (by simp) x rfl
      rw [e1] at h3
      simp only [List.take_zero, List.map_nil, List.flatMap_nil, List.length_nil] at h3
      have := hl x (List.mem_cons_self ..)
      omega
    · exact h0

/-- `eamt display`. -/
theorem eamt_page (es : List Eam.Entry) (h : ∀ e ∈ es, e.p6.len < 256 ∧ e.p4.len < 256) :
    PageOk (fun cap e => kPutEam cap ENTRY e) uEam es :=
  page_ok (fun cap e => w_kEam cap _ e) (fun _ => rfl) es (fun e he => uEam_a _ e (h e he).1 (h e he).2)
    (fun e _ => by rw [len_eam]; omega)

/-- `denylist4 display`. -/
theorem denylist4_page (es : List Prefix4) (h : ∀ e ∈ es, e.len < 256) :
    PageOk (fun cap e => putPrefix4 cap ENTRY (some e)) (fun a => uPrefix4 (some a)) es :=
  page_ok (fun cap e => w_prefix4 cap _ e) (fun _ => rfl) es (fun e he => uPrefix4_a _ e (h e he))
    (fun e _ => by rw [len_prefix4]; omega)

/-- `pool4 display`. -/
theorem pool4_page (es : List WPool4) (h : ∀ e ∈ es, e.pfx.len < 256) :
    PageOk (fun cap e => kPutPool4 cap ENTRY e) uPool4 es :=
  page_ok (fun cap e => w_kPool4 cap _ e) (fun _ => rfl) es (fun e he => uPool4_a _ e (h e he))
    (fun e _ => by rw [len_pool4]; omega)

/-- `bib display`. -/
theorem bib_page (es : List WBib) : PageOk (fun cap e => kPutBib cap ENTRY e) uBib es :=
  page_ok (fun cap e => w_kBib cap _ e) (fun _ => rfl) es (fun e _ => uBib_a _ e) (fun e _ => by rw [len_bib]; omega)

/-- `session display`. (`timer e` is an obsolete field.) -/
theorem session_page (timer : WSess → BitVec 8) (es : List WSess) :
    PageOk (fun cap e => kPutSess cap ENTRY e (timer e)) uSess es :=
  page_ok (fun cap e => w_kSess cap _ e (timer e)) (fun _ => rfl) es (fun e _ => uSess_a _ e _)
    (fun e _ => by rw [len_sess]; omega)

/-- `instance display`. -/
theorem instance_page (es : List WInst) (h : ∀ e ∈ es, e.name.length ≤ 15 ∧ 0#8 ∉ e.name) :
    PageOk (fun cap e => putInst cap ENTRY e) uInst es :=
  page_ok (fun cap e => w_inst cap _ e) (fun _ => rfl) es (fun e he => uInst_a _ e (h e he).1 (h e he).2)
    (fun e he => Nat.le_trans (len_inst _ e (h e he).1) (by omega))

/-! ## Address queries -/

def MethodOk : Method → Prop
  | .rfc6052 p => p.len < 256
  | .eam e => e.p6.len < 256 ∧ e.p4.len < 256

def aMethod : Method → Attr
  | .rfc6052 p => aPrefix6 3 p
  | .eam e => aEam 4 e

theorem w_method (cap : Nat) (m : Method) : Writes cap (kPutMethod cap m) (aMethod m) := by
  cases m with
  | rfc6052 p => exact w_prefix6 _ _ _
  | eam e => exact w_kEam _ _ _

theorem small_method (m : Method) : Small (aMethod m) := by
  cases m with
  | rfc6052 p => exact small_prefix6 _ _ (by omega)
  | eam e => exact small_eam _ _ (by omega)

theorem method_read (m : Method) (hm : MethodOk m) (tb : List Attr) (h3 : ∀ a ∈ tb, a.ty ≠ 3 ∧ a.ty ≠ 4) :
    uMethod (tb ++ [aMethod m]) = .ok m := by
  have hf : ∀ t, t = 3 ∨ t = 4 → tb.filter (fun a => a.ty == t) = [] := by
    intro t ht
    rw [List.filter_eq_nil_iff]
    intro a ha
    have := h3 a ha
    simp only [beq_iff_eq]
    omega
  cases m with
  | rfc6052 p =>
    have g3 : Nla.get (tb ++ [aPrefix6 3 p]) 3 = some (aPrefix6 3 p) := by
      simp [Nla.get, List.filter_append, hf, ty_prefix6]
    have g4 : Nla.get (tb ++ [aPrefix6 3 p]) 4 = none := by simp [Nla.get, List.filter_append, hf, ty_prefix6]
    simp only [uMethod, aMethod, g3, g4]
    rw [uPrefix6_a _ _ hm]; rfl
  | eam e =>
    have ht : (aEam 4 e).ty = 4 := rfl
    have g3 : Nla.get (tb ++ [aEam 4 e]) 3 = none := by simp [Nla.get, List.filter_append, hf, ht]
    have g4 : Nla.get (tb ++ [aEam 4 e]) 4 = some (aEam 4 e) := by simp [Nla.get, List.filter_append, hf, ht]
    simp only [uMethod, aMethod, g3, g4]
    rw [uEam_a _ _ hm.1 hm.2]; rfl

/-- The answer to an address query says what the kernel wrote. -/
theorem query64_answer (a : Addr4) (m : Method) (hm : MethodOk m) (cap : Nat) (out : List Byte)
    (hw : kPutQuery64 cap a m [] = some out) : uQuery64 out = .ok (a, m) := by
  have h := seq_writes (cap := cap) (.cons (w_addr4 cap 2 a) (.cons (w_method cap m) .nil)) [] (by simp)
  unfold kPutQuery64 at hw
  rw [hw] at h
  split at h
  · rw [Option.some.injEq, List.nil_append] at h
    have ht : (aMethod m).ty = 3 ∨ (aMethod m).ty = 4 := by cases m; exact .inl rfl; exact .inr rfl
    have hp : uParse [.any, .addr 4, .nested, .nested] out = .ok [aAddr4 2 a, aMethod m] := by
      rw [h]
      apply uParse_encs
      · intro x hx
        simp only [List.mem_cons, List.not_mem_nil, or_false] at hx
        rcases hx with rfl | rfl
        · exact small_addr4 _ _ (by omega)
        · exact small_method m
      · rcases ht with ht | ht <;> simp [uAccepts, polOf, ty_addr4, ht, ua_addr4, ua_nested]
    have g : Nla.get [aAddr4 2 a, aMethod m] 2 = some (aAddr4 2 a) := by
      rcases ht with ht | ht <;> simp [Nla.get, ty_addr4, ht]
    unfold uQuery64
    rw [hp, bind_eq, ok_bind, g]
    dsimp only
    rw [uAddr4_a, bind_eq, ok_bind]
    have := method_read m hm [aAddr4 2 a] (by simp [ty_addr4])
    rw [List.singleton_append] at this
    rw [this]; rfl
  · cases h

theorem query46_answer (a : Addr6) (m : Method) (hm : MethodOk m) (cap : Nat) (out : List Byte)
    (hw : kPutQuery46 cap a m [] = some out) : uQuery46 out = .ok (a, m) := by
  have h := seq_writes (cap := cap) (.cons (w_addr6 cap 1 a) (.cons (w_method cap m) .nil)) [] (by simp)
  unfold kPutQuery46 at hw
  rw [hw] at h
  split at h
  · rw [Option.some.injEq, List.nil_append] at h
    have ht : (aMethod m).ty = 3 ∨ (aMethod m).ty = 4 := by cases m; exact .inl rfl; exact .inr rfl
    have hp : uParse [.addr 16, .any, .nested, .nested] out = .ok [aAddr6 1 a, aMethod m] := by
      rw [h]
      apply uParse_encs
      · intro x hx
        simp only [List.mem_cons, List.not_mem_nil, or_false] at hx
        rcases hx with rfl | rfl
        · exact small_addr6 _ _ (by omega)
        · exact small_method m
      · rcases ht with ht | ht <;> simp [uAccepts, polOf, ty_addr6, ht, ua_addr6, ua_nested]
    have g : Nla.get [aAddr6 1 a, aMethod m] 1 = some (aAddr6 1 a) := by
      rcases ht with ht | ht <;> simp [Nla.get, ty_addr6, ht]
    unfold uQuery46
    rw [hp, bind_eq, ok_bind, g]
    dsimp only
    rw [uAddr6_a, bind_eq, ok_bind]
    have := method_read m hm [aAddr6 1 a] (by simp [ty_addr6])
    rw [List.singleton_append] at this
    rw [this]; rfl
  · cases h

/-! ## Examples -/

/-- `2001:db8::/120` to `192.0.2.0/24`. -/
def exEam : Eam.Entry := ⟨⟨0x20010db8000000000000000000000000, 120⟩, ⟨0xc0000200, 24⟩⟩
def exEam2 : Eam.Entry := ⟨⟨0x20010db8000000000000000000000100, 120⟩, ⟨0xc6336400, 24⟩⟩

/-- The bytes of a request with an IPv4 prefix. -/
example : putPrefix4 200 OPERAND (some ⟨0xc0000200, 24⟩) [] =
    some [20, 0, 10, 0x80, 8, 0, 1, 0, 192, 0, 2, 0, 5, 0, 2, 0, 24, 0, 0, 0] := by decide +kernel

example : ∃ out, uPutEam 200 OPERAND (some exEam.p6) (some exEam.p4) [] = some out ∧ out.length = 56 :=
  ⟨_, rfl, by decide +kernel⟩

/-- A prefix alone can be sent, and is refused. -/
example : ((uPutEam 200 OPERAND (some exEam.p6) none []).map
    (fun l => (kParse true rootPolicy l).bind (fun tb => kEamRm true (Nla.get tb OPERAND)))) = some (.err .EINVAL) := by
  decide +kernel

/-- With room for only one of two entries. -/
example : (fill (kPutEam 100 ENTRY) [exEam, exEam2] []).2 = true
    ∧ readList uEam (fill (kPutEam 100 ENTRY) [exEam, exEam2] []).1 = .ok [exEam] := by decide +kernel
example : (fill (kPutEam 120 ENTRY) [exEam, exEam2] []).2 = false
    ∧ readList uEam (fill (kPutEam 120 ENTRY) [exEam, exEam2] []).1 = .ok [exEam, exEam2] := by decide +kernel

example : (kPutQuery64 200 0xc0000201 (.eam exEam) []).map uQuery64 = some (.ok (0xc0000201, .eam exEam)) := by
  decide +kernel

/-- "jool". -/
example : (putInst 200 OFFSET ⟨7, 1, [106, 111, 111, 108]⟩ []).isSome ∧ [106, 111, 111, (108 : Byte)].length ≤ 15
    ∧ 0#8 ∉ [106, 111, 111, (108 : Byte)] := by decide +kernel

end Jool.NlAttr
