import Verif.Props.Listing
/-
C95: the listings of the tables.
-/
namespace Jool.Listing
open Jool.Text
open Jool.NlAttr (WBib WSess WPool4 WInst)
open Jool.CsvSpec
open Jool.ListingSpec

set_option linter.unusedVariables false

variable {i : Inet}

/-! ### What is printed, in fields -/

def sessionRow (i : Inet) (proto : BitVec 8) (e : WSess) : List Text :=
  [protoName proto, i.ntop6 e.src6.addr, dec e.src6.port.toNat, i.ntop6 e.dst6.addr, dec e.dst6.port.toNat, i.ntop4 e.src4.addr, dec e.src4.port.toNat, i.ntop4 e.dst4.addr,
    dec e.dst4.port.toNat, timeout2str e.ms] ++ (if proto = 0 then [stateName e.state] else [])

theorem sessionLine_eq (nm : Names) (proto : BitVec 8) (e : WSess) : sessionLine i nm true proto e = line (sessionRow i proto e) := by
  unfold sessionLine sessionRow printAddr6 printAddr4
  by_cases h : proto = 0
  · simp [h, line]
  · rw [if_neg h, if_neg h]; simp [line]

theorem session_plain (hi : i.Ok) {proto : BitVec 8} {e : WSess} (hp : proto = 0 ∨ proto = 1 ∨ proto = 2) (hs : e.state.toNat ≤ 6) : ∀ t ∈ sessionRow i proto e, Plain t := by
  intro t ht
  unfold sessionRow at ht
  simp only [List.cons_append, List.nil_append, List.mem_cons] at ht
  rcases ht with q | q | q | q | q | q | q | q | q | q | q
  all_goals first
    | subst q
      first
      | exact (proto_of hp).2
      | exact Listing.plain6 hi _
      | exact Listing.plain4 hi _
      | exact plain_dec _
      | exact (time_of _).2
    | skip
  split at q
  · rw [List.mem_singleton] at q
    subst q
    exact (state_of hs).2
  · cases q

theorem session_is (hi : i.Ok) {proto : BitVec 8} {e : WSess} (hp : proto = 0 ∨ proto = 1 ∨ proto = 2) (hs : e.state.toNat ≤ 6) : IsSession i proto e (sessionRow i proto e) := by
  refine ⟨_, _, _, _, _, _, _, _, _, _, _, rfl, (proto_of hp).1, ⟨hi.v6 _, num_dec _⟩, ⟨hi.v6 _, num_dec _⟩, ⟨hi.v4 _, num_dec _⟩, ⟨hi.v4 _, num_dec _⟩, (time_of _).1, ?_⟩
  split
  · exact ⟨_, rfl, (state_of hs).1⟩
  · rfl

/-- The names of the columns of a listing of sessions. -/
def sessionColumns : List String := ["Protocol", "IPv6 Remote Address", "IPv6 Remote L4-ID", "IPv6 Local Address", "IPv6 Local L4-ID", "IPv4 Local Address", "IPv4 Local L4-ID",
  "IPv4 Remote Address", "IPv4 Remote L4-ID", "Expires in", "State"]

/-- **C95.** `session display --csv --numeric`: a CSV file; one record for each session, in their order, that says its addresses, its ports, when it expires, and (TCP) its state. -/
theorem sessions_partial (hi : i.Ok) (nm : Names) (noHeaders : Bool) {proto : BitVec 8} (hp : proto = 0 ∨ proto = 1 ∨ proto = 2) (l : List WSess) (hs : ∀ e ∈ l, e.state.toNat ≤ 6) :
    ∃ row : WSess → List Text, File (sessions i nm noHeaders true proto l) (head noHeaders sessionColumns ++ l.map row) ∧ ∀ e ∈ l, IsSession i proto e (row e) := by
  refine ⟨sessionRow i proto, ?_, fun e he => session_is hi hp (hs e he)⟩
  unfold sessions
  refine file_head (head_record (by decide +kernel) (by decide) (by decide +kernel)) (file_map ?_)
  intro e he
  rw [sessionLine_eq]
  exact line_record (by unfold sessionRow; simp) (session_plain hi hp (hs e he))

/-- **C95.** The records of TCP sessions have as many fields as the header, … -/
theorem session_width {e : WSess} {row : List Text} (h : IsSession i 0 e row) : row.length = sessionColumns.length := by
  obtain ⟨p, a, b, c, d, f, g, h, k, t, st, rfl, -, -, -, -, -, -, w⟩ := h
  rw [if_pos rfl] at w
  obtain ⟨n, rfl, -⟩ := w
  rfl

/-- … **and the others do not: they lack the last one.** -/
theorem session_short {proto : BitVec 8} {e : WSess} {row : List Text} (hp : proto ≠ 0) (h : IsSession i proto e row) : row.length + 1 = sessionColumns.length := by
  obtain ⟨p, a, b, c, d, f, g, h, k, t, st, rfl, -, -, -, -, -, -, w⟩ := h
  rw [if_neg hp] at w
  subst w
  rfl

/-! ### Records determine entries -/

theorem num_unique {t : Text} {n m : Nat} (h : Num t n) (h' : Num t m) : n = m := h.2.symm.trans h'.2

theorem at6_unique {a p : Text} {x y : T6} (h : At6 i a p x) (h' : At6 i a p y) : x = y := by
  obtain ⟨x1, x2⟩ := x
  obtain ⟨y1, y2⟩ := y
  have e1 := Option.some.inj (h.1.symm.trans h'.1)
  have e2 := BitVec.eq_of_toNat_eq (num_unique h.2 h'.2)
  simp only at e1 e2
  rw [e1, e2]

theorem at4_unique {a p : Text} {x y : T4} (h : At4 i a p x) (h' : At4 i a p y) : x = y := by
  obtain ⟨x1, x2⟩ := x
  obtain ⟨y1, y2⟩ := y
  have e1 := Option.some.inj (h.1.symm.trans h'.1)
  have e2 := BitVec.eq_of_toNat_eq (num_unique h.2 h'.2)
  simp only at e1 e2
  rw [e1, e2]

theorem time_unique {t : Text} {x y : BitVec 32} (h : Time t x) (h' : Time t y) : x = y := by
  obtain ⟨h1, m1, s1, f1, e1, w1, v1⟩ := h
  obtain ⟨h2, m2, s2, f2, e2, w2, v2⟩ := h'
  have k1 := timeout_reads_partial _ _ w1
  have k2 := timeout_reads_partial _ _ w2
  rw [← e1, v1] at k1
  rw [← e2, v2] at k2
  have := Option.some.inj (k1.symm.trans k2)
  rw [BitVec.ofNat_toNat, BitVec.ofNat_toNat, BitVec.setWidth_eq, BitVec.setWidth_eq] at this
  exact this

theorem protos_unique {p : Text} {x y : BitVec 8} (h : (x, p) ∈ protos) (h' : (y, p) ∈ protos) : x = y := by
  have : ∀ a ∈ protos, ∀ b ∈ protos, a.2 = b.2 → a.1 = b.1 := by decide +kernel
  exact this _ h _ h' rfl

theorem states_unique {p : Text} {x y : BitVec 8} (h : (x, p) ∈ states) (h' : (y, p) ∈ states) : x = y := by
  have : ∀ a ∈ states, ∀ b ∈ states, a.2 = b.2 → a.1 = b.1 := by decide +kernel
  exact this _ h _ h' rfl

/-- **C95.** A record says which session it is. (The protocol is that of the listing. States are those of TCP.) -/
theorem session_determined {p p' : BitVec 8} {e e' : WSess} {row : List Text} (h : IsSession i p e row) (h' : IsSession i p' e' row) :
    p = p' ∧ e.src6 = e'.src6 ∧ e.dst6 = e'.dst6 ∧ e.src4 = e'.src4 ∧ e.dst4 = e'.dst4 ∧ e.ms = e'.ms ∧ (p = 0 → e.state = e'.state) := by
  obtain ⟨p1, a, b, c, d, f, g, h, k, t, st, rfl, w1, w2, w3, w4, w5, w6, w7⟩ := h
  obtain ⟨p1', a', b', c', d', f', g', h', k', t', st', e0, v1, v2, v3, v4, v5, v6, v7⟩ := h'
  simp only [List.cons_append, List.nil_append, List.cons.injEq] at e0
  obtain ⟨rfl, rfl, rfl, rfl, rfl, rfl, rfl, rfl, rfl, rfl, rfl⟩ := e0
  have hp := protos_unique w1 v1
  subst hp
  refine ⟨rfl, at6_unique w2 v2, at6_unique w3 v3, at4_unique w4 v4, at4_unique w5 v5, time_unique w6 v6, ?_⟩
  intro q
  rw [if_pos q] at w7 v7
  obtain ⟨n, rfl, k1⟩ := w7
  obtain ⟨n', e1, k2⟩ := v7
  injection e1 with e1 _
  subst e1
  exact states_unique k1 k2

/-! ### BIB -/

def bibRow (i : Inet) (e : WBib) : List Text :=
  [protoName e.proto, i.ntop6 e.a6.addr, dec e.a6.port.toNat, i.ntop4 e.a4.addr, dec e.a4.port.toNat, dec (if e.static then 1 else 0)]

def bibColumns : List String := ["Protocol", "IPv6 Address", "IPv6 L4-ID", "IPv4 Address", "IPv4 L4-ID", "Static?"]

/-- **C95.** `bib display --csv --numeric`. -/
theorem bibs_listed (hi : i.Ok) (nm : Names) (noHeaders : Bool) (l : List WBib) (hp : ∀ e ∈ l, e.proto = 0 ∨ e.proto = 1 ∨ e.proto = 2) :
    ∃ row : WBib → List Text, File (bibs i nm noHeaders true l) (head noHeaders bibColumns ++ l.map row) ∧ ∀ e ∈ l, IsBib i e (row e) ∧ (row e).length = bibColumns.length := by
  refine ⟨bibRow i, ?_, ?_⟩
  · unfold bibs
    refine file_head (head_record (by decide +kernel) (by decide) (by decide +kernel)) (file_map ?_)
    intro e he
    have : bibLine i nm true e = line (bibRow i e) := by
      unfold bibLine bibRow printAddr6 printAddr4
      simp [line]
    rw [this]
    refine line_record (by unfold bibRow; simp) ?_
    intro t ht
    unfold bibRow at ht
    simp only [List.mem_cons, List.not_mem_nil, or_false] at ht
    rcases ht with q | q | q | q | q | q <;> subst q
    · exact (proto_of (hp e he)).2
    · exact Listing.plain6 hi _
    · exact plain_dec _
    · exact Listing.plain4 hi _
    · exact plain_dec _
    · exact plain_dec _
  · intro e he
    exact ⟨⟨_, _, _, _, _, _, rfl, (proto_of (hp e he)).1, ⟨hi.v6 _, num_dec _⟩, ⟨hi.v4 _, num_dec _⟩, num_dec _⟩, rfl⟩

theorem bib_determined {e e' : WBib} {row : List Text} (h : IsBib i e row) (h' : IsBib i e' row) : e = e' := by
  obtain ⟨p, a, b, c, d, n, rfl, w1, w2, w3, w4⟩ := h
  obtain ⟨p', a', b', c', d', n', e0, v1, v2, v3, v4⟩ := h'
  simp only [List.cons.injEq] at e0
  obtain ⟨rfl, rfl, rfl, rfl, rfl, rfl, -⟩ := e0
  obtain ⟨e1, e2, e3, e4⟩ := e
  obtain ⟨f1, f2, f3, f4⟩ := e'
  have k1 := protos_unique w1 v1
  have k2 := at6_unique w2 v2
  have k3 := at4_unique w3 v3
  have k4 := num_unique w4 v4
  simp only at k1 k2 k3 k4
  subst k1 k2 k3
  cases e4 <;> cases f4 <;> simp at k4 <;> rfl

/-! ### EAMT, denylist4 -/

theorem split_slash : ∀ {a b n m : Text}, '/' ∉ a → '/' ∉ b → a ++ '/' :: n = b ++ '/' :: m → a = b ∧ n = m
  | [], [], _, _, _, _, e => by injection e with _ e; exact ⟨rfl, e⟩
  | [], c :: b, _, _, _, h, e => by
    injection e with e _
    exact absurd (e ▸ List.mem_cons_self) h
  | c :: a, [], _, _, h, _, e => by
    injection e with e _
    exact absurd (e ▸ List.mem_cons_self) h
  | c :: a, d :: b, _, _, h, h', e => by
    injection e with e1 e2
    obtain ⟨k1, k2⟩ := split_slash (fun q => h (List.mem_cons_of_mem _ q)) (fun q => h' (List.mem_cons_of_mem _ q)) e2
    exact ⟨by rw [e1, k1], k2⟩

theorem is6_unique {t : Text} {p q : Prefix6} (h : Is6 i t p) (h' : Is6 i t q) : p = q := by
  obtain ⟨a, n, rfl, a1, a2, a3, a4⟩ := h
  obtain ⟨b, m, e, b1, b2, b3, b4⟩ := h'
  obtain ⟨rfl, rfl⟩ := split_slash a1 b1 e
  obtain ⟨p1, p2⟩ := p
  obtain ⟨q1, q2⟩ := q
  have e1 := Option.some.inj (a3.symm.trans b3)
  have e2 := num_unique a4 b4
  simp only at e1 e2
  rw [e1, e2]

theorem is4_unique {t : Text} {p q : Prefix4} (h : Is4 i t p) (h' : Is4 i t q) : p = q := by
  obtain ⟨a, n, rfl, a1, a2, a3, a4⟩ := h
  obtain ⟨b, m, e, b1, b2, b3, b4⟩ := h'
  obtain ⟨rfl, rfl⟩ := split_slash a1 b1 e
  obtain ⟨p1, p2⟩ := p
  obtain ⟨q1, q2⟩ := q
  have e1 := Option.some.inj (a3.symm.trans b3)
  have e2 := num_unique a4 b4
  simp only at e1 e2
  rw [e1, e2]

theorem is6_of (hi : i.Ok) (p : Prefix6) : Is6 i (i.ntop6 p.addr ++ '/' :: dec p.len) p ∧ Plain (i.ntop6 p.addr ++ '/' :: dec p.len) :=
  ⟨⟨_, _, rfl, slash6 hi _ (by decide) (by decide), not_mem_digits (dec_digits _) (by decide), hi.v6 _, num_dec _⟩,
    plain_append (Listing.plain6 hi _) (plain_cons (by decide) (plain_dec _))⟩

theorem is4_of (hi : i.Ok) (p : Prefix4) : Is4 i (i.ntop4 p.addr ++ '/' :: dec p.len) p ∧ Plain (i.ntop4 p.addr ++ '/' :: dec p.len) :=
  ⟨⟨_, _, rfl, slash4 hi _ (by decide) (by decide), not_mem_digits (dec_digits _) (by decide), hi.v4 _, num_dec _⟩,
    plain_append (Listing.plain4 hi _) (plain_cons (by decide) (plain_dec _))⟩

/-- **C95.** `eamt display --csv`. -/
theorem eams_listed (hi : i.Ok) (noHeaders : Bool) (l : List Eam.Entry) :
    ∃ row : Eam.Entry → List Text, File (eams i noHeaders l) (head noHeaders ["IPv6 Prefix", "IPv4 Prefix"] ++ l.map row) ∧ ∀ e ∈ l, IsEam i e (row e) ∧ (row e).length = 2 := by
  refine ⟨fun e => [i.ntop6 e.p6.addr ++ '/' :: dec e.p6.len, i.ntop4 e.p4.addr ++ '/' :: dec e.p4.len], ?_, fun e _ => ⟨⟨_, _, rfl, (is6_of hi _).1, (is4_of hi _).1⟩, rfl⟩⟩
  unfold eams
  refine file_head (head_record (by decide +kernel) (by decide) (by decide +kernel)) (file_map ?_)
  intro e _
  have : eamLine i e = line [i.ntop6 e.p6.addr ++ '/' :: dec e.p6.len, i.ntop4 e.p4.addr ++ '/' :: dec e.p4.len] := by
    unfold eamLine
    simp [line]
  rw [this]
  refine line_record (by simp) ?_
  intro t ht
  simp only [List.mem_cons, List.not_mem_nil, or_false] at ht
  rcases ht with q | q <;> subst q
  · exact (is6_of hi _).2
  · exact (is4_of hi _).2

theorem eam_determined {e e' : Eam.Entry} {row : List Text} (h : IsEam i e row) (h' : IsEam i e' row) : e = e' := by
  obtain ⟨a, b, rfl, a1, a2⟩ := h
  obtain ⟨c, d, e0, b1, b2⟩ := h'
  simp only [List.cons.injEq] at e0
  obtain ⟨rfl, rfl, -⟩ := e0
  obtain ⟨x, y⟩ := e
  obtain ⟨z, w⟩ := e'
  have k1 := is6_unique a1 b1
  have k2 := is4_unique a2 b2
  simp only at k1 k2
  rw [k1, k2]

/-- **C95.** `denylist4 display --csv`. -/
theorem denied_listed (hi : i.Ok) (noHeaders : Bool) (l : List Prefix4) :
    ∃ row : Prefix4 → Text, File (denied i noHeaders l) (head noHeaders ["IPv4 Prefix"] ++ l.map (fun p => [row p])) ∧ ∀ p ∈ l, Is4 i (row p) p := by
  refine ⟨fun p => i.ntop4 p.addr ++ '/' :: dec p.len, ?_, fun p _ => (is4_of hi p).1⟩
  unfold denied
  refine file_head (head_record (by decide +kernel) (by decide) (by decide +kernel)) (file_map ?_)
  intro p _
  have : i.ntop4 p.addr ++ ['/'] ++ dec p.len ++ ['\n'] = line [i.ntop4 p.addr ++ '/' :: dec p.len] := by simp [line]
  rw [this]
  refine line_record (by simp) ?_
  intro t ht
  rw [List.mem_singleton] at ht
  subst ht
  exact (is4_of hi _).2

end Jool.Listing
