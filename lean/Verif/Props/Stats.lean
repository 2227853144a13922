import Verif.Model.Stats
import Verif.Props.BibTables
import Verif.Lemmas.Nla
/-
C71: the statistics are listed completely and count what happened. C54: the two that count the BIB, for the whole life of an instance.
-/
namespace Jool.Stats
open Jool.Nla Jool.NlAttr Jool.Req
open Jool.JooldMsg (Byte)

/-! ## Counting -/

theorem fold_addStat {w} (m : Mib w) (cpu id : Nat) (d : Int) (i n : Nat) :
    fold (addStat m cpu id d) i n = fold m i n + if cpu < n ∧ i = id then BitVec.ofInt w d else 0 := by
  induction n with
  | zero => simp [fold]
  | succ n ih =>
    simp only [fold, ih, addStat]
    by_cases hi : i = id
    · by_cases h1 : cpu < n
      · rw [if_pos ⟨h1, hi⟩, if_neg (by omega), if_pos ⟨by omega, hi⟩]
        rw [BitVec.add_assoc, BitVec.add_assoc, BitVec.add_comm (BitVec.ofInt w d)]
      · rw [if_neg (fun h => h1 h.1)]
        by_cases h2 : n = cpu
        · rw [if_pos ⟨h2, hi⟩, if_pos ⟨by omega, hi⟩]
          simp [BitVec.add_assoc]
        · rw [if_neg (fun h => h2 h.1), if_neg (by omega)]
          simp
    · simp [hi]

/-- An event of the history: the processor, the counter, the amount. -/
structure Count where
  cpu : Nat
  id : Nat
  d : Int
deriving DecidableEq, Repr

/-- Specification: the sum of the amounts of one counter. -/
def total (id : Nat) (l : List Count) : Int := ((l.filter (fun c => c.id = id)).map (·.d)).sum

/-- **Counting.** Whatever the processors do, and in whatever order, a counter is the sum of everything that was counted, modulo the size of the machine's
words. -/
theorem count_exact {w} (ncpu : Nat) (l : List Count) (hc : ∀ c ∈ l, c.cpu < ncpu) (id : Nat) :
    ∀ m : Mib w, fold (l.foldl (fun m c => addStat m c.cpu c.id c.d) m) id ncpu
      = fold m id ncpu + BitVec.ofInt w (total id l) := by
  induction l with
  | nil => intro m; simp [total]
  | cons c r ih =>
    intro m
    rw [List.foldl_cons, ih (fun x hx => hc x (by simp [hx])), fold_addStat]
    have h := hc c (by simp)
    by_cases hi : c.id = id
    · rw [if_pos ⟨h, hi.symm⟩, BitVec.add_assoc, ← BitVec.ofInt_add]
      simp [total, hi]
    · rw [if_neg (fun x => hi x.2.symm)]
      simp [total, hi]

theorem fold_zero (w id n : Nat) : fold (zero w) id n = 0 := by
  induction n with
  | zero => rfl
  | succ n ih => simp [fold, ih, zero]

/-- The value that is listed, as long as it fits. -/
theorem query_exact {w} (ncpu : Nat) (l : List Count) (hc : ∀ c ∈ l, c.cpu < ncpu) (id : Nat) (hw : w ≤ 64)
    (h0 : 0 ≤ total id l) (h1 : total id l < 2 ^ w) :
    ((query ncpu (l.foldl (fun m c => addStat m c.cpu c.id c.d) (zero w)) id).toNat : Int) = total id l := by
  unfold query
  rw [count_exact ncpu l hc, fold_zero, show (0 : BitVec w) = 0#w from rfl]
  have h2 : (2 : Nat) ^ w ≤ 2 ^ 64 := Nat.pow_le_pow_right (by omega) hw
  rw [BitVec.toNat_setWidth, BitVec.zero_add, BitVec.toNat_ofInt]
  have h3 : total id l % ((2 ^ w : Nat) : Int) = total id l := Int.emod_eq_of_lt h0 (by push_cast; exact h1)
  rw [h3]
  have h4 : (total id l).toNat < 2 ^ w := by
    have : (total id l).toNat < ((2 ^ w : Nat) : Int) := by push_cast; omega
    exact_mod_cast this
  rw [Nat.mod_eq_of_lt (by omega)]
  omega

/-- Two processors: three packets, one entry that came on one and went on the other. -/
example : (List.range 6).map (fun i => (query 2 (([⟨0, 1, 1⟩, ⟨1, 1, 2⟩, ⟨0, 4, 1⟩, ⟨1, 4, -1⟩] : List Count).foldl
    (fun m c => addStat m c.cpu c.id c.d) (zero 32)) i).toNat) = [0, 3, 0, 0, 0, 0] := by decide

/-! ## The number of entries and sessions -/

/-- Specification: the entries and sessions of an instance. -/
def bibs {w} (s : Inst w) : Nat :=
  (BibSpec.bibs (s.bib .TCP)).length + (BibSpec.bibs (s.bib .UDP)).length + (BibSpec.bibs (s.bib .ICMP)).length
def sessions {w} (s : Inst w) : Nat :=
  (BibSpec.sessions (s.bib .TCP)).length + (BibSpec.sessions (s.bib .UDP)).length + (BibSpec.sessions (s.bib .ICMP)).length

/-- Operations: on the tables, by existing processors; nobody else writes the two counters. -/
def Op.Ok (ncpu : Nat) : Op → Prop
  | .table _ cpu _ op => cpu < ncpu ∧ op.Ok
  | .count _ id _ => id ≠ BIB_ENTRIES ∧ id ≠ SESSIONS
  | .replace => True
  | .update => True

def Inv {w} (s : Inst w) : Prop := ∀ p, Bib.Inv (s.bib p)

theorem inv_new (w : Nat) : Inv (new w) := fun _ => Bib.Inv_init

theorem statBib_eq {t : Bib.Table} (h : Bib.Inv t) : t.statBib = (BibSpec.bibs t).length := h.sb
theorem statSess_eq {t : Bib.Table} (h : Bib.Inv t) : t.statSess = (BibSpec.sessions t).length := by
  rw [h.sn, h.wf.sessions_perm.length_eq]

theorem step_inv {w} {ncpu : Nat} {s s' : Inst w} {o : Op} (h : Inv s) (ho : o.Ok ncpu) (hr : step s o = .ok s') : Inv s' := by
  cases o with
  | table p cpu e op =>
    simp only [step] at hr
    split at hr
    · cases hr
    · rename_i r hs
      cases hr
      intro q
      dsimp only
      split
      · exact (h p).step ho.2 hs
      · exact h q
  | count cpu id d => cases hr; exact h
  | replace => cases hr; exact h
  | update => cases hr; exact h

theorem step_gauge {w} {ncpu : Nat} {s s' : Inst w} {o : Op} (h : Inv s) (ho : o.Ok ncpu) (hn : o ≠ .replace)
    (hr : step s o = .ok s') :
    fold s'.mib BIB_ENTRIES ncpu = fold s.mib BIB_ENTRIES ncpu + BitVec.ofInt w (bibs s' - bibs s)
    ∧ fold s'.mib SESSIONS ncpu = fold s.mib SESSIONS ncpu + BitVec.ofInt w (sessions s' - sessions s) := by
  cases o with
  | table p cpu e op =>
    simp only [step] at hr
    split at hr
    · cases hr
    · rename_i r hs
      have i' := (h p).step ho.2 hs
      have eb : (bibs s' : Int) - bibs s = r.1.statBib - (s.bib p).statBib := by
        rw [statBib_eq i', statBib_eq (h p)]
        cases hr
        cases p <;> simp only [bibs, if_true, reduceCtorEq, if_false] <;> omega
      have es : (sessions s' : Int) - sessions s = r.1.statSess - (s.bib p).statSess := by
        rw [statSess_eq i', statSess_eq (h p)]
        cases hr
        cases p <;> simp only [sessions, if_true, reduceCtorEq, if_false] <;> omega
      rw [eb, es]
      cases hr
      simp only [fold_addStat]
      refine ⟨?_, ?_⟩
      · simp [ho.1, BIB_ENTRIES, SESSIONS]
      · simp [ho.1, BIB_ENTRIES, SESSIONS]
  | count cpu id d =>
    cases hr
    simp only [fold_addStat, bibs, sessions]
    rw [if_neg (fun x => ho.1 x.2.symm), if_neg (fun x => ho.2 x.2.symm)]
    simp
  | replace => exact absurd rfl hn
  | update => cases hr; simp

theorem run_gauge {w} {ncpu : Nat} (l : List Op) : ∀ {s s' : Inst w}, Inv s → (∀ o ∈ l, o.Ok ncpu) → .replace ∉ l → run s l = .ok s' →
    Inv s' ∧ fold s'.mib BIB_ENTRIES ncpu = fold s.mib BIB_ENTRIES ncpu + BitVec.ofInt w (bibs s' - bibs s)
    ∧ fold s'.mib SESSIONS ncpu = fold s.mib SESSIONS ncpu + BitVec.ofInt w (sessions s' - sessions s) := by
  induction l with
  | nil =>
    intro s s' h _ _ hr
    cases hr
    simp [h]
  | cons o r ih =>
    intro s s' h ho hn hr
    simp only [run] at hr
    cases hs : step s o with
    | ub u => rw [hs] at hr; cases hr
    | ok m =>
      rw [hs] at hr
      have ho1 := ho o (by simp)
      have hn1 : o ≠ .replace := fun x => hn (by simp [x])
      obtain ⟨k1, k2⟩ := step_gauge h ho1 hn1 hs
      obtain ⟨j0, j1, j2⟩ := ih (step_inv h ho1 hs) (fun x hx => ho x (by simp [hx])) (fun x => hn (by simp [x])) hr
      refine ⟨j0, ?_, ?_⟩
      · rw [j1, k1, BitVec.add_assoc, ← BitVec.ofInt_add]
        congr 2; omega
      · rw [j2, k2, BitVec.add_assoc, ← BitVec.ofInt_add]
        congr 2; omega

theorem run_inv {w} {ncpu : Nat} (l : List Op) : ∀ {s s' : Inst w}, Inv s → (∀ o ∈ l, o.Ok ncpu) → run s l = .ok s' → Inv s' := by
  induction l with
  | nil => intro s s' h _ hr; cases hr; exact h
  | cons o r ih =>
    intro s s' h ho hr
    simp only [run] at hr
    cases hs : step s o with
    | ub u => rw [hs] at hr; cases hr
    | ok m =>
      rw [hs] at hr
      exact ih (step_inv h (ho o (by simp)) hs) (fun x hx => ho x (by simp [hx])) hr

theorem query_ofInt {w ncpu : Nat} {m : Mib w} {id : Nat} {x : Nat} (h : fold m id ncpu = BitVec.ofInt w (x : Int)) (hw : w ≤ 64)
    (hx : x < 2 ^ w) : (query ncpu m id).toNat = x := by
  unfold query
  rw [h, BitVec.toNat_setWidth]
  have h2 : (2 : Nat) ^ w ≤ 2 ^ 64 := Nat.pow_le_pow_right (by omega) hw
  have : (BitVec.ofInt w (x : Int)).toNat = x := by
    rw [BitVec.ofInt_natCast, BitVec.toNat_ofNat, Nat.mod_eq_of_lt hx]
  rw [this, Nat.mod_eq_of_lt (by omega)]

/-- **The two gauges, without replacements.** Over the whole life of an instance that is not replaced by atomic configuration, whatever happens on whichever processor, the
listed numbers of BIB entries and of sessions are the real ones. -/
theorem gauges_partial {w ncpu : Nat} {l : List Op} {s : Inst w} (hw : w ≤ 64) (ho : ∀ o ∈ l, o.Ok ncpu) (hn : .replace ∉ l)
    (hr : run (new w) l = .ok s) :
    (bibs s < 2 ^ w → (query ncpu s.mib BIB_ENTRIES).toNat = bibs s)
    ∧ (sessions s < 2 ^ w → (query ncpu s.mib SESSIONS).toNat = sessions s) := by
  obtain ⟨-, h1, h2⟩ := run_gauge l (inv_new w) ho hn hr
  have z : fold (new w).mib BIB_ENTRIES ncpu = 0 ∧ fold (new w).mib SESSIONS ncpu = 0 := ⟨fold_zero _ _ _, fold_zero _ _ _⟩
  have c : bibs (new w) = 0 ∧ sessions (new w) = 0 := ⟨rfl, rfl⟩
  rw [z.1, c.1] at h1
  rw [z.2, c.2] at h2
  exact ⟨fun hx => query_ofInt (by simpa using h1) hw hx, fun hx => query_ofInt (by simpa using h2) hw hx⟩

/-- **The two gauges, after a replacement.** They only count what changed since the last replacement: they are off by the number of entries that there were
then. -/
theorem gauges_replaced {w ncpu : Nat} {l r : List Op} {m s : Inst w} (ho : ∀ o ∈ l ++ .replace :: r, o.Ok ncpu) (hn : .replace ∉ r)
    (hl : run (new w) l = .ok m) (hr : run (new w) (l ++ .replace :: r) = .ok s) :
    fold s.mib BIB_ENTRIES ncpu = BitVec.ofInt w (bibs s - bibs m)
    ∧ fold s.mib SESSIONS ncpu = BitVec.ofInt w (sessions s - sessions m) := by
  have split : ∀ (a b : List Op) (x y : Inst w), run x a = .ok y → run x (a ++ b) = run y b := by
    intro a
    induction a with
    | nil => intro b x y h; cases h; rfl
    | cons o a ih =>
      intro b x y h
      simp only [run, List.cons_append] at h ⊢
      cases hs : step x o with
      | ub u => rw [hs] at h; cases h
      | ok z => rw [hs] at h; exact ih b z y h
  rw [split l _ _ m hl] at hr
  have im : Inv m := run_inv l (inv_new w) (fun o h => ho o (by simp [h])) hl
  have hr' : run ({ m with mib := zero w } : Inst w) r = .ok s := hr
  obtain ⟨-, h1, h2⟩ := run_gauge (s := ({ m with mib := zero w } : Inst w)) r im (fun o h => ho o (by simp [h])) hn hr'
  have z : ∀ id, fold (zero w) id ncpu = 0 := fun id => fold_zero _ _ _
  have e1 : bibs ({ m with mib := zero w } : Inst w) = bibs m := rfl
  have e2 : sessions ({ m with mib := zero w } : Inst w) = sessions m := rfl
  rw [z, e1] at h1
  rw [z, e2] at h2
  exact ⟨by simpa using h1, by simpa using h2⟩

/-- A static BIB entry is added, the configuration file is loaded, the entry is removed: there are 18446744073709551615 entries. -/
theorem gauge_wraps : ∃ (l : List Op) (s : Inst 64), (∀ o ∈ l, o.Ok 1) ∧ run (new 64) l = .ok s ∧ bibs s = 0
    ∧ (query 1 s.mib BIB_ENTRIES).toNat = 18446744073709551615 := by
  refine ⟨[.table .UDP 0 default (.addStatic ⟨⟨1, 1⟩, ⟨2, 2⟩⟩), .replace, .table .UDP 0 default (.rm ⟨⟨1, 1⟩, ⟨2, 2⟩⟩)], ?_⟩
  refine ⟨_, ?_, rfl, ?_, ?_⟩
  · intro o ho
    simp only [List.mem_cons, List.not_mem_nil, or_false] at ho
    rcases ho with rfl | rfl | rfl
    · exact ⟨by decide, trivial⟩
    · trivial
    · exact ⟨by decide, trivial⟩
  · rfl
  · decide +kernel

/-! ## The listing -/

/-- The attributes of one counter. -/
def chunk (arch : Bool) (vals : Nat → BitVec 64) (id : Nat) : List Attr :=
  (if arch then [⟨PADDING, false, []⟩] else []) ++ [⟨id, false, le 8 (vals id).toNat⟩]

theorem chunk_length (arch : Bool) (vals : Nat → BitVec 64) (id : Nat) :
    ((chunk arch vals id).flatMap enc).length = if arch then 16 else 12 := by
  cases arch <;> simp [chunk, enc_length, le_length, align]

theorem putU64_eq {arch : Bool} {cap id : Nat} {vals : Nat → BitVec 64} {skb : List Byte} (h : arch = true → skb.length % 8 = 0) :
    putU64 arch cap id (vals id) skb = if skb.length + (if arch then 16 else 12) ≤ cap then some (skb ++ (chunk arch vals id).flatMap enc) else none := by
  unfold putU64
  cases arch
  · simp [put, chunk, le_length, align]
  · simp [h rfl, chunk]

theorem fill_eq {arch : Bool} {cap : Nat} {vals : Nat → BitVec 64} : ∀ (n id : Nat) (skb : List Byte), (arch = true → skb.length % 8 = 0) →
    ∃ k, k ≤ n ∧ fill arch cap vals n id skb = (skb ++ ((List.range' id k).flatMap (chunk arch vals)).flatMap enc, decide (k < n))
      ∧ (k = 0 → 0 < n → cap < skb.length + 16) := by
  intro n
  induction n with
  | zero => intro id skb _; exact ⟨0, Nat.le_refl _, by simp [fill], fun _ h => absurd h (by omega)⟩
  | succ n ih =>
    intro id skb h
    unfold fill
    rw [putU64_eq h]
    by_cases hc : skb.length + (if arch then 16 else 12) ≤ cap
    · rw [if_pos hc]
      have h' : arch = true → (skb ++ (chunk arch vals id).flatMap enc).length % 8 = 0 := by
        intro ha
        rw [List.length_append, chunk_length, if_pos ha]
        have := h ha
        omega
      obtain ⟨k, h1, h2, h3⟩ := ih (id + 1) _ h'
      refine ⟨k + 1, by omega, ?_, by omega⟩
      dsimp only
      rw [h2]
      simp [List.range'_succ, List.append_assoc]
    · rw [if_neg hc]
      refine ⟨0, by omega, by simp, fun _ _ => ?_⟩
      cases arch <;> simp at hc <;> omega

theorem chunk_small {arch : Bool} {vals : Nat → BitVec 64} {id : Nat} (hid : id < 2 ^ 14) : ∀ a ∈ chunk arch vals id, Small a := by
  intro a ha
  unfold chunk at ha
  cases arch <;> simp at ha
  · subst ha; exact ⟨hid, by simp [le_length]⟩
  · rcases ha with rfl | rfl
    · exact ⟨by simp [PADDING], by simp⟩
    · exact ⟨hid, by simp [le_length]⟩

/-- What the client shows of one counter. -/
def shown (arch : Bool) (vals : Nat → BitVec 64) (id : Nat) : List Shown :=
  (if arch then [⟨PADDING, 0, false⟩] else []) ++ [⟨id, (vals id).toNat, true⟩]

theorem show_chunk {arch : Bool} {vals : Nat → BitVec 64} {id : Nat} (h1 : 1 ≤ id) (h2 : id ≤ UNKNOWN) :
    (chunk arch vals id).map show1 = shown arch vals id := by
  have h2 : id < PADDING := by unfold UNKNOWN at h2; unfold PADDING; omega
  have e : unle ((le 8 (vals id).toNat).take 8) = (vals id).toNat := by
    rw [List.take_of_length_le (by rw [le_length]), unle_le]
    exact Nat.mod_eq_of_lt (by have := (vals id).isLt; omega)
  cases arch
  · simp [chunk, shown, show1, e, h1, h2]
  · simp [chunk, shown, show1, e, h1, h2, unle]

theorem page_attrs {arch : Bool} {vals : Nat → BitVec 64} {id k : Nat} (h1 : 1 ≤ id) (h2 : id + k ≤ UNKNOWN + 1) :
    (attrs (((List.range' id k).flatMap (chunk arch vals)).flatMap enc)).1.map show1 = (List.range' id k).flatMap (shown arch vals) := by
  have hr : ∀ x ∈ List.range' id k, 1 ≤ x ∧ x ≤ UNKNOWN := by
    intro x hx
    rw [List.mem_range'_1] at hx
    omega
  rw [attrs_encs]
  · rw [List.map_flatMap]
    generalize List.range' id k = l at hr
    induction l with
    | nil => rfl
    | cons x r ih =>
      rw [List.flatMap_cons, List.flatMap_cons, ih (fun y hy => hr y (by simp [hy])), show_chunk (hr x (by simp)).1 (hr x (by simp)).2]
  · intro a ha
    rw [List.mem_flatMap] at ha
    obtain ⟨x, hx, ha⟩ := ha
    have := hr x hx
    exact chunk_small (by unfold UNKNOWN at this; omega) a ha

/-- **The listing.** However small the responses are (room for one counter at least), the client gets every counter exactly once, in order, each with its value
when the response was written. Where 64 bit accesses must be aligned, it also shows one unknown counter with value zero for each of them. -/
theorem listAll_eq (arch : Bool) : ∀ (ans : List (Nat × (Nat → BitVec 64))) (last : Nat), (∀ a ∈ ans, 16 ≤ a.1) → last ≤ UNKNOWN →
    UNKNOWN - last ≤ ans.length → ans ≠ [] →
    ∃ pages : List (Nat × Nat × (Nat → BitVec 64)),
      listAll arch ans last = (pages.flatMap (fun q => (List.range' q.1 q.2.1).flatMap (shown arch q.2.2)), true)
      ∧ pages.flatMap (fun q => List.range' q.1 q.2.1) = List.range' (last + 1) (UNKNOWN - last)
      ∧ pages.map (·.2.2) <+: ans.map (·.2) := by
  intro ans
  induction ans with
  | nil => intro last _ _ _ h; exact absurd rfl h
  | cons a r ih =>
    intro last hcap hlast hlen _
    obtain ⟨cap, vals⟩ := a
    obtain ⟨k, h1, h2, h3⟩ := fill_eq (arch := arch) (cap := cap) (vals := vals) (UNKNOWN - last) (last + 1) [] (fun _ => by simp)
    rw [List.nil_append] at h2
    have hc : 16 ≤ cap := hcap (cap, vals) (by simp)
    have hk : 0 < UNKNOWN - last → 0 < k := by
      intro h
      by_cases hk : k = 0
      · have := h3 hk h
        simp at this
        omega
      · omega
    have hat := page_attrs (arch := arch) (vals := vals) (id := last + 1) (k := k) (by omega) (by omega)
    unfold listAll page
    dsimp only
    rw [h2]
    dsimp only
    by_cases hm : k < UNKNOWN - last
    · have hk := hk (by omega)
      have hne : (((List.range' (last + 1) k).flatMap (chunk arch vals)).flatMap enc).isEmpty = false := by
        obtain ⟨j, rfl⟩ : ∃ j, k = j + 1 := ⟨k - 1, by omega⟩
        rw [List.range'_succ, List.flatMap_cons, List.flatMap_append]
        have := chunk_length arch vals (last + 1)
        cases h : (chunk arch vals (last + 1)).flatMap enc with
        | nil => rw [h] at this; cases arch <;> simp at this
        | cons => simp
      simp only [hm, decide_true, hne, Bool.and_false, Bool.false_eq_true, if_false, if_true]
      rw [hat]
      have hl : ((((List.range' (last + 1) k).flatMap (shown arch vals)).getLast?).map (·.id)).getD last = last + k := by
        obtain ⟨j, rfl⟩ : ∃ j, k = j + 1 := ⟨k - 1, by omega⟩
        rw [List.range'_concat, List.flatMap_append, List.getLast?_append]
        simp [shown]
        omega
      rw [hl]
      have hr : r ≠ [] := by
        intro h
        rw [h] at hlen
        simp at hlen
        omega
      obtain ⟨pages, p1, p2, p3⟩ := ih (last + k) (fun x hx => hcap x (by simp [hx])) (by omega) (by simp at hlen; omega) hr
      refine ⟨(last + 1, k, vals) :: pages, ?_, ?_, ?_⟩
      · rw [p1]; simp
      · rw [List.flatMap_cons, p2]
        rw [show UNKNOWN - last = k + (UNKNOWN - (last + k)) by omega, List.range'_append_1.symm]
        congr 2; omega
      · simpa using p3
    · have hk' : k = UNKNOWN - last := by omega
      simp only [hm, decide_false, Bool.false_and, Bool.false_eq_true, if_false]
      rw [hat]
      refine ⟨[(last + 1, k, vals)], by simp, by simp [hk'], ?_⟩
      simp

/-- Where unaligned accesses are efficient (x86, ARM64), the listing consists of the 83 counters. -/
theorem listing_complete (ans : List (Nat × (Nat → BitVec 64))) (hcap : ∀ a ∈ ans, 16 ≤ a.1) (hlen : UNKNOWN ≤ ans.length) :
    ∃ l, listAll false ans 0 = (l, true) ∧ l.map (·.id) = List.range' 1 UNKNOWN
      ∧ ∀ x ∈ l, x.known = true ∧ ∃ a ∈ ans, x.value = (a.2 x.id).toNat := by
  have hne : ans ≠ [] := by intro h; rw [h] at hlen; simp [UNKNOWN] at hlen
  obtain ⟨pages, h1, h2, h3⟩ := listAll_eq false ans 0 hcap (by omega) (by simpa using hlen) hne
  refine ⟨_, h1, ?_, ?_⟩
  · rw [List.map_flatMap]
    rw [show UNKNOWN - 0 = UNKNOWN from rfl] at h2
    rw [← h2]
    congr 1
    funext q
    rw [List.map_flatMap]
    simp [shown, List.flatMap_singleton']
  · intro x hx
    simp only [List.mem_flatMap] at hx
    obtain ⟨q, hq, i, hi, hx⟩ := hx
    simp [shown] at hx
    subst hx
    refine ⟨rfl, ?_⟩
    have : q.2.2 ∈ ans.map (·.2) := h3.subset (List.mem_map_of_mem hq)
    rw [List.mem_map] at this
    obtain ⟨a, ha, e⟩ := this
    exact ⟨a, ha, by rw [e]⟩

/-- Elsewhere (32 bit ARM, for instance), every counter is preceded by an "unknown" one. -/
theorem listing_padding (ans : List (Nat × (Nat → BitVec 64))) (hcap : ∀ a ∈ ans, 16 ≤ a.1) (hlen : UNKNOWN ≤ ans.length) :
    ∃ l, listAll true ans 0 = (l, true) ∧ (l.filter (·.known)).map (·.id) = List.range' 1 UNKNOWN
      ∧ (l.filter (fun x => !x.known)).length = UNKNOWN := by
  have hne : ans ≠ [] := by intro h; rw [h] at hlen; simp [UNKNOWN] at hlen
  obtain ⟨pages, h1, h2, h3⟩ := listAll_eq true ans 0 hcap (by omega) (by simpa using hlen) hne
  rw [show UNKNOWN - 0 = UNKNOWN from rfl] at h2
  refine ⟨_, h1, ?_, ?_⟩
  · rw [← h2, List.filter_flatMap, List.map_flatMap]
    congr 1
    funext q
    rw [List.filter_flatMap, List.map_flatMap]
    simp [shown, List.flatMap_singleton']
  · have : ∀ l : List Nat, ∀ v, ((l.flatMap (shown true v)).filter (fun x => !x.known)).length = l.length := by
      intro l v
      induction l with
      | nil => rfl
      | cons a r ih => rw [List.flatMap_cons, List.filter_append, List.length_append, ih]; simp [shown]; omega
    have h4 : (pages.flatMap (fun q => List.range' q.1 q.2.1)).length = UNKNOWN := by rw [h2]; simp
    rw [← h4]
    clear h1 h2 h3 h4
    induction pages with
    | nil => rfl
    | cons q r ih =>
      rw [List.flatMap_cons, List.filter_append, List.length_append, ih, this, List.flatMap_cons, List.length_append]

/-- Pages of 20 bytes: one counter each. -/
example : (listAll false (List.replicate 83 (20, fun i => BitVec.ofNat 64 (i * i))) 0).1.map (·.value)
    = (List.range' 1 83).map (fun i => i * i) := by decide +kernel

end Jool.Stats
