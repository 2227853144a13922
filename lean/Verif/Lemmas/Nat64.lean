import Verif.Lemmas.Nat64Bib
import Verif.Model.Nat64
import Verif.Props.Rfc6052
import Verif.Props.Icmp
/-
The NAT64 pipeline, step by step.
-/
namespace Jool.Nat64
open Jool.Bib (Table BibKey SessKey Masks Event Live WF)
open BibSpec

theorem bind_ok {α β} {o : Outcome α} {f : α → Outcome β} {b : β} (h : o.bind f = .ok b) :
    ∃ a, o = .ok a ∧ f a = .ok b := by
  cases o with
  | ok a => exact ⟨a, rfl, h⟩
  | ub u => cases h

theorem map_ok {α β} {o : Outcome α} {f : α → β} {b : β} (h : o.map f = .ok b) : ∃ a, o = .ok a ∧ f a = b := by
  cases o with
  | ok a => exact ⟨a, rfl, by injection h⟩
  | ub u => cases h

/-! ### What is known of the state -/

/-- Every table is the result of a history of table operations, and pool4 of a history of pool4 operations. -/
structure Good (s : St) : Prop where
  tables : ∀ p, ∃ hist ev, After p hist (s.tables p) ev
  pool : ∃ hist, Pool4.run Pool4.empty hist = .ok s.pool4

theorem Good.wf {s : St} (g : Good s) (p : Proto) : WF (s.tables p) := by
  obtain ⟨_, _, h⟩ := g.tables p
  exact (Bib.After.inv h).wf

theorem St.set_same (s : St) (p : Proto) (t : Table) : (s.set p t).tables p = t := by simp [St.set]
theorem St.set_ne (s : St) {p q : Proto} (t : Table) (h : q ≠ p) : (s.set p t).tables q = s.tables q := by
  simp [St.set, h]

theorem Good.set {s : St} (g : Good s) {p : Proto} {e : Bib.Env} {op : Bib.Op} (ho : op.Ok) {r}
    (hr : Bib.step p (s.tables p) e op = .ok r) : Good (s.set p r.1) := by
  refine ⟨fun q => ?_, g.pool⟩
  by_cases hq : q = p
  · subst hq
    obtain ⟨hist, ev, h⟩ := g.tables q
    rw [St.set_same]
    exact ⟨_, _, Bib.After.snoc h ho hr⟩
  · rw [St.set_ne _ _ hq]; exact g.tables q

theorem good_init : Good init :=
  ⟨fun _ => ⟨[], [], by simp, rfl⟩, [], rfl⟩

/-! ### Candidates -/

/-- `sa`: the source address that is already decided. -/
structure MasksOk (s : St) (m : Masks) (sa : Option Addr4) : Prop where
  ok : m.Ok
  none : sa = none → m.dynamic = false ∧ Pool4.isEmpty s.pool4 = false
  some : ∀ a, sa = some a → Pool4.isEmpty s.pool4 = true ∧ m.dynamic = true ∧
    (∀ x, m.owns x = true ↔ x.addr = a ∧ 61001 ≤ x.port.toNat) ∧
    ∀ x ∈ m.cands.map Prod.fst, m.owns x = true

theorem findMasks_ok {s : St} (g : Good s) {c : Ctx} {p : Proto} {m : Masks} {sa : Option Addr4}
    (h : findMasks s c p = .ok (.ok (m, sa))) : MasksOk s m sa := by
  obtain ⟨hist, hr⟩ := g.pool
  unfold findMasks at h
  cases hh : c.hash with
  | none => rw [hh] at h; cases h
  | some x =>
    rw [hh] at h
    dsimp only at h
    split at h
    · rename_i he
      split at h
      · cases h
      · cases hro : c.route with
        | error e => rw [hro] at h; cases h
        | ok a =>
          rw [hro] at h
          simp only [Outcome.ok.injEq, Except.ok.injEq, Prod.mk.injEq] at h
          obtain ⟨rfl, rfl⟩ := h
          have W := Pool4.owns_empty a x
          refine ⟨?_, by simp, ?_⟩
          · refine Pool4.masks_ok hist s.pool4 hr p c.mark (some a) x _ ?_
            simp [Pool4.domainFind, he]
          · intro b hb
            injection hb with hb; subst hb
            exact ⟨he, W.2.1, W.1, W.2.2⟩
    · rename_i he
      obtain ⟨d, hd, hf⟩ := map_ok h
      cases d with
      | none => cases hf
      | some d =>
        dsimp only at hf
        split at hf
        · cases hf
        · simp only [Except.ok.injEq, Prod.mk.injEq] at hf
          obtain ⟨rfl, rfl⟩ := hf
          refine ⟨Pool4.masks_ok hist s.pool4 hr p c.mark none x d hd, ?_, by simp⟩
          intro _
          refine ⟨?_, by simpa using he⟩
          unfold Pool4.domainFind at hd
          rw [if_neg he] at hd
          split at hd
          · cases hd
          · exact (Pool4.owns_pool _ _ _ hd).2

theorem findMasks_route {s : St} {c : Ctx} {p : Proto} {m : Masks} {sa : Option Addr4}
    (h : findMasks s c p = .ok (.ok (m, sa))) (x : Addr4) (hx : sa = some x) : c.route = .ok x := by
  subst hx
  unfold findMasks at h
  cases hh : c.hash with
  | none => rw [hh] at h; cases h
  | some y =>
    rw [hh] at h
    dsimp only at h
    split at h
    · split at h
      · cases h
      · cases hro : c.route with
        | error e => rw [hro] at h; cases h
        | ok a =>
          rw [hro] at h
          simp only [Outcome.ok.injEq, Except.ok.injEq, Prod.mk.injEq, Option.some.injEq] at h
          rw [h.2]
    · obtain ⟨d, hd, h⟩ := map_ok h
      cases d with
      | none => cases h
      | some d =>
        dsimp only at h
        split at h
        · cases h
        · simp only [Except.ok.injEq, Prod.mk.injEq] at h; cases h.2

/-! ### Step 2 -/

theorem op6_ok {p : Pkt Addr6} {t : Tuple T6} {m : Masks} {d4 : T4} (h : m.Ok) : (op6 p t m d4).Ok := by
  unfold op6; split <;> exact h

theorem op4_ok {p : Pkt Addr4} {t : Tuple T4} {d6 : T6} {skb : Nat} : (op4 p t d6 skb).Ok := by
  unfold op4; split <;> trivial

/-- Step 2 of a packet from IPv6. -/
inductive Fu6 (cfg : Cfg) (P : Prefix6) (s : St) (c : Ctx) (p : Pkt Addr6) (t : Tuple T6) : Fu → Prop
  | refused (e : Stop) : Fu6 cfg P s c p t (Fu.stop s e)
  | error (he : isError6 p = true) (h1 : prefix6Contains P p.src = false) (h2 : prefix6Contains P p.dst = true) :
      Fu6 cfg P s c p t { st := s, ev := [], res := .ok none }
  | update (he : isError6 p = false) (h1 : prefix6Contains P p.src = false) (h2 : prefix6Contains P p.dst = true)
      (a : Addr4) (ha : rfc6052_6to4 P t.dst.addr = some a) (m : Masks) (sa : Option Addr4) (hm : MasksOk s m sa) (r)
      (hr : Bib.step t.proto (s.tables t.proto) c.env (op6 p t m ⟨a, t.dst.port⟩) = .ok r)
      (hro : ∀ x, sa = some x → c.route = .ok x) :
      Fu6 cfg P s c p t { st := s.set t.proto r.1, ev := r.2.1, res := result6 r.2.2, saddr := sa }

theorem fu6_cases {cfg : Cfg} {P : Prefix6} {s : St} (g : Good s) {c : Ctx} {p : Pkt Addr6} {t : Tuple T6} {f : Fu}
    (h : fu6 cfg P s c p t = .ok f) : Fu6 cfg P s c p t f := by
  unfold fu6 at h
  split at h
  · cases h; exact .refused _
  split at h
  · cases h; exact .refused _
  rename_i h1 h2
  split at h
  · cases h; exact .error (by assumption) (by simpa using h1) (by simpa using h2)
  rename_i he
  split at h
  · cases h; exact .refused _
  unfold update6 at h
  split at h
  · cases h; exact .refused _
  · rename_i a ha
    obtain ⟨x, hx, h⟩ := bind_ok h
    cases x with
    | error e => cases h; exact .refused _
    | ok y =>
      obtain ⟨m, sa⟩ := y
      dsimp only at h
      obtain ⟨r, hr, h⟩ := map_ok h
      subst h
      exact .update (by simpa using he) (by simpa using h1) (by simpa using h2) a ha m sa (findMasks_ok g hx) r hr
        (findMasks_route hx)

/-- Step 2 of a packet from IPv4. -/
inductive Fu4 (cfg : Cfg) (P : Prefix6) (s : St) (c : Ctx) (p : Pkt Addr4) (t : Tuple T4) : Fu → Prop
  | refused (e : Stop) : Fu4 cfg P s c p t (Fu.stop s e)
  | error (he : isError4 p = true) (h1 : Pool4.contains cfg.own s.pool4 t.proto t.dst = true) :
      Fu4 cfg P s c p t { st := s, ev := [], res := .ok none }
  | update (he : isError4 p = false) (h1 : Pool4.contains cfg.own s.pool4 t.proto t.dst = true)
      (a : Addr6) (ha : rfc6052_4to6 P t.src.addr = some a) (r)
      (hr : Bib.step t.proto (s.tables t.proto) c.env (op4 p t ⟨a, t.src.port⟩ c.skb) = .ok r) :
      Fu4 cfg P s c p t { st := s.set t.proto r.1, ev := r.2.1, res := result4 r.2.2 }

theorem fu4_cases {cfg : Cfg} {P : Prefix6} {s : St} {c : Ctx} {p : Pkt Addr4} {t : Tuple T4} {f : Fu}
    (h : fu4 cfg P s c p t = .ok f) : Fu4 cfg P s c p t f := by
  unfold fu4 at h
  split at h
  · cases h; exact .refused _
  rename_i h1
  split at h
  · cases h; exact .error (by assumption) (by simpa using h1)
  rename_i he
  unfold update4 at h
  split at h
  · cases h; exact .refused _
  · rename_i a ha
    obtain ⟨r, hr, h⟩ := map_ok h
    subst h
    exact .update (by simpa using he) (by simpa using h1) a ha r hr

theorem Fu6.good {cfg P s c p t f} (g : Good s) (h : Fu6 cfg P s c p t f) : Good f.st := by
  cases h with
  | refused e => exact g
  | error _ => exact g
  | update he h1 h2 a ha m sa hm r hr => exact g.set (op6_ok hm.ok) hr

theorem Fu4.good {cfg P s c p t f} (g : Good s) (h : Fu4 cfg P s c p t f) : Good f.st := by
  cases h with
  | refused e => exact g
  | error _ => exact g
  | update he h1 a ha r hr => exact g.set op4_ok hr

theorem Fu6.pool {cfg P s c p t f} (h : Fu6 cfg P s c p t f) : f.st.pool4 = s.pool4 := by cases h <;> rfl
theorem Fu4.pool {cfg P s c p t f} (h : Fu4 cfg P s c p t f) : f.st.pool4 = s.pool4 := by cases h <;> rfl

/-! ### The whole path -/

/-- The end of the path from IPv4. -/
theorem finish4_st (cfg P c p t f stop) : (finish4 cfg P c p t f stop).st = f.st ∧ (finish4 cfg P c p t f stop).ev = f.ev := by
  unfold finish4
  repeat' split
  all_goals exact ⟨rfl, rfl⟩

theorem common4_fu {cfg P s c p r} (h : common4 cfg P s c p = .ok r) :
    (∃ e, tuple4 p = .error e ∧ r = ⟨s, [], e.out⟩) ∨
    ∃ t f, tuple4 p = .ok t ∧ Fu4 cfg P s c p t f ∧ r = finish4 cfg P c p t f Stop.out := by
  unfold common4 at h
  cases ht : tuple4 p with
  | error e => rw [ht] at h; injection h with h; exact .inl ⟨e, rfl, h.symm⟩
  | ok t =>
    rw [ht] at h
    obtain ⟨f, hf, h⟩ := map_ok h
    exact .inr ⟨t, f, rfl, fu4_cases hf, h.symm⟩

/-- What the path from IPv6 does after step 2. -/
inductive Path6 (cfg : Cfg) (P : Prefix6) (c : Ctx) (c2 : Option Ctx) (p : Pkt Addr6) (t : Tuple T6) (f : Fu) :
    Res → Prop
  | stopped (e : Stop) (he : f.res = .error e ∨ ∃ known, f.res = .ok known ∧ (compute6 P f.st t known = .error e ∨
      ∃ o, compute6 P f.st t known = .ok o ∧ translate6 c p o f.saddr = .error e)) :
      Path6 cfg P c c2 p t f ⟨f.st, f.ev, e.out⟩
  | sent (known) (hk : f.res = .ok known) (o) (ho : compute6 P f.st t known = .ok o) (q)
      (hq : translate6 c p o f.saddr = .ok q) (hh : Pool4.contains cfg.own f.st.pool4 o.proto o.dst = false) :
      Path6 cfg P c c2 p t f ⟨f.st, f.ev, send c (.sent4 q)⟩
  | noMemory (known) (hk : f.res = .ok known) (o) (ho : compute6 P f.st t known = .ok o) (q)
      (hq : translate6 c p o f.saddr = .ok q) (hh : Pool4.contains cfg.own f.st.pool4 o.proto o.dst = true)
      (h2 : c2 = none) : Path6 cfg P c c2 p t f ⟨f.st, f.ev, .dropped "hairpin" none⟩
  | hairpin (known) (hk : f.res = .ok known) (o) (ho : compute6 P f.st t known = .ok o) (q)
      (hq : translate6 c p o f.saddr = .ok q) (hh : Pool4.contains cfg.own f.st.pool4 o.proto o.dst = true)
      (c' : Ctx) (h2 : c2 = some c') (f') (hf : Fu4 cfg P f.st c' q o f') (hfe : fu4 cfg P f.st c' q o = .ok f') :
      Path6 cfg P c c2 p t f ⟨f'.st, f.ev ++ f'.ev, (finish4 cfg P c' q o f' Stop.out2).out⟩

theorem common6_cases {cfg P s c c2 p r} (g : Good s) (h : common6 cfg P s c c2 p = .ok r) :
    (∃ e, tuple6 p = .error e ∧ r = ⟨s, [], e.out⟩) ∨
    ∃ t f, tuple6 p = .ok t ∧ Fu6 cfg P s c p t f ∧ Path6 cfg P c c2 p t f r := by
  unfold common6 at h
  cases ht : tuple6 p with
  | error e => rw [ht] at h; injection h with h; exact .inl ⟨e, rfl, h.symm⟩
  | ok t =>
    rw [ht] at h
    obtain ⟨f, hf, h⟩ := bind_ok h
    refine .inr ⟨t, f, rfl, fu6_cases g hf, ?_⟩
    cases hk : f.res with
    | error e => rw [hk] at h; injection h with h; subst h; exact .stopped e (.inl hk)
    | ok known =>
      rw [hk] at h
      dsimp only at h
      cases ho : compute6 P f.st t known with
      | error e => rw [ho] at h; injection h with h; subst h; exact .stopped e (.inr ⟨known, hk, .inl ho⟩)
      | ok o =>
        rw [ho] at h
        dsimp only at h
        cases hq : translate6 c p o f.saddr with
        | error e => rw [hq] at h; injection h with h; subst h; exact .stopped e (.inr ⟨known, hk, .inr ⟨o, ho, hq⟩⟩)
        | ok q =>
          rw [hq] at h
          dsimp only at h
          split at h
          · rename_i hh
            obtain ⟨x, hx, h⟩ := map_ok h
            subst h
            unfold hairpin at hx
            cases c2 with
            | none =>
              injection hx with hx; subst hx
              simpa using Path6.noMemory known hk o ho q hq hh rfl
            | some c' =>
              dsimp only at hx
              obtain ⟨f', hf', hx⟩ := map_ok hx
              subst hx
              have F := finish4_st cfg P c' q o f' Stop.out2
              rw [F.1, F.2]
              exact .hairpin known hk o ho q hq hh c' rfl f' (fu4_cases hf') hf'
          · rename_i hh
            injection h with h; subst h
            exact .sent known hk o ho q hq (by simpa using hh)

theorem core6_common {cfg s c c2 p r} (h : core6 cfg s c c2 p = .ok r) :
    (r.st = s ∧ r.ev = [] ∧ ∃ w, r.out = .returned w) ∨
    ∃ P, cfg.enabled = true ∧ cfg.pool6 = some P ∧ common6 cfg P s c c2 p = .ok r := by
  unfold core6 at h
  split at h
  · cases h; exact .inl ⟨rfl, rfl, _, rfl⟩
  · rename_i he
    cases hp : cfg.pool6 with
    | none => rw [hp] at h; cases h; exact .inl ⟨rfl, rfl, _, rfl⟩
    | some P => rw [hp] at h; exact .inr ⟨P, by simpa using he, rfl, h⟩

theorem core4_common {cfg s c p r} (h : core4 cfg s c p = .ok r) :
    (r.st = s ∧ r.ev = [] ∧ ∃ w, r.out = .returned w) ∨
    ∃ P, cfg.enabled = true ∧ cfg.pool6 = some P ∧ common4 cfg P s c p = .ok r := by
  unfold core4 at h
  split at h
  · cases h; exact .inl ⟨rfl, rfl, _, rfl⟩
  · rename_i he
    cases hp : cfg.pool6 with
    | none => rw [hp] at h; cases h; exact .inl ⟨rfl, rfl, _, rfl⟩
    | some P => rw [hp] at h; exact .inr ⟨P, by simpa using he, rfl, h⟩

theorem core6_good {cfg s c c2 p r} (g : Good s) (h : core6 cfg s c c2 p = .ok r) : Good r.st ∧ r.st.pool4 = s.pool4 := by
  rcases core6_common h with ⟨h, _⟩ | ⟨P, _, _, h⟩
  · rw [h]; exact ⟨g, rfl⟩
  · rcases common6_cases g h with ⟨e, _, rfl⟩ | ⟨t, f, _, F, H⟩
    · exact ⟨g, rfl⟩
    · cases H with
      | stopped => exact ⟨F.good g, F.pool⟩
      | sent => exact ⟨F.good g, F.pool⟩
      | noMemory => exact ⟨F.good g, F.pool⟩
      | hairpin known hk o ho q hq hh c' h2 f' hf => exact ⟨hf.good (F.good g), hf.pool.trans F.pool⟩

theorem core4_good {cfg s c p r} (g : Good s) (h : core4 cfg s c p = .ok r) : Good r.st ∧ r.st.pool4 = s.pool4 := by
  rcases core4_common h with ⟨h, _⟩ | ⟨P, _, _, h⟩
  · rw [h]; exact ⟨g, rfl⟩
  · rcases common4_fu h with ⟨e, _, rfl⟩ | ⟨t, f, _, F, rfl⟩
    · exact ⟨g, rfl⟩
    · rw [(finish4_st ..).1]
      exact ⟨F.good g, F.pool⟩

theorem pool_snoc {op : Pool4.Op} : ∀ (hist : List Pool4.Op) (db db' : Pool4.Pool) (r),
    Pool4.run db hist = .ok db' → Pool4.step db' op = .ok r → Pool4.run db (hist ++ [op]) = .ok r.1 := by
  intro hist
  induction hist with
  | nil => intro db db' r h hr; injection h with h; subst h; simp [Pool4.run, hr]
  | cons x rest ih =>
    intro db db' r h hr
    simp only [Pool4.run, List.cons_append] at h ⊢
    cases hs : Pool4.step db x with
    | ub u => rw [hs] at h; cases h
    | ok r0 => rw [hs] at h; exact ih _ _ _ h hr

/-- Requests to the tables are those that the code can make. -/
def Op.Ok : Op → Prop
  | .table _ _ o => o.Ok
  | _ => True

theorem step_good {s : St} (g : Good s) {o : Op} (ho : o.Ok) {r} (h : step s o = .ok r) : Good r.1 := by
  cases o with
  | pkt6 cfg c c2 p => obtain ⟨x, hx, rfl⟩ := map_ok h; exact (core6_good g hx).1
  | pkt4 cfg c p => obtain ⟨x, hx, rfl⟩ := map_ok h; exact (core4_good g hx).1
  | table p e o => obtain ⟨x, hx, rfl⟩ := map_ok h; exact g.set ho hx
  | pool o =>
    obtain ⟨x, hx, rfl⟩ := map_ok h
    obtain ⟨hist, hr⟩ := g.pool
    exact ⟨g.tables, _, pool_snoc _ _ _ _ hr hx⟩

theorem run_good : ∀ (hist : List Op) (s s' : St), Good s → (∀ o ∈ hist, o.Ok) → run s hist = .ok s' → Good s' := by
  intro hist
  induction hist with
  | nil => intro s s' g _ h; injection h with h; subst h; exact g
  | cons o rest ih =>
    intro s s' g ho h
    obtain ⟨r, hr, h⟩ := bind_ok h
    exact ih _ _ (step_good g (ho o (by simp)) hr) (fun x hx => ho x (by simp [hx])) h

end Jool.Nat64
