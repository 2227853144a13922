import Verif.Props.Nat64
import Verif.Props.BibMapping
/-
C53, continued: packets from IPv6 with a known mapping, and the round trip that starts at IPv4.
-/
namespace Jool

namespace Nat64Spec
open Nat64
open Jool.Bib (BibKey)

/-- The node's entry may be used. Always, unless pool4 is empty; then its address has to be the one that the routing of
the packet chooses, and its port one of the ports reserved for that case. -/
def Usable (s : St) (c : Ctx) (b : BibKey) : Prop :=
  Pool4.isEmpty s.pool4 = false ∨ (c.route = .ok b.src4.addr ∧ 61001 ≤ b.src4.port.toNat)

/-- Every packet was translated with this pool6 (or with none); no packet arrived otherwise. -/
def SamePool6 (P : Prefix6) : Op → Prop
  | .pkt6 cfg _ _ _ => cfg.pool6 = none ∨ cfg.pool6 = some P
  | .pkt4 cfg _ _ => cfg.pool6 = none ∨ cfg.pool6 = some P
  | .table _ _ o => ∀ sg a b c k, o ≠ .tcp4 sg a b c k
  | .pool _ => True

end Nat64Spec

namespace Nat64
open Nat64Spec
open Jool.Bib (Table BibKey SessKey Masks Event Live WF Cont6 Answerable)

/-! ### Stored packets -/

/-- What is in the queue of a table was there, or is the packet that was just received. -/
theorem step_queue {p : Proto} {t : Table} {e : Bib.Env} {op : Bib.Op} {r} (w : WF t) (ho : op.Ok)
    (hr : Bib.step p t e op = .ok r) :
    ∀ n ∈ r.1.queue, n ∈ t.queue ∨ ∃ sg k, op = .tcp4 sg n.src4 n.dst4 n.dst6 k := by
  refine Bib.Chain.induct (I := fun t' => ∀ n ∈ t'.queue, n ∈ t.queue ∨ ∃ sg k, op = .tcp4 sg n.src4 n.dst4 n.dst6 k) w
    (Bib.step_chain w ho hr) ?_ (fun n hn => .inl hn)
  intro t1 t2 w1 I a
  cases a with
  | queue q c hqq =>
    rcases hqq with h | ⟨n, h, _, _, hx⟩
    · exact fun n hn => I n (h.subset hn)
    · intro n' hn'
      dsimp only at hn'
      rw [h] at hn'
      rcases List.mem_append.1 hn' with h1 | h1
      · exact I n' h1
      · rw [List.mem_singleton.1 h1]; exact .inr hx
  | setStatic => exact I
  | fate probes cb k hk hcb _ => rw [(Bib.decideFate_ok w1 hk).queue]; exact I
  | touch => exact I
  | addBib => exact I
  | addSess => exact I
  | addSlow => exact I
  | detach b hb ho => rw [(Bib.detachBib_eq t1 b).que]; exact I

theorem StoredOk.set {P : Prefix6} {s : St} (g : Good s) (h : StoredOk P s) {p : Proto} {e : Bib.Env} {op : Bib.Op}
    (ho : op.Ok) {r} (hr : Bib.step p (s.tables p) e op = .ok r)
    (hop : ∀ sg a d4 d6 k, op = .tcp4 sg a d4 d6 k → rfc6052_4to6 P d4.addr = some d6.addr ∧ d6.port = d4.port) :
    StoredOk P (s.set p r.1) := by
  intro n hn
  by_cases hp : p = .TCP
  · subst hp
    rw [St.set_same] at hn
    rcases step_queue (g.wf _) ho hr n hn with h1 | ⟨sg, k, h1⟩
    · exact h n h1
    · exact hop _ _ _ _ _ h1
  · rw [St.set_ne _ _ (Ne.symm hp)] at hn
    exact h n hn

theorem Fu4.stored {cfg P s c p t f} (g : Good s) (h : StoredOk P s) (F : Fu4 cfg P s c p t f) : StoredOk P f.st := by
  cases F with
  | refused => exact h
  | error => exact h
  | update he h1 a ha r hr =>
    refine StoredOk.set g h op4_ok hr ?_
    intro sg x d4 d6 k hx
    unfold op4 at hx
    split at hx
    · simp only [Bib.Op.tcp4.injEq] at hx
      obtain ⟨_, _, rfl, rfl, _⟩ := hx
      exact ⟨ha, rfl⟩
    · cases hx

theorem Fu6.stored {cfg P s c p t f} (g : Good s) (h : StoredOk P s) (F : Fu6 cfg P s c p t f) : StoredOk P f.st := by
  cases F with
  | refused => exact h
  | error => exact h
  | update he h1 h2 a ha m sa hm r hr =>
    refine StoredOk.set g h (op6_ok hm.ok) hr ?_
    intro sg x d4 d6 k hx
    unfold op6 at hx
    split at hx <;> cases hx

theorem step_stored {P : Prefix6} {s : St} (g : Good s) (h : StoredOk P s) {o : Op} (ho : o.Ok) (hP : SamePool6 P o) {r}
    (hr : step s o = .ok r) : StoredOk P r.1 := by
  cases o with
  | pkt6 cfg c c2 p =>
    obtain ⟨x, hx, rfl⟩ := map_ok hr
    rcases core6_common hx with ⟨e, _⟩ | ⟨P', _, hP', hc⟩
    · dsimp only; rw [e]; exact h
    · rcases hP with hP | hP <;> rw [hP] at hP' <;> cases hP'
      rcases common6_cases g hc with ⟨e, _, rfl⟩ | ⟨t, f, _, F, H⟩
      · exact h
      · cases H with
        | stopped => exact F.stored g h
        | sent => exact F.stored g h
        | noMemory => exact F.stored g h
        | hairpin known hk o ho q hq hh c' h2 f' hf => exact hf.stored (F.good g) (F.stored g h)
  | pkt4 cfg c p =>
    obtain ⟨x, hx, rfl⟩ := map_ok hr
    rcases core4_common hx with ⟨e, _⟩ | ⟨P', _, hP', hc⟩
    · dsimp only; rw [e]; exact h
    · rcases hP with hP | hP <;> rw [hP] at hP' <;> cases hP'
      rcases common4_fu hc with ⟨e, _, rfl⟩ | ⟨t, f, _, F, rfl⟩
      · exact h
      · dsimp only; rw [(finish4_st ..).1]; exact F.stored g h
  | table p e o =>
    obtain ⟨x, hx, rfl⟩ := map_ok hr
    exact StoredOk.set g h ho hx (fun sg a b c k hk => absurd hk (hP sg a b c k))
  | pool o =>
    obtain ⟨x, hx, rfl⟩ := map_ok hr
    exact h

theorem run_stored {P : Prefix6} : ∀ (hist : List Op) (s s' : St), Good s → StoredOk P s → (∀ o ∈ hist, o.Ok ∧ SamePool6 P o) →
    run s hist = .ok s' → StoredOk P s' := by
  intro hist
  induction hist with
  | nil => intro s s' g h _ hr; injection hr with hr; subst hr; exact h
  | cons o rest ih =>
    intro s s' g h ho hr
    obtain ⟨r, hr, h'⟩ := bind_ok hr
    have o1 := ho o (by simp)
    exact ih _ _ (step_good g o1.1 hr) (step_stored g h o1.1 o1.2 hr) (fun x hx => ho x (by simp [hx])) h'

/-- As long as pool6 does not change, the packets in the queue belong to it. -/
theorem stored_ok {P : Prefix6} {hist : List Op} {s : St} (ho : ∀ o ∈ hist, o.Ok ∧ SamePool6 P o)
    (hr : run init hist = .ok s) : StoredOk P s :=
  run_stored hist init s good_init (by intro n hn; simp [init, Bib.init] at hn) ho hr

/-! ### Known mappings -/

theorem usable_masks {s c m sa b} (hm : MasksOk s m sa) (hro : ∀ x, sa = some x → c.route = .ok x) (h : Usable s c b) :
    Bib.Usable m b := by
  cases sa with
  | none => exact .inl (hm.none rfl).1
  | some a =>
    obtain ⟨h1, _, h3, _⟩ := hm.some a rfl
    rcases h with h | ⟨h, h'⟩
    · rw [h1] at h; cases h
    · rw [hro a rfl] at h
      injection h with h
      exact .inr ((h3 _).2 ⟨h.symm, h'⟩)

/-- The entry which the packet is translated with is the one that the node already had. -/
theorem fu6_same {cfg P s c p f k S D known b} (g : Good s) (h : view6 p = some (k, S, D))
    (F : Fu6 cfg P s c p ⟨S, D, k.proto⟩ f) (hk : f.res = .ok known) (hb : b ∈ bibs s k.proto) (hs : b.src6 = S)
    (hu : Usable s c b) : known = some b := by
  cases F with
  | refused e => simp [Fu.stop] at hk
  | error he => rw [(view6_tuple h).2.1] at he; cases he
  | update he h1 h2 a ha m sa hm r hr hro =>
    have hu := usable_masks hm hro hu
    obtain ⟨b', o, hc, rfl⟩ := result6_ok hk
    obtain ⟨hist, ev, hA⟩ := g.tables k.proto
    have hop : BibSpec.Packet6 (op6 p ⟨S, D, k.proto⟩ m ⟨a, D.port⟩) = some (S, m) := by
      unfold op6; split <;> rfl
    rw [Bib.mapping_stable hA c.env _ (op6_ok hm.ok) S m hop r hr b hb hs hu b' o hc]

/-- The path of a packet from IPv6 whose translation is sent to IPv4. -/
theorem core6_sent4 {cfg s c c2 p r P t q} (g : Good s) (hP : cfg.pool6 = some P) (h : tuple6 p = .ok t)
    (hr : core6 cfg s c c2 p = .ok r) (hq : r.out = .sent4 q) :
    ∃ f known o, Fu6 cfg P s c p t f ∧ f.res = .ok known ∧ compute6 P f.st t known = .ok o ∧
      translate6 c p o f.saddr = .ok q ∧ Pool4.contains cfg.own s.pool4 o.proto o.dst = false ∧ r.st = f.st := by
  rcases core6_common hr with ⟨_, _, w, h'⟩ | ⟨P', _, hP', hc⟩
  · rw [hq] at h'; cases h'
  · rw [hP] at hP'; cases hP'
    rcases common6_cases g hc with ⟨e, ht, rfl⟩ | ⟨t', f, ht, F, H⟩
    · exact absurd hq ((out_not_sent e).1 q)
    · rw [h] at ht
      injection ht with ht; subst ht
      cases H with
      | stopped e => exact absurd hq ((out_not_sent e).1 q)
      | noMemory => cases hq
      | hairpin known hk o ho q' hq' hh c' h2 f' hf =>
        exfalso
        revert hq
        unfold finish4
        dsimp only
        repeat' split
        · exact (out_not_sent _).2.2.1 q
        · exact (out_not_sent _).2.2.1 q
        · exact (out_not_sent _).2.2.1 q
        · intro hq; have := send_sent4 hq; cases this
      | sent known hk o ho q' hq' hh =>
        have := send_sent4 hq
        injection this with this; subst this
        rw [F.pool] at hh
        exact ⟨f, known, o, F, hk, ho, hq', hh, rfl⟩

/-- **C53.** A node keeps its IPv4 transport address: if its BIB entry is listed and may be used, then whatever it sends,
to wherever, leaves with the IPv4 transport address of that entry. -/
theorem same_source {cfg s c c2 p r P k S D q b} (hs : Reach s) (hP : cfg.pool6 = some P) (h : view6 p = some (k, S, D))
    (hb : b ∈ bibs s k.proto) (hS : b.src6 = S) (hu : Usable s c b)
    (hr : core6 cfg s c c2 p = .ok r) (hq : r.out = .sent4 q) :
    ∃ a, rfc6052_6to4 P D.addr = some a ∧ view4 q = some (k, b.src4, ⟨a, k.port D.port b.src4.port⟩) ∧
      Pool4.contains cfg.own s.pool4 k.proto ⟨a, k.port D.port b.src4.port⟩ = false := by
  have g := reach_good hs
  obtain ⟨f, known, o, F, hk, ho, hq', hh, _⟩ := core6_sent4 g hP (view6_tuple h).1 hr hq
  have hkn := fu6_same g h F hk hb hS hu
  subst hkn
  obtain ⟨a, m, b', se, ha, _, _, _, rfl, V, _⟩ := pass6 g h F hk ho hq'
  have : b'.src4 = b.src4 := by
    have := ho
    unfold compute6 at this
    dsimp only at this
    rw [ha] at this
    simp only [Except.ok.injEq, Tuple.mk.injEq] at this
    exact this.1.symm
  rw [this] at V hh
  exact ⟨a, ha, V, hh⟩

theorem view4_port {p : Pkt Addr4} {k S D} (h : view4 p = some (k, S, D)) : k.proto ≠ .ICMP ∨ S.port = D.port := by
  obtain ⟨src, dst, l4⟩ := p
  unfold view4 at h
  cases l4 with
  | udp s d => simp only [Option.some.injEq, Prod.mk.injEq] at h; obtain ⟨rfl, rfl, rfl⟩ := h; left; decide
  | tcp s d a b c => simp only [Option.some.injEq, Prod.mk.injEq] at h; obtain ⟨rfl, rfl, rfl⟩ := h; left; intro h; cases h
  | icmp t c id i =>
    dsimp only at h
    repeat' split at h
    all_goals first | (cases h; done) | (cases h; right; rfl)
  | other => cases h

/-- **C53** (round trip, from IPv4). Let `q` be the IPv6 packet that was sent for the IPv4 packet `p` (from `S` to `D`). At any
later time at which the BIB entry is still listed, a packet that goes the way of `q` backwards, if it is sent to IPv4, goes the
way of `p` backwards. -/
theorem roundtrip46 {cfg s c p r P k S D q} (hP : cfg.pool6 = some P) (h : view4 p = some (k, S, D))
    (hr : core4 cfg s c p = .ok r) (hq : r.out = .sent6 q) :
    ∃ b ∈ bibs r.st k.proto, ∃ d, view6 q = some (k, d, b.src6) ∧ b.src4 = D ∧
      ∀ cfg' s' c' c2' q' k' r' p', Reach s' → cfg'.pool6 = some P → view6 q' = some (k', b.src6, d) → k'.proto = k.proto →
        b ∈ bibs s' k.proto → Usable s' c' b →
        core6 cfg' s' c' c2' q' = .ok r' → r'.out = .sent4 p' → view4 p' = some (k', D, S) := by
  obtain ⟨_, b, hb, hbs, _, a, ha, V⟩ := translated46 hP h hr hq
  refine ⟨b, hb, _, V, hbs, ?_⟩
  intro cfg' s' c' c2' q' k' r' p' hs' hP' h' hk hb' hu hr' hp'
  rw [← hk] at hb'
  obtain ⟨a', ha', V', _⟩ := same_source hs' hP' h' hb' rfl hu hr' hp'
  have hl := ((rfc6052_4to6_correct _ _ _).1 ha).1
  obtain ⟨x, hx, hx'⟩ := rfc6052_roundtrip P S.addr hl
  rw [ha] at hx; cases hx
  dsimp only at ha'
  rw [hx'] at ha'; cases ha'
  rw [V', hbs]
  have hport : k'.port (k.port S.port b.src6.port) D.port = S.port := by
    rcases view4_port h with hne | he
    · cases k <;> cases k' <;> first | rfl | exact absurd rfl hne | cases hk
    · rw [he]; cases k <;> cases k' <;> first | rfl | cases hk
  rw [hport]

theorem translate6_smooth {c p k S D o sa} (h : view6 p = some (k, S, D)) (hc : c.fail = none) :
    ∃ q, translate6 c p o sa = .ok q := by
  obtain ⟨src, dst, l4⟩ := p
  unfold translate6
  rw [hc]
  unfold view6 at h
  cases l4 with
  | udp s d => exact ⟨_, rfl⟩
  | tcp s d a b c => exact ⟨_, rfl⟩
  | icmp t c id i =>
    dsimp only at h ⊢
    split at h
    · rename_i ht; subst ht; exact ⟨_, rfl⟩
    · split at h
      · rename_i ht; subst ht; exact ⟨_, rfl⟩
      · cases h
  | other => cases h

/-- **C53.** A UDP or echo packet of a node whose BIB entry is listed and may be used is translated: pool4 has addresses for the
packet's mark, its destination is in pool6 and is not a pool4 address, and its source isn't in pool6. The entries
stay. -/
theorem forward64 {cfg s c c2 p P k S D b a m sa} (hs : Reach s) (hA : Active cfg P) (h : view6 p = some (k, S, D))
    (hk : k.proto ≠ .TCP) (hc : Smooth c) (hsrc : prefix6Contains P S.addr = false)
    (hdst : prefix6Contains P D.addr = true) (ha : rfc6052_6to4 P D.addr = some a)
    (hfil : k.proto = .ICMP → cfg.dropIcmp6Info = false)
    (hm : findMasks s c k.proto = .ok (.ok (m, sa))) (hb : b ∈ bibs s k.proto) (hbs : b.src6 = S) (hu : Usable s c b)
    (hh : Pool4.contains cfg.own s.pool4 k.proto ⟨a, k.port D.port b.src4.port⟩ = false) :
    ∃ r q, core6 cfg s c c2 p = .ok r ∧ r.out = .sent4 q ∧
      view4 q = some (k, b.src4, ⟨a, k.port D.port b.src4.port⟩) ∧ bibs r.st k.proto = bibs s k.proto := by
  have g := reach_good hs
  obtain ⟨hc1, hc2, hc3⟩ := hc
  obtain ⟨ht, he, e1, e2⟩ := view6_tuple h
  have M := findMasks_ok g hm
  have U := usable_masks M (findMasks_route hm) hu
  obtain ⟨hist, ev, hAf⟩ := g.tables k.proto
  obtain ⟨r0, key, hr0, hcont, hbib⟩ := Bib.mapping_kept hAf hk c.env m M.ok S D ⟨a, D.port⟩ hc3 b hb hbs U
  have hop : op6 p ⟨S, D, k.proto⟩ m ⟨a, D.port⟩ = .add6 m S D ⟨a, D.port⟩ := by
    unfold op6
    cases hl : p.l4 with
    | tcp s d x y z =>
      unfold view6 at h; rw [hl] at h
      simp only [Option.some.injEq, Prod.mk.injEq] at h
      obtain ⟨rfl, _⟩ := h
      exact absurd rfl hk
    | _ => rfl
  have hco : ∃ r q, core6 cfg s c c2 p = .ok r ∧ r.out = .sent4 q ∧ r.st = s.set k.proto r0.1 := by
    obtain ⟨q, hq⟩ := translate6_smooth (sa := sa) (o := ⟨b.src4, ⟨a, if k.proto = .ICMP then b.src4.port else D.port⟩, k.proto⟩)
      h hc1
    unfold core6
    rw [hA.1, hA.2]
    simp only [Bool.not_true, Bool.false_eq_true, if_false]
    unfold common6
    rw [ht]
    dsimp only
    have hf : fu6 cfg P s c p ⟨S, D, k.proto⟩ = .ok { st := s.set k.proto r0.1, ev := r0.2.1, res := .ok (some b), saddr := sa } := by
      unfold fu6
      rw [← e1, ← e2, hsrc, hdst, he, if_neg (by simp), if_neg (by simp), if_neg (by simp), if_neg]
      · unfold update6
        dsimp only
        rw [ha]
        dsimp only
        rw [hm]
        dsimp only [Outcome.bind]
        rw [hop, hr0]
        simp only [Outcome.map, hcont, result6]
      · rintro ⟨x, y⟩
        rw [hfil x] at y; cases y
    rw [hf]
    dsimp only [Outcome.bind]
    have hcomp : compute6 P (s.set k.proto r0.1) ⟨S, D, k.proto⟩ (some b) =
        .ok ⟨b.src4, ⟨a, if k.proto = .ICMP then b.src4.port else D.port⟩, k.proto⟩ := by
      unfold compute6
      dsimp only
      rw [ha]
    rw [hcomp]
    dsimp only
    rw [hq]
    dsimp only
    have hp : Pool4.contains cfg.own (s.set k.proto r0.1).pool4 k.proto
        ⟨a, if k.proto = .ICMP then b.src4.port else D.port⟩ = false := by
      rw [Kind.port_if]; exact hh
    rw [hp]
    simp only [Bool.false_eq_true, if_false]
    exact ⟨_, q, rfl, by simp [send, hc2], rfl⟩
  obtain ⟨r, q, h1, h2, h3⟩ := hco
  obtain ⟨a', ha', V, _⟩ := same_source hs hA.2 h hb hbs hu h1 h2
  rw [ha] at ha'; cases ha'
  refine ⟨r, q, h1, h2, V, ?_⟩
  rw [h3]
  unfold bibs
  rw [St.set_same]; exact hbib

end Nat64
end Jool
