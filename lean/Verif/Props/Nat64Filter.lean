import Verif.Props.Nat64Hairpin
/-
C66: which packets the NAT64 leaves alone, and which ones it lets in.
-/
namespace Jool

namespace Nat64Spec
open Nat64
open Jool.Bib (BibKey SessKey)

/-- A packet from the IPv4 transport address `S` may use the entry: there is no address-dependent filtering, or the node has a
session with that address. -/
def Allowed (s : St) (c : Ctx) (k : Proto) (b : BibKey) (S : T4) : Prop :=
  c.env.cfg.dropByAddr = false ∨ ∃ x ∈ sessions s k, x.bib = b ∧ x.dst4.addr = S.addr

/-- The circumstances that aren't modelled do not say that the packet isn't the translator's. -/
def Clear (c : Ctx) : Prop :=
  (∀ w i, c.fail ≠ some (.untranslatable w i)) ∧ ∀ w i, c.route ≠ .error (.untranslatable w i)

end Nat64Spec

namespace Nat64
open Nat64Spec
open Jool.Bib (Table BibKey SessKey Masks Event Live WF Cont6 Answerable)

theorem core4_active {cfg s c p P t} (hA : Active cfg P) (ht : tuple4 p = .ok t) :
    core4 cfg s c p = (fu4 cfg P s c p t).map (fun f => finish4 cfg P c p t f Stop.out) := by
  unfold core4
  rw [hA.1, hA.2]
  simp only [Bool.not_true, Bool.false_eq_true, if_false]
  unfold common4
  rw [ht]

theorem op4_simple {p : Pkt Addr4} {k S D} (h : view4 p = some (k, S, D)) (hk : k.proto ≠ .TCP) (d6 skb) :
    op4 p ⟨S, D, k.proto⟩ d6 skb = .add4 D S d6 := by
  unfold op4
  cases hl : p.l4 with
  | tcp s d x y z =>
    unfold view4 at h; rw [hl] at h
    simp only [Option.some.injEq, Prod.mk.injEq] at h
    obtain ⟨rfl, _⟩ := h
    exact absurd rfl hk
  | _ => rfl

/-- Step 2 of a UDP or echo packet from IPv4 to pool4. -/
theorem fu4_simple {cfg P s c p k S D a} (h : view4 p = some (k, S, D)) (hk : k.proto ≠ .TCP)
    (ha : rfc6052_4to6 P S.addr = some a)
    (hp : Pool4.contains cfg.own s.pool4 k.proto D = true) :
    fu4 cfg P s c p ⟨S, D, k.proto⟩ = (Bib.add4 c.env (s.tables k.proto) D S ⟨a, S.port⟩).map (fun r =>
      { st := s.set k.proto r.1, ev := r.2.1, res := result4 r.2.2 }) := by
  unfold fu4 update4
  dsimp only
  rw [hp, (view4_tuple h).2.1, ha]
  simp only [Bool.not_true, Bool.false_eq_true, if_false]
  rw [op4_simple h hk, Bib.step, if_neg hk]

/-- **C66.** An instance which is disabled, or has no pool6, leaves every packet alone. -/
theorem inactive_returned {cfg s} (h : ∀ P, ¬ Active cfg P) :
    (∀ c p, ∃ w, core4 cfg s c p = .ok ⟨s, [], .returned w⟩) ∧
    (∀ c c2 p, ∃ w, core6 cfg s c c2 p = .ok ⟨s, [], .returned w⟩) := by
  have : cfg.enabled = false ∨ cfg.pool6 = none := by
    cases he : cfg.enabled with
    | false => exact .inl rfl
    | true =>
      cases hp : cfg.pool6 with
      | none => exact .inr rfl
      | some P => exact absurd ⟨he, hp⟩ (h P)
  unfold core4 core6
  refine ⟨fun c p => ?_, fun c c2 p => ?_⟩
  all_goals
    rcases this with h | h
    · rw [h]; exact ⟨_, rfl⟩
    · rw [h]; split <;> exact ⟨_, rfl⟩

/-- **C66.** UDP and echo packets from IPv4 to pool4. They are let in if there is a BIB entry for their destination, unless the
filter forbids it; otherwise nothing changes, and they are returned to the kernel if there is no BIB entry. -/
theorem inbound46 {cfg s c p P k S D} (hA : Active cfg P) (hl : Rfc6052Spec.legal P.len)
    (h : view4 p = some (k, S, D)) (hk : k.proto ≠ .TCP) (hc : Smooth c)
    (hp : Pool4.contains cfg.own s.pool4 k.proto D = true) :
    ∃ r, core4 cfg s c p = .ok r ∧
      ((∃ b ∈ bibs s k.proto, b.src4 = D ∧ Allowed s c k.proto b S ∧ ∃ q a, r.out = .sent6 q ∧
          rfc6052_4to6 P S.addr = some a ∧ view6 q = some (k, ⟨a, k.port S.port b.src6.port⟩, b.src6) ∧
          bibs r.st k.proto = bibs s k.proto ∧ SessKey.mk b S ∈ sessions r.st k.proto) ∨
       (∃ b ∈ bibs s k.proto, b.src4 = D ∧ ¬ Allowed s c k.proto b S ∧ r.out = .dropped "ADF" (some .FILTER) ∧
          r.ev = [] ∧ ∀ p', r.st.tables p' = s.tables p') ∨
       ((∀ b ∈ bibs s k.proto, b.src4 ≠ D) ∧ r.out = .returned "BIB4_NOT_FOUND" ∧ r.ev = [] ∧
          ∀ p', r.st.tables p' = s.tables p')) := by
  obtain ⟨a, ha⟩ := legal_4to6 hl S.addr
  obtain ⟨hc1, hc2, hc3⟩ := hc
  have same : ∀ p', (s.set k.proto (s.tables k.proto)).tables p' = s.tables p' := by
    intro p'
    by_cases hp : p' = k.proto
    · rw [hp, St.set_same]
    · rw [St.set_ne _ _ hp]
  rw [core4_active hA (view4_tuple h).1, fu4_simple h hk ha hp]
  unfold Bib.add4
  rw [hc3]
  simp only [Bool.false_eq_true, if_false]
  cases hf : Bib.find4 (s.tables k.proto) D with
  | none =>
    refine ⟨_, rfl, .inr (.inr ⟨?_, ?_, ?_, ?_⟩)⟩
    · exact fun b hb => Bib.find4_none hf b hb
    · rfl
    · rfl
    · exact same
  | some b =>
    obtain ⟨hb, hbs⟩ := Bib.find4_some hf
    dsimp only
    -- the packet which is sent
    have send : ∀ t', t'.tree4 = (s.tables k.proto).tree4 → S ∈ t'.sess b → ∃ r, Outcome.map (fun f => finish4 cfg P c p ⟨S, D, k.proto⟩ f Stop.out)
        (Outcome.map (fun r => ({ st := s.set k.proto r.1, ev := r.2.1, res := result4 r.2.2 } : Fu))
          (.ok (t', [], .cont b (some ⟨b, S⟩)))) = .ok r ∧ ∃ q, r.out = .sent6 q ∧
            view6 q = some (k, ⟨a, k.port S.port b.src6.port⟩, b.src6) ∧
          bibs r.st k.proto = bibs s k.proto ∧ SessKey.mk b S ∈ sessions r.st k.proto := by
      intro t' ht hmem
      simp only [Outcome.map]
      refine ⟨_, rfl, ?_⟩
      obtain ⟨q, hq⟩ := translate4_smooth (cfg := cfg) (P := P)
        (o := ⟨⟨a, if k.proto = .ICMP then b.src6.port else S.port⟩, b.src6, k.proto⟩) h hc1
      refine ⟨q, ?_, ?_, ?_, ?_⟩
      · unfold finish4 result4
        dsimp only
        unfold compute4
        dsimp only
        rw [ha]
        dsimp only
        rw [hq]
        simp [Nat64.send, hc2]
      · have V := translate4_view h hq
        dsimp only at V
        rw [V, Kind.port_if]
        cases k <;> rfl
      · rw [(finish4_st ..).1]
        unfold bibs BibSpec.bibs
        rw [St.set_same]; exact ht
      · rw [(finish4_st ..).1]
        unfold sessions
        rw [St.set_same]
        exact (Bib.mem_sessions _).2 ⟨by rw [ht]; exact hb, hmem⟩
    have sess : ∀ d, d ∈ (s.tables k.proto).sess b ↔ SessKey.mk b d ∈ sessions s k.proto := by
      intro d
      unfold sessions
      rw [Bib.mem_sessions]
      exact ⟨fun h => ⟨hb, h⟩, fun h => h.2⟩
    by_cases hm : S ∈ (s.tables k.proto).sess b
    · rw [if_pos hm]
      obtain ⟨r, hr, q, h1, h2, h3, h4⟩ := send _ (by rfl) (show S ∈ (Bib.fateTimer c.env.now (s.tables k.proto) ⟨b, S⟩ .EST).sess b from hm)
      exact ⟨r, hr, .inl ⟨b, hb, hbs, .inr ⟨⟨b, S⟩, (sess S).1 hm, rfl, rfl⟩, q, a, h1, ha, h2, h3, h4⟩⟩
    · rw [if_neg hm]
      have hal : Bib.adfAllow (s.tables k.proto) b S = true ↔ ∃ x ∈ sessions s k.proto, x.bib = b ∧ x.dst4.addr = S.addr := by
        simp only [Bib.adfAllow, List.any_eq_true, decide_eq_true_eq]
        constructor
        · rintro ⟨d, hd, he⟩; exact ⟨⟨b, d⟩, (sess d).1 hd, rfl, he⟩
        · rintro ⟨⟨x, d⟩, hx, rfl, he⟩; exact ⟨d, (sess d).2 hx, he⟩
      by_cases hd : (c.env.cfg.dropByAddr && !Bib.adfAllow (s.tables k.proto) b S) = true
      · rw [if_pos hd]
        simp only [Bool.and_eq_true, Bool.not_eq_true'] at hd
        refine ⟨_, rfl, .inr (.inl ⟨b, hb, hbs, ?_, ?_, ?_, ?_⟩)⟩
        · rintro (h' | h')
          · rw [hd.1] at h'; cases h'
          · rw [← hal, hd.2] at h'; cases h'
        · rfl
        · rfl
        · exact same
      · rw [if_neg hd]
        obtain ⟨r, hr, q, h1, h2, h3, h4⟩ := send _ (by rfl)
          (show S ∈ (Bib.addSess c.env.now (s.tables k.proto) ⟨b, S⟩ ⟨a, S.port⟩ .ESTABLISHED none .EST).sess b from
            (Bib.live_addSess_self (k := ⟨b, S⟩) hb).2)
        refine ⟨r, hr, .inl ⟨b, hb, hbs, ?_, q, a, h1, ha, h2, h3, h4⟩⟩
        simp only [Bool.and_eq_true, Bool.not_eq_true', not_and, Bool.not_eq_false] at hd
        cases hx : c.env.cfg.dropByAddr with
        | false => exact .inl hx
        | true => exact .inr (hal.1 (hd hx))

/-! ### Packets that are returned -/

theorem _root_.Jool.Bib.tcp4_never_esrch {t : Table} {e : Bib.Env} {sg src4 dst4 d6 skb r}
    (hr : Bib.tcp4 e t sg src4 dst4 d6 skb = .ok r) : r.2.2 ≠ .err .ESRCH := by
  intro hx
  unfold Bib.tcp4 Bib.tcpCollision Bib.storeType1 at hr
  dsimp only at hr
  repeat' split at hr
  all_goals first | (cases hr; done) | (cases hr; cases hx)

theorem step_esrch {p : Proto} {t : Table} {e : Bib.Env} {pk : Pkt Addr4} {tu : Tuple T4} {d6 skb r}
    (hr : Bib.step p t e (op4 pk tu d6 skb) = .ok r) (hx : r.2.2 = .err .ESRCH) : r.1 = t ∧ r.2.1 = [] := by
  unfold op4 at hr
  split at hr
  · -- TCP never says so
    exfalso
    unfold Bib.step at hr
    dsimp only at hr
    split at hr
    · exact Bib.tcp4_never_esrch hr hx
    · cases hr; cases hx
  · unfold Bib.step at hr
    dsimp only at hr
    split at hr
    · cases hr; cases hx
    · unfold Bib.add4 at hr
      split at hr
      · cases hr; cases hx
      · split at hr
        · cases hr; exact ⟨rfl, rfl⟩
        · split at hr
          · cases hr; cases hx
          · split at hr <;> cases hr <;> cases hx

theorem set_same_table (s : St) (p : Proto) : s.set p (s.tables p) = s := by
  unfold St.set
  cases s with
  | mk pool tables =>
    congr 1
    funext q
    by_cases h : q = p
    · rw [if_pos h, h]
    · rw [if_neg h]

theorem out_returned {e : Stop} {w} (h : e.out = .returned w ∨ e.out2 = .returned w) : ∃ i, e = .untranslatable w i := by
  cases e with
  | untranslatable w' i => rcases h with h | h <;> (cases h; exact ⟨i, rfl⟩)
  | drop w' i => rcases h with h | h <;> cases h
  | stolen => rcases h with h | h <;> cases h

theorem result4_untranslatable {r : Bib.Result} {w i} (h : result4 r = .error (.untranslatable w i)) : r = .err .ESRCH := by
  cases r with
  | cont b o => cases h
  | err e => cases e <;> first | rfl | cases h
  | drop x => simp only [result4] at h; split at h <;> cases h
  | stolen => cases h
  | done => cases h

/-- **C66.** A packet from IPv4 which is returned to the kernel leaves no trace. -/
theorem returned4_unchanged {cfg s c p r w} (hc : Clear c) (hr : core4 cfg s c p = .ok r) (hw : r.out = .returned w) :
    r.st = s ∧ r.ev = [] := by
  rcases core4_common hr with ⟨h1, h2, _⟩ | ⟨P, _, hP, hco⟩
  · exact ⟨h1, h2⟩
  · rcases common4_fu hco with ⟨e, _, rfl⟩ | ⟨t, f, ht, F, rfl⟩
    · exact ⟨rfl, rfl⟩
    · rw [(finish4_st ..).1, (finish4_st ..).2]
      cases F with
      | refused e => exact ⟨rfl, rfl⟩
      | error => exact ⟨rfl, rfl⟩
      | update he h1 a ha x hx =>
        dsimp only
        cases hk : result4 x.2.2 with
        | error e =>
          unfold finish4 at hw
          dsimp only at hw
          rw [hk] at hw
          obtain ⟨i, rfl⟩ := out_returned (.inl hw)
          obtain ⟨h1, h2⟩ := step_esrch hx (result4_untranslatable hk)
          rw [h1, h2]
          exact ⟨set_same_table s _, rfl⟩
        | ok known =>
          exfalso
          obtain ⟨b, o, _, rfl⟩ := result4_ok hk
          unfold finish4 at hw
          dsimp only at hw
          rw [hk] at hw
          dsimp only at hw
          unfold compute4 at hw
          dsimp only at hw
          rw [ha] at hw
          dsimp only at hw
          cases htr : translate4 cfg P c p ⟨⟨a, if t.proto = .ICMP then b.src6.port else t.src.port⟩, b.src6, t.proto⟩ with
          | ok q =>
            rw [htr] at hw
            unfold send at hw
            dsimp only at hw
            split at hw <;> cases hw
          | error e =>
            rw [htr] at hw
            obtain ⟨i, rfl⟩ := out_returned (.inl hw)
            unfold translate4 at htr
            cases hf : c.fail with
            | some x => rw [hf] at htr; injection htr with htr; subst htr; exact hc.1 _ _ hf
            | none =>
              rw [hf] at htr
              dsimp only at htr
              repeat' split at htr
              all_goals cases htr

/-- **C66.** A packet from IPv4 whose destination isn't in pool4 is returned. (For errors: the source of the packet they
quote.) -/
theorem returned4_pool {cfg s c p P t} (hA : Active cfg P) (ht : tuple4 p = .ok t)
    (hp : Pool4.contains cfg.own s.pool4 t.proto t.dst = false) :
    core4 cfg s c p = .ok ⟨s, [], .returned "POOL4_MISMATCH"⟩ := by
  rw [core4_active hA ht]
  unfold fu4
  rw [hp]
  rfl

/-- **C66.** When a packet from IPv4 is returned. UDP, TCP and echoes: -/
theorem returned4_iff {cfg s c p P k S D r} (hA : Active cfg P) (hl : Rfc6052Spec.legal P.len)
    (h : view4 p = some (k, S, D)) (hc : Smooth c) (hr : core4 cfg s c p = .ok r) :
    (∃ w, r.out = .returned w) ↔
      Pool4.contains cfg.own s.pool4 k.proto D = false ∨ (k.proto ≠ .TCP ∧ ∀ b ∈ bibs s k.proto, b.src4 ≠ D) := by
  have ht := (view4_tuple h).1
  cases hp : Pool4.contains cfg.own s.pool4 k.proto D with
  | false =>
    rw [returned4_pool hA ht hp] at hr
    cases hr
    simp
  | true =>
    by_cases hk : k.proto = .TCP
    · -- TCP
      simp only [Bool.true_eq_false, false_or, hk, ne_eq, not_true_eq_false, false_and, iff_false]
      rintro ⟨w, hw⟩
      rw [core4_active hA ht] at hr
      obtain ⟨f, hf, rfl⟩ := map_ok hr
      have F := fu4_cases hf
      cases F with
      | refused e =>
        obtain ⟨i, rfl⟩ := out_returned (.inl hw)
        unfold fu4 update4 at hf
        obtain ⟨a, ha⟩ := legal_4to6 hl S.addr
        simp only [hp, (view4_tuple h).2.1, ha, Bool.not_true, Bool.false_eq_true, if_false] at hf
        obtain ⟨x, hx, hf⟩ := map_ok hf
        simp only [Fu.stop, Fu.mk.injEq] at hf
        have hes := result4_untranslatable hf.2.2.1
        rw [op4_view h] at hx
        cases k with
        | tcp x y z =>
          have := Bib.tcp4_never_esrch hx
          exact this hes
        | _ => cases hk
      | error he => rw [(view4_tuple h).2.1] at he; cases he
      | update he h1 a ha x hx =>
        cases hk2 : result4 x.2.2 with
        | error e =>
          unfold finish4 at hw
          dsimp only at hw
          rw [hk2] at hw
          obtain ⟨i, rfl⟩ := out_returned (.inl hw)
          have hes := result4_untranslatable hk2
          rw [op4_view h] at hx
          cases k with
          | tcp x y z => exact Bib.tcp4_never_esrch hx hes
          | _ => cases hk
        | ok known =>
          obtain ⟨b, o, _, rfl⟩ := result4_ok hk2
          obtain ⟨q, hq⟩ := translate4_smooth (cfg := cfg) (P := P)
            (o := ⟨⟨a, if k.proto = .ICMP then b.src6.port else S.port⟩, b.src6, k.proto⟩) h hc.1
          unfold finish4 at hw
          dsimp only at hw
          rw [hk2] at hw
          dsimp only at hw
          unfold compute4 at hw
          dsimp only at hw
          rw [ha] at hw
          dsimp only at hw
          rw [hq] at hw
          unfold send at hw
          dsimp only at hw
          split at hw <;> cases hw
    · obtain ⟨r', hr', H⟩ := inbound46 hA hl h hk hc hp
      rw [hr] at hr'; cases hr'
      simp only [Bool.true_eq_false, false_or, hk, ne_eq, not_false_eq_true, true_and]
      rcases H with ⟨b, hb, hd, _, q, a, ho, _⟩ | ⟨b, hb, hd, _, ho, _⟩ | ⟨hn, ho, _⟩
      · rw [ho]
        exact ⟨fun ⟨w, hw⟩ => (by cases hw), fun hn => absurd hd (hn b hb)⟩
      · rw [ho]
        exact ⟨fun ⟨w, hw⟩ => (by cases hw), fun hn => absurd hd (hn b hb)⟩
      · exact ⟨fun _ => hn, fun _ => ⟨_, ho⟩⟩

/-- ICMP errors: -/
theorem returned4_error {cfg s c p P k S D r} (hA : Active cfg P) (hl : Rfc6052Spec.legal P.len)
    (h : quoted4 p = some (k, S, D)) (hc : Smooth c) (hr : core4 cfg s c p = .ok r) :
    (∃ w, r.out = .returned w) ↔
      Pool4.contains cfg.own s.pool4 k.proto S = false ∨ ∀ b ∈ bibs s k.proto, b.src4 ≠ S := by
  obtain ⟨ht, he⟩ := quoted4_tuple h
  cases hp : Pool4.contains cfg.own s.pool4 k.proto S with
  | false =>
    rw [returned4_pool hA ht hp] at hr
    cases hr
    simp
  | true =>
    obtain ⟨a, ha⟩ := legal_4to6 hl D.addr
    rw [core4_active hA ht] at hr
    unfold fu4 at hr
    simp only [hp, he, Bool.not_true, Bool.false_eq_true, if_false, if_true, Outcome.map, Outcome.ok.injEq] at hr
    subst hr
    simp only [Bool.true_eq_false, false_or]
    unfold finish4
    dsimp only
    unfold compute4
    dsimp only
    cases hf : Bib.find4 (s.tables k.proto) S with
    | none => exact ⟨fun _ => Bib.find4_none hf, fun _ => ⟨_, rfl⟩⟩
    | some b =>
      obtain ⟨hb, hbs⟩ := Bib.find4_some hf
      dsimp only
      rw [ha]
      dsimp only
      refine ⟨?_, fun hn => absurd hbs (hn b hb)⟩
      rintro ⟨w, hw⟩
      exfalso
      cases htr : translate4 cfg P c p ⟨⟨a, if k.proto = .ICMP then b.src6.port else D.port⟩, b.src6, k.proto⟩ with
      | ok q =>
        rw [htr] at hw
        unfold send at hw
        dsimp only at hw
        split at hw <;> cases hw
      | error e =>
        rw [htr] at hw
        obtain ⟨i, rfl⟩ := out_returned (.inl hw)
        unfold translate4 at htr
        rw [hc.1] at htr
        dsimp only at htr
        repeat' split at htr
        all_goals cases htr

theorem findMasks_stop {s c p w i} (hc : Clear c) (h : findMasks s c p = .ok (.error (.untranslatable w i))) : False := by
  unfold findMasks at h
  split at h
  · cases h
  · split at h
    · split at h
      · cases h
      · split at h
        · rename_i e he
          simp only [Outcome.ok.injEq, Except.error.injEq] at h
          subst h
          exact hc.2 _ _ he
        · cases h
    · obtain ⟨d, _, h⟩ := map_ok h
      repeat' split at h
      all_goals cases h

theorem result6_untranslatable {r : Bib.Result} {w i} (h : result6 r = .error (.untranslatable w i)) : False := by
  cases r <;> simp [result6] at h

theorem translate6_untranslatable {c p o sa w i} (hc : Clear c) (h : translate6 c p o sa = .error (.untranslatable w i)) :
    False := by
  unfold translate6 at h
  cases hf : c.fail with
  | some x => rw [hf] at h; injection h with h; subst h; exact hc.1 _ _ hf
  | none =>
    rw [hf] at h
    dsimp only at h
    repeat' split at h
    all_goals cases h

/-- **C66.** A packet from IPv6 which is returned leaves no trace, unless it is a hairpinning packet: then the first pass was
successful, and it was the second one that was refused. -/
theorem returned6_unchanged {cfg s c c2 p r w P} (hs : Reach s) (hA : Active cfg P) (hc : Clear c)
    (hr : core6 cfg s c c2 p = .ok r) (hw : r.out = .returned w) :
    (r.st = s ∧ r.ev = []) ∨ ∃ mid q c' r', c2 = some c' ∧ core4 cfg mid c' q = .ok r' ∧ r'.out = .returned w ∧ r.st = r'.st ∧
      ∃ o, tuple4 q = .ok o ∧ Pool4.contains cfg.own s.pool4 o.proto o.dst = true := by
  have g := reach_good hs
  have hcm : common6 cfg P s c c2 p = .ok r := by
    unfold core6 at hr
    rw [hA.1, hA.2] at hr
    simpa using hr
  rcases common6_cases g hcm with ⟨e, _, rfl⟩ | ⟨t, f, ht, F, H⟩
  · exact .inl ⟨rfl, rfl⟩
  · cases H with
    | stopped e he =>
      left
      cases F with
      | refused => exact ⟨rfl, rfl⟩
      | error => exact ⟨rfl, rfl⟩
      | update _ h1 h2 a ha m sa hm x hx =>
        exfalso
        obtain ⟨i, rfl⟩ := out_returned (.inl hw)
        rcases he with he | ⟨known, hk, he | ⟨o, _, he⟩⟩
        · exact result6_untranslatable he
        · obtain ⟨b, _, _, rfl⟩ := result6_ok hk
          unfold compute6 at he
          dsimp only at he
          rw [ha] at he
          cases he
        · exact translate6_untranslatable hc he
    | sent known hk o ho q hq hh =>
      dsimp only at hw
      unfold send at hw; split at hw <;> cases hw
    | noMemory known hk o ho q hq hh h2 => cases hw
    | hairpin known hk o ho q hq hh c' h2 f' hf hfe =>
      right
      obtain ⟨T, A, B⟩ := first_pass_tuple g ht F hk ho hq
      rw [F.pool] at hh
      refine ⟨f.st, q, c', finish4 cfg P c' q o f' Stop.out, h2, ?_, ?_, ?_, o, T, hh⟩
      · rw [core4_active hA T, hfe]; rfl
      · dsimp only at hw
        rw [quiet_finish4] at hw
        cases hx : (finish4 cfg P c' q o f' Stop.out).out <;> rw [hx] at hw <;> simp [quiet] at hw
        rw [hw]
      · rw [(finish4_st ..).1]

theorem fu6_untranslatable {cfg P s c p t f w i} (hc : Clear c) (hf : fu6 cfg P s c p t = .ok f)
    (hk : f.res = .error (.untranslatable w i)) : prefix6Contains P p.src = false ∧ prefix6Contains P p.dst = false := by
  unfold fu6 at hf
  split at hf
  · cases hf; cases hk
  split at hf
  · rename_i h1 h2; exact ⟨by simpa using h1, by simpa using h2⟩
  exfalso
  split at hf
  · cases hf; cases hk
  split at hf
  · cases hf; cases hk
  unfold update6 at hf
  split at hf
  · cases hf; cases hk
  · obtain ⟨m, hm, hf⟩ := bind_ok hf
    cases m with
    | error e =>
      cases hf
      simp only [Fu.stop, Except.error.injEq] at hk
      subst hk
      exact findMasks_stop hc hm
    | ok m =>
      obtain ⟨m, sa⟩ := m
      dsimp only at hf
      obtain ⟨x, hx, rfl⟩ := map_ok hf
      exact result6_untranslatable hk

/-- **C66.** When a packet from IPv6 is returned: when neither its source nor its destination is in pool6 (or it hairpins; see
`returned6_unchanged`). -/
theorem returned6_iff {cfg s c c2 p r P k S D} (hs : Reach s) (hA : Active cfg P) (hc : Clear c)
    (h : view6 p = some (k, S, D)) (hr : core6 cfg s c c2 p = .ok r)
    (hh : ∀ a x, rfc6052_6to4 P D.addr = some a → Pool4.contains cfg.own s.pool4 k.proto ⟨a, x⟩ = false) :
    (∃ w, r.out = .returned w) ↔ prefix6Contains P S.addr = false ∧ prefix6Contains P D.addr = false := by
  obtain ⟨ht, he, e1, e2⟩ := view6_tuple h
  have g := reach_good hs
  have hcm : common6 cfg P s c c2 p = .ok r := by
    unfold core6 at hr
    rw [hA.1, hA.2] at hr
    simpa using hr
  unfold common6 at hcm
  rw [ht] at hcm
  dsimp only at hcm
  obtain ⟨f, hf, hcm⟩ := bind_ok hcm
  constructor
  · rintro ⟨w, hw⟩
    cases hk : f.res with
    | error e =>
      rw [hk] at hcm; cases hcm
      obtain ⟨i, rfl⟩ := out_returned (.inl hw)
      rw [e1, e2]
      exact fu6_untranslatable hc hf hk
    | ok known =>
      exfalso
      have F := fu6_cases g hf
      obtain ⟨a, m, sa, b, o', ha, hm, hsa, rfl, C, N, hp, _⟩ := fu6_view g h F hk
      rw [hk] at hcm
      dsimp only at hcm
      have hco : compute6 P f.st ⟨S, D, k.proto⟩ (some b) =
          .ok ⟨b.src4, ⟨a, if k.proto = .ICMP then b.src4.port else D.port⟩, k.proto⟩ := by
        unfold compute6; dsimp only; rw [ha]
      rw [hco] at hcm
      dsimp only at hcm
      cases htr : translate6 c p ⟨b.src4, ⟨a, if k.proto = .ICMP then b.src4.port else D.port⟩, k.proto⟩ f.saddr with
      | error e =>
        rw [htr] at hcm; cases hcm
        obtain ⟨i, rfl⟩ := out_returned (.inl hw)
        exact translate6_untranslatable hc htr
      | ok q =>
        rw [htr] at hcm
        dsimp only at hcm
        rw [F.pool, hh a _ ha] at hcm
        simp only [Bool.false_eq_true, if_false] at hcm
        cases hcm
        dsimp only at hw
        unfold send at hw; split at hw <;> cases hw
  · rintro ⟨h1, h2⟩
    unfold fu6 at hf
    rw [← e1, ← e2, h1, h2] at hf
    simp only [Bool.false_eq_true, if_false, Bool.not_false, if_true, Fu.stop] at hf
    cases hf
    cases hcm
    exact ⟨_, rfl⟩

/-! ### Hairpinning works -/

/-- **C52.** A UDP packet between two nodes with BIB entries (and no address-dependent filtering) arrives: node 1 sends it to the
address that contains the pool4 address of node 2, and node 2 receives it from the address that contains the pool4
address of node 1. -/
theorem hairpin_delivered {cfg s c c' p P b1 b2 x m sa} {D : T6} (hs : Reach s) (hA : Active cfg P) (h : view6 p = some (.udp, b1.src6, D))
    (hc : Smooth c) (hc' : Smooth c') (hsrc : prefix6Contains P b1.src6.addr = false)
    (hm : findMasks s c .UDP = .ok (.ok (m, sa))) (hb1 : b1 ∈ bibs s .UDP) (hb2 : b2 ∈ bibs s .UDP) (hu : Usable s c b1)
    (hD : rfc6052_4to6 P b2.src4.addr = some D.addr) (hDp : D.port = b2.src4.port)
    (hp : Pool4.contains cfg.own s.pool4 .UDP b2.src4 = true) (hf : c'.env.cfg.dropByAddr = false)
    (hx : rfc6052_4to6 P b1.src4.addr = some x) :
    ∃ r q, core6 cfg s c (some c') p = .ok r ∧ r.out = .sent6 q ∧
      view6 q = some (.udp, ⟨x, b1.src4.port⟩, b2.src6) ∧ bibs r.st .UDP = bibs s .UDP := by
  have g := reach_good hs
  have hl := ((rfc6052_4to6_correct _ _ _).1 hD).1
  have ha : rfc6052_6to4 P D.addr = some b2.src4.addr := by
    obtain ⟨y, hy, hy'⟩ := rfc6052_roundtrip P b2.src4.addr hl
    rw [hD] at hy; cases hy
    exact hy'
  have hdst := contains_4to6 hD
  obtain ⟨hc1, hc2, hc3⟩ := hc
  obtain ⟨ht, he, e1, e2⟩ := view6_tuple h
  have M := findMasks_ok g hm
  have U := usable_masks M (findMasks_route hm) hu
  obtain ⟨hist, ev, hAf⟩ := g.tables .UDP
  obtain ⟨r0, key, hr0, hcont, hbib⟩ := Bib.mapping_kept hAf (by decide) c.env m M.ok b1.src6 D ⟨b2.src4.addr, D.port⟩ hc3 b1 hb1 rfl U
  have hop : op6 p ⟨b1.src6, D, .UDP⟩ m ⟨b2.src4.addr, D.port⟩ = .add6 m b1.src6 D ⟨b2.src4.addr, D.port⟩ := by
    unfold op6
    cases hl : p.l4 with
    | tcp s d x y z =>
      unfold view6 at h; rw [hl] at h
      simp at h
    | _ => rfl
  have hfu : fu6 cfg P s c p ⟨b1.src6, D, .UDP⟩ =
      .ok { st := s.set .UDP r0.1, ev := r0.2.1, res := .ok (some b1), saddr := sa } := by
    unfold fu6
    rw [← e1, ← e2, hsrc, hdst, he, if_neg (by simp), if_neg (by simp), if_neg (by simp), if_neg (by simp)]
    unfold update6
    dsimp only
    rw [ha]
    dsimp only
    rw [hm]
    dsimp only [Outcome.bind]
    rw [hop, hr0]
    simp only [Outcome.map, hcont, result6]
  have F := fu6_cases g hfu
  obtain ⟨q, hq⟩ := translate6_smooth (sa := sa) (o := ⟨b1.src4, ⟨b2.src4.addr, D.port⟩, .UDP⟩) h hc1
  have hcomp : compute6 P (s.set .UDP r0.1) ⟨b1.src6, D, .UDP⟩ (some b1) = .ok ⟨b1.src4, ⟨b2.src4.addr, D.port⟩, .UDP⟩ := by
    unfold compute6
    dsimp only
    rw [ha]
    rfl
  have hv : view4 q = some (.udp, b1.src4, b2.src4) := by
    obtain ⟨_, A, _⟩ := first_pass_tuple g ht F rfl hcomp hq
    obtain ⟨b, hb, hbs, a, ha', V⟩ := A _ _ _ h
    rw [ha] at ha'; cases ha'
    have gm := F.good g
    have hb1m : b1 ∈ bibs (s.set .UDP r0.1) .UDP := by
      unfold bibs; rw [St.set_same, hbib]; exact hb1
    have : b = b1 := (gm.wf .UDP).uniq6 hb hb1m hbs
    subst this
    rw [V]
    dsimp only [Kind.port]
    rw [hDp]
  have hb2m : b2 ∈ bibs (s.set .UDP r0.1) .UDP := by
    unfold bibs; rw [St.set_same, hbib]; exact hb2
  obtain ⟨r', hr', H⟩ := inbound46 (s := s.set .UDP r0.1) hA hl hv (by decide) hc' hp
  rcases H with ⟨b, hb, hbs, _, q', a, ho, ha', V, hbb, _⟩ | ⟨b, _, _, hna, _⟩ | ⟨hn, _⟩
  · have : b = b2 := ((F.good g).wf .UDP).uniq4 hb hb2m hbs
    subst this
    rw [hx] at ha'; cases ha'
    have T := (view4_tuple hv).1
    rw [core4_active hA T] at hr'
    obtain ⟨f', hf', rfl⟩ := map_ok hr'
    refine ⟨⟨f'.st, r0.2.1 ++ f'.ev, (finish4 cfg P c' q ⟨b1.src4, b.src4, .UDP⟩ f' Stop.out2).out⟩, q', ?_, ?_, V, ?_⟩
    · unfold core6
      rw [hA.1, hA.2]
      simp only [Bool.not_true, Bool.false_eq_true, if_false]
      unfold common6
      rw [ht]
      dsimp only
      have : fu6 cfg P s c p ⟨b1.src6, D, Kind.udp.proto⟩ = _ := hfu
      rw [this]
      dsimp only [Outcome.bind]
      have : compute6 P (s.set .UDP r0.1) ⟨b1.src6, D, Kind.udp.proto⟩ (some b1) = _ := hcomp
      rw [this]
      dsimp only
      rw [hq]
      dsimp only
      have hD2 : (⟨b.src4.addr, D.port⟩ : T4) = b.src4 := by rw [hDp]
      rw [hD2]
      have : Pool4.contains cfg.own (s.set .UDP r0.1).pool4 .UDP b.src4 = true := hp
      rw [if_pos this]
      unfold hairpin
      dsimp only
      have : fu4 cfg P (s.set .UDP r0.1) c' q ⟨b1.src4, b.src4, .UDP⟩ = .ok f' := hf'
      rw [this]
      simp only [Outcome.map]
      have F2 := finish4_st cfg P c' q ⟨b1.src4, b.src4, .UDP⟩ f' Stop.out2
      rw [F2.1, F2.2]
    · dsimp only
      rw [quiet_finish4]
      have : (finish4 cfg P c' q ⟨b1.src4, b.src4, .UDP⟩ f' Stop.out).out = .sent6 q' := ho
      rw [this]
      rfl
    · dsimp only
      rw [(finish4_st ..).1] at hbb
      have : bibs f'.st .UDP = bibs (s.set .UDP r0.1) .UDP := hbb
      rw [this]
      unfold bibs
      rw [St.set_same, hbib]
  · exact absurd (.inl hf) hna
  · exact absurd rfl (hn b2 hb2m)

end Nat64
end Jool
