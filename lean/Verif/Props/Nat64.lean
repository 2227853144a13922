import Verif.Lemmas.Nat64
/-
C53: what the NAT64 writes in the packets. C52: hairpinning.
-/
namespace Jool

/-! ## Specification -/
namespace Nat64Spec
open Nat64
open Jool.Bib (Table BibKey SessKey)

/-- What a packet is, apart from its addresses and ports. -/
inductive Kind
  | udp
  | tcp (syn fin rst : Bool)
  | request
  | reply
deriving DecidableEq, Repr

def Kind.proto : Kind → Proto
  | .udp => .UDP
  | .tcp _ _ _ => .TCP
  | .request => .ICMP
  | .reply => .ICMP

/-- Echoes have one identifier where the others have two ports. -/
def Kind.port (k : Kind) (p id : Port) : Port :=
  match k with
  | .request => id
  | .reply => id
  | _ => p

/-- A UDP, TCP or echo packet: kind, source and destination. (The identifier of an echo counts as both ports.) -/
def view6 (p : Pkt Addr6) : Option (Kind × T6 × T6) :=
  match p.l4 with
  | .udp s d => some (.udp, ⟨p.src, s⟩, ⟨p.dst, d⟩)
  | .tcp s d syn fin rst => some (.tcp syn fin rst, ⟨p.src, s⟩, ⟨p.dst, d⟩)
  | .icmp t _ id _ =>
    if t = 128 then some (.request, ⟨p.src, id⟩, ⟨p.dst, id⟩)
    else if t = 129 then some (.reply, ⟨p.src, id⟩, ⟨p.dst, id⟩)
    else none
  | .other => none

def view4 (p : Pkt Addr4) : Option (Kind × T4 × T4) :=
  match p.l4 with
  | .udp s d => some (.udp, ⟨p.src, s⟩, ⟨p.dst, d⟩)
  | .tcp s d syn fin rst => some (.tcp syn fin rst, ⟨p.src, s⟩, ⟨p.dst, d⟩)
  | .icmp t _ id _ =>
    if t = 8 then some (.request, ⟨p.src, id⟩, ⟨p.dst, id⟩)
    else if t = 0 then some (.reply, ⟨p.src, id⟩, ⟨p.dst, id⟩)
    else none
  | .other => none

/-- The state of an instance after some history of packets, requests and timers, since its creation. -/
def Reach (s : St) : Prop := ∃ hist, (∀ o ∈ hist, Op.Ok o) ∧ run init hist = .ok s

/-- The instance translates, and `P` is its pool6. -/
def Active (cfg : Cfg) (P : Prefix6) : Prop := cfg.enabled = true ∧ cfg.pool6 = some P

/-- Nothing prevents the translation: there is memory, a route, etc. -/
def Smooth (c : Ctx) : Prop := c.fail = none ∧ c.sendFails = false ∧ c.env.oom.new = false

/-- The IPv4 SYNs that are waiting for an IPv6 packet were received under this pool6. -/
def StoredOk (P : Prefix6) (s : St) : Prop :=
  ∀ n ∈ (s.tables .TCP).queue, rfc6052_4to6 P n.dst4.addr = some n.dst6.addr ∧ n.dst6.port = n.dst4.port

/-- The BIB entries and the sessions which are listed for a protocol. -/
def bibs (s : St) (p : Proto) : List BibKey := BibSpec.bibs (s.tables p)
def sessions (s : St) (p : Proto) : List SessKey := BibSpec.sessions (s.tables p)

end Nat64Spec

namespace Nat64
open Nat64Spec
open Jool.Bib (Table BibKey SessKey Masks Event Live WF Cont6 Answerable)

theorem reach_good {s : St} (h : Reach s) : Good s := by
  obtain ⟨hist, ho, hr⟩ := h
  exact run_good hist init s good_init ho hr

/-- The tables of an instance, whatever its history, are tables in the sense of the other properties: each one results
from a history of operations on it. So those properties hold in the running translator. -/
theorem tables_after {s : St} (h : Reach s) (p : Proto) : ∃ hist ev, BibSpec.After p hist (s.tables p) ev :=
  (reach_good h).tables p

/-! ### Views and tuples -/

theorem view6_tuple {p : Pkt Addr6} {k S D} (h : view6 p = some (k, S, D)) :
    tuple6 p = .ok ⟨S, D, k.proto⟩ ∧ isError6 p = false ∧ S.addr = p.src ∧ D.addr = p.dst := by
  obtain ⟨src, dst, l4⟩ := p
  unfold view6 at h
  unfold tuple6 isError6
  cases l4 with
  | udp s d => simp only [Option.some.injEq, Prod.mk.injEq] at h; obtain ⟨rfl, rfl, rfl⟩ := h; exact ⟨rfl, rfl, rfl, rfl⟩
  | tcp s d a b c =>
    simp only [Option.some.injEq, Prod.mk.injEq] at h; obtain ⟨rfl, rfl, rfl⟩ := h; exact ⟨rfl, rfl, rfl, rfl⟩
  | icmp t c id i =>
    dsimp only at h ⊢
    split at h
    · rename_i ht; subst ht
      simp only [Option.some.injEq, Prod.mk.injEq] at h; obtain ⟨rfl, rfl, rfl⟩ := h
      exact ⟨rfl, rfl, rfl, rfl⟩
    · split at h
      · rename_i ht; subst ht
        simp only [Option.some.injEq, Prod.mk.injEq] at h; obtain ⟨rfl, rfl, rfl⟩ := h
        exact ⟨rfl, rfl, rfl, rfl⟩
      · cases h
  | other => cases h

theorem view4_tuple {p : Pkt Addr4} {k S D} (h : view4 p = some (k, S, D)) :
    tuple4 p = .ok ⟨S, D, k.proto⟩ ∧ isError4 p = false ∧ S.addr = p.src ∧ D.addr = p.dst := by
  obtain ⟨src, dst, l4⟩ := p
  unfold view4 at h
  unfold tuple4 isError4
  cases l4 with
  | udp s d => simp only [Option.some.injEq, Prod.mk.injEq] at h; obtain ⟨rfl, rfl, rfl⟩ := h; exact ⟨rfl, rfl, rfl, rfl⟩
  | tcp s d a b c =>
    simp only [Option.some.injEq, Prod.mk.injEq] at h; obtain ⟨rfl, rfl, rfl⟩ := h; exact ⟨rfl, rfl, rfl, rfl⟩
  | icmp t c id i =>
    dsimp only at h ⊢
    split at h
    · rename_i ht; subst ht
      simp only [Option.some.injEq, Prod.mk.injEq] at h; obtain ⟨rfl, rfl, rfl⟩ := h
      exact ⟨rfl, rfl, rfl, rfl⟩
    · split at h
      · rename_i ht; subst ht
        simp only [Option.some.injEq, Prod.mk.injEq] at h; obtain ⟨rfl, rfl, rfl⟩ := h
        exact ⟨rfl, rfl, rfl, rfl⟩
      · cases h
  | other => cases h

theorem translate6_view {c : Ctx} {p : Pkt Addr6} {k S D} (h : view6 p = some (k, S, D)) {o : Tuple T4} {sa}
    {q : Pkt Addr4} (hq : translate6 c p o sa = .ok q) :
    view4 q = some (k, ⟨sa.getD o.src.addr, o.src.port⟩, ⟨o.dst.addr, k.port o.dst.port o.src.port⟩) := by
  obtain ⟨src, dst, l4⟩ := p
  unfold translate6 at hq
  cases hf : c.fail with
  | some e => rw [hf] at hq; cases hq
  | none =>
    rw [hf] at hq
    unfold view6 at h
    cases l4 with
    | udp s d => cases h; cases hq; rfl
    | tcp s d a b c => cases h; cases hq; rfl
    | icmp t c id i =>
      dsimp only at h hq
      split at h
      · rename_i ht; subst ht
        cases h
        simp only [Icmp.xlat64Type, Icmp.isIcmp6Info] at hq
        cases hq; rfl
      · split at h
        · rename_i ht; subst ht
          cases h
          simp only [Icmp.xlat64Type, Icmp.isIcmp6Info] at hq
          cases hq; rfl
        · cases h
    | other => cases h

theorem translate4_view {cfg : Cfg} {P} {c : Ctx} {p : Pkt Addr4} {k S D} (h : view4 p = some (k, S, D)) {o : Tuple T6}
    {q : Pkt Addr6} (hq : translate4 cfg P c p o = .ok q) :
    view6 q = some (k, ⟨o.src.addr, k.port o.src.port o.src.port⟩, ⟨o.dst.addr, k.port o.dst.port o.src.port⟩) := by
  have hs : saddr6 cfg P p o = some o.src.addr := by simp [saddr6, (view4_tuple h).2.1]
  obtain ⟨src, dst, l4⟩ := p
  unfold translate4 at hq
  cases hf : c.fail with
  | some e => rw [hf] at hq; cases hq
  | none =>
    rw [hf, hs] at hq
    unfold view4 at h
    cases l4 with
    | udp s d => cases h; cases hq; rfl
    | tcp s d a b c => cases h; cases hq; rfl
    | icmp t c id i =>
      dsimp only at h hq
      split at h
      · rename_i ht; subst ht
        cases h
        simp only [Icmp.xlat46Type, Icmp.isIcmp4Info] at hq
        cases hq; rfl
      · split at h
        · rename_i ht; subst ht
          cases h
          simp only [Icmp.xlat46Type, Icmp.isIcmp4Info] at hq
          cases hq; rfl
        · cases h
    | other => cases h

/-! ### Step 2 and 3 together -/

theorem op6_view {p : Pkt Addr6} {k S D} (h : view6 p = some (k, S, D)) {m d4 t} {e : Bib.Env} :
    Bib.step k.proto t e (op6 p ⟨S, D, k.proto⟩ m d4) =
      match k with
      | .tcp syn fin rst => Bib.tcp6 e t m ⟨.V6, syn, fin, rst⟩ S D d4
      | _ => Bib.add6 e k.proto t m S D d4 := by
  obtain ⟨src, dst, l4⟩ := p
  unfold view6 at h
  unfold op6
  cases l4 with
  | udp s d => cases h; rfl
  | tcp s d a b c => cases h; rfl
  | icmp t c id i =>
    dsimp only at h ⊢
    split at h
    · cases h; rfl
    · split at h
      · cases h; rfl
      · cases h
  | other => cases h

theorem op4_view {p : Pkt Addr4} {k S D} (h : view4 p = some (k, S, D)) {d6 t skb} {e : Bib.Env} :
    Bib.step k.proto t e (op4 p ⟨S, D, k.proto⟩ d6 skb) =
      match k with
      | .tcp syn fin rst => Bib.tcp4 e t ⟨.V4, syn, fin, rst⟩ D S d6 skb
      | _ => Bib.add4 e t D S d6 := by
  obtain ⟨src, dst, l4⟩ := p
  unfold view4 at h
  unfold op4
  cases l4 with
  | udp s d => cases h; rfl
  | tcp s d a b c => cases h; rfl
  | icmp t c id i =>
    dsimp only at h ⊢
    split at h
    · cases h; rfl
    · split at h
      · cases h; rfl
      · cases h
  | other => cases h

theorem result6_ok {r : Bib.Result} {known} (h : result6 r = .ok known) : ∃ b o, r = .cont b o ∧ known = some b := by
  cases r <;> simp only [result6, reduceCtorEq, Except.ok.injEq] at h
  exact ⟨_, _, rfl, h.symm⟩

theorem result4_ok {r : Bib.Result} {known} (h : result4 r = .ok known) : ∃ b o, r = .cont b o ∧ known = some b := by
  cases r with
  | cont b o => simp only [result4, Except.ok.injEq] at h; exact ⟨_, _, rfl, h.symm⟩
  | err e => cases e <;> simp [result4] at h
  | drop w => simp only [result4] at h; split at h <;> cases h
  | stolen => simp [result4] at h
  | done => simp [result4] at h

/-- The entry that an IPv6 packet is translated with. -/
theorem fu6_view {cfg P s c p f k S D known} (g : Good s) (h : view6 p = some (k, S, D))
    (F : Fu6 cfg P s c p ⟨S, D, k.proto⟩ f) (hk : f.res = .ok known) :
    ∃ a m sa b o, rfc6052_6to4 P D.addr = some a ∧ MasksOk s m sa ∧ f.saddr = sa ∧ known = some b ∧
      Cont6 k.proto (s.tables k.proto) m S D ⟨a, D.port⟩ (f.st.tables k.proto) b o ∧
      (o = none → ∃ fin rst, k = .tcp false fin rst) ∧
      prefix6Contains P p.src = false ∧ prefix6Contains P p.dst = true := by
  cases F with
  | refused e => simp [Fu.stop] at hk
  | error he => rw [(view6_tuple h).2.1] at he; cases he
  | update he h1 h2 a ha m sa hm r hr =>
    rw [op6_view h] at hr
    obtain ⟨b, o, hb, rfl⟩ := result6_ok hk
    dsimp only
    rw [St.set_same]
    cases k with
    | tcp syn fin rst =>
      obtain ⟨C, N⟩ := Bib.tcp6_cont (g.wf .TCP) hm.ok hr hb
      exact ⟨a, m, sa, b, o, ha, hm, rfl, rfl, C, fun ho => ⟨fin, rst, by rw [← N ho]⟩, h1, h2⟩
    | udp =>
      obtain ⟨C, N⟩ := Bib.add6_cont (g.wf .UDP) hm.ok hr hb
      exact ⟨a, m, sa, b, o, ha, hm, rfl, rfl, C, fun ho => absurd ho N, h1, h2⟩
    | request =>
      obtain ⟨C, N⟩ := Bib.add6_cont (g.wf .ICMP) hm.ok hr hb
      exact ⟨a, m, sa, b, o, ha, hm, rfl, rfl, C, fun ho => absurd ho N, h1, h2⟩
    | reply =>
      obtain ⟨C, N⟩ := Bib.add6_cont (g.wf .ICMP) hm.ok hr hb
      exact ⟨a, m, sa, b, o, ha, hm, rfl, rfl, C, fun ho => absurd ho N, h1, h2⟩

/-- The entry that an IPv4 packet is translated with. -/
theorem fu4_view {cfg P s c p f k S D known} (h : view4 p = some (k, S, D))
    (F : Fu4 cfg P s c p ⟨S, D, k.proto⟩ f) (hk : f.res = .ok known) :
    ∃ a b, rfc6052_4to6 P S.addr = some a ∧ known = some b ∧ b ∈ (s.tables k.proto).tree4 ∧
      (f.st.tables k.proto).tree4 = (s.tables k.proto).tree4 ∧ b.src4 = D ∧
      Pool4.contains cfg.own s.pool4 k.proto D = true := by
  cases F with
  | refused e => simp [Fu.stop] at hk
  | error he => rw [(view4_tuple h).2.1] at he; cases he
  | update he h1 a ha r hr =>
    rw [op4_view h] at hr
    obtain ⟨b, o, hb, rfl⟩ := result4_ok hk
    dsimp only
    rw [St.set_same]
    cases k with
    | tcp syn fin rst =>
      obtain ⟨x, y, z, _⟩ := Bib.tcp4_cont hr hb
      exact ⟨a, b, ha, rfl, x, y, z, h1⟩
    | udp =>
      obtain ⟨x, y, z, _⟩ := Bib.add4_cont hr hb
      exact ⟨a, b, ha, rfl, x, y, z, h1⟩
    | request =>
      obtain ⟨x, y, z, _⟩ := Bib.add4_cont hr hb
      exact ⟨a, b, ha, rfl, x, y, z, h1⟩
    | reply =>
      obtain ⟨x, y, z, _⟩ := Bib.add4_cont hr hb
      exact ⟨a, b, ha, rfl, x, y, z, h1⟩

theorem Kind.port_if (k : Kind) (x y : Port) : (if k.proto = .ICMP then y else x) = k.port x y := by
  cases k <;> rfl

theorem Kind.port_port (k : Kind) (x y : Port) : k.port (k.port x y) y = k.port x y := by
  cases k <;> rfl

theorem saddr_eq {s m sa b} (hm : MasksOk s m sa) (h : m.dynamic = true → (∀ a ∈ m.cands.map Prod.fst, m.owns a = true) →
    m.owns b = true) : sa.getD b.addr = b.addr := by
  cases sa with
  | none => rfl
  | some a =>
    obtain ⟨_, h1, h2, h3⟩ := hm.some a rfl
    exact ((h2 b).1 (h h1 h3)).1.symm

theorem send_sent4 {c : Ctx} {o : Out} {q} (h : send c o = .sent4 q) : o = .sent4 q := by
  unfold send at h; split at h
  · cases h
  · exact h

theorem send_sent6 {c : Ctx} {o : Out} {q} (h : send c o = .sent6 q) : o = .sent6 q := by
  unfold send at h; split at h
  · cases h
  · exact h

theorem out_not_sent (e : Stop) : (∀ q, e.out ≠ .sent4 q) ∧ (∀ q, e.out ≠ .sent6 q) ∧ (∀ q, e.out2 ≠ .sent4 q) ∧
    ∀ q, e.out2 ≠ .sent6 q := by
  cases e <;> simp [Stop.out, Stop.out2]

/-- First pass of a packet from IPv6: the IPv4 packet and its tuple. -/
theorem pass6 {cfg P s c p f k S D known o q} (g : Good s) (h : view6 p = some (k, S, D))
    (F : Fu6 cfg P s c p ⟨S, D, k.proto⟩ f) (hk : f.res = .ok known) (ho : compute6 P f.st ⟨S, D, k.proto⟩ known = .ok o)
    (hq : translate6 c p o f.saddr = .ok q) :
    ∃ a m b sess, rfc6052_6to4 P D.addr = some a ∧ m.Ok ∧
      Cont6 k.proto (s.tables k.proto) m S D ⟨a, D.port⟩ (f.st.tables k.proto) b sess ∧
      (sess = none → ∃ fin rst, k = .tcp false fin rst) ∧
      o = ⟨b.src4, ⟨a, k.port D.port b.src4.port⟩, k.proto⟩ ∧
      view4 q = some (k, b.src4, ⟨a, k.port D.port b.src4.port⟩) ∧ prefix6Contains P p.src = false := by
  obtain ⟨a, m, sa, b, o', ha, hm, hsa, rfl, C, N, hp, _⟩ := fu6_view g h F hk
  have ho2 : o = ⟨b.src4, ⟨a, k.port D.port b.src4.port⟩, k.proto⟩ := by
    unfold compute6 at ho
    dsimp only at ho
    rw [ha] at ho
    simp only [Except.ok.injEq] at ho
    rw [← ho, Kind.port_if]
  subst ho2
  have V := translate6_view h hq
  dsimp only at V
  rw [hsa, saddr_eq hm C.usable, Kind.port_port] at V
  exact ⟨a, m, b, o', ha, hm.ok, C, N, rfl, V, hp⟩

/-- **C53.** The IPv4 packet that is sent for an IPv6 packet: it is of the same kind, it comes from the IPv4 transport
address of the BIB entry of the IPv6 packet's source, and it goes to the address that the IPv6 destination contains and
to the same port. The entry is listed afterwards. (Also when pool4 is empty: there the code does not take the source address
from the entry, but they are the same.) -/
theorem translated64 {cfg s c c2 p r P k S D q} (hs : Reach s) (hP : cfg.pool6 = some P) (h : view6 p = some (k, S, D))
    (hr : core6 cfg s c c2 p = .ok r) (hq : r.out = .sent4 q) :
    ∃ b ∈ bibs r.st k.proto, b.src6 = S ∧ ∃ a, rfc6052_6to4 P D.addr = some a ∧
      view4 q = some (k, b.src4, ⟨a, k.port D.port b.src4.port⟩) ∧
      ((∀ fin rst, k ≠ .tcp false fin rst) → StoredOk P s →
        SessKey.mk b ⟨a, k.port D.port b.src4.port⟩ ∈ sessions r.st k.proto) := by
  have g := reach_good hs
  rcases core6_common hr with ⟨_, _, w, h'⟩ | ⟨P', _, hP', hc⟩
  · rw [hq] at h'; cases h'
  · rw [hP] at hP'; cases hP'
    rcases common6_cases g hc with ⟨e, ht, rfl⟩ | ⟨t, f, ht, F, H⟩
    · exact absurd hq ((out_not_sent e).1 q)
    · rw [(view6_tuple h).1] at ht
      injection ht with ht; subst ht
      cases H with
      | stopped e => exact absurd hq ((out_not_sent e).1 q)
      | noMemory => cases hq
      | hairpin known hk o ho q' hq' hh c' h2 f' hf =>
        exfalso
        revert hq
        unfold finish4
        dsimp only
        repeat' split
        · exact (out_not_sent _).2.2.1 q
        · exact (out_not_sent _).2.2.1 q
        · exact (out_not_sent _).2.2.1 q
        · intro hq; have := send_sent4 hq; cases this
      | sent known hk o ho q' hq' hh =>
        have := send_sent4 hq
        injection this with this; subst this
        obtain ⟨a, m, b, se, ha, hm, C, N, rfl, V, _⟩ := pass6 g h F hk ho hq'
        refine ⟨b, C.mem, C.src, a, ha, V, ?_⟩
        intro hk' hqu
        cases se with
        | none => obtain ⟨x, y, h⟩ := N rfl; exact absurd h (hk' x y)
        | some key =>
          obtain ⟨h1, h2, h3⟩ := C.sess key rfl
          have : key = ⟨b, ⟨a, k.port D.port b.src4.port⟩⟩ := by
            obtain ⟨kb, kd⟩ := key
            dsimp only at h1 h3
            subst h1
            congr 1
            rcases h3 with h3 | ⟨hp, n, hn, hd, h3⟩
            · rw [h3]
              unfold Bib.patchDst4
              cases k <;> rfl
            · rw [hp] at hn
              obtain ⟨x, y⟩ := hqu n hn
              obtain ⟨z, z1, z2⟩ := rfc6052_roundtrip P n.dst4.addr ((rfc6052_4to6_correct _ _ _).1 x).1
              rw [x] at z1; cases z1
              rw [hd, ha] at z2
              cases z2
              rw [h3]
              have e1 : ∀ x, k.port D.port x = D.port := by intro x; cases k <;> first | rfl | cases hp
              rw [e1, ← hd, y]
          rw [← this]
          exact (Bib.mem_sessions _).2 h2

/-- The end of the path of a packet from IPv4 which is sent. -/
theorem finish4_sent {cfg P c p t f stop q} (hst : ∀ e q, stop e ≠ Out.sent6 q)
    (h : (finish4 cfg P c p t f stop).out = .sent6 q) :
    ∃ known o, f.res = .ok known ∧ compute4 P f.st t known = .ok o ∧ translate4 cfg P c p o = .ok q := by
  unfold finish4 at h
  cases hk : f.res with
  | error e => rw [hk] at h; exact absurd h (hst e q)
  | ok known =>
    rw [hk] at h
    dsimp only at h
    cases ho : compute4 P f.st t known with
    | error e => rw [ho] at h; exact absurd h (hst e q)
    | ok o =>
      rw [ho] at h
      dsimp only at h
      cases hq : translate4 cfg P c p o with
      | error e => rw [hq] at h; exact absurd h (hst e q)
      | ok q' =>
        rw [hq] at h
        have := send_sent6 h
        injection this with this; subst this
        exact ⟨known, o, rfl, ho, hq⟩

/-- Step 3 and 4 of a packet from IPv4. -/
theorem pass4 {cfg P s c p f k S D known o q} (h : view4 p = some (k, S, D))
    (F : Fu4 cfg P s c p ⟨S, D, k.proto⟩ f) (hk : f.res = .ok known) (ho : compute4 P f.st ⟨S, D, k.proto⟩ known = .ok o)
    (hq : translate4 cfg P c p o = .ok q) :
    ∃ a b, rfc6052_4to6 P S.addr = some a ∧ b ∈ (s.tables k.proto).tree4 ∧
      (f.st.tables k.proto).tree4 = (s.tables k.proto).tree4 ∧ b.src4 = D ∧
      Pool4.contains cfg.own s.pool4 k.proto D = true ∧
      view6 q = some (k, ⟨a, k.port S.port b.src6.port⟩, b.src6) := by
  obtain ⟨a, b, ha, rfl, hb, ht, hd, hp⟩ := fu4_view h F hk
  refine ⟨a, b, ha, hb, ht, hd, hp, ?_⟩
  unfold compute4 at ho
  dsimp only at ho
  rw [ha] at ho
  simp only [Except.ok.injEq] at ho
  subst ho
  have V := translate4_view h hq
  dsimp only at V
  rw [V, Kind.port_if]
  cases k <;> rfl

/-- **C53.** The IPv6 packet that is sent for an IPv4 packet: it is of the same kind, it goes to the IPv6 transport address of
the BIB entry of the IPv4 packet's destination, and it comes from the address that contains the IPv4 source and from
the same port. -/
theorem translated46 {cfg s c p r P k S D q} (hP : cfg.pool6 = some P) (h : view4 p = some (k, S, D))
    (hr : core4 cfg s c p = .ok r) (hq : r.out = .sent6 q) :
    Pool4.contains cfg.own s.pool4 k.proto D = true ∧
    ∃ b ∈ bibs r.st k.proto, b.src4 = D ∧ b ∈ bibs s k.proto ∧ ∃ a, rfc6052_4to6 P S.addr = some a ∧
      view6 q = some (k, ⟨a, k.port S.port b.src6.port⟩, b.src6) := by
  rcases core4_common hr with ⟨_, _, w, h'⟩ | ⟨P', _, hP', hc⟩
  · rw [hq] at h'; cases h'
  · rw [hP] at hP'; cases hP'
    rcases common4_fu hc with ⟨e, ht, rfl⟩ | ⟨t, f, ht, F, rfl⟩
    · exact absurd hq ((out_not_sent e).2.1 q)
    · rw [(view4_tuple h).1] at ht
      injection ht with ht; subst ht
      obtain ⟨known, o, hk, ho, hq'⟩ := finish4_sent (fun e q => (out_not_sent e).2.1 q) hq
      obtain ⟨a, b, ha, hb, htr, hd, hp, V⟩ := pass4 h F hk ho hq'
      refine ⟨hp, b, ?_, hd, hb, a, ha, V⟩
      rw [(finish4_st ..).1]
      unfold bibs BibSpec.bibs
      rw [htr]; exact hb

/-! ### Replies -/

theorem legal_4to6 {P : Prefix6} (h : Rfc6052Spec.legal P.len) (a : Addr4) : ∃ x, rfc6052_4to6 P a = some x := by
  obtain ⟨x, hx, _⟩ := rfc6052_roundtrip P a h
  exact ⟨x, hx⟩

theorem translate4_smooth {cfg P c p k S D o} (h : view4 p = some (k, S, D)) (hc : c.fail = none) :
    ∃ q, translate4 cfg P c p o = .ok q := by
  have hs : saddr6 cfg P p o = some o.src.addr := by simp [saddr6, (view4_tuple h).2.1]
  obtain ⟨src, dst, l4⟩ := p
  unfold translate4
  rw [hc, hs]
  unfold view4 at h
  cases l4 with
  | udp s d => exact ⟨_, rfl⟩
  | tcp s d a b c => exact ⟨_, rfl⟩
  | icmp t c id i =>
    dsimp only at h ⊢
    split at h
    · rename_i ht; subst ht; exact ⟨_, rfl⟩
    · split at h
      · rename_i ht; subst ht; exact ⟨_, rfl⟩
      · cases h
  | other => cases h

/-- **C53.** The packets of a session. An IPv4 packet of a session which is listed, and whose pool4 address is still in
pool4, is translated into an IPv6 packet from the remote node to the session's IPv6 node, and the entries stay. (The exception:
the session was created by an IPv4 SYN that is still waiting for its IPv6 SYN.) -/
theorem reply64 {cfg s c p P k S b} (hs : Reach s) (hA : Active cfg P) (hl : Rfc6052Spec.legal P.len)
    (h : view4 p = some (k, S, b.src4)) (hc : Smooth c)
    (hp : Pool4.contains cfg.own s.pool4 k.proto b.src4 = true)
    (hk : SessKey.mk b S ∈ sessions s k.proto)
    (ha : k.proto = .TCP → Answerable ((s.tables k.proto).info ⟨b, S⟩)) :
    ∃ r q a, core4 cfg s c p = .ok r ∧ r.out = .sent6 q ∧ rfc6052_4to6 P S.addr = some a ∧
      view6 q = some (k, ⟨a, k.port S.port b.src6.port⟩, b.src6) ∧
      bibs r.st k.proto = bibs s k.proto ∧ (∀ x, x ∈ sessions r.st k.proto ↔ x ∈ sessions s k.proto) := by
  have g := reach_good hs
  obtain ⟨hc1, hc2, hc3⟩ := hc
  obtain ⟨a, hA6⟩ := legal_4to6 hl S.addr
  have hlive := (Bib.mem_sessions _).1 hk
  -- the table operation
  have T : ∃ r, Bib.step k.proto (s.tables k.proto) c.env (op4 p ⟨S, b.src4, k.proto⟩ ⟨a, S.port⟩ c.skb) = .ok r ∧
      r.2.2 = .cont b (some ⟨b, S⟩) ∧ r.1.tree4 = (s.tables k.proto).tree4 ∧
      ∀ k', Live r.1 k' ↔ Live (s.tables k.proto) k' := by
    rw [op4_view h]
    cases k with
    | tcp x y z => exact Bib.tcp4_known (g.wf _) hc3 rfl hlive (ha rfl) _ _
    | udp => exact Bib.add4_known (g.wf _) hc3 hlive _
    | request => exact Bib.add4_known (g.wf _) hc3 hlive _
    | reply => exact Bib.add4_known (g.wf _) hc3 hlive _
  obtain ⟨r, hr, hcont, htree, hlv⟩ := T
  obtain ⟨ht, he, _, _⟩ := view4_tuple h
  have hco : core4 cfg s c p = .ok (finish4 cfg P c p ⟨S, b.src4, k.proto⟩
      { st := s.set k.proto r.1, ev := r.2.1, res := result4 r.2.2 } Stop.out) := by
    unfold core4
    rw [hA.1, hA.2]
    simp only [Bool.not_true, Bool.false_eq_true, if_false]
    unfold common4
    rw [ht]
    dsimp only
    unfold fu4 update4
    simp only [hp, he, Bool.not_true, Bool.false_eq_true, if_false, hA6, hr]
    rfl
  have hf : ∃ q, (finish4 cfg P c p ⟨S, b.src4, k.proto⟩
      { st := s.set k.proto r.1, ev := r.2.1, res := result4 r.2.2 } Stop.out).out = .sent6 q := by
    unfold finish4
    rw [hcont]
    dsimp only [result4]
    unfold compute4
    dsimp only
    rw [hA6]
    dsimp only
    obtain ⟨q, hq⟩ := translate4_smooth (cfg := cfg) (P := P)
      (o := ⟨⟨a, if k.proto = .ICMP then b.src6.port else S.port⟩, b.src6, k.proto⟩) h hc1
    rw [hq]
    exact ⟨q, by simp [send, hc2]⟩
  obtain ⟨q, hq⟩ := hf
  have X := translated46 hA.2 h hco hq
  obtain ⟨_, b', _, hb1, hb2, a', ha', V⟩ := X
  have : b' = b := (g.wf _).uniq4 hb2 hlive.1 hb1
  subst this
  refine ⟨_, q, a', hco, hq, ha', V, ?_, ?_⟩
  · rw [(finish4_st ..).1]
    unfold bibs BibSpec.bibs
    rw [St.set_same]; exact htree
  · intro x
    rw [(finish4_st ..).1]
    unfold sessions
    rw [St.set_same, Bib.mem_sessions, Bib.mem_sessions]
    exact hlv x

theorem view6_port {p : Pkt Addr6} {k S D} (h : view6 p = some (k, S, D)) : k.proto ≠ .ICMP ∨ S.port = D.port := by
  obtain ⟨src, dst, l4⟩ := p
  unfold view6 at h
  cases l4 with
  | udp s d => simp only [Option.some.injEq, Prod.mk.injEq] at h; obtain ⟨rfl, rfl, rfl⟩ := h; left; decide
  | tcp s d a b c => simp only [Option.some.injEq, Prod.mk.injEq] at h; obtain ⟨rfl, rfl, rfl⟩ := h; left; intro h; cases h
  | icmp t c id i =>
    dsimp only at h
    repeat' split at h
    all_goals first | (cases h; done) | (cases h; right; rfl)
  | other => cases h

/-- **C53** (round trip). Let `q` be the IPv4 packet that was sent for the IPv6 packet `p` (from `S` to `D`). At any later
time at which the session is still listed, a packet that goes the way of `q` backwards is translated into a packet that goes
the way of `p` backwards, provided that `D` is an address that the translator would write itself (the suffix of
RFC 6052 section 2.2 is zero). In general the source is the address `x` with the same IPv4 address inside. -/
theorem roundtrip64 {cfg s c c2 p r P k S D q} (hs : Reach s) (hP : cfg.pool6 = some P) (h : view6 p = some (k, S, D))
    (hr : core6 cfg s c c2 p = .ok r) (hq : r.out = .sent4 q) :
    ∃ b d, view4 q = some (k, b.src4, d) ∧ b.src6 = S ∧ ∃ x : Addr6, (x = D.addr ↔ Rfc6052Spec.Canonical P.len D.addr) ∧
      rfc6052_6to4 P x = rfc6052_6to4 P D.addr ∧
      ∀ cfg' s' c' q' k', Reach s' → Active cfg' P → Smooth c' → view4 q' = some (k', d, b.src4) →
        k'.proto = k.proto → SessKey.mk b d ∈ sessions s' k.proto →
        Pool4.contains cfg'.own s'.pool4 k.proto b.src4 = true →
        (k.proto = .TCP → Answerable ((s'.tables .TCP).info ⟨b, d⟩)) →
        ∃ r' p', core4 cfg' s' c' q' = .ok r' ∧ r'.out = .sent6 p' ∧ view6 p' = some (k', ⟨x, D.port⟩, S) := by
  obtain ⟨b, hb, hbs, a, ha, V, _⟩ := translated64 hs hP h hr hq
  have hl := ((rfc6052_6to4_correct _ _ _).1 ha).1
  obtain ⟨x, hx, hx'⟩ := rfc6052_roundtrip P a hl
  refine ⟨b, _, V, hbs, x, ?_, by rw [hx', ha], ?_⟩
  · rw [← rfc6052_extract_embed P D.addr a ha, hx]
    simp only [Option.some.injEq]
  · intro cfg' s' c' q' k' hs' hA hc h' hk hse hp hans
    rw [← hk] at hse hp
    obtain ⟨r', p', a', h1, h2, h3, h4, _⟩ := reply64 hs' hA hl h' hc hp hse (fun ht => by
      rw [ht]; exact hans (hk ▸ ht))
    rw [hx] at h3; cases h3
    refine ⟨r', p', h1, h2, ?_⟩
    rw [h4, hbs]
    have hport : k'.port (k.port D.port b.src4.port) S.port = D.port := by
      rcases view6_port h with hne | he
      · cases k <;> cases k' <;> first | rfl | exact absurd rfl hne | cases hk
      · rw [he]; cases k <;> cases k' <;> first | rfl | cases hk
    rw [hport]

end Nat64
end Jool
