import Verif.Lemmas.LifeRun
/-
C75: who owns what while a packet goes through the translator (`Verif.Model.Life`).

The vocabulary: the `Heap` has the packets, the references to routes, the translations and the references to the instance that exist;
its `log` is what can be seen from outside. Nothing else of the model appears in the statements, apart from the parameters: `Fine` says
that the two known leaks do not happen, `Plain` that there is no ICMP extension to be moved, `Trap` is C27's use after free.
-/
namespace Jool.LifeSpec
open Jool.Life
open Jool.BibSpec (storedPkts)

/-- The packet exists. -/
def Alive (h : Heap) (i : Nat) : Prop := h.skb i ≠ none

/-- `h` is reached after some history. -/
def Reached (h : Heap) : Prop := ∃ ops, (∀ o ∈ ops, o.Ok) ∧ run ops Heap.init = .ok ((), h)

/-- `evs` is what became of packet `i` between `h` and `k`: which packets were sent, and with which ICMP errors it was answered. The last
event is first. -/
def Became (i : Nat) (h k : Heap) (evs : List Ev) : Prop := k.log.filter (about i) = evs ++ h.log.filter (about i)

/-- What every packet that is handed to the kernel fulfills: it has a route, it is alone. -/
def Sendable (c : Skb) : Prop := c.dst.isSome = true ∧ c.next = none

/-- It stands for packet `c` of protocol `l3`: it has its mark; and IPv4 became IPv6. (IPv6 became IPv4, or IPv6 if it turned around.) -/
def StandsFor (l3 : Life.L3) (c out : Skb) : Prop := out.mark = c.mark ∧ (l3 = .v4 → out.l3 = some .v6) ∧ out.l3 ≠ none

/-- The same packet, except for `skb->transport_header`. -/
def SamePacket (c c' : Skb) : Prop :=
  c'.l3 = c.l3 ∧ c'.mark = c.mark ∧ c'.next = c.next ∧ c'.dst = c.dst ∧ c'.nullPage = c.nullPage ∧ c'.len = c.len ∧ c'.data = c.data ∧
  c'.nh = c.nh

/-- RFC 792, 1812 and 4443: destination unreachable, time exceeded, parameter problem, packet too big. -/
def ErrorType : Life.L3 → Nat → Prop
  | .v4, t => t = 3 ∨ t = 11 ∨ t = 12
  | .v6, t => t = 1 ∨ t = 2 ∨ t = 3 ∨ t = 4

/-- Nothing speaks against the packet: there is an instance, it agrees at every step, there is memory and a route, the packet needs not be
fragmented nor turn around, and the kernel sends what it gets. -/
structure Smooth (l3 : Life.L3) (ch : HookCh) : Prop where
  mem : ch.oom = false
  inst : ch.found = true
  valid : ch.valid = none
  init : ch.init = none
  tuple : ch.one.tuple = none
  fu : ch.one.fu.pre = none ∧ ch.one.fu.early = none ∧ ch.one.fu.op = none ∧ ch.one.fu.post = none
  compute : ch.one.compute = none
  pool4 : ch.one.pool4 = false
  six : l3 = .v6 → ch.one.xlat.six.flow.flow = none ∧ ch.one.xlat.six.flow.inner = none ∧ ch.one.xlat.six.flow.eam = false ∧
    ch.one.xlat.six.flow.saddr = none ∧ (∃ d, ch.one.xlat.six.flow.route = some ⟨d, false, true⟩) ∧
    ch.one.xlat.six.size = none ∧ ch.one.xlat.six.copy = true ∧ ch.one.xlat.six.l3 = none ∧
    ch.one.xlat.six.l4 = some ⟨none, none, none, none⟩
  four : l3 = .v4 → ch.one.xlat.four.flow = none ∧ ch.one.xlat.four.inner = none ∧ ch.one.xlat.four.saddr = none ∧
    (∃ d, ch.one.xlat.four.route = some ⟨d, false, true⟩) ∧ ch.one.xlat.four.mtu = none ∧ ch.one.xlat.four.mode = .fast ∧
    ch.one.xlat.four.copy = true ∧ ch.one.xlat.four.l3 = none ∧ ch.one.xlat.four.l4 = some ⟨none, none, none, none⟩
  sends : ∀ x, ch.one.fails x = false

end Jool.LifeSpec

namespace Jool.Life
open Jool.LifeSpec Jool.BibSpec

theorem ok_of_wp {α : Type} {E : UB → Prop} {m : M α} {Q : α → Heap → Prop} {h k : Heap} {x : α} (w : wp E m Q h)
    (e : m h = .ok (x, k)) : Q x k := by
  unfold wp at w
  rw [e] at w
  exact w

theorem ub_of_wp {α : Type} {E : UB → Prop} {m : M α} {Q : α → Heap → Prop} {h : Heap} {u : UB} (w : wp E m Q h) (e : m h = .ub u) :
    E u := by
  unfold wp at w
  rw [e] at w
  exact w

theorem _root_.Jool.LifeSpec.Reached.inv {h : Heap} (r : Reached h) : ∃ own, Inv h own [] := by
  obtain ⟨ops, hok, hr⟩ := r
  obtain ⟨-, -, -, lk, v, -⟩ := ok_of_wp (run_spec ops hok Inv.init) hr
  exact ⟨_, v⟩

/-! ## Nothing is used after it was freed -/

/-- Whatever happens, in whatever order: no packet, route, translation or instance is used or released that does not exist, no list has a
cycle, and no null pointer is followed; except for what C27 says of the TCP table. -/
theorem ub_only_trap (ops : List Op) (hok : ∀ o ∈ ops, o.Ok) (u : UB) (e : run ops Heap.init = .ub u) : Trap u :=
  ub_of_wp (run_spec ops hok Inv.init) e

/-- Translations and references to the instance are always given back. Whatever dst_output() got has a route, and is alone. -/
theorem always_given_back (ops : List Op) (hok : ∀ o ∈ ops, o.Ok) (h : Heap) (e : run ops Heap.init = .ok ((), h)) :
    h.xlations = 0 ∧ h.insts = 0 ∧ ∀ x c f, Ev.sent x c f ∈ h.log → Sendable c := by
  obtain ⟨a, b, l, -⟩ := ok_of_wp (run_spec ops hok Inv.init) e
  refine ⟨a, b, fun x c f hm => ?_⟩
  rcases l x c f hm with h | h
  · cases h
  · exact ⟨h.2, h.1⟩

/-- After any history without the two known leaks: the packets that exist are the ones that the TCP table keeps, each of them
once, and no reference to a route is held. -/
theorem nothing_leaks_partial (ops : List Op) (hok : ∀ o ∈ ops, o.Ok) (hf : ∀ o ∈ ops, o.Fine) (h : Heap)
    (e : run ops Heap.init = .ok ((), h)) :
    (∀ i, Alive h i ↔ i ∈ storedPkts h.table) ∧ (storedPkts h.table).Nodup ∧ ∀ d, h.dst d = 0 := by
  obtain ⟨-, -, -, lk, v, f⟩ := ok_of_wp (run_spec ops hok Inv.init) e
  rw [f hf] at v
  refine ⟨fun i => ⟨fun ha => ?_, fun hm => ?_⟩, by simpa [ids] using v.nd, fun d => by simpa [routes] using v.dst d⟩
  · by_contra hn
    exact ha (v.dead i (by simp [ids]) hn)
  · obtain ⟨c, hc, -⟩ := v.st i hm
    show h.skb i ≠ none
    rw [hc]
    simp

/-! ## What the hook does with its packet -/

/-- A packet is given to the hook in a state that was reached. -/
structure Given (l3 : L3) (c : Skb) (i : Nat) (h : Heap) : Prop where
  ex : ∃ h0, Reached h0 ∧ alloc c h0 = .ok (i, h)
  l3 : c.l3 = some l3
  next : c.next = none
  dst : c.dst = none

theorem Given.hooked {l3 c i h} (g : Given l3 c i h) (kd : Kind) (ch : HookCh) (hok : ch.Ok) {nf : Nf} {k : Heap}
    (e : hook kd l3 i ch h = .ok (nf, k)) :
    ∃ own w, Inv h ((i, c) :: own) [] ∧ nf = nfOf kd w ∧ Hooked i c h own [] l3 ch.Plain ch.Fine (ch.can = true) w k := by
  obtain ⟨h0, hr, ha⟩ := g.ex
  obtain ⟨own, v⟩ := hr.inv
  obtain ⟨-, v1, -⟩ := ok_of_wp (alloc_spec (E := Trap) 0 v c g.dst) ha
  obtain ⟨w, e1, e2⟩ := ok_of_wp (hook_spec kd l3 g.dst v1 ch hok) e
  exact ⟨own, w, v1, e1, e2⟩

theorem Given.ub {l3 c i h} (g : Given l3 c i h) (kd : Kind) (ch : HookCh) (hok : ch.Ok) {u : UB} (e : hook kd l3 i ch h = .ub u) :
    Trap u := by
  obtain ⟨h0, hr, ha⟩ := g.ex
  obtain ⟨own, v⟩ := hr.inv
  obtain ⟨-, v1, -⟩ := ok_of_wp (alloc_spec (E := Trap) 0 v c g.dst) ha
  exact ub_of_wp (hook_spec kd l3 g.dst v1 ch hok) e

theorem nfOf_stolen {kd : Kind} {w : Verd} (hw : nfOf kd w = .stolen) : w = .stolen := by
  cases w <;> cases kd <;> first | rfl | cases hw

theorem standsFor {l3 : L3} {c out : Skb} (g : out.mark = c.mark ∧ out.l3.isSome = true ∧ (l3 = .v4 → out.l3 = some .v6)) :
    StandsFor l3 c out :=
  ⟨g.1, g.2.2, fun hn => by rw [hn] at g; cases g.2.1⟩

/-- The verdict "stolen": either the packet is kept by the TCP table, and nothing was sent; or its translation was sent, as a whole and
without any error, and the packet was freed. It was not answered with an ICMP error either way. -/
theorem stolen_means {l3 c i h} (g : Given l3 c i h) (kd : Kind) (ch : HookCh) (hok : ch.Ok) (k : Heap)
    (e : hook kd l3 i ch h = .ok (.stolen, k)) :
    ∃ evs, Became i h k evs ∧
      ((Alive k i ∧ i ∈ storedPkts k.table ∧ evs = []) ∨
       (¬ Alive k i ∧ i ∉ storedPkts k.table ∧ evs ≠ [] ∧
        ∀ ev ∈ evs, ∃ x out, ev = .sent x out false ∧ Sendable out ∧ (ch.Plain → StandsFor l3 c out))) := by
  obtain ⟨own, w, v, hw, q⟩ := g.hooked kd ch hok e
  have hw := nfOf_stolen hw.symm
  obtain ⟨lk, evs, v2, -, hl, hx⟩ := q.st hw
  refine ⟨evs, hl, ?_⟩
  rcases hx with ⟨hs, he⟩ | ⟨hi, hs, he, hx⟩
  · obtain ⟨c', hc, -⟩ := v2.st i hs
    exact .inl ⟨by show k.skb i ≠ none; rw [hc]; simp, hs, he⟩
  · refine .inr ⟨fun ha => ?_, hs, he, fun ev hm => ?_⟩
    · exact ha (v2.dead i hi hs)
    · obtain ⟨x, out, rfl, g1, g2, g3⟩ := hx ev hm
      exact ⟨x, out, rfl, ⟨g2, g1⟩, fun hp => standsFor (g3 hp)⟩

/-- The verdict "accept" (Netfilter) or "continue" (iptables): the packet is as it was, nothing was sent, and it was not answered. -/
theorem declined_means {l3 c i h} (g : Given l3 c i h) (kd : Kind) (ch : HookCh) (hok : ch.Ok) (nf : Nf) (k : Heap)
    (hn : nf = .accept ∨ nf = .xtContinue) (e : hook kd l3 i ch h = .ok (nf, k)) :
    (nf = .accept ↔ kd = .netfilter) ∧ Became i h k [] ∧ i ∉ storedPkts k.table ∧ ∃ c', k.skb i = some c' ∧ SamePacket c c' := by
  obtain ⟨own, w, v, rfl, q⟩ := g.hooked kd ch hok e
  have nd : w = .untr := by
    have := q.nc
    cases w <;> cases kd <;> simp_all [nfOf]
  subst nd
  obtain ⟨c', lk, evs, v2, -, -, hl, hx, -⟩ := q.go (by simp)
  obtain ⟨⟨th, rfl⟩, rfl⟩ := hx (by simp)
  refine ⟨by cases kd <;> simp [nfOf], hl, v2.notStored (by simp), _, v2.cell _ (List.mem_cons_self ..), rfl, rfl, rfl, rfl, rfl, rfl, rfl, rfl⟩

theorem errorType {l3 : L3} {e : Nat64.IcmpErr} {t cd : Nat} (h : icmpOf l3 e = some (t, cd)) : ErrorType l3 t := by
  cases l3 <;> cases e <;> simp only [icmpOf, icmp4, icmp6, Option.some.injEq, Prod.mk.injEq, reduceCtorEq] at h <;>
    obtain ⟨rfl, rfl⟩ := h <;> simp [ErrorType]

/-- The verdict "drop": the packet is still there for the kernel to free, and the TCP table does not keep it. It was answered
with at most one ICMP error, of the protocol that it has. If some of its translation had been sent, then there was no ICMP error, and dst_output() failed. -/
theorem dropped_means {l3 c i h} (g : Given l3 c i h) (kd : Kind) (ch : HookCh) (hok : ch.Ok) (k : Heap)
    (e : hook kd l3 i ch h = .ok (.drop, k)) :
    Alive k i ∧ i ∉ storedPkts k.table ∧ ∃ evs, Became i h k evs ∧
      (evs = [] ∨ (∃ t cd, evs = [.icmp i t cd] ∧ ErrorType l3 t) ∨
       ((∃ x out, Ev.sent x out true ∈ evs) ∧
        ∀ ev ∈ evs, ∃ x out f, ev = .sent x out f ∧ Sendable out ∧ (ch.Plain → StandsFor l3 c out))) := by
  obtain ⟨own, w, v, hw, q⟩ := g.hooked kd ch hok e
  have nd : w ≠ .stolen := fun h => by subst h; cases kd <;> cases hw
  obtain ⟨c', lk, evs, v2, -, -, hl, -, hx⟩ := q.go nd
  refine ⟨by show k.skb i ≠ none; rw [v2.cell _ (List.mem_cons_self ..)]; simp, v2.notStored (by simp), evs, hl, ?_⟩
  rcases hx with hx | ⟨-, er, t, cd, h1, h2⟩ | ⟨h1, h2⟩
  · exact .inl hx
  · exact .inr (.inl ⟨t, cd, h2, errorType h1⟩)
  · refine .inr (.inr ⟨h2, fun ev hm => ?_⟩)
    obtain ⟨x, out, f, rfl, g1, g2, g3⟩ := h1 ev hm
    exact ⟨x, out, f, rfl, ⟨g2, g1⟩, fun hp => standsFor (g3 hp)⟩

/-! ## A packet against which nothing speaks is translated -/

theorem pure_ok {α : Type} (a : α) (h : Heap) : (pure a : M α) h = .ok (a, h) := rfl
theorem bind_eq {α β : Type} (m : M α) (f : α → M β) (h : Heap) : (m >>= f) h = (m h).bind (fun r => f r.1 r.2) := rfl
theorem bind_ok {α β : Type} (f : α → Outcome β) (a : α) : (Outcome.ok a).bind f = f a := rfl
theorem dstRelease_some (d : Nat) (h : Heap) : dstRelease (some d) h =
    if h.dst d = 0 then .ub .useAfterFree else .ok ((), { h with dst := upd h.dst d (h.dst d - 1) }) := rfl
theorem dstRelease_none (h : Heap) : dstRelease none h = .ok ((), h) := rfl

theorem smooth_is_translated {l3 c i h} (g : Given l3 c i h) (kd : Kind) (ch : HookCh) (s : Smooth l3 ch) :
    ∃ x out k, hook kd l3 i ch h = .ok (.stolen, k) ∧ k.log = .sent x out false :: h.log := by
  have hi : h.skb i = some c ∧ i < h.top := by
    obtain ⟨h0, hr, ha⟩ := g.ex
    obtain ⟨own, v⟩ := hr.inv
    obtain ⟨-, v1, -⟩ := ok_of_wp (alloc_spec (E := Trap) 0 v c g.dst) ha
    exact ⟨v1.cell _ (List.mem_cons_self ..), v1.lt (by simp [ids])⟩
  obtain ⟨hi, ht⟩ := hi
  have hne : i ≠ h.top := by omega
  have hd := g.dst
  obtain ⟨s1, s2, s3, s4, s5, ⟨s6, s7, s8, s9⟩, s10, s11, s12, s13, s14⟩ := s
  cases l3 with
  | v6 =>
    obtain ⟨a1, a2, a3, a4, ⟨d, a5⟩, a6, a7, a8, a9⟩ := s12 rfl
    cases hn : ch.nat64 <;>
    simp [hook, create, find, core, coreBody, sub, pktInit, common, steps, fuCompute, fu, early, translateIf, translate, alloc64,
      predictRoute64, flow64, computeFlow64, predictRoute64', route4, afterAlloc, xlatL4, xlatInner, xlatIe, deliver, isHairpin, send,
      sendGo, send1, kfreeListGo, kfreeList, sendError, put, destroy, nfOf, bind_eq, pure_ok, bind_ok, Life.get, Life.set, St.zero,
      dstHold, dstRelease_some, dstRelease_none, load, store, alloc, take, kfree, skbOf, skbDstSet, emit, newSkb, upd, hi, hd, hne, hn,
      s1, s2, s3, s4, s5, s6, s7, s8, s9, s10, s11, s14, a1, a2, a3, a4, a5, a6, a7, a8, a9]
  | v4 =>
    obtain ⟨a1, a2, a3, ⟨d, a4⟩, a5, a6, a7, a8, a9⟩ := s13 rfl
    cases hn : ch.nat64 <;>
    simp [hook, create, find, core, coreBody, sub, pktInit, common, steps, fuCompute, fu, early, translateIf, translate, alloc46,
      computeFlow46, predictRoute46, route6, allocate46, allocFast, autofill, autofillGo, Ch46.isError, afterAlloc, xlatL4, xlatInner, xlatIe,
      deliver, isHairpin, send,
      sendGo, send1, kfreeListGo, kfreeList, sendError, put, destroy, nfOf, bind_eq, pure_ok, bind_ok, Life.get, Life.set, St.zero,
      dstHold, dstRelease_some, dstRelease_none, load, store, alloc, take, kfree, skbOf, skbDstSet, emit, newSkb, upd, hi, hd, hne, hn,
      s1, s2, s3, s4, s5, s6, s7, s8, s9, s10, s11, s14, a1, a2, a3, a4, a5, a6, a7, a8, a9]

/-! ## Examples -/

/-- The packets that exist, the references to route 7, and the events in order. -/
def view (o : Outcome (Unit × Heap)) : Option (List Nat × Nat × List Ev) :=
  match o with
  | .ok (_, h) => some ((List.range h.top).filter (fun i => (h.skb i).isSome), h.dst 7, h.log.reverse)
  | .ub _ => none

def exFlow : FlowCh := ⟨none, none, false, some ⟨7, false, true⟩, none⟩
def exSix : Ch64 := ⟨exFlow, none, true, false, 100, 20, none, some ⟨none, none, none, none⟩⟩
def exFour : Ch46 := ⟨none, none, some ⟨7, false, true⟩, none, none, .fast, true, false, 100, 40, none, some ⟨none, none, none, none⟩⟩
def exRel : RelCh := ⟨true, false, some ⟨7, false, true⟩, false⟩
def exFu : FuCh := ⟨none, none, none, fun _ => exRel, none⟩
def exPass : PassCh := ⟨none, exFu, none, ⟨exSix, exFour⟩, false, fun _ => false⟩
def exHook : HookCh := ⟨true, false, true, none, none, 20, 28, exPass, false, exPass, true⟩
/-- A packet of mark 5. -/
def exIn : Skb := { l3 := none, mark := 5, next := none, dst := none, nullPage := false, len := 120, data := 0, nh := 0, th := 0 }
/-- Its translations. -/
def exOut4 : Skb := { newSkb (some .v4) 5 false 100 20 with dst := some 7 }
def exOut6 : Skb := { newSkb (some .v6) 5 false 100 40 with dst := some 7 }

example : Smooth .v4 exHook ∧ Smooth .v6 exHook :=
  ⟨⟨rfl, rfl, rfl, rfl, rfl, ⟨rfl, rfl, rfl, rfl⟩, rfl, rfl, nofun, fun _ => ⟨rfl, rfl, rfl, ⟨7, rfl⟩, rfl, rfl, rfl, rfl, rfl⟩, fun _ => rfl⟩,
   ⟨rfl, rfl, rfl, rfl, rfl, ⟨rfl, rfl, rfl, rfl⟩, rfl, rfl, fun _ => ⟨rfl, rfl, rfl, rfl, ⟨7, rfl⟩, rfl, rfl, rfl, rfl⟩, nofun, fun _ => rfl⟩⟩
/-- The hypotheses of the theorems are met by a first packet. -/
def exIn4 : Skb := { exIn with l3 := some .v4 }
example : ∃ h, Given .v4 exIn4 0 h := ⟨_, ⟨Heap.init, ⟨[], by simp, rfl⟩, rfl⟩, rfl, rfl, rfl⟩
example : exHook.Ok := ⟨fun x hx => (Option.some_ne_none x hx.symm).elim, fun x hx => (Option.some_ne_none x hx.symm).elim⟩
example : exHook.Fine :=
  have a : FineL4 (some ⟨none, none, none, none⟩) := fun l hl => by cases hl; exact nofun
  ⟨⟨rfl, a, rfl, a⟩, rfl, a, rfl, a⟩
example : exHook.Plain :=
  have a : PlainL4 (some ⟨none, none, none, none⟩) := fun l hl => by cases hl; rfl
  ⟨⟨a, a⟩, a, a⟩

/-- One packet in each direction; the second one becomes three fragments, the second of which cannot be sent: the third one is not sent,
and the packet is dropped without an answer. -/
def exSlow : HookCh :=
  { exHook with one := { exPass with xlat := ⟨exSix, { exFour with mode := .slow .ok [.ok, .ok] }⟩, fails := fun i => i == 4 } }
example : view (run [.packet .netfilter .v6 exIn exHook, .packet .netfilter .v4 exIn exSlow] Heap.init) =
    some ([], 0, [.sent 1 exOut4 false, .sent 3 exOut6 false, .sent 4 exOut6 true,
      .back 2 { exIn with l3 := some .v4, th := 20 } .drop]) := by decide +kernel

/-- The packets that are allocated for the second packet are freed if one of them fails. -/
example : view (run [.packet .iptables .v4 exIn
    { exHook with one := { exPass with xlat := ⟨exSix, { exFour with mode := .slow .ok [.ok, .copyFails, .ok] }⟩ } }] Heap.init) =
    some ([], 0, [.back 0 { exIn with l3 := some .v4, th := 20 } .drop]) := by decide +kernel

/-- No route: the kernel gets the packet back. -/
example : view (run [.packet .iptables .v4 exIn { exHook with one := { exPass with xlat := ⟨exSix, { exFour with route := none }⟩ } }]
    Heap.init) = some ([], 0, [.back 0 { exIn with l3 := some .v4, th := 20 } .xtContinue]) := by decide +kernel

/-- A hop limit of 1 is answered. -/
example : view (run [.packet .netfilter .v6 exIn { exHook with one := { exPass with xlat := ⟨{ exSix with l3 := some (true, some .TTL) }, exFour⟩ } }]
    Heap.init) = some ([], 0, [.icmp 0 3 0, .back 0 { exIn with l3 := some .v6, th := 20 } .drop]) := by decide +kernel

/-- Hairpinning: what is sent is IPv6 again. -/
example : view (run [.packet .netfilter .v6 exIn { exHook with one := { exPass with pool4 := true } }] Heap.init) =
    some ([], 0, [.sent 2 exOut6 false]) := by decide +kernel

/-- A SYN from IPv4 is kept by the table, and nothing is sent. -/
def exSyn : HookCh :=
  { exHook with one := { exPass with fu := { exFu with
      op := some (Bib.exEnv, .tcp4 Bib.exSyn4 Bib.exB.src4 ⟨1#32, 80#16⟩ ⟨1#128, 80#16⟩ 0) } } }
example : view (run [.packet .netfilter .v4 exIn exSyn] Heap.init) = some ([0], 0, []) := by decide +kernel

/-! ## Where it fails -/

/-- An ICMP error with an extension. -/
def exExt (ie : IeCh) : HookCh :=
  { exHook with nat64 := false, one := { exPass with xlat := ⟨{ exSix with l4 := some ⟨none, some ⟨40, 8, 20, none⟩, some ie, none⟩ }, exFour⟩ } }

/-- The first leak: if the extension cannot be copied, then the packet that was allocated for that purpose stays. -/
theorem extension_leaks : view (run [.packet .netfilter .v6 exIn (exExt .copyFails)] Heap.init) =
    some ([2], 0, [.back 0 { exIn with l3 := some .v6, th := 20 } .drop]) := by decide +kernel

/-- The second leak: if the copy of the packet lacks a page (the kernel's bug behind Jool's #352) and the translation fails, then the copy
stays; and with it the reference to its route. -/
theorem null_page_leaks : view (run [.packet .netfilter .v6 exIn
    { exHook with one := { exPass with xlat := ⟨{ exSix with nullPage := true, l3 := some (true, none) }, exFour⟩ } }] Heap.init) =
    some ([1], 1, [.back 0 { exIn with l3 := some .v6, th := 20 } .drop]) := by decide +kernel

/-- An ICMP error whose extension was moved is sent without the mark, and without its protocol. -/
theorem extension_loses_mark : view (run [.packet .netfilter .v6 exIn (exExt (.ok 90))] Heap.init) =
    some ([], 0, [.sent 2 { newSkb none 0 false 90 20 with dst := some 7 } false]) := by decide +kernel

/-- The error of the second pass of a packet that turns around is not sent: its hop limit is exhausted there, say. -/
theorem hairpin_error_lost : view (run [.packet .netfilter .v6 exIn { exHook with
      one := { exPass with pool4 := true },
      two := { exPass with xlat := ⟨exSix, { exFour with l3 := some (true, some .TTL) }⟩ } }] Heap.init) =
    some ([], 0, [.back 0 { exIn with l3 := some .v6, th := 20 } .drop]) := by decide +kernel

/-- A packet can be declined after a header pointer of it was moved; that is all. -/
example : (match run [.packet .netfilter .v6 exIn { exHook with valid := some (false, none) }] Heap.init with
    | .ok (_, h) => h.log | .ub _ => []) = [.back 0 { exIn with l3 := some .v6 } .accept] := by decide +kernel

end Jool.Life
