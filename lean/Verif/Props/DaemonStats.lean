import Verif.Model.DaemonStats
import Verif.Lemmas.Text
import Verif.Props.Listing
/-
C96: the statistics of the joold daemon.
-/
namespace Jool.DStats
open Jool.Text (Text dec Digits value value_dec dec_digits dec_len)
open Jool.CsvSpec (File Record Plain)
open Jool.Listing (line line_record)

/-! ### What the numbers should be -/

/-- The messages that came from the kernel: their sizes, and how much of each was sent to the network. -/
def kernelMsgs : List Ev → List (Nat × Option Nat)
  | [] => []
  | .kernel n sent :: t => (n, sent) :: kernelMsgs t
  | _ :: t => kernelMsgs t

/-- The sizes of the datagrams that came from the network. -/
def netMsgs : List Ev → List Nat
  | [] => []
  | .datagram n :: t => n :: netMsgs t
  | _ :: t => netMsgs t

/-- How much a message from the kernel adds to a number. -/
def ofKernel : Ctr → Nat × Option Nat → Nat
  | .modPkts, _ => 1
  | .modBytes, (n, _) => n
  | .sentPkts, (_, some _) => 1
  | .sentBytes, (_, some m) => m
  | _, _ => 0

def ofNet : Ctr → Nat → Nat
  | .rcvdPkts, _ => 1
  | .rcvdBytes, n => n
  | _, _ => 0

def total {α : Type} (f : α → Nat) (l : List α) : Nat := (l.map f).sum

/-- Everything that has come. -/
def began (k : Ctr) (t : List Ev) : Nat := total (ofKernel k) (kernelMsgs t) + total (ofNet k) (netMsgs t)

/-- Everything that has come, except for the last message from the kernel and the last datagram: these may still be in work. -/
def ended (k : Ctr) (t : List Ev) : Nat := total (ofKernel k) (kernelMsgs t).dropLast + total (ofNet k) (netMsgs t).dropLast

/-- `d` is how the integer `z` is written. -/
def IsInt (d : Text) (z : Int) : Prop := ∃ ds, Digits ds ∧ ((d = ds ∧ z = value ds) ∨ (d = '-' :: ds ∧ z = - (value ds : Int)))

/-- The lines of a report. -/
def names : List (String × Ctr) :=
  [("KERNEL_SENT_PKTS", .modPkts), ("KERNEL_SENT_BYTES", .modBytes), ("NET_RCVD_PKTS", .rcvdPkts), ("NET_RCVD_BYTES", .rcvdBytes), ("NET_SENT_PKTS", .sentPkts), ("NET_SENT_BYTES", .sentBytes)]

/-! ### Lists -/

theorem total_append {α : Type} (f : α → Nat) (a b : List α) : total f (a ++ b) = total f a + total f b := by simp [total]

theorem kernelMsgs_append (a b : List Ev) : kernelMsgs (a ++ b) = kernelMsgs a ++ kernelMsgs b := by
  induction a with
  | nil => rfl
  | cons e a ih => cases e <;> simp [kernelMsgs, ih]

theorem netMsgs_append (a b : List Ev) : netMsgs (a ++ b) = netMsgs a ++ netMsgs b := by
  induction a with
  | nil => rfl
  | cons e a ih => cases e <;> simp [netMsgs, ih]

theorem dropLast_le {α : Type} (f : α → Nat) (a b : List α) : total f a.dropLast ≤ total f (a ++ b).dropLast := by
  cases b with
  | nil => simp
  | cons x b =>
    rw [List.dropLast_append_of_ne_nil (List.cons_ne_nil _ _), total_append]
    rcases List.eq_nil_or_concat a with h | ⟨a', y, h⟩
    · subst h; simp [total]
    · subst h; simp only [List.concat_eq_append, List.dropLast_concat, total_append]; omega

theorem dropLast_total {α : Type} (f : α → Nat) (a : List α) : total f a.dropLast ≤ total f a := by
  have := dropLast_le f a []
  rcases List.eq_nil_or_concat a with h | ⟨a', y, h⟩
  · subst h; simp
  · subst h; simp only [List.concat_eq_append, List.dropLast_concat, total_append]; omega

theorem ended_mono (k : Ctr) (a b : List Ev) : ended k a ≤ ended k (a ++ b) := by
  simp only [ended, kernelMsgs_append, netMsgs_append]
  have := dropLast_le (ofKernel k) (kernelMsgs a) (kernelMsgs b)
  have := dropLast_le (ofNet k) (netMsgs a) (netMsgs b)
  omega

theorem began_mono (k : Ctr) (a b : List Ev) : began k a ≤ began k (a ++ b) := by
  simp only [began, kernelMsgs_append, netMsgs_append, total_append]; omega

theorem run_append {s s'' : St} {a b : List Ev} (h : Run s (a ++ b) s'') : ∃ s', Run s a s' ∧ Run s' b s'' := by
  induction a generalizing s with
  | nil => exact ⟨s, .nil s, h⟩
  | cons e a ih =>
    cases h with
    | cons h1 h2 => obtain ⟨s', q, q'⟩ := ih h2; exact ⟨s', .cons h1 q, q'⟩

theorem run_join {s s' s'' : St} {a b : List Ev} (h : Run s a s') (h' : Run s' b s'') : Run s (a ++ b) s'' := by
  induction h with
  | nil => exact h'
  | cons h1 _ ih => exact .cons h1 (ih h')

/-! ### What the counters are -/

/-- What is left to do for a counter. -/
def left (k : Ctr) (l : List (Ctr × Nat)) : Nat := total (fun p => if p.1 = k then p.2 else 0) l

/-- The increments, with numbers instead of words. -/
def word (l : List (Ctr × Nat)) : Todo := l.map (fun p => (p.1, BitVec.ofNat 32 p.2))

structure Inv (t : List Ev) (s : St) where
  ck : Ctr → Nat
  cn : Ctr → Nat
  pm : List (Ctr × Nat)
  pn : List (Ctr × Nat)
  ctr : ∀ k, s.ctr k = BitVec.ofNat 32 (ck k + cn k)
  mod : s.mod = word pm
  net : s.net = word pn
  hk : ∀ k, ck k + left k pm = total (ofKernel k) (kernelMsgs t)
  hn : ∀ k, cn k + left k pn = total (ofNet k) (netMsgs t)
  dk : ∀ k, total (ofKernel k) (kernelMsgs t).dropLast ≤ ck k
  dn : ∀ k, total (ofNet k) (netMsgs t).dropLast ≤ cn k

theorem word_nil {l : List (Ctr × Nat)} (h : word l = []) : l = [] := by simpa [word] using h

theorem word_cons {l : List (Ctr × Nat)} {k : Ctr} {n : BitVec 32} {t : Todo} (h : word l = (k, n) :: t) :
    ∃ m l', l = (k, m) :: l' ∧ n = BitVec.ofNat 32 m ∧ t = word l' := by
  cases l with
  | nil => simp [word] at h
  | cons p l =>
    obtain ⟨a, m⟩ := p
    simp only [word, List.map_cons, List.cons.injEq, Prod.mk.injEq] at h
    exact ⟨m, l, by rw [h.1.1], h.1.2.symm, h.2.symm⟩

theorem inv_init : Nonempty (Inv [] .init) :=
  ⟨⟨fun _ => 0, fun _ => 0, [], [], fun _ => rfl, rfl, rfl, fun _ => rfl, fun _ => rfl, fun _ => Nat.le_refl _, fun _ => Nat.le_refl _⟩⟩

theorem inv_step {t : List Ev} {s s' : St} {e : Ev} (h : Inv t s) (g : Step s e s') : Nonempty (Inv (t ++ [e]) s') := by
  obtain ⟨ck, cn, pm, pn, hc, hm, hn, hk, hnn, dk, dn⟩ := h
  cases g with
  | kernel n sent hz =>
    have hp : pm = [] := word_nil (hm.symm.trans hz)
    subst hp
    refine ⟨⟨ck, cn, (match sent with | some m => [(.sentPkts, 1), (.sentBytes, m)] | none => []) ++ [(.modPkts, 1), (.modBytes, n)], pn, hc, ?_, hn, ?_, ?_, ?_, ?_⟩⟩
    · cases sent <;> rfl
    · intro k
      rw [kernelMsgs_append, total_append, ← hk k]
      cases sent <;> cases k <;> simp [left, total, kernelMsgs, ofKernel]
    · intro k; rw [netMsgs_append]; simpa [netMsgs] using hnn k
    · intro k
      rw [kernelMsgs_append]
      simp only [kernelMsgs, List.dropLast_concat]
      have := hk k
      simp [left, total] at this
      simp only [total]; omega
    · intro k; rw [netMsgs_append]; simpa [netMsgs] using dn k
  | datagram n hz =>
    have hp : pn = [] := word_nil (hn.symm.trans hz)
    subst hp
    refine ⟨⟨ck, cn, pm, [(.rcvdPkts, 1), (.rcvdBytes, n)], hc, hm, rfl, ?_, ?_, ?_, ?_⟩⟩
    · intro k; rw [kernelMsgs_append]; simpa [kernelMsgs] using hk k
    · intro k
      rw [netMsgs_append, total_append, ← hnn k]
      cases k <;> simp [left, total, netMsgs, ofNet]
    · intro k; rw [kernelMsgs_append]; simpa [kernelMsgs] using dk k
    · intro k
      rw [netMsgs_append]
      simp only [netMsgs, List.dropLast_concat]
      have := hnn k
      simp [left, total] at this
      simp only [total]; omega
  | @modStep k n l hz =>
    obtain ⟨m, l', e1, e2, e3⟩ := word_cons (hm.symm.trans hz)
    subst e1
    refine ⟨⟨fun j => ck j + (if k = j then m else 0), cn, l', pn, ?_, e3, hn, ?_, ?_, ?_, ?_⟩⟩
    · intro j
      show bump s.ctr k n j = _
      simp only [bump, hc, e2]
      by_cases q : j = k
      · subst q; simp only [if_true]; rw [← BitVec.ofNat_add]; congr 1; omega
      · rw [if_neg q, if_neg (fun q' => q q'.symm)]; rfl
    · intro j; rw [kernelMsgs_append]; have := hk j; simp only [left, total, List.map_cons, List.sum_cons] at this ⊢; simp only [kernelMsgs, List.append_nil] at this ⊢; omega
    · intro j; rw [netMsgs_append]; simpa [netMsgs] using hnn j
    · intro j; rw [kernelMsgs_append]; have := dk j; simp only [kernelMsgs, List.append_nil]; omega
    · intro j; rw [netMsgs_append]; simpa [netMsgs] using dn j
  | @netStep k n l hz =>
    obtain ⟨m, l', e1, e2, e3⟩ := word_cons (hn.symm.trans hz)
    subst e1
    refine ⟨⟨ck, fun j => cn j + (if k = j then m else 0), pm, l', ?_, hm, e3, ?_, ?_, ?_, ?_⟩⟩
    · intro j
      show bump s.ctr k n j = _
      simp only [bump, hc, e2]
      by_cases q : j = k
      · subst q; simp only [if_true]; rw [← BitVec.ofNat_add]; congr 1; omega
      · rw [if_neg q, if_neg (fun q' => q q'.symm)]; rfl
    · intro j; rw [kernelMsgs_append]; simpa [kernelMsgs] using hk j
    · intro j; rw [netMsgs_append]; have := hnn j; simp only [left, total, List.map_cons, List.sum_cons] at this ⊢; simp only [netMsgs, List.append_nil] at this ⊢; omega
    · intro j; rw [kernelMsgs_append]; simpa [kernelMsgs] using dk j
    · intro j; rw [netMsgs_append]; have := dn j; simp only [netMsgs, List.append_nil]; omega
  | request i hz => exact ⟨⟨ck, cn, pm, pn, hc, hm, hn, by simpa [kernelMsgs_append, kernelMsgs] using hk, by simpa [netMsgs_append, netMsgs] using hnn,
      by simpa [kernelMsgs_append, kernelMsgs] using dk, by simpa [netMsgs_append, netMsgs] using dn⟩⟩
  | load i k hz hz' => exact ⟨⟨ck, cn, pm, pn, hc, hm, hn, by simpa [kernelMsgs_append, kernelMsgs] using hk, by simpa [netMsgs_append, netMsgs] using hnn,
      by simpa [kernelMsgs_append, kernelMsgs] using dk, by simpa [netMsgs_append, netMsgs] using dn⟩⟩
  | reply i r hz => exact ⟨⟨ck, cn, pm, pn, hc, hm, hn, by simpa [kernelMsgs_append, kernelMsgs] using hk, by simpa [netMsgs_append, netMsgs] using hnn,
      by simpa [kernelMsgs_append, kernelMsgs] using dk, by simpa [netMsgs_append, netMsgs] using dn⟩⟩

theorem inv_run {t l : List Ev} {s s' : St} (h : Nonempty (Inv t s)) (g : Run s l s') : Nonempty (Inv (t ++ l) s') := by
  induction g generalizing t with
  | nil => simpa using h
  | cons g1 _ ih =>
    obtain ⟨h⟩ := h
    have := ih (inv_step h g1)
    simpa using this

theorem between {t : List Ev} {s : St} (h : Run .init t s) (k : Ctr) : ∃ v, ended k t ≤ v ∧ v ≤ began k t ∧ s.ctr k = BitVec.ofNat 32 v := by
  obtain ⟨i⟩ := inv_run inv_init h
  simp only [List.nil_append] at i
  refine ⟨i.ck k + i.cn k, ?_, ?_, i.ctr k⟩
  · have := i.dk k; have := i.dn k; simp only [ended]; omega
  · have := i.hk k; have := i.hn k; simp only [began]; omega

/-- While both threads wait, the counters are exactly what has come. -/
theorem idle_exact {t : List Ev} {s : St} (h : Run .init t s) (hm : s.mod = []) (hn : s.net = []) (k : Ctr) : s.ctr k = BitVec.ofNat 32 (began k t) := by
  obtain ⟨i⟩ := inv_run inv_init h
  simp only [List.nil_append] at i
  have e1 := word_nil (i.mod.symm.trans hm)
  have e2 := word_nil (i.net.symm.trans hn)
  have h1 := i.hk k
  have h2 := i.hn k
  rw [e1] at h1; rw [e2] at h2
  simp only [left, total, List.map_nil, List.sum_nil, Nat.add_zero] at h1 h2
  rw [i.ctr k, h1, h2]; rfl

/-! ### What a report says -/

/-- What a server has loaded since its request, which came after `t`. -/
def Fresh (t : List Ev) (l : List Ev) (v : Server) : Prop :=
  ∃ f, v = some f ∧ ∀ k b, f k = some b → ∃ n, ended k t ≤ n ∧ n ≤ began k (t ++ l) ∧ b = BitVec.ofNat 32 n

theorem fresh_step {t l : List Ev} {s s' : St} {e : Ev} {i : Nat} (hr : Run .init (t ++ l) s) (h : Fresh t l (s.srv i)) (g : Step s e s') (hne : ∀ r, e ≠ .reply i r) :
    Fresh t (l ++ [e]) (s'.srv i) := by
  obtain ⟨f, hf, hv⟩ := h
  have keep : Fresh t (l ++ [e]) (s.srv i) := ⟨f, hf, fun k b q => by
    obtain ⟨n, q1, q2, q3⟩ := hv k b q
    exact ⟨n, q1, Nat.le_trans q2 (by rw [← List.append_assoc]; exact began_mono k _ _), q3⟩⟩
  cases g with
  | kernel n sent hz => exact keep
  | datagram n hz => exact keep
  | modStep hz => exact keep
  | netStep hz => exact keep
  | request j hz =>
    show Fresh _ _ (setSrv s.srv j _ i)
    unfold setSrv
    by_cases q : i = j
    · subst q; rw [hf] at hz; exact absurd hz (by simp)
    · rw [if_neg q]; exact keep
  | @load j k f' hz hz' =>
    show Fresh _ _ (setSrv s.srv j _ i)
    unfold setSrv
    by_cases q : i = j
    · subst q
      rw [if_pos rfl]
      refine ⟨_, rfl, ?_⟩
      obtain ⟨f2, hf2, hv2⟩ := keep
      have : f' = f2 := by rw [hz] at hf2; exact Option.some.inj hf2
      subst this
      intro j b hb
      by_cases c : j = k
      · subst c
        simp only [if_true, Option.some.injEq] at hb
        obtain ⟨n, q1, q2, q3⟩ := between hr j
        exact ⟨n, Nat.le_trans (ended_mono j t l) q1, Nat.le_trans q2 (by rw [← List.append_assoc]; exact began_mono j _ _), hb.symm.trans q3⟩
      · simp only [if_neg c] at hb
        exact hv2 j b hb
    · rw [if_neg q]; exact keep
  | reply j r hz =>
    show Fresh _ _ (setSrv s.srv j _ i)
    unfold setSrv
    by_cases q : i = j
    · subst q; exact absurd rfl (hne r)
    · rw [if_neg q]; exact keep

theorem fresh_run {t l m : List Ev} {s s' : St} {i : Nat} (hr : Run .init (t ++ l) s) (h : Fresh t l (s.srv i)) (g : Run s m s') (hne : ∀ r, .reply i r ∉ m) :
    Fresh t (l ++ m) (s'.srv i) := by
  induction g generalizing l with
  | nil => simpa using h
  | @cons s0 e s1 m s2 g1 g2 ih =>
    have h1 := fresh_step hr h g1 (fun r q => hne r (by rw [q]; exact List.mem_cons_self ..))
    have hr1 : Run .init (t ++ (l ++ [e])) s1 := by rw [← List.append_assoc]; exact run_join hr (.cons g1 (.nil _))
    have := ih hr1 h1 (fun r q => hne r (List.mem_cons_of_mem _ q))
    simpa using this

/-- **C96** Each number of a report is one that was true between the request (which comes after `t`) and the report. Whatever the threads do meanwhile. -/
theorem report {t m : List Ev} {i : Nat} {r : Ctr → BitVec 32} {s : St} (h : Run .init (t ++ .request i :: m ++ [.reply i r]) s) (hm : ∀ r', .reply i r' ∉ m) (k : Ctr) :
    ∃ n, ended k t ≤ n ∧ n ≤ began k (t ++ m) ∧ r k = BitVec.ofNat 32 n := by
  obtain ⟨s2, h2, h3⟩ := run_append h
  obtain ⟨s0, h0, h1⟩ := run_append h2
  cases h1 with
  | @cons _ _ s1 _ _ g1 g2 =>
    have f1 : Fresh t [.request i] (s1.srv i) := by
      cases g1 with
      | request _ hz =>
        refine ⟨fun _ => none, ?_, fun k b q => by cases q⟩
        show setSrv s0.srv i _ i = _
        simp only [setSrv, if_true]
    have r1 : Run .init (t ++ [.request i]) s1 := run_join h0 (.cons g1 (.nil _))
    obtain ⟨f, hf, hv⟩ := fresh_run r1 f1 g2 hm
    cases h3 with
    | cons g3 _ =>
      cases g3 with
      | reply _ _ hz =>
        have e : f = fun k => some (r k) := by rw [hz] at hf; exact (Option.some.inj hf).symm
        obtain ⟨n, q1, q2, q3⟩ := hv k (r k) (by rw [e])
        refine ⟨n, q1, ?_, q3⟩
        have : began k (t ++ ([.request i] ++ m)) = began k (t ++ m) := by simp [began, kernelMsgs_append, netMsgs_append, kernelMsgs, netMsgs]
        rw [← this]; exact q2

/-- **C96** Hence the number that is printed lies between what had come before the request and what had come before the report, as long as that is less than 2^31. -/
theorem report_partial {t m : List Ev} {i : Nat} {r : Ctr → BitVec 32} {s : St} (h : Run .init (t ++ .request i :: m ++ [.reply i r]) s) (hm : ∀ r', .reply i r' ∉ m) (k : Ctr)
    (hs : began k (t ++ m) < 2 ^ 31) : (ended k t : Int) ≤ (r k).toInt ∧ (r k).toInt ≤ began k (t ++ m) := by
  obtain ⟨n, h1, h2, h3⟩ := report h hm k
  have e : (r k).toInt = n := by rw [h3, BitVec.toInt_eq_toNat_cond, BitVec.toNat_ofNat, Nat.mod_eq_of_lt (by omega), if_pos (by omega)]
  rw [e]; omega

/-! ### The text -/

theorem int_of (b : BitVec 32) : IsInt (decInt b) b.toInt := by
  unfold decInt
  have hl := b.isLt
  by_cases h : b.msb = true
  · rw [if_pos h]
    refine ⟨_, dec_digits _, .inr ⟨rfl, ?_⟩⟩
    rw [value_dec, BitVec.toInt_eq_msb_cond, if_pos h]; omega
  · rw [if_neg h]
    refine ⟨_, dec_digits _, .inl ⟨rfl, ?_⟩⟩
    rw [value_dec, BitVec.toInt_eq_msb_cond, if_neg h]

theorem int_unique {d : Text} {z z' : Int} (h : IsInt d z) (h' : IsInt d z') : z = z' := by
  obtain ⟨a, ha, h⟩ := h
  obtain ⟨b, hb, h'⟩ := h'
  have no : ∀ {c e : Text}, Digits c → c = '-' :: e → False := fun hc q => absurd (hc.2 '-' (by rw [q]; exact List.mem_cons_self ..)) (by decide)
  rcases h with ⟨e, q⟩ | ⟨e, q⟩ <;> rcases h' with ⟨e', q'⟩ | ⟨e', q'⟩
  · rw [q, q', ← e, ← e']
  · exact (no ha (e.symm.trans e')).elim
  · exact (no hb (e'.symm.trans e)).elim
  · have : a = b := by rw [e] at e'; exact (List.cons.inj e').2
    rw [q, q', this]

theorem decInt_plain (b : BitVec 32) : Plain (decInt b) := by
  unfold decInt
  split
  · exact Listing.plain_cons (by decide) (Listing.plain_dec _)
  · exact Listing.plain_dec _

theorem decInt_len (b : BitVec 32) : (decInt b).length ≤ 11 := by
  unfold decInt
  have hl := b.isLt
  split
  · have := dec_len (n := 2 ^ 32 - b.toNat) 9 (by omega); simp only [List.length_cons]; omega
  · have := dec_len (n := b.toNat) 9 (by omega); omega

theorem full_lines (v : Ctr → BitVec 32) : full v = names.flatMap (fun p => line [p.1.toList, decInt (v p.2)]) := by
  have e1 : "KERNEL_SENT_PKTS,".toList = "KERNEL_SENT_PKTS".toList ++ [','] := by decide
  have e2 : "\nKERNEL_SENT_BYTES,".toList = '\n' :: ("KERNEL_SENT_BYTES".toList ++ [',']) := by decide
  have e3 : "\nNET_RCVD_PKTS,".toList = '\n' :: ("NET_RCVD_PKTS".toList ++ [',']) := by decide
  have e4 : "\nNET_RCVD_BYTES,".toList = '\n' :: ("NET_RCVD_BYTES".toList ++ [',']) := by decide
  have e5 : "\nNET_SENT_PKTS,".toList = '\n' :: ("NET_SENT_PKTS".toList ++ [',']) := by decide
  have e6 : "\nNET_SENT_BYTES,".toList = '\n' :: ("NET_SENT_BYTES".toList ++ [',']) := by decide
  unfold full names
  rw [e1, e2, e3, e4, e5, e6]
  simp only [List.flatMap_cons, List.flatMap_nil, line, List.append_assoc, List.cons_append, List.nil_append, List.append_nil]

theorem full_len (v : Ctr → BitVec 32) : (full v).length < 1024 := by
  have e1 : "KERNEL_SENT_PKTS,".toList.length = 17 := by decide
  have e2 : "\nKERNEL_SENT_BYTES,".toList.length = 19 := by decide
  have e3 : "\nNET_RCVD_PKTS,".toList.length = 15 := by decide
  have e4 : "\nNET_RCVD_BYTES,".toList.length = 16 := by decide
  have e5 : "\nNET_SENT_PKTS,".toList.length = 15 := by decide
  have e6 : "\nNET_SENT_BYTES,".toList.length = 16 := by decide
  have a1 := decInt_len (v .modPkts)
  have a2 := decInt_len (v .modBytes)
  have a3 := decInt_len (v .rcvdPkts)
  have a4 := decInt_len (v .rcvdBytes)
  have a5 := decInt_len (v .sentPkts)
  have a6 := decInt_len (v .sentBytes)
  unfold full
  simp only [List.length_append, e1, e2, e3, e4, e5, e6, List.length_singleton]
  omega

/-- **C96** The report always fits: it is never cut, nor is more sent than the buffer has. It has a record for each number: its name, and how the number is written. -/
theorem text (v : Ctr → BitVec 32) : ∃ (t : Text) (d : Ctr → Text), answer v = some t ∧ t.length < 1024 ∧ (∀ k, IsInt (d k) (v k).toInt) ∧ File t (names.map (fun p => [p.1.toList, d p.2])) := by
  refine ⟨full v, fun k => decInt (v k), ?_, full_len v, fun k => int_of _, ?_⟩
  · have := full_len v
    unfold answer
    rw [if_neg (by omega)]
  · rw [full_lines]
    refine Listing.file_map (fun p hp => line_record (List.cons_ne_nil _ _) ?_)
    intro t ht
    rcases List.mem_cons.1 ht with e | ht
    · subst e
      have : ∀ p ∈ names, ∀ c ∈ p.1.toList, c ≠ ',' ∧ c ≠ '"' ∧ c ≠ '\n' ∧ c ≠ '\r' := by decide
      exact this p hp
    · rw [List.mem_singleton.1 ht]; exact decInt_plain _

/-- **C96** Reports of different numbers differ. -/
theorem text_injective {v w : Ctr → BitVec 32} (h : answer v = answer w) : v = w := by
  obtain ⟨t, d, h1, _, h2, h3⟩ := text v
  obtain ⟨t', d', h1', _, h2', h3'⟩ := text w
  have e : t = t' := Option.some.inj (h1.symm.trans (h.trans h1'))
  subst e
  have q := CsvSpec.unique h3 h3'
  simp only [names, List.map_cons, List.map_nil, List.cons.injEq, and_true, true_and] at q
  obtain ⟨q1, q2, q3, q4, q5, q6⟩ := q
  funext k
  have fin : d k = d' k → v k = w k := fun e => BitVec.eq_of_toInt_eq (int_unique (h2 k) (e ▸ h2' k))
  cases k <;> apply fin <;> assumption

/-! ### What is wrong with it -/

/-- The thread that reads the kernel's socket handles `m` messages of `n` bytes that cannot be sent. -/
def messages (m n : Nat) : List Ev := (List.replicate m [Ev.kernel n none, .modStep, .modStep]).flatten

theorem messages_run (m n : Nat) : ∀ (s : St), s.mod = [] → Run s (messages m n) { s with ctr := bump (bump s.ctr .modPkts (BitVec.ofNat 32 m)) .modBytes (BitVec.ofNat 32 (m * n)) } := by
  induction m with
  | zero =>
    intro s h
    have : { s with ctr := bump (bump s.ctr .modPkts (BitVec.ofNat 32 0)) .modBytes (BitVec.ofNat 32 (0 * n)) } = s := by
      obtain ⟨c, a, b, r⟩ := s
      congr 1
      funext k
      simp only [bump]
      cases k <;> simp
    rw [this]; exact .nil s
  | succ m ih =>
    intro s h
    obtain ⟨c, a, b, r⟩ := s
    have ha : a = [] := h
    subst ha
    refine .cons (.kernel n none rfl) (.cons (.modStep rfl) (.cons (.modStep rfl) ?_))
    have := ih ⟨bump (bump c .modPkts 1) .modBytes (BitVec.ofNat 32 n), [], b, r⟩ rfl
    have e : bump (bump (bump (bump c .modPkts 1) .modBytes (BitVec.ofNat 32 n)) .modPkts (BitVec.ofNat 32 m)) .modBytes (BitVec.ofNat 32 (m * n)) =
        bump (bump c .modPkts (BitVec.ofNat 32 (m + 1))) .modBytes (BitVec.ofNat 32 ((m + 1) * n)) := by
      funext k
      simp only [bump]
      cases k <;> simp [Nat.add_mul, BitVec.ofNat_add] <;> ac_rfl
    simp only [e] at this
    exact this

/-- The loads of a report. -/
def loads (i : Nat) : List Ev := [.load i .modPkts, .load i .modBytes, .load i .rcvdPkts, .load i .rcvdBytes, .load i .sentPkts, .load i .sentBytes]

theorem loads_run (s : St) (i : Nat) (h : s.srv i = none) : ∃ s', Run s (.request i :: loads i ++ [.reply i s.ctr]) s' := by
  refine ⟨_, .cons (.request i h) (.cons (.load (f := fun _ => none) i _ (by simp [setSrv]) rfl) (.cons (.load i _ (by simp [setSrv]; rfl) (by simp)) (.cons (.load i _ (by simp [setSrv]; rfl) (by simp))
    (.cons (.load i _ (by simp [setSrv]; rfl) (by simp)) (.cons (.load i _ (by simp [setSrv]; rfl) (by simp)) (.cons (.load i _ (by simp [setSrv]; rfl) (by simp)) (.cons (.reply i _ ?_) (.nil _))))))))⟩
  simp only [setSrv, if_true, Option.some.injEq]
  funext k
  cases k <;> simp

/-- **C96 (violation)** After 32769 messages of 65535 bytes, the report says that the number of bytes is negative. -/
theorem negative : ∃ t r s, Run .init (t ++ .request 0 :: loads 0 ++ [.reply 0 r]) s ∧ (∀ n sent, .kernel n sent ∈ t → n ≤ 65535) ∧ began .modBytes t = 2147516415 ∧
    (r .modBytes).toInt = -2147450881 := by
  have h := messages_run 32769 65535 .init rfl
  obtain ⟨s', h'⟩ := loads_run { St.init with ctr := bump (bump St.init.ctr .modPkts (BitVec.ofNat 32 32769)) .modBytes (BitVec.ofNat 32 (32769 * 65535)) } 0 rfl
  refine ⟨messages 32769 65535, _, s', by rw [List.append_assoc]; exact run_join h h', ?_, ?_, ?_⟩
  · intro n sent q
    simp only [messages, List.mem_flatten, List.mem_replicate] at q
    obtain ⟨l, ⟨_, rfl⟩, q⟩ := q
    simp at q
    omega
  · have g : ∀ m n, kernelMsgs (messages m n) = List.replicate m (n, none) := by
      intro m n
      induction m with
      | zero => rfl
      | succ m ih =>
        show kernelMsgs ([Ev.kernel n none, .modStep, .modStep] ++ messages m n) = _
        rw [kernelMsgs_append, ih]; rfl
    have g' : ∀ m n, netMsgs (messages m n) = [] := by
      intro m n
      induction m with
      | zero => rfl
      | succ m ih =>
        show netMsgs ([Ev.kernel n none, .modStep, .modStep] ++ messages m n) = _
        rw [netMsgs_append, ih]; rfl
    simp only [began, g, g', total, List.map_replicate, List.sum_replicate_nat, ofKernel, List.map_nil, List.sum_nil]
    omega
  · decide

/-- **C96 (violation)** The numbers of a report need not belong to the same moment: here more packets were sent to the network than came from the kernel. -/
theorem torn : ∃ t r s, Run .init t s ∧ t.getLast? = some (.reply 0 r) ∧ (r .modPkts).toNat < (r .sentPkts).toNat := by
  have h : ∃ s, Run .init [.request 0, .load 0 .modPkts, .kernel 40 (some 40), .modStep, .modStep, .load 0 .modBytes, .load 0 .rcvdPkts, .load 0 .rcvdBytes, .load 0 .sentPkts, .load 0 .sentBytes,
      .reply 0 (fun k => match k with | .sentPkts => 1 | .sentBytes => 40 | _ => 0)] s := by
    refine ⟨_, .cons (.request 0 rfl) (.cons (.load (f := fun _ => none) 0 _ (by simp [setSrv]) rfl) (.cons (.kernel _ _ rfl) (.cons (.modStep rfl) (.cons (.modStep rfl)
      (.cons (.load 0 _ (by simp [setSrv]; rfl) (by simp)) (.cons (.load 0 _ (by simp [setSrv]; rfl) (by simp))
      (.cons (.load 0 _ (by simp [setSrv]; rfl) (by simp)) (.cons (.load 0 _ (by simp [setSrv]; rfl) (by simp)) (.cons (.load 0 _ (by simp [setSrv]; rfl) (by simp)) (.cons (.reply 0 _ ?_) (.nil _)))))))))))⟩
    simp only [setSrv, if_true, Option.some.injEq]
    funext k
    cases k <;> simp [bump, St.init]
  obtain ⟨s, h⟩ := h
  exact ⟨_, _, s, h, rfl, by decide⟩

/-! ### Examples -/

/-- A report while a message is in work: the packet was counted, its bytes were not. -/
example : ∃ s, Run .init ([.datagram 72, .netStep] ++ .request 3 :: loads 3 ++ [.reply 3 (fun k => if k = .rcvdPkts then 1 else 0)]) s := by
  obtain ⟨s', h⟩ := loads_run ⟨bump (fun _ => 0) .rcvdPkts 1, [], [(.rcvdBytes, 72)], fun _ => none⟩ 3 rfl
  refine ⟨s', .cons (.datagram 72 rfl) (.cons (.netStep rfl) ?_)⟩
  have e : (fun k => if k = Ctr.rcvdPkts then (1 : BitVec 32) else 0) = bump (fun _ => 0) .rcvdPkts 1 := by funext k; cases k <;> simp [bump]
  rw [e]; exact h

example : ended .rcvdBytes [.datagram 72, .netStep] = 0 ∧ began .rcvdBytes [.datagram 72, .netStep] = 72 := by decide

example : decInt 0xFFFFFFFF = "-1".toList := by decide
example : full (fun _ => 7) = "KERNEL_SENT_PKTS,7\nKERNEL_SENT_BYTES,7\nNET_RCVD_PKTS,7\nNET_RCVD_BYTES,7\nNET_SENT_PKTS,7\nNET_SENT_BYTES,7\n".toList := by decide +kernel

end Jool.DStats
