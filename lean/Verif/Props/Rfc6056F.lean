import Verif.Model.Rfc6056
import Verif.Props.Pool4Defects
import Verif.Lemmas.BibOps

/-!
# C87: RFC 6056's algorithm 3
-/

namespace Jool.Rfc6056
open Pool4Spec (taddrs)
open Pool4 (Dom MT E Sane masks domainOf domainEmpty domainFind limit maxIterations next cands)
open Nat64 (Tuple)

/-! ## F -/

/-- What the administrator selected of a tuple (the setting `f-args`): source address, source port, destination
address, destination port. -/
def Sel (fields : BitVec 8) (t : Tuple T6) : Option (BitVec 128) × Option (BitVec 16) × Option (BitVec 128) × Option (BitVec 16) :=
  (if fields.getLsbD 3 then some t.src.addr else none, if fields.getLsbD 2 then some t.src.port else none,
   if fields.getLsbD 1 then some t.dst.addr else none, if fields.getLsbD 0 then some t.dst.port else none)

/-- What F hashes. -/
def message (m : Machine) (fields : BitVec 8) (t : Tuple T6) : List Byte :=
  (if fields.getLsbD 3 then bytes128 t.src.addr else []) ++ (if fields.getLsbD 2 then bytes16 m.little t.src.port else []) ++
  (if fields.getLsbD 1 then bytes128 t.dst.addr else []) ++ (if fields.getLsbD 0 then bytes16 m.little t.dst.port else []) ++ m.key

/-- No call of the kernel fails, that F makes. -/
def Works (x : Fails) : Prop := x.desc = false ∧ x.init = false ∧ (∀ i, x.update i = false) ∧ x.final = false

theorem flag8 : ∀ b : BitVec 8, (b &&& 8#8 ≠ 0) ↔ b.getLsbD 3 = true := by decide +kernel
theorem flag4 : ∀ b : BitVec 8, (b &&& 4#8 ≠ 0) ↔ b.getLsbD 2 = true := by decide +kernel
theorem flag2 : ∀ b : BitVec 8, (b &&& 2#8 ≠ 0) ↔ b.getLsbD 1 = true := by decide +kernel
theorem flag1 : ∀ b : BitVec 8, (b &&& 1#8 ≠ 0) ↔ b.getLsbD 0 = true := by decide +kernel

theorem updateIf_fed {x : Fails} {fields flag : BitVec 8} {b : List Byte} {d d' : Desc} {bit : Bool}
    (hf : (fields &&& flag ≠ 0) ↔ bit = true) (h : updateIf x fields flag b d = some d') :
    d'.fed = d.fed ++ (if bit then b else []) := by
  unfold updateIf at h
  by_cases hb : bit = true
  · rw [if_pos (hf.2 hb)] at h
    unfold update at h
    split at h
    · cases h
    · cases h; simp [hb]
  · rw [if_neg (fun h => hb (hf.1 h))] at h
    cases h; simp [hb]

theorem updateIf_works {x : Fails} (hx : ∀ i, x.update i = false) (fields flag : BitVec 8) (b : List Byte) (d : Desc) :
    ∃ d', updateIf x fields flag b d = some d' := by
  unfold updateIf update
  split
  · rw [hx]; exact ⟨_, rfl⟩
  · exact ⟨_, rfl⟩

theorem hashTuple_fed {m : Machine} {x : Fails} {fields : BitVec 8} {t : Tuple T6} {d : Desc}
    (h : hashTuple m x ⟨[], 0⟩ fields t = some d) : d.fed = message m fields t := by
  unfold hashTuple at h
  simp only [Option.bind_eq_some_iff] at h
  obtain ⟨d1, h1, d2, h2, d3, h3, d4, h4, h5⟩ := h
  have e1 := updateIf_fed (flag8 fields) h1
  have e2 := updateIf_fed (flag4 fields) h2
  have e3 := updateIf_fed (flag2 fields) h3
  have e4 := updateIf_fed (flag1 fields) h4
  unfold update at h5
  split at h5
  · cases h5
  · cases h5
    simp only [e4, e3, e2, e1, message, List.nil_append]

theorem hashTuple_works (m : Machine) {x : Fails} (hx : ∀ i, x.update i = false) (fields : BitVec 8) (t : Tuple T6) (d : Desc) :
    ∃ d', hashTuple m x d fields t = some d' := by
  unfold hashTuple
  obtain ⟨d1, h1⟩ := updateIf_works hx fields 8 (bytes128 t.src.addr) d
  rw [h1, Option.bind_some]
  obtain ⟨d2, h2⟩ := updateIf_works hx fields 4 (bytes16 m.little t.src.port) d1
  rw [h2, Option.bind_some]
  obtain ⟨d3, h3⟩ := updateIf_works hx fields 2 (bytes128 t.dst.addr) d2
  rw [h3, Option.bind_some]
  obtain ⟨d4, h4⟩ := updateIf_works hx fields 1 (bytes16 m.little t.dst.port) d3
  rw [h4, Option.bind_some]
  unfold update
  rw [hx]; exact ⟨_, rfl⟩

theorem bytes128_inj {a b : BitVec 128} (h : bytes128 a = bytes128 b) : a = b := by
  have key : ∀ j, j < 16 → (a >>> (8 * (15 - j))).setWidth 8 = (b >>> (8 * (15 - j))).setWidth 8 := by
    intro j hj
    have := congrArg (fun l => l[j]?) h
    simp only [bytes128, List.getElem?_map, List.getElem?_range hj, Option.map_some, Option.some.injEq] at this
    exact this
  apply BitVec.eq_of_getLsbD_eq
  intro i hi
  have := congrArg (fun v => BitVec.getLsbD v (i % 8)) (key (15 - i / 8) (by omega))
  simp only [BitVec.getLsbD_setWidth, BitVec.getLsbD_ushiftRight] at this
  have h8 : i % 8 < 8 := Nat.mod_lt _ (by omega)
  have e : 8 * (15 - (15 - i / 8)) + i % 8 = i := by omega
  simpa [h8, e] using this

theorem bytes128_length (a : BitVec 128) : (bytes128 a).length = 16 := by simp [bytes128]
theorem bytes16_length (l : Bool) (a : BitVec 16) : (bytes16 l a).length = 2 := by cases l <;> rfl

theorem bytes16_inj {l : Bool} {a b : BitVec 16} (h : bytes16 l a = bytes16 l b) : a = b := by
  have key : a.setWidth 8 = b.setWidth 8 ∧ (a >>> 8).setWidth 8 = (b >>> 8).setWidth 8 := by
    cases l <;> simp only [bytes16, if_true, Bool.false_eq_true, if_false, List.cons.injEq, and_true] at h
    · exact ⟨h.2, h.1⟩
    · exact h
  apply BitVec.eq_of_getLsbD_eq
  intro i hi
  by_cases h8 : i < 8
  · have := congrArg (fun v => BitVec.getLsbD v i) key.1
    simpa [BitVec.getLsbD_setWidth, h8] using this
  · have := congrArg (fun v => BitVec.getLsbD v (i - 8)) key.2
    simp only [BitVec.getLsbD_setWidth, BitVec.getLsbD_ushiftRight] at this
    have e : 8 + (i - 8) = i := by omega
    have h9 : i - 8 < 8 := by omega
    simpa [h9, e] using this

/-- **C87.** What is hashed is made of the selected fields and the key, and of nothing else; and two tuples hash the
same message only if they agree in every selected field. -/
theorem message_iff (m : Machine) (fields : BitVec 8) (t t' : Tuple T6) :
    message m fields t = message m fields t' ↔ Sel fields t = Sel fields t' := by
  unfold message Sel
  constructor
  · intro h
    have h := List.append_cancel_right h
    have l1 : (if fields.getLsbD 0 then bytes16 m.little t.dst.port else []).length =
        (if fields.getLsbD 0 then bytes16 m.little t'.dst.port else []).length := by split <;> simp [bytes16_length]
    obtain ⟨h, h4⟩ := List.append_inj' h l1
    have l2 : (if fields.getLsbD 1 then bytes128 t.dst.addr else []).length =
        (if fields.getLsbD 1 then bytes128 t'.dst.addr else []).length := by split <;> simp [bytes128_length]
    obtain ⟨h, h3⟩ := List.append_inj' h l2
    have l3 : (if fields.getLsbD 2 then bytes16 m.little t.src.port else []).length =
        (if fields.getLsbD 2 then bytes16 m.little t'.src.port else []).length := by split <;> simp [bytes16_length]
    obtain ⟨h1, h2⟩ := List.append_inj' h l3
    refine Prod.ext ?_ (Prod.ext ?_ (Prod.ext ?_ ?_)) <;> dsimp only
    · cases hb : fields.getLsbD 3 <;> simp only [hb, if_true, Bool.false_eq_true, if_false] at h1 ⊢
      rw [bytes128_inj h1]
    · cases hb : fields.getLsbD 2 <;> simp only [hb, if_true, Bool.false_eq_true, if_false] at h2 ⊢
      rw [bytes16_inj h2]
    · cases hb : fields.getLsbD 1 <;> simp only [hb, if_true, Bool.false_eq_true, if_false] at h3 ⊢
      rw [bytes128_inj h3]
    · cases hb : fields.getLsbD 0 <;> simp only [hb, if_true, Bool.false_eq_true, if_false] at h4 ⊢
      rw [bytes16_inj h4]
  · intro h
    simp only [Prod.mk.injEq] at h
    obtain ⟨h1, h2, h3, h4⟩ := h
    cases hb3 : fields.getLsbD 3 <;> cases hb2 : fields.getLsbD 2 <;> cases hb1 : fields.getLsbD 1 <;>
      cases hb0 : fields.getLsbD 0 <;> simp_all

/-- **C87.** If F has a result, it is the last word of the hash of the message; it has one if nothing fails. The
descriptor is freed, once, whatever fails. -/
theorem f_exact (m : Machine) (x : Fails) (fields : BitVec 8) (t : Tuple T6) :
    ((f m x fields t).1 = none ∨ (f m x fields t).1 = some (word3 m (m.md5 (message m fields t)))) ∧
    (Works x → (f m x fields t).1 = some (word3 m (m.md5 (message m fields t)))) ∧
    ((f m x fields t).1 ≠ none → x.desc = false ∧ x.init = false ∧ x.final = false) ∧
    ((f m x fields t).2 = [] ∨ (f m x fields t).2 = [.alloc, .free]) := by
  have hok : ∀ d, hashTuple m x ⟨[], 0⟩ fields t = some d → d.fed = message m fields t := fun d => hashTuple_fed
  refine ⟨?_, ?_, ?_, ?_⟩
  · unfold f
    split; · exact .inl rfl
    split; · exact .inl rfl
    split; · exact .inl rfl
    rename_i d hd
    split; · exact .inl rfl
    right; rw [hok d hd]
  · rintro ⟨h1, h2, h3, h4⟩
    obtain ⟨d, hd⟩ := hashTuple_works m h3 fields t ⟨[], 0⟩
    unfold f
    rw [h1, h2, h4, hd]
    simp only [Bool.false_eq_true, if_false, hok d hd]
  · unfold f
    intro h
    split at h; · exact absurd rfl h
    split at h; · exact absurd rfl h
    split at h; · exact absurd rfl h
    split at h; · exact absurd rfl h
    simp_all
  · unfold f
    split; · exact .inl rfl
    split; · exact .inr rfl
    split; · exact .inr rfl
    split <;> exact .inr rfl

/-- **C87.** Two connections that agree in the selected fields have the same F: nothing else of the packet matters. -/
theorem f_same (m : Machine) (x x' : Fails) (hx : Works x) (hx' : Works x') (fields : BitVec 8) (t t' : Tuple T6)
    (h : Sel fields t = Sel fields t') : (f m x fields t).1 = (f m x' fields t').1 := by
  rw [(f_exact m x fields t).2.1 hx, (f_exact m x' fields t').2.1 hx', (message_iff m fields t t').2 h]

/-! ## From F to the transport address -/

/-- What a search does, that begins at the `k`-th transport address of the pool `L` (counting from zero, in circles)
and tries at most `lim` of them: it takes the first one that is free. It counts how many it looked at (one more if
there is none). -/
inductive Tries (L : List T4) (taken : T4 → Bool) (k lim : Nat) : Option T4 → Nat → Prop
  | found (j : Nat) (a : T4) : j < lim → L[(k + j) % L.length]? = some a → taken a = false →
      (∀ i < j, ∀ b, L[(k + i) % L.length]? = some b → taken b = true) → Tries L taken k lim (some a) (j + 1)
  | exhausted : (∀ i < lim, ∀ b, L[(k + i) % L.length]? = some b → taken b = true) → Tries L taken k lim none (lim + 1)

theorem next_counter (d : Dom) : (next d).2.counter = d.counter + 1 := by
  unfold next
  dsimp only
  split; · rfl
  split; · rfl
  split <;> rfl

theorem next_count (d : Dom) : (next d).2.count = d.count := by
  unfold next
  dsimp only
  split; · rfl
  split; · rfl
  split <;> rfl

theorem search_spec (taken : T4 → Bool) (n : Nat) (d : Dom) :
    (∃ j a, ((cands n d).map Prod.fst)[j]? = some a ∧ taken a = false ∧
      (∀ i < j, ∀ b, ((cands n d).map Prod.fst)[i]? = some b → taken b = true) ∧
      (search taken n d).1 = some a ∧ (search taken n d).2.counter = d.counter + BitVec.ofNat 32 (j + 1)) ∨
    ((∀ (i : Nat), ∀ b, ((cands n d).map Prod.fst)[i]? = some b → taken b = true) ∧ (search taken n d).1 = none ∧
      ((cands n d).length < n → (search taken n d).2.counter = d.counter + BitVec.ofNat 32 ((cands n d).length + 1))) := by
  induction n generalizing d with
  | zero => right; simp [cands, search]
  | succ n ih =>
    have hc := next_counter d
    rw [cands, search]
    cases hn : next d with
    | mk o d' =>
      rw [hn] at hc
      dsimp only at hc
      cases o with
      | none =>
        right
        refine ⟨by simp, rfl, fun _ => ?_⟩
        simp [hc]
      | some c =>
        dsimp only
        by_cases ht : taken c.1 = true
        · rw [if_pos ht]
          rcases ih d' with ⟨j, a, h1, h2, h3, h4, h5⟩ | ⟨h1, h2, h3⟩
          · left
            refine ⟨j + 1, a, by simpa using h1, h2, ?_, h4, ?_⟩
            · intro i hi b hb
              cases i with
              | zero => simp at hb; rw [← hb]; exact ht
              | succ i => exact h3 i (by omega) b (by simpa using hb)
            · rw [h5, hc, BitVec.add_assoc]
              congr 1
              apply BitVec.eq_of_toNat_eq
              simp [BitVec.toNat_add, BitVec.toNat_ofNat]; omega
          · right
            refine ⟨?_, h2, ?_⟩
            · intro i b hb
              cases i with
              | zero => simp at hb; rw [← hb]; exact ht
              | succ i => exact h1 i b (by simpa using hb)
            · intro hl
              rw [List.length_cons] at hl
              rw [h3 (by omega), hc, BitVec.add_assoc, List.length_cons]
              congr 1
              apply BitVec.eq_of_toNat_eq
              simp [BitVec.toNat_add, BitVec.toNat_ofNat]; omega
        · rw [if_neg ht]
          left
          refine ⟨0, c.1, by simp, by simpa using ht, by omega, rfl, ?_⟩
          simp [hc]

theorem cands_fuel (n : Nat) (d : Dom) (h1 : d.counter.toNat ≤ d.count.toNat) (h2 : d.count.toNat ≤ d.counter.toNat + n)
    (h3 : d.count.toNat < 2 ^ 32 - 1) : cands (n + 1) d = cands n d := by
  induction n generalizing d with
  | zero =>
    have : (next d).1 = none := by
      apply Pool4.next_none
      left
      show d.count.toNat < (d.counter + 1).toNat
      rw [BitVec.toNat_add]; simp; omega
    show (match (next d).1 with | none => [] | some c => c :: cands 0 (next d).2) = []
    rw [this]
  | succ n ih =>
    rw [cands]
    conv => rhs; rw [cands]
    cases hn : (next d).1 with
    | none => rfl
    | some c =>
      dsimp only
      have hle : d.counter.toNat + 1 ≤ d.count.toNat := by
        refine Decidable.byContradiction fun hgt => ?_
        have : (next d).1 = none := by
          apply Pool4.next_none
          left
          show d.count.toNat < (d.counter + 1).toNat
          rw [BitVec.toNat_add]; simp; omega
        rw [hn] at this; cases this
      have e : (next d).2.counter.toNat = d.counter.toNat + 1 := by
        rw [next_counter, BitVec.toNat_add]; simp; omega
      rw [ih (next d).2 (by rw [e, next_count]; exact hle) (by rw [e, next_count]; omega) (by rw [next_count]; exact h3)]

theorem getElem_rot (L : List T4) (k lim j : Nat) (hk : k ≤ L.length) (hl : lim ≤ L.length) :
    ((L.drop k ++ L.take k).take lim)[j]? = if j < lim then L[(k + j) % L.length]? else none := by
  have h := congrArg (fun l => l[j]?) (Pool4.rotate_take L k lim hk hl)
  simp only [List.getElem?_map] at h
  split
  · rename_i hj
    rw [List.getElem?_range hj, Option.map_some] at h
    cases hx : ((L.drop k ++ L.take k).take lim)[j]? with
    | some v => rw [hx] at h; simp at h; exact h.symm
    | none =>
      rw [hx] at h; simp at h
  · rename_i hj
    rw [List.getElem?_eq_none]
    rw [List.length_take]; omega

/-- A fresh domain whose candidates are those of `L` from `k` on. -/
theorem pick_tries (L : List T4) (taken : T4 → Bool) (d : Dom) (k lim : Nat) (eph : BitVec 32) (hk : k ≤ L.length)
    (hl : lim ≤ L.length) (h0 : d.counter = 0) (hcnt : d.count.toNat = L.length) (hsmall : L.length < 2 ^ 32 - 1)
    (hc : (masks d).cands.map Prod.fst = (L.drop k ++ L.take k).take lim) :
    ∃ n, Tries L taken k lim (pick taken d eph).1 n ∧ (pick taken d eph).2 = eph + BitVec.ofNat 32 n := by
  have hf : cands (d.count.toNat + 1) d = cands d.count.toNat d :=
    cands_fuel _ d (by rw [h0]; simp) (by rw [h0]; simp) (by omega)
  have hlen : (cands d.count.toNat d).length = lim := by
    have := congrArg List.length hc
    simp only [masks, List.length_map, List.length_take, List.length_append, List.length_drop] at this
    omega
  simp only [masks] at hc
  have hget : ∀ j, ((cands d.count.toNat d).map Prod.fst)[j]? = if j < lim then L[(k + j) % L.length]? else none := by
    intro j; rw [hc, getElem_rot L k lim j hk hl]
  unfold pick
  dsimp only
  rcases search_spec taken (d.count.toNat + 1) d with ⟨j, a, h1, h2, h3, h4, h5⟩ | ⟨h1, h2, h3⟩
  · rw [hf] at h1 h3
    rw [hget] at h1
    split at h1
    · rename_i hj
      refine ⟨j + 1, ?_, ?_⟩
      · rw [h4]
        refine .found j a hj h1 h2 ?_
        intro i hi b hb
        exact h3 i hi b (by rw [hget, if_pos (by omega)]; exact hb)
      · rw [h5, h0]; simp
    · cases h1
  · rw [hf] at h1 h3
    refine ⟨lim + 1, ?_, ?_⟩
    · rw [h2]
      refine .exhausted ?_
      intro i hi b hb
      exact h1 i b (by rw [hget, if_pos hi]; exact hb)
    · rw [h3 (by omega), h0, hlen]; simp


theorem sane_find (t : MT) (h : Sane t) (taken : T4 → Bool) (o eph : BitVec 32) (hsmall : (taddrs t.t.es).length < 2 ^ 32 - 1) :
    ∃ d n, domainOf t o = .ok (some d) ∧
      Tries (taddrs t.t.es) taken (o.toNat % (taddrs t.t.es).length) (limit (taddrs t.t.es).length (maxIterations t))
        (pick taken d eph).1 n ∧ (pick taken d eph).2 = eph + BitVec.ofNat 32 n := by
  obtain ⟨d, hd, hc⟩ := Pool4.enumeration t h o
  have hpos := h.pos
  have hd' := hd
  unfold domainOf at hd'
  split at hd'
  · cases hd'
  · simp only [Outcome.ok.injEq, Option.map_eq_some_iff] at hd'
    obtain ⟨s, _, rfl⟩ := hd'
    obtain ⟨n, h1, h2⟩ := pick_tries (taddrs t.t.es) taken _ _ _ eph (Nat.le_of_lt (Nat.mod_lt _ hpos))
      (by unfold limit; split <;> omega) rfl h.count hsmall hc
    exact ⟨_, n, hd, h1, h2⟩

theorem empty_domain (o : BitVec 32) (cn : Nat) (L : List T4)
    (hlen : L.length = cn) (d : Dom) (taken : T4 → Bool) (eph : BitVec 32) (h0 : d.counter = 0) (hd : d.count.toNat = cn)
    (hcn : 0 < cn) (hs : cn < 2 ^ 32 - 1)
    (he : (masks d).cands.map Prod.fst = L.drop (o.toNat % cn + 1) ++ L.take (o.toNat % cn + 1)) :
    ∃ n, Tries L taken (o.toNat % cn + 1) cn (pick taken d eph).1 n ∧ (pick taken d eph).2 = eph + BitVec.ofNat 32 n := by
  have hm := Nat.mod_lt o.toNat hcn
  refine pick_tries L taken d (o.toNat % cn + 1) cn eph (by omega) (by omega) h0 (by omega) (by omega) ?_
  rw [he]
  refine (List.take_of_length_le ?_).symm
  rw [List.length_append, List.length_drop, List.length_take, hlen]; omega

theorem empty_length (addr : Addr4) : (taddrs [⟨addr, 61001, 65535⟩]).length = 4535 := by
  rw [Pool4.taddrs_single_length]
  show 65535 + 1 - 61001 = 4535
  decide

theorem empty_count (addr : Addr4) (o : BitVec 32) : (domainEmpty addr o).count.toNat = 4535 := by
  unfold domainEmpty; dsimp only; decide

theorem empty_counter (addr : Addr4) (o : BitVec 32) : (domainEmpty addr o).counter = 0 := by
  unfold domainEmpty; rfl

theorem empty_find (addr : Addr4) (taken : T4 → Bool) (o eph : BitVec 32) :
    ∃ n, Tries (taddrs [⟨addr, 61001, 65535⟩]) taken (o.toNat % 4535 + 1) 4535 (pick taken (domainEmpty addr o) eph).1 n ∧
      (pick taken (domainEmpty addr o) eph).2 = eph + BitVec.ofNat 32 n :=
  empty_domain o 4535 _ (empty_length addr) _ taken eph (empty_counter addr o) (empty_count addr o) (by decide) (by decide) (Pool4.enumeration_empty addr o)

/-- **C87.** The transport address of a new connection, if pool4 has addresses for its mark: the search begins at the
position F + `next_ephemeral` (modulo 2^32, and then modulo the number of addresses), takes the first one that is free,
and adds to `next_ephemeral` as many as it tried. If F cannot be computed, nothing is tried. -/
theorem choose_exact (m : Machine) (x : Fails) (fields : BitVec 8) (pool : Pool4.Pool) (mark : BitVec 32) (route : Option Addr4)
    (taken : T4 → Bool) (t : Tuple T6) (eph : BitVec 32) (tab : MT) (hne : Pool4.isEmpty pool = false)
    (hm : Pool4.findMark (pool t.proto).marks mark = some tab) (hs : Sane tab) (hsmall : (taddrs tab.t.es).length < 2 ^ 32 - 1) :
    ((f m x fields t).1 = none → choose m x fields pool mark route taken t eph = .ok (.error .f6056, eph)) ∧
    ∀ F, (f m x fields t).1 = some F → ∃ r n,
      Tries (taddrs tab.t.es) taken ((F + eph).toNat % (taddrs tab.t.es).length)
        (limit (taddrs tab.t.es).length (maxIterations tab)) r n ∧
      choose m x fields pool mark route taken t eph =
        .ok (match r with | some a => .ok a | none => .error .exhausted, eph + BitVec.ofNat 32 n) := by
  constructor
  · intro h; unfold choose offset; rw [h]; rfl
  · intro F h
    obtain ⟨d, n, hd, h1, h2⟩ := sane_find tab hs taken (F + eph) eph hsmall
    refine ⟨_, n, h1, ?_⟩
    unfold choose offset domainFind
    simp only [h, Option.map_some, hne, Bool.false_eq_true, if_false, hm, hd, Outcome.map]
    rw [← h2]
    cases hp : pick taken d eph with
    | mk r e => cases r <;> rfl

/-- **C87.** The same, if pool4 is empty: ports 61001 to 65535 of the address that routing yields; the search begins
behind the position. -/
theorem choose_empty (m : Machine) (x : Fails) (fields : BitVec 8) (pool : Pool4.Pool) (mark : BitVec 32) (addr : Addr4)
    (taken : T4 → Bool) (t : Tuple T6) (eph : BitVec 32) (he : Pool4.isEmpty pool = true) (F : BitVec 32)
    (h : (f m x fields t).1 = some F) : ∃ r n,
      Tries (taddrs [⟨addr, 61001, 65535⟩]) taken ((F + eph).toNat % 4535 + 1) 4535 r n ∧
      choose m x fields pool mark (some addr) taken t eph =
        .ok (match r with | some a => .ok a | none => .error .exhausted, eph + BitVec.ofNat 32 n) := by
  obtain ⟨n, h1, h2⟩ := empty_find addr taken (F + eph) eph
  refine ⟨_, n, h1, ?_⟩
  unfold choose offset domainFind
  simp only [h, Option.map_some, he, if_true, Outcome.map]
  rw [← h2]
  cases hp : pick taken (domainEmpty addr (F + eph)) eph with
  | mk r e => cases r <;> rfl

/-- **C87.** Connections that agree in the selected fields, the protocol and the mark are served alike. -/
theorem choose_same (m : Machine) (x x' : Fails) (hx : Works x) (hx' : Works x') (fields : BitVec 8) (pool : Pool4.Pool)
    (mark : BitVec 32) (route : Option Addr4) (taken : T4 → Bool) (t t' : Tuple T6) (eph : BitVec 32)
    (h : Sel fields t = Sel fields t') (hp : t.proto = t'.proto) :
    choose m x fields pool mark route taken t eph = choose m x' fields pool mark route taken t' eph := by
  unfold choose offset
  rw [f_same m x x' hx hx' fields t t' h, hp]

theorem fresh_counter {db : Pool4.Pool} {p : Proto} {mark : BitVec 32} {route : Option Addr4} {o : BitVec 32} {d : Dom}
    (hd : domainFind db p mark route o = .ok (some d)) : d.counter = 0 := by
  unfold domainFind at hd
  split at hd
  · simp only [Outcome.ok.injEq] at hd
    obtain ⟨a, _, rfl⟩ := Option.map_eq_some_iff.1 hd
    rfl
  · split at hd
    · cases hd
    · unfold domainOf at hd
      split at hd
      · cases hd
      · simp only [Outcome.ok.injEq, Option.map_eq_some_iff] at hd
        obtain ⟨s, _, rfl⟩ := hd
        rfl

/-- What `Nat64.findMasks` takes as its parameter `hash` is `offset`; the search of the BIB, which walks through the
tree from one candidate to the next, finds what `pick` finds. -/
theorem bib_finds (t : Bib.Table) (h : Bib.WF t) (hist : List Pool4.Op) (db : Pool4.Pool) (hr : Pool4.run Pool4.empty hist = .ok db)
    (p : Proto) (mark : BitVec 32) (route : Option Addr4) (o : BitVec 32) (d : Dom)
    (hd : domainFind db p mark route o = .ok (some d)) (hsmall : d.count.toNat < 2 ^ 32 - 1) (eph : BitVec 32) :
    Bib.findAvailable t none (masks d).cands = .ok (pick (fun a => (Bib.find4 t a).isSome) d eph).1 := by
  have h0 := fresh_counter hd
  obtain ⟨r, h1, h2⟩ := Bib.findAvailable_correct h (masks d).cands none none
    (Pool4.masks_ok hist db hr p mark route o d hd) (by simp)
  rw [h1, h2]
  congr 1
  have hf : cands (d.count.toNat + 1) d = cands d.count.toNat d :=
    cands_fuel _ d (by rw [h0]; simp) (by rw [h0]; simp) (by omega)
  unfold pick
  dsimp only
  rcases search_spec (fun a => (Bib.find4 t a).isSome) (d.count.toNat + 1) d with ⟨j, a, g1, g2, g3, g4, g5⟩ | ⟨g1, g2, g3⟩
  · rw [hf] at g1 g3
    rw [g4]
    simp only [masks]
    rw [List.find?_eq_some_iff_getElem]
    refine ⟨by simpa using g2, j, ?_⟩
    obtain ⟨hj, e⟩ := List.getElem?_eq_some_iff.1 g1
    refine ⟨hj, e, ?_⟩
    intro i hi
    have := g3 i hi _ (List.getElem?_eq_getElem (by omega))
    simpa using this
  · rw [hf] at g1
    rw [g2]
    simp only [masks]
    rw [List.find?_eq_none]
    intro a ha
    obtain ⟨i, hi, e⟩ := List.getElem_of_mem ha
    have := g1 i a (by rw [List.getElem?_eq_getElem hi, e])
    rw [Option.isNone_eq_false_iff.2 this]; decide

/-! ## Consecutive connections -/

theorem Tries.where {L : List T4} {taken : T4 → Bool} {k lim : Nat} {a : T4} {n : Nat} (h : Tries L taken k lim (some a) n) :
    1 ≤ n ∧ n ≤ lim ∧ L[(k + (n - 1)) % L.length]? = some a ∧ taken a = false := by
  cases h with
  | found j _ h1 h2 h3 h4 => exact ⟨by omega, by omega, by simpa using h2, h3⟩

/-- **C87** (partial: the sum does not exceed 2^32, see `wrap_repeats`). If a connection receives a transport address,
then the next connection with the same selected fields (if nobody else was served meanwhile) begins its search at the
transport address that follows in the pool; what was tried before comes last. -/
theorem resume_partial (m : Machine) (x x' : Fails) (hx' : Works x') (fields : BitVec 8) (pool : Pool4.Pool) (mark : BitVec 32)
    (route : Option Addr4) (taken : T4 → Bool) (t t' : Tuple T6) (eph eph' : BitVec 32) (tab : MT)
    (hne : Pool4.isEmpty pool = false) (hm : Pool4.findMark (pool t.proto).marks mark = some tab) (hs : Sane tab)
    (hsmall : (taddrs tab.t.es).length < 2 ^ 32 - 1) (hsel : Sel fields t = Sel fields t') (a : T4)
    (hc : choose m x fields pool mark route taken t eph = .ok (.ok a, eph'))
    (hw : ∀ F, (f m x' fields t').1 = some F → (F + eph).toNat + (taddrs tab.t.es).length < 2 ^ 32) :
    ∃ F i, (f m x' fields t').1 = some F ∧ (taddrs tab.t.es)[i]? = some a ∧
      (F + eph').toNat % (taddrs tab.t.es).length = (i + 1) % (taddrs tab.t.es).length := by
  obtain ⟨hn, hF⟩ := choose_exact m x fields pool mark route taken t eph tab hne hm hs hsmall
  have hpos := hs.pos
  rcases (f_exact m x fields t).1 with h | h
  · rw [hn h] at hc
    simp at hc
  · obtain ⟨r, n, h1, h2⟩ := hF _ h
    have h' : (f m x' fields t').1 = some (word3 m (m.md5 (message m fields t))) := by
      rw [(f_exact m x' fields t').2.1 hx', (message_iff m fields t t').2 hsel]
    have hb := hw _ h'
    rw [hc] at h2
    cases r with
    | none => simp at h2
    | some b =>
      simp only [Outcome.ok.injEq, Prod.mk.injEq, Except.ok.injEq] at h2
      obtain ⟨rfl, rfl⟩ := h2
      obtain ⟨g1, g2, g3, _⟩ := h1.where
      have hlim : limit (taddrs tab.t.es).length (maxIterations tab) ≤ (taddrs tab.t.es).length := by
        unfold limit; split <;> omega
      refine ⟨_, _, h', g3, ?_⟩
      generalize word3 m (m.md5 (message m fields t)) = F at *
      have e : (F + (eph + BitVec.ofNat 32 n)).toNat = (F + eph).toNat + n := by
        rw [← BitVec.add_assoc, BitVec.toNat_add, BitVec.toNat_ofNat, Nat.mod_eq_of_lt (show n < 2 ^ 32 by omega),
          Nat.mod_eq_of_lt (by omega)]
      rw [e, Nat.mod_add_mod]
      generalize (F + eph).toNat = o at *
      generalize (taddrs tab.t.es).length = len at *
      rw [Nat.add_assoc, Nat.sub_add_cancel g1, Nat.mod_add_mod]

theorem mod_moves (o d n : Nat) (h0 : 0 < d) (h1 : d < n) : (o + d) % n ≠ o % n := by
  intro h
  have := Nat.sub_mod_eq_zero_of_mod_eq h
  rw [Nat.add_sub_cancel_left, Nat.mod_eq_of_lt h1] at this
  omega

theorem first_free {L : List T4} {taken : T4 → Bool} {k lim : Nat} {r : Option T4} {n : Nat} (h : Tries L taken k lim r n)
    (hl : 0 < lim) (a : T4) (ha : L[k % L.length]? = some a) (hf : taken a = false) : r = some a ∧ n = 1 := by
  cases h with
  | found j b h1 h2 h3 h4 =>
    cases j with
    | zero => rw [Nat.add_zero, ha] at h2; cases h2; exact ⟨rfl, rfl⟩
    | succ j => have := h4 0 (by omega) a (by simpa using ha); rw [hf] at this; cases this
  | exhausted h1 => have := h1 0 hl a (by simpa using ha); rw [hf] at this; cases this

/-- **C87** (partial: the sum does not exceed 2^32, see `wrap_repeats`). Connections in a row that agree in the selected
fields receive consecutive transport addresses of the pool, each at the first attempt, as long as those are free. -/
theorem sequential_partial (m : Machine) (x : Fails) (fields : BitVec 8) (pool : Pool4.Pool) (mark : BitVec 32)
    (route : Option Addr4) (p : Proto) (tab : MT) (hne : Pool4.isEmpty pool = false)
    (hm : Pool4.findMark (pool p).marks mark = some tab) (hs : Sane tab) (hsmall : (taddrs tab.t.es).length < 2 ^ 32 - 1)
    (F : BitVec 32) (ts : List (Tuple T6)) (hp : ∀ t ∈ ts, t.proto = p ∧ (f m x fields t).1 = some F) (taken : T4 → Bool)
    (eph : BitVec 32) (hlen : ts.length ≤ (taddrs tab.t.es).length) (hw : (F + eph).toNat + ts.length ≤ 2 ^ 32)
    (hfree : ∀ i < ts.length, ∀ b, (taddrs tab.t.es)[((F + eph).toNat + i) % (taddrs tab.t.es).length]? = some b → taken b = false) :
    ∃ as : List T4, serve m x fields pool mark route taken ts eph = .ok (as.map Except.ok, eph + BitVec.ofNat 32 ts.length) ∧
      as.map some = (List.range ts.length).map (fun i => (taddrs tab.t.es)[((F + eph).toNat + i) % (taddrs tab.t.es).length]?) := by
  have hpos := hs.pos
  have hnd := Pool4.taddrs_nodup _ hs.wf
  induction ts generalizing taken eph with
  | nil => exact ⟨[], by simp [serve], rfl⟩
  | cons t ts ih =>
    obtain ⟨hp1, hp2⟩ := hp t (List.mem_cons_self ..)
    subst hp1
    obtain ⟨r, n, h1, h2⟩ := (choose_exact m x fields pool mark route taken t eph tab hne hm hs hsmall).2 F hp2
    rw [List.length_cons] at hlen hw hfree
    have hlim : 0 < limit (taddrs tab.t.es).length (maxIterations tab) := by
      unfold limit
      split
      · exact hpos
      · rename_i h0
        have : 0 < (maxIterations tab).toNat := by
          rcases Nat.eq_zero_or_pos (maxIterations tab).toNat with h | h
          · exact absurd (BitVec.eq_of_toNat_eq (by simpa using h)) h0
          · exact h
        omega
    have hin : (F + eph).toNat % (taddrs tab.t.es).length < (taddrs tab.t.es).length := Nat.mod_lt _ hpos
    have ha := List.getElem?_eq_getElem hin
    obtain ⟨rfl, rfl⟩ := first_free h1 hlim _ (by rw [Nat.mod_mod]; exact ha) (hfree 0 (by omega) _ (by rw [Nat.add_zero]; exact ha))
    have hinc : ts ≠ [] → (F + (eph + BitVec.ofNat 32 1)).toNat = (F + eph).toNat + 1 := by
      intro hne'
      have : 0 < ts.length := List.length_pos_iff.2 hne'
      rw [← BitVec.add_assoc, BitVec.toNat_add, BitVec.toNat_ofNat]
      show ((F + eph).toNat + 1) % 2 ^ 32 = _
      rw [Nat.mod_eq_of_lt (by omega)]
    unfold serve
    rw [h2]
    dsimp only [Outcome.bind]
    by_cases hts : ts = []
    · subst hts
      refine ⟨[_], rfl, ?_⟩
      simp only [List.length_cons, List.length_nil, List.map_cons, List.map_nil]
      show _ = [(taddrs tab.t.es)[((F + eph).toNat + 0) % (taddrs tab.t.es).length]?]
      rw [Nat.add_zero, ha]
    · have hi := hinc hts
      obtain ⟨as, e1, e2⟩ := ih (fun t' ht' => hp t' (List.mem_cons_of_mem _ ht'))
        (fun b => taken b || b == (taddrs tab.t.es)[(F + eph).toNat % (taddrs tab.t.es).length])
        (eph + BitVec.ofNat 32 1) (by omega) (by omega) (by
          intro i hil b hb
          rw [hi] at hb
          rw [hfree (i + 1) (by omega) b (by rw [← hb]; congr 2; omega)]
          rw [Bool.false_or, beq_eq_false_iff_ne]
          intro hab
          subst hab
          rw [← ha] at hb
          have := (List.getElem?_inj (Nat.mod_lt _ hpos) hnd).1 hb
          rw [Nat.add_assoc] at this
          exact mod_moves _ (1 + i) _ (by omega) (by omega) this)
      rw [e1]
      refine ⟨(taddrs tab.t.es)[(F + eph).toNat % (taddrs tab.t.es).length] :: as, ?_, ?_⟩
      · simp only [Outcome.map, List.map_cons, Outcome.ok.injEq, Prod.mk.injEq, true_and]
        rw [BitVec.add_assoc, List.length_cons]
        congr 1
        apply BitVec.eq_of_toNat_eq
        simp [BitVec.toNat_add, BitVec.toNat_ofNat]; omega
      · rw [List.map_cons, e2, List.length_cons, List.range_succ_eq_map, List.map_cons, Nat.add_zero, ha, List.map_map]
        congr 1
        apply List.map_congr_left
        intro i _
        rw [hi]
        dsimp only [Function.comp]
        congr 2; omega

/-! ## Several connections at once -/

def total (l : List Note) : BitVec 32 := l.foldr (fun n s => n.tries + s) 0

theorem total_append (a b : List Note) : total (a ++ b) = total a + total b := by
  unfold total
  induction a with
  | nil => simp
  | cons x a ih => simp only [List.cons_append, List.foldr_cons, ih, BitVec.add_assoc]

theorem step_total {s s' : St} {e : Ev} {l : List Note} (h : step s e = .ok (s', l)) : s'.eph = s.eph + total l := by
  cases e with
  | begin i F t =>
    unfold step begin at h
    dsimp only at h
    cases hd : domainOf t (F + s.eph) with
    | ub u => rw [hd] at h; cases h
    | ok o =>
      rw [hd] at h
      simp only [Outcome.map, Outcome.ok.injEq, Prod.mk.injEq] at h
      obtain ⟨rfl, rfl⟩ := h
      cases o <;> simp [total]
  | finish i =>
    simp only [step, Outcome.ok.injEq] at h
    unfold finish at h
    split at h
    · cases h; simp [total]
    · cases h; simp [total]
  | free a =>
    simp only [step, Outcome.ok.injEq, Prod.mk.injEq] at h
    obtain ⟨rfl, rfl⟩ := h
    simp [total]

/-- **C87.** However the searches overlap: `next_ephemeral` is (modulo 2^32) the number of transport addresses that all
finished searches have tried; nothing is lost or counted twice. -/
theorem ephemeral_total (s s' : St) (es : List Ev) (l : List Note) (h : run s es = .ok (s', l)) : s'.eph = s.eph + total l := by
  induction es generalizing s l with
  | nil => cases h; simp [total]
  | cons e es ih =>
    unfold run at h
    cases h1 : step s e with
    | ub u => rw [h1] at h; cases h
    | ok r =>
      rw [h1] at h
      dsimp only [Outcome.bind] at h
      cases h2 : run r.1 es with
      | ub u => rw [h2] at h; cases h
      | ok q =>
        rw [h2] at h
        cases h
        rw [ih r.1 q.2 h2, step_total h1, total_append, BitVec.add_assoc]

def isFree : Ev → Bool
  | .free _ => true
  | _ => false

theorem search_free (taken : T4 → Bool) (n : Nat) (d : Dom) (a : T4) (h : (search taken n d).1 = some a) : taken a = false := by
  rcases search_spec taken n d with ⟨j, b, _, h2, _, h4, _⟩ | ⟨_, h2, _⟩
  · rw [h4] at h; cases h; exact h2
  · rw [h2] at h; cases h

/-- **C87.** However the searches overlap, no two connections receive the same transport address (while none is given
back), and none receives one that was taken. -/
theorem distinct (s s' : St) (es : List Ev) (l : List Note) (h : run s es = .ok (s', l)) (hf : ∀ e ∈ es, isFree e = false) :
    (l.filterMap Note.got).Nodup ∧ (∀ a ∈ l.filterMap Note.got, s.taken a = false) ∧
      ∀ a, s'.taken a = true ↔ s.taken a = true ∨ a ∈ l.filterMap Note.got := by
  induction es generalizing s l with
  | nil => cases h; simp
  | cons e es ih =>
    unfold run at h
    cases h1 : step s e with
    | ub u => rw [h1] at h; cases h
    | ok r =>
      rw [h1] at h
      dsimp only [Outcome.bind] at h
      cases h2 : run r.1 es with
      | ub u => rw [h2] at h; cases h
      | ok q =>
        rw [h2] at h
        cases h
        obtain ⟨g1, g2, g3⟩ := ih r.1 q.2 h2 (fun e he => hf e (List.mem_cons_of_mem _ he))
        have key : (r.2.filterMap Note.got = [] ∧ r.1.taken = s.taken) ∨
            ∃ a, r.2.filterMap Note.got = [a] ∧ s.taken a = false ∧ ∀ b, r.1.taken b = (s.taken b || some a == some b) := by
          cases e with
          | begin i F t =>
            left
            unfold step begin at h1
            dsimp only at h1
            cases hd : domainOf t (F + s.eph) with
            | ub u => rw [hd] at h1; cases h1
            | ok o =>
              rw [hd] at h1
              simp only [Outcome.map, Outcome.ok.injEq] at h1
              subst h1
              cases o <;> exact ⟨rfl, rfl⟩
          | finish i =>
            simp only [step, Outcome.ok.injEq] at h1
            unfold finish at h1
            split at h1
            · left; subst h1; exact ⟨rfl, rfl⟩
            · rename_i b hb
              subst h1
              dsimp only
              cases hg : (search s.taken (b.2.count.toNat + 1) b.2).1 with
              | none => left; refine ⟨by simp, ?_⟩; funext a; simp
              | some a => right; exact ⟨a, by simp, search_free _ _ _ _ hg, fun b => rfl⟩
          | free a => have := hf (.free a) (List.mem_cons_self ..); cases this
        rw [List.filterMap_append]
        rcases key with ⟨k1, k2⟩ | ⟨a, k1, k2, k3⟩
        · rw [k1, List.nil_append]
          rw [k2] at g2 g3
          exact ⟨g1, g2, g3⟩
        · rw [k1]
          have hna : a ∉ q.2.filterMap Note.got := by
            intro ha
            have := g2 a ha
            rw [k3] at this
            simp at this
          refine ⟨List.nodup_cons.2 ⟨hna, g1⟩, ?_, ?_⟩
          · intro b hb
            rcases List.mem_cons.1 hb with rfl | hb
            · exact k2
            · have := g2 b hb
              rw [k3] at this
              simp at this
              exact this.1
          · intro b
            rw [g3 b, k3 b]
            simp only [Bool.or_eq_true, beq_iff_eq, Option.some.injEq, List.cons_append, List.nil_append, List.mem_cons]
            constructor
            · rintro ((h | h) | h)
              · exact .inl h
              · exact .inr (.inl h.symm)
              · exact .inr (.inr h)
            · rintro (h | h | h)
              · exact .inl (.inl h)
              · exact .inl (.inr h.symm)
              · exact .inr h

/-! ## Examples and counterexamples -/

/-- 203.0.113.8, ports 100 to 104. -/
def exTab : MT := ⟨7, ⟨5, [⟨Pool4.exA, 100, 104⟩]⟩, ⟨false, true, false⟩, 0⟩
def exPool : Pool4.Pool := fun _ => ⟨[exTab], []⟩
def exWorks : Fails := ⟨false, false, fun _ => false, false⟩

/-- A toy hash: the sum of the bytes, in each position. -/
def exMachine : Machine := ⟨true, [1, 2, 1], fun l _ => l.foldl (· + ·) 0⟩
/-- A machine whose hash is always 2^32 − 1. -/
def exMax : Machine := ⟨false, [], fun _ _ => 255⟩

def exT (sport dport : BitVec 16) : Tuple T6 := ⟨⟨0x20010db8000000000000000000000001#128, sport⟩, ⟨0x0064ff9b0000000000000000c0000201#128, dport⟩, .TCP⟩

theorem exWorks_works : Works exWorks := ⟨rfl, rfl, fun _ => rfl, rfl⟩

theorem exTab_sane : Sane exTab := by
  refine ⟨⟨by simp [exTab], ?_⟩, by simp [exTab], ?_, by decide +kernel⟩
  · intro e he
    simp only [exTab, List.mem_cons, List.not_mem_nil, or_false] at he
    subst he
    simp [Pool4.OkE]
  · intro e he
    simp only [exTab, List.mem_cons, List.not_mem_nil, or_false] at he
    subst he
    decide

/-- By default (0b1011) the source port does not matter, but the destination port does. -/
example : Sel 0b1011 (exT 1000 80) = Sel 0b1011 (exT 2000 80) ∧ Sel 0b1011 (exT 1000 80) ≠ Sel 0b1011 (exT 1000 443) := by
  decide

/-- What is hashed by default, on a little-endian machine: port 80 is 50 00. -/
example : message exMachine 0b1011 (exT 1000 80) =
    [0x20, 0x01, 0x0d, 0xb8, 0, 0, 0, 0, 0, 0, 0, 0, 0, 0, 0, 1, 0, 0x64, 0xff, 0x9b, 0, 0, 0, 0, 0, 0, 0, 0, 0xc0, 0, 2, 1, 0x50, 0, 1, 2, 1] := by
  decide +kernel

/-- Three connections of one client to one server: three consecutive ports; the fourth one, to another service of the
server, has another F, which leads to the port 100, which is taken. -/
example : serve exMachine exWorks 0b1011 exPool 7 none (fun _ => false) [exT 1000 80, exT 1001 80, exT 1002 80, exT 1003 81] 0 =
    .ok ([.ok ⟨Pool4.exA, 103⟩, .ok ⟨Pool4.exA, 104⟩, .ok ⟨Pool4.exA, 100⟩, .ok ⟨Pool4.exA, 101⟩], 5) := by rfl

/-- The hypotheses of `sequential_partial` hold of it. -/
example : (f exMachine exWorks 0b1011 (exT 1000 80)).1 = some 0xfcfcfcfc#32 ∧ (0xfcfcfcfc#32 + 0#32).toNat + 3 ≤ 2 ^ 32 ∧
    Pool4.findMark (exPool .TCP).marks 7 = some exTab := by decide +kernel

/-- The property that `resume_partial` and `sequential_partial` prove away from the end of the counter: that a
connection never begins its search at the transport address that the previous one has just taken. -/
def NeverRepeats : Prop :=
  ∀ (m : Machine) (fields : BitVec 8) (pool : Pool4.Pool) (mark : BitVec 32) (t t' : Tuple T6) (eph eph' : BitVec 32) (a : T4),
    Sel fields t = Sel fields t' → t.proto = t'.proto →
    choose m exWorks fields pool mark none (fun _ => false) t eph = .ok (.ok a, eph') →
    choose m exWorks fields pool mark none (fun _ => false) t' eph' ≠ .ok (.ok a, eph' + 1)

/-- **C87 is violated**: when the sum of F and `next_ephemeral` exceeds 2^32, the remainder does not go on, because the
size of the pool does not divide 2^32: the first one that is tried is the one that has just been taken. -/
theorem wrap_repeats : ¬ NeverRepeats := by
  intro h
  have h1 : choose exMax exWorks 0b1011 exPool 7 none (fun _ => false) (exT 1000 80) 0 = .ok (.ok ⟨Pool4.exA, 100⟩, 1) := by
    rfl
  have h2 : choose exMax exWorks 0b1011 exPool 7 none (fun _ => false) (exT 1001 80) 1 = .ok (.ok ⟨Pool4.exA, 100⟩, 2) := by
    rfl
  exact h exMax 0b1011 exPool 7 (exT 1000 80) (exT 1001 80) 0 1 ⟨Pool4.exA, 100⟩ (by decide) rfl h1 h2

/-- Two connections at once, with the same F: both begin at the same place; the one that comes second goes on. -/
example : ((run ⟨0, [], fun _ => false⟩ [.begin 1 3 exTab, .begin 2 3 exTab, .finish 2, .finish 1]).map
      (fun r => (r.1.eph, r.2.map (fun n => (n.who, n.got, n.tries))))) =
    .ok (3, [(2, some ⟨Pool4.exA, 103⟩, 1), (1, some ⟨Pool4.exA, 104⟩, 2)]) := by decide +kernel

/-- The pool is full: everything is tried, and counted. -/
example : choose exMachine exWorks 0b1011 exPool 7 none (fun _ => true) (exT 1000 80) 0 = .ok (.error .exhausted, 6) := by
  rfl

/-- The second update fails. -/
example : f exMachine { exWorks with update := fun i => i == 1 } 0b1011 (exT 1000 80) = (none, [.alloc, .free]) := by
  decide +kernel

end Jool.Rfc6056
