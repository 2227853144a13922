import Verif.Model.Build
/-
Facts about the memory of packets.
-/
namespace Jool.Build
open Jool.Pkt (Byte L4 at8 at16)

theorem bind_eq {α β : Type} (o : Outcome α) (f : α → Outcome β) : (o >>= f) = o.bind f := rfl
theorem pure_eq {α : Type} (a : α) : (pure a : Outcome α) = .ok a := rfl
theorem ok_bind {α β : Type} (a : α) (f : α → Outcome β) : (Outcome.ok a).bind f = f a := rfl
theorem ub_bind {α β : Type} (u : UB) (f : α → Outcome β) : (Outcome.ub u : Outcome α).bind f = .ub u := rfl

/-- `l`, with `new` instead of what was there from `off` on. -/
def patch (l : List Byte) (off : Nat) (new : List Byte) : List Byte := l.take off ++ new ++ l.drop (off + new.length)

theorem patch_length {l new : List Byte} {off : Nat} (h : off + new.length ≤ l.length) : (patch l off new).length = l.length := by
  simp only [patch, List.length_append, List.length_take, List.length_drop]; omega

set_option linter.unusedVariables false

theorem patch_left {a b new : List Byte} {off : Nat} (h : off + new.length ≤ a.length) : patch (a ++ b) off new = patch a off new ++ b := by
  unfold patch
  rw [List.take_append_of_le_length (by omega), List.drop_append_of_le_length h, List.append_assoc]
  simp [List.append_assoc]

theorem patch_right {a b new : List Byte} {off k : Nat} (h : off = a.length + k) : patch (a ++ b) off new = a ++ patch b k new := by
  subst h
  unfold patch
  rw [List.take_length_add_append, Nat.add_assoc, List.drop_length_add_append]
  simp [List.append_assoc]

theorem patch_all {l new : List Byte} (h : l.length = new.length) : patch l 0 new = new := by
  unfold patch
  simp [h]

theorem patch_head {a b new : List Byte} (h : a.length = new.length) : patch (a ++ b) 0 new = new ++ b := by
  rw [patch_left (by omega), patch_all h]

theorem patch_self {l new : List Byte} {off : Nat} (h : (l.drop off).take new.length = new) (hl : off + new.length ≤ l.length) : patch l off new = l := by
  unfold patch
  rw [← List.drop_drop]
  conv => rhs; rw [← List.take_append_drop off l, ← List.take_append_drop new.length (l.drop off), h]
  rw [List.append_assoc]

/-! ## A packet from a position on -/

/-- The bytes of the packet, as if `data` was `base`. -/
def Buf.from (b : Buf) (base : Nat) : List Byte := (b.mem.drop base).take (b.tail - base) ++ b.pages

/-- `base` is in the linear area, from there to the tail there are `hl` bytes, and from there on the packet is `bs`. -/
structure Frame (b : Buf) (base hl : Nat) (bs : List Byte) : Prop where
  tail : b.tail = base + hl
  room : b.tail ≤ b.mem.length
  from_ : b.from base = bs

theorem Frame.length {b : Buf} {base hl : Nat} {bs : List Byte} (f : Frame b base hl bs) : bs.length = hl + b.pages.length := by
  have h1 := f.tail; have h2 := f.room
  rw [← f.from_]
  simp only [Buf.from, List.length_append, List.length_take, List.length_drop]; omega

theorem Frame.hl_le {b : Buf} {base hl : Nat} {bs : List Byte} (f : Frame b base hl bs) : hl ≤ bs.length := by
  rw [f.length]; omega

theorem Frame.bytes {b : Buf} {base hl : Nat} {bs : List Byte} (f : Frame b base hl bs) (h : b.data = base) : b.bytes = bs := by
  rw [← f.from_, ← h]; rfl

theorem Frame.headlen {b : Buf} {base hl : Nat} {bs : List Byte} (f : Frame b base hl bs) (h : b.data = base) : b.headlen = hl := by
  have := f.tail
  unfold Buf.headlen; omega

theorem Frame.len {b : Buf} {base hl : Nat} {bs : List Byte} (f : Frame b base hl bs) (h : b.data = base) : b.len = bs.length := by
  unfold Buf.len
  rw [f.headlen h, f.length]

/-- Moving `data` and the headers does not change the memory. -/
theorem Frame.move {b : Buf} {base hl : Nat} {bs : List Byte} (f : Frame b base hl bs) (d n t : Nat) :
    Frame { b with data := d, nh := n, th := t } base hl bs := ⟨f.tail, f.room, f.from_⟩

theorem Frame.drop {b : Buf} {base hl : Nat} {bs : List Byte} (f : Frame b base hl bs) {n : Nat} (h : n ≤ hl) :
    Frame b (base + n) (hl - n) (bs.drop n) := by
  have h1 := f.tail; have h2 := f.room
  refine ⟨by omega, h2, ?_⟩
  rw [← f.from_]
  unfold Buf.from
  rw [List.drop_append_of_le_length (by simp only [List.length_take, List.length_drop]; omega), List.drop_take, List.drop_drop]
  congr 2
  omega

theorem read_ok {b : Buf} {base hl : Nat} {bs : List Byte} (f : Frame b base hl bs) {pos off n : Nat} (hp : pos = base + off) (h : off + n ≤ hl) :
    read b pos n = .ok ((bs.drop off).take n) := by
  have h1 := f.tail; have h2 := f.room
  unfold read
  rw [if_pos (by omega), hp, ← f.from_]
  unfold Buf.from
  rw [List.drop_append_of_le_length (by simp only [List.length_take, List.length_drop]; omega), List.drop_take, List.drop_drop,
    List.take_append_of_le_length (by simp only [List.length_take, List.length_drop]; omega), List.take_take]
  congr 2
  omega

theorem write_ok {b : Buf} {base hl : Nat} {bs : List Byte} (f : Frame b base hl bs) {pos off : Nat} {l : List Byte} (hp : pos = base + off)
    (h : off + l.length ≤ hl) :
    ∃ m, write b pos l = .ok { b with mem := m } ∧ Frame { b with mem := m } base hl (patch bs off l) ∧ m.length = b.mem.length := by
  have h1 := f.tail; have h2 := f.room
  subst hp
  refine ⟨_, if_pos (by omega), ⟨h1, ?_, ?_⟩, ?_⟩
  · show b.tail ≤ List.length _
    simp only [List.length_append, List.length_take, List.length_drop]; omega
  · rw [← f.from_]
    show (List.drop base (_ ++ _ ++ _)).take (b.tail - base) ++ b.pages = _
    unfold Buf.from
    rw [patch_left (by simp only [List.length_take, List.length_drop]; omega)]
    congr 1
    unfold patch
    rw [List.append_assoc, List.drop_append_of_le_length (by simp only [List.length_take]; omega),
      List.take_append, List.drop_take, List.take_append, List.take_take, List.drop_take, List.drop_drop, List.take_take]
    simp only [List.length_take, List.length_drop]
    rw [List.append_assoc]
    have e1 : min (b.tail - base) (base + off - base) = min off (b.tail - base) := by omega
    have e2 : b.tail - base - min (base + off - base) (b.mem.length - base) - l.length = b.tail - base - (off + l.length) := by omega
    rw [e1, List.take_of_length_le (l := l) (by omega), e2, Nat.add_assoc base off l.length]
  · simp only [List.length_append, List.length_take, List.length_drop]; omega

theorem pull_ok {b : Buf} {n : Nat} (h : n ≤ b.headlen) : pull b n = .ok (some { b with data := b.data + n }) := by
  unfold pull
  rw [if_neg (by unfold Buf.len; omega), if_neg (by omega)]

theorem pull'_ok {b : Buf} {n : Nat} (h : n ≤ b.headlen) : pull' b n = .ok { b with data := b.data + n } := by
  simp only [pull', bind_eq, pull_ok h, ok_bind, pure_eq, Option.getD_some]

theorem push_ok {b : Buf} {n : Nat} (h : n ≤ b.data) : push b n = .ok { b with data := b.data - n } := by
  unfold push
  rw [if_neg (by omega)]

theorem fresh_length (e : Env) (n : Nat) : (e.fresh n).length = n := by simp [Env.fresh]

/-- A copy, from some position before or in the copied data: what follows the first `x` bytes of the original. -/
theorem copy_frame {b : Buf} {base hl : Nat} {bs : List Byte} (f : Frame b base hl bs) (hb : b.data = base) (e : Env) (hr : Nat) {x k : Nat}
    (hx : x ≤ hl) (hk : k ≤ hr + x) :
    ∃ pre, pre.length = k ∧ Frame (pskbCopy e b hr) (hr + x - k) (k + (hl - x)) (pre ++ bs.drop x) := by
  have h1 := f.tail; have h2 := f.room
  have hh := f.headlen hb
  subst hb
  have hlin : ((b.mem.drop b.data).take hl).length = hl := by simp only [List.length_take, List.length_drop]; omega
  refine ⟨((e.fresh hr ++ (b.mem.drop b.data).take hl).drop (hr + x - k)).take k, ?_, ⟨?_, ?_, ?_⟩⟩
  · simp only [List.length_take, List.length_drop, List.length_append, fresh_length]; omega
  · simp only [pskbCopy, hh]; omega
  · simp only [pskbCopy, hh, List.length_append, fresh_length, hlin]; omega
  · rw [← f.from_]
    unfold Buf.from
    simp only [pskbCopy, hh]
    have ht : b.tail - b.data = hl := by omega
    have hA : (e.fresh hr ++ (b.mem.drop b.data).take hl).length = hr + hl := by simp only [List.length_append, fresh_length, hlin]
    rw [ht, List.drop_append_of_le_length (l₁ := (b.mem.drop b.data).take hl) (by omega), ← List.append_assoc]
    congr 1
    have e0 : hr + hl - (hr + x - k) = k + (hl - x) := by omega
    rw [e0]
    rw [List.drop_append_of_le_length (by omega), List.take_append_of_le_length (by rw [List.length_drop]; omega), List.take_add]
    congr 1
    rw [List.drop_drop]
    have e1 : hr + x - k + k = hr + x := by omega
    rw [e1]
    have e2 : hr + x = (e.fresh hr).length + x := by rw [fresh_length]
    rw [e2, List.drop_length_add_append, List.take_of_length_le (by rw [List.length_drop, hlin]; exact Nat.le_refl _)]

theorem at8_take {l : List Byte} {n i : Nat} (h : i < n) : at8 (l.take n) i = at8 l i := by
  unfold at8
  rw [List.getD_eq_getElem?_getD, List.getD_eq_getElem?_getD, List.getElem?_take_of_lt h]

theorem at8_drop (l : List Byte) (n i : Nat) : at8 (l.drop n) i = at8 l (n + i) := by
  unfold at8
  rw [List.getD_eq_getElem?_getD, List.getD_eq_getElem?_getD, List.getElem?_drop]

theorem at16_take {l : List Byte} {n i : Nat} (h : i + 1 < n) : at16 (l.take n) i = at16 l i := by
  unfold at16
  rw [at8_take (by omega), at8_take h]

theorem at16_drop (l : List Byte) (n i : Nat) : at16 (l.drop n) i = at16 l (n + i) := by
  unfold at16
  rw [at8_drop, at8_drop, Nat.add_assoc]

/-- The field at a position of the packet. -/
theorem rd8_ok {b : Buf} {base hl : Nat} {bs : List Byte} (f : Frame b base hl bs) {pos off : Nat} (hp : pos = base + off) (h : off < hl) :
    rd8 b pos = .ok (at8 bs off) := by
  simp only [rd8, bind_eq, read_ok f hp (n := 1) (by omega), ok_bind, pure_eq]
  rw [at8_take (by omega), at8_drop]; rfl

theorem ihl_ok {b : Buf} {base hl : Nat} {bs : List Byte} (f : Frame b base hl bs) {pos off : Nat} (hp : pos = base + off) (h : off < hl) :
    ihl b pos = .ok (Pkt.ihl4 bs off) := by
  simp only [ihl, bind_eq, rd8_ok f hp h, ok_bind, pure_eq]; rfl

theorem needFrag_ok {b : Buf} {base hl : Nat} {bs : List Byte} (f : Frame b base hl bs) {pos off : Nat} (hp : pos = base + off) (h : off + 8 ≤ hl) :
    needFrag b pos = .ok (Pkt.fragmented4 bs off) := by
  simp only [needFrag, bind_eq, read_ok f (pos := pos + 6) (off := off + 6) (n := 2) (by omega) (by omega), ok_bind, pure_eq]
  rw [at16_take (by omega), at16_drop]; rfl

theorem firstFrag4_ok {b : Buf} {base hl : Nat} {bs : List Byte} (f : Frame b base hl bs) {pos off : Nat} (hp : pos = base + off) (h : off + 8 ≤ hl) :
    firstFrag4 b pos = .ok (Pkt.first4 bs off) := by
  simp only [firstFrag4, bind_eq, read_ok f (pos := pos + 6) (off := off + 6) (n := 2) (by omega) (by omega), ok_bind, pure_eq]
  rw [at16_take (by omega), at16_drop]; rfl

theorem isError4_ok {p : P} {base hl : Nat} {bs : List Byte} (f : Frame p.skb base hl bs) {off : Nat} (hp : p.skb.th = base + off)
    (h : p.proto = L4.icmp → off < hl) : isError4 p = .ok (decide (p.proto = L4.icmp) && Icmp.isIcmp4Error (at8 bs off)) := by
  unfold isError4
  split
  · rename_i hi
    simp only [bind_eq, rd8_ok f hp (h hi), ok_bind, pure_eq, hi, decide_true, Bool.true_and]
  · rename_i hi
    simp only [pure_eq, hi, decide_false, Bool.false_and]

theorem isError6_ok {p : P} {base hl : Nat} {bs : List Byte} (f : Frame p.skb base hl bs) {off : Nat} (hp : p.skb.th = base + off)
    (h : p.proto = L4.icmp → off < hl) : isError6 p = .ok (decide (p.proto = L4.icmp) && Icmp.isIcmp6Error (at8 bs off)) := by
  unfold isError6
  split
  · rename_i hi
    simp only [bind_eq, rd8_ok f hp (h hi), ok_bind, pure_eq, hi, decide_true, Bool.true_and]
  · rename_i hi
    simp only [pure_eq, hi, decide_false, Bool.false_and]

theorem writeOut_ok {s : S} {base hl : Nat} {bs : List Byte} (f : Frame s.pout.skb base hl bs) {pos off : Nat} {l : List Byte} (hp : pos = base + off)
    (h : off + l.length ≤ hl) :
    ∃ m, writeOut s pos l = .ok { s with pout := { s.pout with skb := { s.pout.skb with mem := m } } } ∧
      Frame { s.pout.skb with mem := m } base hl (patch bs off l) := by
  obtain ⟨m, e, f', _⟩ := write_ok f hp h
  refine ⟨m, ?_, f'⟩
  simp only [writeOut, bind_eq, e, ok_bind, pure_eq]

end Jool.Build
