import Verif.Props.Cmd
import Verif.Props.Daemon
import Verif.Props.Wire
/-
Details that wrong versions of the models showed to be missing in the theorems on C77, C86 and C89.
-/

/-! ## C77: DF of packets that are cut later -/
namespace Jool.Wire
open Jool.WireSpec
open Jool.Pkt (Byte Acc L4)

/-- **C77.** A packet that the kernel will cut into segments (GSO): TCP segments have DF if and only if each of them is larger than 1260 bytes, which is its payload, the TCP header and the
IPv4 header; others do not have it. -/
theorem df_segments {x : Ctx} {s4 d4 : BitVec 32} {segleft : Option Nat} {last : Byte} {a : Acc} {b : List Byte} (h : l364 x s4 d4 segleft last a none = some b) (hf : x.fragList = false)
    (hg : x.gso ≠ 0) (r : List Byte) : df4 (b ++ r) = 1 ↔ a.m.proto = L4.tcp ∧ 1260 < 20 + (a.m.pay - a.m.l4) + x.gso := by
  unfold l364 at h
  split at h
  · rename_i h4 k1
    cases h
    have hfo : h4.fragOff = Hdr.fragOff64 none (dfIn x a) := by
      unfold Hdr.ext64 at k1
      split at k1
      · cases k1
      · split at k1
        · cases k1
        · cases k1; rfl
    obtain ⟨-, -, -, -, -, -, -, e8, -⟩ := fields4 x.K h4 r
    rw [e8, hfo, (Hdr.nofrag64 (dfIn x a) 0).2.2.2.1]
    unfold Hdr.dfFlag dfIn
    simp [hf, hg]
  · cases h

/-- **C77.** A packet that the kernel reassembled (a list of fragments) has no DF. -/
theorem df_list {x : Ctx} {s4 d4 : BitVec 32} {segleft : Option Nat} {last : Byte} {a : Acc} {b : List Byte} (h : l364 x s4 d4 segleft last a none = some b) (hf : x.fragList = true)
    (r : List Byte) : df4 (b ++ r) ≠ 1 := by
  unfold l364 at h
  split at h
  · rename_i h4 k1
    cases h
    have hfo : h4.fragOff = Hdr.fragOff64 none (dfIn x a) := by
      unfold Hdr.ext64 at k1
      split at k1
      · cases k1
      · split at k1
        · cases k1
        · cases k1; rfl
    obtain ⟨-, -, -, -, -, -, -, e8, -⟩ := fields4 x.K h4 r
    rw [Ne, e8, hfo, (Hdr.nofrag64 (dfIn x a) 0).2.2.2.1]
    unfold Hdr.dfFlag dfIn
    simp [hf]
  · cases h

end Jool.Wire

/-! ## C86: versions -/
namespace Jool.Relay
open Nla JooldMsg

/-- **C86.** The daemon and the kernel understand each other if and only if their versions have the same first two numbers, `kv` and `v` being a word of four bytes: else the daemon only
acknowledges. -/
theorem versions (a b c d a' b' c' d' : Nat) (hc : c < 256) (hd : d < 256) (hc' : c' < 256) (hd' : d' < 256) (hb : b < 256) (hb' : b' < 256) (me name : Name) (nested : Bool) (p now : Nat) (l : List Sess)
    (hn : sameCase name me = true) (hl : 40 * l.length + 4 < 2 ^ 16) :
    react (((a * 256 + b) * 256 + c) * 256 + d) me true (announce (((a' * 256 + b') * 256 + c') * 256 + d') name nested p now l) =
      if a = a' ∧ b = b' then .ok [.datagram (wire p now l), .ack] else .ok [.ack] := by
  by_cases h : a = a' ∧ b = b'
  · rw [if_pos h]
    refine react_announce _ _ me name nested p now l ?_ hn hl
    obtain ⟨rfl, rfl⟩ := h
    unfold sameVersion
    rw [beq_iff_eq]
    omega
  · rw [if_neg h]
    have : sameVersion (((a * 256 + b) * 256 + c) * 256 + d) (((a' * 256 + b') * 256 + c') * 256 + d') = false := by
      unfold sameVersion
      rw [beq_eq_false_iff_ne]
      intro q
      apply h
      omega
    have hval : validHdr (((a * 256 + b) * 256 + c) * 256 + d) (announce (((a' * 256 + b') * 256 + c') * 256 + d') name nested p now l).hdr = false := by
      show (true && sameVersion _ (((a' * 256 + b') * 256 + c') * 256 + d') && _) = false
      rw [this]; rfl
    unfold react
    rw [hval]
    rfl

example (hn : sameCase [97#8] [97#8] = true) : react (((4 * 256 + 1) * 256 + 11) * 256 + 0) [97#8] true (announce (((4 * 256 + 1) * 256 + 12) * 256 + 3) [97#8] false 1 0 []) = .ok [.datagram [], .ack] := by
  rw [versions 4 1 11 0 4 1 12 3 (by decide) (by decide) (by decide) (by decide) (by decide) (by decide) _ _ _ _ _ _ hn (by decide)]; rfl

end Jool.Relay

/-! ## C89: what is hidden -/
namespace Jool.Cmd

/-- **C89.** The old name of the mode `session` is not offered, and its abbreviations are not understood, whatever follows. -/
theorem joold_hidden : ∀ t ∈ ["j".toList, "jo".toList, "joo".toList, "jool".toList], ∀ rest, handle false nat64 tree digit (t :: rest) =
    .ok (.unexpected t ["instance".toList, "stats".toList, "global".toList, "pool4".toList, "bib".toList, "session".toList, "file".toList]) := by
  intro t ht rest
  simp only [List.mem_cons, List.not_mem_nil, or_false] at ht
  rcases ht with rfl | rfl | rfl | rfl <;> rfl

end Jool.Cmd
