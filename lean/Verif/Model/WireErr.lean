import Verif.Model.Wire
import Verif.Model.Mtu
/-
The whole translation of one ICMP error, from bytes to bytes: Verif.Model.Wire for the packets that have another packet inside.

Simplifications, besides those of Verif.Model.Wire:
- The addresses that the packet inside gets are parameters (`compute_flowix46`, `compute_flowix64`: Verif.Model.Siit, Verif.Model.Nat64), like its ports.
- The checksums are computed at the end, when all of the other bytes are known: the code does not look at them in the meantime.
- Errors inside of errors are left out: the packet inside is TCP, UDP, an echo, or something else.
-/
namespace Jool.Wire
open Jool.Pkt (Byte L4 Meta Acc at8 at16 first4)
open Jool.Csum (Kernel Summed)

/-- `plateaus`: `--mtu-plateaus`; `inMtu`, `outMtu`: the devices; `ports`: what NAT64 writes in the packet inside (`none` in SIIT). -/
structure ErrCtx where
  plateaus : List (BitVec 16)
  inMtu : BitVec 32
  outMtu : BitVec 32
  ports : Option (BitVec 16 × BitVec 16)

/-- mod/rfc7915/common.c:129-158 `become_inner_packet`, as seen by the functions that translate headers: the packet inside is a packet. -/
def insideAcc (a : Acc) (i : Meta) : Acc :=
  { skb := ⟨a.skb.data.drop a.m.pay, a.skb.linear - a.m.pay⟩
    m := { fh := i.fh - a.m.pay, proto := i.proto, l4 := i.l4 - a.m.pay, pay := i.pay - a.m.pay }
    inner := none }

/-- The context in which the packet inside is translated. -/
def inCtx (x : Ctx) (y : ErrCtx) : Ctx := { x with ports := y.ports }

/-- The second word of an ICMP header. -/
def word (d : List Byte) (l4 : Nat) : BitVec 32 := BitVec.ofNat 32 (num ((d.drop (l4 + 4)).take 4))

/-- An ICMP header, before its checksum is known. -/
def icmpHdr (t c : Byte) (w : BitVec 32) : List Byte := [t, c, 0#8, 0#8] ++ Csum.be32 w

def givenErr (x : Ctx) (v w : Build.Vals) : Build.Given :=
  { env := x.env, vals := fun n => if n = 0 then v else w, partially := x.sm = Summed.partial_, ll := x.ll }

/-! ## 4 to 6 -/

/-- mod/rfc7915/4to6.c:951-955, the payload length of the packet inside: 16 bits. -/
def len46 (e : Acc) : BitVec 16 :=
  (ip4 e.skb.data).totLen - BitVec.ofNat 16 e.m.pay + BitVec.ofNat 16 (40 + (if Hdr.needsFrag (ip4 e.skb.data) then 8 else 0) + (e.m.pay - e.m.l4)) - 40#16

/-- mod/rfc7915/4to6.c:1288-1338 `ttp46_icmp`: the new ICMP header. -/
def icmp46 (y : ErrCtx) (a : Acc) : Icmp.Hdr :=
  let d := a.skb.data
  Icmp.ttp46 none (Mtu.mtu6 y.plateaus (BitVec.ofNat 16 (at16 d (a.m.l4 + 6))) y.inMtu y.outMtu (ip4 (d.drop a.m.pay)).totLen)
    (at8 d a.m.l4) (at8 d (a.m.l4 + 1)) (word d a.m.l4)

/-- The headers: those of the error, those of the packet inside. The payload length of the error is written twice: mod/rfc7915/4to6.c:933 (here: zero) and,
for good, 1222 (Verif.Model.Build). -/
def vals46 (x : Ctx) (y : ErrCtx) (h6 k6 : Hdr.Ip6) (f : Option Hdr.Frag) (t c : Byte) (w : BitVec 32) (seg : List Byte) : Build.Vals × Build.Vals :=
  (vals x (fun _ => bytes6 h6) (List.replicate 8 0#8) (icmpHdr t c w), vals (inCtx x y) (fun _ => bytes6 k6) (bytesFrag (f.getD ⟨0, 0, 0, 0⟩)) seg)

/-- mod/rfc7915/core.c:55-100 `translating_the_packet` with the steps of 4to6.c, for an ICMP error: the bytes that leave. `none`: dropped. `is6`, `id6`: the addresses of
the packet inside. `Csum.error46` is `validate_icmp4_csum` and `compute_icmp6_csum` (4to6.c:1145-1181). -/
def translateErr46 (x : Ctx) (y : ErrCtx) (s6 d6 is6 id6 : BitVec 128) (p : Build.P) (a : Acc) (i : Meta) : Outcome (Option (List Byte)) :=
  let d := a.skb.data
  let e := insideAcc a i
  if x.route then .ok none
  else match Hdr.common46 x.cfg (ip4 d) true x.hairpin false 0#16 s6 d6 with
  | .ok (h6, _) =>
    match icmp46 y a with
    | .ok t c w =>
      match Hdr.common46 x.cfg (ip4 e.skb.data) false x.hairpin false (len46 e) is6 id6 with
      | .ok (k6, f) =>
        match seg46 (inCtx x y) is6 id6 e with
        | none => .ok none
        | some (seg, _) => do
          let v := vals46 x y h6 k6 f t c w seg
          let r ← Build.xlat46 (givenErr x v.1 v.2) p
          pure (r.bind (fun s => (Csum.error46 x.K x.sm (d.drop a.m.l4) (s.pout.skb.bytes.drop 40) s6 d6).map (s.pout.skb.bytes.take 40 ++ ·)))
      | _ => .ok none
    | _ => .ok none
  | _ => .ok none

/-! ## 6 to 4 -/

/-- mod/rfc7915/6to4.c:683-684, the total length of the packet inside: 16 bits. -/
def hdrs64 (e : Acc) : Nat × Nat := (e.m.pay, 20 + (e.m.pay - e.m.l4))

/-- What `generate_df_flag` looks at, for the packet inside (6to4.c:541-551). -/
def dfInside (e : Acc) : Hdr.DfIn :=
  { inner := true, totLen := (BitVec.ofNat 16 40 + (ip6 e.skb.data).payloadLen - BitVec.ofNat 16 (hdrs64 e).1 + BitVec.ofNat 16 (hdrs64 e).2).toNat
    fragList := false, gso := 0, tcp := false, hdrsLen := 0, len := 0 }

/-- mod/rfc7915/6to4.c:996-1052 `ttp64_icmp`: the new ICMP header. -/
def icmp64 (y : ErrCtx) (a : Acc) : Icmp.Hdr :=
  let d := a.skb.data
  Icmp.ttp64 none (Mtu.mtu4 (word d a.m.l4) y.inMtu y.outMtu) (at8 d a.m.l4) (at8 d (a.m.l4 + 1)) (word d a.m.l4)

/-- The fields of the IPv4 header of the error, if it is `len` bytes long. -/
def ext64 (x : Ctx) (s4 d4 : BitVec 32) (segleft : Option Nat) (last : Byte) (a : Acc) (len : Nat) : Hdr.Res Hdr.Ip4 :=
  Hdr.ext64 x.cfg (ip6 a.skb.data) none last segleft
    { inner := false, totLen := 0, fragList := x.fragList, gso := x.gso, tcp := false, hdrsLen := 28, len := len } x.sel s4 d4

/-- mod/rfc7915/core.c:55-100 `translating_the_packet` with the steps of 6to4.c, for an ICMP error. `sel2`: what `__ip_select_ident` picks for the packet inside.
The IPv4 header checksum is computed again if the length changes (`update_total_length`, 6to4.c:899-914); here it always is: if nothing changed, so does it not.
Limited to errors without fragment header (see `Build.fragment_header_misread`). -/
def translateErr64 (x : Ctx) (y : ErrCtx) (s4 d4 is4 id4 : BitVec 32) (sel2 : BitVec 16) (segleft : Option Nat) (p : Build.P) (a : Acc) (i : Meta) : Outcome (Option (List Byte)) :=
  let d := a.skb.data
  let e := insideAcc a i
  match Pkt.last6 a.skb 0, Pkt.last6 a.skb a.m.pay with
  | some last, some lastIn =>
    match ext64 x s4 d4 segleft last.1 a (28 + (20 + (d.length - i.l4))) with
    | .ok h4 =>
      match icmp64 y a with
      | .ok t c w =>
        match seg64 (inCtx x y) is4 id4 e with
        | none => .ok none
        | some (seg, _) => do
          let k4 := Hdr.int64 x.cfg (ip6 e.skb.data) none lastIn.1 (hdrs64 e).1 (hdrs64 e).2 (dfInside e) sel2 is4 id4
          let r ← Build.xlat64 (givenErr x (vals x (fun _ => bytes4 x.K h4) (List.replicate 8 0#8) (icmpHdr t c w))
            (vals (inCtx x y) (fun _ => bytes4 x.K k4) (List.replicate 8 0#8) seg)) p
          pure (r.bind (fun s => (Csum.error64 x.K x.sm (ip6 d).src (ip6 d).dst (d.drop a.m.l4) (s.pout.skb.bytes.drop 20)).map (Csum.ipHeader x.K (s.pout.skb.bytes.take 20) ++ ·)))
      | _ => .ok none
    | _ => .ok none
  | _, _ => .ub .outOfBounds

end Jool.Wire
