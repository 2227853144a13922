import Verif.Model.Addr
/-
Model of `src/mod/common/rfc6052.c`, byte for byte.
-/
namespace Jool

/-- `addr->s6_addr[i]` (i < 16). -/
def Addr6.byte (a : Addr6) (i : Nat) : BitVec 8 := (a >>> (8 * (15 - i))).setWidth 8

/-- `as8[i]` of the union at mod/rfc6052.c:8-11 (i < 4), network order. -/
def Addr4.byte (a : Addr4) (i : Nat) : BitVec 8 := (a >>> (8 * (3 - i))).setWidth 8

/-- Assemble an IPv4 address from its bytes (mod/rfc6052.c:8-11). -/
def Addr4.ofBytes (b0 b1 b2 b3 : BitVec 8) : Addr4 := b0 ++ b1 ++ b2 ++ b3

/-- Assemble an IPv6 address from sixteen bytes. -/
def Addr6.ofBytes (b0 b1 b2 b3 b4 b5 b6 b7 b8 b9 b10 b11 b12 b13 b14 b15 : BitVec 8) : Addr6 :=
  b0 ++ b1 ++ b2 ++ b3 ++ b4 ++ b5 ++ b6 ++ b7 ++ b8 ++ b9 ++ b10 ++ b11 ++ b12 ++ b13 ++ b14 ++ b15

/-- mod/rfc6052.c:79-143 `__rfc6052_4to6`; `none` is `-EINVAL`. Bytes never assigned are zero
because of the `memset` at line 85. A copy of `s6_addr32[k]` is the copy of bytes 4k..4k+3. -/
def rfc6052_4to6 (p : Prefix6) (src : Addr4) : Option Addr6 :=
  let P := p.addr.byte
  let S := Addr4.byte src
  match p.len with
  | 32 => some (.ofBytes (P 0) (P 1) (P 2) (P 3) (S 0) (S 1) (S 2) (S 3) 0 0 0 0 0 0 0 0)
  | 40 => some (.ofBytes (P 0) (P 1) (P 2) (P 3) (P 4) (S 0) (S 1) (S 2) 0 (S 3) 0 0 0 0 0 0)
  | 48 => some (.ofBytes (P 0) (P 1) (P 2) (P 3) (P 4) (P 5) (S 0) (S 1) 0 (S 2) (S 3) 0 0 0 0 0)
  | 56 => some (.ofBytes (P 0) (P 1) (P 2) (P 3) (P 4) (P 5) (P 6) (S 0) 0 (S 1) (S 2) (S 3) 0 0 0 0)
  | 64 => some (.ofBytes (P 0) (P 1) (P 2) (P 3) (P 4) (P 5) (P 6) (P 7) 0 (S 0) (S 1) (S 2) (S 3) 0 0 0)
  | 96 => some (.ofBytes (P 0) (P 1) (P 2) (P 3) (P 4) (P 5) (P 6) (P 7) (P 8) (P 9) (P 10) (P 11)
                 (S 0) (S 1) (S 2) (S 3))
  | _ => none

/-- mod/rfc6052.c:13-63 `__rfc6052_6to4`; `none` is `-EINVAL`. -/
def rfc6052_6to4 (p : Prefix6) (src : Addr6) : Option Addr4 :=
  let S := src.byte
  if !prefix6Contains p src then none
  else match p.len with
  | 32 => some (.ofBytes (S 4) (S 5) (S 6) (S 7))
  | 40 => some (.ofBytes (S 5) (S 6) (S 7) (S 9))
  | 48 => some (.ofBytes (S 6) (S 7) (S 9) (S 10))
  | 56 => some (.ofBytes (S 7) (S 9) (S 10) (S 11))
  | 64 => some (.ofBytes (S 9) (S 10) (S 11) (S 12))
  | 96 => some (.ofBytes (S 12) (S 13) (S 14) (S 15))
  | _ => none

end Jool
