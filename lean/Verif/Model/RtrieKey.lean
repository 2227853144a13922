import Verif.Model.Rtrie
/-
Model of the byte-wise comparison of keys in `src/mod/common/rtrie.c`. `Verif.Model.Rtrie` uses bit strings; the theorems
of `Verif.Props.RtrieKey` justify that.
-/
namespace Jool.RtrieKey

/-- mod/rtrie.h:15-19 `struct rtrie_key`. `bytes`: what is readable from the pointer on. -/
structure BKey where
  bytes : List (BitVec 8)
  len : Nat
deriving DecidableEq, Repr

/-- mod/rtrie.c:75-78 `get_bit`. -/
def getBit (byte : BitVec 8) (pos : Nat) : BitVec 8 := (byte >>> (7 - pos)) &&& 1#8

/-- mod/rtrie.c:100-108: the second loop of `__key_match`, on the bits of one byte. -/
def bitLoop (x y : BitVec 8) (i : Nat) : Nat → Nat
  | 0 => 0
  | n + 1 => if getBit x i ≠ getBit y i then 0 else bitLoop x y (i + 1) n + 1

/-- mod/rtrie.c:92-108: both loops of `__key_match`, from one byte on. `bytes`: how many turns the first one has left. -/
def matchLoop : List (BitVec 8) → List (BitVec 8) → Nat → Nat → Outcome Nat
  | b1, b2, 0, bits =>
    if bits = 0 then .ok 0
    else match b1, b2 with
      | x :: _, y :: _ => .ok (bitLoop x y 0 bits)
      | _, _ => .ub .outOfBounds
  | x :: xs, y :: ys, n + 1, bits =>
    if x ≠ y then .ok (bitLoop x y 0 8) else (matchLoop xs ys n bits).map (fun r => r + 8)
  | _, _, _ + 1, _ => .ub .outOfBounds

/-- mod/rtrie.c:80-111 `__key_match`. -/
def keyMatch' (k1 k2 : BKey) (bits : Nat) : Outcome Nat := matchLoop k1.bytes k2.bytes (bits >>> 3) (bits &&& 7)

/-- mod/rtrie.c:116-119 `key_match`. -/
def keyMatch (k1 k2 : BKey) : Outcome Nat := keyMatch' k1 k2 (min k1.len k2.len)

/-- mod/rtrie.c:128-133 `key_contains`. -/
def keyContains (k1 k2 : BKey) : Outcome Bool :=
  if k2.len ≥ k1.len then (keyMatch' k1 k2 k1.len).map (fun r => r == k1.len) else .ok false

/-- mod/rtrie.c:135-140 `key_equals`. -/
def keyEquals (k1 k2 : BKey) : Outcome Bool :=
  if k1.len = k2.len then (keyMatch' k1 k2 k1.len).map (fun r => r == k1.len) else .ok false

/-- mod/rtrie.c:23-26 `bits_to_bytes`. -/
def bitsToBytes (bits : Nat) : Nat := if bits ≠ 0 then ((bits - 1) >>> 3) + 1 else 0

/-- mod/rtrie.c:28-50 `create_inode`: the key of the new node; a `memcpy` of as many bytes as needed. -/
def inodeKey (k : BKey) : Outcome BKey :=
  if bitsToBytes k.len ≤ k.bytes.length then .ok ⟨k.bytes.take (bitsToBytes k.len), k.len⟩ else .ub .outOfBounds

end Jool.RtrieKey
