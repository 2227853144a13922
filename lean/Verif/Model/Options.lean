/-!
# The IPv4 option scan

Model of `has_unexpired_src_route()`, `src/mod/common/rfc7915/4to6.c:774-810`.
-/

namespace Jool.Options

abbrev Byte := BitVec 8

/-- Outcomes of the scan. -/
inductive R where
  | ans (b : Bool)
  /-- A byte beyond the end of the header is read. -/
  | stray
  /-- Still looping after the given number of rounds. -/
  | running
  deriving DecidableEq, Repr

/-- `has_unexpired_src_route()`, 4to6.c:774-810.  `opts` are the bytes between
    the fixed header and the end of the header (`4 * ihl`), `p` is
    `current_opt`, and the first argument counts rounds of the loop. -/
def scan (opts : List Byte) : Nat → Nat → R
  | 0, _ => R.running
  | n + 1, p =>
    if p ≥ opts.length then R.ans false                          -- 784-785, 802-803
    else
      let t := opts.getD p 0#8
      if t = 131#8 ∨ t = 137#8 then                              -- IPOPT_LSRR, IPOPT_SSRR
        if p + 2 < opts.length then
          R.ans (decide ((opts.getD (p + 1) 0#8).toNat ≥ (opts.getD (p + 2) 0#8).toNat)) -- 807-809
        else R.stray
      else if t = 0#8 then R.ans false                           -- IPOPT_END
      else if t = 1#8 then scan opts n (p + 1)                   -- IPOPT_NOOP
      else if p + 1 < opts.length then
        scan opts n (p + (opts.getD (p + 1) 0#8).toNat)          -- 798
      else R.stray

end Jool.Options
