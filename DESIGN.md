# Formal model of Jool — design

Source under study: `/repo` (NICMx/Jool, C). The model lives in `lean/Verif/`.
All `/repo` paths below are relative to `/repo`; `mod/` abbreviates `src/mod/common/`.

## Method

* Every C function that matters for a property is transcribed into a small total Lean function
  (`lean/Verif/Model`). Each definition has a comment citing file and lines, and says where it simplifies.
* C undefined behaviour (use after free, out-of-bounds access, null dereference, endless loops) is a *distinct outcome*
  of the model (`Outcome.ub`), not assumed away. Where the code has it, a theorem says so.
* Specifications are written separately from the model, in a namespace `…Spec` at the top of each file of
  `lean/Verif/Props` (sets, lists, bit functions, tables from RFCs). Theorems connect both.
* Histories are lists of operations starting at the initial state; invariants are proved by induction on them. There are
  no bounds on sizes, lengths or steps.
* When the code violates the property, the negation is proved on a concrete reachable witness, and the
  property is proved under the weakest restriction that we found. The main theorems of such properties have the suffix
  `_partial`, or an explicit hypothesis that names the exception; the manifest says which.
* Next to the theorems there are `example`s: concrete states, reached by concrete histories, that meet the hypotheses.
* Proofs about concrete witnesses use `decide`/`decide +kernel` (evaluation by the kernel).

## Trusted base

* The kernel of Lean 4.33.0. Axioms: `propext`, `Classical.choice`, `Quot.sound` and no others. `AXIOMS.md` lists the axioms
  of each theorem of the manifest. There is no `sorry`, no `native_decide`, no `bv_decide`, no axiom of our own.
* The transcription from C to Lean. It is manual; every definition cites the lines that it stands for.
* Services of the Linux kernel, by contract:
  * `rb_insert_color`, `rb_erase`: keep the in-order sequence. (Searches, slots and `rb_next` are modelled on trees of any
    shape, `Model/RbTree`.)
  * Allocators: may fail wherever the caller handles failure; `krealloc` may also move the block (`Model/Pool4`).
  * Spinlocks and mutexes: the critical section is one step. RCU: a grace period waits for the readers that started
    before it (`Model/Xlator`).
  * Checksum helpers (`csum_partial`, `csum_ipv6_magic`, …): their contract is the structure `Jool.Csum.Kernel`.
  * `sort()`, `jiffies`, routing, `dst_output`, `nla_for_each_nested`, `skb` allocation.
  * Integers: `unsigned int` has 32 bits, `unsigned long` and `size_t` have 64. `HZ` divides 1000.

## What is modelled

| Source | Model | Left out |
|---|---|---|
| `mod/rfc6052.c` | Rfc6052 | — |
| `mod/address.c`, `address.h` | Addr | `taddr*_compare`; strings |
| `mod/db/denylist4.c`, `mod/nl/denylist4.c`, `src/usr/nl/denylist4.c` | Denylist4 | RCU, kref |
| `mod/rtrie.c` | Rtrie, RtrieKey | concurrent readers (RCU) during an update; `rtrie_print` |
| `mod/db/eam.c` | Eam | locking; log messages |
| `mod/address_xlat.c`, `mod/db/rfc6791v4.c`, `mod/db/rfc6791v6.c`, `mod/steps/compute_outgoing_tuple_siit.c` | Siit | the interface enumeration of RFC 6791v4 (a parameter) |
| `mod/db/pool4/db.c`, `empty.c`, port ranges of `src/common/types.c`, `mod/nl/pool4.c`, `src/usr/nl/pool4.c` | Pool4, Pool4List | the hash of `rfc6056.c` (a parameter) |
| `mod/db/pool4/rfc6056.c`, and its way through `mask_domain_find`, `find_available_mask` and `mask_domain_commit` | Rfc6056 | MD5 is any function; calls of the crypto API may fail |
| `mod/db/bib/db.c`, `pkt_queue.c` | Bib, BibDump, RbTree | probe packet construction, logging, wraparound of `jiffies` |
| `mod/nl/bib.c`, `mod/nl/session.c`, `src/usr/nl/bib.c`, `session.c` | BibDump | sizes of messages (the room of each page is a parameter) |
| `mod/steps/filtering_and_updating.c` | TcpSM, Nat64 | logging |
| `mod/steps/determine_incoming_tuple.c`, `compute_outgoing_tuple.c`, `handling_hairpinning_nat64.c`, `mod/core.c` | Nat64 | statistics; several packets at a time between the table operations of one packet |
| `mod/rfc7915/6to4.c`, `4to6.c` | Header (IP headers, fragments, sizes), Icmp (types, codes, pointers), Mtu, IcmpExt, Options, Csum, Nat64 (addresses, ports) | `skb` copying, routing, `GSO`, devices |
| `mod/rfc7915/common.c` | IcmpExt, Mtu | — |
| `mod/packet.c`, `mod/ipv6_hdr_iterator.c` | Packet | `pskb_may_pull` failing for lack of memory |
| `mod/joold.c`, session attributes of `mod/nl/attribute.c`, `mod/nl/joold.c` | Joold, JooldMsg | counters; the daemon in user space |
| `mod/xlator.c` | Xlator | defragmentation modules, the contents of the databases |
| `mod/xlator.c` `xlator_foreach`, `mod/nl/instance.c`, `usr/nl/instance.c`: lists and hello | InstList | a request is one step; the size of entries |
| `mod/atomic_config.c` | AtomicConfig | what the sections do to the databases (a parameter) |
| `src/usr/nl/file.c`, `src/usr/nl/json.c`, `json2nl_*` of `src/common/global.c`, `mod/nl/atomic_config.c`, `handle_*` of `mod/atomic_config.c` | File | texts of errors; memory that is not released on error paths |
| `mod/nl/attribute.c`, `src/usr/nl/attribute.c`, policies of `src/common/config.c`, the operands of `mod/nl/{eam,pool4,bib,denylist4,session,instance,address}.c` and of their clients | Nla, NlAttr | log messages; `nla_parse` and `nla_put` are modelled from their documentation |
| `mod/nl/nl_common.c`, the handlers of additions, removals and flushes in `mod/nl/{eam,denylist4,pool4,bib}.c`, `joolnl_alloc_msg` of `src/usr/nl/core.c`, `__update` of `src/usr/nl/{eamt,denylist4,pool4,bib}.c` | Requests | namespaces (one at a time); what Generic Netlink itself checks (a message is refused or parsed); listings (see BibDump, Pool4List, NlAttr) |
| `mod/error_pool.c`, `log_err` of `mod/log.c`, `mod/nl/nl_core.c`, the responses of the handlers in `mod/nl/*.c`, `joolnl_request`, `response_handler`, `joolnl_msg2result` of `src/usr/nl/core.c`, `result_from_error` | Response | `libnl`'s transport (one response for each request); the texts themselves (any bytes) |
| `mod/stats.c`, `mod/nl/stats.c`, `src/usr/nl/stats.c` | Stats | names and explanations of the statistics; packets in flight while an instance is replaced |
| `src/usr/util/str_utils.c`; `print_*`, `str2nl_*` of `src/common/global.c`; `src/usr/argp/wargp.c`, additions, removals and CSV lines of `src/usr/argp/wargp/{eamt,denylist4,pool4,bib}.c` | Text | libc (`strtoull`, `strtok`, `printf` of numbers are written out; `inet_pton`, `inet_ntop`, `argp_parse` are parameters with a contract); DNS names; texts and codes of refusals |
| `mod/kernel_hook_netfilter.c`, `mod/kernel_hook_iptables.c` (the targets), `mod/core.c`, `mod/translation_state.c`, `mod/rfc7915/core.c`, the allocation, routing and inner packets of `mod/rfc7915/{common,6to4,4to6}.c`, `mod/steps/send_packet.c`, `mod/route_out.c`, `mod/icmp_wrapper.c`, what the TCP table releases (`db.c`, `pkt_queue.c`): who owns which packet and which route | Life | the contents of the packets and what the steps decide (parameters; see Nat64, Header, Siit, Packet); the kernel's functions from their documentation; UDP and ICMP tables (they keep no packets) |
| The buffers, pointers and lengths of `mod/rfc7915/{4to6,6to4,common,core}.c`: allocation of the outgoing packet (`allocate_fast`, `allocate_slow`, `ttp64_alloc_skb`), moving to the packet inside of an ICMP error and back, where each header is written, lengths, cutting; the accessors of `mod/packet.h` | Build | the values of the other fields (parameters; see Header, Icmp, Csum); pages are a list of bytes; everything that leads to a drop without touching the buffers; the kernel's `skb_*` functions as in Linux 6.1 |
| All of it together, for packets that are not ICMP errors and are not split: `mod/rfc7915/core.c` `translating_the_packet`, from the bytes that arrive to the bytes that leave | Wire | the addresses, ports and identifiers that the packet gets are parameters (RFC 6052, EAM, BIB are modelled elsewhere), and so is the result of the source route checks; hardware checksums are completed by contract; protocol 58 in IPv4 and 1 in IPv6 are excluded |
| The same for IPv4 packets of any size: `ttp46_alloc_skb` with `allocate_slow` | WireSlow | the incoming packet is one buffer (no `frag_list`, no GRO); `nexthop` and lowest-ipv6-mtu are parameters; allocations do not fail |
| A NAT64 and a SIIT with IPv4 packets of any size, joined: `core_common`, `sendpkt_send` | WholeAny, WholeSiitAny | as Whole, WholeSiit and WireSlow; which of the packets `dst_output` refuses is a parameter |
| The commands of the user space programs: `find_matches`, `__handle`, `handle_autocomplete`, the tree of commands | Cmd | words are lists of characters; `next` is a map from positions; `memcmp` with and without the right to read all bytes; `strtol` is any function; `getopt` and the handlers are not modelled |
| The same for ICMP errors (`post_icmp6error`, `post_icmp4error`, `ttpcomm_translate_inner_packet` included) | WireErr | addresses, ports and MTUs are parameters; ICMPv6 errors without fragment header; the IPv4 header checksum is computed after the length is known, whether it changes or not (the code skips it if nothing changes) |
| `mod/core.c` with both: from the bytes that arrive, over the tables, to the bytes that leave | Whole, WholeErr | NAT64; packets and ICMP errors; not the second pass of a hairpin |
| `mod/steps/handling_hairpinning_nat64.c`, from bytes to bytes: `core_common` with both passes | WholeTurn | not ICMP errors; the second pass does not split |
| `mod/steps/handling_hairpinning_siit.c`, from bytes to bytes: `core_common` with both passes | WholeSiitTurn | not ICMP errors; the second pass does not split |
| `mod/init.c`, `src/mod/nat64/jool.c`, `src/mod/siit/jool_siit.c`, `mod/timer.c`, the setups and teardowns, `xlator_add`, `xlator_rm`, flushes, candidates: what is acquired and released | Modules | contents of the tables are in other models; the kernel's part (pernet operations, refusal of `rmmod`, caches) is assumed |
| The same for SIIT: addresses of `mod/steps/compute_outgoing_tuple_siit.c`, bytes of Wire and WireErr, `mod/steps/handling_hairpinning_siit.c` | WholeSiit | routing and sending (parameters); the address that the kernel selects if there is no source; packets that are split |
| `src/usr/argp/joold/modsocket.c`, `netsocket.c` (`netsocket_listen`, `netsocket_send`), `src/usr/nl/joold.c`, `validate_joolnlhdr`, `mod/nl/joold.c`, and the network between several machines | Daemon | the header of a message is a record; statistics (DaemonStats); setup of the sockets (DaemonStart); failures of the daemon's system calls |
| `src/usr/util/file.c`, `src/usr/joold/json.c`, `src/usr/joold/joold.c` until the daemon starts | ReadFile | error codes and messages; answers of the C library are parameters; allocations after the first one succeed |
| `src/usr/iptables/common.c`, `target_checkentry`, `find_instance` of iptables | Rules | what iptables does with it (assumed: `init`, then `parse` for every option, zero means unknown; how lines are split into words); printing |
| `src/usr/argp/joold/statsocket.c`: `serve_stats`, and the counters of `modsocket.c` and `netsocket.c` | DaemonStats | counters are 32-bit words, increments and loads are single steps in any interleaving; answers of `sendto` |
| `joold_start`, `netsocket_start`, `statsocket_start` and what they call | DaemonStart | system calls are a list, each answered in any way; the Netlink socket is one answer; error codes, logs |
| `handle_session_follow`, `print_sessions`, `modsocket_listen` without a network | Follow | from the moment when the socket is ready; standard output only |
| `mod/wkmalloc.c` (`JKMEMLEAK`) | Leaks | trees of any shape; rebalancing is trusted; names are strings without NULs |
| `src/usr/argp/wargp/*.c` with `--csv`, `src/usr/argp/dns.c`, `src/usr/nl/stats.c`: names | Listing | other formats; `printf`, `inet_ntop` as in Text; answers of `getnameinfo` are parameters |
| `src/usr/util/cJSON.c`: the reader | Json | floating point (numbers are exact); allocation failures; depth of the stack |
| `src/common/global.c`, `mod/db/global.c`, `mod/nl/global.c`, `src/usr/nl/global.c` | Globals | printing, JSON; sizes of messages |

Not modelled: `trace.c`, `log.c` (other than `log_err`), `skbuff.c`, `route_in.c`, and the
command line clients and the daemon (`src/usr`) beyond the loops in the table.

## Assumptions that matter

* Each packet, request or timer tick acts on a table in one critical section. Between the critical sections of one packet
  (pool4, tables, routing) the model of a packet's path (`Model/Nat64`) lets nothing else happen.
* Netlink requests are serialized (`genl` mutex, `parallel_ops = false`).
* Addresses of freed heap cells are not reused (`Model/Rtrie`, `Model/Xlator`), so that each use after free is noticed.
* The mask domain's hash, random numbers, the results of routing and of sending, allocation failures, and the order of events
  are universally quantified parameters.

## Property by property

Status and missing parts are those of `MANIFEST.json`. `Props/X` means `lean/Verif/Props/X.lean`.

| Id | Property | Modelled in | How it is proved | Status |
|---|---|---|---|---|
| C01 | RFC 6052 embedding round-trips | Model/Rfc6052 | round trip and bit-level specification of the RFC 6052 table; case split on the six lengths | proved |
| C02 | RFC 6052 result shape | Model/Rfc6052 | round trip and bit-level specification of the RFC 6052 table; case split on the six lengths | proved |
| C03 | RFC 6052 is injective and extraction is exact only on canonical addresses | Model/Rfc6052 | round trip and bit-level specification of the RFC 6052 table; case split on the six lengths | proved |
| C04 | Prefix arithmetic means what it says | Model/Addr | decision procedure ⇔ bitwise specification, for all lengths and addresses | proved |
| C05 | Prefix validation accepts exactly canonical prefixes | Model/Addr | decision procedure ⇔ bitwise specification, for all lengths and addresses | proved |
| C06 | Scope screening | Model/Addr | decision procedure ⇔ bitwise specification, for all lengths and addresses | proved |
| C07 | Denylist is a faithful multiset | Model/Denylist4 | refinement of a multiset by induction over histories; pagination by induction over the client loop; counterexample for duplicates | partial |
| C08 | EAMT lookup is longest-prefix match | Model/Rtrie, Model/RtrieKey, Model/Eam | trie on an explicit heap with freed cells, refinement of a set of prefixes; invariants by induction; counterexamples (lost entries, use after free) on concrete histories | partial |
| C09 | EAMT updates never touch freed memory | Model/Rtrie, Model/RtrieKey, Model/Eam | trie on an explicit heap with freed cells, refinement of a set of prefixes; invariants by induction; counterexamples (lost entries, use after free) on concrete histories | partial |
| C10 | EAMT refuses overlaps unless forced | Model/Eam | invariants over histories of the two tries; counterexamples | partial |
| C11 | EAM address translation is reversible | Model/Eam (translation) | bit-level specification, round trips | proved |
| C12 | The two halves of the EAMT stay in step | Model/Eam | invariants over histories of the two tries; counterexamples | partial |
| C13 | SIIT address translation priority | Model/Siit | decision logic against a specification by priorities; round trips through two translations | partial |
| C14 | pool4 is a set of transport addresses | Model/Pool4, Model/Pool4List | refinement of a set of transport addresses; enumeration lemma (every candidate once); counterexamples | partial |
| C15 | pool4 address counter | Model/Pool4, Model/Pool4List | refinement of a set of transport addresses; enumeration lemma (every candidate once); counterexamples | partial |
| C16 | Mask enumeration is complete and duplicate-free | Model/Pool4, Model/Pool4List | refinement of a set of transport addresses; enumeration lemma (every candidate once); counterexamples | partial |
| C17 | pool4 membership agrees across marks | Model/Pool4, Model/Pool4List | refinement of a set of transport addresses; enumeration lemma (every candidate once); counterexamples | partial |
| C18 | pool4 table lookup by mark is total | Model/Pool4, Model/Pool4List | refinement of a set of transport addresses; enumeration lemma (every candidate once); counterexamples | partial |
| C19 | BIB is a bijection | Model/Bib, Model/RbTree | inductive invariant (`WF`) of the whole table over all operations; each operation decomposed into atoms; trees of any shape | proved |
| C20 | Session uniqueness and ownership | Model/Bib, Model/RbTree | inductive invariant (`WF`) of the whole table over all operations; each operation decomposed into atoms; trees of any shape | proved |
| C21 | Lifetime of BIB entries | Model/Bib, Model/RbTree | inductive invariant (`WF`) of the whole table over all operations; each operation decomposed into atoms; trees of any shape | partial |
| C22 | Each session is on exactly one timer, sorted by age | Model/Bib, Model/RbTree | inductive invariant (`WF`) of the whole table over all operations; each operation decomposed into atoms; trees of any shape | partial |
| C23 | No premature and no missed expiration | Model/Bib, Model/RbTree | inductive invariant (`WF`) of the whole table over all operations; each operation decomposed into atoms; trees of any shape | partial |
| C24 | TCP state machine conforms to RFC 6146 | Model/TcpSM, Model/Bib | equality with an independently written RFC 6146 table; induction over packets of a session; lifted to the tables | proved |
| C25 | TCP state and timer agree | Model/TcpSM, Model/Bib | equality with an independently written RFC 6146 table; induction over packets of a session; lifted to the tables | proved |
| C26 | Simultaneous-open storage is bounded and accounted | Model/Bib, Model/RbTree | inductive invariant (`WF`) of the whole table over all operations; each operation decomposed into atoms; trees of any shape | partial |
| C27 | Simultaneous-open upgrade is memory safe | Model/Bib, Model/RbTree | inductive invariant (`WF`) of the whole table over all operations; each operation decomposed into atoms; trees of any shape | partial |
| C28 | Address-dependent filtering | Model/Bib, Model/RbTree | inductive invariant (`WF`) of the whole table over all operations; each operation decomposed into atoms; trees of any shape | proved |
| C29 | New BIB entries use pool4 and never steal | Model/Bib, Model/RbTree | inductive invariant (`WF`) of the whole table over all operations; each operation decomposed into atoms; trees of any shape | partial |
| C30 | Range removal is exact | Model/Bib (range removal) | exact set of removed entries; counterexample for non-canonical prefixes | partial |
| C31 | Pagination of BIB and session dumps | Model/BibDump, Model/RbTree | induction over the client loop, any page sizes and any changes in between | proved |
| C32 | Session synchronization message round-trips | Model/JooldMsg, Model/Bib | byte-level round trip; bounds of every read; convergence of the tables | partial |
| C33 | Session synchronization parsing is safe | Model/JooldMsg, Model/Bib | byte-level round trip; bounds of every read; convergence of the tables | partial |
| C34 | joold queue is FIFO, bounded and paced | Model/Joold | queue refinement: FIFO, packet sizes, pacing, progress | partial |
| C35 | Synchronization converges | Model/JooldMsg, Model/Bib | byte-level round trip; bounds of every read; convergence of the tables | partial |
| C36 | ICMP type/code mapping follows RFC 7915 | Model/Icmp | equality with tables written from RFC 7915, for all types and codes | proved |
| C37 | Parameter-problem pointers | Model/Icmp | equality with tables written from RFC 7915, for all types and codes | proved |
| C38 | Checksums stay valid across translation | Model/Csum | one's complement algebra modulo 65535, any byte order and any kernel that meets the contract | partial |
| C39 | 4->6 fragmentation covers the payload exactly | Model/Header, Model/Mtu | arithmetic over all sizes; coverage and order of the fragments | partial |
| C40 | MTU advice is translated within bounds | Model/Mtu | arithmetic with C wraparound; sorting specification | partial |
| C41 | ICMP extension arithmetic | Model/IcmpExt | arithmetic over all length fields and payloads | partial |
| C42 | IPv6 extension-header walk | Model/Packet | both header walks over all byte strings: termination, agreement, bounds; counterexamples | partial |
| C43 | IPv4 option scan terminates | Model/Options | termination characterized exactly; counterexamples | partial |
| C44 | Accepted packets have complete headers | Model/Packet | both header walks over all byte strings: termination, agreement, bounds; counterexamples | partial |
| C45 | Hop limit | Model/Header | arithmetic and bit lemmas over all field values | proved |
| C46 | Fragment fields survive translation | Model/Header | arithmetic and bit lemmas over all field values | proved |
| C47 | Plateau list normalization | Model/Mtu | arithmetic with C wraparound; sorting specification | partial |
| C48 | Instance table uniqueness | Model/Xlator | inductive invariant over all interleavings of writers, readers, copies and grace periods; counterexamples | partial |
| C49 | Atomic configuration is atomic | Model/AtomicConfig | invariant over all histories of requests, packets, time-outs; counterexamples | partial |
| C50 | Reference counting of instance databases | Model/Xlator | inductive invariant over all interleavings of writers, readers, copies and grace periods; counterexamples | proved |
| C51 | Global settings keep their minima | Model/Globals | validity invariant over histories; listing by induction over pages; reload | partial |
| C52 | Hairpin classification | Model/Nat64 (joins Pool4, Bib, Rfc6052, Icmp) | decision logic, round trips and end-to-end statements in every reachable state | proved |
| C53 | Outgoing tuple matches the session in both directions | Model/Nat64 (joins Pool4, Bib, Rfc6052, Icmp) | decision logic, round trips and end-to-end statements in every reachable state | partial |
| C54 | Table statistics equal the real contents | Model/Bib, Model/RbTree | inductive invariant (`WF`) of the whole table over all operations; each operation decomposed into atoms; trees of any shape | partial |
| C55 | TCP state is only created by SYN packets | Model/Bib, Model/RbTree | inductive invariant (`WF`) of the whole table over all operations; each operation decomposed into atoms; trees of any shape | partial |
| C56 | Isolation between nodes | Model/Bib, Model/RbTree | inductive invariant (`WF`) of the whole table over all operations; each operation decomposed into atoms; trees of any shape | proved |
| C57 | Address-dependent filtering of TCP | Model/Bib, Model/RbTree | inductive invariant (`WF`) of the whole table over all operations; each operation decomposed into atoms; trees of any shape | proved |
| C58 | Traffic class | Model/Header | arithmetic and bit lemmas over all field values | partial |
| C59 | Size checks let through only what fits | Model/Header, Model/Mtu | arithmetic over all sizes; coverage and order of the fragments | partial |
| C60 | Listing of pool4 and its iteration limits | Model/Pool4, Model/Pool4List | refinement of a set of transport addresses; enumeration lemma (every candidate once); counterexamples | proved |
| C61 | EAMT listing and size | Model/Rtrie, Model/Eam | listing = contents, counting argument for the nodes | proved |
| C62 | Source of ICMP errors and fate of SIIT packets | Model/Siit | decision logic against a specification by priorities; round trips through two translations | partial |
| C63 | Hairpinning of EAM nodes | Model/Siit | decision logic against a specification by priorities; round trips through two translations | proved |
| C64 | Endpoint-independent mapping | Model/Bib, Model/Pool4 | invariant over histories | proved |
| C65 | Settings can be listed and loaded back | Model/Globals | validity invariant over histories; listing by induction over pages; reload | proved |
| C66 | What comes in from IPv4, and what is handed back | Model/Nat64 (joins Pool4, Bib, Rfc6052, Icmp) | decision logic, round trips and end-to-end statements in every reachable state | partial |
| C67 | Requests and listings arrive intact | Model/Nla, Model/NlAttr | byte-level round trips through two encoders and decoders; absence of undefined behaviour for all byte strings; counterexamples | partial |
| C68 | Requests are read safely | Model/Nla, Model/NlAttr | byte-level round trips through two encoders and decoders; absence of undefined behaviour for all byte strings; counterexamples | partial |
| C69 | Requests do what was asked, to whom it was asked | Model/Requests (joins NlAttr, Eam, Denylist4, Pool4, Bib) | end-to-end refinement from the client's bytes to the databases; case analysis for arbitrary bytes; induction over sequences of messages; counterexamples | partial |
| C70 | Every request is answered, and the client learns the outcome | Model/Response (joins NlAttr, Requests) | invariant of the pool of messages over all histories; byte-level round trips from the module to the client; case analysis of the handlers over all failures; counterexamples | partial |
| C71 | Statistics are listed completely and count what happened | Model/Stats (joins Bib) | sum over processors by induction over histories; listing by induction over pages; counterexamples | partial |
| C72 | What the client prints can be typed back, and what is typed means what it says | Model/Text (joins Requests) | round trips by induction over digits and tokens; exact characterization of what is read; invariant over the options of a command line; counterexamples | partial |
| C73 | Configuration texts are read as JSON defines them | Model/Json | specification by inductive relations after RFC 8259 and RFC 3629; round trip by induction over derivations; induction over texts for termination and memory safety; counterexamples | partial |
| C74 | Loading a configuration file leaves exactly what the file describes, or nothing | Model/File (joins Json, Text, NlAttr, AtomicConfig) | specification of files by relations; round trip from the file through the messages to the kernel's databases, by induction over the file; invariant over the interleavings with other clients (with C49); counterexamples | partial |
| C75 | Every packet has one owner, whatever fails | Model/Life (joins Bib, Nat64) | separation-style invariant (every packet and every reference to a route has one owner) with weakest preconditions, function by function; induction over lists of fragments and over histories; counterexamples | partial |
| C76 | Translating a packet only writes its new headers | Model/Build (joins Packet, IcmpExt, Header) | the bytes of both buffers are followed through every pointer movement and write of the translation; explicit concatenations as specification; induction over fragments; counterexamples | partial |
| C77 | What leaves is the packet that RFC 7915 describes | Model/Wire (joins Packet, Build, Header, Icmp, Csum) | refinement of the whole translation against a specification on bytes; inductive specification of chains of IPv6 headers; exact conditions for drops; counterexamples | partial |
| C78 | There and back: two translators leave a packet as it was | Model/Wire | composition of C77 with itself: the second translator is shown to accept what the first one sends | partial |
| C79 | A conversation through a NAT64, byte by byte | Model/Whole (joins Nat64 with Wire) | composition of C77 with the theorems about the whole path of a packet through the tables (C52, C53), for all reachable states | partial |
| C80 | The list of instances | Model/InstList (joins Xlator) | invariant of the order of the table over all histories (new instances come first, the others keep their order); induction over pages; counterexamples | partial |
| C81 | ICMP errors: what leaves is the error that RFC 7915 describes | Model/WireErr (joins Wire, Build, Icmp, IcmpExt, Mtu) | refinement of the whole translation of ICMP errors against a specification on bytes, with exact conditions for drops; counterexample | partial |
| C82 | A SIIT, from bytes to bytes | Model/WholeSiit (joins Siit with Wire and WireErr) | composition of the address theorems (C62, C63) with those about bytes (C77, C81): inductive specification of what becomes of a packet; conversations by uniqueness of the translation of addresses | partial |
| C83 | There and back from IPv6, and hairpinning, byte by byte | Model/Wire, Model/WholeSiit, Model/WholeSiitTurn | composition of both directions of C77; composition of both passes of a hairpin; what the first pass leaves in memory is what the validation would find | partial |
| C84 | ICMP errors through a NAT64, byte by byte | Model/WholeErr (joins Nat64 with WireErr) | composition of C81 with the whole path of errors through the tables; conversations by the uniqueness of BIB entries and round trips of RFC 6052 | partial |
| C85 | Loading and unloading the kernel modules | Model/Modules | inductive invariant over all histories: what is held is, as a multiset, what the configuration says; failures are a parameter of each step; counterexamples | partial |
| C86 | Sessions travel between machines through the daemons, unaltered, acknowledged, and the conversation ends | Model/Daemon (joins Joold and JooldMsg with the daemons and the network) | round trip of the bytes; inductive invariant of a cluster over all histories (who offered each session that is in a queue, a message, or a datagram); invariant and measure for the acknowledgements; counterexamples | partial |
| C87 | The choice of ports follows RFC 6056's algorithm 3 | Model/Rfc6056 (joins Pool4 and Bib) | refinement of the search against a small specification (the first free one in circles); injectivity of the message; induction over rows of connections and over histories of overlapping searches; counterexample | partial |
| C88 | IPv4 packets that do not fit are split as RFC 7915 says, or refused | Model/WireSlow (joins Header, Wire and the slow path of Build) | refinement against a specification of the pieces on bytes; induction over the pieces; exact conditions for each outcome; one's complement arithmetic for the checksum of the first piece; counterexample | partial |
| C89 | Commands may be abbreviated, and what a command line does is what its words mean | Model/Cmd | refinement against an inductive specification; invariant of the loop that chains the matches through `next`; determinism; induction over the tree of commands; counterexamples | partial |
| C90 | IPv4 packets of any size reach the IPv6 node, whole or in pieces, through the tables of the instance | Model/WholeAny, Model/WholeSiitAny (join Whole, WholeSiit and WireSlow) | composition of C77, C82 and C88; exact conditions for each outcome; induction over the packets that are handed to the network | partial |
| C91 | IPv4 packets that one stateless translator splits arrive, in fragments, behind another one | Model/WireSlow, Model/Wire (two translators in a row) | composition of C88 and C77, piece by piece; induction over the pieces; the checksum by additivity over what the other pieces carry | partial |
| C92 | Two nodes behind the same NAT64 reach each other, from bytes to bytes | Model/WholeTurn (Nat64, Build and Wire, twice) | composition of C77 with itself over the packet in memory (what the translator remembers equals what validation would find), joined with C52 | partial |
| C93 | Configuration files are read from the first to the last byte, and the daemon is configured as they say | Model/ReadFile (with Json and File) | induction over the answers of the system; texts in JSON contain no NUL (induction over the grammar); equivalence with a description of the settings | partial |
| C94 | A rule of iptables hands its packets to the instance that it names | Model/Rules (with Xlator) | induction over the options; loops over buffers; composition with C48 | partial |
| C95 | CSV listings are CSV files that say what is in the tables | Model/Listing (with Text) | a grammar of CSV that is proved to be unambiguous; each record belongs to it and determines its entry; induction over the table | partial |
| C96 | The statistics of the daemon are true, whatever its threads do | Model/DaemonStats | invariant over all interleavings of the threads, with ghost counts; the text by the grammar of C95 | partial |
| C97 | A daemon that starts is a member of the group that it was told to join | Model/DaemonStart | equivalence of the program with a description of the calls that must succeed, in their order; induction over the candidates; counterexamples | partial |
| C98 | Whoever follows the sessions sees each of them, and what it is | Model/Follow (with Daemon, JooldMsg, Listing) | round trip of each session through the binary format; grammar of C95; induction over the messages | partial |
| C99 | The report of memory leaks is the list of the leaks | Model/Leaks (with RbTree) | invariant over all histories; searches in trees of any shape, for the order of strcmp | partial |

## Defects of the code that the proofs found

Each one is a theorem (a concrete reachable witness) unless it says otherwise. The names are in the namespaces `Jool.…`.

* **EAMT / trie** (C08–C12): entries hidden by siblings (`Rtrie.sibling_hides`), entries lost when a node is orphaned
  (`Rtrie.orphan_loses_table`), use after free in `swap_nodes` (`Rtrie.swap_use_after_free`, `Eam.use_after_free`, without
  force), leaked node (`Rtrie.nomem_leaks`), supersets accepted without force (`Eam.superset_accepted`), halves out of step after a removal that
  runs out of memory (`Eam.rm_nomem_diverges`).
* **pool4** (C14–C18): the counter of addresses is wrong after a range grows or splits, so candidates are skipped or
  repeated; membership by address is lost when two marks share it (`contains_incomplete`); `cmp_mark` overflows (`mark_lost`);
  writing through the old pointer after `krealloc` moved the table.
* **BIB** (C21–C30, C55): static entries deleted by a packet of another mark (issue 216), use after free when a stored SYN cannot be upgraded,
  stored packet counter leak (`so_counter_leaks`), expired sessions hidden behind joold's future timestamps (`sweep_misses`), TCP state created by
  packets without SYN (`nonsyn_upgrades`).
* **joold** (C32–C35): handshake timeout confused with milliseconds (`lifetime_syn4`), 32 to 35 byte attributes read past their end
  (`overread_iff`), null dereference without the sessions attribute (`sync_null`), whole packets lost (`transmit_loses`), unbounded queue
  during advertisements (`queue_unbounded`), invalid state and timer numbers accepted (`parse_undefined`).
* **Translation** (C38–C44, C58, C59): endless loop on IPv4 options of length zero; underflow in ICMP extension lengths; reads outside of the
  packet if the protocol is the other family's ICMP or the data offset is too small; ECN bits lost on new kernels; sizes of paged
  data not measured. ICMP error sources not screened (C13) and swapped counters (`stat64_swapped`, C62).
* **Instances** (C48, C49): two Netfilter instances by atomic configuration (`netfilter_two`), one type shadows the other
  (`netfilter_shadow`), the window of a replacement (`replace_window`), every successful commit writes to freed memory (`commit_use_after_free`), mixed
  uploads (`mixture`), namespace reference leak (`namespace_leak`).
* **Settings** (C51): the ICMP timeout has no minimum (`icmp_timeout_unchecked`).
* **Packet path** (C52, C53, C66): a packet handed back to the kernel may leave a BIB entry (`Nat64.Ex.returned_with_traces`,
  `hairpin_returned`), echoes to pool4 come back to their sender (`echo_bounced`), answers come from another address if the
  destination has a suffix (`suffix_lost`), the outer destination of ICMP errors is ignored (`error_destination_ignored`).
* **Netlink** (C67, C68): removing an EAM entry by one prefix never works (`NlAttr.eam_rm_one_refused`); the client
  dereferences NULL on incomplete responses (`client_null_port`, `client_null_addr`, `client_null_eam`).
* **Requests** (C69): a pool4 removal that is refused still deletes BIB entries (`Req.pool4_rm_refused_but_done`) and shifts by a negative amount if the
  length is over 32 (`Req.pool4_rm_shift`); a BIB removal without protocol uses an unset variable (`Req.bib_rm_uninitialized`).
* **Responses** (C70): the buffer of the error text is overrun if another processor logs an error meanwhile (`Resp.pool_overrun`: checks of iptables rules do, without the
  lock of the requests); a greeting with an invalid name loses a buffer (`Resp.hello_leaks`); an instance addition with a malformed operand is not answered
  (`Resp.instAdd_partial`).
* **Statistics** (C54, C71): loading a configuration file resets the statistics but keeps the BIB, so that later removals make the numbers of entries and sessions
  negative (`Stats.gauge_wraps`); padding is shown as unknown statistics (`Stats.listing_padding`).
* **Text** (C72): numbers are read up to the first character that is not a digit, so that `80x`, `80,90` and, copied from the listing, `10000 -20000` are
  accepted as something else (`Text.garbage_accepted`, `Text.range_spaces`); timeouts over 49.7 days wrap (`Text.timeout_wraps`), empty and negative ones are accepted
  (`Text.timeout_nonsense`); unset prefixes and infinite iterations cannot be typed as they are printed (`Text.unset_refused`, `Text.infinite_refused`).
* **JSON** (C73): a string with an incomplete `\u` escape overflows its buffer (`Json.overflow`) or is read past the end of the file (`Json.overrun`); what follows
  the first value is ignored, and several malformed texts are accepted (`Json.lenient`).
* **Configuration files** (C74): marks from 2147483648 on are read as 0 (`File.mark_lost`: `json2mark` uses `valueint`); with `-i` but without "instance" in
  the file, the upload is started and then always fails (`File.name_in_vain`); an "instance" that is not a string makes `strdup(NULL)` (`File.iname_null`); fractions
  are cut off; an empty "mtu-plateaus" is ignored.

* **Ownership** (C75): `fix_ie` does not free the packet that it allocated if the extension cannot be copied (`Life.extension_leaks`); the workaround for #352 keeps
  the whole list of outgoing packets, and their references to routes, if a page is missing (`Life.null_page_leaks`); `fix_ie` copies neither the mark nor the
  protocol to the packet that it allocates (`Life.extension_loses_mark`); ICMP errors of the second pass of a hairpin packet are never sent
  (`Life.hairpin_error_lost`); `icmp64_send4` does not know `ICMPERR_HDR_FIELD`, `icmp64_send6` does not know `ICMPERR_SRC_ROUTE`.

* **Buffers** (C76): `move_pointers_in` takes protocol 58 in IPv4 and 1 in IPv6 for ICMP although the validation (`validate_inner4`, `validate_inner6`) does not, so
  8 bytes are written where there may be none (`Build.inner58_overflow`, `Build.inner1_overflow`); nobody checks that a TCP header claims at least 20 bytes, but its
  checksum is written (`Build.tcp_offset_overflow`); an ICMPv4 error inside of an ICMPv4 error is translated, but room was only made for one nested IPv6 header
  (`Build.nested_overflow`); `pkt_frag_hdr` of the packet inside of an ICMPv6 error uses the offset of the error's own fragment header: the fragment header of the
  packet inside is ignored (`error64_partial` says so: its IPv4 header is computed as if there was none), and if the error has one, other bytes are taken for it (`Build.fragment_header_misread`),
  perhaps beyond the packet (`Build.fragment_header_overread`).
* **Lists of instances** (C80): replacing an instance moves it to the front of its bucket, so that it can be missing in a list that is being requested
  (`InstList.replaced_missed`) or make others appear twice (`InstList.replaced_twice`; also if it is created again: `InstList.recreated_twice`); lists continue after the
  low 32 bits of the address of a namespace, and may never end if two namespaces agree in them (`InstList.low_bits_forever`).
* **Extension headers from IPv4** (C77): the protocol number of an IPv4 packet is copied even if in IPv6 it is that of an extension header (0, 43, 44, 60): what was
  validated, filtered and counted as a packet of unknown protocol leaves with, for instance, a destination options header and a UDP header that the IPv4 node wrote (`Wire.forged`,
  `Wire.forged_udp`).
* **Splitting datagrams without checksum** (C88): the checksum is left to be computed over the first fragment only; the receiver, which checks it over the whole datagram, drops it unless
  the rest and its length add up to zero (`Wire.bare_right`, `Wire.bare_wrong`, `Wire.bare_witness`).
* **Pings that are split** (C91): a stateless translator splits a big echo without DF into IPv6 fragments, though no Jool accepts a fragment of an ICMP message (RFC 7915 section 1.2 excludes them), so
  behind two translators big pings get lost silently (`Wire.far_ping`).
* **Echoes inside of errors** (C81): `update_icmp6_csum` and `update_icmp4_csum` use the length of what the router returned in the pseudo-header, and not the length of the
  packet that caused the error, so that the checksum inside is wrong if the router cut the packet (`Wire.echo_inside_cut`).
* **`rmmod` during a request** (C85): `validate_stateness` sees that the module is inserted, but nothing keeps it there. If it is removed before the request adds its
  instance, `defrag_enable` is called though the module is gone (`Mods.removal_race`), or, with SIIT, an instance stays that nobody removes and whose hooks call
  `jool_common.ko` when it is gone as well (`Mods.removal_race_siit`).
* **Endless conversation** (C86): `updated_entries_cb` acknowledges error messages too. If the acknowledgement itself is refused (the daemon's instance does not exist, the
  module is not inserted, the versions differ, the capability is missing), its error message is acknowledged again, and so on forever: the daemon and the kernel use a whole CPU. One datagram from the network is
  enough to start it (`ack_storm`, `storm_starts`).
* **Names that only differ in case** (C86): the kernel keeps instances `A` and `a` apart (`strcmp`), the daemon does not (`strcasecmp`). The daemon of `a` sends the sessions of `A` to the peers of `a`, and
  acknowledges to `a` (`case_leak`).
* **Endianness** (C86): the datagram has the headers of the Netlink attributes in the byte order of the sender. A machine of the other kind finds no sessions in it and reports success (`endian_lost`).
* **The network reaches the overread** (C86): the daemon forwards whatever arrives; a datagram of 36 bytes makes the kernel read beyond the message (`relay_forged`, cf. `parse_overreads`).
* **The sum wraps** (C87): F + `next_ephemeral` is taken modulo 2^32 before it is taken modulo the size of the pool. When the sum exceeds 2^32, a connection begins its search at a position that has nothing to
  do with the previous one, e.g. at the transport address that has just been taken (`wrap_repeats`). It costs iterations, no correctness.
* **Completion of the completion** (C89): `jool autocomplete 2 autocomplete` (what the shell runs for `jool autocomplete <TAB>`) calls `handle_autocomplete` of the option `autocomplete`, which is NULL
  (`completion_crashes`).
* **Words longer than names** (C89): `memcmp(label, word, strlen(word))` may read beyond the label; C gives no guarantee that it stops at the first difference (`long_words_overread`).
* **Files that change while they are read** (C93): `file_to_string` asks for the size, and then reads until it has as many bytes. The end of the file is no error for it: if the file has become shorter, it
  never ends (`shrunk`). Each request is for the whole size, not for what is left of the buffer: if an answer is short and the file has become longer, it writes behind the buffer (`grown`). `length + 1`
  overflows for directories whose size the system says to be 2^63-1 (`directory`).
* **NULs in files** (C93): what follows is ignored, be it JSON or not (`hidden`).
* **Settings of the daemon** (C93): the hop limit may be 256 (`ttl_256`: `256 < ttl` should be `255 < ttl`); files whose value is not an object count as empty ones (`any_root`).
* **Rules with invalid names** (C94): `iptables … -j JOOL --instance <name of 16 characters>` prints an error and adds a rule for the instance "default": `jool_tg_parse` returns `-EINVAL`, which is not zero
  and therefore means that the option was understood (`ignored`).
* **Rules that cannot be restored** (C94): `iptables-save` prints the name without quotes. If there are blanks in it, or if it is empty, the line is refused later (`blank`, `empty`); if there are quotes in it,
  the rule is for another instance (`quote`).
* **CSV of sessions** (C95): the header has 11 columns, records of UDP and ICMP sessions have 10 fields (`session_short`): the comma before the missing state is missing as well.
* **CSV of instances** (C95): names are not quoted. Commas and quotes are allowed in names, and make more fields, or something that is not CSV (`instance_comma`, `instance_lost`).
* **The last statistic** (C95): `JSTAT_PADDING` has a name, but `JSTAT_MAX <= id` counts it as unknown, so it is listed as `????` (`last_unnamed`).
* **Counters of the daemon** (C96): `atomic_int`, printed with `%d`: negative from 2^31 bytes on (`negative`). The six numbers are not loaded at once (`torn`).
* **Start of the daemon** (C97): only `socket`, `SO_REUSEADDR` and `bind` decide which address is taken; if it cannot be joined, the other ones are not tried (`not_retried`). Sockets that could not be bound are not closed (`stays_open`). `--net.ttl 4294967295` becomes -1, the default (`hops_default`). One address that cannot be bound keeps the statistics, and the daemon, from starting (`stats_all`).
* **Following sessions** (C98): `jiffies_to_msecs` truncates to 32 bits before the kernel's clamp, so a session with 2^32 milliseconds left is announced and printed as one that has none (`long_wrong`). `print_sessions` compares the length with the header to the length without it, so that sessions of 32 to 35 bytes are read beyond their end (`cut_overread`; the same as C33 in the kernel). Who follows `d` is also shown the sessions of the instance `D` (`case_leak`).
* **Memory leaks** (C99): if `wkmalloc_add` cannot allocate its entry, the object is released later with the warning that it never was allocated (`untracked_wrong`) or, if there are others of its kind, one of these is forgotten; leaks of that kind are not reported (`untracked_leaks`). The number is printed with `%d`, although it is unsigned (`negative`).

## Tests against wrong programs

`seeded/LOG.jsonl`: one line for each wrong version of the model that was built in a scratch copy, with the theorems that failed.
`tightened` names the theorems that were added or strengthened because a wrong version survived.
