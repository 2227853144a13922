import Verif.Model.NlAttr
import Verif.Model.Text
/-
The CSV listings of the user space programs: what `display --csv` writes to its standard output, from `src/usr/argp/wargp/{session,bib,eamt,denylist4,pool4,global,stats,instance}.c`.

Simplifications:
- The entries are those that arrive at the callback, in that order (which they are: Verif.Props.BibDump and others). Other formats are not here.
- `printf` and `inet_ntop` are as in Verif.Model.Text. What `getnameinfo` answers is a parameter.
-/
namespace Jool.Listing
open Jool.Text (Text Inet dec timeout2str protoName)
open Jool.NlAttr (WBib WSess WPool4 WInst)

/-- `getnameinfo`: the host and the service. `none`: an error. -/
structure Names where
  name6 : T6 → Option (Text × Text)
  name4 : T4 → Option (Text × Text)

/-- usr/argp/dns.c:8-44 `print_addr6`. -/
def printAddr6 (i : Inet) (nm : Names) (numeric : Bool) (sep : Text) (proto : BitVec 8) (a : T6) : Text :=
  match if numeric then none else nm.name6 a with
  | none => i.ntop6 a.addr ++ sep ++ dec a.port.toNat
  | some (host, service) => if proto ≠ 2 then host ++ sep ++ service else host ++ sep ++ dec a.port.toNat

/-- usr/argp/dns.c:46-82 `print_addr4`. -/
def printAddr4 (i : Inet) (nm : Names) (numeric : Bool) (sep : Text) (proto : BitVec 8) (a : T4) : Text :=
  match if numeric then none else nm.name4 a with
  | none => i.ntop4 a.addr ++ sep ++ dec a.port.toNat
  | some (host, service) => if proto ≠ 2 then host ++ sep ++ service else host ++ sep ++ dec a.port.toNat

/-- usr/argp/wargp/session.c:39-59 `tcp_state_to_string`; the values are those of src/common/session.h:14-38. -/
def stateName (s : BitVec 8) : Text :=
  if s = 0 then "ESTABLISHED".toList else if s = 2 then "V4_INIT".toList else if s = 1 then "V6_INIT".toList else if s = 3 then "V4_FIN_RCV".toList
  else if s = 4 then "V6_FIN_RCV".toList else if s = 5 then "V4_FIN_V6_FIN_RCV".toList else if s = 6 then "TRANS".toList else "UNKNOWN".toList

/-- usr/argp/wargp/session.c:61-83 `handle_display_response`, CSV. `proto`: the table that was asked for. -/
def sessionLine (i : Inet) (nm : Names) (numeric : Bool) (proto : BitVec 8) (e : WSess) : Text :=
  protoName proto ++ [','] ++ printAddr6 i nm numeric [','] proto e.src6 ++ [','] ++ printAddr6 i nm true [','] proto e.dst6 ++ [','] ++
    printAddr4 i nm true [','] proto e.src4 ++ [','] ++ printAddr4 i nm numeric [','] proto e.dst4 ++ [','] ++ timeout2str e.ms ++
    (if proto = 0 then ',' :: stateName e.state else []) ++ ['\n']

/-- usr/argp/userspace-types.c:6-9 `show_csv_header` and what follows. -/
def header (noHeaders : Bool) (h : String) : Text := if noHeaders then [] else h.toList ++ ['\n']

/-- usr/argp/wargp/session.c:124-131. -/
def sessionHeader : String := "Protocol,IPv6 Remote Address,IPv6 Remote L4-ID,IPv6 Local Address,IPv6 Local L4-ID,IPv4 Local Address,IPv4 Local L4-ID,IPv4 Remote Address,IPv4 Remote L4-ID,Expires in,State"

/-- usr/argp/wargp/session.c:108-139 `handle_session_display`. -/
def sessions (i : Inet) (nm : Names) (noHeaders numeric : Bool) (proto : BitVec 8) (l : List WSess) : Text :=
  header noHeaders sessionHeader ++ l.flatMap (sessionLine i nm numeric proto)

/-- usr/argp/wargp/bib.c:32-42 `print_entry`, CSV. -/
def bibLine (i : Inet) (nm : Names) (numeric : Bool) (e : WBib) : Text :=
  protoName e.proto ++ [','] ++ printAddr6 i nm numeric [','] e.proto e.a6 ++ [','] ++ printAddr4 i nm true [','] e.proto e.a4 ++ [','] ++ dec (if e.static then 1 else 0) ++ ['\n']

/-- usr/argp/wargp/bib.c:59-81 `handle_bib_display`. -/
def bibs (i : Inet) (nm : Names) (noHeaders numeric : Bool) (l : List WBib) : Text :=
  header noHeaders "Protocol,IPv6 Address,IPv6 L4-ID,IPv4 Address,IPv4 L4-ID,Static?" ++ l.flatMap (bibLine i nm numeric)

/-- usr/argp/wargp/eamt.c:28-48 `print_entry`, CSV. -/
def eamLine (i : Inet) (e : Eam.Entry) : Text :=
  i.ntop6 e.p6.addr ++ ['/'] ++ dec e.p6.len ++ [','] ++ i.ntop4 e.p4.addr ++ ['/'] ++ dec e.p4.len ++ ['\n']

/-- usr/argp/wargp/eamt.c:50-86 `handle_eamt_display`. -/
def eams (i : Inet) (noHeaders : Bool) (l : List Eam.Entry) : Text := header noHeaders "IPv6 Prefix,IPv4 Prefix" ++ l.flatMap (eamLine i)

/-- usr/argp/wargp/denylist4.c:28-39 `print_entry`, CSV; 41-76 `handle_denylist4_display`. -/
def denied (i : Inet) (noHeaders : Bool) (l : List Prefix4) : Text :=
  header noHeaders "IPv4 Prefix" ++ l.flatMap (fun p => i.ntop4 p.addr ++ ['/'] ++ dec p.len ++ ['\n'])

/-- usr/argp/wargp/pool4.c:44-59 `display_entry_csv`. -/
def pool4Line (i : Inet) (w : WPool4) : Text :=
  dec w.mark.toNat ++ [','] ++ protoName w.proto ++ [','] ++ i.ntop4 w.pfx.addr ++ (if w.pfx.len ≠ 32 then '/' :: dec w.pfx.len else []) ++ [','] ++ dec w.min.toNat ++ [','] ++
    dec w.max.toNat ++ [','] ++ (if w.flags &&& 4 ≠ 0 then "infinite,".toList else dec w.iters.toNat ++ [',']) ++ dec (if w.flags &&& 2 ≠ 0 then 0 else 1) ++ ['\n']

/-- usr/argp/wargp/pool4.c:113-153 `handle_pool4_display`. -/
def pool4s (i : Inet) (noHeaders : Bool) (l : List WPool4) : Text :=
  header noHeaders "Mark,Protocol,Address,Min port,Max port,Iterations,Iterations fixed" ++ l.flatMap (pool4Line i)

/-- usr/argp/wargp/global.c:22-36 `handle_display_response`, CSV; 38-61 `handle_global_display`. -/
def globals (i : Inet) (noHeaders : Bool) (l : List (Text × Text.GVal)) : Text :=
  header noHeaders "Field,Value" ++ l.flatMap (fun e => e.1 ++ [','] ++ Text.print i true e.2 ++ ['\n'])

/-- usr/nl/stats.c:18-112 `jstat_metadatas`: the names and explanations, from identifier 1 on. -/
def metadatas : List (String × String) := [
  ("JSTAT_RECEIVED6", "Total IPv6 packets received by the instance so far."),
  ("JSTAT_RECEIVED4", "Total IPv4 packets received by the instance so far."),
  ("JSTAT_SUCCESS", "Successful translations. (Note: 'Successful translation' does not imply that the packet was actually delivered.)"),
  ("JSTAT_BIB_ENTRIES", "Number of BIB entries currently held in the BIB."),
  ("JSTAT_SESSIONS", "Number of session entries currently held in the BIB."),
  ("JSTAT_ENOMEM", "Memory allocation failures."),
  ("JSTAT_XLATOR_DISABLED", "Translations cancelled: Translator was manually disabled."),
  ("JSTAT_POOL6_UNSET", "Translations cancelled: pool6 was unset."),
  ("JSTAT_SKB_SHARED", "Translations cancelled: Packet was shared. (In the kernel, when packets are 'shared', they cannot be modified.)"),
  ("JSTAT_L3HDR_OFFSET", "Translations cancelled: Packet corrupted; Network header offset is not relative to skb->data."),
  ("JSTAT_SKB_TRUNCATED", "Translations cancelled: Packet corrupted; Data stopped in the middle of a header."),
  ("JSTAT_HDR6", "Translations cancelled: Some IPv6 header field was bogus. (Eg. version was not 6.)"),
  ("JSTAT_HDR4", "Translations cancelled: Some IPv4 header field was bogus. (Eg. version was not 4.)"),
  ("JSTAT_UNKNOWN_L4_PROTO", "Translations cancelled: Packet carried an unknown transport protocol. (Untranslatable by NAT64.)"),
  ("JSTAT_UNKNOWN_ICMP6_TYPE", "Translations cancelled: ICMPv6 header's type and code values have no ICMPv4 counterpart."),
  ("JSTAT_UNKNOWN_ICMP4_TYPE", "Translations cancelled: ICMPv4 header's type and code values have no ICMPv6 counterpart."),
  ("JSTAT_DOUBLE_ICMP6_ERROR", "Translations cancelled: ICMPv6 error contained another ICMPv6 error. (Which is illegal.)"),
  ("JSTAT_DOUBLE_ICMP4_ERROR", "Translations cancelled: ICMPv4 error contained another ICMPv4 error. (Which is illegal.)"),
  ("JSTAT_UNKNOWN_PROTO_INNER", "Translations cancelled: ICMP error's inner packet had an unknown transport protocol. (Untranslatable by NAT64.)"),
  ("JSTAT_HAIRPIN_LOOP", "Translations cancelled: Incoming IPv6 packet's source address matches pool6. (Only the destination address should match pool6.)\nYou have to think of the IPv4 network as an IPv6 network whose prefix is pool6. If your actual IPv6 client also has the pool6 prefix, then your setup risks IP address collision.\nEither change the client's address or fix your pool6 so it represents a unique network."),
  ("JSTAT_POOL6_MISMATCH", "Translations cancelled: IPv6 packet's destination address did not match pool6. (ie. Packet was not meant to be translated.)"),
  ("JSTAT_POOL4_MISMATCH", "Translations cancelled: IPv4 packet's destination address and transport protocol did not match pool4. (ie. Packet was not meant to be translated.)\nIf the instance is a Netfilter translator, this counter increases randomly from normal operation, and is harmless.\nIf the instance is an iptables translator, this counter being positive suggests a mismatch between the IPv4 iptables rule(s) and the instance's configuration."),
  ("JSTAT_ICMP6_FILTER", "Packets filtered by `drop-icmpv6-info` policy."),
  ("JSTAT_UNTRANSLATABLE_DST6", "Translations cancelled: IPv6 packet's destination address did not match pool6."),
  ("JSTAT_UNTRANSLATABLE_DST4", "Translations cancelled: IPv4 packet's source address could not be translated with the given pool6."),
  ("JSTAT_6056_F", "Translations cancelled: Unable to hash packet fields; cannot compute source port. (From my reading of the 4.15 kernel, this can only happen due to memory allocation failures, but YMMV.)"),
  ("JSTAT_MASK_DOMAIN_NOT_FOUND", "Translations cancelled: There was no pool4 entry whose protocol and mark matched the incoming IPv6 packet."),
  ("JSTAT_BIB6_NOT_FOUND", "Translations cancelled: IPv6 packet did not match a BIB entry from the database, and one could not be created."),
  ("JSTAT_BIB4_NOT_FOUND", "Translations cancelled: IPv4 packet did not match a BIB entry from the database."),
  ("JSTAT_SESSION_NOT_FOUND", "Translations cancelled: Packet was an ICMP error, but did not match a session entry from the database. (Which means that the original packet couldn't have been translated.)"),
  ("JSTAT_ADF", "Packets filtered by `address-dependent-filtering` policy."),
  ("JSTAT_V4_SYN", "Packets filtered by `drop-externally-initiated-tcp` policy."),
  ("JSTAT_SYN6_EXPECTED", "Translations cancelled: Incoming IPv6 packet was the first of a TCP connection, but its SYN flag was disabled."),
  ("JSTAT_SYN4_EXPECTED", "Translations cancelled: Incoming IPv4 packet was the first of a TCP connection, but its SYN flag was disabled."),
  ("JSTAT_TYPE1PKT", "Total number of Type 1 packets stored. (See https://github.com/NICMx/Jool/blob/584a846d09e891a0cd6342426b7a25c6478c90d6/src/mod/nat64/bib/pkt_queue.h#L77) (This counter is not decremented when a packet leaves the queue.)"),
  ("JSTAT_TYPE2PKT", "Total number of Type 2 packets stored. (See https://github.com/NICMx/Jool/blob/584a846d09e891a0cd6342426b7a25c6478c90d6/src/mod/nat64/bib/pkt_queue.h#L77) (This counter is not decremented when a packet leaves the queue.)"),
  ("JSTAT_SO_EXISTS", "Translations cancelled: Packet was a Simultaneous Open retry. (Client was trying to punch a hole, and was being unnecessarily greedy.)"),
  ("JSTAT_SO_FULL", "Translations cancelled: Packet queue was full, so the Simultaneous Open attempt was denied. (Too many clients were trying to punch holes.)"),
  ("JSTAT64_SRC", "Translations cancelled: IPv6 packet's source address did not match pool6 nor any EAMT entries, or the resulting address was denylist4ed."),
  ("JSTAT64_DST", "Translations cancelled: IPv6 packet's destination address did not match pool6 nor any EAMT entries, or the resulting address was denylist4ed."),
  ("JSTAT64_PSKB_COPY", "Translations cancelled: It was not possible to allocate the IPv4 counterpart of the IPv6 packet. (The kernel's pskb_copy() function failed.)"),
  ("JSTAT64_6791_ENOENT", "Translations cancelled: The rfc6791v4 prefix was needed, but it was unset and a suitable replacement could not be found. Cause is unknown."),
  ("JSTAT64_ICMP_CSUM", "Translations cancelled: Incoming ICMPv6 error packet's checksum was incorrect."),
  ("JSTAT64_UNTRANSLATABLE_PARAM_PROB_PTR", "Translations cancelled: Packet was an ICMv6 Parameter Problem error message, but its pointer was untranslatable."),
  ("JSTAT64_TTL", "Translations cancelled: IPv6 packet's Hop Limit field was 0 or 1."),
  ("JSTAT64_FRAGMENTED_ICMP", "Translations cancelled: IPv6 Packet was fragmented and ICMP, so its checksum was impossible to translate. (Unknown total packet length from IPv6 pseudoheader.)"),
  ("JSTAT64_2XFRAG", "Translations cancelled: IPv6 packet has two fragment headers."),
  ("JSTAT64_FRAG_THEN_EXT", "Translations cancelled: IPv6 packet has a Hop-by-Hop, Destination or Routing header after the Fragment header."),
  ("JSTAT64_SEGMENTS_LEFT", "Translations cancelled: IPv6 packet had a Segments Left field, and it was nonzero."),
  ("JSTAT46_SRC", "Translations cancelled: IPv4 packet's source address was denylist4ed, or did not match pool6 nor any EAMT entries."),
  ("JSTAT46_DST", "Translations cancelled: IPv4 packet's destination address was denylist4ed, or did not match pool6 nor any EAMT entries."),
  ("JSTAT46_PSKB_COPY", "Translations cancelled: It was not possible to allocate the IPv6 counterpart of the IPv4 packet. (The kernel's __pskb_copy() function failed.)"),
  ("JSTAT46_6791_ENOENT", "Translations cancelled: The rfc6791v6 prefix was needed, but it was unset and a suitable replacement could not be found. Cause is unknown."),
  ("JSTAT46_ICMP_CSUM", "Translations cancelled: Incoming ICMPv4 error packet's checksum was incorrect."),
  ("JSTAT46_UNTRANSLATABLE_PARAM_PROBLEM_PTR", "Translations cancelled: Packet was an ICMv4 Parameter Problem error message, but its pointer was untranslatable."),
  ("JSTAT46_TTL", "Translations cancelled: IPv4 packet's TTL field was 0 or 1."),
  ("JSTAT46_FRAGMENTED_ICMP", "Translations cancelled: IPv4 Packet was fragmented and ICMP, so its checksum was impossible to translate. (Unknown total packet length for IPv6 pseudoheader.)"),
  ("JSTAT46_SRC_ROUTE", "Translations cancelled: Packet had an unexpired Source Route. (Untranslatable.)"),
  ("JSTAT46_FRAGMENTED_ZERO_CSUM", "Translations cancelled: IPv4 packet's UDP checksum was zero. Jool dropped the packet because --amend-udp-checksum-zero was disabled, and/or the packet was fragmented.\n(In IPv4, the UDP checksum is optional, but in IPv6 it is not. Because stateless translators do not collect fragments, they cannot compute packet-wide checksums from scratch. Zero-checksum UDP fragments are thus untranslatable.)"),
  ("JSTAT46_BAD_MTU", "Translations cancelled: Translated packet was IPv6, but the interface through which it was routed had an illegal MTU. (< 1280)"),
  ("JSTAT_FAILED_ROUTES", "Translations cancelled: The translated packet could not be routed; the kernel's routing function errored. Cause is unknown. (It usually happens because the packet's destination address could not be found in the routing table.)"),
  ("JSTAT_PKT_TOO_BIG", "Translations cancelled: Translated IPv4 packet did not fit in the outgoing interface's MTU. A Packet Too Big or Fragmentation Needed ICMP error was returned to the client."),
  ("JSTAT_DST_OUTPUT", "Translations cancelled: Translation was successful but the kernel's packet dispatch function (dst_output()) returned nonzero."),
  ("JSTAT_ICMP6ERR_SUCCESS", "ICMPv6 errors (created by Jool, not translated) sent successfully."),
  ("JSTAT_ICMP6ERR_FAILURE", "ICMPv6 errors (created by Jool, not translated) that could not be sent."),
  ("JSTAT_ICMP4ERR_SUCCESS", "ICMPv4 errors (created by Jool, not translated) sent successfully."),
  ("JSTAT_ICMP4ERR_FAILURE", "ICMPv4 errors (created by Jool, not translated) that could not be sent."),
  ("JSTAT_ICMPEXT_BIG", "Illegal ICMP header length. (Exceeds available payload in packet.)"),
  ("JSTAT_JOOLD_EMPTY", "Joold packet not sent; no sessions queued."),
  ("JSTAT_JOOLD_TIMEOUT", "Joold packet sent; ss-flush-deadline reached."),
  ("JSTAT_JOOLD_MISSING_ACK", "Joold packet not sent; still waiting for ACK."),
  ("JSTAT_JOOLD_AD_ONGOING", "Joold packet sent; advertise still ongoing."),
  ("JSTAT_JOOLD_PKT_FULL", "Joold packet sent; session packet full."),
  ("JSTAT_JOOLD_QUEUING", "Joold packet not sent; packet still has room for more sessions."),
  ("JSTAT_JOOLD_SSS_QUEUED", "Joold: Total sessions queued."),
  ("JSTAT_JOOLD_SSS_SENT", "Joold: Total sessions successfully sent."),
  ("JSTAT_JOOLD_SSS_RCVD", "Joold: Total sessions successfully received."),
  ("JSTAT_JOOLD_SSS_ENOSPC", "Joold: Total sessions dropped because the queue was full."),
  ("JSTAT_JOOLD_PKT_SENT", "Joold: Total session packets successfully sent."),
  ("JSTAT_JOOLD_PKT_RCVD", "Joold: Total session packets successfully received."),
  ("JSTAT_JOOLD_ADS", "Joold: Total advertises queued."),
  ("JSTAT_JOOLD_ACKS", "Joold: Total ACKs received from userspace."),
  ("JSTAT_UNKNOWN", "Translations cancelled: Programming error found. The module recovered, but the packet was dropped."),
  ("JSTAT_PADDING", "Dummy; ignore this one.")]

/-- usr/nl/stats.c:178-188: the name and the explanation of a statistic. src/common/stats.h:112-116: `JSTAT_MAX` is `JSTAT_PADDING`, the last one of them. -/
def metaOf (id : Nat) : String × String :=
  if id < 1 ∨ metadatas.length ≤ id then ("????", "This stat is unknown.") else (metadatas[id - 1]?).getD ("", "")

/-- usr/argp/wargp/stats.c:36-55 `handle_jstat`, CSV. -/
def statLine (all explain : Bool) (e : Nat × BitVec 64) : Text :=
  if !all && e.2 == 0 then [] else
    (metaOf e.1).1.toList ++ [','] ++ dec e.2.toNat ++ (if explain then [',', '"'] ++ (metaOf e.1).2.toList ++ ['"'] else []) ++ ['\n']

/-- usr/argp/wargp/stats.c:57-82 `handle_stats_display`. -/
def stats (noHeaders all explain : Bool) (l : List (Nat × BitVec 64)) : Text :=
  header noHeaders (if explain then "Stat,Value,Explanation" else "Stat,Value") ++ l.flatMap (statLine all explain)

/-- `printf("%x")`. -/
def hexF : Nat → Nat → Text
  | 0, _ => []
  | f + 1, n => if n < 16 then [Nat.digitChar n] else hexF f (n / 16) ++ [Nat.digitChar (n % 16)]
def hex (n : Nat) : Text := hexF (n + 1) n

def nameText (l : List (BitVec 8)) : Text := l.map (fun b => Char.ofNat b.toNat)

/-- usr/argp/wargp/instance.c:73-83 `print_entry_csv`. -/
def instLine (e : WInst) : Text :=
  hex e.ns.toNat ++ [','] ++ nameText e.name ++ [','] ++
    (if e.xf &&& 4 ≠ 0 then "netfilter".toList else if e.xf &&& 8 ≠ 0 then "iptables".toList else "unknown".toList) ++ ['\n']

/-- usr/argp/wargp/instance.c:114-154 `handle_instance_display`. -/
def instances (noHeaders : Bool) (l : List WInst) : Text := header noHeaders "Namespace,Name,Framework" ++ l.flatMap instLine

end Jool.Listing
