import Verif.Model.Daemon
import Verif.Model.Listing
/-
`jool session follow`: what is printed about the sessions that the kernel sends. (What the daemon does with each message is
`Jool.Relay.react`; `netsocket_enabled()` is false, because `netcfg` is static and nobody starts the socket:
src/usr/argp/joold/netsocket.c:20, 362-365.)
-/
namespace Jool.Follow
open Jool.Text
open Jool.Relay (Msg Act react)

/-- src/usr/argp/joold/modsocket.c:91: the protocol, two bits of the flags. -/
def proto (r : JooldMsg.Raw) : BitVec 8 := BitVec.ofNat 8 (r.flags / 32 % 4)

/-- src/usr/argp/joold/modsocket.c:100-121 `print_sessions`: one session. (`inet_ntop` is `Inet.ntop6`, `Inet.ntop4`. The buffer, of
46 bytes, is large enough for what it receives.) -/
def sessionLine (i : Inet) (r : JooldMsg.Raw) : Text :=
  protoName (proto r) ++ [','] ++ i.ntop6 (BitVec.ofNat 128 r.src6) ++ [','] ++ dec r.port6 ++ [','] ++ i.ntop4 (BitVec.ofNat 32 r.src4) ++ [','] ++ dec r.port4 ++ [','] ++
    i.ntop4 (BitVec.ofNat 32 r.dst4) ++ [','] ++ dec r.portd ++ [','] ++ timeout2str (BitVec.ofNat 32 r.ms) ++ ['\n']

/-- What an act of the daemon prints. -/
def printed (i : Inet) : Act → Text
  | .print l => l.flatMap (sessionLine i)
  | _ => []

/-- src/usr/argp/joold/modsocket.c:243-256 `modsocket_listen`, while these messages arrive. -/
def listen (i : Inet) (v : Nat) (me : Relay.Name) : List Msg → Outcome Text
  | [] => .ok []
  | m :: l => (react v me false m).bind fun as => (listen i v me l).map (as.flatMap (printed i) ++ ·)

/-- src/usr/argp/wargp/session.c:149-150. -/
def banner : List Text := ["Commands parsed successfully; switching to syslog.".toList, "See journalctl for error messages from now on.".toList]

/-- src/usr/argp/wargp/session.c:141-161 `handle_session_follow`, from the moment when the socket is ready; src/usr/argp/joold/modsocket.c:206: no
name means "default" (`me`, already with it). -/
def follow (i : Inet) (v : Nat) (me : Relay.Name) (l : List Msg) : Outcome Text :=
  (listen i v me l).map ((banner.flatMap (· ++ ['\n'])) ++ ·)

end Jool.Follow
