import Verif.Model.Start
import Verif.Model.Diag
import Verif.Model.Link
import Verif.Model.Loop

/-
Diagnostics that cannot be written: what they leave in `errno`, and who reads it afterwards.

Of the places that look at `errno` behind a diagnostic (`ConfFile::parse`, `UdpEndpoint::write_msg`,
`TcpEndpoint::write_msg`) all are here; everywhere else `errno` is read before the diagnostic, or set by a later call.
-/

namespace Verif

/-- `errno` after `Log::log(level, …)` (src/common/log.cpp:106-158). A diagnostic above the maximum level does nothing. Otherwise
`errno` is restored before the text is formatted (123) but not after `writev` (138) or `vsyslog`, so that the number a
failed write leaves stays. `res`: `none` if the diagnostic was written, else that number. -/
def errnoAfter (max level : LogLevel) (res : Option Nat) (errno : Nat) : Nat :=
  if max.num < level.num then errno else res.getD errno

/-- A configuration file on the disk: `open` fails, `stat` or `mmap` fails (an empty file cannot be mapped; `stat` of the open
file is assumed not to fail with `ENOENT`), or it has a content (src/common/conf_file.cpp:65-88). -/
inductive DiskFile where
  | openFails (errno : Nat)
  | mapFails
  | content (bytes : List UInt8)
deriving DecidableEq, Repr

/-- `ConfFile::parse` (src/common/conf_file.cpp:71-75) returns `-errno` after it reported the failure; its caller takes
`-ENOENT` for a missing file (src/main.cpp:541-543). While the configuration is read the maximum level is info. -/
def DiskFile.state (res : Option Nat) : DiskFile → FileState
  | .openFails e => if errnoAfter .info .error res e = 2 then .missing else .unreadable
  | .mapFails => .unreadable
  | .content b => .content b

/-- `main` up to the main loop (src/main.cpp:602-642); `res`: what becomes of the diagnostic about the configuration file, should
there be one. For the files of the configuration directory every error is fatal (582-588), so diagnostics make no difference. -/
def mainStartD (h : Host) (disk : List UInt8 → DiskFile) (res : Option Nat) (argv : List (List UInt8)) : Outcome :=
  mainStart { h with file := fun n => (disk n).state res } argv

/-- The error number of a failed `write`/`sendto`. -/
def SysRes.errno : SysRes → Nat
  | .took _ => 0
  | .eagain => 11
  | .epipe => 32
  | .other e => e

/-- The failure with this error number. -/
def SysRes.ofErrno (e : Nat) : SysRes := if e = 11 then .eagain else if e = 32 then .epipe else .other e

/-- The errors about which `write_msg` issues no diagnostic: `EAGAIN`, `ECONNREFUSED`, and for UDP `ENETUNREACH`
(src/endpoint.cpp:1359, 1710). -/
def quietErrors : LinkKind → List Nat
  | .udp => [11, 111, 101]
  | _ => [11, 111]

/-- The result of the system call as the rest of `write_msg` sees it, behind the diagnostic about a failure
(src/endpoint.cpp:1357-1363, 1708-1722). `UartEndpoint::write_msg` looks at `errno` before (1010-1013). -/
def SysRes.seen (k : LinkKind) (max : LogLevel) (res : Option Nat) : SysRes → SysRes
  | .took n => .took n
  | r =>
    if k = .uart ∨ r.errno ∈ quietErrors k then r
    else .ofErrno (errnoAfter max .error res r.errno)

/-- The kinds of results `Verif.Model.Loop` distinguishes. -/
def SysRes.kind : SysRes → WRes
  | .took _ => .ok
  | .eagain => .again
  | .epipe => .epipe
  | .other _ => .err

end Verif
