import Verif.Hashsum.Model

/-!
# Socket address: model

Models `src/internal_modules/roc_address/target_posix/roc_address/socket_addr.cpp` and
`src/internal_modules/roc_address/parse_socket_addr.cpp` on Linux, where `sockaddr_in` has 16 bytes (family, port,
address, 8 bytes of zeros) and `sockaddr_in6` has 28 bytes (family, port, flow, address, scope).

The functions `inet_pton` and `inet_ntop` of the C library are parameters. Bytes are natural numbers.
-/

namespace Verif.SocketAddr

/-- `AF_INET` on Linux. (Used in roc_address/socket_addr.cpp:26.) -/
def afInet : Nat := 2

/-- `AF_INET6` on Linux. (Used in roc_address/socket_addr.cpp:26.) -/
def afInet6 : Nat := 10

/-- The union `saddr_` (socket_addr.h:95) by position of bytes: 0-1, 2-3 (network byte order), 4-7 (`sin_addr` or
`sin6_flowinfo`), 8-23 (`sin6_addr`; the first 8 bytes are `sin_zero`), 24-27 (`sin6_scope_id`). -/
structure Addr where
  family : Nat
  port : Nat
  b4 : List Nat
  b16 : List Nat
  scope : List Nat
deriving DecidableEq

/-- Constructor and `clear` (socket_addr.cpp:17-23). -/
def Addr.empty : Addr := ⟨0, 0, List.replicate 4 0, List.replicate 16 0, List.replicate 4 0⟩

/-- The C library: `inet_pton` for both families, and `inet_ntop`. (Used in roc_address/socket_addr.cpp:58, 71, 134, 140.) -/
structure Libc where
  pton4 : List Char → Option (List Nat)
  pton6 : List Char → Option (List Nat)
  ntop4 : List Nat → List Char
  ntop6 : List Nat → List Char

/-- `AddrFamily` (addr_family.h:17-28). -/
inductive Family
  | unknown
  | ipv4
  | ipv6
deriving DecidableEq

/-- `(uint16_t)port` (socket_addr.cpp:64, 77). -/
def port16 (port : Int) : Nat := (port % 65536).toNat

/-- `set_host_port` (socket_addr.cpp:45-80); `none`: false is returned, nothing is changed. -/
def Addr.set (c : Libc) (a : Addr) (f : Family) (host : List Char) (port : Int) : Option Addr :=
  match f with
  | .ipv4 => (c.pton4 host).map fun b => { a with family := afInet, b4 := b, port := port16 port }
  | .ipv6 => (c.pton6 host).map fun b => { a with family := afInet6, b16 := b, port := port16 port }
  | .unknown => none

/-- `set_host_port_auto` (socket_addr.cpp:40-43). -/
def Addr.setAuto (c : Libc) (a : Addr) (host : List Char) (port : Int) : Option Addr :=
  match a.set c .ipv4 host port with
  | some b => some b
  | none => a.set c .ipv6 host port

/-- `set_host_port_saddr` (socket_addr.cpp:29-38): the bytes of the address are copied, 16 or 28 of them. -/
def Addr.setSaddr (a b : Addr) : Option Addr :=
  if b.family = afInet then some { a with family := b.family, port := b.port, b4 := b.b4, b16 := b.b16.take 8 ++ a.b16.drop 8 }
  else if b.family = afInet6 then some b
  else none

/-- `family` (socket_addr.cpp:98-107). -/
def Addr.fam (a : Addr) : Family := if a.family = afInet then .ipv4 else if a.family = afInet6 then .ipv6 else .unknown

/-- `port` (socket_addr.cpp:109-118). -/
def Addr.getPort (a : Addr) : Int := match a.fam with | .unknown => -1 | _ => a.port

/-- `get_host` (socket_addr.cpp:131-150) for a buffer that is large enough. -/
def Addr.host (c : Libc) (a : Addr) : Option (List Char) :=
  match a.fam with
  | .ipv4 => some (c.ntop4 a.b4)
  | .ipv6 => some (c.ntop6 a.b16)
  | .unknown => none

/-- `multicast` (socket_addr.cpp:120-129). `IN_MULTICAST` masks the upper four bits of the address, the other macro compares
the first byte. -/
def Addr.multicast (a : Addr) : Bool :=
  match a.fam with
  | .ipv4 => decide (a.b4.getD 0 0 / 16 * 16 = 224)
  | .ipv6 => decide (a.b16.getD 0 0 = 255)
  | .unknown => false

/-- `operator==` (socket_addr.cpp:156-187). -/
def Addr.eq (a b : Addr) : Bool :=
  if a.family ≠ b.family then false
  else if a.family = afInet then decide (a.b4 = b.b4 ∧ a.port = b.port)
  else if a.family = afInet6 then decide (a.b16 = b.b16 ∧ a.port = b.port)
  else true

/-- Bytes of the union. (roc_address/socket_addr.h:92-95) -/
def Addr.bytes (a : Addr) : List Nat := [a.family % 256, a.family / 256, a.port / 256, a.port % 256] ++ a.b4 ++ a.b16 ++ a.scope

/-- `slen` (socket_addr.cpp:90-92, 193-202). -/
def Addr.slen (a : Addr) : Nat := match a.fam with | .ipv4 => 16 | .ipv6 => 28 | .unknown => 0

/-- Hash of an address (reporter.h:388-390, receiver_session_router.h:185-187). -/
def Addr.hash (a : Addr) : Nat := Hashsum.mem true (a.bytes.take a.slen)

/-- `parse_ipv6_addr` (parse_socket_addr.cpp:17-42); `size` is the size of the buffer. -/
def unbracket (size : Nat) (s : List Char) : Option (List Char) :=
  if s.length = 0 then none
  else if s.length = 1 then none
  else if s.getD 0 ' ' ≠ '[' then none
  else if s.getD (s.length - 1) ' ' ≠ ']' then none
  else if s.length - 2 > size - 1 then none
  else some ((s.drop 1).take (s.length - 2))

/-- `parse_socket_addr` (parse_socket_addr.cpp:46-72). -/
def parse (c : Libc) (a : Addr) (host : List Char) (port : Int) : Option Addr :=
  if port < 0 then none
  else if host.getD 0 ' ' = '[' then
    match unbracket 196 host with
    | none => none
    | some h => a.set c .ipv6 h port
  else a.set c .ipv4 host port

end Verif.SocketAddr
