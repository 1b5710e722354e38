/-!
# FEC writer

Model of `src/internal_modules/roc_fec/writer.cpp`. The encoder is a black box: whether `begin` succeeds, and for which
repair packets allocation and preparation succeed, is an argument of every call. The payload is represented by its size.
The inner writer and the composers succeed (otherwise the code panics, writer.cpp:123, 201, 272, 287); packets have the
right flags and scheme (305-325). `cur_block_repair_sn_` is not used by the code.
-/

namespace Verif.FecWriter

/-- FEC fields of an emitted packet (writer.cpp:295-303). Source packets are identified by a tag of the caller. -/
inductive Pkt where
  | source (tag esi sbn sblen blen : Nat)
  | repair (esi sbn sblen blen : Nat)
deriving DecidableEq

/-- Members (writer.h:94-128). -/
structure St where
  maxLen : Nat
  sbn : Nat
  curS : Nat
  nextS : Nat
  curR : Nat
  nextR : Nat
  size : Nat
  cur : Nat
  alive : Bool
deriving DecidableEq

/-- `seqnum_t`, `blknum_t` (units.h:78, 130). -/
abbrev m16 : Nat := 65536

/-- `size_t`. (units of memory, 64 bit platform; writer.cpp:70) -/
abbrev m64 : Nat := 18446744073709551616

/-- `resize` (writer.cpp:60-92). -/
def St.resize (s : St) (sblen rblen : Nat) : St × Bool :=
  if s.nextS = sblen ∧ s.nextR = rblen then (s, true)
  else if sblen = 0 then (s, false)
  else if (sblen + rblen) % m64 > s.maxLen then (s, false)
  else ({ s with nextS := sblen, nextR := rblen }, true)

/-- Constructor (writer.cpp:19-50), `sbn` is the random number; `none` if it is not valid. -/
def St.new (maxLen sbn sblen rblen : Nat) : Option St :=
  if (St.resize ⟨maxLen, sbn % m16, 0, 0, 0, 0, 0, 0, true⟩ sblen rblen).2 then
    some (St.resize ⟨maxLen, sbn % m16, 0, 0, 0, 0, 0, 0, true⟩ sblen rblen).1
  else none

/-- Repair packets of a block (writer.cpp:208-293), `ok i` tells if packet `i` could be created. -/
def repairs (s : St) (ok : Nat → Bool) : List Pkt :=
  ((List.range s.curR).filter ok).map (fun i => .repair ((s.curS % m16 + i % m16) % m16) s.sbn s.curS (s.curS + s.curR))

/-- `begin_block_` and `apply_sizes_` (writer.cpp:135-154, 171-192), `enc` is the result of the encoder. -/
def beginBlock (s : St) (size : Nat) (enc : Bool) : St :=
  if size = 0 then { s with alive := false }
  else if !enc then { s with curS := s.nextS, curR := s.nextR, size := size, alive := false }
  else { s with curS := s.nextS, curR := s.nextR, size := size }

/-- `write`, after the block was begun (writer.cpp:116-132, 165-169). -/
def writeIn (s : St) (tag size : Nat) (ok : Nat → Bool) : St × List Pkt :=
  if size ≠ s.size then ({ s with alive := false }, [])
  else if s.cur + 1 = s.curS then
    ({ s with cur := 0, sbn := (s.sbn + 1) % m16 }, .source tag (s.cur % m16) s.sbn s.curS (s.curS + s.curR) :: repairs s ok)
  else ({ s with cur := s.cur + 1 }, [.source tag (s.cur % m16) s.sbn s.curS (s.curS + s.curR)])

/-- `write` (writer.cpp:94-133): the new state and emitted packets. -/
def St.write (s : St) (tag size : Nat) (enc : Bool) (ok : Nat → Bool) : St × List Pkt :=
  if !s.alive then (s, [])
  else if s.cur ≠ 0 then writeIn s tag size ok
  else if (beginBlock s size enc).alive then writeIn (beginBlock s size enc) tag size ok
  else (beginBlock s size enc, [])

end Verif.FecWriter
