/-!
# Wrap-around counters

Model of `src/internal_modules/roc_packet/units.h`. Unsigned counters are bit vectors, the
signed `..._diff_t` types are integers in the two's complement range.
-/

namespace Verif.Units

/-- `stream_timestamp_t`, `uint32_t` (roc_packet/units.h:36). -/
abbrev Timestamp := BitVec 32

/-- `seqnum_t`, `uint16_t` (roc_packet/units.h:78). -/
abbrev Seqnum := BitVec 16

/-- `ext_seqnum_t`, `uint32_t` (roc_packet/units.h:103). -/
abbrev ExtSeqnum := BitVec 32

/-- `blknum_t`, `uint16_t` (roc_packet/units.h:130). -/
abbrev Blknum := BitVec 16

/-- `stream_timestamp_diff` (roc_packet/units.h:44-47): `int32_t(a - b)`. -/
def tsDiff (a b : Timestamp) : Int := (a - b).toInt

/-- `stream_timestamp_lt` (roc_packet/units.h:50-52). -/
def tsLt (a b : Timestamp) : Bool := tsDiff a b < 0

/-- `stream_timestamp_le` (roc_packet/units.h:55-57). -/
def tsLe (a b : Timestamp) : Bool := tsDiff a b ≤ 0

/-- `seqnum_diff` (roc_packet/units.h:86-88). The C++ subtraction is done in `int` and then
narrowed to `int16_t`, which is the same as subtracting modulo 2^16. -/
def snDiff (a b : Seqnum) : Int := (a - b).toInt

/-- `seqnum_lt` (roc_packet/units.h:91-93). -/
def snLt (a b : Seqnum) : Bool := snDiff a b < 0

/-- `seqnum_le` (roc_packet/units.h:96-98). -/
def snLe (a b : Seqnum) : Bool := snDiff a b ≤ 0

/-- `ext_seqnum_diff` (roc_packet/units.h:111-113). -/
def extDiff (a b : ExtSeqnum) : Int := (a - b).toInt

/-- `ext_seqnum_lt` (roc_packet/units.h:116-118). -/
def extLt (a b : ExtSeqnum) : Bool := extDiff a b < 0

/-- `ext_seqnum_le` (roc_packet/units.h:121-123). -/
def extLe (a b : ExtSeqnum) : Bool := extDiff a b ≤ 0

/-- `blknum_diff` (roc_packet/units.h:138-140). -/
def blkDiff (a b : Blknum) : Int := (a - b).toInt

/-- `blknum_lt` (roc_packet/units.h:143-145). -/
def blkLt (a b : Blknum) : Bool := blkDiff a b < 0

/-- `blknum_le` (roc_packet/units.h:148-150). -/
def blkLe (a b : Blknum) : Bool := blkDiff a b ≤ 0

end Verif.Units
