import Verif.ChannelMatrix.Tables
import Mathlib.Data.Rat.Defs
import Mathlib.Algebra.BigOperators.Group.Finset.Basic
import Mathlib.Algebra.Order.Ring.Rat

/-!
# Surround channel mapping matrix

Model of `src/internal_modules/roc_audio/channel_mapper_matrix.cpp`. A surround channel set is the
mask of its channels (all below `ChanPos_Max` = 17); `is_subset` is the mask test, which is what
`Verif.ChannelSet.C42_mask_queries` shows it to be for such sets. Coefficients are exact rationals
instead of single precision floats. The two unbounded `for (;;)` loops take an iteration budget:
`none` means that the budget was used up, so "terminates" is "there is a budget with a result".
-/

namespace Verif.ChannelMatrix

/-- `ChanPos_Max` (roc_audio/channel_defs.h:141). -/
abbrev chanMax : Nat := 17

/-- `has_channel` of a mask. (Part of the model of roc_audio/channel_mapper_matrix.cpp:21-382.) -/
def hasCh (m ch : Nat) : Bool := m.testBit ch

/-- `is_subset` (roc_audio/channel_set.cpp:166). -/
def sub (a m : Nat) : Bool := a &&& m == a

/-- Inner loop of `can_downmix_` (channel_mapper_matrix.cpp:171-182). -/
def clusterCovers (inMask out : Nat) : List Table → Bool
  | [] => false
  | t :: ts => if t.inMask ≠ inMask then false
               else if sub out t.outMask then true else clusterCovers inMask out ts

/-- `can_downmix_` (channel_mapper_matrix.cpp:160-189) on a suffix of the tables. -/
def canDownmix (cin out : Nat) : List Table → Bool
  | [] => false
  | t :: ts => if !sub cin t.inMask then canDownmix cin out ts else clusterCovers t.inMask out (t :: ts)

/-- Condition of the downmix search (channel_mapper_matrix.cpp:198-199). -/
def downOk (cin out : Nat) (t : Table) : Bool :=
  sub cin t.inMask && sub out t.outMask && !sub cin t.outMask

/-- `next_downmix_table_` (channel_mapper_matrix.cpp:191-205): the first table that fits. -/
def nextDownmix (cin out : Nat) (ts : List Table) : Option Table := ts.find? (downOk cin out)

/-- Condition of the upmix search (channel_mapper_matrix.cpp:238-239). -/
def upOk (cin next : Nat) (t : Table) : Bool :=
  sub cin t.outMask && sub next t.inMask && !sub next t.outMask

/-- Loop of `next_upmix_table_` (channel_mapper_matrix.cpp:230-256). The scan from the last table to
the first without `break` (233-242) keeps the first table that fits. -/
def upLoop (ts : List Table) (cin : Nat) : Nat → Nat → Option Table → Option (Option Table)
  | 0, _, _ => none
  | fuel + 1, next, best =>
    match ts.find? (upOk cin next) with
    | none => some best
    | some t => upLoop ts cin fuel t.outMask (some t)

/-- `next_upmix_table_` (channel_mapper_matrix.cpp:207-257). -/
def nextUpmix (ts : List Table) (fuel cin out : Nat) : Option (Option Table) := upLoop ts cin fuel out none

/-- One iteration of the loop of `build_channel_mapping_` (channel_mapper_matrix.cpp:109-127): the
selected table, whether it is used for downmixing, and the resulting channels. -/
def select (ts : List Table) (fuel cur out : Nat) : Option (Option (Table × Bool × Nat)) :=
  if canDownmix cur out ts then
    some ((nextDownmix cur out ts).map fun t => (t, true, t.outMask))
  else (nextUpmix ts fuel cur out).map fun o => o.map fun t => (t, false, t.inMask)

/-- `chan_matrix` (channel_mapper_matrix.h:76), indexed by output and input channel. -/
abbrev Mat := Nat → Nat → ℚ

/-- `normalize_mapping_` (channel_mapper_matrix.cpp:338-354). -/
def normalize (m : Mat) : Mat := fun o i =>
  if ∑ k ∈ Finset.range chanMax, m o k = 0 then m o i else m o i / ∑ k ∈ Finset.range chanMax, m o k

/-- Rules of a table as a matrix (channel_mapper_matrix.cpp:265-274). -/
def rulesMat (rs : List Rule) : Mat :=
  (rs.takeWhile fun r => r.2.2 ≠ 0).foldl
    (fun m r o i => if o = r.1 ∧ i = r.2.1 then (r.2.2 : ℚ) / 10000000 else m o i) (fun _ _ => 0)

/-- `fill_mapping_from_table_` (channel_mapper_matrix.cpp:259-294). -/
def fromTable (t : Table) (down : Bool) (cin cout : Nat) : Mat :=
  let temp := normalize (rulesMat t.rules)
  normalize fun o i =>
    if o < chanMax ∧ i < chanMax ∧ hasCh cout o ∧ hasCh cin i then
      if down then temp o i else temp i o
    else 0

/-- `combine_mappings_` (channel_mapper_matrix.cpp:311-336); the skipped zero terms contribute
nothing. -/
def combine (prev next : Mat) : Mat :=
  normalize fun o p =>
    if o < chanMax ∧ p < chanMax then ∑ k ∈ Finset.range chanMax, next o k * prev k p else 0

/-- Loop of `build_channel_mapping_` (channel_mapper_matrix.cpp:98-155); the last argument is
`result_map` once a table was pulled. -/
def buildLoop (ts : List Table) : Nat → Nat → Nat → Option Mat → Option (Option Mat)
  | 0, _, _, _ => none
  | fuel + 1, cur, out, acc =>
    match select ts (fuel + 1) cur out with
    | none => none
    | some none => some acc
    | some (some (t, down, actual)) =>
      let nm := fromTable t down cur actual
      buildLoop ts fuel actual out (some (match acc with
        | none => nm
        | some m => combine m nm))

/-- `fill_fallback_mapping_` (channel_mapper_matrix.cpp:296-309). -/
def diag : Mat := fun o i => if o < chanMax ∧ o = i then 1 else 0

/-- `build_channel_mapping_` with its fallback (channel_mapper_matrix.cpp:39-44, 85-158). -/
def buildMap (fuel cin cout : Nat) : Option Mat :=
  if cin = cout then some diag
  else (buildLoop tables fuel cin cout none).map fun o => o.getD diag

/-- `build_index_mapping_` (channel_mapper_matrix.cpp:54-83): the channels of the set in frame
order (`index_2_chan` up to the end marker). Channels that the order table lacks are left out. -/
def indexList (order : List Nat) (set : Nat) : List Nat := order.filter (hasCh set)

/-- Mask of a list of channels (`enabled_chans`, channel_mapper_matrix.cpp:72). -/
def maskOf (l : List Nat) : Nat := l.foldl (fun m ch => m ||| 2 ^ ch) 0

/-- `populate_index_matrix_` (channel_mapper_matrix.cpp:356-382): entry of the final matrix for
physical indices; `chan_2_index` is the position in the index list. -/
def indexMat (inL outL : List Nat) (m : Mat) (oi ii : Nat) : ℚ :=
  match outL[oi]?, inL[ii]? with
  | some o, some i => m o i
  | _, _ => 0

/-- `ChannelMapperMatrix::build` (channel_mapper_matrix.cpp:21-52) for channel sets given with their
order tables; the result is what `coeff` returns. -/
def build (fuel : Nat) (inOrder outOrder : List Nat) (cin cout : Nat) : Option (Nat → Nat → ℚ) :=
  let inL := indexList inOrder cin
  let outL := indexList outOrder cout
  (buildMap fuel (maskOf inL) (maskOf outL)).map fun m => indexMat inL outL m

end Verif.ChannelMatrix
