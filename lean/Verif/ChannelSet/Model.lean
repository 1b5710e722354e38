/-!
# Channel set

Model of `src/internal_modules/roc_audio/channel_set.cpp`. `none` is `roc_panic`. The array
`words_` is a function on indices; every index used is below `NumWords` (each public method
checks the channel number first). The counters are `uint16_t` in the code; they never exceed
`MaxChannels` = 1024, so they are naturals here. `ChannelMask` is 32 bits wide.
-/

namespace Verif.ChannelSet

/-- `MaxChannels` (roc_audio/channel_set.h:153). -/
abbrev maxChannels : Nat := 1024
/-- `WordBits` (channel_set.h:155). -/
abbrev wordBits : Nat := 64
/-- `NumWords` (channel_set.h:156). -/
abbrev numWords : Nat := 16

/-- `words_` (channel_set.h:162). -/
abbrev Words := Nat → BitVec 64

/-- `ChannelLayout` (roc_audio/channel_defs.h:23-43). -/
inductive Layout where | none | surround | multitrack
deriving DecidableEq, Repr

/-- `ChannelOrder` (channel_defs.h:49-77). -/
inductive Order where | none | smpte | alsa
deriving DecidableEq, Repr

/-- Fields of `ChannelSet` (channel_set.h:162-169). -/
structure CSet where
  words : Words
  num : Nat
  first : Nat
  last : Nat
  layout : Layout
  order : Order

/-- The local variables of `index_chans_` (channel_set.cpp:321-324). -/
structure Idx where
  num : Nat
  first : Nat
  last : Nat
  hasFirst : Bool
  nch : Nat
deriving DecidableEq, Repr

/-- `words_[w] & (word_t(1) << b)` as a condition (channel_set.cpp:134, 329). -/
def bitSet (w : BitVec 64) (b : Nat) : Bool := (w &&& (1#64 <<< b)) != 0

/-- Inner loop body of `index_chans_` (channel_set.cpp:329-337). -/
def idxBit (w : BitVec 64) (i : Idx) (b : Nat) : Idx :=
  let i := if bitSet w b then
      { i with num := i.num + 1,
               first := if i.hasFirst then i.first else i.nch,
               hasFirst := true,
               last := i.nch }
    else i
  { i with nch := i.nch + 1 }

/-- Outer loop body of `index_chans_` (channel_set.cpp:327-341). -/
def idxWord (ws : Words) (i : Idx) (w : Nat) : Idx :=
  if ws w ≠ 0 then (List.range wordBits).foldl (idxBit (ws w)) i
  else { i with nch := i.nch + wordBits }

/-- Loops of `index_chans_` (channel_set.cpp:321-342). -/
def indexWords (ws : Words) : Idx :=
  (List.range numWords).foldl (idxWord ws) ⟨0, 0, 0, false, 0⟩

/-- `index_chans_` (channel_set.cpp:320-343). -/
def CSet.index (s : CSet) : CSet :=
  let i := indexWords s.words
  { s with num := i.num, first := i.first, last := i.last }

/-- `clear_chans_` (channel_set.cpp:316-318). -/
def clearWords : Words := fun _ => 0

/-- Default constructor (channel_set.cpp:15-23). -/
def CSet.empty : CSet := CSet.index ⟨clearWords, 0, 0, 0, .none, .none⟩

/-- `words_[n / WordBits] |= (word_t(1) << (n % WordBits))` (channel_set.cpp:198, 248, 270). -/
def setBit (ws : Words) (n : Nat) : Words :=
  fun i => if i = n / wordBits then ws i ||| (1#64 <<< (n % wordBits)) else ws i

/-- `words_[n / WordBits] &= ~(word_t(1) << (n % WordBits))` (channel_set.cpp:250, 272). -/
def clearBit (ws : Words) (n : Nat) : Words :=
  fun i => if i = n / wordBits then ws i &&& ~~~(1#64 <<< (n % wordBits)) else ws i

/-- `words_[0] = mask` after `clear_chans_` (channel_set.cpp:178-180, 48-49). -/
def maskWords (mask : BitVec 32) : Words := fun i => if i = 0 then mask.setWidth 64 else 0

/-- `set_mask` (channel_set.cpp:177-183). -/
def CSet.setMask (s : CSet) (mask : BitVec 32) : CSet := CSet.index { s with words := maskWords mask }

/-- Constructor from layout, order and mask (channel_set.cpp:25-51). -/
def CSet.make (layout : Layout) (order : Order) (mask : BitVec 32) : Option CSet :=
  if layout = .none then none
  else if ¬ (if layout = .surround then order ≠ .none else order = .none) then none
  else if mask = 0 then none
  else some (CSet.index ⟨maskWords mask, 0, 0, 0, layout, order⟩)

/-- `set_range` (channel_set.cpp:185-202). -/
def CSet.setRange (s : CSet) (from_ to : Nat) : Option CSet :=
  if from_ ≥ maxChannels ∨ to ≥ maxChannels then none
  else if from_ > to then none
  else some (CSet.index { s with words := (List.range' from_ (to + 1 - from_)).foldl setBit clearWords })

/-- `set_count` (channel_set.cpp:204-239); the masks are those of
roc_audio/channel_defs.h:158-431 with the positions of channel_defs.h:86-142. -/
def CSet.setCount (s : CSet) (count : Nat) : Option CSet :=
  if count ≥ maxChannels then none
  else match count with
    | 0 => some (s.setMask 0)
    | 1 => some (s.setMask 0x004)
    | 2 => some (s.setMask 0x011)
    | 3 => some (s.setMask 0x015)
    | 4 => some (s.setMask 0x291)
    | 5 => some (s.setMask 0x295)
    | 6 => some (s.setMask 0x395)
    | 7 => some (s.setMask 0x2f5)
    | c => s.setRange 0 (c - 1)

/-- `toggle_channel` (channel_set.cpp:241-254). -/
def CSet.toggle (s : CSet) (n : Nat) (enabled : Bool) : Option CSet :=
  if n ≥ maxChannels then none
  else some (CSet.index { s with words := if enabled then setBit s.words n else clearBit s.words n })

/-- `toggle_channel_range` (channel_set.cpp:256-277). -/
def CSet.toggleRange (s : CSet) (from_ to : Nat) (enabled : Bool) : Option CSet :=
  if from_ ≥ maxChannels ∨ to ≥ maxChannels then none
  else if from_ > to then none
  else some (CSet.index { s with words := (List.range' from_ (to + 1 - from_)).foldl
                                  (if enabled then setBit else clearBit) s.words })

/-- `bitwise_and` (channel_set.cpp:279-285). -/
def CSet.and (s o : CSet) : CSet := CSet.index { s with words := fun i => s.words i &&& o.words i }
/-- `bitwise_or` (channel_set.cpp:287-293). -/
def CSet.or (s o : CSet) : CSet := CSet.index { s with words := fun i => s.words i ||| o.words i }
/-- `bitwise_xor` (channel_set.cpp:295-301). -/
def CSet.xor (s o : CSet) : CSet := CSet.index { s with words := fun i => s.words i ^^^ o.words i }

/-- `clear` (channel_set.cpp:92-98). -/
def CSet.clear (s : CSet) : CSet :=
  CSet.index { s with words := clearWords, layout := .none, order := .none }

/-- `set_layout` (channel_set.cpp:104-110). -/
def CSet.setLayout (s : CSet) (l : Layout) : Option CSet :=
  if l = .none then none else some { s with layout := l }

/-- `set_order` (channel_set.cpp:116-118). -/
def CSet.setOrder (s : CSet) (o : Order) : CSet := { s with order := o }

/-- `num_channels` (channel_set.cpp:124-126). -/
def CSet.numChannels (s : CSet) : Nat := s.num

/-- `has_channel` (channel_set.cpp:128-135). -/
def CSet.hasChannel (s : CSet) (n : Nat) : Option Bool :=
  if n ≥ maxChannels then none else some (bitSet (s.words (n / wordBits)) (n % wordBits))

/-- `first_channel` (channel_set.cpp:137-143). -/
def CSet.firstChannel (s : CSet) : Option Nat := if s.num = 0 then none else some s.first
/-- `last_channel` (channel_set.cpp:145-151). -/
def CSet.lastChannel (s : CSet) : Option Nat := if s.num = 0 then none else some s.last

/-- `is_equal` (channel_set.cpp:153-159). -/
def CSet.isEqual (s : CSet) (mask : BitVec 32) : Bool :=
  if s.last ≥ wordBits then false else s.words 0 == mask.setWidth 64

/-- `is_subset` (channel_set.cpp:161-167). -/
def CSet.isSubset (s : CSet) (mask : BitVec 32) : Bool :=
  if s.last ≥ wordBits then false else (s.words 0 &&& mask.setWidth 64) == s.words 0

/-- `is_superset` (channel_set.cpp:169-175). -/
def CSet.isSuperset (s : CSet) (mask : BitVec 32) : Bool :=
  if s.last ≥ wordBits then true
  else (s.words 0 &&& mask.setWidth 64) == mask.setWidth 64

/-- `operator==` (channel_set.cpp:53-56). -/
def CSet.eq (s o : CSet) : Bool :=
  s.layout = o.layout && s.order = o.order &&
    (List.range numWords).all fun i => s.words i == o.words i

/-- `is_valid` (channel_set.cpp:62-90); `ChanPos_Max` is 17. The order enumeration has no value
outside the checked range here. -/
def CSet.isValid (s : CSet) : Bool :=
  match s.layout with
  | .none => false
  | .surround => s.order ≠ .none ∧ s.num ≠ 0 ∧ s.last < 17
  | .multitrack => s.order = .none ∧ s.num ≠ 0

/-- `byte_at` (channel_set.cpp:307-314), `WordBytes` = 8, `num_bytes` = 128. -/
def CSet.byteAt (s : CSet) (n : Nat) : Option (BitVec 8) :=
  if n ≥ 128 then none
  else some ((s.words (n / 8) >>> ((n % 8) * 8)).setWidth 8)

/-- A modifying call; operands of the bitwise operations are other sets. (Part of the model of roc_audio/channel_set.h:26-157.) -/
inductive Op where
  | setMask (m : BitVec 32)
  | setRange (a b : Nat)
  | setCount (n : Nat)
  | toggle (n : Nat) (e : Bool)
  | toggleRange (a b : Nat) (e : Bool)
  | and (o : CSet)
  | or (o : CSet)
  | xor (o : CSet)
  | clear

/-- Dispatch of a modifying call. (Part of the model of roc_audio/channel_set.h:26-157.) -/
def CSet.apply (s : CSet) : Op → Option CSet
  | .setMask m => some (s.setMask m)
  | .setRange a b => s.setRange a b
  | .setCount n => s.setCount n
  | .toggle n e => s.toggle n e
  | .toggleRange a b e => s.toggleRange a b e
  | .and o => some (s.and o)
  | .or o => some (s.or o)
  | .xor o => some (s.xor o)
  | .clear => some s.clear

/-- A channel set object obtained by any sequence of calls, none of which aborted. (Part of the model of roc_audio/channel_set.h:26-157.) -/
inductive Reach : CSet → Prop where
  | empty : Reach CSet.empty
  | make {l o m s} : CSet.make l o m = some s → Reach s
  | apply {s s'} (op : Op) : Reach s → s.apply op = some s' → Reach s'
  | setLayout {s s'} (l : Layout) : Reach s → s.setLayout l = some s' → Reach s'
  | setOrder {s} (o : Order) : Reach s → Reach (s.setOrder o)

end Verif.ChannelSet
