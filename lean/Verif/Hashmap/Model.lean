/-!
# Hash map

Model of `src/internal_modules/roc_core/hashmap_impl.cpp`. Bucket arrays are lists of buckets, a
bucket is the list of its nodes from `head` on (the circular links of a bucket and the list of all
nodes are represented by their order; pointer surgery is the subject of C53). A panic is `none`.

Not modelled: wrap-around of `size_t` products for more than 2^59 buckets; the memory of the bucket
arrays (an allocation either succeeds or not, as an input says; `preallocated_data_` is one more
array). `key_equals` is equality of keys.
-/

namespace Verif.Hashmap

/-- A node (hashmap_node.h: `HashmapData`) with its key; `id` is its address. (roc_core/hashmap_node.h:25-54) -/
structure Node (κ : Type) where
  id : Nat
  hash : Nat
  key : κ
deriving DecidableEq, Repr

/-- Bucket array (hashmap_impl.h:39-42). -/
abbrev Buckets (κ : Type) := List (List (Node κ))

/-- Fields of `HashmapImpl` (hashmap_impl.h:115-130); `all` is the list of `all_head_`,
`prealloc` is `num_preallocated_buckets_`. -/
structure State (κ : Type) where
  prealloc : Nat
  curr : Buckets κ
  prev : Buckets κ
  size : Nat
  pos : Nat
  remain : Nat
  all : List (Node κ)
deriving DecidableEq, Repr

variable {κ : Type} [DecidableEq κ]

/-- Constructor (hashmap_impl.cpp:14-29). -/
def State.init (prealloc : Nat) : State κ := ⟨prealloc, [], [], 0, 0, 0, []⟩

/-- `buckets_capacity_` (hashmap_impl.cpp:212-214, hashmap_impl.h:34-35). -/
def capacity (n : Nat) : Nat := n * 13 / 2

/-- `find_in_bucket_` (hashmap_impl.cpp:191-210). -/
def findInBucket (b : List (Node κ)) (hash : Nat) (key : κ) : Option (Node κ) :=
  b.find? fun n => n.hash = hash && n.key = key

/-- Looks in the array `bs` (hashmap_impl.cpp:61-67, 69-75). -/
def findIn (bs : Buckets κ) (hash : Nat) (key : κ) : Option (Node κ) :=
  if bs.length ≠ 0 then findInBucket (bs.getD (hash % bs.length) []) hash key else none

/-- `find_node` (hashmap_impl.cpp:58-78). -/
def State.find (s : State κ) (hash : Nat) (key : κ) : Option (Node κ) :=
  match findIn s.curr hash key with
  | some n => some n
  | none => findIn s.prev hash key

/-- `contains` (hashmap_impl.cpp:46-56, 264-274): the node's bucket is in one of the arrays. -/
def State.contains (s : State κ) (id : Nat) : Bool :=
  s.curr.flatten.any (·.id = id) || s.prev.flatten.any (·.id = id)

/-- `prime_counts` (hashmap_impl.cpp:392-395). -/
def primeCounts : List Nat :=
  [5, 11, 23, 53, 97, 193, 389, 769, 1543, 3079, 6151, 12289, 24593, 49157, 98317, 196613, 393241, 786433]

/-- Loop over the embedded counts (hashmap_impl.cpp:403-411). -/
def embeddedCount (prealloc cur : Nat) : List Nat → Option Nat
  | p :: q :: l =>
    if p > prealloc then none
    else if p > cur ∧ q > prealloc then some p
    else embeddedCount prealloc cur (q :: l)
  | _ => none

/-- Loop over the arena counts (hashmap_impl.cpp:416-424). -/
def arenaCount (cur : Nat) : List Nat → Option Nat
  | [] => none
  | p :: l => if p < 23 then arenaCount cur l else if p > cur then some p else arenaCount cur l

/-- `get_next_bucket_size_` (hashmap_impl.cpp:390-429). -/
def nextCount (prealloc cur : Nat) : Nat :=
  match (if cur < prealloc then embeddedCount prealloc cur primeCounts else none) with
  | some p => p
  | none =>
    match arenaCount cur primeCounts with
    | some p => p
    | none => cur * 3

/-- The loop of `grow` that picks the number of buckets (hashmap_impl.cpp:175-178); `none` when the
budget is used up. -/
def growCount (prealloc size : Nat) : Nat → Nat → Option Nat
  | 0, _ => none
  | fuel + 1, n =>
    let n' := nextCount prealloc n
    if size ≥ capacity n' then growCount prealloc size fuel n' else some n'

/-- `realloc_buckets_` (hashmap_impl.cpp:216-252) followed by the check of `grow` (184-185). -/
def State.realloc (s : State κ) (n : Nat) (allocOk : Bool) : Option (State κ × Bool) :=
  if n = 0 then none
  else if s.pos ≠ 0 then none
  else if s.remain ≠ 0 then none
  else if !allocOk then some (s, false)
  else
    let fresh : Buckets κ := List.replicate n []
    let s' : State κ :=
      if s.curr.length ≠ 0 then { s with prev := s.curr, pos := 0, remain := s.size, curr := fresh }
      else { s with curr := fresh }
    if s'.size < capacity s'.curr.length then some (s', true) else none

/-- `grow` (hashmap_impl.cpp:170-189). -/
def State.grow (s : State κ) (allocOk : Bool) : Option (State κ × Bool) :=
  if s.size > capacity s.curr.length then none
  else if s.size = capacity s.curr.length then
    match growCount s.prealloc s.size (s.size + 2) s.curr.length with
    | none => none
    | some n => s.realloc n allocOk
  else some (s, true)

/-- `select_bucket_` and `bucket_insert_` (hashmap_impl.cpp:276-297): append to the bucket. -/
def bucketInsert (bs : Buckets κ) (n : Node κ) : Option (Buckets κ) :=
  if bs.length = 0 then none else some (bs.modify (n.hash % bs.length) (· ++ [n]))

/-- The loop of `proceed_rehash_` with `migrate_node_` (hashmap_impl.cpp:334-388); `none` also when
the budget is used up. -/
def State.rehashLoop (s : State κ) (mig : Nat) : Nat → Option (State κ)
  | 0 => none
  | fuel + 1 =>
    if ¬ s.pos < s.prev.length then none
    else
      match s.prev.getD s.pos [] with
      | [] =>
        if s.pos + 1 = s.prev.length then
          if s.remain ≠ 0 then none else some { s with pos := 0, prev := [] }
        else ({ s with pos := s.pos + 1 } : State κ).rehashLoop mig fuel
      | n :: rest =>
        if mig = 0 then some s
        else if s.remain = 0 then none
        else
          match bucketInsert s.curr n with
          | none => none
          | some curr =>
            ({ s with prev := s.prev.set s.pos rest, remain := s.remain - 1, curr := curr } : State κ).rehashLoop
              (mig - 1) fuel

/-- `proceed_rehash_` (hashmap_impl.cpp:334-380). -/
def State.proceed (s : State κ) (inInsert : Bool) : Option (State κ) :=
  if s.remain = 0 then some s
  else
    let mig :=
      if inInsert then
        let until_ := capacity s.curr.length - s.size
        if until_ = 0 then s.remain else (s.remain + until_ - 1) / until_
      else 1
    s.rehashLoop mig (s.prev.length + s.remain + 1)

/-- `insert` (hashmap_impl.cpp:122-152). -/
def State.insert (s : State κ) (n : Node κ) (allocOk : Bool) : Option (State κ × Bool) :=
  match (if s.size ≥ capacity s.curr.length then s.grow allocOk else some (s, true)) with
  | none => none
  | some (s, false) => some (s, false)
  | some (s, true) =>
    if s.contains n.id then none
    else if (s.find n.hash n.key).isSome then none
    else
      match bucketInsert s.curr n with
      | none => none
      | some curr =>
        match ({ s with curr := curr, all := s.all ++ [n], size := s.size + 1 } : State κ).proceed true with
        | none => none
        | some s => some (s, true)

/-- Takes a node out of an array (`bucket_remove_`, hashmap_impl.cpp:299-311). -/
def without (bs : Buckets κ) (id : Nat) : Buckets κ := bs.map (List.filter (·.id ≠ id))

/-- `remove` (hashmap_impl.cpp:154-168, 299-332). -/
def State.remove (s : State κ) (id : Nat) (skipRehash : Bool) : Option (State κ) :=
  if !s.contains id then none
  else
    let inPrev := s.prev.flatten.any (·.id = id)
    if inPrev && s.remain = 0 then none
    else
      let s : State κ := { s with
        curr := without s.curr id
        prev := without s.prev id
        remain := if inPrev then s.remain - 1 else s.remain
        all := s.all.filter (·.id ≠ id)
        size := s.size - 1 }
      if skipRehash then some s else s.proceed false

end Verif.Hashmap
