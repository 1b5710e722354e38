/-!
# Intrusive doubly-linked list

Model of `src/internal_modules/roc_core/list_impl.cpp` and `list.h` as a heap of nodes with `next`, `prev` and
`list` fields; any number of lists share the heap. A null pointer is `none`. The outcome `none` of
an operation is a panic or a null pointer dereference. Ownership policies (reference counting of
elements, list.h) are not modelled. `size_t` counters are unbounded.
-/

namespace Verif.IntrusiveList

/-- A `ListData` object: the embedded head of a list (list_impl.cpp:17-19), or an element. -/
inductive Node where
  | head (l : Nat)
  | elem (n : Nat)
deriving DecidableEq, Repr

/-- The heap: fields of `ListData` (list_node.h:24-41) and `size_` of every list. -/
structure Heap where
  next : Node → Option Node
  prev : Node → Option Node
  /-- `list` field: the list a node belongs to -/
  owner : Node → Option Nat
  size : Nat → Nat

/-- Function update. (Part of the model of roc_core/list.h:40-237.) -/
def upd {α β : Type} [DecidableEq α] (f : α → β) (a : α) (b : β) : α → β :=
  fun x => if x = a then b else f x

/-- All lists just constructed (list_impl.cpp:15-20), all elements fresh (list_node.h:36-40, null fields). -/
def init : Heap where
  next := fun | .head l => some (.head l) | .elem _ => none
  prev := fun | .head l => some (.head l) | .elem _ => none
  owner := fun | .head l => some l | .elem _ => none
  size := fun _ => 0

/-- `ListImpl::insert` (list_impl.cpp:90-103), with the membership checks (116-121). The assignments
are done in the order of the source. -/
def insert (h : Heap) (l : Nat) (new before : Node) : Option Heap :=
  if h.owner new ≠ none then none
  else if h.owner before ≠ some l then none
  else
    let h := { h with next := upd h.next new (some before) }
    let h := { h with prev := upd h.prev new (h.prev before) }
    match h.prev before with
    | none => none
    | some p =>
      let h := { h with next := upd h.next p (some new) }
      let h := { h with prev := upd h.prev before (some new) }
      some { h with owner := upd h.owner new (some l), size := upd h.size l (h.size l + 1) }

/-- `ListImpl::remove` (list_impl.cpp:105-114). -/
def remove (h : Heap) (l : Nat) (n : Node) : Option Heap :=
  if h.owner n ≠ some l then none
  else match h.prev n with
    | none => none
    | some p =>
      let h := { h with next := upd h.next p (h.next n) }
      match h.next n with
      | none => none
      | some x =>
        let h := { h with prev := upd h.prev x (h.prev n) }
        some { h with owner := upd h.owner n none, size := upd h.size l (h.size l - 1) }

/-- `List::push_back` (list.h:141-146). -/
def pushBack (h : Heap) (l n : Nat) : Option Heap := insert h l (.elem n) (.head l)

/-- `List::push_front` (list.h:126-131). -/
def pushFront (h : Heap) (l n : Nat) : Option Heap :=
  match h.next (.head l) with
  | none => none
  | some x => insert h l (.elem n) x

/-- `List::insert_before` (list.h:187-193). -/
def insertBefore (h : Heap) (l n b : Nat) : Option Heap := insert h l (.elem n) (.elem b)

/-- `List::insert_after` (list.h:204-210). -/
def insertAfter (h : Heap) (l n a : Nat) : Option Heap :=
  match h.next (.elem a) with
  | none => none
  | some x => insert h l (.elem n) x

/-- `ListImpl::pop_front` (list_impl.cpp:70-78). -/
def popFront (h : Heap) (l : Nat) : Option Heap :=
  if h.size l = 0 then none
  else match h.next (.head l) with
    | none => none
    | some n => remove h l n

/-- `ListImpl::pop_back` (list_impl.cpp:80-88). -/
def popBack (h : Heap) (l : Nat) : Option Heap :=
  if h.size l = 0 then none
  else match h.prev (.head l) with
    | none => none
    | some n => remove h l n

/-- `ListImpl::front` (list_impl.cpp:38-43). -/
def front (h : Heap) (l : Nat) : Option Node := if h.size l = 0 then none else h.next (.head l)

/-- `ListImpl::back` (list_impl.cpp:45-50). -/
def back (h : Heap) (l : Nat) : Option Node := if h.size l = 0 then none else h.prev (.head l)

/-- `ListImpl::nextof` (list_impl.cpp:52-59); the outer `none` is a panic. -/
def nextof (h : Heap) (l : Nat) (n : Node) : Option (Option Node) :=
  if h.owner n ≠ some l then none
  else if h.next n = some (.head l) then some none else some (h.next n)

/-- `ListImpl::prevof` (list_impl.cpp:61-68); the outer `none` is a panic. -/
def prevof (h : Heap) (l : Nat) (n : Node) : Option (Option Node) :=
  if h.owner n ≠ some l then none
  else if h.prev n = some (.head l) then some none else some (h.prev n)

/-- `ListImpl::contains` (list_impl.cpp:30-32). -/
def contains (h : Heap) (l n : Nat) : Bool := h.owner (.elem n) == some l

/-- API calls. (Part of the model of roc_core/list.h:40-237.) -/
inductive Op where
  | pushBack (l n : Nat)
  | pushFront (l n : Nat)
  | insertBefore (l n b : Nat)
  | insertAfter (l n a : Nat)
  | popFront (l : Nat)
  | popBack (l : Nat)
  | remove (l n : Nat)
deriving DecidableEq, Repr

/-- Effect of a call. (Part of the model of roc_core/list.h:40-237.) -/
def step (h : Heap) : Op → Option Heap
  | .pushBack l n => pushBack h l n
  | .pushFront l n => pushFront h l n
  | .insertBefore l n b => insertBefore h l n b
  | .insertAfter l n a => insertAfter h l n a
  | .popFront l => popFront h l
  | .popBack l => popBack h l
  | .remove l n => remove h l (.elem n)

/-- A history of calls. (Part of the model of roc_core/list.h:40-237.) -/
def run (h : Heap) : List Op → Option Heap
  | [] => some h
  | op :: ops => match step h op with
    | none => none
    | some h => run h ops

/-- A client walking forward from a node. (Part of the model of roc_core/list.h:40-237.) -/
def forward (h : Heap) (l : Nat) : Nat → Option Node → List Node
  | 0, _ => []
  | _, none => []
  | fuel + 1, some n => n :: match nextof h l n with
    | none => []
    | some o => forward h l fuel o

/-- A client walking backward from a node. (Part of the model of roc_core/list.h:40-237.) -/
def backward (h : Heap) (l : Nat) : Nat → Option Node → List Node
  | 0, _ => []
  | _, none => []
  | fuel + 1, some n => n :: match prevof h l n with
    | none => []
    | some o => backward h l fuel o

end Verif.IntrusiveList
