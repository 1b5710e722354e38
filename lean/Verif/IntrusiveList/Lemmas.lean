import Verif.IntrusiveList.Spec
import Mathlib.Tactic.Tauto

namespace Verif.IntrusiveList

/-- A doubly linked chain `a ⇄ x₁ ⇄ … ⇄ xₙ ⇄ b`. -/
def Linked (h : Heap) : Node → List Node → Node → Prop
  | a, [], b => h.next a = some b ∧ h.prev b = some a
  | a, x :: xs, b => h.next a = some x ∧ h.prev x = some a ∧ Linked h x xs b

theorem linked_append (h : Heap) (xs : List Node) : ∀ (a y b : Node) (ys : List Node),
    Linked h a (xs ++ y :: ys) b ↔ Linked h a xs y ∧ Linked h y ys b := by
  induction xs with
  | nil => intro a y b ys; simp only [List.nil_append, Linked, and_assoc]
  | cons x xs ih =>
    intro a y b ys
    simp only [List.cons_append, Linked, ih, and_assoc]

theorem linked_next (h : Heap) {a b : Node} {xs : List Node} (hl : Linked h a xs b) :
    h.next a = some (xs.headD b) := by
  cases xs with
  | nil => exact hl.1
  | cons x xs => exact hl.1

theorem linked_prev (h : Heap) {b : Node} (xs : List Node) : ∀ a : Node, Linked h a xs b →
    h.prev b = some (xs.getLastD a) := by
  induction xs with
  | nil => intro a hl; exact hl.2
  | cons x xs ih =>
    intro a hl
    rw [ih x hl.2.2]
    cases xs <;> rfl

theorem linked_frame (h h' : Heap) {b : Node} (xs : List Node) : ∀ a : Node, Linked h a xs b →
    (∀ x ∈ a :: xs, h'.next x = h.next x) → (∀ x ∈ xs ++ [b], h'.prev x = h.prev x) →
    Linked h' a xs b := by
  induction xs with
  | nil =>
    intro a hl hn hp
    exact ⟨by rw [hn a (by simp)]; exact hl.1, by rw [hp b (by simp)]; exact hl.2⟩
  | cons x xs ih =>
    intro a hl hn hp
    exact ⟨by rw [hn a (by simp)]; exact hl.1, by rw [hp x (by simp)]; exact hl.2.1,
      ih x hl.2.2 (fun y hy => hn y (by simp at hy ⊢; exact .inr hy))
        (fun y hy => hp y (by simp at hy ⊢; exact .inr hy))⟩

theorem getLastD_mem {α : Type} (xs : List α) (a : α) : xs.getLastD a ∈ a :: xs := by
  cases xs with
  | nil => simp
  | cons x xs => rw [List.getLastD_cons, List.getLastD_eq_getLast?]
                 cases h : xs.getLast? with
                 | none => simp
                 | some y => have := List.mem_of_getLast? h; simp [this]

/-- Redirecting the end of a chain. -/
theorem linked_relink (h h' : Heap) {b c : Node} (xs : List Node) : ∀ a : Node, Linked h a xs b →
    (a :: xs).Nodup → (∀ x ∈ a :: xs, x ≠ xs.getLastD a → h'.next x = h.next x) →
    (∀ x ∈ xs, h'.prev x = h.prev x) → h'.next (xs.getLastD a) = some c →
    h'.prev c = some (xs.getLastD a) → Linked h' a xs c := by
  induction xs with
  | nil => intro a _ _ _ _ h1 h2; exact ⟨h1, h2⟩
  | cons x xs ih =>
    intro a hl hnd hn hp h1 h2
    rw [List.getLastD_cons] at *
    have hne : a ≠ xs.getLastD x := fun e => by
      have := getLastD_mem xs x
      rw [← e] at this
      exact (List.nodup_cons.mp hnd).1 this
    refine ⟨by rw [hn a (by simp) hne]; exact hl.1, by rw [hp x (by simp)]; exact hl.2.1, ?_⟩
    exact ih x hl.2.2 (List.nodup_cons.mp hnd).2
      (fun y hy => hn y (by simp at hy ⊢; exact .inr hy))
      (fun y hy => hp y (by simp [hy])) h1 h2

/-- Nodes of a list. -/
def nodes (xs : List Nat) : List Node := xs.map .elem

/-- Refinement relation. -/
structure R (h : Heap) (s : Abs) : Prop where
  linked : ∀ l, Linked h (.head l) (nodes (s l)) (.head l)
  nodup : ∀ l, (s l).Nodup
  disjoint : ∀ l l' n, n ∈ s l → n ∈ s l' → l = l'
  owner : ∀ l n, h.owner (.elem n) = some l ↔ n ∈ s l
  ownerHead : ∀ l, h.owner (.head l) = some l
  size : ∀ l, h.size l = (s l).length

theorem nodes_append (a b : List Nat) : nodes (a ++ b) = nodes a ++ nodes b := by simp [nodes]

theorem mem_nodes {n : Node} {xs : List Nat} : n ∈ nodes xs ↔ ∃ k ∈ xs, n = .elem k := by
  simp only [nodes, List.mem_map]
  exact ⟨fun ⟨k, h1, h2⟩ => ⟨k, h1, h2.symm⟩, fun ⟨k, h1, h2⟩ => ⟨k, h1, h2.symm⟩⟩

theorem elem_mem_nodes {n : Nat} {xs : List Nat} : Node.elem n ∈ nodes xs ↔ n ∈ xs := by
  rw [mem_nodes]
  exact ⟨fun ⟨k, h1, h2⟩ => by simp at h2; exact h2 ▸ h1, fun h => ⟨n, h, rfl⟩⟩

theorem head_not_mem {l : Nat} {xs : List Nat} : Node.head l ∉ nodes xs := by
  rw [mem_nodes]; rintro ⟨k, _, h⟩; simp at h

theorem ring_nodup {l : Nat} {xs : List Nat} (h : xs.Nodup) : (Node.head l :: nodes xs).Nodup := by
  rw [List.nodup_cons]
  refine ⟨head_not_mem, ?_⟩
  rw [nodes, List.nodup_iff_pairwise_ne, List.pairwise_map]
  exact List.Pairwise.imp (fun hne e => by simp at e; exact hne e) (List.nodup_iff_pairwise_ne.mp h)

/-- Node of the ring of list `l` (its head or one of its elements). -/
def InRing (s : Abs) (l : Nat) (x : Node) : Prop := x ∈ Node.head l :: nodes (s l)

theorem ring_disjoint {h : Heap} {s : Abs} (hr : R h s) {l l' : Nat} {x : Node}
    (h1 : InRing s l x) (h2 : InRing s l' x) : l = l' := by
  unfold InRing at *
  cases x with
  | head k =>
    simp only [List.mem_cons, Node.head.injEq] at h1 h2
    have a := h1.resolve_right head_not_mem
    have b := h2.resolve_right head_not_mem
    omega
  | elem n =>
    simp only [List.mem_cons, reduceCtorEq, false_or] at h1 h2
    exact hr.disjoint l l' n (elem_mem_nodes.mp h1) (elem_mem_nodes.mp h2)

theorem free_not_inRing {s : Abs} {n : Nat} (hf : Free s n) (l : Nat) : ¬ InRing s l (.elem n) := by
  unfold InRing
  simp only [List.mem_cons, reduceCtorEq, false_or]
  exact fun h => hf l (elem_mem_nodes.mp h)

theorem owner_free {h : Heap} {s : Abs} (hr : R h s) {n : Nat} :
    h.owner (.elem n) = none ↔ Free s n := by
  constructor
  · intro ho l hm
    rw [(hr.owner l n).mpr hm] at ho
    simp at ho
  · intro hf
    cases ho : h.owner (.elem n) with
    | none => rfl
    | some l => exact absurd ((hr.owner l n).mp ho) (hf l)

/-- Node in front of which an insertion at a split point happens. -/
def target (l : Nat) (post : List Nat) : Node := (nodes post).headD (.head l)

theorem target_inRing {s : Abs} {l : Nat} {pre post : List Nat} (hs : s l = pre ++ post) :
    InRing s l (target l post) := by
  unfold InRing target
  rw [hs]
  cases post with
  | nil => simp [nodes]
  | cons b post => simp [nodes]

theorem ring_owner {h : Heap} {s : Abs} (hr : R h s) {l : Nat} {x : Node} :
    h.owner x = some l ↔ InRing s l x := by
  unfold InRing
  cases x with
  | head k =>
    rw [hr.ownerHead k]
    simp only [List.mem_cons, Node.head.injEq, Option.some.injEq]
    exact ⟨.inl, fun h => h.resolve_right head_not_mem⟩
  | elem n =>
    rw [hr.owner l n]
    simp only [List.mem_cons, reduceCtorEq, false_or, elem_mem_nodes]

theorem insert_refines {h : Heap} {s : Abs} (hr : R h s) {l n : Nat} {pre post : List Nat}
    (hf : Free s n) (hs : s l = pre ++ post) :
    ∃ h', insert h l (.elem n) (target l post) = some h' ∧ R h' (upd s l (pre ++ n :: post)) := by
  have hto : h.owner (target l post) = some l := (ring_owner hr).mpr (target_inRing hs)
  have hno : h.owner (.elem n) = none := (owner_free hr).mpr hf
  have htn : target l post ≠ .elem n := fun e => by rw [e, hno] at hto; simp at hto
  -- the two halves of the ring
  have hlk := hr.linked l
  rw [hs, nodes_append] at hlk
  have hpre : Linked h (.head l) (nodes pre) (target l post) := by
    cases post with
    | nil => simpa [nodes, target] using hlk
    | cons b post =>
      have : nodes (b :: post) = .elem b :: nodes post := rfl
      rw [this, linked_append] at hlk
      exact hlk.1
  obtain ⟨p, hp⟩ : ∃ p, p = (nodes pre).getLastD (.head l) := ⟨_, rfl⟩
  have hprev : h.prev (target l post) = some p := by rw [hp]; exact linked_prev h _ _ hpre
  have hpring : p ∈ Node.head l :: nodes pre := by rw [hp]; exact getLastD_mem _ _
  have hpin : InRing s l p := by
    unfold InRing; rw [hs, nodes_append]
    simp only [List.mem_cons, List.mem_append] at hpring ⊢
    tauto
  have hpn : p ≠ .elem n := fun e => free_not_inRing hf l (e ▸ hpin)
  have hins : insert h l (.elem n) (target l post) = some
      { next := upd (upd h.next (.elem n) (some (target l post))) p (some (.elem n))
        prev := upd (upd h.prev (.elem n) (some p)) (target l post) (some (.elem n))
        owner := upd h.owner (.elem n) (some l)
        size := upd h.size l (h.size l + 1) } := by
    unfold insert
    rw [if_neg (by simp [hno]), if_neg (by simp [hto])]
    have hup : upd h.prev (.elem n) (some p) (target l post) = some p := by
      unfold upd; rw [if_neg htn, hprev]
    simp only [hprev, hup]
  refine ⟨_, hins, ?_⟩
  have hnd := hr.nodup l
  have hnpre : n ∉ pre := fun hm => hf l (by rw [hs]; simp [hm])
  have hnpost : n ∉ post := fun hm => hf l (by rw [hs]; simp [hm])
  rw [hs] at hnd
  refine ⟨?_, ?_, ?_, ?_, ?_, ?_⟩
  · intro k
    by_cases hk : k = l
    · subst hk
      have e : upd s k (pre ++ n :: post) k = pre ++ n :: post := by simp [upd]
      rw [e, nodes_append]
      have e2 : nodes (n :: post) = .elem n :: nodes post := rfl
      rw [e2, linked_append]
      have hnp : Node.elem n ∉ Node.head k :: nodes pre := by
        simp only [List.mem_cons, reduceCtorEq, false_or, elem_mem_nodes]; exact hnpre
      have htpre : target k post ∉ nodes pre := by
        cases post with
        | nil => exact head_not_mem
        | cons b post =>
          show Node.elem b ∉ nodes pre
          rw [elem_mem_nodes]
          intro hb
          exact (List.nodup_append.mp hnd).2.2 b hb b (by simp) rfl
      refine ⟨linked_relink h _ (nodes pre) (.head k) hpre (ring_nodup (List.nodup_append.mp hnd).1) ?_ ?_ ?_ ?_, ?_⟩
      · intro x hx hne
        rw [← hp] at hne
        simp only [upd, if_neg hne]
        rw [if_neg (fun (e : x = .elem n) => hnp (e ▸ hx))]
      · intro x hx
        simp only [upd]
        rw [if_neg (fun (e : x = target k post) => htpre (e ▸ hx)),
          if_neg (fun (e : x = .elem n) => hnp (e ▸ List.mem_cons_of_mem _ hx))]
      · rw [← hp]; simp [upd]
      · rw [← hp]
        simp only [upd]
        rw [if_neg (Ne.symm htn)]; simp
      · have hfirst : upd (upd h.next (.elem n) (some (target k post))) p (some (.elem n)) (.elem n) =
            some (target k post) := by
          simp only [upd]; rw [if_neg (Ne.symm hpn)]; simp
        have hsecond : upd (upd h.prev (.elem n) (some p)) (target k post) (some (.elem n))
            (target k post) = some (.elem n) := by simp [upd]
        cases post with
        | nil => exact ⟨hfirst, hsecond⟩
        | cons b post =>
          have e3 : nodes (b :: post) = .elem b :: nodes post := rfl
          rw [e3]
          refine ⟨hfirst, hsecond, ?_⟩
          rw [e3, linked_append] at hlk
          refine linked_frame h _ (nodes post) (.elem b) hlk.2 ?_ ?_
          · intro x hx
            have hxp : x ≠ p := by
              intro e
              rw [e] at hx
              have hx' : p ∈ nodes (b :: post) := hx
              obtain ⟨j, hj, ej⟩ := mem_nodes.mp hx'
              rw [ej] at hpring
              simp only [List.mem_cons, reduceCtorEq, false_or, elem_mem_nodes] at hpring
              exact (List.nodup_append.mp hnd).2.2 j hpring j hj rfl
            have hxn : x ≠ .elem n := by
              intro e
              rw [e] at hx
              have hx' : Node.elem n ∈ nodes (b :: post) := hx
              exact hnpost (elem_mem_nodes.mp hx')
            simp only [upd, if_neg hxp, if_neg hxn]
          · intro x hx
            have hxt : x ≠ target k (b :: post) := by
              show x ≠ Node.elem b
              intro e
              rw [e] at hx
              simp only [List.mem_append, elem_mem_nodes, List.mem_singleton, reduceCtorEq, or_false] at hx
              exact (List.nodup_cons.mp (List.nodup_append.mp hnd).2.1).1 hx
            have hxn : x ≠ .elem n := by
              intro e
              rw [e] at hx
              simp only [List.mem_append, elem_mem_nodes, List.mem_singleton, reduceCtorEq, or_false] at hx
              exact hnpost (by simp [hx])
            simp only [upd, if_neg hxt, if_neg hxn]
    · have e : upd s l (pre ++ n :: post) k = s k := by simp [upd, hk]
      rw [e]
      refine linked_frame h _ (nodes (s k)) (.head k) (hr.linked k) ?_ ?_
      · intro x hx
        have hxr : InRing s k x := hx
        have hxp : x ≠ p := fun e => hk (ring_disjoint hr (e ▸ hxr) hpin)
        have hxn : x ≠ .elem n := fun e => free_not_inRing hf k (e ▸ hxr)
        simp only [upd, if_neg hxp, if_neg hxn]
      · intro x hx
        have hxr : InRing s k x := by
          unfold InRing
          rw [List.mem_append, List.mem_singleton] at hx
          rw [List.mem_cons]
          exact hx.symm
        have hxp : x ≠ target l post := fun e => hk (ring_disjoint hr (e ▸ hxr) (target_inRing hs))
        have hxn : x ≠ .elem n := fun e => free_not_inRing hf k (e ▸ hxr)
        simp only [upd, if_neg hxp, if_neg hxn]
  · intro k
    by_cases hk : k = l
    · subst hk
      simp only [upd, if_true]
      rw [(List.perm_middle (l₁ := pre) (l₂ := post) (a := n)).nodup_iff, List.nodup_cons]
      exact ⟨by simp [hnpre, hnpost], hnd⟩
    · simp only [upd, if_neg hk]; exact hr.nodup k
  · intro k k' m hm hm'
    have key : ∀ j, m ∈ upd s l (pre ++ n :: post) j → (m = n ∧ j = l) ∨ (m ≠ n ∧ m ∈ s j) := by
      intro j hj
      by_cases hjl : j = l
      · subst hjl
        simp only [upd, if_true] at hj
        by_cases hmn : m = n
        · exact .inl ⟨hmn, rfl⟩
        · refine .inr ⟨hmn, ?_⟩
          rw [hs]
          simp only [List.mem_append, List.mem_cons] at hj ⊢
          tauto
      · simp only [upd, if_neg hjl] at hj
        exact .inr ⟨fun e => hf j (e ▸ hj), hj⟩
    rcases key k hm with ⟨h1, h2⟩ | ⟨h1, h2⟩ <;> rcases key k' hm' with ⟨h3, h4⟩ | ⟨h3, h4⟩
    · omega
    · exact absurd h1 h3
    · exact absurd h3 h1
    · exact hr.disjoint k k' m h2 h4
  · intro k m
    simp only [upd, Node.elem.injEq]
    by_cases hmn : m = n
    · subst hmn
      simp only [if_true, Option.some.injEq]
      constructor
      · intro e; subst e; simp
      · intro hm
        by_cases hk : k = l
        · exact hk.symm
        · rw [if_neg hk] at hm; exact absurd hm (hf k)
    · rw [if_neg hmn, hr.owner k m]
      by_cases hk : k = l
      · subst hk
        simp only [if_true]
        rw [hs]
        simp only [List.mem_append, List.mem_cons]
        tauto
      · rw [if_neg hk]
  · intro k
    simp only [upd, reduceCtorEq, if_false]
    exact hr.ownerHead k
  · intro k
    by_cases hk : k = l
    · subst hk
      simp only [upd, if_true, hr.size k, hs, List.length_append, List.length_cons]
      omega
    · simp only [upd, if_neg hk]; exact hr.size k

theorem remove_refines {h : Heap} {s : Abs} (hr : R h s) {l n : Nat} {pre post : List Nat}
    (hs : s l = pre ++ n :: post) :
    ∃ h', remove h l (.elem n) = some h' ∧ R h' (upd s l (pre ++ post)) := by
  have hmem : n ∈ s l := by rw [hs]; simp
  have hno : h.owner (.elem n) = some l := (hr.owner l n).mpr hmem
  have hlk := hr.linked l
  have e2 : nodes (n :: post) = .elem n :: nodes post := rfl
  rw [hs, nodes_append, e2, linked_append] at hlk
  obtain ⟨hl1, hl2⟩ := hlk
  obtain ⟨p, hp⟩ : ∃ p, p = (nodes pre).getLastD (.head l) := ⟨_, rfl⟩
  have hprev : h.prev (.elem n) = some p := by rw [hp]; exact linked_prev h _ _ hl1
  have hnext : h.next (.elem n) = some (target l post) := linked_next h hl2
  have hpring : p ∈ Node.head l :: nodes pre := by rw [hp]; exact getLastD_mem _ _
  have hnd := hr.nodup l
  rw [hs] at hnd
  have hnd' : (pre ++ post).Nodup := by
    rw [(List.perm_middle (l₁ := pre) (l₂ := post) (a := n)).nodup_iff, List.nodup_cons] at hnd
    exact hnd.2
  have hnpp : n ∉ pre ++ post := by
    rw [(List.perm_middle (l₁ := pre) (l₂ := post) (a := n)).nodup_iff, List.nodup_cons] at hnd
    exact hnd.1
  have hpn : p ≠ .elem n := by
    intro e
    rw [e] at hpring
    simp only [List.mem_cons, reduceCtorEq, false_or, elem_mem_nodes] at hpring
    exact hnpp (by simp [hpring])
  have hrem : remove h l (.elem n) = some
      { next := upd h.next p (some (target l post))
        prev := upd h.prev (target l post) (some p)
        owner := upd h.owner (.elem n) none
        size := upd h.size l (h.size l - 1) } := by
    unfold remove
    rw [if_neg (by simp [hno])]
    have hup : upd h.next p (some (target l post)) (.elem n) = some (target l post) := by
      unfold upd; rw [if_neg (Ne.symm hpn), hnext]
    simp only [hprev, hnext, hup]
  refine ⟨_, hrem, ?_⟩
  have hpin : InRing s l p := by
    unfold InRing; rw [hs, nodes_append]
    simp only [List.mem_cons, List.mem_append] at hpring ⊢
    tauto
  have htin : InRing s l (target l post) :=
    target_inRing (pre := pre ++ [n]) (by rw [hs]; simp)
  refine ⟨?_, ?_, ?_, ?_, ?_, ?_⟩
  · intro k
    by_cases hk : k = l
    · subst hk
      have e : upd s k (pre ++ post) k = pre ++ post := by simp [upd]
      rw [e, nodes_append]
      have htpre : target k post ∉ nodes pre := by
        cases post with
        | nil => exact head_not_mem
        | cons b post =>
          show Node.elem b ∉ nodes pre
          rw [elem_mem_nodes]
          intro hb
          exact (List.nodup_append.mp hnd').2.2 b hb b (by simp) rfl
      have hfront : Linked { next := upd h.next p (some (target k post))
                             prev := upd h.prev (target k post) (some p)
                             owner := upd h.owner (.elem n) none
                             size := upd h.size k (h.size k - 1) } (.head k) (nodes pre) (target k post) := by
        refine linked_relink h _ (nodes pre) (.head k) hl1 (ring_nodup (List.nodup_append.mp hnd').1) ?_ ?_ ?_ ?_
        · intro x hx hne
          rw [← hp] at hne
          simp only [upd, if_neg hne]
        · intro x hx
          simp only [upd]
          rw [if_neg (fun (e : x = target k post) => htpre (e ▸ hx))]
        · rw [← hp]; simp [upd]
        · rw [← hp]; simp [upd]
      cases post with
      | nil => simpa [nodes, target] using hfront
      | cons b post =>
        have e3 : nodes (b :: post) = .elem b :: nodes post := rfl
        rw [e3, linked_append]
        refine ⟨hfront, ?_⟩
        refine linked_frame h _ (nodes post) (.elem b) (by rw [e3] at hl2; exact hl2.2.2) ?_ ?_
        · intro x hx
          have hxp : x ≠ p := by
            intro e
            rw [e] at hx
            have hx' : p ∈ nodes (b :: post) := hx
            obtain ⟨j, hj, ej⟩ := mem_nodes.mp hx'
            rw [ej] at hpring
            simp only [List.mem_cons, reduceCtorEq, false_or, elem_mem_nodes] at hpring
            exact (List.nodup_append.mp hnd').2.2 j hpring j hj rfl
          simp only [upd, if_neg hxp]
        · intro x hx
          have hxt : x ≠ target k (b :: post) := by
            show x ≠ Node.elem b
            intro e
            rw [e] at hx
            simp only [List.mem_append, elem_mem_nodes, List.mem_singleton, reduceCtorEq, or_false] at hx
            exact (List.nodup_cons.mp (List.nodup_append.mp hnd').2.1).1 hx
          simp only [upd, if_neg hxt]
    · have e : upd s l (pre ++ post) k = s k := by simp [upd, hk]
      rw [e]
      refine linked_frame h _ (nodes (s k)) (.head k) (hr.linked k) ?_ ?_
      · intro x hx
        have hxr : InRing s k x := hx
        have hxp : x ≠ p := fun e => hk (ring_disjoint hr (e ▸ hxr) hpin)
        simp only [upd, if_neg hxp]
      · intro x hx
        have hxr : InRing s k x := by
          unfold InRing
          rw [List.mem_append, List.mem_singleton] at hx
          rw [List.mem_cons]
          exact hx.symm
        have hxp : x ≠ target l post := fun e => hk (ring_disjoint hr (e ▸ hxr) htin)
        simp only [upd, if_neg hxp]
  · intro k
    by_cases hk : k = l
    · subst hk; simp only [upd, if_true]; exact hnd'
    · simp only [upd, if_neg hk]; exact hr.nodup k
  · intro k k' m hm hm'
    have key : ∀ j, m ∈ upd s l (pre ++ post) j → m ∈ s j := by
      intro j hj
      by_cases hjl : j = l
      · subst hjl
        simp only [upd, if_true] at hj
        rw [hs]
        simp only [List.mem_append, List.mem_cons] at hj ⊢
        tauto
      · simp only [upd, if_neg hjl] at hj; exact hj
    exact hr.disjoint k k' m (key k hm) (key k' hm')
  · intro k m
    simp only [upd, Node.elem.injEq]
    by_cases hmn : m = n
    · subst hmn
      simp only [if_true, reduceCtorEq, false_iff]
      by_cases hk : k = l
      · rw [if_pos hk]; exact hnpp
      · rw [if_neg hk]
        exact fun hm => hk (hr.disjoint k l m hm hmem)
    · rw [if_neg hmn, hr.owner k m]
      by_cases hk : k = l
      · subst hk
        simp only [if_true]
        rw [hs]
        simp only [List.mem_append, List.mem_cons]
        tauto
      · rw [if_neg hk]
  · intro k
    simp only [upd, reduceCtorEq, if_false]
    exact hr.ownerHead k
  · intro k
    by_cases hk : k = l
    · subst hk
      simp only [upd, if_true, hr.size k, hs, List.length_append, List.length_cons]
      omega
    · simp only [upd, if_neg hk]; exact hr.size k

theorem init_refines : R init (fun _ => []) where
  linked := fun l => ⟨rfl, rfl⟩
  nodup := fun _ => List.nodup_nil
  disjoint := fun _ _ _ h => by simp at h
  owner := fun l n => by simp [init]
  ownerHead := fun _ => rfl
  size := fun _ => rfl

theorem putBefore_split {n b : Nat} {pre post : List Nat} (h : b ∉ pre) :
    putBefore n b (pre ++ b :: post) = pre ++ n :: b :: post := by
  induction pre with
  | nil => simp [putBefore]
  | cons x pre ih =>
    simp only [List.mem_cons, not_or] at h
    simp only [List.cons_append, putBefore]
    rw [if_neg (Ne.symm h.1), ih h.2]

theorem putAfter_split {n a : Nat} {pre post : List Nat} (h : a ∉ pre) :
    putAfter n a (pre ++ a :: post) = pre ++ a :: n :: post := by
  induction pre with
  | nil => simp [putAfter]
  | cons x pre ih =>
    simp only [List.mem_cons, not_or] at h
    simp only [List.cons_append, putAfter]
    rw [if_neg (Ne.symm h.1), ih h.2]

theorem split_first {a : Nat} {xs : List Nat} (h : a ∈ xs) (hnd : xs.Nodup) :
    ∃ pre post, xs = pre ++ a :: post ∧ a ∉ pre ∧ xs.erase a = pre ++ post := by
  obtain ⟨pre, post, rfl⟩ := List.append_of_mem h
  have hna : a ∉ pre := fun hm => (List.nodup_append.mp hnd).2.2 a hm a (by simp) rfl
  refine ⟨pre, post, rfl, hna, ?_⟩
  rw [List.erase_append_right _ hna]
  simp

/-- Every call that meets its requirements has its effect. -/
theorem step_refines {h : Heap} {s : Abs} (hr : R h s) (op : Op) (ha : Allowed s op) :
    ∃ h', step h op = some h' ∧ R h' (effect s op) := by
  cases op with
  | pushBack l n =>
    have := insert_refines hr (l := l) (pre := s l) (post := []) ha (by simp)
    simpa [step, pushBack, effect, target, nodes] using this
  | pushFront l n =>
    obtain ⟨h', e, r⟩ := insert_refines hr (l := l) (pre := []) (post := s l) ha (by simp)
    refine ⟨h', ?_, by simpa [effect] using r⟩
    simp only [step, pushFront]
    rw [linked_next h (hr.linked l)]
    exact e
  | insertBefore l n b =>
    obtain ⟨hf, hb⟩ := ha
    obtain ⟨pre, post, hs, hna, _⟩ := split_first hb (hr.nodup l)
    obtain ⟨h', e, r⟩ := insert_refines hr (pre := pre) (post := b :: post) hf hs
    refine ⟨h', e, ?_⟩
    simp only [effect]
    rw [hs, putBefore_split hna]
    exact r
  | insertAfter l n a =>
    obtain ⟨hf, hb⟩ := ha
    obtain ⟨pre, post, hs, hna, _⟩ := split_first hb (hr.nodup l)
    have hs' : s l = (pre ++ [a]) ++ post := by rw [hs]; simp
    obtain ⟨h', e, r⟩ := insert_refines hr (pre := pre ++ [a]) (post := post) hf hs'
    refine ⟨h', ?_, ?_⟩
    · simp only [step, insertAfter]
      have hlk := hr.linked l
      have e2 : nodes (a :: post) = .elem a :: nodes post := rfl
      rw [hs, nodes_append, e2, linked_append] at hlk
      rw [linked_next h hlk.2]
      exact e
    · simp only [effect]
      rw [hs, putAfter_split hna]
      simpa using r
  | popFront l =>
    cases hs : s l with
    | nil => exact absurd hs ha
    | cons n post =>
      obtain ⟨h', e, r⟩ := remove_refines hr (pre := []) (post := post) (by simpa using hs)
      refine ⟨h', ?_, by simpa [effect, hs] using r⟩
      simp only [step, popFront]
      rw [if_neg (by rw [hr.size l, hs]; simp), linked_next h (hr.linked l), hs]
      exact e
  | popBack l =>
    obtain ⟨pre, n, hs⟩ : ∃ pre n, s l = pre ++ [n] :=
      ⟨(s l).dropLast, (s l).getLast ha, (List.dropLast_concat_getLast ha).symm⟩
    obtain ⟨h', e, r⟩ := remove_refines hr (pre := pre) (post := []) hs
    refine ⟨h', ?_, by simpa [effect, hs] using r⟩
    simp only [step, popBack]
    rw [if_neg (by rw [hr.size l, hs]; simp), linked_prev h _ _ (hr.linked l), hs]
    have : (nodes (pre ++ [n])).getLastD (.head l) = .elem n := by simp [nodes]
    rw [this]
    exact e
  | remove l n =>
    obtain ⟨pre, post, hs, hna, he⟩ := split_first ha (hr.nodup l)
    obtain ⟨h', e, r⟩ := remove_refines hr hs
    refine ⟨h', e, ?_⟩
    simp only [effect]
    rw [he]
    exact r

theorem run_refines (ops : List Op) : ∀ (h : Heap) (s : Abs), R h s → AllowedRun s ops →
    ∃ h', run h ops = some h' ∧ R h' (effects s ops) := by
  induction ops with
  | nil => intro h s hr _; exact ⟨h, rfl, hr⟩
  | cons op ops ih =>
    intro h s hr ha
    obtain ⟨h1, e1, r1⟩ := step_refines hr op ha.1
    obtain ⟨h2, e2, r2⟩ := ih h1 _ r1 ha.2
    exact ⟨h2, by simp only [run, e1]; exact e2, r2⟩

theorem forward_eq {h : Heap} {s : Abs} (hr : R h s) {l : Nat} :
    ∀ (post pre : List Nat) (n fuel : Nat), s l = pre ++ n :: post → post.length < fuel →
      forward h l fuel (some (.elem n)) = nodes (n :: post)
  | _, _, _, 0, _, hf => absurd hf (by omega)
  | post, pre, n, fuel + 1, hs, hf => by
    have ho : h.owner (.elem n) = some l := (hr.owner l n).mpr (by rw [hs]; simp)
    have hlk := hr.linked l
    have e2 : nodes (n :: post) = .elem n :: nodes post := rfl
    rw [hs, nodes_append, e2, linked_append] at hlk
    have hn := linked_next h hlk.2
    simp only [forward, nextof]
    rw [if_neg (by simp [ho]), hn, e2]
    cases post with
    | nil => simp [nodes]; cases fuel <;> rfl
    | cons b post =>
      have hb : (nodes (b :: post)).headD (.head l) = .elem b := rfl
      rw [hb]
      simp only [Option.some.injEq, reduceCtorEq, if_false]
      rw [forward_eq hr post (pre ++ [n]) b fuel (by rw [hs]; simp) (by simp at hf; omega)]

theorem backward_eq {h : Heap} {s : Abs} (hr : R h s) {l : Nat} :
    ∀ (k : Nat) (pre post : List Nat) (n fuel : Nat), pre.length = k → s l = pre ++ n :: post →
      pre.length < fuel → backward h l fuel (some (.elem n)) = nodes (n :: pre.reverse)
  | _, _, _, _, 0, _, _, hf => absurd hf (by omega)
  | k, pre, post, n, fuel + 1, hk, hs, hf => by
    have ho : h.owner (.elem n) = some l := (hr.owner l n).mpr (by rw [hs]; simp)
    have hlk := hr.linked l
    have e2 : nodes (n :: post) = .elem n :: nodes post := rfl
    rw [hs, nodes_append, e2, linked_append] at hlk
    have hn := linked_prev h _ _ hlk.1
    have e3 : nodes (n :: pre.reverse) = .elem n :: nodes pre.reverse := rfl
    simp only [backward, prevof]
    rw [if_neg (by simp [ho]), hn, e3]
    rcases List.eq_nil_or_concat pre with hp | ⟨p, b, hp⟩
    · subst hp
      simp [nodes]; cases fuel <;> rfl
    · rw [List.concat_eq_append] at hp
      subst hp
      have hb : (nodes (p ++ [b])).getLastD (.head l) = .elem b := by simp [nodes]
      rw [hb]
      simp only [Option.some.injEq, reduceCtorEq, if_false]
      rw [backward_eq hr (k - 1) p (n :: post) b fuel (by simp at hk; omega) (by rw [hs]; simp)
        (by simp at hf; omega)]
      simp

end Verif.IntrusiveList
