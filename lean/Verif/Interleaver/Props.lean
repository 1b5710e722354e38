import Verif.Interleaver.Lemmas

/-!
# C04, C05: the interleaver; C48: bounded random numbers and the shuffle
-/

namespace Verif.Interleaver

variable {P : Type}

/-- **C48** (range). For every interval and every generator output the bounded random number
lies in the interval; it takes exactly one generator output and never aborts. -/
theorem C48_random_range (from_ to z : Nat) (zs : List Nat) (h : from_ ≤ to) (hto : to < 2 ^ 32)
    (hz : z < 2 ^ 32) :
    ∃ v, fastRandomRange from_ to (z :: zs) = some (v, 1) ∧ from_ ≤ v ∧ v ≤ to := by
  unfold fastRandomRange
  rw [if_neg (by omega)]
  have hr : z % (to - from_ + 1) < to - from_ + 1 := Nat.mod_lt _ (by omega)
  have hr2 : z % (to - from_ + 1) ≤ z := Nat.mod_le _ _
  dsimp only
  generalize z % (to - from_ + 1) = r at *
  rw [if_neg (by omega)]
  have : (from_ + r % 2 ^ 32) % 2 ^ 32 = from_ + r := by omega
  rw [this, if_neg (by omega)]
  exact ⟨_, rfl, by omega, by omega⟩

example : ∃ v, fastRandomRange 0 9 [4294967295] = some (v, 1) ∧ 0 ≤ v ∧ v ≤ 9 :=
  C48_random_range 0 9 4294967295 [] (by decide) (by decide) (by decide)

/-- An empty interval is an abort, not a value. -/
theorem C48_empty_interval_aborts (from_ to : Nat) (zs : List Nat) (h : to < from_) :
    fastRandomRange from_ to zs = none := by
  cases zs with
  | nil => rfl
  | cons z zs => unfold fastRandomRange; rw [if_pos h]

example : fastRandomRange 5 4 [1, 2] = none := C48_empty_interval_aborts 5 4 _ (by decide)

/-- **C48** (shuffle). Whatever random numbers are drawn (each within its range), the send
order is a permutation of the block positions. -/
theorem C48_shuffle_is_permutation (rnd : Nat → Nat) (n : Nat)
    (hr : ∀ i, 1 ≤ i → i ≤ n → rnd i ≤ i - 1) : IsPerm n (initSeq rnd n) :=
  shuffle_perm (Nat.le_refl n) hr (id_perm n)

example : IsPerm 5 (initSeq (fun i => (i * 7) % i) 5) :=
  C48_shuffle_is_permutation _ 5 (fun i h _ => by have := Nat.mod_lt (i * 7) (y := i) (by omega); omega)

/-- **C04** (conservation). After any sequence of writes and flushes, the packets sent plus
the packets held back are exactly the packets written. -/
theorem C04_conservation (n : Nat) (hn : 0 < n) (seq : Nat → Nat) (hs : IsPerm n seq)
    (ops : List (Op P)) :
    let r := run (State.init P n seq) ops
    (r.2 ++ r.1.held).Perm (writes ops) := by
  have := (run_inv ops (State.init P n seq) (init_inv hn hs)).2.2.2.1
  have h0 : (State.init P n seq).held = [] := by
    simp [State.held, State.init, List.filterMap_eq_nil_iff]
  rwa [h0] at this

/-- **C04** (full blocks). When the number of packets written since the start or the last
flush is a multiple of the block size, everything written has been sent. -/
theorem C04_full_block_sent (n : Nat) (hn : 0 < n) (seq : Nat → Nat) (hs : IsPerm n seq)
    (ops : List (Op P)) (hfull : n ∣ sinceFlush 0 ops) :
    let r := run (State.init P n seq) ops
    r.1.held = [] ∧ r.2.Perm (writes ops) := by
  intro r
  have hi := run_inv ops (State.init P n seq) (init_inv hn hs)
  have hput : r.1.put = 0 := by
    have := hi.2.2.2.2 0 (by simp [State.init])
    rw [Nat.mod_eq_zero_of_dvd (by simpa [State.init] using hfull)] at this
    exact this
  have hlen := held_length hi.1
  have hnil : r.1.held = [] := by
    apply List.eq_nil_of_length_eq_zero
    show (run (State.init P n seq) ops).1.held.length = 0
    have : (run (State.init P n seq) ops).1.put = 0 := hput
    omega
  refine ⟨hnil, ?_⟩
  have := C04_conservation n hn seq hs ops
  simp only at this
  rwa [show (run (State.init P n seq) ops).1.held = [] from hnil, List.append_nil] at this

/-- **C04** (failing downstream writer). Even if the downstream writer rejects any packets it
likes, one write call never duplicates or invents a packet. -/
theorem C04_no_duplicates_any_writer (w : P → Bool) (s : State P) (h : Safe s) (p : P) :
    ∃ lost, ((s.write w p).2.1 ++ (s.write w p).1.held ++ lost).Perm (s.held ++ [p]) :=
  (write_conserve w h p).2

/-- **C05** (bounded hold-back). At any moment fewer than `block_size` packets are held. -/
theorem C05_held_less_than_block (n : Nat) (hn : 0 < n) (seq : Nat → Nat) (hs : IsPerm n seq)
    (ops : List (Op P)) :
    (run (State.init P n seq) ops).1.held.length < n := by
  have hi := run_inv ops (State.init P n seq) (init_inv hn hs)
  have h1 := held_length hi.1
  have h2 := hi.1.put_lt
  have h3 : (run (State.init P n seq) ops).1.blockSize = n := hi.2.1
  omega

/-- **C05** (flush). After `flush` everything written so far has been sent, and every slot and
both positions are as after construction. -/
theorem C05_flush (n : Nat) (hn : 0 < n) (seq : Nat → Nat) (hs : IsPerm n seq)
    (ops : List (Op P)) :
    let r := run (State.init P n seq) (ops ++ [.flush])
    r.2.Perm (writes ops) ∧ r.1.put = 0 ∧ r.1.send = 0 ∧ r.1.seq = seq ∧
      ∀ i < n, r.1.packets i = none := by
  intro r
  have happ : ∀ (ops : List (Op P)) (s : State P),
      run s (ops ++ [.flush]) =
        (((run s ops).1.flush (fun _ => true)).1, (run s ops).2 ++ ((run s ops).1.flush (fun _ => true)).2.1) := by
    intro ops
    induction ops with
    | nil => intro s; simp [run]
    | cons op ops ih => intro s; cases op <;> simp [run, ih]
  have hi := run_inv ops (State.init P n seq) (init_inv hn hs)
  have ⟨_, _, f3, f4, f5, f6, f7, f8⟩ := flush_inv hi.1
  have hr : r = run (State.init P n seq) (ops ++ [.flush]) := rfl
  rw [happ] at hr
  rw [hr]
  refine ⟨?_, f5, f6, f4.trans hi.2.2.1, fun i hin => f7 i (by rw [hi.2.1]; exact hin)⟩
  rw [f8]
  exact C04_conservation n hn seq hs ops

/-- **C05** (memory safety). Every index used by the interleaver is below the block size. -/
theorem C05_indices_in_range (n : Nat) (hn : 0 < n) (seq : Nat → Nat) (hs : IsPerm n seq)
    (ops : List (Op P)) :
    let s := (run (State.init P n seq) ops).1
    s.put < n ∧ s.send < n ∧ s.seq s.send < n := by
  have hi := run_inv ops (State.init P n seq) (init_inv hn hs)
  have h3 : (run (State.init P n seq) ops).1.blockSize = n := hi.2.1
  have := hi.1.put_lt
  have := hi.1.send_lt
  exact ⟨by omega, by omega, by have := hi.1.perm.1 _ hi.1.send_lt; omega⟩

/-- **C05** (termination). The send loop of `write` ends by its own condition: the next packet
to send is not there yet. -/
theorem C05_send_loop_exits (n : Nat) (hn : 0 < n) (seq : Nat → Nat) (hs : IsPerm n seq)
    (ops : List (Op P)) :
    let s := (run (State.init P n seq) ops).1
    s.packets (s.seq s.send) = none :=
  (run_inv ops (State.init P n seq) (init_inv hn hs)).1.idle

/-! A concrete permutation of a block of four, used to show that the hypotheses can be met. -/

/-- Send order 2, 0, 3, 1. -/
def exSeq : Nat → Nat
  | 0 => 2 | 1 => 0 | 2 => 3 | 3 => 1 | _ => 0

theorem exSeq_perm : IsPerm 4 exSeq := by
  refine ⟨by decide, by decide, by decide⟩

def exOps : List (Op Nat) := [.write 10, .write 11, .write 12, .write 13, .write 14, .write 15]

example : (run (State.init Nat 4 exSeq) exOps).2 = [12, 10, 13, 11] := by decide
example : (run (State.init Nat 4 exSeq) exOps).1.held = [14, 15] := by decide
example := C04_conservation 4 (by decide) exSeq exSeq_perm exOps
example := C04_full_block_sent 4 (by decide) exSeq exSeq_perm (exOps.take 4) (by decide)
example := C05_held_less_than_block 4 (by decide) exSeq exSeq_perm exOps
example := C05_flush 4 (by decide) exSeq exSeq_perm exOps
example := C05_indices_in_range 4 (by decide) exSeq exSeq_perm exOps
example := C05_send_loop_exits 4 (by decide) exSeq exSeq_perm exOps
example := C04_no_duplicates_any_writer (fun p : Nat => p != 12)
  (run (State.init Nat 4 exSeq) (exOps.take 2)).1 ⟨by decide, by decide, by decide⟩ 12

end Verif.Interleaver
