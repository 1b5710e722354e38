import Verif.Decimation.Model

/-!
# Decimation resampler: what is required

The calls made by a user of the resampler, and what they are supposed to add up to. Nothing here
looks at the accumulator.
-/

namespace Verif.Decimation.Spec

open Verif.PcmFormat

/-- A call made to the resampler, with its outcome. -/
inductive Ev (S : Type) where
  /-- `set_scaling(in_rate, out_rate, mult)`; the answer of the inner resampler. -/
  | scale (inRate outRate : Nat) (m : ℚ) (innerOk : Bool)
  /-- `begin_push_input`, the samples written to the buffer, `end_push_input`, without an inner
  resampler. -/
  | push (data : List S)
  /-- `begin_push_input`, `end_push_input`, with an inner resampler, which gets the samples. -/
  | pushInner
  /-- `pop_output(size)`; what the inner resampler gave meanwhile; what was returned. -/
  | pop (size : Nat) (chunks : List (List S)) (out : List S)

/-- Samples the resampler was given. -/
def consumed {S : Type} : List (Ev S) → List S
  | [] => []
  | .push d :: t => d ++ consumed t
  | .pop _ c _ :: t => c.flatten ++ consumed t
  | _ :: t => consumed t

/-- Samples the resampler gave. -/
def produced {S : Type} : List (Ev S) → List S
  | [] => []
  | .pop _ _ o :: t => o ++ produced t
  | _ :: t => produced t

/-- Number of portions of input. -/
def portions {S : Type} : List (Ev S) → Nat
  | [] => 0
  | .push _ :: t => 1 + portions t
  | .pop _ c _ :: t => c.length + portions t
  | _ :: t => portions t

/-- Number of calls of `pop_output`. -/
def pops {S : Type} : List (Ev S) → Nat
  | [] => 0
  | .pop _ _ _ :: t => 1 + pops t
  | _ :: t => pops t

/-- Is this scaling within the range that the resampler admits: nothing more than a frame of `n`
samples may be inserted or removed per 16 frames. Up to rounding, `m` is between 16/17 and 16/15. -/
def Admitted (n inRate outRate : Nat) (m : ℚ) : Prop :=
  inRate ≠ 0 ∧ outRate ≠ 0 ∧ 0 < m ∧ |rnd 24 (rnd 24 ((16 * n : Nat) / m) - (16 * n : Nat))| ≤ n

open Classical in
/-- The number of samples that should come out: every portion of input is to be divided by the
scaling that is set at the time it is taken. `m` is the scaling set at the start. -/
noncomputable def ideal {S : Type} (n : Nat) (m : ℚ) : List (Ev S) → ℚ
  | [] => 0
  | .scale i o m' ok :: t =>
    if Admitted n i o m' ∧ (i = o ∨ ok) then ideal n m' t else ideal n m t
  | .push d :: t => (d.length : ℚ) / m + ideal n m t
  | .pop _ c _ :: t => (c.flatten.length : ℚ) / m + ideal n m t
  | .pushInner :: t => ideal n m t

/-- `Edit n last ins outs k last' rest`: frames of `n` samples of `ins` are copied to `outs` one by
one, except that `k` times a frame is omitted, or the last frame copied (`last` at the start) is
repeated; `last'` is the last frame copied, and `rest` is what is left of `ins`. -/
inductive Edit {S : Type} (n : Nat) : List S → List S → List S → Nat → List S → List S → Prop where
  | done (last ins : List S) : Edit n last ins [] 0 last ins
  | keep (last f ins outs : List S) (k : Nat) (l r : List S) : f.length = n →
      Edit n f ins outs k l r → Edit n last (f ++ ins) (f ++ outs) k l r
  | omitted (last f ins outs : List S) (k : Nat) (l r : List S) : f.length = n →
      Edit n last ins outs k l r → Edit n last (f ++ ins) outs (k + 1) l r
  | repeated (last ins outs : List S) (k : Nat) (l r : List S) : last.length = n →
      Edit n last ins outs k l r → Edit n last ins (last ++ outs) (k + 1) l r

/-- A chunk that the inner resampler may give: whole frames, not more than fits in our buffer. -/
def ChunkOk {S : Type} (n : Nat) (c : List S) : Prop := n ∣ c.length ∧ c.length ≤ 16 * n

/-- The calls are made by the rules, and have the outcomes they have according to the model: whole
frames are asked for and given; input is pushed in portions of 16 frames, only when a call of
`pop_output` has left nothing of the previous portion; and all that the inner resampler is said to
have given was asked for. -/
inductive Run {S : Type} (n : Nat) : St S → List (Ev S) → St S → Prop where
  | nil (st : St S) : Run n st [] st
  | scale (st : St S) (i o : Nat) (m : ℚ) (ok : Bool) (t : List (Ev S)) (st' : St S) :
      Run n (setScaling n st i o m ok).2 t st' → Run n st (.scale i o m ok :: t) st'
  | push (st : St S) (d : List S) (t : List (Ev S)) (st' : St S) : st.useInner = false →
      d.length = 16 * n → st.inPos = st.inBuf.length →
      Run n (push st d) t st' → Run n st (.push d :: t) st'
  | pushInner (st : St S) (d : List S) (t : List (Ev S)) (st' : St S) : st.useInner = true →
      Run n (push st d) t st' → Run n st (.pushInner :: t) st'
  | pop (st : St S) (size : Nat) (c : List (List S)) (out : List S) (s1 : St S) (t : List (Ev S))
      (st' : St S) : n ∣ size → (∀ x ∈ c, ChunkOk n x) → pop n st size c = .ok (s1, out, []) →
      Run n s1 t st' → Run n st (.pop size c out :: t) st'

end Verif.Decimation.Spec
