import Verif.Packetizer.Model
import Mathlib.Data.List.Forall2

/-!
# Packetizer: specification

Every written sample has a label: its capture time, or 0 if the frame had none.
-/

namespace Verif.Packetizer

variable {α : Type}

/-- Samples of a frame with capture times. -/
def label (c : Cfg) (l : List α) (cts : Int) : List (α × Int) := l.zipIdx.map fun x => (x.1, if cts = 0 then 0 else cts + c.per * x.2)

/-- `o` is the packet with samples `g`: its audio, the capture time of the first sample, the number of samples, and padding up to
the fixed size. -/
structure Carries (c : Cfg) (o : Out α) (g : List (α × Int)) : Prop where
  ne : g ≠ []
  audio : o.audio = g.map (·.1)
  cts : ∀ x, g.head? = some x → o.cts = x.2
  dur : o.dur = g.length
  pad : o.pad + c.bytes g.length = c.bytes c.spp

/-- What calls do: `pend` and `pend'` are the samples which were not sent before and after the calls. -/
inductive Good (c : Cfg) : List (α × Int) → List (Op α) → List (List (Out α)) → List (α × Int) → Prop where
  | nil {pend} : Good c pend [] [] pend
  | flush {pend ops os outs pend'} (h : (pend = [] ∧ os = []) ∨ ∃ o, os = [o] ∧ Carries c o pend) (hr : Good c [] ops outs pend') :
      Good c pend (.flush :: ops) (os :: outs) pend'
  | write {pend mid l cts allocs ops os outs pend'} (k : Nat) (hk : k ≤ l.length) (hf : k < l.length → false ∈ allocs ∧ mid = [])
      (gs : List (List (α × Int))) (hg : List.Forall₂ (Carries c) os gs) (hn : ∀ g ∈ gs, g.length = c.spp)
      (he : gs.flatten ++ mid = pend ++ (label c l cts).take k) (hm : mid.length < c.spp) (hr : Good c mid ops outs pend') :
      Good c pend (.write l cts allocs :: ops) (os :: outs) pend'

/-- Written samples. -/
def written : List (Op α) → List α
  | [] => []
  | .flush :: ops => written ops
  | .write l _ _ :: ops => l ++ written ops

/-- Capture timestamps are not negative. -/
def Times (ops : List (Op α)) : Prop := ∀ l cts allocs, Op.write l cts allocs ∈ ops → 0 ≤ cts

/-- All allocations succeed. -/
def NoFail (ops : List (Op α)) : Prop := ∀ l cts allocs, Op.write l cts allocs ∈ ops → false ∉ allocs

/-- Configuration accepted by the constructor, with an encoder that uses more bytes for more samples. -/
structure CfgOk (c : Cfg) : Prop where
  spp : 0 < c.spp
  spp32 : c.spp < m32
  per : 0 ≤ c.per
  mono : ∀ a b, a ≤ b → c.bytes a ≤ c.bytes b

end Verif.Packetizer
