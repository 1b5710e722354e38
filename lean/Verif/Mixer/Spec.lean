import Verif.Mixer.Model

/-!
# Mixer: specification
-/

namespace Verif.Mixer

/-- What a reader delivers when it is asked for pieces of the given sizes: silence when it has nothing. -/
def deliver {σ : Type} (rd : Rd σ) : List Nat → σ → List S × σ
  | [], s => ([], s)
  | n :: ns, s =>
    ((match (rd s n).1 with | none => List.replicate n (some 0) | some r => r.samples) ++ (deliver rd ns (rd s n).2).1, (deliver rd ns (rd s n).2).2)

/-- Readers fill the buffer (iframe_reader.h:28-30). -/
def Fills {σ : Type} (rd : Rd σ) : Prop := ∀ s n r, (rd s n).1 = some r → r.samples.length = n

/-- Silence does not change a legal sample. True of exact and of floating point addition. -/
def ZeroLaw (add : Rat → Rat → Rat) : Prop := ∀ x, -1 ≤ x → x ≤ 1 → add x 0 = x

/-- The inputs at one position, put together one after another with clipping. -/
def mixAt (add : Rat → Rat → Rat) (cols : List (List S)) (k : Nat) : S := cols.foldl (fun a c => mixOne add a (c.getD k (some 0))) (some 0)

/-- The inputs put together. -/
def mixed (add : Rat → Rat → Rat) (n : Nat) (cols : List (List S)) : List S := (List.range n).map (mixAt add cols)

/-- A legal sample. -/
def Legal (x : S) : Prop := ∃ q, x = some q ∧ -1 ≤ q ∧ q ≤ 1

/-- Sums of the first inputs. -/
def Fits : Rat → List Rat → Prop
  | _, [] => True
  | a, x :: xs => -1 ≤ a + x ∧ a + x ≤ 1 ∧ Fits (a + x) xs

/-- A reader that always has data, and whose data does not depend on the sizes of pieces. -/
def IsStream {σ : Type} (rd : Rd σ) (s : σ) (x : Nat → S) : Prop := ∀ ns : List Nat, (deliver rd ns s).1 = (List.range ns.sum).map x

/-- All samples of frames. -/
def samplesOf (fs : List Frame) : List S := fs.flatMap (·.samples)

/-- Total number of samples of buffers. -/
def total (bs : List (List S)) : Nat := (bs.map List.length).sum

end Verif.Mixer
