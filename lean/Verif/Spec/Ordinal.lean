import Verif.Spec.Info

/-!
# Independent specification: ordinal patterns

The ordinal pattern of a window is the list of ranks of its entries; permutation entropy is the
Shannon entropy of the patterns of all delay vectors.
-/

namespace Verif.Spec

variable {α : Type} [LinearOrder α] [Inhabited α]

/-- delay vectors `(x_i, x_{i+s}, …, x_{i+(d−1)s})` of a series -/
def delayVectors (x : List α) (d s : Nat) : List (List α) :=
  (List.range (x.length - (d - 1) * s)).map
    (fun i => (List.range d).map (fun j => x.getD (i + j * s) default))

/-- rank of every entry of a window: how many entries are smaller -/
def rankPattern (w : List α) : List Nat := w.map (fun a => w.countP (fun c => decide (c < a)))

/-- no delay vector contains the same value twice -/
def TieFree (x : List α) (d s : Nat) : Prop := ∀ w ∈ delayVectors x d s, w.Nodup

/-- permutation entropy (nats) -/
noncomputable def permEntropy (x : List α) (d s : Nat) : ℝ :=
  entropy ((delayVectors x d s).map rankPattern)

end Verif.Spec
