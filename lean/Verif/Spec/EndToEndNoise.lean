import Verif.Spec.EndToEnd

/-!
# Specification for C85: noise

What "adding Gaussian noise of standard deviation `noise_level` to the data" means: to every number of an array its own draw, times the
level, is added.
-/

namespace Verif

/-- an array with `e t j` added to the number in row `t` and column `j` -/
noncomputable def KVar.plus (e : Nat → Nat → ℝ) : KVar → KVar
  | .one xs => .one (xs.mapIdx (fun t x => x + e t 0))
  | .two a => .two ⟨a.cols, a.rows.mapIdx (fun t r => r.mapIdx (fun j x => x + e t j))⟩

/-- the data with the noise of level `v` added, every variable with its own draws -/
noncomputable def noisyData (W : World) (v : ℝ) (data : List KVar) : List KVar :=
  data.mapIdx (fun i x => x.plus (fun t j => v * W.draw i t j))

/-- the condition with the noise of level `v` added, with the draws number `i` -/
noncomputable def noisyCond (W : World) (v : ℝ) (i : Nat) (z : KVar) : KVar := z.plus (fun t j => v * W.draw i t j)

/-- what the nearest-neighbour conditional mutual information adds to its condition: for `n` samples, `v` times the sum of `n` draws -/
noncomputable def noisyCondSum (W : World) (v : ℝ) (i n : Nat) (z : KVar) : KVar :=
  z.plus (fun t j => v * ((List.range n).map (fun r => W.draw (i + r) t j)).sum)

/-- the series with the noise of level `v` added, with the draws number `i` -/
noncomputable def noisySeries (W : World) (v : ℝ) (i : Nat) (xs : List ℝ) : List ℝ := xs.mapIdx (fun t x => x + v * W.draw i t 0)

end Verif
