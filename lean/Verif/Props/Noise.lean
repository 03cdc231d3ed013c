import Verif.Props.Offset
import Verif.Props.KlEntropy
import Verif.Model.Divergence2

/-!
# How the noise arrays enter the nearest-neighbour estimates (C51, C52, C63, C69, C72)
-/

namespace Verif

/-- **C51** The noise of a variable is added entry by entry: in component `j` of sample `t` the perturbed variable has
the old value plus entry `(t, j)` of the noise array, and the same number of samples and components. -/
theorem C51_noise_added (v : KVar) (e : Nat → Nat → ℝ) :
    noisyVar (some e) v = v.noisy (some e) ∧ (v.noisy (some e)).samples.length = v.samples.length ∧
    ∀ t s, v.samples[t]? = some s → ∃ s', (v.noisy (some e)).samples[t]? = some s' ∧ s'.length = s.length ∧
      ∀ j x, s[j]? = some x → s'[j]? = some (x + e t j) := by
  have h : (v.noisy (some e)).samples = v.samples.mapIdx (fun t r => r.mapIdx (fun j x => x + e t j)) := by
    cases v <;> rfl
  rw [h]
  refine ⟨rfl, by simp, fun t s hs => ⟨s.mapIdx (fun j x => x + e t j), ?_, by simp, fun j x hx => ?_⟩⟩
  · rw [List.getElem?_mapIdx, hs]; rfl
  · rw [List.getElem?_mapIdx, hx]; rfl

example := C51_noise_added (.two ⟨2, [[0, 1], [3, 4]]⟩) (fun i j => i + 2 * j)

/-- **C63** The noise of a series is added value by value. -/
theorem C63_noise_added (xs : List ℝ) (e : Nat → ℝ) (t : Nat) :
    (jitter1 (some e) xs)[t]? = xs[t]?.map (fun x => x + e t) := by
  simp [jitter1]

example := C63_noise_added [1, 2, 4] (fun i => i) 2

/-- **C72** The noise of a series of vectors is added component by component. -/
theorem C72_noise_added (xs : List (List ℝ)) (e : Nat → Nat → ℝ) :
    (jitterVec (some e) xs).length = xs.length ∧
    ∀ t s, xs[t]? = some s → ∃ s', (jitterVec (some e) xs)[t]? = some s' ∧ s'.length = s.length ∧
      ∀ j x, s[j]? = some x → s'[j]? = some (x + e t j) := by
  refine ⟨by simp [jitterVec], fun t s hs => ⟨s.mapIdx (fun j x => x + e t j), ?_, by simp, fun j x hx => ?_⟩⟩
  · simp only [jitterVec]
    rw [List.getElem?_mapIdx, hs]; rfl
  · rw [List.getElem?_mapIdx, hx]; rfl

theorem klInit_pair (p q p' q' : KVar) (cfg : KlCfg) :
    (klInit [.arr p, .arr q] cfg = .ok [.arr p, .arr q] ∧ klInit [.arr p', .arr q'] cfg = .ok [.arr p', .arr q']) ∨
    ∃ x, klInit [.arr p, .arr q] cfg = .error x ∧ klInit [.arr p', .arr q'] cfg = .error x := by
  simp only [klInit, bind, Except.bind]
  split_ifs <;> simp

/-- **C52** In a cross-entropy each sample gets its own noise array. -/
theorem C52_cross_noise (p q : KVar) (cfg : KlCfg) (e₁ e₂ : Option (Nat → Nat → ℝ)) (b : Base) :
    klEntropy [.arr p, .arr q] cfg e₁ e₂ b = klEntropy [.arr (p.noisy e₁), .arr (q.noisy e₂)] cfg none none b := by
  rcases klInit_pair p q (p.noisy e₁) (q.noisy e₂) cfg with ⟨h1, h2⟩ | ⟨x, h1, h2⟩
  · simp only [klEntropy, h1, h2, bind, Except.bind]
    rfl
  · simp only [klEntropy, h1, h2, bind, Except.bind]

example := C52_cross_noise (.one [0, 1, 3]) (.one [1, 2, 5]) ⟨.int 1, 1, false, .inf⟩ (some (fun i _ => i)) (some (fun i _ => 2 * i)) .e

/-- **C69** The nearest-neighbour Kullback–Leibler divergence of perturbed samples: the cross-entropy sees one pair of
noise arrays, the entropy of the first sample another one. -/
theorem C69_kl_noise (p q : KVar) (cfg : KlCfg) (e₁ e₂ e₃ : Option (Nat → Nat → ℝ)) (b : Base) (u v : ℝ)
    (hu : klEntropy [.arr (p.noisy e₁), .arr (q.noisy e₂)] cfg none none b = .ok u)
    (hv : klEntropy [.arr (p.noisy e₃)] cfg none none b = .ok v) :
    klKld (.arr p) (.arr q) cfg e₁ e₂ e₃ b = .ok (u - v) := by
  unfold klKld
  rw [C52_cross_noise, hu, C52_noise, hv]
  rfl

end Verif
