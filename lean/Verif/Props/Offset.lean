import Verif.Props.ExpMI3
import Verif.Props.KsgTE2
import Verif.Props.VecTE2
import Verif.Props.Gauss2

/-!
# C25 for continuous data (one- or two-dimensional), and where noise enters (C62, C63, C65, C72)
-/

namespace Verif

open Spec

theorem slice_take (v : KVar) (o : Nat) (ho : 0 < o) :
    (v.slice none (orNone (-(o : Int)))).samples = v.samples.take (v.len - o) ∧ (v.slice none (orNone (-(o : Int)))).dim = v.dim ∧
      (v.slice none (orNone (-(o : Int)))).is2d = v.is2d ∧ (v.slice none (orNone (-(o : Int)))).len = v.len - o := by
  cases v with
  | one xs =>
    simp only [KVar.slice, pySlice_stop_neg _ _ ho, KVar.samples, assure2d, KVar.len, KVar.dim, KVar.is2d]
    simp [List.map_take]
  | two a =>
    simp only [KVar.slice, pySlice_stop_neg _ _ ho, KVar.samples, assure2d, KVar.len, KVar.dim, KVar.is2d]
    simp

theorem slice_drop (v : KVar) (o : Nat) :
    (v.slice (some (o : Int)) none).samples = v.samples.drop o ∧ (v.slice (some (o : Int)) none).dim = v.dim ∧
      (v.slice (some (o : Int)) none).is2d = v.is2d ∧ (v.slice (some (o : Int)) none).len = v.len - o := by
  cases v with
  | one xs =>
    simp only [KVar.slice, pySlice_start, KVar.samples, assure2d, KVar.len, KVar.dim, KVar.is2d]
    simp [List.map_drop]
  | two a =>
    simp only [KVar.slice, pySlice_start, KVar.samples, assure2d, KVar.len, KVar.dim, KVar.is2d]
    simp

theorem samples_length (v : KVar) : v.samples.length = v.len := by cases v <;> simp [KVar.samples, assure2d, KVar.len]

theorem kmiInit_sliced {x y x' y' : KVar} (h : x'.len = y'.len) {o : Int} (nm : Bool)
    (e : kmiInit [x, y] (some o) false = .ok [x', y']) : kmiInit [x, y] (some o) nm = kmiInit [x', y'] (some 0) nm := by
  have h0 : kmiInit [x', y'] (some 0) false = .ok [x', y'] := by
    simp [kmiInit, h, bind, Except.bind, pure, Except.pure]
  cases nm with
  | false => rw [e, h0]
  | true => rw [kmiInit_normalize, kmiInit_normalize, e, h0]

/-- **C25** For continuous data of any dimension: with an offset `o ≥ 0` the estimators see the pairs `(x_t, y_(t+o))`, with `o < 0` the pairs
`(x_(t-o), y_t)`; both sides keep `n - |o|` samples of their dimension, and the kernel, nearest-neighbour, Rényi and Tsallis estimates (value
or error, with or without normalisation) are those of the shifted data with offset 0. -/
theorem C25_continuous_offset (x y : KVar) (n : Nat) (hx : x.len = n) (hy : y.len = n) (o : Int) :
    ∃ x' y' : KVar, x'.dim = x.dim ∧ y'.dim = y.dim ∧ x'.samples.length = n - o.natAbs ∧ y'.samples.length = n - o.natAbs ∧
      (∀ t, t < n - o.natAbs →
        (0 ≤ o → x'.samples[t]? = x.samples[t]? ∧ y'.samples[t]? = y.samples[t + o.natAbs]?) ∧
        (o < 0 → x'.samples[t]? = x.samples[t + o.natAbs]? ∧ y'.samples[t]? = y.samples[t]?)) ∧
      ∀ (nm : Bool) (b : Base),
        (∀ cfg, kernelMI [x, y] (some o) nm cfg b = kernelMI [x', y'] (some 0) nm cfg b) ∧
        (∀ cfg noise, ksgMI [x, y] (some o) nm cfg noise b = ksgMI [x', y'] (some 0) nm cfg noise b) ∧
        (∀ val k order noise, expMI val [x, y] (some o) nm k order noise b = expMI val [x', y'] (some 0) nm k order noise b) := by
  have key : ∀ x' y' : KVar, x'.len = y'.len → kmiInit [x, y] (some o) false = .ok [x', y'] → ∀ (nm : Bool) (b : Base),
        (∀ cfg, kernelMI [x, y] (some o) nm cfg b = kernelMI [x', y'] (some 0) nm cfg b) ∧
        (∀ cfg noise, ksgMI [x, y] (some o) nm cfg noise b = ksgMI [x', y'] (some 0) nm cfg noise b) ∧
        (∀ val k order noise, expMI val [x, y] (some o) nm k order noise b = expMI val [x', y'] (some 0) nm k order noise b) := by
    intro x' y' h e nm b
    have e' := kmiInit_sliced h nm e
    refine ⟨fun cfg => ?_, fun cfg noise => ?_, fun val k order noise => ?_⟩
    · simp only [kernelMI, kernelMILocal, e']
    · simp only [ksgMI, ksgMILocal, e']
    · simp only [expMI, e']
  have hxy : x.len = y.len := hx.trans hy.symm
  rcases lt_trichotomy o 0 with ho | rfl | ho
  · obtain ⟨m, rfl⟩ : ∃ m : Nat, o = -(m : Int) := ⟨o.natAbs, by omega⟩
    have hm : 0 < m := by omega
    obtain ⟨a1, a2, a3, a4⟩ := slice_drop x m
    obtain ⟨b1, b2, b3, b4⟩ := slice_take y m hm
    refine ⟨_, _, a2, b2, ?_, ?_, ?_, key _ _ (by rw [a4, b4, hxy]) ?_⟩
    · rw [samples_length, a4, hx]; simp
    · rw [samples_length, b4, hy]; simp
    · intro t ht
      have ht' : t < n - m := by simpa using ht
      refine ⟨fun h => by omega, fun _ => ?_⟩
      rw [a1, b1, List.getElem?_drop, List.getElem?_take_of_lt (by omega)]
      simp [add_comm]
    · have h1 : ¬ (-(m : Int) > 0) := by omega
      simp only [kmiInit, List.length_cons, List.length_nil, h1, ho]
      simp [hxy, bind, Except.bind, pure, Except.pure]
  · refine ⟨x, y, rfl, rfl, by rw [samples_length, hx]; simp, by rw [samples_length, hy]; simp, fun t _ => by simp, key _ _ hxy ?_⟩
    simp [kmiInit, hxy, bind, Except.bind, pure, Except.pure]
  · obtain ⟨m, rfl⟩ : ∃ m : Nat, o = (m : Int) := ⟨o.natAbs, by omega⟩
    have hm : 0 < m := by omega
    obtain ⟨a1, a2, a3, a4⟩ := slice_take x m hm
    obtain ⟨b1, b2, b3, b4⟩ := slice_drop y m
    refine ⟨_, _, a2, b2, ?_, ?_, ?_, key _ _ (by rw [a4, b4, hxy]) ?_⟩
    · rw [samples_length, a4, hx]; simp
    · rw [samples_length, b4, hy]; simp
    · intro t ht
      have ht' : t < n - m := by simpa using ht
      refine ⟨fun _ => ?_, fun h => by omega⟩
      rw [a1, b1, List.getElem?_drop, List.getElem?_take_of_lt (by omega)]
      simp [add_comm]
    · have h1 : (m : Int) > 0 := ho
      simp only [kmiInit, List.length_cons, List.length_nil, h1]
      simp [hxy, bind, Except.bind, pure, Except.pure]

example := C25_continuous_offset (.one [0, 1, 3, 2]) (.two ⟨2, [[0, 1], [1, 1], [3, 0], [2, 2]]⟩) 4 rfl rfl (-1)

/-- **C65** Noise in conditional mutual information enters only through the data and the condition. -/
theorem C65_cmi_noise (val : ExpVal) (data : List KVar) (z : KVar) (n : Nat) (H : CMISamples data z n) (k order : PyArg)
    (noise : Nat → Option (Nat → Nat → ℝ)) (noiseZ : Option (Nat → Nat → ℝ)) (b : Base) :
    expCMI val data (some z) (some 0) false k order noise noiseZ b =
      expCMI val (data.mapIdx (fun i v => noisyVar (noise i) v)) (some (noisyVar noiseZ z)) (some 0) false k order noNoise none b ∧
    CMISamples (data.mapIdx (fun i v => noisyVar (noise i) v)) (noisyVar noiseZ z) n := by
  have H' : CMISamples (data.mapIdx (fun i v => noisyVar (noise i) v)) (noisyVar noiseZ z) n := by
    refine ⟨(C65_mi_noise val data n H.mi k order noise b).2, ?_⟩
    cases noiseZ with
    | none => exact H.cond
    | some e =>
      have hw := noisy_wf (some e) H.cond.wf
      have hl := noisy_len (some e) z
      exact ⟨by rw [show (noisyVar (some e) z) = z.noisy (some e) from rfl, hl, H.cond.len], hw, H.cond.dim⟩
  refine ⟨?_, H'⟩
  unfold expCMI
  rw [kcmiInit_args H.args (.inl rfl), kcmiInit_args H'.args (.inl rfl)]
  simp only [bind, Except.bind, mapIdx_noisyVar]
  rfl

/-- **C65** Noise in conditional transfer entropy enters only through the three series. -/
theorem C65_cte_noise (val : ExpVal) (source dest cond : List ℝ) (hlen : source.length = dest.length) (hlen2 : cond.length = dest.length)
    (p : TEParams) (c kn order : PyArg) (nx ny nz : Option (Nat → ℝ)) (b : Base) :
    expCTE val source dest (some cond) p c (some (.int 0)) none kn order nx ny nz b =
      expCTE val (jitter1 nx source) (jitter1 ny dest) (some (jitter1 nz cond)) p c (some (.int 0)) none kn order none none none b := by
  have hj : ∀ (e : Option (Nat → ℝ)) (xs : List ℝ), (jitter1 e xs).length = xs.length := by
    intro e xs; cases e <;> simp [jitter1]
  unfold expCTE
  rw [cteInit_zero hlen hlen2, cteInit_zero (by rw [hj, hj, hlen]) (by rw [hj, hj, hlen2])]
  rfl

example := C65_cte_noise renyiVal [0, 1, 3] [1, 0, 2] [2, 2, 1] rfl rfl (teParams 1 1 1) (.int 1) (.int 1) (.num 2) none none
  (some (fun i => i)) .e

/-- **C63** The same for the nearest-neighbour conditional transfer entropy. -/
theorem C63_cte_noise (source dest cond : List ℝ) (hlen : source.length = dest.length) (hlen2 : cond.length = dest.length)
    (p : TEParams) (c : PyArg) (cfg : KsgCfg) (nx ny nz : Option (Nat → ℝ)) (b : Base) :
    ksgCTE source dest (some cond) p c (some (.int 0)) none cfg nx ny nz b =
      ksgCTE (jitter1 nx source) (jitter1 ny dest) (some (jitter1 nz cond)) p c (some (.int 0)) none cfg none none none b := by
  have hj : ∀ (e : Option (Nat → ℝ)) (xs : List ℝ), (jitter1 e xs).length = xs.length := by
    intro e xs; cases e <;> simp [jitter1]
  unfold ksgCTE ksgCTELocal
  rw [cteInit_zero hlen hlen2, cteInit_zero (by rw [hj, hj, hlen]) (by rw [hj, hj, hlen2])]
  rfl

example := C63_cte_noise [0, 1, 3] [1, 0, 2] [2, 2, 1] rfl rfl (teParams 1 1 1) (.int 1) ⟨1, 1, .inf⟩ none none (some (fun i => i)) .e

/-- **C72** The same for series of vectors. -/
theorem C72_noise (source dest cond : List (List ℝ)) (hlen : source.length = dest.length) (hlen2 : cond.length = dest.length)
    (p : TEParams) (c : PyArg) (cfg : KsgCfg) (nx ny nz : Option (Nat → Nat → ℝ)) (val : ExpVal) (kn order : PyArg) (b : Base)
    (rnd : SrcRandom) :
    ksgTEVec source dest p (some (.int 0)) none cfg nx ny b rnd =
      ksgTEVec (jitterVec nx source) (jitterVec ny dest) p (some (.int 0)) none cfg none none b rnd ∧
    ksgCTEVecLocal source dest (some cond) p c (some (.int 0)) none cfg nx ny nz b =
      ksgCTEVecLocal (jitterVec nx source) (jitterVec ny dest) (some (jitterVec nz cond)) p c (some (.int 0)) none cfg none none none b ∧
    expTEVec val source dest p (some (.int 0)) none kn order nx ny b rnd =
      expTEVec val (jitterVec nx source) (jitterVec ny dest) p (some (.int 0)) none kn order none none b rnd := by
  have hj : ∀ (e : Option (Nat → Nat → ℝ)) (xs : List (List ℝ)), (jitterVec e xs).length = xs.length := by
    intro e xs; cases e <;> simp [jitterVec]
  refine ⟨?_, ?_, ?_⟩
  · unfold ksgTEVec ksgTEVecLocal
    rw [teInit_zero hlen, teInit_zero (by rw [hj, hj, hlen])]
    rfl
  · unfold ksgCTEVecLocal
    rw [cteInit_zero hlen hlen2, cteInit_zero (by rw [hj, hj, hlen]) (by rw [hj, hj, hlen2])]
    rfl
  · unfold expTEVec
    rw [teInit_zero hlen, teInit_zero (by rw [hj, hj, hlen])]
    rfl

example := C72_noise [[0, 1], [1, 1], [3, 2]] [[1], [0], [2]] [[2], [2], [1]] rfl rfl (teParams 1 1 1) (.int 1) ⟨1, 1, .inf⟩ none none
  (some (fun i j => i + j)) renyiVal (.int 1) (.num 2) .e {}

end Verif
