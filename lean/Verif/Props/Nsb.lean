import Verif.Lemmas.Nsb

/-!
# Property C67: the NSB estimators

`find` is the numerical root finder of the library, an arbitrary function here; quadrature is exact.
-/

namespace Verif

open Spec MeasureTheory

/-- the support size used: the given one or the number of observed symbols -/
def Spec.Nsb.support {α : Type} [DecidableEq α] (xs : List α) (K : Option Nat) : Nat :=
  match K with
  | some k => k
  | none => xs.toFinset.card

/-- the estimate exists: at least two cells, and the number of cells differs from the number of samples -/
def Spec.Nsb.Defined {α : Type} [DecidableEq α] (xs : List α) (K : Option Nat) : Prop :=
  2 ≤ Nsb.support xs K ∧ Nsb.support xs K ≠ xs.length

section
variable {α : Type} [LinearOrder α]

theorem nsb_counts_prod (xs : List α) (f : ℕ → ℝ) :
    (((npUnique xs).map (cnt xs)).map f).prod = ∏ a ∈ xs.toFinset, f (cnt xs a) := by
  rw [List.map_map, ← List.prod_toFinset _ (npUnique_nodup xs)]
  refine Finset.prod_congr ?_ fun _ _ => rfl
  ext a; simp

theorem nsbBayes_eq (xs : List α) (β : ℝ) :
    nsbBayes β (((npUnique xs).map (cnt xs)).map Int.ofNat) = Nsb.posteriorMean xs β := by
  have hs : ((((npUnique xs).map (cnt xs)).map Int.ofNat).sum : Int) = (xs.length : Int) := by
    have := sum_npUnique xs (fun a => (cnt xs a : ℝ))
    rw [sum_count] at this
    have h2 : ((((npUnique xs).map (cnt xs)).map Int.ofNat).sum : Int) = ((((npUnique xs).map (cnt xs)).sum : ℕ) : Int) := by
      generalize (npUnique xs).map (cnt xs) = l
      induction l with
      | nil => rfl
      | cons a l ih => simp only [List.map_cons, List.sum_cons, ih]; push_cast; rfl
    rw [h2]
    have h3 : (((((npUnique xs).map (cnt xs)).sum : ℕ) : ℝ)) = ((npUnique xs).map (fun a => (cnt xs a : ℝ))).sum := by
      rw [Nat.cast_list_sum, List.map_map]; rfl
    rw [← h3] at this
    exact_mod_cast this
  simp only [nsbBayes, Nsb.posteriorMean, hs, List.length_map, npUnique_length]
  rw [← sum_npUnique xs, List.map_map, List.map_map]
  rfl

theorem nsbSimple_ok (xs : List α) (hx : xs ≠ []) (find : Int → Int → ℝ) (K : Option Nat) (hK : ∀ k, K = some k → 0 < k)
    (b : Base) (hb : b.Valid) :
    (Nsb.Defined xs K → nsbSimple find (K.map Int.ofNat) b (mkData xs) = .ok (Nsb.estimate xs (Nsb.support xs K) / b.ln)) ∧
    (¬ Nsb.Defined xs K → nsbSimple find (K.map Int.ofNat) b (mkData xs) = .error .nonFinite) := by
  have hk : nsbSupport (K.map Int.ofNat) (mkData xs) = ((Nsb.support xs K : ℕ) : Int) := by
    cases K with
    | none => simp only [nsbSupport, Option.map_none, mkData_K, Nsb.support]
    | some k => rfl
  have hpos : 1 ≤ Nsb.support xs K := by
    cases K with
    | some k => exact hK k rfl
    | none =>
      obtain ⟨a, ha⟩ := List.exists_mem_of_ne_nil xs hx
      exact Finset.card_pos.2 ⟨a, List.mem_toFinset.2 ha⟩
  have hcounts : (mkData xs).counts = ((npUnique xs).map (cnt xs)).map Int.ofNat := by
    rw [mkData_counts, List.map_map]; rfl
  unfold nsbSimple
  simp only [hk, mkData_N, hcounts, Int.cast_natCast]
  set k := Nsb.support xs K with hkdef
  by_cases h1 : ((xs.length : Int) - (k : Int)) = 0
  · rw [if_pos h1]
    exact ⟨fun hd => absurd (by omega : k = xs.length) hd.2, fun _ => rfl⟩
  rw [if_neg h1]
  rcases Nat.lt_or_ge k 2 with h2 | h2
  · obtain h2 : k = 1 := by omega
    rw [if_pos (by simp [h2])]
    exact ⟨fun hd => absurd hd.1 (by rw [← hkdef]; omega), fun _ => rfl⟩
  refine ⟨fun _ => ?_, fun hd => absurd ⟨h2, by rw [← hkdef]; omega⟩ hd⟩
  have hk0 : (0:ℝ) < k := by positivity
  have hlog := log_nat_pos h2
  generalize nsbNegLogRho (find (k : Int) (xs.length : Int) / (k : ℝ)) (k : ℝ) (xs.length : ℝ)
    (((npUnique xs).map (cnt xs)).map Int.ofNat) = l0
  have hw : ∀ β, 0 < β → Real.exp (-nsbNegLogRho β k xs.length (((npUnique xs).map (cnt xs)).map Int.ofNat) + l0) *
      nsbDxi β k = Real.exp l0 * Nsb.weight xs k β := by
    intro β hβ
    rw [Real.exp_add, exp_negLogRho hβ hk0, nsb_counts_prod xs (fun c => Nsb.rising β c ^ c), Nsb.weight,
      (priorMean_hasDeriv hk0 hβ.le).deriv]
    ring
  have hden : (∫ β in (0:ℝ)..Real.log k, Real.exp (-nsbNegLogRho β k xs.length
      (((npUnique xs).map (cnt xs)).map Int.ofNat) + l0) * nsbDxi β k) =
      Real.exp l0 * ∫ β in (0:ℝ)..Real.log k, Nsb.weight xs k β := by
    rw [← intervalIntegral.integral_const_mul]
    exact intervalIntegral.integral_congr_Ioo_of_le hlog.le fun β hβ => hw β hβ.1
  have hnum : (∫ β in (0:ℝ)..Real.log k, Real.exp (-nsbNegLogRho β k xs.length
      (((npUnique xs).map (cnt xs)).map Int.ofNat) + l0) * nsbDxi β k *
        nsbBayes β (((npUnique xs).map (cnt xs)).map Int.ofNat)) =
      Real.exp l0 * ∫ β in (0:ℝ)..Real.log k, Nsb.weight xs k β * Nsb.posteriorMean xs β := by
    rw [← intervalIntegral.integral_const_mul]
    refine intervalIntegral.integral_congr_Ioo_of_le hlog.le fun β hβ => ?_
    simp only [nsbBayes_eq, hw β hβ.1, mul_assoc]
  have hp := weight_integral_pos xs hx h2
  have he := Real.exp_pos l0
  rw [hden, hnum, if_neg (mul_pos he hp).ne', scaleBase_ok hb, mul_div_mul_left _ _ he.ne', Nsb.estimate]

end

/-- **C67** NSB entropy of a sample: the ratio of integrals of `Spec.Nsb.estimate` divided by `log(base)`, whatever the root finder
returns — or no finite value, exactly when there is a single cell or as many cells as samples. -/
theorem C67_entropy (xs : List Int) (hx : xs ≠ []) (find : Int → Int → ℝ) (K : Option Nat) (hK : ∀ k, K = some k → 0 < k)
    (b : Base) (hb : b.Valid) :
    (Nsb.Defined xs K → nsbEntropy find (K.map Int.ofNat) b [.arr1 xs] =
      .ok (Nsb.estimate xs (Nsb.support xs K) / b.ln)) ∧
    (¬ Nsb.Defined xs K → nsbEntropy find (K.map Int.ofNat) b [.arr1 xs] = .error .nonFinite) := by
  have e : nsbEntropy find (K.map Int.ofNat) b [.arr1 xs] = nsbSimple find (K.map Int.ofNat) b (mkData xs) := by
    simp only [nsbEntropy, discreteHInit_arr1 hx, bind, Except.bind, entropyDispatch]
  rw [e]
  exact nsbSimple_ok xs hx find K hK b hb

example (find : Int → Int → ℝ) := (C67_entropy [0, 0, 1] (by decide) find (some 7) (by simp) (.num 2) (by norm_num [Base.Valid])).1 (by simp only [Nsb.Defined, Nsb.support]; decide)
example (find : Int → Int → ℝ) := (C67_entropy [0, 0, 1] (by decide) find (some 3) (by simp) (.num 2) (by norm_num [Base.Valid])).2 (by simp only [Nsb.Defined, Nsb.support]; decide)

end Verif
