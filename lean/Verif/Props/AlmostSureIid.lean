import Verif.Lemmas.AlmostSureIid
import Verif.Props.AlmostSure

/-!
# C94: independent observations

Concrete random sequences that meet the hypotheses are in `Props/AlmostSureEx.lean`.
-/

namespace Verif

open Spec MeasureTheory ProbabilityTheory

variable {Ω : Type} [MeasurableSpace Ω] {μ : Measure Ω} [IsProbabilityMeasure μ] {M : ℕ}
variable {W : World} {a : PyName} {kw : Kw} {b : Base} {cond : CondKw PyData}

/-- **C94** Independent and identically distributed observations are a sampling (of their common distribution). -/
theorem C94_iid {α : Type} [MeasurableSpace α] [MeasurableSingletonClass α] {U : ℕ → Ω → α} {S : Finset α} (h : Iid μ U S) :
    Sampling μ U S (fun w => μ.real {ω | U 0 ω = w}) 1 := by
  have := iid_sampling h (m := 0) (s := 1) one_pos (fun v => v 0) (fun w => (measurable_pi_apply 0) (measurableSet_singleton w)) (T := S)
    (fun v hv => hv 0)
  simpa using this

/-- **C94** Entropy of independent, identically distributed observations: the estimate converges almost surely to the Shannon entropy of their
distribution. -/
theorem C94_entropy_iid (f : Fam) (hf : f ∈ simpleFams) (h : Call W .h f a kw b) (hb : b.Std) {X : ℕ → Ω → Int} {S : Finset Int} (hX : Iid μ X S) :
    ∀ᵐ ω ∂μ, ∃ v : ℕ → ℝ, (∀ n, 0 < n → imEntropy W [.ints (observed X n ω)] a .absent kw = .ok (v n)) ∧
      Filter.Tendsto v Filter.atTop (nhds (shannon S (fun x => μ.real {ω | X 0 ω = x}) / b.ln)) :=
  C94_entropy f hf h hb one_pos (C94_iid hX)

/-- **C94** The limit of the mutual information is 0 if the two observations of a pair are independent. -/
theorem C94_mi_independent {X Y : ℕ → Ω → Int} {S T : Finset Int} (hX : Iid μ (fun i ω => (X i ω, Y i ω)) (S ×ˢ T)) (hi : IndepFun (X 0) (Y 0) μ) :
    pairInfo (S ×ˢ T) (fun w => μ.real {ω | (X 0 ω, Y 0 ω) = w}) = 0 := by
  have hm : Measurable (X 0) ∧ Measurable (Y 0) := ⟨measurable_fst.comp (hX.measurable 0), measurable_snd.comp (hX.measurable 0)⟩
  have hp : ∀ x y, μ.real {ω | (X 0 ω, Y 0 ω) = (x, y)} = μ.real {ω | X 0 ω = x} * μ.real {ω | Y 0 ω = y} := fun x y => by
    have := congrArg ENNReal.toReal (hi.measure_inter_preimage_eq_mul _ _ (measurableSet_singleton x) (measurableSet_singleton y))
    rw [ENNReal.toReal_mul] at this
    refine Eq.trans ?_ this
    rw [measureReal_def]
    refine congrArg (fun A => (μ A).toReal) (Set.ext fun ω => ?_)
    simp
  have tot : ∀ {Z : Ω → Int} {R : Finset Int}, Measurable Z → (∀ᵐ ω ∂μ, Z ω ∈ R) → ∑ x ∈ R, μ.real {ω | Z ω = x} = 1 := fun {Z R} hZ hR => by
    have e : μ.real (⋃ x ∈ R, {ω | Z ω = x}) = ∑ x ∈ R, μ.real {ω | Z ω = x} := by
      refine measureReal_biUnion_finset ?_ fun x _ => hZ (measurableSet_singleton x)
      intro x _ y _ hxy
      rw [Function.onFun, Set.disjoint_left]
      rintro ω (h1 : Z ω = x) (h2 : Z ω = y)
      exact hxy (h1.symm.trans h2)
    rw [← e]
    have : (⋃ x ∈ R, {ω | Z ω = x}) =ᵐ[μ] Set.univ := by
      rw [Filter.eventuallyEq_univ]
      filter_upwards [hR] with ω hω
      exact Set.mem_iUnion₂.2 ⟨Z ω, hω, rfl⟩
    rw [measureReal_congr this]
    simp
  have mx : ∀ᵐ ω ∂μ, X 0 ω ∈ S := by filter_upwards [hX.mem 0] with ω hω using (Finset.mem_product.1 hω).1
  have my : ∀ᵐ ω ∂μ, Y 0 ω ∈ T := by filter_upwards [hX.mem 0] with ω hω using (Finset.mem_product.1 hω).2
  refine iid_pairInfo_zero (fun w _ => measureReal_nonneg) ?_
  rintro ⟨x, y⟩ hw
  obtain ⟨hx, hy⟩ := Finset.mem_product.1 hw
  have e1 : iid_marg (S ×ˢ T) (fun w => μ.real {ω | (X 0 ω, Y 0 ω) = w}) (fun w => w.1) x = μ.real {ω | X 0 ω = x} := by
    unfold iid_marg
    rw [Finset.sum_filter, Finset.sum_product, Finset.sum_eq_single x]
    · simp only [if_true, hp, ← Finset.mul_sum, tot hm.2 my, mul_one]
    · intro z _ hz; simp [hz]
    · exact fun h => absurd hx h
  have e2 : iid_marg (S ×ˢ T) (fun w => μ.real {ω | (X 0 ω, Y 0 ω) = w}) (fun w => w.2) y = μ.real {ω | Y 0 ω = y} := by
    unfold iid_marg
    rw [Finset.sum_filter, Finset.sum_product_right, Finset.sum_eq_single y]
    · simp only [if_true, hp, ← Finset.sum_mul, tot hm.1 mx, one_mul]
    · intro z _ hz; simp [hz]
    · exact fun h => absurd hy h
  simp only [e1, e2]
  exact hp x y

/-- **C94** Mutual information of independent sequences: the estimate converges almost surely to 0. -/
theorem C94_mi_zero {f : Fam} {m : Method} (hf : Corrected kw f m) (h : Call W .mi f a kw b) (hb : b.Std) (hc : cond.isVal = false) (hp : Plain kw)
    {X Y : ℕ → Ω → Int} {S T : Finset Int} (hX : Iid μ (fun i ω => (X i ω, Y i ω)) (S ×ˢ T)) (hi : IndepFun (X 0) (Y 0) μ) :
    ∀ᵐ ω ∂μ, ∃ v : ℕ → ℝ, (∀ n, 0 < n → imMI W [.ints (observed X n ω), .ints (observed Y n ω)] a cond kw = .ok (v n)) ∧
      Filter.Tendsto v Filter.atTop (nhds 0) := by
  have := C94_mi hf h hb hc hp one_pos (C94_iid hX)
  rwa [C94_mi_independent hX hi, zero_div] at this

section te
variable {X Y : ℕ → Ω → Int} {l k s : ℕ}

/-- the window as a function of the `max k l + 1` pairs it looks at -/
def iidWindow (l k : ℕ) (v : Fin (max k l + 1) → Int × Int) : List Int × List Int × List Int :=
  ([(v (Fin.last _)).2], List.ofFn (fun j : Fin l => (v ⟨max k l - l + j, by have := j.isLt; omega⟩).1),
    List.ofFn (fun j : Fin k => (v ⟨max k l - k + j, by have := j.isLt; omega⟩).2))

theorem iidWindow_eq (X Y : ℕ → Ω → Int) (l k s : ℕ) :
    teWindow X Y l k s = fun i ω => iidWindow l k (fun t => (X ((i + t) * s) ω, Y ((i + t) * s) ω)) := by
  funext i ω
  unfold teWindow iidWindow
  refine Prod.ext ?_ (Prod.ext ?_ ?_)
  · simp [Nat.add_comm]
  · refine List.ext_getElem (by simp) fun j h1 h2 => ?_
    simp only [List.length_map, List.length_range] at h1
    simp only [List.getElem_map, List.getElem_range, List.getElem_ofFn]
    congr 2
    omega
  · refine List.ext_getElem (by simp) fun j h1 h2 => ?_
    simp only [List.length_map, List.length_range] at h1
    simp only [List.getElem_map, List.getElem_range, List.getElem_ofFn]
    congr 2
    omega

/-- lists of length `l` with entries in `R` -/
def iidLists (R : Finset Int) (l : ℕ) : Finset (List Int) := (Fintype.piFinset (fun _ : Fin l => R)).image List.ofFn

/-- the possible windows of pairs from `S` -/
def iidWindows (S : Finset (Int × Int)) (l k : ℕ) : Finset (List Int × List Int × List Int) :=
  ((S.image Prod.snd).image (fun y => [y])) ×ˢ (iidLists (S.image Prod.fst) l ×ˢ iidLists (S.image Prod.snd) k)

theorem iid_te_windows (hs : 0 < s) {S : Finset (Int × Int)} (hX : Iid μ (fun i ω => (X i ω, Y i ω)) S) :
    Sampling μ (teWindow X Y l k s) (iidWindows S l k) (fun w => μ.real {ω | iidWindow l k (fun t => (X ((0 + t) * s) ω, Y ((0 + t) * s) ω)) = w})
        (max k l + 1) ∧
      tripleInfo (iidWindows S l k) (fun w => μ.real {ω | iidWindow l k (fun t => (X ((0 + t) * s) ω, Y ((0 + t) * s) ω)) = w}) = 0 := by
  have hmeas : ∀ {m : ℕ} (A : Set (Fin m → Int × Int)), MeasurableSet A := fun A => (Set.to_countable A).measurableSet
  refine ⟨?_, ?_⟩
  · rw [iidWindow_eq]
    refine iid_sampling hX hs (iidWindow l k) (fun w => hmeas _) ?_
    intro v hv
    simp only [iidWindow, iidWindows, Finset.mem_product, iidLists]
    refine ⟨Finset.mem_image_of_mem _ (Finset.mem_image_of_mem _ (hv _)), ?_, ?_⟩
    · exact Finset.mem_image_of_mem _ (Fintype.mem_piFinset.2 fun j => Finset.mem_image_of_mem _ (hv _))
    · exact Finset.mem_image_of_mem _ (Fintype.mem_piFinset.2 fun j => Finset.mem_image_of_mem _ (hv _))
  · refine iid_tripleInfo_product (r := fun x => μ.real {ω | [Y (max k l * s) ω] = x})
      (q := fun y => μ.real {ω | (List.ofFn (fun j : Fin l => X ((max k l - l + j) * s) ω), List.ofFn (fun j : Fin k => Y ((max k l - k + j) * s) ω)) = y})
      (fun _ => measureReal_nonneg) (fun _ => measureReal_nonneg) ?_
    intro x y z
    have hind := iid_blocks hX (fun _ : Fin 1 => max k l * s) (fun t : Fin (max k l) => (t : ℕ) * s) (fun _ t e => by
      have := Nat.eq_of_mul_eq_mul_right hs e
      have := t.isLt
      omega)
    have := congrArg ENNReal.toReal (hind.measure_inter_preimage_eq_mul {v | [(v 0).2] = x}
      {v | (List.ofFn (fun j : Fin l => (v ⟨max k l - l + j, by have := j.isLt; omega⟩).1),
        List.ofFn (fun j : Fin k => (v ⟨max k l - k + j, by have := j.isLt; omega⟩).2)) = (y, z)} (hmeas _) (hmeas _))
    rw [ENNReal.toReal_mul] at this
    refine Eq.trans ?_ this
    rw [measureReal_def]
    refine congrArg (fun A => (μ A).toReal) (Set.ext fun ω => ?_)
    simp [iidWindow]

/-- **C94** For independent, identically distributed pairs of observations the windows of the transfer entropy are a sampling, of a distribution with
transfer entropy 0. -/
theorem C94_te_windows (hs : 0 < s) {S : Finset (Int × Int)} (hX : Iid μ (fun i ω => (X i ω, Y i ω)) S) :
    ∃ (T : Finset (List Int × List Int × List Int)) (p : List Int × List Int × List Int → ℝ),
      Sampling μ (teWindow X Y l k s) T p (max k l + 1) ∧ tripleInfo T p = 0 := ⟨_, _, iid_te_windows hs hX⟩

/-- **C94** Transfer entropy between independent, identically distributed pairs of observations (the two observations of a pair may depend on each
other): the estimate converges almost surely to 0. -/
theorem C94_te_zero {f : Fam} {m : Method} (hf : Corrected kw f m) (h : Call W .te f a kw b) (hb : b.Std) (hc : cond.isVal = false)
    (hh : History kw l k s) (hs : 0 < s) (hl : 0 < l) (hk : 0 < k) {S : Finset (Int × Int)} (hX : Iid μ (fun i ω => (X i ω, Y i ω)) S) :
    ∀ᵐ ω ∂μ, ∃ v : ℕ → ℝ, (∀ n, max k l * s < n → imTE W [.ints (observed X n ω), .ints (observed Y n ω)] a cond kw = .ok (v n)) ∧
      Filter.Tendsto v Filter.atTop (nhds 0) := by
  obtain ⟨T, p, h1, h2⟩ := C94_te_windows (l := l) (k := k) hs hX
  have := C94_te hf h hb hc hh hs hl hk (Nat.succ_pos _) h1
  rwa [h2, zero_div] at this

end te

end Verif
