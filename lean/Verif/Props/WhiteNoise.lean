import Verif.Lemmas.WhiteNoise
import Verif.Lemmas.AlmostSureIid
import Verif.Props.AlmostSure

/-!
# C96: ordinal patterns of random readings

Concrete random sequences that meet the hypotheses are in `Props/WhiteNoiseEx.lean`.
-/

namespace Verif

open Spec MeasureTheory ProbabilityTheory

variable {Ω : Type} [MeasurableSpace Ω] {μ : Measure Ω} [IsProbabilityMeasure μ] {M d s : ℕ}
variable {W : World} {a : PyName} {kw : Kw} {b : Base} {cond : CondKw PyData}

/-- with probability one no two readings are equal -/
def AllDistinct (X : ℕ → Ω → ℝ) (ω : Ω) : Prop := ∀ i j, i ≠ j → X i ω ≠ X j ω

theorem noise_delay (X : ℕ → Ω → ℝ) (d s n : ℕ) (ω : Ω) :
    delayVectors (observed X n ω) d s = (List.range (n - (d - 1) * s)).map (fun i => (List.range d).map (fun j => X (i + j * s) ω)) := by
  unfold delayVectors
  rw [observed_length]
  refine List.map_congr_left fun i hi => List.map_congr_left fun j hj => ?_
  have hi' := List.mem_range.1 hi
  have hj' := List.mem_range.1 hj
  have h1 : j * s ≤ (d - 1) * s := Nat.mul_le_mul_right _ (by omega)
  have h2 : i + j * s < n := by omega
  simp [observed, List.getD_eq_getElem?_getD, h2]

theorem noise_tieFree {X : ℕ → Ω → ℝ} {ω : Ω} (h : AllDistinct X ω) (hs : 0 < s) (d n : ℕ) : TieFree (observed X n ω) d s := by
  intro w hw
  rw [noise_delay] at hw
  obtain ⟨i, -, rfl⟩ := List.mem_map.1 hw
  refine List.Nodup.map_on (fun x _ y _ e => ?_) List.nodup_range
  by_contra hne
  exact h _ _ (fun e' => hne (Nat.eq_of_mul_eq_mul_right hs (by omega))) e

theorem noise_patterns (X : ℕ → Ω → ℝ) (d s n : ℕ) (ω : Ω) :
    (delayVectors (observed X n ω) d s).map rankPattern = observed (patternAt X d s) (n - (d - 1) * s) ω := by
  rw [noise_delay, List.map_map]
  rfl

theorem noise_windows_tendsto (m : ℕ) : Filter.Tendsto (fun n : ℕ => n - m) Filter.atTop Filter.atTop :=
  Filter.tendsto_sub_atTop_nat m

/-- **C96** If the ordinal patterns of the readings have a distribution `p` and patterns far enough apart are independent, the ordinal entropy
of the first `n` readings converges almost surely to the Shannon entropy of `p`. -/
theorem C96_entropy (h : Call W .h .ordinal a kw b) (hb : b.Valid) (st : Bool) (h1 : kw "embedding_dim" = some (.int d))
    (h2 : kwOr kw "step_size" (.int 1) = .int s) (h3 : kwOr kw "stable" (.bool false) = .bool st) (hd : 1 ≤ d) (hs : 1 ≤ s)
    {X : ℕ → Ω → ℝ} {S : Finset (List ℕ)} {p : List ℕ → ℝ} (hM : 0 < M) (hX : Sampling μ (patternAt X d s) S p M)
    (ht : ∀ᵐ ω ∂μ, AllDistinct X ω) :
    ∀ᵐ ω ∂μ, ∃ v : ℕ → ℝ, (∀ n, (d - 1) * s < n → imEntropy W [.reals (observed X n ω)] a .absent kw = .ok (v n)) ∧
      Filter.Tendsto v Filter.atTop (nhds (shannon S p / b.ln)) := by
  filter_upwards [as_freq hM hX, ht] with ω hω hdist
  refine ⟨_, fun n hn => C82_ordinal_entropy h hb _ d s st h1 h2 h3 hd hs (by rw [observed_length]; exact hn) (noise_tieFree hdist hs d n), ?_⟩
  have key := near_tendsto_id hω.1 hω.2 (observed_tendsto _ ω) near_entropy
  refine Filter.Tendsto.div_const ?_ _
  refine (key.comp (noise_windows_tendsto ((d - 1) * s))).congr fun n => ?_
  rw [permEntropy, noise_patterns]
  rfl

/-- **C96** Independent readings with a common continuous distribution, whatever it is: each of the `d!` ordinal patterns has probability `1/d!`,
and patterns of windows without a common reading are independent. -/
theorem C96_patterns {X : ℕ → Ω → ℝ} (h : Noise μ X) (hc : NoAtom μ X) (hs : 0 < s) :
    Sampling μ (patternAt X d s) (allPatterns d) (fun _ => 1 / (d.factorial : ℝ)) ((d - 1) * s + 1) := by
  have key := noise_sampling h hs (fun v : Fin d → ℝ => List.ofFn (nRank v)) noise_pattern_set (T := allPatterns d) (fun i => by
    filter_upwards [noise_window_inj h hc (d := d) hs i] with ω hω using noise_pattern_mem hω)
  rw [patternAt_eq]
  refine ⟨key.measurable, key.mem, fun i w hw => (key.law i w hw).trans (noise_pattern_law h hc hs hw), fun i j hij x hx y hy => ?_⟩
  rw [key.indep i j hij x hx y hy, noise_pattern_law h hc hs hx, noise_pattern_law h hc hs hy]

theorem noise_distinct {X : ℕ → Ω → ℝ} (h : Noise μ X) (hc : NoAtom μ X) : ∀ᵐ ω ∂μ, AllDistinct X ω := by
  refine ae_all_iff.2 fun i => ae_all_iff.2 fun j => ?_
  by_cases hij : i = j
  · exact Filter.Eventually.of_forall fun ω hne => absurd hij hne
  · filter_upwards [noise_ne h hc hij] with ω hω _ using hω

/-- **C96** White noise has the maximal permutation entropy: for independent readings with a common continuous distribution the ordinal entropy
converges almost surely to `log d!`, in the unit of the base. -/
theorem C96_entropy_noise (h : Call W .h .ordinal a kw b) (hb : b.Valid) (st : Bool) (h1 : kw "embedding_dim" = some (.int d))
    (h2 : kwOr kw "step_size" (.int 1) = .int s) (h3 : kwOr kw "stable" (.bool false) = .bool st) (hd : 1 ≤ d) (hs : 1 ≤ s)
    {X : ℕ → Ω → ℝ} (hX : Noise μ X) (hc : NoAtom μ X) :
    ∀ᵐ ω ∂μ, ∃ v : ℕ → ℝ, (∀ n, (d - 1) * s < n → imEntropy W [.reals (observed X n ω)] a .absent kw = .ok (v n)) ∧
      Filter.Tendsto v Filter.atTop (nhds (Real.log d.factorial / b.ln)) := by
  have := C96_entropy h hb st h1 h2 h3 hd hs (Nat.succ_pos _) (C96_patterns (d := d) hX hc hs) (noise_distinct hX hc)
  rwa [shannon_uniform] at this

/-- **C96** Mutual information: if the pairs of ordinal patterns have a distribution `p` and pairs far enough apart are independent, the textbook
mutual information of the patterns — the result of the public function below 2^32 readings — converges almost surely to that of `p`. -/
theorem C96_mi (h : Call W .mi .ordinal a kw b) (hb : b.Std) (hcd : cond.isVal = false) (ho : kwOr kw "offset" (.int 0) = .int 0) (st : Bool)
    (h1 : kwOr kw "embedding_dim" .none = .int d) (h2 : kwOr kw "step_size" (.int 1) = .int s)
    (h3 : kwOr kw "stable" (.bool false) = .bool st) (hd : 1 ≤ d) (hs : 1 ≤ s) {X Y : ℕ → Ω → ℝ} {S : Finset (List ℕ × List ℕ)}
    {p : List ℕ × List ℕ → ℝ} (hM : 0 < M) (hX : Sampling μ (fun i ω => (patternAt X d s i ω, patternAt Y d s i ω)) S p M)
    (htx : ∀ᵐ ω ∂μ, AllDistinct X ω) (hty : ∀ᵐ ω ∂μ, AllDistinct Y ω) :
    ∀ᵐ ω ∂μ, ∃ v : ℕ → ℝ, (∀ n, (d - 1) * s < n → n < 2 ^ 32 →
        imMI W [.reals (observed X n ω), .reals (observed Y n ω)] a cond kw = .ok (v n)) ∧
      (∀ n, v n = Spec.mi (observed (patternAt X d s) (n - (d - 1) * s) ω) (observed (patternAt Y d s) (n - (d - 1) * s) ω) / b.ln) ∧
      Filter.Tendsto v Filter.atTop (nhds (pairInfo S p / b.ln)) := by
  filter_upwards [as_freq hM hX, htx, hty] with ω hω hdx hdy
  refine ⟨_, fun n hn hov => ?_, fun n => rfl, ?_⟩
  · rw [C82_mi_ordinal h hb hcd ho _ _ d s st h1 h2 h3 hd hs (by simp [observed_length]) (by rw [observed_length]; exact hn)
      (by rw [observed_length]; exact hov) (noise_tieFree hdx hs d n) (noise_tieFree hdy hs d n)]
    rw [← noise_patterns, ← noise_patterns]
    rfl
  · have t1 := near_tendsto hω.1 hω.2 (observed_tendsto _ ω) (fun w => w.1) near_entropy
    have t2 := near_tendsto hω.1 hω.2 (observed_tendsto _ ω) (fun w => w.2) near_entropy
    have t3 := near_tendsto_id hω.1 hω.2 (observed_tendsto _ ω) near_entropy
    simp only [observed_map] at t1 t2
    refine Filter.Tendsto.div_const ?_ _
    refine (((t1.add t2).sub t3).comp (noise_windows_tendsto ((d - 1) * s))).congr fun n => ?_
    rw [mi_eq_entropies _ _ (by simp [observed_length]), observed_zip]
    rfl

/-- the readings of `X` and those of `Y` are independent -/
def SeriesIndep (μ : Measure Ω) (X Y : ℕ → Ω → ℝ) : Prop := IndepFun (fun ω (i : ℕ) => X i ω) (fun ω (i : ℕ) => Y i ω) μ

theorem noise_series_event {X Y : ℕ → Ω → ℝ} (hi : SeriesIndep μ X Y) {A B : Set (ℕ → ℝ)} (hA : MeasurableSet A) (hB : MeasurableSet B) :
    μ.real {ω | (fun i => X i ω) ∈ A ∧ (fun i => Y i ω) ∈ B} = μ.real {ω | (fun i => X i ω) ∈ A} * μ.real {ω | (fun i => Y i ω) ∈ B} := by
  have := congrArg ENNReal.toReal (hi.measure_inter_preimage_eq_mul _ _ hA hB)
  rw [ENNReal.toReal_mul] at this
  exact this

theorem noise_pattern_event (d s i : ℕ) (w : List ℕ) :
    MeasurableSet {x : ℕ → ℝ | List.ofFn (nRank (fun t : Fin d => x (i + t * s))) = w} :=
  (measurable_pi_lambda (fun (x : ℕ → ℝ) (t : Fin d) => x (i + t * s)) fun t => measurable_pi_apply _) (noise_pattern_set w)

/-- **C96** Two independent series of white noise: each pair of patterns has probability `1/d!²`. -/
theorem C96_pattern_pairs {X Y : ℕ → Ω → ℝ} (hX : Noise μ X) (hcx : NoAtom μ X) (hY : Noise μ Y) (hcy : NoAtom μ Y) (hi : SeriesIndep μ X Y)
    (hs : 0 < s) :
    Sampling μ (fun i ω => (patternAt X d s i ω, patternAt Y d s i ω)) (allPatterns d ×ˢ allPatterns d)
      (fun _ => 1 / (d.factorial : ℝ) * (1 / (d.factorial : ℝ))) ((d - 1) * s + 1) := by
  have kx := C96_patterns (d := d) hX hcx hs
  have ky := C96_patterns (d := d) hY hcy hs
  rw [patternAt_eq] at kx ky ⊢
  rw [patternAt_eq]
  have E := noise_pattern_event d s
  refine ⟨fun i w hw => ?_, fun i => ?_, fun i w hw => ?_, fun i j hij x hx y hy => ?_⟩
  · obtain ⟨h1, h2⟩ := Finset.mem_product.1 hw
    convert (kx.measurable i w.1 h1).inter (ky.measurable i w.2 h2) using 1
    ext ω
    simp [Prod.ext_iff]
  · filter_upwards [kx.mem i, ky.mem i] with ω h1 h2 using Finset.mem_product.2 ⟨h1, h2⟩
  · obtain ⟨h1, h2⟩ := Finset.mem_product.1 hw
    have e := noise_series_event hi (E i w.1) (E i w.2)
    have e1 := kx.law i w.1 h1
    have e2 := ky.law i w.2 h2
    simp only [Set.mem_ofPred_eq] at e e1 e2
    rw [e1, e2] at e
    rw [← e]
    congr 1
    ext ω
    simp [Prod.ext_iff]
  · obtain ⟨h1, h2⟩ := Finset.mem_product.1 hx
    obtain ⟨h3, h4⟩ := Finset.mem_product.1 hy
    have e := noise_series_event hi ((E i x.1).inter (E j y.1)) ((E i x.2).inter (E j y.2))
    have e1 := kx.indep i j hij x.1 h1 y.1 h3
    have e2 := ky.indep i j hij x.2 h2 y.2 h4
    simp only [Set.mem_inter_iff, Set.mem_ofPred_eq] at e e1 e2
    rw [e1, e2] at e
    rw [show (1 / (d.factorial : ℝ) * (1 / (d.factorial : ℝ))) * (1 / (d.factorial : ℝ) * (1 / (d.factorial : ℝ))) =
      1 / (d.factorial : ℝ) * (1 / (d.factorial : ℝ)) * (1 / (d.factorial : ℝ) * (1 / (d.factorial : ℝ))) by ring, ← e]
    congr 1
    ext ω
    simp only [Prod.ext_iff, Set.mem_ofPred_eq]
    tauto

theorem allPatterns_card (d : ℕ) : (allPatterns d).card = d.factorial := by
  rw [allPatterns, Finset.card_image_of_injective _ (allPatterns_inj d), Finset.card_univ, Fintype.card_perm, Fintype.card_fin]

theorem noise_pairInfo (d : ℕ) :
    pairInfo (allPatterns d ×ˢ allPatterns d) (fun _ => 1 / (d.factorial : ℝ) * (1 / (d.factorial : ℝ))) = 0 := by
  have hf : (d.factorial : ℝ) ≠ 0 := by positivity
  refine iid_pairInfo_zero (fun w _ => by positivity) ?_
  rintro ⟨x, y⟩ hw
  obtain ⟨hx, hy⟩ := Finset.mem_product.1 hw
  have e1 : iid_marg (allPatterns d ×ˢ allPatterns d) (fun _ => 1 / (d.factorial : ℝ) * (1 / (d.factorial : ℝ))) (fun w => w.1) x =
      1 / (d.factorial : ℝ) := by
    unfold iid_marg
    rw [Finset.sum_filter, Finset.sum_product, Finset.sum_eq_single x]
    · simp only [if_true, Finset.sum_const, allPatterns_card, nsmul_eq_mul]
      field_simp
    · intro z _ hz; simp [hz]
    · exact fun h => absurd hx h
  have e2 : iid_marg (allPatterns d ×ˢ allPatterns d) (fun _ => 1 / (d.factorial : ℝ) * (1 / (d.factorial : ℝ))) (fun w => w.2) y =
      1 / (d.factorial : ℝ) := by
    unfold iid_marg
    rw [Finset.sum_filter, Finset.sum_product_right, Finset.sum_eq_single y]
    · simp only [if_true, Finset.sum_const, allPatterns_card, nsmul_eq_mul]
      field_simp
    · intro z _ hz; simp [hz]
    · exact fun h => absurd hy h
  simp only [e1, e2]

/-- **C96** Two independent series of white noise: the ordinal mutual information converges almost surely to 0. -/
theorem C96_mi_noise (h : Call W .mi .ordinal a kw b) (hb : b.Std) (hcd : cond.isVal = false) (ho : kwOr kw "offset" (.int 0) = .int 0) (st : Bool)
    (h1 : kwOr kw "embedding_dim" .none = .int d) (h2 : kwOr kw "step_size" (.int 1) = .int s)
    (h3 : kwOr kw "stable" (.bool false) = .bool st) (hd : 1 ≤ d) (hs : 1 ≤ s) {X Y : ℕ → Ω → ℝ}
    (hX : Noise μ X) (hcx : NoAtom μ X) (hY : Noise μ Y) (hcy : NoAtom μ Y) (hi : SeriesIndep μ X Y) :
    ∀ᵐ ω ∂μ, ∃ v : ℕ → ℝ, (∀ n, (d - 1) * s < n → n < 2 ^ 32 →
        imMI W [.reals (observed X n ω), .reals (observed Y n ω)] a cond kw = .ok (v n)) ∧
      (∀ n, v n = Spec.mi (observed (patternAt X d s) (n - (d - 1) * s) ω) (observed (patternAt Y d s) (n - (d - 1) * s) ω) / b.ln) ∧
      Filter.Tendsto v Filter.atTop (nhds 0) := by
  have := C96_mi h hb hcd ho st h1 h2 h3 hd hs (Nat.succ_pos _) (C96_pattern_pairs (d := d) hX hcx hY hcy hi hs)
    (noise_distinct hX hcx) (noise_distinct hY hcy)
  rwa [noise_pairInfo, zero_div] at this

end Verif
