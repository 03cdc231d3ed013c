import Verif.Props.WhiteNoise

/-!
# C96: ordinal transfer entropy of independent series of white noise

Concrete random sequences that meet the hypotheses are in `Props/WhiteNoiseEx.lean`.
-/

namespace Verif

open Spec MeasureTheory ProbabilityTheory

variable {Ω : Type} [MeasurableSpace Ω] {μ : Measure Ω} [IsProbabilityMeasure μ] {M d s l k : ℕ}
variable {W : World} {a : PyName} {kw : Kw} {b : Base} {cond : CondKw PyData}

theorem nte_map_event {E γ : Type} [MeasurableSpace E] {f : ℕ → E → γ} (hf : ∀ j w, MeasurableSet {x | f j x = w}) (l : ℕ) (w : List γ) :
    MeasurableSet {x | (List.range l).map (fun j => f j x) = w} := by
  induction l generalizing w with
  | zero =>
    show MeasurableSet {_x : E | ([] : List γ) = w}
    exact MeasurableSet.const _
  | succ l ih =>
    rcases List.eq_nil_or_concat w with rfl | ⟨w', c, rfl⟩
    · simp [List.range_succ]
    · convert (ih w').inter (hf l c) using 1
      ext x
      simp [List.range_succ, List.append_eq_append_iff_of_size_eq_right]

/-- values of windows of readings `idx i 0, idx i 1, …` -/
theorem nte_sampling {α : Type} [MeasurableSpace α] {U : ℕ → Ω → α} (h : Noise μ U) {L : ℕ} (idx : ℕ → Fin L → ℕ) (hinj : ∀ i, (idx i).Injective)
    (hdis : ∀ i j, i + M ≤ j → ∀ t u, idx i t ≠ idx j u) {γ : Type} (g : (Fin L → α) → γ) (hg : ∀ w, MeasurableSet {v | g v = w})
    {T : Finset γ} (hT : ∀ i, ∀ᵐ ω ∂μ, g (fun t => U (idx i t) ω) ∈ T) :
    Sampling μ (fun i ω => g (fun t => U (idx i t) ω)) T (fun w => μ.real {ω | g (fun t => U (idx 0 t) ω) = w}) M := by
  have hm : ∀ i, Measurable (fun ω (t : Fin L) => U (idx i t) ω) := fun i => measurable_pi_lambda _ fun t => h.measurable _
  have law : ∀ i w, μ.real {ω | g (fun t => U (idx i t) ω) = w} = μ.real {ω | g (fun t => U (idx 0 t) ω) = w} := fun i w =>
    noise_event h _ _ (hinj i) (hinj 0) (hg w)
  refine ⟨fun i w _ => hm i (hg w), hT, fun i w _ => law i w, fun i j hij x _ y _ => ?_⟩
  have hind := noise_blocks h (idx i) (idx j) (hdis i j hij)
  have := hind.measure_inter_preimage_eq_mul _ _ (hg x) (hg y)
  rw [← law i x, ← law j y]
  have e2 := congrArg ENNReal.toReal this
  rw [ENNReal.toReal_mul] at e2
  exact e2

/-- windows of two independent series -/
theorem nte_product {γ δ : Type} {X Y : ℕ → Ω → ℝ} (hi : SeriesIndep μ X Y) {A : ℕ → (ℕ → ℝ) → γ} {B : ℕ → (ℕ → ℝ) → δ}
    (hA : ∀ i w, MeasurableSet {x | A i x = w}) (hB : ∀ i w, MeasurableSet {x | B i x = w}) {S : Finset γ} {T : Finset δ} {p : γ → ℝ} {q : δ → ℝ}
    (kx : Sampling μ (fun i ω => A i (fun t => X t ω)) S p M) (ky : Sampling μ (fun i ω => B i (fun t => Y t ω)) T q M) :
    Sampling μ (fun i ω => (A i (fun t => X t ω), B i (fun t => Y t ω))) (S ×ˢ T) (fun w => p w.1 * q w.2) M := by
  refine ⟨fun i w hw => ?_, fun i => ?_, fun i w hw => ?_, fun i j hij x hx y hy => ?_⟩
  · obtain ⟨h1, h2⟩ := Finset.mem_product.1 hw
    convert (kx.measurable i w.1 h1).inter (ky.measurable i w.2 h2) using 1
    ext ω
    simp [Prod.ext_iff]
  · filter_upwards [kx.mem i, ky.mem i] with ω h1 h2 using Finset.mem_product.2 ⟨h1, h2⟩
  · obtain ⟨h1, h2⟩ := Finset.mem_product.1 hw
    have e := noise_series_event hi (hA i w.1) (hB i w.2)
    have e1 := kx.law i w.1 h1
    have e2 := ky.law i w.2 h2
    simp only [Set.mem_ofPred_eq] at e e1 e2
    rw [e1, e2] at e
    rw [← e]
    congr 1
    ext ω
    simp [Prod.ext_iff]
  · obtain ⟨h1, h2⟩ := Finset.mem_product.1 hx
    obtain ⟨h3, h4⟩ := Finset.mem_product.1 hy
    have e := noise_series_event hi ((hA i x.1).inter (hA j y.1)) ((hB i x.2).inter (hB j y.2))
    have e1 := kx.indep i j hij x.1 h1 y.1 h3
    have e2 := ky.indep i j hij x.2 h2 y.2 h4
    simp only [Set.mem_inter_iff, Set.mem_ofPred_eq] at e e1 e2
    rw [e1, e2] at e
    rw [show p x.1 * q x.2 * (p y.1 * q y.2) = p x.1 * p y.1 * (q x.2 * q y.2) by ring, ← e]
    congr 1
    ext ω
    simp only [Prod.ext_iff, Set.mem_ofPred_eq]
    tauto

/-- pattern of the readings `i, i + s, …` of a series -/
noncomputable def ntePat (d s i : ℕ) (x : ℕ → ℝ) : List ℕ := List.ofFn (nRank (fun t : Fin d => x (i + t * s)))

/-- `k` patterns that end before row `i` of the embedding -/
noncomputable def nteHist (d s m k i : ℕ) (x : ℕ → ℝ) : List (List ℕ) := (List.range k).map (fun j => ntePat d s ((m + i - k + j) * s) x)

theorem ntePat_event (d s i : ℕ) (w : List ℕ) : MeasurableSet {x | ntePat d s i x = w} := noise_pattern_event d s i w

theorem nteHist_event (d s m k i : ℕ) (w : List (List ℕ)) : MeasurableSet {x | nteHist d s m k i x = w} :=
  nte_map_event (f := fun j x => ntePat d s ((m + i - k + j) * s) x) (fun j w => ntePat_event _ _ _ w) k w

/-- the readings of a block, as a series -/
noncomputable def nteExt {L : ℕ} (v : Fin L → ℝ) (n : ℕ) : ℝ := if h : n < L then v ⟨n, h⟩ else 0

theorem nteExt_measurable {L : ℕ} : Measurable (nteExt (L := L)) := by
  refine measurable_pi_lambda _ fun n => ?_
  unfold nteExt
  by_cases h : n < L
  · simp only [h, dif_pos]; exact measurable_pi_apply _
  · simp only [h, dif_neg, not_false_eq_true]; exact measurable_const

theorem ntePat_ext {d s m r i : ℕ} (x : ℕ → ℝ) (hr : r ≤ m) (hd : 1 ≤ d) :
    ntePat d s ((i + r) * s) x = ntePat d 1 r (nteExt (fun t : Fin (m + d) => x ((i + t) * s))) := by
  unfold ntePat
  congr 2
  funext t
  have := t.isLt
  have h : r + (t : ℕ) * 1 < m + d := by omega
  simp only [nteExt, dif_pos h]
  congr 1
  ring

theorem nteHist_ext {d s m k i : ℕ} (x : ℕ → ℝ) (hk : k ≤ m) (hd : 1 ≤ d) :
    nteHist d s m k i x = nteHist d 1 m k 0 (nteExt (fun t : Fin (m + d) => x ((i + t) * s))) := by
  unfold nteHist
  refine List.map_congr_left fun j hj => ?_
  have := List.mem_range.1 hj
  rw [show m + i - k + j = i + (m - k + j) by omega, ntePat_ext x (show m - k + j ≤ m by omega) hd]
  congr 1
  omega

/-- lists of `k` patterns -/
def ntePats (d k : ℕ) : Finset (List (List ℕ)) := (Fintype.piFinset (fun _ : Fin k => allPatterns d)).image List.ofFn

theorem nteHist_mem {d s m k i : ℕ} (hs : 0 < s) {x : ℕ → ℝ} (hx : ∀ i j, i ≠ j → x i ≠ x j) : nteHist d s m k i x ∈ ntePats d k := by
  refine Finset.mem_image.2 ⟨fun j => ntePat d s ((m + i - k + j) * s) x, Fintype.mem_piFinset.2 fun j => ?_, ?_⟩
  · refine noise_pattern_mem fun t u e => ?_
    by_contra hne
    exact hx _ _ (fun e' => hne (noise_step_inj hs _ e')) e
  · unfold nteHist
    exact List.ext_getElem (by simp) fun j h1 h2 => by simp

theorem nte_idx_inj {L : ℕ} (hs : 0 < s) (i : ℕ) : Function.Injective (fun t : Fin L => (i + (t : ℕ)) * s) := fun t u e => by
  have := Nat.eq_of_mul_eq_mul_right hs e
  exact Fin.ext (by omega)

theorem nte_idx_ne {L : ℕ} (hs : 0 < s) (i j : ℕ) (hij : i + L ≤ j) (t u : Fin L) : (i + (t : ℕ)) * s ≠ (j + (u : ℕ)) * s := fun e => by
  have := Nat.eq_of_mul_eq_mul_right hs e
  have := t.isLt
  omega

theorem nte_source {X : ℕ → Ω → ℝ} (h : Noise μ X) (hc : NoAtom μ X) (hs : 0 < s) (hd : 1 ≤ d) {m : ℕ} (hl : l ≤ m) :
    ∃ p : List (List ℕ) → ℝ, (∀ w, 0 ≤ p w) ∧ Sampling μ (fun i ω => nteHist d s m l i (fun t => X t ω)) (ntePats d l) p (m + d) := by
  have key := nte_sampling (M := m + d) h (fun i (t : Fin (m + d)) => (i + (t : ℕ)) * s) (nte_idx_inj hs) (nte_idx_ne hs)
    (fun v => nteHist d 1 m l 0 (nteExt v)) (fun w => nteExt_measurable (nteHist_event d 1 m l 0 w)) (T := ntePats d l) (fun i => by
      filter_upwards [noise_distinct h hc] with ω hω
      rw [← nteHist_ext (fun t => X t ω) hl hd]
      exact nteHist_mem hs hω)
  have e : (fun (i : ℕ) (ω : Ω) => nteHist d s m l i (fun t => X t ω)) =
      fun i ω => nteHist d 1 m l 0 (nteExt fun t : Fin (m + d) => X ((i + (t : ℕ)) * s) ω) := by
    funext i ω
    exact nteHist_ext (fun t => X t ω) hl hd
  rw [e]
  refine ⟨_, ?_, key⟩
  intro w
  exact measureReal_nonneg

theorem nte_target {Y : ℕ → Ω → ℝ} (h : Noise μ Y) (hc : NoAtom μ Y) (hs : 0 < s) (hd : 1 ≤ d) {m : ℕ} (hk : k ≤ m) :
    ∃ p : List (List ℕ) × List (List ℕ) → ℝ, (∀ w, 0 ≤ p w) ∧
      Sampling μ (fun i ω => ([ntePat d s ((m + i) * s) (fun t => Y t ω)], nteHist d s m k i (fun t => Y t ω))) (ntePats d 1 ×ˢ ntePats d k) p
        (m + d) := by
  have e1 : ∀ (i : ℕ) (x : ℕ → ℝ), [ntePat d s ((m + i) * s) x] = nteHist d s (m + 1) 1 i x := fun i x => by
    simp [nteHist, List.range_succ, show m + 1 + i - 1 = m + i by omega]
  have e2 : ∀ (i : ℕ) (x : ℕ → ℝ), [ntePat d s ((m + i) * s) x] = [ntePat d 1 m (nteExt (fun t : Fin (m + d) => x ((i + t) * s)))] := fun i x => by
    rw [show m + i = i + m by omega, ntePat_ext x le_rfl hd]
  have key := nte_sampling (M := m + d) h (fun i (t : Fin (m + d)) => (i + (t : ℕ)) * s) (nte_idx_inj hs) (nte_idx_ne hs)
    (fun v => ([ntePat d 1 m (nteExt v)], nteHist d 1 m k 0 (nteExt v))) (fun w => by
      have h1 : MeasurableSet {x : ℕ → ℝ | [ntePat d 1 m x] = w.1} :=
        nte_map_event (f := fun _ x => ntePat d 1 m x) (fun _ w => ntePat_event _ _ _ w) 1 w.1
      convert nteExt_measurable (h1.inter (nteHist_event d 1 m k 0 w.2)) using 1
      ext v
      simp [Prod.ext_iff])
    (T := ntePats d 1 ×ˢ ntePats d k) (fun i => by
      filter_upwards [noise_distinct h hc] with ω hω
      rw [← nteHist_ext (fun t => Y t ω) hk hd, ← e2 i (fun t => Y t ω), e1]
      exact Finset.mem_product.2 ⟨nteHist_mem hs hω, nteHist_mem hs hω⟩)
  have e : (fun (i : ℕ) (ω : Ω) => ([ntePat d s ((m + i) * s) (fun t => Y t ω)], nteHist d s m k i (fun t => Y t ω))) =
      fun i ω => ([ntePat d 1 m (nteExt fun t : Fin (m + d) => Y ((i + (t : ℕ)) * s) ω)],
        nteHist d 1 m k 0 (nteExt fun t : Fin (m + d) => Y ((i + (t : ℕ)) * s) ω)) := by
    funext i ω
    exact Prod.ext (e2 i (fun t => Y t ω)) (nteHist_ext (fun t => Y t ω) hk hd)
  rw [e]
  refine ⟨_, ?_, key⟩
  intro w
  exact measureReal_nonneg

theorem nte_getD (X : ℕ → Ω → List ℕ) {n i : ℕ} (hi : i < n) (ω : Ω) : (observed X n ω).getD i default = X i ω := by
  simp [observed, List.getD_eq_getElem?_getD, hi]

theorem nte_fut (Y : ℕ → Ω → ℝ) (hs : 0 < s) (n m : ℕ) (ω : Ω) :
    futRows (observed (patternAt Y d s) n ω) n m s = observed (fun i ω => [ntePat d s ((m + i) * s) (fun t => Y t ω)]) (numRows n m s) ω := by
  refine List.map_congr_left fun i hi => ?_
  rw [nte_getD _ (numRows_index hs (List.mem_range.1 hi)), patternAt_eq]
  rfl

theorem nte_hist (Y : ℕ → Ω → ℝ) (hs : 0 < s) (n m k : ℕ) (hk : k ≤ m) (ω : Ω) :
    histRows (observed (patternAt Y d s) n ω) n m s k = observed (fun i ω => nteHist d s m k i (fun t => Y t ω)) (numRows n m s) ω := by
  refine List.map_congr_left fun i hi => List.map_congr_left fun j hj => ?_
  rw [nte_getD _ (lt_of_le_of_lt (Nat.mul_le_mul_right s (by have := List.mem_range.1 hj; omega)) (numRows_index hs (List.mem_range.1 hi))), patternAt_eq]
  rfl

/-- **C96** Transfer entropy from white noise to independent white noise, ordinal approach: the textbook value of the patterns — the result of the
public function below 2^32 readings — converges almost surely to 0. -/
theorem C96_te_noise (h : Call W .te .ordinal a kw b) (hb : b.Valid) (hcd : cond.isVal = false) (hh : History kw l k s) (st : Bool)
    (h1 : kw "embedding_dim" = some (.int d)) (h3 : kwOr kw "stable" (.bool false) = .bool st) (hd : 1 ≤ d) (hd' : d ≤ 20) (hs : 1 ≤ s)
    (hl : 0 < l) (hk : 0 < k) {X Y : ℕ → Ω → ℝ}
    (hX : Noise μ X) (hcx : NoAtom μ X) (hY : Noise μ Y) (hcy : NoAtom μ Y) (hi : SeriesIndep μ X Y) :
    ∀ᵐ ω ∂μ, ∃ v : ℕ → ℝ, (∀ n, (d - 1) * s + max k l * s < n → n < 2 ^ 32 →
        imTE W [.reals (observed X n ω), .reals (observed Y n ω)] a cond kw = .ok (v n)) ∧
      (∀ n, v n = Spec.cmi (futRows (ordPatterns (observed Y n ω) d s) (n - (d - 1) * s) (max k l) s)
        (histRows (ordPatterns (observed X n ω) d s) (n - (d - 1) * s) (max k l) s l)
        (histRows (ordPatterns (observed Y n ω) d s) (n - (d - 1) * s) (max k l) s k) / b.ln) ∧
      Filter.Tendsto v Filter.atTop (nhds 0) := by
  obtain ⟨p, hp, kx⟩ := nte_source (d := d) hX hcx hs hd (le_max_right k l)
  obtain ⟨q, hq, ky⟩ := nte_target (d := d) hY hcy hs hd (le_max_left k l)
  have E1 : ∀ (i : ℕ) (w : List (List ℕ) × List (List ℕ)), MeasurableSet {x : ℕ → ℝ | ([ntePat d s ((max k l + i) * s) x], nteHist d s (max k l) k i x) = w} := by
    intro i w
    have h1 : MeasurableSet {x : ℕ → ℝ | [ntePat d s ((max k l + i) * s) x] = w.1} :=
      nte_map_event (f := fun _ x => ntePat d s ((max k l + i) * s) x) (fun _ w => ntePat_event _ _ _ w) 1 w.1
    convert h1.inter (nteHist_event d s (max k l) k i w.2) using 1
    ext v
    simp [Prod.ext_iff]
  have key := nte_product hi (fun i w => nteHist_event d s (max k l) l i w) E1 kx ky
  have hz := iid_tripleInfo_product (SA := ntePats d l) (SB := ntePats d 1) (SC := ntePats d k)
    (p := fun w => p w.1 * q w.2) (r := p) (q := q) hp hq (fun _ _ _ => rfl)
  filter_upwards [as_windows (by omega) key (max k l) hs, noise_distinct hX hcx, noise_distinct hY hcy] with ω hω hdx hdy
  refine ⟨_, fun n hn hov => ?_, fun n => rfl, ?_⟩
  · have ex : (observed X n ω).length = n := observed_length X n ω
    have e := C82_te_ordinal h hb hcd hh d st h1 h3 hd hd' hs hl hk (observed X n ω) (observed Y n ω) (ex.trans (observed_length Y n ω).symm)
      (by rw [ex]; exact hn) (by rw [ex]; exact hov) (noise_tieFree hdx hs d n) (noise_tieFree hdy hs d n)
    rwa [ex] at e
  · have t := near_tripleInfo hω.1 hω.2.1 hω.2.2 near_entropy near_entropy near_entropy near_entropy
    rw [hz] at t
    have t' := (t.comp (noise_windows_tendsto ((d - 1) * s))).div_const b.ln
    rw [zero_div] at t'
    refine t'.congr fun n => ?_
    rw [show ordPatterns (observed X n ω) d s = observed (patternAt X d s) (n - (d - 1) * s) ω from noise_patterns X d s n ω,
      show ordPatterns (observed Y n ω) d s = observed (patternAt Y d s) (n - (d - 1) * s) ω from noise_patterns Y d s n ω,
      nte_fut Y hs, nte_hist Y hs _ _ k (le_max_left _ _), nte_hist X hs _ _ l (le_max_right _ _), cmi_comm _ _ _ (by simp [observed_length]) (by simp [observed_length]),
      cmi_eq_entropies _ _ _ (by simp [observed_length]) (by simp [observed_length])]
    simp only [observed_zip, observed_map, Function.comp]

end Verif
