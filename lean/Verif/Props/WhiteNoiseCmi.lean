import Verif.Props.FiniteNoise

/-!
# C96, C103, continued: ordinal conditional mutual information of random readings
-/

namespace Verif

open Spec MeasureTheory ProbabilityTheory

variable {Ω : Type} [MeasurableSpace Ω] {μ : Measure Ω} {M d s : ℕ}
variable {W : World} {a : PyName} {kw : Kw} {b : Base}

/-- the textbook conditional mutual information of the patterns in terms of triples of patterns -/
theorem ncm_value {X Y Z : ℕ → Ω → ℝ} (n : ℕ) (ω : Ω) :
    Spec.cmi (ordPatterns (observed X n ω) d s) (ordPatterns (observed Y n ω) d s) (ordPatterns (observed Z n ω) d s) =
      (let V := observed (fun i ω => (patternAt X d s i ω, patternAt Y d s i ω, patternAt Z d s i ω)) (n - (d - 1) * s) ω
       entropy (V.map (fun w => (w.1, w.2.2))) + entropy (V.map (fun w => w.2)) - entropy V - entropy (V.map (fun w => w.2.2))) := by
  rw [show ordPatterns (observed X n ω) d s = observed (patternAt X d s) (n - (d - 1) * s) ω from noise_patterns X d s n ω,
    show ordPatterns (observed Y n ω) d s = observed (patternAt Y d s) (n - (d - 1) * s) ω from noise_patterns Y d s n ω,
    show ordPatterns (observed Z n ω) d s = observed (patternAt Z d s) (n - (d - 1) * s) ω from noise_patterns Z d s n ω,
    cmi_eq_entropies _ _ _ (by simp [observed_length]) (by simp [observed_length])]
  simp only [observed_zip, observed_map]

theorem ncm_call (h : Call W .cmi .ordinal a kw b) (hb : b.Std) (ho : kwOr kw "offset" (.int 0) = .int 0) (st : Bool)
    (h1 : kwOr kw "embedding_dim" .none = .int d) (h2 : kwOr kw "step_size" (.int 1) = .int s) (h3 : kwOr kw "stable" (.bool false) = .bool st)
    (hd : 1 ≤ d) (hs : 1 ≤ s) {X Y Z : ℕ → Ω → ℝ} {ω : Ω} (hx : AllDistinct X ω) (hy : AllDistinct Y ω) (hz : AllDistinct Z ω)
    {n : ℕ} (hn : (d - 1) * s < n) (hov : n < 2 ^ 32) :
    CmiIs W [.reals (observed X n ω), .reals (observed Y n ω)] a (.reals (observed Z n ω)) kw
      (.ok (Spec.cmi (ordPatterns (observed X n ω) d s) (ordPatterns (observed Y n ω) d s) (ordPatterns (observed Z n ω) d s) / b.ln)) :=
  C82_cmi_ordinal h hb ho _ _ _ d s st h1 h2 h3 hd hs (by simp [observed_length]) (by simp [observed_length]) (by rw [observed_length]; exact hn)
    (by rw [observed_length]; exact hov) (noise_tieFree hx hs d n) (noise_tieFree hy hs d n) (noise_tieFree hz hs d n)

/-- **C96** Conditional mutual information: if the triples of ordinal patterns have a distribution `p` and triples far enough apart are independent,
the result of `im.conditional_mutual_information` (also through `im.mutual_information(…, cond=…)`) — the textbook value of the patterns below 2^32
readings — converges almost surely to that of `p`. -/
theorem C96_cmi [IsProbabilityMeasure μ] (h : Call W .cmi .ordinal a kw b) (hb : b.Std) (ho : kwOr kw "offset" (.int 0) = .int 0) (st : Bool)
    (h1 : kwOr kw "embedding_dim" .none = .int d) (h2 : kwOr kw "step_size" (.int 1) = .int s)
    (h3 : kwOr kw "stable" (.bool false) = .bool st) (hd : 1 ≤ d) (hs : 1 ≤ s) {X Y Z : ℕ → Ω → ℝ} {S : Finset (List ℕ × List ℕ × List ℕ)}
    {p : List ℕ × List ℕ × List ℕ → ℝ} (hM : 0 < M)
    (hX : Sampling μ (fun i ω => (patternAt X d s i ω, patternAt Y d s i ω, patternAt Z d s i ω)) S p M)
    (htx : ∀ᵐ ω ∂μ, AllDistinct X ω) (hty : ∀ᵐ ω ∂μ, AllDistinct Y ω) (htz : ∀ᵐ ω ∂μ, AllDistinct Z ω) :
    ∀ᵐ ω ∂μ, ∃ v : ℕ → ℝ, (∀ n, (d - 1) * s < n → n < 2 ^ 32 →
        CmiIs W [.reals (observed X n ω), .reals (observed Y n ω)] a (.reals (observed Z n ω)) kw (.ok (v n))) ∧
      (∀ n, v n = Spec.cmi (ordPatterns (observed X n ω) d s) (ordPatterns (observed Y n ω) d s) (ordPatterns (observed Z n ω) d s) / b.ln) ∧
      Filter.Tendsto v Filter.atTop (nhds (tripleInfo S p / b.ln)) := by
  filter_upwards [as_freq hM hX, htx, hty, htz] with ω hω hdx hdy hdz
  refine ⟨_, fun n hn hov => ncm_call h hb ho st h1 h2 h3 hd hs hdx hdy hdz hn hov, fun n => rfl, ?_⟩
  have t := near_tripleInfo hω.1 hω.2 (observed_tendsto _ ω) near_entropy near_entropy near_entropy near_entropy
  refine Filter.Tendsto.div_const ((t.comp (noise_windows_tendsto ((d - 1) * s))).congr fun n => ?_) _
  rw [ncm_value]
  rfl

/-- **C103** its expectation for `n` readings (`R` windows) -/
theorem C103_cmi [IsProbabilityMeasure μ] (h : Call W .cmi .ordinal a kw b) (hb : b.Std) (ho : kwOr kw "offset" (.int 0) = .int 0) (st : Bool)
    (h1 : kwOr kw "embedding_dim" .none = .int d) (h2 : kwOr kw "step_size" (.int 1) = .int s)
    (h3 : kwOr kw "stable" (.bool false) = .bool st) (hd : 1 ≤ d) (hs : 1 ≤ s) {X Y Z : ℕ → Ω → ℝ} {S : Finset (List ℕ × List ℕ × List ℕ)}
    {p : List ℕ × List ℕ × List ℕ → ℝ} (hM : 0 < M)
    (hX : Sampling μ (fun i ω => (patternAt X d s i ω, patternAt Y d s i ω, patternAt Z d s i ω)) S p M)
    (htx : ∀ᵐ ω ∂μ, AllDistinct X ω) (hty : ∀ᵐ ω ∂μ, AllDistinct Y ω) (htz : ∀ᵐ ω ∂μ, AllDistinct Z ω)
    (n : ℕ) (hn : (d - 1) * s < n) (hov : n < 2 ^ 32) :
    let R := n - (d - 1) * s
    let lo := tripleInfo S p - (2 * M - 1) * ((S.image (fun w => (w.1, w.2.2))).card - 1 + ((S.image (fun w => w.2)).card - 1)) / R
    let hi := tripleInfo S p + (2 * M - 1) * (S.card - 1 + ((S.image (fun w => w.2.2)).card - 1)) / R
    AlmostExpected μ b (fun ω => imCMI W [.reals (observed X n ω), .reals (observed Y n ω)] a (.val (.reals (observed Z n ω))) kw) lo hi ∧
      AlmostExpected μ b (fun ω => imMI W [.reals (observed X n ω), .reals (observed Y n ω)] a (.val (.reals (observed Z n ω))) kw) lo hi := by
  intro R lo hi
  obtain ⟨e1, e2, e3⟩ := eb_triple hM hX (n := R) (by omega)
  have key : ∀ᵐ ω ∂μ, CmiIs W [.reals (observed X n ω), .reals (observed Y n ω)] a (.reals (observed Z n ω)) kw
      (.ok (Spec.cmi (ordPatterns (observed X n ω) d s) (ordPatterns (observed Y n ω) d s) (ordPatterns (observed Z n ω) d s) / b.ln)) := by
    filter_upwards [htx, hty, htz] with ω hdx hdy hdz using ncm_call h hb ho st h1 h2 h3 hd hs hdx hdy hdz hn hov
  simp only [ncm_value] at key
  exact ⟨almostExpected_of hb (key.mono fun ω h => h.1) e1 e2 e3, almostExpected_of hb (key.mono fun ω h => h.2) e1 e2 e3⟩

/-! ## A concrete random sequence -/

/-- a one-to-one function of a sampling -/
theorem ncm_sampling {α β : Type} [DecidableEq β] {U : ℕ → Ω → α} {S : Finset α} {p : α → ℝ} (h : Sampling μ U S p M) (f : α → β) (g : β → α)
    (hg : ∀ x, g (f x) = x) : Sampling μ (fun i ω => f (U i ω)) (S.image f) (fun w => p (g w)) M := by
  have e : ∀ i x, {ω | f (U i ω) = f x} = {ω | U i ω = x} := fun i x => by
    ext ω
    exact ⟨fun h => by have := congrArg g h; rwa [hg, hg] at this, fun h => congrArg f h⟩
  refine ⟨fun i w hw => ?_, fun i => (h.mem i).mono fun ω hω => Finset.mem_image_of_mem f hω, fun i w hw => ?_, fun i j hij x hx y hy => ?_⟩
  · obtain ⟨x, hx, rfl⟩ := Finset.mem_image.1 hw
    rw [e]; exact h.measurable i x hx
  · obtain ⟨x, hx, rfl⟩ := Finset.mem_image.1 hw
    rw [e, hg]; exact h.law i x hx
  · obtain ⟨x', hx', rfl⟩ := Finset.mem_image.1 hx
    obtain ⟨y', hy', rfl⟩ := Finset.mem_image.1 hy
    rw [hg, hg, ← h.indep i j hij x' hx' y' hy']
    congr 1
    ext ω
    have h1 := Set.ext_iff.1 (e i x') ω
    have h2 := Set.ext_iff.1 (e j y') ω
    simp only [Set.mem_ofPred_eq] at h1 h2 ⊢
    rw [h1, h2]

/-- two independent noises, one of them also the condition -/
theorem ncm_ex : ∃ S p, Sampling noUnifs (fun i ω => (patternAt (fun i (ω : ℕ → ℝ) => ω (2 * i)) 3 1 i ω,
    patternAt (fun i (ω : ℕ → ℝ) => ω (2 * i + 1)) 3 1 i ω, patternAt (fun i (ω : ℕ → ℝ) => ω (2 * i)) 3 1 i ω)) S p ((3 - 1) * 1 + 1) :=
  ⟨_, _, ncm_sampling (C96_pattern_pairs (d := 3) (s := 1) (noEx_noise _ noEx_even) (noEx_atom _) (noEx_noise _ noEx_odd) (noEx_atom _)
    noEx_indep one_pos) (fun w => (w.1, w.2, w.1)) (fun w => (w.1, w.2.1)) (fun _ => rfl)⟩

example : True := by
  obtain ⟨S, p, hX⟩ := ncm_ex
  have dx := noise_distinct (noEx_noise _ noEx_even) (noEx_atom _)
  have dy := noise_distinct (noEx_noise _ noEx_odd) (noEx_atom _)
  have := C96_cmi (d := 3) (s := 1) (b := .e) (call "ordinal", [("embedding_dim", .int 3)]) trivial (by kw) false (by kw) (by kw) (by kw)
    (by norm_num) (by norm_num) (Nat.succ_pos _) hX dx dy dx
  have := C103_cmi (d := 3) (s := 1) (b := .e) (call "ordinal", [("embedding_dim", .int 3)]) trivial (by kw) false (by kw) (by kw) (by kw)
    (by norm_num) (by norm_num) (Nat.succ_pos _) hX dx dy dx 100 (by norm_num) (by norm_num)
  trivial

end Verif
