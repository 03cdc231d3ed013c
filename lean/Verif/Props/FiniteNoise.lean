import Verif.Props.ExpectedBias
import Verif.Props.WhiteNoiseTE
import Verif.Props.WhiteNoiseEx

/-!
# C103: ordinal measures of finitely many random readings

Average of the ordinal entropy, mutual information and transfer entropy of `n` random readings, and probability of a given deviation.
-/

namespace Verif

open Spec MeasureTheory ProbabilityTheory

variable {Ω : Type} [MeasurableSpace Ω] {μ : Measure Ω} [IsProbabilityMeasure μ] {M d s l k : ℕ}
variable {W : World} {a : PyName} {kw : Kw} {b : Base} {cond : CondKw PyData}

/-- the call almost surely succeeds, its result has an expectation, and the expectation (in nats) is between `lo` and `hi` -/
def AlmostExpected (μ : Measure Ω) (b : Base) (r : Ω → Except Exc ℝ) (lo hi : ℝ) : Prop :=
  ∃ v : Ω → ℝ, (∀ᵐ ω ∂μ, r ω = .ok (v ω)) ∧ Integrable v μ ∧ lo / b.ln ≤ ∫ ω, v ω ∂μ ∧ ∫ ω, v ω ∂μ ≤ hi / b.ln

omit [IsProbabilityMeasure μ] in
theorem almostExpected_of {u : Ω → ℝ} {r : Ω → Except Exc ℝ} {lo hi : ℝ} (hb : b.Std) (hr : ∀ᵐ ω ∂μ, r ω = .ok (u ω / b.ln)) (hu : Integrable u μ)
    (h1 : lo ≤ ∫ ω, u ω ∂μ) (h2 : ∫ ω, u ω ∂μ ≤ hi) : AlmostExpected μ b r lo hi := by
  refine ⟨fun ω => u ω / b.ln, hr, hu.div_const _, ?_, ?_⟩
  · rw [integral_div]; exact div_le_div_of_nonneg_right h1 hb.ln_pos.le
  · rw [integral_div]; exact div_le_div_of_nonneg_right h2 hb.ln_pos.le

/-- Markov's inequality for the results of a call that never exceed (or never fall below) a level -/
theorem fn_markov {u : Ω → ℝ} {r : Ω → Except Exc ℝ} {δ c : ℝ} (hb : b.Std) (hr : ∀ᵐ ω ∂μ, r ω = .ok (u ω / b.ln)) (g : ℝ → ℝ)
    (hg : Integrable (fun ω => g (u ω)) μ) (h0 : ∀ᵐ ω ∂μ, 0 ≤ g (u ω)) (hle : ∫ ω, g (u ω) ∂μ ≤ δ) (hc : 0 < c) :
    μ.real {ω | ∃ v, r ω = .ok v ∧ c ≤ g (v * b.ln) / b.ln} ≤ δ / (b.ln * c) := by
  have hln := hb.ln_pos
  have hs : μ.real {ω | ∃ v, r ω = .ok v ∧ c ≤ g (v * b.ln) / b.ln} = μ.real {ω | c * b.ln ≤ g (u ω)} := by
    refine measureReal_congr ?_
    filter_upwards [hr] with ω hω
    refine propext ⟨?_, fun h => ⟨_, hω, ?_⟩⟩
    · rintro ⟨v, hv, h⟩
      rw [hω] at hv
      cases hv
      rw [div_mul_cancel₀ _ hln.ne', le_div_iff₀ hln] at h
      exact h
    · rw [div_mul_cancel₀ _ hln.ne', le_div_iff₀ hln]
      exact h
  have := mul_meas_ge_le_integral_of_nonneg h0 hg (c * b.ln)
  rw [hs, le_div_iff₀ (by positivity)]
  calc _ = c * b.ln * μ.real {ω | c * b.ln ≤ g (u ω)} := by ring
    _ ≤ _ := this.trans hle

/-- **C103** `im.entropy(x, approach="ordinal")` of `n` readings whose patterns have the distribution `p` (`R` windows): on average too small, by at most
`(2M − 1)(K − 1)/R` nats, `K` the number of possible patterns. -/
theorem C103_entropy (h : Call W .h .ordinal a kw b) (hb : b.Std) (st : Bool) (h1 : kw "embedding_dim" = some (.int d))
    (h2 : kwOr kw "step_size" (.int 1) = .int s) (h3 : kwOr kw "stable" (.bool false) = .bool st) (hd : 1 ≤ d) (hs : 1 ≤ s)
    {X : ℕ → Ω → ℝ} {S : Finset (List ℕ)} {p : List ℕ → ℝ} (hM : 0 < M) (hX : Sampling μ (patternAt X d s) S p M)
    (ht : ∀ᵐ ω ∂μ, AllDistinct X ω) (n : ℕ) (hn : (d - 1) * s < n) :
    let R := n - (d - 1) * s
    AlmostExpected μ b (fun ω => imEntropy W [.reals (observed X n ω)] a .absent kw) (shannon S p - (2 * M - 1) * (S.card - 1) / R) (shannon S p) := by
  intro R
  obtain ⟨e1, e2, e3⟩ := eb_entropy_id hM hX (n := R) (by omega)
  refine almostExpected_of (u := fun ω => entropy (observed (patternAt X d s) R ω)) hb ?_ e1 e3 e2
  filter_upwards [ht] with ω hω
  rw [C82_ordinal_entropy h hb.valid _ d s st h1 h2 h3 hd hs (by rw [observed_length]; exact hn) (noise_tieFree hω hs d n), permEntropy, noise_patterns]

theorem fn_factor (d s : ℕ) : 2 * (((d - 1) * s + 1 : ℕ) : ℝ) - 1 = 2 * ((d - 1 : ℕ) : ℝ) * s + 1 := by push_cast; ring

/-- **C103** permutation entropy of `n` readings of white noise: on average between `log d! − (2(d−1)s + 1)(d! − 1)/R` and `log d!`; it never exceeds
`log d!`, and stays `ε` below it with probability at most `(2(d−1)s + 1)(d! − 1)/(R ε)`. -/
theorem C103_entropy_noise (h : Call W .h .ordinal a kw b) (hb : b.Std) (st : Bool) (h1 : kw "embedding_dim" = some (.int d))
    (h2 : kwOr kw "step_size" (.int 1) = .int s) (h3 : kwOr kw "stable" (.bool false) = .bool st) (hd : 1 ≤ d) (hs : 1 ≤ s)
    {X : ℕ → Ω → ℝ} (hX : Noise μ X) (hc : NoAtom μ X) (n : ℕ) (hn : (d - 1) * s < n) (ε : ℝ) (hε : 0 < ε) :
    let r := fun ω => imEntropy W [.reals (observed X n ω)] a .absent kw
    let δ := (2 * ((d - 1 : ℕ) : ℝ) * s + 1) * (d.factorial - 1) / (n - (d - 1) * s : ℕ)
    AlmostExpected μ b r (Real.log d.factorial - δ) (Real.log d.factorial) ∧
      (∀ᵐ ω ∂μ, ∃ v, r ω = .ok v ∧ v ≤ Real.log d.factorial / b.ln) ∧
      μ.real {ω | ∃ v, r ω = .ok v ∧ ε ≤ Real.log d.factorial / b.ln - v} ≤ δ / (b.ln * ε) := by
  intro r δ
  have hS := C96_patterns (d := d) hX hc hs
  obtain ⟨e1, e2, e3⟩ := eb_entropy_id (Nat.succ_pos _) hS (n := n - (d - 1) * s) (by omega)
  rw [shannon_uniform, allPatterns_card, fn_factor] at e3
  rw [shannon_uniform] at e2
  have hr : ∀ᵐ ω ∂μ, r ω = .ok (entropy (observed (patternAt X d s) (n - (d - 1) * s) ω) / b.ln) := by
    filter_upwards [noise_distinct hX hc] with ω hω
    simp only [r]
    rw [C82_ordinal_entropy h hb.valid _ d s st h1 h2 h3 hd hs (by rw [observed_length]; exact hn) (noise_tieFree hω hs d n), permEntropy, noise_patterns]
  have hmax : ∀ᵐ ω ∂μ, entropy (observed (patternAt X d s) (n - (d - 1) * s) ω) ≤ Real.log d.factorial := by
    filter_upwards [ae_all_iff.2 hS.mem] with ω hω
    have hne : observed (patternAt X d s) (n - (d - 1) * s) ω ≠ [] := observed_ne _ (by omega) ω
    refine (entropy_le_log_card _ hne).trans (Real.log_le_log ?_ ?_)
    · have := ((List.toFinset_nonempty_iff _).2 hne).card_pos
      exact_mod_cast this
    · have : (observed (patternAt X d s) (n - (d - 1) * s) ω).toFinset.card ≤ (allPatterns d).card := Finset.card_le_card fun w hw => by
        obtain ⟨i, -, rfl⟩ := List.mem_map.1 (List.mem_toFinset.1 hw)
        exact hω i
      rw [allPatterns_card] at this
      exact_mod_cast this
  refine ⟨almostExpected_of hb hr e1 e3 e2, ?_, ?_⟩
  · filter_upwards [hr, hmax] with ω h1 h2 using ⟨_, h1, div_le_div_of_nonneg_right h2 hb.ln_pos.le⟩
  · have key := fn_markov (r := r) (δ := δ) (c := ε) hb hr (fun x => Real.log d.factorial - x) ((integrable_const _).sub e1)
      (by filter_upwards [hmax] with ω h using sub_nonneg.2 h) (by
        rw [integral_sub (integrable_const _) e1, integral_const, probReal_univ, one_smul]
        linarith) hε
    simpa only [sub_div, mul_div_cancel_right₀ _ hb.ln_pos.ne'] using key

/-- **C103** ordinal mutual information of `n` readings of two independent noises: on average at most `(2(d−1)s + 1)(d!² − 1)/R` nats; it is never
negative, and exceeds `ε` with probability at most that divided by `ε`. -/
theorem C103_mi_noise (h : Call W .mi .ordinal a kw b) (hb : b.Std) (hcd : cond.isVal = false) (ho : kwOr kw "offset" (.int 0) = .int 0) (st : Bool)
    (h1 : kwOr kw "embedding_dim" .none = .int d) (h2 : kwOr kw "step_size" (.int 1) = .int s)
    (h3 : kwOr kw "stable" (.bool false) = .bool st) (hd : 1 ≤ d) (hs : 1 ≤ s) {X Y : ℕ → Ω → ℝ}
    (hX : Noise μ X) (hcx : NoAtom μ X) (hY : Noise μ Y) (hcy : NoAtom μ Y) (hi : SeriesIndep μ X Y) (n : ℕ) (hn : (d - 1) * s < n) (hov : n < 2 ^ 32)
    (ε : ℝ) (hε : 0 < ε) :
    let r := fun ω => imMI W [.reals (observed X n ω), .reals (observed Y n ω)] a cond kw
    let δ := (2 * ((d - 1 : ℕ) : ℝ) * s + 1) * ((d.factorial : ℝ) ^ 2 - 1) / (n - (d - 1) * s : ℕ)
    AlmostExpected μ b r 0 δ ∧ μ.real {ω | ∃ v, r ω = .ok v ∧ ε ≤ v} ≤ δ / (b.ln * ε) := by
  intro r δ
  have hS := C96_pattern_pairs (d := d) hX hcx hY hcy hi hs
  have hR : 0 < n - (d - 1) * s := by omega
  obtain ⟨x1, x2, -⟩ := eb_entropy (Nat.succ_pos _) hS (fun w => w.1) hR
  obtain ⟨y1, y2, -⟩ := eb_entropy (Nat.succ_pos _) hS (fun w => w.2) hR
  obtain ⟨z1, -, z3⟩ := eb_entropy_id (Nat.succ_pos _) hS hR
  have hz := noise_pairInfo d
  unfold pairInfo at hz
  rw [Finset.card_product, allPatterns_card, fn_factor] at z3
  simp only [observed_map] at x1 x2 y1 y2
  have hr : ∀ᵐ ω ∂μ, r ω = .ok ((entropy (observed (patternAt X d s) (n - (d - 1) * s) ω) + entropy (observed (patternAt Y d s) (n - (d - 1) * s) ω) -
      entropy (observed (fun i ω => (patternAt X d s i ω, patternAt Y d s i ω)) (n - (d - 1) * s) ω)) / b.ln) := by
    filter_upwards [noise_distinct hX hcx, noise_distinct hY hcy] with ω hdx hdy
    simp only [r]
    rw [C82_mi_ordinal h hb hcd ho _ _ d s st h1 h2 h3 hd hs (by simp [observed_length]) (by rw [observed_length]; exact hn)
      (by rw [observed_length]; exact hov) (noise_tieFree hdx hs d n) (noise_tieFree hdy hs d n)]
    rw [show ordPatterns (observed X n ω) d s = observed (patternAt X d s) (n - (d - 1) * s) ω from noise_patterns X d s n ω,
      show ordPatterns (observed Y n ω) d s = observed (patternAt Y d s) (n - (d - 1) * s) ω from noise_patterns Y d s n ω,
      mi_eq_entropies _ _ (by simp [observed_length]), observed_zip]
  have hpos : ∀ ω, 0 ≤ entropy (observed (patternAt X d s) (n - (d - 1) * s) ω) + entropy (observed (patternAt Y d s) (n - (d - 1) * s) ω) -
      entropy (observed (fun i ω => (patternAt X d s i ω, patternAt Y d s i ω)) (n - (d - 1) * s) ω) := fun ω => by
    have := mi_nonneg (observed (patternAt X d s) (n - (d - 1) * s) ω) (observed (patternAt Y d s) (n - (d - 1) * s) ω) (by simp [observed_length])
    rwa [mi_eq_entropies _ _ (by simp [observed_length]), observed_zip] at this
  have x1y1 : Integrable (fun ω => entropy (observed (patternAt X d s) (n - (d - 1) * s) ω) + entropy (observed (patternAt Y d s) (n - (d - 1) * s) ω)) μ :=
    x1.add y1
  have hint := x1y1.sub z1
  have hle : ∫ ω, (entropy (observed (patternAt X d s) (n - (d - 1) * s) ω) + entropy (observed (patternAt Y d s) (n - (d - 1) * s) ω) -
      entropy (observed (fun i ω => (patternAt X d s i ω, patternAt Y d s i ω)) (n - (d - 1) * s) ω)) ∂μ ≤ δ := by
    rw [integral_sub x1y1 z1, integral_add x1 y1]
    simp only [δ, pow_two]
    push_cast at z3
    linarith
  refine ⟨almostExpected_of hb hr hint (integral_nonneg hpos) hle, ?_⟩
  have key := fn_markov (r := r) (δ := δ) (c := ε) hb hr (fun x => x) hint (Filter.Eventually.of_forall hpos) hle hε
  simpa only [mul_div_cancel_right₀ _ hb.ln_pos.ne'] using key

theorem fn_ntePats_card (d k : ℕ) : (ntePats d k).card = d.factorial ^ k := by
  rw [ntePats, Finset.card_image_of_injective _ List.ofFn_injective, Fintype.card_piFinset, Finset.prod_const, allPatterns_card, Finset.card_univ,
    Fintype.card_fin]

/-- **C103** ordinal transfer entropy from `n` readings of white noise to independent white noise (`R` rows, `m = max` of the history lengths):
on average at most `(2(m + d) − 1)(d!^(l+k+1) + d!^k − 2)/R` nats, never negative, at least `ε` with probability at most that divided by `ε`. -/
theorem C103_te_noise (h : Call W .te .ordinal a kw b) (hb : b.Std) (hcd : cond.isVal = false) (hh : History kw l k s) (st : Bool)
    (h1 : kw "embedding_dim" = some (.int d)) (h3 : kwOr kw "stable" (.bool false) = .bool st) (hd : 1 ≤ d) (hd' : d ≤ 20) (hs : 1 ≤ s)
    (hl : 0 < l) (hk : 0 < k) {X Y : ℕ → Ω → ℝ}
    (hX : Noise μ X) (hcx : NoAtom μ X) (hY : Noise μ Y) (hcy : NoAtom μ Y) (hi : SeriesIndep μ X Y)
    (n : ℕ) (hn : (d - 1) * s + max k l * s < n) (hov : n < 2 ^ 32) (ε : ℝ) (hε : 0 < ε) :
    let r := fun ω => imTE W [.reals (observed X n ω), .reals (observed Y n ω)] a cond kw
    let R := numRows (n - (d - 1) * s) (max k l) s
    let δ := (2 * ((max k l + d : ℕ) : ℝ) - 1) * ((d.factorial : ℝ) ^ (l + k + 1) - 1 + ((d.factorial : ℝ) ^ k - 1)) / R
    AlmostExpected μ b r 0 δ ∧ μ.real {ω | ∃ v, r ω = .ok v ∧ ε ≤ v} ≤ δ / (b.ln * ε) := by
  intro r R δ
  obtain ⟨p, hp, kx⟩ := nte_source (d := d) hX hcx hs hd (le_max_right k l)
  obtain ⟨q, hq, ky⟩ := nte_target (d := d) hY hcy hs hd (le_max_left k l)
  have E1 : ∀ (i : ℕ) (w : List (List ℕ) × List (List ℕ)), MeasurableSet {x : ℕ → ℝ | ([ntePat d s ((max k l + i) * s) x], nteHist d s (max k l) k i x) = w} := by
    intro i w
    have h1 : MeasurableSet {x : ℕ → ℝ | [ntePat d s ((max k l + i) * s) x] = w.1} :=
      nte_map_event (f := fun _ x => ntePat d s ((max k l + i) * s) x) (fun _ w => ntePat_event _ _ _ w) 1 w.1
    convert h1.inter (nteHist_event d s (max k l) k i w.2) using 1
    ext v
    simp [Prod.ext_iff]
  have key := nte_product hi (fun i w => nteHist_event d s (max k l) l i w) E1 kx ky
  have hz := iid_tripleInfo_product (SA := ntePats d l) (SB := ntePats d 1) (SC := ntePats d k)
    (p := fun w => p w.1 * q w.2) (r := p) (q := q) hp hq (fun _ _ _ => rfl)
  have hR : 0 < R := numRows_pos hs (by omega)
  obtain ⟨e1, -, e3⟩ := eb_triple (by omega) key hR
  set V : ℕ → Ω → List (List ℕ) × List (List ℕ) × List (List ℕ) := fun i ω =>
    (nteHist d s (max k l) l i (fun t => X t ω), [ntePat d s ((max k l + i) * s) (fun t => Y t ω)], nteHist d s (max k l) k i (fun t => Y t ω)) with hV
  have hr : ∀ᵐ ω ∂μ, r ω = .ok ((entropy ((observed V R ω).map (fun w => (w.1, w.2.2))) + entropy ((observed V R ω).map (fun w => w.2)) -
      entropy (observed V R ω) - entropy ((observed V R ω).map (fun w => w.2.2))) / b.ln) := by
    filter_upwards [noise_distinct hX hcx, noise_distinct hY hcy] with ω hdx hdy
    have ex : (observed X n ω).length = n := observed_length X n ω
    have e := C82_te_ordinal h hb.valid hcd hh d st h1 h3 hd hd' hs hl hk (observed X n ω) (observed Y n ω) (ex.trans (observed_length Y n ω).symm)
      (by rw [ex]; exact hn) (by rw [ex]; exact hov) (noise_tieFree hdx hs d n) (noise_tieFree hdy hs d n)
    rw [ex] at e
    simp only [r]
    rw [e, show ordPatterns (observed X n ω) d s = observed (patternAt X d s) (n - (d - 1) * s) ω from noise_patterns X d s n ω,
      show ordPatterns (observed Y n ω) d s = observed (patternAt Y d s) (n - (d - 1) * s) ω from noise_patterns Y d s n ω,
      nte_fut Y hs, nte_hist Y hs _ _ k (le_max_left _ _), nte_hist X hs _ _ l (le_max_right _ _), cmi_comm _ _ _ (by simp [observed_length]) (by simp [observed_length]),
      cmi_eq_entropies _ _ _ (by simp [observed_length]) (by simp [observed_length])]
    simp only [observed_zip, observed_map]
    rfl
  have hpos : ∀ ω, 0 ≤ entropy ((observed V R ω).map (fun w => (w.1, w.2.2))) + entropy ((observed V R ω).map (fun w => w.2)) -
      entropy (observed V R ω) - entropy ((observed V R ω).map (fun w => w.2.2)) := fun ω => by
    have := cmi_nonneg (observed (fun i ω => (V i ω).1) R ω) (observed (fun i ω => (V i ω).2.1) R ω) (observed (fun i ω => (V i ω).2.2) R ω)
      (by simp [observed_length]) (by simp [observed_length])
    rw [cmi_eq_entropies _ _ _ (by simp [observed_length]) (by simp [observed_length])] at this
    simp only [observed_zip] at this
    simp only [observed_map]
    exact this
  have hle : ∫ ω, (entropy ((observed V R ω).map (fun w => (w.1, w.2.2))) + entropy ((observed V R ω).map (fun w => w.2)) -
      entropy (observed V R ω) - entropy ((observed V R ω).map (fun w => w.2.2))) ∂μ ≤ δ := by
    refine e3.trans ?_
    rw [hz, zero_add]
    have c1 : ((ntePats d l ×ˢ (ntePats d 1 ×ˢ ntePats d k)).card : ℝ) = (d.factorial : ℝ) ^ (l + k + 1) := by
      rw [Finset.card_product, Finset.card_product, fn_ntePats_card, fn_ntePats_card, fn_ntePats_card]
      push_cast
      ring
    have c2 : (((ntePats d l ×ˢ (ntePats d 1 ×ˢ ntePats d k)).image (fun w => w.2.2)).card : ℝ) ≤ (d.factorial : ℝ) ^ k := by
      have : ((ntePats d l ×ˢ (ntePats d 1 ×ˢ ntePats d k)).image (fun w => w.2.2)).card ≤ (ntePats d k).card := by
        refine Finset.card_le_card fun w hw => ?_
        obtain ⟨v, hv, rfl⟩ := Finset.mem_image.1 hw
        exact (Finset.mem_product.1 (Finset.mem_product.1 hv).2).2
      rw [fn_ntePats_card] at this
      exact_mod_cast this
    have hm : (0 : ℝ) ≤ 2 * ((max k l + d : ℕ) : ℝ) - 1 := by
      have : (1 : ℝ) ≤ ((max k l + d : ℕ) : ℝ) := by exact_mod_cast (by omega : 1 ≤ max k l + d)
      linarith
    rw [c1]
    simp only [δ]
    gcongr
  refine ⟨almostExpected_of hb hr e1 (integral_nonneg hpos) hle, ?_⟩
  have key := fn_markov (r := r) (δ := δ) (c := ε) hb hr (fun x => x) e1 (Filter.Eventually.of_forall hpos) hle hε
  simpa only [mul_div_cancel_right₀ _ hb.ln_pos.ne'] using key

/-! ## Concrete random sequences -/

example := C103_entropy (d := 3) (s := 2) (b := .e) (call "ordinal", [("embedding_dim", .int 3), ("step_size", .int 2)]) trivial false (by kw) (by kw) (by kw)
  (by norm_num) (by norm_num) (Nat.succ_pos _) (C96_patterns (d := 3) (s := 2) (noEx_noise _ noEx_even) (noEx_atom _) (by norm_num))
  (noise_distinct (noEx_noise _ noEx_even) (noEx_atom _)) 100 (by norm_num)
example := C103_entropy_noise (d := 3) (s := 2) (b := .num 2) (call "permutation", [("embedding_dim", .int 3), ("step_size", .int 2), ("base", .int 2)])
  (by norm_num [Base.Std]) false (by kw) (by kw) (by kw) (by norm_num) (by norm_num) (noEx_noise _ noEx_even) (noEx_atom _) 100 (by norm_num)
  (1 / 10) (by norm_num)
example := C103_mi_noise (d := 3) (s := 1) (b := .e) (cond := .absent) (call "ordinal", [("embedding_dim", .int 3)]) trivial rfl (by kw) false (by kw) (by kw)
  (by kw) (by norm_num) (by norm_num) (noEx_noise _ noEx_even) (noEx_atom _) (noEx_noise _ noEx_odd) (noEx_atom _) noEx_indep 100 (by norm_num) (by norm_num)
  (1 / 10) (by norm_num)
example := C103_te_noise (d := 3) (s := 1) (l := 1) (k := 2) (b := .e) (cond := .absent)
  (call "ordinal", [("embedding_dim", .int 3), ("dest_hist_len", .int 2)]) trivial rfl ⟨by kw, by kw, by kw, by kw, by kw⟩ false (by kw) (by kw)
  (by norm_num) (by norm_num) le_rfl (by norm_num) (by norm_num)
  (noEx_noise _ noEx_even) (noEx_atom _) (noEx_noise _ noEx_odd) (noEx_atom _) noEx_indep 100 (by norm_num) (by norm_num) (1 / 10) (by norm_num)

/-- ordinal mutual information (embedding dimension 2, natural units) of a million readings of two independent uniform noises: the chance of a
result of `0.01` or more is less than one in a thousand -/
example : noUnifs.real {ω | ∃ v, imMI demo [.reals (observed (fun i (ω : ℕ → ℝ) => ω (2 * i)) 1000001 ω),
    .reals (observed (fun i (ω : ℕ → ℝ) => ω (2 * i + 1)) 1000001 ω)] (.str "ordinal") .absent (kwList [("embedding_dim", .int 2)]) = .ok v ∧ 1 / 100 ≤ v} < 1 / 1000 := by
  have := (C103_mi_noise (d := 2) (s := 1) (b := .e) (cond := .absent) (call "ordinal", [("embedding_dim", .int 2)]) trivial rfl (by kw) false (by kw) (by kw)
    (by kw) (by norm_num) (by norm_num) (noEx_noise _ noEx_even) (noEx_atom _) (noEx_noise _ noEx_odd) (noEx_atom _) noEx_indep 1000001 (by norm_num)
    (by norm_num) (1 / 100) (by norm_num)).2
  refine lt_of_le_of_lt this ?_
  norm_num [Base.ln, Nat.factorial]

end Verif
