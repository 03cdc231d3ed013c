import Verif.Lemmas.ExpectedBias

/-!
# C101: how far the discrete estimates are off on average

On random observations from a finite alphabet (independent when at least `M` steps apart, `M = 1`: independent) the plug-in entropy of `n` observations
is on average too small, by at most `(2M − 1)(K − 1)/n` nats, where `K` is the size of the alphabet.  The average of a mutual information,
conditional mutual information or transfer entropy is within the corresponding bounds of the true value.
-/

namespace Verif

open Spec MeasureTheory ProbabilityTheory

variable {Ω : Type} [MeasurableSpace Ω] {μ : Measure Ω} [IsProbabilityMeasure μ] {M : ℕ}
variable {W : World} {a : PyName} {kw : Kw} {b : Base} {cond : CondKw PyData} {l k s : ℕ}

/-- the call succeeds in every outcome of the experiment, its result has an expectation, and the expectation (in nats) is between `lo` and `hi` -/
def Expected (μ : Measure Ω) (b : Base) (r : Ω → Except Exc ℝ) (lo hi : ℝ) : Prop :=
  ∃ v : Ω → ℝ, (∀ ω, r ω = .ok (v ω)) ∧ Integrable v μ ∧ lo / b.ln ≤ ∫ ω, v ω ∂μ ∧ ∫ ω, v ω ∂μ ≤ hi / b.ln

omit [IsProbabilityMeasure μ] in
theorem expected_of {u : Ω → ℝ} {r : Ω → Except Exc ℝ} {lo hi : ℝ} (hb : b.Std) (hr : ∀ ω, r ω = .ok (u ω / b.ln)) (hu : Integrable u μ)
    (h1 : lo ≤ ∫ ω, u ω ∂μ) (h2 : ∫ ω, u ω ∂μ ≤ hi) : Expected μ b r lo hi := by
  refine ⟨fun ω => u ω / b.ln, hr, hu.div_const _, ?_, ?_⟩
  · rw [integral_div]; exact div_le_div_of_nonneg_right h1 hb.ln_pos.le
  · rw [integral_div]; exact div_le_div_of_nonneg_right h2 hb.ln_pos.le

theorem eb_entropy_id {α : Type} [DecidableEq α] {X : ℕ → Ω → α} {S : Finset α} {p : α → ℝ} (hM : 0 < M) (h : Sampling μ X S p M) {n : ℕ} (hn : 0 < n) :
    Integrable (fun ω => entropy (observed X n ω)) μ ∧
      ∫ ω, entropy (observed X n ω) ∂μ ≤ shannon S p ∧
      shannon S p - (2 * M - 1) * (S.card - 1) / n ≤ ∫ ω, entropy (observed X n ω) ∂μ := by
  have := eb_entropy hM h (fun a => a) hn
  rw [shannonOf_id] at this
  simpa using this

/-- **C101** `im.entropy` of `n` random observations: on average too small, by at most `(2M − 1)(K − 1)/n`. -/
theorem C101_entropy (h : Call W .h .discrete a kw b) (hb : b.Std) {X : ℕ → Ω → Int} {S : Finset Int} {p : Int → ℝ}
    (hM : 0 < M) (hX : Sampling μ X S p M) (n : ℕ) (hn : 0 < n) :
    Expected μ b (fun ω => imEntropy W [.ints (observed X n ω)] a .absent kw)
      (shannon S p - (2 * M - 1) * (S.card - 1) / n) (shannon S p) := by
  obtain ⟨h1, h2, h3⟩ := eb_entropy_id hM hX hn
  exact expected_of hb (fun ω => C82_entropy .discrete (by simp [simpleFams]) h hb _ (observed_ne X hn ω)) h1 h3 h2

/-- **C101** the Miller–Madow entropy: the average is at most `(K − 1)/(2n)` too large and at most `(2M − 1)(K − 1)/n` too small. -/
theorem C101_entropy_miller_madow (h : Call W .h .millerMadow a kw b) (hb : b.Std) {X : ℕ → Ω → Int} {S : Finset Int} {p : Int → ℝ}
    (hM : 0 < M) (hX : Sampling μ X S p M) (n : ℕ) (hn : 0 < n) :
    Expected μ b (fun ω => imEntropy W [.ints (observed X n ω)] a .absent kw)
      (shannon S p - (2 * M - 1) * (S.card - 1) / n) (shannon S p + (S.card - 1) / (2 * n)) := by
  have hn' : (0 : ℝ) < n := by exact_mod_cast hn
  obtain ⟨h1, h2, h3⟩ := eb_entropy_id hM hX hn
  have hcard : ∀ᵐ ω ∂μ, (((observed X n ω).toFinset.card : ℝ) - 1) / (2 * n) =
      ((∑ c ∈ S, (⋃ i ∈ Finset.range n, {ω | X i ω = c}).indicator (fun _ => (1 : ℝ)) ω) - 1) / (2 * n) := by
    filter_upwards [ae_all_iff.2 hX.mem] with ω hω
    classical
    congr 2
    have e : (observed X n ω).toFinset = S.filter (fun c => ω ∈ ⋃ i ∈ Finset.range n, {ω | X i ω = c}) := by
      ext c
      simp only [observed, List.mem_toFinset, List.mem_map, List.mem_range, Finset.mem_filter, Set.mem_iUnion, Finset.mem_range, Set.mem_ofPred_eq]
      constructor
      · rintro ⟨i, hi, rfl⟩; exact ⟨hω i, i, hi, rfl⟩
      · rintro ⟨_, i, hi, e⟩; exact ⟨i, hi, e⟩
    rw [e, Finset.card_filter]
    push_cast
    exact Finset.sum_congr rfl fun c _ => by simp [Set.indicator]
  have hme : ∀ c ∈ S, MeasurableSet (⋃ i ∈ Finset.range n, {ω | X i ω = c}) := fun c hc =>
    Finset.measurableSet_biUnion _ fun i _ => hX.measurable i c hc
  have hI : Integrable (fun ω => (((observed X n ω).toFinset.card : ℝ) - 1) / (2 * n)) μ := by
    have : Integrable (fun ω => ((∑ c ∈ S, (⋃ i ∈ Finset.range n, {ω | X i ω = c}).indicator (fun _ => (1 : ℝ)) ω) - 1) / (2 * (n : ℝ))) μ :=
      ((integrable_finset_sum _ fun c hc => (integrable_const (1 : ℝ)).indicator (hme c hc)).sub (integrable_const 1)).div_const _
    exact this.congr (hcard.mono fun ω e => e.symm)
  have lo : 0 ≤ ∫ ω, (((observed X n ω).toFinset.card : ℝ) - 1) / (2 * n) ∂μ := by
    refine integral_nonneg fun ω => div_nonneg ?_ (by positivity)
    have : 0 < (observed X n ω).toFinset.card := Finset.card_pos.2 ⟨X 0 ω, by simp only [observed, List.mem_toFinset, List.mem_map]; exact ⟨0, by simpa using hn, rfl⟩⟩
    have : (1 : ℝ) ≤ (observed X n ω).toFinset.card := by exact_mod_cast this
    linarith
  have hi : ∫ ω, (((observed X n ω).toFinset.card : ℝ) - 1) / (2 * n) ∂μ ≤ (S.card - 1) / (2 * n) := by
    have e : ∫ _ : Ω, ((S.card : ℝ) - 1) / (2 * n) ∂μ = (S.card - 1) / (2 * n) := by simp
    rw [← e]
    refine integral_mono_ae hI (integrable_const _) ?_
    filter_upwards [ae_all_iff.2 hX.mem] with ω hω
    have : (observed X n ω).toFinset.card ≤ S.card := Finset.card_le_card fun c hc => by
      simp only [observed, List.mem_toFinset, List.mem_map] at hc
      obtain ⟨i, -, rfl⟩ := hc
      exact hω i
    have : ((observed X n ω).toFinset.card : ℝ) ≤ S.card := by exact_mod_cast this
    gcongr
  have hsum := integral_add h1 hI
  refine expected_of (u := fun ω => entropy (observed X n ω) + (((observed X n ω).toFinset.card : ℝ) - 1) / (2 * n)) hb (fun ω => ?_) (h1.add hI) ?_ ?_
  · rw [C82_entropy .millerMadow (by simp [simpleFams]) h hb _ (observed_ne X hn ω)]
    simp only [entropyFormula, observed_length]
  · rw [hsum]; linarith
  · rw [hsum]; linarith

/-- bound on the mean absolute error (in nats) of the entropy of a function `f` of the observations -/
noncomputable def errorBound {α β : Type} [DecidableEq α] [DecidableEq β] (M n : ℕ) (S : Finset α) (p : α → ℝ) (f : α → β) : ℝ :=
  Real.sqrt ((2 * M - 1) * spreadOf S p f / n) + (2 * M - 1) * ((S.image f).card - 1) / n

/-- **C101** the mean absolute error of `im.entropy` of `n` random observations: the root of `(2M − 1)V/n`, where `V` is the variance of the surprise,
and a term of order `K/n`. -/
theorem C101_entropy_error (h : Call W .h .discrete a kw b) (hb : b.Std) {X : ℕ → Ω → Int} {S : Finset Int} {p : Int → ℝ}
    (hM : 0 < M) (hX : Sampling μ X S p M) (n : ℕ) (hn : 0 < n) :
    ∃ v : Ω → ℝ, (∀ ω, imEntropy W [.ints (observed X n ω)] a .absent kw = .ok (v ω)) ∧ Integrable v μ ∧
      ∫ ω, |v ω - shannon S p / b.ln| ∂μ ≤
        (Real.sqrt ((2 * M - 1) * spreadOf S p (fun x => x) / n) + (2 * M - 1) * (S.card - 1) / n) / b.ln := by
  have h1 := (eb_entropy_id hM hX hn).1
  have h2 := eb_error hM hX (fun x => x) hn
  rw [shannonOf_id] at h2
  simp only [List.map_id', Finset.image_id'] at h2
  refine ⟨fun ω => entropy (observed X n ω) / b.ln, fun ω => C82_entropy .discrete (by simp [simpleFams]) h hb _ (observed_ne X hn ω), h1.div_const _, ?_⟩
  have e : ∀ ω, |entropy (observed X n ω) / b.ln - shannon S p / b.ln| = |entropy (observed X n ω) - shannon S p| / b.ln := fun ω => by
    rw [← sub_div, abs_div, abs_of_pos hb.ln_pos]
  simp only [e]
  rw [integral_div]
  exact div_le_div_of_nonneg_right h2 hb.ln_pos.le

/-- **C101** hence the probability that `im.entropy` of `n` random observations is off by `ε` (in units of the base) or more -/
theorem C101_entropy_confidence (h : Call W .h .discrete a kw b) (hb : b.Std) {X : ℕ → Ω → Int} {S : Finset Int} {p : Int → ℝ}
    (hM : 0 < M) (hX : Sampling μ X S p M) (n : ℕ) (hn : 0 < n) (ε : ℝ) (hε : 0 < ε) :
    μ.real {ω | ∀ v, imEntropy W [.ints (observed X n ω)] a .absent kw = .ok v → ε ≤ |v - shannon S p / b.ln|} ≤
      (Real.sqrt ((2 * M - 1) * spreadOf S p (fun x => x) / n) + (2 * M - 1) * (S.card - 1) / n) / (b.ln * ε) := by
  obtain ⟨v, hv, hI, hle⟩ := C101_entropy_error (μ := μ) h hb hM hX n hn
  have hs : {ω | ∀ u, imEntropy W [.ints (observed X n ω)] a .absent kw = .ok u → ε ≤ |u - shannon S p / b.ln|} =
      {ω | ε ≤ |v ω - shannon S p / b.ln|} := by
    ext ω
    simp only [Set.mem_ofPred_eq, hv ω]
    exact ⟨fun h => h _ rfl, fun h u e => by cases e; exact h⟩
  have hI' : Integrable (fun ω => |v ω - shannon S p / b.ln|) μ := (hI.sub (integrable_const _)).abs
  have := mul_meas_ge_le_integral_of_nonneg (Filter.Eventually.of_forall fun ω => abs_nonneg (v ω - shannon S p / b.ln)) hI' ε
  rw [hs, ← div_div, le_div_iff₀ hε, mul_comm]
  exact this.trans hle

/-- **C101** `im.mutual_information` of `n` random pairs; `Kx`, `Ky`, `K` are the numbers of possible values of the first member, the second member and
the pair. -/
theorem C101_mi (h : Call W .mi .discrete a kw b) (hb : b.Std) (hc : cond.isVal = false) (ho : kwOr kw "offset" (.int 0) = .int 0)
    {X Y : ℕ → Ω → Int} {S : Finset (Int × Int)} {p : Int × Int → ℝ} (hM : 0 < M) (hX : Sampling μ (fun i ω => (X i ω, Y i ω)) S p M)
    (n : ℕ) (hn : 0 < n) (hov : n < 2 ^ 32) :
    Expected μ b (fun ω => imMI W [.ints (observed X n ω), .ints (observed Y n ω)] a cond kw)
      (pairInfo S p - (2 * M - 1) * ((S.image Prod.fst).card - 1 + ((S.image Prod.snd).card - 1)) / n)
      (pairInfo S p + (2 * M - 1) * (S.card - 1) / n) := by
  obtain ⟨x1, x2, x3⟩ := eb_entropy hM hX (fun w => w.1) hn
  obtain ⟨y1, y2, y3⟩ := eb_entropy hM hX (fun w => w.2) hn
  obtain ⟨z1, z2, z3⟩ := eb_entropy_id hM hX hn
  simp only [observed_map] at x1 x2 x3 y1 y2 y3
  have hI : ∫ ω, (entropy (observed X n ω) + entropy (observed Y n ω) - entropy (observed (fun i ω => (X i ω, Y i ω)) n ω)) ∂μ =
      ∫ ω, entropy (observed X n ω) ∂μ + ∫ ω, entropy (observed Y n ω) ∂μ - ∫ ω, entropy (observed (fun i ω => (X i ω, Y i ω)) n ω) ∂μ := by
    have x1y1 : Integrable (fun ω => entropy (observed X n ω) + entropy (observed Y n ω)) μ := x1.add y1
    rw [integral_sub x1y1 z1, integral_add x1 y1]
  refine expected_of (u := fun ω => entropy (observed X n ω) + entropy (observed Y n ω) - entropy (observed (fun i ω => (X i ω, Y i ω)) n ω)) hb
    (fun ω => ?_) ((x1.add y1).sub z1) ?_ ?_
  · rw [C82_mi_two h hb hc ho _ _ (by simp [observed_length]) (observed_ne X hn ω) (by rw [observed_length]; exact hov),
      mi_eq_entropies _ _ (by simp [observed_length]), observed_zip]
  · rw [hI, mul_add, add_div]
    unfold pairInfo
    change _ - (_ * (((S.image (fun w => w.1)).card : ℝ) - 1) / _ + _ * (((S.image (fun w => w.2)).card : ℝ) - 1) / _) ≤ _
    linarith
  · rw [hI]
    unfold pairInfo
    linarith

section triple
variable {A B C : Type} [DecidableEq A] [DecidableEq B] [DecidableEq C]

theorem eb_triple {V : ℕ → Ω → A × B × C} {S : Finset (A × B × C)} {p : A × B × C → ℝ} (hM : 0 < M) (hX : Sampling μ V S p M) {n : ℕ} (hn : 0 < n) :
    let u := fun ω => entropy ((observed V n ω).map (fun w => (w.1, w.2.2))) + entropy ((observed V n ω).map (fun w => w.2)) -
      entropy (observed V n ω) - entropy ((observed V n ω).map (fun w => w.2.2))
    Integrable u μ ∧
      tripleInfo S p - (2 * M - 1) * ((S.image (fun w => (w.1, w.2.2))).card - 1 + ((S.image (fun w => w.2)).card - 1)) / n ≤ ∫ ω, u ω ∂μ ∧
      ∫ ω, u ω ∂μ ≤ tripleInfo S p + (2 * M - 1) * (S.card - 1 + ((S.image (fun w => w.2.2)).card - 1)) / n := by
  intro u
  obtain ⟨x1, x2, x3⟩ := eb_entropy hM hX (fun w => (w.1, w.2.2)) hn
  obtain ⟨y1, y2, y3⟩ := eb_entropy hM hX (fun w => w.2) hn
  obtain ⟨z1, z2, z3⟩ := eb_entropy_id hM hX hn
  obtain ⟨t1, t2, t3⟩ := eb_entropy hM hX (fun w => w.2.2) hn
  have x1y1 : Integrable (fun ω => entropy ((observed V n ω).map (fun w => (w.1, w.2.2))) + entropy ((observed V n ω).map (fun w => w.2))) μ := x1.add y1
  have xyz : Integrable (fun ω => entropy ((observed V n ω).map (fun w => (w.1, w.2.2))) + entropy ((observed V n ω).map (fun w => w.2)) -
    entropy (observed V n ω)) μ := x1y1.sub z1
  have hI : ∫ ω, u ω ∂μ = ∫ ω, entropy ((observed V n ω).map (fun w => (w.1, w.2.2))) ∂μ + ∫ ω, entropy ((observed V n ω).map (fun w => w.2)) ∂μ -
      ∫ ω, entropy (observed V n ω) ∂μ - ∫ ω, entropy ((observed V n ω).map (fun w => w.2.2)) ∂μ := by
    rw [← integral_add x1 y1, ← integral_sub x1y1 z1, ← integral_sub xyz t1]
  refine ⟨xyz.sub t1, ?_, ?_⟩
  · rw [hI, mul_add, add_div]
    unfold tripleInfo
    linarith
  · rw [hI, mul_add, add_div]
    unfold tripleInfo
    linarith

theorem eb_triple_error {V : ℕ → Ω → A × B × C} {S : Finset (A × B × C)} {p : A × B × C → ℝ} (hM : 0 < M) (hX : Sampling μ V S p M) {n : ℕ} (hn : 0 < n)
    {c : ℝ} (hc : 0 < c) :
    let u := fun ω => (entropy ((observed V n ω).map (fun w => (w.1, w.2.2))) + entropy ((observed V n ω).map (fun w => w.2)) -
      entropy (observed V n ω) - entropy ((observed V n ω).map (fun w => w.2.2))) / c
    Integrable u μ ∧ ∫ ω, |u ω - tripleInfo S p / c| ∂μ ≤
      (errorBound M n S p (fun w => (w.1, w.2.2)) + errorBound M n S p (fun w => w.2) + errorBound M n S p (fun w => w) +
        errorBound M n S p (fun w => w.2.2)) / c := by
  intro u
  have x1 := (eb_entropy hM hX (fun w => (w.1, w.2.2)) hn).1
  have y1 := (eb_entropy hM hX (fun w => w.2) hn).1
  have z1 := (eb_entropy hM hX (fun w => w) hn).1
  have t1 := (eb_entropy hM hX (fun w => w.2.2) hn).1
  have x2 := eb_error hM hX (fun w => (w.1, w.2.2)) hn
  have y2 := eb_error hM hX (fun w => w.2) hn
  have z2 := eb_error hM hX (fun w => w) hn
  have t2 := eb_error hM hX (fun w => w.2.2) hn
  simp only [List.map_id'] at z1 z2
  have x3 := (x1.sub (integrable_const (shannonOf S p (fun w => (w.1, w.2.2))))).abs
  have y3 := (y1.sub (integrable_const (shannonOf S p (fun w => w.2)))).abs
  have z3 := (z1.sub (integrable_const (shannonOf S p (fun w => w)))).abs
  have t3 := (t1.sub (integrable_const (shannonOf S p (fun w => w.2.2)))).abs
  have hI : Integrable u μ := (((x1.add y1).sub z1).sub t1).div_const _
  refine ⟨hI, ?_⟩
  have hp : tripleInfo S p = shannonOf S p (fun w => (w.1, w.2.2)) + shannonOf S p (fun w => w.2) - shannonOf S p (fun w => w) -
      shannonOf S p (fun w => w.2.2) := by
    rw [shannonOf_id]; rfl
  have key := integral_mono (hI.sub (integrable_const (tripleInfo S p / c))).abs ((((x3.add y3).add z3).add t3).div_const c) (fun ω => by
    simp only [Pi.sub_apply, Pi.add_apply, u]
    rw [← sub_div, abs_div, abs_of_pos hc, hp]
    refine div_le_div_of_nonneg_right ?_ hc.le
    refine le_trans (le_of_eq ?_) ((abs_sub _ _).trans (add_le_add_left ((abs_sub _ _).trans (add_le_add_left (abs_add_le _ _) _)) _))
    congr 1
    ring)
  refine key.trans ?_
  rw [integral_div]
  refine div_le_div_of_nonneg_right ?_ hc.le
  have a1 := integral_add x3 y3
  have a2 := integral_add (x3.add y3) z3
  have a3 := integral_add ((x3.add y3).add z3) t3
  simp only [Pi.add_apply, Pi.sub_apply] at a1 a2 a3 ⊢
  rw [a3, a2, a1]
  exact add_le_add (add_le_add (add_le_add x2 y2) z2) t2

end triple

/-- bound on the mean absolute error of a conditional measure: the errors of its four entropies -/
noncomputable def tripleError {A B C : Type} [DecidableEq A] [DecidableEq B] [DecidableEq C] (M n : ℕ) (S : Finset (A × B × C)) (p : A × B × C → ℝ) : ℝ :=
  errorBound M n S p (fun w => (w.1, w.2.2)) + errorBound M n S p (fun w => w.2) + errorBound M n S p (fun w => w) + errorBound M n S p (fun w => w.2.2)

/-- **C101** the mean absolute error of `im.mutual_information` of `n` random pairs is at most the sum of the errors of its three entropies -/
theorem C101_mi_error (h : Call W .mi .discrete a kw b) (hb : b.Std) (hc : cond.isVal = false) (ho : kwOr kw "offset" (.int 0) = .int 0)
    {X Y : ℕ → Ω → Int} {S : Finset (Int × Int)} {p : Int × Int → ℝ} (hM : 0 < M) (hX : Sampling μ (fun i ω => (X i ω, Y i ω)) S p M)
    (n : ℕ) (hn : 0 < n) (hov : n < 2 ^ 32) :
    ∃ v : Ω → ℝ, (∀ ω, imMI W [.ints (observed X n ω), .ints (observed Y n ω)] a cond kw = .ok (v ω)) ∧ Integrable v μ ∧
      ∫ ω, |v ω - pairInfo S p / b.ln| ∂μ ≤
        (errorBound M n S p Prod.fst + errorBound M n S p Prod.snd + errorBound M n S p (fun w => w)) / b.ln := by
  have x1 := (eb_entropy hM hX (fun w => w.1) hn).1
  have y1 := (eb_entropy hM hX (fun w => w.2) hn).1
  have z1 := (eb_entropy hM hX (fun w => w) hn).1
  have x2 := eb_error hM hX (fun w => w.1) hn
  have y2 := eb_error hM hX (fun w => w.2) hn
  have z2 := eb_error hM hX (fun w => w) hn
  simp only [List.map_id'] at z1 z2
  have x3 := (x1.sub (integrable_const (shannonOf S p (fun w => w.1)))).abs
  have y3 := (y1.sub (integrable_const (shannonOf S p (fun w => w.2)))).abs
  have z3 := (z1.sub (integrable_const (shannonOf S p (fun w => w)))).abs
  have hI : Integrable (fun ω => (entropy ((observed (fun i ω => (X i ω, Y i ω)) n ω).map (fun w => w.1)) +
      entropy ((observed (fun i ω => (X i ω, Y i ω)) n ω).map (fun w => w.2)) - entropy (observed (fun i ω => (X i ω, Y i ω)) n ω)) / b.ln) μ :=
    ((x1.add y1).sub z1).div_const _
  refine ⟨_, fun ω => ?_, hI, ?_⟩
  · rw [C82_mi_two h hb hc ho _ _ (by simp [observed_length]) (observed_ne X hn ω) (by rw [observed_length]; exact hov),
      mi_eq_entropies _ _ (by simp [observed_length]), observed_zip]
    simp only [observed_map]
  · have hp : pairInfo S p = shannonOf S p (fun w => w.1) + shannonOf S p (fun w => w.2) - shannonOf S p (fun w => w) := by
      rw [shannonOf_id]; rfl
    have key := integral_mono (hI.sub (integrable_const (pairInfo S p / b.ln))).abs (((x3.add y3).add z3).div_const b.ln) (fun ω => by
      simp only [Pi.sub_apply, Pi.add_apply]
      rw [← sub_div, abs_div, abs_of_pos hb.ln_pos, hp]
      refine div_le_div_of_nonneg_right ?_ hb.ln_pos.le
      refine le_trans (le_of_eq ?_) ((abs_sub _ _).trans (add_le_add_left (abs_add_le _ _) _))
      congr 1
      ring)
    refine key.trans ?_
    rw [integral_div]
    refine div_le_div_of_nonneg_right ?_ hb.ln_pos.le
    simp only [Pi.add_apply]
    have a1 := integral_add x3 y3
    have a2 := integral_add (x3.add y3) z3
    simp only [Pi.add_apply, Pi.sub_apply] at a1 a2 ⊢
    rw [a2, a1]
    exact add_le_add (add_le_add x2 y2) z2

/-- **C101** `im.conditional_mutual_information` of `n` random triples, also through `im.mutual_information(…, cond=…)` -/
theorem C101_cmi (h : Call W .cmi .discrete a kw b) (hb : b.Std) (ho : kwOr kw "offset" (.int 0) = .int 0)
    {X Y Z : ℕ → Ω → Int} {S : Finset (Int × Int × Int)} {p : Int × Int × Int → ℝ} (hM : 0 < M)
    (hX : Sampling μ (fun i ω => (X i ω, Y i ω, Z i ω)) S p M) (n : ℕ) (hn : 0 < n) (hov : n < 2 ^ 32) :
    let lo := tripleInfo S p - (2 * M - 1) * ((S.image (fun w => (w.1, w.2.2))).card - 1 + ((S.image (fun w => w.2)).card - 1)) / n
    let hi := tripleInfo S p + (2 * M - 1) * (S.card - 1 + ((S.image (fun w => w.2.2)).card - 1)) / n
    Expected μ b (fun ω => imCMI W [.ints (observed X n ω), .ints (observed Y n ω)] a (.val (.ints (observed Z n ω))) kw) lo hi ∧
      Expected μ b (fun ω => imMI W [.ints (observed X n ω), .ints (observed Y n ω)] a (.val (.ints (observed Z n ω))) kw) lo hi := by
  intro lo hi
  obtain ⟨h1, h2, h3⟩ := eb_triple hM hX hn
  have e : ∀ ω, CmiIs W [.ints (observed X n ω), .ints (observed Y n ω)] a (.ints (observed Z n ω)) kw
      (.ok ((entropy ((observed (fun i ω => (X i ω, Y i ω, Z i ω)) n ω).map (fun w => (w.1, w.2.2))) +
        entropy ((observed (fun i ω => (X i ω, Y i ω, Z i ω)) n ω).map (fun w => w.2)) - entropy (observed (fun i ω => (X i ω, Y i ω, Z i ω)) n ω) -
        entropy ((observed (fun i ω => (X i ω, Y i ω, Z i ω)) n ω).map (fun w => w.2.2))) / b.ln)) := by
    intro ω
    have := C82_cmi h hb.valid ho (observed X n ω) (observed Y n ω) (observed Z n ω) (by simp [observed_length]) (by simp [observed_length])
      (observed_ne X hn ω) (by rw [observed_length]; exact hov)
    rw [cmi_eq_entropies _ _ _ (by simp [observed_length]) (by simp [observed_length])] at this
    simp only [observed_zip] at this
    simp only [observed_map]
    exact this
  exact ⟨expected_of hb (fun ω => (e ω).1) h1 h2 h3, expected_of hb (fun ω => (e ω).2) h1 h2 h3⟩

/-- **C101** `im.transfer_entropy` of two random series of length `n`: the windows (future of the target, history of the source, history of the target)
are the observations; `R` is their number. -/
theorem C101_te (h : Call W .te .discrete a kw b) (hb : b.Std) (hc : cond.isVal = false) (hh : History kw l k s) (hs : 0 < s) (hl : 0 < l) (hk : 0 < k)
    {X Y : ℕ → Ω → Int} {S : Finset (List Int × List Int × List Int)} {p : List Int × List Int × List Int → ℝ}
    (hM : 0 < M) (hX : Sampling μ (teWindow X Y l k s) S p M) (n : ℕ) (hn : max k l * s < n) (hov : n < 2 ^ 32) :
    let R := numRows n (max k l) s
    Expected μ b (fun ω => imTE W [.ints (observed X n ω), .ints (observed Y n ω)] a cond kw)
      (tripleInfo S p - (2 * M - 1) * ((S.image (fun w => (w.1, w.2.2))).card - 1 + ((S.image (fun w => w.2)).card - 1)) / R)
      (tripleInfo S p + (2 * M - 1) * (S.card - 1 + ((S.image (fun w => w.2.2)).card - 1)) / R) := by
  intro R
  obtain ⟨h1, h2, h3⟩ := eb_triple hM hX (numRows_pos hs hn)
  refine expected_of hb (fun ω => ?_) h1 h2 h3
  have ex : (observed X n ω).length = n := observed_length X n ω
  have ey : (observed Y n ω).length = n := observed_length Y n ω
  have e := C82_te h hb.valid hc hh hs hl hk (observed X n ω) (observed Y n ω) (by rw [ex]; exact hn) (ex.trans ey.symm) (by rw [ey]; exact hov)
  rw [e, ey, fut_observed Y hs, hist_observed Y hs n _ k (le_max_left _ _), hist_observed X hs n _ l (le_max_right _ _),
    cmi_eq_entropies _ _ _ (by simp [observed_length]) (by simp [observed_length])]
  simp only [observed_zip, observed_map]
  rfl

/-- **C101** the mean absolute error of `im.conditional_mutual_information` of `n` random triples -/
theorem C101_cmi_error (h : Call W .cmi .discrete a kw b) (hb : b.Std) (ho : kwOr kw "offset" (.int 0) = .int 0)
    {X Y Z : ℕ → Ω → Int} {S : Finset (Int × Int × Int)} {p : Int × Int × Int → ℝ} (hM : 0 < M)
    (hX : Sampling μ (fun i ω => (X i ω, Y i ω, Z i ω)) S p M) (n : ℕ) (hn : 0 < n) (hov : n < 2 ^ 32) :
    ∃ v : Ω → ℝ, (∀ ω, imCMI W [.ints (observed X n ω), .ints (observed Y n ω)] a (.val (.ints (observed Z n ω))) kw = .ok (v ω)) ∧ Integrable v μ ∧
      ∫ ω, |v ω - tripleInfo S p / b.ln| ∂μ ≤ tripleError M n S p / b.ln := by
  obtain ⟨h1, h2⟩ := eb_triple_error hM hX hn hb.ln_pos
  refine ⟨_, fun ω => ?_, h1, h2⟩
  have := (C82_cmi h hb.valid ho (observed X n ω) (observed Y n ω) (observed Z n ω) (by simp [observed_length]) (by simp [observed_length])
    (observed_ne X hn ω) (by rw [observed_length]; exact hov)).1
  rw [cmi_eq_entropies _ _ _ (by simp [observed_length]) (by simp [observed_length])] at this
  simp only [observed_zip] at this
  simp only [observed_map]
  exact this

/-- **C101** the mean absolute error of `im.transfer_entropy` of two random series of length `n` (`R` windows) -/
theorem C101_te_error (h : Call W .te .discrete a kw b) (hb : b.Std) (hc : cond.isVal = false) (hh : History kw l k s) (hs : 0 < s) (hl : 0 < l) (hk : 0 < k)
    {X Y : ℕ → Ω → Int} {S : Finset (List Int × List Int × List Int)} {p : List Int × List Int × List Int → ℝ}
    (hM : 0 < M) (hX : Sampling μ (teWindow X Y l k s) S p M) (n : ℕ) (hn : max k l * s < n) (hov : n < 2 ^ 32) :
    let R := numRows n (max k l) s
    ∃ v : Ω → ℝ, (∀ ω, imTE W [.ints (observed X n ω), .ints (observed Y n ω)] a cond kw = .ok (v ω)) ∧ Integrable v μ ∧
      ∫ ω, |v ω - tripleInfo S p / b.ln| ∂μ ≤ tripleError M R S p / b.ln := by
  intro R
  obtain ⟨h1, h2⟩ := eb_triple_error hM hX (numRows_pos hs hn) hb.ln_pos
  refine ⟨_, fun ω => ?_, h1, h2⟩
  have ex : (observed X n ω).length = n := observed_length X n ω
  have ey : (observed Y n ω).length = n := observed_length Y n ω
  have e := C82_te h hb.valid hc hh hs hl hk (observed X n ω) (observed Y n ω) (by rw [ex]; exact hn) (ex.trans ey.symm) (by rw [ey]; exact hov)
  rw [e, ey, fut_observed Y hs, hist_observed Y hs n _ k (le_max_left _ _), hist_observed X hs n _ l (le_max_right _ _),
    cmi_eq_entropies _ _ _ (by simp [observed_length]) (by simp [observed_length])]
  simp only [observed_zip, observed_map]
  rfl

end Verif
