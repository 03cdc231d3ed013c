import Verif.Props.AlmostSureDiv

/-!
# C83, C104: the Miller–Madow cross-entropy and divergence
-/

namespace Verif

namespace Spec

/-- the Miller–Madow correction of a cross-entropy: `((K₁ + K₂)/2 − 1)/(N₁ + N₂)` if the samples share a symbol, nothing otherwise -/
noncomputable def crossCorrection {α : Type} [DecidableEq α] (xs ys : List α) : ℝ :=
  if ∃ a ∈ xs, a ∈ ys then (((xs.toFinset.card : ℝ) + ys.toFinset.card) / 2 - 1) / ((xs.length : ℝ) + ys.length) else 0

end Spec

open Spec MeasureTheory ProbabilityTheory

theorem divmm_common {α : Type} [DecidableEq α] (xs ys : List α) : xs.toFinset ∩ ys.toFinset ≠ ∅ ↔ ∃ a ∈ xs, a ∈ ys := by
  rw [← Finset.nonempty_iff_ne_empty]
  simp [Finset.Nonempty, Finset.mem_inter]

theorem divmm_cross (xs ys : List Int) {b : Base} (hb : b.Valid) :
    mmCross b (mkData xs) (mkData ys) = .ok ((crossEntropy xs ys + crossCorrection xs ys) / b.ln) := by
  unfold crossCorrection
  by_cases h : xs.toFinset ∩ ys.toFinset = ∅
  · rw [if_neg fun h' => (divmm_common xs ys).2 h' h, mmCross]
    simp only [mkData_uniq]
    simp only [(common_length xs ys).2 h, if_true]
    simp [crossEntropy, h]
  · rw [if_pos ((divmm_common xs ys).1 h), mmCross_ok xs ys hb h]

section
variable {W : World} {a : PyName} {kw : Kw} {b : Base}

/-- **C83** `im.cross_entropy(x, y, approach="miller_madow")` is the plug-in cross-entropy plus the correction, and 0 for samples without a common
symbol. -/
theorem C83_cross_entropy_mm (h : Call W .h .millerMadow a kw b) (hb : b.Valid) (xs ys : List Int) (hx : xs ≠ []) (hy : ys ≠ []) :
    imCrossEntropy W [.ints xs, .ints ys] a .absent kw = .ok ((crossEntropy xs ys + crossCorrection xs ys) / b.ln) ∧
      ((∀ c ∈ xs, c ∉ ys) → imCrossEntropy W [.ints xs, .ints ys] a .absent kw = .ok 0) := by
  have hm : [PyData.ints xs, PyData.ints ys].mapM PyData.toEInput = some [.arr1 xs, .arr1 ys] := rfl
  have e : imCrossEntropy W [.ints xs, .ints ys] a .absent kw = .ok ((crossEntropy xs ys + crossCorrection xs ys) / b.ln) := by
    rw [(e2e_h_millerMadow h.name h.accepted h.base hm).2 (by simp)]
    simp only [DClass.globalVal, discreteHInit_pair hx hy, bind, Except.bind, entropyDispatch, DClass.cross]
    exact divmm_cross xs ys hb
  refine ⟨e, fun hd => ?_⟩
  have h0 : xs.toFinset ∩ ys.toFinset = ∅ := by
    by_contra hne
    obtain ⟨c, hc, hc'⟩ := (divmm_common xs ys).1 hne
    exact hd c hc hc'
  rw [e, crossEntropy, h0, crossCorrection, if_neg fun ⟨c, hc, hc'⟩ => hd c hc hc']
  simp

/-- **C83** `im.kld(x, y, approach="miller_madow")`: the difference of the corrected cross-entropy and the corrected entropy.  For samples of the same
size with a common symbol it differs from the plug-in divergence by `(K_y − K_x)/(4 N)`. -/
theorem C83_kld_mm (h : Call W .h .millerMadow a kw b) (hb : b.Valid) (xs ys : List Int) (hx : xs ≠ []) (hy : ys ≠ []) :
    imKld W (.ints xs) (.ints ys) (some a) .absent kw = .ok ((crossEntropy xs ys + crossCorrection xs ys - millerMadow xs) / b.ln) ∧
      (xs.length = ys.length → (∃ c ∈ xs, c ∈ ys) → imKld W (.ints xs) (.ints ys) (some a) .absent kw =
        .ok ((crossEntropy xs ys - entropy xs + ((ys.toFinset.card : ℝ) - xs.toFinset.card) / (4 * xs.length)) / b.ln)) := by
  have e : imKld W (.ints xs) (.ints ys) (some a) .absent kw = .ok ((crossEntropy xs ys + crossCorrection xs ys - millerMadow xs) / b.ln) := by
    refine kld_of_values h.name (by decide) ?_
    have e1 := (e2e_h_millerMadow h.name h.accepted h.base (data := [.ints xs]) (xs := [.arr1 xs]) rfl).1
    have e2 : DClass.millerMadow.globalVal b [.arr1 xs] = mmSimple b (mkData xs) := by
      simp only [DClass.globalVal, discreteHInit_arr1 hx, bind, Except.bind, entropyDispatch, DClass.simple]
    rw [(C83_cross_entropy_mm h hb xs ys hx hy).1, e1, e2, mmSimple_ok xs hb]
    simp only [bind, Except.bind, pure, Except.pure, sub_div]
  refine ⟨e, fun hl hc => ?_⟩
  rw [e, crossCorrection, if_pos hc, millerMadow, ← hl]
  congr 2
  have hN := length_pos_real hx
  field_simp
  ring

end

section
variable {Ω : Type} [MeasurableSpace Ω] {μ : Measure Ω} [IsProbabilityMeasure μ] {M M' : ℕ}
variable {W : World} {a : PyName} {kw : Kw} {b : Base}

theorem divmm_card {α : Type} [DecidableEq α] {S : Finset α} {xs : List α} (h : ∀ c ∈ xs, c ∈ S) : (xs.toFinset.card : ℝ) ≤ S.card := by
  exact_mod_cast Finset.card_le_card fun c hc => h c (List.mem_toFinset.1 hc)

theorem divmm_correction {α : Type} [DecidableEq α] {S : Finset α} {L L' : ℕ → List α} (h : ∀ n, ∀ c ∈ L n, c ∈ S) (h' : ∀ n, ∀ c ∈ L' n, c ∈ S)
    (hl : ∀ n, (L n).length = n) (hl' : ∀ n, (L' n).length = n) :
    Filter.Tendsto (fun n => crossCorrection (L n) (L' n)) Filter.atTop (nhds 0) := by
  have lim : Filter.Tendsto (fun n : ℕ => (S.card : ℝ) / n) Filter.atTop (nhds 0) := tendsto_const_div_atTop_nhds_zero_nat _
  refine squeeze_zero' (Filter.Eventually.of_forall fun n => ?_) ?_ lim
  · unfold crossCorrection
    split_ifs with hc
    · obtain ⟨c, hc, hc'⟩ := hc
      have := cardR_pos hc
      have := cardR_pos hc'
      refine div_nonneg (by linarith) (by positivity)
    · exact le_rfl
  · filter_upwards [Filter.eventually_gt_atTop 0] with n hn
    have hn' : (0 : ℝ) < n := by exact_mod_cast hn
    unfold crossCorrection
    split_ifs with hc
    · rw [hl, hl']
      have := divmm_card (h n)
      have := divmm_card (h' n)
      have h0 : (0 : ℝ) ≤ S.card := by positivity
      refine div_le_div₀ h0 (by linarith) hn' (by linarith)
    · positivity

/-- **C104** The Miller–Madow cross-entropy and divergence converge almost surely to the same limits as the plug-in ones. -/
theorem C104_cross_entropy_mm (h : Call W .h .millerMadow a kw b) (hb : b.Valid) {X Y : ℕ → Ω → Int} {S : Finset Int} {p q : Int → ℝ}
    (hM : 0 < M) (hX : Sampling μ X S p M) (hM' : 0 < M') (hY : Sampling μ Y S q M') :
    ∀ᵐ ω ∂μ, ∃ v : ℕ → ℝ, (∀ n, 0 < n → imCrossEntropy W [.ints (observed X n ω), .ints (observed Y n ω)] a .absent kw = .ok (v n)) ∧
      Filter.Tendsto v Filter.atTop (nhds (crossOf S p q / b.ln)) := by
  filter_upwards [as_freq hM hX, as_freq hM' hY, asd_zero hY] with ω hx hy h0
  refine ⟨fun n => _, fun n hn => (C83_cross_entropy_mm h hb _ _ (observed_ne X hn ω) (observed_ne Y hn ω)).1, ?_⟩
  have := (asd_cross_tendsto hx.1 hx.2 hy.2 h0).add (divmm_correction hx.1 hy.1 (fun n => observed_length X n ω) fun n => observed_length Y n ω)
  rw [add_zero] at this
  exact this.div_const _

theorem C104_kld_mm (h : Call W .h .millerMadow a kw b) (hb : b.Valid) {X Y : ℕ → Ω → Int} {S : Finset Int} {p q : Int → ℝ}
    (hM : 0 < M) (hX : Sampling μ X S p M) (hM' : 0 < M') (hY : Sampling μ Y S q M') :
    (∀ᵐ ω ∂μ, ∃ v : ℕ → ℝ, (∀ n, 0 < n → imKld W (.ints (observed X n ω)) (.ints (observed Y n ω)) (some a) .absent kw = .ok (v n)) ∧
      Filter.Tendsto v Filter.atTop (nhds ((crossOf S p q - shannon S p) / b.ln))) ∧
    ((∀ a ∈ S, p a ≠ 0 → q a ≠ 0) → crossOf S p q - shannon S p = klOf S p q ∧ 0 ≤ klOf S p q ∧ (klOf S p q = 0 ↔ ∀ a ∈ S, p a = q a)) := by
  refine ⟨?_, C104_kl_limit hX hY⟩
  filter_upwards [as_freq hM hX, as_freq hM' hY, asd_zero hY] with ω hx hy h0
  refine ⟨fun n => _, fun n hn => (C83_kld_mm h hb _ _ (observed_ne X hn ω) (observed_ne Y hn ω)).1, ?_⟩
  have t1 := (asd_cross_tendsto hx.1 hx.2 hy.2 h0).add (divmm_correction hx.1 hy.1 (fun n => observed_length X n ω) fun n => observed_length Y n ω)
  rw [add_zero] at t1
  exact (t1.sub (near_tendsto_id hx.1 hx.2 (observed_tendsto _ ω) near_mm)).div_const _

end

example := (C83_kld_mm (b := .num 2) (call "MM", [("base", .int 2)]) (by norm_num [Base.Valid]) [5, 7, 5] [7, 9, 8] (by decide) (by decide)).2 rfl ⟨7, by decide⟩
example := (C83_cross_entropy_mm (b := .e) (call "MM", []) trivial [5, 7, 5] [1, 2] (by decide) (by decide)).2 (by decide)
example := C104_kld_mm (b := .num 2) (call "MM", [("base", .int 2)]) (by norm_num [Base.Valid]) one_pos (C94_iid asdEx_fst) one_pos (C94_iid asdEx_both)
example := C104_cross_entropy_mm (b := .e) (call "MM", []) trivial one_pos (C94_iid asdEx_fst) one_pos (C94_iid asdEx_both)

end Verif
