import Verif.Props.ExpectedBias
import Verif.Props.AlmostSureEx

/-!
# C101, continued: conditional transfer entropy
-/

namespace Verif

open Spec MeasureTheory ProbabilityTheory

variable {Ω : Type} [MeasurableSpace Ω] {μ : Measure Ω} [IsProbabilityMeasure μ] {M : ℕ}
variable {W : World} {a : PyName} {kw : Kw} {b : Base} {l k c s : ℕ}

/-- **C101** `im.conditional_transfer_entropy` (also as `im.transfer_entropy(…, cond=…)`) of random series of length `n` (`R` windows): its expectation -/
theorem C101_cte (h : Call W .cte .discrete a kw b) (hb : b.Std) (hh : History kw l k s) (hcd : kwOr kw "cond_hist_len" (.int 1) = .int c)
    (hs : 0 < s) (hl : 0 < l) (hk : 0 < k) (hc : 0 < c) {X Y Z : ℕ → Ω → Int}
    {S : Finset (List Int × List Int × List Int × List Int)} {p : List Int × List Int × List Int × List Int → ℝ}
    (hM : 0 < M) (hX : Sampling μ (cteWindow X Y Z l k c s) S p M) (n : ℕ) (hn : max (max k l) c * s < n) (hov : n < 2 ^ 32) :
    let R := numRows n (max (max k l) c) s
    let lo := tripleInfo S p - (2 * M - 1) * ((S.image (fun w => (w.1, w.2.2))).card - 1 + ((S.image (fun w => w.2)).card - 1)) / R
    let hi := tripleInfo S p + (2 * M - 1) * (S.card - 1 + ((S.image (fun w => w.2.2)).card - 1)) / R
    Expected μ b (fun ω => imCTE W [.ints (observed X n ω), .ints (observed Y n ω)] a (.val (.ints (observed Z n ω))) kw) lo hi ∧
      Expected μ b (fun ω => imTE W [.ints (observed X n ω), .ints (observed Y n ω)] a (.val (.ints (observed Z n ω))) kw) lo hi := by
  intro R lo hi
  obtain ⟨h1, h2, h3⟩ := eb_triple hM hX (numRows_pos hs hn)
  have key : ∀ ω, CteIs W (.ints (observed X n ω)) (.ints (observed Y n ω)) a (.ints (observed Z n ω)) kw
      (.ok ((entropy ((observed (cteWindow X Y Z l k c s) R ω).map (fun w => (w.1, w.2.2))) +
        entropy ((observed (cteWindow X Y Z l k c s) R ω).map (fun w => w.2)) - entropy (observed (cteWindow X Y Z l k c s) R ω) -
        entropy ((observed (cteWindow X Y Z l k c s) R ω).map (fun w => w.2.2))) / b.ln)) := by
    intro ω
    have ex : (observed X n ω).length = n := observed_length X n ω
    have ey : (observed Y n ω).length = n := observed_length Y n ω
    have ez : (observed Z n ω).length = n := observed_length Z n ω
    have e := C82_cte h hb hh hcd hs hl hk hc (observed X n ω) (observed Y n ω) (observed Z n ω) (by rw [ex]; exact hn) (ex.trans ey.symm)
      (ez.trans ey.symm) (by rw [ey]; exact hov)
    simp only [ey] at e
    rw [fut_observed Y hs, hist_observed Y hs n _ k (by omega), hist_observed X hs n _ l (by omega), hist_observed Z hs n _ c (by omega), observed_zip,
      cmi_eq_entropies _ _ _ (by simp [observed_length]) (by simp [observed_length])] at e
    simp only [observed_zip] at e
    simp only [observed_map]
    exact e
  exact ⟨expected_of hb (fun ω => (key ω).1) h1 h2 h3, expected_of hb (fun ω => (key ω).2) h1 h2 h3⟩

/-- **C101** its mean absolute error -/
theorem C101_cte_error (h : Call W .cte .discrete a kw b) (hb : b.Std) (hh : History kw l k s) (hcd : kwOr kw "cond_hist_len" (.int 1) = .int c)
    (hs : 0 < s) (hl : 0 < l) (hk : 0 < k) (hc : 0 < c) {X Y Z : ℕ → Ω → Int}
    {S : Finset (List Int × List Int × List Int × List Int)} {p : List Int × List Int × List Int × List Int → ℝ}
    (hM : 0 < M) (hX : Sampling μ (cteWindow X Y Z l k c s) S p M) (n : ℕ) (hn : max (max k l) c * s < n) (hov : n < 2 ^ 32) :
    let R := numRows n (max (max k l) c) s
    ∃ v : Ω → ℝ, (∀ ω, CteIs W (.ints (observed X n ω)) (.ints (observed Y n ω)) a (.ints (observed Z n ω)) kw (.ok (v ω))) ∧ Integrable v μ ∧
      ∫ ω, |v ω - tripleInfo S p / b.ln| ∂μ ≤ tripleError M R S p / b.ln := by
  intro R
  obtain ⟨h1, h2⟩ := eb_triple_error hM hX (numRows_pos hs hn) hb.ln_pos
  refine ⟨_, fun ω => ?_, h1, h2⟩
  have ex : (observed X n ω).length = n := observed_length X n ω
  have ey : (observed Y n ω).length = n := observed_length Y n ω
  have ez : (observed Z n ω).length = n := observed_length Z n ω
  have e := C82_cte h hb hh hcd hs hl hk hc (observed X n ω) (observed Y n ω) (observed Z n ω) (by rw [ex]; exact hn) (ex.trans ey.symm)
    (ez.trans ey.symm) (by rw [ey]; exact hov)
  simp only [ey] at e
  rw [fut_observed Y hs, hist_observed Y hs n _ k (by omega), hist_observed X hs n _ l (by omega), hist_observed Z hs n _ c (by omega), observed_zip,
    cmi_eq_entropies _ _ _ (by simp [observed_length]) (by simp [observed_length])] at e
  simp only [observed_zip] at e
  simp only [observed_map]
  exact e

example : True := by
  obtain ⟨T, p, h⟩ := asEx_cond
  have := C101_cte (b := .e) (l := 1) (k := 1) (s := 1) (c := 1) (call "discrete", []) trivial
    ⟨by kw, by kw, by kw, by kw, by kw⟩ (by kw) one_pos one_pos one_pos one_pos two_pos h 10 (by norm_num) (by norm_num)
  have := C101_cte_error (b := .num 2) (l := 1) (k := 1) (s := 1) (c := 1) (call "discrete", [("base", .int 2)]) (by norm_num [Base.Std])
    ⟨by kw, by kw, by kw, by kw, by kw⟩ (by kw) one_pos one_pos one_pos one_pos two_pos h 10 (by norm_num) (by norm_num)
  trivial

end Verif
