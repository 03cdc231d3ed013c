import Verif.Props.ExpectedBias
import Verif.Props.AlmostSureEx

/-!
# C101: concrete random sequences that meet the hypotheses
-/

namespace Verif

open Spec MeasureTheory ProbabilityTheory

example := C101_entropy (b := .e) (call "discrete", []) trivial one_pos (C94_iid asEx_coin) 10 (by norm_num)
example := C101_entropy_miller_madow (b := .num 2) (call "MM", [("base", .int 2)]) (by norm_num [Base.Std]) one_pos (C94_iid asEx_coin) 10 (by norm_num)
example := C101_entropy_error (b := .e) (call "discrete", []) trivial one_pos (C94_iid asEx_coin) 10 (by norm_num)
example := C101_entropy_confidence (b := .num 2) (call "discrete", [("base", .int 2)]) (by norm_num [Base.Std]) one_pos (C94_iid asEx_coin) 1000 (by norm_num)
  (1 / 10) (by norm_num)
example := C101_mi (b := .e) (cond := .absent) (call "discrete", []) trivial rfl (by kw) one_pos (C94_iid asEx_pairs) 10 (by norm_num) (by norm_num)
example := C101_mi_error (b := .e) (cond := .absent) (call "discrete", []) trivial rfl (by kw) one_pos (C94_iid asEx_pairs) 10 (by norm_num) (by norm_num)
example := C101_cmi (b := .e) (call "discrete", []) trivial (by kw) one_pos (C94_iid asEx_triples) 10 (by norm_num) (by norm_num)
example := C101_cmi_error (b := .e) (call "discrete", []) trivial (by kw) one_pos (C94_iid asEx_triples) 10 (by norm_num) (by norm_num)
example := C101_te_error (b := .e) (cond := .absent) (l := 1) (k := 1) (s := 1) (call "discrete", []) trivial rfl
  ⟨by kw, by kw, by kw, by kw, by kw⟩ one_pos one_pos one_pos two_pos asEx_copy 10 (by norm_num) (by norm_num)
example := C101_te (b := .e) (cond := .absent) (l := 1) (k := 1) (s := 1) (call "discrete", []) trivial rfl
  ⟨by kw, by kw, by kw, by kw, by kw⟩ one_pos one_pos one_pos two_pos asEx_copy 10 (by norm_num) (by norm_num)

/-- the entropy in bits of `n` tosses of a fair coin is on average between `1 − 1/(n log 2)` and `1` -/
example (n : ℕ) (hn : 0 < n) : ∃ v : (ℕ → Bool) → ℝ,
    (∀ ω, imEntropy demo [.ints (observed (fun i ω => asFace (ω i)) n ω)] (.str "discrete") .absent (kwList [("base", .int 2)]) = .ok (v ω)) ∧
      1 - 1 / (n * Real.log 2) ≤ ∫ ω, v ω ∂asTosses ∧ ∫ ω, v ω ∂asTosses ≤ 1 := by
  obtain ⟨v, h1, -, h2, h3⟩ := C101_entropy (b := .num 2) (call "discrete", [("base", .int 2)]) (by norm_num [Base.Std]) one_pos (C94_iid asEx_coin) n hn
  have hs : shannon ({0, 1} : Finset Int) (fun x => asTosses.real {ω | asFace (ω 0) = x}) = Real.log 2 := by
    unfold shannon
    rw [Finset.sum_pair (by norm_num)]
    have e1 := asEx_half true
    have e0 := asEx_half false
    simp only [asFace, if_true, if_false, Bool.false_eq_true] at e1 e0
    simp only [asFace]
    rw [e0, e1, one_div, Real.log_inv]
    ring
  have hl : (0 : ℝ) < Real.log 2 := Real.log_pos (by norm_num)
  have hn' : (0 : ℝ) < n := by exact_mod_cast hn
  rw [hs] at h2 h3
  refine ⟨v, h1, le_trans (le_of_eq ?_) h2, h3.trans (le_of_eq ?_)⟩
  · rw [show (Base.num 2).ln = Real.log 2 from rfl, show ({0, 1} : Finset Int).card = 2 from rfl]
    field_simp
    norm_num
  · exact div_self hl.ne'

end Verif
