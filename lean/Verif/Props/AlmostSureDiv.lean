import Verif.Lemmas.AlmostSureDiv
import Verif.Props.AlmostSureEx
import Verif.Props.EndToEndDiv

/-!
# C104: the cross-entropy and the divergences of random samples converge to those of their distributions
-/

namespace Verif

open Spec MeasureTheory ProbabilityTheory

variable {Ω : Type} [MeasurableSpace Ω] {μ : Measure Ω} [IsProbabilityMeasure μ] {M M' : ℕ}
variable {W : World} {a : PyName} {kw : Kw} {b : Base} {oj : Est → List PyData → Except Exc ℝ}

/-- **C104** Cross-entropy: if the observations of either sample are symbols of a finite set `S` with distributions `p` and `q`, independent when far
enough apart, then almost surely `im.cross_entropy` of the first `n` observations converges to the cross-entropy of `p` and `q` in the unit of the base
(over the symbols to which `q` gives a positive probability).  The samples need not be independent of each other. -/
theorem C104_cross_entropy (h : Call W .h .discrete a kw b) (hb : b.Valid) {X Y : ℕ → Ω → Int} {S : Finset Int} {p q : Int → ℝ}
    (hM : 0 < M) (hX : Sampling μ X S p M) (hM' : 0 < M') (hY : Sampling μ Y S q M') :
    ∀ᵐ ω ∂μ, ∃ v : ℕ → ℝ, (∀ n, 0 < n → imCrossEntropy W [.ints (observed X n ω), .ints (observed Y n ω)] a .absent kw = .ok (v n)) ∧
      Filter.Tendsto v Filter.atTop (nhds (crossOf S p q / b.ln)) := by
  filter_upwards [as_freq hM hX, as_freq hM' hY, asd_zero hY] with ω hx hy h0
  exact ⟨fun n => _, fun n hn => (C82_cross_entropy h hb _ _ (observed_ne X hn ω) (observed_ne Y hn ω)).1,
    (asd_cross_tendsto hx.1 hx.2 hy.2 h0).div_const _⟩

theorem asd_kld_tendsto {α : Type} [DecidableEq α] {X Y : ℕ → Ω → α} {S : Finset α} {p q : α → ℝ} {ω : Ω}
    (hx : (∀ n, ∀ a ∈ observed X n ω, a ∈ S) ∧ ∀ a ∈ S, Filter.Tendsto (fun n => freq (observed X n ω) a) Filter.atTop (nhds (p a)))
    (hy : (∀ n, ∀ a ∈ observed Y n ω, a ∈ S) ∧ ∀ a ∈ S, Filter.Tendsto (fun n => freq (observed Y n ω) a) Filter.atTop (nhds (q a)))
    (h0 : ∀ a ∈ S, q a = 0 → ∀ n, a ∉ observed Y n ω) :
    Filter.Tendsto (fun n => crossEntropy (observed X n ω) (observed Y n ω) - entropy (observed X n ω)) Filter.atTop
      (nhds (crossOf S p q - shannon S p)) :=
  (asd_cross_tendsto hx.1 hx.2 hy.2 h0).sub (near_tendsto_id hx.1 hx.2 (observed_tendsto _ ω) near_entropy)

/-- what the limit of the divergence is when the second distribution is positive wherever the first is -/
theorem C104_kl_limit {α : Type} [DecidableEq α] {X Y : ℕ → Ω → α} {S : Finset α} {p q : α → ℝ} (hX : Sampling μ X S p M) (hY : Sampling μ Y S q M')
    (hc : ∀ a ∈ S, p a ≠ 0 → q a ≠ 0) :
    crossOf S p q - shannon S p = klOf S p q ∧ 0 ≤ klOf S p q ∧ (klOf S p q = 0 ↔ ∀ a ∈ S, p a = q a) := by
  have e : ∑ a ∈ S, q a = ∑ a ∈ S, p a := (asd_law_sum hY).trans (asd_law_sum hX).symm
  exact ⟨asd_kl_cross hc, asd_kl_nonneg (asd_law_nonneg hX) (asd_law_nonneg hY) e.le hc, asd_kl_zero (asd_law_nonneg hX) (asd_law_nonneg hY) e hc⟩

/-- **C104** Kullback–Leibler divergence: `im.kld` of the first `n` observations converges almost surely to the cross-entropy of the distributions minus
the entropy of the first; if `q` is positive wherever `p` is, to their Kullback–Leibler divergence, which is never negative and zero exactly if the
distributions are equal. -/
theorem C104_kld (h : Call W .h .discrete a kw b) (hb : b.Std) {X Y : ℕ → Ω → Int} {S : Finset Int} {p q : Int → ℝ}
    (hM : 0 < M) (hX : Sampling μ X S p M) (hM' : 0 < M') (hY : Sampling μ Y S q M') :
    (∀ᵐ ω ∂μ, ∃ v : ℕ → ℝ, (∀ n, 0 < n → imKld W (.ints (observed X n ω)) (.ints (observed Y n ω)) (some a) .absent kw = .ok (v n)) ∧
      Filter.Tendsto v Filter.atTop (nhds ((crossOf S p q - shannon S p) / b.ln))) ∧
    ((∀ a ∈ S, p a ≠ 0 → q a ≠ 0) → crossOf S p q - shannon S p = klOf S p q ∧ 0 ≤ klOf S p q ∧ (klOf S p q = 0 ↔ ∀ a ∈ S, p a = q a)) := by
  refine ⟨?_, C104_kl_limit hX hY⟩
  filter_upwards [as_freq hM hX, as_freq hM' hY, asd_zero hY] with ω hx hy h0
  exact ⟨fun n => _, fun n hn => (C83_kld h hb _ _ (observed_ne X hn ω) (observed_ne Y hn ω)).1, (asd_kld_tendsto hx hy h0).div_const _⟩

/-- **C104** Jensen–Shannon divergence: `im.jsd` of the first `n` observations of `m` samples converges almost surely to the generalised
Jensen–Shannon divergence of their distributions, which is never negative and zero exactly if the distributions are all equal. -/
theorem C104_jsd (h : Call W .h .discrete a kw b) (hb : b.Std) {m : ℕ} (hm : 0 < m) {X : Fin m → ℕ → Ω → Int} {S : Finset Int} {P : Fin m → Int → ℝ}
    {N : Fin m → ℕ} (hN : ∀ j, 0 < N j) (hX : ∀ j, Sampling μ (X j) S (P j) (N j)) :
    (∀ᵐ ω ∂μ, ∃ v : ℕ → ℝ, (∀ n, 0 < n → imJsd W oj (List.ofFn fun j => .ints (observed (X j) n ω)) a .absent kw = .ok (v n)) ∧
      Filter.Tendsto v Filter.atTop (nhds (jsdOf S P / b.ln))) ∧
    0 ≤ jsdOf S P ∧ (jsdOf S P = 0 ↔ ∀ i j, ∀ a ∈ S, P i a = P j a) := by
  refine ⟨?_, asd_jsd_limit hm (fun j => asd_law_nonneg (hX j)) fun j => asd_law_sum (hX j)⟩
  filter_upwards [ae_all_iff.2 fun j => as_freq (hN j) (hX j)] with ω hω
  refine ⟨fun n => jsd (List.ofFn fun j => observed (X j) n ω) / b.ln, fun n hn => ?_,
    (asd_jsd_tendsto (L := fun n j => observed (X j) n ω) (fun n j => (hω j).1 n) fun j => (hω j).2).div_const _⟩
  obtain ⟨v, h1, h2, -⟩ := C83_jsd (oj := oj) h hb (List.ofFn fun j => observed (X j) n ω)
    (by intro e; have := congrArg List.length e; simp at this; omega) (by
      intro xs hxs
      obtain ⟨j, rfl⟩ := (List.mem_ofFn' _ _).1 hxs
      exact observed_ne _ hn ω)
  rw [List.map_ofFn] at h1
  rw [h2] at h1
  exact h1

/-! ### concrete samples: the faces of two coins, which agree in distribution -/

example := C104_cross_entropy (b := .e) (call "discrete", []) trivial one_pos (C94_iid asEx_coin) one_pos (C94_iid asEx_coin)

theorem asdEx_fst : Iid asPairs (fun i ω => asFace (ω i).1) ({0, 1} : Finset Int) :=
  asEx_iid _ (fun e : Bool × Bool => asFace e.1) (measurable_of_countable _) _ (by rintro ⟨c, d⟩; cases c <;> simp [asFace])

/-- 1 if both coins show 1 -/
theorem asdEx_both : Iid asPairs (fun i ω => asFace ((ω i).1 && (ω i).2)) ({0, 1} : Finset Int) :=
  asEx_iid _ (fun e : Bool × Bool => asFace (e.1 && e.2)) (measurable_of_countable _) _ (by rintro ⟨c, d⟩; cases c <;> cases d <;> simp [asFace])

example := C104_kld (b := .num 2) (call "discrete", [("base", .int 2)]) (by norm_num [Base.Std]) one_pos (C94_iid asdEx_fst) one_pos (C94_iid asdEx_both)
example := C104_jsd (m := 2) (b := .e) (oj := fun _ _ => .error .nonFinite) (call "discrete", []) trivial two_pos
  (X := ![fun i (ω : ℕ → Bool × Bool) => asFace (ω i).1, fun i (ω : ℕ → Bool × Bool) => asFace ((ω i).1 && (ω i).2)]) (P := ![_, _]) (N := ![1, 1]) (by intro j; fin_cases j <;> simp)
  (by intro j; fin_cases j; exact C94_iid asdEx_fst; exact C94_iid asdEx_both)

end Verif
