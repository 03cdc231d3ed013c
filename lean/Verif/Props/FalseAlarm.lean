import Verif.Props.FiniteNoise
import Verif.Props.AlmostSureIid
import Verif.Props.AlmostSureEx

/-!
# C101, continued: information measured where there is none

Plug-in mutual information of independent variables and transfer entropy between independent observations are positive only by chance:
bounds on their average and on the probability of a given size.
-/

namespace Verif

open Spec MeasureTheory ProbabilityTheory

variable {Ω : Type} [MeasurableSpace Ω] {μ : Measure Ω} [IsProbabilityMeasure μ]
variable {W : World} {a : PyName} {kw : Kw} {b : Base} {cond : CondKw PyData} {l k s : ℕ}

/-- **C101** `im.mutual_information` of `n` independent pairs whose members are independent of each other (`Kx` and `Ky` symbols): on average at most
`(Kx Ky − 1)/n` nats, and `ε` or more with probability at most that divided by `ε`. -/
theorem C101_mi_false_alarm (h : Call W .mi .discrete a kw b) (hb : b.Std) (hc : cond.isVal = false) (ho : kwOr kw "offset" (.int 0) = .int 0)
    {X Y : ℕ → Ω → Int} {S T : Finset Int} (hX : Iid μ (fun i ω => (X i ω, Y i ω)) (S ×ˢ T)) (hi : IndepFun (X 0) (Y 0) μ)
    (n : ℕ) (hn : 0 < n) (hov : n < 2 ^ 32) (ε : ℝ) (hε : 0 < ε) :
    let r := fun ω => imMI W [.ints (observed X n ω), .ints (observed Y n ω)] a cond kw
    let δ := ((S.card : ℝ) * T.card - 1) / n
    Expected μ b r 0 δ ∧ μ.real {ω | ∃ v, r ω = .ok v ∧ ε ≤ v} ≤ δ / (b.ln * ε) := by
  intro r δ
  obtain ⟨v, hv, hI, -, h2⟩ := C101_mi (μ := μ) h hb hc ho one_pos (C94_iid hX) n hn hov
  have hz := C94_mi_independent hX hi
  rw [hz] at h2
  have hδ : ∫ ω, v ω ∂μ ≤ δ / b.ln := by
    refine h2.trans (le_of_eq ?_)
    simp only [δ, Finset.card_product]
    push_cast
    ring
  have hpos : ∀ ω, 0 ≤ v ω := fun ω => by
    have e := hv ω
    simp only at e
    rw [C82_mi_two h hb hc ho _ _ (by simp [observed_length]) (observed_ne X hn ω) (by rw [observed_length]; exact hov)] at e
    rw [← Except.ok.inj e]
    exact div_nonneg (mi_nonneg _ _ (by simp [observed_length])) hb.ln_pos.le
  refine ⟨⟨v, hv, hI, by rw [zero_div]; exact integral_nonneg hpos, hδ⟩, ?_⟩
  have hln := hb.ln_pos
  have key := fn_markov (μ := μ) (u := fun ω => v ω * b.ln) (r := r) (δ := δ) (c := ε) hb
    (Filter.Eventually.of_forall fun ω => by rw [mul_div_cancel_right₀ _ hln.ne']; exact hv ω) (fun x => x) (hI.mul_const _)
    (Filter.Eventually.of_forall fun ω => mul_nonneg (hpos ω) hln.le) (by rw [integral_mul_const]; exact (le_div_iff₀ hln).1 hδ) hε
  simpa only [mul_div_cancel_right₀ _ hln.ne'] using key

theorem fa_lists_card (R : Finset Int) (l : ℕ) : (iidLists R l).card = R.card ^ l := by
  rw [iidLists, Finset.card_image_of_injective _ List.ofFn_injective, Fintype.card_piFinset, Finset.prod_const, Finset.card_univ, Fintype.card_fin]

/-- **C101** `im.transfer_entropy` between independent pairs of observations (the members of a pair may depend on each other; `Kx` and `Ky` symbols;
`R` rows): on average at most `(2 max(k,l) + 1)(Ky Kx^l Ky^k − 1 + Ky^k − 1)/R` nats, and `ε` or more with probability at most that divided by `ε`. -/
theorem C101_te_false_alarm (h : Call W .te .discrete a kw b) (hb : b.Std) (hc : cond.isVal = false) (hh : History kw l k s) (hs : 0 < s)
    (hl : 0 < l) (hk : 0 < k) {X Y : ℕ → Ω → Int} {S : Finset (Int × Int)} (hX : Iid μ (fun i ω => (X i ω, Y i ω)) S)
    (n : ℕ) (hn : max k l * s < n) (hov : n < 2 ^ 32) (ε : ℝ) (hε : 0 < ε) :
    let r := fun ω => imTE W [.ints (observed X n ω), .ints (observed Y n ω)] a cond kw
    let Kx := (S.image Prod.fst).card
    let Ky := (S.image Prod.snd).card
    let δ := (2 * ((max k l : ℕ) : ℝ) + 1) * ((Ky : ℝ) * (Kx ^ l * Ky ^ k) - 1 + (Ky ^ k - 1)) / numRows n (max k l) s
    Expected μ b r 0 δ ∧ μ.real {ω | ∃ v, r ω = .ok v ∧ ε ≤ v} ≤ δ / (b.ln * ε) := by
  intro r Kx Ky δ
  obtain ⟨w1, w2⟩ := iid_te_windows (l := l) (k := k) hs hX
  obtain ⟨v, hv, hI, -, h2⟩ := C101_te (μ := μ) h hb hc hh hs hl hk (Nat.succ_pos _) w1 n hn hov
  rw [w2] at h2
  have hln := hb.ln_pos
  have c1 : ((iidWindows S l k).card : ℝ) = (Ky : ℝ) * (Kx ^ l * Ky ^ k) := by
    rw [iidWindows, Finset.card_product, Finset.card_product, fa_lists_card, fa_lists_card, Finset.card_image_of_injective _ (fun x y e => by simpa using e)]
    push_cast
    rfl
  have c2 : (((iidWindows S l k).image (fun w => w.2.2)).card : ℝ) ≤ (Ky : ℝ) ^ k := by
    have : ((iidWindows S l k).image (fun w => w.2.2)).card ≤ (iidLists (S.image Prod.snd) k).card := by
      refine Finset.card_le_card fun w hw => ?_
      obtain ⟨u, hu, rfl⟩ := Finset.mem_image.1 hw
      exact (Finset.mem_product.1 (Finset.mem_product.1 hu).2).2
    rw [fa_lists_card] at this
    exact_mod_cast this
  have hδ : ∫ ω, v ω ∂μ ≤ δ / b.ln := by
    refine h2.trans (div_le_div_of_nonneg_right ?_ hln.le)
    rw [zero_add, c1]
    simp only [δ]
    have e : 2 * ((max k l + 1 : ℕ) : ℝ) - 1 = 2 * ((max k l : ℕ) : ℝ) + 1 := by push_cast; ring
    rw [e]
    gcongr
  have hpos : ∀ ω, 0 ≤ v ω := fun ω => by
    have e := hv ω
    have ex : (observed X n ω).length = n := observed_length X n ω
    have ey : (observed Y n ω).length = n := observed_length Y n ω
    simp only at e
    rw [C82_te h hb.valid hc hh hs hl hk (observed X n ω) (observed Y n ω) (by rw [ex]; exact hn) (ex.trans ey.symm) (by rw [ey]; exact hov)] at e
    rw [← Except.ok.inj e]
    refine div_nonneg (cmi_nonneg _ _ _ ?_ ?_) hln.le <;> simp [futRows, histRows]
  refine ⟨⟨v, hv, hI, by rw [zero_div]; exact integral_nonneg hpos, hδ⟩, ?_⟩
  have key := fn_markov (μ := μ) (u := fun ω => v ω * b.ln) (r := r) (δ := δ) (c := ε) hb
    (Filter.Eventually.of_forall fun ω => by rw [mul_div_cancel_right₀ _ hln.ne']; exact hv ω) (fun x => x) (hI.mul_const _)
    (Filter.Eventually.of_forall fun ω => mul_nonneg (hpos ω) hln.le) (by rw [integral_mul_const]; exact (le_div_iff₀ hln).1 hδ) hε
  simpa only [mul_div_cancel_right₀ _ hln.ne'] using key

example := C101_mi_false_alarm (b := .num 2) (cond := .absent) (call "discrete", [("base", .int 2)]) (by norm_num [Base.Std]) rfl (by kw) asEx_pairs
  asEx_indep 1000 (by norm_num) (by norm_num) (1 / 10) (by norm_num)
example := C101_te_false_alarm (b := .e) (cond := .absent) (l := 2) (k := 1) (s := 1) (call "discrete", [("src_hist_len", .int 2)]) trivial rfl
  ⟨by kw, by kw, by kw, by kw, by kw⟩ one_pos two_pos one_pos asEx_pairs 1000 (by norm_num) (by norm_num) (1 / 10) (by norm_num)

/-- the plug-in mutual information (natural units) of 1000 tosses of two independent fair coins is 0.1 or more with probability at most 3 % -/
example : asPairs.real {ω | ∃ v, imMI demo [.ints (observed (fun i (ω : ℕ → Bool × Bool) => asFace (ω i).1) 1000 ω),
    .ints (observed (fun i (ω : ℕ → Bool × Bool) => asFace (ω i).2) 1000 ω)] (.str "discrete") .absent (kwList []) = .ok v ∧ 1 / 10 ≤ v} ≤ 3 / 100 := by
  have := (C101_mi_false_alarm (b := .e) (cond := .absent) (call "discrete", []) trivial rfl (by kw) asEx_pairs asEx_indep 1000 (by norm_num)
    (by norm_num) (1 / 10) (by norm_num)).2
  refine this.trans ?_
  norm_num [Base.ln]

end Verif
