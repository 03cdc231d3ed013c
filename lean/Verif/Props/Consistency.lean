import Verif.Lemmas.Close4
import Verif.Props.BiasMI
import Verif.Props.CMI
import Verif.Props.Bias3

/-!
# Property C77 : the bias corrections vanish

All bias-corrected estimates of a data set with a fixed alphabet stay within an explicit distance of the plug-in estimate, which
shrinks to zero with the size of the data set — except ANSB, which grows with the logarithm of the size.

`(c.est b).entropy (.arr1 xs)` is `entropy(xs, approach=…, base=b, …)`; `biasMI`, `biasCMI`, `biasTE` are the mutual information,
conditional mutual information and transfer entropy of the same classes.
-/

namespace Verif

open Spec

/-! ### Entropy: the distance of every estimator -/

/-- **C77** Zhang never falls below the plug-in entropy and exceeds it by at most `(K−1)/N`. -/
theorem C77_zhang_distance (xs : List Int) (h : xs ≠ []) (b : Base) (hb : b.Std) :
    ∃ v p, (zhangH b).entropy (.arr1 xs) = .ok v ∧ discreteEntropy [.arr1 xs] b = .ok p ∧
      p ≤ v ∧ v ≤ p + ((xs.toFinset.card : ℝ) - 1) / xs.length / b.ln := by
  obtain ⟨h1, h2⟩ := zhang_close h
  refine ⟨_, _, (C35_zhang xs h b hb).1, discreteEntropy_arr1 h hb.valid, ?_, ?_⟩
  · exact div_le_div_of_nonneg_right (by linarith) hb.ln_pos.le
  · rw [← add_div]; exact div_le_div_of_nonneg_right (by linarith) hb.ln_pos.le

example := C77_zhang_distance [5, 7, 5] (by decide) (.num 2) (by norm_num [Base.Std])

/-- **C77** Grassberger differs from the plug-in entropy by at most `−K/N … 2K/N`. -/
theorem C77_grassberger_distance (xs : List Int) (h : xs ≠ []) (b : Base) (hb : b.Std) :
    ∃ v p, (grassbergerH b).entropy (.arr1 xs) = .ok v ∧ discreteEntropy [.arr1 xs] b = .ok p ∧
      p - (xs.toFinset.card : ℝ) / xs.length / b.ln ≤ v ∧ v ≤ p + 2 * xs.toFinset.card / xs.length / b.ln := by
  obtain ⟨h1, h2⟩ := grassberger_close xs
  rw [neg_div] at h1
  refine ⟨_, _, C34_grassberger_value xs h b hb.valid, discreteEntropy_arr1 h hb.valid, ?_, ?_⟩
  · rw [← sub_div]; exact div_le_div_of_nonneg_right (by linarith) hb.ln_pos.le
  · rw [← add_div]; exact div_le_div_of_nonneg_right (by linarith) hb.ln_pos.le

example := C77_grassberger_distance [5, 7, 5] (by decide) (.num 2) (by norm_num [Base.Std])

/-- **C77** Chao–Wang–Jost is never below Zhang (hence never below the plug-in entropy) and exceeds it by at most `1/N` times
the Chao1 estimate of the number of unseen symbols: `f₁²/(2 f₂)`, or `f₁(f₁−1)/2` when no symbol occurs twice. -/
theorem C77_chao_wang_jost_distance (xs : List Int) (h : xs ≠ []) (b : Base) (hb : b.Std) :
    ∃ v z, (chaoWangJostH b).entropy (.arr1 xs) = .ok v ∧ (zhangH b).entropy (.arr1 xs) = .ok z ∧
      z ≤ v ∧ v ≤ z + (if 0 < occurring xs 2 then (occurring xs 1 : ℝ) ^ 2 / (2 * occurring xs 2)
        else (occurring xs 1 : ℝ) * (occurring xs 1 - 1) / 2) / xs.length / b.ln := by
  obtain ⟨h1, h2⟩ := cwj_close xs h
  refine ⟨_, _, (C31_chao_wang_jost_well_defined xs h b hb).2.2.1, (C35_zhang xs h b hb).1, ?_, ?_⟩
  · exact div_le_div_of_nonneg_right (by linarith) hb.ln_pos.le
  · rw [← add_div]; exact div_le_div_of_nonneg_right (by linarith) hb.ln_pos.le

example := C77_chao_wang_jost_distance [5, 7, 5] (by decide) (.num 2) (by norm_num [Base.Std])

/-- **C77** Chao–Shen lies between `(1 − K/N)` times the plug-in entropy and the plug-in entropy plus `K(1 + 2 log N)/N`. -/
theorem C77_chao_shen_distance (xs : List Int) (h : xs ≠ []) (b : Base) (hb : b.Std) :
    ∃ v p, (chaoShenH b).entropy (.arr1 xs) = .ok v ∧ discreteEntropy [.arr1 xs] b = .ok p ∧
      (1 - (xs.toFinset.card : ℝ) / xs.length) * p ≤ v ∧
      v ≤ p + xs.toFinset.card * (1 + 2 * Real.log xs.length) / xs.length / b.ln := by
  obtain ⟨h1, h2⟩ := chaoShen_close h
  refine ⟨_, _, (C30_chao_shen_well_defined xs h b hb).2.2.1, discreteEntropy_arr1 h hb.valid, ?_, ?_⟩
  · rw [← mul_div_assoc]; exact div_le_div_of_nonneg_right (by linarith) hb.ln_pos.le
  · rw [← add_div]; exact div_le_div_of_nonneg_right (by linarith) hb.ln_pos.le

example := C77_chao_shen_distance [5, 7, 5] (by decide) (.num 2) (by norm_num [Base.Std])

/-- **C77** Bonachela differs from the plug-in entropy by at most `−5K/(N+2) … K(1 + log N)/(N+2)`. -/
theorem C77_bonachela_distance (xs : List Int) (h : xs ≠ []) (b : Base) (hb : b.Std) :
    ∃ v p, (bonachelaH b).entropy (.arr1 xs) = .ok v ∧ discreteEntropy [.arr1 xs] b = .ok p ∧
      p - 5 * xs.toFinset.card / ((xs.length : ℝ) + 2) / b.ln ≤ v ∧
      v ≤ p + xs.toFinset.card * (1 + Real.log xs.length) / ((xs.length : ℝ) + 2) / b.ln := by
  obtain ⟨h1, h2⟩ := bonachela_close h
  refine ⟨_, _, (C35_bonachela xs h b hb).1, discreteEntropy_arr1 h hb.valid, ?_, ?_⟩
  · rw [← sub_div]; exact div_le_div_of_nonneg_right (by linarith) hb.ln_pos.le
  · rw [← add_div]; exact div_le_div_of_nonneg_right (by linarith) hb.ln_pos.le

example := C77_bonachela_distance [5, 7, 5] (by decide) (.num 2) (by norm_num [Base.Std])

/-- **C77** Shrinkage never falls below the plug-in entropy and exceeds it by at most `√(K/(N−1)) · (1 + log N)`. -/
theorem C77_shrink_distance (xs : List Int) (h : 2 ≤ xs.length) (b : Base) (hb : b.Std) :
    ∃ v p, (shrinkH b).entropy (.arr1 xs) = .ok v ∧ discreteEntropy [.arr1 xs] b = .ok p ∧
      p ≤ v ∧ v ≤ p + Real.sqrt (xs.toFinset.card / ((xs.length : ℝ) - 1)) * (1 + Real.log xs.length) / b.ln := by
  have hne : xs ≠ [] := by rintro rfl; simp at h
  have h2 := (abs_le.1 (shrink_close h)).2
  obtain ⟨-, -, -, v, p, e1, e2, e3, e4, -⟩ := C32_shrinkage xs hne b hb
  have e5 : (pluginH b).entropy (.arr1 xs) = discreteEntropy [.arr1 xs] b := by
    rw [HEst.entropy_arr1 _ hne, discreteEntropy_arr1 hne hb.valid]
    exact discreteSimple_ok hb.valid
  refine ⟨v, p, e1, e5 ▸ e2, e4, ?_⟩
  have e6 : p = entropy xs / b.ln := by
    rw [e5, discreteEntropy_arr1 hne hb.valid] at e2
    exact (Except.ok.inj e2).symm
  rw [e3, e6, ← add_div]
  exact div_le_div_of_nonneg_right (by linarith) hb.ln_pos.le

example := C77_shrink_distance [5, 7, 5] (by decide) (.num 2) (by norm_num [Base.Std])

/-- **C77** Bayes with a total prior weight `w = K·a` (observed support, concentration `a ≥ 0`) differs from the plug-in entropy by
at most `K · w/(N+w) · (1 + log(N+w))`. -/
theorem C77_bayes_distance (xs : List Int) (h : xs ≠ []) (alpha : AlphaArg) (a : ℝ) (h0 : 0 ≤ a)
    (ha : PriorIs alpha xs.toFinset.card xs.length a) (b : Base) (hb : b.Std) :
    ∃ v p, (bayesH alpha none b).entropy (.arr1 xs) = .ok v ∧ discreteEntropy [.arr1 xs] b = .ok p ∧
      |v - p| ≤ xs.toFinset.card * (xs.toFinset.card * a / (xs.length + xs.toFinset.card * a)) *
        (1 + Real.log (xs.length + xs.toFinset.card * a)) / b.ln := by
  have hK : (1:ℝ) ≤ xs.toFinset.card := by
    obtain ⟨s, hs⟩ := List.exists_mem_of_ne_nil _ h
    exact cardR_pos hs
  refine ⟨_, _, (C33_bayes_observed_support xs h alpha a h0 ha b hb).2.2.1, discreteEntropy_arr1 h hb.valid, ?_⟩
  rw [← sub_div, abs_div, abs_of_pos hb.ln_pos]
  exact div_le_div_of_nonneg_right (bayes_close h hK h0) hb.ln_pos.le

example := C77_bayes_distance [5, 7, 5] (by decide) (.num 1) 1 (by norm_num) (.inl rfl) (.num 2) (by norm_num [Base.Std])

/-! ### Entropy: one rate for all, and consistency -/

/-- the methods the classes stand for, other than ANSB, are regular -/
theorem means_regular {c : BiasClass} {m : Method} (h : c.Means m) (hm : m ≠ .ansb) : m.Regular := by
  have hp : ∀ {s : String} {p : Prior}, NamesPrior s p → ∀ a, p = .fixed a → 0 ≤ a := by
    intro s p hn a ha
    rcases hn with ⟨_, rfl⟩ | ⟨_, rfl⟩ | ⟨_, rfl⟩ | ⟨_, rfl⟩ <;> cases ha <;> norm_num
  cases h with
  | ansb _ => exact absurd rfl hm
  | bayesNum h0 => exact ⟨fun a ha => by cases ha; exact h0, by simp⟩
  | bayesNumK h0 hk => exact ⟨fun a ha => by cases ha; exact h0, fun k hk' => by cases hk'; exact hk⟩
  | bayesStr hn => exact ⟨hp hn, by simp⟩
  | bayesStrK hn hk => exact ⟨hp hn, fun k hk' => by cases hk'; exact hk⟩
  | _ => trivial

/-- the value of the entropy call of every class but ANSB, for the distance from the plug-in value -/
theorem est_value {c : BiasClass} {m : Method} (h : c.Means m) (hm : m ≠ .ansb) {b : Base} (hb : b.Std) (xs : List Int)
    (h2 : 2 ≤ xs.length) {K : Nat} (hK : xs.toFinset.card ≤ K) :
    ∃ v, (c.est b).entropy (.arr1 xs) = .ok (v / b.ln) ∧ |v - entropy xs| ≤ m.constant K * vanishing xs.length := by
  have hne : xs ≠ [] := by rintro rfl; simp at h2
  have hr := value_rate (means_regular h hm) h2 hK
  have hg : ∀ {D : List Int → Prop}, (c.est b).Glob D (fun xs => m.value xs / b.ln) → D xs →
      ∃ v, (c.est b).entropy (.arr1 xs) = .ok (v / b.ln) ∧ |v - entropy xs| ≤ m.constant K * vanishing xs.length :=
    fun hG hD => ⟨_, (HEst.entropy_arr1 _ hne).trans ((hG xs hne).2.1 hD), hr⟩
  cases h with
  | grassberger => exact ⟨_, C34_grassberger_value xs hne b hb.valid, hr⟩
  | zhang => exact ⟨_, (C35_zhang xs hne b hb).1, hr⟩
  | shrink =>
    obtain ⟨-, -, -, v, p, e1, -, e3, -, -⟩ := C32_shrinkage xs hne b hb
    exact ⟨_, e3 ▸ e1, shrink_rate h2 hK⟩
  | chaoShen => exact ⟨_, (C30_chao_shen_well_defined xs hne b hb).2.2.1, hr⟩
  | chaoWangJost => exact ⟨_, (C31_chao_wang_jost_well_defined xs hne b hb).2.2.1, hr⟩
  | bonachela => exact ⟨_, (C35_bonachela xs hne b hb).1, hr⟩
  | ansb _ => exact absurd rfl hm
  | bayesNum h0 => exact hg (bayes_glob hb.valid (by simp) fun K N _ => ⟨rfl, h0⟩) trivial
  | bayesNumK h0 hk => exact hg (bayes_glob (kp := some _) hb.valid (by simpa using hk) fun K N _ => ⟨rfl, h0⟩) trivial
  | bayesStr hp => exact hg (bayes_glob hb.valid (by simp) fun K N hK => namesPrior_getAlpha hp hK) trivial
  | bayesStrK hp hk =>
    exact hg (bayes_glob (kp := some _) hb.valid (by simpa using hk) fun K N hK => namesPrior_getAlpha hp hK) trivial

/-- **C77** Every bias-corrected entropy but ANSB: on every data set of `N ≥ 2` values with at most `K` distinct ones the call
succeeds and is within `C(K) · (1 + log N)/√N` of the plug-in entropy, where `C(K)` depends on the method and `K` only. -/
theorem C77_entropy_rate (c : BiasClass) (m : Method) (h : c.Means m) (hm : m ≠ .ansb) (K : Nat) (xs : List Int)
    (h2 : 2 ≤ xs.length) (hK : xs.toFinset.card ≤ K) (b : Base) (hb : b.Std) :
    ∃ v p, (c.est b).entropy (.arr1 xs) = .ok v ∧ discreteEntropy [.arr1 xs] b = .ok p ∧
      |v - p| ≤ m.constant K * vanishing xs.length / b.ln := by
  have hne : xs ≠ [] := by rintro rfl; simp at h2
  obtain ⟨v, e, hv⟩ := est_value h hm hb xs h2 hK
  refine ⟨_, _, e, discreteEntropy_arr1 hne hb.valid, ?_⟩
  rw [← sub_div, abs_div, abs_of_pos hb.ln_pos]
  exact div_le_div_of_nonneg_right hv hb.ln_pos.le

example := C77_entropy_rate (.bayes (.str "min-max") none) (.bayes .minimax none) (.bayesStr (.inr (.inr (.inr ⟨rfl, rfl⟩)))) (by simp) 2
  [5, 7, 5] (by decide) (by decide) (.num 2) (by norm_num [Base.Std])

/-- **C77** The rate `(1 + log N)/√N` goes to zero. -/
theorem C77_rate_vanishes : Filter.Tendsto vanishing Filter.atTop (nhds 0) := vanishing_tendsto

section
variable {α β : Type} [DecidableEq α] [DecidableEq β]

theorem entropy_on_alphabet {S : Finset α} {xs : List α} (h : ∀ a ∈ xs, a ∈ S) :
    entropy xs = ∑ a ∈ S, Real.negMulLog (freq xs a) := by
  unfold entropy
  rw [← Finset.sum_neg_distrib]
  have hsub : xs.toFinset ⊆ S := fun a ha => h a (List.mem_toFinset.1 ha)
  rw [Finset.sum_subset hsub]
  · exact Finset.sum_congr rfl fun a _ => by rw [Real.negMulLog]; ring
  · intro a _ hn
    rw [freq, Nat.eq_zero_of_not_pos (fun h' => hn (List.mem_toFinset.2 (cnt_pos_iff.1 h')))]
    simp

/-- plug-in entropy converges when the frequencies do -/
theorem entropy_tendsto {S : Finset α} {X : ℕ → List α} (hS : ∀ n, ∀ a ∈ X n, a ∈ S) {p : α → ℝ}
    (hp : ∀ a ∈ S, Filter.Tendsto (fun n => freq (X n) a) Filter.atTop (nhds (p a))) :
    Filter.Tendsto (fun n => entropy (X n)) Filter.atTop (nhds (shannon S p)) := by
  simp only [fun n => entropy_on_alphabet (hS n)]
  have e : shannon S p = ∑ a ∈ S, Real.negMulLog (p a) := by
    rw [shannon, ← Finset.sum_neg_distrib]
    exact Finset.sum_congr rfl fun a _ => by rw [Real.negMulLog]; ring
  rw [e]
  exact tendsto_finsetSum _ fun a ha => (Real.continuous_negMulLog.tendsto _).comp (hp a ha)

/-- values within the rate of a convergent sequence converge to the same limit -/
theorem rate_tendsto {v e : ℕ → ℝ} {N : ℕ → Nat} {C L : ℝ} (hN : Filter.Tendsto N Filter.atTop Filter.atTop)
    (h : ∀ᶠ n in Filter.atTop, |v n - e n| ≤ C * vanishing (N n)) (he : Filter.Tendsto e Filter.atTop (nhds L)) :
    Filter.Tendsto v Filter.atTop (nhds L) := by
  have h0 : Filter.Tendsto (fun n => C * vanishing (N n)) Filter.atTop (nhds 0) := by
    have := (vanishing_tendsto.comp hN).const_mul C
    simpa using this
  have h1 : Filter.Tendsto (fun n => v n - e n) Filter.atTop (nhds 0) := squeeze_zero_norm' h h0
  have := h1.add he
  simpa using this

end

/-- **C77** Consistency: for a sequence of data sets over a finite alphabet `S`, of lengths going to infinity, whose relative
frequencies converge to `p`, every bias-corrected entropy but ANSB converges to the Shannon entropy `−Σ p log p` (as does the
plug-in entropy). -/
theorem C77_entropy_consistent (c : BiasClass) (m : Method) (h : c.Means m) (hm : m ≠ .ansb) (S : Finset Int) (X : ℕ → List Int)
    (hS : ∀ n, ∀ a ∈ X n, a ∈ S) (hN : Filter.Tendsto (fun n => (X n).length) Filter.atTop Filter.atTop) (p : Int → ℝ)
    (hp : ∀ a ∈ S, Filter.Tendsto (fun n => freq (X n) a) Filter.atTop (nhds (p a))) (b : Base) (hb : b.Std) :
    ∃ v w : ℕ → ℝ, (∀ᶠ n in Filter.atTop, (c.est b).entropy (.arr1 (X n)) = .ok (v n) ∧ discreteEntropy [.arr1 (X n)] b = .ok (w n)) ∧
      Filter.Tendsto v Filter.atTop (nhds (shannon S p / b.ln)) ∧
      Filter.Tendsto w Filter.atTop (nhds (shannon S p / b.ln)) := by
  have hK : ∀ n, (X n).toFinset.card ≤ S.card := fun n => Finset.card_le_card fun a ha => hS n a (List.mem_toFinset.1 ha)
  have key : ∀ n, ∃ v, 2 ≤ (X n).length → (c.est b).entropy (.arr1 (X n)) = .ok (v / b.ln) ∧
      |v - entropy (X n)| ≤ m.constant S.card * vanishing (X n).length := fun n => by
    by_cases h2 : 2 ≤ (X n).length
    · obtain ⟨v, hv⟩ := est_value h hm hb (X n) h2 (hK n)
      exact ⟨v, fun _ => hv⟩
    · exact ⟨0, fun h' => absurd h' h2⟩
  choose v hv using key
  have ev : ∀ᶠ n in Filter.atTop, 2 ≤ (X n).length := hN.eventually_ge_atTop 2
  have hE := entropy_tendsto hS hp
  refine ⟨fun n => v n / b.ln, fun n => entropy (X n) / b.ln, ?_, ?_, hE.div_const _⟩
  · filter_upwards [ev] with n hn
    exact ⟨(hv n hn).1, discreteEntropy_arr1 (by rintro h0; simp [h0] at hn) hb.valid⟩
  · refine Filter.Tendsto.div_const ?_ _
    refine rate_tendsto (C := m.constant S.card) hN ?_ hE
    filter_upwards [ev] with n hn using (hv n hn).2

/-! ### Mutual information, conditional mutual information, transfer entropy -/

theorem constant_mono {m : Method} (hm : m.Regular) {K K' : Nat} (h : K ≤ K') : m.constant K ≤ m.constant K' := by
  have hr : (K:ℝ) ≤ K' := by exact_mod_cast h
  have h0 : (0:ℝ) ≤ K := by positivity
  cases m with
  | ansb => exact hm.elim
  | bayes p S =>
    have hS : ((S.getD K : ℕ) : ℝ) ≤ (S.getD K' : ℕ) := by cases S <;> simp [hr]
    have w : p.weight (S.getD K) ≤ p.weight (S.getD K') ∧ 0 ≤ p.weight (S.getD K) := by
      cases p with
      | fixed a => exact ⟨mul_le_mul_of_nonneg_right hS (hm.1 a rfl), mul_nonneg (by positivity) (hm.1 a rfl)⟩
      | schuermannGrassberger => exact ⟨le_rfl, zero_le_one⟩
      | minimax => exact ⟨le_rfl, zero_le_one⟩
    show K * p.weight (S.getD K) * (1 + p.weight (S.getD K)) ≤ K' * p.weight (S.getD K') * (1 + p.weight (S.getD K'))
    exact mul_le_mul (mul_le_mul hr w.1 w.2 (by positivity)) (by linarith [w.1]) (by linarith [w.2])
      (mul_nonneg (by positivity) (w.2.trans w.1))
  | chaoWangJost => simp only [Method.constant]; nlinarith
  | zhang => exact hr
  | _ => simp only [Method.constant]; linarith

theorem regular_defined {α : Type} [DecidableEq α] {m : Method} (hm : m ≠ .ansb) (xs : List α) : m.Defined xs := by
  cases m <;> first | exact absurd rfl hm | trivial

theorem card_map_le {Ω α β : Type} [DecidableEq α] [DecidableEq β] (ws : List Ω) (f : Ω → α) (g : Ω → β)
    (h : ∀ u ∈ ws, ∀ v ∈ ws, f u = f v → g u = g v) : (ws.map g).toFinset.card ≤ (ws.map f).toFinset.card := by
  classical
  have : ∀ a : α, ∃ b' : Option β, ∀ w ∈ ws, f w = a → b' = some (g w) := fun a => by
    by_cases hx : ∃ w ∈ ws, f w = a
    · obtain ⟨w, hw, e⟩ := hx
      exact ⟨some (g w), fun w' hw' e' => by rw [h w hw w' hw' (e.trans e'.symm)]⟩
    · exact ⟨none, fun w hw e => absurd ⟨w, hw, e⟩ hx⟩
  choose φ hφ using this
  have hsub : (ws.map g).toFinset.image some ⊆ (ws.map f).toFinset.image φ := by
    intro y hy
    simp only [Finset.mem_image, List.mem_toFinset, List.mem_map] at hy ⊢
    obtain ⟨_, ⟨w, hw, rfl⟩, rfl⟩ := hy
    exact ⟨f w, ⟨w, hw, rfl⟩, hφ _ w hw rfl⟩
  have h1 := Finset.card_le_card hsub
  rw [Finset.card_image_of_injective _ (Option.some_injective _)] at h1
  exact h1.trans Finset.card_image_le

/-- **C77** Mutual information of any number `n` of variables: every class but ANSB is within `(n+1)·C(K)·(1+log N)/√N` of the
plug-in total correlation `Σ H(X_i) − H(X_1,…,X_n)`, where `K` bounds the number of distinct joint observations; for two variables
(`N < 2³²`) that is the library's own `approach="discrete"` value. -/
theorem C77_mi_rate (c : BiasClass) (m : Method) (h : c.Means m) (hm : m ≠ .ansb) (cols : List (List Int)) (N : Nat) (hN : 2 ≤ N)
    (h2 : 2 ≤ cols.length) (hl : ∀ v ∈ cols, v.length = N) (K : Nat) (hK : (rows N cols).toFinset.card ≤ K) (b : Base) (hb : b.Std) :
    ∃ v, biasMI c cols (some 0) b = .ok v ∧
      |v - totalCorrelation N cols / b.ln| ≤ (cols.length + 1) * m.constant K * vanishing N / b.ln ∧
      (cols.length = 2 → N < 2 ^ 32 → discreteMI (.all1D cols) (some 0) b = .ok (totalCorrelation N cols / b.ln)) := by
  have hreg := means_regular h hm
  refine ⟨_, (C66_mi c m h cols N (by omega) h2 hl b hb.valid).1 (regular_defined hm _), ?_, ?_⟩
  · rw [← sub_div, abs_div, abs_of_pos hb.ln_pos]
    refine div_le_div_of_nonneg_right ?_ hb.ln_pos.le
    unfold totalCorrelation
    have hcol : ∀ v ∈ cols, |m.value v - entropy v| ≤ m.constant K * vanishing N := fun v hv => by
      have hv' : v = (List.range N).map (fun t => v.getD t default) := bias_map_getD_range v (hl v hv)
      have hc : v.toFinset.card ≤ K := by
        refine le_trans ?_ hK
        rw [hv']
        exact card_map_le (List.range N) (row cols) (fun t => v.getD t default)
          (fun u _ w _ e => (row_mem_iff cols u w).1 e v hv)
      have := value_rate hreg (xs := v) (by rw [hl v hv]; exact hN) hc
      rwa [hl v hv] at this
    have hsum : ∀ l : List (List Int), (∀ v ∈ l, |m.value v - entropy v| ≤ m.constant K * vanishing N) →
        |(l.map m.value).sum - (l.map entropy).sum| ≤ l.length * (m.constant K * vanishing N) := by
      intro l hl'
      induction l with
      | nil => simp
      | cons v l ih =>
        have i1 := ih fun w hw => hl' w (List.mem_cons_of_mem _ hw)
        have i2 := hl' v List.mem_cons_self
        rw [abs_le] at i1 i2 ⊢
        simp only [List.map_cons, List.sum_cons, List.length_cons]
        push_cast
        constructor <;> linarith [i1.1, i1.2, i2.1, i2.2]
    have j := value_rate hreg (xs := rows N cols) (by simpa [rows] using hN) hK
    have jl : (rows N cols).length = N := by simp [rows]
    rw [jl] at j
    have s := hsum cols hcol
    rw [abs_le] at j s ⊢
    constructor <;> nlinarith [j.1, j.2, s.1, s.2]
  · intro hc hov
    match cols, hc with
    | [xs, ys], _ =>
      have e1 : xs.length = N := hl xs (by simp)
      have e2 : ys.length = N := hl ys (by simp)
      rw [discreteMI_std (e1.trans e2.symm) (by rintro rfl; simp at e1; omega) (e1 ▸ hov) hb]
      unfold totalCorrelation
      have hx := bias_map_getD_range xs e1
      have hy := bias_map_getD_range ys e2
      have : entropy (rows N [xs, ys]) = entropy (xs.zip ys) := by
        conv_rhs => rw [hx, hy, zip_range_map]
        exact entropy_map_congr _ _ _ (by simp [row])
      rw [mi_eq_entropies xs ys (e1.trans e2.symm), this]
      simp

example := C77_mi_rate .zhang .zhang .zhang (by simp) [[5, 7, 5], [0, 0, 1]] 3 (by decide) (by decide) (by decide) 3 (by decide)
  (.num 2) (by norm_num [Base.Std])

/-- **C77** Conditional mutual information of two variables: every class but ANSB is within `4·C(K)·(1+log N)/√N` of the textbook
plug-in value, which for `N < 2³²` is the library's `approach="discrete"` value. -/
theorem C77_cmi_rate (c : BiasClass) (m : Method) (h : c.Means m) (hm : m ≠ .ansb) (xs ys z : List Int) (hN : 2 ≤ z.length)
    (hx : xs.length = z.length) (hy : ys.length = z.length) (K : Nat) (hK : (xs.zip (ys.zip z)).toFinset.card ≤ K)
    (b : Base) (hb : b.Std) :
    ∃ v, biasCMI c [xs, ys] z (some 0) b = .ok v ∧
      |v - cmi xs ys z / b.ln| ≤ 4 * m.constant K * vanishing z.length / b.ln ∧
      (z.length < 2 ^ 32 → discreteCMI [xs, ys] (some (.arr1 z)) none b = .ok (cmi xs ys z / b.ln)) := by
  have hreg := means_regular h hm
  obtain ⟨N, hNe⟩ : ∃ N, N = z.length := ⟨_, rfl⟩
  have hR : SameCounts ((rows z.length [xs, ys]).zip z) (xs.zip (ys.zip z)) := by
    rw [← hNe]
    have e1 := bias_map_getD_range xs (hx.trans hNe.symm)
    have e2 := bias_map_getD_range ys (hy.trans hNe.symm)
    have e3 := bias_map_getD_range z hNe.symm
    have t : (xs.zip (ys.zip z)) = (List.range N).map (fun t => (xs.getD t default, ys.getD t default, z.getD t default)) := by
      conv_lhs => rw [e1, e2, e3]
      rw [zip_range_map, zip_range_map]
    have t2 : (rows N [xs, ys]).zip z = (List.range N).map (fun t => (row [xs, ys] t, z.getD t default)) := by
      conv_lhs => rw [e3]
      unfold rows
      rw [zip_range_map]
    rw [t, t2]
    exact sameCounts_map _ _ _ (by simp [row, and_assoc])
  refine ⟨_, (C66_cmi c m h [xs, ys] z (by omega) (by simp) (by simp [hx, hy]) b hb.valid).1 (regular_defined hm _), ?_, fun hov =>
    C16_cmi_is_textbook xs ys z (hx.trans hy.symm) hy (by rintro rfl; simp at hx; omega) (hx ▸ hov) b hb.valid⟩
  rw [← sub_div, abs_div, abs_of_pos hb.ln_pos]
  refine div_le_div_of_nonneg_right ?_ hb.ln_pos.le
  rw [value_congr hR, cmi_eq_entropies xs ys z (hx.trans hy.symm) hy]
  simp only [List.map_cons, List.map_nil, List.sum_cons, List.sum_nil, add_zero]
  set ws := xs.zip (ys.zip z) with hws
  have wl : ws.length = z.length := by simp [hws, hx, hy]
  have p1 : xs.zip z = ws.map (fun w => (w.1, w.2.2)) := by
    have a1 : ws.map Prod.fst = xs := map_fst_zip' xs (ys.zip z) (by simp [hx, hy])
    have a2 : (ws.map Prod.snd).map Prod.snd = z := by
      rw [map_snd_zip' xs (ys.zip z) (by simp [hx, hy]), map_snd_zip' ys z hy]
    conv_lhs => rw [← a1, ← a2, List.map_map, List.zip_map']
    rfl
  have p2 : ys.zip z = ws.map (fun w => (w.2.1, w.2.2)) := (map_snd_zip' xs (ys.zip z) (by simp [hx, hy])).symm
  have p3 : z = ws.map (fun w => w.2.2) := by
    have a2 : (ws.map Prod.snd).map Prod.snd = z := by
      rw [map_snd_zip' xs (ys.zip z) (by simp [hx, hy]), map_snd_zip' ys z hy]
    rw [← a2, List.map_map]; rfl
  have sub : ∀ {γ : Type} [DecidableEq γ] (f : Int × Int × Int → γ), |m.value (ws.map f) - entropy (ws.map f)| ≤
      m.constant K * vanishing z.length := by
    intro γ _ f
    have hc : (ws.map f).toFinset.card ≤ K := by
      refine le_trans ?_ hK
      have := card_map_le ws id f (fun u _ v _ e => by rw [show u = v from e])
      rwa [List.map_id] at this
    have := value_rate hreg (xs := ws.map f) (by rw [List.length_map, wl]; exact hN) hc
    rwa [List.length_map, wl] at this
  have q1 := sub (fun w => (w.1, w.2.2))
  have q2 := sub (fun w => (w.2.1, w.2.2))
  have q3 := sub (fun w => w.2.2)
  have q4 := sub id
  rw [← p1] at q1
  rw [← p2] at q2
  rw [← p3] at q3
  rw [List.map_id] at q4
  rw [abs_le] at q1 q2 q3 q4 ⊢
  constructor <;> linarith [q1.1, q1.2, q2.1, q2.2, q3.1, q3.2, q4.1, q4.2]

example := C77_cmi_rate .zhang .zhang .zhang (by simp) [5, 7, 5] [0, 0, 1] [2, 2, 2] (by decide) (by decide) (by decide) 3 (by decide)
  (.num 2) (by norm_num [Base.Std])

/-! ### Words over an alphabet -/

/-- the number of lists of length `n` over `S` is at most `|S|^n` -/
theorem card_words (S : Finset Int) (n : Nat) : ∃ W : Finset (List Int), W.card ≤ S.card ^ n ∧
    ∀ w : List Int, w.length = n → (∀ a ∈ w, a ∈ S) → w ∈ W := by
  induction n with
  | zero => exact ⟨{[]}, by simp, fun w hw _ => by simp [List.length_eq_zero_iff.1 hw]⟩
  | succ n ih =>
    obtain ⟨W, h1, h2⟩ := ih
    refine ⟨(S ×ˢ W).image (fun x => x.1 :: x.2), ?_, ?_⟩
    · refine Finset.card_image_le.trans ?_
      rw [Finset.card_product, pow_succ, mul_comm]
      exact Nat.mul_le_mul_right _ h1
    · intro w hw hS
      cases w with
      | nil => simp at hw
      | cons a w =>
        rw [Finset.mem_image]
        exact ⟨(a, w), Finset.mem_product.2 ⟨hS a (by simp), h2 w (by simpa using hw) fun x hx => hS x (by simp [hx])⟩, rfl⟩

theorem getD_in_alphabet {S : Finset Int} {xs : List Int} (h : ∀ a ∈ xs, a ∈ S) {t : Nat} (ht : t < xs.length) :
    xs.getD t default ∈ S := by
  rw [List.getD_eq_getElem?_getD, List.getElem?_eq_getElem ht]
  exact h _ (List.getElem_mem _)

/-- **C77** Transfer entropy: every class but ANSB is within `4·C(K)·(1+log R)/√R` of the textbook plug-in value, where `R` is the
number of embedded observations and `K = D·(S^l·D^k)` for series with at most `S` (source) and `D` (destination) distinct values;
for fewer than `2³²` samples the plug-in value is the library's `approach="discrete"` value. -/
theorem C77_te_rate (c : BiasClass) (m : Method) (h : c.Means m) (hm : m ≠ .ansb) (source dest : List Int) (l k s : Nat)
    (hs : 0 < s) (hl : 0 < l) (hk : 0 < k) (hlen : source.length = dest.length)
    (hR : 2 ≤ numRows dest.length (max k l) s) (hlong : max k l * s < source.length) (b : Base) (hb : b.Std) :
    let K := dest.toFinset.card * (source.toFinset.card ^ l * dest.toFinset.card ^ k)
    let T := cmi (futRows dest dest.length (max k l) s) (histRows source dest.length (max k l) s l)
      (histRows dest dest.length (max k l) s k)
    ∃ v, biasTE c source dest (teParams l k s) (some (.int 0)) none b = .ok v ∧
      |v - T / b.ln| ≤ 4 * m.constant K * vanishing (numRows dest.length (max k l) s) / b.ln ∧
      (dest.length < 2 ^ 32 → discreteTE source dest (teParams l k s) (some (.int 0)) none b = .ok (T / b.ln)) := by
  intro K T
  have hreg := means_regular h hm
  refine ⟨_, (C66_te c m h source dest l k s hs hl hk hlong hlen b hb.valid {} lawful_none).1 (regular_defined hm _), ?_, fun hov =>
    C24_te_is_textbook source dest l k s hs hl hk hlong hlen hov b hb.valid⟩
  rw [← sub_div, abs_div, abs_of_pos hb.ln_pos]
  refine div_le_div_of_nonneg_right ?_ hb.ln_pos.le
  have hm' : max k l * s < dest.length := hlen ▸ hlong
  set R := numRows dest.length (max k l) s with hRd
  set f : Nat → List Int := fun i => [dest.getD ((max k l + i) * s) default] with hf
  set g : Nat → List Int := histRow source (max k l) s l with hg
  set d : Nat → List Int := histRow dest (max k l) s k with hd
  have hF : futRows dest dest.length (max k l) s = (List.range R).map f := rfl
  have hD : histRows dest dest.length (max k l) s k = (List.range R).map d := rfl
  have hG : histRows source dest.length (max k l) s l = (List.range R).map g := rfl
  have hidx : ∀ i, i < R → (max k l + i) * s < dest.length := fun i hi => (lt_numRows hs hm').1 hi
  obtain ⟨WS, cS, mS⟩ := card_words source.toFinset l
  obtain ⟨WD, cD, mD⟩ := card_words dest.toFinset k
  have hcard : ((List.range R).map (fun i => (f i, g i, d i))).toFinset.card ≤ K := by
    have hsub : ((List.range R).map (fun i => (f i, g i, d i))).toFinset ⊆ (dest.toFinset.image (fun x => [x])) ×ˢ (WS ×ˢ WD) := by
      intro w hw
      rw [List.mem_toFinset, List.mem_map] at hw
      obtain ⟨i, hi, rfl⟩ := hw
      have hi' := List.mem_range.1 hi
      have hlast := hidx i hi'
      have hin : ∀ h' j, h' ≤ max k l → j < h' → (max k l + i - h' + j) * s < dest.length := fun h' j h1 h2 =>
        lt_of_le_of_lt (Nat.mul_le_mul_right s (by omega)) hlast
      refine Finset.mem_product.2 ⟨?_, Finset.mem_product.2 ⟨?_, ?_⟩⟩
      · exact Finset.mem_image.2 ⟨_, getD_in_alphabet (fun a ha => List.mem_toFinset.2 ha) hlast, rfl⟩
      · refine mS _ (by simp [hg, histRow]) fun a ha => ?_
        obtain ⟨j, hj, rfl⟩ := List.mem_map.1 ha
        exact getD_in_alphabet (fun a ha => List.mem_toFinset.2 ha) (hlen ▸ hin l j (le_max_right _ _) (List.mem_range.1 hj))
      · refine mD _ (by simp [hd, histRow]) fun a ha => ?_
        obtain ⟨j, hj, rfl⟩ := List.mem_map.1 ha
        exact getD_in_alphabet (fun a ha => List.mem_toFinset.2 ha) (hin k j (le_max_left _ _) (List.mem_range.1 hj))
    refine (Finset.card_le_card hsub).trans ?_
    rw [Finset.card_product, Finset.card_product]
    exact Nat.mul_le_mul Finset.card_image_le (Nat.mul_le_mul cS cD)
  have sub : ∀ {γ : Type} [DecidableEq γ] (φ : Nat → γ) (_ : ∀ u v, (f u, g u, d u) = (f v, g v, d v) → φ u = φ v),
      |m.value ((List.range R).map φ) - entropy ((List.range R).map φ)| ≤ m.constant K * vanishing R := by
    intro γ _ φ hφ
    have hc : ((List.range R).map φ).toFinset.card ≤ K :=
      (card_map_le (List.range R) (fun i => (f i, g i, d i)) φ (fun u _ v _ e => hφ u v e)).trans hcard
    have := value_rate hreg (xs := (List.range R).map φ) (by simpa using hR) hc
    simpa using this
  have q1 := sub (fun i => (f i, d i)) (fun u v e => by simp only [Prod.mk.injEq] at e ⊢; exact ⟨e.1, e.2.2⟩)
  have q2 := sub (fun i => (g i, d i)) (fun u v e => by simp only [Prod.mk.injEq] at e ⊢; exact e.2)
  have q3 := sub (fun i => (f i, g i, d i)) (fun u v e => e)
  have q4 := sub d (fun u v e => by simp only [Prod.mk.injEq] at e; exact e.2.2)
  have eT : T = entropy ((List.range R).map (fun i => (f i, d i))) + entropy ((List.range R).map (fun i => (g i, d i))) -
      entropy ((List.range R).map (fun i => (f i, g i, d i))) - entropy ((List.range R).map d) := by
    show cmi _ _ _ = _
    rw [hF, hG, hD, cmi_map]
  rw [eT]
  simp only [srcSel_none]
  rw [hF, hD, zip_range_map, zip_range_map, zip_range_map]
  rw [abs_le] at q1 q2 q3 q4 ⊢
  constructor <;> linarith [q1.1, q1.2, q2.1, q2.2, q3.1, q3.2, q4.1, q4.2]

example := C77_te_rate .zhang .zhang .zhang (by simp) [0, 1, 1, 0, 1] [2, 3, 2, 3, 3] 1 2 1 (by decide) (by decide) (by decide) rfl
  (by decide) (by decide) (.num 2) (by norm_num [Base.Std])

/-! ### Consistency of the measures of several variables -/

section
variable {α β : Type} [DecidableEq α] [DecidableEq β]

theorem freq_image {S : Finset α} {ws : List α} (hS : ∀ w ∈ ws, w ∈ S) (f : α → β) (y : β) :
    freq (ws.map f) y = ∑ a ∈ S with f a = y, freq ws a := by
  have hc : cnt (ws.map f) y = ∑ a ∈ S with f a = y, cnt ws a := by
    induction ws with
    | nil => simp [cnt]
    | cons w ws ih =>
      have ih' := ih fun v hv => hS v (List.mem_cons_of_mem _ hv)
      have hw := hS w List.mem_cons_self
      simp only [cnt, List.map_cons, List.countP_cons] at ih' ⊢
      rw [ih', Finset.sum_add_distrib]
      congr 1
      simp only [decide_eq_true_eq]
      rw [Finset.sum_ite_eq (Finset.filter (fun a => f a = y) S) w (fun _ => 1)]
      simp [hw]
  unfold freq
  rw [hc, List.length_map, ← Finset.sum_div]
  push_cast
  rfl

/-- the plug-in entropy of an image converges when the frequencies converge -/
theorem entropy_image_tendsto {S : Finset α} {W : ℕ → List α} (hS : ∀ n, ∀ w ∈ W n, w ∈ S) {p : α → ℝ}
    (hp : ∀ a ∈ S, Filter.Tendsto (fun n => freq (W n) a) Filter.atTop (nhds (p a))) (f : α → β) :
    Filter.Tendsto (fun n => entropy ((W n).map f)) Filter.atTop (nhds (shannonOf S p f)) := by
  refine entropy_tendsto (S := S.image f) (fun n y hy => ?_) fun y _ => ?_
  · obtain ⟨w, hw, rfl⟩ := List.mem_map.1 hy
    exact Finset.mem_image_of_mem _ (hS n w hw)
  · simp only [fun n => freq_image (hS n) f y]
    exact tendsto_finsetSum _ fun a ha => hp a (Finset.mem_filter.1 ha).1

end

/-- **C77** Consistency of the mutual information: for a sequence of pairs of series over a finite set `S` of joint values, of
lengths going to infinity, whose joint relative frequencies converge to `p`, every class but ANSB converges to the mutual information
`H(X) + H(Y) − H(X,Y)` of `p`. -/
theorem C77_mi_consistent (c : BiasClass) (m : Method) (h : c.Means m) (hm : m ≠ .ansb) (S : Finset (Int × Int)) (X Y : ℕ → List Int)
    (hl : ∀ n, (X n).length = (Y n).length) (hS : ∀ n, ∀ w ∈ (X n).zip (Y n), w ∈ S)
    (hN : Filter.Tendsto (fun n => (X n).length) Filter.atTop Filter.atTop) (p : Int × Int → ℝ)
    (hp : ∀ w ∈ S, Filter.Tendsto (fun n => freq ((X n).zip (Y n)) w) Filter.atTop (nhds (p w))) (b : Base) (hb : b.Std) :
    ∃ v : ℕ → ℝ, (∀ᶠ n in Filter.atTop, biasMI c [X n, Y n] (some 0) b = .ok (v n)) ∧
      Filter.Tendsto v Filter.atTop (nhds ((shannonOf S p Prod.fst + shannonOf S p Prod.snd - shannon S p) / b.ln)) := by
  have jr : ∀ n, entropy (rows (X n).length [X n, Y n]) = entropy ((X n).zip (Y n)) ∧
      (rows (X n).length [X n, Y n]).toFinset.card ≤ S.card := fun n => by
    obtain ⟨N, hNe⟩ : ∃ N, N = (X n).length := ⟨_, rfl⟩
    rw [← hNe]
    have hx := bias_map_getD_range (X n) hNe.symm
    have hy := bias_map_getD_range (Y n) ((hl n).symm.trans hNe.symm)
    have e : (X n).zip (Y n) = (List.range N).map (fun t => ((X n).getD t default, (Y n).getD t default)) := by
      conv_lhs => rw [hx, hy, zip_range_map]
    have hc := card_map_le (List.range N) (fun t => ((X n).getD t default, (Y n).getD t default)) (row [X n, Y n])
      (by simp [row])
    refine ⟨?_, hc.trans ?_⟩
    · rw [e]; exact entropy_map_congr _ _ _ (by simp [row])
    · rw [← e]
      exact Finset.card_le_card fun w hw => hS n w (List.mem_toFinset.1 hw)
  have key : ∀ n, ∃ v, 2 ≤ (X n).length → biasMI c [X n, Y n] (some 0) b = .ok v ∧
      |v * b.ln - (entropy (X n) + entropy (Y n) - entropy ((X n).zip (Y n)))| ≤
        (3 * m.constant S.card) * vanishing (X n).length := fun n => by
    by_cases h2 : 2 ≤ (X n).length
    · obtain ⟨v, e1, e2, -⟩ := C77_mi_rate c m h hm [X n, Y n] (X n).length h2 (by simp) (by simp [hl]) S.card (jr n).2 b hb
      refine ⟨v, fun _ => ⟨e1, ?_⟩⟩
      have e3 : totalCorrelation (X n).length [X n, Y n] = entropy (X n) + entropy (Y n) - entropy ((X n).zip (Y n)) := by
        unfold totalCorrelation
        rw [(jr n).1]
        simp
      rw [e3] at e2
      have hln := hb.ln_pos
      have e4 : v * b.ln - (entropy (X n) + entropy (Y n) - entropy ((X n).zip (Y n))) =
          (v - (entropy (X n) + entropy (Y n) - entropy ((X n).zip (Y n))) / b.ln) * b.ln := by
        field_simp
      rw [e4, abs_mul, abs_of_pos hln]
      rw [le_div_iff₀ hln] at e2
      refine e2.trans (le_of_eq ?_)
      simp only [List.length_cons, List.length_nil]
      push_cast
      ring
    · exact ⟨0, fun h' => absurd h' h2⟩
  choose v hv using key
  have ev : ∀ᶠ n in Filter.atTop, 2 ≤ (X n).length := hN.eventually_ge_atTop 2
  refine ⟨v, by filter_upwards [ev] with n hn using (hv n hn).1, ?_⟩
  have t1 := entropy_image_tendsto hS hp Prod.fst
  have t2 := entropy_image_tendsto hS hp Prod.snd
  have t3 := entropy_tendsto hS hp
  simp only [fun n => map_fst_zip' (X n) (Y n) (hl n)] at t1
  simp only [fun n => map_snd_zip' (X n) (Y n) (hl n)] at t2
  have t4 := rate_tendsto (v := fun n => v n * b.ln) (C := 3 * m.constant S.card) hN
    (by filter_upwards [ev] with n hn using (hv n hn).2) ((t1.add t2).sub t3)
  have t5 := t4.div_const b.ln
  simpa only [mul_div_cancel_right₀ _ hb.ln_pos.ne'] using t5

/-- **C77** Consistency of the transfer entropy: for a sequence of pairs of series over a finite alphabet `A`, of lengths going to
infinity, whose joint relative frequencies of (future, source history, destination history) converge to `p` on the finite set `S` of
such triples, every class but ANSB converges to the conditional mutual information `H(F,D) + H(G,D) − H(F,G,D) − H(D)` of `p`. -/
theorem C77_te_consistent (c : BiasClass) (m : Method) (h : c.Means m) (hm : m ≠ .ansb) (l k s : Nat) (hs : 0 < s) (hl : 0 < l)
    (hk : 0 < k) (A : Finset Int) (X Y : ℕ → List Int) (hlen : ∀ n, (X n).length = (Y n).length)
    (hX : ∀ n, ∀ a ∈ X n, a ∈ A) (hY : ∀ n, ∀ a ∈ Y n, a ∈ A)
    (hN : Filter.Tendsto (fun n => numRows (Y n).length (max k l) s) Filter.atTop Filter.atTop)
    (S : Finset (List Int × List Int × List Int)) (p : List Int × List Int × List Int → ℝ)
    (hS : ∀ n, ∀ w ∈ (futRows (Y n) (Y n).length (max k l) s).zip ((histRows (X n) (Y n).length (max k l) s l).zip
      (histRows (Y n) (Y n).length (max k l) s k)), w ∈ S)
    (hp : ∀ w ∈ S, Filter.Tendsto (fun n => freq ((futRows (Y n) (Y n).length (max k l) s).zip
      ((histRows (X n) (Y n).length (max k l) s l).zip (histRows (Y n) (Y n).length (max k l) s k))) w) Filter.atTop (nhds (p w)))
    (b : Base) (hb : b.Std) :
    ∃ v : ℕ → ℝ, (∀ᶠ n in Filter.atTop, biasTE c (X n) (Y n) (teParams l k s) (some (.int 0)) none b = .ok (v n)) ∧
      Filter.Tendsto v Filter.atTop (nhds ((shannonOf S p (fun w => (w.1, w.2.2)) + shannonOf S p (fun w => w.2)
        - shannon S p - shannonOf S p (fun w => w.2.2)) / b.ln)) := by
  set F : ℕ → List (List Int) := fun n => futRows (Y n) (Y n).length (max k l) s with hF
  set G : ℕ → List (List Int) := fun n => histRows (X n) (Y n).length (max k l) s l with hG
  set D : ℕ → List (List Int) := fun n => histRows (Y n) (Y n).length (max k l) s k with hD
  have fl : ∀ n, (F n).length = numRows (Y n).length (max k l) s := fun n => by simp [hF, futRows]
  have gl : ∀ n, (G n).length = numRows (Y n).length (max k l) s := fun n => by simp [hG, histRows]
  have dl : ∀ n, (D n).length = numRows (Y n).length (max k l) s := fun n => by simp [hD, histRows]
  set K0 : ℕ := A.card * (A.card ^ l * A.card ^ k) with hK0
  have hreg := means_regular h hm
  have key : ∀ n, ∃ v, 2 ≤ numRows (Y n).length (max k l) s → max k l * s < (X n).length →
      biasTE c (X n) (Y n) (teParams l k s) (some (.int 0)) none b = .ok v ∧
      |v * b.ln - cmi (F n) (G n) (D n)| ≤ (4 * m.constant K0) * vanishing (numRows (Y n).length (max k l) s) := fun n => by
    by_cases h2 : 2 ≤ numRows (Y n).length (max k l) s ∧ max k l * s < (X n).length
    · obtain ⟨v, e1, e2, -⟩ := C77_te_rate c m h hm (X n) (Y n) l k s hs hl hk (hlen n) h2.1 h2.2 b hb
      refine ⟨v, fun _ _ => ⟨e1, ?_⟩⟩
      have hln := hb.ln_pos
      have e4 : v * b.ln - cmi (F n) (G n) (D n) = (v - cmi (F n) (G n) (D n) / b.ln) * b.ln := by field_simp
      rw [e4, abs_mul, abs_of_pos hln]
      rw [le_div_iff₀ hln] at e2
      refine e2.trans ?_
      refine mul_le_mul_of_nonneg_right (mul_le_mul_of_nonneg_left ?_ (by norm_num)) (vanishing_nonneg _)
      have cX : (X n).toFinset.card ≤ A.card := Finset.card_le_card fun a ha => hX n a (List.mem_toFinset.1 ha)
      have cY : (Y n).toFinset.card ≤ A.card := Finset.card_le_card fun a ha => hY n a (List.mem_toFinset.1 ha)
      exact constant_mono hreg (Nat.mul_le_mul cY (Nat.mul_le_mul (Nat.pow_le_pow_left cX l) (Nat.pow_le_pow_left cY k)))
    · exact ⟨0, fun h1 h2' => absurd ⟨h1, h2'⟩ h2⟩
  choose v hv using key
  have ev : ∀ᶠ n in Filter.atTop, 2 ≤ numRows (Y n).length (max k l) s ∧ max k l * s < (X n).length := by
    filter_upwards [hN.eventually_ge_atTop (2 + max k l * s)] with n hn
    have := numRows_le (Y n).length (max k l) s hs
    exact ⟨by omega, by rw [hlen n]; omega⟩
  refine ⟨v, by filter_upwards [ev] with n hn using (hv n hn.1 hn.2).1, ?_⟩
  have z1 : ∀ n, ((F n).zip ((G n).zip (D n))).map (fun w => (w.1, w.2.2)) = (F n).zip (D n) := fun n => by
    rw [hF, hG, hD]; simp only [futRows, histRows, zip_range_map, List.map_map]; rfl
  have z2 : ∀ n, ((F n).zip ((G n).zip (D n))).map (fun w => w.2) = (G n).zip (D n) := fun n => by
    rw [hF, hG, hD]; simp only [futRows, histRows, zip_range_map, List.map_map]; rfl
  have z3 : ∀ n, ((F n).zip ((G n).zip (D n))).map (fun w => w.2.2) = D n := fun n => by
    rw [hF, hG, hD]; simp only [futRows, histRows, zip_range_map, List.map_map]; rfl
  have t1 := (entropy_image_tendsto hS hp (fun w => (w.1, w.2.2))).congr (fun n => congrArg entropy (z1 n))
  have t2 := (entropy_image_tendsto hS hp (fun w => w.2)).congr (fun n => congrArg entropy (z2 n))
  have t3 := (entropy_image_tendsto hS hp (fun w => w.2.2)).congr (fun n => congrArg entropy (z3 n))
  have t4 := entropy_tendsto hS hp
  have t5 := ((t1.add t2).sub t4).sub t3
  have e : ∀ n, entropy ((F n).zip (D n)) + entropy ((G n).zip (D n)) - entropy ((F n).zip ((G n).zip (D n))) - entropy (D n) =
      cmi (F n) (G n) (D n) := fun n =>
    (cmi_eq_entropies (F n) (G n) (D n) ((fl n).trans (gl n).symm) ((gl n).trans (dl n).symm)).symm
  have t5 := t5.congr e
  have t6 := rate_tendsto (v := fun n => v n * b.ln) (C := 4 * m.constant K0) hN
    (by filter_upwards [ev] with n hn using (hv n hn.1 hn.2).2) t5
  have t7 := t6.div_const b.ln
  simpa only [mul_div_cancel_right₀ _ hb.ln_pos.ne'] using t7

/-! ### The exception -/

/-- **C77** (negative) ANSB has no such bound: with a fixed alphabet it grows like `log N` and so exceeds the logarithm of the number
of symbols — the largest value the entropy can have — as soon as `2K ≤ N`. -/
theorem C77_ansb_exceeds (xs : List Int) (h : xs ≠ []) (h2 : 2 * xs.toFinset.card ≤ xs.length) (b : Base) (hb : b.Std) :
    ∃ v p, (ansbH none b).entropy (.arr1 xs) = .ok v ∧ discreteEntropy [.arr1 xs] b = .ok p ∧
      p ≤ Real.log xs.toFinset.card / b.ln ∧ Real.log xs.toFinset.card / b.ln < v ∧
      (Real.log xs.length + (Real.eulerMascheroniConstant - Real.log 2)) / b.ln ≤ v := by
  have hc1 : (1:ℝ) ≤ xs.toFinset.card := by
    obtain ⟨a, ha⟩ := List.exists_mem_of_ne_nil _ h
    exact cardR_pos ha
  have hcn : 1 ≤ xs.toFinset.card := by exact_mod_cast hc1
  have hdup : ¬ xs.Nodup := fun hd => by
    have := (nodup_iff_card xs).1 hd; omega
  obtain ⟨a1, -⟩ := ansb_bounds xs.length xs.toFinset.card (by omega)
  refine ⟨_, _, (C55_ansb xs h b hb.valid).1 hdup, discreteEntropy_arr1 h hb.valid, ?_, ?_, ?_⟩
  · exact div_le_div_of_nonneg_right (entropy_le_log_card xs h) hb.ln_pos.le
  · refine div_lt_div_of_pos_right ?_ hb.ln_pos
    have hγ := Real.one_half_lt_eulerMascheroniConstant
    have h2' : 2 * (xs.toFinset.card : ℝ) ≤ xs.length := by exact_mod_cast h2
    have := Real.log_le_log (by linarith) h2'
    rw [Real.log_mul (by norm_num) (by linarith)] at this
    linarith
  · exact div_le_div_of_nonneg_right a1 hb.ln_pos.le

example := C77_ansb_exceeds [0, 0, 1, 1, 0] (by decide) (by decide) (.num 2) (by norm_num [Base.Std])

/-- **C77** (negative) Along every sequence of data sets over a fixed alphabet with lengths going to infinity, ANSB diverges. -/
theorem C77_ansb_diverges (S : Finset Int) (X : ℕ → List Int) (hS : ∀ n, ∀ a ∈ X n, a ∈ S)
    (hN : Filter.Tendsto (fun n => (X n).length) Filter.atTop Filter.atTop) (b : Base) (hb : b.Std) :
    ∃ v : ℕ → ℝ, (∀ᶠ n in Filter.atTop, (ansbH none b).entropy (.arr1 (X n)) = .ok (v n)) ∧
      Filter.Tendsto v Filter.atTop Filter.atTop := by
  have key : ∀ n, ∃ v, 2 * S.card + 1 ≤ (X n).length → (ansbH none b).entropy (.arr1 (X n)) = .ok v ∧
      (Real.log (X n).length + (Real.eulerMascheroniConstant - Real.log 2)) / b.ln ≤ v := fun n => by
    by_cases h2 : 2 * S.card + 1 ≤ (X n).length
    · have hK : (X n).toFinset.card ≤ S.card := Finset.card_le_card fun a ha => hS n a (List.mem_toFinset.1 ha)
      obtain ⟨v, p, e1, -, -, -, e2⟩ := C77_ansb_exceeds (X n) (by rintro h0; simp [h0] at h2) (by omega) b hb
      exact ⟨v, fun _ => ⟨e1, e2⟩⟩
    · exact ⟨0, fun h' => absurd h' h2⟩
  choose v hv using key
  have ev := hN.eventually_ge_atTop (2 * S.card + 1)
  refine ⟨v, by filter_upwards [ev] with n hn using (hv n hn).1, ?_⟩
  have hlog : Filter.Tendsto (fun n => (Real.log (X n).length + (Real.eulerMascheroniConstant - Real.log 2)) / b.ln)
      Filter.atTop Filter.atTop :=
    Filter.Tendsto.atTop_div_const hb.ln_pos (Filter.tendsto_atTop_add_const_right _ _
      (Real.tendsto_log_atTop.comp (tendsto_natCast_atTop_atTop.comp hN)))
  exact Filter.tendsto_atTop_mono' _ (by filter_upwards [ev] with n hn using (hv n hn).2) hlog

/-! ### Non-vacuity -/

/-- `n` zeros followed by `n` ones: lengths go to infinity, frequencies converge to `1/2` -/
example : ∃ (S : Finset Int) (X : ℕ → List Int) (p : Int → ℝ), (∀ n, ∀ a ∈ X n, a ∈ S) ∧
    Filter.Tendsto (fun n => (X n).length) Filter.atTop Filter.atTop ∧
    (∀ a ∈ S, Filter.Tendsto (fun n => freq (X n) a) Filter.atTop (nhds (p a))) ∧ ∑ a ∈ S, p a = 1 := by
  refine ⟨{0, 1}, fun n => List.replicate n 0 ++ List.replicate n 1, fun _ => 1 / 2, ?_, ?_, ?_, by norm_num⟩
  · intro n a ha
    rw [List.mem_append, List.mem_replicate, List.mem_replicate] at ha
    rcases ha with ⟨_, rfl⟩ | ⟨_, rfl⟩ <;> simp
  · simp only [List.length_append, List.length_replicate]
    exact Filter.tendsto_atTop_mono (fun n => by omega : ∀ n : ℕ, n ≤ n + n) Filter.tendsto_id
  · intro a ha
    refine tendsto_const_nhds.congr' ?_
    filter_upwards [Filter.eventually_gt_atTop 0] with n hn
    have hn' : (n:ℝ) ≠ 0 := by exact_mod_cast hn.ne'
    simp only [Finset.mem_insert, Finset.mem_singleton] at ha
    rcases ha with rfl | rfl
    · simp [freq, cnt, List.countP_replicate]
      field_simp; norm_num
    · simp [freq, cnt, List.countP_replicate]
      field_simp; norm_num

example : BiasClass.Means (.bayes (.str "min-max") none) (.bayes .minimax none) ∧ (Method.bayes .minimax none) ≠ .ansb :=
  ⟨.bayesStr (.inr (.inr (.inr ⟨rfl, rfl⟩))), by simp⟩

example : 2 * ([0, 0, 1, 1, 0] : List Int).toFinset.card ≤ ([0, 0, 1, 1, 0] : List Int).length := by decide

example : 2 ≤ numRows ([0, 1, 1, 0, 1] : List Int).length (max 1 2) 1 ∧ max 1 2 * 1 < ([0, 1, 1, 0, 1] : List Int).length := by decide

end Verif
