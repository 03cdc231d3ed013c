import Verif.Lemmas.AlmostSure
import Verif.Props.EndToEnd
import Verif.Props.EndToEnd2
import Verif.Props.EndToEnd3

/-!
# C94: the estimates converge almost surely to the true value

Concrete random sequences that meet the hypotheses are in `Props/AlmostSureEx.lean`.
-/

namespace Verif

open Spec MeasureTheory ProbabilityTheory

section
variable {α β : Type} [DecidableEq α] [DecidableEq β]

/-- `V` is within the common rate of the plug-in entropy for alphabets of at most `K` symbols -/
def Near (V : List α → ℝ) (K : ℕ) : Prop :=
  ∃ C, ∀ xs : List α, 2 ≤ xs.length → xs.toFinset.card ≤ K → |V xs - entropy xs| ≤ C * vanishing xs.length

theorem near_entropy (K : ℕ) : Near (entropy (α := α)) K := ⟨0, fun xs _ _ => by simp⟩

theorem near_value {m : Method} (hm : m.Regular) (K : ℕ) : Near (fun xs : List α => m.value xs) K :=
  ⟨m.constant K, fun _ h2 hK => value_rate hm h2 hK⟩

theorem near_mm (K : ℕ) : Near (millerMadow (α := α)) K := by
  refine ⟨K, fun xs h2 hK => ?_⟩
  have hN : (2 : ℝ) ≤ xs.length := by exact_mod_cast h2
  have hc : (xs.toFinset.card : ℝ) ≤ K := by exact_mod_cast hK
  have hc1 : (1 : ℝ) ≤ xs.toFinset.card := by
    obtain ⟨a, ha⟩ := List.exists_mem_of_ne_nil xs (by rintro rfl; simp at h2)
    exact cardR_pos ha
  have hs : Real.sqrt xs.length ≤ xs.length := Real.sqrt_le_iff.2 ⟨by linarith, by nlinarith⟩
  have hs0 : 0 < Real.sqrt xs.length := Real.sqrt_pos.2 (by linarith)
  have hl := Real.log_nonneg (by linarith : (1:ℝ) ≤ xs.length)
  have e : millerMadow xs - entropy xs = ((xs.toFinset.card : ℝ) - 1) / (2 * xs.length) := by unfold millerMadow; ring
  rw [e, abs_of_nonneg (div_nonneg (by linarith) (by linarith)), vanishing, mul_div_assoc']
  refine div_le_div₀ (by nlinarith) ?_ hs0 (by linarith)
  nlinarith

theorem near_tendsto {S : Finset α} {L : ℕ → List α} (hS : ∀ n, ∀ w ∈ L n, w ∈ S) {p : α → ℝ}
    (hp : ∀ a ∈ S, Filter.Tendsto (fun n => freq (L n) a) Filter.atTop (nhds (p a)))
    (hN : Filter.Tendsto (fun n => (L n).length) Filter.atTop Filter.atTop) (f : α → β) {V : List β → ℝ} (hV : ∀ K, Near V K) :
    Filter.Tendsto (fun n => V ((L n).map f)) Filter.atTop (nhds (shannonOf S p f)) := by
  obtain ⟨C, hC⟩ := hV (S.image f).card
  refine rate_tendsto (C := C) hN ?_ (entropy_image_tendsto hS hp f)
  filter_upwards [hN.eventually_ge_atTop 2] with n hn
  have hc : ((L n).map f).toFinset.card ≤ (S.image f).card := by
    refine Finset.card_le_card fun b hb => ?_
    obtain ⟨w, hw, rfl⟩ := List.mem_map.1 (List.mem_toFinset.1 hb)
    exact Finset.mem_image_of_mem _ (hS n w hw)
  have := hC ((L n).map f) (by simpa using hn) hc
  rwa [List.length_map] at this

theorem shannonOf_id (S : Finset α) (p : α → ℝ) : shannonOf S p (fun a => a) = shannon S p := by
  unfold shannonOf shannon
  rw [Finset.image_id']
  congr 1
  refine Finset.sum_congr rfl fun a ha => ?_
  show (∑ x ∈ S with x = a, p x) * Real.log (∑ x ∈ S with x = a, p x) = _
  rw [Finset.filter_eq' S a, if_pos ha, Finset.sum_singleton]

theorem near_tendsto_id {S : Finset α} {L : ℕ → List α} (hS : ∀ n, ∀ w ∈ L n, w ∈ S) {p : α → ℝ}
    (hp : ∀ a ∈ S, Filter.Tendsto (fun n => freq (L n) a) Filter.atTop (nhds (p a)))
    (hN : Filter.Tendsto (fun n => (L n).length) Filter.atTop Filter.atTop) {V : List α → ℝ} (hV : ∀ K, Near V K) :
    Filter.Tendsto (fun n => V (L n)) Filter.atTop (nhds (shannon S p)) := by
  have := near_tendsto hS hp hN (fun a => a) hV
  rw [shannonOf_id] at this
  simpa using this

end

theorem famMethod_regular {f : Fam} {m : Method} (h : FamMethod f m) : m.Regular := by cases h <;> trivial

/-- the approach is one whose correction vanishes: one of the six parameter-free corrected ones or the Bayesian one, with its keyword arguments -/
inductive Corrected (kw : Kw) : Fam → Method → Prop
  | free {f : Fam} {m : Method} : FamMethod f m → Corrected kw f m
  | bayes {al : AlphaArg} {K : Option PyArg} {m : Method} : (BiasClass.bayes al K).Means m → (kw "alpha").bind PyVal.toAlpha = some al →
      (kwOr kw "K" .none).toOptArg = some K → Corrected kw .bayes m

theorem Corrected.regular {kw : Kw} {f : Fam} {m : Method} (h : Corrected kw f m) : m.Regular := by
  cases h with
  | free h => exact famMethod_regular h
  | bayes h => exact means_regular h (by cases h <;> simp)

section
variable {Ω : Type} [MeasurableSpace Ω] {μ : Measure Ω} [IsProbabilityMeasure μ] {M : ℕ}
variable {W : World} {a : PyName} {kw : Kw} {b : Base} {cond : CondKw PyData}

theorem observed_length {α : Type} (X : ℕ → Ω → α) (n : ℕ) (ω : Ω) : (observed X n ω).length = n := by simp [observed]

theorem observed_tendsto {α : Type} (X : ℕ → Ω → α) (ω : Ω) : Filter.Tendsto (fun n => (observed X n ω).length) Filter.atTop Filter.atTop := by
  simp only [observed_length]; exact Filter.tendsto_id

theorem observed_ne {α : Type} (X : ℕ → Ω → α) {n : ℕ} (hn : 0 < n) (ω : Ω) : observed X n ω ≠ [] := by
  intro h; have := observed_length X n ω; rw [h] at this; simp at this; omega

theorem observed_map {α β : Type} (X : ℕ → Ω → α) (g : α → β) (n : ℕ) (ω : Ω) :
    (observed X n ω).map g = observed (fun i ω => g (X i ω)) n ω := by simp [observed]

theorem observed_zip {α β : Type} (X : ℕ → Ω → α) (Y : ℕ → Ω → β) (n : ℕ) (ω : Ω) :
    (observed X n ω).zip (observed Y n ω) = observed (fun i ω => (X i ω, Y i ω)) n ω := by
  simp [observed, List.zip_map']

/-- the formulas of the eight parameter-free entropy estimators are near the plug-in entropy -/
theorem near_formula {f : Fam} (hf : f ∈ simpleFams) (K : ℕ) : Near (entropyFormula f) K := by
  simp only [simpleFams, List.mem_cons, List.not_mem_nil, or_false] at hf
  rcases hf with rfl | rfl | rfl | rfl | rfl | rfl | rfl | rfl
  · exact near_entropy K
  · exact near_mm K
  · exact near_value (m := .grassberger) trivial K
  · exact near_value (m := .chaoShen) trivial K
  · exact near_value (m := .chaoWangJost) trivial K
  · refine ⟨2 * K, fun xs h2 hK => ?_⟩
    exact shrink_rate h2 hK
  · exact near_value (m := .zhang) trivial K
  · exact near_value (m := .bonachela) trivial K

/-- **C94** Entropy: if the observations are symbols of a finite alphabet with distribution `p`, independent when far enough apart, then almost surely
`im.entropy` of the first `n` observations converges, as `n` grows, to the Shannon entropy of `p` in the unit of the base, for each of the eight
parameter-free discrete approaches. -/
theorem C94_entropy (f : Fam) (hf : f ∈ simpleFams) (h : Call W .h f a kw b) (hb : b.Std) {X : ℕ → Ω → Int} {S : Finset Int} {p : Int → ℝ}
    (hM : 0 < M) (hX : Sampling μ X S p M) :
    ∀ᵐ ω ∂μ, ∃ v : ℕ → ℝ, (∀ n, 0 < n → imEntropy W [.ints (observed X n ω)] a .absent kw = .ok (v n)) ∧
      Filter.Tendsto v Filter.atTop (nhds (shannon S p / b.ln)) := by
  filter_upwards [as_freq hM hX] with ω hω
  exact ⟨_, fun n hn => C82_entropy f hf h hb _ (observed_ne X hn ω),
    (near_tendsto_id hω.1 hω.2 (observed_tendsto X ω) (near_formula hf)).div_const _⟩

/-- **C94** Entropy, Bayesian approach (observed support): the same, for a numeric or a named prior. -/
theorem C94_entropy_bayes (h : Call W .h .bayes a kw b) (hb : b.Std) (al : AlphaArg) {m : Method} (hm : (BiasClass.bayes al none).Means m)
    (hal : (kw "alpha").bind PyVal.toAlpha = some al) (hK : kwOr kw "K" .none = .none) {X : ℕ → Ω → Int} {S : Finset Int} {p : Int → ℝ}
    (hM : 0 < M) (hX : Sampling μ X S p M) :
    ∀ᵐ ω ∂μ, ∃ v : ℕ → ℝ, (∀ n, 0 < n → imEntropy W [.ints (observed X n ω)] a .absent kw = .ok (v n)) ∧
      Filter.Tendsto v Filter.atTop (nhds (shannon S p / b.ln)) := by
  filter_upwards [as_freq hM hX] with ω hω
  refine ⟨fun n => m.value (observed X n ω) / b.ln, fun n hn => ?_,
    (near_tendsto_id hω.1 hω.2 (observed_tendsto X ω) (near_value (means_regular hm (by cases hm <;> simp)))).div_const _⟩
  have hne := observed_ne X hn ω
  have hd : [PyData.ints (observed X n ω)].mapM PyData.toEInput = some [.arr1 (observed X n ω)] := rfl
  rw [(e2e_h_bayes h.name h.accepted hal (K := none) (by rw [hK]; rfl) h.base hd).1, dclass_arr1 _ b hne]
  have hg : (bayesH al none b).Glob m.Defined (fun xs => m.value xs / b.ln) := by
    cases hm with
    | bayesNum h0 => exact bayes_glob hb.valid (by simp) fun K N _ => ⟨rfl, h0⟩
    | bayesStr hp => exact bayes_glob hb.valid (by simp) fun K N hK => namesPrior_getAlpha hp hK
  exact (hg _ hne).2.1 (by cases hm <;> trivial)

section mi
variable {X Y : ℕ → Ω → Int} {S : Finset (Int × Int)} {p : Int × Int → ℝ}

theorem observed_getD (X : ℕ → Ω → Int) {n t : ℕ} (ht : t < n) (ω : Ω) : (observed X n ω).getD t default = X t ω := by
  simp [observed, List.getD_eq_getElem?_getD, ht]

theorem observed_rows (X Y : ℕ → Ω → Int) (n : ℕ) (ω : Ω) :
    SameCounts (rows n [observed X n ω, observed Y n ω]) (observed (fun i ω => (X i ω, Y i ω)) n ω) := by
  refine sameCounts_map (List.range n) _ _ fun u hu v hv => ?_
  simp only [List.mem_range] at hu hv
  simp only [row, List.map_cons, List.map_nil, observed_getD _ hu, observed_getD _ hv]
  simp

/-- the combination of a near-plug-in functional converges to the mutual information -/
theorem near_pairInfo {ω : Ω} (h1 : ∀ n, ∀ w ∈ observed (fun i ω => (X i ω, Y i ω)) n ω, w ∈ S)
    (h2 : ∀ w ∈ S, Filter.Tendsto (fun n => freq (observed (fun i ω => (X i ω, Y i ω)) n ω) w) Filter.atTop (nhds (p w)))
    {V : List Int → ℝ} {V2 : List (Int × Int) → ℝ} (hV : ∀ K, Near V K) (hV2 : ∀ K, Near V2 K) :
    Filter.Tendsto (fun n => V (observed X n ω) + V (observed Y n ω) - V2 (observed (fun i ω => (X i ω, Y i ω)) n ω)) Filter.atTop
      (nhds (pairInfo S p)) := by
  have t1 := near_tendsto h1 h2 (observed_tendsto _ ω) (fun w => w.1) hV
  have t2 := near_tendsto h1 h2 (observed_tendsto _ ω) (fun w => w.2) hV
  simp only [observed_map] at t1 t2
  exact (t1.add t2).sub (near_tendsto_id h1 h2 (observed_tendsto _ ω) hV2)

/-- **C94** Mutual information: if the pairs of observations are symbols of a finite set with joint distribution `p`, then almost surely the estimate
from the first `n` pairs converges to the mutual information of `p` (bias-corrected approaches). -/
theorem C94_mi {f : Fam} {m : Method} (hf : Corrected kw f m) (h : Call W .mi f a kw b) (hb : b.Std) (hc : cond.isVal = false) (hp : Plain kw)
    (hM : 0 < M) (hX : Sampling μ (fun i ω => (X i ω, Y i ω)) S p M) :
    ∀ᵐ ω ∂μ, ∃ v : ℕ → ℝ, (∀ n, 0 < n → imMI W [.ints (observed X n ω), .ints (observed Y n ω)] a cond kw = .ok (v n)) ∧
      Filter.Tendsto v Filter.atTop (nhds (pairInfo S p / b.ln)) := by
  filter_upwards [as_freq hM hX] with ω hω
  refine ⟨_, fun n hn => ?_, (near_pairInfo hω.1 hω.2 (near_value hf.regular) (near_value hf.regular)).div_const _⟩
  have e : imMI W ([observed X n ω, observed Y n ω].map .ints) a cond kw =
      .ok ((([observed X n ω, observed Y n ω].map m.value).sum - m.value (rows n [observed X n ω, observed Y n ω])) / b.ln) := by
    cases hf with
    | free hf => exact C82_mi_bias hf h hb.valid hc hp _ n hn (by simp) (by simp [observed_length])
    | bayes hm h1 h3 => exact C82_mi_bayes _ _ hm h hb.valid hc hp h1 h3 _ n hn (by simp) (by simp [observed_length])
  rw [value_congr (observed_rows X Y n ω)] at e
  simpa using e

/-- **C94** Mutual information, plug-in: below `2³²` observations (where the products of counts stay within 64 bits, see C13) the value is the textbook
mutual information of the observed pairs, which almost surely converges to that of `p`. -/
theorem C94_mi_plugin (h : Call W .mi .discrete a kw b) (hb : b.Std) (hc : cond.isVal = false) (ho : kwOr kw "offset" (.int 0) = .int 0)
    (hM : 0 < M) (hX : Sampling μ (fun i ω => (X i ω, Y i ω)) S p M) :
    ∀ᵐ ω ∂μ, (∀ n, 0 < n → n < 2 ^ 32 → imMI W [.ints (observed X n ω), .ints (observed Y n ω)] a cond kw =
        .ok (Spec.mi (observed X n ω) (observed Y n ω) / b.ln)) ∧
      Filter.Tendsto (fun n => Spec.mi (observed X n ω) (observed Y n ω) / b.ln) Filter.atTop (nhds (pairInfo S p / b.ln)) := by
  filter_upwards [as_freq hM hX] with ω hω
  refine ⟨fun n hn hov => ?_, ?_⟩
  · exact C82_mi_two h hb hc ho _ _ (by simp [observed_length]) (observed_ne X hn ω) (by rw [observed_length]; exact hov)
  · refine ((near_pairInfo hω.1 hω.2 near_entropy near_entropy).div_const b.ln).congr fun n => ?_
    rw [mi_eq_entropies _ _ (by simp [observed_length])]
    congr 2
    rw [observed_zip]

end mi

section cmi
variable {X Y Z : ℕ → Ω → Int} {S : Finset (Int × Int × Int)} {p : Int × Int × Int → ℝ}

theorem near_tripleInfo {A B C : Type} [DecidableEq A] [DecidableEq B] [DecidableEq C] {S : Finset (A × B × C)} {p : A × B × C → ℝ}
    {L : ℕ → List (A × B × C)} (h1 : ∀ n, ∀ w ∈ L n, w ∈ S)
    (h2 : ∀ w ∈ S, Filter.Tendsto (fun n => freq (L n) w) Filter.atTop (nhds (p w)))
    (hN : Filter.Tendsto (fun n => (L n).length) Filter.atTop Filter.atTop)
    {V1 : List (A × C) → ℝ} {V2 : List (B × C) → ℝ} {V3 : List (A × B × C) → ℝ} {V4 : List C → ℝ}
    (k1 : ∀ K, Near V1 K) (k2 : ∀ K, Near V2 K) (k3 : ∀ K, Near V3 K) (k4 : ∀ K, Near V4 K) :
    Filter.Tendsto (fun n => V1 ((L n).map (fun w => (w.1, w.2.2))) + V2 ((L n).map (fun w => w.2)) - V3 (L n) - V4 ((L n).map (fun w => w.2.2)))
      Filter.atTop (nhds (tripleInfo S p)) :=
  (((near_tendsto h1 h2 hN _ k1).add (near_tendsto h1 h2 hN _ k2)).sub (near_tendsto_id h1 h2 hN k3)).sub (near_tendsto h1 h2 hN _ k4)

theorem observed_rows_zip (X Y Z : ℕ → Ω → Int) (n : ℕ) (ω : Ω) :
    SameCounts ((rows n [observed X n ω, observed Y n ω]).zip (observed Z n ω)) (observed (fun i ω => (X i ω, Y i ω, Z i ω)) n ω) := by
  have e : (rows n [observed X n ω, observed Y n ω]).zip (observed Z n ω) =
      (List.range n).map (fun i => (row [observed X n ω, observed Y n ω] i, Z i ω)) := by
    unfold rows observed; rw [List.zip_map']
  rw [e]
  refine sameCounts_map (List.range n) _ _ fun u hu v hv => ?_
  simp only [List.mem_range] at hu hv
  simp only [row, List.map_cons, List.map_nil, observed_getD _ hu, observed_getD _ hv]
  simp [and_assoc]

/-- **C94** Conditional mutual information (bias-corrected approaches), through `conditional_mutual_information` and through
`mutual_information(…, cond=…)`. -/
theorem C94_cmi {f : Fam} {m : Method} (hf : Corrected kw f m) (h : Call W .cmi f a kw b) (hb : b.Std) (hp : Plain kw)
    (hM : 0 < M) (hX : Sampling μ (fun i ω => (X i ω, Y i ω, Z i ω)) S p M) :
    ∀ᵐ ω ∂μ, ∃ v : ℕ → ℝ, (∀ n, 0 < n →
        CmiIs W [.ints (observed X n ω), .ints (observed Y n ω)] a (.ints (observed Z n ω)) kw (.ok (v n))) ∧
      Filter.Tendsto v Filter.atTop (nhds (tripleInfo S p / b.ln)) := by
  filter_upwards [as_freq hM hX] with ω hω
  refine ⟨_, fun n hn => ?_, (near_tripleInfo hω.1 hω.2 (observed_tendsto _ ω) (near_value hf.regular) (near_value hf.regular)
    (near_value hf.regular) (near_value hf.regular)).div_const _⟩
  have hz : (observed Z n ω).length = n := observed_length Z n ω
  have e : CmiIs W ([observed X n ω, observed Y n ω].map .ints) a (.ints (observed Z n ω)) kw
      (.ok ((([observed X n ω, observed Y n ω].map (fun v => m.value (v.zip (observed Z n ω)))).sum -
        m.value ((rows (observed Z n ω).length [observed X n ω, observed Y n ω]).zip (observed Z n ω)) - m.value (observed Z n ω)) / b.ln)) := by
    cases hf with
    | free hf => exact C82_cmi_bias hf h hb.valid hp _ _ (by rw [hz]; exact hn) (by simp) (by simp [observed_length])
    | bayes hm h1 h3 => exact C82_cmi_bayes _ _ hm h hb.valid hp h1 h3 _ _ (by rw [hz]; exact hn) (by simp) (by simp [observed_length])
  rw [hz, value_congr (observed_rows_zip X Y Z n ω)] at e
  simpa [observed_zip, observed_map] using e

/-- **C94** Conditional mutual information, plug-in. -/
theorem C94_cmi_plugin (h : Call W .cmi .discrete a kw b) (hb : b.Std) (ho : kwOr kw "offset" (.int 0) = .int 0)
    (hM : 0 < M) (hX : Sampling μ (fun i ω => (X i ω, Y i ω, Z i ω)) S p M) :
    ∀ᵐ ω ∂μ, (∀ n, 0 < n → n < 2 ^ 32 →
        CmiIs W [.ints (observed X n ω), .ints (observed Y n ω)] a (.ints (observed Z n ω)) kw
          (.ok (Spec.cmi (observed X n ω) (observed Y n ω) (observed Z n ω) / b.ln))) ∧
      Filter.Tendsto (fun n => Spec.cmi (observed X n ω) (observed Y n ω) (observed Z n ω) / b.ln) Filter.atTop (nhds (tripleInfo S p / b.ln)) := by
  filter_upwards [as_freq hM hX] with ω hω
  refine ⟨fun n hn hov => ?_, ?_⟩
  · exact C82_cmi h hb.valid ho _ _ _ (by simp [observed_length]) (by simp [observed_length]) (observed_ne X hn ω)
      (by rw [observed_length]; exact hov)
  · refine ((near_tripleInfo hω.1 hω.2 (observed_tendsto _ ω) near_entropy near_entropy near_entropy near_entropy).div_const b.ln).congr fun n => ?_
    rw [cmi_eq_entropies _ _ _ (by simp [observed_length]) (by simp [observed_length])]
    simp [observed_zip, observed_map]

end cmi

section te
variable {X Y Z : ℕ → Ω → Int} {l k s c : ℕ}

theorem numRows_index {n m s i : ℕ} (hs : 0 < s) (hi : i < numRows n m s) : (m + i) * s < n := by
  unfold numRows at hi
  have h1 : (i + 1) * s ≤ n - m * s + s - 1 := (Nat.le_div_iff_mul_le hs).1 hi
  rw [Nat.add_mul, Nat.one_mul] at h1
  rw [Nat.add_mul]
  omega

theorem numRows_tendsto (m : ℕ) (hs : 0 < s) : Filter.Tendsto (fun n => numRows n m s) Filter.atTop Filter.atTop := by
  refine Filter.tendsto_atTop.2 fun r => ?_
  filter_upwards [Filter.eventually_ge_atTop (m * s + r * s)] with n hn
  refine (Nat.le_div_iff_mul_le hs).2 ?_
  omega

theorem fut_observed (Y : ℕ → Ω → Int) (hs : 0 < s) (n m : ℕ) (ω : Ω) :
    futRows (observed Y n ω) n m s = observed (fun i ω => [Y ((m + i) * s) ω]) (numRows n m s) ω := by
  refine List.map_congr_left fun i hi => ?_
  rw [observed_getD Y (numRows_index hs (List.mem_range.1 hi))]

theorem hist_observed (Y : ℕ → Ω → Int) (hs : 0 < s) (n m k : ℕ) (hk : k ≤ m) (ω : Ω) :
    histRows (observed Y n ω) n m s k = observed (fun i ω => (List.range k).map (fun j => Y ((m + i - k + j) * s) ω)) (numRows n m s) ω := by
  refine List.map_congr_left fun i hi => List.map_congr_left fun j hj => ?_
  refine observed_getD Y (lt_of_le_of_lt (Nat.mul_le_mul_right s ?_) (numRows_index hs (List.mem_range.1 hi))) ω
  have := List.mem_range.1 hj
  omega

theorem as_windows {α : Type} [DecidableEq α] {X : ℕ → Ω → α} {S : Finset α} {p : α → ℝ} (hM : 0 < M) (hX : Sampling μ X S p M) (m : ℕ) (hs : 0 < s) :
    ∀ᵐ ω ∂μ, (∀ n, ∀ a ∈ observed X (numRows n m s) ω, a ∈ S) ∧
      (∀ a ∈ S, Filter.Tendsto (fun n => freq (observed X (numRows n m s) ω) a) Filter.atTop (nhds (p a))) ∧
      Filter.Tendsto (fun n => (observed X (numRows n m s) ω).length) Filter.atTop Filter.atTop := by
  filter_upwards [as_freq hM hX] with ω hω
  refine ⟨fun n => hω.1 _, fun a ha => (hω.2 a ha).comp (numRows_tendsto m hs), ?_⟩
  simp only [observed_length]
  exact numRows_tendsto m hs

/-- **C94** Transfer entropy (bias-corrected approaches): if the windows (future of the target, history of the source, history of the target) have
the distribution `p` on a finite set and are independent when far enough apart, then almost surely the estimate from the first `n` observations
of the two series converges to `I(future; source history | target history)` of `p`. -/
theorem C94_te {f : Fam} {m : Method} (hf : Corrected kw f m) (h : Call W .te f a kw b) (hb : b.Std) (hc : cond.isVal = false)
    (hh : History kw l k s) (hs : 0 < s) (hl : 0 < l) (hk : 0 < k) {S : Finset (List Int × List Int × List Int)} {p : List Int × List Int × List Int → ℝ}
    (hM : 0 < M) (hX : Sampling μ (teWindow X Y l k s) S p M) :
    ∀ᵐ ω ∂μ, ∃ v : ℕ → ℝ, (∀ n, max k l * s < n → imTE W [.ints (observed X n ω), .ints (observed Y n ω)] a cond kw = .ok (v n)) ∧
      Filter.Tendsto v Filter.atTop (nhds (tripleInfo S p / b.ln)) := by
  filter_upwards [as_windows hM hX (max k l) hs] with ω hω
  refine ⟨_, fun n hn => ?_, (near_tripleInfo hω.1 hω.2.1 hω.2.2 (near_value hf.regular) (near_value hf.regular)
    (near_value hf.regular) (near_value hf.regular)).div_const _⟩
  have ex : (observed X n ω).length = n := observed_length X n ω
  have ey : (observed Y n ω).length = n := observed_length Y n ω
  have e : imTE W [.ints (observed X n ω), .ints (observed Y n ω)] a cond kw = .ok ((m.value ((futRows (observed Y n ω) (observed Y n ω).length (max k l) s).zip (histRows (observed Y n ω) (observed Y n ω).length (max k l) s k)) +
      m.value ((histRows (observed X n ω) (observed Y n ω).length (max k l) s l).zip (histRows (observed Y n ω) (observed Y n ω).length (max k l) s k)) -
      m.value ((futRows (observed Y n ω) (observed Y n ω).length (max k l) s).zip ((histRows (observed X n ω) (observed Y n ω).length (max k l) s l).zip (histRows (observed Y n ω) (observed Y n ω).length (max k l) s k))) -
      m.value (histRows (observed Y n ω) (observed Y n ω).length (max k l) s k)) / b.ln) := by
    cases hf with
    | free hf => exact C82_te_bias hf h hb.valid hc hh hs hl hk _ _ (by rw [ex]; exact hn) (ex.trans ey.symm)
    | bayes hm h1 h3 => exact C82_te_bayes _ _ hm h hb.valid h1 h3 hc hh hs hl hk _ _ (by rw [ex]; exact hn) (ex.trans ey.symm)
  rw [e, ey, fut_observed Y hs, hist_observed Y hs n _ k (le_max_left _ _), hist_observed X hs n _ l (le_max_right _ _)]
  simp only [observed_zip, observed_map]
  rfl

/-- **C94** Transfer entropy, plug-in. -/
theorem C94_te_plugin (h : Call W .te .discrete a kw b) (hb : b.Std) (hc : cond.isVal = false)
    (hh : History kw l k s) (hs : 0 < s) (hl : 0 < l) (hk : 0 < k) {S : Finset (List Int × List Int × List Int)} {p : List Int × List Int × List Int → ℝ}
    (hM : 0 < M) (hX : Sampling μ (teWindow X Y l k s) S p M) :
    ∀ᵐ ω ∂μ, ∃ v : ℕ → ℝ,
      (∀ n, v n = Spec.cmi (futRows (observed Y n ω) n (max k l) s) (histRows (observed X n ω) n (max k l) s l)
        (histRows (observed Y n ω) n (max k l) s k) / b.ln) ∧
      (∀ n, max k l * s < n → n < 2 ^ 32 → imTE W [.ints (observed X n ω), .ints (observed Y n ω)] a cond kw = .ok (v n)) ∧
      Filter.Tendsto v Filter.atTop (nhds (tripleInfo S p / b.ln)) := by
  filter_upwards [as_windows hM hX (max k l) hs] with ω hω
  refine ⟨_, fun n => rfl, fun n hn hov => ?_, ?_⟩
  · have ex : (observed X n ω).length = n := observed_length X n ω
    have ey : (observed Y n ω).length = n := observed_length Y n ω
    have e := C82_te h hb.valid hc hh hs hl hk (observed X n ω) (observed Y n ω) (by rw [ex]; exact hn) (ex.trans ey.symm) (by rw [ey]; exact hov)
    rwa [ey] at e
  · refine ((near_tripleInfo hω.1 hω.2.1 hω.2.2 near_entropy near_entropy near_entropy near_entropy).div_const b.ln).congr fun n => ?_
    rw [fut_observed Y hs, hist_observed Y hs n _ k (le_max_left _ _), hist_observed X hs n _ l (le_max_right _ _),
      cmi_eq_entropies _ _ _ (by simp [observed_length]) (by simp [observed_length])]
    simp only [observed_zip, observed_map]
    rfl

/-- **C94** Conditional transfer entropy (bias-corrected approaches). -/
theorem C94_cte {f : Fam} {m : Method} (hf : Corrected kw f m) (h : Call W .cte f a kw b) (hb : b.Std)
    (hh : History kw l k s) (hcd : kwOr kw "cond_hist_len" (.int 1) = .int c) (hs : 0 < s) (hl : 0 < l) (hk : 0 < k) (hc : 0 < c)
    {S : Finset (List Int × List Int × List Int × List Int)} {p : List Int × List Int × List Int × List Int → ℝ}
    (hM : 0 < M) (hX : Sampling μ (cteWindow X Y Z l k c s) S p M) :
    ∀ᵐ ω ∂μ, ∃ v : ℕ → ℝ, (∀ n, max (max k l) c * s < n →
        CteIs W (.ints (observed X n ω)) (.ints (observed Y n ω)) a (.ints (observed Z n ω)) kw (.ok (v n))) ∧
      Filter.Tendsto v Filter.atTop (nhds (tripleInfo S p / b.ln)) := by
  filter_upwards [as_windows hM hX (max (max k l) c) hs] with ω hω
  refine ⟨_, fun n hn => ?_, (near_tripleInfo hω.1 hω.2.1 hω.2.2 (near_value hf.regular) (near_value hf.regular)
    (near_value hf.regular) (near_value hf.regular)).div_const _⟩
  have ex : (observed X n ω).length = n := observed_length X n ω
  have ey : (observed Y n ω).length = n := observed_length Y n ω
  have ez : (observed Z n ω).length = n := observed_length Z n ω
  have e : CteIs W (.ints (observed X n ω)) (.ints (observed Y n ω)) a (.ints (observed Z n ω)) kw
    (let n' := (observed Y n ω).length
     let q := max (max k l) c
     let F := futRows (observed Y n ω) n' q s
     let G := histRows (observed X n ω) n' q s l
     let DZ := (histRows (observed Y n ω) n' q s k).zip (histRows (observed Z n ω) n' q s c)
     .ok ((m.value (F.zip DZ) + m.value (G.zip DZ) - m.value (F.zip (G.zip DZ)) - m.value DZ) / b.ln)) := by
    cases hf with
    | free hf => exact C82_cte_bias hf h hb.valid hh hcd hs hl hk hc _ _ _ (by rw [ex]; exact hn) (ex.trans ey.symm) (ez.trans ey.symm)
    | bayes hm h1 h3 => exact C82_cte_bayes _ _ hm h hb.valid h1 h3 hh hcd hs hl hk hc _ _ _ (by rw [ex]; exact hn) (ex.trans ey.symm) (ez.trans ey.symm)
  simp only [ey, fut_observed Y hs, hist_observed Y hs n (max (max k l) c) k (by omega), hist_observed X hs n (max (max k l) c) l (by omega),
    hist_observed Z hs n (max (max k l) c) c (by omega), observed_zip] at e
  simp only [observed_map]
  exact e

/-- **C94** Conditional transfer entropy, plug-in. -/
theorem C94_cte_plugin (h : Call W .cte .discrete a kw b) (hb : b.Std)
    (hh : History kw l k s) (hcd : kwOr kw "cond_hist_len" (.int 1) = .int c) (hs : 0 < s) (hl : 0 < l) (hk : 0 < k) (hc : 0 < c)
    {S : Finset (List Int × List Int × List Int × List Int)} {p : List Int × List Int × List Int × List Int → ℝ}
    (hM : 0 < M) (hX : Sampling μ (cteWindow X Y Z l k c s) S p M) :
    ∀ᵐ ω ∂μ, ∃ v : ℕ → ℝ,
      (∀ n, v n = Spec.cmi (futRows (observed Y n ω) n (max (max k l) c) s) (histRows (observed X n ω) n (max (max k l) c) s l)
        ((histRows (observed Y n ω) n (max (max k l) c) s k).zip (histRows (observed Z n ω) n (max (max k l) c) s c)) / b.ln) ∧
      (∀ n, max (max k l) c * s < n → n < 2 ^ 32 →
        CteIs W (.ints (observed X n ω)) (.ints (observed Y n ω)) a (.ints (observed Z n ω)) kw (.ok (v n))) ∧
      Filter.Tendsto v Filter.atTop (nhds (tripleInfo S p / b.ln)) := by
  filter_upwards [as_windows hM hX (max (max k l) c) hs] with ω hω
  refine ⟨_, fun n => rfl, fun n hn hov => ?_, ?_⟩
  · have ex : (observed X n ω).length = n := observed_length X n ω
    have ey : (observed Y n ω).length = n := observed_length Y n ω
    have ez : (observed Z n ω).length = n := observed_length Z n ω
    have e := C82_cte h hb hh hcd hs hl hk hc (observed X n ω) (observed Y n ω) (observed Z n ω) (by rw [ex]; exact hn) (ex.trans ey.symm) (ez.trans ey.symm)
      (by rw [ey]; exact hov)
    simp only [ey] at e
    exact e
  · refine ((near_tripleInfo hω.1 hω.2.1 hω.2.2 near_entropy near_entropy near_entropy near_entropy).div_const b.ln).congr fun n => ?_
    rw [fut_observed Y hs, hist_observed Y hs n _ k (by omega), hist_observed X hs n _ l (by omega), hist_observed Z hs n _ c (by omega), observed_zip,
      cmi_eq_entropies _ _ _ (by simp [observed_length]) (by simp [observed_length])]
    simp only [observed_zip, observed_map]
    rfl

end te

end

end Verif
