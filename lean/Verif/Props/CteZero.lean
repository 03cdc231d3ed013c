import Verif.Props.FalseAlarm
import Verif.Props.ExpectedBiasCte

/-!
# C94, C101, continued: conditional transfer entropy between independent observations
-/

namespace Verif

open Spec MeasureTheory ProbabilityTheory

variable {Ω : Type} [MeasurableSpace Ω] {μ : Measure Ω} [IsProbabilityMeasure μ]
variable {W : World} {a : PyName} {kw : Kw} {b : Base} {l k c s : ℕ} {X Y Z : ℕ → Ω → Int}

/-- the window as a function of the triples it looks at -/
def iidWindow3 (l k c : ℕ) (v : Fin (max (max k l) c + 1) → Int × Int × Int) : List Int × List Int × List Int × List Int :=
  ([(v (Fin.last _)).2.1], List.ofFn (fun j : Fin l => (v ⟨max (max k l) c - l + j, by have := j.isLt; omega⟩).1),
    List.ofFn (fun j : Fin k => (v ⟨max (max k l) c - k + j, by have := j.isLt; omega⟩).2.1),
    List.ofFn (fun j : Fin c => (v ⟨max (max k l) c - c + j, by have := j.isLt; omega⟩).2.2))

theorem iidWindow3_eq (X Y Z : ℕ → Ω → Int) (l k c s : ℕ) :
    cteWindow X Y Z l k c s = fun i ω => iidWindow3 l k c (fun t => (X ((i + t) * s) ω, Y ((i + t) * s) ω, Z ((i + t) * s) ω)) := by
  funext i ω
  unfold cteWindow iidWindow3
  refine Prod.ext ?_ (Prod.ext ?_ (Prod.ext ?_ ?_))
  · simp [Nat.add_comm]
  all_goals
    refine List.ext_getElem (by simp) fun j h1 h2 => ?_
    simp only [List.length_map, List.length_range] at h1
    simp only [List.getElem_map, List.getElem_range, List.getElem_ofFn]
    congr 2
    omega

/-- the possible windows of triples from `S` -/
def iidWindows3 (S : Finset (Int × Int × Int)) (l k c : ℕ) : Finset (List Int × List Int × List Int × List Int) :=
  ((S.image (fun w => w.2.1)).image (fun y => [y])) ×ˢ (iidLists (S.image (fun w => w.1)) l ×ˢ
    (iidLists (S.image (fun w => w.2.1)) k ×ˢ iidLists (S.image (fun w => w.2.2)) c))

theorem iid_cte_windows (hs : 0 < s) {S : Finset (Int × Int × Int)} (hX : Iid μ (fun i ω => (X i ω, Y i ω, Z i ω)) S) :
    Sampling μ (cteWindow X Y Z l k c s) (iidWindows3 S l k c)
        (fun w => μ.real {ω | iidWindow3 l k c (fun t => (X ((0 + t) * s) ω, Y ((0 + t) * s) ω, Z ((0 + t) * s) ω)) = w}) (max (max k l) c + 1) ∧
      tripleInfo (iidWindows3 S l k c)
        (fun w => μ.real {ω | iidWindow3 l k c (fun t => (X ((0 + t) * s) ω, Y ((0 + t) * s) ω, Z ((0 + t) * s) ω)) = w}) = 0 := by
  have hmeas : ∀ {m : ℕ} (A : Set (Fin m → Int × Int × Int)), MeasurableSet A := fun A => (Set.to_countable A).measurableSet
  refine ⟨?_, ?_⟩
  · rw [iidWindow3_eq]
    refine iid_sampling hX hs (iidWindow3 l k c) (fun w => hmeas _) ?_
    intro v hv
    simp only [iidWindow3, iidWindows3, Finset.mem_product, iidLists]
    refine ⟨Finset.mem_image_of_mem _ (Finset.mem_image_of_mem (fun w : Int × Int × Int => w.2.1) (hv _)), ?_, ?_, ?_⟩
    · exact Finset.mem_image_of_mem _ (Fintype.mem_piFinset.2 fun j => Finset.mem_image_of_mem (fun w : Int × Int × Int => w.1) (hv _))
    · exact Finset.mem_image_of_mem _ (Fintype.mem_piFinset.2 fun j => Finset.mem_image_of_mem (fun w : Int × Int × Int => w.2.1) (hv _))
    · exact Finset.mem_image_of_mem _ (Fintype.mem_piFinset.2 fun j => Finset.mem_image_of_mem (fun w : Int × Int × Int => w.2.2) (hv _))
  · refine iid_tripleInfo_product (r := fun x => μ.real {ω | [Y (max (max k l) c * s) ω] = x})
      (q := fun y => μ.real {ω | (List.ofFn (fun j : Fin l => X ((max (max k l) c - l + j) * s) ω),
        List.ofFn (fun j : Fin k => Y ((max (max k l) c - k + j) * s) ω), List.ofFn (fun j : Fin c => Z ((max (max k l) c - c + j) * s) ω)) = y})
      (fun _ => measureReal_nonneg) (fun _ => measureReal_nonneg) ?_
    intro x y z
    have hind := iid_blocks hX (fun _ : Fin 1 => max (max k l) c * s) (fun t : Fin (max (max k l) c) => (t : ℕ) * s) (fun _ t e => by
      have := Nat.eq_of_mul_eq_mul_right hs e
      have := t.isLt
      omega)
    have := congrArg ENNReal.toReal (hind.measure_inter_preimage_eq_mul {v | [(v 0).2.1] = x}
      {v | (List.ofFn (fun j : Fin l => (v ⟨max (max k l) c - l + j, by have := j.isLt; omega⟩).1),
        List.ofFn (fun j : Fin k => (v ⟨max (max k l) c - k + j, by have := j.isLt; omega⟩).2.1),
        List.ofFn (fun j : Fin c => (v ⟨max (max k l) c - c + j, by have := j.isLt; omega⟩).2.2)) = (y, z)} (hmeas _) (hmeas _))
    rw [ENNReal.toReal_mul] at this
    refine Eq.trans ?_ this
    rw [measureReal_def]
    refine congrArg (fun A => (μ A).toReal) (Set.ext fun ω => ?_)
    simp [iidWindow3]

/-- **C94** Conditional transfer entropy between independent, identically distributed triples of observations (the three observations of a triple may
depend on each other): the estimate converges almost surely to 0. -/
theorem C94_cte_zero {f : Fam} {m : Method} (hf : Corrected kw f m) (h : Call W .cte f a kw b) (hb : b.Std)
    (hh : History kw l k s) (hcd : kwOr kw "cond_hist_len" (.int 1) = .int c) (hs : 0 < s) (hl : 0 < l) (hk : 0 < k) (hc : 0 < c)
    {S : Finset (Int × Int × Int)} (hX : Iid μ (fun i ω => (X i ω, Y i ω, Z i ω)) S) :
    ∀ᵐ ω ∂μ, ∃ v : ℕ → ℝ, (∀ n, max (max k l) c * s < n →
        CteIs W (.ints (observed X n ω)) (.ints (observed Y n ω)) a (.ints (observed Z n ω)) kw (.ok (v n))) ∧
      Filter.Tendsto v Filter.atTop (nhds 0) := by
  obtain ⟨h1, h2⟩ := iid_cte_windows (l := l) (k := k) (c := c) hs hX
  have := C94_cte hf h hb hh hcd hs hl hk hc (Nat.succ_pos _) h1
  rwa [h2, zero_div] at this

/-- **C101** Plug-in conditional transfer entropy between independent triples of observations (`Kx`, `Ky` and `Kz` symbols, `R` rows): on average at most
`(2 max(k,l,c) + 1)(Ky Kx^l Ky^k Kz^c − 1 + Ky^k Kz^c − 1)/R` nats, and `ε` or more with probability at most that divided by `ε`. -/
theorem C101_cte_false_alarm (h : Call W .cte .discrete a kw b) (hb : b.Std) (hh : History kw l k s)
    (hcd : kwOr kw "cond_hist_len" (.int 1) = .int c) (hs : 0 < s) (hl : 0 < l) (hk : 0 < k) (hc : 0 < c)
    {S : Finset (Int × Int × Int)} (hX : Iid μ (fun i ω => (X i ω, Y i ω, Z i ω)) S)
    (n : ℕ) (hn : max (max k l) c * s < n) (hov : n < 2 ^ 32) (ε : ℝ) (hε : 0 < ε) :
    let r := fun ω => imCTE W [.ints (observed X n ω), .ints (observed Y n ω)] a (.val (.ints (observed Z n ω))) kw
    let Kx := (S.image (fun w => w.1)).card
    let Ky := (S.image (fun w => w.2.1)).card
    let Kz := (S.image (fun w => w.2.2)).card
    let δ := (2 * ((max (max k l) c : ℕ) : ℝ) + 1) * ((Ky : ℝ) * (Kx ^ l * (Ky ^ k * Kz ^ c)) - 1 + (Ky ^ k * Kz ^ c - 1)) /
      numRows n (max (max k l) c) s
    Expected μ b r 0 δ ∧ μ.real {ω | ∃ v, r ω = .ok v ∧ ε ≤ v} ≤ δ / (b.ln * ε) := by
  intro r Kx Ky Kz δ
  obtain ⟨w1, w2⟩ := iid_cte_windows (l := l) (k := k) (c := c) hs hX
  obtain ⟨⟨v, hv, hI, -, h2⟩, -⟩ := C101_cte (μ := μ) h hb hh hcd hs hl hk hc (Nat.succ_pos _) w1 n hn hov
  rw [w2] at h2
  have hln := hb.ln_pos
  have c1 : ((iidWindows3 S l k c).card : ℝ) = (Ky : ℝ) * (Kx ^ l * (Ky ^ k * Kz ^ c)) := by
    rw [iidWindows3, Finset.card_product, Finset.card_product, Finset.card_product, fa_lists_card, fa_lists_card, fa_lists_card,
      Finset.card_image_of_injective _ (fun x y e => by simpa using e)]
    push_cast
    rfl
  have c2 : (((iidWindows3 S l k c).image (fun w => w.2.2)).card : ℝ) ≤ (Ky : ℝ) ^ k * Kz ^ c := by
    have : ((iidWindows3 S l k c).image (fun w => w.2.2)).card ≤
        (iidLists (S.image (fun w => w.2.1)) k ×ˢ iidLists (S.image (fun w => w.2.2)) c).card := by
      refine Finset.card_le_card fun w hw => ?_
      obtain ⟨u, hu, rfl⟩ := Finset.mem_image.1 hw
      exact (Finset.mem_product.1 (Finset.mem_product.1 hu).2).2
    rw [Finset.card_product, fa_lists_card, fa_lists_card] at this
    exact_mod_cast this
  have hδ : ∫ ω, v ω ∂μ ≤ δ / b.ln := by
    refine h2.trans (div_le_div_of_nonneg_right ?_ hln.le)
    rw [zero_add, c1]
    simp only [δ]
    have e : 2 * ((max (max k l) c + 1 : ℕ) : ℝ) - 1 = 2 * ((max (max k l) c : ℕ) : ℝ) + 1 := by push_cast; ring
    rw [e]
    gcongr
  have hpos : ∀ ω, 0 ≤ v ω := fun ω => by
    have e := hv ω
    have ex : (observed X n ω).length = n := observed_length X n ω
    have ey : (observed Y n ω).length = n := observed_length Y n ω
    have ez : (observed Z n ω).length = n := observed_length Z n ω
    simp only at e
    rw [(C82_cte h hb hh hcd hs hl hk hc (observed X n ω) (observed Y n ω) (observed Z n ω) (by rw [ex]; exact hn) (ex.trans ey.symm)
      (ez.trans ey.symm) (by rw [ey]; exact hov)).1] at e
    rw [← Except.ok.inj e]
    refine div_nonneg (cmi_nonneg _ _ _ ?_ ?_) hln.le <;> simp [futRows, histRows]
  refine ⟨⟨v, hv, hI, by rw [zero_div]; exact integral_nonneg hpos, hδ⟩, ?_⟩
  have key := fn_markov (μ := μ) (u := fun ω => v ω * b.ln) (r := r) (δ := δ) (c := ε) hb
    (Filter.Eventually.of_forall fun ω => by rw [mul_div_cancel_right₀ _ hln.ne']; exact hv ω) (fun x => x) (hI.mul_const _)
    (Filter.Eventually.of_forall fun ω => mul_nonneg (hpos ω) hln.le) (by rw [integral_mul_const]; exact (le_div_iff₀ hln).1 hδ) hε
  simpa only [mul_div_cancel_right₀ _ hln.ne'] using key

example := C94_cte_zero (.free .zhang) (b := .e) (l := 1) (k := 2) (s := 1) (c := 1) (call "zhang", [("dest_hist_len", .int 2)]) trivial
  ⟨by kw, by kw, by kw, by kw, by kw⟩ (by kw) one_pos one_pos two_pos one_pos asEx_triples
example := C101_cte_false_alarm (b := .e) (l := 2) (k := 1) (s := 1) (c := 1) (call "discrete", [("src_hist_len", .int 2)]) trivial
  ⟨by kw, by kw, by kw, by kw, by kw⟩ (by kw) one_pos two_pos one_pos one_pos asEx_triples 1000 (by norm_num) (by norm_num) (1 / 10) (by norm_num)

end Verif
