import Verif.Props.KernelDiv2
import Verif.Props.KlEntropy2
import Verif.Props.Dispatch2

/-! # Property C69 : Kullback–Leibler divergences of continuous data, errors and names -/

namespace Verif

open Spec

/-! ## Kernel estimator -/

/-- **C69** Kernel Kullback–Leibler value when every point of the first sample has a point of the second one in its
box: the mean log-ratio of the two box-kernel densities over the first sample. -/
theorem C69_kernel_kld_value (p q : KVar) (hp : p.WF) (hq : q.WF) (hd : p.dim = q.dim) (hN : 2 ≤ p.len) (hM : 1 ≤ q.len) (h : ℝ) (hh : 0 < h)
    (hcov : ∀ x ∈ p.samples, ∃ y ∈ q.samples, InBox h x y) (w : Int) (b : Base) (hb : b.Valid) :
    kernelKld (.arr p) (.arr q) (boxCfg h w) b = .ok (boxKl p.samples q.samples p.dim h / b.ln) := by
  classical
  unfold kernelKld
  rw [C47_cross_value p q hp hq hd hN hM h hh w b hb, C47_entropy_value p hp hN h hh w b hb]
  simp only [bind, Except.bind, pure, Except.pure]
  have hpos : ∀ x ∈ p.samples, 0 < boxCount q.samples h x := by
    intro x hx
    obtain ⟨y, hy, hxy⟩ := hcov x hx
    unfold boxCount
    rw [List.length_pos_iff_exists_mem]
    exact ⟨y, by simp [hy, hxy]⟩
  have hf : (assure2d p).rows.filter (fun x => decide (0 < boxCount (assure2d q).rows h x)) = p.samples :=
    List.filter_eq_self.2 fun x hx => decide_eq_true (hpos x hx)
  rw [hf]
  congr 1
  rw [← sub_div]
  congr 1
  unfold boxKl boxEntropy
  have hl : (p.len : ℝ) = p.samples.length := by rw [← KVar.len_rows]; rfl
  have e1 : (p.samples.map (fun x => - Real.log (boxDensity (assure2d q).rows (assure2d q).cols h x))).sum / (p.len : ℝ) =
      mean (p.samples.map (fun x => - Real.log (boxDensity q.samples p.dim h x))) := by
    unfold mean
    rw [List.length_map, hl, hd]
    rfl
  rw [e1]
  show _ - mean (p.samples.map (fun x => - Real.log (boxDensity p.samples p.dim h x))) = _
  rw [← mean_sub]
  congr 1
  refine List.map_congr_left fun x hx => ?_
  have h1 : 0 < boxDensity q.samples p.dim h x := by
    have := hpos x hx
    have hq' : 0 < q.samples.length := by
      have : q.samples.length = q.len := KVar.len_rows q
      omega
    unfold boxDensity
    positivity
  rw [Real.log_div (boxDensity_pos hh hx).ne' h1.ne']
  ring

example := C69_kernel_kld_value (.one [0, 1, 3]) (.one [3, 0]) (KVar.wf_one _) (KVar.wf_one _) rfl (by decide) (by decide) 2 (by norm_num)
  (by norm_num [KVar.samples, assure2d, InBox]) 1 (.num 2) (by norm_num [Base.Valid])

/-- **C69** A sample is at kernel divergence 0 from itself. -/
theorem C69_kernel_kld_self (v : KVar) (hv : v.WF) (hN : 2 ≤ v.len) (h : ℝ) (hh : 0 < h) (w : Int) (b : Base) (hb : b.Valid) :
    kernelKld (.arr v) (.arr v) (boxCfg h w) b = .ok 0 := by
  unfold kernelKld
  rw [C47_cross_self v hv hN h hh w b hb, C47_entropy_value v hv hN h hh w b hb]
  simp [bind, Except.bind, pure, Except.pure]

example := C69_kernel_kld_self (.one [0, 1, 3]) (KVar.wf_one _) (by decide) (3/2) (by norm_num) 1 (.num 2) (by norm_num [Base.Valid])

/-- **C69** (finding) When no point of the second sample is in the box of a point of the first one, the value is
minus the entropy of the first sample - not infinite, and of either sign. -/
theorem C69_kernel_kld_disjoint (p q : KVar) (hp : p.WF) (hq : q.WF) (hd : p.dim = q.dim) (hN : 2 ≤ p.len) (hM : 1 ≤ q.len) (h : ℝ) (hh : 0 < h)
    (hdis : ∀ x ∈ p.samples, ∀ y ∈ q.samples, ¬ InBox h x y) (w : Int) (b : Base) (hb : b.Valid) :
    kernelKld (.arr p) (.arr q) (boxCfg h w) b = .ok (- (boxEntropy p.samples p.dim h / b.ln)) := by
  unfold kernelKld
  rw [C47_cross_disjoint_is_zero p q hp hq hd hN hM h hh w b hb hdis, C47_entropy_value p hp hN h hh w b hb]
  simp [bind, Except.bind, pure, Except.pure]
  rfl

example := C69_kernel_kld_disjoint (.one [0, 1, 3]) (.one [7, 8]) (KVar.wf_one _) (KVar.wf_one _) rfl (by decide) (by decide) 2 (by norm_num)
  (by norm_num [KVar.samples, assure2d, InBox, abs_le]) 1 (.num 2) (by norm_num [Base.Valid])

/-- **C69** Integer data, bandwidth below 2, every symbol of the first sample occurring in the second one: the
discrete Kullback–Leibler divergence, so non-negative. -/
theorem C69_kernel_kld_integers (xs ys : List Int) (hx : 2 ≤ xs.length) (hsub : ∀ a ∈ xs, a ∈ ys) (h : ℝ) (hh : 0 < h) (hh2 : h < 2)
    (w : Int) (b : Base) (hb : b.Std) :
    kernelKld (.arr (intVar xs)) (.arr (intVar ys)) (boxCfg h w) b = .ok (kl xs ys / b.ln) ∧ 0 ≤ kl xs ys / b.ln := by
  have hne : xs ≠ [] := by rintro rfl; simp at hx
  refine ⟨?_, div_nonneg (kl_nonneg hsub hne) hb.ln_pos.le⟩
  have hs : ∀ zs : List Int, (intVar zs).samples = zs.map (fun z : Int => [(z : ℝ)]) := fun zs => by
    simp [intVar, KVar.samples, assure2d]
  have hbox : ∀ m n : Int, InBox h [(m : ℝ)] [(n : ℝ)] ↔ n = m := by
    intro m n
    constructor
    · intro hmn
      have := hmn 0 (by simp)
      simp only [List.getD_cons_zero] at this
      have h1 : |(m : ℝ) - n| < 1 := by linarith
      have h2 : |m - n| < 1 := by exact_mod_cast h1
      rw [Int.abs_lt_one_iff] at h2
      omega
    · rintro rfl
      exact inBox_self hh.le _
  have hcnt : ∀ (zs : List Int) (a : Int), boxCount (intVar zs).samples h [(a : ℝ)] = cnt zs a := by
    intro zs a
    rw [hs]
    unfold boxCount cnt
    rw [List.filter_map, List.length_map, ← List.countP_eq_length_filter]
    refine List.countP_congr fun z _ => ?_
    simp [Function.comp, hbox]
  have hyne : 1 ≤ ys.length := by
    obtain ⟨a, ha⟩ := List.exists_mem_of_ne_nil _ hne
    exact List.length_pos_of_mem (hsub a ha)
  rw [C69_kernel_kld_value (intVar xs) (intVar ys) (KVar.wf_one _) (KVar.wf_one _) rfl (by simpa [intVar, KVar.len] using hx)
    (by simpa [intVar, KVar.len] using hyne) h hh (fun x hx' => by
      rw [hs] at hx' ⊢
      obtain ⟨a, ha, rfl⟩ := List.mem_map.1 hx'
      exact ⟨_, List.mem_map.2 ⟨a, hsub a ha, rfl⟩, inBox_self hh.le _⟩) w b hb.valid]
  congr 2
  unfold boxKl kl
  rw [sum_freq_mul, hs, List.map_map]
  unfold mean
  rw [List.length_map]
  congr 2
  refine List.map_congr_left fun a ha => ?_
  simp only [Function.comp]
  unfold boxDensity
  rw [← hs, hcnt, hcnt]
  unfold freq
  have h1 : (intVar xs).samples.length = xs.length := by simp [hs]
  have h2 : (intVar ys).samples.length = ys.length := by simp [hs]
  have h3 : (intVar xs).dim = 1 := rfl
  have h4 : (cnt ys a : ℝ) ≠ 0 := by
    have := freq_pos (hsub a ha)
    unfold freq at this
    intro h0
    rw [h0] at this; simp at this
  have h5 : (ys.length : ℝ) ≠ 0 := by have : ys.length ≠ 0 := by omega
                                      exact_mod_cast this
  have h6 : (xs.length : ℝ) ≠ 0 := by have : xs.length ≠ 0 := by omega
                                      exact_mod_cast this
  rw [h1, h2, h3]
  congr 1
  field_simp

example := C69_kernel_kld_integers [0, 1, 1] [0, 1, 2, 3] (by decide) (by decide) (3/2) (by norm_num) (by norm_num) 1 (.num 2) (by norm_num [Base.Std])

/-- **C69** (finding) Smoothing can make both divergences negative, even for samples of equal size with full overlap of
the boxes: for `P = -1, 1` and `Q = 0, 0` with a box of side 2 the Kullback–Leibler value is `−log 2`, and the
Jensen–Shannon value is `−log(3/2)/2`. -/
theorem C69_kernel_negative (w : Int) (b : Base) (hb : b.Std) :
    kernelKld (.arr (.one [-1, 1])) (.arr (.one [0, 0])) (boxCfg 2 w) b = .ok (- Real.log 2 / b.ln) ∧
    kernelJsd [.one [-1, 1], .one [0, 0]] (boxCfg 2 w) b = .ok (- (Real.log (3 / 2) / 2) / b.ln) := by
  have hb1 : ∀ x y : ℝ, InBox 2 [x] [y] ↔ |x - y| ≤ 1 := by
    intro x y
    unfold InBox
    simp
  have c1 : boxCount [[(-1:ℝ)], [1]] 2 [-1] = 1 := by
    simp only [boxCount, List.filter_cons, List.filter_nil, hb1]
    norm_num
  have c2 : boxCount [[(-1:ℝ)], [1]] 2 [1] = 1 := by
    simp only [boxCount, List.filter_cons, List.filter_nil, hb1]
    norm_num
  have c3 : boxCount [[(0:ℝ)], [0]] 2 [-1] = 2 := by
    simp only [boxCount, List.filter_cons, List.filter_nil, hb1]
    norm_num
  have c4 : boxCount [[(0:ℝ)], [0]] 2 [1] = 2 := by
    simp only [boxCount, List.filter_cons, List.filter_nil, hb1]
    norm_num
  have c5 : boxCount [[(0:ℝ)], [0]] 2 [0] = 2 := by
    simp only [boxCount, List.filter_cons, List.filter_nil, hb1]
    norm_num
  have c6 : boxCount [[(-1:ℝ)], [1]] 2 [0] = 2 := by
    simp only [boxCount, List.filter_cons, List.filter_nil, hb1]
    norm_num
  constructor
  · rw [C69_kernel_kld_value (.one [-1, 1]) (.one [0, 0]) (KVar.wf_one _) (KVar.wf_one _) rfl (by simp [KVar.len]) (by simp [KVar.len]) 2 (by norm_num) (by
      intro x hx
      refine ⟨[0], by simp [KVar.samples, assure2d], ?_⟩
      simp only [KVar.samples, assure2d, List.map_cons, List.map_nil, List.mem_cons, List.not_mem_nil, or_false] at hx
      rcases hx with rfl | rfl <;> rw [hb1] <;> norm_num) w b hb.valid]
    congr 2
    simp only [boxKl, KVar.samples, KVar.dim, assure2d, List.map_cons, List.map_nil, boxDensity, c1, c2, c3, c4, mean]
    norm_num
    rw [show (1 / 2 : ℝ) = 2⁻¹ by norm_num, Real.log_inv]
  · have H : DivArgs [.one [-1, 1], .one [0, 0]] 1 :=
      ⟨by simp, .inl ⟨rfl, by simp⟩, by
        intro v hv
        simp only [List.mem_cons, List.not_mem_nil, or_false] at hv
        rcases hv with rfl | rfl <;> exact KVar.wf_one _, by simp [KVar.len]⟩
    obtain ⟨v, h1, h2, _⟩ := C69_kernel_jsd_equal_sizes _ 1 2 H (by simp [KVar.len]) 2 (by norm_num) w b hb
    rw [h1, h2]
    congr 2
    simp only [boxJsd, KVar.samples, assure2d, List.map_cons, List.map_nil, boxDensity, c1, c2, c3, c4, c5, c6, mean]
    norm_num
    rw [show (2 / 3 : ℝ) = (3 / 2)⁻¹ by norm_num, Real.log_inv]
    ring

example := C69_kernel_negative 1 (.num 2) (by norm_num [Base.Std])

/-- **C69** Samples of different shapes, or no samples at all, are a ValueError; so are samples of different
dimension for the Kullback–Leibler value. -/
theorem C69_kernel_shape_errors (cfg : KdeCfg) (b : Base) (xs : List ℝ) (a c : Arr) (r : List KVar) (p q : KVar) (hd : p.dim ≠ q.dim) :
    kernelJsd [] cfg b = .error .valueError ∧ kernelJsd (.one xs :: .two a :: r) cfg b = .error .valueError ∧
    kernelJsd (.two a :: .one xs :: r) cfg b = .error .valueError ∧
    (a.cols ≠ c.cols → kernelJsd (.two a :: .two c :: r) cfg b = .error .valueError) ∧
    kernelKld (.arr p) (.arr q) cfg b = .error .valueError := by
  refine ⟨rfl, ?_, ?_, fun hc => ?_, ?_⟩
  · simp [kernelJsd, concatVars, joinOne, List.mapM_cons, bind, Except.bind]
  · simp [kernelJsd, concatVars, joinTwo, List.mapM_cons, bind, Except.bind]
  · simp [kernelJsd, concatVars, joinTwo, List.mapM_cons, bind, Except.bind, Ne.symm hc]
  · unfold kernelKld
    rw [C47_cross_dimension cfg p q hd b]
    rfl

example := C69_kernel_shape_errors (boxCfg 1) .e [0, 1] ⟨1, [[0], [1]]⟩ ⟨2, [[0, 1], [1, 1]]⟩ [] (.one [0, 1]) (.two ⟨2, [[0, 1], [1, 1]]⟩)
  (by simp [KVar.dim, assure2d])

/-! ## Names -/

/-- **C69** `jensen_shannon_divergence` reaches a computation exactly for the names of the discrete, shrink, Bayes,
ordinal and kernel estimators (in any case) and arguments that are all lists or arrays; everything else is a ValueError,
in particular no name at all, an unknown name, and every other estimator of the library. -/
theorem C69_jsd_names (L : PyLower) (a : PyName) (al : List Bool) (f : Fam) :
    (jsdEntry L a al = .ok f ↔ (∀ x ∈ al, x = true) ∧ f ∈ [Fam.discrete, .shrink, .bayes, .ordinal, .kernel] ∧
      ∃ s, a = .str s ∧ L.run s ∈ approachNames .h f) ∧
    (jsdEntry L a al = .error .valueError ∨ ∃ g, jsdEntry L a al = .ok g) := by
  have hent : ∀ a, getEstimatorClass L (.str "entropy") a = getEstimator L entropyTable a := by
    intro a
    unfold getEstimatorClass
    simp [lower_entropy L]
  cases a with
  | none => simp [jsdEntry]
  | other => simp [jsdEntry, getEstimatorClass, lower_entropy L, getEstimator, bind, Except.bind]
  | str s =>
    unfold jsdEntry
    simp only [hent]
    by_cases hal : al.all id = false
    · rw [if_pos hal]
      simp only [reduceCtorEq, false_iff]
      refine ⟨?_, .inl trivial⟩
      rintro ⟨h1, _⟩
      have : al.all id = true := List.all_eq_true.2 fun x hx => h1 x hx
      rw [this] at hal; simp at hal
    · rw [if_neg hal]
      have hal' : ∀ x ∈ al, x = true := fun x hx => by
        have h2 : al.all id = true := by cases h : al.all id <;> simp_all
        have := List.all_eq_true.1 h2 x hx
        simpa using this
      rcases resolve_cases L .h (.str s) with ⟨_, g, hg, e⟩ | ⟨hn, e⟩
      · have e' : getEstimator L entropyTable (.str s) = .ok ⟨.h, g⟩ := e
        rw [e']
        have hu : ∀ f, (∃ s', PyName.str s = .str s' ∧ L.run s' ∈ approachNames .h f) ↔ f = g := fun f =>
          ⟨fun hf => Names.unique hf hg, fun hf => hf ▸ hg⟩
        rw [hu]
        simp only [bind, Except.bind, pure, Except.pure]
        cases g <;> simp <;> first | (intro _ h1 h2; subst h2; simp at h1; done) | (constructor <;> intro h1 <;> first | (subst h1; simp; exact hal') | exact h1.2.2.symm | exact h1.2.symm | (simp_all))
      · have e' : getEstimator L entropyTable (.str s) = .error .valueError := e
        rw [e']
        simp only [bind, Except.bind, reduceCtorEq, false_iff]
        refine ⟨?_, .inl trivial⟩
        rintro ⟨_, _, s', h1, h2⟩
        exact hn ⟨s', f, h1, h2⟩

/-- **C69** `kullback_leiber_divergence` accepts exactly the names of entropy estimators; without an approach (the default
is the empty string), with `None` or with an unknown name it raises ValueError. -/
theorem C69_kld_names (L : PyLower) (a : Option PyName) (f : Fam) :
    (kldEntry L a = .ok f ↔ ∃ s, a = some (.str s) ∧ L.run s ∈ approachNames .h f) ∧
    (kldEntry L a = .error .valueError ∨ ∃ g, kldEntry L a = .ok g) ∧ kldEntry L none = .error .valueError := by
  have hent : ∀ a, getEstimatorClass L (.str "entropy") a = getEstimator L entropyTable a := by
    intro a
    unfold getEstimatorClass
    simp [lower_entropy L]
  have hl : L.run "" = "" := lower_variant L (by decide) (by unfold CaseVariant; decide)
  have hdef : kldEntry L none = .error .valueError := by
    simp only [kldEntry, Option.getD_none, hent, getEstimator, hl]
    rfl
  have key : ∀ s, (kldEntry L (some (.str s)) = .ok f ↔ L.run s ∈ approachNames .h f) ∧
      (kldEntry L (some (.str s)) = .error .valueError ∨ ∃ g, kldEntry L (some (.str s)) = .ok g) := by
    intro s
    simp only [kldEntry, Option.getD_some, hent]
    rcases resolve_cases L .h (.str s) with ⟨_, g, hg, e⟩ | ⟨hn, e⟩
    · have e' : getEstimator L entropyTable (.str s) = .ok ⟨.h, g⟩ := e
      rw [e']
      simp only [bind, Except.bind, pure, Except.pure, Except.ok.injEq]
      exact ⟨⟨fun h => by obtain ⟨s', h1, h2⟩ := hg; cases h1; rw [← h]; exact h2, fun h => (Names.unique ⟨s, rfl, h⟩ hg).symm⟩, .inr ⟨g, rfl⟩⟩
    · have e' : getEstimator L entropyTable (.str s) = .error .valueError := e
      rw [e']
      simp only [bind, Except.bind, reduceCtorEq, false_iff]
      exact ⟨fun h => hn ⟨s, f, rfl, h⟩, .inl trivial⟩
  refine ⟨?_, ?_, hdef⟩
  · cases a with
    | none => rw [hdef]; simp
    | some a =>
      cases a with
      | none => simp [kldEntry]
      | other => simp [kldEntry, hent, getEstimator, bind, Except.bind]
      | str s => simpa using (key s).1
  · cases a with
    | none => exact .inl hdef
    | some a =>
      cases a with
      | none => simp [kldEntry]
      | other => simp [kldEntry, hent, getEstimator, bind, Except.bind]
      | str s => exact (key s).2

end Verif
