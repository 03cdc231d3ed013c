import Verif.Props.BaseChange
import Verif.Props.BaseChange2
import Verif.Model.ExpMI
import Verif.Model.Nsb
import Verif.Model.BiasMI

/-!
# C09, continued: the remaining classes

Rényi and Tsallis mutual information and transfer entropy, NSB, and the bias-corrected classes with their own
constructors.
-/

namespace Verif

variable {b : Base}

section
variable {r : ℝ} {H H' : List KArg → Except Exc ℝ}

theorem resc_entropyMI (h : ∀ a, H a = (H' a).map (fun v => v / r)) (vars : List KVar) :
    entropyMI H vars = (entropyMI H' vars).map (fun v => v / r) := by
  simp only [entropyMI, bind, pure]
  refine resc_bind' (φ := List.map (fun v => v / r)) (resc_mapM _ fun v => h _) fun hs => ?_
  refine resc_bind' (φ := fun v => v / r) (h _) fun hj => ?_
  exact resc_ok (by rw [sum_div_map]; ring)

theorem resc_entropyCMI (h : ∀ a, H a = (H' a).map (fun v => v / r)) (vars : List KVar) (z : KVar) :
    entropyCMI H vars z = (entropyCMI H' vars z).map (fun v => v / r) := by
  simp only [entropyCMI, bind, pure]
  refine resc_bind' (φ := List.map (fun v => v / r)) (resc_mapM _ fun v => h _) fun hs => ?_
  refine resc_bind' (φ := fun v => v / r) (h _) fun hj => ?_
  refine resc_bind' (φ := fun v => v / r) (h _) fun hz => ?_
  exact resc_ok (by rw [sum_div_map]; ring)

theorem resc_entropyTE (h : ∀ a, H a = (H' a).map (fun v => v / r)) (sp : TESpaces ℝ) :
    entropyTE H sp = (entropyTE H' sp).map (fun v => v / r) := by
  simp only [entropyTE, bind, pure]
  refine resc_bind' (φ := fun v => v / r) (h _) fun h2 => ?_
  refine resc_bind' (φ := fun v => v / r) (h _) fun h1 => ?_
  refine resc_bind' (φ := fun v => v / r) (h _) fun hj => ?_
  refine resc_bind' (φ := fun v => v / r) (h _) fun hd => ?_
  exact resc_ok (by ring)

/-- the four measures built from an entropy that only rescales -/
theorem resc_exp {val : Nat → ℝ → KnnParts → ℝ → Base → Except Exc ℝ} {b c : Base} {k order : PyArg}
    (h : ∀ a, expEntropy val a k order b = (expEntropy val a k order c).map (fun v => v / r)) :
    (∀ data offset nm noise, expMI val data offset nm k order noise b = (expMI val data offset nm k order noise c).map (fun v => v / r)) ∧
    (∀ data cond offset nm noise noiseZ, expCMI val data cond offset nm k order noise noiseZ b =
      (expCMI val data cond offset nm k order noise noiseZ c).map (fun v => v / r)) ∧
    (∀ source dest p propTime offset nx ny rnd, expTE val source dest p propTime offset k order nx ny b rnd =
      (expTE val source dest p propTime offset k order nx ny c rnd).map (fun v => v / r)) ∧
    (∀ source dest cond p condHist propTime offset nx ny nz, expCTE val source dest cond p condHist propTime offset k order nx ny nz b =
      (expCTE val source dest cond p condHist propTime offset k order nx ny nz c).map (fun v => v / r)) := by
  refine ⟨fun _ _ _ _ => ?_, fun _ _ _ _ _ _ => ?_, fun _ _ _ _ _ _ _ _ => ?_, fun _ _ _ _ _ _ _ _ _ _ => ?_⟩
  · exact resc_bind _ fun _ => resc_bind _ fun _ => resc_entropyMI h _
  · exact resc_bind _ fun _ => resc_bind _ fun _ => resc_entropyCMI h _ _
  · exact resc_bind _ fun _ => resc_bind _ fun _ => resc_bind _ fun _ => resc_bind _ fun _ => resc_bind _ fun _ => resc_entropyTE h _
  · exact resc_bind _ fun _ => resc_bind _ fun _ => resc_bind _ fun _ => resc_bind _ fun _ => resc_bind _ fun _ => resc_entropyTE h _

end

/-- **C09** Rényi mutual information, conditional mutual information and transfer entropies: every argument, every order. -/
theorem C09_renyi_measures (k order : PyArg) (b : Base) (hb : b.Valid) :
    (∀ data offset nm noise, OnlyRescales (expMI renyiVal data offset nm k order noise) b) ∧
    (∀ data cond offset nm noise noiseZ, OnlyRescales (expCMI renyiVal data cond offset nm k order noise noiseZ) b) ∧
    (∀ source dest p propTime offset nx ny rnd,
      OnlyRescales (fun b => expTE renyiVal source dest p propTime offset k order nx ny b rnd) b) ∧
    (∀ source dest cond p condHist propTime offset nx ny nz,
      OnlyRescales (expCTE renyiVal source dest cond p condHist propTime offset k order nx ny nz) b) :=
  resc_exp (fun a => C09_renyi a k order b hb)

example := C09_renyi_measures (.int 1) (.num (1 / 2)) (.num 2) (by norm_num [Base.Valid])

/-- **C09** Tsallis mutual information, conditional mutual information and transfer entropies of order one rescale … -/
theorem C09_tsallis_one_measures (k order : PyArg) (ho : order.posNumber = some 1) (b : Base) (hb : b.Valid) :
    (∀ data offset nm noise, OnlyRescales (expMI tsallisVal data offset nm k order noise) b) ∧
    (∀ data cond offset nm noise noiseZ, OnlyRescales (expCMI tsallisVal data cond offset nm k order noise noiseZ) b) ∧
    (∀ source dest p propTime offset nx ny rnd,
      OnlyRescales (fun b => expTE tsallisVal source dest p propTime offset k order nx ny b rnd) b) ∧
    (∀ source dest cond p condHist propTime offset nx ny nz,
      OnlyRescales (expCTE tsallisVal source dest cond p condHist propTime offset k order nx ny nz) b) :=
  resc_exp (fun a => C09_tsallis_one a k order ho b hb)

example := C09_tsallis_one_measures (.int 1) (.int 1) (by simp [PyArg.posNumber]) (.num 2) (by norm_num [Base.Valid])

/-- … and of any other order they do not depend on the base. -/
theorem C09_tsallis_measures_ignore_base (k order : PyArg) (ho : order.posNumber ≠ some 1) (b c : Base) :
    (∀ data offset nm noise, expMI tsallisVal data offset nm k order noise b = expMI tsallisVal data offset nm k order noise c) ∧
    (∀ data cond offset nm noise noiseZ, expCMI tsallisVal data cond offset nm k order noise noiseZ b =
      expCMI tsallisVal data cond offset nm k order noise noiseZ c) ∧
    (∀ source dest p propTime offset nx ny rnd, expTE tsallisVal source dest p propTime offset k order nx ny b rnd =
      expTE tsallisVal source dest p propTime offset k order nx ny c rnd) ∧
    (∀ source dest cond p condHist propTime offset nx ny nz,
      expCTE tsallisVal source dest cond p condHist propTime offset k order nx ny nz b =
        expCTE tsallisVal source dest cond p condHist propTime offset k order nx ny nz c) := by
  have hh : (fun a => expEntropy tsallisVal a k order b) = fun a => expEntropy tsallisVal a k order c :=
    funext fun a => C09_tsallis_ignores_base a k order ho b c
  refine ⟨fun _ _ _ _ => ?_, fun _ _ _ _ _ _ => ?_, fun _ _ _ _ _ _ _ _ => ?_, fun _ _ _ _ _ _ _ _ _ _ => ?_⟩ <;>
    simp only [expMI, expCMI, expTE, expCTE, hh]

example := C09_tsallis_measures_ignore_base (.int 1) (.num 2) (by norm_num [PyArg.posNumber]) (.num 2) .e

theorem resc_nsbSimple {α : Type} (hb : b.Valid) (find : Int → Int → ℝ) (K : Option Int) (d : DiscreteData α) :
    nsbSimple find K b d = (nsbSimple find K .e d).map (fun v => v / b.ln) := by
  simp only [nsbSimple]
  split_ifs
  · rfl
  · rfl
  · exact resc_scale hb _

theorem nsb_hEstRel (hb : b.Valid) (find : Int → Int → ℝ) (K : Option Int) : HEstRel b.ln (nsbH find K b) (nsbH find K .e) :=
  ⟨resc_nsbSimple hb find K, fun _ => rfl⟩

section
variable {e e' : HEst} {r : ℝ} (h : HEstRel r e e')
include h

/-- the entropy combinations of two entropy estimators that differ by a factor -/
theorem resc_generic :
    (∀ cols offset, genericMI e cols offset = (genericMI e' cols offset).map (fun v => v / r)) ∧
    (∀ cols cond offset, genericCMI e cols cond offset = (genericCMI e' cols cond offset).map (fun v => v / r)) ∧
    (∀ source dest p propTime offset rnd, genericTE e source dest p propTime offset rnd =
      (genericTE e' source dest p propTime offset rnd).map (fun v => v / r)) ∧
    (∀ source dest cond p condHist propTime offset, genericCTE e source dest cond p condHist propTime offset =
      (genericCTE e' source dest cond p condHist propTime offset).map (fun v => v / r)) := by
  refine ⟨fun cols offset => ?_, fun cols cond offset => ?_, fun source dest p propTime offset rnd => ?_,
    fun source dest cond p condHist propTime offset => ?_⟩
  · exact resc_bind _ fun _ => resc_bind _ fun _ => resc_bind _ fun _ => resc_combineH h _ _
  · exact resc_bind _ fun _ => resc_bind _ fun _ => resc_bind _ fun _ => resc_bind _ fun _ => resc_combineH h _ _
  · exact resc_bind _ fun _ => resc_bind _ fun _ => resc_bind _ fun _ => resc_bind _ fun _ => resc_bind _ fun _ =>
      resc_bind _ fun _ => resc_bind _ fun _ => resc_combineH h _ _
  · exact resc_bind _ fun _ => resc_bind _ fun _ => resc_bind _ fun _ => resc_bind _ fun _ => resc_bind _ fun _ =>
      resc_bind _ fun _ => resc_bind _ fun _ => resc_combineH h _ _

end

/-- **C09** the NSB estimator: entropy, mutual information, conditional mutual information and transfer entropies. -/
theorem C09_nsb (find : Int → Int → ℝ) (b : Base) (hb : b.Valid) :
    (∀ K args, OnlyRescales (fun b => nsbEntropy find K b args) b) ∧
    (∀ K cols offset, OnlyRescales (nsbMI find K cols offset) b) ∧
    (∀ K cols cond offset, OnlyRescales (nsbCMI find K cols cond offset) b) ∧
    (∀ K source dest p propTime offset rnd, OnlyRescales (fun b => nsbTE find K source dest p propTime offset b rnd) b) ∧
    (∀ K source dest cond p condHist propTime offset,
      OnlyRescales (nsbCTE find K source dest cond p condHist propTime offset) b) := by
  refine ⟨fun K args => ?_, fun K cols offset => ?_, fun K cols cond offset => ?_, fun K source dest p propTime offset rnd => ?_,
    fun K source dest cond p condHist propTime offset => ?_⟩
  · exact resc_bind _ fun _ => resc_dispatch (c := fun _ _ => .error .theoreticalInconsistency)
      (c' := fun _ _ => .error .theoreticalInconsistency) (resc_nsbSimple hb find K) (fun _ _ => rfl) _
  · exact resc_bind _ fun _ => resc_bind _ fun k => (resc_generic (nsb_hEstRel hb find k)).1 _ _
  · exact resc_bind _ fun _ => resc_bind _ fun k => (resc_generic (nsb_hEstRel hb find k)).2.1 _ _ _
  · exact resc_bind _ fun _ => resc_bind _ fun k => (resc_generic (nsb_hEstRel hb find k)).2.2.1 _ _ _ _ _ _
  · exact resc_bind _ fun _ => resc_bind _ fun k => (resc_generic (nsb_hEstRel hb find k)).2.2.2 _ _ _ _ _ _ _

example := C09_nsb (fun _ _ => 1) (.num 2) (by norm_num [Base.Valid])

theorem bias_hEstRel (hb : b.Valid) (c : BiasClass) : HEstRel b.ln (c.est b) (c.est .e) := by
  cases c with
  | grassberger => exact hEstRel .grassberger hb
  | chaoShen => exact hEstRel .chaoShen hb
  | chaoWangJost => exact hEstRel .chaoWangJost hb
  | shrink => exact hEstRel .shrink hb
  | zhang => exact hEstRel .zhang hb
  | bonachela => exact hEstRel .bonachela hb
  | bayes a K => exact hEstRel (.bayes a _) hb
  | ansb u => exact hEstRel (.ansb none) hb

/-- **C09** the bias-corrected mutual-information and transfer-entropy classes, every argument and parameter. -/
theorem C09_bias (c : BiasClass) (b : Base) (hb : b.Valid) :
    (∀ cols offset, OnlyRescales (biasMI c cols offset) b) ∧
    (∀ cols cond offset, OnlyRescales (biasCMI c cols cond offset) b) ∧
    (∀ source dest p propTime offset rnd, OnlyRescales (fun b => biasTE c source dest p propTime offset b rnd) b) ∧
    (∀ source dest cond p condHist propTime offset,
      OnlyRescales (biasCTE c source dest cond p condHist propTime offset) b) := by
  have h := resc_generic (bias_hEstRel hb c)
  refine ⟨fun cols offset => ?_, fun cols cond offset => ?_, fun source dest p propTime offset rnd => ?_,
    fun source dest cond p condHist propTime offset => ?_⟩
  · exact resc_bind _ fun _ => resc_bind _ fun _ => h.1 _ _
  · exact resc_bind _ fun _ => resc_bind _ fun _ => h.2.1 _ _ _
  · exact resc_bind _ fun _ => resc_bind _ fun _ => h.2.2.1 _ _ _ _ _ _
  · exact resc_bind _ fun _ => resc_bind _ fun _ => h.2.2.2 _ _ _ _ _ _ _

example := C09_bias (.bayes (.str "laplace") none) (.num 2) (by norm_num [Base.Valid])

end Verif
