import Verif.Props.BaseChange
import Verif.Model.Kernel
import Verif.Model.Knn

/-!
# C09 for the continuous estimators: kernel, KSG, Kozachenko–Leonenko, Rényi and Tsallis
-/

namespace Verif

theorem resc_meanOrNan (r : ℝ) (l : List ℝ) : meanOrNan (l.map (fun v => v / r)) = (meanOrNan l).map (fun v => v / r) := by
  simp only [meanOrNan, List.length_map]
  split_ifs
  · rfl
  · exact resc_ok (by rw [sum_div_map]; ring)

variable {b : Base}

theorem resc_negLog (hb : b.Valid) (p : ℝ) : negLogOrZero b p = (negLogOrZero .e p).map (fun v => v / b.ln) := by
  simp only [negLogOrZero]
  split_ifs
  · exact resc_zero _
  · rw [resc_log hb]
    cases logBase .e p with
    | error e => rfl
    | ok v => exact resc_ok (by ring)

theorem resc_kernelSimple (hb : b.Valid) (cfg : KdeCfg) (a : Arr) :
    kernelSimple cfg b a = (kernelSimple cfg .e a).map (List.map (fun v => v / b.ln)) := by
  simp only [kernelSimple, bind, pure]
  refine resc_bind _ fun dens => ?_
  refine resc_bind' (resc_mapM _ fun d => resc_negLog hb d) fun ls => ?_
  split_ifs
  · rfl
  · rfl

theorem resc_kernelLocal (hb : b.Valid) (args : List KArg) (cfg : KdeCfg) :
    kernelEntropyLocal args cfg b = (kernelEntropyLocal args cfg .e).map (List.map (fun v => v / b.ln)) := by
  unfold kernelEntropyLocal
  split
  · exact resc_kernelSimple hb cfg _
  · split_ifs
    · exact resc_bind _ fun a => resc_kernelSimple hb cfg a
    · rfl
  · rfl
  · rfl

/-- **C09** kernel entropy and cross-entropy, global and local, every kernel, bandwidth and argument. -/
theorem C09_kernel_entropy (args : List KArg) (cfg : KdeCfg) (b : Base) (hb : b.Valid) :
    OnlyRescales (kernelEntropy args cfg) b ∧ OnlyRescalesL (kernelEntropyLocal args cfg) b := by
  refine ⟨?_, resc_kernelLocal hb args cfg⟩
  unfold OnlyRescales kernelEntropy
  split
  · simp only [kernelCross, bind, pure]
    refine resc_bind _ fun dens => ?_
    refine resc_bind' (φ := List.map (fun v => v / b.ln)) (resc_mapM _ fun d => resc_log hb d) fun ls => ?_
    split_ifs
    · rfl
    · rfl
    · rw [sum_div_map]
      exact resc_ok (by ring)
  · exact resc_bind' (resc_kernelLocal hb args cfg) fun ls => resc_meanOrNan _ ls

example := C09_kernel_entropy [.arr (.one [0, 1, 3])] ⟨.num (1 / 2), .box, 1⟩ (.num 2) (by norm_num [Base.Valid])

theorem resc_kernelMILocal (hb : b.Valid) (data : List KVar) (offset : Option Int) (normalize : Bool) (cfg : KdeCfg) :
    kernelMILocal data offset normalize cfg b = (kernelMILocal data offset normalize cfg .e).map (List.map (fun v => v / b.ln)) :=
  resc_bind _ fun _ => resc_bind _ fun _ => resc_bind _ fun _ => resc_bind _ fun _ => resc_mapM _ fun _ => resc_log hb _

theorem resc_kernelCMILocal (hb : b.Valid) (data : List KVar) (cond : Option KVar) (offset : Option Int) (normalize : Bool)
    (cfg : KdeCfg) : kernelCMILocal data cond offset normalize cfg b =
      (kernelCMILocal data cond offset normalize cfg .e).map (List.map (fun v => v / b.ln)) :=
  resc_bind _ fun _ => resc_bind _ fun _ => resc_bind _ fun _ => resc_bind _ fun _ => resc_bind _ fun _ =>
    resc_mapM _ fun _ => resc_log hb _

theorem resc_kernelTECalc (hb : b.Valid) (cfg : KdeCfg) (sp : TESpaces ℝ) :
    kernelTECalc cfg b sp = (kernelTECalc cfg .e sp).map (List.map (fun v => v / b.ln)) := by
  simp only [kernelTECalc, bind, pure]
  refine resc_bind _ fun _ => resc_bind _ fun _ => resc_bind _ fun _ => resc_bind _ fun _ => ?_
  refine resc_bind' (φ := List.map (fun v => v / b.ln)) (resc_mapM _ fun t => ?_) fun ls => ?_
  · rw [resc_log hb]
    cases logBase .e _ with
    | ok v => rfl
    | error e =>
      simp only [Except.map, zeroIfNonFinite]
      split_ifs
      · exact resc_ok (by simp)
      · rfl
  · split_ifs
    · rfl
    · rfl

/-- **C09** kernel mutual information, conditional mutual information and transfer entropies, every argument. -/
theorem C09_kernel_measures (cfg : KdeCfg) (b : Base) (hb : b.Valid) :
    (∀ data offset normalize, OnlyRescales (kernelMI data offset normalize cfg) b) ∧
    (∀ data cond offset normalize, OnlyRescales (kernelCMI data cond offset normalize cfg) b) ∧
    (∀ source dest p propTime offset rnd, OnlyRescales (fun b => kernelTE source dest p propTime offset cfg b rnd) b) ∧
    (∀ source dest cond p condHist propTime offset, OnlyRescales (kernelCTE source dest cond p condHist propTime offset cfg) b) :=
  ⟨fun _ _ _ => resc_bind' (resc_kernelMILocal hb _ _ _ _) fun ls => resc_meanOrNan _ ls,
   fun _ _ _ _ => resc_bind' (resc_kernelCMILocal hb _ _ _ _ _) fun ls => resc_meanOrNan _ ls,
   fun _ _ _ _ _ _ => resc_bind' (resc_bind _ fun _ => resc_bind _ fun _ => resc_bind _ fun _ => resc_kernelTECalc hb _ _)
     fun ls => resc_meanOrNan _ ls,
   fun _ _ _ _ _ _ _ => resc_bind' (resc_bind _ fun _ => resc_bind _ fun _ => resc_bind _ fun _ => resc_kernelTECalc hb _ _)
     fun ls => resc_meanOrNan _ ls⟩

example := C09_kernel_measures ⟨.num (1 / 2), .box, 1⟩ (.num 2) (by norm_num [Base.Valid])

theorem resc_ksgMICalc (hb : b.Valid) (cfg : KsgCfg) (vars : List Arr) :
    ksgMICalc cfg b vars = (ksgMICalc cfg .e vars).map (List.map (fun v => v / b.ln)) := by
  simp only [ksgMICalc, bind]
  refine resc_bind _ fun j => ?_
  split_ifs
  · rfl
  · exact resc_mapM _ fun t => resc_bind _ fun _ => resc_bind _ fun _ => resc_bind _ fun _ => resc_scale hb _

theorem resc_ksgCMICalc (hb : b.Valid) (cfg : KsgCfg) (vars : List Arr) (cond : Arr) :
    ksgCMICalc cfg b vars cond = (ksgCMICalc cfg .e vars cond).map (List.map (fun v => v / b.ln)) := by
  simp only [ksgCMICalc, bind]
  refine resc_bind _ fun j => ?_
  split_ifs
  · rfl
  · exact resc_bind _ fun _ => resc_mapM _ fun t => resc_bind _ fun _ => resc_bind _ fun _ => resc_bind _ fun _ => resc_scale hb _

theorem resc_ksgTECalc (hb : b.Valid) (cfg : KsgCfg) (sp : TESpaces ℝ) :
    ksgTECalc cfg b sp = (ksgTECalc cfg .e sp).map (List.map (fun v => v / b.ln)) := by
  simp only [ksgTECalc]
  split_ifs
  · rfl
  · exact resc_mapM _ fun t => resc_bind _ fun _ => resc_bind _ fun _ => resc_bind _ fun _ => resc_bind _ fun _ => resc_scale hb _

/-- **C09** Kraskov–Stögbauer–Grassberger measures, every argument, number of neighbours and noise. -/
theorem C09_ksg_measures (cfg : KsgCfg) (b : Base) (hb : b.Valid) :
    (∀ data offset normalize noise, OnlyRescales (ksgMI data offset normalize cfg noise) b) ∧
    (∀ data cond offset normalize noise noiseZ, OnlyRescales (ksgCMI data cond offset normalize cfg noise noiseZ) b) ∧
    (∀ source dest p propTime offset nx ny rnd,
      OnlyRescales (fun b => ksgTE source dest p propTime offset cfg nx ny b rnd) b) ∧
    (∀ source dest cond p condHist propTime offset nx ny nz,
      OnlyRescales (ksgCTE source dest cond p condHist propTime offset cfg nx ny nz) b) :=
  ⟨fun _ _ _ _ => resc_bind' (resc_bind _ fun _ => resc_bind _ fun _ => resc_ksgMICalc hb _ _) fun ls => resc_meanOrNan _ ls,
   fun _ _ _ _ _ _ => resc_bind' (resc_bind _ fun _ => resc_bind _ fun _ => resc_ksgCMICalc hb _ _ _) fun ls => resc_meanOrNan _ ls,
   fun _ _ _ _ _ _ _ _ => resc_bind' (resc_bind _ fun _ => resc_bind _ fun _ => resc_bind _ fun _ => resc_bind _ fun _ =>
     resc_ksgTECalc hb _ _) fun ls => resc_meanOrNan _ ls,
   fun _ _ _ _ _ _ _ _ _ _ => resc_bind' (resc_bind _ fun _ => resc_bind _ fun _ => resc_bind _ fun _ => resc_bind _ fun _ =>
     resc_ksgTECalc hb _ _) fun ls => resc_meanOrNan _ ls⟩

example := C09_ksg_measures ⟨1, 2, .num 2⟩ (.num 2) (by norm_num [Base.Valid])

theorem resc_klSimple (hb : b.Valid) (k id : Int) (p : PNorm) (a : Arr) :
    klSimple k id p a b = (klSimple k id p a .e).map (List.map (fun v => v / b.ln)) := by
  refine resc_mapM _ fun x => ?_
  refine resc_bind _ fun c => ?_
  cases kthDist p a.rows (k.toNat + 1) x with
  | none => rfl
  | some e =>
    simp only [klLocalFrom]
    split_ifs
    · exact resc_scale hb _
    · exact resc_bind _ fun _ => resc_scale hb _

theorem resc_klLocal (hb : b.Valid) (args : List KArg) (cfg : KlCfg) (noise : Option (Nat → Nat → ℝ)) :
    klEntropyLocal args cfg noise b = (klEntropyLocal args cfg noise .e).map (List.map (fun v => v / b.ln)) := by
  simp only [klEntropyLocal, bind]
  refine resc_bind _ fun data => ?_
  split
  · exact resc_klSimple hb _ _ _ _
  · exact resc_bind _ fun a => resc_klSimple hb _ _ _ _
  · rfl

/-- **C09** Kozachenko–Leonenko entropy and cross-entropy, every argument and parameter. -/
theorem C09_kl_entropy (args : List KArg) (cfg : KlCfg) (noise noiseQ : Option (Nat → Nat → ℝ)) (b : Base) (hb : b.Valid) :
    OnlyRescales (klEntropy args cfg noise noiseQ) b ∧ OnlyRescalesL (klEntropyLocal args cfg noise) b := by
  refine ⟨?_, resc_klLocal hb args cfg noise⟩
  unfold OnlyRescales klEntropy
  simp only [bind]
  refine resc_bind _ fun data => ?_
  split
  · unfold klCross
    split_ifs
    · rfl
    · rfl
    · exact resc_bind _ fun _ => resc_bind _ fun _ => resc_bind _ fun _ => resc_scale hb _
  · exact resc_bind' (resc_klLocal hb args cfg noise) fun ls => resc_meanOrNan _ ls

example := C09_kl_entropy [.arr (.one [0, 1, 3])] ⟨.int 1, 1, false, .inf⟩ none none (.num 2) (by norm_num [Base.Valid])

theorem resc_expI1 (hb : b.Valid) (k : Nat) (vol : ℝ) (rho : List ℝ) (n : ℝ) (m : Nat) :
    expFamilyI1 k vol rho n m b = (expFamilyI1 k vol rho n m .e).map (fun v => v / b.ln) := by
  simp only [expFamilyI1, bind]
  refine resc_bind _ fun ψ => ?_
  refine resc_bind' (φ := List.map (fun v => v / b.ln)) (resc_mapM _ fun z => resc_log hb z) fun ls => ?_
  simp only [npDiv, sum_div_map]
  split_ifs
  · rfl
  · exact resc_ok (by ring)

theorem resc_renyiVal (hb : b.Valid) (k : Nat) (q : ℝ) (parts : KnnParts) (n : ℝ) :
    renyiVal k q parts n b = (renyiVal k q parts n .e).map (fun v => v / b.ln) := by
  simp only [renyiVal, bind]
  split_ifs
  · refine resc_bind _ fun i => ?_
    split_ifs
    · exact resc_zero _
    · rw [resc_log hb]
      cases logBase .e i with
      | error e => rfl
      | ok v => exact resc_ok (by ring)
  · exact resc_expI1 hb _ _ _ _ _

theorem resc_expEntropy {val : Nat → ℝ → KnnParts → ℝ → Base → Except Exc ℝ} (q₀ : ℝ → Prop) {φ : ℝ → ℝ}
    (hval : ∀ k q parts n, q₀ q → val k q parts n b = (val k q parts n .e).map φ)
    (args : List KArg) (k order : PyArg) (ho : ∀ q, order.posNumber = some q → q₀ q) :
    expEntropy val args k order b = (expEntropy val args k order .e).map φ := by
  simp only [expEntropy, bind]
  cases hi : expInit args k order with
  | error e => rfl
  | ok i =>
    have hq : q₀ i.2.2 := by
      unfold expInit at hi
      simp only [bind] at hi
      cases hp : order.posNumber with
      | none =>
        rw [hp] at hi
        revert hi
        split <;> simp [Except.bind]
      | some q =>
        have := ho q hp
        rw [hp] at hi
        revert hi
        split <;> simp [Except.bind]
        all_goals (try split_ifs) <;> (try simp) <;> (try (rintro rfl; exact this))
    simp only [Except.bind]
    split
    · exact resc_bind _ fun _ => hval _ _ _ _ hq
    · exact resc_bind _ fun _ => resc_bind _ fun _ => hval _ _ _ _ hq
    · exact resc_bind _ fun _ => hval _ _ _ _ hq
    · rfl

/-- **C09** Rényi entropy and cross-entropy of any order. -/
theorem C09_renyi (args : List KArg) (k order : PyArg) (b : Base) (hb : b.Valid) :
    OnlyRescales (expEntropy renyiVal args k order) b :=
  resc_expEntropy (fun _ => True) (fun _ _ _ _ _ => resc_renyiVal hb _ _ _ _) _ _ _ (fun _ _ => trivial)

example := C09_renyi [.arr (.one [0, 1, 3])] (.int 1) (.num (1 / 2)) (.num 2) (by norm_num [Base.Valid])

/-- **C09** Tsallis entropy of order one rescales … -/
theorem C09_tsallis_one (args : List KArg) (k : PyArg) (order : PyArg) (ho : order.posNumber = some 1) (b : Base) (hb : b.Valid) :
    OnlyRescales (expEntropy tsallisVal args k order) b :=
  resc_expEntropy (fun q => q = 1) (fun _ _ _ _ hq => by
    subst hq
    simp only [tsallisVal, ne_eq, not_true_eq_false, if_false]
    exact resc_expI1 hb _ _ _ _ _) _ _ _ (fun q hq => by rw [ho] at hq; cases hq; rfl)

example := C09_tsallis_one [.arr (.one [0, 1, 3])] (.int 1) (.int 1) (by simp [PyArg.posNumber]) (.num 2) (by norm_num [Base.Valid])

/-- … and of any other order it does not depend on the base at all (whatever the base is). -/
theorem C09_tsallis_ignores_base (args : List KArg) (k : PyArg) (order : PyArg) (ho : order.posNumber ≠ some 1) (b c : Base) :
    expEntropy tsallisVal args k order b = expEntropy tsallisVal args k order c := by
  have key : ∀ b, expEntropy tsallisVal args k order b = expEntropy tsallisVal args k order .e := by
    intro b
    have := resc_expEntropy (b := b) (val := tsallisVal) (φ := id) (fun q => q ≠ 1) (fun k q parts n hq => by
      simp only [tsallisVal, if_pos hq]
      cases (bind (expFamilyIq k q parts.vol parts.rho n parts.m) _ : Except Exc ℝ) <;> rfl) args k order
      (fun q hq h => ho (by rw [hq, h]))
    rw [this]
    cases expEntropy tsallisVal args k order .e <;> rfl
  rw [key b, key c]

example := C09_tsallis_ignores_base [.arr (.one [0, 1, 3])] (.int 1) (.int 2) (by simp [PyArg.posNumber]) .e (.num 2)

end Verif
