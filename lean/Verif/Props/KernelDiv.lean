import Verif.Model.Divergence2
import Verif.Lemmas.OrdinalDiv
import Verif.Props.Kernel3
import Verif.Props.Divergence
import Verif.Props.KernelMI
import Verif.Props.KlEntropy

/-! # Property C69 : divergences of continuous data -/

namespace Verif

open Spec

namespace Spec

/-- Jensen–Shannon divergence of box-kernel densities: the average over the samples of the mean log-ratio of the
sample's own density and the equal-weight mixture of all densities, evaluated at the sample points -/
noncomputable def boxJsd (Ss : List (List (List ℝ))) (d : Nat) (h : ℝ) : ℝ :=
  mean (Ss.map (fun S => mean (S.map (fun x =>
    Real.log (boxDensity S d h x / mean (Ss.map (fun T => boxDensity T d h x)))))))

/-- Kullback–Leibler divergence of box-kernel densities, evaluated at the points of the first sample -/
noncomputable def boxKl (S T : List (List ℝ)) (d : Nat) (h : ℝ) : ℝ :=
  mean (S.map (fun x => Real.log (boxDensity S d h x / boxDensity T d h x)))

end Spec

/-- all samples are one-dimensional arrays, or all are two-dimensional with `d` columns -/
def SameShape (data : List KVar) (d : Nat) : Prop :=
  (d = 1 ∧ ∀ v ∈ data, ∃ xs, v = .one xs) ∨ ∀ v ∈ data, ∃ a, v = .two a ∧ a.cols = d

theorem concatVars_one (xss : List (List ℝ)) (h : xss ≠ []) :
    concatVars (xss.map KVar.one) = .ok (.one xss.flatten) := by
  cases xss with
  | nil => exact absurd rfl h
  | cons xs r =>
    simp only [List.map_cons, concatVars]
    rw [List.mapM_map, mapM_ok (f := joinOne ∘ KVar.one) (g := fun ys => ys) r (fun ys _ => rfl)]
    simp [bind, Except.bind, pure, Except.pure]

theorem concatVars_two (d : Nat) (Rs : List (List (List ℝ))) (h : Rs ≠ []) :
    concatVars (Rs.map (fun R => KVar.two ⟨d, R⟩)) = .ok (.two ⟨d, Rs.flatten⟩) := by
  cases Rs with
  | nil => exact absurd rfl h
  | cons R r =>
    simp only [List.map_cons, concatVars]
    rw [List.mapM_map, mapM_ok (f := joinTwo d ∘ fun R => KVar.two ⟨d, R⟩) (g := fun ys => ys) r (fun ys _ => by simp [joinTwo])]
    simp [bind, Except.bind, pure, Except.pure]

theorem concatVars_ok {data : List KVar} {d : Nat} (hs : SameShape data d) (hne : data ≠ []) :
    ∃ v, concatVars data = .ok v ∧ v.samples = (data.map KVar.samples).flatten ∧ (assure2d v).cols = d := by
  rcases hs with ⟨hd, h⟩ | h
  · choose! f hf using h
    have e : data = (data.map f).map KVar.one := by
      rw [List.map_map]
      conv_lhs => rw [← List.map_id data]
      exact List.map_congr_left fun v hv => hf v hv
    refine ⟨.one (data.map f).flatten, by
      conv_lhs => rw [e]
      exact concatVars_one (data.map f) (by simpa using hne), ?_, hd.symm⟩
    conv_rhs => rw [e]
    simp only [KVar.samples, assure2d, List.map_flatten, List.map_map]
    rfl
  · have : Nonempty Arr := ⟨⟨0, []⟩⟩
    choose! f hf using h
    have e : data = (data.map (fun v => (f v).rows)).map (fun R => KVar.two ⟨d, R⟩) := by
      rw [List.map_map]
      conv_lhs => rw [← List.map_id data]
      refine List.map_congr_left fun v hv => ?_
      obtain ⟨h1, h2⟩ := hf v hv
      show v = KVar.two ⟨d, (f v).rows⟩
      rw [← h2]
      exact h1
    refine ⟨.two ⟨d, (data.map (fun v => (f v).rows)).flatten⟩, by
      conv_lhs => rw [e]
      exact concatVars_two d (data.map (fun v => (f v).rows)) (by simpa using hne), ?_, rfl⟩
    conv_rhs => rw [e]
    simp only [KVar.samples, assure2d, List.map_map]
    congr 1

/-- the arguments of a kernel divergence: well-formed samples of one shape with at least two points each -/
structure DivArgs (data : List KVar) (d : Nat) : Prop where
  ne : data ≠ []
  shape : SameShape data d
  wf : ∀ v ∈ data, v.WF
  two : ∀ v ∈ data, 2 ≤ v.len

theorem DivArgs.cols {data : List KVar} {d : Nat} (H : DivArgs data d) {v : KVar} (hv : v ∈ data) : (assure2d v).cols = d := by
  rcases H.shape with ⟨hd, h⟩ | h
  · obtain ⟨xs, rfl⟩ := h v hv; exact hd.symm
  · obtain ⟨a, rfl, ha⟩ := h v hv; exact ha

/-- **C69** The kernel Jensen–Shannon value of any number of samples is the box-kernel entropy of the pooled
sample minus the average of the entropies of the samples. -/
theorem C69_kernel_jsd_value (data : List KVar) (d : Nat) (H : DivArgs data d) (h : ℝ) (hh : 0 < h) (w : Int) (b : Base) (hb : b.Valid) :
    kernelJsd data (boxCfg h w) b =
      .ok ((boxEntropy (data.map KVar.samples).flatten d h - mean (data.map (fun v => boxEntropy v.samples d h))) / b.ln) := by
  obtain ⟨v, hv, h1, h2⟩ := concatVars_ok H.shape H.ne
  have hl : 2 ≤ v.len := by
    rw [← KVar.len_rows]
    have : (assure2d v).rows = (data.map KVar.samples).flatten := h1
    rw [this, List.length_flatten]
    obtain ⟨u, hu⟩ := List.exists_mem_of_ne_nil _ H.ne
    have := List.le_sum_of_mem (List.mem_map.2 ⟨_, List.mem_map.2 ⟨u, hu, rfl⟩, rfl⟩ : u.samples.length ∈ (data.map KVar.samples).map List.length)
    have h3 := H.two u hu
    rw [← KVar.len_rows] at h3
    exact h3.trans this
  have hw : v.WF := by
    intro x hx
    have : (assure2d v).rows = (data.map KVar.samples).flatten := h1
    rw [this] at hx
    obtain ⟨l, hl, hx⟩ := List.mem_flatten.1 hx
    obtain ⟨u, hu, rfl⟩ := List.mem_map.1 hl
    rw [h2, ← H.cols hu]
    exact H.wf u hu x hx
  unfold kernelJsd
  rw [hv]
  simp only [bind, Except.bind, C47_entropy_value v hw hl h hh w b hb]
  rw [mapM_ok (g := fun u => boxEntropy u.samples d h / b.ln) data (fun u hu => by
    rw [C47_entropy_value u (H.wf u hu) (H.two u hu) h hh w b hb, H.cols hu]; rfl)]
  simp only [pure, Except.pure]
  rw [sum_map_div_const, h2]
  unfold mean
  rw [List.length_map]
  congr 1
  have : (assure2d v).rows = (data.map KVar.samples).flatten := h1
  rw [this]
  ring

example := C69_kernel_jsd_value [.one [0, 1, 3], .one [2, 0]] 1 ⟨by simp, .inl ⟨rfl, by simp⟩, by simp [KVar.WF, assure2d, Points],
  by simp [KVar.len]⟩ (3/2) (by norm_num) 1 (.num 2) (by norm_num [Base.Valid])

theorem mean_flatten_equal {β : Type} {n : Nat} (hn : 0 < n) (Ss : List (List β)) (hs : ∀ S ∈ Ss, S.length = n) (F : β → ℝ) :
    mean (Ss.flatten.map F) = mean (Ss.map (fun S => mean (S.map F))) := by
  have h1 : (Ss.flatten.map F).sum = (Ss.map (fun S => (S.map F).sum)).sum := by
    induction Ss with
    | nil => simp
    | cons S r ih =>
      simp only [List.flatten_cons, List.map_append, List.sum_append, List.map_cons, List.sum_cons]
      rw [ih (fun T hT => hs T (by simp [hT]))]
  have h2 : Ss.flatten.length = Ss.length * n := by
    rw [List.length_flatten, List.map_congr_left hs, List.map_const', List.sum_replicate]; simp
  have hn' : (n : ℝ) ≠ 0 := by exact_mod_cast hn.ne'
  unfold mean
  rw [List.length_map, List.length_map, h1, h2]
  have : Ss.map (fun S => (S.map F).sum / ((S.map F).length : ℝ)) = Ss.map (fun S : List β => (S.map F).sum / (n : ℝ)) :=
    List.map_congr_left fun S hS => by rw [List.length_map, hs S hS]
  rw [this, sum_map_div_const]
  push_cast
  by_cases h0 : (Ss.length : ℝ) = 0
  · rw [h0]; simp
  · field_simp

theorem boxCount_flatten (Ss : List (List (List ℝ))) (h : ℝ) (x : List ℝ) :
    boxCount Ss.flatten h x = (Ss.map (fun S => boxCount S h x)).sum := by
  induction Ss with
  | nil => simp [boxCount]
  | cons S r ih =>
    simp only [List.map_cons, List.sum_cons, List.flatten_cons, ← ih]
    simp [boxCount, List.filter_append]

theorem boxDensity_flatten {n : Nat} (hn : 0 < n) {Ss : List (List (List ℝ))} (hs : ∀ S ∈ Ss, S.length = n) (d : Nat) {h : ℝ} (hh : 0 < h) (x : List ℝ) :
    boxDensity Ss.flatten d h x = mean (Ss.map (fun S => boxDensity S d h x)) := by
  unfold boxDensity mean
  have h2 : Ss.flatten.length = Ss.length * n := by
    rw [List.length_flatten, List.map_congr_left hs, List.map_const', List.sum_replicate]; simp
  have : Ss.map (fun S => (boxCount S h x : ℝ) / (S.length * h ^ d)) = Ss.map (fun S => (boxCount S h x : ℝ) / (n * h ^ d)) :=
    List.map_congr_left fun S hS => by rw [hs S hS]
  rw [this, sum_map_div_const, boxCount_flatten, h2, List.length_map]
  have hn' : (n : ℝ) ≠ 0 := by exact_mod_cast hn.ne'
  push_cast
  rw [List.map_map]
  by_cases h0 : (Ss.length : ℝ) = 0
  · rw [h0]; simp
  · have : h ^ d ≠ 0 := by positivity
    field_simp
    rfl

theorem mean_neg {β : Type} (l : List β) (f : β → ℝ) : mean (l.map (fun x => - f x)) = - mean (l.map f) := by
  have := mean_sub l (fun _ => 0) f
  simp only [zero_sub] at this
  rw [this]
  simp [mean]

theorem mean_pos {β : Type} {l : List β} {f : β → ℝ} (hf : ∀ x ∈ l, 0 ≤ f x) {x : β} (hx : x ∈ l) (h : 0 < f x) : 0 < mean (l.map f) := by
  unfold mean
  have h1 : f x ≤ (l.map f).sum := List.single_le_sum (by simpa using hf) _ (List.mem_map.2 ⟨x, hx, rfl⟩)
  have h2 : 0 < (l.map f).length := by rw [List.length_map]; exact List.length_pos_of_mem hx
  have h3 : (0 : ℝ) < (l.map f).length := by exact_mod_cast h2
  exact div_pos (h.trans_le h1) h3

theorem getElem_eq_sum_iff {l : List ℝ} (hl : ∀ x ∈ l, 0 ≤ x) {i : Nat} (hi : i < l.length) :
    l[i] = l.sum ↔ ∀ j (hj : j < l.length), i ≠ j → l[j] = 0 := by
  have e : l.sum = ∑ k : Fin l.length, l[k] := (Fin.sum_univ_getElem l).symm
  rw [e, ← Finset.add_sum_erase Finset.univ (fun k : Fin l.length => l[k]) (Finset.mem_univ ⟨i, hi⟩)]
  have h0 : ∀ k : Fin l.length, 0 ≤ l[k] := fun k => hl _ (List.getElem_mem _)
  constructor
  · intro h j hj hij
    have : ∑ k ∈ Finset.univ.erase (⟨i, hi⟩ : Fin l.length), l[k] = 0 := by
      simp only [Fin.getElem_fin] at h ⊢
      linarith
    exact (Finset.sum_eq_zero_iff_of_nonneg fun k _ => h0 k).1 this ⟨j, hj⟩ (by simp; omega)
  · intro h
    rw [Finset.sum_eq_zero]
    · simp
    · intro k hk
      exact h k.1 k.2 (by rintro rfl; simp at hk)

theorem boxDensity_nonneg (S : List (List ℝ)) (d : Nat) {h : ℝ} (hh : 0 < h) (x : List ℝ) : 0 ≤ boxDensity S d h x := by
  unfold boxDensity; positivity

theorem boxJsd_eq {n : Nat} (hn : 0 < n) {Ss : List (List (List ℝ))} (hs : ∀ S ∈ Ss, S.length = n) (d : Nat) {h : ℝ} (hh : 0 < h) :
    boxEntropy Ss.flatten d h - mean (Ss.map (fun S => boxEntropy S d h)) = boxJsd Ss d h := by
  unfold boxJsd
  have e : ∀ S ∈ Ss, mean (S.map (fun x => Real.log (boxDensity S d h x / mean (Ss.map (fun T => boxDensity T d h x))))) =
      mean (S.map (fun x => - Real.log (boxDensity Ss.flatten d h x))) - boxEntropy S d h := by
    intro S hS
    unfold boxEntropy
    rw [← mean_sub]
    congr 1
    refine List.map_congr_left fun x hx => ?_
    rw [← boxDensity_flatten hn hs d hh, Real.log_div (boxDensity_pos hh hx).ne'
      (boxDensity_pos hh (List.mem_flatten.2 ⟨S, hS, hx⟩)).ne']
    ring
  rw [List.map_congr_left e, mean_sub, ← mean_flatten_equal hn Ss hs]
  rfl

/-- **C69** For samples of one size it is the Jensen–Shannon divergence of the box-kernel densities: at most the
log of the number of samples, with equality exactly when no point of a sample lies in the box of a point of
another one. -/
theorem C69_kernel_jsd_equal_sizes (data : List KVar) (d n : Nat) (H : DivArgs data d) (hn : ∀ v ∈ data, v.len = n) (h : ℝ) (hh : 0 < h)
    (w : Int) (b : Base) (hb : b.Std) :
    ∃ v, kernelJsd data (boxCfg h w) b = .ok v ∧ v = boxJsd (data.map KVar.samples) d h / b.ln ∧
      v ≤ Real.log data.length / b.ln ∧
      (v = Real.log data.length / b.ln ↔ ∀ i j (hi : i < data.length) (hj : j < data.length), i ≠ j →
        ∀ x ∈ data[i].samples, ∀ y ∈ data[j].samples, ¬ InBox h x y) := by
  have hn0 : 0 < n := by
    obtain ⟨u, hu⟩ := List.exists_mem_of_ne_nil _ H.ne
    rw [← hn u hu]; have := H.two u hu; omega
  have hs : ∀ S ∈ data.map KVar.samples, S.length = n := by
    intro S hS
    obtain ⟨u, hu, rfl⟩ := List.mem_map.1 hS
    rw [← hn u hu, ← KVar.len_rows]; rfl
  refine ⟨_, C69_kernel_jsd_value data d H h hh w b hb.valid, ?_⟩
  have e1 : data.map (fun v => boxEntropy v.samples d h) = (data.map KVar.samples).map (fun S => boxEntropy S d h) := by
    rw [List.map_map]; rfl
  rw [e1, boxJsd_eq hn0 hs d hh]
  refine ⟨rfl, ?_⟩
  set Ss := data.map KVar.samples with hSs
  have hm : (0 : ℝ) < Ss.length := by
    have : 0 < Ss.length := by rw [hSs, List.length_map]; exact List.length_pos_iff.2 H.ne
    exact_mod_cast this
  have hlen : (data.length : ℝ) = Ss.length := by rw [hSs, List.length_map]
  have hSne : Ss ≠ [] := by simpa [hSs] using H.ne
  -- every inner term is at most log m, with equality iff counts agree
  let t : List (List ℝ) → List ℝ → ℝ := fun S x => - Real.log (boxDensity S d h x / mean (Ss.map (fun T => boxDensity T d h x)))
  have hge : ∀ S ∈ Ss, ∀ x ∈ S, boxDensity S d h x ≤ (Ss.map (fun T => boxDensity T d h x)).sum := fun S hS x _ =>
    List.single_le_sum (by simpa using fun T _ => boxDensity_nonneg T d hh x) _ (List.mem_map.2 ⟨S, hS, rfl⟩)
  have hT : ∀ S ∈ Ss, ∀ x ∈ S, boxDensity S d h x / mean (Ss.map (fun T => boxDensity T d h x)) =
      Ss.length * (boxDensity S d h x / (Ss.map (fun T => boxDensity T d h x)).sum) := by
    intro S hS x hx
    have h1 := boxDensity_pos (d := d) hh hx
    have h2 := h1.trans_le (hge S hS x hx)
    unfold mean
    rw [List.length_map]
    field_simp
  have ht : ∀ S ∈ Ss, ∀ x ∈ S, - Real.log Ss.length ≤ t S x ∧
      (t S x = - Real.log Ss.length ↔ boxDensity S d h x = (Ss.map (fun T => boxDensity T d h x)).sum) := by
    intro S hS x hx
    have h1 := boxDensity_pos (d := d) hh hx
    have h2 := h1.trans_le (hge S hS x hx)
    have h3 : 0 < boxDensity S d h x / (Ss.map (fun T => boxDensity T d h x)).sum := div_pos h1 h2
    simp only [t, hT S hS x hx]
    rw [Real.log_mul hm.ne' h3.ne']
    constructor
    · have : Real.log (boxDensity S d h x / (Ss.map (fun T => boxDensity T d h x)).sum) ≤ 0 :=
        Real.log_nonpos h3.le ((div_le_one h2).2 (hge S hS x hx))
      linarith
    · constructor
      · intro e
        have : Real.log (boxDensity S d h x / (Ss.map (fun T => boxDensity T d h x)).sum) = 0 := by linarith
        have := Real.eq_one_of_pos_of_log_eq_zero h3 this
        exact (div_eq_one_iff_eq h2.ne').1 this
      · intro e
        rw [← e, div_self h1.ne', Real.log_one]
        ring
  have hneg : boxJsd Ss d h = - mean (Ss.map (fun S => mean (S.map (t S)))) := by
    unfold boxJsd
    rw [← mean_neg]
    congr 1
    refine List.map_congr_left fun S hS => ?_
    rw [← mean_neg]
    simp [t]
  have hSn : ∀ S ∈ Ss, S ≠ [] := by
    intro S hS e
    have := hs S hS
    rw [e] at this; simp at this; omega
  have hin : ∀ S ∈ Ss, - Real.log Ss.length ≤ mean (S.map (t S)) ∧
      (mean (S.map (t S)) = - Real.log Ss.length ↔ ∀ x ∈ S, t S x = - Real.log Ss.length) := by
    intro S hS
    refine ⟨?_, mean_eq_bound_iff (hSn S hS) fun x hx => (ht S hS x hx).1⟩
    unfold mean
    have hp : (0 : ℝ) < (S.map (t S)).length := by
      rw [List.length_map]; exact_mod_cast List.length_pos_iff.2 (hSn S hS)
    rw [le_div_iff₀ hp]
    have := List.card_nsmul_le_sum (S.map (t S)) (- Real.log Ss.length) (by
      intro y hy
      obtain ⟨x, hx, rfl⟩ := List.mem_map.1 hy
      exact (ht S hS x hx).1)
    rw [nsmul_eq_mul] at this
    linarith
  have hout := mean_eq_bound_iff hSne (f := fun S => mean (S.map (t S))) (lo := - Real.log Ss.length) fun S hS => (hin S hS).1
  rw [hneg, hlen]
  constructor
  · rw [div_le_div_iff_of_pos_right hb.ln_pos]
    have : - Real.log Ss.length ≤ mean (Ss.map (fun S => mean (S.map (t S)))) := by
      unfold mean
      have hp : (0 : ℝ) < (Ss.map (fun S => (S.map (t S)).sum / ((S.map (t S)).length : ℝ))).length := by
        rw [List.length_map]; exact hm
      rw [le_div_iff₀ hp]
      have := List.card_nsmul_le_sum (Ss.map (fun S => (S.map (t S)).sum / ((S.map (t S)).length : ℝ))) (- Real.log Ss.length) (by
        intro y hy
        obtain ⟨S, hS, rfl⟩ := List.mem_map.1 hy
        exact (hin S hS).1)
      rw [nsmul_eq_mul] at this
      linarith
    linarith
  · rw [div_left_inj' hb.ln_pos.ne', neg_eq_iff_eq_neg, hout]
    have hsum : ∀ i (hi : i < data.length), ∀ x ∈ data[i].samples,
        (boxDensity data[i].samples d h x = (Ss.map (fun T => boxDensity T d h x)).sum ↔
          ∀ j (hj : j < data.length), i ≠ j → ∀ y ∈ data[j].samples, ¬ InBox h x y) := by
      intro i hi x hx
      have hi' : i < (Ss.map (fun T => boxDensity T d h x)).length := by simpa [hSs] using hi
      have key := getElem_eq_sum_iff (l := Ss.map (fun T => boxDensity T d h x)) (by simpa using fun T _ => boxDensity_nonneg T d hh x) hi'
      have e : (Ss.map (fun T => boxDensity T d h x))[i] = boxDensity data[i].samples d h x := by simp [hSs]
      rw [← e, key]
      have hz : ∀ j (hj : j < data.length), boxDensity data[j].samples d h x = 0 ↔ ∀ y ∈ data[j].samples, ¬ InBox h x y := by
        intro j hj
        have hl : (data[j].samples.length : ℝ) * h ^ d ≠ 0 := by
          have : 0 < data[j].samples.length := by
            rw [hs _ (List.mem_map.2 ⟨_, List.getElem_mem hj, rfl⟩)]; exact hn0
          positivity
        unfold boxDensity
        rw [div_eq_zero_iff, or_iff_left hl, Nat.cast_eq_zero]
        unfold boxCount
        rw [List.length_eq_zero_iff, List.filter_eq_nil_iff]
        simp
      constructor
      · intro H' j hj hij
        have := H' j (by simpa [hSs] using hj) hij
        rw [← hz j hj]
        simpa [hSs] using this
      · intro H' j hj hij
        have hj' : j < data.length := by simpa [hSs] using hj
        have := (hz j hj').2 (H' j hj' hij)
        simpa [hSs] using this
    constructor
    · intro H' i j hi hj hij x hx
      have hm' : data[i].samples ∈ Ss := List.mem_map.2 ⟨_, List.getElem_mem hi, rfl⟩
      have := ((hin _ hm').2.1 (H' _ hm')) x hx
      exact (hsum i hi x hx).1 ((ht _ hm' x hx).2.1 this) j hj hij
    · intro H' S hS
      obtain ⟨u, hu, rfl⟩ := List.mem_map.1 hS
      obtain ⟨i, hi, rfl⟩ := List.mem_iff_getElem.1 hu
      exact (hin _ hS).2.2 fun x hx => (ht _ hS x hx).2.2 ((hsum i hi x hx).2 fun j hj hij => H' i j hi hj hij x hx)

example := C69_kernel_jsd_equal_sizes [.two ⟨2, [[0, 1], [1, 1]]⟩, .two ⟨2, [[1, 1], [3, 0]]⟩] 2 2 ⟨by simp, .inr (by simp),
  by simp [KVar.WF, assure2d, Points], by simp [KVar.len]⟩ (by simp [KVar.len]) (3/2) (by norm_num) 1 (.num 2) (by norm_num [Base.Std])

end Verif
