import Verif.Props.KernelDiv
import Verif.Props.OrdinalDiv
import Mathlib.Tactic.FinCases
import Mathlib.Tactic.IntervalCases

/-! # Property C69 : divergences of continuous data (continued) -/

namespace Verif

open Spec

/-- **C69** The order of the samples does not matter. -/
theorem C69_kernel_jsd_symmetric (data data' : List KVar) (hp : data.Perm data') (d : Nat) (H : DivArgs data d) (h : ℝ) (hh : 0 < h)
    (w : Int) (b : Base) (hb : b.Valid) : kernelJsd data' (boxCfg h w) b = kernelJsd data (boxCfg h w) b := by
  have H' : DivArgs data' d := ⟨fun e => H.ne (by rw [e] at hp; exact hp.eq_nil), by
      rcases H.shape with ⟨h1, h2⟩ | h2
      · exact .inl ⟨h1, fun v hv => h2 v (hp.mem_iff.2 hv)⟩
      · exact .inr fun v hv => h2 v (hp.mem_iff.2 hv), fun v hv => H.wf v (hp.mem_iff.2 hv), fun v hv => H.two v (hp.mem_iff.2 hv)⟩
  rw [C69_kernel_jsd_value data d H h hh w b hb, C69_kernel_jsd_value data' d H' h hh w b hb,
    boxEntropy_perm (hp.map _).flatten d h, mean_perm hp]

example := C69_kernel_jsd_symmetric [.one [0, 1, 3], .one [2, 0]] [.one [2, 0], .one [0, 1, 3]] (List.Perm.swap _ _ _) 1
  ⟨by simp, .inl ⟨rfl, by simp⟩, by simp [KVar.WF, assure2d, Points], by simp [KVar.len]⟩ (3/2) (by norm_num) 1 (.num 2) (by norm_num [Base.Valid])

/-- **C69** Copies of one sample are at divergence 0. -/
theorem C69_kernel_jsd_copies (v : KVar) (m : Nat) (hm : 0 < m) (hv : v.WF) (hN : 2 ≤ v.len) (h : ℝ) (hh : 0 < h) (w : Int) (b : Base)
    (hb : b.Std) : kernelJsd (List.replicate m v) (boxCfg h w) b = .ok 0 := by
  have H : DivArgs (List.replicate m v) v.dim := by
    refine ⟨by simp; omega, ?_, ?_, ?_⟩
    · cases v with
      | one xs => exact .inl ⟨rfl, fun u hu => ⟨xs, (List.mem_replicate.1 hu).2⟩⟩
      | two a => exact .inr fun u hu => ⟨a, (List.mem_replicate.1 hu).2, rfl⟩
    · intro u hu; rw [(List.mem_replicate.1 hu).2]; exact hv
    · intro u hu; rw [(List.mem_replicate.1 hu).2]; exact hN
  obtain ⟨x, h1, h2, _⟩ := C69_kernel_jsd_equal_sizes _ _ v.len H (fun u hu => by rw [(List.mem_replicate.1 hu).2]) h hh w b hb
  rw [h1, h2]
  have hz : boxJsd ((List.replicate m v).map KVar.samples) v.dim h = 0 := by
    unfold boxJsd
    have e : ∀ S ∈ (List.replicate m v).map KVar.samples, mean (S.map (fun x =>
        Real.log (boxDensity S v.dim h x / mean (((List.replicate m v).map KVar.samples).map (fun T => boxDensity T v.dim h x))))) = 0 := by
      intro S hS
      rw [List.map_replicate] at hS
      have hS := (List.mem_replicate.1 hS).2
      subst hS
      have e2 : ∀ x ∈ v.samples, Real.log (boxDensity v.samples v.dim h x / mean (((List.replicate m v).map KVar.samples).map
          (fun T => boxDensity T v.dim h x))) = 0 := by
        intro x hx
        have hm' : (m : ℝ) ≠ 0 := by exact_mod_cast hm.ne'
        simp only [List.map_replicate, mean, List.sum_replicate, List.length_replicate, nsmul_eq_mul]
        rw [mul_div_cancel_left₀ _ hm', div_self (boxDensity_pos hh hx).ne', Real.log_one]
      rw [List.map_congr_left e2]
      simp [mean]
    rw [List.map_congr_left e]
    simp [mean]
  rw [hz, zero_div]

example := C69_kernel_jsd_copies (.one [0, 1, 3]) 4 (by decide) (KVar.wf_one _) (by decide) (3/2) (by norm_num) 1 (.num 2) (by norm_num [Base.Std])

theorem mean_log_freq {κ : Type} [DecidableEq κ] (xs : List κ) : entropy xs = mean (xs.map (fun x => - Real.log (freq xs x))) := by
  unfold entropy
  rw [sum_freq_mul, mean_neg]
  unfold mean
  rw [List.length_map]

theorem cnt_flatten {κ : Type} [DecidableEq κ] (xss : List (List κ)) (a : κ) : cnt xss.flatten a = (xss.map (fun xs => cnt xs a)).sum := by
  unfold cnt
  rw [List.countP_flatten]

theorem mixture_eq_freq {κ : Type} [DecidableEq κ] {n : Nat} (hn : 0 < n) {xss : List (List κ)} (hs : ∀ xs ∈ xss, xs.length = n) (a : κ) :
    mixture xss a = freq xss.flatten a := by
  unfold mixture freq
  have h2 : xss.flatten.length = xss.length * n := by
    rw [List.length_flatten, List.map_congr_left hs, List.map_const', List.sum_replicate]; simp
  have : xss.map (fun xs => (cnt xs a : ℝ) / (xs.length : ℝ)) = xss.map (fun xs => (cnt xs a : ℝ) / (n : ℝ)) :=
    List.map_congr_left fun S hS => by rw [hs S hS]
  rw [this, sum_map_div_const, cnt_flatten, h2]
  have hn' : (n : ℝ) ≠ 0 := by exact_mod_cast hn.ne'
  push_cast
  rw [List.map_map]
  by_cases h0 : (xss.length : ℝ) = 0
  · rw [h0]; simp
  · field_simp
    rfl

/-- with equal sizes the Jensen–Shannon divergence is the entropy of the pooled sample minus the mean entropy -/
theorem jsd_equal_sizes {κ : Type} [DecidableEq κ] {n : Nat} (hn : 0 < n) {xss : List (List κ)} (hs : ∀ xs ∈ xss, xs.length = n) :
    jsd xss = entropy xss.flatten - mean (xss.map entropy) := by
  unfold jsd
  have e : ∀ xs ∈ xss, ∑ a ∈ xs.toFinset, freq xs a * Real.log (freq xs a / mixture xss a) =
      mean (xs.map (fun x => - Real.log (freq xss.flatten x))) - entropy xs := by
    intro xs hx
    rw [mean_log_freq xs, ← mean_sub, sum_freq_mul]
    unfold mean
    rw [List.length_map]
    congr 2
    refine List.map_congr_left fun a ha => ?_
    rw [mixture_eq_freq hn hs, Real.log_div (freq_pos ha).ne' (freq_pos (List.mem_flatten.2 ⟨xs, hx, ha⟩)).ne']
    ring
  rw [List.map_congr_left e, mean_log_freq xss.flatten, mean_flatten_equal hn xss hs, ← mean_sub]
  unfold mean
  rw [List.length_map]

/-- an integer sample as a one-dimensional float array -/
def intVar (xs : List Int) : KVar := .one (xs.map (fun x : Int => (x : ℝ)))

theorem intVar_args {xss : List (List Int)} (hne : xss ≠ []) (h2 : ∀ xs ∈ xss, 2 ≤ xs.length) : DivArgs (xss.map intVar) 1 := by
  refine ⟨by simpa using hne, .inl ⟨rfl, fun v hv => ?_⟩, fun v hv => ?_, fun v hv => ?_⟩ <;>
    obtain ⟨xs, hx, rfl⟩ := List.mem_map.1 hv
  · exact ⟨_, rfl⟩
  · exact KVar.wf_one _
  · simpa [intVar, KVar.len] using h2 xs hx

/-- **C69** Integer data with a bandwidth below 2: the kernel Jensen–Shannon value is the entropy of the pooled
symbols minus the average entropy of the samples, and for samples of one size the discrete divergence. -/
theorem C69_kernel_jsd_integers (xss : List (List Int)) (hne : xss ≠ []) (h2 : ∀ xs ∈ xss, 2 ≤ xs.length) (h : ℝ) (hh : 0 < h) (hh2 : h < 2)
    (w : Int) (b : Base) (hb : b.Valid) :
    kernelJsd (xss.map intVar) (boxCfg h w) b = .ok ((entropy xss.flatten - mean (xss.map entropy)) / b.ln) ∧
    ∀ n, (∀ xs ∈ xss, xs.length = n) → kernelJsd (xss.map intVar) (boxCfg h w) b = .ok (jsd xss / b.ln) := by
  have hbe : ∀ xs : List Int, 2 ≤ xs.length → boxEntropy (intVar xs).samples 1 h = entropy xs + Real.log h := by
    intro xs hx
    have h1 := C47_integer_data xs hx h hh hh2 w .e trivial
    have h3 := C47_entropy_value (intVar xs) (KVar.wf_one _) (by simpa [intVar, KVar.len] using hx) h hh w .e trivial
    have h4 := h3.symm.trans h1
    simp only [Except.ok.injEq, Base.ln, div_one] at h4
    exact h4
  have key : kernelJsd (xss.map intVar) (boxCfg h w) b = .ok ((entropy xss.flatten - mean (xss.map entropy)) / b.ln) := by
    rw [C69_kernel_jsd_value _ 1 (intVar_args hne h2) h hh w b hb]
    have e1 : ((xss.map intVar).map KVar.samples).flatten = (intVar xss.flatten).samples := by
      simp only [KVar.samples, assure2d, intVar, List.map_flatten, List.map_map]
      rfl
    obtain ⟨u, hu⟩ := List.exists_mem_of_ne_nil _ hne
    have hl : 2 ≤ xss.flatten.length := by
      rw [List.length_flatten]
      exact (h2 u hu).trans (List.le_sum_of_mem (List.mem_map.2 ⟨u, hu, rfl⟩))
    rw [e1, hbe _ hl, List.map_map]
    have e2 : xss.map ((fun v => boxEntropy v.samples 1 h) ∘ intVar) = xss.map (fun xs => entropy xs - (- Real.log h)) :=
      List.map_congr_left fun xs hx => by simp only [Function.comp]; rw [hbe xs (h2 xs hx)]; ring
    have hm : (xss.length : ℝ) ≠ 0 := by
      have : xss.length ≠ 0 := by simpa using hne
      exact_mod_cast this
    have e3 : mean (xss.map (fun _ => - Real.log h)) = - Real.log h := by
      simp [mean, List.map_const']
      field_simp
    rw [e2, mean_sub, e3]
    congr 2
    ring
  refine ⟨key, fun n hn => ?_⟩
  have hn0 : 0 < n := by
    obtain ⟨u, hu⟩ := List.exists_mem_of_ne_nil _ hne
    have := h2 u hu; rw [hn u hu] at this; omega
  rw [key, jsd_equal_sizes hn0 hn]

example := C69_kernel_jsd_integers [[0, 1, 3], [2, 0]] (by decide) (by decide) (3/2) (by norm_num) (by norm_num) 1 (.num 2) (by norm_num [Base.Valid])

/-- **C69** (finding) The pooled sample weighs the samples by their sizes, the subtracted entropies do not: with
samples of different sizes the divergence can be negative. -/
theorem C69_kernel_jsd_negative_sizes (h : ℝ) (hh : 0 < h) (hh2 : h < 2) (w : Int) (b : Base) (hb : b.Std) :
    ∃ v, kernelJsd [intVar [0, 1], intVar [0, 0, 0, 0, 0, 0, 0, 0]] (boxCfg h w) b = .ok v ∧ v < 0 := by
  refine ⟨_, (C69_kernel_jsd_integers [[0, 1], [0, 0, 0, 0, 0, 0, 0, 0]] (by simp) (by simp) h hh hh2 w b hb.valid).1, ?_⟩
  refine div_neg_of_neg_of_pos ?_ hb.ln_pos
  rw [mean_log_freq]
  have e1 : mean ([[0, 1], [0, 0, 0, 0, 0, 0, 0, 0]].map (entropy (α := Int))) = Real.log 2 / 2 := by
    simp only [List.map_cons, List.map_nil, mean_log_freq]
    simp [mean, freq, cnt]
  rw [e1]
  have e2 : mean (([[0, 1], [0, 0, 0, 0, 0, 0, 0, 0]] : List (List Int)).flatten.map (fun x => - Real.log (freq ([[0, 1], [0, 0, 0, 0, 0, 0, 0, 0]] : List (List Int)).flatten x))) =
      (9 * Real.log (10 / 9) + Real.log 10) / 10 := by
    have h1 : freq ([[0, 1], [0, 0, 0, 0, 0, 0, 0, 0]] : List (List Int)).flatten 0 = 9 / 10 := by simp [freq, cnt]
    have h2 : freq ([[0, 1], [0, 0, 0, 0, 0, 0, 0, 0]] : List (List Int)).flatten 1 = 1 / 10 := by simp [freq, cnt]
    have h3 : ([[0, 1], [0, 0, 0, 0, 0, 0, 0, 0]] : List (List Int)).flatten = [0, 1, 0, 0, 0, 0, 0, 0, 0, 0] := rfl
    rw [h3] at h1 h2 ⊢
    simp only [List.map_cons, List.map_nil, h1, h2, mean, List.sum_cons, List.sum_nil, List.length_cons, List.length_nil]
    rw [show (10 / 9 : ℝ) = (9 / 10)⁻¹ by norm_num, Real.log_inv, show (1 / 10 : ℝ) = (10)⁻¹ by norm_num, Real.log_inv]
    push_cast
    ring
  rw [e2]
  have h3 : 9 * Real.log (10 / 9) + Real.log 10 = Real.log ((10 / 9) ^ 9 * 10) := by
    rw [Real.log_mul (by norm_num) (by norm_num), Real.log_pow]; norm_num
  have h4 : Real.log ((10 / 9) ^ 9 * 10) < Real.log (2 ^ 5) := Real.log_lt_log (by norm_num) (by norm_num)
  have h5 : Real.log ((2:ℝ) ^ 5) = 5 * Real.log 2 := by rw [Real.log_pow]; norm_num
  rw [h3]
  rw [h5] at h4
  generalize Real.log ((10 / 9) ^ 9 * 10) = A at h4 ⊢
  linarith

example := C69_kernel_jsd_negative_sizes (3/2) (by norm_num) (by norm_num) 1 (.num 2) (by norm_num [Base.Std])

end Verif
