import Verif.Model.Divergence
import Verif.Spec.Divergence
import Verif.Lemmas.Entropy
import Verif.Lemmas.Bias
import Mathlib.Algebra.Order.BigOperators.Group.Finset

/-! # Helper lemmas: cross-entropy, Kullback–Leibler and Jensen–Shannon divergences -/

namespace Verif

open Spec

/-- `p log (p/q) ≥ p − q`, strict unless `p = q` -/
theorem mul_log_div_ge {p q : ℝ} (hp : 0 ≤ p) (hq : 0 < q) : p - q ≤ p * Real.log (p / q) := by
  rcases hp.eq_or_lt with rfl | hp
  · simp; exact hq.le
  have h := Real.log_le_sub_one_of_pos (div_pos hq hp)
  have e : Real.log (p / q) = - Real.log (q / p) := by
    rw [← Real.log_inv, inv_div]
  rw [e]
  have := mul_le_mul_of_nonneg_left h hp.le
  have e2 : p * (q / p - 1) = q - p := by field_simp
  linarith

theorem mul_log_div_eq {p q : ℝ} (hp : 0 ≤ p) (hq : 0 < q) (h : p * Real.log (p / q) = p - q) :
    p = q := by
  rcases hp.eq_or_lt with rfl | hp
  · simp at h; exact absurd h.symm hq.ne
  by_contra hne
  have h1 : q / p ≠ 1 := by
    intro e; rw [div_eq_one_iff_eq hp.ne'] at e; exact hne e.symm
  have h2 := Real.log_lt_sub_one_of_pos (div_pos hq hp) h1
  have e : Real.log (p / q) = - Real.log (q / p) := by
    rw [← Real.log_inv, inv_div]
  rw [e] at h
  have h3 := mul_lt_mul_of_pos_left h2 hp
  have e2 : p * (q / p - 1) = q - p := by field_simp
  linarith

/-- Gibbs' inequality on a finite support -/
theorem gibbs {κ : Type} (S : Finset κ) (p q : κ → ℝ) (hp : ∀ a ∈ S, 0 ≤ p a)
    (hq : ∀ a ∈ S, 0 < q a) (h : ∑ a ∈ S, q a ≤ ∑ a ∈ S, p a) :
    0 ≤ ∑ a ∈ S, p a * Real.log (p a / q a) := by
  have : ∑ a ∈ S, (p a - q a) ≤ ∑ a ∈ S, p a * Real.log (p a / q a) :=
    Finset.sum_le_sum fun a ha => mul_log_div_ge (hp a ha) (hq a ha)
  rw [Finset.sum_sub_distrib] at this
  linarith

theorem gibbs_eq {κ : Type} (S : Finset κ) (p q : κ → ℝ) (hp : ∀ a ∈ S, 0 ≤ p a)
    (hq : ∀ a ∈ S, 0 < q a) (h : ∑ a ∈ S, q a ≤ ∑ a ∈ S, p a)
    (h0 : ∑ a ∈ S, p a * Real.log (p a / q a) = 0) : ∀ a ∈ S, p a = q a := by
  have hle : ∀ a ∈ S, (p a - q a) ≤ p a * Real.log (p a / q a) :=
    fun a ha => mul_log_div_ge (hp a ha) (hq a ha)
  have h2 : ∑ a ∈ S, (p a - q a) = ∑ a ∈ S, p a * Real.log (p a / q a) := by
    refine le_antisymm (Finset.sum_le_sum hle) ?_
    rw [Finset.sum_sub_distrib]; linarith
  have h3 := (Finset.sum_eq_sum_iff_of_le hle).1 h2
  exact fun a ha => mul_log_div_eq (hp a ha) (hq a ha) (h3 a ha).symm

/-! ## Cross-entropy -/

section
variable {α : Type} [LinearOrder α]

/-- the common support as the code builds it -/
theorem common_sum (xs ys : List α) (f : α → ℝ) :
    ((commonSupport (npUnique xs) (npUnique ys)).map f).sum
      = ∑ a ∈ xs.toFinset ∩ ys.toFinset, f a := by
  have hn : (commonSupport (npUnique xs) (npUnique ys)).Nodup :=
    (List.nodup_dedup _).filter _
  rw [← List.sum_toFinset _ hn]
  congr 1
  ext a; simp [commonSupport]

theorem cross_terms (xs ys : List α) (P Q : α → ℝ) {b : Base} (hb : b.Valid)
    (hQ : ∀ a ∈ ys, 0 < Q a) :
    (commonSupport (npUnique xs) (npUnique ys)).mapM (fun v => do
      let pv ← dictGet ((npUnique xs).zip ((npUnique xs).map P)) v
      let qv ← dictGet ((npUnique ys).zip ((npUnique ys).map Q)) v
      let l ← logBase b qv
      (pure (pv * l) : Except Exc ℝ)) =
    .ok ((commonSupport (npUnique xs) (npUnique ys)).map
      (fun a => P a * (Real.log (Q a) / b.ln))) := by
  refine mapM_ok _ fun a ha => ?_
  rw [commonSupport, List.mem_filter] at ha
  have h1 : a ∈ npUnique xs := by simpa using ha.1
  have h2 : a ∈ npUnique ys := by simpa using ha.2
  rw [dictGet_zip _ _ h1, dictGet_zip _ _ h2]
  simp only [bind, Except.bind, pure, Except.pure]
  rw [logBase_ok hb (hQ a (mem_npUnique.1 h2))]

theorem common_length (xs ys : List α) :
    (commonSupport (npUnique xs) (npUnique ys)).length = 0 ↔
      xs.toFinset ∩ ys.toFinset = ∅ := by
  rw [commonSupport, List.length_eq_zero_iff, List.filter_eq_nil_iff, Finset.eq_empty_iff_forall_notMem]
  simp

theorem discreteCross_ok (xs ys : List α) {b : Base} (hb : b.Valid) :
    discreteCross b (mkData xs) (mkData ys) = .ok (crossEntropy xs ys / b.ln) := by
  unfold discreteCross
  simp only [DiscreteData.distributionDict, mkData_probabilities]
  simp only [mkData_uniq]
  have ht := cross_terms xs ys (freq xs) (freq ys) hb (fun a ha => freq_pos ha)
  by_cases h0 : (commonSupport (npUnique xs) (npUnique ys)).length = 0
  · simp only [h0, if_true]
    have h0 := (common_length xs ys).1 h0
    simp [crossEntropy, h0]
  · simp only [h0, if_false, ht]
    simp only [bind, Except.bind, pure, Except.pure]
    rw [common_sum, crossEntropy, neg_div, Finset.sum_div]
    congr 2
    exact Finset.sum_congr rfl fun a _ => by ring

theorem mmCross_ok (xs ys : List α) {b : Base} (hb : b.Valid)
    (h : xs.toFinset ∩ ys.toFinset ≠ ∅) :
    mmCross b (mkData xs) (mkData ys) = .ok ((crossEntropy xs ys +
      ((((xs.toFinset.card : ℝ) + ys.toFinset.card) / 2 - 1) /
        ((xs.length : ℝ) + ys.length))) / b.ln) := by
  unfold mmCross
  simp only [DiscreteData.distributionDict, mkData_probabilities]
  simp only [mkData_uniq, mkData_K, mkData_N]
  have ht := cross_terms xs ys (freq xs) (freq ys) hb (fun a ha => freq_pos ha)
  have h0 : ¬ (commonSupport (npUnique xs) (npUnique ys)).length = 0 := by
    rw [common_length]; exact h
  rw [if_neg h0, ht]
  simp only [bind, Except.bind, pure, Except.pure]
  rw [scaleBase_ok hb]
  simp only
  rw [common_sum, crossEntropy, add_div (-_), neg_div, Finset.sum_div]
  congr 2
  · congr 1
    exact Finset.sum_congr rfl fun a _ => by ring

end

theorem discreteHInit_pair {xs ys : List Int} (hx : xs ≠ []) (hy : ys ≠ []) :
    discreteHInit [.arr1 xs, .arr1 ys] = .ok [mkData xs, mkData ys] := by
  simp only [discreteHInit, entropyInit, bind, Except.bind, List.mapM_cons, List.mapM_nil,
    reduceVar, fromData_ok hx, fromData_ok hy, pure, Except.pure]

/-- with inclusion of supports, cross-entropy minus entropy is the textbook divergence -/
theorem cross_sub_entropy {α : Type} [DecidableEq α] (xs ys : List α) (h : ∀ a ∈ xs, a ∈ ys) :
    crossEntropy xs ys - entropy xs = kl xs ys := by
  have e : xs.toFinset ∩ ys.toFinset = xs.toFinset := by
    ext a; simpa using h a
  rw [crossEntropy, e, entropy, kl, neg_sub_neg, ← Finset.sum_sub_distrib]
  refine Finset.sum_congr rfl fun a ha => ?_
  have h1 : a ∈ xs := by simpa using ha
  rw [Real.log_div (freq_pos h1).ne' (freq_pos (h a h1)).ne']
  ring

theorem sum_freq_sub_le {α : Type} [DecidableEq α] {xs ys : List α} (h : ∀ a ∈ xs, a ∈ ys) :
    ∑ a ∈ xs.toFinset, freq ys a ≤ 1 := by
  by_cases hy : ys = []
  · subst hy; simp [freq]
  rw [← sum_freq hy]
  exact Finset.sum_le_sum_of_subset_of_nonneg (fun a ha => by simpa using h a (by simpa using ha))
    (fun a _ _ => freq_nonneg ys a)

theorem freq_eq_zero {α : Type} [DecidableEq α] {xs : List α} {a : α} (h : a ∉ xs) : freq xs a = 0 := by
  have : cnt xs a = 0 := by
    by_contra hc; exact h (cnt_pos_iff.1 (Nat.pos_of_ne_zero hc))
  simp [freq, this]

theorem kl_nonneg {α : Type} [DecidableEq α] {xs ys : List α} (h : ∀ a ∈ xs, a ∈ ys)
    (hx : xs ≠ []) : 0 ≤ kl xs ys :=
  gibbs _ _ _ (fun a _ => freq_nonneg xs a) (fun a ha => freq_pos (h a (by simpa using ha)))
    (by rw [sum_freq hx]; exact sum_freq_sub_le h)

theorem kl_eq_zero_iff {α : Type} [DecidableEq α] {xs ys : List α} (h : ∀ a ∈ xs, a ∈ ys)
    (hx : xs ≠ []) : kl xs ys = 0 ↔ SameDist xs ys := by
  constructor
  · intro h0
    have heq := gibbs_eq xs.toFinset (freq xs) (freq ys) (fun a _ => freq_nonneg xs a)
      (fun a ha => freq_pos (h a (by simpa using ha)))
      (by rw [sum_freq hx]; exact sum_freq_sub_le h) h0
    have hy : ys ≠ [] := by
      obtain ⟨a, ha⟩ := List.exists_mem_of_ne_nil _ hx
      exact List.ne_nil_of_mem (h a ha)
    intro a
    by_cases ha : a ∈ xs
    · exact heq a (by simpa using ha)
    · rw [freq_eq_zero ha]
      by_contra hne
      have ha' : a ∈ ys := by
        by_contra hc; exact hne (freq_eq_zero hc).symm
      have h1 : ∑ c ∈ insert a xs.toFinset, freq ys c ≤ 1 := by
        rw [← sum_freq hy]
        exact Finset.sum_le_sum_of_subset_of_nonneg (fun c hc => by
          rw [Finset.mem_insert] at hc
          rcases hc with rfl | hc
          · simpa using ha'
          · simpa using h c (by simpa using hc)) (fun c _ _ => freq_nonneg ys c)
      rw [Finset.sum_insert (by simpa using ha), ← Finset.sum_congr rfl heq, sum_freq hx] at h1
      have := freq_pos ha'
      linarith
  · intro hs
    refine Finset.sum_eq_zero fun a ha => ?_
    rw [hs a, div_self (freq_pos (h a (by simpa using ha))).ne', Real.log_one, mul_zero]

/-! ## Jensen–Shannon -/

/-- a distribution dictionary: distinct keys with positive weights -/
structure Dst (κ : Type) where
  keys : List κ
  p : κ → ℝ
  nodup : keys.Nodup
  pos : ∀ a ∈ keys, 0 < p a

section
variable {κ : Type} [DecidableEq κ]

/-- the dictionary of a distribution -/
noncomputable def Dst.dict (D : Dst κ) : List (κ × ℝ) := D.keys.map (fun a => (a, D.p a))

/-- weight of a key, 0 when absent -/
noncomputable def Dst.ext (D : Dst κ) (a : κ) : ℝ := if a ∈ D.keys then D.p a else 0

/-- plug-in entropy of the dictionary -/
noncomputable def Dst.ent (D : Dst κ) : ℝ := - (D.keys.map (fun a => D.p a * Real.log (D.p a))).sum

theorem Dst.ext_nonneg (D : Dst κ) (a : κ) : 0 ≤ D.ext a := by
  unfold Dst.ext; split_ifs with h
  · exact (D.pos a h).le
  · exact le_rfl

omit [DecidableEq κ] in
theorem dictGet_nodup [DecidableEq κ] (D : Dst κ) (a : κ) : dictGetZero D.dict a = D.ext a := by
  unfold dictGetZero Dst.ext
  by_cases h : a ∈ D.keys
  · rw [if_pos h, Dst.dict, dictGet_map _ _ h]
  · rw [if_neg h]
    have : dictGet D.dict a = .error .keyError := by
      unfold dictGet
      have : (D.dict.reverse.find? (fun e => decide (e.1 = a))) = none := by
        rw [List.find?_eq_none]
        intro e he
        simp only [Dst.dict, List.mem_reverse, List.mem_map] at he
        obtain ⟨c, hc, rfl⟩ := he
        simp only [decide_eq_true_eq]
        rintro rfl; exact h hc
      rw [this]
    rw [this]

/-- mixture weight -/
noncomputable def mixD (Ds : List (Dst κ)) (a : κ) : ℝ := (Ds.map (fun D => D.ext a)).sum / Ds.length

/-- union of the keys -/
def unionD (Ds : List (Dst κ)) : Finset κ := (Ds.flatMap (fun D => D.keys)).toFinset

theorem mem_unionD {Ds : List (Dst κ)} {a : κ} : a ∈ unionD Ds ↔ ∃ D ∈ Ds, a ∈ D.keys := by
  simp [unionD]

theorem mixD_pos {Ds : List (Dst κ)} {a : κ} (h : a ∈ unionD Ds) : 0 < mixD Ds a := by
  obtain ⟨D, hD, ha⟩ := mem_unionD.1 h
  have hn : 0 < Ds.length := List.length_pos_of_mem hD
  refine div_pos ?_ (by exact_mod_cast hn)
  have h1 : 0 < D.ext a := by rw [Dst.ext, if_pos ha]; exact D.pos a ha
  refine lt_of_lt_of_le h1 (List.single_le_sum ?_ _ (List.mem_map.2 ⟨D, hD, rfl⟩))
  intro x hx
  obtain ⟨D', _, rfl⟩ := List.mem_map.1 hx
  exact D'.ext_nonneg a

theorem ext_le_mixD {Ds : List (Dst κ)} {D : Dst κ} (hD : D ∈ Ds) (a : κ) :
    D.ext a ≤ Ds.length * mixD Ds a := by
  have hn : (0:ℝ) < Ds.length := by exact_mod_cast List.length_pos_of_mem hD
  rw [mixD, mul_div_cancel₀ _ hn.ne']
  refine List.single_le_sum ?_ _ (List.mem_map.2 ⟨D, hD, rfl⟩)
  intro x hx
  obtain ⟨D', _, rfl⟩ := List.mem_map.1 hx
  exact D'.ext_nonneg a

/-- average divergence from the mixture -/
noncomputable def jsdD (Ds : List (Dst κ)) : ℝ :=
  (Ds.map (fun D => ∑ a ∈ D.keys.toFinset, D.p a * Real.log (D.p a / mixD Ds a))).sum / Ds.length

theorem sum_ext (D : Dst κ) (U : Finset κ) (h : D.keys.toFinset ⊆ U) (F : κ → ℝ) :
    ∑ a ∈ U, D.ext a * F a = ∑ a ∈ D.keys.toFinset, D.p a * F a := by
  rw [← Finset.sum_subset h]
  · refine Finset.sum_congr rfl fun a ha => ?_
    rw [Dst.ext, if_pos (by simpa using ha)]
  · intro a _ ha
    rw [Dst.ext, if_neg (by simpa using ha), zero_mul]

theorem keys_subset {Ds : List (Dst κ)} {D : Dst κ} (hD : D ∈ Ds) :
    D.keys.toFinset ⊆ unionD Ds := fun a ha => mem_unionD.2 ⟨D, hD, by simpa using ha⟩

theorem list_finset_comm {A B : Type} (l : List A) (U : Finset B) (f : A → B → ℝ) :
    ∑ u ∈ U, (l.map (fun x => f x u)).sum = (l.map (fun x => ∑ u ∈ U, f x u)).sum := by
  induction l with
  | nil => simp
  | cons x l ih => simp only [List.map_cons, List.sum_cons, Finset.sum_add_distrib, ih]

theorem mixture_entropy_eq (Ds : List (Dst κ)) (hne : Ds ≠ []) :
    (- ∑ a ∈ unionD Ds, mixD Ds a * Real.log (mixD Ds a)) - (Ds.map Dst.ent).sum / Ds.length
      = jsdD Ds := by
  have hn : (0:ℝ) < Ds.length := by
    exact_mod_cast List.length_pos_iff.2 hne
  have e1 : ∑ a ∈ unionD Ds, mixD Ds a * Real.log (mixD Ds a)
      = (Ds.map (fun D => ∑ a ∈ D.keys.toFinset, D.p a * Real.log (mixD Ds a))).sum / Ds.length := by
    have : ∀ a, mixD Ds a * Real.log (mixD Ds a)
        = (Ds.map (fun D => D.ext a * Real.log (mixD Ds a))).sum / Ds.length := by
      intro a
      have : (Ds.map (fun D => D.ext a * Real.log (mixD Ds a))).sum
          = (Ds.map (fun D => D.ext a)).sum * Real.log (mixD Ds a) := by
        induction Ds with
        | nil => simp
        | cons D l ih => exact List.sum_map_mul_right ..
      rw [this, mixD]; ring
    simp only [this]
    rw [← Finset.sum_div, list_finset_comm]
    congr 2
    refine List.map_congr_left fun D hD => ?_
    exact sum_ext D _ (keys_subset hD) (fun a => Real.log (mixD Ds a))
  rw [e1, jsdD, ← neg_div, ← sub_div, ← sum_map_neg', ← sum_map_sub']
  congr 2
  refine List.map_congr_left fun D hD => ?_
  rw [Dst.ent, ← List.sum_toFinset _ D.nodup, neg_sub_neg, ← Finset.sum_sub_distrib]
  refine Finset.sum_congr rfl fun a ha => ?_
  have hm : a ∈ unionD Ds := keys_subset hD ha
  rw [Real.log_div (D.pos a (by simpa using ha)).ne' (mixD_pos hm).ne']
  ring

theorem jsdCore_ok (Ds : List (Dst κ)) (hne : Ds ≠ []) {b : Base} (hb : b.Valid) :
    jsdCore b (Ds.map (fun D => (D.ent / b.ln, D.dict))) = .ok (jsdD Ds / b.ln) := by
  unfold jsdCore
  have hl : ¬ (Ds.map (fun D => (D.ent / b.ln, D.dict))).length = 0 := by simpa using hne
  rw [if_neg hl]
  have hkeys : ((Ds.map (fun D => (D.ent / b.ln, D.dict))).flatMap
      (fun e => e.2.map (fun kv => kv.1))) = Ds.flatMap (fun D => D.keys) := by
    rw [List.flatMap_map]
    congr 1; funext D
    simp [Dst.dict, Function.comp_def]
  have hmix : ∀ k, (List.map (fun e : ℝ × List (κ × ℝ) => dictGetZero e.2 k)
      (Ds.map (fun D => (D.ent / b.ln, D.dict)))).sum = (Ds.map (fun D => D.ext k)).sum := by
    intro k
    rw [List.map_map]
    congr 1
    exact List.map_congr_left fun D _ => dictGet_nodup D k
  simp only [hkeys, hmix, List.length_map]
  rw [mapM_ok (g := fun p => p * (Real.log p / b.ln))]
  · simp only [bind, Except.bind, pure, Except.pure]
    rw [← mixture_entropy_eq Ds hne, sub_div]
    congr 1
    have e2 : (List.map (fun e : ℝ × List (κ × ℝ) => e.1)
        (Ds.map (fun D => (D.ent / b.ln, D.dict)))).sum = (Ds.map Dst.ent).sum / b.ln := by
      rw [List.map_map, ← sum_map_div']; rfl
    rw [e2]
    have e3 : (List.map (fun p => p * (Real.log p / b.ln))
        ((Ds.flatMap (fun D => D.keys)).dedup.map
          (fun k => (Ds.map (fun D => D.ext k)).sum / (Ds.length : ℝ)))).sum
        = (∑ a ∈ unionD Ds, mixD Ds a * Real.log (mixD Ds a)) / b.ln := by
      rw [List.map_map, ← List.sum_toFinset _ (List.nodup_dedup _), Finset.sum_div]
      have : (Ds.flatMap (fun D => D.keys)).dedup.toFinset = unionD Ds := by
        ext a; simp [unionD]
      rw [this]
      refine Finset.sum_congr rfl fun a _ => ?_
      simp only [Function.comp, mixD]; ring
    rw [e3]; ring
  · intro p hp
    obtain ⟨k, hk, rfl⟩ := List.mem_map.1 hp
    have hU : k ∈ unionD Ds := by simpa [unionD] using hk
    have := mixD_pos hU
    rw [mixD] at this
    rw [logBase_ok hb this]
    rfl

theorem jsdD_eq_ext (Ds : List (Dst κ)) :
    jsdD Ds = (∑ a ∈ unionD Ds, (Ds.map (fun D => D.ext a * Real.log (D.ext a / mixD Ds a))).sum)
      / Ds.length := by
  rw [list_finset_comm, jsdD]
  congr 2
  refine List.map_congr_left fun D hD => ?_
  rw [sum_ext D _ (keys_subset hD) (fun a => Real.log (D.ext a / mixD Ds a))]
  refine Finset.sum_congr rfl fun a ha => ?_
  rw [Dst.ext, if_pos (by simpa using ha)]

theorem sum_ext_sub_mix (Ds : List (Dst κ)) (hne : Ds ≠ []) (a : κ) :
    (Ds.map (fun D => D.ext a - mixD Ds a)).sum = 0 := by
  have hn : (0:ℝ) < Ds.length := by
    exact_mod_cast List.length_pos_iff.2 hne
  rw [sum_map_sub', List.map_const', List.sum_replicate, nsmul_eq_mul, mixD]
  field_simp
  ring

theorem jsdD_nonneg (Ds : List (Dst κ)) (hne : Ds ≠ []) : 0 ≤ jsdD Ds := by
  rw [jsdD_eq_ext]
  refine div_nonneg (Finset.sum_nonneg fun a ha => ?_) (Nat.cast_nonneg _)
  rw [← sum_ext_sub_mix Ds hne a]
  refine List.sum_le_sum fun D _ => ?_
  exact mul_log_div_ge (D.ext_nonneg a) (mixD_pos ha)

theorem jsdD_le (Ds : List (Dst κ)) (hne : Ds ≠ [])
    (hs : ∀ D ∈ Ds, (D.keys.map D.p).sum ≤ 1) : jsdD Ds ≤ Real.log Ds.length := by
  have hn : (0:ℝ) < Ds.length := by
    exact_mod_cast List.length_pos_iff.2 hne
  have h1 : (1:ℝ) ≤ Ds.length := by
    exact_mod_cast List.length_pos_iff.2 hne
  have hlog := Real.log_nonneg h1
  rw [jsdD, div_le_iff₀ hn]
  have : ∀ D ∈ Ds, ∑ a ∈ D.keys.toFinset, D.p a * Real.log (D.p a / mixD Ds a)
      ≤ Real.log Ds.length := by
    intro D hD
    calc _ ≤ ∑ a ∈ D.keys.toFinset, D.p a * Real.log Ds.length := by
          refine Finset.sum_le_sum fun a ha => ?_
          have ha' : a ∈ D.keys := by simpa using ha
          have hp := D.pos a ha'
          have hm := mixD_pos (keys_subset hD ha)
          refine mul_le_mul_of_nonneg_left (Real.log_le_log (div_pos hp hm) ?_) hp.le
          rw [div_le_iff₀ hm]
          have := ext_le_mixD hD a
          rwa [Dst.ext, if_pos ha'] at this
      _ = (D.keys.map D.p).sum * Real.log Ds.length := by
          rw [← Finset.sum_mul, List.sum_toFinset _ D.nodup]
      _ ≤ 1 * Real.log Ds.length := mul_le_mul_of_nonneg_right (hs D hD) hlog
      _ = _ := one_mul _
  calc _ ≤ (Ds.map (fun _ => Real.log Ds.length)).sum := List.sum_le_sum this
    _ = _ := by rw [List.map_const', List.sum_replicate, nsmul_eq_mul, mul_comm]

theorem jsdD_eq_zero_iff (Ds : List (Dst κ)) (hne : Ds ≠ []) :
    jsdD Ds = 0 ↔ ∀ D ∈ Ds, ∀ D' ∈ Ds, ∀ a, D.ext a = D'.ext a := by
  have hn : (0:ℝ) < Ds.length := by
    exact_mod_cast List.length_pos_iff.2 hne
  constructor
  · intro h0
    rw [jsdD_eq_ext, div_eq_zero_iff, or_iff_left hn.ne'] at h0
    have hnn : ∀ a ∈ unionD Ds,
        0 ≤ (Ds.map (fun D => D.ext a * Real.log (D.ext a / mixD Ds a))).sum := by
      intro a ha
      rw [← sum_ext_sub_mix Ds hne a]
      exact List.sum_le_sum fun D _ => mul_log_div_ge (D.ext_nonneg a) (mixD_pos ha)
    have hz := (Finset.sum_eq_zero_iff_of_nonneg hnn).1 h0
    have key : ∀ a ∈ unionD Ds, ∀ D ∈ Ds, D.ext a = mixD Ds a := by
      intro a ha D hD
      have hs : (Ds.map (fun D => D.ext a * Real.log (D.ext a / mixD Ds a)
          - (D.ext a - mixD Ds a))).sum = 0 := by
        rw [sum_map_sub', hz a ha, sum_ext_sub_mix Ds hne a, sub_zero]
      have hz' := List.all_zero_of_le_zero_le_of_sum_eq_zero (l := Ds.map (fun D =>
        D.ext a * Real.log (D.ext a / mixD Ds a) - (D.ext a - mixD Ds a))) (by
          intro x hx
          obtain ⟨D', _, rfl⟩ := List.mem_map.1 hx
          have := mul_log_div_ge (D'.ext_nonneg a) (mixD_pos ha)
          linarith) hs (List.mem_map.2 ⟨D, hD, rfl⟩)
      exact mul_log_div_eq (D.ext_nonneg a) (mixD_pos ha) (by linarith)
    intro D hD D' hD' a
    by_cases ha : a ∈ unionD Ds
    · rw [key a ha D hD, key a ha D' hD']
    · have h1 : a ∉ D.keys := fun h => ha (mem_unionD.2 ⟨D, hD, h⟩)
      have h2 : a ∉ D'.keys := fun h => ha (mem_unionD.2 ⟨D', hD', h⟩)
      rw [Dst.ext, Dst.ext, if_neg h1, if_neg h2]
  · intro h
    rw [jsdD]
    have : ∀ D ∈ Ds, ∑ a ∈ D.keys.toFinset, D.p a * Real.log (D.p a / mixD Ds a) = 0 := by
      intro D hD
      refine Finset.sum_eq_zero fun a ha => ?_
      have ha' : a ∈ D.keys := by simpa using ha
      have : mixD Ds a = D.p a := by
        rw [mixD, List.map_congr_left (fun D' hD' => h D' hD' D hD a), List.map_const',
          List.sum_replicate, nsmul_eq_mul, mul_div_cancel_left₀ _ hn.ne', Dst.ext, if_pos ha']
      rw [this, div_self (D.pos a ha').ne', Real.log_one, mul_zero]
    rw [List.map_congr_left this, List.map_const', List.sum_replicate]
    simp

theorem mixD_perm {Ds Es : List (Dst κ)} (h : Ds.Perm Es) (a : κ) : mixD Ds a = mixD Es a := by
  rw [mixD, mixD, (h.map _).sum_eq, h.length_eq]

theorem jsdD_perm {Ds Es : List (Dst κ)} (h : Ds.Perm Es) : jsdD Ds = jsdD Es := by
  rw [jsdD, jsdD, h.length_eq]
  congr 1
  rw [← (h.map _).sum_eq]
  congr 1
  refine List.map_congr_left fun D _ => Finset.sum_congr rfl fun a _ => ?_
  rw [mixD_perm h]

end

end Verif
