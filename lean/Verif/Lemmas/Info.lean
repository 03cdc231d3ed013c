import Verif.Spec.Info
import Mathlib.Algebra.BigOperators.Field
import Mathlib.Algebra.Order.BigOperators.Group.List
import Mathlib.Algebra.Order.BigOperators.Ring.Finset
import Mathlib.Tactic.Linarith
import Mathlib.Tactic.Ring
import Mathlib.Tactic.FieldSimp
import Mathlib.Tactic.Positivity

/-! # Helper lemmas: information inequalities for finite samples -/

namespace Verif.Spec

variable {Ω α β γ : Type*} [DecidableEq α] [DecidableEq β] [DecidableEq γ]

theorem cnt_eq_count (xs : List α) (a : α) : cnt xs a = xs.count a := by
  unfold cnt List.count
  refine List.countP_congr fun b _ => ?_
  simp

theorem cnt_pos_iff {xs : List α} {a : α} : 0 < cnt xs a ↔ a ∈ xs := by
  rw [cnt_eq_count, List.count_pos_iff]

theorem cnt_cons (x : α) (xs : List α) (a : α) :
    cnt (x :: xs) a = cnt xs a + if x = a then 1 else 0 := by
  rw [cnt, List.countP_cons]; simp [cnt]

theorem cnt_map (ws : List Ω) (f : Ω → α) (a : α) :
    cnt (ws.map f) a = ws.countP (fun w => decide (f w = a)) := by
  rw [cnt, List.countP_map]; rfl

theorem cnt_le_length (xs : List α) (a : α) : cnt xs a ≤ xs.length := List.countP_le_length

theorem cnt_perm {xs ys : List α} (h : xs.Perm ys) (a : α) : cnt xs a = cnt ys a :=
  h.countP_eq _

theorem sum_map_sub' (l : List Ω) (f g : Ω → ℝ) :
    (l.map (fun i => f i - g i)).sum = (l.map f).sum - (l.map g).sum := by
  induction l with
  | nil => simp
  | cons a l ih => simp only [List.map_cons, List.sum_cons, ih]; ring

theorem sum_map_add' (l : List Ω) (f g : Ω → ℝ) :
    (l.map (fun i => f i + g i)).sum = (l.map f).sum + (l.map g).sum := by
  induction l with
  | nil => simp
  | cons a l ih => simp only [List.map_cons, List.sum_cons, ih]; ring

theorem sum_map_neg' (l : List Ω) (F : Ω → ℝ) :
    (l.map (fun w => - F w)).sum = - (l.map F).sum := by
  induction l with
  | nil => simp
  | cons a l ih => simp only [List.map_cons, List.sum_cons, ih]; ring

theorem sum_map_div' (l : List Ω) (F : Ω → ℝ) (c : ℝ) :
    (l.map (fun w => F w / c)).sum = (l.map F).sum / c := by
  induction l with
  | nil => simp
  | cons a l ih => simp only [List.map_cons, List.sum_cons, ih]; ring

theorem sum_map_mul' (l : List Ω) (F : Ω → ℝ) (c : ℝ) :
    (l.map (fun w => c * F w)).sum = c * (l.map F).sum := by
  induction l with
  | nil => simp
  | cons a l ih => simp only [List.map_cons, List.sum_cons, ih]; ring

/-- summing over positions = summing over symbols weighted by counts -/
theorem sum_map_eq_count (xs : List α) (f : α → ℝ) :
    (xs.map f).sum = ∑ a ∈ xs.toFinset, (cnt xs a : ℝ) * f a := by
  rw [Finset.sum_list_map_count]; simp [nsmul_eq_mul, cnt_eq_count]

theorem sum_count (xs : List α) : ∑ a ∈ xs.toFinset, (cnt xs a : ℝ) = xs.length := by
  have := sum_map_eq_count xs (fun _ => (1:ℝ))
  simp at this; exact this.symm

theorem freq_nonneg (xs : List α) (a : α) : 0 ≤ freq xs a := by unfold freq; positivity

theorem freq_pos {xs : List α} {a : α} (h : a ∈ xs) : 0 < freq xs a := by
  unfold freq
  have h1 : 0 < cnt xs a := cnt_pos_iff.2 h
  have h2 : 0 < xs.length := List.length_pos_of_mem h
  positivity

theorem freq_le_one (xs : List α) (a : α) : freq xs a ≤ 1 := by
  unfold freq
  rcases Nat.eq_zero_or_pos xs.length with h | h
  · simp [h]
  · rw [div_le_one (by exact_mod_cast h)]; exact_mod_cast cnt_le_length xs a

theorem sum_freq {xs : List α} (h : xs ≠ []) : ∑ a ∈ xs.toFinset, freq xs a = 1 := by
  unfold freq
  rw [← Finset.sum_div, sum_count, div_self]
  simpa using h

theorem entropy_eq_mean (xs : List α) :
    entropy xs = mean (xs.map (fun a => - Real.log (freq xs a))) := by
  unfold entropy mean
  rw [sum_map_eq_count, List.length_map, Finset.sum_div, ← Finset.sum_neg_distrib]
  refine Finset.sum_congr rfl fun a _ => ?_
  unfold freq; ring

/-- sample form of the entropy of a derived variable -/
theorem entropy_map_eq (ws : List Ω) (f : Ω → α) :
    entropy (ws.map f) =
      (ws.map (fun w => - Real.log (freq (ws.map f) (f w)))).sum / ws.length := by
  rw [entropy_eq_mean, mean, List.map_map, List.length_map]; rfl

theorem entropy_nonneg (xs : List α) : 0 ≤ entropy xs := by
  unfold entropy
  rw [← Finset.sum_neg_distrib]
  refine Finset.sum_nonneg fun a _ => ?_
  have := Real.log_nonpos (freq_nonneg xs a) (freq_le_one xs a)
  have h2 := freq_nonneg xs a
  nlinarith

theorem entropy_map_congr (ws : List Ω) (f : Ω → α) (g : Ω → β)
    (h : ∀ u ∈ ws, ∀ v ∈ ws, (f u = f v ↔ g u = g v)) :
    entropy (ws.map f) = entropy (ws.map g) := by
  rw [entropy_map_eq, entropy_map_eq]
  congr 2
  refine List.map_congr_left fun w hw => ?_
  have : cnt (ws.map f) (f w) = cnt (ws.map g) (g w) := by
    rw [cnt_map, cnt_map]
    refine List.countP_congr fun u hu => ?_
    simpa using h u hu w hw
  simp only [freq, this, List.length_map]

theorem entropy_perm {xs ys : List α} (h : xs.Perm ys) : entropy xs = entropy ys := by
  unfold entropy freq
  rw [List.toFinset_eq_of_perm _ _ h, h.length_eq]
  simp only [cnt_perm h]

/-- Gibbs-type inequality in sample form -/
theorem sum_log_le_zero (ws : List Ω) (r : Ω → ℝ) (hr : ∀ w ∈ ws, 0 < r w)
    (hs : (ws.map r).sum ≤ ws.length) : (ws.map (fun w => Real.log (r w))).sum ≤ 0 := by
  have h1 : (ws.map (fun w => Real.log (r w))).sum ≤ (ws.map (fun w => r w - 1)).sum :=
    List.sum_le_sum fun w hw => Real.log_le_sub_one_of_pos (hr w hw)
  have h2 : (ws.map (fun w => r w - 1)).sum = (ws.map r).sum - ws.length := by
    rw [sum_map_sub']; simp
  linarith

theorem sum_log_eq_zero (ws : List Ω) (r : Ω → ℝ) (hr : ∀ w ∈ ws, 0 < r w)
    (hs : (ws.map r).sum ≤ ws.length) (h0 : (ws.map (fun w => Real.log (r w))).sum = 0) :
    ∀ w ∈ ws, r w = 1 := by
  have key : ∀ w ∈ ws, 0 ≤ (r w - 1) - Real.log (r w) := fun w hw => by
    have := Real.log_le_sub_one_of_pos (hr w hw); linarith
  have h2 : (ws.map (fun w => (r w - 1) - Real.log (r w))).sum = (ws.map r).sum - ws.length := by
    rw [sum_map_sub', sum_map_sub', h0]; simp
  have h3 : (ws.map (fun w => (r w - 1) - Real.log (r w))).sum ≤ 0 := by linarith
  intro w hw
  have h4 : (r w - 1) - Real.log (r w) ≤ (ws.map (fun w => (r w - 1) - Real.log (r w))).sum := by
    refine List.single_le_sum ?_ _ (List.mem_map_of_mem hw)
    intro x hx
    obtain ⟨u, hu, rfl⟩ := List.mem_map.1 hx
    exact key u hu
  by_contra hne
  have := Real.log_lt_sub_one_of_pos (hr w hw) hne
  linarith

/-- double counting: weighting every position by 1/(multiplicity of its key) sums over keys once -/
theorem sum_div_count (ws : List Ω) (k : Ω → α) (F : α → ℝ) :
    (ws.map (fun w => F (k w) / (cnt (ws.map k) (k w) : ℝ))).sum =
      ∑ a ∈ (ws.map k).toFinset, F a := by
  have h := sum_map_eq_count (ws.map k) (fun a => F a / (cnt (ws.map k) a : ℝ))
  rw [List.map_map] at h
  change _ = _ at h
  have h' : (ws.map (fun w => F (k w) / (cnt (ws.map k) (k w) : ℝ))).sum =
    (ws.map ((fun a => F a / (cnt (ws.map k) a : ℝ)) ∘ k)).sum := rfl
  rw [h', h]
  refine Finset.sum_congr rfl fun a ha => ?_
  have : (cnt (ws.map k) a : ℝ) ≠ 0 := by
    have := cnt_pos_iff.2 (List.mem_toFinset.1 ha)
    positivity
  field_simp

/-- counts of a pair sum to the count of a component -/
theorem sum_count_pair (ws : List Ω) (f : Ω → α) (h : Ω → γ) (z : γ) :
    ∑ x ∈ (ws.map f).toFinset, (cnt (ws.map (fun w => (f w, h w))) (x, z) : ℝ) =
      (cnt (ws.map h) z : ℝ) := by
  induction ws with
  | nil => simp [cnt]
  | cons w ws ih =>
    by_cases hw : f w ∈ (ws.map f).toFinset
    · have e : ((w :: ws).map f).toFinset = (ws.map f).toFinset := by
        rw [List.map_cons, List.toFinset_cons, Finset.insert_eq_of_mem hw]
      rw [e]
      simp only [List.map_cons, cnt_cons, Nat.cast_add, Finset.sum_add_distrib, ih]
      congr 1
      by_cases hz : h w = z
      · subst hz
        rw [Finset.sum_eq_single (f w)]
        · simp
        · intro b _ hb; simp [Prod.ext_iff, Ne.symm hb]
        · intro hn; exact absurd hw hn
      · rw [Finset.sum_eq_zero]
        · simp [hz]
        · intro b _; simp [Prod.ext_iff, hz]
    · have e : ((w :: ws).map f).toFinset = insert (f w) (ws.map f).toFinset := by
        rw [List.map_cons, List.toFinset_cons]
      rw [e, Finset.sum_insert hw]
      have h0 : cnt (ws.map (fun w => (f w, h w))) (f w, z) = 0 := by
        by_contra hne
        have hm := cnt_pos_iff.1 (Nat.pos_of_ne_zero hne)
        obtain ⟨u, hu, he⟩ := List.mem_map.1 hm
        apply hw
        rw [List.mem_toFinset]
        exact List.mem_map.2 ⟨u, hu, by simpa using (Prod.ext_iff.1 he).1⟩
      simp only [List.map_cons, cnt_cons, Nat.cast_add, Finset.sum_add_distrib, ih, h0]
      rw [Finset.sum_eq_zero (s := (ws.map f).toFinset)]
      · by_cases hz : h w = z <;> simp [Prod.ext_iff, hz, add_comm]
      · intro b hb
        have : f w ≠ b := fun h => hw (h ▸ hb)
        simp [Prod.ext_iff, this]

theorem count_map_pos {ws : List Ω} (f : Ω → α) {w : Ω} (hw : w ∈ ws) :
    0 < cnt (ws.map f) (f w) := cnt_pos_iff.2 (List.mem_map_of_mem hw)

/-- the ratio appearing in strong sub-additivity -/
theorem sum_cmi_ratio_le (ws : List Ω) (f : Ω → α) (g : Ω → β) (h : Ω → γ) :
    (ws.map (fun w =>
      (cnt (ws.map (fun w => (f w, h w))) (f w, h w) : ℝ) *
        (cnt (ws.map (fun w => (g w, h w))) (g w, h w) : ℝ) /
        (cnt (ws.map h) (h w) : ℝ) /
        (cnt (ws.map (fun w => (f w, g w, h w))) (f w, g w, h w) : ℝ))).sum ≤ ws.length := by
  have e := sum_div_count ws (fun w => (f w, g w, h w))
    (fun t : α × β × γ => (cnt (ws.map (fun w => (f w, h w))) (t.1, t.2.2) : ℝ) *
        (cnt (ws.map (fun w => (g w, h w))) (t.2.1, t.2.2) : ℝ) /
        (cnt (ws.map h) t.2.2 : ℝ))
  refine e.le.trans ?_
  have sub : (ws.map (fun w => (f w, g w, h w))).toFinset ⊆
      (ws.map f).toFinset ×ˢ (ws.map g).toFinset ×ˢ (ws.map h).toFinset := by
    intro t ht
    rw [List.mem_toFinset, List.mem_map] at ht
    obtain ⟨w, hw, rfl⟩ := ht
    simp only [Finset.mem_product, List.mem_toFinset]
    exact ⟨List.mem_map_of_mem hw, List.mem_map_of_mem hw, List.mem_map_of_mem hw⟩
  refine (Finset.sum_le_sum_of_subset_of_nonneg sub fun t _ _ => by positivity).trans ?_
  rw [Finset.sum_product]
  simp only [Finset.sum_product]
  have : ∀ x ∈ (ws.map f).toFinset, ∑ y ∈ (ws.map g).toFinset, ∑ z ∈ (ws.map h).toFinset,
      (cnt (ws.map (fun w => (f w, h w))) (x, z) : ℝ) *
        (cnt (ws.map (fun w => (g w, h w))) (y, z) : ℝ) / (cnt (ws.map h) z : ℝ)
      = ∑ z ∈ (ws.map h).toFinset, (cnt (ws.map (fun w => (f w, h w))) (x, z) : ℝ) := by
    intro x _
    rw [Finset.sum_comm]
    refine Finset.sum_congr rfl fun z hz => ?_
    rw [← Finset.sum_div, ← Finset.mul_sum, sum_count_pair, mul_div_assoc, div_self, mul_one]
    have := cnt_pos_iff.2 (List.mem_toFinset.1 hz)
    positivity
  rw [Finset.sum_congr rfl this, Finset.sum_comm]
  simp only [sum_count_pair]
  rw [sum_count, List.length_map]

/-- conditional mutual information of derived variables, in entropies, sample form -/
theorem cmi_entropy_sample (ws : List Ω) (f : Ω → α) (g : Ω → β) (h : Ω → γ) :
    entropy (ws.map (fun w => (f w, h w))) + entropy (ws.map (fun w => (g w, h w)))
      - entropy (ws.map (fun w => (f w, g w, h w))) - entropy (ws.map h) =
    - (ws.map (fun w => Real.log (
      (cnt (ws.map (fun w => (f w, h w))) (f w, h w) : ℝ) *
        (cnt (ws.map (fun w => (g w, h w))) (g w, h w) : ℝ) /
        (cnt (ws.map h) (h w) : ℝ) /
        (cnt (ws.map (fun w => (f w, g w, h w))) (f w, g w, h w) : ℝ)))).sum / ws.length := by
  rw [entropy_map_eq, entropy_map_eq, entropy_map_eq, entropy_map_eq, ← add_div, ← sub_div,
    ← sub_div, ← sum_map_add', ← sum_map_sub', ← sum_map_sub', neg_div]
  rw [← neg_div]
  congr 1
  rw [← sum_map_neg']
  congr 1
  refine List.map_congr_left fun w hw => ?_
  have hN : (0:ℝ) < ws.length := by exact_mod_cast List.length_pos_of_mem hw
  have h1 : (0:ℝ) < cnt (ws.map (fun w => (f w, h w))) (f w, h w) := by
    exact_mod_cast count_map_pos (fun w => (f w, h w)) hw
  have h2 : (0:ℝ) < cnt (ws.map (fun w => (g w, h w))) (g w, h w) := by
    exact_mod_cast count_map_pos (fun w => (g w, h w)) hw
  have h3 : (0:ℝ) < cnt (ws.map h) (h w) := by
    exact_mod_cast count_map_pos h hw
  have h4 : (0:ℝ) < cnt (ws.map (fun w => (f w, g w, h w))) (f w, g w, h w) := by
    exact_mod_cast count_map_pos (fun w => (f w, g w, h w)) hw
  simp only [freq, List.length_map]
  rw [Real.log_div h1.ne' hN.ne', Real.log_div h2.ne' hN.ne', Real.log_div h3.ne' hN.ne',
    Real.log_div h4.ne' hN.ne', Real.log_div (by positivity) h4.ne',
    Real.log_div (by positivity) h3.ne', Real.log_mul h1.ne' h2.ne']
  ring

theorem cmi_ratio_pos (ws : List Ω) (f : Ω → α) (g : Ω → β) (h : Ω → γ) :
    ∀ w ∈ ws, 0 < (cnt (ws.map (fun w => (f w, h w))) (f w, h w) : ℝ) *
        (cnt (ws.map (fun w => (g w, h w))) (g w, h w) : ℝ) /
        (cnt (ws.map h) (h w) : ℝ) /
        (cnt (ws.map (fun w => (f w, g w, h w))) (f w, g w, h w) : ℝ) := by
  intro w hw
  have h1 : 0 < cnt (ws.map (fun w => (f w, h w))) (f w, h w) :=
    count_map_pos (fun w => (f w, h w)) hw
  have h2 : 0 < cnt (ws.map (fun w => (g w, h w))) (g w, h w) :=
    count_map_pos (fun w => (g w, h w)) hw
  have h3 : 0 < cnt (ws.map h) (h w) := count_map_pos h hw
  have h4 : 0 < cnt (ws.map (fun w => (f w, g w, h w))) (f w, g w, h w) :=
    count_map_pos (fun w => (f w, g w, h w)) hw
  positivity

/-- strong sub-additivity (non-negativity of conditional mutual information) -/
theorem strong_subadditivity (ws : List Ω) (f : Ω → α) (g : Ω → β) (h : Ω → γ) :
    0 ≤ entropy (ws.map (fun w => (f w, h w))) + entropy (ws.map (fun w => (g w, h w)))
      - entropy (ws.map (fun w => (f w, g w, h w))) - entropy (ws.map h) := by
  rw [cmi_entropy_sample]
  have := sum_log_le_zero ws _ (cmi_ratio_pos ws f g h) (sum_cmi_ratio_le ws f g h)
  have h2 : (0:ℝ) ≤ ws.length := by positivity
  rw [neg_div]
  have := div_nonpos_of_nonpos_of_nonneg this h2
  linarith

theorem entropy_map_const (ws : List Ω) (c : α) : entropy (ws.map (fun _ => c)) = 0 := by
  rw [entropy_map_eq]
  rcases ws with _ | ⟨w, ws⟩
  · simp
  · have : freq ((w :: ws).map (fun _ => c)) c = 1 := by
      unfold freq
      have hc : cnt ((w :: ws).map (fun _ => c)) c = (w :: ws).length := by
        rw [cnt_map]; simp
      rw [hc, List.length_map, div_self]
      simp; positivity
    simp only [this]; simp

/-- sub-additivity -/
theorem entropy_pair_le (ws : List Ω) (f : Ω → α) (g : Ω → β) :
    entropy (ws.map (fun w => (f w, g w))) ≤ entropy (ws.map f) + entropy (ws.map g) := by
  have h := strong_subadditivity ws f g (fun _ => ())
  rw [entropy_map_const,
    entropy_map_congr ws (fun w => (f w, ())) f (by simp),
    entropy_map_congr ws (fun w => (g w, ())) g (by simp),
    entropy_map_congr ws (fun w => (f w, g w, ())) (fun w => (f w, g w)) (by simp)] at h
  linarith

/-- monotonicity: a function of a variable has at most its entropy -/
theorem entropy_map_le (ws : List Ω) (f : Ω → α) (g : Ω → β)
    (h : ∀ u ∈ ws, ∀ v ∈ ws, f u = f v → g u = g v) :
    entropy (ws.map g) ≤ entropy (ws.map f) := by
  rw [entropy_map_eq, entropy_map_eq]
  have hN : (0:ℝ) ≤ ws.length := by positivity
  refine div_le_div_of_nonneg_right ?_ hN
  refine List.sum_le_sum fun w hw => ?_
  have h1 : freq (ws.map f) (f w) ≤ freq (ws.map g) (g w) := by
    unfold freq
    rw [List.length_map, List.length_map]
    refine div_le_div_of_nonneg_right ?_ hN
    rw [cnt_map, cnt_map]
    norm_cast
    refine List.countP_mono_left fun u hu => ?_
    simpa using h u hu w hw
  have h2 := freq_pos (List.mem_map_of_mem (f := f) hw)
  have := Real.log_le_log h2 h1
  linarith

theorem entropy_le_log_card (xs : List α) (hx : xs ≠ []) :
    entropy xs ≤ Real.log (xs.toFinset.card) := by
  have hN : (0:ℝ) < xs.length := by
    have := List.length_pos_iff.2 hx; exact_mod_cast this
  have hK : (0:ℝ) < xs.toFinset.card := by
    have : xs.toFinset.Nonempty := (List.toFinset_nonempty_iff xs).2 hx
    exact_mod_cast this.card_pos
  have hr : ∀ w ∈ xs, 0 < (xs.length : ℝ) / (xs.toFinset.card * cnt xs w) := fun w hw => by
    have := cnt_pos_iff.2 hw
    positivity
  have hs : (xs.map (fun w => (xs.length : ℝ) / (xs.toFinset.card * cnt xs w))).sum ≤ xs.length := by
    have h := sum_div_count xs id (fun _ => (xs.length : ℝ) / xs.toFinset.card)
    simp only [List.map_id, id] at h
    have e : xs.map (fun w => (xs.length : ℝ) / (xs.toFinset.card * cnt xs w)) =
        xs.map (fun w => (xs.length : ℝ) / xs.toFinset.card / cnt xs w) := by
      refine List.map_congr_left fun w _ => by rw [div_div]
    rw [e, h]; simp
    rw [mul_div_cancel₀ _ hK.ne']
  have h := sum_log_le_zero xs _ hr hs
  have e : entropy xs - Real.log xs.toFinset.card =
      (xs.map (fun w => Real.log ((xs.length : ℝ) / (xs.toFinset.card * cnt xs w)))).sum / xs.length := by
    rw [entropy_eq_mean, mean, List.length_map]
    have : Real.log xs.toFinset.card = (xs.map (fun _ => Real.log xs.toFinset.card)).sum / xs.length := by
      simp; field_simp
    rw [this, ← sub_div, ← sum_map_sub']
    congr 2
    refine List.map_congr_left fun w hw => ?_
    have hc : (0:ℝ) < cnt xs w := by exact_mod_cast cnt_pos_iff.2 hw
    unfold freq
    rw [Real.log_div hc.ne' hN.ne', Real.log_div hN.ne' (by positivity), Real.log_mul hK.ne' hc.ne']
    ring
  have := div_nonpos_of_nonpos_of_nonneg h hN.le
  linarith

end Verif.Spec

namespace Verif.Spec
variable {Ω α β γ : Type*} [DecidableEq α] [DecidableEq β] [DecidableEq γ]

theorem entropy_eq_zero_iff (xs : List α) : entropy xs = 0 ↔ ∀ a ∈ xs, ∀ b ∈ xs, a = b := by
  constructor
  · intro h a ha b hb
    unfold entropy at h
    rw [neg_eq_zero] at h
    have hle : ∀ x ∈ xs.toFinset, freq xs x * Real.log (freq xs x) ≤ 0 := fun x _ => by
      have := Real.log_nonpos (freq_nonneg xs x) (freq_le_one xs x)
      have h2 := freq_nonneg xs x
      nlinarith
    have hz := (Finset.sum_eq_zero_iff_of_nonpos hle).1 h
    have one : ∀ x ∈ xs, cnt xs x = xs.length := fun x hx => by
      have h1 := hz x (List.mem_toFinset.2 hx)
      have hp := freq_pos hx
      have hl : Real.log (freq xs x) = 0 := by
        rcases mul_eq_zero.1 h1 with h | h
        · exact absurd h hp.ne'
        · exact h
      have hf : freq xs x = 1 := by
        rcases Real.log_eq_zero.1 hl with h | h | h <;> linarith
      unfold freq at hf
      have hN : (0:ℝ) < xs.length := by exact_mod_cast List.length_pos_of_mem hx
      rw [div_eq_one_iff_eq hN.ne'] at hf
      exact_mod_cast hf
    have := one b hb
    unfold cnt at this
    have := (List.countP_eq_length).1 this a ha
    simpa using this
  · intro h
    rcases xs with _ | ⟨x, xs⟩
    · simp [entropy]
    · have : (x :: xs) = (x :: xs).map (fun _ => x) := by
        conv_lhs => rw [← List.map_id (x :: xs)]
        exact List.map_congr_left fun a ha => h a ha x (by simp)
      rw [this, entropy_map_const]

theorem entropy_eq_log_card_iff (xs : List α) (hx : xs ≠ []) :
    entropy xs = Real.log (xs.toFinset.card) ↔ ∀ a ∈ xs, ∀ b ∈ xs, cnt xs a = cnt xs b := by
  have hN : (0:ℝ) < xs.length := by
    have := List.length_pos_iff.2 hx; exact_mod_cast this
  have hK : (0:ℝ) < xs.toFinset.card := by
    have : xs.toFinset.Nonempty := (List.toFinset_nonempty_iff xs).2 hx
    exact_mod_cast this.card_pos
  have hr : ∀ w ∈ xs, 0 < (xs.length : ℝ) / (xs.toFinset.card * cnt xs w) := fun w hw => by
    have := cnt_pos_iff.2 hw
    positivity
  have hs : (xs.map (fun w => (xs.length : ℝ) / (xs.toFinset.card * cnt xs w))).sum ≤ xs.length := by
    have h := sum_div_count xs id (fun _ => (xs.length : ℝ) / xs.toFinset.card)
    simp only [List.map_id, id] at h
    have e : xs.map (fun w => (xs.length : ℝ) / (xs.toFinset.card * cnt xs w)) =
        xs.map (fun w => (xs.length : ℝ) / xs.toFinset.card / cnt xs w) := by
      refine List.map_congr_left fun w _ => by rw [div_div]
    rw [e, h]; simp
    rw [mul_div_cancel₀ _ hK.ne']
  have e : entropy xs - Real.log xs.toFinset.card =
      (xs.map (fun w => Real.log ((xs.length : ℝ) / (xs.toFinset.card * cnt xs w)))).sum / xs.length := by
    rw [entropy_eq_mean, mean, List.length_map]
    have : Real.log xs.toFinset.card = (xs.map (fun _ => Real.log xs.toFinset.card)).sum / xs.length := by
      simp; field_simp
    rw [this, ← sub_div, ← sum_map_sub']
    congr 2
    refine List.map_congr_left fun w hw => ?_
    have hc : (0:ℝ) < cnt xs w := by exact_mod_cast cnt_pos_iff.2 hw
    unfold freq
    rw [Real.log_div hc.ne' hN.ne', Real.log_div hN.ne' (by positivity), Real.log_mul hK.ne' hc.ne']
    ring
  constructor
  · intro h a ha b hb
    rw [h, sub_self] at e
    have h0 := (div_eq_zero_iff.1 e.symm).resolve_right hN.ne'
    have key := sum_log_eq_zero xs _ hr hs h0
    have ca : (0:ℝ) < cnt xs a := by exact_mod_cast cnt_pos_iff.2 ha
    have cb : (0:ℝ) < cnt xs b := by exact_mod_cast cnt_pos_iff.2 hb
    have h1 := (div_eq_one_iff_eq (mul_pos hK ca).ne').1 (key a ha)
    have h2 := (div_eq_one_iff_eq (mul_pos hK cb).ne').1 (key b hb)
    have : (xs.toFinset.card : ℝ) * cnt xs a = xs.toFinset.card * cnt xs b := by rw [← h1, ← h2]
    exact_mod_cast mul_left_cancel₀ hK.ne' this
  · intro h
    obtain ⟨a, ha⟩ := List.exists_mem_of_ne_nil _ hx
    have hsum := sum_count xs
    have hc : ∀ w ∈ xs, (xs.length : ℝ) / (xs.toFinset.card * cnt xs w) = 1 := fun w hw => by
      have : ∑ b ∈ xs.toFinset, (cnt xs b : ℝ) = xs.toFinset.card * cnt xs w := by
        have e2 : ∀ b ∈ xs.toFinset, (cnt xs b : ℝ) = cnt xs w := fun b hb => by
          rw [h b (List.mem_toFinset.1 hb) w hw]
        rw [Finset.sum_congr rfl e2, Finset.sum_const, nsmul_eq_mul]
      have cw : (0:ℝ) < cnt xs w := by exact_mod_cast cnt_pos_iff.2 hw
      rw [← hsum, this]
      exact div_self (by positivity)
    have : xs.map (fun w => Real.log ((xs.length : ℝ) / (xs.toFinset.card * cnt xs w))) =
        xs.map (fun _ => (0:ℝ)) := List.map_congr_left fun w hw => by rw [hc w hw, Real.log_one]
    rw [this] at e
    simp at e
    linarith

theorem card_map_congr (ws : List Ω) (f : Ω → α) (g : Ω → β)
    (h : ∀ u ∈ ws, ∀ v ∈ ws, (f u = f v ↔ g u = g v)) :
    (ws.map f).toFinset.card = (ws.map g).toFinset.card := by
  induction ws with
  | nil => rfl
  | cons w ws ih =>
    have ih' := ih (fun u hu v hv => h u (by simp [hu]) v (by simp [hv]))
    simp only [List.map_cons, List.toFinset_cons]
    have hiff : f w ∈ (ws.map f).toFinset ↔ g w ∈ (ws.map g).toFinset := by
      simp only [List.mem_toFinset, List.mem_map]
      constructor
      · rintro ⟨u, hu, he⟩; exact ⟨u, hu, (h u (by simp [hu]) w (by simp)).1 he⟩
      · rintro ⟨u, hu, he⟩; exact ⟨u, hu, (h u (by simp [hu]) w (by simp)).2 he⟩
    by_cases hm : f w ∈ (ws.map f).toFinset
    · rw [Finset.insert_eq_of_mem hm, Finset.insert_eq_of_mem (hiff.1 hm), ih']
    · rw [Finset.card_insert_of_notMem hm, Finset.card_insert_of_notMem (fun h => hm (hiff.2 h)), ih']

end Verif.Spec
