import Verif.Props.Inequalities

/-!
# C76 (continued): transfer entropy, divergences, pooling and repeating samples
-/

namespace Verif

open Spec

/-! ## Transfer entropy -/

theorem histRow_recode {xs : List Int} {m s h i : Nat} (f : Int → Int) (hh : h ≤ m) (hi : (m + i) * s < xs.length) :
    histRow (xs.map f) m s h i = (histRow xs m s h i).map f := by
  unfold histRow
  rw [List.map_map]
  refine List.map_congr_left fun j hj => ?_
  have hj' := List.mem_range.1 hj
  have h2 : (m + i - h + j) * s < xs.length := lt_of_le_of_lt (Nat.mul_le_mul_right s (by omega)) hi
  simp only [Function.comp]
  rw [List.getD_eq_getElem?_getD, List.getD_eq_getElem?_getD, List.getElem?_eq_getElem (by simpa using h2), List.getElem?_eq_getElem h2]
  simp

/-- **C76** Data processing for transfer entropy: recoding the source series never increases the transfer entropy, which is at most the
logarithm of the number of distinct destination values. -/
theorem C76_te_data_processing (source dest : List Int) (l k s : Nat) (hs : 0 < s) (hl : 0 < l) (hk : 0 < k)
    (hm : max k l * s < source.length) (hlen : source.length = dest.length) (hov : dest.length < 2 ^ 32) (f : Int → Int)
    (b : Base) (hb : b.Std) :
    ∃ t t', discreteTE source dest (teParams l k s) (some (.int 0)) none b = .ok t ∧
      discreteTE (source.map f) dest (teParams l k s) (some (.int 0)) none b = .ok t' ∧ t' ≤ t ∧
      t ≤ Real.log dest.toFinset.card / b.ln := by
  refine ⟨_, _, C24_te_is_textbook source dest l k s hs hl hk hm hlen hov b hb.valid,
    C24_te_is_textbook (source.map f) dest l k s hs hl hk (by simpa using hm) (by simpa using hlen) hov b hb.valid,
    div_le_div_of_nonneg_right ?_ hb.ln_pos.le, div_le_div_of_nonneg_right ?_ hb.ln_pos.le⟩
  · unfold histRows futRows
    refine cmi_processing_right (List.range (numRows dest.length (max k l) s)) _ _ _ _ (fun u hu v hv hh => ?_)
    have hu' := (lt_numRows hs (hlen ▸ hm)).1 (List.mem_range.1 hu)
    have hv' := (lt_numRows hs (hlen ▸ hm)).1 (List.mem_range.1 hv)
    rw [histRow_recode f (le_max_right k l) (hlen ▸ hu'), histRow_recode f (le_max_right k l) (hlen ▸ hv'), hh]
  · have hR := numRows_pos hs (hlen ▸ hm : max k l * s < dest.length)
    unfold histRows futRows
    rw [cmi_map]
    set ws := List.range (numRows dest.length (max k l) s) with hws
    have k1 := entropy_pair_le ws (fun i => [dest.getD ((max k l + i) * s) default]) (histRow dest (max k l) s k)
    have k2 := entropy_map_le ws (fun w => ([dest.getD ((max k l + w) * s) default], histRow source (max k l) s l w,
      histRow dest (max k l) s k w)) (fun w => (histRow source (max k l) s l w, histRow dest (max k l) s k w))
      (fun u _ v _ hh => (Prod.mk.inj hh).2)
    have hne : ws.map (fun i => [dest.getD ((max k l + i) * s) default]) ≠ [] := by
      simp [hws]; omega
    have k3 := entropy_le_log_card _ hne
    have hcard : (ws.map (fun i => [dest.getD ((max k l + i) * s) default])).toFinset.card ≤ dest.toFinset.card := by
      have hsub : (ws.map (fun i => [dest.getD ((max k l + i) * s) default])).toFinset ⊆
          dest.toFinset.image (fun x => [x]) := by
        intro v hv
        rw [List.mem_toFinset, List.mem_map] at hv
        obtain ⟨i, hi, rfl⟩ := hv
        have hi' := (lt_numRows hs (hlen ▸ hm)).1 (List.mem_range.1 hi)
        rw [Finset.mem_image]
        refine ⟨_, ?_, rfl⟩
        rw [List.getD_eq_getElem?_getD, List.getElem?_eq_getElem hi', List.mem_toFinset]
        exact List.getElem_mem _
      exact (Finset.card_le_card hsub).trans Finset.card_image_le
    have hpos : (0:ℝ) < ((ws.map (fun i => [dest.getD ((max k l + i) * s) default])).toFinset.card : ℝ) := by
      have : (ws.map (fun i => [dest.getD ((max k l + i) * s) default])).toFinset.Nonempty := (List.toFinset_nonempty_iff _).2 hne
      exact_mod_cast this.card_pos
    have k4 := Real.log_le_log hpos (Nat.cast_le (α := ℝ).2 hcard)
    linarith

example := C76_te_data_processing [1, 0, 2, 1, 0] [0, 1, 0, 1, 2] 2 1 1 (by decide) (by decide) (by decide) (by decide) rfl (by decide) (fun x => x / 2) (.num 2) (by norm_num [Base.Std])

/-- **C76** As long as the destination history is the longer one (so the same time points are used), a longer source history never
lowers the transfer entropy. -/
theorem C76_te_longer_source_history (source dest : List Int) (l l' k s : Nat) (hs : 0 < s) (hl : 0 < l) (hll : l ≤ l') (hk : l' ≤ k)
    (hm : k * s < source.length) (hlen : source.length = dest.length) (hov : dest.length < 2 ^ 32) (b : Base) (hb : b.Std) :
    ∃ t t', discreteTE source dest (teParams l k s) (some (.int 0)) none b = .ok t ∧
      discreteTE source dest (teParams l' k s) (some (.int 0)) none b = .ok t' ∧ t ≤ t' := by
  have e1 : max k l = k := by omega
  have e2 : max k l' = k := by omega
  refine ⟨_, _, C24_te_is_textbook source dest l k s hs hl (by omega) (by rw [e1]; exact hm) hlen hov b hb.valid,
    C24_te_is_textbook source dest l' k s hs (by omega) (by omega) (by rw [e2]; exact hm) hlen hov b hb.valid,
    div_le_div_of_nonneg_right ?_ hb.ln_pos.le⟩
  rw [e1, e2]
  unfold histRows futRows
  refine cmi_processing_right (List.range (numRows dest.length k s)) _ _ _ _ (fun u _ v _ hh => ?_)
  unfold histRow at hh ⊢
  refine List.map_congr_left fun j hj => ?_
  have hj' := List.mem_range.1 hj
  have := congrArg (fun x : List Int => x[l' - l + j]?) hh
  simp only [List.getElem?_map] at this
  rw [List.getElem?_range (by omega)] at this
  simp only [Option.map_some, Option.some.injEq] at this
  have a1 : k + u - l' + (l' - l + j) = k + u - l + j := by omega
  have a2 : k + v - l' + (l' - l + j) = k + v - l + j := by omega
  rw [a1, a2] at this
  exact this

example : (0:Nat) < 1 ∧ max 2 1 * 1 < ([0, 1, 1, 0, 1] : List Int).length ∧ 1 ≤ 2 ∧ 2 * 1 < ([0, 1, 1, 0, 1] : List Int).length := by decide

/-! ## Divergences -/

section Div

variable {α β : Type} [DecidableEq α] [DecidableEq β]

/-- pushing forward a frequency -/
theorem push_freq_le (xs ys : List α) (f : α → β) (R : β → ℝ) (hR : ∀ b, 0 ≤ R b) :
    ∑ a ∈ xs.toFinset, freq ys a * R (f a) ≤ ∑ b ∈ (xs.map f).toFinset, freq (ys.map f) b * R b := by
  classical
  set R' : β → ℝ := fun b => if b ∈ xs.map f then R b else 0 with hR'
  have hR0 : ∀ b, 0 ≤ R' b := fun b => by simp only [hR']; split_ifs; exacts [hR b, le_rfl]
  have z : ∀ (zs : List α) (a : α), a ∉ zs → freq zs a = 0 := fun zs a ha => by
    have : cnt zs a = 0 := by
      by_contra hh; exact ha (cnt_pos_iff.1 (Nat.pos_of_ne_zero hh))
    simp [freq, this]
  have z' : ∀ (zs : List β) (a : β), a ∉ zs → freq zs a = 0 := fun zs a ha => by
    have : cnt zs a = 0 := by
      by_contra hh; exact ha (cnt_pos_iff.1 (Nat.pos_of_ne_zero hh))
    simp [freq, this]
  have s1 : ∑ a ∈ xs.toFinset, freq ys a * R (f a) ≤ ∑ a ∈ ys.toFinset, freq ys a * R' (f a) := by
    have e : ∑ a ∈ xs.toFinset, freq ys a * R (f a) = ∑ a ∈ xs.toFinset ∩ ys.toFinset, freq ys a * R' (f a) := by
      rw [← Finset.sum_subset (Finset.inter_subset_left : xs.toFinset ∩ ys.toFinset ⊆ xs.toFinset)]
      · refine Finset.sum_congr rfl fun a ha => ?_
        have : f a ∈ xs.map f := List.mem_map_of_mem (List.mem_toFinset.1 (Finset.mem_inter.1 ha).1)
        simp only [hR', if_pos this]
      · intro a ha hn
        have : a ∉ ys := fun hy => hn (Finset.mem_inter.2 ⟨ha, List.mem_toFinset.2 hy⟩)
        rw [z ys a this, zero_mul]
    rw [e]
    exact Finset.sum_le_sum_of_subset_of_nonneg Finset.inter_subset_right
      (fun a _ _ => mul_nonneg (freq_nonneg _ _) (hR0 _))
  have s2 : ∑ a ∈ ys.toFinset, freq ys a * R' (f a) = ∑ b ∈ (ys.map f).toFinset, freq (ys.map f) b * R' b := by
    rw [sum_freq_mul ys f R']
    have := sum_freq_mul ys id (fun a => R' (f a))
    rw [List.map_id] at this
    rw [this]; rfl
  have s3 : ∑ b ∈ (ys.map f).toFinset, freq (ys.map f) b * R' b ≤ ∑ b ∈ (xs.map f).toFinset, freq (ys.map f) b * R b := by
    rw [← Finset.sum_subset (Finset.inter_subset_left : (ys.map f).toFinset ∩ (xs.map f).toFinset ⊆ (ys.map f).toFinset)]
    · refine (Finset.sum_le_sum fun b hb => ?_).trans (Finset.sum_le_sum_of_subset_of_nonneg Finset.inter_subset_right
        (fun b _ _ => mul_nonneg (freq_nonneg _ _) (hR _)))
      have : b ∈ xs.map f := List.mem_toFinset.1 (Finset.mem_inter.1 hb).2
      simp only [hR', if_pos this, le_refl]
    · intro b hb hn
      have : b ∉ xs.map f := fun hy => hn (Finset.mem_inter.2 ⟨hb, List.mem_toFinset.2 hy⟩)
      simp only [hR', if_neg this, mul_zero]
  linarith

/-- divergence from any positive weights decreases under merging of values -/
theorem div_processing (xs : List α) (hx : xs ≠ []) (f : α → β) (q : α → ℝ) (q' : β → ℝ) (hq : ∀ a ∈ xs, 0 < q a)
    (hq' : ∀ a ∈ xs, 0 < q' (f a))
    (hpush : ∀ R : β → ℝ, (∀ b, 0 ≤ R b) → ∑ a ∈ xs.toFinset, q a * R (f a) ≤ ∑ b ∈ (xs.map f).toFinset, q' b * R b) :
    ∑ b ∈ (xs.map f).toFinset, freq (xs.map f) b * Real.log (freq (xs.map f) b / q' b) ≤
      ∑ a ∈ xs.toFinset, freq xs a * Real.log (freq xs a / q a) := by
  set P := freq (xs.map f) with hP
  have hPpos : ∀ a ∈ xs, 0 < P (f a) := fun a ha => freq_pos (List.mem_map_of_mem ha)
  have l1 : ∑ b ∈ (xs.map f).toFinset, P b * Real.log (P b / q' b) =
      ∑ a ∈ xs.toFinset, freq xs a * Real.log (P (f a) / q' (f a)) := by
    have e1 := sum_freq_mul xs f (fun b => Real.log (P b / q' b))
    have e2 := sum_freq_mul xs id (fun a => Real.log (P (f a) / q' (f a)))
    rw [List.map_id] at e2
    rw [e2]; exact e1
  rw [l1, ← sub_nonneg, ← Finset.sum_sub_distrib]
  set Q : α → ℝ := fun a => q a * (P (f a) / q' (f a)) with hQ
  have hg := gibbs xs.toFinset (freq xs) Q (fun a _ => freq_nonneg xs a)
    (fun a ha => by
      have ha' := List.mem_toFinset.1 ha
      exact mul_pos (hq a ha') (div_pos (hPpos a ha') (hq' a ha'))) (by
    classical
    rw [sum_freq hx]
    set R : β → ℝ := fun b => if b ∈ xs.map f then P b / q' b else 0 with hR
    have hR0 : ∀ b, 0 ≤ R b := fun b => by
      simp only [hR]; split_ifs with hb
      · obtain ⟨a, ha, rfl⟩ := List.mem_map.1 hb
        exact (div_pos (hPpos a ha) (hq' a ha)).le
      · exact le_rfl
    have := hpush R hR0
    have e1 : ∑ a ∈ xs.toFinset, Q a = ∑ a ∈ xs.toFinset, q a * R (f a) :=
      Finset.sum_congr rfl fun a ha => by
        have : f a ∈ xs.map f := List.mem_map_of_mem (List.mem_toFinset.1 ha)
        simp only [hQ, hR, if_pos this]
    have e2 : ∑ b ∈ (xs.map f).toFinset, q' b * R b = ∑ b ∈ (xs.map f).toFinset, P b :=
      Finset.sum_congr rfl fun b hb => by
        have hb' := List.mem_toFinset.1 hb
        obtain ⟨a, ha, rfl⟩ := List.mem_map.1 hb'
        simp only [hR, if_pos hb']
        have := hq' a ha
        field_simp
    rw [e1]
    refine this.trans (le_of_eq ?_)
    rw [e2]
    exact sum_freq (by simpa using hx))
  refine hg.trans (le_of_eq (Finset.sum_congr rfl fun a ha => ?_))
  have ha' := List.mem_toFinset.1 ha
  have p1 := freq_pos ha'
  have p2 := hq a ha'
  have p3 := hPpos a ha'
  have p4 := hq' a ha'
  simp only [hQ]
  rw [Real.log_div p1.ne' (mul_pos p2 (div_pos p3 p4)).ne', Real.log_mul p2.ne' (div_pos p3 p4).ne', Real.log_div p1.ne' p2.ne']
  ring

theorem kl_processing {xs ys : List α} (h : ∀ a ∈ xs, a ∈ ys) (hx : xs ≠ []) (f : α → β) :
    kl (xs.map f) (ys.map f) ≤ kl xs ys :=
  div_processing xs hx f (freq ys) (freq (ys.map f)) (fun a ha => freq_pos (h a ha))
    (fun a ha => freq_pos (List.mem_map_of_mem (h a ha))) (fun R hR => push_freq_le xs ys f R hR)

theorem mixture_pos {xss : List (List α)} {xs : List α} (hxs : xs ∈ xss) {a : α} (ha : a ∈ xs) : 0 < mixture xss a := by
  unfold mixture
  refine div_pos ?_ (by exact_mod_cast List.length_pos_of_mem hxs)
  have := List.single_le_sum (l := xss.map (fun xs => freq xs a)) (fun y hy => by
    obtain ⟨zs, -, rfl⟩ := List.mem_map.1 hy; exact freq_nonneg _ _) _ (List.mem_map_of_mem (f := fun xs => freq xs a) hxs)
  exact lt_of_lt_of_le (freq_pos ha) this

theorem jsd_processing (xss : List (List α)) (hx : ∀ xs ∈ xss, xs ≠ []) (f : α → β) :
    jsd (xss.map (List.map f)) ≤ jsd xss := by
  unfold jsd
  rw [List.length_map, List.map_map]
  refine div_le_div_of_nonneg_right (List.sum_le_sum fun xs hxs => ?_) (by positivity)
  simp only [Function.comp]
  have hmem : xs.map f ∈ xss.map (List.map f) := List.mem_map_of_mem hxs
  refine div_processing xs (hx xs hxs) f (mixture xss) (mixture (xss.map (List.map f))) (fun a ha => mixture_pos hxs ha)
    (fun a ha => mixture_pos hmem (List.mem_map_of_mem ha)) (fun R hR => ?_)
  have swap : ∀ {γ : Type} [DecidableEq γ] (S : Finset γ) (T : γ → ℝ) (yss : List (List γ)),
      ∑ a ∈ S, mixture yss a * T a = (yss.map (fun ys => ∑ a ∈ S, freq ys a * T a)).sum / yss.length := by
    intro γ _ S T yss
    unfold mixture
    have : ∀ l : List (List γ), ∑ a ∈ S, (l.map (fun xs => freq xs a)).sum * T a =
        (l.map (fun ys => ∑ a ∈ S, freq ys a * T a)).sum := by
      intro l
      induction l with
      | nil => simp
      | cons c cs ih => simp only [List.map_cons, List.sum_cons, add_mul, Finset.sum_add_distrib, ih]
    rw [← this, Finset.sum_div]
    exact Finset.sum_congr rfl fun a _ => by ring
  rw [swap xs.toFinset (fun a => R (f a)) xss, swap (xs.map f).toFinset R, List.length_map, List.map_map]
  refine div_le_div_of_nonneg_right (List.sum_le_sum fun ys hys => ?_) (by positivity)
  simp only [Function.comp]
  exact push_freq_le xs ys f R hR

end Div

/-- **C76** Data processing for divergences: applying the same recoding to all samples never increases the Kullback–Leibler divergence
(when every value of the first sample occurs in the second) nor the Jensen–Shannon divergence of any number of samples. -/
theorem C76_divergence_data_processing (f : Int → Int) (b : Base) (hb : b.Std) :
    (∀ xs ys : List Int, xs ≠ [] → (∀ a ∈ xs, a ∈ ys) →
      ∃ v v', kld .discrete b (.arr1 xs) (.arr1 ys) = .ok v ∧
        kld .discrete b (.arr1 (xs.map f)) (.arr1 (ys.map f)) = .ok v' ∧ 0 ≤ v' ∧ v' ≤ v) ∧
    (∀ xss : List (List Int), xss ≠ [] → (∀ xs ∈ xss, xs ≠ []) →
      ∃ v v', jsdDiscrete .discrete b (xss.map .arr1) = .ok v ∧
        jsdDiscrete .discrete b (xss.map (fun xs => .arr1 (xs.map f))) = .ok v' ∧ 0 ≤ v' ∧ v' ≤ v) := by
  refine ⟨fun xs ys hx h => ?_, fun xss hne hx => ?_⟩
  · obtain ⟨v, hv, hv', -, -⟩ := C36_kld_of_included_support xs ys hx h b hb
    obtain ⟨w, hw, hw', hw0, -⟩ := C36_kld_of_included_support (xs.map f) (ys.map f) (by simpa using hx)
      (fun a ha => by obtain ⟨x, hx', rfl⟩ := List.mem_map.1 ha; exact List.mem_map_of_mem (h x hx')) b hb
    refine ⟨v, w, hv, hw, hw0, ?_⟩
    rw [hv', hw']
    exact div_le_div_of_nonneg_right (kl_processing h hx f) hb.ln_pos.le
  · have e : xss.map (fun xs => EInput.arr1 (xs.map f)) = (xss.map (List.map f)).map .arr1 := by
      rw [List.map_map]; rfl
    have hx' : ∀ xs ∈ xss.map (List.map f), xs ≠ [] := by
      intro xs hxs
      obtain ⟨ys, hys, rfl⟩ := List.mem_map.1 hxs
      simpa using hx ys hys
    obtain ⟨w, hw, hw0, -⟩ := C37_jsd_bounds (xss.map (List.map f)) (by simpa using hne) hx' b hb
    have hv := C37_jsd_value xss hne hx b hb.valid
    have hw2 := C37_jsd_value (xss.map (List.map f)) (by simpa using hne) hx' b hb.valid
    refine ⟨_, _, hv, by rw [e]; exact hw2, ?_, div_le_div_of_nonneg_right (jsd_processing xss hx f) hb.ln_pos.le⟩
    rw [hw2] at hw
    simp only [Except.ok.injEq] at hw
    rw [hw]; exact hw0

example := (C76_divergence_data_processing (fun x => x / 2) (.num 2) (by norm_num [Base.Std])).1 [0, 1, 1] [0, 1, 2, 3] (by decide) (by decide)
example := (C76_divergence_data_processing (fun x => x / 2) (.num 2) (by norm_num [Base.Std])).2 [[0, 1, 1], [0, 1, 2, 3]] (by decide) (by decide)

end Verif
