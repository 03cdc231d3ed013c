import Verif.Props.KlEntropy

/-!
# C52, joint entropy and cross-entropy
-/

namespace Verif

open Spec

/-- the variables side by side as one two-dimensional array with `n` rows -/
def sideBySide (n : Nat) (vs : List KVar) : KVar :=
  .two ⟨(vs.map KVar.dim).sum, (List.range n).map (jointSample (vs.map KVar.samples))⟩

/-- **C52** Joint entropy of a tuple is the entropy of the array whose rows are the joint samples, for every parameter choice. -/
theorem C52_joint (vs : List KVar) (hne : vs ≠ []) (n : Nat) (hl : ∀ v ∈ vs, v.len = n) (cfg : KlCfg)
    (noise noiseQ : Option (Nat → Nat → ℝ)) (b : Base) :
    klEntropy [.tup vs] cfg noise noiseQ b = klEntropy [.arr (sideBySide n vs)] cfg noise noiseQ b ∧
      klEntropyLocal [.tup vs] cfg noise b = klEntropyLocal [.arr (sideBySide n vs)] cfg noise b := by
  have hall : vs.all (fun d => decide (d.len = (vs.headD (.one [])).len)) = true := by
    rw [List.all_eq_true]
    intro v hv
    cases vs with
    | nil => exact absurd rfl hne
    | cons w ws => simp [hl v hv, hl w (by simp)]
  have hs : stackArrs (vs.map assure2d) = .ok (assure2d (sideBySide n vs)) := by
    rw [stackArrs_ok (n := n) (by simpa using hne) (fun a ha => by
      obtain ⟨v, hv, rfl⟩ := List.mem_map.1 ha
      rw [KVar.len_rows, hl v hv])]
    simp only [sideBySide, assure2d, List.map_map, KVar.dim]
    congr 2
    refine List.map_congr_left fun t _ => ?_
    unfold jrow jointSample KVar.samples
    rw [List.map_map, List.map_map]
    rfl
  have e : klEntropyLocal [.tup vs] cfg noise b = klEntropyLocal [.arr (sideBySide n vs)] cfg noise b := by
    simp only [klEntropyLocal, klInit, bind, Except.bind, hall, if_true]
    split_ifs
    all_goals try rfl
    simp only [hs]
  refine ⟨?_, e⟩
  simp only [klEntropy, bind, Except.bind]
  rw [e]
  simp only [klInit, bind, Except.bind, hall, if_true]
  split_ifs <;> rfl

example := C52_joint [.one [0, 1, 3, 2], .two ⟨2, [[0, 1], [1, 1], [3, 0], [2, 2]]⟩] (by simp) 4 (by simp [KVar.len]) ⟨.int 2, 1, false, .inf⟩ none none .e

/-- Variables of different lengths are rejected. -/
theorem C52_joint_lengths (vs : List KVar) (v w : KVar) (hv : v ∈ vs) (hw : w ∈ vs) (hne : v.len ≠ w.len) (cfg : KlCfg)
    (noise noiseQ : Option (Nat → Nat → ℝ)) (b : Base) :
    klEntropy [.tup vs] cfg noise noiseQ b = .error .valueError := by
  have hall : vs.all (fun d => decide (d.len = (vs.headD (.one [])).len)) = false := by
    rw [Bool.eq_false_iff]
    intro h
    rw [List.all_eq_true] at h
    have h1 := of_decide_eq_true (h v hv)
    have h2 := of_decide_eq_true (h w hw)
    exact hne (h1.trans h2.symm)
  simp only [klEntropy, klInit, bind, Except.bind, hall, Bool.false_eq_true, if_false]
  split_ifs <;> rfl

example := C52_joint_lengths [.one [0, 1], .one [3]] (.one [0, 1]) (.one [3]) (by simp) (by simp) (by simp [KVar.len])
  ⟨.int 2, 1, false, .inf⟩ none none .e

/-- The number of arguments: none or more than two, or a tuple among two, is rejected. -/
theorem C52_argument_errors (args : List KArg) (h : args.length ≠ 1) (h2 : ∀ p q, args ≠ [.arr p, .arr q]) (cfg : KlCfg)
    (noise noiseQ : Option (Nat → Nat → ℝ)) (b : Base) : klEntropy args cfg noise noiseQ b = .error .valueError := by
  have : klInit args cfg = .error .valueError := by
    simp only [klInit, bind, Except.bind]
    split_ifs <;> try rfl
    all_goals
      split <;> first | rfl | (exfalso; simp at h; done) | (exfalso; exact h2 _ _ rfl)
  simp only [klEntropy, this, bind, Except.bind]

example := C52_argument_errors [.arr (.one [0, 1]), .tup [.one [3, 2]]] (by simp) (by simp) ⟨.int 2, 1, false, .inf⟩ none none .e

/-! ## Cross-entropy -/

/-- two samples of the same dimension -/
structure CrossArgs (v w : KVar) (n m : Nat) : Prop where
  p : v.Sample n
  q : w.Sample m
  dim : v.dim = w.dim

theorem klInit_two {v w : KVar} {k : Nat} (hk : 0 < k) {id : Int} (hid : id = 1 ∨ id = 2) {p : PNorm} (hp : p.ok = true) :
    klInit [.arr v, .arr w] ⟨.int k, id, false, p⟩ = .ok [.arr v, .arr w] := by
  simp only [klInit, PyArg.posInt, hp, hid, bind, Except.bind]
  simp [hk]

open Classical in
theorem isKthSmallest_unique {l : List ℝ} {k : Nat} {a c : ℝ} (h : IsKthSmallest l k a) (h' : IsKthSmallest l k c) : a = c := by
  have key : ∀ a c : ℝ, IsKthSmallest l k a → IsKthSmallest l k c → ¬ a < c := by
    intro a c h h' hlt
    have : (l.filter (fun x => decide (x ≤ a))).length ≤ (l.filter (fun x => decide (x < c))).length := by
      rw [← List.countP_eq_length_filter, ← List.countP_eq_length_filter]
      exact List.countP_mono_left fun x _ hx => by simp at hx ⊢; linarith
    have := h.2.2; have := h'.2.1; omega
  exact le_antisymm (not_lt.1 (key c a h' h)) (not_lt.1 (key a c h h'))

/-- the model's k-th distance is the k-th smallest distance -/
theorem kthDist_kthSmallest {p : PNorm} {rows : List (List ℝ)} {d : Nat} (hw : Points rows d) {x : List ℝ} (hx : x.length = d) {k : Nat}
    (hk : 0 < k) (hkn : k ≤ rows.length) :
    ∃ ε, kthDist p rows k x = some ε ∧ 0 ≤ ε ∧ IsKthSmallest (rows.map (distance p.order x)) k ε := by
  obtain ⟨ε, hε⟩ := kthDist_isSome (p := p) (rows := rows) (k := k) (x := x) hk hkn
  obtain ⟨⟨y, hy, e⟩, h1, h2⟩ := kthDist_spec hε
  have hd : ∀ y ∈ rows, minkDist p x y = distance p.order x y := fun y hy => minkDist_eq (by rw [hx, hw y hy])
  refine ⟨ε, hε, by rw [← e, hd y hy]; exact distance_nonneg _ _ _, List.mem_map.2 ⟨y, hy, by rw [← hd y hy, e]⟩, ?_, ?_⟩
  · rw [List.filter_map, List.length_map, ← List.countP_eq_length_filter]
    refine lt_of_le_of_lt (le_of_eq ?_) (lt_of_le_of_lt h1 (by omega))
    exact List.countP_congr fun y hy => by simp [hd y hy]
  · rw [List.filter_map, List.length_map, ← List.countP_eq_length_filter]
    have h3 : k ≤ rows.countP (fun y => @decide (minkDist p x y ≤ ε) (Classical.propDecidable _)) := by omega
    exact h3.trans (le_of_eq (List.countP_congr fun y hy => by simp [hd y hy]))

/-- the distances from sample `t` of `v` to all samples of `w` -/
noncomputable def crossDists (p : Option ℝ) (v w : KVar) (t : Nat) : List ℝ := w.samples.map (distance p (v.samples.getD t []))

theorem row_length {v : KVar} {n t : Nat} (H : v.Sample n) (ht : t < n) : (v.samples.getD t []).length = v.dim :=
  getD_length (arr_aligned H.len H.wf) ht

theorem CrossArgs.kth {v w : KVar} {n m : Nat} (H : CrossArgs v w n m) (p : PNorm) {k : Nat} (hk : 0 < k) (hkm : k ≤ m) {t : Nat} (ht : t < n) :
    ∃ ε, kthDist p w.samples k (v.samples.getD t []) = some ε ∧ 0 ≤ ε ∧ IsKthSmallest (crossDists p.order v w t) k ε :=
  kthDist_kthSmallest H.q.wf (by rw [row_length H.p ht, H.dim]; rfl) hk (by
    rw [KVar.len_rows, H.q.len]; exact hkm)

open Classical in
theorem klCross_ok {v w : KVar} {n m : Nat} (H : CrossArgs v w n m) (p : PNorm) (hp : p.ok = true) {k : Nat} (hk : 1 < k)
    (hkm : k ≤ m) (id : Int) {b : Base} (hb : b.Valid) {ε : Nat → ℝ}
    (hε : ∀ t < n, IsKthSmallest (crossDists p.order v w t) k (ε t)) :
    klCross k id p (assure2d v) (assure2d w) b =
      .ok ((- klHead id k + psi m + Real.log (unitBallVolume w.dim (1 / 2) p) +
        w.dim * ((((List.range n).map ε).filter (fun e => decide (0 < e))).map (fun e => Real.log (2 * e))).sum / m) / b.ln) := by
  unfold klCross
  have hdim : (assure2d v).cols = (assure2d w).cols := H.dim
  have hm : (assure2d w).rows.length = m := by rw [KVar.len_rows, H.q.len]
  rw [if_neg (by simpa using hdim), if_neg (by omega)]
  have h1 : (assure2d v).rows.mapM (fun x => finiteDist (kthDist p (assure2d w).rows (k : Int).toNat x)) =
      .ok ((List.range n).map ε) := by
    rw [list_eq_range (assure2d v).rows [] (arr_aligned H.p.len H.p.wf).1, List.mapM_map]
    refine mapM_ok (List.range n) fun t ht => ?_
    have ht' := List.mem_range.1 ht
    obtain ⟨e, h1, _, h3⟩ := H.kth p (by omega : 0 < k) hkm ht'
    have := isKthSmallest_unique h3 (hε t ht')
    subst this
    simp only [Function.comp, Int.toNat_natCast]
    unfold KVar.samples at h1
    rw [h1]
    rfl
  rw [h1, hm, klConst_ok (by omega) (by omega) hp id]
  simp only [bind, Except.bind]
  rw [mapM_ok (g := fun e => Real.log (2 * e)) _ (fun e he => npLog_ok (by
    have := (List.mem_filter.1 he).2
    have := of_decide_eq_true this
    linarith))]
  simp only
  rw [scaleBase_ok hb]
  rfl

theorem kl_cross_val {v w : KVar} {n m : Nat} (H : CrossArgs v w n m) (p : PNorm) (hp : p.ok = true) {k : Nat} (hk : 1 < k)
    (hkm : k ≤ m) {id : Int} (hid : id = 1 ∨ id = 2) {b : Base} (hb : b.Valid) {ε : Nat → ℝ}
    (hε : ∀ t < n, IsKthSmallest (crossDists p.order v w t) k (ε t)) :
    klEntropy [.arr v, .arr w] ⟨.int k, id, false, p⟩ none none b =
      .ok ((- klHead id k + psi m + Real.log (unitBallVolume w.dim (1 / 2) p) +
        w.dim * ((((List.range n).map ε).filter (fun e => @decide (0 < e) (Classical.propDecidable _))).map
          (fun e => Real.log (2 * e))).sum / m) / b.ln) := by
  unfold klEntropy
  rw [klInit_two (by omega) hid hp]
  simp only [bind, Except.bind, PyArg.val, jitter]
  exact klCross_ok H p hp hk hkm id hb hε

theorem sum_filter_zero (ε : Nat → ℝ) (n : Nat) (h : ∀ t < n, 0 < ε t) :
    ((((List.range n).map ε).filter (fun e => @decide (0 < e) (Classical.propDecidable _))).map (fun e => Real.log (2 * e))).sum =
      ((List.range n).map (fun t => Real.log (2 * ε t))).sum := by
  rw [List.filter_eq_self.2 (fun e he => by
    obtain ⟨t, ht, rfl⟩ := List.mem_map.1 he
    simpa using h t (List.mem_range.1 ht)), List.map_map]
  rfl

/-- **C52** Cross-entropy of a sample of `n` points relative to a sample of `m` points, `2 ≤ k ≤ m`, when no distance is zero:
with equal sample sizes it is `ψ(m) − ψ(k)` plus the mean log-volume of the balls reaching the `k`-th nearest point of the other
sample. -/
theorem C52_cross_equal_sizes (v w : KVar) (n : Nat) (H : CrossArgs v w n n) (p : PNorm) (hp : p.ok = true) (k : Nat) (hk : 1 < k)
    (hkm : k ≤ n) (b : Base) (hb : b.Valid) (ε : Nat → ℝ)
    (hε : ∀ t < n, IsKthSmallest (crossDists p.order v w t) k (ε t)) (hpos : ∀ t < n, 0 < ε t) :
    klEntropy [.arr v, .arr w] ⟨.int k, 1, false, p⟩ none none b =
      .ok (mean ((List.range n).map (fun t => klTerm p.order n k v.dim (ε t))) / b.ln) := by
  rw [kl_cross_val H p hp hk hkm (.inl rfl) hb hε, sum_filter_zero ε n hpos]
  have hn : (n : ℝ) ≠ 0 := by have : 0 < n := by omega
                              exact_mod_cast this.ne'
  congr 2
  have e : (List.range n).map (fun t => klTerm p.order n k v.dim (ε t)) =
      (List.range n).map (fun t => (psi n - psi k + Real.log (unitBallVolume w.dim (1 / 2) p)) + w.dim * Real.log (2 * ε t)) := by
    refine List.map_congr_left fun t ht => ?_
    have h0 := hpos t (List.mem_range.1 ht)
    unfold klTerm
    rw [ballVolume_eq H.p.dim hp h0.le, ← C50_log_volume v.dim (ε t) h0 p hp, H.dim]
    ring
  rw [e]
  unfold mean
  rw [List.sum_map_add, List.sum_map_mul_left]
  simp only [List.length_map, List.length_range, List.map_const', List.sum_replicate, nsmul_eq_mul, klHead]
  field_simp
  norm_num
  ring

example := C52_cross_equal_sizes (.one [0, 1]) (.one [3, 7]) 2 ⟨⟨rfl, KVar.wf_one _, by decide⟩, ⟨rfl, KVar.wf_one _, by decide⟩, rfl⟩ .inf rfl 2 (by decide) (by decide) .e trivial (fun t => 7 - t)
  (fun t ht => by
    interval_cases t <;> norm_num [IsKthSmallest, crossDists, distance, KVar.samples, assure2d, PNorm.order])
  (fun t ht => by interval_cases t <;> norm_num)

/-- **C52** In general the sum over the `n` points of the first sample is divided by the size `m` of the second one: this is not a
mean unless `n = m`. -/
theorem C52_cross_value (v w : KVar) (n m : Nat) (H : CrossArgs v w n m) (p : PNorm) (hp : p.ok = true) (k : Nat) (hk : 1 < k)
    (hkm : k ≤ m) (b : Base) (hb : b.Valid) (ε : Nat → ℝ)
    (hε : ∀ t < n, IsKthSmallest (crossDists p.order v w t) k (ε t)) (hpos : ∀ t < n, 0 < ε t) :
    klEntropy [.arr v, .arr w] ⟨.int k, 1, false, p⟩ none none b =
      .ok ((psi m - psi k + Real.log (ballVolume w.dim p.order (1 / 2)) +
        w.dim * ((List.range n).map (fun t => Real.log (2 * ε t))).sum / m) / b.ln) := by
  rw [kl_cross_val H p hp hk hkm (.inl rfl) hb hε, sum_filter_zero ε n hpos, ballVolume_eq H.q.dim hp (by norm_num)]
  simp only [klHead]
  norm_num
  congr 1
  ring

example := C52_cross_value (.one [0, 1]) (.one [3, 7]) 2 2 ⟨⟨rfl, KVar.wf_one _, by decide⟩, ⟨rfl, KVar.wf_one _, by decide⟩, rfl⟩ .inf rfl 2 (by decide) (by decide) .e trivial (fun t => 7 - t)
  (fun t ht => by
    interval_cases t <;> norm_num [IsKthSmallest, crossDists, distance, KVar.samples, assure2d, PNorm.order])
  (fun t ht => by interval_cases t <;> norm_num)

/-- Scaling both samples by `c ≠ 0` (and shifting): the cross-entropy of a density changes by `d log|c|`, the estimate by
`(n/m) d log|c|`. -/
theorem C52_cross_affine (v w : KVar) (n m : Nat) (H : CrossArgs v w n m) (c : ℝ) (hc : c ≠ 0) (o : Nat → ℝ) (p : PNorm)
    (hp : p.ok = true) (k : Nat) (hk : 1 < k) (hkm : k ≤ m) (id : Int) (hid : id = 1 ∨ id = 2) (b : Base) (hb : b.Valid)
    (hpos : ∀ t < n, ∀ ε, IsKthSmallest (crossDists p.order v w t) k ε → 0 < ε) :
    ∃ h, klEntropy [.arr v, .arr w] ⟨.int k, id, false, p⟩ none none b = .ok h ∧
      klEntropy [.arr (v.affine c o), .arr (w.affine c o)] ⟨.int k, id, false, p⟩ none none b =
        .ok (h + (n / m : ℝ) * w.dim * Real.log |c| / b.ln) := by
  have hc' : 0 < |c| := abs_pos.2 hc
  have hdv : (v.affine c o).dim = v.dim := by cases v <;> rfl
  have hdw : (w.affine c o).dim = w.dim := by cases w <;> rfl
  have H' : CrossArgs (v.affine c o) (w.affine c o) n m :=
    ⟨⟨by rw [affine_len]; exact H.p.len, affine_wf c o H.p.wf, by rw [hdv]; exact H.p.dim⟩,
     ⟨by rw [affine_len]; exact H.q.len, affine_wf c o H.q.wf, by rw [hdw]; exact H.q.dim⟩, by rw [hdv, hdw]; exact H.dim⟩
  have hex : ∀ t, t < n → ∃ ε, IsKthSmallest (crossDists p.order v w t) k ε := fun t ht => by
    obtain ⟨ε, _, _, h⟩ := H.kth p (by omega : 0 < k) hkm ht
    exact ⟨ε, h⟩
  choose! ε hε using hex
  have hd : ∀ t < n, crossDists p.order (v.affine c o) (w.affine c o) t = (crossDists p.order v w t).map (fun a => |c| * a) := by
    intro t ht
    have lv : w.samples.length = m := by unfold KVar.samples; rw [KVar.len_rows, H.q.len]
    have lw : (w.affine c o).samples.length = m := by unfold KVar.samples; rw [KVar.len_rows, H'.q.len]
    unfold crossDists
    rw [list_eq_range w.samples [] lv, list_eq_range (w.affine c o).samples [] lw]
    simp only [List.map_map]
    refine List.map_congr_left fun s hs => ?_
    have hs' := List.mem_range.1 hs
    simp only [Function.comp]
    rw [affine_samples c o v t (by rw [H.p.len]; exact ht), affine_samples c o w s (by rw [H.q.len]; exact hs'),
      ← minkDist_eq (by simp only [List.length_mapIdx]; rw [row_length H.p ht, row_length H.q hs', H.dim]),
      ← minkDist_eq (by rw [row_length H.p ht, row_length H.q hs', H.dim]), minkDist_normOf, minkDist_normOf, absDiffs_affine,
      normOf_smul hp hc'.le (absDiffs_nonneg _ _)]
  have hε' : ∀ t < n, IsKthSmallest (crossDists p.order (v.affine c o) (w.affine c o) t) k (|c| * ε t) := by
    intro t ht
    rw [hd t ht]
    obtain ⟨h1, h2, h3⟩ := hε t ht
    refine ⟨List.mem_map.2 ⟨_, h1, rfl⟩, ?_, ?_⟩
    · rw [List.filter_map, List.length_map]
      refine lt_of_le_of_lt (le_of_eq ?_) h2
      congr 2
      funext a
      simp [hc']
    · rw [List.filter_map, List.length_map]
      refine le_trans h3 (le_of_eq ?_)
      congr 2
      funext a
      simp [hc']
  have hp0 : ∀ t < n, 0 < ε t := fun t ht => hpos t ht _ (hε t ht)
  have hp1 : ∀ t < n, 0 < |c| * ε t := fun t ht => mul_pos hc' (hp0 t ht)
  refine ⟨_, kl_cross_val H p hp hk hkm hid hb hε, ?_⟩
  rw [kl_cross_val H' p hp hk hkm hid hb hε', sum_filter_zero ε n hp0, sum_filter_zero _ n hp1, hdw, ← add_div]
  have e : ((List.range n).map (fun t => Real.log (2 * (|c| * ε t)))).sum =
      n * Real.log |c| + ((List.range n).map (fun t => Real.log (2 * ε t))).sum := by
    have : (List.range n).map (fun t => Real.log (2 * (|c| * ε t))) = (List.range n).map (fun t => Real.log |c| + Real.log (2 * ε t)) := by
      refine List.map_congr_left fun t ht => ?_
      have h0 := hp0 t (List.mem_range.1 ht)
      rw [show 2 * (|c| * ε t) = |c| * (2 * ε t) by ring, Real.log_mul hc'.ne' (by linarith)]
    rw [this, List.sum_map_add]
    simp
  rw [e]
  congr 2
  ring

example := C52_cross_affine (.one [0, 1]) (.one [3, 7, 4]) 2 3 ⟨⟨rfl, KVar.wf_one _, by decide⟩, ⟨rfl, KVar.wf_one _, by decide⟩, rfl⟩ (-2) (by norm_num) (fun _ => 5) .inf rfl 2 (by decide) (by decide) 1 (.inl rfl) .e trivial
  (fun t ht ε h => by
    have h1 := h.1
    interval_cases t <;> norm_num [crossDists, distance, KVar.samples, assure2d, PNorm.order] at h1 <;>
      rcases h1 with rfl | rfl | rfl <;> norm_num)

/-- `k = 1`, a valid choice for the entropy, is an IndexError for the cross-entropy. -/
theorem C52_cross_k_one (v w : KVar) (n m : Nat) (H : CrossArgs v w n m) (p : PNorm) (hp : p.ok = true) (id : Int)
    (hid : id = 1 ∨ id = 2) (e e' : Option (Nat → Nat → ℝ)) (b : Base) :
    klEntropy [.arr v, .arr w] ⟨.int 1, id, false, p⟩ e e' b = .error .indexError := by
  have := klInit_two (v := v) (w := w) (k := 1) (by omega) hid hp
  rw [Nat.cast_one] at this
  unfold klEntropy
  rw [this]
  simp only [bind, Except.bind, PyArg.val]
  unfold klCross
  have h : ∀ (e : Option (Nat → Nat → ℝ)) (a : Arr), (jitter e a).cols = a.cols := fun e a => by cases e <;> rfl
  rw [h, h, if_neg (show ¬ (assure2d v).cols ≠ (assure2d w).cols from fun hc => hc H.dim), if_pos rfl]

example := C52_cross_k_one (.one [0, 1]) (.one [3, 7, 4]) 2 3 ⟨⟨rfl, KVar.wf_one _, by decide⟩, ⟨rfl, KVar.wf_one _, by decide⟩, rfl⟩ .inf rfl 1 (.inl rfl) none none .e

/-- Samples of different dimension are rejected. -/
theorem C52_cross_dimensions (v w : KVar) (h : v.dim ≠ w.dim) (cfg : KlCfg) (e e' : Option (Nat → Nat → ℝ)) (b : Base) :
    klEntropy [.arr v, .arr w] cfg e e' b = .error .valueError := by
  have hj : ∀ (e : Option (Nat → Nat → ℝ)) (a : Arr), (jitter e a).cols = a.cols := fun e a => by cases e <;> rfl
  simp only [klEntropy, klInit, bind, Except.bind]
  split_ifs <;> try rfl
  simp only [klCross, hj]
  rw [if_pos (show (assure2d v).cols ≠ (assure2d w).cols from h)]

example := C52_cross_dimensions (.one [0, 1]) (.two ⟨2, [[0, 1], [1, 1]]⟩) (by simp [KVar.dim, assure2d]) ⟨.int 2, 1, false, .inf⟩ none none .e

/-- Fewer than `k` points in the second sample: not a finite number. -/
theorem C52_cross_k_too_large (v w : KVar) (n m : Nat) (H : CrossArgs v w n m) (hn : 0 < n) (p : PNorm) (hp : p.ok = true) (k : Nat)
    (hk : 1 < k) (hkm : m < k) (id : Int) (hid : id = 1 ∨ id = 2) (b : Base) :
    klEntropy [.arr v, .arr w] ⟨.int k, id, false, p⟩ none none b = .error .nonFinite := by
  unfold klEntropy
  rw [klInit_two (by omega) hid hp]
  simp only [bind, Except.bind, PyArg.val, jitter]
  unfold klCross
  rw [if_neg (show ¬ (assure2d v).cols ≠ (assure2d w).cols from fun hc => hc H.dim), if_neg (by omega)]
  have hl := (arr_aligned H.p.len H.p.wf).1
  have hq := (arr_aligned H.q.len H.q.wf).1
  obtain ⟨x, xs, hx⟩ : ∃ x xs, (assure2d v).rows = x :: xs := by
    cases h : (assure2d v).rows with
    | nil => rw [h] at hl; simp at hl; omega
    | cons x xs => exact ⟨x, xs, rfl⟩
  rw [hx, List.mapM_cons, kthDist_none (by simp; omega)]
  rfl

/-- Concrete case: entropy of three points of the line, `k = 1`, natural logarithm. -/
example : ∃ h, klEntropy [.arr (.one [0, 1, 3])] ⟨.int 1, 1, false, .inf⟩ none none .e = .ok h :=
  C52_finite (.one [0, 1, 3]) 3 ⟨rfl, KVar.wf_one _, by decide⟩ .inf rfl 1 (by norm_num) (by norm_num) 1 (.inl rfl) .e (by simp [Base.Valid])

end Verif
