import Verif.Props.KsgTE

/-!
# C63 (continued): invariance, constant source, conditional transfer entropy
-/

namespace Verif

open Spec

theorem histRow_map {xs : List ℝ} {m s h i : Nat} (f : ℝ → ℝ) (hh : h ≤ m) (hi : (m + i) * s < xs.length) :
    histRow (xs.map f) m s h i = (histRow xs m s h i).map f := by
  unfold histRow
  rw [List.map_map]
  refine List.map_congr_left fun j hj => ?_
  have hj' := List.mem_range.1 hj
  have h2 : (m + i - h + j) * s < xs.length := lt_of_le_of_lt (Nat.mul_le_mul_right s (by omega)) hi
  simp [List.getD_eq_getElem?_getD, List.getElem?_map, h2]

theorem mapIdx_const_fn (g : ℝ → ℝ) (r : List ℝ) : r.mapIdx (fun _ x => g x) = r.map g := by
  refine List.ext_getElem (by simp) fun i h1 h2 => by simp

/-- Scaling both series by the same non-zero factor and shifting each changes nothing. -/
theorem C63_te_affine (source dest : List ℝ) (l k s : Nat) (hs : 0 < s) (hl : 0 < l) (hk : 0 < k)
    (hm : max k l * s < source.length) (hlen : source.length = dest.length) (p : PNorm) (hp : p.ok = true) (kn : Nat)
    (hkn : 0 < kn) (id : Int) (hid : id = 1 ∨ id = 2) (b : Base) (hb : b.Valid) (rnd : SrcRandom) (hr : rnd.Lawful)
    (c : ℝ) (hc : c ≠ 0) (ox oy : ℝ) :
    ∃ v, ksgTE source dest (teParams l k s) (some (.int 0)) none ⟨kn, id, p⟩ none none b rnd = .ok v ∧
      ksgTE (source.map (fun x => c * x + ox)) (dest.map (fun x => c * x + oy)) (teParams l k s) (some (.int 0)) none
        ⟨kn, id, p⟩ none none b rnd = .ok v := by
  obtain ⟨H, v, h1, h2⟩ := C63_te_is_cmi source dest l k s hs hl hk hm hlen p hp kn hkn id hid b hb rnd hr
  obtain ⟨H', v', h1', h2'⟩ := C63_te_is_cmi (source.map (fun x => c * x + ox)) (dest.map (fun x => c * x + oy)) l k s hs hl hk
    (by simpa using hm) (by simpa using hlen) p hp kn hkn id hid b hb rnd hr
  refine ⟨v, h1, ?_⟩
  rw [h1']
  obtain ⟨w, g1, g2⟩ := C62_affine
    [(.two ⟨1, futRows dest dest.length (max k l) s⟩, fun _ => oy),
      (.two ⟨l, (srcSel rnd (numRows dest.length (max k l) s)).map (histRow source (max k l) s l)⟩, fun _ => ox)]
    (.two ⟨k, histRows dest dest.length (max k l) s k⟩) (fun _ => oy) _ H c hc p hp kn hkn id hid b hb
  simp only [List.map_cons, List.map_nil] at g1 g2
  rw [h2] at g1
  cases g1
  have hidx : ∀ i < numRows dest.length (max k l) s, (max k l + i) * s < dest.length := fun i hi =>
    (lt_numRows hs (by omega)).1 hi
  have eF : futRows (dest.map (fun x => c * x + oy)) (dest.map (fun x => c * x + oy)).length (max k l) s =
      (futRows dest dest.length (max k l) s).map (fun r => r.mapIdx (fun _ x => c * x + oy)) := by
    unfold futRows
    rw [List.length_map, List.map_map]
    refine List.map_congr_left fun i hi => ?_
    have := hidx i (List.mem_range.1 hi)
    simp [List.getD_eq_getElem?_getD, this]
  have eD : histRows (dest.map (fun x => c * x + oy)) (dest.map (fun x => c * x + oy)).length (max k l) s k =
      (histRows dest dest.length (max k l) s k).map (fun r => r.mapIdx (fun _ x => c * x + oy)) := by
    unfold histRows
    rw [List.length_map, List.map_map]
    refine List.map_congr_left fun i hi => ?_
    simp only [Function.comp]
    rw [histRow_map _ (le_max_left k l) (hidx i (List.mem_range.1 hi)), mapIdx_const_fn]
  have eG : (srcSel rnd (numRows (dest.map (fun x => c * x + oy)).length (max k l) s)).map
      (histRow (source.map (fun x => c * x + ox)) (max k l) s l) =
      ((srcSel rnd (numRows dest.length (max k l) s)).map (histRow source (max k l) s l)).map
        (fun r => r.mapIdx (fun _ x => c * x + ox)) := by
    rw [List.length_map, List.map_map]
    refine List.map_congr_left fun i hi => ?_
    simp only [Function.comp]
    rw [histRow_map _ (le_max_right k l) (by rw [hlen]; exact hidx i (srcSel_lt hr _ i hi)), mapIdx_const_fn]
  rw [eF, eD, eG] at h2'
  rw [← h2']
  exact g2

example := C63_te_affine [1, 0, 1, 1, 0] [0, 1, 0, 1, 1] 2 1 1 (by decide) (by decide) (by decide) (by decide) rfl .inf rfl 2 (by decide) 1 (.inl rfl) (.num 2) (by norm_num [Base.Valid]) {} lawful_none (-2) (by norm_num) 5 6

/-- a constant variable does not change the joint distances -/
theorem jointDists_const_mid {p : PNorm} (hp : p.ok = true) {n : Nat} {as bs : List Arr} {z : Arr} (ha : Aligned n (as ++ z :: bs))
    (hz : ∀ s < n, ∀ t < n, z.rows.getD s [] = z.rows.getD t []) {t s : Nat} (ht : t < n) (hs : s < n) :
    jointDists p.order ((as ++ z :: bs).map Arr.rows) t s = jointDists p.order ((as ++ bs).map Arr.rows) t s := by
  have hperm : (as ++ z :: bs).Perm ((as ++ bs) ++ [z]) := List.perm_middle.trans (List.perm_append_singleton z (as ++ bs)).symm
  rw [jointDists_perm ha hperm ht hs]
  exact jointDists_const hp (fun a h => ha a (hperm.mem_iff.2 h)) hz ht hs

/-- constant second variable: `ψ(k) − ψ(n_XZ + 1)` -/
theorem ksgCondVal_constant {cfg : KsgCfg} (hp : cfg.p.ok = true) {n : Nat} {x y z : KVar} (H : CMIArgs [x, y] z n) (hy : y.Constant)
    {t : Nat} (ht : t < n) {ε : ℝ} (hk : IsKthDist n cfg.k t (jointDists cfg.p.order [x.samples, y.samples, z.samples] t) ε) :
    IsKthDist n cfg.k t (jointDists cfg.p.order [x.samples, z.samples] t) ε ∧
    ksgCondVal cfg n [x.samples, y.samples] z.samples t ε =
      ksgHead cfg - psi (ksgCount cfg.ksgId n t (jointDists cfg.p.order [x.samples, z.samples] t) ε + 1) := by
  have hyl := H.len y (by simp)
  have hyc : ∀ s < n, ∀ t < n, (assure2d y).rows.getD s [] = (assure2d y).rows.getD t [] := fun s hs t ht =>
    hy s (by rw [hyl]; exact hs) t (by rw [hyl]; exact ht)
  have ax := arr_aligned (H.len x (by simp)) (H.wf x (by simp))
  have ay := arr_aligned hyl (H.wf y (by simp))
  have az := arr_aligned H.lenz H.wfz
  have h1 : ∀ s < n, jointDists cfg.p.order [x.samples, y.samples, z.samples] t s = jointDists cfg.p.order [x.samples, z.samples] t s :=
    fun s hs => jointDists_const_mid hp (as := [assure2d x]) (bs := [assure2d z]) (z := assure2d y) (by
      intro a h
      simp only [List.cons_append, List.nil_append, List.mem_cons, List.not_mem_nil, or_false] at h
      rcases h with rfl | rfl | rfl <;> assumption) hyc ht hs
  have h2 : ∀ s < n, jointDists cfg.p.order [y.samples, z.samples] t s = dists cfg.p.order z.samples t s := by
    intro s hs
    have := jointDists_const_mid hp (as := []) (bs := [assure2d z]) (z := assure2d y) (by
      intro a h
      simp only [List.nil_append, List.mem_cons, List.not_mem_nil, or_false] at h
      rcases h with rfl | rfl <;> assumption) hyc ht hs
    refine Eq.trans this ?_
    simp [jointDists, dists, jointSample, KVar.samples]
  refine ⟨isKthDist_congr h1 hk, ?_⟩
  unfold ksgCondVal
  simp only [List.map_cons, List.map_nil, List.sum_cons, List.sum_nil, add_zero]
  rw [ksgCount_congr h2]
  ring

/-- A constant second variable, type I: the estimate is never negative, and zero when every sample has exactly `k − 1` samples
strictly closer than its `k`-th neighbour (no ties).  Type II: at most `−2/k`, never zero. -/
theorem C62_constant_variable (x y z : KVar) (n : Nat) (H : CMIArgs [x, y] z n) (hy : y.Constant) (p : PNorm) (hp : p.ok = true)
    (k : Nat) (hk : 0 < k) (hkn : k < n) (b : Base) (hb : b.Std) :
    (∃ v, ksgCMI [x, y] (some z) (some 0) false ⟨k, 1, p⟩ noNoise none b = .ok v ∧ 0 ≤ v ∧
      ((∀ t < n, ∀ ε, IsKthDist n k t (jointDists p.order [x.samples, z.samples] t) ε →
        below n t (jointDists p.order [x.samples, z.samples] t) ε + 1 = k) → v = 0)) ∧
    (∃ v, ksgCMI [x, y] (some z) (some 0) false ⟨k, 2, p⟩ noNoise none b = .ok v ∧ v ≤ -(2 / k) / b.ln) := by
  obtain ⟨ε, hε⟩ := exists_kth_cond H hp hk hkn
  have hne : List.range n ≠ [] := by have := H.pos; simp; omega
  have hk' : (0 : ℝ) < k := by exact_mod_cast hk
  constructor
  · refine ⟨_, ksgCMI_val [x, y] z n H ⟨k, 1, p⟩ hp (.inl rfl) hk hkn b hb.valid ε (fun t ht => (hε t ht).2), ?_, ?_⟩
    · refine div_nonneg ?_ hb.ln_pos.le
      have key := mean_bounds hne (f := fun t => ksgCondVal ⟨k, 1, p⟩ n ([x, y].map KVar.samples) z.samples t (ε t)) (lo := 0)
        (hi := psi k + psi n - 2 * psi 1) (fun t ht => by
          have ht' := List.mem_range.1 ht
          have hc := ksgCondVal_constant (cfg := ⟨k, 1, p⟩) hp H hy ht' (hε t ht').2
          refine ⟨?_, by simpa [ksgHead] using (ksgCondVal_bounds (cfg := ⟨k, 1, p⟩) hp H ht' (ε := ε t)).2⟩
          simp only [List.map_cons, List.map_nil]
          rw [hc.2]
          have hb1 := hc.1.2.1
          simp only [ksgHead, ksgCount, if_true]
          have := psi_mono (Nat.succ_le_of_lt hb1)
          simp only [Nat.succ_eq_add_one] at this
          linarith)
      exact key.1
    · intro hu
      have : ∀ t ∈ List.range n, ksgCondVal ⟨k, 1, p⟩ n ([x, y].map KVar.samples) z.samples t (ε t) = 0 := by
        intro t ht
        have ht' := List.mem_range.1 ht
        have hc := ksgCondVal_constant (cfg := ⟨k, 1, p⟩) hp H hy ht' (hε t ht').2
        simp only [List.map_cons, List.map_nil]
        rw [hc.2]
        have := hu t ht' _ hc.1
        simp only [ksgHead, ksgCount, if_true, this]
        ring
      have key := mean_bounds hne (f := fun t => ksgCondVal ⟨k, 1, p⟩ n ([x, y].map KVar.samples) z.samples t (ε t)) (lo := 0)
        (hi := 0) (fun t ht => by rw [this t ht]; simp)
      rw [le_antisymm key.2 key.1, zero_div]
  · refine ⟨_, ksgCMI_val [x, y] z n H ⟨k, 2, p⟩ hp (.inr rfl) hk hkn b hb.valid ε (fun t ht => (hε t ht).2), ?_⟩
    refine div_le_div_of_nonneg_right ?_ hb.ln_pos.le
    have key := mean_bounds hne (f := fun t => ksgCondVal ⟨k, 2, p⟩ n ([x, y].map KVar.samples) z.samples t (ε t))
      (lo := psi k - 1 / k - psi n) (hi := -(2 / k)) (fun t ht => by
        have ht' := List.mem_range.1 ht
        have hc := ksgCondVal_constant (cfg := ⟨k, 2, p⟩) hp H hy ht' (hε t ht').2
        refine ⟨by simpa [ksgHead] using (ksgCondVal_bounds (cfg := ⟨k, 2, p⟩) hp H ht' (ε := ε t)).1, ?_⟩
        simp only [List.map_cons, List.map_nil]
        rw [hc.2]
        have hb1 := hc.1.2.2
        have h21 : ¬ ((2 : Int) = 1) := by decide
        simp only [ksgHead, ksgCount, h21, if_false]
        have := psi_mono (Nat.succ_le_succ hb1)
        simp only [Nat.succ_eq_add_one] at this
        rw [psi_succ hk] at this
        have e : (2 : ℝ) / k = 1 / k + 1 / k := by ring
        linarith)
    exact key.2

example := C62_constant_variable (.one [0, 3, 1]) (.one [7, 7, 7]) (.one [2, 4, 4]) 3 ⟨by simp, by decide, by simp [KVar.len], by simp [KVar.WF, assure2d, Points], rfl, by simp [KVar.WF, assure2d, Points]⟩
  (by intro s hs t ht; simp only [KVar.len, List.length_cons, List.length_nil] at hs ht; interval_cases s <;> interval_cases t <;> rfl)
  .inf rfl 2 (by decide) (by decide) (.num 2) (by norm_num [Base.Std])

/-- A constant source, type I: the transfer entropy is never negative, and zero without ties; type II: at most `−2/k`. -/
theorem C63_constant_source (a : ℝ) (dest : List ℝ) (l k s : Nat) (hs : 0 < s) (hl : 0 < l) (hk : 0 < k)
    (hm : max k l * s < dest.length) (p : PNorm) (hp : p.ok = true) (kn : Nat)
    (hkn : 0 < kn) (hR : kn < numRows dest.length (max k l) s) (b : Base) (hb : b.Std) :
    let R := numRows dest.length (max k l) s
    let F := futRows dest dest.length (max k l) s
    let D := histRows dest dest.length (max k l) s k
    (∃ v, ksgTE (List.replicate dest.length a) dest (teParams l k s) (some (.int 0)) none ⟨kn, 1, p⟩ none none b = .ok v ∧ 0 ≤ v ∧
      ((∀ t < R, ∀ ε, IsKthDist R kn t (jointDists p.order [F, D] t) ε → below R t (jointDists p.order [F, D] t) ε + 1 = kn) →
        v = 0)) ∧
    (∃ v, ksgTE (List.replicate dest.length a) dest (teParams l k s) (some (.int 0)) none ⟨kn, 2, p⟩ none none b = .ok v ∧
      v ≤ -(2 / kn) / b.ln) := by
  intro R F D
  have hG : ∀ i < R, histRow (List.replicate dest.length a) (max k l) s l i = List.replicate l a := by
    intro t ht
    rw [List.eq_replicate_iff]
    refine ⟨by simp [histRow], fun x hx => ?_⟩
    obtain ⟨j, hj, rfl⟩ := List.mem_map.1 hx
    have hj' := List.mem_range.1 hj
    have h1 := (lt_numRows hs hm).1 ht
    have h2 : (max k l + t - l + j) * s < dest.length := by
      refine lt_of_le_of_lt (Nat.mul_le_mul_right s ?_) h1
      have := le_max_right k l
      omega
    simp [List.getD_eq_getElem?_getD, List.getElem?_replicate, h2]
  have hc : KVar.Constant (.two ⟨l, (srcSel {} R).map (histRow (List.replicate dest.length a) (max k l) s l)⟩) := by
    intro u hu v hv
    have hu' : u < R := by simpa [KVar.len, srcSel_none] using hu
    have hv' : v < R := by simpa [KVar.len, srcSel_none] using hv
    simp [KVar.samples, assure2d, srcSel_none, List.getD_eq_getElem?_getD, hu', hv', hG u hu', hG v hv']
  constructor
  · obtain ⟨H, v, h1, h2⟩ := C63_te_is_cmi (List.replicate dest.length a) dest l k s hs hl hk (by simpa using hm) (by simp) p hp kn hkn 1
      (.inl rfl) b hb.valid {} lawful_none
    obtain ⟨w, g1, g2, g3⟩ := (C62_constant_variable _ _ _ _ H hc p hp kn hkn hR b hb).1
    rw [h2] at g1
    cases g1
    exact ⟨v, h1, g2, g3⟩
  · obtain ⟨H, v, h1, h2⟩ := C63_te_is_cmi (List.replicate dest.length a) dest l k s hs hl hk (by simpa using hm) (by simp) p hp kn hkn 2
      (.inr rfl) b hb.valid {} lawful_none
    obtain ⟨w, g1, g2⟩ := (C62_constant_variable _ _ _ _ H hc p hp kn hkn hR b hb).2
    rw [h2] at g1
    cases g1
    exact ⟨v, h1, g2⟩

example := C63_constant_source 7 [0, 1, 0, 1, 1] 2 1 1 (by decide) (by decide) (by decide) (by decide) .inf rfl 2 (by decide) (by decide) (.num 2) (by norm_num [Base.Std])

/-! ### Conditional transfer entropy -/

/-- **C63** Conditional transfer entropy is the conditional mutual information estimate of the embedded samples with the
condition's history appended to the destination's, for every `k ≥ 1`. -/
theorem C63_cte_is_cmi (source dest cond : List ℝ) (l k c s : Nat) (hs : 0 < s) (hl : 0 < l) (hk : 0 < k) (hc : 0 < c)
    (hm : max (max k l) c * s < source.length) (hlen : source.length = dest.length) (hlen2 : cond.length = dest.length)
    (p : PNorm) (hp : p.ok = true) (kn : Nat) (hkn : 0 < kn) (id : Int) (hid : id = 1 ∨ id = 2) (b : Base) (hb : b.Valid) :
    let m := max (max k l) c
    let R := numRows dest.length m s
    let F := futRows dest dest.length m s
    let G := histRows source dest.length m s l
    let DZ := (List.range R).map (fun i => histRow dest m s k i ++ histRow cond m s c i)
    CMIArgs [.two ⟨1, F⟩, .two ⟨l, G⟩] (.two ⟨k + c, DZ⟩) R ∧
    ∃ v, ksgCTE source dest (some cond) (teParams l k s) (.int c) (some (.int 0)) none ⟨kn, id, p⟩ none none none b = .ok v ∧
      ksgCMI [.two ⟨1, F⟩, .two ⟨l, G⟩] (some (.two ⟨k + c, DZ⟩)) (some 0) false ⟨kn, id, p⟩ noNoise none b = .ok v := by
  intro m R F G DZ
  have hR0 : 0 < R := numRows_pos hs (by rw [← hlen]; exact hm)
  have H : CMIArgs [.two ⟨1, F⟩, .two ⟨l, G⟩] (.two ⟨k + c, DZ⟩) R := by
    refine ⟨by simp, hR0, ?_, ?_, by simp [KVar.len, DZ, R], ?_⟩
    · intro v hv
      simp only [List.mem_cons, List.not_mem_nil, or_false] at hv
      rcases hv with rfl | rfl
      · simp [KVar.len, F, futRows, R]
      · simp [KVar.len, G, histRows, R]
    · intro v hv
      simp only [List.mem_cons, List.not_mem_nil, or_false] at hv
      rcases hv with rfl | rfl
      · intro x hx
        obtain ⟨i, _, rfl⟩ := List.mem_map.1 hx
        rfl
      · intro x hx
        obtain ⟨i, _, rfl⟩ := List.mem_map.1 hx
        simp [histRow, assure2d]
    · intro x hx
      obtain ⟨i, _, rfl⟩ := List.mem_map.1 hx
      simp [histRow, assure2d]
  refine ⟨H, ?_⟩
  have ho := cteObservations_ok source dest cond l k c s hs hl hk hc hm hlen hlen2 lawful_none
  rw [srcSel_none, histRows, futRows, histRows] at ho
  rcases Nat.lt_or_ge kn R with hR | hR
  · obtain ⟨ε, hε⟩ := exists_kth_cond H hp hkn hR
    refine ⟨_, ?_, ksgCMI_val _ _ R H ⟨kn, id, p⟩ hp hid hkn hR b hb ε (fun t ht => (hε t ht).2)⟩
    have key := ksgTECalc_ok (cfg := ⟨kn, id, p⟩) (R := R) (q := 1) (l := l) (k := k) (c := c) hp hkn hR
      (f := fun i : Nat => [dest.getD ((max (max k l) c + i) * s) default])
      (g := histRow source (max (max k l) c) s l) (d := histRow dest (max (max k l) c) s k)
      (z := histRow cond (max (max k l) c) s c) (by simp) (by simp [histRow]) (by simp [histRow]) (by simp [histRow]) hb
      (ε := ε) (fun t ht => (hε t ht).2)
    simp only [ksgCTE, ksgCTELocal, cteInit_zero hlen hlen2, bind, Except.bind, teParams, ksgIdCheck_ok (cfg := ⟨kn, id, p⟩) hid, jitter1,
      ho, cteSpaces_ok]
    rw [key]
    simp only
    rw [meanOrNan_ok (by simp; omega), mean_map_div]
    rfl
  · have hn : (R : ℝ) ≠ 0 := by exact_mod_cast hR0.ne'
    have h1 : ksgCTE source dest (some cond) (teParams l k s) (.int c) (some (.int 0)) none ⟨kn, id, p⟩ none none none b =
        .ok ((ksgHead ⟨kn, id, p⟩ - psi R) / b.ln) := by
      simp only [ksgCTE, ksgCTELocal, cteInit_zero hlen hlen2, bind, Except.bind, teParams, ksgIdCheck_ok (cfg := ⟨kn, id, p⟩) hid,
        jitter1, ho, cteSpaces_ok]
      rw [ksgTECalc_large hR0 (by simp [R, m]) (by simp [R, m]) (by simp [R, m]) (by simp [R, m]) hR hb]
      simp only
      rw [meanOrNan_ok (by simp; omega)]
      unfold mean
      rw [List.sum_replicate, List.length_replicate, nsmul_eq_mul]
      congr 1
      field_simp
    refine ⟨_, h1, ?_⟩
    have hc := C62_k_too_large _ _ R H p kn hR b hb
    rcases hid with rfl | rfl
    · rw [hc.1]; simp [ksgHead]; ring_nf
    · rw [hc.2]; simp [ksgHead]; ring_nf

example := C63_cte_is_cmi [1, 0, 1, 1, 0] [0, 1, 0, 1, 1] [2, 2, 0, 0, 2] 2 1 1 1 (by decide) (by decide) (by decide) (by decide) (by decide) rfl rfl .inf rfl 2 (by decide) 1 (.inl rfl) (.num 2) (by norm_num [Base.Valid])

theorem C63_cte_bounds (source dest cond : List ℝ) (l k c s : Nat) (hs : 0 < s) (hl : 0 < l) (hk : 0 < k) (hc : 0 < c)
    (hm : max (max k l) c * s < source.length) (hlen : source.length = dest.length) (hlen2 : cond.length = dest.length)
    (p : PNorm) (hp : p.ok = true) (kn : Nat) (hkn : 0 < kn) (hR : kn < numRows dest.length (max (max k l) c) s) (b : Base)
    (hb : b.Std) :
    ∃ v, ksgCTE source dest (some cond) (teParams l k s) (.int c) (some (.int 0)) none ⟨kn, 1, p⟩ none none none b = .ok v ∧
      (psi kn - psi (numRows dest.length (max (max k l) c) s)) / b.ln ≤ v ∧
      v ≤ (psi kn + psi (numRows dest.length (max (max k l) c) s) - 2 * psi 1) / b.ln := by
  obtain ⟨H, v, h1, h2⟩ := C63_cte_is_cmi source dest cond l k c s hs hl hk hc hm hlen hlen2 p hp kn hkn 1 (.inl rfl) b hb.valid
  obtain ⟨w, g1, g2⟩ := (C62_bounds _ _ _ _ H p hp kn hkn hR b hb).1
  rw [h2] at g1
  cases g1
  exact ⟨v, h1, g2⟩

example := C63_cte_bounds [1, 0, 1, 1, 0] [0, 1, 0, 1, 1] [2, 2, 0, 0, 2] 2 1 1 1 (by decide) (by decide) (by decide) (by decide) (by decide) rfl rfl .inf rfl 2 (by decide) (by decide) (.num 2) (by norm_num [Base.Std])

/-- Errors of the conditional transfer entropy. -/
theorem C63_cte_argument_errors (source dest cond : List ℝ) (l k c s : Int) (cfg : KsgCfg) (hid : cfg.ksgId = 1 ∨ cfg.ksgId = 2)
    (nx ny nz : Option (Nat → ℝ)) (b : Base) :
    (source.length ≠ dest.length ∨ source.length ≠ cond.length →
      ksgCTE source dest (some cond) ⟨.int l, .int k, .int s⟩ (.int c) (some (.int 0)) none cfg nx ny nz b = .error .valueError) ∧
    ksgCTE source dest none ⟨.int l, .int k, .int s⟩ (.int c) (some (.int 0)) none cfg nx ny nz b = .error .valueError ∧
    (source.length = dest.length → cond.length = dest.length → (l ≤ 0 ∨ k ≤ 0 ∨ c ≤ 0 ∨ s ≤ 0) →
      ksgCTE source dest (some cond) ⟨.int l, .int k, .int s⟩ (.int c) (some (.int 0)) none cfg nx ny nz b = .error .valueError) := by
  refine ⟨?_, rfl, ?_⟩
  · intro h
    simp [ksgCTE, ksgCTELocal, cteInit, h, bind, Except.bind]
  · intro hlen hlen2 h
    have : [PyArg.int l, PyArg.int k, PyArg.int c, PyArg.int s].all PyArg.posInt = false := by
      simp [PyArg.posInt]; omega
    simp only [ksgCTE, ksgCTELocal, cteInit_zero hlen hlen2, ksgIdCheck_ok hid, bind, Except.bind, cteObservations, this, if_true]

/-- a case that satisfies the hypotheses: five samples, history one, two neighbours, four embedded rows -/
example : ∃ v, ksgTE [0, 1, 3, 2, 5] [1, 0, 4, 2, 3] (teParams 1 1 1) (some (.int 0)) none ⟨2, 1, .inf⟩ none none .e = .ok v := by
  obtain ⟨v, h, _⟩ := (C63_te_bounds [0, 1, 3, 2, 5] [1, 0, 4, 2, 3] 1 1 1 (by simp) (by simp) (by simp) (by simp) rfl .inf rfl 2
    (by simp) (by simp [numRows]) .e trivial {} lawful_none).1
  exact ⟨v, h⟩

end Verif
