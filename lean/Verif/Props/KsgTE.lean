import Verif.Props.KsgCMI2
import Verif.Props.KernelTE

/-!
# C63: KSG transfer entropy and conditional transfer entropy

`ksgTE source dest (teParams l k s) (some (.int 0)) none ⟨kn, id, p⟩ none none b` is `transfer_entropy(source, dest,
approach="ksg", src_hist_len=l, dest_hist_len=k, step_size=s, k=kn, ksg_id=id, minkowski_p=p, noise_level=0, base=b)`.
-/

namespace Verif

open Spec

theorem dists_of_sample {p : Option ℝ} {R : Nat} {h : Nat → List ℝ} {vars : List (List (List ℝ))}
    (hv : ∀ t < R, jointSample vars t = h t) {t s : Nat} (ht : t < R) (hs : s < R) :
    dists p ((List.range R).map h) t s = jointDists p vars t s := by
  unfold dists jointDists
  rw [range_map_getD ht, range_map_getD hs, hv t ht, hv s hs]

theorem jointDists_of_sample {p : Option ℝ} {R : Nat} {vars vars' : List (List (List ℝ))}
    (hv : ∀ t < R, jointSample vars t = jointSample vars' t) {t s : Nat} (ht : t < R) (hs : s < R) :
    jointDists p vars t s = jointDists p vars' t s := by
  unfold jointDists
  rw [hv t ht, hv s hs]

section
variable {R q l k c : Nat} {f g d z : Nat → List ℝ}

theorem te_dists_joint {p : PNorm} (hf : ∀ i, (f i).length = q) (hg : ∀ i, (g i).length = l) (hd : ∀ i, (d i).length = k)
    (hz : ∀ i, (z i).length = c) {t s : Nat} (ht : t < R) (hs : s < R) :
    dists p.order ((List.range R).map (fun i => g i ++ d i ++ f i ++ z i)) t s =
      jointDists p.order [(List.range R).map f, (List.range R).map g, (List.range R).map (fun i => d i ++ z i)] t s := by
  rw [dists_of_sample (vars := [rowsArr R l g, rowsArr R k d, rowsArr R q f, rowsArr R c z].map Arr.rows) ?_ ht hs]
  · have ha : Aligned R [rowsArr R l g, rowsArr R k d, rowsArr R q f, rowsArr R c z] := by
      intro a h
      simp only [List.mem_cons, List.not_mem_nil, or_false] at h
      rcases h with rfl | rfl | rfl | rfl
      exacts [rowsArr_aligned hg, rowsArr_aligned hd, rowsArr_aligned hf, rowsArr_aligned hz]
    rw [jointDists_perm ha (bs := [rowsArr R q f, rowsArr R l g, rowsArr R k d, rowsArr R c z]) ?_ ht hs]
    · refine jointDists_of_sample (fun u hu => ?_) ht hs
      simp [jointSample, rowsArr, List.getD_eq_getElem?_getD, hu]
    · exact (List.perm_middle (a := rowsArr R q f) (l₁ := [rowsArr R l g, rowsArr R k d]) (l₂ := [rowsArr R c z]))
  · intro u hu
    simp [jointSample, rowsArr, List.getD_eq_getElem?_getD, hu]

theorem te_dists_marginal1 {p : PNorm} {t s : Nat} (ht : t < R) (hs : s < R) :
    dists p.order ((List.range R).map (fun i => g i ++ d i ++ z i)) t s =
      jointDists p.order [(List.range R).map g, (List.range R).map (fun i => d i ++ z i)] t s := by
  refine dists_of_sample (fun u hu => ?_) ht hs
  simp [jointSample, List.getD_eq_getElem?_getD, hu]

theorem te_dists_marginal2 {p : PNorm} (hf : ∀ i, (f i).length = q) (hd : ∀ i, (d i).length = k)
    (hz : ∀ i, (z i).length = c) {t s : Nat} (ht : t < R) (hs : s < R) :
    dists p.order ((List.range R).map (fun i => d i ++ f i ++ z i)) t s =
      jointDists p.order [(List.range R).map f, (List.range R).map (fun i => d i ++ z i)] t s := by
  rw [dists_of_sample (vars := [rowsArr R k d, rowsArr R q f, rowsArr R c z].map Arr.rows) ?_ ht hs]
  · have ha : Aligned R [rowsArr R k d, rowsArr R q f, rowsArr R c z] := by
      intro a h
      simp only [List.mem_cons, List.not_mem_nil, or_false] at h
      rcases h with rfl | rfl | rfl
      exacts [rowsArr_aligned hd, rowsArr_aligned hf, rowsArr_aligned hz]
    rw [jointDists_perm ha (bs := [rowsArr R q f, rowsArr R k d, rowsArr R c z]) (List.Perm.swap _ _ _) ht hs]
    refine jointDists_of_sample (fun u hu => ?_) ht hs
    simp [jointSample, rowsArr, List.getD_eq_getElem?_getD, hu]
  · intro u hu
    simp [jointSample, rowsArr, List.getD_eq_getElem?_getD, hu]

theorem points_range {w : Nat} {h : Nat → List ℝ} (hh : ∀ i, (h i).length = w) : Points ((List.range R).map h) w := by
  intro x hx
  obtain ⟨i, _, rfl⟩ := List.mem_map.1 hx
  exact hh i

/-- local values on the embedded rows -/
theorem ksgTECalc_ok {cfg : KsgCfg} (hok : cfg.p.ok = true) (hk : 0 < cfg.k) (hkn : cfg.k < R) (hf : ∀ i, (f i).length = q)
    (hg : ∀ i, (g i).length = l) (hd : ∀ i, (d i).length = k) (hz : ∀ i, (z i).length = c) {b : Base} (hb : b.Valid)
    {ε : Nat → ℝ} (hε : ∀ t < R, IsKthDist R cfg.k t (jointDists cfg.p.order
      [(List.range R).map f, (List.range R).map g, (List.range R).map (fun i => d i ++ z i)] t) (ε t)) :
    ksgTECalc cfg b
      { joint := (List.range R).map (fun i => g i ++ d i ++ f i ++ z i)
        destPast := (List.range R).map (fun i => d i ++ z i)
        marginal1 := (List.range R).map (fun i => g i ++ d i ++ z i)
        marginal2 := (List.range R).map (fun i => d i ++ f i ++ z i) } =
      .ok ((List.range R).map (fun t => ksgCondVal cfg R [(List.range R).map f, (List.range R).map g]
        ((List.range R).map (fun i => d i ++ z i)) t (ε t) / b.ln)) := by
  unfold ksgTECalc
  rw [if_neg (by omega)]
  simp only [List.length_map, List.length_range]
  refine mapM_ok (List.range R) fun t ht => ?_
  have ht' := List.mem_range.1 ht
  have hP : Points ((List.range R).map (fun i => g i ++ d i ++ f i ++ z i)) (l + k + q + c) :=
    points_range (fun i => by simp [hf, hg, hd, hz]; omega)
  have hP1 : Points ((List.range R).map (fun i => g i ++ d i ++ z i)) (l + k + c) :=
    points_range (fun i => by simp [hg, hd, hz]; omega)
  have hP2 : Points ((List.range R).map (fun i => d i ++ f i ++ z i)) (k + q + c) :=
    points_range (fun i => by simp [hf, hd, hz]; omega)
  have hP3 : Points ((List.range R).map (fun i => d i ++ z i)) (k + c) := points_range (fun i => by simp [hd, hz])
  obtain ⟨e, h1, h2, h3⟩ := kthDist_isKth hok (by simp) hP ht' hk hkn
  have h3' := isKthDist_congr (fun s hs => te_dists_joint (p := cfg.p) hf hg hd hz ht' hs) h3
  have he := isKthDist_unique h3' (hε t ht')
  subst he
  unfold ksgTEAt
  simp only [h1, ksgLead_ok hk, bind, Except.bind]
  rw [ksgArg_some hok (by simp) hP1 ht' h2, ksgArg_some hok (by simp) hP2 ht' h2, ksgArg_some hok (by simp) hP3 ht' h2,
    npDigamma_nat _ (by omega), npDigamma_nat _ (by omega), npDigamma_nat _ (by omega)]
  simp only
  rw [scaleBase_ok hb]
  unfold ksgCondVal ksgHead
  have c1 := ksgCount_congr (id := cfg.ksgId) (t := t) (fun s hs => te_dists_marginal1 (g := g) (d := d) (z := z) (p := cfg.p) ht' hs) (ε t)
  have c2 := ksgCount_congr (id := cfg.ksgId) (t := t) (fun s hs => te_dists_marginal2 (p := cfg.p) hf hd hz ht' hs) (ε t)
  rw [c1, c2]
  simp only [List.map_cons, List.map_nil, List.sum_cons, List.sum_nil, add_zero]
  congr 2
  ring

end

/-- local values of the KSG transfer entropy -/
theorem ksgTELocal_val (source dest : List ℝ) (l k s : Nat) (hs : 0 < s) (hl : 0 < l) (hk : 0 < k)
    (hm : max k l * s < source.length) (hlen : source.length = dest.length) (cfg : KsgCfg) (hp : cfg.p.ok = true)
    (hid : cfg.ksgId = 1 ∨ cfg.ksgId = 2) (hkn : 0 < cfg.k) (hR : cfg.k < numRows dest.length (max k l) s) (b : Base)
    (hb : b.Valid) (rnd : SrcRandom) (hr : rnd.Lawful) :
    let R := numRows dest.length (max k l) s
    let F := futRows dest dest.length (max k l) s
    let G := (srcSel rnd R).map (histRow source (max k l) s l)
    let D := histRows dest dest.length (max k l) s k
    ∀ ε : Nat → ℝ, (∀ t < R, IsKthDist R cfg.k t (jointDists cfg.p.order [F, G, D] t) (ε t)) →
    ksgTELocal source dest (teParams l k s) (some (.int 0)) none cfg none none b rnd =
      .ok ((List.range R).map (fun t => ksgCondVal cfg R [F, G] D t (ε t) / b.ln)) := by
  intro R F G D ε hε
  have ho := teObservations_ok source dest l k s hs hl hk hm hlen hr
  rw [srcRows_eq _ _ _ _ _ hr, histRows, futRows] at ho
  simp only [ksgTELocal, teInit_zero hlen, bind, Except.bind, teParams, ksgIdCheck_ok hid, jitter1, ho, teSpaces_ok]
  have key := ksgTECalc_ok (R := R) (q := 1) (l := l) (k := k) (c := 0) hp hkn hR
    (f := fun i : Nat => [dest.getD ((max k l + i) * s) default])
    (g := fun i => histRow source (max k l) s l ((srcSel rnd R).getD i 0)) (d := histRow dest (max k l) s k)
    (z := fun _ => []) (by simp) (by simp [histRow]) (by simp [histRow]) (by simp) hb (ε := ε) (by
      intro t ht
      have := hε t ht
      simp only [List.append_nil]
      have e := srcRows_eq source (max k l) s l R hr
      simp only [G, F, D, futRows, histRows] at this
      rw [e] at this
      exact this)
  simp only [List.append_nil] at key
  rw [key, ← srcRows_eq _ _ _ _ _ hr]
  rfl

/-- **C63** Local values of the KSG transfer entropy, type I: the KSG conditional mutual information of the destination's
future and the source's history given the destination's history, for every embedding, norm and choice of source rows. -/
theorem C63_te_local (source dest : List ℝ) (l k s : Nat) (hs : 0 < s) (hl : 0 < l) (hk : 0 < k)
    (hm : max k l * s < source.length) (hlen : source.length = dest.length) (p : PNorm) (hp : p.ok = true) (kn : Nat)
    (hkn : 0 < kn) (hR : kn < numRows dest.length (max k l) s) (b : Base)
    (hb : b.Valid) (rnd : SrcRandom) (hr : rnd.Lawful) :
    let R := numRows dest.length (max k l) s
    let F := futRows dest dest.length (max k l) s
    let G := (srcSel rnd R).map (histRow source (max k l) s l)
    let D := histRows dest dest.length (max k l) s k
    ∀ ε : Nat → ℝ, (∀ t < R, IsKthDist R kn t (jointDists p.order [F, G, D] t) (ε t)) →
    ksgTELocal source dest (teParams l k s) (some (.int 0)) none ⟨kn, 1, p⟩ none none b rnd =
      .ok ((List.range R).map (fun t => ksgCondI p.order R kn [F, G] D t (ε t) / b.ln)) := by
  intro R F G D ε hε
  have := ksgTELocal_val source dest l k s hs hl hk hm hlen ⟨kn, 1, p⟩ hp (.inl rfl) hkn hR b hb rnd hr ε hε
  simp only [ksgCondVal_one (cfg := ⟨kn, 1, p⟩) rfl] at this
  exact this

example := C63_te_local [1, 0, 1, 1, 0] [0, 1, 0, 1, 1] 2 1 1 (by decide) (by decide) (by decide) (by decide) rfl .inf rfl 2 (by decide) (by decide) (.num 2) (by norm_num [Base.Valid]) {} lawful_none

/-- The same for type II. -/
theorem C63_te_local_type2 (source dest : List ℝ) (l k s : Nat) (hs : 0 < s) (hl : 0 < l) (hk : 0 < k)
    (hm : max k l * s < source.length) (hlen : source.length = dest.length) (p : PNorm) (hp : p.ok = true) (kn : Nat)
    (hkn : 0 < kn) (hR : kn < numRows dest.length (max k l) s) (b : Base)
    (hb : b.Valid) (rnd : SrcRandom) (hr : rnd.Lawful) :
    let R := numRows dest.length (max k l) s
    let F := futRows dest dest.length (max k l) s
    let G := (srcSel rnd R).map (histRow source (max k l) s l)
    let D := histRows dest dest.length (max k l) s k
    ∀ ε : Nat → ℝ, (∀ t < R, IsKthDist R kn t (jointDists p.order [F, G, D] t) (ε t)) →
    ksgTELocal source dest (teParams l k s) (some (.int 0)) none ⟨kn, 2, p⟩ none none b rnd =
      .ok ((List.range R).map (fun t => ksgCondII p.order R kn [F, G] D t (ε t) / b.ln)) := by
  intro R F G D ε hε
  have := ksgTELocal_val source dest l k s hs hl hk hm hlen ⟨kn, 2, p⟩ hp (.inr rfl) hkn hR b hb rnd hr ε hε
  simp only [ksgCondVal_two (cfg := ⟨kn, 2, p⟩) rfl] at this
  exact this

example := C63_te_local_type2 [1, 0, 1, 1, 0] [0, 1, 0, 1, 1] 2 1 1 (by decide) (by decide) (by decide) (by decide) rfl .inf rfl 2 (by decide) (by decide) (.num 2) (by norm_num [Base.Valid]) {} lawful_none

theorem ksgTECalc_large {cfg : KsgCfg} {R : Nat} (hR0 : 0 < R) {sp : TESpaces ℝ} (h1 : sp.joint.length = R)
    (h2 : sp.destPast.length = R) (h3 : sp.marginal1.length = R) (h4 : sp.marginal2.length = R) (hk : R ≤ cfg.k) {b : Base}
    (hb : b.Valid) : ksgTECalc cfg b sp = .ok (List.replicate R ((ksgHead cfg - psi R) / b.ln)) := by
  unfold ksgTECalc
  rw [if_neg (by omega), h1, show List.replicate R ((ksgHead cfg - psi R) / b.ln) =
    (List.range R).map (fun _ => (ksgHead cfg - psi R) / b.ln) by rw [List.map_const', List.length_range]]
  refine mapM_ok (List.range R) fun t ht => ?_
  unfold ksgTEAt
  rw [kthDist_none (by omega), ksgLead_ok (by omega)]
  simp only [bind, Except.bind, ksgArg_none, h2, h3, h4]
  rw [npDigamma_nat _ hR0]
  simp only
  rw [scaleBase_ok hb]
  unfold ksgHead
  congr 2
  ring

/-- **C63** Transfer entropy is the conditional mutual information estimate of the embedded samples, for every `k ≥ 1`. -/
theorem C63_te_is_cmi (source dest : List ℝ) (l k s : Nat) (hs : 0 < s) (hl : 0 < l) (hk : 0 < k)
    (hm : max k l * s < source.length) (hlen : source.length = dest.length) (p : PNorm) (hp : p.ok = true) (kn : Nat)
    (hkn : 0 < kn) (id : Int) (hid : id = 1 ∨ id = 2) (b : Base) (hb : b.Valid) (rnd : SrcRandom) (hr : rnd.Lawful) :
    let R := numRows dest.length (max k l) s
    let F := futRows dest dest.length (max k l) s
    let G := (srcSel rnd R).map (histRow source (max k l) s l)
    let D := histRows dest dest.length (max k l) s k
    CMIArgs [.two ⟨1, F⟩, .two ⟨l, G⟩] (.two ⟨k, D⟩) R ∧
    ∃ v, ksgTE source dest (teParams l k s) (some (.int 0)) none ⟨kn, id, p⟩ none none b rnd = .ok v ∧
      ksgCMI [.two ⟨1, F⟩, .two ⟨l, G⟩] (some (.two ⟨k, D⟩)) (some 0) false ⟨kn, id, p⟩ noNoise none b = .ok v := by
  intro R F G D
  have hR0 : 0 < R := numRows_pos hs (by omega)
  have H : CMIArgs [.two ⟨1, F⟩, .two ⟨l, G⟩] (.two ⟨k, D⟩) R := by
    refine ⟨by simp, hR0, ?_, ?_, by simp [KVar.len, D, histRows, R], ?_⟩
    · intro v hv
      simp only [List.mem_cons, List.not_mem_nil, or_false] at hv
      rcases hv with rfl | rfl
      · simp [KVar.len, F, futRows, R]
      · simp [KVar.len, G, srcSel_length hr R]
    · intro v hv
      simp only [List.mem_cons, List.not_mem_nil, or_false] at hv
      rcases hv with rfl | rfl
      · intro x hx
        obtain ⟨i, _, rfl⟩ := List.mem_map.1 hx
        rfl
      · intro x hx
        obtain ⟨i, _, rfl⟩ := List.mem_map.1 hx
        simp [histRow, assure2d]
    · intro x hx
      obtain ⟨i, _, rfl⟩ := List.mem_map.1 hx
      simp [histRow, assure2d]
  refine ⟨H, ?_⟩
  rcases Nat.lt_or_ge kn R with hR | hR
  · obtain ⟨ε, hε⟩ := exists_kth_cond H hp hkn hR
    refine ⟨_, ?_, ksgCMI_val _ _ R H ⟨kn, id, p⟩ hp hid hkn hR b hb ε (fun t ht => (hε t ht).2)⟩
    unfold ksgTE
    rw [ksgTELocal_val source dest l k s hs hl hk hm hlen ⟨kn, id, p⟩ hp hid hkn hR b hb rnd hr ε (fun t ht => (hε t ht).2)]
    simp only [bind, Except.bind]
    rw [meanOrNan_ok (by simp; omega), mean_map_div]
    rfl
  · have hn : (R : ℝ) ≠ 0 := by exact_mod_cast hR0.ne'
    have h1 : ksgTE source dest (teParams l k s) (some (.int 0)) none ⟨kn, id, p⟩ none none b rnd =
        .ok ((ksgHead ⟨kn, id, p⟩ - psi R) / b.ln) := by
      have ho := teObservations_ok source dest l k s hs hl hk hm hlen hr
      rw [srcRows_eq _ _ _ _ _ hr, histRows, futRows] at ho
      simp only [ksgTE, ksgTELocal, teInit_zero hlen, bind, Except.bind, teParams, ksgIdCheck_ok (cfg := ⟨kn, id, p⟩) hid, jitter1, ho, teSpaces_ok]
      rw [ksgTECalc_large hR0 (by simp [R]) (by simp [R]) (by simp [R]) (by simp [R]) hR hb]
      simp only
      rw [meanOrNan_ok (by simp; omega)]
      unfold mean
      rw [List.sum_replicate, List.length_replicate, nsmul_eq_mul]
      congr 1
      field_simp
    refine ⟨_, h1, ?_⟩
    have hc := C62_k_too_large _ _ R H p kn hR b hb
    rcases hid with rfl | rfl
    · rw [hc.1]; simp [ksgHead]; ring_nf
    · rw [hc.2]; simp [ksgHead]; ring_nf

example := C63_te_is_cmi [1, 0, 1, 1, 0] [0, 1, 0, 1, 1] 2 1 1 (by decide) (by decide) (by decide) (by decide) rfl .inf rfl 2 (by decide) 1 (.inl rfl) (.num 2) (by norm_num [Base.Valid]) {} lawful_none

/-- The result is a finite number between `ψ(k) − ψ(R)` and `ψ(k) + ψ(R) − 2 ψ(1)` (type II: both `1/k` less), `R` the number of
embedded rows. -/
theorem C63_te_bounds (source dest : List ℝ) (l k s : Nat) (hs : 0 < s) (hl : 0 < l) (hk : 0 < k)
    (hm : max k l * s < source.length) (hlen : source.length = dest.length) (p : PNorm) (hp : p.ok = true) (kn : Nat)
    (hkn : 0 < kn) (hR : kn < numRows dest.length (max k l) s) (b : Base) (hb : b.Std) (rnd : SrcRandom) (hr : rnd.Lawful) :
    (∃ v, ksgTE source dest (teParams l k s) (some (.int 0)) none ⟨kn, 1, p⟩ none none b rnd = .ok v ∧
      (psi kn - psi (numRows dest.length (max k l) s)) / b.ln ≤ v ∧
      v ≤ (psi kn + psi (numRows dest.length (max k l) s) - 2 * psi 1) / b.ln) ∧
    (∃ v, ksgTE source dest (teParams l k s) (some (.int 0)) none ⟨kn, 2, p⟩ none none b rnd = .ok v ∧
      (psi kn - 1 / kn - psi (numRows dest.length (max k l) s)) / b.ln ≤ v ∧
      v ≤ (psi kn - 1 / kn + psi (numRows dest.length (max k l) s) - 2 * psi 1) / b.ln) := by
  constructor
  · obtain ⟨H, v, h1, h2⟩ := C63_te_is_cmi source dest l k s hs hl hk hm hlen p hp kn hkn 1 (.inl rfl) b hb.valid rnd hr
    obtain ⟨w, g1, g2⟩ := (C62_bounds _ _ _ _ H p hp kn hkn hR b hb).1
    rw [h2] at g1
    cases g1
    exact ⟨v, h1, g2⟩
  · obtain ⟨H, v, h1, h2⟩ := C63_te_is_cmi source dest l k s hs hl hk hm hlen p hp kn hkn 2 (.inr rfl) b hb.valid rnd hr
    obtain ⟨w, g1, g2⟩ := (C62_bounds _ _ _ _ H p hp kn hkn hR b hb).2
    rw [h2] at g1
    cases g1
    exact ⟨v, h1, g2⟩

example := C63_te_bounds [1, 0, 1, 1, 0] [0, 1, 0, 1, 1] 2 1 1 (by decide) (by decide) (by decide) (by decide) rfl .inf rfl 2 (by decide) (by decide) (.num 2) (by norm_num [Base.Std]) {} lawful_none

/-- With `k` at least the number of embedded rows the result does not depend on the series. -/
theorem C63_te_k_too_large (source dest : List ℝ) (l k s : Nat) (hs : 0 < s) (hl : 0 < l) (hk : 0 < k)
    (hm : max k l * s < source.length) (hlen : source.length = dest.length) (p : PNorm) (hp : p.ok = true) (kn : Nat)
    (hR : numRows dest.length (max k l) s ≤ kn) (b : Base) (hb : b.Valid) (rnd : SrcRandom) (hr : rnd.Lawful) :
    ksgTE source dest (teParams l k s) (some (.int 0)) none ⟨kn, 1, p⟩ none none b rnd =
      .ok ((psi kn - psi (numRows dest.length (max k l) s)) / b.ln) ∧
    ksgTE source dest (teParams l k s) (some (.int 0)) none ⟨kn, 2, p⟩ none none b rnd =
      .ok ((psi kn - 1 / kn - psi (numRows dest.length (max k l) s)) / b.ln) := by
  have hkn : 0 < kn := lt_of_lt_of_le (numRows_pos hs (by omega)) hR
  constructor
  · obtain ⟨H, v, h1, h2⟩ := C63_te_is_cmi source dest l k s hs hl hk hm hlen p hp kn hkn 1 (.inl rfl) b hb rnd hr
    rw [(C62_k_too_large _ _ _ H p kn hR b hb).1] at h2
    rw [h1, ← h2]
    simp; ring_nf
  · obtain ⟨H, v, h1, h2⟩ := C63_te_is_cmi source dest l k s hs hl hk hm hlen p hp kn hkn 2 (.inr rfl) b hb rnd hr
    rw [(C62_k_too_large _ _ _ H p kn hR b hb).2] at h2
    rw [h1, ← h2]
    simp; ring_nf

example := C63_te_k_too_large [1, 0, 1, 1, 0] [0, 1, 0, 1, 1] 2 1 1 (by decide) (by decide) (by decide) (by decide) rfl .inf rfl 4 (by decide) (.num 2) (by norm_num [Base.Valid]) {} lawful_none

/-- Errors: different lengths, parameters that are not positive, and series too short for the embedding are ValueErrors, for all
settings of `k`, the norm and the noise. -/
theorem C63_argument_errors (source dest : List ℝ) (l k s : Int) (cfg : KsgCfg) (hid : cfg.ksgId = 1 ∨ cfg.ksgId = 2)
    (nx ny : Option (Nat → ℝ)) (b : Base) (rnd : SrcRandom) :
    (source.length ≠ dest.length →
      ksgTE source dest ⟨.int l, .int k, .int s⟩ (some (.int 0)) none cfg nx ny b rnd = .error .valueError) ∧
    (source.length = dest.length → (l ≤ 0 ∨ k ≤ 0 ∨ s ≤ 0) →
      ksgTE source dest ⟨.int l, .int k, .int s⟩ (some (.int 0)) none cfg nx ny b rnd = .error .valueError) ∧
    (source.length = dest.length → (source.length : Int) ≤ max k l * s →
      ksgTE source dest ⟨.int l, .int k, .int s⟩ (some (.int 0)) none cfg nx ny b rnd = .error .valueError) := by
  have hj : ∀ (e : Option (Nat → ℝ)) (xs : List ℝ), (jitter1 e xs).length = xs.length := by
    intro e xs; cases e <;> simp [jitter1]
  refine ⟨?_, ?_, ?_⟩
  · intro h
    simp [ksgTE, ksgTELocal, teInit, h, bind, Except.bind]
  · intro hlen h
    have : [PyArg.int l, PyArg.int k, PyArg.int s].all PyArg.posInt = false := by
      simp [PyArg.posInt]; omega
    simp only [ksgTE, ksgTELocal, teInit_zero hlen, ksgIdCheck_ok hid, bind, Except.bind, teObservations, this, if_true]
  · intro hlen h
    by_cases hp : [PyArg.int l, PyArg.int k, PyArg.int s].all PyArg.posInt = false
    · simp only [ksgTE, ksgTELocal, teInit_zero hlen, ksgIdCheck_ok hid, bind, Except.bind, teObservations, hp, if_true]
    · simp only [ksgTE, ksgTELocal, teInit_zero hlen, ksgIdCheck_ok hid, bind, Except.bind, teObservations, hp, if_false, PyArg.val,
        hj, h, if_true]
      simp

example := (C63_argument_errors [1, 0, 1, 1] [0, 1, 0, 1, 1] 1 1 1 ⟨2, 1, .inf⟩ (.inl rfl) none none .e {}).1 (by simp)
example := (C63_argument_errors [1, 0, 1, 1] [0, 1, 0, 1] 1 (-1) 1 ⟨2, 1, .inf⟩ (.inl rfl) none none .e {}).2.1 rfl (by simp)
example := (C63_argument_errors [1, 0, 1, 1] [0, 1, 0, 1] 2 1 2 ⟨2, 1, .inf⟩ (.inl rfl) none none .e {}).2.2 rfl (by simp)

/-- `k = 0` is an IndexError, `ksg_id` other than 1 and 2 a ValueError. -/
theorem C63_bad_parameters (source dest : List ℝ) (l k s : Nat) (hs : 0 < s) (hl : 0 < l) (hk : 0 < k)
    (hm : max k l * s < source.length) (hlen : source.length = dest.length) (p : PNorm) (kn : Nat) (id : Int) (b : Base)
    (rnd : SrcRandom) (hr : rnd.Lawful) :
    ((id = 1 ∨ id = 2) →
      ksgTE source dest (teParams l k s) (some (.int 0)) none ⟨0, id, p⟩ none none b rnd = .error .indexError) ∧
    (¬ (id = 1 ∨ id = 2) →
      ksgTE source dest (teParams l k s) (some (.int 0)) none ⟨kn, id, p⟩ none none b rnd = .error .valueError) := by
  constructor
  · intro hid
    have ho := teObservations_ok source dest l k s hs hl hk hm hlen hr
    rw [srcRows_eq _ _ _ _ _ hr, histRows, futRows] at ho
    simp only [ksgTE, ksgTELocal, teInit_zero hlen, bind, Except.bind, teParams, ksgIdCheck_ok (cfg := ⟨0, id, p⟩) hid, jitter1, ho,
      teSpaces_ok, ksgTECalc, if_true]
  · intro hid
    simp only [ksgTE, ksgTELocal, teInit_zero hlen, bind, Except.bind, ksgIdCheck, if_neg hid]

example := (C63_bad_parameters [1, 0, 1, 1, 0] [0, 1, 0, 1, 1] 2 1 1 (by decide) (by decide) (by decide) (by decide) rfl .inf 2 1 .e {} lawful_none).1 (.inl rfl)
example := (C63_bad_parameters [1, 0, 1, 1, 0] [0, 1, 0, 1, 1] 2 1 1 (by decide) (by decide) (by decide) (by decide) rfl .inf 2 7 .e {} lawful_none).2 (by simp)

/-- The noise only enters through the series. -/
theorem C63_noise (source dest : List ℝ) (hlen : source.length = dest.length) (p : TEParams) (cfg : KsgCfg)
    (nx ny : Option (Nat → ℝ)) (b : Base) (rnd : SrcRandom) :
    ksgTE source dest p (some (.int 0)) none cfg nx ny b rnd =
      ksgTE (jitter1 nx source) (jitter1 ny dest) p (some (.int 0)) none cfg none none b rnd := by
  have hj : ∀ (e : Option (Nat → ℝ)) (xs : List ℝ), (jitter1 e xs).length = xs.length := by
    intro e xs; cases e <;> simp [jitter1]
  unfold ksgTE ksgTELocal
  rw [teInit_zero hlen, teInit_zero (by rw [hj, hj, hlen])]
  rfl

example := C63_noise [1, 0, 1, 1, 0] [0, 1, 0, 1, 1] rfl (teParams 2 1 1) ⟨2, 1, .inf⟩ (some (fun i => i)) none .e {}

end Verif
