import Verif.Props.ExpMI

/-!
# C65 continued: conditional mutual information

`expCMI renyiVal data (some z) (some 0) false k order noNoise none b` is `conditional_mutual_information(*data, cond=z,
approach="renyi", k=k, alpha=order, noise_level=0, base=b)`.
-/

namespace Verif

open Spec

/-- at least two variables and a condition with `n` samples each -/
structure CMISamples (data : List KVar) (z : KVar) (n : Nat) : Prop where
  mi : MISamples data n
  cond : z.Sample n

theorem CMISamples.args {data : List KVar} {z : KVar} {n : Nat} (H : CMISamples data z n) : CMIArgs data z n :=
  ⟨H.mi.two, H.mi.pos, H.mi.args.len, H.mi.args.wf, H.cond.len, H.cond.wf⟩

theorem CMISamples.pair {data : List KVar} {z : KVar} {n : Nat} (H : CMISamples data z n) {v : KVar} (hv : v ∈ data) :
    ∀ w ∈ [v, z], w.Sample n := by
  intro w hw
  simp only [List.mem_cons, List.not_mem_nil, or_false] at hw
  rcases hw with rfl | rfl
  exacts [H.mi.sample _ hv, H.cond]

theorem CMISamples.all {data : List KVar} {z : KVar} {n : Nat} (H : CMISamples data z n) : ∀ w ∈ data ++ [z], w.Sample n := by
  intro w hw
  simp only [List.mem_append, List.mem_cons, List.not_mem_nil, or_false] at hw
  rcases hw with hw | rfl
  exacts [H.mi.sample _ hw, H.cond]

theorem expCMI_eq {data : List KVar} {z : KVar} {n : Nat} (H : CMISamples data z n) (val : ExpVal) (k order : PyArg) (b : Base)
    {o : Option Int} (hoff : o = some 0 ∨ o = none) :
    expCMI val data (some z) o false k order noNoise none b = entropyCMI (fun a => expEntropy val a k order b) data z := by
  unfold expCMI
  rw [kcmiInit_args H.args hoff]
  simp only [bind, Except.bind, mapIdx_noisyVar]
  have he : order.posNumber = none ∨ k.posInt = false → (Except.error Exc.valueError : Except Exc ℝ) =
      entropyCMI (fun a => expEntropy val a k order b) data z := by
    intro h
    cases hd : data with
    | nil => exact absurd hd H.mi.ne
    | cons v vs => simp only [entropyCMI, List.mapM_cons, expInit_other h, bind, Except.bind]
  cases ho : order.posNumber with
  | none => rw [expParams_error (.inl ho)]; exact he (.inl ho)
  | some q =>
    cases hk : k.posInt with
    | false => rw [expParams_error (.inr hk)]; exact he (.inr hk)
    | true => rw [expParams_ok hk ho]; rfl

/-- **C65** Conditional mutual information: the sum of the entropies of (variable, condition) less the entropy of all variables with
the condition less the entropy of the condition. -/
theorem C65_cmi (val : ExpVal) (data : List KVar) (z : KVar) (n : Nat) (H : CMISamples data z n) (k order : PyArg) (b : Base)
    (h : KVar → ℝ) (hj hz : ℝ) (h1 : ∀ v ∈ data, expEntropy val [.tup [v, z]] k order b = .ok (h v))
    (h2 : expEntropy val [.tup (data ++ [z])] k order b = .ok hj) (h3 : expEntropy val [.arr z] k order b = .ok hz) :
    expCMI val data (some z) (some 0) false k order noNoise none b = .ok ((data.map h).sum - hj - hz) := by
  rw [expCMI_eq H val k order b (.inl rfl)]
  unfold entropyCMI
  rw [mapM_ok data h1]
  simp only [bind, Except.bind, h2, h3]
  rfl

theorem cmiSamples_example : CMISamples [.one [0, 3], .one [0, 4]] (.one [0, 1]) 2 :=
  ⟨miSamples_example, rfl, KVar.wf_one _, Nat.one_pos⟩

theorem cmiSamples_example_kth : ∀ t < 2, ∀ ε, IsKthDist 2 1 t (dists (some 2) (KVar.one [0, 1]).samples t) ε → 0 < ε := by
  intro t ht ε hε
  rw [two_kth ht hε]
  interval_cases t <;> simp [dists, KVar.samples, assure2d, line_distance]

theorem expCMI_parts {val : ExpVal} (hval : val = renyiVal ∨ val = tsallisVal) {data : List KVar} {z : KVar} {n : Nat}
    (H : CMISamples data z n) {k : Nat} (hk : 0 < k) (hkn : k < n) {order : PyArg} {q : ℝ} (ho : order.posNumber = some q)
    (hq : q < k + 1) {b : Base} (hb : b.Valid) :
    ∃ (h : KVar → ℝ) (hj hz : ℝ), (∀ v ∈ data, expEntropy val [.tup [v, z]] (.int k) order b = .ok (h v)) ∧
      expEntropy val [.tup (data ++ [z])] (.int k) order b = .ok hj ∧ expEntropy val [.arr z] (.int k) order b = .ok hz := by
  have h1 : ∀ v, v ∈ data → ∃ h, expEntropy val [.tup [v, z]] (.int k) order b = .ok h := fun v hv => by
    obtain ⟨h, hh⟩ := expEntropy_finite hval (sideBySide_sample (by simp) (H.pair hv)).1 hk hkn ho hq hb
    exact ⟨h, (expEntropy_joint (by simp) (H.pair hv) val _ _ b).trans hh⟩
  choose! h hh using h1
  obtain ⟨hj, hhj⟩ := expEntropy_finite hval (sideBySide_sample (by simp) H.all).1 hk hkn ho hq hb
  obtain ⟨hz, hhz⟩ := expEntropy_finite hval H.cond hk hkn ho hq hb
  exact ⟨h, hj, hz, hh, (expEntropy_joint (by simp) H.all val _ _ b).trans hhj, hhz⟩

/-- Conditional mutual information of order `q < k + 1` with `k < n` always exists. -/
theorem C65_cmi_finite (val : ExpVal) (hval : val = renyiVal ∨ val = tsallisVal) (data : List KVar) (z : KVar) (n : Nat)
    (H : CMISamples data z n) (k : Nat) (hk : 0 < k) (hkn : k < n) (order : PyArg) (q : ℝ) (ho : order.posNumber = some q)
    (hq : q < k + 1) (b : Base) (hb : b.Valid) :
    ∃ v, expCMI val data (some z) (some 0) false (.int k) order noNoise none b = .ok v := by
  obtain ⟨h, hj, hz, h1, h2, h3⟩ := expCMI_parts hval H hk hkn ho hq hb
  exact ⟨_, C65_cmi val data z n H _ _ b h hj hz h1 h2 h3⟩

example := C65_cmi_finite tsallisVal (.inr rfl) [.one [0, 3], .one [0, 4]] (.one [0, 1]) 2 cmiSamples_example 1 (by decide) (by decide)
  (.num (3 / 2)) (3 / 2) (by simp [PyArg.posNumber]) (by norm_num) (.num 2) (by norm_num [Base.Valid])

/-- **C65** The order of the variables does not matter. -/
theorem C65_cmi_order (val : ExpVal) (hval : val = renyiVal ∨ val = tsallisVal) (data data' : List KVar) (hp : data.Perm data') (z : KVar)
    (n : Nat) (H : CMISamples data z n) (k : Nat) (hk : 0 < k) (hkn : k < n) (order : PyArg) (q : ℝ) (ho : order.posNumber = some q)
    (hq : q < k + 1) (b : Base) (hb : b.Valid) :
    ∃ v, expCMI val data (some z) (some 0) false (.int k) order noNoise none b = .ok v ∧
      expCMI val data' (some z) (some 0) false (.int k) order noNoise none b = .ok v := by
  have H' : CMISamples data' z n :=
    ⟨⟨by rw [← hp.length_eq]; exact H.mi.two, H.mi.pos, fun v hv => H.mi.sample v (hp.mem_iff.2 hv)⟩, H.cond⟩
  obtain ⟨h, hj, hz, h1, h2, h3⟩ := expCMI_parts hval H hk hkn ho hq hb
  refine ⟨_, C65_cmi val data z n H _ _ b h hj hz h1 h2 h3, ?_⟩
  rw [C65_cmi val data' z n H' _ _ b h hj hz (fun v hv => h1 v (hp.mem_iff.2 hv))
    ((expEntropy_joint_perm (hp.append_right [z]) H.all val _ _ b).symm.trans h2) h3, (hp.map h).sum_eq]

example := C65_cmi_order tsallisVal (.inr rfl) [.one [0, 3], .one [0, 4]] [.one [0, 4], .one [0, 3]] (List.Perm.swap _ _ _) (.one [0, 1]) 2
  cmiSamples_example 1 (by decide) (by decide) (.num (3 / 2)) (3 / 2) (by simp [PyArg.posNumber]) (by norm_num) (.num 2)
  (by norm_num [Base.Valid])

/-- the same combination of entropies on other variables -/
theorem entropyCMI_map {Hf Hg : List KArg → Except Exc ℝ} {α : Type} {L : List α} {f g : α → KVar} {z z' : KVar}
    (h : ∀ q ∈ L, Hf [.tup [f q, z]] = Hg [.tup [g q, z']]) (hj : Hf [.tup (L.map f ++ [z])] = Hg [.tup (L.map g ++ [z'])])
    (hz : Hf [.arr z] = Hg [.arr z']) : entropyCMI Hf (L.map f) z = entropyCMI Hg (L.map g) z' := by
  have : (L.map f).mapM (fun v => Hf [.tup [v, z]]) = (L.map g).mapM (fun v => Hg [.tup [v, z']]) := by
    rw [List.mapM_map, List.mapM_map]
    clear hj
    induction L with
    | nil => rfl
    | cons q L ih =>
      simp only [List.mapM_cons]
      rw [show ((fun v => Hf [KArg.tup [v, z]]) ∘ f) q = ((fun v => Hg [KArg.tup [v, z']]) ∘ g) q from h q (by simp),
        ih fun r hr => h r (by simp [hr])]
  unfold entropyCMI
  rw [this, hj, hz]

/-- **C65** Reordering the samples of all variables and the condition alike does not matter. -/
theorem C65_cmi_sample_order (val : ExpVal) (hval : val = renyiVal ∨ val = tsallisVal) (data : List KVar) (z : KVar) (n : Nat)
    (H : CMISamples data z n) (σ : List Nat) (hσ : σ.Perm (List.range n)) (k order : PyArg) (b : Base) (hb : b.Valid) :
    expCMI val (data.map (KVar.reorder σ)) (some (z.reorder σ)) (some 0) false k order noNoise none b =
      expCMI val data (some z) (some 0) false k order noNoise none b := by
  have H' : CMISamples (data.map (KVar.reorder σ)) (z.reorder σ) n := by
    refine ⟨⟨by simpa using H.mi.two, H.mi.pos, fun v hv => ?_⟩, (reorder_sample H.cond hσ).1⟩
    obtain ⟨u, hu, rfl⟩ := List.mem_map.1 hv
    exact (reorder_sample (H.mi.sample u hu) hσ).1
  rw [expCMI_eq H _ _ _ _ (.inl rfl), expCMI_eq H' _ _ _ _ (.inl rfl)]
  have := entropyCMI_map (Hf := fun a => expEntropy val a k order b) (Hg := fun a => expEntropy val a k order b) (L := data)
    (f := KVar.reorder σ) (g := id) (z := z.reorder σ) (z' := z)
    (fun v hv => expEntropy_joint_reorder (vs := [v, z]) (by simp) (H.pair hv) hσ (expVal_symmetric hval) k order hb) (by
      have := expEntropy_joint_reorder (vs := data ++ [z]) (by simp) H.all hσ (expVal_symmetric hval) k order hb
      rw [List.map_append] at this
      rw [List.map_id]
      exact this)
    (expEntropy_reorder H.cond hσ (expVal_symmetric hval) k order hb)
  rwa [List.map_id] at this

example := C65_cmi_sample_order renyiVal (.inl rfl) [.one [0, 3], .one [0, 4]] (.one [0, 1]) 2 cmiSamples_example [1, 0] (by decide) (.int 1)
  (.int 1) (.num 2) (by norm_num [Base.Valid])

theorem CMISamples.affine {L : List (KVar × (Nat → ℝ))} {z : KVar} {n : Nat} (H : CMISamples (L.map Prod.fst) z n) (c : ℝ) (oz : Nat → ℝ) :
    CMISamples (L.map (fun q => q.1.affine c q.2)) (z.affine c oz) n :=
  ⟨⟨by simpa using H.mi.two, H.mi.pos, affine_samples_all (fun q hq => H.mi.sample _ (List.mem_map.2 ⟨q, hq, rfl⟩)) c⟩,
    (Sample.affine H.cond c oz).1⟩

/-- **C65** Shifting every column of every variable and of the condition changes nothing. -/
theorem C65_cmi_shift (val : ExpVal) (L : List (KVar × (Nat → ℝ))) (z : KVar) (oz : Nat → ℝ) (n : Nat)
    (H : CMISamples (L.map Prod.fst) z n) (k order : PyArg) (b : Base) :
    expCMI val (L.map (fun q => q.1.affine 1 q.2)) (some (z.affine 1 oz)) (some 0) false k order noNoise none b =
      expCMI val (L.map Prod.fst) (some z) (some 0) false k order noNoise none b := by
  have hs : ∀ q ∈ L, q.1.Sample n := fun q hq => H.mi.sample _ (List.mem_map.2 ⟨q, hq, rfl⟩)
  have hall : ∀ q ∈ L ++ [(z, oz)], q.1.Sample n := by
    intro q hq
    simp only [List.mem_append, List.mem_cons, List.not_mem_nil, or_false] at hq
    rcases hq with hq | rfl
    exacts [hs q hq, H.cond]
  have key : ∀ M : List (KVar × (Nat → ℝ)), M ≠ [] → (∀ q ∈ M, q.1.Sample n) →
      expEntropy val [.tup (M.map (fun q => q.1.affine 1 q.2))] k order b = expEntropy val [.tup (M.map Prod.fst)] k order b := by
    intro M hM hMs
    refine expEntropy_joint_congr (by simpa using hM) (by simpa using hM) (affine_samples_all hMs 1) (fun v hv => ?_) (by rw [affine_dims])
      (fun t ht s hs' => ?_) val k order b
    · obtain ⟨q, hq, rfl⟩ := List.mem_map.1 hv
      exact hMs q hq
    · rw [jointDists_affine_two hMs one_ne_zero ht hs', abs_one, one_mul]
  rw [expCMI_eq H _ _ _ _ (.inl rfl), expCMI_eq (H.affine 1 oz) _ _ _ _ (.inl rfl)]
  refine entropyCMI_map (fun q hq => ?_) ?_ ?_
  · exact key [q, (z, oz)] (by simp) (by
      intro r hr
      simp only [List.mem_cons, List.not_mem_nil, or_false] at hr
      rcases hr with rfl | rfl
      exacts [hs _ hq, H.cond])
  · have := key (L ++ [(z, oz)]) (by simp) hall
    simpa using this
  · obtain ⟨h1, h2⟩ := Sample.affine H.cond 1 oz
    refine expEntropy_congr h1 H.cond h2 (fun t ht s hs' => ?_) val k order b
    have := dists_affine (p := .num 2) H.cond (by simp [PNorm.ok]) 1 one_ne_zero oz ht hs'
    rw [abs_one, one_mul] at this
    exact this

example := C65_cmi_shift renyiVal [(.one [0, 3], fun _ => 7), (.one [0, 4], fun _ => -1)] (.one [0, 1]) (fun _ => 2) 2 cmiSamples_example
  (.int 1) (.int 1) .e

/-- **C65** Scaling all variables and the condition by the same factor changes the Rényi conditional mutual information of `m`
variables by `(m − 2) · d_Z · log|c|`: nothing for two variables, but not invariant for three or more (the estimator subtracts the
entropy of the condition once, not `m − 1` times). -/
theorem C65_cmi_renyi_scale (L : List (KVar × (Nat → ℝ))) (z : KVar) (oz : Nat → ℝ) (n : Nat) (H : CMISamples (L.map Prod.fst) z n)
    (c : ℝ) (hc : c ≠ 0) (k : Nat) (hk : 0 < k) (hkn : k < n) (order : PyArg) (q : ℝ) (ho : order.posNumber = some q) (hq : q < k + 1)
    (b : Base) (hb : b.Valid) (hpos : ∀ t < n, ∀ ε, IsKthDist n k t (dists (some 2) z.samples t) ε → 0 < ε) :
    ∃ v, expCMI renyiVal (L.map Prod.fst) (some z) (some 0) false (.int k) order noNoise none b = .ok v ∧
      expCMI renyiVal (L.map (fun q => q.1.affine c q.2)) (some (z.affine c oz)) (some 0) false (.int k) order noNoise none b =
        .ok (v + ((L.length : ℝ) - 2) * z.dim * Real.log |c| / b.ln) := by
  have hc' : 0 < |c| := abs_pos.2 hc
  have hs : ∀ q ∈ L, q.1.Sample n := fun q hq => H.mi.sample _ (List.mem_map.2 ⟨q, hq, rfl⟩)
  have key : ∀ M : List (KVar × (Nat → ℝ)), (∀ q ∈ M, q.1.Sample n) → (z, oz) ∈ M →
      ∃ h, expEntropy renyiVal [.tup (M.map Prod.fst)] (.int k) order b = .ok h ∧
        expEntropy renyiVal [.tup (M.map (fun q => q.1.affine c q.2))] (.int k) order b =
          .ok (h + ((M.map (fun q => q.1.dim)).sum : ℕ) * (Real.log |c| / b.ln)) := by
    intro M hM hz
    have hne : M ≠ [] := List.ne_nil_of_mem hz
    have s1 : ∀ v ∈ M.map Prod.fst, v.Sample n := by
      intro v hv
      obtain ⟨r, hr, rfl⟩ := List.mem_map.1 hv
      exact hM r hr
    have s2 := affine_samples_all hM c
    obtain ⟨j1, e1⟩ := sideBySide_sample (by simpa using hne) s1
    obtain ⟨j2, e2⟩ := sideBySide_sample (by simpa using hne) s2
    have hzm : z ∈ M.map Prod.fst := List.mem_map.2 ⟨_, hz, rfl⟩
    obtain ⟨h, g1, g2⟩ := renyi_scaled j1 j2 (by rw [e1, e2, affine_dims]) hc' (fun t ht s hs' => by
      rw [sideBySide_dists ht hs', sideBySide_dists ht hs', jointDists_affine_two hM hc ht hs']) hk hkn ho hq hb (fun t ht ε hε =>
      joint_kth_pos s1 hzm hpos hk hkn t ht ε (isKthDist_congr (fun s hs' => sideBySide_dists ht hs' _) hε))
    refine ⟨h, (expEntropy_joint (by simpa using hne) s1 renyiVal _ _ b).trans g1,
      (expEntropy_joint (by simpa using hne) s2 renyiVal _ _ b).trans ?_⟩
    rw [g2, e1, List.map_map]
    rfl
  have h1 : ∀ r, r ∈ L → ∃ h, expEntropy renyiVal [.tup [r.1, z]] (.int k) order b = .ok h ∧
      expEntropy renyiVal [.tup [r.1.affine c r.2, z.affine c oz]] (.int k) order b =
        .ok (h + (r.1.dim + z.dim) * (Real.log |c| / b.ln)) := fun r hr => by
    have := key [r, (z, oz)] (by
      intro q hq
      simp only [List.mem_cons, List.not_mem_nil, or_false] at hq
      rcases hq with rfl | rfl
      exacts [hs _ hr, H.cond]) (by simp)
    simpa using this
  choose! h hh using h1
  obtain ⟨hj, g1, g2⟩ := key (L ++ [(z, oz)]) (by
    intro q hq
    simp only [List.mem_append, List.mem_cons, List.not_mem_nil, or_false] at hq
    rcases hq with hq | rfl
    exacts [hs q hq, H.cond]) (by simp)
  obtain ⟨z1, z2⟩ := Sample.affine H.cond c oz
  obtain ⟨hz, k1, k2⟩ := renyi_scaled H.cond z1 z2 hc' (fun t ht s hs' =>
    dists_affine (p := .num 2) H.cond (by simp [PNorm.ok]) c hc oz ht hs') hk hkn ho hq hb hpos
  have hfin : ∀ f : KVar × (Nat → ℝ) → KVar, ∀ g : KVar × (Nat → ℝ) → ℝ, ∀ z' hj hz,
      (∀ r ∈ L, expEntropy renyiVal [.tup [f r, z']] (.int k) order b = .ok (g r)) →
      expEntropy renyiVal [.tup (L.map f ++ [z'])] (.int k) order b = .ok hj → expEntropy renyiVal [.arr z'] (.int k) order b = .ok hz →
      entropyCMI (fun a => expEntropy renyiVal a (.int k) order b) (L.map f) z' = .ok ((L.map g).sum - hj - hz) := by
    intro f g z' hj hz a1 a2 a3
    unfold entropyCMI
    have e := mapM_ok (f := (fun v => (fun a => expEntropy renyiVal a (.int k) order b) [KArg.tup [v, z']]) ∘ f) (g := g) L
      (fun r hr => a1 r hr)
    rw [List.mapM_map, e]
    simp only [bind, Except.bind, a2, a3]
    rfl
  rw [List.map_append] at g1 g2
  refine ⟨(L.map h).sum - hj - hz, ?_, ?_⟩
  · rw [expCMI_eq H _ _ _ _ (.inl rfl), hfin Prod.fst h z hj hz (fun r hr => (hh r hr).1) g1 k1]
  · rw [expCMI_eq (H.affine c oz) _ _ _ _ (.inl rfl), hfin (fun q => q.1.affine c q.2) _ _ _ _ (fun r hr => (hh r hr).2) g2 k2]
    congr 1
    have e1 : (L.map (fun r => h r + (r.1.dim + z.dim) * (Real.log |c| / b.ln))).sum = (L.map h).sum +
        (((L.map (fun q => q.1.dim)).sum : ℕ) + L.length * z.dim : ℝ) * (Real.log |c| / b.ln) := by
      clear hfin key g1 g2 k1 k2 hj H hh hs
      induction L with
      | nil => simp
      | cons r L ih =>
        simp only [List.map_cons, List.sum_cons, ih, List.length_cons]
        push_cast
        ring
    rw [e1, List.map_append, List.sum_append]
    push_cast
    simp
    ring

example := C65_cmi_renyi_scale [(.one [0, 3], fun _ => 7), (.one [0, 4], fun _ => -1)] (.one [0, 1]) (fun _ => 2) 2 cmiSamples_example (-2)
  (by norm_num) 1 (by decide) (by decide) (.num (3 / 2)) (3 / 2) (by simp [PyArg.posNumber]) (by norm_num) (.num 2)
  (by norm_num [Base.Valid]) cmiSamples_example_kth

/-- Two variables: common scaling changes nothing. -/
theorem C65_cmi_renyi_scale_two (x y z : KVar) (ox oy oz : Nat → ℝ) (n : Nat) (H : CMISamples [x, y] z n)
    (c : ℝ) (hc : c ≠ 0) (k : Nat) (hk : 0 < k) (hkn : k < n) (order : PyArg) (q : ℝ) (ho : order.posNumber = some q) (hq : q < k + 1)
    (b : Base) (hb : b.Valid) (hpos : ∀ t < n, ∀ ε, IsKthDist n k t (dists (some 2) z.samples t) ε → 0 < ε) :
    expCMI renyiVal [x.affine c ox, y.affine c oy] (some (z.affine c oz)) (some 0) false (.int k) order noNoise none b =
      expCMI renyiVal [x, y] (some z) (some 0) false (.int k) order noNoise none b := by
  obtain ⟨v, h1, h2⟩ := C65_cmi_renyi_scale [(x, ox), (y, oy)] z oz n H c hc k hk hkn order q ho hq b hb hpos
  simp only [List.map_cons, List.map_nil] at h1 h2
  rw [h1, h2]
  simp

example := C65_cmi_renyi_scale_two (.one [0, 3]) (.one [0, 4]) (.one [0, 1]) (fun _ => 7) (fun _ => -1) (fun _ => 2) 2 cmiSamples_example (-2)
  (by norm_num) 1 (by decide) (by decide) (.num (3 / 2)) (3 / 2) (by simp [PyArg.posNumber]) (by norm_num) (.num 2)
  (by norm_num [Base.Valid]) cmiSamples_example_kth

/-- Errors: no condition, an offset, different lengths, bad order or `k`, and `k ≥ n`. -/
theorem C65_cmi_errors (val : ExpVal) (data : List KVar) (x y z : KVar) (o : Option Int) (nm : Bool) (k order : PyArg)
    (noise : Nat → Option (Nat → Nat → ℝ)) (noiseZ : Option (Nat → Nat → ℝ)) (b : Base) :
    expCMI val (x :: y :: data) none o nm k order noise noiseZ b = .error .valueError ∧
    (¬ (o = some 0 ∨ o = none) → expCMI val (x :: y :: data) (some z) o nm k order noise noiseZ b = .error .valueError) ∧
    (x.len ≠ y.len ∨ x.len ≠ z.len → expCMI val (x :: y :: data) (some z) o nm k order noise noiseZ b = .error .valueError) ∧
    (∀ n, CMISamples (x :: y :: data) z n → (order.posNumber = none ∨ k.posInt = false) →
      expCMI val (x :: y :: data) (some z) (some 0) false k order noise noiseZ b = .error .valueError) ∧
    (∀ n m : Nat, CMISamples (x :: y :: data) z n → n ≤ m → k = .int m →
      expCMI val (x :: y :: data) (some z) (some 0) false k order noNoise none b = .error .valueError) := by
  refine ⟨rfl, fun h => ?_, fun h => ?_, fun n H h => ?_, fun n m H hnm hk => ?_⟩
  · simp only [expCMI, kcmiInit, if_pos h, bind, Except.bind]
  · by_cases ho : o = some 0 ∨ o = none
    · simp only [expCMI, kcmiInit, ho, not_true_eq_false, if_false, if_pos h, bind, Except.bind]
    · simp only [expCMI, kcmiInit, if_pos ho, bind, Except.bind]
  · simp only [expCMI, kcmiInit_args H.args (.inl rfl), bind, Except.bind, expParams_error h]
  · subst hk
    rw [expCMI_eq H _ _ _ _ (.inl rfl)]
    have := C64_k_too_large val _ n (sideBySide_sample (by simp) (H.pair (v := x) (by simp))).1 m (lt_of_lt_of_le H.mi.pos hnm) hnm order b
    have h2 := (expEntropy_joint (by simp) (H.pair (v := x) (by simp)) val (.int m) order b).trans this
    simp only [entropyCMI, List.mapM_cons, h2, bind, Except.bind]

example := (C65_cmi_errors renyiVal [] (.one [0, 3]) (.one [0, 4]) (.one [0, 1]) none false (.int 2) (.num 2) noNoise none .e).2.2.2.2 2 2
  cmiSamples_example le_rfl rfl

/-- Order `k + 1`: zero whatever the data. -/
theorem C65_cmi_order_k_plus_one (val : ExpVal) (hval : val = renyiVal ∨ val = tsallisVal) (data : List KVar) (z : KVar) (n : Nat)
    (H : CMISamples data z n) (k : Nat) (hk : 0 < k) (hkn : k < n) (order : PyArg) (ho : order.posNumber = some ((k : ℝ) + 1)) (b : Base) :
    expCMI val data (some z) (some 0) false (.int k) order noNoise none b = .ok 0 := by
  have h : ∀ v : KVar, v.Sample n → expEntropy val [.arr v] (.int k) order b = .ok 0 := by
    intro v hv
    have := C64_order_k_plus_one v n hv k hk hkn order ho b
    rcases hval with rfl | rfl
    exacts [this.1, this.2]
  rw [C65_cmi val data z n H _ _ b (fun _ => 0) 0 0
    (fun v hv => (expEntropy_joint (by simp) (H.pair hv) val _ _ b).trans (h _ (sideBySide_sample (by simp) (H.pair hv)).1))
    ((expEntropy_joint (by simp) H.all val _ _ b).trans (h _ (sideBySide_sample (by simp) H.all).1)) (h z H.cond)]
  simp

example := C65_cmi_order_k_plus_one renyiVal (.inl rfl) [.one [0, 3], .one [0, 4]] (.one [0, 1]) 2 cmiSamples_example 1 (by decide) (by decide)
  (.num 2) (by norm_num [PyArg.posNumber]) .e

end Verif
