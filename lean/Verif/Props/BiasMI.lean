import Verif.Lemmas.BiasMI
import Verif.Props.TE3

/-!
# Property C66 : mutual information and transfer entropy of the bias-corrected classes

`biasMI c cols (some 0) b` is `mutual_information(*cols, approach=…, base=b, …)`, `biasCMI` the same with `cond=…`,
`biasTE c source dest (teParams l k s) (some (.int 0)) none b` is `transfer_entropy(source, dest, approach=…, src_hist_len=l,
dest_hist_len=k, step_size=s, base=b, …)` and `biasCTE` the same with `cond=…`.
-/

namespace Verif

open Spec

/-- the documented prior names of the Bayes classes -/
def NamesPrior (s : String) (p : Prior) : Prop :=
  (s.toLower = "jeffrey" ∧ p = .fixed (1 / 2)) ∨ (s.toLower = "laplace" ∧ p = .fixed 1) ∨
  (s.toLower = "sch-grass" ∧ p = .schuermannGrassberger) ∨ (s = "min-max" ∧ p = .minimax)

/-- the class, called with these keyword arguments, estimates by this published method -/
inductive BiasClass.Means : BiasClass → Method → Prop
  | grassberger : Means .grassberger .grassberger
  | chaoShen : Means .chaoShen .chaoShen
  | chaoWangJost : Means .chaoWangJost .chaoWangJost
  | shrink : Means .shrink .shrink
  | zhang : Means .zhang .zhang
  | bonachela : Means .bonachela .bonachela
  | ansb {u : ℝ} : 0 ≤ u → Means (.ansb u) .ansb
  | bayesNum {a : ℝ} : 0 ≤ a → Means (.bayes (.num a) none) (.bayes (.fixed a) none)
  | bayesNumK {a : ℝ} {k : Nat} : 0 ≤ a → 0 < k →
      Means (.bayes (.num a) (some (.int k))) (.bayes (.fixed a) (some k))
  | bayesStr {s : String} {p : Prior} : NamesPrior s p → Means (.bayes (.str s) none) (.bayes p none)
  | bayesStrK {s : String} {p : Prior} {k : Nat} : NamesPrior s p → 0 < k →
      Means (.bayes (.str s) (some (.int k))) (.bayes p (some k))

theorem namesPrior_getAlpha {s : String} {p : Prior} (h : NamesPrior s p) {K N : ℝ} (hK : 0 < K) :
    getAlpha (.str s) K N = .ok (p.conc K N) ∧ 0 ≤ p.conc K N := by
  rcases h with ⟨h, rfl⟩ | ⟨h, rfl⟩ | ⟨h, rfl⟩ | ⟨rfl, rfl⟩
  · exact ⟨getAlpha_of_prior hK.ne' (.inr (.inl ⟨s, rfl, h, rfl⟩)), by simp [Prior.conc]⟩
  · exact ⟨getAlpha_of_prior hK.ne' (.inr (.inr (.inl ⟨s, rfl, h, rfl⟩))), by simp [Prior.conc]⟩
  · exact ⟨getAlpha_of_prior hK.ne' (.inr (.inr (.inr (.inl ⟨s, rfl, h, rfl⟩)))), by simp [Prior.conc]; exact hK.le⟩
  · exact ⟨getAlpha_of_prior hK.ne' (.inr (.inr (.inr (.inr ⟨rfl, rfl⟩)))), by
      simp only [Prior.conc]; exact div_nonneg (Real.sqrt_nonneg _) hK.le⟩

theorem means_check {c : BiasClass} {m : Method} (h : c.Means m) : c.check = .ok () := by
  cases h with
  | ansb hu => simp [BiasClass.check, not_lt.2 hu]
  | bayesNumK _ hk => simp [BiasClass.check]; omega
  | bayesStrK _ hk => simp [BiasClass.check]; omega
  | _ => rfl

theorem kEff_pos {xs : List Int} (h : xs ≠ []) {kp : Option Nat} (hk : ∀ k, kp = some k → 0 < k) :
    0 < kEff xs kp := by
  cases kp with
  | none => exact card_pos_real h
  | some k =>
    show (0:ℝ) < (k : ℝ)
    exact_mod_cast hk k rfl

theorem kEff_support (xs : List Int) (kp : Option Nat) : kEff xs kp = supportSize xs kp := by
  cases kp <;> rfl

theorem bayes_glob {alpha : AlphaArg} {kp : Option Nat} {p : Prior} {b : Base} (hb : b.Valid)
    (hk : ∀ k, kp = some k → 0 < k)
    (ha : ∀ K N : ℝ, 0 < K → getAlpha alpha K N = .ok (p.conc K N) ∧ 0 ≤ p.conc K N) :
    (bayesH alpha kp b).Glob ((Method.bayes p kp).Defined) (fun xs => (Method.bayes p kp).value xs / b.ln) := by
  intro xs hx
  refine ⟨.inl rfl, fun _ => ?_, fun hd => absurd trivial hd⟩
  have hK := kEff_pos hx hk
  obtain ⟨h1, h2⟩ := ha (kEff xs kp) xs.length hK
  have := bayesSimple_ok hx alpha kp h1 h2 hb
  rw [kEff_support] at this
  exact this

theorem means_est {c : BiasClass} {m : Method} (h : c.Means m) {b : Base} (hb : b.Valid) :
    ((c.est b).Loc (fun xs => m.value xs / b.ln) ∧ ∀ xs : List Int, m.Defined xs) ∨
      (c.est b).Glob m.Defined (fun xs => m.value xs / b.ln) := by
  cases h with
  | grassberger =>
    refine .inl ⟨fun xs hx => ⟨_, grassbergerLocal_ok hx hb, by simp, ?_⟩, fun _ => trivial⟩
    rw [mean_map_sample, sum_scale]; rfl
  | zhang =>
    refine .inl ⟨fun xs hx => ⟨_, zhangLocal_ok xs hb, by simp, ?_⟩, fun _ => trivial⟩
    rw [mean_map_sample, sum_scale]; rfl
  | shrink =>
    refine .inl ⟨fun xs hx => ⟨_, shrinkLocal_ok hx hb, by simp, ?_⟩, fun _ => trivial⟩
    rw [mean_map_sample, lambdaOf_eq hx]
    simp only [Method.value, shrinkCross, shrinkProb]
    rw [neg_div, ← sum_scale, ← Finset.sum_neg_distrib]
    refine Finset.sum_congr rfl fun a _ => by ring
  | chaoShen => exact .inr fun xs hx => ⟨.inl rfl, fun _ => chaoShenSimple_ok hx hb, fun hd => absurd trivial hd⟩
  | chaoWangJost => exact .inr fun xs hx => ⟨.inr rfl, fun _ => cwjSimple_ok hx hb, fun hd => absurd trivial hd⟩
  | bonachela => exact .inr fun xs hx => ⟨.inr rfl, fun _ => bonachelaSimple_ok xs hb, fun hd => absurd trivial hd⟩
  | ansb hu =>
    refine .inr fun xs hx => ⟨.inr rfl, fun hd => ?_, fun hd => ?_⟩
    · exact (HEst.entropy_arr1 _ hx).symm.trans ((C55_ansb xs hx b hb).1 hd)
    · exact (HEst.entropy_arr1 _ hx).symm.trans ((C55_ansb xs hx b hb).2 (not_not.1 hd))
  | bayesNum h0 => exact .inr (bayes_glob hb (by simp) fun K N _ => ⟨rfl, h0⟩)
  | bayesNumK h0 hk =>
    exact .inr (bayes_glob (kp := some _) hb (by simpa using hk) fun K N _ => ⟨rfl, h0⟩)
  | bayesStr hp => exact .inr (bayes_glob hb (by simp) fun K N hK => namesPrior_getAlpha hp hK)
  | bayesStrK hp hk =>
    exact .inr (bayes_glob (kp := some _) hb (by simpa using hk) fun K N hK => namesPrior_getAlpha hp hK)

theorem bias_map_getD_range (c : List Int) {N : Nat} (h : c.length = N) :
    c = (List.range N).map (fun t => c.getD t default) := by
  subst h; exact col_eq_map_range c

theorem jointCodes_same (N : Nat) (cols : List (List Int)) : SameCounts (jointCodes N cols) (rows N cols) := by
  have h := sameCounts_map (rows N cols) (Int.ofNat ∘ npPos (rows N cols)) id
    (fun u hu v hv => rowCodes_inj _ hu hv)
  rw [List.map_id, ← rowCodes_eq] at h
  exact h

theorem row_mem_iff (cols : List (List Int)) (u v : Nat) :
    row cols u = row cols v ↔ ∀ c ∈ cols, c.getD u default = c.getD v default := by
  unfold row
  exact List.map_inj_left

theorem bias_sum_div_map {A : Type} (l : List A) (f : A → ℝ) (x : ℝ) : (l.map (fun a => f a / x)).sum = (l.map f).sum / x := by
  induction l with
  | nil => simp
  | cons a l ih => simp only [List.map_cons, List.sum_cons, ih]; ring

/-- **C66** Mutual information of every bias-corrected class: `Σ H(X_i) − H(X_1,…,X_n)` with the published formula of the class
(shrinkage: with the cross-entropy relative to the shrunk distribution) — or, for ANSB, no finite value exactly when all joint
observations are distinct. -/
theorem C66_mi (c : BiasClass) (m : Method) (h : c.Means m) (cols : List (List Int)) (N : Nat) (hN : 0 < N)
    (h2 : 2 ≤ cols.length) (hl : ∀ v ∈ cols, v.length = N) (b : Base) (hb : b.Valid) :
    (m.Defined (rows N cols) →
      biasMI c cols (some 0) b = .ok (((cols.map m.value).sum - m.value (rows N cols)) / b.ln)) ∧
    (¬ m.Defined (rows N cols) → biasMI c cols (some 0) b = .error .nonFinite) := by
  have hc0 : cols ≠ [] := by rintro rfl; simp at h2
  have hne : ∀ v ∈ cols, v ≠ [] := fun v hv => ne_nil_of_length hN (hl v hv)
  have hsame := jointCodes_same N cols
  obtain ⟨k1, k2⟩ := combine_val (means_est h hb) hN cols [jointCodes N cols] hc0 hl (by simp [jointCodes_length])
  have e : biasMI c cols (some 0) b = combineH (c.est b) (cols.map mkData) ([jointCodes N cols].map mkData) := by
    simp only [biasMI, miInit_ok h2 hl, means_check h, genericMI, bind, Except.bind, mapM_hConstruct cols hne,
      hConstruct_tup hN hc0 hl, List.map_cons, List.map_nil]
  have hfac : m.Defined (rows N cols) → ∀ v ∈ cols, m.Defined v := by
    intro hd v hv
    rw [bias_map_getD_range v (hl v hv)]
    exact defined_of_factor (List.range N) (row cols) _ (fun s _ t _ hst => (row_mem_iff cols s t).1 hst v hv) m hd
  constructor
  · intro hd
    rw [e, k1]
    · simp only [List.map_cons, List.map_nil, List.sum_cons, List.sum_nil, add_zero, bias_sum_div_map, value_congr hsame]
      congr 1; ring
    · rintro v (hv | hv)
      · exact hfac hd v hv
      · rw [List.mem_singleton.1 hv]; exact (defined_congr hsame m).2 hd
  · intro hd
    rw [e, k2]
    exact ⟨_, .inr (List.mem_singleton.2 rfl), fun h' => hd ((defined_congr hsame m).1 h')⟩

/-- a method that is always defined, and the coincidence method on data without coincidences -/
example := And.intro
  ((C66_mi .shrink .shrink .shrink [[5, 7, 5], [0, 0, 1]] 3 (by decide) (by decide) (by decide) (.num 2) (by norm_num [Base.Valid])).1 trivial)
  ((C66_mi (.ansb 0) .ansb (.ansb le_rfl) [[5, 7, 5], [0, 0, 1]] 3 (by decide) (by decide) (by decide) (.num 2)
    (by norm_num [Base.Valid])).2 (fun h => h (by decide)))

theorem zip_range_map {A B : Type} (N : Nat) (f : Nat → A) (g : Nat → B) :
    ((List.range N).map f).zip ((List.range N).map g) = (List.range N).map (fun t => (f t, g t)) := zip_map_map _ _ _

theorem zip_getD (x z : List Int) {N : Nat} (hx : x.length = N) (hz : z.length = N) :
    x.zip z = (List.range N).map (fun t => (x.getD t default, z.getD t default)) := by
  conv_lhs => rw [bias_map_getD_range x hx, bias_map_getD_range z hz]
  exact zip_range_map _ _ _

theorem rows_zip_getD (cols : List (List Int)) (z : List Int) {N : Nat} (hz : z.length = N) :
    (rows N cols).zip z = (List.range N).map (fun t => (row cols t, z.getD t default)) := by
  conv_lhs => rw [bias_map_getD_range z hz]
  exact zip_range_map _ _ _

/-- **C66** Conditional mutual information of every bias-corrected class:
`Σ H(X_i, Z) − H(X_1,…,X_n, Z) − H(Z)` with the published formula of the class; for ANSB no finite value exactly when all joint
observations (with the condition) are distinct. -/
theorem C66_cmi (c : BiasClass) (m : Method) (h : c.Means m) (cols : List (List Int)) (z : List Int) (hN : 0 < z.length)
    (h2 : 2 ≤ cols.length) (hl : ∀ v ∈ cols, v.length = z.length) (b : Base) (hb : b.Valid) :
    (m.Defined ((rows z.length cols).zip z) →
      biasCMI c cols z (some 0) b = .ok (((cols.map (fun v => m.value (v.zip z))).sum
        - m.value ((rows z.length cols).zip z) - m.value z) / b.ln)) ∧
    (¬ m.Defined ((rows z.length cols).zip z) → biasCMI c cols z (some 0) b = .error .nonFinite) := by
  obtain ⟨N, hNe⟩ : ∃ N, N = z.length := ⟨_, rfl⟩
  rw [← hNe] at hN hl ⊢
  have hc0 : cols ≠ [] := by rintro rfl; simp at h2
  have hz : z.length = N := hNe.symm
  have hzne : z ≠ [] := ne_nil_of_length hN hz
  have hp : ∀ v ∈ cols, hConstruct (.tup [v, z]) = .ok (mkData (jointCodes N [v, z])) :=
    fun v hv => hConstruct_tup hN (by simp) (by simp [hl v hv, hz])
  have hall : ∀ v ∈ cols ++ [z], v.length = N := by
    intro v hv
    rcases List.mem_append.1 hv with hv | hv
    · exact hl v hv
    · rw [List.mem_singleton.1 hv, hz]
  have hj := hConstruct_tup hN (cols := cols ++ [z]) (by simp) hall
  have sP : ∀ v ∈ cols, SameCounts (jointCodes N [v, z]) (v.zip z) := by
    intro v hv
    refine (jointCodes_same N [v, z]).trans ?_
    rw [zip_getD v z (hl v hv) hz]
    refine sameCounts_map _ _ _ fun s _ t _ => ?_
    rw [row_mem_iff, Prod.mk.injEq]; simp
  have sJ : SameCounts (jointCodes N (cols ++ [z])) ((rows N cols).zip z) := by
    refine (jointCodes_same N (cols ++ [z])).trans ?_
    rw [rows_zip_getD cols z hz]
    refine sameCounts_map _ _ _ fun s _ t _ => ?_
    rw [row_mem_iff, Prod.mk.injEq, row_mem_iff]
    simp only [List.mem_append, List.mem_singleton]
    exact ⟨fun h => ⟨fun c hc => h c (.inl hc), h z (.inr rfl)⟩, fun h c hc => hc.elim (h.1 c) (by rintro rfl; exact h.2)⟩
  obtain ⟨k1, k2⟩ := combine_val (means_est h hb) hN (cols.map (fun v => jointCodes N [v, z]))
    [jointCodes N (cols ++ [z]), z] (by simpa using hc0)
    (by intro v hv; obtain ⟨d, _, rfl⟩ := List.mem_map.1 hv; exact jointCodes_length _ _)
    (by simp [jointCodes_length, hz])
  have hi : cmiInit cols (some z) (some 0) = .ok (cols, z) := cmiInit_ok h2 (by rw [hz]; exact hl) (.inl rfl)
  have e : biasCMI c cols z (some 0) b = combineH (c.est b) ((cols.map (fun v => jointCodes N [v, z])).map mkData)
      ([jointCodes N (cols ++ [z]), z].map mkData) := by
    simp only [biasCMI, hi, means_check h, genericCMI, bind, Except.bind, hj, hConstruct_arr1 hzne, List.map_cons, List.map_nil]
    rw [mapM_ok cols hp, List.map_map]
    rfl
  have hfac : m.Defined ((rows N cols).zip z) → (∀ v ∈ cols, m.Defined (v.zip z)) ∧ m.Defined z := by
    rw [rows_zip_getD cols z hz]
    intro hd
    constructor
    · intro v hv
      rw [zip_getD v z (hl v hv) hz]
      refine defined_of_factor (List.range N) _ _ (fun s _ t _ hst => ?_) m hd
      rw [Prod.mk.injEq] at hst ⊢
      exact ⟨(row_mem_iff cols s t).1 hst.1 v hv, hst.2⟩
    · rw [bias_map_getD_range z hz]
      refine defined_of_factor (List.range N) _ _ (fun s _ t _ hst => ?_) m hd
      rw [Prod.mk.injEq] at hst
      exact hst.2
  constructor
  · intro hd
    rw [e, k1]
    · have hv : (cols.map (fun v => jointCodes N [v, z])).map (fun xs => m.value xs / b.ln) =
          cols.map (fun v => m.value (v.zip z) / b.ln) := by
        rw [List.map_map]
        refine List.map_congr_left fun v hv => ?_
        simp only [Function.comp, value_congr (sP v hv)]
      rw [hv]
      simp only [List.map_cons, List.map_nil, List.sum_cons, List.sum_nil, add_zero, bias_sum_div_map, value_congr sJ]
      congr 1; ring
    · rintro v (hv | hv)
      · obtain ⟨w, hw, rfl⟩ := List.mem_map.1 hv
        exact (defined_congr (sP w hw) m).2 ((hfac hd).1 w hw)
      · simp only [List.mem_cons, List.not_mem_nil, or_false] at hv
        rcases hv with rfl | rfl
        · exact (defined_congr sJ m).2 hd
        · exact (hfac hd).2
  · intro hd
    rw [e, k2]
    exact ⟨_, .inr (List.mem_cons_self ..), fun h' => hd ((defined_congr sJ m).1 h')⟩

example := (C66_cmi (.bayes (.str "Laplace") none) (.bayes (.fixed 1) none) (.bayesStr (.inr (.inl ⟨by decide +kernel, rfl⟩)))
  [[5, 7, 5], [0, 0, 1]] [2, 2, 3] (by decide) (by decide) (by decide) (.num 2) (by norm_num [Base.Valid])).1 trivial

/-! ## Transfer entropy -/

/-- the generic combination on the four spaces of an embedding -/
theorem bias_spaces {c : BiasClass} {m : Method} (h : c.Means m) {b : Base} (hb : b.Valid) {R : Nat} (hR : 0 < R)
    (m2 m1 j dp : Nat → List Int)
    (hj2 : ∀ s t, j s = j t → m2 s = m2 t) (hj1 : ∀ s t, j s = j t → m1 s = m1 t) (hjd : ∀ s t, j s = j t → dp s = dp t) :
    (m.Defined ((List.range R).map j) → (do
        let a ← hConstruct (.arr2 ((List.range R).map m2))
        let b' ← hConstruct (.arr2 ((List.range R).map m1))
        let c' ← hConstruct (.arr2 ((List.range R).map j))
        let d ← hConstruct (.arr2 ((List.range R).map dp))
        combineH (c.est b) [a, b'] [c', d]) = .ok ((m.value ((List.range R).map m2) + m.value ((List.range R).map m1) -
          m.value ((List.range R).map j) - m.value ((List.range R).map dp)) / b.ln)) ∧
    (¬ m.Defined ((List.range R).map j) → (do
        let a ← hConstruct (.arr2 ((List.range R).map m2))
        let b' ← hConstruct (.arr2 ((List.range R).map m1))
        let c' ← hConstruct (.arr2 ((List.range R).map j))
        let d ← hConstruct (.arr2 ((List.range R).map dp))
        combineH (c.est b) [a, b'] [c', d]) = .error .nonFinite) := by
  have hne : ∀ f : Nat → List Int, (List.range R).map f ≠ [] := fun f => by simp; omega
  have hlen : ∀ f : Nat → List Int, (rowCodes ((List.range R).map f)).length = R := fun f => by
    simp [rowCodes_length]
  have hs : ∀ f : Nat → List Int, SameCounts (rowCodes ((List.range R).map f)) ((List.range R).map f) := by
    intro f
    have h := sameCounts_map ((List.range R).map f) (Int.ofNat ∘ npPos ((List.range R).map f)) id
      (fun u hu v hv => rowCodes_inj _ hu hv)
    rw [List.map_id, ← rowCodes_eq] at h
    exact h
  obtain ⟨k1, k2⟩ := combine_val (means_est h hb) hR
    [rowCodes ((List.range R).map m2), rowCodes ((List.range R).map m1)]
    [rowCodes ((List.range R).map j), rowCodes ((List.range R).map dp)] (by simp) (by simp [hlen]) (by simp [hlen])
  simp only [hConstruct_arr2 (hne _), bind, Except.bind]
  constructor
  · intro hd
    refine (k1 ?_).trans ?_
    · simp only [List.mem_cons, List.not_mem_nil, or_false]
      rintro v ((rfl | rfl) | (rfl | rfl))
      · exact (defined_congr (hs _) m).2 (defined_of_factor _ j _ (fun s _ t _ => hj2 s t) m hd)
      · exact (defined_congr (hs _) m).2 (defined_of_factor _ j _ (fun s _ t _ => hj1 s t) m hd)
      · exact (defined_congr (hs _) m).2 hd
      · exact (defined_congr (hs _) m).2 (defined_of_factor _ j _ (fun s _ t _ => hjd s t) m hd)
    · simp only [List.map_cons, List.map_nil, List.sum_cons, List.sum_nil, value_congr (hs _)]
      congr 1; ring
  · intro hd
    exact k2 ⟨_, .inr (List.mem_cons_self ..), fun h' => hd ((defined_congr (hs _) m).1 h')⟩

/-- **C66** Transfer entropy of every bias-corrected class: `H(Y⁺,Y) + H(X,Y) − H(Y⁺,X,Y) − H(Y)` of the embedded rows (`F` the
future of the destination, `G` the source history, `D` the destination history), with the published formula of the class; for
ANSB no finite value exactly when all embedded observations are distinct. -/
theorem C66_te (c : BiasClass) (m : Method) (h : c.Means m) (source dest : List Int) (l k s : Nat) (hs : 0 < s) (hl : 0 < l)
    (hk : 0 < k) (hm : max k l * s < source.length) (hlen : source.length = dest.length) (b : Base) (hb : b.Valid)
    (rnd : SrcRandom) (hr : rnd.Lawful) :
    let R := numRows dest.length (max k l) s
    let F := futRows dest dest.length (max k l) s
    let G := (srcSel rnd R).map (histRow source (max k l) s l)
    let D := histRows dest dest.length (max k l) s k
    (m.Defined (F.zip (G.zip D)) → biasTE c source dest (teParams l k s) (some (.int 0)) none b rnd =
      .ok ((m.value (F.zip D) + m.value (G.zip D) - m.value (F.zip (G.zip D)) - m.value D) / b.ln)) ∧
    (¬ m.Defined (F.zip (G.zip D)) →
      biasTE c source dest (teParams l k s) (some (.int 0)) none b rnd = .error .nonFinite) := by
  intro R F G D
  have hm' : max k l * s < dest.length := hlen ▸ hm
  have hR : 0 < R := numRows_pos hs hm'
  set f : Nat → List Int := fun i => [dest.getD ((max k l + i) * s) default] with hf
  set g : Nat → List Int := fun i => histRow source (max k l) s l ((srcSel rnd R).getD i 0) with hg
  set d : Nat → List Int := histRow dest (max k l) s k with hd
  have hF : F = (List.range R).map f := rfl
  have hG : G = (List.range R).map g := srcRows_eq _ _ _ _ _ hr
  have hD : D = (List.range R).map d := rfl
  have hsl := teObservations_ok source dest l k s hs hl hk hm hlen hr
  rw [srcRows_eq _ _ _ _ _ hr, histRows, futRows] at hsl
  have hsp := teSpaces_ok R f g d
  have fl : ∀ i, (f i).length = 1 := fun i => by simp [hf]
  have gl : ∀ i, (g i).length = l := fun i => by simp [hg, histRow]
  have dl : ∀ i, (d i).length = k := fun i => by simp [hd, histRow]
  have e : biasTE c source dest (teParams l k s) (some (.int 0)) none b rnd = (do
        let a ← hConstruct (.arr2 ((List.range R).map (fun i => d i ++ f i)))
        let b' ← hConstruct (.arr2 ((List.range R).map (fun i => g i ++ d i)))
        let c' ← hConstruct (.arr2 ((List.range R).map (fun i => g i ++ d i ++ f i)))
        let d ← hConstruct (.arr2 ((List.range R).map d))
        combineH (c.est b) [a, b'] [c', d]) := by
    have hsl' : teObservations source dest (.int l) (.int k) (.int s) rnd =
      .ok { src := (List.range R).map g, dest := (List.range R).map d, fut := (List.range R).map f } := hsl
    simp only [biasTE, genericTE, teInit_zero hlen, means_check h, teParams, hsl', hsp, bind, Except.bind]
  have j2 : ∀ u v, g u ++ d u ++ f u = g v ++ d v ++ f v ↔ (f u, g u, d u) = (f v, g v, d v) := by
    intro u v
    rw [append_eq_iff (by simp [gl, dl]), append_eq_iff (by simp [gl]), Prod.mk.injEq, Prod.mk.injEq]
    tauto
  obtain ⟨k1, k2⟩ := bias_spaces h hb hR (fun i => d i ++ f i) (fun i => g i ++ d i) (fun i => g i ++ d i ++ f i) d
    (fun u v huv => by
      have := (j2 u v).1 huv; simp only [Prod.mk.injEq] at this; simp only [this.1, this.2.2])
    (fun u v huv => by
      have := (j2 u v).1 huv; simp only [Prod.mk.injEq] at this; simp only [this.2.1, this.2.2])
    (fun u v huv => by
      have := (j2 u v).1 huv; simp only [Prod.mk.injEq] at this; exact this.2.2)
  have sJ : SameCounts ((List.range R).map (fun i => g i ++ d i ++ f i)) (F.zip (G.zip D)) := by
    rw [hF, hG, hD, zip_range_map, zip_range_map]
    exact sameCounts_map _ _ _ fun u _ v _ => j2 u v
  have s2 : SameCounts ((List.range R).map (fun i => d i ++ f i)) (F.zip D) := by
    rw [hF, hD, zip_range_map]
    refine sameCounts_map _ _ _ fun u _ v _ => ?_
    rw [append_eq_iff (by simp [dl]), Prod.mk.injEq]; tauto
  have s1 : SameCounts ((List.range R).map (fun i => g i ++ d i)) (G.zip D) := by
    rw [hG, hD, zip_range_map]
    refine sameCounts_map _ _ _ fun u _ v _ => ?_
    rw [append_eq_iff (by simp [gl]), Prod.mk.injEq]
  constructor
  · intro hdef
    rw [e, k1 ((defined_congr sJ m).2 hdef), value_congr s2, value_congr s1, value_congr sJ, hD]
  · intro hdef
    rw [e, k2 (fun h' => hdef ((defined_congr sJ m).1 h'))]

example := C66_te .zhang .zhang .zhang [5, 7, 5, 7, 7] [0, 0, 1, 1, 0] 1 2 1 (by decide) (by decide) (by decide) (by decide) rfl
  (.num 2) (by norm_num [Base.Valid]) {} lawful_none

/-- **C66** Conditional transfer entropy: the same with the history `Z` of the condition added to the destination history. -/
theorem C66_cte (c : BiasClass) (m : Method) (h : c.Means m) (source dest cond : List Int) (l k q s : Nat) (hs : 0 < s)
    (hl : 0 < l) (hk : 0 < k) (hq : 0 < q) (hm : max (max k l) q * s < source.length) (hlen : source.length = dest.length)
    (hlen2 : cond.length = dest.length) (b : Base) (hb : b.Valid) :
    let M := max (max k l) q
    let F := futRows dest dest.length M s
    let G := histRows source dest.length M s l
    let D := histRows dest dest.length M s k
    let Z := histRows cond dest.length M s q
    let DZ := D.zip Z
    (m.Defined (F.zip (G.zip DZ)) →
      biasCTE c source dest (some cond) (teParams l k s) (.int q) (some (.int 0)) none b =
      .ok ((m.value (F.zip DZ) + m.value (G.zip DZ) - m.value (F.zip (G.zip DZ)) - m.value DZ) / b.ln)) ∧
    (¬ m.Defined (F.zip (G.zip DZ)) →
      biasCTE c source dest (some cond) (teParams l k s) (.int q) (some (.int 0)) none b = .error .nonFinite) := by
  intro M F G D Z DZ
  set R := numRows dest.length M s with hRdef
  have hm' : M * s < dest.length := hlen ▸ hm
  have hR : 0 < R := numRows_pos hs hm'
  set f : Nat → List Int := fun i => [dest.getD ((M + i) * s) default] with hf
  set g : Nat → List Int := histRow source M s l with hg
  set d : Nat → List Int := histRow dest M s k with hd
  set z : Nat → List Int := histRow cond M s q with hz
  have hF : F = (List.range R).map f := rfl
  have hG : G = (List.range R).map g := rfl
  have hDZ : DZ = (List.range R).map (fun i => (d i, z i)) := zip_range_map R d z
  have hsl := cteObservations_ok source dest cond l k q s hs hl hk hq hm hlen hlen2 lawful_none
  rw [srcSel_none, histRows, histRows, futRows] at hsl
  have hsp := cteSpaces_ok R f g d z
  have fl : ∀ i, (f i).length = 1 := fun i => by simp [hf]
  have gl : ∀ i, (g i).length = l := fun i => by simp [hg, histRow]
  have dl : ∀ i, (d i).length = k := fun i => by simp [hd, histRow]
  have zl : ∀ i, (z i).length = q := fun i => by simp [hz, histRow]
  have e : biasCTE c source dest (some cond) (teParams l k s) (.int q) (some (.int 0)) none b = (do
        let a ← hConstruct (.arr2 ((List.range R).map (fun i => d i ++ f i ++ z i)))
        let b' ← hConstruct (.arr2 ((List.range R).map (fun i => g i ++ d i ++ z i)))
        let c' ← hConstruct (.arr2 ((List.range R).map (fun i => g i ++ d i ++ f i ++ z i)))
        let d ← hConstruct (.arr2 ((List.range R).map (fun i => d i ++ z i)))
        combineH (c.est b) [a, b'] [c', d]) := by
    have hsl' : cteObservations source dest cond (.int l) (.int k) (.int q) (.int s) =
      .ok { src := (List.range R).map g, dest := (List.range R).map d, fut := (List.range R).map f,
            cond := some ((List.range R).map z) } := hsl
    simp only [biasCTE, genericCTE, cteInit_zero hlen hlen2, means_check h, teParams, hsl', hsp, bind, Except.bind]
  have j2 : ∀ u v, g u ++ d u ++ f u ++ z u = g v ++ d v ++ f v ++ z v ↔
      (f u, g u, d u, z u) = (f v, g v, d v, z v) := by
    intro u v
    rw [append_eq_iff (by simp [gl, dl, fl]), append_eq_iff (by simp [gl, dl]), append_eq_iff (by simp [gl]), Prod.mk.injEq,
      Prod.mk.injEq, Prod.mk.injEq]
    tauto
  obtain ⟨k1, k2⟩ := bias_spaces h hb hR (fun i => d i ++ f i ++ z i) (fun i => g i ++ d i ++ z i)
    (fun i => g i ++ d i ++ f i ++ z i) (fun i => d i ++ z i)
    (fun u v huv => by
      have := (j2 u v).1 huv; simp only [Prod.mk.injEq] at this; simp only [this.1, this.2.2])
    (fun u v huv => by
      have := (j2 u v).1 huv; simp only [Prod.mk.injEq] at this; simp only [this.2.1, this.2.2])
    (fun u v huv => by
      have := (j2 u v).1 huv; simp only [Prod.mk.injEq] at this; simp only [this.2.2])
  have sJ : SameCounts ((List.range R).map (fun i => g i ++ d i ++ f i ++ z i)) (F.zip (G.zip DZ)) := by
    rw [hF, hG, hDZ, zip_range_map, zip_range_map]
    exact sameCounts_map _ _ _ fun u _ v _ => j2 u v
  have s2 : SameCounts ((List.range R).map (fun i => d i ++ f i ++ z i)) (F.zip DZ) := by
    rw [hF, hDZ, zip_range_map]
    refine sameCounts_map _ _ _ fun u _ v _ => ?_
    rw [append_eq_iff (by simp [dl, fl]), append_eq_iff (by simp [dl]), Prod.mk.injEq, Prod.mk.injEq]; tauto
  have s1 : SameCounts ((List.range R).map (fun i => g i ++ d i ++ z i)) (G.zip DZ) := by
    rw [hG, hDZ, zip_range_map]
    refine sameCounts_map _ _ _ fun u _ v _ => ?_
    rw [append_eq_iff (by simp [gl, dl]), append_eq_iff (by simp [gl]), Prod.mk.injEq, Prod.mk.injEq]; tauto
  have s0 : SameCounts ((List.range R).map (fun i => d i ++ z i)) DZ := by
    rw [hDZ]
    refine sameCounts_map _ _ _ fun u _ v _ => ?_
    rw [append_eq_iff (by simp [dl]), Prod.mk.injEq]
  constructor
  · intro hdef
    rw [e, k1 ((defined_congr sJ m).2 hdef), value_congr s2, value_congr s1, value_congr sJ, value_congr s0]
  · intro hdef
    rw [e, k2 (fun h' => hdef ((defined_congr sJ m).1 h'))]

example := C66_cte .chaoShen .chaoShen .chaoShen [5, 7, 5, 7, 7] [0, 0, 1, 1, 0] [1, 1, 1, 2, 2] 1 2 1 1 (by decide) (by decide)
  (by decide) (by decide) (by decide) rfl rfl (.num 2) (by norm_num [Base.Valid])

end Verif
