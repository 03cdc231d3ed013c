import Verif.Lemmas.EndToEndIdent
import Verif.Spec.EndToEndIdent
import Verif.Props.EndToEnd6

/-!
# C91: identities between the public functions

Theorems that relate the results of several public calls to each other, for every estimator family: the joint entropy of a tuple
is the entropy of any labelling of its rows, and the (conditional) mutual information is the documented combination of entropies.

Concrete calls that meet the hypotheses are in `Props/EndToEndIdentEx.lean`.
-/

namespace Verif

open Spec

variable {W : World} {a aM : PyName} {kw kwM : Kw} {b : Base} {cond : CondKw PyData}

/-! ## The joint entropy -/

theorem pubH_codes {D : List Int → Prop} {V : List Int → ℝ} (P : PubH W a kw D V) {codes : List Int} {cols : List (List Int)} {n : Nat}
    (hn : 0 < n) (hne : cols ≠ []) (hl : ∀ c ∈ cols, c.length = n) (hc : codes.length = n)
    (h : ∀ s < n, ∀ t < n, (codes.getD s default = codes.getD t default ↔ ∀ c ∈ cols, c.getD s default = c.getD t default)) :
    imEntropy W [.intTup cols] a .absent kw = imEntropy W [.ints codes] a .absent kw := by
  obtain ⟨s1, s2⟩ := P.same _ _ (jointCodes_ne hn cols) (idn_codes_same hc h)
  have hne' : codes ≠ [] := ne_nil_of_length hn hc
  rw [P.tup cols n hn hne hl]
  by_cases hD : D codes
  · rw [(P.seq _ hne').1 hD, (P.seq _ (jointCodes_ne hn cols)).1 (s1.2 hD), s2]
  · rw [(P.seq _ hne').2 hD, (P.seq _ (jointCodes_ne hn cols)).2 (fun h' => hD (s1.1 h'))]

/-- **C91** `im.entropy((x, y, …))` is `im.entropy(codes)` for every sequence `codes` that gives equal labels exactly to equal
rows `(x[t], y[t], …)`: the eight parameter-free discrete estimators. -/
theorem C91_joint_entropy (f : Fam) (hf : f ∈ simpleFams) (h : Call W .h f a kw b) (hb : b.Std) (codes : List Int)
    (cols : List (List Int)) (n : Nat) (hn : 0 < n) (hne : cols ≠ []) (hl : ∀ c ∈ cols, c.length = n) (hc : codes.length = n)
    (hlab : ∀ s < n, ∀ t < n, (codes.getD s default = codes.getD t default ↔ ∀ c ∈ cols, c.getD s default = c.getD t default)) :
    imEntropy W [.intTup cols] a .absent kw = imEntropy W [.ints codes] a .absent kw :=
  pubH_codes (pubH_simple f hf h hb) hn hne hl hc hlab

/-- **C91** the same for the Bayesian estimator. -/
theorem C91_joint_bayes (al : AlphaArg) (K : Option Nat) {m : Method} (hm : (BiasClass.bayes al (K.map (fun k : Nat => PyArg.int (k : Int)))).Means m)
    (h : Call W .h .bayes a kw b) (hb : b.Valid) (h1 : (kw "alpha").bind PyVal.toAlpha = some al) (h2 : kwOr kw "K" .none = idnK K)
    (codes : List Int) (cols : List (List Int)) (n : Nat) (hn : 0 < n) (hne : cols ≠ []) (hl : ∀ c ∈ cols, c.length = n)
    (hc : codes.length = n)
    (hlab : ∀ s < n, ∀ t < n, (codes.getD s default = codes.getD t default ↔ ∀ c ∈ cols, c.getD s default = c.getD t default)) :
    imEntropy W [.intTup cols] a .absent kw = imEntropy W [.ints codes] a .absent kw :=
  pubH_codes (pubH_bayes al K hm h hb h1 h2) hn hne hl hc hlab

/-- **C91** the same for ANSB, including when it has no finite value. -/
theorem C91_joint_ansb (h : Call W .h .ansb a kw b) (hb : b.Valid) (hK : kwOr kw "K" .none = .none)
    (codes : List Int) (cols : List (List Int)) (n : Nat) (hn : 0 < n) (hne : cols ≠ []) (hl : ∀ c ∈ cols, c.length = n)
    (hc : codes.length = n)
    (hlab : ∀ s < n, ∀ t < n, (codes.getD s default = codes.getD t default ↔ ∀ c ∈ cols, c.getD s default = c.getD t default)) :
    imEntropy W [.intTup cols] a .absent kw = imEntropy W [.ints codes] a .absent kw :=
  pubH_codes (pubH_ansb h hb hK) hn hne hl hc hlab

/-- **C91** the same for NSB, including when it has no finite value. -/
theorem C91_joint_nsb (h : Call W .h .nsb a kw b) (hb : b.Valid) (K : Option Nat) (hK : kwOr kw "K" .none = idnK K)
    (hp : ∀ k, K = some k → 0 < k)
    (codes : List Int) (cols : List (List Int)) (n : Nat) (hn : 0 < n) (hne : cols ≠ []) (hl : ∀ c ∈ cols, c.length = n)
    (hc : codes.length = n)
    (hlab : ∀ s < n, ∀ t < n, (codes.getD s default = codes.getD t default ↔ ∀ c ∈ cols, c.getD s default = c.getD t default)) :
    imEntropy W [.intTup cols] a .absent kw = imEntropy W [.ints codes] a .absent kw :=
  pubH_codes (pubH_nsb h hb K hK hp) hn hne hl hc hlab

/-! ## Mutual information -/

theorem pubH_mi {D : List Int → Prop} {V : List Int → ℝ} (P : PubH W a kw D V) {cols : List (List Int)} {N : Nat} (hN : 0 < N)
    (hne : cols ≠ []) (hl : ∀ c ∈ cols, c.length = N) (hD : ∀ c ∈ cols, D c) (hj : D (jointCodes N cols))
    (e : imMI W (cols.map .ints) aM cond kwM = .ok ((cols.map V).sum - V (jointCodes N cols))) :
    MiFromEntropies W a kw aM cond kwM cols :=
  ⟨V, V (jointCodes N cols), fun c hc => (P.seq c (ne_nil_of_length hN (hl c hc))).1 (hD c hc), by
    rw [P.tup cols N hN hne hl]; exact (P.seq _ (jointCodes_ne hN cols)).1 hj, e⟩

theorem idn_not_special {cols : List (List Int)} (hc : cols.length = 2 ∨ ∀ c ∈ cols, ¬ IsConst c) :
    ¬ (3 ≤ cols.length ∧ ∃ c ∈ cols, IsConst c) := by
  rintro ⟨h3, c, hcm, hcc⟩
  rcases hc with h | h
  · omega
  · exact h c hcm hcc

/-- **C91** plug-in estimator: `im.mutual_information(x₁, …, xₙ) = Σ im.entropy(xᵢ) − im.entropy((x₁, …, xₙ))`, for two variables or
any number of non-constant ones. -/
theorem C91_mi (hH : Call W .h .discrete a kw b) (hM : Call W .mi .discrete aM kwM b) (hb : b.Std) (hcd : cond.isVal = false)
    (ho : kwOr kwM "offset" (.int 0) = .int 0) (cols : List (List Int)) (N : Nat) (hN : 0 < N) (h2 : 2 ≤ cols.length)
    (hl : ∀ c ∈ cols, c.length = N) (hov : N ^ cols.length < 2 ^ 64) (hc : cols.length = 2 ∨ ∀ c ∈ cols, ¬ IsConst c) :
    MiFromEntropies W a kw aM cond kwM cols := by
  refine pubH_mi (pubH_simple .discrete (by simp [simpleFams]) hH hb) hN (by rintro rfl; simp at h2) hl (fun _ _ => trivial) trivial ?_
  rw [C82_mi hM hb hcd ho cols N hN h2 hl hov, if_neg (idn_not_special hc)]
  simp only [entropyFormula, totalCorrelation, bias_sum_div_map, entropy_jointCodes, sub_div]

/-- **C91** Miller–Madow: the same. -/
theorem C91_mi_miller_madow (hH : Call W .h .millerMadow a kw b) (hM : Call W .mi .millerMadow aM kwM b) (hb : b.Std)
    (hcd : cond.isVal = false) (ho : kwOr kwM "offset" (.int 0) = .int 0) (cols : List (List Int)) (N : Nat) (hN : 0 < N)
    (h2 : 2 ≤ cols.length) (hl : ∀ c ∈ cols, c.length = N) (hov : N ^ cols.length < 2 ^ 64)
    (hc : cols.length = 2 ∨ ∀ c ∈ cols, ¬ IsConst c) :
    MiFromEntropies W a kw aM cond kwM cols := by
  refine pubH_mi (pubH_simple .millerMadow (by simp [simpleFams]) hH hb) hN (by rintro rfl; simp at h2) hl (fun _ _ => trivial) trivial ?_
  rw [C82_mi_miller_madow hM hb hcd ho cols N hN h2 hl hov, if_neg (idn_not_special hc)]
  have : entropyFormula .millerMadow = (millerMadow : List Int → ℝ) := rfl
  simp only [this, bias_sum_div_map, idn_mm_congr (jointCodes_same N cols), sub_div]

theorem idn_fam_value {f : Fam} {m : Method} (hf : FamMethod f m) (hs : f ≠ .shrink) :
    f ∈ simpleFams ∧ ∀ xs : List Int, entropyFormula f xs = m.value xs := by
  cases hf with
  | shrink => exact absurd rfl hs
  | _ => exact ⟨by simp [simpleFams], fun _ => rfl⟩

/-- **C91** the bias-corrected estimators without parameters, shrinkage excepted: the same, for any variables. -/
theorem C91_mi_bias {f : Fam} {m : Method} (hf : FamMethod f m) (hs : f ≠ .shrink) (hH : Call W .h f a kw b) (hM : Call W .mi f aM kwM b)
    (hb : b.Std) (hcd : cond.isVal = false) (hp : Plain kwM) (cols : List (List Int)) (N : Nat) (hN : 0 < N) (h2 : 2 ≤ cols.length)
    (hl : ∀ c ∈ cols, c.length = N) :
    MiFromEntropies W a kw aM cond kwM cols := by
  obtain ⟨h1, hv⟩ := idn_fam_value hf hs
  refine pubH_mi (pubH_simple f h1 hH hb) hN (by rintro rfl; simp at h2) hl (fun _ _ => trivial) trivial ?_
  rw [C82_mi_bias hf hM hb.valid hcd hp cols N hN h2 hl]
  simp only [hv, bias_sum_div_map, value_congr (jointCodes_same N cols), sub_div]

/-- **C91** the Bayesian estimator. -/
theorem C91_mi_bayes (al : AlphaArg) (K : Option Nat) {m : Method}
    (hm : (BiasClass.bayes al (K.map (fun k : Nat => PyArg.int (k : Int)))).Means m)
    (hH : Call W .h .bayes a kw b) (hM : Call W .mi .bayes aM kwM b) (hb : b.Valid) (hcd : cond.isVal = false) (hp : Plain kwM)
    (h1 : (kw "alpha").bind PyVal.toAlpha = some al) (h1' : (kwM "alpha").bind PyVal.toAlpha = some al)
    (h3 : kwOr kw "K" .none = idnK K) (h3' : kwOr kwM "K" .none = idnK K) (cols : List (List Int)) (N : Nat) (hN : 0 < N)
    (h2 : 2 ≤ cols.length) (hl : ∀ c ∈ cols, c.length = N) :
    MiFromEntropies W a kw aM cond kwM cols := by
  refine pubH_mi (pubH_bayes al K hm hH hb h1 h3) hN (by rintro rfl; simp at h2) hl (fun _ _ => trivial) trivial ?_
  rw [C82_mi_bayes al _ hm hM hb hcd hp h1' (by rw [h3']; cases K <;> rfl) cols N hN h2 hl]
  simp only [bias_sum_div_map, value_congr (jointCodes_same N cols), sub_div]

theorem idn_col_repeats {cols : List (List Int)} {N : Nat} (hl : ∀ c ∈ cols, c.length = N) (h : ¬ (rows N cols).Nodup) :
    ∀ c ∈ cols, ¬ c.Nodup := by
  intro c hc
  rw [bias_map_getD_range c (hl c hc)]
  exact defined_of_factor (List.range N) _ _ (fun s _ t _ hst => (row_mem_iff cols s t).1 hst c hc) .ansb h

/-- **C91** ANSB: the mutual information has a value exactly if the joint entropy has one, and then so do the entropies of the
variables and the identity holds. -/
theorem C91_mi_ansb (hH : Call W .h .ansb a kw b) (hM : Call W .mi .ansb aM kwM b) (hb : b.Valid) (hcd : cond.isVal = false)
    (hp : Plain kwM) (u : ℝ) (hu : 0 ≤ u) (h1 : (kwOr kwM "undersampled" (.num (1 / 10))).toNum = some u)
    (hK : kwOr kw "K" .none = .none) (cols : List (List Int)) (N : Nat) (hN : 0 < N)
    (h2 : 2 ≤ cols.length) (hl : ∀ c ∈ cols, c.length = N) :
    (MiFromEntropies W a kw aM cond kwM cols) ∨
      (imEntropy W [.intTup cols] a .absent kw = .error .nonFinite ∧ imMI W (cols.map .ints) aM cond kwM = .error .nonFinite) := by
  have hne : cols ≠ [] := by rintro rfl; simp at h2
  have hd := defined_congr (jointCodes_same N cols) .ansb
  have P := pubH_ansb hH hb hK
  obtain ⟨e1, e2⟩ := C82_mi_ansb hM hb hcd hp u hu h1 cols N hN h2 hl
  by_cases h : (rows N cols).Nodup
  · refine .inr ⟨?_, e2 h⟩
    rw [P.tup cols N hN hne hl]
    exact (P.seq _ (jointCodes_ne hN cols)).2 (fun h' => (hd.1 h') h)
  · refine .inl (pubH_mi P hN hne hl (idn_col_repeats hl h) (hd.2 h) ?_)
    rw [e1 h]
    simp only [bias_sum_div_map, value_congr (jointCodes_same N cols), sub_div]

/-- **C91** NSB: the mutual information has a value exactly if all the entropies have one, and then the identity holds. -/
theorem C91_mi_nsb (hH : Call W .h .nsb a kw b) (hM : Call W .mi .nsb aM kwM b) (hb : b.Valid) (hcd : cond.isVal = false)
    (hp : Plain kwM) (K : Option Nat) (hK : kwOr kw "K" .none = idnK K) (hK' : kwOr kwM "K" .none = idnK K)
    (hK0 : ∀ k, K = some k → 0 < k) (cols : List (List Int)) (N : Nat) (hN : 0 < N)
    (h2 : 2 ≤ cols.length) (hl : ∀ c ∈ cols, c.length = N) :
    (MiFromEntropies W a kw aM cond kwM cols) ∨
      ((imEntropy W [.intTup cols] a .absent kw = .error .nonFinite ∨
          ∃ c ∈ cols, imEntropy W [.ints c] a .absent kw = .error .nonFinite) ∧
        imMI W (cols.map .ints) aM cond kwM = .error .nonFinite) := by
  have hne : cols ≠ [] := by rintro rfl; simp at h2
  have hd := nsb_defined_congr (jointCodes_same N cols) K
  have P := pubH_nsb hH hb K hK hK0
  obtain ⟨e1, e2⟩ := C82_mi_nsb hM hb hcd hp K hK' hK0 cols N hN h2 hl
  by_cases h : (∀ v ∈ cols, Nsb.Defined v K) ∧ Nsb.Defined (rows N cols) K
  · refine .inl (pubH_mi P hN hne hl h.1 (hd.2 h.2) ?_)
    rw [e1 h]
    simp only [bias_sum_div_map, nsb_value_congr (jointCodes_same N cols) (jointCodes_ne hN cols) hK0, sub_div]
  · refine .inr ⟨?_, e2 h⟩
    by_cases hj : Nsb.Defined (rows N cols) K
    · right
      have : ∃ v ∈ cols, ¬ Nsb.Defined v K := by
        by_contra hcon
        push Not at hcon
        exact h ⟨hcon, hj⟩
      obtain ⟨v, hv, hnd⟩ := this
      exact ⟨v, hv, (P.seq v (ne_nil_of_length hN (hl v hv))).2 hnd⟩
    · left
      rw [P.tup cols N hN hne hl]
      exact (P.seq _ (jointCodes_ne hN cols)).2 (fun h' => hj (hd.1 h'))

/-! ## Conditional mutual information -/

theorem idn_append_len {cols : List (List Int)} {z : List Int} (hl : ∀ c ∈ cols, c.length = z.length) :
    ∀ c ∈ cols ++ [z], c.length = z.length := by
  intro c hc
  rcases List.mem_append.1 hc with h | h
  · exact hl c h
  · rw [List.mem_singleton.1 h]

theorem pubH_cmi {D : List Int → Prop} {V : List Int → ℝ} (P : PubH W a kw D V) {cols : List (List Int)} {z : List Int} (hN : 0 < z.length)
    (hl : ∀ c ∈ cols, c.length = z.length) (hD : ∀ c ∈ cols, D (jointCodes z.length [c, z]))
    (hj : D (jointCodes z.length (cols ++ [z]))) (hz : D z) {r : ℝ}
    (hr : r = (cols.map (fun c => V (jointCodes z.length [c, z]))).sum - V (jointCodes z.length (cols ++ [z])) - V z)
    (e : CmiIs W (cols.map .ints) aM (.ints z) kwM (.ok r)) :
    CmiFromEntropies W a kw aM kwM cols z := by
  rw [hr] at e
  refine ⟨fun c => V (jointCodes z.length [c, z]), _, _, fun c hc => ?_, ?_, (P.seq z (List.length_pos_iff.1 hN)).1 hz, e.1, e.2⟩
  · rw [P.tup _ z.length hN (by simp) (by simp [hl c hc])]
    exact (P.seq _ (jointCodes_ne hN _)).1 (hD c hc)
  · rw [P.tup _ z.length hN (by simp) (idn_append_len hl)]
    exact (P.seq _ (jointCodes_ne hN _)).1 hj

/-- **C91** plug-in estimator, two variables: `I(X;Y|Z) = H(X,Z) + H(Y,Z) − H(X,Y,Z) − H(Z)` of the results of `im.entropy`. -/
theorem C91_cmi (hH : Call W .h .discrete a kw b) (hM : Call W .cmi .discrete aM kwM b) (hb : b.Std)
    (ho : kwOr kwM "offset" (.int 0) = .int 0) (xs ys z : List Int) (h1 : xs.length = ys.length) (h2 : ys.length = z.length)
    (hx : xs ≠ []) (hov : xs.length < 2 ^ 32) :
    CmiFromEntropies W a kw aM kwM [xs, ys] z := by
  have hN : 0 < z.length := by have := List.length_pos_iff.2 hx; omega
  have hxz : xs.length = z.length := h1.trans h2
  refine pubH_cmi (pubH_simple .discrete (by simp [simpleFams]) hH hb) hN (by simp [h2, hxz]) (fun _ _ => trivial) trivial trivial ?_
    (C82_cmi hM hb.valid ho xs ys z h1 h2 hx hov)
  have hJ : entropy (jointCodes z.length ([xs, ys] ++ [z])) = entropy (xs.zip (ys.zip z)) := by
    rw [entropy_jointCodes, idn_entropy_congr (ys := xs.zip (ys.zip z))]
    have e : xs.zip (ys.zip z) = (List.range z.length).map
        (fun t => (xs.getD t default, ys.getD t default, z.getD t default)) := by
      conv_lhs => rw [← col_map_range xs z.length hxz, zip_range ys z z.length h2 rfl]
      rw [zip_map_map]
    rw [e]
    exact sameCounts_map _ _ _ fun u _ v _ => by simp [Spec.row]
  simp only [List.map_cons, List.map_nil, List.sum_cons, List.sum_nil, add_zero, entropyFormula,
    idn_entropy_congr (idn_pair_same xs z hxz), idn_entropy_congr (idn_pair_same ys z h2), hJ, cmi_eq_entropies xs ys z h1 h2]
  ring

/-- **C91** Miller–Madow, any number of variables, unless the condition and a variable are constant. -/
theorem C91_cmi_miller_madow (hH : Call W .h .millerMadow a kw b) (hM : Call W .cmi .millerMadow aM kwM b) (hb : b.Std)
    (ho : kwOr kwM "offset" (.int 0) = .int 0) (cols : List (List Int)) (z : List Int) (hN : 0 < z.length) (h2 : 2 ≤ cols.length)
    (hl : ∀ c ∈ cols, c.length = z.length) (hov : z.length ^ cols.length < 2 ^ 64) (hc : ¬ (IsConst z ∧ ∃ c ∈ cols, IsConst c)) :
    CmiFromEntropies W a kw aM kwM cols z := by
  refine pubH_cmi (pubH_simple .millerMadow (by simp [simpleFams]) hH hb) hN hl (fun _ _ => trivial) trivial trivial ?_
    (C82_cmi_miller_madow hM hb.valid ho cols z hN h2 hl hov)
  rw [if_neg hc]
  have : entropyFormula .millerMadow = (millerMadow : List Int → ℝ) := rfl
  simp only [this, bias_sum_div_map, idn_mm_congr (jointCodes_same _ _), sub_div]

theorem idn_cmi_sum {m : Method} {cols : List (List Int)} {z : List Int} (hl : ∀ c ∈ cols, c.length = z.length) (x : ℝ) :
    ((cols.map (fun v => m.value (v.zip z))).sum - m.value ((rows z.length cols).zip z) - m.value z) / x =
      (cols.map (fun c => m.value (jointCodes z.length [c, z]) / x)).sum - m.value (jointCodes z.length (cols ++ [z])) / x -
        m.value z / x := by
  have : cols.map (fun c => m.value (jointCodes z.length [c, z]) / x) = cols.map (fun v => m.value (v.zip z) / x) :=
    List.map_congr_left fun c hc => by rw [value_congr (idn_pair_same c z (hl c hc))]
  rw [this, bias_sum_div_map, value_congr (idn_all_same cols z), sub_div, sub_div]

/-- **C91** the bias-corrected estimators without parameters, shrinkage excepted: any number of variables. -/
theorem C91_cmi_bias {f : Fam} {m : Method} (hf : FamMethod f m) (hs : f ≠ .shrink) (hH : Call W .h f a kw b) (hM : Call W .cmi f aM kwM b)
    (hb : b.Std) (hp : Plain kwM) (cols : List (List Int)) (z : List Int) (hN : 0 < z.length) (h2 : 2 ≤ cols.length)
    (hl : ∀ c ∈ cols, c.length = z.length) :
    CmiFromEntropies W a kw aM kwM cols z := by
  obtain ⟨h1, hv⟩ := idn_fam_value hf hs
  refine pubH_cmi (pubH_simple f h1 hH hb) hN hl (fun _ _ => trivial) trivial trivial ?_ (C82_cmi_bias hf hM hb.valid hp cols z hN h2 hl)
  simp only [hv, idn_cmi_sum hl]

/-- **C91** the Bayesian estimator. -/
theorem C91_cmi_bayes (al : AlphaArg) (K : Option Nat) {m : Method}
    (hm : (BiasClass.bayes al (K.map (fun k : Nat => PyArg.int (k : Int)))).Means m)
    (hH : Call W .h .bayes a kw b) (hM : Call W .cmi .bayes aM kwM b) (hb : b.Valid) (hp : Plain kwM)
    (h1 : (kw "alpha").bind PyVal.toAlpha = some al) (h1' : (kwM "alpha").bind PyVal.toAlpha = some al)
    (h3 : kwOr kw "K" .none = idnK K) (h3' : kwOr kwM "K" .none = idnK K) (cols : List (List Int)) (z : List Int) (hN : 0 < z.length)
    (h2 : 2 ≤ cols.length) (hl : ∀ c ∈ cols, c.length = z.length) :
    CmiFromEntropies W a kw aM kwM cols z := by
  refine pubH_cmi (pubH_bayes al K hm hH hb h1 h3) hN hl (fun _ _ => trivial) trivial trivial ?_
    (C82_cmi_bayes al _ hm hM hb hp h1' (by rw [h3']; cases K <;> rfl) cols z hN h2 hl)
  rw [idn_cmi_sum hl]

/-- **C91** ANSB: conditional mutual information and joint entropy have a value for the same data, and then the identity holds. -/
theorem C91_cmi_ansb (hH : Call W .h .ansb a kw b) (hM : Call W .cmi .ansb aM kwM b) (hb : b.Valid)
    (hp : Plain kwM) (u : ℝ) (hu : 0 ≤ u) (h1 : (kwOr kwM "undersampled" (.num (1 / 10))).toNum = some u)
    (hK : kwOr kw "K" .none = .none) (cols : List (List Int)) (z : List Int) (hN : 0 < z.length)
    (h2 : 2 ≤ cols.length) (hl : ∀ c ∈ cols, c.length = z.length) :
    CmiFromEntropies W a kw aM kwM cols z ∨
      (imEntropy W [.intTup (cols ++ [z])] a .absent kw = .error .nonFinite ∧
        CmiIs W (cols.map .ints) aM (.ints z) kwM (.error .nonFinite)) := by
  have hd := defined_congr (idn_all_same cols z) .ansb
  have P := pubH_ansb hH hb hK
  obtain ⟨e1, e2⟩ := C82_cmi_ansb hM hb hp u hu h1 cols z hN h2 hl
  by_cases h : ((rows z.length cols).zip z).Nodup
  · refine .inr ⟨?_, e2 h⟩
    rw [P.tup _ z.length hN (by simp) (idn_append_len hl)]
    exact (P.seq _ (jointCodes_ne hN _)).2 (fun h' => (hd.1 h') h)
  · have h' : Method.ansb.Defined ((List.range z.length).map (fun t => (row cols t, z.getD t default))) := by
      rw [rows_zip_getD cols z rfl] at h; exact h
    refine .inl (pubH_cmi P hN hl (fun c hc => ?_) (hd.2 h) ?_ ?_ (e1 h))
    · refine (defined_congr (idn_pair_same c z (hl c hc)) .ansb).2 ?_
      rw [zip_getD c z (hl c hc) rfl]
      refine defined_of_factor (List.range z.length) _ _ (fun s _ t _ hst => ?_) .ansb h'
      rw [Prod.mk.injEq] at hst ⊢
      exact ⟨(row_mem_iff cols s t).1 hst.1 c hc, hst.2⟩
    · rw [bias_map_getD_range z rfl]
      refine defined_of_factor (List.range z.length) _ _ (fun s _ t _ hst => ?_) .ansb h'
      rw [Prod.mk.injEq] at hst
      exact hst.2
    · rw [idn_cmi_sum hl]

/-- **C91** NSB. -/
theorem C91_cmi_nsb (hH : Call W .h .nsb a kw b) (hM : Call W .cmi .nsb aM kwM b) (hb : b.Valid)
    (hp : Plain kwM) (K : Option Nat) (hK : kwOr kw "K" .none = idnK K) (hK' : kwOr kwM "K" .none = idnK K)
    (hK0 : ∀ k, K = some k → 0 < k) (cols : List (List Int)) (z : List Int) (hN : 0 < z.length)
    (h2 : 2 ≤ cols.length) (hl : ∀ c ∈ cols, c.length = z.length) :
    CmiFromEntropies W a kw aM kwM cols z ∨
      ((imEntropy W [.intTup (cols ++ [z])] a .absent kw = .error .nonFinite ∨ imEntropy W [.ints z] a .absent kw = .error .nonFinite ∨
          ∃ c ∈ cols, imEntropy W [.intTup [c, z]] a .absent kw = .error .nonFinite) ∧
        CmiIs W (cols.map .ints) aM (.ints z) kwM (.error .nonFinite)) := by
  have hd := nsb_defined_congr (idn_all_same cols z) K
  have P := pubH_nsb hH hb K hK hK0
  obtain ⟨e1, e2⟩ := C82_cmi_nsb hM hb hp K hK' hK0 cols z hN h2 hl
  by_cases h : (∀ v ∈ cols, Nsb.Defined (v.zip z) K) ∧ Nsb.Defined ((rows z.length cols).zip z) K ∧ Nsb.Defined z K
  · refine .inl (pubH_cmi P hN hl (fun c hc => (nsb_defined_congr (idn_pair_same c z (hl c hc)) K).2 (h.1 c hc)) (hd.2 h.2.1) h.2.2 ?_
      (e1 h))
    have : cols.map (fun c => Nsb.value (jointCodes z.length [c, z]) K / b.ln) = cols.map (fun v => Nsb.value (v.zip z) K / b.ln) :=
      List.map_congr_left fun c hc => by rw [nsb_value_congr (idn_pair_same c z (hl c hc)) (jointCodes_ne hN _) hK0]
    rw [this, bias_sum_div_map, nsb_value_congr (idn_all_same cols z) (jointCodes_ne hN _) hK0, sub_div, sub_div]
  · refine .inr ⟨?_, e2 h⟩
    by_cases hj : Nsb.Defined ((rows z.length cols).zip z) K
    · right
      by_cases hz : Nsb.Defined z K
      · right
        have : ∃ v ∈ cols, ¬ Nsb.Defined (v.zip z) K := by
          by_contra hcon
          push Not at hcon
          exact h ⟨hcon, hj, hz⟩
        obtain ⟨v, hv, hnd⟩ := this
        refine ⟨v, hv, ?_⟩
        rw [P.tup _ z.length hN (by simp) (by simp [hl v hv])]
        exact (P.seq _ (jointCodes_ne hN _)).2 (fun h' => hnd ((nsb_defined_congr (idn_pair_same v z (hl v hv)) K).1 h'))
      · left
        exact (P.seq z (List.length_pos_iff.1 hN)).2 hz
    · left
      rw [P.tup _ z.length hN (by simp) (idn_append_len hl)]
      exact (P.seq _ (jointCodes_ne hN _)).2 (fun h' => hj (hd.1 h'))

end Verif
