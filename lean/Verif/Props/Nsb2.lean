import Verif.Props.Nsb
import Verif.Props.BiasMI2
import Verif.Lemmas.Divergence

/-! # Property C67 continued: bounds, invariances, mutual information and transfer entropy -/

namespace Verif

open Spec MeasureTheory

/-! ## The estimate depends on the counts only -/

section
variable {α β : Type} [DecidableEq α] [DecidableEq β]

theorem nsb_support_congr {xs : List α} {ys : List β} (h : SameCounts xs ys) (K : Option Nat) :
    Nsb.support xs K = Nsb.support ys K := by
  cases K <;> simp [Nsb.support, h.card]

theorem nsb_defined_congr {xs : List α} {ys : List β} (h : SameCounts xs ys) (K : Option Nat) :
    Nsb.Defined xs K ↔ Nsb.Defined ys K := by
  simp only [Nsb.Defined, nsb_support_congr h, h.len]

theorem nsb_estimate_congr {xs : List α} {ys : List β} (h : SameCounts xs ys) {K : ℕ} (hK : 1 ≤ K) :
    Nsb.estimate xs K = Nsb.estimate ys K := by
  have hlog : 0 ≤ Real.log (K : ℝ) := Real.log_nonneg (by exact_mod_cast hK)
  have hw : ∀ t : ℝ, 0 < t → Nsb.weight xs K t = Nsb.weight ys K t := by
    intro t ht
    have hp : ∀ {γ : Type} [DecidableEq γ] (zs : List γ), ∏ a ∈ zs.toFinset, Nsb.rising t (cnt zs a) ^ cnt zs a =
        Real.exp (∑ a ∈ zs.toFinset, Real.log (Nsb.rising t (cnt zs a) ^ cnt zs a)) := by
      intro γ _ zs
      rw [Real.exp_sum]
      exact Finset.prod_congr rfl fun a _ => (Real.exp_log (pow_pos (rising_pos ht _) _)).symm
    rw [Nsb.weight, Nsb.weight, hp, hp, h.sum (fun n => Real.log (Nsb.rising t n ^ n)), h.len]
  have hm : ∀ t : ℝ, Nsb.posteriorMean xs t = Nsb.posteriorMean ys t := by
    intro t
    have := h.sum (fun n => ((n : ℝ) + t) / (ys.length + ys.toFinset.card * t) * Nsb.psi ((n : ℝ) + t + 1))
    simp only [Nsb.posteriorMean, h.len, h.card]
    rw [this]
  rw [Nsb.estimate, Nsb.estimate]
  congr 1
  · exact intervalIntegral.integral_congr_Ioo_of_le hlog fun t ht => by simp only [hw t ht.1, hm]
  · exact intervalIntegral.integral_congr_Ioo_of_le hlog fun t ht => hw t ht.1

/-- the estimate as a function of the sample -/
noncomputable def Spec.Nsb.value (xs : List α) (K : Option Nat) : ℝ := Nsb.estimate xs (Nsb.support xs K)

theorem nsb_support_pos {xs : List α} (hx : xs ≠ []) {K : Option Nat} (hK : ∀ k, K = some k → 0 < k) :
    1 ≤ Nsb.support xs K := by
  cases K with
  | some k => exact hK k rfl
  | none =>
    obtain ⟨a, ha⟩ := List.exists_mem_of_ne_nil xs hx
    exact Finset.card_pos.2 ⟨a, List.mem_toFinset.2 ha⟩

theorem nsb_value_congr {xs : List α} {ys : List β} (h : SameCounts xs ys) {K : Option Nat} (hx : xs ≠ [])
    (hK : ∀ k, K = some k → 0 < k) : Nsb.value xs K = Nsb.value ys K := by
  rw [Nsb.value, Nsb.value, ← nsb_support_congr h, nsb_estimate_congr h (nsb_support_pos hx hK)]

end

/-- **C67** Order of the samples and names of the symbols do not matter. -/
theorem C67_order_and_names (xs : List Int) (hx : xs ≠ []) (ys : List Int) (hp : xs.Perm ys) (zs : List Int)
    (hr : Renamed ys zs) (find : Int → Int → ℝ) (K : Option Nat) (hK : ∀ k, K = some k → 0 < k) (b : Base) (hb : b.Valid) :
    nsbEntropy find (K.map Int.ofNat) b [.arr1 zs] = nsbEntropy find (K.map Int.ofNat) b [.arr1 xs] := by
  have hy : ys ≠ [] := fun e => hx (by rw [e] at hp; exact hp.eq_nil)
  have hz : zs ≠ [] := fun e => hy (List.length_eq_zero_iff.1 (by rw [← renamed_length hr, e]; rfl))
  have hs : SameCounts zs xs := (renamed_same hr).trans (sameCounts_perm hp.symm)
  obtain ⟨a1, a2⟩ := C67_entropy zs hz find K hK b hb
  obtain ⟨b1, b2⟩ := C67_entropy xs hx find K hK b hb
  by_cases hd : Nsb.Defined zs K
  · rw [a1 hd, b1 ((nsb_defined_congr hs K).1 hd)]
    have := nsb_value_congr hs hz hK
    rw [Nsb.value, Nsb.value] at this
    rw [this]
  · rw [a2 hd, b2 fun h => hd ((nsb_defined_congr hs K).2 h)]

example (find : Int → Int → ℝ) := C67_order_and_names [0, 0, 1] (by decide) [1, 0, 0] (by decide) [4, 9, 9]
  ⟨fun x => 9 - 5 * x, by decide, by decide⟩ find (some 7) (by simp) (.num 2) (by norm_num [Base.Valid])

/-- **C67** Bounds: the estimate is never negative and never larger than the log of the number of *observed* symbols, whatever
support size is given. -/
theorem C67_bounds (xs : List Int) (hx : xs ≠ []) (find : Int → Int → ℝ) (K : Option Nat) (hK : ∀ k, K = some k → 0 < k)
    (b : Base) (hb : b.Std) (v : ℝ) (h : nsbEntropy find (K.map Int.ofNat) b [.arr1 xs] = .ok v) :
    0 ≤ v ∧ v ≤ Real.log xs.toFinset.card / b.ln := by
  obtain ⟨a1, a2⟩ := C67_entropy xs hx find K hK b hb.valid
  by_cases hd : Nsb.Defined xs K
  · rw [a1 hd] at h
    obtain rfl := Except.ok.inj h
    obtain ⟨h1, h2⟩ := nsb_estimate_bounds xs hx hd.1
    exact ⟨div_nonneg h1 hb.ln_pos.le, div_le_div_of_nonneg_right h2 hb.ln_pos.le⟩
  · rw [a2 hd] at h; cases h

example (find : Int → Int → ℝ) : 0 ≤ Nsb.estimate [0, 0, (1 : Int)] (Nsb.support [0, 0, (1 : Int)] (some 7)) / (Base.num 2).ln ∧
    Nsb.estimate [0, 0, (1 : Int)] (Nsb.support [0, 0, (1 : Int)] (some 7)) / (Base.num 2).ln ≤
      Real.log [0, 0, (1 : Int)].toFinset.card / (Base.num 2).ln :=
  C67_bounds [0, 0, 1] (by decide) find (some 7) (by simp) (.num 2) (by norm_num [Base.Std]) _
    ((C67_entropy [0, 0, 1] (by decide) find (some 7) (by simp) (.num 2) (by norm_num [Base.Valid])).1 (by simp only [Nsb.Defined, Nsb.support]; decide))

/-- **C67** The root finder used for numerical stability has no influence on the result. -/
theorem C67_root_finder_irrelevant (xs : List Int) (hx : xs ≠ []) (find find' : Int → Int → ℝ) (K : Option Nat)
    (hK : ∀ k, K = some k → 0 < k) (b : Base) (hb : b.Valid) :
    nsbEntropy find (K.map Int.ofNat) b [.arr1 xs] = nsbEntropy find' (K.map Int.ofNat) b [.arr1 xs] := by
  obtain ⟨a1, a2⟩ := C67_entropy xs hx find K hK b hb
  obtain ⟨b1, b2⟩ := C67_entropy xs hx find' K hK b hb
  by_cases hd : Nsb.Defined xs K
  · rw [a1 hd, b1 hd]
  · rw [a2 hd, b2 hd]

example (find find' : Int → Int → ℝ) := C67_root_finder_irrelevant [0, 0, 1] (by decide) find find' none (by simp) (.num 2) (by norm_num [Base.Valid])

/-- **C67** Neither a constant sample nor a sample without repetitions has a finite estimate (unless a support size is given). -/
theorem C67_no_value (xs : List Int) (hx : xs ≠ []) (h : xs.Nodup ∨ ∀ u ∈ xs, ∀ v ∈ xs, u = v) (find : Int → Int → ℝ) (b : Base)
    (hb : b.Valid) : nsbEntropy find none b [.arr1 xs] = .error .nonFinite := by
  refine (C67_entropy xs hx find none (by simp) b hb).2 ?_
  rintro ⟨h1, h2⟩
  simp only [Nsb.support] at h1 h2
  rcases h with h | h
  · exact h2 (List.toFinset_card_of_nodup h)
  · obtain ⟨a, ha⟩ := List.exists_mem_of_ne_nil xs hx
    rw [toFinset_const ha h, Finset.card_singleton] at h1
    omega

example (find : Int → Int → ℝ) := C67_no_value [0, 3, 1] (by decide) (.inl (by decide)) find (.num 2) (by norm_num [Base.Valid])
example (find : Int → Int → ℝ) := C67_no_value [3, 3, 3] (by decide) (.inr (by decide)) find (.num 2) (by norm_num [Base.Valid])

/-- **C67** A constant sample with a given support size `K` (not 1, not the sample size) has estimate 0, however large `K`. -/
theorem C67_constant (xs : List Int) (hx : xs ≠ []) (h : ∀ u ∈ xs, ∀ v ∈ xs, u = v) (find : Int → Int → ℝ) (K : Nat) (hK : 2 ≤ K)
    (hKN : K ≠ xs.length) (b : Base) (hb : b.Std) : nsbEntropy find (some (K : Int)) b [.arr1 xs] = .ok 0 := by
  have e := (C67_entropy xs hx find (some K) (by rintro k ⟨⟩; omega) b hb.valid).1 ⟨hK, hKN⟩
  obtain ⟨a, ha⟩ := List.exists_mem_of_ne_nil xs hx
  have hbd := C67_bounds xs hx find (some K) (by rintro k ⟨⟩; omega) b hb _ e
  rw [toFinset_const ha h, Finset.card_singleton, Nat.cast_one, Real.log_one, zero_div] at hbd
  show nsbEntropy find ((some K).map Int.ofNat) b [.arr1 xs] = _
  rw [e]
  congr 1
  exact le_antisymm hbd.2 hbd.1

example (find : Int → Int → ℝ) := C67_constant [3, 3, 3, 3] (by decide) (by decide) find 7 (by decide) (by decide) (.num 2) (by norm_num [Base.Std])

/-- **C67** A given support size equal to the sample size gives no value, although the sample may have repetitions. -/
theorem C67_support_equals_sample_size (xs : List Int) (hx : xs ≠ []) (find : Int → Int → ℝ) (b : Base) (hb : b.Valid) :
    nsbEntropy find (some (xs.length : Int)) b [.arr1 xs] = .error .nonFinite :=
  (C67_entropy xs hx find (some xs.length) (by rintro k ⟨⟩; exact List.length_pos_iff.2 hx) b hb).2 fun hd => hd.2 rfl

example (find : Int → Int → ℝ) := C67_support_equals_sample_size [0, 0, 1] (by decide) find (.num 2) (by norm_num [Base.Valid])

/-- **C67** There is no NSB cross-entropy and there are no local values. -/
theorem C67_no_cross_no_local (xs ys : List Int) (hx : xs ≠ []) (hy : ys ≠ []) (find : Int → Int → ℝ) (K : Option Int) (b : Base) :
    nsbEntropy find K b [.arr1 xs, .arr1 ys] = .error .theoreticalInconsistency ∧
    (nsbH find K b).locals (.arr1 xs) = .error .theoreticalInconsistency := by
  constructor
  · simp only [nsbEntropy, discreteHInit_pair hx hy, bind, Except.bind, entropyDispatch]
  · simp only [HEst.locals, hConstruct_arr1 hx, nsbH, bind, Except.bind]

example (find : Int → Int → ℝ) := C67_no_cross_no_local [0, 0, 1] [2, 0] (by decide) (by decide) find none .e

/-! ## Mutual information and transfer entropy -/

theorem nsb_glob (find : Int → Int → ℝ) {K : Option Nat} (hK : ∀ k, K = some k → 0 < k) {b : Base} (hb : b.Valid) :
    (nsbH find (K.map Int.ofNat) b).Glob (fun xs => Nsb.Defined xs K) (fun xs => Nsb.value xs K / b.ln) := fun xs hx =>
  ⟨.inr rfl, (nsbSimple_ok xs hx find K hK b hb).1, (nsbSimple_ok xs hx find K hK b hb).2⟩

/-- the keyword `K` as a Python value -/
def nsbArg (K : Option Nat) : Option PyArg := K.map (fun k : Nat => .int (k : Int))

theorem nsbCheck_ok {K : Option Nat} (hK : ∀ k, K = some k → 0 < k) : nsbCheck (nsbArg K) = .ok (K.map Int.ofNat) := by
  cases K with
  | none => rfl
  | some k =>
    have := hK k rfl
    simp only [nsbArg, Option.map_some, nsbCheck]
    rw [if_neg (by omega)]; rfl

/-- **C67** NSB mutual information: `Σ H(X_i) − H(X_1,…,X_n)` of the NSB estimates if all of them exist, else no finite value. -/
theorem C67_mi (find : Int → Int → ℝ) (K : Option Nat) (hK : ∀ k, K = some k → 0 < k) (cols : List (List Int)) (N : Nat)
    (hN : 0 < N) (h2 : 2 ≤ cols.length) (hl : ∀ v ∈ cols, v.length = N) (b : Base) (hb : b.Valid) :
    ((∀ v ∈ cols, Nsb.Defined v K) ∧ Nsb.Defined (rows N cols) K → nsbMI find (nsbArg K) cols (some 0) b =
      .ok (((cols.map (fun v => Nsb.value v K)).sum - Nsb.value (rows N cols) K) / b.ln)) ∧
    (¬ ((∀ v ∈ cols, Nsb.Defined v K) ∧ Nsb.Defined (rows N cols) K) →
      nsbMI find (nsbArg K) cols (some 0) b = .error .nonFinite) := by
  have hc0 : cols ≠ [] := by rintro rfl; simp at h2
  have hne : ∀ v ∈ cols, v ≠ [] := fun v hv => ne_nil_of_length hN (hl v hv)
  have hsame := jointCodes_same N cols
  have hjne : jointCodes N cols ≠ [] := ne_nil_of_length hN (jointCodes_length N cols)
  obtain ⟨k1, k2⟩ := combine_val (.inr (nsb_glob find hK hb)) hN cols [jointCodes N cols] hc0 hl (by simp [jointCodes_length])
  have e : nsbMI find (nsbArg K) cols (some 0) b =
      combineH (nsbH find (K.map Int.ofNat) b) (cols.map mkData) ([jointCodes N cols].map mkData) := by
    simp only [nsbMI, miInit_ok h2 hl, nsbCheck_ok hK, genericMI, bind, Except.bind, mapM_hConstruct cols hne,
      hConstruct_tup hN hc0 hl, List.map_cons, List.map_nil]
  constructor
  · rintro ⟨hd1, hd2⟩
    rw [e, k1]
    · simp only [List.map_cons, List.map_nil, List.sum_cons, List.sum_nil, add_zero, bias_sum_div_map,
        nsb_value_congr hsame hjne hK]
      congr 1; ring
    · rintro v (hv | hv)
      · exact hd1 v hv
      · rw [List.mem_singleton.1 hv]; exact (nsb_defined_congr hsame K).2 hd2
  · intro hd
    rw [e, k2]
    by_contra hcon
    push Not at hcon
    exact hd ⟨fun v hv => hcon v (.inl hv), (nsb_defined_congr hsame K).1 (hcon _ (.inr (List.mem_singleton.2 rfl)))⟩

example (find : Int → Int → ℝ) := (C67_mi find none (by simp) [[0, 0, 1], [5, 5, 6]] 3 (by decide) (by decide) (by decide) (.num 2) (by norm_num [Base.Valid])).1
  (by simp only [Nsb.Defined, Nsb.support]; decide)

/-- **C67** NSB conditional mutual information: `Σ H(X_i, Z) − H(X_1,…,X_n, Z) − H(Z)` if all four estimates exist, else no finite
value. -/
theorem C67_cmi (find : Int → Int → ℝ) (K : Option Nat) (hK : ∀ k, K = some k → 0 < k) (cols : List (List Int)) (z : List Int)
    (hN : 0 < z.length) (h2 : 2 ≤ cols.length) (hl : ∀ v ∈ cols, v.length = z.length) (b : Base) (hb : b.Valid) :
    let ok := (∀ v ∈ cols, Nsb.Defined (v.zip z) K) ∧ Nsb.Defined ((rows z.length cols).zip z) K ∧ Nsb.Defined z K
    (ok → nsbCMI find (nsbArg K) cols z (some 0) b = .ok (((cols.map (fun v => Nsb.value (v.zip z) K)).sum
        - Nsb.value ((rows z.length cols).zip z) K - Nsb.value z K) / b.ln)) ∧
    (¬ ok → nsbCMI find (nsbArg K) cols z (some 0) b = .error .nonFinite) := by
  intro ok
  have hc0 : cols ≠ [] := by rintro rfl; simp at h2
  have hzne : z ≠ [] := List.length_pos_iff.1 hN
  have hp : ∀ v ∈ cols, hConstruct (.tup [v, z]) = .ok (mkData (jointCodes z.length [v, z])) :=
    fun v hv => hConstruct_tup hN (by simp) (by simp [hl v hv])
  have hall : ∀ v ∈ cols ++ [z], v.length = z.length := by
    intro v hv
    rcases List.mem_append.1 hv with hv | hv
    · exact hl v hv
    · rw [List.mem_singleton.1 hv]
  have hj := hConstruct_tup hN (cols := cols ++ [z]) (by simp) hall
  have sP : ∀ v ∈ cols, SameCounts (jointCodes z.length [v, z]) (v.zip z) := by
    intro v hv
    refine (jointCodes_same z.length [v, z]).trans ?_
    rw [zip_getD v z (hl v hv) rfl]
    refine sameCounts_map _ _ _ fun s _ t _ => ?_
    rw [row_mem_iff, Prod.mk.injEq]; simp
  have sJ : SameCounts (jointCodes z.length (cols ++ [z])) ((rows z.length cols).zip z) := by
    refine (jointCodes_same z.length (cols ++ [z])).trans ?_
    rw [rows_zip_getD cols z rfl]
    refine sameCounts_map _ _ _ fun s _ t _ => ?_
    rw [row_mem_iff, Prod.mk.injEq, row_mem_iff]
    simp only [List.mem_append, List.mem_singleton]
    exact ⟨fun h => ⟨fun c hc => h c (.inl hc), h z (.inr rfl)⟩, fun h c hc => hc.elim (h.1 c) (by rintro rfl; exact h.2)⟩
  have hjne : ∀ cs, jointCodes z.length cs ≠ [] := fun cs => ne_nil_of_length hN (jointCodes_length _ _)
  obtain ⟨k1, k2⟩ := combine_val (.inr (nsb_glob find hK hb)) hN (cols.map (fun v => jointCodes z.length [v, z]))
    [jointCodes z.length (cols ++ [z]), z] (by simpa using hc0)
    (by intro v hv; obtain ⟨d, _, rfl⟩ := List.mem_map.1 hv; exact jointCodes_length _ _)
    (by simp [jointCodes_length])
  have hi : cmiInit cols (some z) (some 0) = .ok (cols, z) := cmiInit_ok h2 hl (.inl rfl)
  have e : nsbCMI find (nsbArg K) cols z (some 0) b = combineH (nsbH find (K.map Int.ofNat) b)
      ((cols.map (fun v => jointCodes z.length [v, z])).map mkData) ([jointCodes z.length (cols ++ [z]), z].map mkData) := by
    simp only [nsbCMI, hi, nsbCheck_ok hK, genericCMI, bind, Except.bind, hj, hConstruct_arr1 hzne, List.map_cons, List.map_nil]
    rw [mapM_ok cols hp, List.map_map]
    rfl
  constructor
  · rintro ⟨d1, d2, d3⟩
    rw [e, k1]
    · have hv : (cols.map (fun v => jointCodes z.length [v, z])).map (fun xs => Nsb.value xs K / b.ln) =
          cols.map (fun v => Nsb.value (v.zip z) K / b.ln) := by
        rw [List.map_map]
        refine List.map_congr_left fun v hv => ?_
        simp only [Function.comp, nsb_value_congr (sP v hv) (hjne _) hK]
      rw [hv]
      simp only [List.map_cons, List.map_nil, List.sum_cons, List.sum_nil, add_zero, bias_sum_div_map,
        nsb_value_congr sJ (hjne _) hK]
      congr 1; ring
    · rintro v (hv | hv)
      · obtain ⟨w, hw, rfl⟩ := List.mem_map.1 hv
        exact (nsb_defined_congr (sP w hw) K).2 (d1 w hw)
      · simp only [List.mem_cons, List.not_mem_nil, or_false] at hv
        rcases hv with rfl | rfl
        · exact (nsb_defined_congr sJ K).2 d2
        · exact d3
  · intro hd
    rw [e, k2]
    by_contra hcon
    push Not at hcon
    refine hd ⟨fun v hv => (nsb_defined_congr (sP v hv) K).1 (hcon _ (.inl (List.mem_map_of_mem hv))),
      (nsb_defined_congr sJ K).1 (hcon _ (.inr (by simp))), hcon _ (.inr (by simp))⟩

example (find : Int → Int → ℝ) := C67_cmi find none (by simp) [[0, 0, 1], [5, 5, 6]] [1, 1, 0] (by decide) (by decide) (by decide) (.num 2) (by norm_num [Base.Valid])

/-- the generic combination on the four spaces of an embedding -/
theorem nsb_spaces (find : Int → Int → ℝ) {K : Option Nat} (hK : ∀ k, K = some k → 0 < k) {b : Base} (hb : b.Valid) {R : Nat}
    (hR : 0 < R) (m2 m1 j dp : Nat → List Int) {A B C D : Type} [DecidableEq A] [DecidableEq B] [DecidableEq C] [DecidableEq D]
    {xa : List A} {xb : List B} {xc : List C} {xd : List D}
    (sa : SameCounts ((List.range R).map m2) xa) (sb : SameCounts ((List.range R).map m1) xb)
    (sc : SameCounts ((List.range R).map j) xc) (sd : SameCounts ((List.range R).map dp) xd) :
    let ok := Nsb.Defined xa K ∧ Nsb.Defined xb K ∧ Nsb.Defined xc K ∧ Nsb.Defined xd K
    let run : Except Exc ℝ := do
        let a ← hConstruct (.arr2 ((List.range R).map m2))
        let b' ← hConstruct (.arr2 ((List.range R).map m1))
        let c' ← hConstruct (.arr2 ((List.range R).map j))
        let d ← hConstruct (.arr2 ((List.range R).map dp))
        combineH (nsbH find (K.map Int.ofNat) b) [a, b'] [c', d]
    (ok → run = .ok ((Nsb.value xa K + Nsb.value xb K - Nsb.value xc K - Nsb.value xd K) / b.ln)) ∧
    (¬ ok → run = .error .nonFinite) := by
  intro ok run
  have hne : ∀ f : Nat → List Int, (List.range R).map f ≠ [] := fun f => by simp; omega
  have hlen : ∀ f : Nat → List Int, (rowCodes ((List.range R).map f)).length = R := fun f => by
    simp [rowCodes_length]
  have hs : ∀ f : Nat → List Int, SameCounts (rowCodes ((List.range R).map f)) ((List.range R).map f) := by
    intro f
    have h := sameCounts_map ((List.range R).map f) (Int.ofNat ∘ npPos ((List.range R).map f)) id
      (fun u hu v hv => rowCodes_inj _ hu hv)
    rw [List.map_id, ← rowCodes_eq] at h
    exact h
  have hrne : ∀ f : Nat → List Int, rowCodes ((List.range R).map f) ≠ [] := fun f => ne_nil_of_length hR (hlen f)
  have ta := (hs m2).trans sa
  have tb := (hs m1).trans sb
  have tc := (hs j).trans sc
  have td := (hs dp).trans sd
  obtain ⟨k1, k2⟩ := combine_val (.inr (nsb_glob find hK hb)) hR
    [rowCodes ((List.range R).map m2), rowCodes ((List.range R).map m1)]
    [rowCodes ((List.range R).map j), rowCodes ((List.range R).map dp)] (by simp) (by simp [hlen]) (by simp [hlen])
  simp only [run, hConstruct_arr2 (hne _), bind, Except.bind]
  constructor
  · rintro ⟨d1, d2, d3, d4⟩
    refine (k1 ?_).trans ?_
    · simp only [List.mem_cons, List.not_mem_nil, or_false]
      rintro v ((rfl | rfl) | (rfl | rfl))
      · exact (nsb_defined_congr ta K).2 d1
      · exact (nsb_defined_congr tb K).2 d2
      · exact (nsb_defined_congr tc K).2 d3
      · exact (nsb_defined_congr td K).2 d4
    · simp only [List.map_cons, List.map_nil, List.sum_cons, List.sum_nil, nsb_value_congr ta (hrne _) hK,
        nsb_value_congr tb (hrne _) hK, nsb_value_congr tc (hrne _) hK, nsb_value_congr td (hrne _) hK]
      congr 1; ring
  · intro hd
    refine k2 ?_
    by_contra hcon
    push Not at hcon
    exact hd ⟨(nsb_defined_congr ta K).1 (hcon _ (.inl (by simp))), (nsb_defined_congr tb K).1 (hcon _ (.inl (by simp))),
      (nsb_defined_congr tc K).1 (hcon _ (.inr (by simp))), (nsb_defined_congr td K).1 (hcon _ (.inr (by simp)))⟩

/-- **C67** NSB transfer entropy: `H(Y⁺,Y) + H(X,Y) − H(Y⁺,X,Y) − H(Y)` of the embedded rows if the four estimates exist, else no
finite value. -/
theorem C67_te (find : Int → Int → ℝ) (K : Option Nat) (hK : ∀ k, K = some k → 0 < k) (source dest : List Int) (l k s : Nat)
    (hs : 0 < s) (hl : 0 < l) (hk : 0 < k) (hm : max k l * s < source.length) (hlen : source.length = dest.length) (b : Base)
    (hb : b.Valid) (rnd : SrcRandom) (hr : rnd.Lawful) :
    let R := numRows dest.length (max k l) s
    let F := futRows dest dest.length (max k l) s
    let G := (srcSel rnd R).map (histRow source (max k l) s l)
    let D := histRows dest dest.length (max k l) s k
    let ok := Nsb.Defined (F.zip D) K ∧ Nsb.Defined (G.zip D) K ∧ Nsb.Defined (F.zip (G.zip D)) K ∧ Nsb.Defined D K
    (ok → nsbTE find (nsbArg K) source dest (teParams l k s) (some (.int 0)) none b rnd = .ok ((Nsb.value (F.zip D) K +
      Nsb.value (G.zip D) K - Nsb.value (F.zip (G.zip D)) K - Nsb.value D K) / b.ln)) ∧
    (¬ ok → nsbTE find (nsbArg K) source dest (teParams l k s) (some (.int 0)) none b rnd = .error .nonFinite) := by
  intro R F G D ok
  have hm' : max k l * s < dest.length := hlen ▸ hm
  have hR : 0 < R := numRows_pos hs hm'
  set f : Nat → List Int := fun i => [dest.getD ((max k l + i) * s) default] with hf
  set g : Nat → List Int := fun i => histRow source (max k l) s l ((srcSel rnd R).getD i 0) with hg
  set d : Nat → List Int := histRow dest (max k l) s k with hd
  have hF : F = (List.range R).map f := rfl
  have hG : G = (List.range R).map g := srcRows_eq _ _ _ _ _ hr
  have hD : D = (List.range R).map d := rfl
  have hsl := teObservations_ok source dest l k s hs hl hk hm hlen hr
  rw [srcRows_eq _ _ _ _ _ hr, histRows, futRows] at hsl
  have hsp := teSpaces_ok R f g d
  have gl : ∀ i, (g i).length = l := fun i => by simp [hg, histRow]
  have dl : ∀ i, (d i).length = k := fun i => by simp [hd, histRow]
  have sJ : SameCounts ((List.range R).map (fun i => g i ++ d i ++ f i)) (F.zip (G.zip D)) := by
    rw [hF, hG, hD, zip_range_map, zip_range_map]
    refine sameCounts_map _ _ _ fun u _ v _ => ?_
    rw [append_eq_iff (by simp [gl, dl]), append_eq_iff (by simp [gl]), Prod.mk.injEq, Prod.mk.injEq]
    tauto
  have s2 : SameCounts ((List.range R).map (fun i => d i ++ f i)) (F.zip D) := by
    rw [hF, hD, zip_range_map]
    refine sameCounts_map _ _ _ fun u _ v _ => ?_
    rw [append_eq_iff (by simp [dl]), Prod.mk.injEq]; tauto
  have s1 : SameCounts ((List.range R).map (fun i => g i ++ d i)) (G.zip D) := by
    rw [hG, hD, zip_range_map]
    refine sameCounts_map _ _ _ fun u _ v _ => ?_
    rw [append_eq_iff (by simp [gl]), Prod.mk.injEq]
  have s0 : SameCounts ((List.range R).map d) D := sameCounts_perm (by rw [hD])
  have key := nsb_spaces find hK hb hR _ _ _ _ s2 s1 sJ s0
  have hsl' : teObservations source dest (.int l) (.int k) (.int s) rnd =
    .ok { src := (List.range R).map g, dest := (List.range R).map d, fut := (List.range R).map f } := hsl
  have e : nsbTE find (nsbArg K) source dest (teParams l k s) (some (.int 0)) none b rnd = (do
        let a ← hConstruct (.arr2 ((List.range R).map (fun i => d i ++ f i)))
        let b' ← hConstruct (.arr2 ((List.range R).map (fun i => g i ++ d i)))
        let c' ← hConstruct (.arr2 ((List.range R).map (fun i => g i ++ d i ++ f i)))
        let d ← hConstruct (.arr2 ((List.range R).map d))
        combineH (nsbH find (K.map Int.ofNat) b) [a, b'] [c', d]) := by
    simp only [nsbTE, genericTE, teInit_zero hlen, nsbCheck_ok hK, teParams, hsl', hsp, bind, Except.bind]
  rw [e]
  exact key

example (find : Int → Int → ℝ) := C67_te find none (by simp) [1, 0, 1, 1, 0] [0, 1, 0, 1, 1] 2 1 1 (by decide) (by decide) (by decide) (by decide) rfl (.num 2) (by norm_num [Base.Valid]) {} lawful_none

/-- **C67** NSB conditional transfer entropy: the same with the history of the condition added to the destination history. -/
theorem C67_cte (find : Int → Int → ℝ) (K : Option Nat) (hK : ∀ k, K = some k → 0 < k) (source dest cond : List Int)
    (l k q s : Nat) (hs : 0 < s) (hl : 0 < l) (hk : 0 < k) (hq : 0 < q) (hm : max (max k l) q * s < source.length)
    (hlen : source.length = dest.length) (hlen2 : cond.length = dest.length) (b : Base) (hb : b.Valid) :
    let M := max (max k l) q
    let F := futRows dest dest.length M s
    let G := histRows source dest.length M s l
    let D := histRows dest dest.length M s k
    let Z := histRows cond dest.length M s q
    let DZ := D.zip Z
    let ok := Nsb.Defined (F.zip DZ) K ∧ Nsb.Defined (G.zip DZ) K ∧ Nsb.Defined (F.zip (G.zip DZ)) K ∧ Nsb.Defined DZ K
    (ok → nsbCTE find (nsbArg K) source dest (some cond) (teParams l k s) (.int q) (some (.int 0)) none b =
      .ok ((Nsb.value (F.zip DZ) K + Nsb.value (G.zip DZ) K - Nsb.value (F.zip (G.zip DZ)) K - Nsb.value DZ K) / b.ln)) ∧
    (¬ ok → nsbCTE find (nsbArg K) source dest (some cond) (teParams l k s) (.int q) (some (.int 0)) none b =
      .error .nonFinite) := by
  intro M F G D Z DZ ok
  set R := numRows dest.length M s with hRdef
  have hm' : M * s < dest.length := hlen ▸ hm
  have hR : 0 < R := numRows_pos hs hm'
  set f : Nat → List Int := fun i => [dest.getD ((M + i) * s) default] with hf
  set g : Nat → List Int := histRow source M s l with hg
  set d : Nat → List Int := histRow dest M s k with hd
  set z : Nat → List Int := histRow cond M s q with hz
  have hF : F = (List.range R).map f := rfl
  have hG : G = (List.range R).map g := rfl
  have hDZ : DZ = (List.range R).map (fun i => (d i, z i)) := zip_range_map R d z
  have hsl := cteObservations_ok source dest cond l k q s hs hl hk hq hm hlen hlen2 lawful_none
  rw [srcSel_none, histRows, histRows, futRows] at hsl
  have hsp := cteSpaces_ok R f g d z
  have fl : ∀ i, (f i).length = 1 := fun i => by simp [hf]
  have gl : ∀ i, (g i).length = l := fun i => by simp [hg, histRow]
  have dl : ∀ i, (d i).length = k := fun i => by simp [hd, histRow]
  have sJ : SameCounts ((List.range R).map (fun i => g i ++ d i ++ f i ++ z i)) (F.zip (G.zip DZ)) := by
    rw [hF, hG, hDZ, zip_range_map, zip_range_map]
    refine sameCounts_map _ _ _ fun u _ v _ => ?_
    rw [append_eq_iff (by simp [gl, dl, fl]), append_eq_iff (by simp [gl, dl]), append_eq_iff (by simp [gl]), Prod.mk.injEq,
      Prod.mk.injEq, Prod.mk.injEq]
    tauto
  have s2 : SameCounts ((List.range R).map (fun i => d i ++ f i ++ z i)) (F.zip DZ) := by
    rw [hF, hDZ, zip_range_map]
    refine sameCounts_map _ _ _ fun u _ v _ => ?_
    rw [append_eq_iff (by simp [dl, fl]), append_eq_iff (by simp [dl]), Prod.mk.injEq, Prod.mk.injEq]; tauto
  have s1 : SameCounts ((List.range R).map (fun i => g i ++ d i ++ z i)) (G.zip DZ) := by
    rw [hG, hDZ, zip_range_map]
    refine sameCounts_map _ _ _ fun u _ v _ => ?_
    rw [append_eq_iff (by simp [gl, dl]), append_eq_iff (by simp [gl]), Prod.mk.injEq, Prod.mk.injEq]; tauto
  have s0 : SameCounts ((List.range R).map (fun i => d i ++ z i)) DZ := by
    rw [hDZ]
    refine sameCounts_map _ _ _ fun u _ v _ => ?_
    rw [append_eq_iff (by simp [dl]), Prod.mk.injEq]
  have key := nsb_spaces find hK hb hR _ _ _ _ s2 s1 sJ s0
  have hsl' : cteObservations source dest cond (.int l) (.int k) (.int q) (.int s) =
    .ok { src := (List.range R).map g, dest := (List.range R).map d, fut := (List.range R).map f,
          cond := some ((List.range R).map z) } := hsl
  have e : nsbCTE find (nsbArg K) source dest (some cond) (teParams l k s) (.int q) (some (.int 0)) none b = (do
        let a ← hConstruct (.arr2 ((List.range R).map (fun i => d i ++ f i ++ z i)))
        let b' ← hConstruct (.arr2 ((List.range R).map (fun i => g i ++ d i ++ z i)))
        let c' ← hConstruct (.arr2 ((List.range R).map (fun i => g i ++ d i ++ f i ++ z i)))
        let d ← hConstruct (.arr2 ((List.range R).map (fun i => d i ++ z i)))
        combineH (nsbH find (K.map Int.ofNat) b) [a, b'] [c', d]) := by
    simp only [nsbCTE, genericCTE, cteInit_zero hlen hlen2, nsbCheck_ok hK, teParams, hsl', hsp, bind, Except.bind]
  rw [e]
  exact key

example (find : Int → Int → ℝ) := C67_cte find none (by simp) [1, 0, 1, 1, 0] [0, 1, 0, 1, 1] [2, 2, 0, 0, 2] 2 1 1 1 (by decide) (by decide) (by decide) (by decide) (by decide) rfl rfl (.num 2) (by norm_num [Base.Valid])

/-- **C67** A support size that is not a positive integer is rejected by the mutual-information and transfer-entropy classes. -/
theorem C67_bad_support (find : Int → Int → ℝ) (K : PyArg) (hK : ∀ k : Int, K = .int k → k ≤ 0) (cols : List (List Int)) (N : Nat)
    (h2 : 2 ≤ cols.length) (hl : ∀ v ∈ cols, v.length = N) (source dest : List Int) (hlen : source.length = dest.length)
    (p : TEParams) (b : Base) :
    nsbMI find (some K) cols (some 0) b = .error .valueError ∧
    nsbTE find (some K) source dest p (some (.int 0)) none b = .error .valueError := by
  have hc : nsbCheck (some K) = .error .valueError := by
    unfold nsbCheck
    cases K with
    | int k => simp only; rw [if_pos (hK k rfl)]
    | _ => rfl
  constructor
  · simp only [nsbMI, miInit_ok h2 hl, hc, bind, Except.bind]
  · simp only [nsbTE, teInit_zero hlen, hc, bind, Except.bind]

/-- the hypotheses are met: a sample with a defined estimate, with and without a given support size -/
example : Nsb.Defined [0, 0, (1 : Int)] none ∧ Nsb.Defined [0, 0, (1 : Int)] (some 7) ∧ ¬ Nsb.Defined [0, 0, (1 : Int)] (some 3) := by
  simp only [Nsb.Defined, Nsb.support]; decide

example : (∀ v ∈ [[0, 0, 1], [5, 5, (6 : Int)]], Nsb.Defined v none) ∧ Nsb.Defined (rows 3 [[0, 0, 1], [5, 5, (6 : Int)]]) none := by
  simp only [Nsb.Defined, Nsb.support]; decide

end Verif
