import Verif.Lemmas.Bias4
import Verif.Props.Paths

/-! # Properties C19, C30–C35 : bias-corrected estimators -/

namespace Verif

open Spec

theorem HEst.entropy_arr1 (est : HEst) {xs : List Int} (h : xs ≠ []) :
    est.entropy (.arr1 xs) = est.globalVal (mkData xs) := by
  simp only [HEst.entropy, hConstruct_arr1 h, bind, Except.bind]

/-- `est.local_vals()` of the entropy estimator built from one variable -/
noncomputable def HEst.locals (est : HEst) (a : EInput) : Except Exc (List ℝ) := do
  let d ← hConstruct a
  est.localVals d

theorem HEst.locals_arr1 (est : HEst) {xs : List Int} (h : xs ≠ []) :
    est.locals (.arr1 xs) = est.localVals (mkData xs) := by
  simp only [HEst.locals, hConstruct_arr1 h, bind, Except.bind]

/-! ## Miller–Madow -/

/-- **C19** Miller–Madow entropy is plug-in entropy plus `(K − 1)/(2N)`, in units of the base. -/
theorem C19_mm_entropy (xs : List Int) (h : xs ≠ []) (b : Base) (hb : b.Valid) :
    (millerMadowH b).entropy (.arr1 xs) =
      .ok ((entropy xs + ((xs.toFinset.card : ℝ) - 1) / (2 * xs.length)) / b.ln) := by
  rw [HEst.entropy_arr1 _ h]
  exact mmSimple_ok xs hb

example := C19_mm_entropy [5, 7, 5] (by decide) (.num 2) (by norm_num [Base.Valid])

theorem millerMadowH_consistent {b : Base} (hb : b.Valid) : (millerMadowH b).Consistent := by
  intro xs hx
  have hl := length_pos_real hx
  refine ⟨_, _, mmSimple_ok xs hb, mmLocal_ok xs hb, by simp, ?_⟩
  rw [Spec.mean, sum_map_add', sum_map_neg', sum_map_div', List.length_map, millerMadow,
    entropy_eq_mean, Spec.mean, List.length_map, sum_map_neg']
  simp only [List.map_const', List.sum_replicate, nsmul_eq_mul]
  field_simp

/-- **C19** local Miller–Madow values: one per sample, averaging to the global value. -/
theorem C19_mm_local_mean (xs : List Int) (h : xs ≠ []) (b : Base) (hb : b.Valid) :
    ∃ g ls, (millerMadowH b).entropy (.arr1 xs) = .ok g ∧
      (millerMadowH b).locals (.arr1 xs) = .ok ls ∧ ls.length = xs.length ∧ Spec.mean ls = g := by
  obtain ⟨g, l, h1, h2, h3, h4⟩ := millerMadowH_consistent hb xs h
  exact ⟨g, l, by rw [HEst.entropy_arr1 _ h, h1], by rw [HEst.locals_arr1 _ h, h2], h3, h4⟩

example := C19_mm_local_mean [5, 7, 5] (by decide) (.num 2) (by norm_num [Base.Valid])

theorem mm_tup {cols : List (List Int)} {N : Nat} (hN : 0 < N) (hc0 : cols ≠ [])
    (hl : ∀ c ∈ cols, c.length = N) {b : Base} (hb : b.Valid) :
    (millerMadowH b).entropy (.tup cols) = .ok (millerMadow (Spec.rows N cols) / b.ln) := by
  simp only [HEst.entropy, hConstruct_tup hN hc0 hl, bind, Except.bind, millerMadowH,
    mmSimple_ok _ hb]
  congr 2
  unfold millerMadow
  rw [entropy_jointCodes]
  congr 3
  · congr 1
    have := card_map_congr (Spec.rows N cols) (fun r => ((npPos (Spec.rows N cols) r : Nat) : Int)) id
      (fun u hu v hv => by simp [npPos_inj hu hv])
    rw [List.map_id] at this
    rw [← this, jointCodes, npInverse, List.map_map]; rfl
  · rw [jointCodes_length]; simp [Spec.rows]

theorem card_const {α : Type} [DecidableEq α] {xs : List α} (hne : xs ≠ [])
    (h : ∀ a ∈ xs, ∀ c ∈ xs, a = c) : xs.toFinset.card = 1 := by
  obtain ⟨a, ha⟩ := List.exists_mem_of_ne_nil _ hne
  rw [Finset.card_eq_one]
  refine ⟨a, ?_⟩
  ext c
  simp only [List.mem_toFinset, Finset.mem_singleton]
  exact ⟨fun hc => h c hc a ha, fun hc => hc ▸ ha⟩

theorem card_zip_const {α β : Type} [DecidableEq α] [DecidableEq β] (xs : List α) (ys : List β)
    (hl : xs.length = ys.length) (h : ∀ a ∈ xs, ∀ c ∈ xs, a = c) :
    (xs.zip ys).toFinset.card = ys.toFinset.card := by
  have := card_map_congr (xs.zip ys) id Prod.snd (fun u hu v hv =>
    ⟨fun h => by simp only [id] at h; rw [h], fun e => Prod.ext
      (h _ (List.of_mem_zip (a := u.1) (b := u.2) hu).1 _ (List.of_mem_zip (a := v.1) (b := v.2) hv).1) e⟩)
  rw [List.map_id, map_snd_zip' xs ys hl] at this
  exact this

theorem card_zip_comm {α β : Type} [DecidableEq α] [DecidableEq β] (xs : List α) (ys : List β) :
    (xs.zip ys).toFinset.card = (ys.zip xs).toFinset.card := by
  have h : ys.zip xs = (xs.zip ys).map Prod.swap := by rw [List.zip_swap]
  have := card_map_congr (xs.zip ys) id Prod.swap (fun u _ v _ => by
    simp [Prod.swap, Prod.ext_iff]; tauto)
  rw [List.map_id, ← h] at this
  exact this

theorem addCorr_some {b : Base} (hb : b.Valid) (kI : List Nat) (kJ n : Nat) (kc : Option Nat) (v : ℝ) (hn : n ≠ 0) :
    addCorr (if true = true then some b else none) (fun base => millerMadowCorr kI kJ n base kc) v =
      .ok (v + ((kI.sum : ℝ) - kI.length - kJ + 1
            - (match kc with | some k => (k : ℝ) - 1 | none => 0)) / (2 * n) / b.ln) :=
  addCorr_ok (some b) (fun b' h => by simp only [Option.mem_def, Option.some.injEq] at h; exact h ▸ hb) kI kJ n kc v hn

/-- **C19** Two variables (fewer than 2³² samples, constant or not): Miller–Madow mutual information
is `H_MM(X) + H_MM(Y) − H_MM(X,Y)` of the Miller–Madow entropies. -/
theorem C19_mm_mi_two_variables (xs ys : List Int) (h : xs.length = ys.length) (hne : xs ≠ [])
    (hov : xs.length < 2 ^ 32) (b : Base) (hb : b.Std) :
    ∃ hx hy hxy, (millerMadowH b).entropy (.arr1 xs) = .ok hx ∧
      (millerMadowH b).entropy (.arr1 ys) = .ok hy ∧
      (millerMadowH b).entropy (.tup [xs, ys]) = .ok hxy ∧
      discreteMI (.all1D [xs, ys]) (some 0) b true = .ok (hx + hy - hxy) := by
  have hyne : ys ≠ [] := List.length_pos_iff.1 (h ▸ List.length_pos_iff.2 hne)
  have hN := List.length_pos_iff.2 hne
  have hN' := length_pos_real hne
  have hov2 : xs.length ^ 2 < 2 ^ 64 := by
    have : xs.length ^ 2 < (2 ^ 32) ^ 2 := Nat.pow_lt_pow_left hov (by norm_num)
    simpa [← pow_mul] using this
  have hln := hb.ln_pos
  refine ⟨_, _, _, (HEst.entropy_arr1 _ hne).trans (mmSimple_ok xs hb.valid),
    (HEst.entropy_arr1 _ hyne).trans (mmSimple_ok ys hb.valid),
    mm_tup (N := xs.length) hN (by simp) (by simp [h]) hb.valid, ?_⟩
  have hrows : millerMadow (Spec.rows xs.length [xs, ys]) =
      entropy (Spec.rows xs.length [xs, ys]) + (((xs.zip ys).toFinset.card : ℝ) - 1) / (2 * xs.length) := by
    unfold millerMadow
    rw [card_rows_pair xs ys h]
    simp [Spec.rows]
  have htc : entropy xs + entropy ys - entropy (Spec.rows xs.length [xs, ys]) = Spec.mi xs ys := by
    rw [← tc_pair xs ys h, Spec.totalCorrelation]; simp
  rw [discreteMI_pair h, mi2dInt_ok xs ys h hne hov2 hb.valid, hrows]
  have key : millerMadow xs + millerMadow ys -
      (entropy (Spec.rows xs.length [xs, ys]) + (((xs.zip ys).toFinset.card : ℝ) - 1) / (2 * xs.length)) =
      Spec.mi xs ys + ((xs.toFinset.card : ℝ) + ys.toFinset.card - 1 - (xs.zip ys).toFinset.card) / (2 * xs.length) := by
    rw [← htc]; unfold millerMadow; rw [← h]; field_simp; ring
  rw [← add_div, ← sub_div, key]
  split
  · rename_i hc
    rcases hc with hc | hc
    · have hc := npUnique_length_eq_one hc
      rw [mi_const_left h hc, card_zip_const xs ys h hc, card_const hne hc]
      simp
    · have hc := npUnique_length_eq_one hc
      rw [mi_const_right h hc, card_zip_comm, card_zip_const ys xs h.symm hc, card_const hyne hc]
      simp
  · rw [addCorr_some hb.valid _ _ _ _ _ hN.ne',
      max_eq_left (div_nonneg (mi_nonneg xs ys h) hb.ln_pos.le)]
    simp only [if_true, List.sum_cons, List.sum_nil, List.length_cons, List.length_nil, npUnique_length]
    congr 1
    push_cast
    field_simp
    ring

example := C19_mm_mi_two_variables [5, 7, 5] [0, 0, 1] rfl (by decide) (by decide) (.num 2) (by norm_num [Base.Std])

/-- **C19** (no constant variable, the other case is in `C19_mm_mi_complete`) `n ≥ 3`
variables: Miller–Madow mutual information is the sum of the Miller–Madow entropies minus the joint
one. -/
theorem C19_mm_mi_n_variables (data : List (List Int)) (N : Nat) (hN : 0 < N)
    (h3 : 3 ≤ data.length) (hl : ∀ c ∈ data, c.length = N)
    (hc : ∀ c ∈ data, ¬ ∀ x ∈ c, ∀ y ∈ c, x = y) (hov : N ^ data.length < 2 ^ 64)
    (b : Base) (hb : b.Std) :
    ∃ hs hj, data.mapM (fun c => (millerMadowH b).entropy (.arr1 c)) = .ok hs ∧
      (millerMadowH b).entropy (.tup data) = .ok hj ∧
      discreteMI (.all1D data) (some 0) b true = .ok (hs.sum - hj) := by
  have hne : data ≠ [] := by rintro rfl; simp at h3
  have hN' : (0:ℝ) < N := by exact_mod_cast hN
  have hln := hb.ln_pos
  have hcne : ∀ c ∈ data, c ≠ [] := by
    rintro c hcm rfl
    have := hl _ hcm
    simp at this; omega
  refine ⟨data.map (fun c => millerMadow c / b.ln), _, ?_, mm_tup hN hne hl hb.valid, ?_⟩
  · exact mapM_ok _ fun c hcm => (HEst.entropy_arr1 _ (hcne c hcm)).trans (mmSimple_ok c hb.valid)
  · rw [discreteMI_many h3 hl, miNdInt_ok _ N hN hne hl (fun c hcm => unique_ne_one (hc c hcm))
      (fun t _ => prod_cnt_lt hl hov t) hb.valid, addCorr_some hb.valid _ _ _ _ _ hN.ne']
    simp only [if_true]
    congr 1
    rw [sum_map_div', ← sub_div, ← add_div]
    congr 1
    have hs : (data.map millerMadow).sum = (data.map entropy).sum +
        (((data.map (fun v => (npUnique v).length)).sum : ℕ) - (data.length : ℝ)) / (2 * N) := by
      clear hc hov h3 hne hcne
      induction data with
      | nil => simp
      | cons c cs ih =>
        simp only [List.map_cons, List.sum_cons, List.length_cons]
        rw [ih (fun d hd => hl d (by simp [hd])), millerMadow, hl c (by simp), npUnique_length]
        push_cast
        field_simp
        ring
    rw [hs, Spec.totalCorrelation, millerMadow]
    have : (Spec.rows N data).length = N := by simp [Spec.rows]
    rw [this, List.length_map]
    field_simp
    ring

example := C19_mm_mi_n_variables [[5, 7, 5], [0, 0, 1], [2, 1, 1]] 3 (by decide) (by decide) (by decide) (by decide) (by decide)
  (.num 2) (by norm_num [Base.Std])

/-- **C19** Two variables and a one-dimensional condition: Miller–Madow conditional mutual information
is `H_MM(X,Z) + H_MM(Y,Z) − H_MM(X,Y,Z) − H_MM(Z)`. -/
theorem C19_mm_cmi_two_variables (xs ys z : List Int) (h1 : xs.length = ys.length)
    (h2 : ys.length = z.length) (hne : xs ≠ []) (hov : xs.length < 2 ^ 32) (b : Base) (hb : b.Valid) :
    ∃ hxz hyz hxyz hz, (millerMadowH b).entropy (.tup [xs, z]) = .ok hxz ∧
      (millerMadowH b).entropy (.tup [ys, z]) = .ok hyz ∧
      (millerMadowH b).entropy (.tup [xs, ys, z]) = .ok hxyz ∧
      (millerMadowH b).entropy (.arr1 z) = .ok hz ∧
      discreteCMI [xs, ys] (some (.arr1 z)) none b true = .ok (hxz + hyz - hxyz - hz) := by
  have hN := List.length_pos_iff.2 hne
  have hN' := length_pos_real hne
  have hzne : z ≠ [] := List.length_pos_iff.1 (by omega)
  have hln := hb.ln_ne
  have hov2 : xs.length ^ 2 < 2 ^ 64 := by
    have : xs.length ^ 2 < (2 ^ 32) ^ 2 := Nat.pow_lt_pow_left hov (by norm_num)
    simpa [← pow_mul] using this
  refine ⟨_, _, _, _, mm_tup (N := xs.length) hN (by simp) (by simp [h1, h2]) hb,
    mm_tup (N := xs.length) hN (by simp) (by simp [h1, h2]) hb,
    mm_tup (N := xs.length) hN (by simp) (by simp [h1, h2]) hb,
    (HEst.entropy_arr1 _ hzne).trans (mmSimple_ok z hb), ?_⟩
  have mmpair : ∀ us : List Int, us.length = xs.length → millerMadow (Spec.rows xs.length [us, z]) =
      entropy (us.zip z) + (((us.zip z).toFinset.card : ℝ) - 1) / (2 * xs.length) := by
    intro us hu
    have hu2 : us.length = z.length := by omega
    unfold millerMadow
    rw [← hu, card_rows_pair us z hu2]
    have e := tc_pair us z hu2
    rw [Spec.totalCorrelation, mi_eq_entropies us z hu2] at e
    simp only [List.map_cons, List.map_nil, List.sum_cons, List.sum_nil, add_zero] at e
    have : (Spec.rows us.length [us, z]).length = us.length := by simp [Spec.rows]
    rw [this]
    linarith
  have mmtrip : millerMadow (Spec.rows xs.length [xs, ys, z]) =
      entropy ((Spec.rows xs.length [xs, ys]).zip z) +
        ((((Spec.rows xs.length [xs, ys]).zip z).toFinset.card : ℝ) - 1) / (2 * xs.length) := by
    unfold millerMadow
    have hlen : (Spec.rows xs.length [xs, ys, z]).length = xs.length := by simp [Spec.rows]
    rw [hlen, rows_zip_range _ _ _ (by omega)]
    congr 1
    · unfold Spec.rows
      refine entropy_map_congr _ _ _ fun u _ v _ => ?_
      simp [Spec.row, Prod.ext_iff, and_assoc]
    · congr 3
      unfold Spec.rows
      refine card_map_congr _ _ _ fun u _ v _ => ?_
      simp [Spec.row, Prod.ext_iff, and_assoc]
  have hr : condReduce true (.arr1 z) = .ok z := rfl
  rw [discreteCMI_eq (by simp) (by simp [h1, h2]) hr (Or.inr rfl), mmpair xs rfl, mmpair ys h1.symm, mmtrip]
  have htot : entropy (xs.zip z) + entropy (ys.zip z) - entropy ((Spec.rows xs.length [xs, ys]).zip z)
      - entropy z = Spec.cmi xs ys z := by
    rw [← condInter_pair xs ys z h1 h2, condInter]
    simp
  by_cases hc : ∃ c ∈ [xs, ys], (npUnique c).length * (npUnique z).length = 1
  · obtain ⟨c, hcm, hc⟩ := hc
    rw [cmiNdInt_const hcm hc]
    obtain ⟨hcc, hzc⟩ := const_of_mul_one hc
    have hcard : ((Spec.rows xs.length [xs, ys]).zip z).toFinset.card = (xs.zip ys).toFinset.card := by
      rw [card_zip_comm, card_zip_const z _ (by simp [Spec.rows]; omega) hzc, card_rows_pair xs ys h1]
    have hzx : (xs.zip z).toFinset.card = xs.toFinset.card := by
      rw [card_zip_comm, card_zip_const z _ (by omega) hzc]
    have hzy : (ys.zip z).toFinset.card = ys.toFinset.card := by
      rw [card_zip_comm, card_zip_const z _ (by omega) hzc]
    have hkz := card_const hzne hzc
    have hyne : ys ≠ [] := List.length_pos_iff.1 (by omega)
    have hlz : z.length = xs.length := by omega
    have e : ∀ kx ky kj : ℝ, (entropy (xs.zip z) + (kx - 1) / (2 * xs.length)) / b.ln +
        (entropy (ys.zip z) + (ky - 1) / (2 * xs.length)) / b.ln -
        (entropy ((Spec.rows xs.length [xs, ys]).zip z) + (kj - 1) / (2 * xs.length)) / b.ln -
        (entropy z + (1 - 1) / (2 * xs.length)) / b.ln =
        (Spec.cmi xs ys z + (kx + ky - kj - 1) / (2 * xs.length)) / b.ln := by
      intro kx ky kj; rw [← htot]; field_simp; ring
    rw [millerMadow, hkz, hcard, hzx, hzy, hlz, Nat.cast_one, e]
    rcases List.mem_cons.1 hcm with rfl | h'
    · rw [cmi_const_left _ _ _ h1 h2 hcc, card_zip_const _ _ h1 hcc, card_const hne hcc]
      simp
    · rw [List.mem_singleton.1 h'] at hcc
      rw [cmi_comm xs ys z h1 h2, cmi_const_left _ _ _ h1.symm (by omega) hcc, card_zip_comm,
        card_zip_const _ _ h1.symm hcc, card_const hyne hcc]
      simp
  · push Not at hc
    rw [cmiNdInt_ok [xs, ys] z xs.length hN (by simp) (by simp [h1])
      (by omega) hc (by simpa using hov2) hov2 hb, condInter_pair xs ys z h1 h2,
      addCorr_some hb _ _ _ _ _ hN.ne']
    have hlz : z.length = xs.length := by omega
    simp only [if_true, List.map_cons, List.map_nil, List.sum_cons, List.sum_nil, List.length_cons,
      List.length_nil, npUnique_length, millerMadow, hlz, ← htot]
    congr 1
    push_cast
    field_simp
    ring

example : ∃ xs ys z : List Int, xs.length = ys.length ∧ ys.length = z.length ∧ xs ≠ [] ∧
    xs.length < 2 ^ 32 := ⟨[0, 1, 1], [2, 2, 5], [1, 1, 0], by decide, by decide, by decide, by decide⟩

end Verif
