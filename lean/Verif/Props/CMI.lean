import Verif.Props.MI

/-! # Properties C16–C18, C53 : conditional mutual information, agreement of code paths -/

namespace Verif

open Spec

theorem cmiInit_ok {α γ : Type} {data : List (List α)} {z : List γ} (h2 : 2 ≤ data.length)
    (hl : ∀ c ∈ data, c.length = z.length) {o : Option Int} (ho : o = some 0 ∨ o = none) :
    cmiInit data (some z) o = .ok (data, z) := by
  match data, h2 with
  | x :: y :: r, _ =>
    have hx := hl x (by simp)
    have hy := hl y (by simp)
    have hr : r.all (fun v => decide (v.length = z.length)) = true := by
      rw [List.all_eq_true]; intro c hc; simp [hl c (by simp [hc])]
    unfold cmiInit
    simp only []
    rw [if_neg (not_not.2 ho), if_neg (by rw [hx, hy]; simp), if_neg (by rw [hr]; simp)]

/-- conditions that reduce to the codes `z` -/
theorem discreteCMI_eq {α : Type} [LinearOrder α] {data : List (List α)} {z : List Int}
    (h2 : 2 ≤ data.length) (hl : ∀ c ∈ data, c.length = z.length) {c : CondArg} {mm : Bool}
    (hc : condReduce mm c = .ok z) {o : Option Int} (ho : o = some 0 ∨ o = none) (b : Base) :
    discreteCMI data (some c) o b mm =
      cmiNdInt (logBase b) data z (if mm then some b else none) := by
  simp only [discreteCMI, hc, Except.map, bind, Except.bind, cmiInit_ok h2 hl ho]

theorem discreteCMILocal_eq {α : Type} [LinearOrder α] {data : List (List α)} {z : List Int}
    (h2 : 2 ≤ data.length) (hl : ∀ c ∈ data, c.length = z.length) {c : CondArg} {mm : Bool}
    (hc : condReduce mm c = .ok z) {o : Option Int} (ho : o = some 0 ∨ o = none) (b : Base) :
    discreteCMILocal data (some c) o b mm =
      cmiLocal (logBase b) data z (if mm then some b else none) := by
  simp only [discreteCMILocal, hc, Except.map, bind, Except.bind, cmiInit_ok h2 hl ho]

theorem const_of_mul_one {α γ : Type} [LinearOrder α] [LinearOrder γ] {c : List α} {z : List γ}
    (h : (npUnique c).length * (npUnique z).length = 1) :
    (∀ x ∈ c, ∀ y ∈ c, x = y) ∧ ∀ x ∈ z, ∀ y ∈ z, x = y := by
  obtain ⟨h1, h2⟩ := mul_eq_one.1 h
  exact ⟨npUnique_length_eq_one h1, npUnique_length_eq_one h2⟩

theorem cmiNdInt_const {α γ : Type} [LinearOrder α] [LinearOrder γ] {data : List (List α)}
    {z : List γ} {c : List α} (hcm : c ∈ data)
    (h : (npUnique c).length * (npUnique z).length = 1) (lg : ℝ → Except Exc ℝ) (mm : Option Base) :
    cmiNdInt lg data z mm = .ok 0 := by
  unfold cmiNdInt
  simp only []
  rw [if_pos]
  simp only [List.any_map, List.any_eq_true, Function.comp, decide_eq_true_eq]
  exact ⟨c, hcm, h⟩

theorem cmiLocal_const {α γ : Type} [LinearOrder α] [LinearOrder γ] {data : List (List α)}
    {z : List γ} {N : Nat} (hl : ∀ c ∈ data, c.length = N) {c : List α} (hcm : c ∈ data)
    (h : (npUnique c).length * (npUnique z).length = 1) (lg : ℝ → Except Exc ℝ) (mm : Option Base) :
    cmiLocal lg data z mm = .ok (List.replicate N 0) := by
  unfold cmiLocal
  simp only []
  rw [if_pos, head_len (List.ne_nil_of_mem hcm) hl]
  simp only [List.any_map, List.any_eq_true, Function.comp, decide_eq_true_eq]
  exact ⟨c, hcm, h⟩

/-- conditional mutual information with a constant first variable vanishes -/
theorem cmi_const_left {α β γ : Type} [DecidableEq α] [DecidableEq β] [DecidableEq γ] (xs : List α)
    (ys : List β) (zs : List γ) (h1 : xs.length = ys.length) (h2 : ys.length = zs.length)
    (hc : ∀ x ∈ xs, ∀ y ∈ xs, x = y) : Spec.cmi xs ys zs = 0 := by
  rw [cmi_eq_entropies xs ys zs h1 h2]
  have hz : (ys.zip zs).length = ys.length := by simp [h2]
  set ws := xs.zip (ys.zip zs) with hws
  have hx : ∀ w ∈ ws, w.1 ∈ xs := fun w hw => (List.of_mem_zip (a := w.1) (b := w.2) hw).1
  have hyz : ws.map (fun w => w.2) = ys.zip zs := map_snd_zip' xs _ (by omega)
  have e1 : entropy ws = entropy (ys.zip zs) := by
    have := entropy_map_congr ws id (fun w => w.2) (fun u hu v hv =>
      ⟨fun h => by simp only [id] at h; rw [h], fun h => Prod.ext (hc _ (hx u hu) _ (hx v hv)) h⟩)
    rw [List.map_id, hyz] at this; exact this
  have e2 : entropy (xs.zip zs) = entropy zs := by
    have := entropy_map_congr (xs.zip zs) id Prod.snd (fun u hu v hv =>
      ⟨fun h => by simp only [id] at h; rw [h], fun h => Prod.ext
        (hc _ (List.of_mem_zip (a := u.1) (b := u.2) hu).1 _ (List.of_mem_zip (a := v.1) (b := v.2) hv).1) h⟩)
    rw [List.map_id, map_snd_zip' xs zs (by omega)] at this; exact this
  rw [e1, e2]; ring

theorem cmi_comm {α β γ : Type} [DecidableEq α] [DecidableEq β] [DecidableEq γ] (xs : List α)
    (ys : List β) (zs : List γ) (h1 : xs.length = ys.length) (h2 : ys.length = zs.length) :
    Spec.cmi xs ys zs = Spec.cmi ys xs zs := by
  rw [cmi_eq_entropies xs ys zs h1 h2, cmi_eq_entropies ys xs zs h1.symm (by omega)]
  have hz : (ys.zip zs).length = ys.length := by simp [h2]
  have hz' : (xs.zip zs).length = ys.length := by simp; omega
  set ws := xs.zip (ys.zip zs) with hws
  have hx : ws.map (fun w => w.1) = xs := map_fst_zip' xs _ (by omega)
  have hyz : ws.map (fun w => w.2) = ys.zip zs := map_snd_zip' xs _ (by omega)
  have hy : ws.map (fun w => w.2.1) = ys := by
    have : ws.map (fun w => w.2.1) = (ws.map (fun w => w.2)).map Prod.fst := by
      rw [List.map_map]; rfl
    rw [this, hyz, map_fst_zip' ys zs h2]
  have hzz : ws.map (fun w => w.2.2) = zs := by
    have : ws.map (fun w => w.2.2) = (ws.map (fun w => w.2)).map Prod.snd := by
      rw [List.map_map]; rfl
    rw [this, hyz, map_snd_zip' ys zs h2]
  have e : ys.zip (xs.zip zs) = ws.map (fun w => (w.2.1, w.1, w.2.2)) := by
    rw [← zip_map_map, ← zip_map_map, hx, hy, hzz]
  have := entropy_map_congr ws id (fun w => (w.2.1, w.1, w.2.2)) (fun u _ v _ => by
    simp only [id, Prod.ext_iff]; tauto)
  rw [List.map_id, ← e] at this
  rw [this]; ring

/-- value of the two-variable conditional estimator on reduced conditions -/
theorem cmiNdInt_pair {α γ : Type} [LinearOrder α] [LinearOrder γ] [Inhabited α] [Inhabited γ]
    (xs ys : List α) (z : List γ) (h1 : xs.length = ys.length) (h2 : ys.length = z.length)
    (hne : xs ≠ []) (hov : xs.length ^ 2 < 2 ^ 64) {b : Base} (hb : b.Valid) :
    cmiNdInt (logBase b) [xs, ys] z none = .ok (Spec.cmi xs ys z / b.ln) := by
  by_cases hc : ∃ c ∈ [xs, ys], (npUnique c).length * (npUnique z).length = 1
  · obtain ⟨c, hcm, hc⟩ := hc
    rw [cmiNdInt_const hcm hc]
    obtain ⟨hcc, _⟩ := const_of_mul_one hc
    have : Spec.cmi xs ys z = 0 := by
      rcases List.mem_cons.1 hcm with rfl | h'
      · exact cmi_const_left _ _ _ h1 h2 hcc
      · rw [List.mem_singleton.1 h'] at hcc
        rw [cmi_comm xs ys z h1 h2]
        exact cmi_const_left _ _ _ h1.symm (by omega) hcc
    rw [this, zero_div]
  · push Not at hc
    rw [cmiNdInt_ok [xs, ys] z xs.length (List.length_pos_iff.2 hne) (by simp) (by simp [h1])
      (by omega) hc (by simpa using hov) hov hb, condInter_pair xs ys z h1 h2]
    rfl

/-- **C16** Two variables, one-dimensional condition, fewer than 2³² samples: the value is the
textbook conditional mutual information `Σ p(x,y,z) log (p(z) p(x,y,z) / (p(x,z) p(y,z)))`. -/
theorem C16_cmi_is_textbook (xs ys z : List Int) (h1 : xs.length = ys.length)
    (h2 : ys.length = z.length) (hne : xs ≠ []) (hov : xs.length < 2 ^ 32) (b : Base) (hb : b.Valid) :
    discreteCMI [xs, ys] (some (.arr1 z)) none b = .ok (Spec.cmi xs ys z / b.ln) := by
  have hov' : xs.length ^ 2 < 2 ^ 64 := by
    have : xs.length ^ 2 < (2 ^ 32) ^ 2 := Nat.pow_lt_pow_left hov (by norm_num)
    simpa [← pow_mul] using this
  rw [discreteCMI_eq (z := z) (by simp) (by simp [h1, h2]) rfl (Or.inr rfl)]
  exact cmiNdInt_pair xs ys z h1 h2 hne hov' hb

example := C16_cmi_is_textbook [5, 7, 5] [0, 0, 1] [2, 3, 3] rfl rfl (by decide) (by decide) (.num 2) (by norm_num [Base.Valid])

/-- **C16** `I(X;Y|Z) = H(X,Z) + H(Y,Z) − H(X,Y,Z) − H(Z)` between the library's own entropies; it is
non-negative and symmetric. -/
theorem C16_cmi_eq_entropy_combination (xs ys z : List Int) (h1 : xs.length = ys.length)
    (h2 : ys.length = z.length) (hne : xs ≠ []) (hov : xs.length < 2 ^ 32) (b : Base) (hb : b.Std) :
    ∃ I HXZ HYZ HXYZ HZ, discreteCMI [xs, ys] (some (.arr1 z)) none b = .ok I ∧
      discreteEntropy [.tup [xs, z]] b = .ok HXZ ∧ discreteEntropy [.tup [ys, z]] b = .ok HYZ ∧
      discreteEntropy [.tup [xs, ys, z]] b = .ok HXYZ ∧ discreteEntropy [.arr1 z] b = .ok HZ ∧
      I = HXZ + HYZ - HXYZ - HZ ∧ 0 ≤ I ∧
      discreteCMI [ys, xs] (some (.arr1 z)) none b = .ok I := by
  have hpos : 0 < xs.length := List.length_pos_iff.2 hne
  have hz : z ≠ [] := List.length_pos_iff.1 (by omega)
  have hy : ys ≠ [] := List.length_pos_iff.1 (by omega)
  refine ⟨_, _, _, _, _, C16_cmi_is_textbook xs ys z h1 h2 hne hov b hb.valid,
    jointEntropy_ok (n := xs.length) hpos (by simp) (by simp; omega) hb.valid,
    jointEntropy_ok (n := xs.length) hpos (by simp) (by simp; omega) hb.valid,
    jointEntropy_ok (n := xs.length) hpos (by simp) (by simp; omega) hb.valid,
    discreteEntropy_arr1 hz hb.valid, ?_, div_nonneg (cmi_nonneg xs ys z h1 h2) hb.ln_pos.le, ?_⟩
  · rw [cmi_eq_entropies xs ys z h1 h2]
    have e : xs.zip (ys.zip z) = (List.range xs.length).map
        (fun t => (xs.getD t default, ys.getD t default, z.getD t default)) := by
      conv_lhs => rw [← col_map_range xs xs.length rfl, zip_range ys z xs.length h1.symm (by omega)]
      rw [zip_map_map]
    rw [e, zip_range xs z xs.length rfl (by omega), zip_range ys z xs.length (by omega) (by omega)]
    have k1 : entropy (Spec.rows xs.length [xs, z]) =
        entropy ((List.range xs.length).map (fun t => (xs.getD t default, z.getD t default))) :=
      entropy_map_congr _ _ _ fun u _ v _ => by simp [Spec.row]
    have k2 : entropy (Spec.rows xs.length [ys, z]) =
        entropy ((List.range xs.length).map (fun t => (ys.getD t default, z.getD t default))) :=
      entropy_map_congr _ _ _ fun u _ v _ => by simp [Spec.row]
    have k3 : entropy (Spec.rows xs.length [xs, ys, z]) =
        entropy ((List.range xs.length).map
          (fun t => (xs.getD t default, ys.getD t default, z.getD t default))) :=
      entropy_map_congr _ _ _ fun u _ v _ => by simp [Spec.row]
    rw [k1, k2, k3]; ring
  · rw [C16_cmi_is_textbook ys xs z h1.symm (by omega) hy (by omega) b hb.valid, cmi_comm ys xs z h1.symm (by omega)]

example := C16_cmi_eq_entropy_combination [5, 7, 5] [0, 0, 1] [2, 3, 3] rfl rfl (by decide) (by decide) (.num 2) (by norm_num [Base.Std])

/-- relabelling the condition injectively does not change the conditional mutual information -/
theorem cmi_cond_congr {α β γ δ : Type} [DecidableEq α] [DecidableEq β] [DecidableEq γ]
    [DecidableEq δ] (xs : List α) (ys : List β) (zs : List γ) (g : γ → δ)
    (hg : ∀ u ∈ zs, ∀ v ∈ zs, g u = g v → u = v)
    (h1 : xs.length = ys.length) (h2 : ys.length = zs.length) :
    Spec.cmi xs ys (zs.map g) = Spec.cmi xs ys zs := by
  have hz : (ys.zip zs).length = ys.length := by simp [h2]
  set ws := xs.zip (ys.zip zs) with hws
  have hx : ws.map (fun w => w.1) = xs := map_fst_zip' xs _ (by omega)
  have hyz : ws.map (fun w => w.2) = ys.zip zs := map_snd_zip' xs _ (by omega)
  have hy : ws.map (fun w => w.2.1) = ys := by
    have : ws.map (fun w => w.2.1) = (ws.map (fun w => w.2)).map Prod.fst := by
      rw [List.map_map]; rfl
    rw [this, hyz, map_fst_zip' ys zs h2]
  have hzz : ws.map (fun w => w.2.2) = zs := by
    have : ws.map (fun w => w.2.2) = (ws.map (fun w => w.2)).map Prod.snd := by
      rw [List.map_map]; rfl
    rw [this, hyz, map_snd_zip' ys zs h2]
  have hzg : ws.map (fun w => g w.2.2) = zs.map g := by
    conv_rhs => rw [← hzz, List.map_map]
    rfl
  have hm : ∀ w ∈ ws, w.2.2 ∈ zs := fun w hw =>
    (List.of_mem_zip (a := w.2.1) (b := w.2.2) (List.of_mem_zip (a := w.1) (b := w.2) hw).2).2
  have hgi : ∀ u ∈ ws, ∀ v ∈ ws, (g u.2.2 = g v.2.2 ↔ u.2.2 = v.2.2) := fun u hu v hv =>
    ⟨hg _ (hm u hu) _ (hm v hv), fun h => by rw [h]⟩
  have k1 := cmi_map ws (fun w => w.1) (fun w => w.2.1) (fun w => g w.2.2)
  have k2 := cmi_map ws (fun w => w.1) (fun w => w.2.1) (fun w => w.2.2)
  rw [hx, hy, hzg] at k1
  rw [hx, hy, hzz] at k2
  rw [k1, k2]
  have a1 := entropy_map_congr ws (fun w => (w.1, g w.2.2)) (fun w => (w.1, w.2.2))
    (fun u hu v hv => by rw [Prod.mk.injEq, Prod.mk.injEq, hgi u hu v hv])
  have a2 := entropy_map_congr ws (fun w => (w.2.1, g w.2.2)) (fun w => (w.2.1, w.2.2))
    (fun u hu v hv => by rw [Prod.mk.injEq, Prod.mk.injEq, hgi u hu v hv])
  have a3 := entropy_map_congr ws (fun w => (w.1, w.2.1, g w.2.2)) (fun w => (w.1, w.2.1, w.2.2))
    (fun u hu v hv => by rw [Prod.mk.injEq, Prod.mk.injEq, Prod.mk.injEq, Prod.mk.injEq, hgi u hu v hv])
  have a4 := entropy_map_congr ws (fun w => g w.2.2) (fun w => w.2.2) hgi
  rw [hzg, hzz] at a4
  rw [a1, a2, a3, a4]

/-- **C16** A tuple of aligned conditions acts as the joint condition. -/
theorem C16_cmi_joint_condition (xs ys : List Int) (zcols : List (List Int))
    (h1 : xs.length = ys.length) (hz : zcols ≠ []) (hl : ∀ c ∈ zcols, c.length = xs.length)
    (hne : xs ≠ []) (hov : xs.length < 2 ^ 32) (b : Base) (hb : b.Valid) :
    discreteCMI [xs, ys] (some (.tup zcols)) none b =
      .ok (Spec.cmi xs ys (Spec.rows xs.length zcols) / b.ln) := by
  have hov' : xs.length ^ 2 < 2 ^ 64 := by
    have : xs.length ^ 2 < (2 ^ 32) ^ 2 := Nat.pow_lt_pow_left hov (by norm_num)
    simpa [← pow_mul] using this
  have hred : condReduce false (.tup zcols) =
      .ok ((npInverse (Spec.rows xs.length zcols)).map Int.ofNat) := by
    simp only [condReduce, reduceJointSpace, columnStack_ok hz hl]; rfl
  have hlen : ((npInverse (Spec.rows xs.length zcols)).map Int.ofNat).length = xs.length := by
    simp [Spec.rows]
  rw [discreteCMI_eq (by simp) (by simp [h1, Spec.rows]) hred (Or.inr rfl)]
  refine (cmiNdInt_pair xs ys _ h1 (by omega) hne hov' hb).trans ?_
  have e : (npInverse (Spec.rows xs.length zcols)).map Int.ofNat =
      (Spec.rows xs.length zcols).map (Int.ofNat ∘ npPos (Spec.rows xs.length zcols)) := by
    rw [npInverse, List.map_map]
  rw [e, cmi_cond_congr xs ys (Spec.rows xs.length zcols) _ ?_ h1 (by simp [Spec.rows]; omega)]
  intro u hu v hv h
  simp only [Function.comp, Int.ofNat.injEq] at h
  exact (npPos_inj hu hv).1 h

example := C16_cmi_joint_condition [5, 7, 5] [0, 0, 1] [[2, 3, 3], [1, 1, 0]] rfl (by decide) (by decide) (by decide) (by decide)
  (.num 2) (by norm_num [Base.Valid])

/-- **C16** A two-dimensional array of conditions (one row per sample) acts as the joint condition. -/
theorem C16_cmi_array_condition (xs ys : List Int) (zrows : List (List Int))
    (h1 : xs.length = ys.length) (h2 : xs.length = zrows.length)
    (hne : xs ≠ []) (hov : xs.length < 2 ^ 32) (b : Base) (hb : b.Valid) :
    discreteCMI [xs, ys] (some (.arr2 zrows)) none b = .ok (Spec.cmi xs ys zrows / b.ln) := by
  have hov' : xs.length ^ 2 < 2 ^ 64 := by
    have : xs.length ^ 2 < (2 ^ 32) ^ 2 := Nat.pow_lt_pow_left hov (by norm_num)
    simpa [← pow_mul] using this
  have hred : condReduce false (.arr2 zrows) = .ok ((npInverse zrows).map Int.ofNat) := rfl
  have hlen : ((npInverse zrows).map Int.ofNat).length = xs.length := by
    simp [h2]
  rw [discreteCMI_eq (by simp) (by simp [← h1, h2]) hred (Or.inr rfl)]
  refine (cmiNdInt_pair xs ys _ h1 (by omega) hne hov' hb).trans ?_
  have e : (npInverse zrows).map Int.ofNat = zrows.map (Int.ofNat ∘ npPos zrows) := by
    rw [npInverse, List.map_map]
  rw [e, cmi_cond_congr xs ys zrows _ ?_ h1 (by omega)]
  intro u hu v hv h
  simp only [Function.comp, Int.ofNat.injEq] at h
  exact (npPos_inj hu hv).1 h

/-- two columns of conditions as an array -/
example : discreteCMI [([0, 1, 1] : List Int), [1, 0, 1]] (some (.arr2 [[0, 5], [0, 6], [0, 5]])) none .e =
    .ok (Spec.cmi ([0, 1, 1] : List Int) ([1, 0, 1] : List Int) [([0, 5] : List Int), [0, 6], [0, 5]] / Base.ln .e) :=
  C16_cmi_array_condition [0, 1, 1] [1, 0, 1] [[0, 5], [0, 6], [0, 5]] rfl rfl (by decide) (by decide) .e trivial

/-- **C16** Local conditional values: one per sample, averaging to the global value (any number of
variables, plain or Miller–Madow). -/
theorem C16_local_cmi_mean (data : List (List Int)) (z : List Int) (hN : 0 < z.length)
    (h2 : 2 ≤ data.length) (hl : ∀ c ∈ data, c.length = z.length)
    (hov : z.length ^ data.length < 2 ^ 64) (b : Base) (hb : b.Valid) (mm : Bool) :
    ∃ g ls, discreteCMI data (some (.arr1 z)) none b mm = .ok g ∧
      discreteCMILocal data (some (.arr1 z)) none b mm = .ok ls ∧ ls.length = z.length ∧
      Spec.mean ls = g := by
  have hne : data ≠ [] := by rintro rfl; simp at h2
  have hN' : (0:ℝ) < z.length := by exact_mod_cast hN
  have hr : condReduce mm (.arr1 z) = .ok z := rfl
  rw [discreteCMI_eq h2 hl hr (Or.inr rfl), discreteCMILocal_eq h2 hl hr (Or.inr rfl)]
  by_cases hc : ∃ c ∈ data, (npUnique c).length * (npUnique z).length = 1
  · obtain ⟨c, hcm, hc⟩ := hc
    exact ⟨0, List.replicate z.length 0, cmiNdInt_const hcm hc _ _, cmiLocal_const hl hcm hc _ _,
      by simp, by simp [Spec.mean]⟩
  · push Not at hc
    obtain ⟨corr, hcorr⟩ : ∃ corr, ∀ v, addCorr (if mm then some b else none)
        (fun base => millerMadowCorr (data.map (fun c => (c.zip z).toFinset.card))
          ((Spec.rows z.length data).zip z).toFinset.card z.length base (some (npUnique z).length)) v =
            .ok (v + corr) :=
      ⟨_, fun v => addCorr_ok _ (mmFlag_valid hb mm) _ _ _ _ v hN.ne'⟩
    refine ⟨condInter z.length data z / b.ln + corr, _, ?_,
      cmiLocal_ok data z z.length hN hne hl rfl hc hb _ corr hcorr, by simp, ?_⟩
    · rw [cmiNdInt_ok data z z.length hN hne hl rfl hc hov (pow_bound hN h2 hov) hb]
      exact hcorr _
    · rw [Spec.mean, List.length_map, List.length_range, sum_map_add', sum_map_div',
        condInter_eq_mean data z z.length hN hl rfl]
      simp only [List.map_const', List.length_range, List.sum_replicate, nsmul_eq_mul]
      field_simp

example : ([0, 1, 1] : List Int).length = ([2, 2, 3] : List Int).length ∧
    ([0, 1, 1] : List Int).length < 2 ^ 32 ∧ (3:Nat) ^ 2 < 2 ^ 64 := by decide

/-- **C17** (this is what the code computes, not the documented quantity; `C17_complete` includes constant
variables) for `n ≥ 2`
variables the value is the conditional total correlation **plus** `(n − 2)·H(Z)`; for `n = 2` it is
the conditional total correlation. -/
theorem C17_cmi_n_variables (data : List (List Int)) (z : List Int) (hN : 0 < z.length)
    (h2 : 2 ≤ data.length) (hl : ∀ c ∈ data, c.length = z.length)
    (hov : z.length ^ data.length < 2 ^ 64)
    (hc : (∀ c ∈ data, ¬ ∀ x ∈ c, ∀ y ∈ c, x = y) ∨ ¬ ∀ x ∈ z, ∀ y ∈ z, x = y)
    (b : Base) (hb : b.Valid) :
    discreteCMI data (some (.arr1 z)) none b =
      .ok ((Spec.condTotalCorrelation z.length data z
        + ((data.length : ℝ) - 2) * Spec.entropy z) / b.ln) := by
  have hne : data ≠ [] := by rintro rfl; simp at h2
  rw [discreteCMI_eq (z := z) h2 hl rfl (Or.inr rfl),
    cmiNdInt_ok data z z.length hN hne hl rfl ?_ hov (pow_bound hN h2 hov) hb,
    condTotalCorrelation_eq]
  · simp [addCorr]
  · intro c hcm h1
    obtain ⟨k1, k2⟩ := const_of_mul_one h1
    rcases hc with hc | hc
    · exact hc c hcm k1
    · exact hc k2

example := C17_cmi_n_variables [[5, 7, 5], [0, 0, 1], [4, 4, 4]] [2, 3, 3] (by decide) (by decide) (by decide) (by decide)
  (.inr (by decide)) (.num 2) (by norm_num [Base.Valid])

/-- **C17** (violation) three identical fair bits conditioned on themselves: the conditional total
correlation is 0, the library returns `log 2`. -/
theorem C17_three_variables_violates :
    ∃ (data : List (List Int)) (z : List Int), (∀ c ∈ data, c.length = z.length) ∧ data.length = 3 ∧
      Spec.condTotalCorrelation z.length data z = 0 ∧
      discreteCMI data (some (.arr1 z)) none .e = .ok (Real.log 2) := by
  refine ⟨[[0, 1], [0, 1], [0, 1]], [0, 1], by decide, by decide, ?_, ?_⟩
  · have e1 : entropy (([0, 1] : List Int).zip ([0, 1] : List Int)) = Real.log 2 := by
      rw [(entropy_eq_log_card_iff (([0, 1] : List Int).zip ([0, 1] : List Int)) (by simp)).2 (by decide)]
      norm_num
    have e2 : entropy ([0, 1] : List Int) = Real.log 2 := by
      rw [(entropy_eq_log_card_iff ([0, 1] : List Int) (by simp)).2 (by decide)]
      norm_num
    have e3 : entropy ((Spec.rows 2 ([[0, 1], [0, 1], [0, 1]] : List (List Int))).zip ([0, 1] : List Int)) =
        Real.log 2 := by
      have : (Spec.rows 2 ([[0, 1], [0, 1], [0, 1]] : List (List Int))).zip ([0, 1] : List Int) =
        [([0, 0, 0], 0), ([1, 1, 1], 1)] := by decide
      rw [this, (entropy_eq_log_card_iff ([([0, 0, 0], 0), ([1, 1, 1], 1)] : List (List Int × Int))
        (by simp)).2 (by decide)]
      norm_num
    have hl2 : ([0, 1] : List Int).length = 2 := rfl
    rw [Spec.condTotalCorrelation, hl2]
    simp only [condEntropy, List.map_cons, List.map_nil, List.sum_cons, List.sum_nil]
    rw [e1, e2, e3]
    ring
  · rw [C17_cmi_n_variables [[0, 1], [0, 1], [0, 1]] [0, 1] (by decide) (by decide) (by decide)
      (by decide) (Or.inr (by decide)) .e trivial]
    have e1 : entropy (([0, 1] : List Int).zip ([0, 1] : List Int)) = Real.log 2 := by
      rw [(entropy_eq_log_card_iff (([0, 1] : List Int).zip ([0, 1] : List Int)) (by simp)).2 (by decide)]
      norm_num
    have e2 : entropy ([0, 1] : List Int) = Real.log 2 := by
      rw [(entropy_eq_log_card_iff ([0, 1] : List Int) (by simp)).2 (by decide)]
      norm_num
    have e3 : entropy ((Spec.rows 2 ([[0, 1], [0, 1], [0, 1]] : List (List Int))).zip ([0, 1] : List Int)) =
        Real.log 2 := by
      have : (Spec.rows 2 ([[0, 1], [0, 1], [0, 1]] : List (List Int))).zip ([0, 1] : List Int) =
        [([0, 0, 0], 0), ([1, 1, 1], 1)] := by decide
      rw [this, (entropy_eq_log_card_iff ([([0, 0, 0], 0), ([1, 1, 1], 1)] : List (List Int × Int))
        (by simp)).2 (by decide)]
      norm_num
    have hl2 : ([0, 1] : List Int).length = 2 := rfl
    rw [Spec.condTotalCorrelation, hl2]
    simp only [condEntropy, List.map_cons, List.map_nil, List.sum_cons, List.sum_nil]
    rw [e1, e2, e3]
    simp [Base.ln]
    ring

/-- **C16** Errors, for the global and the local values alike: a missing condition, an offset other than 0, two variables or
a variable and the condition of different lengths are ValueErrors. -/
theorem C16_argument_errors (data : List (List Int)) (z : List Int) (o : Option Int) (b : Base) (mm : Bool) :
    (discreteCMI data none o b mm = .error .valueError ∧ discreteCMILocal data none o b mm = .error .valueError) ∧
    (o ≠ none → o ≠ some 0 → discreteCMI data (some (.arr1 z)) o b mm = .error .valueError ∧
      discreteCMILocal data (some (.arr1 z)) o b mm = .error .valueError) ∧
    (2 ≤ data.length → (∃ c ∈ data, c.length ≠ z.length) →
      discreteCMI data (some (.arr1 z)) o b mm = .error .valueError ∧
      discreteCMILocal data (some (.arr1 z)) o b mm = .error .valueError) := by
  have hr : condReduce mm (.arr1 z) = .ok z := rfl
  refine ⟨⟨rfl, rfl⟩, fun h1 h2 => ?_, fun h2 ⟨c, hc, hl⟩ => ?_⟩
  · have : cmiInit data (some z) o = .error .valueError := by
      simp [cmiInit, h1, h2]
    constructor
    · simp [discreteCMI, hr, Except.map, this, bind, Except.bind]
    · simp [discreteCMILocal, hr, Except.map, this, bind, Except.bind]
  · have : cmiInit data (some z) o = .error .valueError := by
      match data, h2 with
      | x :: y :: rest, _ =>
        simp only [cmiInit]
        split_ifs with h3 h4 h5
        · rfl
        · rfl
        · exfalso
          push Not at h4
          simp only [List.mem_cons] at hc
          rcases hc with rfl | rfl | hc
          · exact hl h4.2
          · exact hl (h4.1.symm.trans h4.2)
          · have h6 : rest.all (fun v => decide (v.length = z.length)) = true := by
              cases h : rest.all (fun v => decide (v.length = z.length)) with
              | true => rfl
              | false => exact absurd h h5
            exact hl (of_decide_eq_true (List.all_eq_true.1 h6 c hc))
        · rfl
    constructor
    · simp [discreteCMI, hr, Except.map, this, bind, Except.bind]
    · simp [discreteCMILocal, hr, Except.map, this, bind, Except.bind]

/-- a condition that is one sample short -/
example : discreteCMI [[0, 1], [1, 1]] (some (.arr1 [0])) none .e = .error .valueError :=
  ((C16_argument_errors [[0, 1], [1, 1]] [0] none .e false).2.2 (by decide) ⟨[0, 1], by simp, by decide⟩).1

end Verif
